import Verif.Proofs.WitnessLog
import Verif.Proofs.Recorded
/-! # The witness searches of a preparation -/
namespace FP
open Spec WitnessSearch PreparationGraph

variable {pq : PQ} {P : Plat} {n : Nat} {β : Type}

theorem runWitness_append {ws : WitnessSearch pq} {l l' : List WitnessCall} :
    runWitness P ws (l ++ l') = (runWitness P ws l >>= fun ws => runWitness P ws l') := by
  unfold runWitness
  rw [forM_append]

/-- The searches of `handle_shortcuts`. -/
theorem handleShortcuts_sessions (hP : P.checked = true) (hn : n ≤ P.umax) {g : PreparationGraph} {v : Nat} (hv : v < n)
    {handle : PreparationGraph → β → Shortcut → M (PreparationGraph × β)} {ws : WitnessSearch pq} {acc : β} {ms : Nat}
    (G : PreparationGraph → Prop)
    (hG0 : G g)
    (hG : ∀ gc, G gc → WF n gc ∧ gc.outs v = g.outs v ∧ gc.ins v = g.ins v)
    (hhandle : ∀ gc acc a b, G gc → a ∈ g.ins v → b ∈ g.outs v → a.adj ≠ b.adj → a.weight + b.weight ≤ P.umax →
      Tri (handle gc acc ⟨a.adj, b.adj, v, a.weight + b.weight⟩) (fun r => G r.1 ∧ Grow v gc r.1))
    (hws : ws.Base n) :
    Tri (handleShortcuts P g ws v handle acc ms) (fun st => G st.graph ∧ st.ws.Base n ∧
      ∃ ss, runWitness P ws (ss.flatMap (Session.calls ms)) = .ok st.ws ∧ SessionsOf v (g.ins v) (g.outs v) G ss) := by
  have hidxI : ∀ gc, G gc → idx gc.inEdges v = .ok (g.ins v) := by
    intro gc h
    obtain ⟨wf, _, hi⟩ := hG gc h
    rw [idx_inEdges (by rw [wf.lenIn]; exact hv), hi]
  have hidxO : ∀ gc, G gc → idx gc.outEdges v = .ok (g.outs v) := by
    intro gc h
    obtain ⟨wf, ho, _⟩ := hG gc h
    rw [idx_outEdges (by rw [wf.lenOut]; exact hv), ho]
  have hwf := (hG g hG0).1
  unfold handleShortcuts
  rw [hidxI g hG0]
  simp only [bind_okM]
  refine Tri.mono (Tri_forM_range (fun i (st : HSState pq β) => G st.graph ∧ st.ws.Base n ∧
      ∃ ss, runWitness P ws (ss.flatMap (Session.calls ms)) = .ok st.ws ∧ SessionsOf v ((g.ins v).take i) (g.outs v) G ss)
      ⟨hG0, hws, [], rfl, by rw [List.take_zero]; exact .nil⟩ ?_) ?_
  · rintro i st hi ⟨hGst, hbase, ss, hrun, hss⟩
    unfold handleIn
    rw [hidxI _ hGst]
    simp only [bind_okM]
    have hai : (g.ins v)[i]? = some (g.ins v)[i] := by simp [hi]
    generalize (g.ins v)[i] = a at hai
    have ha : a ∈ g.ins v := List.mem_of_getElem? hai
    have halt : a.adj < n := hwf.adj_lt_in ha
    have hav : a.adj ≠ v := hwf.noLoop_in ha
    have haP : a.adj ≠ P.umax := by omega
    rw [idx_some hai]
    simp only [bind_okM]
    obtain ⟨ws', e, hinv, _⟩ := WitnessSearch.init_ok hbase halt haP hav st.graph
    rw [e]
    simp only [bind_okM]
    rw [hidxO _ hGst]
    simp only [bind_okM]
    refine Tri.mono (Tri_forM_range (fun j (st : HSState pq β) => G st.graph ∧
      WitnessSearch.Inv n st.graph a.adj v st.ws ∧
      ∃ qs : List (PreparationGraph × Nat × Nat),
        runWitness P ws (ss.flatMap (Session.calls ms) ++ Session.calls ms ⟨v, a.adj, qs⟩) = .ok st.ws ∧
        qs.map (fun q => q.2) = ((g.outs v).take j).map (fun b => (b.adj, a.weight + b.weight)) ∧ ∀ q ∈ qs, G q.1)
      ⟨hGst, hinv, [], ?_, by rw [List.take_zero]; rfl, by simp⟩ ?_) ?_
    · rw [runWitness_append, hrun]
      simp only [bind_okM, Session.calls, List.map_nil, runWitness, forM_cons, WitnessCall.run, e]
      rfl
    · rintro j st hj ⟨hGst, hinv, qs, hq1, hq2, hq3⟩
      unfold handlePair
      rw [hidxI _ hGst]
      simp only [bind_okM]
      rw [idx_some hai]
      simp only [bind_okM]
      rw [hidxO _ hGst]
      simp only [bind_okM]
      have hbj : (g.outs v)[j]? = some (g.outs v)[j] := by simp [hj]
      generalize (g.outs v)[j] = b at hbj
      have hb : b ∈ g.outs v := List.mem_of_getElem? hbj
      rw [idx_some hbj]
      simp only [bind_okM]
      refine Tri.bind (Tri_addW hP _ _) ?_
      rintro w ⟨rfl, hw⟩
      have hwfs := (hG _ hGst).1
      refine Tri.bind ((WitnessSearch.findMaxWeight_ok hP hwfs.lax hinv haP (hwf.adj_lt hb) (hwf.noLoop _ _ hb)).with_ok
        (R := fun r => st.ws.findMaxWeight P st.graph b.adj (a.weight + b.weight) ms = .ok r) (fun r er => er)) ?_
      rintro ⟨ws2, mw⟩ ⟨⟨hinv2, hsame, _⟩, efind⟩
      simp only at hinv2 hsame ⊢
      have hqs : ∃ qs : List (PreparationGraph × Nat × Nat),
          runWitness P ws (ss.flatMap (Session.calls ms) ++ Session.calls ms ⟨v, a.adj, qs⟩) = .ok ws2 ∧
          qs.map (fun q => q.2) = ((g.outs v).take (j + 1)).map (fun b => (b.adj, a.weight + b.weight)) ∧ ∀ q ∈ qs, G q.1 := by
        refine ⟨qs ++ [(st.graph, b.adj, a.weight + b.weight)], ?_, ?_, ?_⟩
        · have : Session.calls ms ⟨v, a.adj, qs ++ [(st.graph, b.adj, a.weight + b.weight)]⟩ =
              Session.calls ms ⟨v, a.adj, qs⟩ ++ [.find st.graph b.adj (a.weight + b.weight) ms] := by
            unfold Session.calls
            simp
          rw [this, ← List.append_assoc, runWitness_append, hq1]
          simp only [bind_okM, runWitness, forM_cons, WitnessCall.run, efind]
          rfl
        · rw [List.take_add_one, hbj, List.map_append, List.map_append, hq2]
          rfl
        · intro q hq
          rcases List.mem_append.1 hq with hq | hq
          · exact hq3 q hq
          · rw [List.mem_singleton.1 hq]; exact hGst
      by_cases hmw : mw ≤ a.weight + b.weight
      · rw [if_pos hmw]
        exact ⟨hGst, hinv2, hqs⟩
      · rw [if_neg hmw]
        have hne : a.adj ≠ b.adj := by
          intro e
          have := hsame e.symm
          omega
        refine Tri.bind (hhandle st.graph st.acc a b hGst ha hb hne hw) ?_
        rintro ⟨g2, acc2⟩ ⟨hG2, hgrow⟩
        simp only [Tri_ok] at hG2 hgrow ⊢
        exact ⟨hG2, hinv2.mono hgrow, hqs⟩
    · rintro st ⟨h1, h2, qs, h3, h4, h5⟩
      refine ⟨h1, h2.toBase, ss ++ [⟨v, a.adj, qs⟩], ?_, ?_⟩
      · rw [List.flatMap_append]
        simpa using h3
      · rw [List.take_add_one, hai]
        unfold SessionsOf at hss ⊢
        refine List.rel_append hss (.cons ⟨rfl, rfl, ?_, h5⟩ .nil)
        rw [List.take_length] at h4
        exact h4
  · rintro st ⟨h1, h2, ss, h3, h4⟩
    rw [List.take_length] at h4
    exact ⟨h1, h2, ss, h3, h4⟩

/-- `calc_relevance`: the graph stays as it is. -/
theorem calcRelevance_sessions (hP : P.checked = true) (hn : n ≤ P.umax) {g : PreparationGraph} (hg : WF n g) {v : Nat}
    (hv : v < n) {ws : WitnessSearch pq} (hws : ws.Base n) {relevance : Nat → Int → Nat → Nat} {level ms : Nat} :
    Tri (calcRelevance P relevance g ws v level ms) (fun r => r.1 = g ∧ r.2.1.Base n ∧
      ∃ ss, runWitness P ws (ss.flatMap (Session.calls ms)) = .ok r.2.1 ∧ SessionsOf v (g.ins v) (g.outs v) (fun gc => gc = g) ss) := by
  unfold calcRelevance
  refine Tri.bind (handleShortcuts_sessions hP hn hv (fun gc => gc = g) rfl ?_ ?_ hws) ?_
  · rintro gc rfl; exact ⟨hg, rfl, rfl⟩
  · rintro gc acc a b rfl _ _ _ _
    unfold countShortcut
    rw [hP]
    split
    · exact ⟨rfl, Grow.refl _⟩
    · rw [if_pos rfl]
      exact trivial
  · rintro st ⟨h1, h2, h3⟩
    rw [h1, idx_outEdges (by rw [hg.lenOut]; exact hv), idx_inEdges (by rw [hg.lenIn]; exact hv)]
    exact ⟨rfl, h2, h3⟩

theorem contractNode_sessions (hP : P.checked = true) (hn : n ≤ P.umax) {g : PreparationGraph} (hg : WF n g) {v : Nat}
    (hv : v < n) {ws : WitnessSearch pq} (hws : ws.Base n) {ms : Nat} :
    Tri (contractNode P g ws v ms) (fun r => WF n r.1 ∧ r.2.Base n ∧
      ∃ ss, runWitness P ws (ss.flatMap (Session.calls ms)) = .ok r.2 ∧ SessionsOf v (g.ins v) (g.outs v) (ExtG P n g v) ss) := by
  unfold contractNode
  refine Tri.bind (handleShortcuts_sessions hP hn hv (ExtG P n g v) (ExtG.refl hg) ?_ ?_ hws) ?_
  · intro gc h; exact ⟨h.wf, h.outs_v, h.ins_v⟩
  · intro gc acc a b h ha hb hne hw
    obtain ⟨g', e, h1, h2, h3⟩ := h.add hg ha hb hne hw acc
    rw [e]
    exact ⟨h1, h2⟩
  · rintro st ⟨hext, hbase, hss⟩
    obtain ⟨g', e, wf', _⟩ := disconnect_ok hext.wf hv
    rw [e]
    exact ⟨wf', hbase, hss⟩

/-- While shortcuts are added, a node gets at most one arc for every arc from `v`. -/
theorem ExtG.deg {g gc : PreparationGraph} {v : Nat} (h : ExtG P n g v gc) (x : Nat) :
    (gc.outs x).length ≤ (g.outs x).length + (g.outs v).length := by
  have hsub : (gc.outs x).map Arc.adj ⊆ (g.outs x ++ g.outs v).map Arc.adj := by
    intro y hy
    obtain ⟨e, he, rfl⟩ := List.mem_map.1 hy
    rw [List.map_append, List.mem_append]
    rcases h.back x e he with k | ⟨_, a, _, b, hb, _, hbe, _⟩
    · exact Or.inl (List.mem_map.2 ⟨e, k, rfl⟩)
    · exact Or.inr (List.mem_map.2 ⟨b, hb, hbe⟩)
  have := (List.subperm_of_subset (h.wf.nodupOut x) hsub).length_le
  simpa using this

theorem WF.deg {g : PreparationGraph} (h : WF n g) {x : Nat} (hx : x < n) : (g.outs x).length ≤ n - 1 := by
  have hsub : (gc : List Nat) → gc = (g.outs x).map Arc.adj → gc ⊆ (List.range n).filter (fun y => y != x) := by
    rintro gc rfl y hy
    obtain ⟨e, he, rfl⟩ := List.mem_map.1 hy
    rw [List.mem_filter, List.mem_range]
    exact ⟨h.adj_lt he, by simpa using h.noLoop x e he⟩
  have h1 := (List.subperm_of_subset (h.nodupOut x) (hsub _ rfl)).length_le
  have h2 : (x :: (List.range n).filter (fun y => y != x)).length ≤ (List.range n).length := by
    refine (List.subperm_of_subset (List.nodup_cons.2 ⟨by simp, List.nodup_range.filter _⟩) ?_).length_le
    intro y hy
    rcases List.mem_cons.1 hy with rfl | hy
    · exact List.mem_range.2 hx
    · exact (List.mem_filter.1 hy).1
  simp only [List.length_cons, List.length_range, List.length_map] at h1 h2
  omega

/-- A session. -/
theorem session_log (hP : P.checked = true) {K : Nat} {deg : Nat → Nat} {s : Session} {ws₀ ws : WitnessSearch (logged pq)}
    (hb : ws₀.Base n) (h : runWitness P ws₀ (s.calls K) = .ok ws)
    (hdeg : ∀ q ∈ s.searches, ∀ (x : Nat) l, q.1.outEdges[x]? = some l → l.length ≤ deg x) :
    SLog n deg ws ∧ ws.settledNodes ≤ K := by
  unfold Session.calls runWitness at h
  rw [forM_cons] at h
  obtain ⟨ws₁, h1, h2⟩ := bind_eq_ok.1 h
  have h1' : ws₀.init P s.start s.node = .ok ws₁ := h1
  obtain ⟨k1, k2⟩ := init_count hb h1'
  refine ⟨runFinds_log hP ?_ (init_log hb h1') h2, (runFinds_count hP (K := K) ?_ k1 (by omega) h2).2⟩
  · intro c hc
    obtain ⟨q, hq, rfl⟩ := List.mem_map.1 hc
    exact ⟨_, _, _, _, rfl, hdeg q hq⟩
  · intro c hc
    obtain ⟨q, hq, rfl⟩ := List.mem_map.1 hc
    exact ⟨_, _, _, _, rfl, Nat.le_refl _⟩

theorem SLog.settled_list {deg : Nat → Nat} {K : Nat} {ws : WitnessSearch (logged pq)} (h : SLog n deg ws) (hK : ws.settledNodes ≤ K) :
    ∃ L : List Nat, L.Nodup ∧ (∀ x, x ∈ L ↔ ws.isSettled x = .ok true) ∧ L.length ≤ K ∧ (∀ x ∈ L, x < n) ∧
      (searchPushes ws).length ≤ 1 + (L.map deg).sum := by
  refine ⟨(List.range n).filter ws.settledB, List.nodup_range.filter _, ?_, ?_, ?_, ?_⟩
  · intro x
    rw [List.mem_filter, List.mem_range]
    constructor
    · rintro ⟨h1, h2⟩
      rw [WitnessSearch.isSettled_ok h.toBase h1, h2]
    · intro hs
      have hx : x < n := by
        by_contra hlt
        unfold WitnessSearch.isSettled at hs
        rw [WitnessSearch.isValid_ge h.toBase hlt] at hs
        cases hs
      rw [WitnessSearch.isSettled_ok h.toBase hx] at hs
      exact ⟨hx, by simpa using hs⟩
  · rw [← List.countP_eq_length_filter]
    exact Nat.le_trans (Nat.le_of_eq h.cnt) hK
  · intro x hx
    exact List.mem_range.1 (List.mem_filter.1 hx).1
  · unfold searchPushes
    rw [List.length_reverse]
    exact h.count

theorem sum_map_le {L : List Nat} {deg : Nat → Nat} {D : Nat} (h : ∀ x ∈ L, deg x ≤ D) : (L.map deg).sum ≤ L.length * D := by
  induction L with
  | nil => simp
  | cons a L ih =>
    have h1 := h a (by simp)
    have h2 := ih (fun x hx => h x (by simp [hx]))
    simp only [List.map_cons, List.sum_cons, List.length_cons, Nat.add_mul, Nat.one_mul]
    omega

/-- Sessions one after the other. -/
theorem sessions_count (hP : P.checked = true) {K D : Nat} : ∀ (ss : List Session) {ws₀ ws : WitnessSearch (logged pq)} (t : Nat),
    ws₀.Base n → runWitness P ws₀ (ss.flatMap (Session.calls K)) = .ok ws →
    (∀ s ∈ ss, ∀ q ∈ s.searches, ∀ (x : Nat) l, x < n → q.1.outEdges[x]? = some l → l.length ≤ D) →
    (∀ s ∈ ss, ∀ q ∈ s.searches, q.1.outEdges.length = n) →
    ∃ t', forM (runSession P K) (ws₀, t) ss = .ok (ws, t') ∧ t' ≤ t + ss.length * (1 + K * D)
  | [], ws₀, ws, t, _, h, _, _ => by cases h; exact ⟨t, rfl, by simp⟩
  | s :: ss, ws₀, ws, t, hb, h, hd, hl => by
    rw [List.flatMap_cons, runWitness_append] at h
    obtain ⟨ws₁, h1, h2⟩ := bind_eq_ok.1 h
    obtain ⟨k1, k2⟩ := session_log hP (deg := fun _ => D) hb h1 (by
      intro q hq x l hx
      have hxn : x < n := by
        have := (List.getElem?_eq_some_iff.1 hx).1
        rw [hl s (by simp) q hq] at this
        exact this
      exact hd s (by simp) q hq x l hxn hx)
    obtain ⟨L, _, _, l3, _, l5⟩ := k1.settled_list k2
    obtain ⟨t', e, ht⟩ := sessions_count hP ss (t + (searchPushes ws₁).length) k1.toBase h2
      (fun s hs => hd s (by simp [hs])) (fun s hs => hl s (by simp [hs]))
    refine ⟨t', ?_, ?_⟩
    · rw [forM_cons]
      unfold runSession at e ⊢
      simp only [h1, bind_okM]
      exact e
    · have hs := sum_map_le (L := L) (deg := fun _ => D) (D := D) (fun _ _ => Nat.le_refl _)
      have : L.length * D ≤ K * D := Nat.mul_le_mul_right D l3
      simp only [List.length_cons, Nat.add_mul, Nat.one_mul]
      omega

/-! ### The whole preparation -/

theorem finish_ends {fg fg' : FastGraph} (h : finishContraction P n fg = .ok fg') :
    fg'.edgesBwd.map (fun e => (e.baseNode, e.adjNode)) = fg.edgesBwd.map (fun e => (e.baseNode, e.adjNode)) := by
  unfold finishContraction at h
  obtain ⟨fg1, h1, h2⟩ := bind_eq_ok.1 h
  have k1 : fg1.edgesBwd = fg.edgesBwd := by
    refine forM_inv (f := finishFwdNode P) (I := fun _ (s : FastGraph) => s.edgesBwd = fg.edgesBwd) ?_ _ [] _ _ rfl h1
    intro pre i s s' hI he
    unfold finishFwdNode at he
    obtain ⟨b, _, he⟩ := bind_eq_ok.1 he
    obtain ⟨e, _, he⟩ := bind_eq_ok.1 he
    refine forM_inv (f := finishFwdEdge P i) (I := fun _ (s : FastGraph) => s.edgesBwd = fg.edgesBwd) ?_ _ [] _ _ hI he
    intro pre k s s' hI he
    unfold finishFwdEdge at he
    obtain ⟨ed, _, he⟩ := bind_eq_ok.1 he
    by_cases hc : (ed.replacedInEdge == P.INVALID_NODE) = true
    · simp only [hc, if_true] at he
      obtain ⟨_, _, he⟩ := bind_eq_ok.1 he
      cases he; exact hI
    · simp only [hc, if_false, Bool.false_eq_true] at he
      obtain ⟨_, _, he⟩ := bind_eq_ok.1 he
      obtain ⟨_, _, he⟩ := bind_eq_ok.1 he
      cases he; exact hI
  have key : ∀ (es : List FastGraphEdge) (k : Nat) (ed : FastGraphEdge) (a b : Nat), es[k]? = some ed →
      (es.set k { ed with replacedInEdge := a, replacedOutEdge := b }).map (fun e => (e.baseNode, e.adjNode)) =
        es.map (fun e => (e.baseNode, e.adjNode)) := by
    intro es k ed a b hk
    rw [List.map_set]
    refine set_eq_self ?_
    rw [List.getElem?_map, hk]
    rfl
  rw [← k1]
  refine forM_inv (f := finishBwdNode P) (I := fun _ (s : FastGraph) => s.edgesBwd.map (fun e => (e.baseNode, e.adjNode)) =
    fg1.edgesBwd.map (fun e => (e.baseNode, e.adjNode))) ?_ _ [] _ _ rfl h2
  intro pre i s s' hI he
  unfold finishBwdNode at he
  obtain ⟨b, _, he⟩ := bind_eq_ok.1 he
  obtain ⟨e, _, he⟩ := bind_eq_ok.1 he
  refine forM_inv (f := finishBwdEdge P i) (I := fun _ (s : FastGraph) => s.edgesBwd.map (fun e => (e.baseNode, e.adjNode)) =
    fg1.edgesBwd.map (fun e => (e.baseNode, e.adjNode))) ?_ _ [] _ _ hI he
  intro pre k s s' hI he
  unfold finishBwdEdge at he
  obtain ⟨ed, hed, he⟩ := bind_eq_ok.1 he
  have hed := idx_eq_ok.1 hed
  by_cases hc : (ed.replacedInEdge == P.INVALID_NODE) = true
  · simp only [hc, if_true] at he
    obtain ⟨_, _, he⟩ := bind_eq_ok.1 he
    cases he; exact (key _ _ _ _ _ hed).trans hI
  · simp only [hc, if_false, Bool.false_eq_true] at he
    obtain ⟨_, _, he⟩ := bind_eq_ok.1 he
    obtain ⟨_, _, he⟩ := bind_eq_ok.1 he
    cases he; exact (key _ _ _ _ _ hed).trans hI

theorem pushArcs_pairs {node : Nat} : ∀ (arcs : List Arc) {es es' : List FastGraphEdge}, pushArcs P node es arcs = .ok es' →
    es'.map (fun e => (e.baseNode, e.adjNode)) = es.map (fun e => (e.baseNode, e.adjNode)) ++ arcs.map (fun a => (node, a.adj)) := by
  intro arcs
  induction arcs with
  | nil => intro es es' h; cases h; simp
  | cons a arcs ih =>
    intro es es' h
    unfold pushArcs at h
    rw [forM_cons] at h
    obtain ⟨es1, h1, h2⟩ := bind_eq_ok.1 h
    unfold vecPush at h1
    split at h1
    · cases h1
      rw [ih h2]
      simp
    · cases h1

theorem recordNode_pairs {fg fg' : FastGraph} {pg : PreparationGraph} (hg : WF n pg) {rank node : Nat} (hv : node < n)
    (h : recordNode P fg pg rank node = .ok fg') :
    fg'.edgesBwd.map (fun e => (e.baseNode, e.adjNode)) =
      fg.edgesBwd.map (fun e => (e.baseNode, e.adjNode)) ++ (pg.ins node).map (fun a => (node, a.adj)) := by
  unfold recordNode at h
  obtain ⟨outs, _, h⟩ := bind_eq_ok.1 h
  obtain ⟨ef, _, h⟩ := bind_eq_ok.1 h
  obtain ⟨ff, _, h⟩ := bind_eq_ok.1 h
  obtain ⟨ins, hi, h⟩ := bind_eq_ok.1 h
  obtain ⟨eb, hb, h⟩ := bind_eq_ok.1 h
  obtain ⟨_, _, h⟩ := bind_eq_ok.1 h
  obtain ⟨_, _, h⟩ := bind_eq_ok.1 h
  cases h
  rw [idx_inEdges (by rw [hg.lenIn]; exact hv)] at hi
  cases hi
  exact pushArcs_pairs _ hb

/-- The sessions so far. -/
structure SoFar (P : Plat) (n K : Nat) (st : BState (logged pq)) (ss : List Session) : Prop where
  run : runWitness P (WitnessSearch.new P (logged pq) n) (ss.flatMap (Session.calls K)) = .ok st.ws
  ends : ss.map (fun s => (s.node, s.start)) = st.fg.edgesBwd.map (fun e => (e.baseNode, e.adjNode))
  wf : ∀ s ∈ ss, ∀ q ∈ s.searches, WF n q.1

theorem sessions_ends {v : Nat} {ins outs : List Arc} {G : PreparationGraph → Prop} {ss : List Session}
    (h : SessionsOf v ins outs G ss) : ss.map (fun s => (s.node, s.start)) = ins.map (fun a => (v, a.adj)) := by
  unfold SessionsOf at h
  induction h with
  | nil => rfl
  | cons h1 _ ih => rw [List.map_cons, List.map_cons, ih, h1.1, h1.2.1]

theorem sessions_graphs {v : Nat} {ins outs : List Arc} {G : PreparationGraph → Prop} {ss : List Session}
    (h : SessionsOf v ins outs G ss) : ∀ s ∈ ss, ∀ q ∈ s.searches, G q.1 := by
  unfold SessionsOf at h
  induction h with
  | nil => intro s hs; cases hs
  | cons h1 _ ih =>
    intro s hs
    rcases List.mem_cons.1 hs with rfl | hs
    · exact h1.2.2.2
    · exact ih s hs

theorem orderLoop_sessions (hP : P.checked = true) (hn : n ≤ P.umax) {K : Nat} {g : PreparationGraph} (hg : WF n g) {l : List (Nat × Nat)}
    {st : BState (logged pq)}
    (h : forM (orderStep P n K) (⟨g, WitnessSearch.new P (logged pq) n, FastGraph.empty n⟩ : BState (logged pq)) l = .ok st) :
    ∃ ss, SoFar P n K st ss := by
  have := forM_inv (f := orderStep P n K) (I := fun _ (st : BState (logged pq)) => WF n st.pg ∧ st.ws.Base n ∧ ∃ ss, SoFar P n K st ss)
    (by
      rintro pre ⟨v, rank⟩ s s' ⟨hwf, hb, ss, hss⟩ he
      unfold orderStep at he
      simp only at he
      by_cases hv : v ≥ n
      · rw [if_pos hv] at he; cases he
      rw [if_neg hv] at he
      unfold recordAndContract at he
      obtain ⟨fg, e1, he⟩ := bind_eq_ok.1 he
      obtain ⟨⟨pg, ws⟩, e2, he⟩ := bind_eq_ok.1 he
      cases he
      have hv' : v < n := by omega
      obtain ⟨k1, k2, ss', k3, k4⟩ := (contractNode_sessions hP hn hwf hv' hb).of_ok e2
      refine ⟨k1, k2, ss ++ ss', ?_, ?_, ?_⟩
      · rw [List.flatMap_append, runWitness_append, hss.run]
        exact k3
      · rw [List.map_append, hss.ends, sessions_ends k4, recordNode_pairs hwf hv' e1]
      · intro t ht
        rcases List.mem_append.1 ht with ht | ht
        · exact hss.wf t ht
        · exact fun q hq => (sessions_graphs k4 t ht q hq).wf) l [] _ st
    ⟨hg, Base.new P (logged pq) n, [], rfl, rfl, by simp⟩ h
  exact this.2.2

/-! ### `prepare` -/

theorem WF.degIn {g : PreparationGraph} (h : WF n g) {x : Nat} (hx : x < n) : (g.ins x).length ≤ n - 1 := by
  have hsub : (g.ins x).map Arc.adj ⊆ (List.range n).filter (fun y => y != x) := by
    intro y hy
    obtain ⟨e, he, rfl⟩ := List.mem_map.1 hy
    rw [List.mem_filter, List.mem_range]
    exact ⟨h.adj_lt_in he, by simpa using h.noLoop_in he⟩
  have h1 := (List.subperm_of_subset (h.nodupIn x) hsub).length_le
  have h2 : (x :: (List.range n).filter (fun y => y != x)).length ≤ (List.range n).length := by
    refine (List.subperm_of_subset (List.nodup_cons.2 ⟨by simp, List.nodup_range.filter _⟩) ?_).length_le
    intro y hy
    rcases List.mem_cons.1 hy with rfl | hy
    · exact List.mem_range.2 hx
    · exact (List.mem_filter.1 hy).1
  simp only [List.length_cons, List.length_range, List.length_map] at h1 h2
  omega

theorem length_btreeInsert (k : Nat) : ∀ l, (btreeInsert k l).length ≤ l.length + 1 := by
  intro l
  induction l with
  | nil => simp [btreeInsert]
  | cons x xs ih =>
    unfold btreeInsert
    split
    · simp
    · split
      · simp
      · simp only [List.length_cons]; omega

theorem length_foldl_btree : ∀ (l : List Arc) (s : List Nat),
    (l.foldl (fun s a => btreeInsert a.adj s) s).length ≤ s.length + l.length := by
  intro l
  induction l with
  | nil => simp
  | cons a l ih =>
    intro s
    have h1 := ih (btreeInsert a.adj s)
    have h2 := length_btreeInsert a.adj s
    simp only [List.foldl_cons, List.length_cons]
    omega

theorem length_neighborSet (outs ins : List Arc) : (neighborSet outs ins).length ≤ outs.length + ins.length := by
  unfold neighborSet
  have h1 := length_foldl_btree outs []
  have h2 := length_foldl_btree ins (outs.foldl (fun s a => btreeInsert a.adj s) [])
  simp only [List.length_nil] at h1
  omega

theorem sessions_length {v : Nat} {ins outs : List Arc} {G : PreparationGraph → Prop} {ss : List Session}
    (h : SessionsOf v ins outs G ss) : ss.length = ins.length := (List.Forall₂.length_eq h).symm

/-- Sessions with budgets so far: at most `m` of them. -/
structure SoFarK (P : Plat) (n K m : Nat) (ws : WitnessSearch (logged pq)) (ss : List (Nat × Session)) : Prop where
  run : runWitness P (WitnessSearch.new P (logged pq) n) (ss.flatMap (fun x => Session.calls x.1 x.2)) = .ok ws
  wf : ∀ x ∈ ss, ∀ q ∈ x.2.searches, WF n q.1
  le : ∀ x ∈ ss, x.1 ≤ K
  num : ss.length ≤ m

theorem SoFarK.add {K K' m : Nat} {ws ws' : WitnessSearch (logged pq)} {ss : List (Nat × Session)} (h : SoFarK P n K m ws ss)
    (hK : K' ≤ K) {v : Nat} {ins outs : List Arc} {G : PreparationGraph → Prop} {ss' : List Session}
    (h1 : runWitness P ws (ss'.flatMap (Session.calls K')) = .ok ws') (h2 : SessionsOf v ins outs G ss') (hG : ∀ g, G g → WF n g) :
    SoFarK P n K (m + ins.length) ws' (ss ++ ss'.map (fun s => (K', s))) := by
  refine ⟨?_, ?_, ?_, ?_⟩
  · rw [List.flatMap_append, runWitness_append, h.run]
    simp only [bind_okM, List.flatMap_map]
    exact h1
  · intro x hx
    rcases List.mem_append.1 hx with hx | hx
    · exact h.wf x hx
    · obtain ⟨s, hs, rfl⟩ := List.mem_map.1 hx
      exact fun q hq => hG _ (sessions_graphs h2 s hs q hq)
  · intro x hx
    rcases List.mem_append.1 hx with hx | hx
    · exact h.le x hx
    · obtain ⟨s, hs, rfl⟩ := List.mem_map.1 hx
      exact hK
  · have := h.num
    rw [List.length_append, List.length_map, sessions_length h2]
    omega

theorem SoFarK.mono {K m m' : Nat} {ws : WitnessSearch (logged pq)} {ss : List (Nat × Session)} (h : SoFarK P n K m ws ss)
    (hm : m ≤ m') : SoFarK P n K m' ws ss := ⟨h.run, h.wf, h.le, Nat.le_trans h.num hm⟩

/-- Sessions one after the other, each with its own budget. -/
theorem sessionsK_count (hP : P.checked = true) {K D : Nat} : ∀ (ss : List (Nat × Session)) {ws₀ ws : WitnessSearch (logged pq)} (t : Nat),
    ws₀.Base n → runWitness P ws₀ (ss.flatMap (fun x => Session.calls x.1 x.2)) = .ok ws →
    (∀ x ∈ ss, ∀ q ∈ x.2.searches, ∀ (y : Nat) l, q.1.outEdges[y]? = some l → l.length ≤ D) → (∀ x ∈ ss, x.1 ≤ K) →
    ∃ t', forM (fun st (x : Nat × Session) => runSession P x.1 st x.2) (ws₀, t) ss = .ok (ws, t') ∧ t' ≤ t + ss.length * (1 + K * D)
  | [], ws₀, ws, t, _, h, _, _ => by cases h; exact ⟨t, rfl, by simp⟩
  | (K', s) :: ss, ws₀, ws, t, hb, h, hd, hl => by
    rw [List.flatMap_cons, runWitness_append] at h
    obtain ⟨ws₁, h1, h2⟩ := bind_eq_ok.1 h
    obtain ⟨k1, k2⟩ := session_log hP (deg := fun _ => D) hb h1 (hd (K', s) (by simp))
    obtain ⟨L, _, _, l3, _, l5⟩ := k1.settled_list k2
    obtain ⟨t', e, ht⟩ := sessionsK_count hP ss (t + (searchPushes ws₁).length) k1.toBase h2
      (fun s hs => hd s (by simp [hs])) (fun s hs => hl s (by simp [hs]))
    refine ⟨t', ?_, ?_⟩
    · rw [forM_cons]
      unfold runSession at e ⊢
      simp only [h1, bind_okM]
      exact e
    · have hs := sum_map_le (L := L) (deg := fun _ => D) (D := D) (fun _ _ => Nat.le_refl _)
      have hK : K' ≤ K := hl (K', s) (by simp)
      have : L.length * D ≤ K * D := Nat.mul_le_mul_right D (by omega)
      simp only [List.length_cons, Nat.add_mul, Nat.one_mul]
      omega

theorem pushArcs_len {node : Nat} : ∀ (arcs : List Arc) {es es' : List FastGraphEdge}, pushArcs P node es arcs = .ok es' →
    es'.length = es.length + arcs.length := by
  intro arcs es es' h
  have := congrArg List.length (pushArcs_pairs arcs h)
  simpa using this

theorem recordNode_len {fg fg' : FastGraph} {pg : PreparationGraph} (hg : WF n pg) {rank node : Nat} (hv : node < n)
    (h : recordNode P fg pg rank node = .ok fg') :
    fg'.edgesBwd.length = fg.edgesBwd.length + (pg.ins node).length ∧ fg'.edgesFwd.length = fg.edgesFwd.length + (pg.outs node).length := by
  unfold recordNode at h
  obtain ⟨outs, ho, h⟩ := bind_eq_ok.1 h
  obtain ⟨ef, hf, h⟩ := bind_eq_ok.1 h
  obtain ⟨ff, _, h⟩ := bind_eq_ok.1 h
  obtain ⟨ins, hi, h⟩ := bind_eq_ok.1 h
  obtain ⟨eb, hb, h⟩ := bind_eq_ok.1 h
  obtain ⟨_, _, h⟩ := bind_eq_ok.1 h
  obtain ⟨_, _, h⟩ := bind_eq_ok.1 h
  cases h
  rw [idx_inEdges (by rw [hg.lenIn]; exact hv)] at hi
  rw [idx_outEdges (by rw [hg.lenOut]; exact hv)] at ho
  cases hi
  cases ho
  exact ⟨pushArcs_len _ hb, pushArcs_len _ hf⟩

theorem finish_lenFwd {fg fg' : FastGraph} (h : finishContraction P n fg = .ok fg') : fg'.edgesFwd.length = fg.edgesFwd.length := by
  unfold finishContraction at h
  obtain ⟨fg1, h1, h2⟩ := bind_eq_ok.1 h
  have k1 : fg1.edgesFwd.length = fg.edgesFwd.length := by
    refine forM_inv (f := finishFwdNode P) (I := fun _ (s : FastGraph) => s.edgesFwd.length = fg.edgesFwd.length) ?_ _ [] _ _ rfl h1
    intro pre i s s' hI he
    unfold finishFwdNode at he
    obtain ⟨b, _, he⟩ := bind_eq_ok.1 he
    obtain ⟨e, _, he⟩ := bind_eq_ok.1 he
    refine forM_inv (f := finishFwdEdge P i) (I := fun _ (s : FastGraph) => s.edgesFwd.length = fg.edgesFwd.length) ?_ _ [] _ _ hI he
    intro pre k s s' hI he
    unfold finishFwdEdge at he
    obtain ⟨ed, _, he⟩ := bind_eq_ok.1 he
    by_cases hc : (ed.replacedInEdge == P.INVALID_NODE) = true
    · simp only [hc, if_true] at he
      obtain ⟨_, _, he⟩ := bind_eq_ok.1 he
      cases he; simpa using hI
    · simp only [hc, if_false, Bool.false_eq_true] at he
      obtain ⟨_, _, he⟩ := bind_eq_ok.1 he
      obtain ⟨_, _, he⟩ := bind_eq_ok.1 he
      cases he; simpa using hI
  rw [← k1]
  refine forM_inv (f := finishBwdNode P) (I := fun _ (s : FastGraph) => s.edgesFwd.length = fg1.edgesFwd.length) ?_ _ [] _ _ rfl h2
  intro pre i s s' hI he
  unfold finishBwdNode at he
  obtain ⟨b, _, he⟩ := bind_eq_ok.1 he
  obtain ⟨e, _, he⟩ := bind_eq_ok.1 he
  refine forM_inv (f := finishBwdEdge P i) (I := fun _ (s : FastGraph) => s.edgesFwd.length = fg1.edgesFwd.length) ?_ _ [] _ _ hI he
  intro pre k s s' hI he
  unfold finishBwdEdge at he
  obtain ⟨ed, hed, he⟩ := bind_eq_ok.1 he
  by_cases hc : (ed.replacedInEdge == P.INVALID_NODE) = true
  · simp only [hc, if_true] at he
    obtain ⟨_, _, he⟩ := bind_eq_ok.1 he
    cases he; exact hI
  · simp only [hc, if_false, Bool.false_eq_true] at he
    obtain ⟨_, _, he⟩ := bind_eq_ok.1 he
    obtain ⟨_, _, he⟩ := bind_eq_ok.1 he
    cases he; exact hI

theorem sum_set_len {l : List (List Arc)} : ∀ {i : Nat} {x y : List Arc}, l[i]? = some x → y.length = x.length + 1 →
    ((l.set i y).map List.length).sum = (l.map List.length).sum + 1 := by
  induction l with
  | nil => intro i x y h; simp at h
  | cons a l ih =>
    intro i x y h hy
    cases i with
    | zero =>
      simp only [List.getElem?_cons_zero, Option.some.injEq] at h
      subst h
      simp only [List.set_cons_zero, List.map_cons, List.sum_cons]
      omega
    | succ i =>
      simp only [List.getElem?_cons_succ] at h
      simp only [List.set_cons_succ, List.map_cons, List.sum_cons, ih h hy]
      omega

theorem fromInputGraph_sum {ig : InputGraph} {g : PreparationGraph} (h : fromInputGraph P ig = .ok g) :
    (g.inEdges.map List.length).sum = ig.edges.length := by
  unfold fromInputGraph at h
  obtain ⟨k, _, h⟩ := bind_eq_ok.1 h
  obtain ⟨es, he, h⟩ := bind_eq_ok.1 h
  have hes : es = ig.edges := by
    unfold InputGraph.getEdges at he
    obtain ⟨_, _, he⟩ := bind_eq_ok.1 he
    cases he; rfl
  subst hes
  have := forM_inv (f := fun g (e : Edge) => addEdge P g e.src e.dst e.weight)
    (I := fun pre (g : PreparationGraph) => (g.inEdges.map List.length).sum = pre.length) (by
      intro pre e s s' hI he
      unfold addEdge addEdgeOrShortcut at he
      obtain ⟨_, _, he⟩ := bind_eq_ok.1 he
      obtain ⟨_, _, he⟩ := bind_eq_ok.1 he
      obtain ⟨inn, hi, he⟩ := bind_eq_ok.1 he
      cases he
      obtain ⟨x, hx, rfl⟩ := modIdx_eq_ok.1 hi
      simp only
      rw [sum_set_len hx (by simp), hI]
      simp) ig.edges [] _ g (by simp [PreparationGraph.new]) h
  simpa using this

theorem sum_ins_len {g : PreparationGraph} (h : WF n g) : ((List.range n).map (fun i => (g.ins i).length)).sum = (g.inEdges.map List.length).sum := by
  congr 1
  refine List.ext_getElem? ?_
  intro i
  rw [List.getElem?_map, List.getElem?_map]
  by_cases hi : i < n
  · rw [List.getElem?_range hi, getElem?_inEdges (by rw [h.lenIn]; exact hi)]
    rfl
  · rw [List.getElem?_eq_none (by simp; omega), List.getElem?_eq_none (by rw [h.lenIn]; omega)]
    rfl

variable {nq : NodeQueue}

/-- Invariant of the loops of `run_contraction`. -/
structure QSoFar (P : Plat) (n K m : Nat) (st : QState (logged pq) nq) : Prop where
  wf : WF n st.b.pg
  ws : st.b.ws.Base n
  lv : st.levels.length = n
  ss : ∃ ss, SoFarK P n K m st.b.ws ss

theorem initialPriority_sessions (hP : P.checked = true) (hn : n ≤ P.umax) {K m : Nat} {params : Params}
    (hK : params.maxSettledInitialRelevance ≤ K) {st st' : QState (logged pq) nq} {i : Nat} (hi : i < n) (h : QSoFar P n K m st)
    (e : initialPriority P params st i = .ok st') :
    QSoFar P n K (m + (st.b.pg.ins i).length) st' ∧ st'.b.pg = st.b.pg ∧ st'.b.fg = st.b.fg := by
  unfold initialPriority at e
  obtain ⟨⟨pg, ws, p⟩, e1, e⟩ := bind_eq_ok.1 e
  cases e
  obtain ⟨k1, k2, ss', k3, k4⟩ := (calcRelevance_sessions hP hn h.wf hi h.ws).of_ok e1
  simp only at k1
  subst k1
  obtain ⟨ss, hss⟩ := h.ss
  exact ⟨⟨h.wf, k2, h.lv, _, hss.add hK k3 k4 (by rintro g rfl; exact h.wf)⟩, rfl, rfl⟩

theorem updateNeighbor_sessions (hP : P.checked = true) (hn : n ≤ P.umax) {K m : Nat} {params : Params}
    (hK : params.maxSettledNeighborRelevance ≤ K) {st st' : QState (logged pq) nq} {node v : Nat} (h : QSoFar P n K m st)
    (e : updateNeighbor P params node st v = .ok st') : QSoFar P n K (m + (n - 1)) st' ∧ st'.b.fg = st.b.fg := by
  unfold updateNeighbor at e
  obtain ⟨ln, e1, e⟩ := bind_eq_ok.1 e
  obtain ⟨lv, _, e⟩ := bind_eq_ok.1 e
  obtain ⟨lv1, _, e⟩ := bind_eq_ok.1 e
  obtain ⟨levels, e2, e⟩ := bind_eq_ok.1 e
  obtain ⟨l, _, e⟩ := bind_eq_ok.1 e
  obtain ⟨⟨pg, ws, p⟩, e3, e⟩ := bind_eq_ok.1 e
  cases e
  have hv : v < n := by
    have := (List.getElem?_eq_some_iff.1 (idx_eq_ok.1 e1)).1
    rw [h.lv] at this
    exact this
  rw [setIdx_ok (by rw [h.lv]; exact hv)] at e2
  cases e2
  obtain ⟨k1, k2, ss', k3, k4⟩ := (calcRelevance_sessions hP hn h.wf hv h.ws).of_ok e3
  simp only at k1
  subst k1
  obtain ⟨ss, hss⟩ := h.ss
  refine ⟨⟨h.wf, k2, by simp [h.lv], _, (hss.add hK k3 k4 (by rintro g rfl; exact h.wf)).mono ?_⟩, rfl⟩
  have := WF.degIn h.wf hv
  omega

/-- The number of sessions of `prepare`, for `m` edges in the graph, `i` stored in-edges and `o` stored out-edges. -/
def maxSessions (n m i o : Nat) : Nat := m + i + (i + o) * (n - 1)

theorem contractionLoop_sessions (hP : P.checked = true) (hn : n ≤ P.umax) {K m : Nat} {params : Params}
    (hK2 : params.maxSettledNeighborRelevance ≤ K) (hK3 : params.maxSettledContraction ≤ K) :
    ∀ fuel (rank : Nat) (st st' : QState (logged pq) nq),
      QSoFar P n K (maxSessions n m st.b.fg.edgesBwd.length st.b.fg.edgesFwd.length) st →
      contractionLoop P params fuel rank st = .ok st' →
      QSoFar P n K (maxSessions n m st'.b.fg.edgesBwd.length st'.b.fg.edgesFwd.length) st' := by
  intro fuel
  induction fuel with
  | zero => intro rank st st' _ e; cases e
  | succ fuel ih =>
    intro rank st st' h e
    unfold contractionLoop at e
    cases hp : nq.pop st.queue with
    | none => rw [hp] at e; cases e; exact h
    | some r =>
      obtain ⟨node, queue⟩ := r
      rw [hp] at e
      simp only at e
      obtain ⟨outs, eo, e⟩ := bind_eq_ok.1 e
      obtain ⟨ins, ei, e⟩ := bind_eq_ok.1 e
      obtain ⟨b, eb, e⟩ := bind_eq_ok.1 e
      obtain ⟨st1, el, e⟩ := bind_eq_ok.1 e
      refine ih _ st1 st' ?_ e
      have hv : node < n := by
        have := (List.getElem?_eq_some_iff.1 (idx_eq_ok.1 eo)).1
        rw [h.wf.lenOut] at this
        exact this
      rw [idx_outEdges (by rw [h.wf.lenOut]; exact hv)] at eo
      rw [idx_inEdges (by rw [h.wf.lenIn]; exact hv)] at ei
      cases eo
      cases ei
      unfold recordAndContract at eb
      obtain ⟨fg, e1, eb⟩ := bind_eq_ok.1 eb
      obtain ⟨⟨pg, ws⟩, e2, eb⟩ := bind_eq_ok.1 eb
      cases eb
      obtain ⟨l1, l2⟩ := recordNode_len h.wf hv e1
      obtain ⟨k1, k2, ss', k3, k4⟩ := (contractNode_sessions hP hn h.wf hv h.ws).of_ok e2
      obtain ⟨ss, hss⟩ := h.ss
      have h0 : QSoFar P n K (maxSessions n m st.b.fg.edgesBwd.length st.b.fg.edgesFwd.length + (st.b.pg.ins node).length)
          ({ st with b := ⟨pg, ws, fg⟩, queue := queue } : QState (logged pq) nq) :=
        ⟨k1, k2, h.lv, _, hss.add hK3 k3 k4 (fun g hg => hg.wf)⟩
      obtain ⟨q1, q2⟩ := forM_inv (f := updateNeighbor P params node)
        (I := fun pre (s : QState (logged pq) nq) => QSoFar P n K (maxSessions n m st.b.fg.edgesBwd.length
          st.b.fg.edgesFwd.length + (st.b.pg.ins node).length + pre.length * (n - 1)) s ∧ s.b.fg = fg) (by
          rintro pre v s s' ⟨hI, hf⟩ he
          obtain ⟨z1, z2⟩ := updateNeighbor_sessions hP hn hK2 hI he
          refine ⟨?_, z2.trans hf⟩
          rw [List.length_append, Nat.add_mul]
          simpa [Nat.add_assoc] using z1) _ [] _ st1 ⟨by simpa using h0, rfl⟩ el
      rw [q2]
      obtain ⟨ss, hss⟩ := q1.ss
      refine ⟨q1.wf, q1.ws, q1.lv, ss, hss.mono ?_⟩
      rw [l1, l2]
      unfold maxSessions
      have := Nat.mul_le_mul_right (n - 1) (length_neighborSet (st.b.pg.outs node) (st.b.pg.ins node))
      simp only [List.nil_append, Nat.add_mul] at this ⊢
      omega

end FP
