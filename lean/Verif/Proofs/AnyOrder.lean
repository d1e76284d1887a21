import Verif.Proofs.Assemble
import Verif.Proofs.Foreign
import Verif.Proofs.SearchLog
/-! # Preparing with an order that repeats nodes -/
namespace FP
open Spec PreparationGraph PathCalculator Side

variable {pq : PQ} {P : Plat} {n : Nat}

/-- Like `Recorded`, but nodes can be recorded more than once; the last time counts. -/
structure RecordedAny (P : Plat) (n : Nat) (ls : List Lvl) (fg : FastGraph) : Prop where
  num : fg.numNodes = n
  n_lt : n < P.umax
  lenR : fg.ranks.length = n
  lenF : fg.firstEdgeIdsFwd.length = n + 1
  lenB : fg.firstEdgeIdsBwd.length = n + 1
  ef : fg.edgesFwd = (blocksF P ls).flatten
  eb : fg.edgesBwd = (blocksB P ls).flatten
  ff : ∀ j ≤ ls.length, fg.firstEdgeIdsFwd[j]? = some (off (blocksF P ls) j)
  fb : ∀ j ≤ ls.length, fg.firstEdgeIdsBwd[j]? = some (off (blocksB P ls) j)
  rk : ∀ x < n, (x ∉ ls.map Lvl.node ∧ fg.ranks[x]? = some 0) ∨
    ∃ j l, ls[j]? = some l ∧ l.node = x ∧ fg.ranks[x]? = some j ∧ ∀ (i : Nat) l', ls[i]? = some l' → l'.node = x → i ≤ j
  capF : fg.edgesFwd.length ≤ P.umax
  capB : fg.edgesBwd.length ≤ P.umax

theorem RecordedAny.empty (h : n < P.umax) : RecordedAny P n [] (FastGraph.empty n) := by
  refine ⟨rfl, h, by simp [FastGraph.empty], by simp [FastGraph.empty], by simp [FastGraph.empty], rfl, rfl,
    ?_, ?_, ?_, by simp [FastGraph.empty], by simp [FastGraph.empty]⟩
  · intro j hj
    simp at hj
    subst hj
    simp [FastGraph.empty, off]
  · intro j hj
    simp at hj
    subst hj
    simp [FastGraph.empty, off]
  · intro x hx
    exact Or.inl ⟨by simp, by simp [FastGraph.empty, hx]⟩

theorem recordNode_any {fg : FastGraph} {ls : List Lvl} {pg : PreparationGraph} (h : RecordedAny P n ls fg) (hg : WF n pg)
    {node : Nat} (hnode : node < n) (hlen : ls.length < n) :
    Tri (recordNode P fg pg ls.length node) (RecordedAny P n (ls ++ [⟨node, pg.outs node, pg.ins node⟩])) := by
  unfold recordNode
  rw [idx_outEdges (by rw [hg.lenOut]; exact hnode)]
  simp only [bind_okM]
  refine Tri.bind (pushArcs_ok node _ _ h.capF) ?_
  rintro ef ⟨hef, hefc⟩
  rw [setIdx_ok (by rw [h.lenF]; omega)]
  simp only [bind_okM]
  rw [idx_inEdges (by rw [hg.lenIn]; exact hnode)]
  simp only [bind_okM]
  refine Tri.bind (pushArcs_ok node _ _ h.capB) ?_
  rintro eb ⟨heb, hebc⟩
  rw [setIdx_ok (by rw [h.lenB]; omega)]
  simp only [bind_okM]
  rw [setIdx_ok (by rw [h.lenR]; exact hnode)]
  simp only [bind_okM, Tri_ok]
  have hF : ef = (blocksF P (ls ++ [⟨node, pg.outs node, pg.ins node⟩])).flatten := by
    rw [hef, h.ef]; simp [blocksF]
  have hB : eb = (blocksB P (ls ++ [⟨node, pg.outs node, pg.ins node⟩])).flatten := by
    rw [heb, h.eb]; simp [blocksB]
  refine ⟨h.num, h.n_lt, by simp [h.lenR], by simp [h.lenF], by simp [h.lenB], hF, hB, ?_, ?_, ?_, hefc, hebc⟩
  · intro j hj
    rw [getElem?_set' (by rw [h.lenF]; omega)]
    by_cases hjl : ls.length + 1 = j
    · rw [if_pos hjl, ← hjl, hF]
      have := off_length (blocksF P (ls ++ [⟨node, pg.outs node, pg.ins node⟩]))
      rw [← this]
      simp [blocksF]
    · rw [if_neg hjl]
      simp at hj
      rw [h.ff j (by omega)]
      congr 1
      simp only [blocksF, List.map_append]
      rw [off_append_left (by simp; omega)]
  · intro j hj
    rw [getElem?_set' (by rw [h.lenB]; omega)]
    by_cases hjl : ls.length + 1 = j
    · rw [if_pos hjl, ← hjl, hB]
      have := off_length (blocksB P (ls ++ [⟨node, pg.outs node, pg.ins node⟩]))
      rw [← this]
      simp [blocksB]
    · rw [if_neg hjl]
      simp at hj
      rw [h.fb j (by omega)]
      congr 1
      simp only [blocksB, List.map_append]
      rw [off_append_left (by simp; omega)]
  · intro x hx
    rw [getElem?_set' (by rw [h.lenR]; exact hnode)]
    by_cases hxn : node = x
    · rw [if_pos hxn]
      refine Or.inr ⟨ls.length, _, List.getElem?_concat_length, hxn, rfl, ?_⟩
      intro i l' hi _
      have := (List.getElem?_eq_some_iff.1 hi).1
      simp at this
      omega
    · rw [if_neg hxn]
      rcases h.rk x hx with ⟨h1, h2⟩ | ⟨j, l, h1, h2, h3, h4⟩
      · refine Or.inl ⟨?_, h2⟩
        simp only [List.map_append, List.map_cons, List.map_nil, List.mem_append, List.mem_singleton, not_or]
        exact ⟨h1, fun e => hxn e.symm⟩
      · refine Or.inr ⟨j, l, ?_, h2, h3, ?_⟩
        · rw [List.getElem?_append_left (List.getElem?_eq_some_iff.1 h1).1]; exact h1
        · intro i l' hi hl'
          by_cases hlt : i < ls.length
          · rw [List.getElem?_append_left hlt] at hi
            exact h4 i l' hi hl'
          · rw [List.getElem?_append_right (by omega)] at hi
            have hm := List.mem_of_getElem? hi
            rw [List.mem_singleton] at hm
            rw [hm] at hl'
            exact absurd hl' hxn

/-- Invariant of the loop over an order with repetitions. -/
structure BAny (P : Plat) (n : Nat) (es : List Edge) (ls : List Lvl) (st : BState pq) : Prop where
  start : ∃ g₀, FromInput P n es g₀ ∧ Chain P n anyStep g₀ ls st.pg
  ws : st.ws.Base n
  rc : RecordedAny P n ls st.fg

/-- What the order leaves behind before the shortcuts are given their edges. -/
theorem orderLoop_any (hP : P.checked = true) {ig : InputGraph} {g : PreparationGraph} (hn : ig.numNodes < P.umax)
    (hg : FromInput P ig.numNodes ig.edges g) {order : List Nat} (hlen : order.length = ig.numNodes)
    (hlt : ∀ v ∈ order, v < ig.numNodes) (ms : Nat) :
    Tri (forM (orderStep P ig.numNodes ms) (⟨g, WitnessSearch.new P pq ig.numNodes, FastGraph.empty ig.numNodes⟩ : BState pq)
      order.zipIdx) (fun st => ∃ ls, BAny P ig.numNodes ig.edges ls st ∧ ls.map Lvl.node = order) := by
  refine Tri.mono (Tri_forM (fun pre (st : BState pq) => ∃ ls, BAny P ig.numNodes ig.edges ls st ∧
    ls.map Lvl.node = pre.map Prod.fst) ⟨[], ⟨⟨g, hg, .nil _⟩, (BInv.start_of (R := anyStep) (pq := pq) hn hg).ws, RecordedAny.empty hn⟩, rfl⟩ ?_) ?_
  · rintro pre ⟨v, r⟩ post st hl ⟨ls, hI, hls⟩
    have hlen' : ls.length = pre.length := by
      have := congrArg List.length hls; simpa using this
    have hget : order.zipIdx[pre.length]? = some (v, r) := by rw [hl]; simp
    rw [List.getElem?_zipIdx] at hget
    simp only [Option.map_eq_some_iff, Prod.mk.injEq] at hget
    obtain ⟨v', hv', rfl, hr⟩ := hget
    have hr' : r = ls.length := by omega
    subst hr'
    have hvn : v' < ig.numNodes := hlt _ (List.mem_of_getElem? hv')
    have hltlen : ls.length < ig.numNodes := by
      obtain ⟨h1, _⟩ := List.getElem?_eq_some_iff.1 hv'
      omega
    obtain ⟨g₀, hfi, hch⟩ := hI.start
    have hwf := hch.wf hfi.wf
    unfold orderStep
    simp only
    rw [if_neg (by omega)]
    unfold recordAndContract
    refine Tri.bind (recordNode_any hI.rc hwf hvn hltlen) ?_
    intro fg hfg
    refine Tri.bind (contractNode_ok hP (Nat.le_of_lt hn) hwf hvn hI.ws) ?_
    rintro ⟨pg, ws⟩ ⟨hc, hws⟩
    simp only [Tri_ok]
    exact ⟨_, ⟨⟨g₀, hfi, hch.snoc ⟨hvn, trivial⟩ hc⟩, hws, hfg⟩, by simp [hls]⟩
  · rintro st ⟨ls, hI, hls⟩
    exact ⟨ls, hI, by simpa using hls⟩

/-- A node that occurred before has no arcs. -/
theorem Chain.again {g g' : PreparationGraph} {ls : List Lvl} {R : StepRel} (h : Chain P n R g ls g') (hg : WF n g) :
    ∀ (i j : Nat) l l', ls[i]? = some l → ls[j]? = some l' → i < j → l.node = l'.node → l'.outs = [] ∧ l'.ins = [] := by
  have key : ∀ {g g' : PreparationGraph} {ls : List Lvl}, Chain P n R g ls g' → WF n g → ∀ u, Isolated g u → ∀ l ∈ ls, l.node = u →
      l.outs = [] ∧ l.ins = [] := by
    intro g g' ls h
    induction h with
    | nil => simp
    | cons hv hc _ ih =>
      intro hg u hu l hl e
      rcases List.mem_cons.1 hl with rfl | hl
      · simp only at e
        subst e
        exact hu
      · exact ih hc.wf u (hc.isolated hg hu) l hl e
  induction h with
  | nil => simp
  | cons hv hc hch ih =>
    intro i j l l' hi hj hij e
    cases j with
    | zero => omega
    | succ j =>
      rw [List.getElem?_cons_succ] at hj
      cases i with
      | zero =>
        rw [List.getElem?_cons_zero] at hi
        cases hi
        exact key hch hc.wf _ hc.isolated_self _ (List.mem_of_getElem? hj) e.symm
      | succ i =>
        rw [List.getElem?_cons_succ] at hi
        exact ih hc.wf i j l l' hi hj (by omega) e

/-! ### `finish_contraction` -/

/-- What `finish_contraction` leaves alone. -/
structure Finished (P : Plat) (fg fg' : FastGraph) : Prop where
  num : fg'.numNodes = fg.numNodes
  ranks : fg'.ranks = fg.ranks
  ff : fg'.firstEdgeIdsFwd = fg.firstEdgeIdsFwd
  fb : fg'.firstEdgeIdsBwd = fg.firstEdgeIdsBwd
  lenF : fg'.edgesFwd.length = fg.edgesFwd.length
  plain : ∀ (i : Nat) ed, fg.edgesFwd[i]? = some ed → ed.replacedInEdge = P.umax → ed.replacedOutEdge = P.umax → fg'.edgesFwd[i]? = some ed

theorem Finished.refl (fg : FastGraph) : Finished P fg fg := ⟨rfl, rfl, rfl, rfl, rfl, fun _ _ h _ _ => h⟩

theorem Finished.trans {a b c : FastGraph} (h : Finished P a b) (h' : Finished P b c) : Finished P a c :=
  ⟨h'.num.trans h.num, h'.ranks.trans h.ranks, h'.ff.trans h.ff, h'.fb.trans h.fb, h'.lenF.trans h.lenF,
    fun i ed e h1 h2 => h'.plain i ed (h.plain i ed e h1 h2) h1 h2⟩

theorem Finished.setFwd {fg : FastGraph} {k : Nat} {ed ed' : FastGraphEdge} (hk : fg.edgesFwd[k]? = some ed)
    (h : ed.replacedInEdge = P.umax → ed.replacedOutEdge = P.umax → ed' = ed) :
    Finished P fg { fg with edgesFwd := fg.edgesFwd.set k ed' } := by
  refine ⟨rfl, rfl, rfl, rfl, by simp, ?_⟩
  intro i e he h1 h2
  simp only
  rw [getElem?_set' (List.getElem?_eq_some_iff.1 hk).1]
  by_cases hki : k = i
  · rw [if_pos hki]
    subst hki
    rw [hk] at he
    cases he
    rw [h h1 h2]
  · rw [if_neg hki]; exact he

theorem finished_forM {α : Type} {f : FastGraph → α → M FastGraph} (hf : ∀ a fg fg', f fg a = .ok fg' → Finished P fg fg') :
    ∀ (l : List α) (fg fg' : FastGraph), forM f fg l = .ok fg' → Finished P fg fg' := by
  intro l
  induction l with
  | nil => intro fg fg' h; cases h; exact Finished.refl _
  | cons a l ih =>
    intro fg fg' h
    obtain ⟨fg1, h1, h2⟩ := bind_eq_ok.1 h
    exact (hf a _ _ h1).trans (ih _ _ h2)

theorem finishContraction_finished {fg fg' : FastGraph} (h : finishContraction P n fg = .ok fg') : Finished P fg fg' := by
  unfold finishContraction at h
  obtain ⟨fg1, h1, h2⟩ := bind_eq_ok.1 h
  refine (finished_forM ?_ _ _ _ h1).trans (finished_forM ?_ _ _ _ h2)
  · intro i a b hab
    unfold finishFwdNode at hab
    obtain ⟨_, _, hab⟩ := bind_eq_ok.1 hab
    obtain ⟨_, _, hab⟩ := bind_eq_ok.1 hab
    refine finished_forM ?_ _ _ _ hab
    intro k x y hxy
    unfold finishFwdEdge at hxy
    obtain ⟨ed, hed, hxy⟩ := bind_eq_ok.1 hxy
    have hed := idx_eq_ok.1 hed
    by_cases hc : (ed.replacedInEdge == P.INVALID_NODE) = true
    · simp only at hxy
      rw [if_pos hc] at hxy
      obtain ⟨_, _, hxy⟩ := bind_eq_ok.1 hxy
      cases hxy
      refine Finished.setFwd hed (fun h1 _ => ?_)
      cases ed
      simp only at h1
      simp [h1, Plat.INVALID_EDGE]
    · simp only at hxy
      rw [if_neg hc] at hxy
      obtain ⟨_, _, hxy⟩ := bind_eq_ok.1 hxy
      obtain ⟨_, _, hxy⟩ := bind_eq_ok.1 hxy
      cases hxy
      refine Finished.setFwd hed (fun h1 _ => ?_)
      simp [Plat.INVALID_NODE, h1] at hc
  · intro i a b hab
    unfold finishBwdNode at hab
    obtain ⟨_, _, hab⟩ := bind_eq_ok.1 hab
    obtain ⟨_, _, hab⟩ := bind_eq_ok.1 hab
    refine finished_forM ?_ _ _ _ hab
    intro k x y hxy
    unfold finishBwdEdge at hxy
    obtain ⟨ed, hed, hxy⟩ := bind_eq_ok.1 hxy
    have mk : ∀ l, Finished P x { x with edgesBwd := l } := fun l => ⟨rfl, rfl, rfl, rfl, rfl, fun _ _ h _ _ => h⟩
    simp only at hxy
    split at hxy
    · obtain ⟨_, _, hxy⟩ := bind_eq_ok.1 hxy
      cases hxy
      exact mk _
    · obtain ⟨_, _, hxy⟩ := bind_eq_ok.1 hxy
      obtain ⟨_, _, hxy⟩ := bind_eq_ok.1 hxy
      cases hxy
      exact mk _

/-- **The graph after an order with a repeated node `d` and a missing node `m`**: `m` reads the edges of the first node of the order,
`d` reads no edges. -/
structure Mixed (P : Plat) (first m d : Nat) (g : FastGraph) : Prop where
  pos : 0 < P.umax
  ne : m ≠ d
  cap : g.edgesFwd.length ≤ P.umax
  read : ∀ b e, g.beginOutEdges m = .ok b → g.endOutEdges m = .ok e → ∀ i ∈ rangeFrom b e, ∀ ed, g.edgesFwd[i]? = some ed →
    ed.baseNode = first ∧ ed.replacedInEdge = P.umax ∧ ed.replacedOutEdge = P.umax
  none : ∀ b e, g.beginInEdges d = .ok b → g.endInEdges d = .ok e → rangeFrom b e = []

theorem runContractionWithOrder_mixed (hP : P.checked = true) {ig : InputGraph} (h : FrozenOk ig) {order : List Nat}
    (hlen : order.length = ig.numNodes) (hlt : ∀ v ∈ order, v < ig.numNodes) (ms : Nat) {fg : FastGraph}
    (hr : runContractionWithOrder P pq ig ig.numNodes order ms = .ok fg) {first m d : Nat} (hf : order[0]? = some first)
    (hm : m < ig.numNodes) (hmo : m ∉ order) (hd : 2 ≤ order.count d) : fg.numNodes = ig.numNodes ∧ Mixed P first m d fg := by
  unfold runContractionWithOrder FastGraph.new at hr
  by_cases hn : ig.numNodes < P.umax
  swap
  · rw [if_neg hn] at hr; cases hr
  rw [if_pos hn] at hr
  simp only [bind_okM] at hr
  obtain ⟨g, e, hg⟩ := fromInputGraph_ok (P := P) h
  rw [e] at hr
  simp only [bind_okM] at hr
  obtain ⟨st, hst, hr⟩ := bind_eq_ok.1 hr
  obtain ⟨ls, hI, hls⟩ := (orderLoop_any hP hn hg hlen hlt ms).of_ok hst
  have hF := finishContraction_finished hr
  obtain ⟨g₀, hfi, hch⟩ := hI.start
  have hdo : d ∈ order := List.count_pos_iff.1 (by omega)
  have hll : ls.length = ig.numNodes := by rw [← hlen, ← hls, List.length_map]
  have hpos : 0 < ls.length := by omega
  refine ⟨hF.num.trans hI.rc.num, by omega, fun e => hmo (e ▸ hdo), by rw [hF.lenF]; exact hI.rc.capF, ?_, ?_⟩
  · intro b e hb he i hi ed hed
    unfold FastGraph.beginOutEdges at hb
    unfold FastGraph.endOutEdges at he
    rcases hI.rc.rk m hm with ⟨_, h2⟩ | ⟨j, l, h1, h2, _⟩
    swap
    · exact absurd (by rw [← hls]; exact List.mem_map.2 ⟨l, List.mem_of_getElem? h1, h2⟩) hmo
    rw [hF.ranks, idx_some h2] at hb he
    simp only [bind_okM] at hb he
    rw [hF.ff, idx_eq_ok, hI.rc.ff _ (by omega)] at hb he
    cases hb
    cases he
    obtain ⟨l, hl⟩ : ∃ l, ls[0]? = some l := ⟨ls[0], List.getElem?_eq_getElem hpos⟩
    have hlf : l.node = first := by
      rw [← hls, List.getElem?_map, hl] at hf
      exact Option.some.inj hf
    cases ls with
    | nil => cases hl
    | cons l0 ls =>
      rw [List.getElem?_cons_zero] at hl
      cases hl
      have hi2 : i < (mkEdges P l.node l.outs).length := by
        unfold rangeFrom at hi
        rw [List.mem_range'_1] at hi
        simp only [off, blocksF, List.map_cons, List.take_zero, List.take_succ_cons] at hi
        simpa using hi.2
      have hget : st.fg.edgesFwd[i]? = some (mkEdges P l.node l.outs)[i] := by
        rw [hI.rc.ef]
        simp only [blocksF, List.map_cons, List.flatten_cons]
        rw [List.getElem?_append_left hi2, List.getElem?_eq_getElem hi2]
      have hmem : (mkEdges P l.node l.outs)[i] ∈ mkEdges P l.node l.outs := List.getElem_mem _
      generalize (mkEdges P l.node l.outs)[i] = ed' at hget hmem
      cases hch with
      | cons hv hc hch' =>
        obtain ⟨arc, harc, rfl⟩ := List.mem_map.1 hmem
        have hcen := ((hfi.mem _ _).1 harc).1
        have := hF.plain i _ hget hcen rfl
        rw [this] at hed
        cases hed
        exact ⟨hlf, hcen, rfl⟩
  · intro b e hb he
    unfold FastGraph.beginInEdges at hb
    unfold FastGraph.endInEdges at he
    rcases hI.rc.rk d (hlt d hdo) with ⟨h1, _⟩ | ⟨j, l, h1, h2, h3, h4⟩
    · rw [hls] at h1
      exact absurd hdo h1
    rw [hF.ranks, idx_some h3] at hb he
    simp only [bind_okM] at hb he
    have hj := (List.getElem?_eq_some_iff.1 h1).1
    rw [hF.fb, idx_eq_ok, hI.rc.fb _ (by omega)] at hb he
    cases hb
    cases he
    obtain ⟨i, l', hi, hl', hij⟩ : ∃ (i : Nat) (l' : Lvl), ls[i]? = some l' ∧ l'.node = d ∧ i < j := by
      by_contra hc
      have hone : ∀ i x, order[i]? = some x → x = d → i = j := by
        intro i x hx hxd
        rw [← hls, List.getElem?_map, Option.map_eq_some_iff] at hx
        obtain ⟨l', hl', rfl⟩ := hx
        have := h4 i l' hl' hxd
        by_contra hne
        exact hc ⟨i, l', hl', hxd, by omega⟩
      have : order.count d ≤ 1 := by
        have hoj : order[j]? = some d := by rw [← hls, List.getElem?_map, h1, ← h2]; rfl
        obtain ⟨hjo, hje⟩ := List.getElem?_eq_some_iff.1 hoj
        have hsp : order = order.take j ++ d :: order.drop (j + 1) := by
          conv_lhs => rw [← List.take_append_drop j order, List.drop_eq_getElem_cons hjo, hje]
        have h5 : d ∉ order.take j := by
          intro hmem
          obtain ⟨i, hi⟩ := List.getElem?_of_mem hmem
          have hij : i < j := by
            have := (List.getElem?_eq_some_iff.1 hi).1
            simp at this
            omega
          rw [List.getElem?_take_of_lt hij] at hi
          have := hone i d hi rfl
          omega
        have h6 : d ∉ order.drop (j + 1) := by
          intro hmem
          obtain ⟨i, hi⟩ := List.getElem?_of_mem hmem
          rw [List.getElem?_drop] at hi
          have := hone _ d hi rfl
          omega
        rw [hsp, List.count_append, List.count_cons_self, List.count_eq_zero_of_not_mem h5, List.count_eq_zero_of_not_mem h6]
      omega
    have hemp := (hch.again hfi.wf i j l' l hi h1 hij (by rw [hl', h2])).2
    have : off (blocksB P ls) (j + 1) = off (blocksB P ls) j := by
      have hb : (blocksB P ls)[j]? = some [] := by
        unfold blocksB
        rw [List.getElem?_map, h1]
        simp [hemp, mkEdges]
      unfold off
      rw [List.take_add_one, hb]
      simp
    unfold rangeFrom
    rw [this, Nat.sub_self]
    rfl

/-! ### The query -/

/-- One direction of a search with the single root `m`; all nodes reached are in `V`. -/
structure TInv (P : Plat) (n : Nat) (g : FastGraph) (V : Nat → Prop) (m : Nat) (s : Side pq) : Prop where
  tab : s.Base n
  items : ∀ it ∈ pq.items s.heap, ∃ d, s.look it.nodeId = some d
  root : ∃ d, s.look m = some d ∧ d.weight = 0 ∧ d.incEdge = P.umax
  mem : ∀ x d, s.look x = some d → V x
  node : ∀ x d, s.look x = some d → x ≠ m → d.incEdge < g.edgesFwd.length ∧ (∃ dp, s.look d.parent = some dp) ∧
    ∃ b e, g.beginOutEdges d.parent = .ok b ∧ g.endOutEdges d.parent = .ok e ∧ d.incEdge ∈ rangeFrom b e

variable {g : FastGraph} {V : Nat → Prop} {m : Nat}

/-- Edges from `V` stay in `V`. -/
def StaysIn (g : FastGraph) (V : Nat → Prop) : Prop := ∀ x b e i ed, V x → g.beginOutEdges x = .ok b → g.endOutEdges x = .ok e →
  i ∈ rangeFrom b e → g.edgesFwd[i]? = some ed → V ed.adjNode

theorem TInv.relaxEdge (hV : StaysIn g V) {s s' : Side pq} (h : TInv P n g V m s) {curr : HeapItem}
    (hc : ∃ d, s.look curr.nodeId = some d) {b e i : Nat} (hb : g.beginOutEdges curr.nodeId = .ok b)
    (he : g.endOutEdges curr.nodeId = .ok e) (hi : i ∈ rangeFrom b e) (hr : s.relaxEdge P g.edgesFwd curr i = .ok s') :
    TInv P n g V m s' ∧ ∃ d, s'.look curr.nodeId = some d := by
  unfold Side.relaxEdge at hr
  obtain ⟨ed, hed, hr⟩ := bind_eq_ok.1 hr
  obtain ⟨w, _, hr⟩ := bind_eq_ok.1 hr
  obtain ⟨w', hw', hr⟩ := bind_eq_ok.1 hr
  have hed := idx_eq_ok.1 hed
  by_cases hlt : w < w'
  swap
  · rw [if_neg hlt] at hr
    cases hr
    exact ⟨h, hc⟩
  rw [if_pos hlt] at hr
  obtain ⟨s2, h2, hr⟩ := bind_eq_ok.1 hr
  cases hr
  have hx := getWeight_lt h.tab hw'
  obtain ⟨s3, h3, b', hh, hl⟩ := Side.updateNode_ok h.tab hx w curr.nodeId i
  rw [h2] at h3
  cases h3
  rw [getWeight_ok h.tab hx] at hw'
  cases hw'
  have hL : ∀ y, ({ s2 with heap := pq.push ⟨w, ed.adjNode⟩ s2.heap } : Side pq).look y
      = if y = ed.adjNode then some ⟨false, w, curr.nodeId, i⟩ else s.look y := hl
  have hne : ed.adjNode ≠ m := by
    intro e'
    obtain ⟨d, h1, h2, _⟩ := h.root
    rw [e', wt_some h1] at hlt
    omega
  have hkeep : ∀ y, (∃ d, s.look y = some d) →
      ∃ d, ({ s2 with heap := pq.push ⟨w, ed.adjNode⟩ s2.heap } : Side pq).look y = some d := by
    intro y hy
    rw [hL]
    split
    · exact ⟨_, rfl⟩
    · exact hy
  refine ⟨⟨b', ?_, ?_, ?_, ?_⟩, hkeep _ hc⟩
  · intro it hit
    rw [PQ.mem_push, hh] at hit
    rcases hit with rfl | hit
    · exact ⟨_, by rw [hL]; exact if_pos rfl⟩
    · exact hkeep _ (h.items it hit)
  · obtain ⟨d, h1, h2⟩ := h.root
    exact ⟨d, by rw [hL, if_neg (Ne.symm hne)]; exact h1, h2⟩
  · intro x d hx
    rw [hL] at hx
    by_cases hxa : x = ed.adjNode
    · obtain ⟨dc, hdc⟩ := hc
      rw [hxa]
      exact hV _ b e i ed (h.mem _ _ hdc) hb he hi hed
    · rw [if_neg hxa] at hx; exact h.mem x d hx
  · intro x d hx hxm
    rw [hL] at hx
    by_cases hxa : x = ed.adjNode
    · rw [if_pos hxa] at hx
      cases hx
      exact ⟨(List.getElem?_eq_some_iff.1 hed).1, hkeep _ hc, b, e, hb, he, hi⟩
    · rw [if_neg hxa] at hx
      obtain ⟨h1, h2, h3⟩ := h.node x d hx hxm
      exact ⟨h1, hkeep _ h2, h3⟩

theorem TInv.relaxAll (hV : StaysIn g V) {curr : HeapItem} {b e : Nat} (hb : g.beginOutEdges curr.nodeId = .ok b)
    (he : g.endOutEdges curr.nodeId = .ok e) : ∀ (l : List Nat) {s s' : Side pq}, TInv P n g V m s →
    (∃ d, s.look curr.nodeId = some d) → (∀ i ∈ l, i ∈ rangeFrom b e) → forM (Side.relaxEdge P g.edgesFwd curr) s l = .ok s' →
    TInv P n g V m s' ∧ ∃ d, s'.look curr.nodeId = some d := by
  intro l
  induction l with
  | nil => intro s s' h hc _ hr; cases hr; exact ⟨h, hc⟩
  | cons i l ih =>
    intro s s' h hc hl hr
    rw [forM_cons] at hr
    obtain ⟨s1, h1, hr⟩ := bind_eq_ok.1 hr
    obtain ⟨k1, k2⟩ := h.relaxEdge hV hc hb he (hl i List.mem_cons_self) h1
    exact ih k1 k2 (fun j hj => hl j (List.mem_cons_of_mem _ hj)) hr

theorem TInv.mark {s : Side pq} (h : TInv P n g V m s) {x : Nat} {data : List PData} (hx : ∃ d, s.look x = some d)
    (e : modIdx s.data x (fun d => { d with settled := true }) = .ok data) : TInv P n g V m ({ s with data := data } : Side pq) := by
  obtain ⟨d, hd⟩ := hx
  have hget := getElem?_of_look hd
  rw [modIdx_ok hget] at e
  cases e
  obtain ⟨_, tab, hl⟩ := TabOk.modify h.tab hd (fun d => { d with settled := true })
  have hL : ∀ y, ({ s with data := s.data.set x { d with settled := true } } : Side pq).look y =
      if y = x then some { d with settled := true } else s.look y := hl
  have back : ∀ y dy, ({ s with data := s.data.set x { d with settled := true } } : Side pq).look y = some dy →
      ∃ d', s.look y = some d' ∧ d'.weight = dy.weight ∧ d'.incEdge = dy.incEdge ∧ d'.parent = dy.parent := by
    intro y dy hy
    rw [hL] at hy
    by_cases hyx : y = x
    · rw [if_pos hyx] at hy
      cases hy
      exact ⟨d, by rw [hyx]; exact hd, rfl, rfl, rfl⟩
    · rw [if_neg hyx] at hy
      exact ⟨dy, hy, rfl, rfl, rfl⟩
  have fwd : ∀ y d', s.look y = some d' → ∃ dy, ({ s with data := s.data.set x { d with settled := true } } : Side pq).look y = some dy ∧
      dy.weight = d'.weight ∧ dy.incEdge = d'.incEdge := by
    intro y d' hy
    rw [hL]
    by_cases hyx : y = x
    · rw [if_pos hyx]
      rw [hyx, hd] at hy
      cases hy
      exact ⟨_, rfl, rfl, rfl⟩
    · rw [if_neg hyx]
      exact ⟨d', hy, rfl, rfl⟩
  refine ⟨tab, ?_, ?_, ?_, ?_⟩
  · intro it hit
    obtain ⟨d', h1⟩ := h.items it hit
    obtain ⟨dy, h2, _⟩ := fwd _ _ h1
    exact ⟨dy, h2⟩
  · obtain ⟨d', h1, h2, h3⟩ := h.root
    obtain ⟨dy, k1, k2, k3⟩ := fwd _ _ h1
    exact ⟨dy, k1, k2.trans h2, k3.trans h3⟩
  · intro y dy hy
    obtain ⟨d', h1, _⟩ := back y dy hy
    exact h.mem y d' h1
  · intro y dy hy hym
    obtain ⟨d', h1, _, h3, h4⟩ := back y dy hy
    obtain ⟨k1, ⟨dp, k2⟩, k3⟩ := h.node y d' h1 hym
    rw [h3] at k1 k3
    rw [h4] at k2 k3
    obtain ⟨dq, k4, _⟩ := fwd _ _ k2
    exact ⟨k1, ⟨dq, k4⟩, k3⟩

theorem innerFwd_tinv (hV : StaysIn g V) : ∀ fuel (st st' : QS pq), TInv P n g V m st.fwd →
    innerFwd P g fuel st = .ok st' → TInv P n g V m st'.fwd ∧ st'.bwd = st.bwd := by
  intro fuel
  induction fuel with
  | zero => intro st st' _ h; cases h
  | succ fuel ih =>
    intro st st' hl h
    unfold innerFwd at h
    cases hp : pq.pop st.fwd.heap with
    | none =>
      rw [hp] at h
      cases h
      exact ⟨hl, rfl⟩
    | some r =>
      obtain ⟨curr, heap'⟩ := r
      rw [hp] at h
      simp only at h
      have hcurr : ∃ d, st.fwd.look curr.nodeId = some d := hl.items curr ((PQ.pop_mem hp).2 (Or.inl rfl))
      have hl' : TInv P n g V m ({ st.fwd with heap := heap' } : Side pq) :=
        ⟨hl.tab, fun it hi => hl.items it ((PQ.pop_mem hp).2 (Or.inr hi)), hl.root, hl.mem, hl.node⟩
      obtain ⟨b, _, h⟩ := bind_eq_ok.1 h
      by_cases hset : b = true
      · rw [if_pos hset] at h
        exact ih { st with fwd := { st.fwd with heap := heap' } } _ hl' h
      · rw [if_neg hset] at h
        by_cases hbest : curr.weight > st.best
        · rw [if_pos hbest] at h
          cases h
          exact ⟨hl', rfl⟩
        · rw [if_neg hbest] at h
          obtain ⟨r, er, h⟩ := bind_eq_ok.1 h
          by_cases hrt : r = true
          · rw [if_pos hrt] at h
            exact ih { st with fwd := { st.fwd with heap := heap' } } _ hl' h
          · rw [if_neg hrt] at h
            obtain ⟨b, hb, h⟩ := bind_eq_ok.1 h
            obtain ⟨e, he, h⟩ := bind_eq_ok.1 h
            obtain ⟨s1, e1, h⟩ := bind_eq_ok.1 h
            obtain ⟨data, e2, h⟩ := bind_eq_ok.1 h
            obtain ⟨k1, k2⟩ := hl'.relaxAll hV hb he _ hcurr (fun _ h => h) e1
            have hS : TInv P n g V m ({ s1 with data := data } : Side pq) := k1.mark k2 e2
            obtain ⟨v, _, h⟩ := bind_eq_ok.1 h
            cases v with
            | false => cases h; exact ⟨hS, rfl⟩
            | true =>
              simp only [if_true] at h
              obtain ⟨wb, _, h⟩ := bind_eq_ok.1 h
              obtain ⟨w, _, h⟩ := bind_eq_ok.1 h
              by_cases hlt : w < st.best
              · rw [if_pos hlt] at h; cases h; exact ⟨hS, rfl⟩
              · rw [if_neg hlt] at h; cases h; exact ⟨hS, rfl⟩

theorem mainLoop_tinv {W : Nat → Prop} {d : Nat} (hV : StaysIn g V) (hW : StaysIn g.flip W) : ∀ fuel (st st' : QS pq),
    TInv P n g V m st.fwd → TInv P n g.flip W d st.bwd → mainLoop P g fuel st = .ok st' →
    TInv P n g V m st'.fwd ∧ TInv P n g.flip W d st'.bwd := by
  intro fuel
  induction fuel with
  | zero => intro st st' _ _ h; cases h
  | succ fuel ih =>
    intro st st' hf hb h
    unfold mainLoop at h
    split at h
    · cases h; exact ⟨hf, hb⟩
    · obtain ⟨st1, h1, h⟩ := bind_eq_ok.1 h
      obtain ⟨st2, h2, h⟩ := bind_eq_ok.1 h
      obtain ⟨k1, k2⟩ := innerFwd_tinv hV _ _ _ hf h1
      rw [innerBwd_eq] at h2
      obtain ⟨st3, h3, h2⟩ := bind_eq_ok.1 h2
      cases h2
      obtain ⟨j1, j2⟩ := innerFwd_tinv hW _ _ _ (show TInv P n g.flip W d (swapQS st1).fwd by
        show TInv P n g.flip W d st1.bwd; rw [k2]; exact hb) h3
      exact ih _ _ (by show TInv P n g V m st3.bwd; rw [j2]; exact k1) j1 h

theorem RootInv.tinv {r : Nat} {s : Side pq} (hpos : 0 < P.umax) (hr : V r) (h : RootInv P n g [(r, 0)] s) : TInv P n g V r s := by
  have key : ∀ x d, s.look x = some d → x = r ∧ d.weight = 0 ∧ d.incEdge = P.umax := by
    intro x d hx
    obtain ⟨h1, _, _, h4⟩ := h.lab x d hx
    simp only [List.mem_singleton, Prod.mk.injEq] at h4
    exact ⟨h4.1, h4.2, h1⟩
  refine ⟨h.tab, ?_, ?_, ?_, ?_⟩
  · intro it hit
    obtain ⟨d, h1, _⟩ := h.items it hit
    exact ⟨d, h1⟩
  · obtain ⟨d, h1, _⟩ := h.root r 0 (by simp) hpos
    exact ⟨d, h1, (key _ _ h1).2⟩
  · intro x d hx
    rw [(key x d hx).1]; exact hr
  · intro x d hx hne
    exact absurd (key x d hx).1 hne

theorem walkFwd_first {first d : Nat} (h : Mixed P first m d g) {s : Side pq} (ht : TInv P n g V m s) : ∀ fuel result x r,
    (∃ dx, s.look x = some dx) → x ≠ m → walkFwd P g s fuel result x = .ok r → ∃ r', r = r' ++ [first] := by
  intro fuel
  induction fuel with
  | zero => intro _ _ _ _ _ h; cases h
  | succ fuel ih =>
    rintro result x r ⟨dx, hx⟩ hne hw
    unfold walkFwd at hw
    obtain ⟨h1, h2, b, e, hb, he, hi⟩ := ht.node x dx hx hne
    rw [idx_of_look hx] at hw
    simp only [bind_okM] at hw
    have hinc : (dx.incEdge != P.INVALID_EDGE) = true := by
      have := h.cap
      simp [Plat.INVALID_EDGE]; omega
    rw [if_pos hinc] at hw
    obtain ⟨result', hu, hw⟩ := bind_eq_ok.1 hw
    by_cases hpm : dx.parent = m
    · rw [hpm] at hb he hw
      obtain ⟨k1, k2, k3⟩ := h.read b e hb he _ hi _ (List.getElem?_eq_getElem h1)
      have hres : result' = result ++ [first] := by
        unfold unpackFuel at hu
        unfold unpackFwd at hu
        rw [idx_ok h1] at hu
        simp only [bind_okM] at hu
        unfold FastGraphEdge.isShortcut at hu
        rw [k2, k3] at hu
        simp [Plat.INVALID_EDGE] at hu
        rw [← hu, k1]
      cases fuel with
      | zero => cases hw
      | succ fuel =>
        unfold walkFwd at hw
        obtain ⟨dm, m1, _, m2⟩ := ht.root
        rw [idx_of_look m1] at hw
        simp only [bind_okM] at hw
        rw [m2] at hw
        simp [Plat.INVALID_EDGE] at hw
        exact ⟨result, by rw [← hw, hres]⟩
    · exact ih _ _ _ h2 hpm hw

/-- On such a graph a path from `m` to `d` begins at another node, if one is found at all. -/
theorem calcPath_mixed {first d : Nat} (h : Mixed P first m d g) {c c' : PathCalculator pq} (hc : CalcOk c.numNodes c)
    {p : ShortestPath} (hq : c.calcPath P g m d = .ok (c', some p)) : p.source = first := by
  simp only [PathCalculator.calcPath, PathCalculator.calcPathMulti] at hq
  obtain ⟨_, ha, hq⟩ := bind_eq_ok.1 hq
  have ha := checkArgs_iff.1 ha
  obtain ⟨⟨best, meet⟩, _, hq⟩ := bind_eq_ok.1 hq
  obtain ⟨fwd, hf, hq⟩ := bind_eq_ok.1 hq
  obtain ⟨bwd, hb, hq⟩ := bind_eq_ok.1 hq
  obtain ⟨st, hst, hq⟩ := bind_eq_ok.1 hq
  obtain ⟨fwd', ef, rf⟩ := addRoots_ok (P := P) (fg := g) ha.sl (RootInv.clear hc.f)
  obtain ⟨bwd', eb, rb⟩ := addRoots_ok (P := P) (fg := g.flip) ha.el (RootInv.clear hc.b)
  rw [hf] at ef
  cases ef
  rw [hb] at eb
  cases eb
  have hV : StaysIn g (fun _ => True) := fun _ _ _ _ _ _ _ _ _ _ => trivial
  have hW : StaysIn g.flip (fun x => x = d) := by
    intro x b e i ed hx hb' he' hi _
    subst hx
    rw [h.none b e hb' he'] at hi
    cases hi
  obtain ⟨tf, tb⟩ := mainLoop_tinv hV hW _ _ _ (rf.tinv h.pos trivial) (rb.tinv h.pos rfl) hst
  split at hq
  · cases hq
  obtain ⟨_, _, hq⟩ := bind_eq_ok.1 hq
  obtain ⟨nodes, hn, hq⟩ := bind_eq_ok.1 hq
  obtain ⟨_, _, hq⟩ := bind_eq_ok.1 hq
  obtain ⟨a, ha1, hq⟩ := bind_eq_ok.1 hq
  obtain ⟨z, _, hq⟩ := bind_eq_ok.1 hq
  injection hq with hq
  injection hq with _ hq
  injection hq with hq
  subst hq
  show a = first
  unfold extractNodes at hn
  obtain ⟨_, _, hn⟩ := bind_eq_ok.1 hn
  obtain ⟨v1, hv1, hn⟩ := bind_eq_ok.1 hn
  obtain ⟨_, ha2, hn⟩ := bind_eq_ok.1 hn
  obtain ⟨v2, hv2, hn⟩ := bind_eq_ok.1 hn
  obtain ⟨_, ha3, hn⟩ := bind_eq_ok.1 hn
  obtain ⟨r, hr, hn⟩ := bind_eq_ok.1 hn
  have look_of : ∀ {s : Side pq} {v : Bool}, s.Base c.numNodes → s.flags.isValid st.meet = .ok v → assertM v = .ok () →
      ∃ dm, s.look st.meet = some dm := by
    intro s v hs hv hav
    have h2 := (TriN_isValid hs st.meet)
    rw [hv] at h2
    obtain ⟨_, h3⟩ := h2
    cases v with
    | false => cases hav
    | true => exact Option.isSome_iff_exists.1 h3.symm
  have lf := look_of tf.tab hv1 ha2
  have lb := look_of tb.tab hv2 ha3
  obtain ⟨db, lb'⟩ := lb
  have hmd : st.meet = d := tb.mem _ _ lb'
  rw [hmd] at lf hr hn lb'
  obtain ⟨r', hr'⟩ := walkFwd_first h tf _ _ _ _ lf (Ne.symm h.ne) hr
  unfold walkBwd at hn
  obtain ⟨dd, m1, _, m2⟩ := tb.root
  rw [idx_of_look m1] at hn
  simp only [bind_okM] at hn
  rw [m2] at hn
  simp [Plat.INVALID_EDGE] at hn
  rw [← hn, hr'] at ha1
  rw [idx_eq_ok] at ha1
  simp at ha1
  exact ha1.symm

end FP
