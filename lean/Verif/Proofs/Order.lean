import Verif.Proofs.Priority
import Verif.Proofs.Api
/-! # The order in which nodes are contracted -/
namespace FP
open PreparationGraph Spec

variable {P : Plat} {n : Nat} {pq : PQ} {nq : NodeQueue} {G : List Nat → EdgeRel}

theorem append_cons_eq_snoc {α : Type} {a b d : List α} {u v : α} (h : a ++ u :: b = d ++ [v]) :
    (b = [] ∧ a = d ∧ u = v) ∨ ∃ b', b = b' ++ [v] ∧ d = a ++ u :: b' := by
  rcases List.eq_nil_or_concat b with rfl | ⟨b', z, rfl⟩
  · have := List.append_inj' h rfl
    exact Or.inl ⟨rfl, this.1, by simpa using this.2⟩
  · have h' : (a ++ u :: b') ++ [z] = d ++ [v] := by simpa using h
    have := List.append_inj' h' rfl
    have hz : z = v := by simpa using this.2
    subst hz
    exact Or.inr ⟨b', by simp, this.1.symm⟩

theorem depth_snoc_iff {done : List Nat} {v x k : Nat} :
    Depth G (done ++ [v]) x k ↔ Depth G done x k ∨ ∃ k', k = k' + 1 ∧ Depth G done v k' ∧ Adjacent (G done) v x := by
  constructor
  · intro h
    generalize hd : done ++ [v] = d at h
    cases h with
    | zero => exact Or.inl (.zero _ _)
    | step h1 h2 =>
      rcases append_cons_eq_snoc hd.symm with ⟨rfl, rfl, rfl⟩ | ⟨b', rfl, rfl⟩
      · exact Or.inr ⟨_, rfl, h1, h2⟩
      · exact Or.inl (.step h1 h2)
  · rintro (h | ⟨k', rfl, h1, h2⟩)
    · cases h with
      | zero => exact .zero _ _
      | step h1 h2 =>
        rw [List.append_assoc, List.cons_append]
        exact .step h1 h2
    · exact .step h1 h2

theorem isLevel_nil (x : Nat) : IsLevel G [] x 0 := by
  refine ⟨.zero _ _, fun k h => ?_⟩
  generalize hd : ([] : List Nat) = d at h
  cases h with
  | zero => exact Nat.le_refl _
  | step h1 h2 => simp at hd

theorem isLevel_snoc_adj {done : List Nat} {v x lx lv : Nat} (hx : IsLevel G done x lx) (hv : IsLevel G done v lv)
    (ha : Adjacent (G done) v x) : IsLevel G (done ++ [v]) x (max lx (lv + 1)) := by
  constructor
  · rw [depth_snoc_iff]
    by_cases h : lx ≤ lv + 1
    · rw [Nat.max_eq_right h]; exact Or.inr ⟨lv, rfl, hv.1, ha⟩
    · rw [Nat.max_eq_left (by omega)]; exact Or.inl hx.1
  · intro k hk
    rcases depth_snoc_iff.1 hk with h | ⟨k', rfl, h, _⟩
    · have := hx.2 _ h; omega
    · have := hv.2 _ h; omega

theorem isLevel_snoc_far {done : List Nat} {v x lx : Nat} (hx : IsLevel G done x lx) (ha : ¬ Adjacent (G done) v x) :
    IsLevel G (done ++ [v]) x lx := by
  refine ⟨depth_snoc_iff.2 (Or.inl hx.1), fun k hk => ?_⟩
  rcases depth_snoc_iff.1 hk with h | ⟨_, _, _, h⟩
  · exact hx.2 _ h
  · exact absurd h ha

theorem lastUpdate_nil (x : Nat) : LastUpdate G [] x [] := ⟨[], rfl, Or.inl rfl, by simp⟩

theorem lastUpdate_adj {done : List Nat} {v x : Nat} (ha : Adjacent (G done) v x) :
    LastUpdate G (done ++ [v]) x (done ++ [v]) := ⟨[], by simp, Or.inr ⟨_, _, rfl, ha⟩, by simp⟩

theorem lastUpdate_far {done before : List Nat} {v x : Nat} (h : LastUpdate G done x before) (ha : ¬ Adjacent (G done) v x) :
    LastUpdate G (done ++ [v]) x before := by
  obtain ⟨since, rfl, h1, h2⟩ := h
  refine ⟨since ++ [v], by simp, h1, ?_⟩
  intro a w b he
  rcases append_cons_eq_snoc he.symm with ⟨_, rfl, rfl⟩ | ⟨b', _, rfl⟩
  · exact ha
  · exact h2 a w b' rfl

/-- The edges of a graph at a node. -/
def SameAt (x : Nat) (E F : EdgeRel) : Prop := ∀ u w, (E x u w ↔ F x u w) ∧ (E u x w ↔ F u x w)

theorem SameAt.degree {x : Nat} {E F : EdgeRel} (h : SameAt x E F) : degree E x = degree F x := by
  unfold Spec.degree
  simp only [fun u w => (h u w).1, fun u w => (h u w).2]

theorem SameAt.through {x : Nat} {E F : EdgeRel} (h : SameAt x E F) (m : Nat) : throughPairs m E x = throughPairs m F x := by
  unfold throughPairs
  simp only [fun u w => (h u w).1, fun u w => (h u w).2]

/-- A contraction does not change the edges of nodes that are not neighbors. -/
theorem Contracts.sameAt {g g' : PreparationGraph} {v x : Nat} (hg : WF n g) (h : Contracts P n g v g') (hx : x ≠ v)
    (ha : ¬ Adjacent (prepEdges g) v x) : SameAt x (prepEdges g') (prepEdges g) := by
  have hxin : ∀ a ∈ g.ins v, a.adj ≠ x := by
    rintro a hm rfl
    exact ha ⟨a.weight, Or.inr ((prepEdges_in hg).2 ⟨a.center, hm⟩)⟩
  have hxout : ∀ a ∈ g.outs v, a.adj ≠ x := by
    rintro a hm rfl
    exact ha ⟨a.weight, Or.inl (prepEdges_out.2 ⟨a.center, hm⟩)⟩
  have hback : ∀ u y w, u = x ∨ y = x → prepEdges g' u y w → prepEdges g u y w := by
    intro u y w hu he
    obtain ⟨c, hc⟩ := prepEdges_out.1 he
    rcases h.back _ _ hc with hb | ⟨_, a, ha1, b, hb1, e1, e2, _⟩
    · exact prepEdges_out.2 ⟨c, hb⟩
    · rcases hu with rfl | rfl
      · exact absurd e1 (hxin a ha1)
      · exact absurd e2 (hxout b hb1)
  have hforth : ∀ u y w, u = x ∨ y = x → prepEdges g u y w → prepEdges g' u y w := by
    intro u y w hu he
    have huv : u ≠ v := by
      rintro rfl
      rcases hu with rfl | rfl
      · exact hx rfl
      · exact ha ⟨w, Or.inl he⟩
    have hyv : y ≠ v := by
      rintro rfl
      rcases hu with rfl | rfl
      · exact ha ⟨w, Or.inr he⟩
      · exact hx rfl
    obtain ⟨c, hc⟩ := prepEdges_out.1 he
    obtain ⟨w', _, c', hc'⟩ := h.keep u y w ⟨⟨c, hc⟩, huv, hyv⟩
    have he' : prepEdges g' u y w' := prepEdges_out.2 ⟨c', hc'⟩
    obtain ⟨c'', hc''⟩ := prepEdges_out.1 (hback u y w' hu he')
    have := eq_of_adj (hg.nodupOut u) hc hc'' rfl
    injection this with _ e2 _
    subst e2
    exact he'
  exact fun u w => ⟨⟨hback _ _ _ (Or.inl rfl), hforth _ _ _ (Or.inl rfl)⟩, ⟨hback _ _ _ (Or.inr rfl), hforth _ _ _ (Or.inr rfl)⟩⟩

/-- What is known between two contractions. -/
structure OInv (P : Plat) (pq : PQ) (nq : NodeQueue) (prio : nq.σ → Nat → Nat) (ig : InputGraph) (params : Params)
    (done : List Nat) (st : QState pq nq) : Prop where
  rem : remaining P pq ig params.maxSettledContraction done = .ok st.b.pg
  wf : WF ig.numNodes st.b.pg
  ws : st.b.ws.Base ig.numNodes
  nodup : (nq.keys st.queue).Nodup
  keys : ∀ x ∈ nq.keys st.queue, x < ig.numNodes
  levels : ∀ x < ig.numNodes, ∃ l, st.levels[x]? = some l ∧
    IsLevel (remainingEdges P pq ig params.maxSettledContraction) done x l
  prios : ∀ x ∈ nq.keys st.queue, IsPriority P.umax ig.numNodes (remainingEdges P pq ig params.maxSettledContraction)
    params.relevance params.maxSettledInitialRelevance params.maxSettledNeighborRelevance done x (prio st.queue x)

theorem remainingEdges_of {ig : InputGraph} {ms : Nat} {done : List Nat} {g : PreparationGraph}
    (h : remaining P pq ig ms done = .ok g) : remainingEdges P pq ig ms done = prepEdges g := by
  funext u v w
  apply propext
  unfold remainingEdges
  rw [h]
  constructor
  · rintro ⟨_, e, k⟩; cases e; exact k
  · intro k; exact ⟨_, rfl, k⟩

theorem remaining_snoc {ig : InputGraph} {ms : Nat} {done : List Nat} {v : Nat} {g : PreparationGraph}
    (h : remaining P pq ig ms done = .ok g) :
    remaining P pq ig ms (done ++ [v]) = (do
      let (g, _) ← contractNode P g (WitnessSearch.new P pq ig.numNodes) v ms
      .ok g) := by
  unfold remaining at h ⊢
  obtain ⟨g0, h0, h⟩ := bind_eq_ok.1 h
  rw [h0]
  simp only [bind_okM]
  rw [forM_append, h]
  simp only [bind_okM, forM_cons, forM_nil]
  cases contractNode P g (WitnessSearch.new P pq ig.numNodes) v ms <;> rfl

theorem adjacent_iff {g : PreparationGraph} (hg : WF n g) {v x : Nat} :
    Adjacent (prepEdges g) v x ↔ x ∈ neighborSet (g.outs v) (g.ins v) := by
  rw [mem_neighborSet]
  constructor
  · rintro ⟨w, h | h⟩
    · obtain ⟨c, h⟩ := prepEdges_out.1 h
      exact Or.inl ⟨_, h, rfl⟩
    · obtain ⟨c, h⟩ := (prepEdges_in hg).1 h
      exact Or.inr ⟨_, h, rfl⟩
  · rintro (⟨a, h, rfl⟩ | ⟨a, h, rfl⟩)
    · exact ⟨a.weight, Or.inl (prepEdges_out.2 ⟨a.center, h⟩)⟩
    · exact ⟨a.weight, Or.inr ((prepEdges_in hg).2 ⟨a.center, h⟩)⟩

/-- One round of the loop. -/
theorem OInv.step (hP : P.checked = true) {ig : InputGraph} (hn : ig.numNodes ≤ P.umax) {prio : nq.σ → Nat → Nat}
    (ho : Ordered nq prio) {params : Params} {done : List Nat} {st st' : QState pq nq} (h : OInv P pq nq prio ig params done st)
    {node rank : Nat} {queue : nq.σ} (hpop : nq.pop st.queue = some (node, queue)) {outs ins : List Arc}
    (hout : idx st.b.pg.outEdges node = .ok outs) (hin : idx st.b.pg.inEdges node = .ok ins) {b : BState pq}
    (hb : recordAndContract P params.maxSettledContraction st.b rank node = .ok b)
    (hu : forM (updateNeighbor P params node) { st with b := b, queue := queue } (neighborSet outs ins) = .ok st') :
    OInv P pq nq prio ig params (done ++ [node]) st' ∧ (nq.keys st'.queue).Perm (nq.keys queue) := by
  have hperm := nq.pop_some _ _ _ hpop
  have hnode : node < ig.numNodes := h.keys _ (hperm.mem_iff.2 (List.mem_cons_self ..))
  rw [idx_outEdges (by rw [h.wf.lenOut]; exact hnode)] at hout
  rw [idx_inEdges (by rw [h.wf.lenIn]; exact hnode)] at hin
  cases hout
  cases hin
  unfold recordAndContract at hb
  obtain ⟨fg, _, hb⟩ := bind_eq_ok.1 hb
  obtain ⟨⟨g', ws'⟩, hcn, hb⟩ := bind_eq_ok.1 hb
  injection hb with hb
  subst hb
  obtain ⟨hc, hws'⟩ := (contractNode_ok hP hn h.wf hnode h.ws).of_ok hcn
  simp only at hc hws'
  have hrem : remaining P pq ig params.maxSettledContraction (done ++ [node]) = .ok g' := by
    rw [remaining_snoc h.rem]
    obtain ⟨⟨g2, ws2⟩, h2, hrel⟩ := (contractNode_rel h.ws (WitnessSearch.Base.new P pq _) st.b.pg node
      params.maxSettledContraction).ok_left hcn
    rw [h2]
    simp only at hrel
    rw [hrel.1]
    rfl
  have hG := remainingEdges_of h.rem
  have hG' := remainingEdges_of hrem
  have hadj : ∀ x, Adjacent (remainingEdges P pq ig params.maxSettledContraction done) node x ↔
      x ∈ neighborSet (st.b.pg.outs node) (st.b.pg.ins node) := fun x => by rw [hG]; exact adjacent_iff h.wf
  have hself : ¬ Adjacent (remainingEdges P pq ig params.maxSettledContraction done) node node := by
    rw [hadj, mem_neighborSet]
    rintro (⟨a, ha, e⟩ | ⟨a, ha, e⟩)
    · exact h.wf.noLoop _ _ ha e
    · exact h.wf.noLoop_in ha e
  have hlt : ∀ x ∈ neighborSet (st.b.pg.outs node) (st.b.pg.ins node), x < ig.numNodes := by
    intro x hx
    rcases mem_neighborSet.1 hx with ⟨a, ha, rfl⟩ | ⟨a, ha, rfl⟩
    · exact h.wf.adj_lt ha
    · exact h.wf.adj_lt_in ha
  obtain ⟨lv, hlv, hlevel⟩ := h.levels node hnode
  have hkeys : ∀ x ∈ nq.keys queue, x ∈ nq.keys st.queue ∧ x ≠ node := by
    intro x hx
    refine ⟨hperm.mem_iff.2 (List.mem_cons_of_mem _ hx), ?_⟩
    rintro rfl
    exact (List.nodup_cons.1 (hperm.nodup_iff.1 h.nodup)).1 hx
  have hndq : (nq.keys queue).Nodup := (List.nodup_cons.1 (hperm.nodup_iff.1 h.nodup)).2
  -- updates of the neighbors
  have hinv := forM_inv (f := updateNeighbor P params node)
    (I := fun pre (s : QState pq nq) => (∀ x ∈ pre, x ∈ neighborSet (st.b.pg.outs node) (st.b.pg.ins node)) →
      s.b.pg = g' ∧ s.b.ws.Base ig.numNodes ∧ (nq.keys s.queue).Perm (nq.keys queue) ∧
      (∀ x < ig.numNodes, ∃ l l', st.levels[x]? = some l ∧ s.levels[x]? = some l' ∧
        ((x ∈ pre → l' = max l (lv + 1)) ∧ (x ∉ pre → l' = l))) ∧
      ∀ x ∈ nq.keys queue, (x ∉ pre → prio s.queue x = prio queue x) ∧
        (x ∈ pre → ∃ l count : Nat, st.levels[x]? = some l ∧
          prio s.queue x = params.relevance (max l (lv + 1)) count (degree (prepEdges g') x) ∧
          (neededPairs P.umax (prepEdges g') x).ncard ≤ count ∧ count ≤ (throughPairs P.umax (prepEdges g') x).ncard ∧
          (ig.numNodes < params.maxSettledNeighborRelevance → count = (neededPairs P.umax (prepEdges g') x).ncard))) (by
      intro pre y s s' hI hrun hpre
      obtain ⟨i1, i2, i3, i4, i5⟩ := hI (fun x hx => hpre x (List.mem_append_left _ hx))
      have hy : y ∈ neighborSet (st.b.pg.outs node) (st.b.pg.ins node) := hpre y (by simp)
      have hyn : y ≠ node := by rintro rfl; exact hself ((hadj _).2 hy)
      have hnp : node ∉ pre := fun hm => hself ((hadj _).2 (hpre node (List.mem_append_left _ hm)))
      unfold updateNeighbor at hrun
      obtain ⟨ly, hly, hrun⟩ := bind_eq_ok.1 hrun
      obtain ⟨lv', hlv', hrun⟩ := bind_eq_ok.1 hrun
      obtain ⟨lv1, hlv1, hrun⟩ := bind_eq_ok.1 hrun
      obtain ⟨levels, hset, hrun⟩ := bind_eq_ok.1 hrun
      obtain ⟨l2, hl2, hrun⟩ := bind_eq_ok.1 hrun
      obtain ⟨⟨pg, ws, p⟩, hcr, hrun⟩ := bind_eq_ok.1 hrun
      injection hrun with hrun
      subst hrun
      obtain ⟨ln, ln', e1, e2, _, e3⟩ := i4 node hnode
      have hlv' : lv' = lv := by
        rw [e3 hnp] at e2
        rw [hlv] at e1
        cases e1
        unfold idx at hlv'
        rw [e2] at hlv'
        cases hlv'
        rfl
      subst hlv'
      have hlv1 : lv1 = lv' + 1 := ((Tri_addW hP _ _).of_ok hlv1).1
      subst hlv1
      obtain ⟨hylt, rfl⟩ := setIdx_eq_ok.1 hset
      obtain ⟨l, l', e4, e5, e6, e7⟩ := i4 y (hlt y hy)
      have hly : ly = l' := by
        unfold idx at hly
        rw [e5] at hly
        cases hly
        rfl
      subst hly
      have hmax : max ly (lv' + 1) = max l (lv' + 1) := by
        by_cases hm : y ∈ pre
        · rw [e6 hm]; omega
        · rw [e7 hm]
      have hl2 : l2 = max l (lv' + 1) := by
        unfold idx at hl2
        rw [getElem?_set' hylt, if_pos rfl] at hl2
        cases hl2
        exact hmax
      subst hl2
      rw [i1] at hcr
      obtain ⟨k1, k2, c, k3, k4, k5, k6⟩ := (calcRelevance_value hP hn hc.wf (hlt y hy) i2).of_ok hcr
      simp only at k1 k2 k3
      refine ⟨k1, k2, (nq.keys_change _ _ _).trans i3, ?_, ?_⟩
      · intro x hx
        obtain ⟨l0, l0', f1, f2, f3, f4⟩ := i4 x hx
        by_cases hxy : x = y
        · subst hxy
          rw [e4] at f1
          cases f1
          refine ⟨l, _, e4, by rw [getElem?_set' hylt, if_pos rfl], fun _ => hmax, fun hm => absurd (by simp) hm⟩
        · refine ⟨l0, l0', f1, by rw [getElem?_set' hylt, if_neg (fun e => hxy e.symm)]; exact f2, ?_, ?_⟩
          · intro hm
            exact f3 (by simpa [hxy] using hm)
          · intro hm
            exact f4 (fun hm' => hm (List.mem_append_left _ hm'))
      · intro x hx
        obtain ⟨j1, j2⟩ := i5 x hx
        have hxs : x ∈ nq.keys s.queue := i3.mem_iff.2 hx
        have hnds : (nq.keys s.queue).Nodup := i3.nodup_iff.2 hndq
        by_cases hxy : x = y
        · subst hxy
          refine ⟨fun hm => absurd (by simp) hm, fun _ => ⟨l, c, e4, ?_, k4, k5, k6⟩⟩
          simp only
          rw [ho.change_self _ _ _ hnds hxs, k3]
        · have hch : prio (nq.change y p s.queue) x = prio s.queue x := ho.change_other _ _ _ _ hnds hxs hxy
          refine ⟨fun hm => ?_, fun hm => ?_⟩
          · simp only
            rw [hch]
            exact j1 (fun hm' => hm (List.mem_append_left _ hm'))
          · simp only
            rw [hch]
            exact j2 (by simpa [hxy] using hm))
    (neighborSet (st.b.pg.outs node) (st.b.pg.ins node)) [] _ _ (by
      intro _
      refine ⟨rfl, hws', .refl _, ?_, ?_⟩
      · intro x hx
        obtain ⟨l, hl, _⟩ := h.levels x hx
        exact ⟨l, l, hl, hl, by simp, fun _ => rfl⟩
      · intro x hx
        exact ⟨fun _ => rfl, by simp⟩) hu
  obtain ⟨i1, i2, i3, i4, i5⟩ := hinv (by simp)
  simp only [List.nil_append] at i4 i5
  refine ⟨⟨by rw [i1]; exact hrem, by rw [i1]; exact hc.wf, i2, i3.nodup_iff.2 hndq, ?_, ?_, ?_⟩, i3⟩
  · intro x hx
    exact h.keys x (hkeys x (i3.mem_iff.1 hx)).1
  · intro x hx
    obtain ⟨l, l', e1, e2, e3, e4⟩ := i4 x hx
    obtain ⟨l0, f1, f2⟩ := h.levels x hx
    rw [e1] at f1
    cases f1
    refine ⟨l', e2, ?_⟩
    by_cases hm : x ∈ neighborSet (st.b.pg.outs node) (st.b.pg.ins node)
    · rw [e3 hm]
      exact isLevel_snoc_adj f2 hlevel ((hadj x).2 hm)
    · rw [e4 hm]
      exact isLevel_snoc_far f2 (fun ha => hm ((hadj x).1 ha))
  · intro x hx
    have hxq := i3.mem_iff.1 hx
    obtain ⟨hxs, hxn⟩ := hkeys x hxq
    obtain ⟨j1, j2⟩ := i5 x hxq
    by_cases hm : x ∈ neighborSet (st.b.pg.outs node) (st.b.pg.ins node)
    · obtain ⟨l, count, e1, e2, e3, e4, e5⟩ := j2 hm
      obtain ⟨l0, f1, f2⟩ := h.levels x (h.keys x hxs)
      rw [e1] at f1
      cases f1
      have ha := (hadj x).2 hm
      refine ⟨done ++ [node], max l (lv + 1), count, lastUpdate_adj ha, isLevel_snoc_adj f2 hlevel ha, ?_, ?_, ?_, ?_⟩
      · rw [e2, hG']
      · rw [hG']; exact e3
      · rw [hG']; exact e4
      · rw [if_neg (by simp), hG']; exact e5
    · rw [j1 hm, ho.pop_other _ _ _ h.nodup hpop x hxq]
      obtain ⟨before, level, count, f1, f2, f3, f4, f5, f6⟩ := h.prios x hxs
      have hna : ¬ Adjacent (remainingEdges P pq ig params.maxSettledContraction done) node x := fun ha => hm ((hadj x).1 ha)
      have hsame : SameAt x (remainingEdges P pq ig params.maxSettledContraction (done ++ [node]))
          (remainingEdges P pq ig params.maxSettledContraction done) := by
        rw [hG', hG]
        rw [hG] at hna
        exact hc.sameAt h.wf hxn hna
      refine ⟨before, level, count, lastUpdate_far f1 hna, isLevel_snoc_far f2 hna, ?_, f4, ?_, f6⟩
      · rw [f3, hsame.degree]
      · rw [hsame.through]; exact f5

/-- Every popped node has least priority among the nodes that are left. -/
theorem pops_least (hP : P.checked = true) {ig : InputGraph} (hn : ig.numNodes ≤ P.umax) {prio : nq.σ → Nat → Nat}
    (ho : Ordered nq prio) {params : Params} {rank : Nat} {st : QState pq nq} {nodes : List Nat} (hp : Pops P params rank st nodes) :
    ∀ done, OInv P pq nq prio ig params done st → (nq.keys st.queue).Perm nodes → ∀ pre v rest, nodes = pre ++ v :: rest →
      ∀ u ∈ v :: rest, ∃ p q,
        IsPriority P.umax ig.numNodes (remainingEdges P pq ig params.maxSettledContraction) params.relevance
          params.maxSettledInitialRelevance params.maxSettledNeighborRelevance (done ++ pre) v p ∧
        IsPriority P.umax ig.numNodes (remainingEdges P pq ig params.maxSettledContraction) params.relevance
          params.maxSettledInitialRelevance params.maxSettledNeighborRelevance (done ++ pre) u q ∧ p ≤ q := by
  induction hp with
  | nil hp =>
    intro done h _ pre v rest e
    simp at e
  | @cons rank node st st' queue outs ins b nodes hpop hout hin hb hu hp ih =>
    intro done h hperm pre v rest e u hm
    have hpq := nq.pop_some _ _ _ hpop
    cases pre with
    | nil =>
      injection e with e1 e2
      subst e1 e2
      rw [List.append_nil]
      have hum : u ∈ nq.keys st.queue := hperm.mem_iff.2 hm
      have hvm : node ∈ nq.keys st.queue := hperm.mem_iff.2 (List.mem_cons_self ..)
      exact ⟨_, _, h.prios _ hvm, h.prios _ hum, ho.pop_least _ _ _ h.nodup hpop u hum⟩
    | cons x pre =>
      injection e with e1 e2
      subst e1
      obtain ⟨h', hk⟩ := h.step hP hn ho hpop hout hin hb hu
      have := ih _ h' (hk.trans ((hpq.symm.trans hperm).cons_inv)) pre v rest e2 u hm
      rw [List.append_assoc] at this
      exact this

/-- What holds before the first node is contracted. -/
theorem OInv.initial (hP : P.checked = true) {ig : InputGraph} (h : FrozenOk ig) {prio : nq.σ → Nat → Nat}
    (ho : Ordered nq prio) {params : Params} {pg0 : PreparationGraph} {fg0 : FastGraph} {st : QState pq nq}
    (hpg : PreparationGraph.fromInputGraph P ig = .ok pg0) (hfg : FastGraph.new P ig.numNodes = .ok fg0)
    (hinit : forM (initialPriority P params) (⟨⟨pg0, WitnessSearch.new P pq ig.numNodes, fg0⟩, List.replicate ig.numNodes 0, nq.empty⟩ :
      QState pq nq) (List.range ig.numNodes) = .ok st) :
    ig.numNodes ≤ P.umax ∧ OInv P pq nq prio ig params [] st ∧ (nq.keys st.queue).Perm (List.range ig.numNodes) := by
  obtain ⟨pg, e, hfi⟩ := fromInputGraph_ok (P := P) h
  rw [hpg] at e
  cases e
  have hn : ig.numNodes ≤ P.umax := by
    unfold FastGraph.new at hfg
    by_cases hc : ig.numNodes < P.umax
    · exact Nat.le_of_lt hc
    · rw [if_neg hc] at hfg; cases hfg
  have hrem : remaining P pq ig params.maxSettledContraction [] = .ok pg0 := by
    unfold remaining
    rw [hpg]
    rfl
  have hG := remainingEdges_of hrem
  have hI := forM_inv (f := initialPriority P params)
    (I := fun pre (s : QState pq nq) => pre.Nodup → (∀ u ∈ pre, u < ig.numNodes) → s.b.pg = pg0 ∧ s.b.ws.Base ig.numNodes ∧
      s.levels = List.replicate ig.numNodes 0 ∧ (nq.keys s.queue).Perm pre ∧
      ∀ u ∈ pre, IsPriority P.umax ig.numNodes (remainingEdges P pq ig params.maxSettledContraction) params.relevance
        params.maxSettledInitialRelevance params.maxSettledNeighborRelevance [] u (prio s.queue u)) (by
      intro pre i s s' hI hrun hnd hlt
      have hnd' := List.nodup_append.1 hnd
      obtain ⟨i1, i2, i5, i3, i4⟩ := hI hnd'.1 (fun u hu => hlt u (List.mem_append_left _ hu))
      unfold initialPriority at hrun
      obtain ⟨⟨pg, ws, p⟩, hc, hrun⟩ := bind_eq_ok.1 hrun
      rw [i1] at hc
      obtain ⟨k1, k2, c, k3, k4, k5, k6⟩ := (calcRelevance_value hP hn hfi.wf (hlt i (by simp)) i2).of_ok hc
      simp only at k1 k2 k3
      injection hrun with hrun
      subst hrun
      have hnot : i ∉ nq.keys s.queue := by
        intro hm
        exact hnd'.2.2 i (i3.mem_iff.1 hm) i (by simp) rfl
      refine ⟨k1, k2, i5, ?_, ?_⟩
      · exact (nq.keys_push i p s.queue hnot).trans ((i3.cons i).trans (List.perm_append_singleton i pre).symm)
      · intro u hu
        rcases List.mem_append.1 hu with hu | hu
        · simp only
          rw [ho.push_other i p s.queue u hnot (i3.mem_iff.2 hu)]
          exact i4 u hu
        · simp at hu
          subst hu
          simp only
          rw [ho.push_self u p s.queue hnot, k3]
          refine ⟨[], 0, c, lastUpdate_nil u, isLevel_nil u, by rw [hG], by rw [hG]; exact k4, by rw [hG]; exact k5, ?_⟩
          rw [if_pos rfl, hG]
          exact k6)
    (List.range ig.numNodes) [] _ _ (fun _ _ => ⟨rfl, WitnessSearch.Base.new P pq _, rfl, by simp [nq.keys_empty], by simp⟩) hinit
  obtain ⟨i1, i2, i5, i3, i4⟩ := hI (by simpa using List.nodup_range) (by simp)
  simp only [List.nil_append] at i3 i4
  have hO : OInv P pq nq prio ig params [] st := by
    refine ⟨by rw [i1]; exact hrem, by rw [i1]; exact hfi.wf, i2, i3.nodup_iff.2 List.nodup_range, ?_, ?_, ?_⟩
    · intro x hx
      exact List.mem_range.1 (i3.mem_iff.1 hx)
    · intro x hx
      exact ⟨0, by rw [i5]; simp [hx], isLevel_nil x⟩
    · intro x hx
      exact i4 x (i3.mem_iff.1 hx)
  exact ⟨hn, hO, i3⟩

/-- The nodes are contracted in the order of their priorities. -/
theorem contraction_order (hP : P.checked = true) {ig : InputGraph} (h : FrozenOk ig) {prio : nq.σ → Nat → Nat}
    (ho : Ordered nq prio) {params : Params} {fg : FastGraph} (hp : buildWithParams P pq nq ig params = .ok fg) {order : List Nat}
    (hord : fg.getNodeOrdering = .ok order) {pre rest : List Nat} {v : Nat} (he : order = pre ++ v :: rest) {u : Nat}
    (hu : u ∈ v :: rest) : ∃ p q,
      IsPriority P.umax ig.numNodes (remainingEdges P pq ig params.maxSettledContraction) params.relevance
        params.maxSettledInitialRelevance params.maxSettledNeighborRelevance pre v p ∧
      IsPriority P.umax ig.numNodes (remainingEdges P pq ig params.maxSettledContraction) params.relevance
        params.maxSettledInitialRelevance params.maxSettledNeighborRelevance pre u q ∧ p ≤ q := by
  obtain ⟨nodes, pg0, fg0, st, hno, hperm, _, hpg, hfg, hinit, hpops, hrank⟩ := prepare_pops hp
  rw [hord] at hno
  cases hno
  obtain ⟨hn, hO, i3⟩ := OInv.initial hP h ho hpg hfg hinit
  exact pops_least hP hn ho hpops [] hO (i3.trans hperm.symm) pre v rest he u hu

/-! ### What is stored -/

/-- The step is a contraction with a new witness search. -/
def freshStep (pq : PQ) (P : Plat) (n ms : Nat) : StepRel := fun g v g' =>
  ∃ ws', contractNode P g (WitnessSearch.new P pq n) v ms = .ok (g', ws')

theorem stepsOk_fresh (pq : PQ) (P : Plat) (n ms : Nat) : StepsOk pq P n ms (freshStep pq P n ms) := by
  intro _ g ws v r _ hws _ h
  obtain ⟨⟨g', ws'⟩, h', hr⟩ := (contractNode_rel hws (WitnessSearch.Base.new P pq n) g v ms).ok_left h
  exact ⟨ws', by rw [h', hr.1]⟩

/-- No edges at these nodes. -/
def NoEdgesAt (g : PreparationGraph) (D : List Nat) : Prop := ∀ u ∈ D, ∀ x, ¬ Adjacent (prepEdges g) u x ∧ ¬ Adjacent (prepEdges g) x u

theorem adjacent_comm {E : EdgeRel} {u v : Nat} : Adjacent E u v ↔ Adjacent E v u := by
  unfold Adjacent
  exact ⟨fun ⟨w, h⟩ => ⟨w, h.symm⟩, fun ⟨w, h⟩ => ⟨w, h.symm⟩⟩

theorem SameAt.adjacent {x y : Nat} {E F : EdgeRel} (h : SameAt x E F) : Adjacent E x y ↔ Adjacent F x y := by
  unfold Adjacent
  simp only [fun u w => (h u w).1, fun u w => (h u w).2]

theorem Contracts.noEdgesAt {g g' : PreparationGraph} {v : Nat} (hg : WF n g) (h : Contracts P n g v g') {D : List Nat}
    (hD : NoEdgesAt g D) : NoEdgesAt g' (D ++ [v]) := by
  have key : ∀ u ∈ D ++ [v], ∀ x, ¬ Adjacent (prepEdges g') u x := by
    intro u hu x ha
    by_cases huv : u = v
    · subst huv
      rw [adjacent_iff h.wf, mem_neighborSet, h.outs_nil, h.ins_nil] at ha
      simp at ha
    · have huD : u ∈ D := by simpa [huv] using hu
      rw [(h.sameAt hg huv (hD u huD v).2).adjacent] at ha
      exact (hD u huD x).1 ha
  exact fun u hu x => ⟨key u hu x, fun ha => key u hu x (adjacent_comm.1 ha)⟩

theorem chain_remaining {ig : InputGraph} {ms : Nat} {g g' : PreparationGraph} {ls : List Lvl}
    (h : Chain P ig.numNodes (freshStep pq P ig.numNodes ms) g ls g') :
    ∀ done, remaining P pq ig ms done = .ok g → WF ig.numNodes g → NoEdgesAt g done → ∀ (j : Nat) l, ls[j]? = some l →
      ∃ g1, remaining P pq ig ms (done ++ (ls.map Lvl.node).take j) = .ok g1 ∧ WF ig.numNodes g1 ∧ l.node < ig.numNodes ∧
        NoEdgesAt g1 (done ++ (ls.map Lvl.node).take j) ∧ l.outs = g1.outs l.node ∧ l.ins = g1.ins l.node := by
  induction h with
  | nil g => intro done _ _ _ j l hl; simp at hl
  | @cons g g1 g2 v ls hv hc hch ih =>
    intro done hr hwf hD j l hl
    cases j with
    | zero =>
      simp only [List.getElem?_cons_zero, Option.some.injEq] at hl
      subst hl
      simp only [List.take_zero, List.append_nil]
      exact ⟨g, hr, hwf, hv.1, hD, rfl, rfl⟩
    | succ j =>
      obtain ⟨ws', hcn⟩ := hv.2
      have hr' : remaining P pq ig ms (done ++ [v]) = .ok g1 := by
        rw [remaining_snoc hr, hcn]
        rfl
      have := ih _ hr' hc.wf (hc.noEdgesAt hwf hD) j l (by simpa using hl)
      simpa using this

theorem take_drop_flatten {α : Type} {bs : List (List α)} {j : Nat} {b : List α} (h : bs[j]? = some b) :
    (bs.flatten.drop (off bs j)).take b.length = b := by
  apply List.ext_getElem?
  intro k
  by_cases hk : k < b.length
  · rw [List.getElem?_take_of_lt hk, List.getElem?_drop, getElem?_flatten h hk]
  · rw [List.getElem?_eq_none (by simp; omega), List.getElem?_eq_none (by omega)]

/-- The stored edges of a node are its edges in the graph that is left when its turn comes. -/
theorem stored_edges {ig : InputGraph} (hF : FrozenOk ig) {ms : Nat} {fg : FastGraph}
    (h : BuiltFrom P ig.numNodes (freshStep pq P ig.numNodes ms) ig.edges fg) {order : List Nat}
    (hord : fg.getNodeOrdering = .ok order) {pre rest : List Nat} {v : Nat} (he : order = pre ++ v :: rest) :
    ∃ g, remaining P pq ig ms pre = .ok g ∧ WF ig.numNodes g ∧ v < ig.numNodes ∧ order.Nodup ∧ NoEdgesAt g pre ∧
      storedOut fg v = .ok ((g.outs v).map (fun a => (v, a.adj, a.weight))) ∧
      storedIn fg v = .ok ((g.ins v).map (fun a => (v, a.adj, a.weight))) := by
  obtain ⟨pq', ls, st, hB, hlen, hcore⟩ := h
  obtain ⟨g₀, hfi, hch⟩ := hB.start
  have hrc := hB.rc
  have hlt : ∀ l ∈ ls, l.node < ig.numNodes := by
    intro l hl
    obtain ⟨j, hj⟩ := List.getElem?_of_mem hl
    have := List.getElem?_eq_some_iff.1 (hrc.rk j l hj)
    obtain ⟨h1, _⟩ := this
    rw [hrc.lenR] at h1
    exact h1
  have hperm : (ls.map Lvl.node).Perm (List.range (ls.map Lvl.node).length) := by
    have hsub : (ls.map Lvl.node).Subperm (List.range (ls.map Lvl.node).length) := by
      refine List.subperm_of_subset hB.nodup ?_
      intro x hx
      obtain ⟨l, hl, rfl⟩ := List.mem_map.1 hx
      rw [List.length_map, hlen]
      exact List.mem_range.2 (hlt l hl)
    exact hsub.perm_of_length_le (by simp)
  have hno : fg.getNodeOrdering = .ok (ls.map Lvl.node) := by
    refine getNodeOrdering_eq ?_ hperm ?_
    · rw [hcore.ranks, hrc.lenR, List.length_map, hlen]
    · intro j v hj
      rw [List.getElem?_map, Option.map_eq_some_iff] at hj
      obtain ⟨l, hl, rfl⟩ := hj
      rw [hcore.ranks]
      exact hrc.rk j l hl
  rw [hord] at hno
  injection hno with hno
  have hgetv : (ls.map Lvl.node)[pre.length]? = some v := by rw [← hno, he]; simp
  rw [List.getElem?_map, Option.map_eq_some_iff] at hgetv
  obtain ⟨l, hl, hlv⟩ := hgetv
  have hr0 : remaining P pq ig ms [] = .ok g₀ := by
    unfold remaining fromInputGraph InputGraph.getNumNodes InputGraph.getEdges InputGraph.checkFrozen
    rw [hF.frozen]
    simp only [assertM_true, bind_okM, forM_nil]
    rw [hfi.run]
    rfl
  obtain ⟨g1, k1, k2, k3, k4, k5, k6⟩ := chain_remaining hch [] hr0 hfi.wf (by intro u hu; simp at hu) pre.length l hl
  have hpre : ([] : List Nat) ++ (ls.map Lvl.node).take pre.length = pre := by rw [← hno, he]; simp
  rw [hpre] at k1 k4
  subst hlv
  have hall : ∀ u < ig.numNodes, ∃ (j : Nat) (l : Lvl), ls[j]? = some l ∧ l.node = u := by
    intro u hu
    obtain ⟨l', hl', rfl⟩ := List.mem_map.1 (all_nodes hB.nodup hlt hlen u hu)
    obtain ⟨j, hj⟩ := List.getElem?_of_mem hl'
    exact ⟨j, l', hj, rfl⟩
  have hsh := hcore.shape (hrc.shape hlen hall)
  refine ⟨g1, k1, k2, k3, by rw [hno]; exact hB.nodup, k4, ?_, ?_⟩
  · unfold storedOut
    rw [hsh.beginOut k3, hsh.endOut k3]
    simp only [bind_okM]
    obtain ⟨e1, e2⟩ := hrc.bo_eq hl
    rw [hcore.bo, hcore.eo, e1, e2]
    have hc : (fun d : FastGraphEdge => (d.baseNode, d.adjNode, d.weight)) = FastGraphEdge.core := rfl
    rw [hc, List.map_take, List.map_drop, hcore.ef, hrc.ef, ← List.map_drop, ← List.map_take]
    have := take_drop_flatten (Recorded.blockF (P := P) hl)
    rw [show off (blocksF P ls) pre.length + l.outs.length - off (blocksF P ls) pre.length =
      (mkEdges P l.node l.outs).length by simp [mkEdges], this]
    rw [mkEdges, List.map_map, k5]
    rfl
  · unfold storedIn
    rw [hsh.beginIn k3, hsh.endIn k3]
    simp only [bind_okM]
    obtain ⟨e1, e2⟩ := hrc.bi_eq hl
    rw [hcore.bi, hcore.ei, e1, e2]
    have hc : (fun d : FastGraphEdge => (d.baseNode, d.adjNode, d.weight)) = FastGraphEdge.core := rfl
    rw [hc, List.map_take, List.map_drop, hcore.eb, hrc.eb, ← List.map_drop, ← List.map_take]
    have := take_drop_flatten (Recorded.blockB (P := P) hl)
    rw [show off (blocksB P ls) pre.length + l.ins.length - off (blocksB P ls) pre.length =
      (mkEdges P l.node l.ins).length by simp [mkEdges], this]
    rw [mkEdges, List.map_map, k6]
    rfl

/-- Nothing is hung below a node after its contraction. -/
theorem depth_of_order {order pre rest : List Nat} {v k : Nat} (he : order = pre ++ v :: rest)
    (hiso : ∀ before u after, order = before ++ u :: after → v ∈ before → ¬ Adjacent (G before) u v)
    (hself : ¬ Adjacent (G pre) v v) (h : Depth G order v k) : Depth G pre v k := by
  cases h with
  | zero => exact .zero _ _
  | @step before after u _ k h1 h2 =>
    rcases List.append_eq_append_iff.1 he with ⟨c, hc1, hc2⟩ | ⟨c, hc1, hc2⟩
    · cases c with
      | nil =>
        simp only [List.nil_append, List.cons.injEq] at hc2
        simp only [List.append_nil] at hc1
        obtain ⟨rfl, rfl⟩ := hc2
        subst hc1
        exact absurd h2 hself
      | cons x c =>
        simp only [List.cons_append, List.cons.injEq] at hc2
        obtain ⟨rfl, rfl⟩ := hc2
        rw [hc1]
        exact .step h1 h2
    · cases c with
      | nil =>
        simp only [List.nil_append, List.cons.injEq] at hc2
        simp only [List.append_nil] at hc1
        obtain ⟨rfl, rfl⟩ := hc2
        subst hc1
        exact absurd h2 hself
      | cons x c =>
        simp only [List.cons_append, List.cons.injEq] at hc2
        obtain ⟨rfl, rfl⟩ := hc2
        exact absurd h2 (hiso before u after rfl (by rw [hc1]; simp))

theorem depth_le_length {done : List Nat} {x k : Nat} (h : Depth G done x k) : k ≤ done.length := by
  induction h with
  | zero => exact Nat.zero_le _
  | step _ _ ih => simp; omega

theorem isLevel_exists (G : List Nat → EdgeRel) (done : List Nat) (x : Nat) : ∃ k, IsLevel G done x k := by
  classical
  have h0 : ∃ k, Depth G done x (done.length - k) := by
    exact ⟨done.length, by rw [Nat.sub_self]; exact .zero _ _⟩
  refine ⟨done.length - Nat.find h0, Nat.find_spec h0, fun k hk => ?_⟩
  have hkl := depth_le_length hk
  have : Nat.find h0 ≤ done.length - k := Nat.find_min' h0 (by rw [show done.length - (done.length - k) = k by omega]; exact hk)
  omega

theorem isLevel_unique {done : List Nat} {x k k' : Nat} (h : IsLevel G done x k) (h' : IsLevel G done x k') : k = k' :=
  Nat.le_antisymm (h'.2 _ h.1) (h.2 _ h'.1)

theorem lastUpdate_unique {done : List Nat} {x : Nat} {b b' : List Nat} (h : LastUpdate G done x b) (h' : LastUpdate G done x b') :
    b = b' := by
  have key : ∀ {b b' : List Nat}, LastUpdate G done x b → LastUpdate G done x b' → b.length < b'.length → False := by
    rintro b b' ⟨s, e, _, h2⟩ ⟨s', e', h1', _⟩ hlt
    rcases h1' with rfl | ⟨c, u, rfl, ha⟩
    · simp at hlt
    · rw [e] at e'
      rcases List.append_eq_append_iff.1 e' with ⟨d, hd1, hd2⟩ | ⟨d, hd1, hd2⟩
      · rcases List.eq_nil_or_concat d with rfl | ⟨d', z, rfl⟩
        · rw [List.append_nil] at hd1
          rw [hd1] at hlt
          exact Nat.lt_irrefl _ hlt
        · have hd3 : c ++ [u] = (b ++ d') ++ [z] := by rw [hd1]; simp
          have := List.append_inj' hd3 rfl
          have hz : u = z := by simpa using this.2
          subst hz
          rw [this.1] at ha
          exact h2 d' u s' (by rw [hd2]; simp) ha
      · rw [hd1] at hlt
        simp at hlt
  rcases Nat.lt_trichotomy b.length b'.length with hl | hl | hl
  · exact (key h h' hl).elim
  · obtain ⟨s, e, _⟩ := h
    obtain ⟨s', e', _⟩ := h'
    exact (List.append_inj (e.symm.trans e') hl).1
  · exact (key h' h hl).elim

end FP
