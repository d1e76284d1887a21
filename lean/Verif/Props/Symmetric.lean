import Verif.Props.Minimal
/-! # Prepared forms of undirected graphs -/
set_option autoImplicit false
namespace FP
namespace Props
open Spec PreparationGraph

/-- Only `add_edge_bidir` was used. -/
def Undirected (ops : List Op) : Prop := ∀ op ∈ ops, ∀ a b w, op ≠ .addEdge a b w

/-- Every node has the same out-edges as in-edges. -/
def StoredSymmetric (fg : FastGraph) : Prop :=
  (∀ u v w, Up fg u v w ↔ Down fg v u w) ∧ fg.getNumOutEdges = fg.getNumInEdges

theorem undirected_accepted {ops : List Op} (h : Undirected ops) {u v w : Nat} (he : (⟨u, v, w⟩ : Edge) ∈ accepted ops) :
    (⟨v, u, w⟩ : Edge) ∈ accepted ops := by
  obtain ⟨op, hop, he⟩ := List.mem_flatMap.1 he
  refine List.mem_flatMap.2 ⟨op, hop, ?_⟩
  cases op with
  | addEdge a b x => exact absurd rfl (h _ hop a b x)
  | addEdgeBidir a b x =>
    simp only [Op.edges] at he ⊢
    by_cases hcond : a ≠ b ∧ 1 ≤ x
    · rw [if_pos hcond] at he ⊢
      simp at he ⊢
      rcases he with ⟨rfl, rfl, rfl⟩ | ⟨rfl, rfl, rfl⟩ <;> simp
    · rw [if_neg hcond] at he; simp at he
  | freeze => simp [Op.edges] at he
  | thaw => simp [Op.edges] at he

theorem undirected_edges {ops : List Op} (h : Undirected ops) {ig : InputGraph} (hi : GInv (accepted ops) ig) (hf : ig.frozen = true)
    {u v w : Nat} (he : edgesOf ig.edges u v w) : edgesOf ig.edges v u w := by
  obtain ⟨h1, h2⟩ := (hi.mem_iff hf u v w).1 he
  exact (hi.mem_iff hf v u w).2 ⟨undirected_accepted h h1, fun w' h' => h2 w' (undirected_accepted h h')⟩

/-- The counts follow. -/
theorem storedSymmetric_of {P : Plat} (hP : P.checked = true) {ops : List Op} {ig : InputGraph} {fg : FastGraph} (hc : Client P ops ig fg)
    (h : ∀ u v w, Up fg u v w ↔ Down fg v u w) : StoredSymmetric fg := by
  refine ⟨h, ?_⟩
  have hs := (hc.good hP).toFSound
  have hcons := hs.consistent
  obtain ⟨n1, n2⟩ := C63_one_edge_per_pair hP hc
  apply Nat.le_antisymm
  · refine length_le_of_pairs n1 ?_
    intro e he
    obtain ⟨u, i, ho⟩ := (mem_fwd hs.toShape).1 he
    obtain ⟨i', ed, ho', q, _⟩ := (h u e.adjNode e.weight).1 ⟨i, e, ho, rfl, rfl⟩
    exact ⟨ed, (mem_bwd hs.toShape).2 ⟨u, i', ho'⟩, by rw [(hcons.inEdge _ _ _ ho').1, (hcons.outEdge _ _ _ ho).1], q⟩
  · refine length_le_of_pairs n2 ?_
    intro e he
    obtain ⟨u, i, ho⟩ := (mem_bwd hs.toShape).1 he
    obtain ⟨i', ed, ho', q, _⟩ := (h u e.adjNode e.weight).2 ⟨i, e, ho, rfl, rfl⟩
    exact ⟨ed, (mem_fwd hs.toShape).2 ⟨u, i', ho'⟩, by rw [(hcons.outEdge _ _ _ ho').1, (hcons.inEdge _ _ _ ho).1], q⟩

/-- Without searches a contraction keeps the symmetry. -/
theorem zero_symmetric {P : Plat} (hP : P.checked = true) {pq : PQ} {n : Nat} (hn : n ≤ P.umax) {g g' : PreparationGraph} (hg : WF n g)
    {v : Nat} (hv : v < n) {ws ws' : WitnessSearch pq} (hws : ws.Base n) (e : contractNode P g ws v 0 = .ok (g', ws'))
    (h : ∀ x y w, g.rel x y w → g.rel y x w) : ∀ x y w, g'.rel x y w → g'.rel y x w := by
  have k := (contractNode_lt hP hn hg hv hws).of_ok e
  obtain ⟨k1, k2⟩ := (contractNode_zero hP hn hg hv hws).of_ok e
  have hwf := ((contractNode_ok hP hn hg hv hws).of_ok e).1.wf
  simp only at k k1 k2 hwf
  have half : ∀ x y w, g'.rel x y w → ∃ w' ≤ w, g'.rel y x w' := by
    rintro x y w ⟨c, hc⟩
    obtain ⟨hx, hy, hc' | ⟨a, ha, b, hb, rfl, hby, hw, hlt⟩⟩ := k x _ hc
    · obtain ⟨w', h1, h2⟩ := k1 y x w ⟨h x y w ⟨c, hc'⟩, hy, hx⟩
      exact ⟨w', h1, h2⟩
    · simp only at hby hw hlt hy
      subst hby
      obtain ⟨c1, h1⟩ := h _ _ _ ⟨a.center, hg.mirror_in ha⟩
      obtain ⟨c2, h2⟩ := h _ _ _ ⟨b.center, hb⟩
      have hne : a.adj ≠ b.adj := fun e => hwf.noLoop _ _ hc e.symm
      obtain ⟨w', h3, h4⟩ := k2 _ ((hg.mirror _ _ _ _).1 h2) _ h1 hne.symm (by simp only; omega)
      simp only at h3 h4
      exact ⟨w', by omega, h4⟩
  intro x y w hr
  obtain ⟨w1, l1, h1⟩ := half _ _ _ hr
  obtain ⟨w2, l2, h2⟩ := half _ _ _ h1
  have : w2 = w := rel_uniq hwf h2 hr
  have : w1 = w := by omega
  rw [← this]; exact h1

theorem remaining_symmetric {P : Plat} (hP : P.checked = true) {pq : PQ} {ig : InputGraph} (hF : FrozenOk ig) (hn : ig.numNodes ≤ P.umax)
    (hs : ∀ u v w, edgesOf ig.edges u v w → edgesOf ig.edges v u w) (done : List Nat) : (∀ v ∈ done, v < ig.numNodes) →
    ∀ {g : PreparationGraph}, remaining P pq ig 0 done = .ok g → WF ig.numNodes g ∧ ∀ x y w, g.rel x y w → g.rel y x w := by
  induction hl : done.length generalizing done with
  | zero =>
    intro _ g h
    cases List.length_eq_zero_iff.1 hl
    obtain ⟨gi, e, hgi⟩ := fromInputGraph_ok (P := P) hF
    unfold remaining at h
    rw [e] at h
    simp only [bind_okM, forM_nil] at h
    cases h
    exact ⟨hgi.wf, fun x y w hr => hgi.rel_iff.2 (hs _ _ _ (hgi.rel_iff.1 hr))⟩
  | succ k ih =>
    intro hlt g h
    obtain ⟨d, v, rfl⟩ : ∃ d v, done = d ++ [v] := by
      rcases List.eq_nil_or_concat done with rfl | ⟨d, v, rfl⟩
      · simp at hl
      · exact ⟨d, v, by rw [List.concat_eq_append]⟩
    obtain ⟨g1, hg1⟩ : ∃ g', remaining P pq ig 0 d = .ok g' := by
      unfold remaining at h ⊢
      obtain ⟨gi, e, h⟩ := bind_eq_ok.1 h
      rw [e]
      simp only [bind_okM]
      rw [forM_append] at h
      obtain ⟨g', e', _⟩ := bind_eq_ok.1 h
      exact ⟨g', e'⟩
    rw [remaining_snoc hg1] at h
    obtain ⟨r, er, hr⟩ := bind_eq_ok.1 h
    injection hr with hr
    subst hr
    obtain ⟨w1, hu⟩ := ih d (by simpa using hl) (fun x hx => hlt x (by simp [hx])) hg1
    have hv : v < ig.numNodes := hlt v (by simp)
    exact ⟨((contractNode_ok hP hn w1 hv (WitnessSearch.Base.new P pq _)).of_ok er).1.wf,
      zero_symmetric hP hn w1 hv (WitnessSearch.Base.new P pq _) er hu⟩

/-- **C100, as one would expect** The prepared form of an undirected graph is symmetric: whatever the order and the limit, every node has
the same out-edges as in-edges. -/
def UndirectedStoredSymmetric (P : Plat) : Prop :=
  ∀ (ops : List Op) (ig : InputGraph) (pq : PQ) (order : List Nat) (maxSettled : Nat) (fg : FastGraph), Undirected ops →
    buildGraph P ops = .ok ig → ig.frozen = true → order.Perm (List.range ig.numNodes) →
    prepareWithOrderWithParams P pq ig order maxSettled = .ok (.ok fg) → StoredSymmetric fg

/-- A triangle 0, 1, 2 and a node 3 next to 0. -/
def Ex.kite : List Op := [.addEdgeBidir 0 1 1, .addEdgeBidir 1 2 1, .addEdgeBidir 0 2 2, .addEdgeBidir 0 3 1, .freeze]

/-- What `Ex.kite` builds. -/
def Ex.kiteIg : InputGraph where
  edges := [⟨0, 1, 1⟩, ⟨0, 2, 2⟩, ⟨0, 3, 1⟩, ⟨1, 0, 1⟩, ⟨1, 2, 1⟩, ⟨2, 0, 2⟩, ⟨2, 1, 1⟩, ⟨3, 0, 1⟩]
  numNodes := 4
  frozen := true

/-- **C100** This is false, even with a limit above the number of nodes. When 0 is contracted, first, the shortcut from 1 to 3 is there when
the search from 2 to 3 is made, and no shortcut from 2 to 3 is added. The shortcut from 3 to 1 comes too late for the search from 3 to 2,
which has already passed 3, and a shortcut from 3 to 2 is added. -/
theorem C100_false : ¬ UndirectedStoredSymmetric debug64 := by
  intro h
  obtain ⟨fg, e, hne⟩ : ∃ fg, prepareWithOrderWithParams debug64 binaryHeap Ex.kiteIg [0, 2, 1, 3] 100 = .ok (.ok fg) ∧
    fg.getNumOutEdges ≠ fg.getNumInEdges := ⟨_, rfl, by decide⟩
  exact hne (h Ex.kite Ex.kiteIg binaryHeap [0, 2, 1, 3] 100 fg (by unfold Undirected Ex.kite; simp) rfl rfl (by decide) e).2

theorem no_search_symmetric {P : Plat} (hP : P.checked = true) {ops : List Op} (hu : Undirected ops) {ig : InputGraph} {fg : FastGraph}
    (hc : Client P ops ig fg) {pq : PQ} (hB : BuiltFrom P ig.numNodes (freshStep pq P ig.numNodes 0) ig.edges fg) : StoredSymmetric fg := by
  have hF := (hc.inv hP).frozenOk hc.frozen
  have hg := hc.good hP
  obtain ⟨order, ho, hperm, _⟩ := C13_ordering_is_permutation hP hc
  have key : ∀ v < ig.numNodes, ∀ x w, Up fg v x w ↔ Down fg x v w := by
    intro v hv x w
    obtain ⟨pre, rest, he⟩ := List.append_of_mem (hperm.mem_iff.2 (List.mem_range.2 hv))
    obtain ⟨g, h1, _, _, _, h2, h3⟩ := stored_rel hF hB ho he
    obtain ⟨_, hs⟩ := remaining_symmetric hP hF (Nat.le_of_lt hg.n_lt) (fun _ _ _ he => undirected_edges hu (hc.inv hP) hc.frozen he) pre
      (fun x hx => List.mem_range.1 (hperm.mem_iff.1 (by rw [he]; simp [hx]))) h1
    rw [h2, h3]
    exact ⟨hs _ _ _, hs _ _ _⟩
  refine storedSymmetric_of hP hc fun u v w => ⟨fun h => ?_, fun h => ?_⟩
  · exact (key u (hg.toFSound.up h).1 v w).1 h
  · exact (key u (hg.toFSound.down h).2.1 v w).2 h

theorem no_detours_symmetric {P : Plat} (hP : P.checked = true) {ops : List Op} (hu : Undirected ops) {ig : InputGraph} {fg : FastGraph}
    (hc : Client P ops ig fg) {pq : PQ} {maxSettled : Nat} (hms : ig.numNodes < maxSettled)
    (hB : BuiltFrom P ig.numNodes (freshStep pq P ig.numNodes maxSettled) ig.edges fg) (hd : NoDetours (edgesOf ig.edges))
    (hw : ∀ e ∈ ig.edges, e.weight < P.umax) : StoredSymmetric fg := by
  have hF := (hc.inv hP).frozenOk hc.frozen
  have hgood := hc.good hP
  have hs : ∀ {u v w}, HasWalk (edgesOf ig.edges) u v w → HasWalk (edgesOf ig.edges) v u w := by
    intro u v w h
    exact hasWalk_iff.2 ((hasWalk_iff.1 h).rev.mono (fun _ _ _ h => undirected_edges hu (hc.inv hP) hc.frozen h))
  have hun : ∀ {s t d}, Unavoidable (edgesOf ig.edges) fg s t d → Unavoidable (edgesOf ig.edges) fg t s d := by
    rintro s t d ⟨⟨h1, h2⟩, h3⟩
    refine ⟨⟨hs h1, fun w h => h2 w (hs h)⟩, fun x a b ha hb e => ?_⟩
    rcases h3 x b a (hs hb) (hs ha) (by omega) with h | h | h
    · exact Or.inr (Or.inl h)
    · exact Or.inl h
    · exact Or.inr (Or.inr ⟨h.2, h.1⟩)
  have hkey := fun {s t d : Nat} => exactly_unavoidable hP hc hms hB hd (s := s) (t := t) (d := d)
  have hlt := fun {s t d : Nat} (h : Up fg s t d ∨ Down fg s t d) =>
    (stored_unavoidable hP hF hms (noDetours_iff.1 hd) hgood hB s t d).1 h (fun _ _ _ he => hw _ he)
  refine storedSymmetric_of hP hc fun u v w => ⟨fun h => ?_, fun h => ?_⟩
  · have k := hlt (Or.inl h)
    obtain ⟨h1, h2⟩ := (hkey k).1.1 h
    exact (hkey k).2.2 ⟨h1, hun h2⟩
  · have k := hlt (Or.inr h)
    obtain ⟨h1, h2⟩ := (hkey k).2.1 h
    exact (hkey k).1.2 ⟨h1, hun h2⟩

/-- **C100, partial** Without witness searches it is so: `maxSettled = 0`. Missing (and false, see above): other limits. -/
theorem C100_no_search_partial {P : Plat} (hP : P.checked = true) {ops : List Op} (hu : Undirected ops) {ig : InputGraph}
    (hb : buildGraph P ops = .ok ig) (hf : ig.frozen = true) {pq : PQ} {order : List Nat} (hperm : order.Perm (List.range ig.numNodes))
    {fg : FastGraph} (hp : prepareWithOrderWithParams P pq ig order 0 = .ok (.ok fg)) : StoredSymmetric fg := by
  have hF := (buildGraph_inv (Or.inl hP) hb).frozenOk hf
  obtain ⟨_, e, _, hB, _⟩ := (buildWithOrder_built hP hF hperm _ (stepsOk_fresh pq P _ _)).of_ok hp
  cases e
  exact no_search_symmetric hP hu ⟨hb, hf, .orderParams pq order 0 hperm hp⟩ hB

/-- **C100, partial** The same for `prepare_with_params`; the limits used when the order is found do not matter. -/
theorem C100_no_search_params_partial {P : Plat} (hP : P.checked = true) {ops : List Op} (hu : Undirected ops) {ig : InputGraph}
    (hb : buildGraph P ops = .ok ig) (hf : ig.frozen = true) {pq : PQ} {nq : NodeQueue} {params : Params}
    (hms : params.maxSettledContraction = 0) {fg : FastGraph} (hp : prepareWithParams P pq nq ig params = .ok fg) : StoredSymmetric fg := by
  have hF := (buildGraph_inv (Or.inl hP) hb).frozenOk hf
  obtain ⟨_, hB⟩ := (buildWithParams_built hP hF params (stepsOk_fresh pq P _ _)).of_ok hp
  rw [hms] at hB
  exact no_search_symmetric hP hu ⟨hb, hf, .params pq nq params hp⟩ hB

/-- **C100, partial** With a limit above the number of nodes it is so if no edge has a detour that is not longer. -/
theorem C100_no_detours_partial {P : Plat} (hP : P.checked = true) {ops : List Op} (hu : Undirected ops) {ig : InputGraph}
    (hb : buildGraph P ops = .ok ig) (hf : ig.frozen = true) {pq : PQ} {order : List Nat} (hperm : order.Perm (List.range ig.numNodes))
    {maxSettled : Nat} (hms : ig.numNodes < maxSettled) {fg : FastGraph}
    (hp : prepareWithOrderWithParams P pq ig order maxSettled = .ok (.ok fg)) (hd : NoDetours (edgesOf ig.edges))
    (hw : ∀ e ∈ ig.edges, e.weight < P.umax) : StoredSymmetric fg := by
  have hF := (buildGraph_inv (Or.inl hP) hb).frozenOk hf
  obtain ⟨_, e, _, hB, _⟩ := (buildWithOrder_built hP hF hperm _ (stepsOk_fresh pq P _ _)).of_ok hp
  cases e
  exact no_detours_symmetric hP hu ⟨hb, hf, .orderParams pq order maxSettled hperm hp⟩ hms hB hd hw

/-- **C100, partial** The same for `prepare_with_params`. -/
theorem C100_no_detours_params_partial {P : Plat} (hP : P.checked = true) {ops : List Op} (hu : Undirected ops) {ig : InputGraph}
    (hb : buildGraph P ops = .ok ig) (hf : ig.frozen = true) {pq : PQ} {nq : NodeQueue} {params : Params}
    (hms : ig.numNodes < params.maxSettledContraction) {fg : FastGraph} (hp : prepareWithParams P pq nq ig params = .ok fg)
    (hd : NoDetours (edgesOf ig.edges)) (hw : ∀ e ∈ ig.edges, e.weight < P.umax) : StoredSymmetric fg := by
  have hF := (buildGraph_inv (Or.inl hP) hb).frozenOk hf
  obtain ⟨_, hB⟩ := (buildWithParams_built hP hF params (stepsOk_fresh pq P _ _)).of_ok hp
  exact no_detours_symmetric hP hu ⟨hb, hf, .params pq nq params hp⟩ hms hB hd hw

/-- The kite without searches. -/
example : ∃ fg, prepareWithOrderWithParams debug64 binaryHeap Ex.kiteIg [0, 2, 1, 3] 0 = .ok (.ok fg) ∧ StoredSymmetric fg ∧
    fg.getNumOutEdges = 6 := by
  obtain ⟨fg, e, hn⟩ : ∃ fg, prepareWithOrderWithParams debug64 binaryHeap Ex.kiteIg [0, 2, 1, 3] 0 = .ok (.ok fg) ∧
    fg.getNumOutEdges = 6 := ⟨_, rfl, by decide⟩
  exact ⟨fg, e, C100_no_search_partial (P := debug64) (ops := Ex.kite) rfl (by unfold Undirected Ex.kite; simp) rfl rfl (by decide) e, hn⟩

/-- A star with three leaves, of which the middle is contracted first. -/
example : ∃ ig fg, buildGraph debug64 [.addEdgeBidir 0 1 1, .addEdgeBidir 0 2 1, .addEdgeBidir 0 3 1, .freeze] = .ok ig ∧
    prepareWithOrderWithParams debug64 binaryHeap ig [0, 1, 2, 3] 100 = .ok (.ok fg) ∧ StoredSymmetric fg ∧ fg.getNumOutEdges = 6 := by
  obtain ⟨ig, e, h1, h2, h3⟩ : ∃ ig, buildGraph debug64 [.addEdgeBidir 0 1 1, .addEdgeBidir 0 2 1, .addEdgeBidir 0 3 1, .freeze] = .ok ig ∧
    ig.frozen = true ∧ ig.numNodes = 4 ∧ ∀ e ∈ ig.edges, e.weight = 1 := ⟨_, rfl, rfl, rfl, by decide⟩
  obtain ⟨fg, e', hn⟩ : ∃ fg, prepareWithOrderWithParams debug64 binaryHeap
    (match buildGraph debug64 [.addEdgeBidir 0 1 1, .addEdgeBidir 0 2 1, .addEdgeBidir 0 3 1, .freeze] with | .ok ig => ig | .error _ => Ex.kiteIg)
    [0, 1, 2, 3] 100 = .ok (.ok fg) ∧ fg.getNumOutEdges = 6 := ⟨_, rfl, by decide⟩
  rw [e] at e'
  refine ⟨ig, fg, e, e', C100_no_detours_partial (P := debug64) rfl (by unfold Undirected; simp) e h1 (by rw [h2]; decide) (by omega) e'
    (noDetours_same_weight (c := 1) (by decide) fun u v w h => h3 _ h) (fun x hx => by rw [h3 x hx]; decide), hn⟩

end Props
end FP
