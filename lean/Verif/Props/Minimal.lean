import Verif.Proofs.Minimal
import Verif.Props.Foreign
import Verif.Props.Order
import Verif.Props.Sizes
/-!
# How many shortcuts there have to be

Which edges every correct graph with given ranks has to store, and how the number of stored edges depends on the settled-nodes limit of
the witness searches.
-/
set_option autoImplicit false
namespace FP
namespace Props
open Spec

/-- A stored edge belongs to a node. -/
theorem mem_fwd {P : Plat} {n : Nat} {g : FastGraph} (h : Shape P n g) {ed : FastGraphEdge} :
    ed ∈ g.edgesFwd ↔ ∃ u i, OutEdge g u i ed := by
  constructor
  · intro hm
    obtain ⟨i, hi⟩ := List.mem_iff_getElem?.1 hm
    obtain ⟨j, hj, a1, a2⟩ := range_cover h.firstF (List.getElem?_eq_some_iff.1 hi).1
    obtain ⟨v, hv, rfl⟩ := rank_surj h hj
    exact ⟨v, i, h.outEdge_iff.2 ⟨hv, a1, a2, hi⟩⟩
  · rintro ⟨u, i, _, _, _, _, _, _, hi⟩
    exact List.mem_of_getElem? hi

theorem mem_bwd {P : Plat} {n : Nat} {g : FastGraph} (h : Shape P n g) {ed : FastGraphEdge} :
    ed ∈ g.edgesBwd ↔ ∃ u i, InEdge g u i ed := by
  constructor
  · intro hm
    obtain ⟨i, hi⟩ := List.mem_iff_getElem?.1 hm
    obtain ⟨j, hj, a1, a2⟩ := range_cover h.firstB (List.getElem?_eq_some_iff.1 hi).1
    obtain ⟨v, hv, rfl⟩ := rank_surj h hj
    exact ⟨v, i, h.inEdge_iff.2 ⟨hv, a1, a2, hi⟩⟩
  · rintro ⟨u, i, _, _, _, _, _, _, hi⟩
    exact List.mem_of_getElem? hi

/-- Counting stored edges: a counterpart for every edge. -/
theorem counts_le {P P' : Plat} {E E' : EdgeRel} {n n' : Nat} {g g' : FastGraph} (h : FSound P E n g) (h' : FSound P' E' n' g')
    (hF : (g.edgesFwd.map (fun e => (e.baseNode, e.adjNode))).Nodup) (hB : (g.edgesBwd.map (fun e => (e.baseNode, e.adjNode))).Nodup)
    (hup : ∀ u v w, Up g u v w → ∃ w', Up g' u v w') (hdn : ∀ u v w, Down g u v w → ∃ w', Down g' u v w') :
    g.getNumOutEdges ≤ g'.getNumOutEdges ∧ g.getNumInEdges ≤ g'.getNumInEdges := by
  have hc := h.consistent
  have hc' := h'.consistent
  constructor
  · refine length_le_of_pairs hF ?_
    intro e he
    obtain ⟨u, i, ho⟩ := (mem_fwd h.toShape).1 he
    obtain ⟨_, i', ed, ho', q, _⟩ := hup u e.adjNode e.weight ⟨i, e, ho, rfl, rfl⟩
    exact ⟨ed, (mem_fwd h'.toShape).2 ⟨u, i', ho'⟩, by rw [(hc'.outEdge _ _ _ ho').1, (hc.outEdge _ _ _ ho).1], q⟩
  · refine length_le_of_pairs hB ?_
    intro e he
    obtain ⟨u, i, ho⟩ := (mem_bwd h.toShape).1 he
    obtain ⟨_, i', ed, ho', q, _⟩ := hdn e.adjNode u e.weight ⟨i, e, ho, rfl, rfl⟩
    exact ⟨ed, (mem_bwd h'.toShape).2 ⟨u, i', ho'⟩, by rw [(hc'.inEdge _ _ _ ho').1, (hc.inEdge _ _ _ ho).1], q⟩


/-- **C90** Every graph with correct edges that answers all queries correctly (`Covering`, see C78) stores the unavoidable edges: if all
other nodes on shortest routes from `s` to `t` are ranked lower than both, it has an edge from `s` to `t` whose weight is the
distance. -/
theorem C90_unavoidable_edges {P : Plat} {E : EdgeRel} {g : FastGraph} (hg : Consistent P.umax E g) (hv : Covering P.umax E g)
    {s t d : Nat} (hs : s < g.numNodes) (ht : t < g.numNodes) (hne : s ≠ t) (hd : d < P.umax) (hu : Unavoidable E g s t d) :
    (Above g s t ∧ Up g s t d) ∨ (Above g t s ∧ Down g s t d) :=
  hg.sound.unavoidable_stored hne
    ((hg.sound.upDownWalk_iff hs ht).2 (hg.sound.complete_of_covering hv hs ht (hasWalk_iff.1 hu.1.1) hd)) hu

/-- **C90** In particular every prepared graph does, whatever the order, the parameters, the heap and the queue. -/
theorem C90_prepared {P : Plat} (hP : P.checked = true) {ops : List Op} {ig : InputGraph} {fg : FastGraph} (hc : Client P ops ig fg)
    {s t d : Nat} (hne : s ≠ t) (hd : d < P.umax) (hu : Unavoidable (edgesOf ig.edges) fg s t d) :
    (Above fg s t ∧ Up fg s t d) ∨ (Above fg t s ∧ Down fg s t d) := by
  have hF := (hc.inv hP).frozenOk hc.frozen
  have hg := hc.good hP
  have hb : ∀ {s t w : Nat}, Wk (edgesOf ig.edges) s t w → s ≠ t → s < ig.numNodes ∧ t < ig.numNodes := by
    intro s t w k
    induction k with
    | nil => intro h; exact absurd rfl h
    | @cons s x t a b e k ih =>
      intro _
      obtain ⟨e1, e2⟩ := hF.lt _ e
      by_cases hxt : x = t
      · subst hxt; exact ⟨e1, e2⟩
      · exact ⟨e1, (ih hxt).2⟩
  obtain ⟨hs, ht⟩ := hb (hasWalk_iff.1 hu.1.1) hne
  have hnum : fg.numNodes = ig.numNodes := hg.toShape.num
  exact C90_unavoidable_edges (C77_prepared hP hc).2 (C78_prepared hP hc) (by rw [hnum]; exact hs) (by rw [hnum]; exact ht) hne hd hu

/-- Three nodes in a row. -/
def Ex.row : List Op := [.addEdgeBidir 0 1 1, .addEdgeBidir 1 2 1, .freeze]

/-- A concrete case: if the middle node comes first, there has to be an edge of weight 2 from 0 to 2. It is a shortcut. -/
example {fg : FastGraph} (h : prepareWithOrderWithParams debug64 binaryHeap ⟨[⟨0, 1, 1⟩, ⟨1, 0, 1⟩, ⟨1, 2, 1⟩, ⟨2, 1, 1⟩], 3, true⟩
    [1, 0, 2] 100 = .ok (.ok fg)) : (Above fg 0 2 ∧ Up fg 0 2 2) ∨ (Above fg 2 0 ∧ Down fg 0 2 2) := by
  refine C90_prepared (P := debug64) (ops := Ex.row) rfl ⟨rfl, rfl, .orderParams binaryHeap [1, 0, 2] 100 (by decide) h⟩ (by decide)
    (by decide) ?_
  have hE : ∀ {u v w}, edgesOf [⟨0, 1, 1⟩, ⟨1, 0, 1⟩, ⟨1, 2, 1⟩, ⟨2, 1, 1⟩] u v w ↔
      (u = 0 ∧ v = 1 ∧ w = 1) ∨ (u = 1 ∧ v = 0 ∧ w = 1) ∨ (u = 1 ∧ v = 2 ∧ w = 1) ∨ (u = 2 ∧ v = 1 ∧ w = 1) := by
    intro u v w
    unfold edgesOf
    simp
  have h1 : ∀ {x t w}, Wk (edgesOf [⟨0, 1, 1⟩, ⟨1, 0, 1⟩, ⟨1, 2, 1⟩, ⟨2, 1, 1⟩]) x t w → t = 2 →
      (x = 2 ∨ (x = 1 ∧ 1 ≤ w) ∨ (x = 0 ∧ 2 ≤ w)) := by
    intro x t w k
    induction k with
    | nil => exact fun h => Or.inl h
    | cons e _ ih => intro ht; have := ih ht; have := hE.1 e; omega
  refine ⟨⟨hasWalk_iff.2 (.cons (b := 1) (x := 1) (hE.2 (by decide)) (.single (hE.2 (by decide)))), ?_⟩, ?_⟩
  · intro w' k
    have := h1 (hasWalk_iff.1 k) rfl
    omega
  · intro x a b _ k2 _
    rcases h1 (hasWalk_iff.1 k2) rfl with r | ⟨r, _⟩ | ⟨r, _⟩
    · exact Or.inr (Or.inl r)
    · subst r
      cases h
      exact Or.inr (Or.inr ⟨⟨0, 1, rfl, rfl, by decide⟩, ⟨0, 2, rfl, rfl, by decide⟩⟩)
    · exact Or.inl r
example : ∃ fg, prepareWithOrderWithParams debug64 binaryHeap ⟨[⟨0, 1, 1⟩, ⟨1, 0, 1⟩, ⟨1, 2, 1⟩, ⟨2, 1, 1⟩], 3, true⟩
    [1, 0, 2] 100 = .ok (.ok fg) ∧ Up fg 0 2 2 := ⟨_, rfl, 2, _, ⟨2, 3, rfl, rfl, by decide, by decide, rfl⟩, rfl, rfl⟩

/-- With the same order, no settled-nodes limit gives more stored edges than 0. -/
theorem zero_most {P : Plat} (hP : P.checked = true) {ops : List Op} {ig : InputGraph} {fg fg₀ : FastGraph}
    (hb : buildGraph P ops = .ok ig) (hf : ig.frozen = true) {pq pq₀ : PQ} {order : List Nat} {maxSettled : Nat}
    (hperm : order.Perm (List.range ig.numNodes)) (hp : prepareWithOrderWithParams P pq ig order maxSettled = .ok (.ok fg))
    (hp₀ : prepareWithOrderWithParams P pq₀ ig order 0 = .ok (.ok fg₀)) :
    (∀ u v w, Up fg u v w → ∃ w' ≤ w, Up fg₀ u v w') ∧ ∀ u v w, Down fg u v w → ∃ w' ≤ w, Down fg₀ u v w' := by
  have hF := (buildGraph_inv (Or.inl hP) hb).frozenOk hf
  obtain ⟨_, e, hg, hB, _⟩ := (buildWithOrder_built hP hF hperm _ (stepsOk_fresh pq P _ _)).of_ok hp
  cases e
  obtain ⟨_, e, hg₀, hB₀, _⟩ := (buildWithOrder_built hP hF hperm _ (stepsOk_fresh pq₀ P _ _)).of_ok hp₀
  cases e
  have hn : ig.numNodes ≤ P.umax := Nat.le_of_lt hg.n_lt
  have ho := C13_order_is_kept hP hb hf hperm hp
  have ho₀ := C13_order_is_kept hP hb hf hperm hp₀
  have key : ∀ v < ig.numNodes, ∃ g g₀, PreparationGraph.WF ig.numNodes g ∧ Under g g₀ ∧ (∀ x w, Up fg v x w ↔ g.rel v x w) ∧
      (∀ x w, Down fg x v w ↔ g.rel x v w) ∧ (∀ x w, Up fg₀ v x w ↔ g₀.rel v x w) ∧ ∀ x w, Down fg₀ x v w ↔ g₀.rel x v w := by
    intro v hv
    obtain ⟨pre, rest, he⟩ := List.append_of_mem (hperm.mem_iff.2 (List.mem_range.2 hv))
    obtain ⟨g, h1, _, _, _, h2, h3⟩ := stored_rel hF hB ho he
    obtain ⟨g₀, k1, _, _, _, k2, k3⟩ := stored_rel hF hB₀ ho₀ he
    obtain ⟨w1, _, hu⟩ := remaining_under hP hF hn pre (fun x hx => List.mem_range.1 (hperm.mem_iff.1 (by rw [he]; simp [hx]))) h1 k1
    exact ⟨g, g₀, w1, hu, h2, h3, k2, k3⟩
  constructor
  · intro u v w h
    obtain ⟨g, g₀, _, hu, h1, _, h2, _⟩ := key u (hg.toFSound.up h).1
    obtain ⟨w', hle, k⟩ := hu _ _ _ ((h1 _ _).1 h)
    exact ⟨w', hle, (h2 _ _).2 k⟩
  · intro u v w h
    obtain ⟨g, g₀, _, hu, _, h1, _, h2⟩ := key v (hg.toFSound.down h).2.1
    obtain ⟨w', hle, k⟩ := hu _ _ _ ((h1 _ _).1 h)
    exact ⟨w', hle, (h2 _ _).2 k⟩

/-- **C91, as documented** "Higher values mean less shortcuts (fast graph edges). Lower values mean more shortcuts" (fast_graph_builder.rs:294-297,
and 322-323 for a given order): with the same order, a higher limit never gives more stored edges. -/
def MoreSearchFewerEdges (P : Plat) : Prop :=
  ∀ (ops : List Op) (ig : InputGraph) (pq : PQ) (order : List Nat) (m₁ m₂ : Nat) (fg₁ fg₂ : FastGraph), buildGraph P ops = .ok ig →
    ig.frozen = true → order.Perm (List.range ig.numNodes) → m₁ ≤ m₂ → prepareWithOrderWithParams P pq ig order m₁ = .ok (.ok fg₁) →
    prepareWithOrderWithParams P pq ig order m₂ = .ok (.ok fg₂) →
    fg₂.getNumOutEdges + fg₂.getNumInEdges ≤ fg₁.getNumOutEdges + fg₁.getNumInEdges

/-- A graph with two equally short routes from 0 to 4. -/
def Ex.twoRoutes : List Op :=
  [.addEdge 0 1 1, .addEdge 1 4 2, .addEdge 0 2 1, .addEdge 0 3 2, .addEdge 3 4 1, .addEdge 3 5 2, .addEdge 4 5 1, .freeze]

/-- **C91** This is false: on `Ex.twoRoutes`, contracted in the order 1, 2, 3, 0, 4, 5, a limit of 2 gives fewer edges than a limit of
100. With the limit 2 the search from 0 to 4 around 1 gives up before it sees the route over 3, a shortcut from 0 to 4 is added, and when 3
is contracted this shortcut is the first part of a route from 0 to 5 that makes a shortcut over 3 unnecessary. With the limit 100 the shortcut is not
added then; when 3 is contracted both 0 to 4 and 0 to 5 are. -/
theorem C91_false : ¬ MoreSearchFewerEdges debug64 := by
  intro h
  have := h Ex.twoRoutes _ binaryHeap [1, 2, 3, 0, 4, 5] 2 100 _ _ rfl rfl (by decide) (by decide) rfl rfl
  revert this
  decide

/-- The two numbers. -/
example : ∃ ig fg₁ fg₂, buildGraph debug64 Ex.twoRoutes = .ok ig ∧
    prepareWithOrderWithParams debug64 binaryHeap ig [1, 2, 3, 0, 4, 5] 2 = .ok (.ok fg₁) ∧
    prepareWithOrderWithParams debug64 binaryHeap ig [1, 2, 3, 0, 4, 5] 100 = .ok (.ok fg₂) ∧
    fg₁.getNumOutEdges + fg₁.getNumInEdges = 8 ∧ fg₂.getNumOutEdges + fg₂.getNumInEdges = 9 :=
  ⟨_, _, _, rfl, rfl, rfl, rfl, rfl⟩

/-- **C91, partial** What does hold: with the same order no limit gives more edges than the limit 0. Every edge stored with some limit is
stored with the limit 0 as well, with at most the same weight. Missing (and false, see above): two limits above 0. -/
theorem C91_no_search_most_edges_partial {P : Plat} (hP : P.checked = true) {ops : List Op} {ig : InputGraph} {fg fg₀ : FastGraph}
    (hb : buildGraph P ops = .ok ig) (hf : ig.frozen = true) {pq pq₀ : PQ} {order : List Nat} {maxSettled : Nat}
    (hperm : order.Perm (List.range ig.numNodes)) (hp : prepareWithOrderWithParams P pq ig order maxSettled = .ok (.ok fg))
    (hp₀ : prepareWithOrderWithParams P pq₀ ig order 0 = .ok (.ok fg₀)) :
    (∀ u v w, Up fg u v w → ∃ w' ≤ w, Up fg₀ u v w') ∧ (∀ u v w, Down fg u v w → ∃ w' ≤ w, Down fg₀ u v w') ∧
      fg.getNumOutEdges ≤ fg₀.getNumOutEdges ∧ fg.getNumInEdges ≤ fg₀.getNumInEdges := by
  obtain ⟨h1, h2⟩ := zero_most hP hb hf hperm hp hp₀
  have hc : Client P ops ig fg := ⟨hb, hf, .orderParams pq order maxSettled hperm hp⟩
  have hc₀ : Client P ops ig fg₀ := ⟨hb, hf, .orderParams pq₀ order 0 hperm hp₀⟩
  obtain ⟨n1, n2⟩ := C63_one_edge_per_pair hP hc
  exact ⟨h1, h2, counts_le (hc.good hP).toFSound (hc₀.good hP).toFSound n1 n2
    (fun u v w h => let ⟨w', _, k⟩ := h1 u v w h; ⟨w', k⟩) (fun u v w h => let ⟨w', _, k⟩ := h2 u v w h; ⟨w', k⟩)⟩

/-- A square with edges of weight 1 in both directions. -/
def Ex.square : List Op :=
  [.addEdgeBidir 0 1 1, .addEdgeBidir 1 2 1, .addEdgeBidir 2 3 1, .addEdgeBidir 3 0 1, .freeze]

/-- What `Ex.square` builds. -/
def Ex.squareIg : InputGraph where
  edges := [⟨0, 1, 1⟩, ⟨0, 3, 1⟩, ⟨1, 0, 1⟩, ⟨1, 2, 1⟩, ⟨2, 1, 1⟩, ⟨2, 3, 1⟩, ⟨3, 0, 1⟩, ⟨3, 2, 1⟩]
  numNodes := 4
  frozen := true
theorem Ex.square_built : buildGraph debug64 Ex.square = .ok Ex.squareIg := rfl

/-- A concrete case: without searches two superfluous shortcuts between 1 and 3 are stored. -/
example {fg fg₀ : FastGraph} (h : prepareWithOrderWithParams debug64 binaryHeap Ex.squareIg [0, 1, 2, 3] 100 = .ok (.ok fg))
    (h₀ : prepareWithOrderWithParams debug64 binaryHeap Ex.squareIg [0, 1, 2, 3] 0 = .ok (.ok fg₀)) :
    fg.getNumOutEdges ≤ fg₀.getNumOutEdges ∧ fg.getNumInEdges ≤ fg₀.getNumInEdges :=
  (C91_no_search_most_edges_partial rfl Ex.square_built rfl (by decide) h h₀).2.2
example : ∃ fg fg₀, prepareWithOrderWithParams debug64 binaryHeap Ex.squareIg [0, 1, 2, 3] 100 = .ok (.ok fg) ∧
    prepareWithOrderWithParams debug64 binaryHeap Ex.squareIg [0, 1, 2, 3] 0 = .ok (.ok fg₀) ∧
    fg.getNumOutEdges = 4 ∧ fg₀.getNumOutEdges = 5 ∧ fg.getNumInEdges = 4 ∧ fg₀.getNumInEdges = 5 :=
  ⟨_, _, rfl, rfl, rfl, rfl, rfl, rfl⟩

/-- With a limit above the number of nodes, and if no edge has a detour, the stored edges are exactly the unavoidable ones. -/
theorem exactly_unavoidable {P : Plat} (hP : P.checked = true) {ops : List Op} {ig : InputGraph} {fg : FastGraph}
    (hc : Client P ops ig fg) {pq : PQ} {maxSettled : Nat} (hms : ig.numNodes < maxSettled)
    (hB : BuiltFrom P ig.numNodes (freshStep pq P ig.numNodes maxSettled) ig.edges fg)
    (hd : NoDetours (edgesOf ig.edges)) {s t d : Nat} (hlt : d < P.umax) :
    (Up fg s t d ↔ Above fg s t ∧ Unavoidable (edgesOf ig.edges) fg s t d) ∧
    (Down fg s t d ↔ Above fg t s ∧ Unavoidable (edgesOf ig.edges) fg s t d) := by
  have hF := (hc.inv hP).frozenOk hc.frozen
  have hg := hc.good hP
  have hasym : ∀ {u v}, Above fg u v → ¬ Above fg v u := by
    intro u v h1 h2
    have := (hg.toShape.above_iff.1 h1).2.2
    have := (hg.toShape.above_iff.1 h2).2.2
    omega
  have hne : ∀ {u v}, Above fg u v → u ≠ v := by
    rintro u v h rfl
    exact hasym h h
  have key := (stored_unavoidable hP hF hms (noDetours_iff.1 hd) hg hB s t d).2
  constructor
  · constructor
    · intro h
      obtain ⟨h1, h2, h3, _⟩ := hg.toFSound.up h
      exact ⟨hg.toShape.above_iff.2 ⟨h1, h2, h3⟩, key (Or.inl h) hlt⟩
    · rintro ⟨h1, h2⟩
      rcases C90_prepared hP hc (hne h1) hlt h2 with k | k
      · exact k.2
      · exact absurd k.1 (hasym h1)
  · constructor
    · intro h
      obtain ⟨h1, h2, h3, _⟩ := hg.toFSound.down h
      exact ⟨hg.toShape.above_iff.2 ⟨h2, h1, h3⟩, key (Or.inr h) hlt⟩
    · rintro ⟨h1, h2⟩
      rcases C90_prepared hP hc (hne h1).symm hlt h2 with k | k
      · exact absurd k.1 (hasym h1)
      · exact k.2

/-- **C92** If no edge of the graph has a detour that is not longer, and the settled-nodes limit is above the number of nodes, then the stored
edges are exactly the unavoidable ones. -/
theorem C92_exactly_the_unavoidable {P : Plat} (hP : P.checked = true) {ops : List Op} {ig : InputGraph} {fg : FastGraph}
    (hb : buildGraph P ops = .ok ig) (hf : ig.frozen = true) {pq : PQ} {order : List Nat} {maxSettled : Nat}
    (hperm : order.Perm (List.range ig.numNodes)) (hms : ig.numNodes < maxSettled)
    (hp : prepareWithOrderWithParams P pq ig order maxSettled = .ok (.ok fg))
    (hd : NoDetours (edgesOf ig.edges)) {s t d : Nat} (hlt : d < P.umax) :
    (Up fg s t d ↔ Above fg s t ∧ Unavoidable (edgesOf ig.edges) fg s t d) ∧
    (Down fg s t d ↔ Above fg t s ∧ Unavoidable (edgesOf ig.edges) fg s t d) := by
  have hF := (buildGraph_inv (Or.inl hP) hb).frozenOk hf
  obtain ⟨_, e, _, hB, _⟩ := (buildWithOrder_built hP hF hperm _ (stepsOk_fresh pq P _ _)).of_ok hp
  cases e
  exact exactly_unavoidable hP ⟨hb, hf, .orderParams pq order maxSettled hperm hp⟩ hms hB hd hlt

/-- **C92** The same for `prepare_with_params`, where the order is found by the preparation. -/
theorem C92_exactly_the_unavoidable_params {P : Plat} (hP : P.checked = true) {ops : List Op} {ig : InputGraph} {fg : FastGraph}
    (hb : buildGraph P ops = .ok ig) (hf : ig.frozen = true) {pq : PQ} {nq : NodeQueue} {params : Params}
    (hms : ig.numNodes < params.maxSettledContraction) (hp : prepareWithParams P pq nq ig params = .ok fg)
    (hd : NoDetours (edgesOf ig.edges)) {s t d : Nat} (hlt : d < P.umax) :
    (Up fg s t d ↔ Above fg s t ∧ Unavoidable (edgesOf ig.edges) fg s t d) ∧
    (Down fg s t d ↔ Above fg t s ∧ Unavoidable (edgesOf ig.edges) fg s t d) := by
  have hF := (buildGraph_inv (Or.inl hP) hb).frozenOk hf
  obtain ⟨_, hB⟩ := (buildWithParams_built hP hF params (stepsOk_fresh pq P _ _)).of_ok hp
  exact exactly_unavoidable hP ⟨hb, hf, .params pq nq params hp⟩ hms hB hd hlt

/-- **C92** So this is the least possible number: any other graph with the same ranks that answers all queries correctly (in particular any
graph prepared with the same order and another limit) stores all these edges, with the same weights. -/
theorem C92_fewest_edges {P : Plat} (hP : P.checked = true) {ops : List Op} {ig : InputGraph} {fg : FastGraph}
    (hb : buildGraph P ops = .ok ig) (hf : ig.frozen = true) {pq : PQ} {order : List Nat} {maxSettled : Nat}
    (hperm : order.Perm (List.range ig.numNodes)) (hms : ig.numNodes < maxSettled)
    (hp : prepareWithOrderWithParams P pq ig order maxSettled = .ok (.ok fg))
    (hd : NoDetours (edgesOf ig.edges)) (hw : ∀ e ∈ ig.edges, e.weight < P.umax)
    {g : FastGraph} (hg : Consistent P.umax (edgesOf ig.edges) g) (hv : Covering P.umax (edgesOf ig.edges) g)
    (hr : g.ranks = fg.ranks) :
    (∀ u v w, Up fg u v w → Up g u v w) ∧ (∀ u v w, Down fg u v w → Down g u v w) ∧
      fg.getNumOutEdges ≤ g.getNumOutEdges ∧ fg.getNumInEdges ≤ g.getNumInEdges := by
  have hF := (buildGraph_inv (Or.inl hP) hb).frozenOk hf
  obtain ⟨_, e, hgood, hB, _⟩ := (buildWithOrder_built hP hF hperm _ (stepsOk_fresh pq P _ _)).of_ok hp
  cases e
  have hc : Client P ops ig fg := ⟨hb, hf, .orderParams pq order maxSettled hperm hp⟩
  have habove : ∀ {u v}, Above fg u v ↔ Above g u v := by
    intro u v
    unfold Above
    rw [hr]
  have hun : ∀ {s t d}, Unavoidable (edgesOf ig.edges) fg s t d → Unavoidable (edgesOf ig.edges) g s t d := by
    rintro s t d ⟨h1, h2⟩
    refine ⟨h1, fun x a b k1 k2 k3 => ?_⟩
    rw [← habove, ← habove]
    exact h2 x a b k1 k2 k3
  have hnum : g.numNodes = ig.numNodes := by
    rw [← hg.shape.lenR, hr, hgood.toShape.lenR]
  have hasym : ∀ {u v}, Above g u v → ¬ Above g v u := by
    intro u v h1 h2
    have := (hg.shape.above_iff.1 h1).2.2
    have := (hg.shape.above_iff.1 h2).2.2
    omega
  have key := fun {s t d : Nat} => stored_unavoidable hP hF hms (noDetours_iff.1 hd) hgood hB s t d
  have up : ∀ u v w, Up fg u v w → Up g u v w := by
    intro u v w h
    have hlt := key.1 (Or.inl h) (fun _ _ _ he => hw _ he)
    obtain ⟨h1, h2, h3, _⟩ := hgood.toFSound.up h
    have ha : Above g u v := habove.1 (hgood.toShape.above_iff.2 ⟨h1, h2, h3⟩)
    have hne : u ≠ v := by rintro rfl; exact hasym ha ha
    rcases C90_unavoidable_edges hg hv (by omega) (by omega) hne hlt (hun (key.2 (Or.inl h) hlt)) with k | k
    · exact k.2
    · exact absurd k.1 (hasym ha)
  have dn : ∀ u v w, Down fg u v w → Down g u v w := by
    intro u v w h
    have hlt := key.1 (Or.inr h) (fun _ _ _ he => hw _ he)
    obtain ⟨h1, h2, h3, _⟩ := hgood.toFSound.down h
    have ha : Above g v u := habove.1 (hgood.toShape.above_iff.2 ⟨h2, h1, h3⟩)
    have hne : u ≠ v := by rintro rfl; exact hasym ha ha
    rcases C90_unavoidable_edges hg hv (by omega) (by omega) hne hlt (hun (key.2 (Or.inr h) hlt)) with k | k
    · exact absurd k.1 (hasym ha)
    · exact k.2
  obtain ⟨n1, n2⟩ := C63_one_edge_per_pair hP hc
  exact ⟨up, dn, counts_le hgood.toFSound hg.sound n1 n2 (fun u v w h => ⟨w, up u v w h⟩) (fun u v w h => ⟨w, dn u v w h⟩)⟩

/-- Graphs in which all edges have the same positive weight have no detours. -/
theorem noDetours_same_weight {E : EdgeRel} {c : Nat} (hc : 0 < c) (h : ∀ u v w, E u v w → w = c) : NoDetours E := by
  have key : ∀ {s t w}, Wk E s t w → s ≠ t → c ≤ w := by
    intro s t w k hne
    cases k with
    | nil => exact absurd rfl hne
    | cons e _ => have := h _ _ _ e; omega
  intro u v w x a b e k1 k2 hle
  rw [hasWalk_iff] at k1 k2
  by_contra hn
  have := key k1 (fun h => hn (Or.inl h.symm))
  have := key k2 (fun h => hn (Or.inr h))
  have := h _ _ _ e
  omega

/-- The square has no detours. -/
theorem Ex.square_noDetours : NoDetours (edgesOf Ex.squareIg.edges) := by
  refine noDetours_same_weight (c := 1) (by decide) ?_
  intro u v w h
  unfold edgesOf Ex.squareIg at h
  simp only [List.mem_cons, Edge.mk.injEq, List.not_mem_nil, or_false] at h
  omega

/-- A concrete case: in the square prepared with a limit of 100 all stored edges are unavoidable, and the graph prepared without searches
has them all. -/
example {fg fg₀ : FastGraph} (h : prepareWithOrderWithParams debug64 binaryHeap Ex.squareIg [0, 1, 2, 3] 100 = .ok (.ok fg))
    (h₀ : prepareWithOrderWithParams debug64 binaryHeap Ex.squareIg [0, 1, 2, 3] 0 = .ok (.ok fg₀)) :
    (Up fg 0 3 1 ↔ Above fg 0 3 ∧ Unavoidable (edgesOf Ex.squareIg.edges) fg 0 3 1) ∧ (∀ u v w, Up fg u v w → Up fg₀ u v w) := by
  have hc₀ : Client debug64 Ex.square Ex.squareIg fg₀ := ⟨Ex.square_built, rfl, .orderParams binaryHeap [0, 1, 2, 3] 0 (by decide) h₀⟩
  refine ⟨(C92_exactly_the_unavoidable rfl Ex.square_built rfl (by decide) (by decide) h Ex.square_noDetours (by decide)).1,
    (C92_fewest_edges rfl Ex.square_built rfl (by decide) (by decide) h Ex.square_noDetours (by decide)
      (C77_prepared rfl hc₀).2 (C78_prepared rfl hc₀) ?_).1⟩
  cases h
  cases h₀
  rfl

/-- The two graphs exist. -/
example : ∃ fg fg₀, prepareWithOrderWithParams debug64 binaryHeap Ex.squareIg [0, 1, 2, 3] 100 = .ok (.ok fg) ∧
    prepareWithOrderWithParams debug64 binaryHeap Ex.squareIg [0, 1, 2, 3] 0 = .ok (.ok fg₀) ∧ Up fg 0 3 1 :=
  ⟨_, _, rfl, rfl, 1, _, ⟨0, 2, rfl, rfl, by decide, by decide, rfl⟩, rfl, rfl⟩

/-- And with `prepare_with_params`. -/
example {fg : FastGraph} (h : prepareWithParams debug64 binaryHeap listQueue Ex.squareIg (.default Ex.rel) = .ok fg) (s t : Nat) :
    Up fg s t 2 ↔ Above fg s t ∧ Unavoidable (edgesOf Ex.squareIg.edges) fg s t 2 :=
  (C92_exactly_the_unavoidable_params rfl Ex.square_built rfl (by decide) h Ex.square_noDetours (by decide)).1
example : ∃ fg, prepareWithParams debug64 binaryHeap listQueue Ex.squareIg (.default Ex.rel) = .ok fg := ⟨_, rfl⟩

/-- **C92** The condition on detours is needed: `Ex.twoRoutes` has one (3 → 4 → 5 is as long as the edge 3 → 5), and by C91 a limit of 2 gives
fewer edges there than a limit of 100. -/
example : ∃ ig, buildGraph debug64 Ex.twoRoutes = .ok ig ∧ ¬ NoDetours (edgesOf ig.edges) := by
  refine ⟨_, rfl, fun h => ?_⟩
  have := h 3 5 2 4 1 1 (by unfold edgesOf; decide) (hasWalk_iff.2 (.single (by unfold edgesOf; decide)))
    (hasWalk_iff.2 (.single (by unfold edgesOf; decide))) (by decide)
  omega

end Props
end FP
