import Verif.Proofs.Elimination
import Verif.Props.Foreign
import Verif.Props.SearchSpace
import Verif.Props.Simple
import Verif.Props.Sizes
/-! # Orders that need no shortcuts -/
set_option autoImplicit false
namespace FP
namespace Props
open Spec

/-- The prepared graph consists of the edges of the list: each of them once, and nothing else. -/
structure JustTheEdges (es : List Edge) (fg : FastGraph) : Prop where
  out : ∀ ed ∈ fg.edgesFwd, (⟨ed.baseNode, ed.adjNode, ed.weight⟩ : Edge) ∈ es
  ins : ∀ ed ∈ fg.edgesBwd, (⟨ed.adjNode, ed.baseNode, ed.weight⟩ : Edge) ∈ es
  count : fg.getNumOutEdges + fg.getNumInEdges = es.length

theorem above_asymm {fg : FastGraph} {u v : Nat} : Above fg u v → ¬ Above fg v u := by
  rintro ⟨a, b, h1, h2, h3⟩ ⟨c, d, h4, h5, h6⟩
  rw [h2] at h4; rw [h1] at h5
  cases h4; cases h5; omega

theorem justTheEdges {P : Plat} (hP : P.checked = true) {ops : List Op} {ig : InputGraph} {fg : FastGraph} (hc : Client P ops ig fg)
    (h : (∀ ed ∈ fg.edgesFwd, edgesOf ig.edges ed.baseNode ed.adjNode ed.weight) ∧
      ∀ ed ∈ fg.edgesBwd, edgesOf ig.edges ed.adjNode ed.baseNode ed.weight) : JustTheEdges ig.edges fg := by
  refine ⟨h.1, h.2, Nat.le_antisymm ?_ (C63_at_least_input hP hc)⟩
  have hg := hc.good hP
  obtain ⟨n1, n2⟩ := C63_one_edge_per_pair hP hc
  have hF : ∀ e ∈ fg.edgesFwd, fg.rk e.baseNode < fg.rk e.adjNode := by
    intro e he
    obtain ⟨id, hid⟩ := List.mem_iff_getElem?.1 he
    obtain ⟨j, hj, a1, a2⟩ := range_cover hg.firstF (List.getElem?_eq_some_iff.1 hid).1
    obtain ⟨v, hv, rfl⟩ := rank_surj hg.toShape hj
    obtain ⟨q1, q2, q3, _⟩ := hg.fwd v hv id e ⟨a1, a2, hid⟩
    rw [q1]; exact q3
  have hB : ∀ e ∈ fg.edgesBwd, fg.rk e.baseNode < fg.rk e.adjNode := by
    intro e he
    obtain ⟨id, hid⟩ := List.mem_iff_getElem?.1 he
    obtain ⟨j, hj, a1, a2⟩ := range_cover hg.firstB (List.getElem?_eq_some_iff.1 hid).1
    obtain ⟨v, hv, rfl⟩ := rank_surj hg.toShape hj
    obtain ⟨q1, q2, q3, _⟩ := hg.bwd v hv id e ⟨a1, a2, hid⟩
    rw [q1]; exact q3
  have n3 : (fg.edgesBwd.map (fun e => (e.adjNode, e.baseNode))).Nodup := by
    have := n2.map (f := Prod.swap) Prod.swap_injective
    rwa [List.map_map] at this
  have hn : (fg.edgesFwd.map (fun e => (e.baseNode, e.adjNode)) ++ fg.edgesBwd.map (fun e => (e.adjNode, e.baseNode))).Nodup := by
    refine List.nodup_append.2 ⟨n1, n3, ?_⟩
    intro a ha b hb hab
    subst hab
    obtain ⟨e, m, rfl⟩ := List.mem_map.1 ha
    obtain ⟨e', m', q⟩ := List.mem_map.1 hb
    have g1 := hF e m
    have g2 := hB e' m'
    simp only [Prod.mk.injEq] at q
    rw [q.1, q.2] at g2
    omega
  have hs : (fg.edgesFwd.map (fun e => (e.baseNode, e.adjNode)) ++ fg.edgesBwd.map (fun e => (e.adjNode, e.baseNode))).Subperm
      (ig.edges.map (fun e => (e.src, e.dst))) := List.subperm_of_subset hn (by
    intro p hp
    rcases List.mem_append.1 hp with hp | hp
    · obtain ⟨e, m, rfl⟩ := List.mem_map.1 hp
      exact List.mem_map.2 ⟨_, h.1 e m, rfl⟩
    · obtain ⟨e, m, rfl⟩ := List.mem_map.1 hp
      exact List.mem_map.2 ⟨_, h.2 e m, rfl⟩)
  simpa [FastGraph.getNumOutEdges, FastGraph.getNumInEdges] using hs.length_le

/-- **C98** If every edge into a node from above and every edge from it to above belong to the same neighbour, nothing is added,
however small the budgets are. -/
theorem C98_one_higher_neighbour {P : Plat} (hP : P.checked = true) {ops : List Op} {ig : InputGraph} {fg : FastGraph}
    (hc : Client P ops ig fg)
    (h : ∀ v x y a b, (⟨x, v, a⟩ : Edge) ∈ accepted ops → (⟨v, y, b⟩ : Edge) ∈ accepted ops → Above fg v x → Above fg v y → x = y) :
    JustTheEdges ig.edges fg ∧ ∀ ed, ed ∈ fg.edgesFwd ∨ ed ∈ fg.edgesBwd → ed.replacedInEdge = P.umax ∧ ed.replacedOutEdge = P.umax := by
  have hi := hc.inv hP
  have hF := hi.frozenOk hc.frozen
  have hg := hc.good hP
  have hE := (hc.prepared.built hP hF).tree (by
    intro v x y a b h1 h2 h3 h4
    have l1 := hF.lt _ h1
    have l2 := hF.lt _ h2
    exact h v x y a b (hi.sub _ h1) (hi.sub _ h2) (hg.toShape.above_iff.2 ⟨l1.2, l1.1, h3⟩) (hg.toShape.above_iff.2 ⟨l1.2, l2.2, h4⟩))
  refine ⟨justTheEdges hP hc hE, ?_⟩
  have hcons := (C77_prepared hP hc).2
  have key : ∀ u v w rin rout, u ≠ v → StandsFor P.umax (edgesOf ig.edges) fg u v w rin rout → rin = P.umax ∧ rout = P.umax := by
    rintro u v w rin rout hne (⟨a, b, _⟩ | ⟨_, _, c, e₁, e₂, a1, a2, i1, rfl, o1, rfl, _⟩)
    · exact ⟨a, b⟩
    · have b1 := (hcons.inEdge _ _ _ i1).1
      have b2 := (hcons.outEdge _ _ _ o1).1
      obtain ⟨_, _, _, _, _, _, m1⟩ := i1
      obtain ⟨_, _, _, _, _, _, m2⟩ := o1
      have q1 := hE.2 _ (List.mem_of_getElem? m1)
      have q2 := hE.1 _ (List.mem_of_getElem? m2)
      rw [b1] at q1
      rw [b2] at q2
      exact absurd (h c _ _ _ _ (hi.sub _ q1) (hi.sub _ q2) a1 a2) hne
  rintro ed (hed | hed)
  · obtain ⟨id, hid⟩ := List.mem_iff_getElem?.1 hed
    obtain ⟨j, hj, a1, a2⟩ := range_cover hg.firstF (List.getElem?_eq_some_iff.1 hid).1
    obtain ⟨v, hv, rfl⟩ := rank_surj hg.toShape hj
    obtain ⟨_, q1, q2⟩ := hcons.outEdge v id ed (hg.toShape.outEdge_iff.2 ⟨hv, a1, a2, hid⟩)
    refine key _ _ _ _ _ ?_ q2
    rintro rfl
    exact above_asymm q1 q1
  · obtain ⟨id, hid⟩ := List.mem_iff_getElem?.1 hed
    obtain ⟨j, hj, a1, a2⟩ := range_cover hg.firstB (List.getElem?_eq_some_iff.1 hid).1
    obtain ⟨v, hv, rfl⟩ := rank_surj hg.toShape hj
    obtain ⟨_, q1, q2⟩ := hcons.inEdge v id ed (hg.toShape.inEdge_iff.2 ⟨hv, a1, a2, hid⟩)
    refine key _ _ _ _ _ ?_ q2
    rintro rfl
    exact above_asymm q1 q1

/-- **C98** With a budget larger than the graph it suffices that the input has an edge that is not heavier wherever a way leads from
above to above over a node. -/
theorem C98_matched_ways {P : Plat} (hP : P.checked = true) {ops : List Op} {ig : InputGraph} (hb : buildGraph P ops = .ok ig)
    (hf : ig.frozen = true) {fg : FastGraph} (hw : PreparedWide P ig fg)
    (h : ∀ v x y a b, (⟨x, v, a⟩ : Edge) ∈ accepted ops → (⟨v, y, b⟩ : Edge) ∈ accepted ops → Above fg v x → Above fg v y → x ≠ y →
      ∃ c ≤ a + b, (⟨x, y, c⟩ : Edge) ∈ accepted ops) : JustTheEdges ig.edges fg := by
  have hc : Client P ops ig fg := ⟨hb, hf, hw.prepared⟩
  have hi := hc.inv hP
  have hF := hi.frozenOk hc.frozen
  have hg := hc.good hP
  refine justTheEdges hP hc ((hw.built hP hF).chordal ?_)
  intro v x y a b h1 h2 h3 h4 hne
  have l1 := hF.lt _ h1
  have l2 := hF.lt _ h2
  obtain ⟨c, hle, hm⟩ := h v x y a b (hi.sub _ h1) (hi.sub _ h2) (hg.toShape.above_iff.2 ⟨l1.2, l1.1, h3⟩)
    (hg.toShape.above_iff.2 ⟨l1.2, l2.2, h4⟩) hne
  have hex : ∃ w, (⟨x, y, w⟩ : Edge) ∈ accepted ops := ⟨c, hm⟩
  classical
  have hmem := (hi.mem_iff hc.frozen x y (Nat.find hex)).2 ⟨Nat.find_spec hex, fun w' h' => Nat.find_min' hex h'⟩
  have hle' : Nat.find hex ≤ c := Nat.find_min' hex hm
  exact ⟨_, by omega, hmem⟩

/-- The edges connect nodes with their parents, in one direction or in both. -/
structure Forest (es : List Edge) (parent depth : Nat → Nat) : Prop where
  link : ∀ e ∈ es, e.dst = parent e.src ∧ depth e.dst < depth e.src ∨ e.src = parent e.dst ∧ depth e.src < depth e.dst

/-- Every child comes before its parent. -/
def LeavesFirst (es : List Edge) (depth : Nat → Nat) (fg : FastGraph) : Prop :=
  ∀ e ∈ es, (depth e.dst < depth e.src → Above fg e.src e.dst) ∧ (depth e.src < depth e.dst → Above fg e.dst e.src)

/-- An edge that leads up in the order leads to the parent. -/
theorem Forest.up {es : List Edge} {parent depth : Nat → Nat} (ht : Forest es parent depth) {fg : FastGraph}
    (ho : LeavesFirst es depth fg) {u v w : Nat} (he : (⟨u, v, w⟩ : Edge) ∈ es) (ha : Above fg u v) :
    v = parent u ∧ depth v < depth u := by
  rcases ht.link _ he with h1 | h1
  · exact h1
  · exact absurd ((ho _ he).2 h1.2) (above_asymm ha)

theorem Forest.down {es : List Edge} {parent depth : Nat → Nat} (ht : Forest es parent depth) {fg : FastGraph}
    (ho : LeavesFirst es depth fg) {u v w : Nat} (he : (⟨u, v, w⟩ : Edge) ∈ es) (ha : Above fg v u) :
    u = parent v ∧ depth u < depth v := by
  rcases ht.link _ he with h1 | h1
  · exact absurd ((ho _ he).1 h1.2) (above_asymm ha)
  · exact h1

/-- **C98** A forest whose nodes are contracted from the leaves to the roots gets no shortcut, however small the budgets are. -/
theorem C98_forest {P : Plat} (hP : P.checked = true) {ops : List Op} {ig : InputGraph} {fg : FastGraph} (hc : Client P ops ig fg)
    {parent depth : Nat → Nat} (ht : Forest (accepted ops) parent depth) (ho : LeavesFirst (accepted ops) depth fg) :
    JustTheEdges ig.edges fg ∧
      ∀ ed, ed ∈ fg.edgesFwd ∨ ed ∈ fg.edgesBwd → ed.replacedInEdge = P.umax ∧ ed.replacedOutEdge = P.umax := by
  refine C98_one_higher_neighbour hP hc ?_
  intro v x y a b h1 h2 h3 h4
  rw [(ht.down ho h1 h3).1, (ht.up ho h2 h4).1]

/-- **C98** Then a query only visits the ancestors of its sources and targets. -/
theorem C98_forest_search {P : Plat} (hP : P.checked = true) {ops : List Op} {ig : InputGraph} {fg : FastGraph}
    (hc : Client P ops ig fg) {parent depth : Nat → Nat} (ht : Forest (accepted ops) parent depth)
    (ho : LeavesFirst (accepted ops) depth fg) (pq : PQ) (history : List Request) {S T : List (Nat × Nat)} {c : PathCalculator pq}
    {r : Option ShortestPath}
    (hq : (runRequestsU P (PathCalculator.new P pq fg.getNumNodes) history).calcPathMulti P fg S T = .ok (c, r)) :
    (∀ x w, Labelled c.fwd x w → ∃ s w₀ k, (s, w₀) ∈ S ∧ x = parent^[k] s ∧ k ≤ depth s) ∧
    ∀ x w, Labelled c.bwd x w → ∃ t w₀ k, (t, w₀) ∈ T ∧ x = parent^[k] t ∧ k ≤ depth t := by
  have hg := hc.good hP
  have hi := hc.inv hP
  have hj := (C98_forest hP hc ht ho).1
  have up : ∀ u v a, Wk (upEdges fg) u v a → ∃ k, v = parent^[k] u ∧ k + depth v ≤ depth u := by
    intro u v a k
    induction k with
    | nil s => exact ⟨0, rfl, by omega⟩
    | @cons u v t a b e _ ih =>
      obtain ⟨id, ed, q1, q2, rfl, rfl⟩ := (upEdges_iff hg).1 e
      obtain ⟨g1, g2, g3, _⟩ := hg.fwd u q1 id ed q2
      have hm := hi.sub _ (hj.out ed (List.mem_of_getElem? q2.2.2))
      rw [g1] at hm
      obtain ⟨p1, p2⟩ := ht.up ho hm (hg.toShape.above_iff.2 ⟨q1, g2, g3⟩)
      obtain ⟨k, k1, k2⟩ := ih
      refine ⟨k + 1, ?_, by omega⟩
      rw [Function.iterate_succ_apply, ← p1]
      exact k1
  have dn : ∀ u v a, Wk (downEdges fg) u v a → ∃ k, v = parent^[k] u ∧ k + depth v ≤ depth u := by
    intro u v a k
    induction k with
    | nil s => exact ⟨0, rfl, by omega⟩
    | @cons u v t a b e _ ih =>
      obtain ⟨id, ed, q1, q2, rfl, rfl⟩ := (downEdges_iff hg).1 e
      obtain ⟨g1, g2, g3, _⟩ := hg.bwd u q1 id ed q2
      have hm := hi.sub _ (hj.ins ed (List.mem_of_getElem? q2.2.2))
      rw [g1] at hm
      obtain ⟨p1, p2⟩ := ht.down ho hm (hg.toShape.above_iff.2 ⟨q1, g2, g3⟩)
      obtain ⟨k, k1, k2⟩ := ih
      refine ⟨k + 1, ?_, by omega⟩
      rw [Function.iterate_succ_apply, ← p1]
      exact k1
  obtain ⟨h1, h2⟩ := C71_only_upwards hP hc pq history hq
  constructor
  · intro x w hx
    obtain ⟨s, w₀, a, m, k, _⟩ := h1 x w hx
    obtain ⟨j, e1, e2⟩ := up _ _ _ (hasWalk_iff.1 k)
    exact ⟨s, w₀, j, m, e1, by omega⟩
  · intro x w hx
    obtain ⟨s, w₀, a, m, k, _⟩ := h2 x w hx
    obtain ⟨j, e1, e2⟩ := dn _ _ _ (hasWalk_iff.1 k)
    exact ⟨s, w₀, j, m, e1, by omega⟩

/-- **C98** For `prepare_with_order_with_params` the condition can be read off the order. -/
theorem C98_forest_with_order {P : Plat} (hP : P.checked = true) {ops : List Op} {ig : InputGraph} (hb : buildGraph P ops = .ok ig)
    (hf : ig.frozen = true) {pq : PQ} {order : List Nat} (hperm : order.Perm (List.range ig.numNodes)) {maxSettled : Nat}
    {fg : FastGraph} (hp : prepareWithOrderWithParams P pq ig order maxSettled = .ok (.ok fg)) {parent depth : Nat → Nat}
    (ht : Forest (accepted ops) parent depth)
    (ho : ∀ i j u v : Nat, order[i]? = some u → order[j]? = some v → v = parent u → depth v < depth u → i < j) :
    JustTheEdges ig.edges fg ∧
      ∀ ed, ed ∈ fg.edgesFwd ∨ ed ∈ fg.edgesBwd → ed.replacedInEdge = P.umax ∧ ed.replacedOutEdge = P.umax := by
  have hc : Client P ops ig fg := ⟨hb, hf, .orderParams pq order maxSettled hperm hp⟩
  have hi := hc.inv hP
  obtain ⟨nodes, h1, _, _, h3⟩ := C13_ordering_is_permutation hP hc
  have hk := C13_order_is_kept hP hb hf hperm hp
  rw [hk] at h1
  cases h1
  have hlt : ∀ u < ig.numNodes, ∃ i, order[i]? = some u := fun u hu =>
    List.mem_iff_getElem?.1 (hperm.mem_iff.2 (List.mem_range.2 hu))
  refine C98_forest hP hc ht ?_
  intro e he
  have hl : e.src < ig.numNodes ∧ e.dst < ig.numNodes := by
    have hex : ∃ w, (⟨e.src, e.dst, w⟩ : Edge) ∈ accepted ops := ⟨e.weight, he⟩
    classical
    have hm : (⟨e.src, e.dst, Nat.find hex⟩ : Edge) ∈ ig.edges := ((hi.mem_iff hf e.src e.dst (Nat.find hex)).2 ⟨Nat.find_spec hex, fun w' h' => Nat.find_min' hex h'⟩)
    have := (hi.frozenOk hf).lt _ hm
    exact this
  obtain ⟨i, hi'⟩ := hlt _ hl.1
  obtain ⟨j, hj'⟩ := hlt _ hl.2
  refine ⟨fun hd => ?_, fun hd => ?_⟩
  · rcases ht.link e he with q | q
    · exact ⟨i, j, (h3 _ _).1 hi', (h3 _ _).1 hj', ho i j _ _ hi' hj' q.1 q.2⟩
    · omega
  · rcases ht.link e he with q | q
    · omega
    · exact ⟨j, i, (h3 _ _).1 hj', (h3 _ _).1 hi', ho j i _ _ hj' hi' q.1 q.2⟩

/-! ### A tree -/

namespace Tree

/-- 0 is the root, 1 and 2 are its children, 3 and 4 are children of 1 -/
def ops : List Op := [.addEdgeBidir 0 1 7, .addEdgeBidir 0 2 3, .addEdgeBidir 1 3 5, .addEdge 4 1 2, .freeze]

/-- parents of the nodes -/
def parent : Nat → Nat
  | 3 => 1
  | 4 => 1
  | _ => 0

/-- distances from the root -/
def depth : Nat → Nat
  | 0 => 0
  | 1 => 1
  | 2 => 1
  | _ => 2

theorem forest : Forest (accepted ops) parent depth := ⟨by decide⟩

end Tree

/-- With a budget of 0 settled nodes and children before parents the seven edges are stored and nothing else. -/
example : ∃ ig fg, buildGraph debug64 Tree.ops = .ok ig ∧ prepareWithOrderWithParams debug64 binaryHeap ig [4, 2, 3, 1, 0] 0 = .ok (.ok fg) ∧
    JustTheEdges ig.edges fg ∧ fg.getNumOutEdges + fg.getNumInEdges = 7 := by
  obtain ⟨ig, e⟩ : ∃ r, buildGraph debug64 Tree.ops = .ok r := ⟨_, rfl⟩
  have e' := e
  cases e'
  obtain ⟨fg, e2⟩ : ∃ r, prepareWithOrderWithParams debug64 binaryHeap
    { edges := [⟨0, 1, 7⟩, ⟨0, 2, 3⟩, ⟨1, 0, 7⟩, ⟨1, 3, 5⟩, ⟨2, 0, 3⟩, ⟨3, 1, 5⟩, ⟨4, 1, 2⟩], numNodes := 5, frozen := true } [4, 2, 3, 1, 0] 0 = .ok (.ok r) := ⟨_, rfl⟩
  have h := C98_forest_with_order rfl e rfl (order := [4, 2, 3, 1, 0]) (by decide) e2 Tree.forest (by
    intro i j u v h1 h2 h3 h4
    have hi : i < 5 := (List.getElem?_eq_some_iff.1 h1).1
    have hj : j < 5 := (List.getElem?_eq_some_iff.1 h2).1
    interval_cases i <;> interval_cases j <;> cases h1 <;> cases h2 <;> simp [Tree.parent, Tree.depth] at h3 h4 ⊢)
  exact ⟨_, fg, e, e2, h.1, h.1.count⟩

/-- With a parent first a shortcut is needed: from 4 over 1 to 3. -/
example : ∃ ig fg, buildGraph debug64 Tree.ops = .ok ig ∧ prepareWithOrderWithParams debug64 binaryHeap ig [1, 4, 2, 3, 0] 9 = .ok (.ok fg) ∧
    fg.getNumOutEdges + fg.getNumInEdges = 11 := ⟨_, _, rfl, rfl, rfl⟩

/-- A query from 4 to 2 visits at most three nodes forwards and two backwards. -/
example : ∃ ig fg c r, buildGraph debug64 Tree.ops = .ok ig ∧
    prepareWithOrderWithParams debug64 binaryHeap ig [4, 2, 3, 1, 0] 0 = .ok (.ok fg) ∧
    (runRequestsU debug64 (PathCalculator.new debug64 binaryHeap fg.getNumNodes) []).calcPathMulti debug64 fg [(4, 0)] [(2, 0)] =
      .ok (c, r) ∧ (∀ x w, Labelled c.fwd x w → x = 4 ∨ x = 1 ∨ x = 0) ∧ ∀ x w, Labelled c.bwd x w → x = 2 ∨ x = 0 := by
  obtain ⟨ig, fg, c, r, e1, e2, e3, e4, e5, e6⟩ : ∃ ig fg c r, buildGraph debug64 Tree.ops = .ok ig ∧
    prepareWithOrderWithParams debug64 binaryHeap ig [4, 2, 3, 1, 0] 0 = .ok (.ok fg) ∧
    (runRequestsU debug64 (PathCalculator.new debug64 binaryHeap fg.getNumNodes) []).calcPathMulti debug64 fg [(4, 0)] [(2, 0)] =
      .ok (c, r) ∧ ig.frozen = true ∧ ig.numNodes = 5 ∧ fg.ranks = [4, 3, 1, 2, 0] := ⟨_, _, _, _, rfl, rfl, rfl, rfl, rfl, rfl⟩
  have key : ∀ e ∈ accepted Tree.ops,
      (Tree.depth e.dst < Tree.depth e.src → ∃ a ∈ List.range 5, ∃ b ∈ List.range 5,
        [4, 3, 1, 2, 0][e.src]? = some a ∧ [4, 3, 1, 2, 0][e.dst]? = some b ∧ a < b) ∧
      (Tree.depth e.src < Tree.depth e.dst → ∃ a ∈ List.range 5, ∃ b ∈ List.range 5,
        [4, 3, 1, 2, 0][e.dst]? = some a ∧ [4, 3, 1, 2, 0][e.src]? = some b ∧ a < b) := by decide
  have ho : LeavesFirst (accepted Tree.ops) Tree.depth fg := by
    intro e he
    unfold Above
    rw [e6]
    refine ⟨fun h => ?_, fun h => ?_⟩
    · obtain ⟨a, _, b, _, h⟩ := (key e he).1 h; exact ⟨a, b, h⟩
    · obtain ⟨a, _, b, _, h⟩ := (key e he).2 h; exact ⟨a, b, h⟩
  obtain ⟨h1, h2⟩ := C98_forest_search rfl ⟨e1, e4, .orderParams binaryHeap [4, 2, 3, 1, 0] 0 (by rw [e5]; decide) e2⟩ Tree.forest ho
    binaryHeap [] e3
  refine ⟨ig, fg, c, r, e1, e2, e3, ?_, ?_⟩
  · intro x w hx
    obtain ⟨s, w₀, k, m, rfl, hk⟩ := h1 x w hx
    cases List.mem_singleton.1 m
    have : k ≤ 2 := hk
    interval_cases k <;> decide
  · intro x w hx
    obtain ⟨s, w₀, k, m, rfl, hk⟩ := h2 x w hx
    cases List.mem_singleton.1 m
    have : k ≤ 1 := hk
    interval_cases k <;> decide

/-- A triangle with a pendant node -/
def triangleOps : List Op := [.addEdgeBidir 0 1 4, .addEdgeBidir 0 2 3, .addEdgeBidir 1 2 5, .addEdge 2 3 1, .freeze]

/-- Every way over a contracted node is matched by an edge: from 1 to 2 over 0 takes 7, the edge has weight 5. -/
example : ∃ ig fg, buildGraph debug64 triangleOps = .ok ig ∧ prepareWithOrder debug64 binaryHeap ig [0, 1, 2, 3] = .ok (.ok fg) ∧
    JustTheEdges ig.edges fg ∧ ig.edges.length = 7 := by
  obtain ⟨ig, fg, e, e2, e3, e4, e5, e6⟩ : ∃ ig fg, buildGraph debug64 triangleOps = .ok ig ∧
    prepareWithOrder debug64 binaryHeap ig [0, 1, 2, 3] = .ok (.ok fg) ∧ ig.frozen = true ∧ ig.numNodes = 4 ∧ ig.edges.length = 7 ∧
    fg.ranks = [0, 1, 2, 3] := ⟨_, _, rfl, rfl, rfl, rfl, rfl, rfl⟩
  refine ⟨ig, fg, e, e2, C98_matched_ways rfl e e3 (.order binaryHeap [0, 1, 2, 3] (by rw [e4]; decide) (by omega) e2) ?_, e5⟩
  have key : ∀ a ∈ accepted triangleOps, ∀ b ∈ accepted triangleOps, a.dst = b.src → a.src ≠ b.dst → a.dst < a.src → b.src < b.dst →
    ∃ c ∈ accepted triangleOps, c.src = a.src ∧ c.dst = b.dst ∧ c.weight ≤ a.weight + b.weight := by decide
  have hid : ∀ u v, Above fg u v → u < v := by
    rintro u v ⟨r, r', h1, h2, h3⟩
    rw [e6] at h1 h2
    have hu : u < 4 := (List.getElem?_eq_some_iff.1 h1).1
    have hv : v < 4 := (List.getElem?_eq_some_iff.1 h2).1
    interval_cases u <;> interval_cases v <;> cases h1 <;> cases h2 <;> omega
  intro v x y a b h1 h2 h3 h4 hne
  obtain ⟨⟨_, _, c⟩, m, rfl, rfl, hc⟩ := key _ h1 _ h2 rfl hne (hid _ _ h3) (hid _ _ h4)
  exact ⟨c, hc, m⟩

end Props
end FP
