import Verif.Proofs.Api
import Verif.Props.Query
/-!
# Preparation

Statements about the graph built by `prepare`, `prepare_with_params`, `prepare_with_order` and
`prepare_with_order_with_params`.
-/
set_option autoImplicit false
namespace FP
namespace Props
open Spec

/-- **C10** Every permutation of the nodes is accepted: `Ok`, or a panic for arithmetic overflow or exhausted capacity. -/
theorem C10_any_permutation_accepted {P : Plat} (hP : P.checked = true) {ops : List Op} {ig : InputGraph}
    (hb : buildGraph P ops = .ok ig) (hf : ig.frozen = true) (pq : PQ) {order : List Nat}
    (ho : order.Perm (List.range ig.numNodes)) (maxSettled : Nat) :
    (∃ fg, prepareWithOrderWithParams P pq ig order maxSettled = .ok (.ok fg)) ∨
      prepareWithOrderWithParams P pq ig order maxSettled = .error .overflow ∨
      prepareWithOrderWithParams P pq ig order maxSettled = .error .capacity := by
  have h := buildWithOrder_ok (pq := pq) hP ((buildGraph_inv (Or.inl hP) hb).frozenOk hf) ho maxSettled
  unfold prepareWithOrderWithParams
  cases hr : buildWithOrderWithParams P pq ig order maxSettled with
  | ok r =>
    rw [hr] at h
    obtain ⟨fg, rfl, _⟩ := h
    exact Or.inl ⟨fg, rfl⟩
  | error e =>
    rw [hr] at h
    cases e <;> first | exact Or.inr (Or.inl rfl) | exact Or.inr (Or.inr rfl) | exact h.elim

/-- **C10** … and the resulting graph answers every query optimally. -/
theorem C10_any_permutation_optimal {P : Plat} (hP : P.checked = true) {ops : List Op} {ig : InputGraph}
    (hb : buildGraph P ops = .ok ig) (hf : ig.frozen = true) (pq pq' : PQ) {order : List Nat}
    (ho : order.Perm (List.range ig.numNodes)) {maxSettled : Nat} {fg : FastGraph}
    (hp : prepareWithOrderWithParams P pq ig order maxSettled = .ok (.ok fg)) {s t : Nat} {r : Option ShortestPath}
    (hq : calcPath P pq' fg s t = .ok r) :
    (r = none → ¬ ∃ w < P.umax, HasWalk (edgesOf (accepted ops)) s t w) ∧
      ∀ p, r = some p → IsDist (edgesOf (accepted ops)) s t p.weight :=
  have hc : Client P ops ig fg := ⟨hb, hf, .orderParams pq order maxSettled ho hp⟩
  ⟨(C02_none_iff_unreachable hP hc pq' hq).1, fun _ h => C01_calc_path_is_minimal hP hc pq' (h ▸ hq)⟩

example : (none : Option ShortestPath) = none → ¬ ∃ w < debug64.umax, HasWalk (edgesOf (accepted Ex.ops)) 4 0 w :=
  (C10_any_permutation_optimal (maxSettled := 0) rfl Ex.built Ex.frozen binaryHeap binaryHeap
    (order := [4, 1, 3, 0, 2]) (by decide) rfl rfl).1

/-- **C11** `Err` is returned exactly for an order of the wrong length; any build, any frozen graph, any order. -/
theorem C11_err_iff_wrong_length (P : Plat) (pq : PQ) {ig : InputGraph} (hf : ig.frozen = true) (order : List Nat)
    (maxSettled : Nat) :
    (∃ msg, prepareWithOrderWithParams P pq ig order maxSettled = .ok (.error msg)) ↔ order.length ≠ ig.numNodes := by
  unfold prepareWithOrderWithParams buildWithOrderWithParams
  rw [getNumNodes_frozen hf]
  simp only [bind_okM]
  by_cases hl : ig.numNodes = order.length
  · rw [if_neg (by simp [hl])]
    constructor
    · rintro ⟨msg, h⟩
      obtain ⟨fg, _, h2⟩ := bind_eq_ok.1 h
      injection h2 with h2
      cases h2
    · intro h; exact absurd hl.symm h
  · rw [if_pos (by simpa using hl)]
    exact ⟨fun _ h => hl h.symm, fun _ => ⟨_, rfl⟩⟩

/-- **C11** for the version with default parameters. -/
theorem C11_err_iff_wrong_length_default (P : Plat) (pq : PQ) {ig : InputGraph} (hf : ig.frozen = true)
    (order : List Nat) :
    (∃ msg, prepareWithOrder P pq ig order = .ok (.error msg)) ↔ order.length ≠ ig.numNodes :=
  C11_err_iff_wrong_length P pq hf order paramsWithOrderDefault

example : ∃ msg, prepareWithOrder release64 binaryHeap Ex.ig [0, 1, 2, 3] = .ok (.error msg) :=
  (C11_err_iff_wrong_length_default _ _ Ex.frozen _).2 (by decide)
example : ¬ ∃ msg, prepareWithOrder debug64 binaryHeap Ex.ig Ex.order = .ok (.error msg) :=
  (C11_err_iff_wrong_length_default _ _ Ex.frozen _).not.2 (by decide)

/-- **C13** `get_node_ordering` is a permutation of the node ids and inverse to the ranks. -/
theorem C13_ordering_is_permutation {P : Plat} (hP : P.checked = true) {ops : List Op} {ig : InputGraph} {fg : FastGraph}
    (hc : Client P ops ig fg) : ∃ nodes, getNodeOrdering fg = .ok nodes ∧ nodes.Perm (List.range ig.numNodes) ∧
      nodes.length = fg.getNumNodes ∧ ∀ j v : Nat, nodes[j]? = some v ↔ fg.ranks[v]? = some j := by
  have hg := hc.good hP
  obtain ⟨nodes, h1, h2, h3⟩ := hg.toShape.ordering
  refine ⟨nodes, h1, h2, ?_, h3⟩
  have := h2.length_eq
  rw [List.length_range] at this
  rw [this]
  exact hg.num.symm

/-- **C13** After preparing with an order, `get_node_ordering` returns this order. -/
theorem C13_order_is_kept {P : Plat} (hP : P.checked = true) {ops : List Op} {ig : InputGraph}
    (hb : buildGraph P ops = .ok ig) (hf : ig.frozen = true) {pq : PQ} {order : List Nat}
    (ho : order.Perm (List.range ig.numNodes)) {maxSettled : Nat} {fg : FastGraph}
    (hp : prepareWithOrderWithParams P pq ig order maxSettled = .ok (.ok fg)) : getNodeOrdering fg = .ok order := by
  have hc : Client P ops ig fg := ⟨hb, hf, .orderParams pq order maxSettled ho hp⟩
  obtain ⟨fg', e, _, hrk⟩ := (buildWithOrder_ok hP ((buildGraph_inv (Or.inl hP) hb).frozenOk hf) ho maxSettled).of_ok hp
  cases e
  obtain ⟨nodes, h1, h2, _, h3⟩ := C13_ordering_is_permutation hP hc
  rw [h1]
  congr 1
  refine List.ext_getElem? ?_
  intro j
  by_cases hj : j < order.length
  · have := List.getElem?_eq_getElem hj
    rw [this]
    exact (h3 _ _).2 (hrk j _ this)
  · have hl : nodes.length = order.length := (h2.trans ho.symm).length_eq
    rw [List.getElem?_eq_none (by omega), List.getElem?_eq_none (by omega)]

example : getNodeOrdering Ex.fgo = .ok Ex.order :=
  C13_order_is_kept (maxSettled := 100) rfl Ex.built Ex.frozen Ex.perm Ex.preparedOrder

/-- **C14** Preparing again with the order found by `prepare_with_params`, and the same settled-nodes limit for the
contraction, gives the identical graph; any build, whatever the queue, the parameters and the input graph. -/
theorem C14_prepare_again_same_graph (P : Plat) (pq : PQ) (nq : NodeQueue) {ig : InputGraph} {params : Params}
    {fg : FastGraph} (hp : prepareWithParams P pq nq ig params = .ok fg) :
    ∃ nodes, getNodeOrdering fg = .ok nodes ∧
      prepareWithOrderWithParams P pq ig nodes params.maxSettledContraction = .ok (.ok fg) := by
  obtain ⟨nodes, h1, _, h2⟩ := prepare_again hp
  exact ⟨nodes, h1, h2⟩

example : prepareWithOrderWithParams debug64 binaryHeap Ex.ig [0, 4, 1, 3, 2] 500 = .ok (.ok Ex.fg) := by
  obtain ⟨nodes, h1, h2⟩ := C14_prepare_again_same_graph debug64 binaryHeap listQueue (params := .default Ex.rel)
    Ex.preparedDefault
  have : getNodeOrdering Ex.fg = .ok [0, 4, 1, 3, 2] := rfl
  rw [this] at h1
  injection h1 with h1
  subst h1
  exact h2

/-- **C15, C18** Preparing a frozen graph returns, or panics for arithmetic overflow or exhausted capacity: never for an
assertion, a debug assertion or an index out of bounds, and no loop exceeds the bound given to it in the model (`n + 1`
rounds of the contraction loop, `heap size + number of edges + 1` pops in a witness search). -/
theorem C15_prepare_panics {P : Plat} (hP : P.checked = true) {ops : List Op} {ig : InputGraph}
    (hb : buildGraph P ops = .ok ig) (hf : ig.frozen = true) (pq : PQ) (nq : NodeQueue) (params : Params) :
    (∃ fg, prepareWithParams P pq nq ig params = .ok fg) ∨ prepareWithParams P pq nq ig params = .error .overflow ∨
      prepareWithParams P pq nq ig params = .error .capacity := by
  have h := buildWithParams_ok (pq := pq) (nq := nq) hP ((buildGraph_inv (Or.inl hP) hb).frozenOk hf) params
  unfold prepareWithParams
  cases hr : buildWithParams P pq nq ig params with
  | ok fg => exact Or.inl ⟨fg, rfl⟩
  | error e =>
    rw [hr] at h
    cases e <;> first | exact Or.inr (Or.inl rfl) | exact Or.inr (Or.inr rfl) | exact h.elim

/-- **C15** The same for a given order. -/
theorem C15_prepare_with_order_panics {P : Plat} (hP : P.checked = true) {ops : List Op} {ig : InputGraph}
    (hb : buildGraph P ops = .ok ig) (hf : ig.frozen = true) (pq : PQ) {order : List Nat}
    (ho : order.Perm (List.range ig.numNodes)) {e : Panic} (h : prepareWithOrder P pq ig order = .error e) :
    e = .overflow ∨ e = .capacity := by
  rcases C10_any_permutation_accepted hP hb hf pq ho 100 with ⟨fg, h'⟩ | h' | h' <;>
    (have h2 : prepareWithOrderWithParams P pq ig order 100 = .error e := h
     rw [h'] at h2; cases h2)
  · exact Or.inl rfl
  · exact Or.inr rfl

/-- An overflow is possible. -/
example : ∃ ig, buildGraph debug64 [.addEdge 0 1 Ex.inv, .addEdge 1 2 Ex.inv, .freeze] = .ok ig ∧
    prepareWithOrder debug64 binaryHeap ig [1, 0, 2] = .error .overflow := ⟨_, rfl, rfl⟩

/-- **C18** Every node is contracted exactly once: the ranks are the numbers `0..n`, each used once. -/
theorem C18_every_node_contracted_once {P : Plat} (hP : P.checked = true) {ops : List Op} {ig : InputGraph}
    {fg : FastGraph} (hc : Client P ops ig fg) : fg.ranks.Perm (List.range ig.numNodes) := by
  have hs := (hc.good hP).toShape
  have : fg.ranks = (List.range ig.numNodes).map fg.rk := by
    refine List.ext_getElem? ?_
    intro j
    by_cases hj : j < ig.numNodes
    · have : j < fg.ranks.length := by rw [hs.lenR]; exact hj
      rw [List.getElem?_map, List.getElem?_range hj]
      simp [FastGraph.rk, this]
    · rw [List.getElem?_eq_none (by rw [hs.lenR]; omega), List.getElem?_eq_none (by simp; omega)]
  rw [this]
  exact hs.perm_rk

/-- **C18** Preparation never runs out of the bounds given to its loops. -/
theorem C18_preparation_terminates {P : Plat} (hP : P.checked = true) {ops : List Op} {ig : InputGraph}
    (hb : buildGraph P ops = .ok ig) (hf : ig.frozen = true) (pq : PQ) (nq : NodeQueue) (params : Params)
    {order : List Nat} (ho : order.Perm (List.range ig.numNodes)) (maxSettled : Nat) :
    prepareWithParams P pq nq ig params ≠ .error .outOfFuel ∧
      prepareWithOrderWithParams P pq ig order maxSettled ≠ .error .outOfFuel := by
  constructor
  · rcases C15_prepare_panics hP hb hf pq nq params with ⟨fg, h⟩ | h | h <;> rw [h] <;> simp
  · rcases C10_any_permutation_accepted hP hb hf pq ho maxSettled with ⟨fg, h⟩ | h | h <;> rw [h] <;> simp

example : Ex.fg.ranks.Perm (List.range 5) := C18_every_node_contracted_once rfl exampleClient

/-- **C31, refuted** An order of the right length that is not a permutation can be accepted silently, giving a graph that
answers queries wrongly: here `[0, 0, 1]` is accepted, a walk of weight 2 from 0 to 2 exists and the answer is `None`. -/
theorem C31_false : ∃ (ops : List Op) (ig : InputGraph) (order : List Nat) (fg : FastGraph),
    buildGraph debug64 ops = .ok ig ∧ ig.frozen = true ∧ order.length = ig.numNodes ∧
    prepareWithOrder debug64 binaryHeap ig order = .ok (.ok fg) ∧ calcPath debug64 binaryHeap fg 0 2 = .ok none ∧
    HasWalk (edgesOf (accepted ops)) 0 2 2 :=
  ⟨[.addEdge 0 1 1, .addEdge 1 2 1, .freeze], _, [0, 0, 1], _, rfl, rfl, rfl, rfl, rfl,
    [0, 1, 2], ⟨1, 1, by simp [edgesOf, accepted, Op.edges], ⟨1, 0, by simp [edgesOf, accepted, Op.edges], rfl, rfl⟩, rfl⟩,
    rfl, rfl⟩

/-- **C31, refuted once more** The accepted order can also make a query return a path that does not start at its source: asked
for a way from 2 to 1, of which there is none, it returns the edge from 0 to 1. -/
theorem C31_false_wrong_source : ∃ (ops : List Op) (ig : InputGraph) (order : List Nat) (fg : FastGraph) (p : ShortestPath),
    buildGraph debug64 ops = .ok ig ∧ ig.frozen = true ∧ order.length = ig.numNodes ∧
    prepareWithOrder debug64 binaryHeap ig order = .ok (.ok fg) ∧ calcPath debug64 binaryHeap fg 2 1 = .ok (some p) ∧
    p.source = 0 ∧ p.nodes = [0, 1] ∧ ¬ ∃ w, HasWalk (edgesOf (accepted ops)) 2 1 w := by
  refine ⟨[.addEdge 0 1 1, .addEdge 1 2 1, .freeze], _, [0, 0, 1], _, ⟨0, 1, 1, [0, 1]⟩, rfl, rfl, rfl, rfl, rfl, rfl, rfl, ?_⟩
  rintro ⟨w, L, hL, h1, h2⟩
  cases L with
  | nil => cases h1
  | cons a L =>
    simp only [List.head?_cons, Option.some.injEq] at h1
    subst h1
    cases L with
    | nil => simp at h2
    | cons b L =>
      obtain ⟨w1, w2, he, _⟩ := hL
      simp [edgesOf, accepted, Op.edges] at he

/-- **C31, what holds** An order of the right length with a node id out of range is never accepted; so what is wrongly
accepted are orders with repetitions only. Any build. (Missing for C31: orders with repetitions, see `C31_false`.) -/
theorem C31_no_unknown_nodes_partial {P : Plat} {pq : PQ} {ig : InputGraph} {order : List Nat} {maxSettled : Nat}
    {fg : FastGraph} (hp : prepareWithOrderWithParams P pq ig order maxSettled = .ok (.ok fg)) :
    ∀ v ∈ order, v < ig.numNodes := by
  unfold prepareWithOrderWithParams buildWithOrderWithParams at hp
  obtain ⟨n, hn, hp⟩ := bind_eq_ok.1 hp
  have hn' : n = ig.numNodes := by
    obtain ⟨_, _, h⟩ := bind_eq_ok.1 hn
    injection h with h
    exact h.symm
  subst hn'
  by_cases hl : (ig.numNodes != order.length) = true
  · rw [if_pos hl] at hp
    injection hp with hp
    cases hp
  rw [if_neg hl] at hp
  obtain ⟨fg', hr, _⟩ := bind_eq_ok.1 hp
  unfold runContractionWithOrder at hr
  obtain ⟨_, _, hr⟩ := bind_eq_ok.1 hr
  obtain ⟨pg, _, hr⟩ := bind_eq_ok.1 hr
  obtain ⟨st, hst, _⟩ := bind_eq_ok.1 hr
  have := forM_inv (f := orderStep P ig.numNodes maxSettled) (I := fun pre (_ : BState pq) => ∀ x ∈ pre, x.1 < ig.numNodes)
    (by
      intro pre a s s' hI hs x hx
      rcases List.mem_append.1 hx with hx | hx
      · exact hI x hx
      · rw [List.mem_singleton.1 hx]
        by_contra hc
        obtain ⟨node, rank⟩ := a
        simp only [orderStep] at hs
        rw [if_pos (show node ≥ ig.numNodes by simpa using hc)] at hs
        cases hs) order.zipIdx [] _ st (by simp) hst
  intro v hv
  obtain ⟨i, hi⟩ := List.mem_iff_getElem?.1 hv
  have hm : (v, i) ∈ order.zipIdx := List.mem_zipIdx_iff_getElem?.2 hi
  exact this (v, i) (by simpa using hm)

example : ∀ v ∈ Ex.order, v < 5 := C31_no_unknown_nodes_partial (ig := Ex.ig) (maxSettled := 100) Ex.preparedOrder
example : prepareWithOrder debug64 binaryHeap Ex.ig [0, 1, 2, 3, 7] = .error .assertion := rfl

/-! ### Layout of the prepared graph -/

theorem range_cover {n m : Nat} {first : List Nat} (h : FirstOk n first m) {id : Nat} (hid : id < m) :
    ∃ j < n, (first[j]?).getD 0 ≤ id ∧ id < (first[j + 1]?).getD 0 := by
  have key : ∀ k ≤ n, id < (first[k]?).getD 0 → ∃ j < k, (first[j]?).getD 0 ≤ id ∧ id < (first[j + 1]?).getD 0 := by
    intro k
    induction k with
    | zero => intro _ h0; rw [h.zero] at h0; omega
    | succ k ih =>
      intro hk hlt
      by_cases hc : id < (first[k]?).getD 0
      · obtain ⟨j, hj, h1⟩ := ih (by omega) hc
        exact ⟨j, by omega, h1⟩
      · exact ⟨k, by omega, by omega, hlt⟩
  exact key n (Nat.le_refl _) (by rw [h.last]; exact hid)

theorem rank_surj {P : Plat} {n : Nat} {fg : FastGraph} (h : Shape P n fg) {j : Nat} (hj : j < n) : ∃ v < n, fg.rk v = j := by
  have := h.perm_rk.mem_iff.2 (List.mem_range.2 hj)
  obtain ⟨v, hv, e⟩ := List.mem_map.1 this
  exact ⟨v, List.mem_range.1 hv, e⟩

theorem rank_get {P : Plat} {n : Nat} {fg : FastGraph} (h : Shape P n fg) {v : Nat} (hv : v < n) :
    fg.ranks[v]? = some (fg.rk v) := by
  have : v < fg.ranks.length := by rw [h.lenR]; exact hv
  simp [FastGraph.rk, this]

/-- What it means that the edges `es` are laid out by node, `beg`/`fin` giving the range of a node and every edge
leading to a node of higher rank. -/
structure LaidOut (fg : FastGraph) (n : Nat) (es : List FastGraphEdge) (beg fin : Nat → M Nat) : Prop where
  /-- every node has a range within the list, whose edges belong to the node and lead to higher ranks -/
  ranges : ∀ v < n, ∃ b e, beg v = .ok b ∧ fin v = .ok e ∧ b ≤ e ∧ e ≤ es.length ∧ ∀ id, b ≤ id → id < e →
    ∃ ed r r', es[id]? = some ed ∧ ed.baseNode = v ∧ ed.adjNode < n ∧ fg.ranks[v]? = some r ∧
      fg.ranks[ed.adjNode]? = some r' ∧ r < r'
  /-- the ranges of different nodes are disjoint -/
  disjoint : ∀ u < n, ∀ v < n, u ≠ v → ∀ b e b' e' id, beg u = .ok b → fin u = .ok e → beg v = .ok b' → fin v = .ok e' →
    ¬ (b ≤ id ∧ id < e ∧ b' ≤ id ∧ id < e')
  /-- every edge is in the range of a node -/
  cover : ∀ id < es.length, ∃ v < n, ∃ b e, beg v = .ok b ∧ fin v = .ok e ∧ b ≤ id ∧ id < e

theorem laidOut_of {P : Plat} {n : Nat} {fg : FastGraph} (hs : Shape P n fg) {es : List FastGraphEdge} {first : List Nat}
    (hf : FirstOk n first es.length) {beg fin : Nat → M Nat}
    (hb : ∀ v < n, beg v = .ok ((first[fg.rk v]?).getD 0)) (he : ∀ v < n, fin v = .ok ((first[fg.rk v + 1]?).getD 0))
    (hed : ∀ v < n, ∀ id ed, (first[fg.rk v]?).getD 0 ≤ id → id < (first[fg.rk v + 1]?).getD 0 → es[id]? = some ed →
      ed.baseNode = v ∧ ed.adjNode < n ∧ fg.rk v < fg.rk ed.adjNode) : LaidOut fg n es beg fin := by
  have hle : ∀ v < n, (first[fg.rk v + 1]?).getD 0 ≤ es.length := by
    intro v hv
    have := hf.le (i := fg.rk v + 1) (j := n) (hs.rk_lt v hv) (Nat.le_refl _)
    rw [hf.last] at this
    exact this
  have hex : ∀ v < n, ∀ id, (first[fg.rk v]?).getD 0 ≤ id → id < (first[fg.rk v + 1]?).getD 0 →
      ∃ ed, es[id]? = some ed := by
    intro v hv id _ h2
    have : id < es.length := by have := hle v hv; omega
    exact ⟨es[id], by simp [this]⟩
  refine ⟨?_, ?_, ?_⟩
  · intro v hv
    refine ⟨_, _, hb v hv, he v hv, hf.mono _ (hs.rk_lt v hv), hle v hv, ?_⟩
    intro id h1 h2
    obtain ⟨ed, hed'⟩ := hex v hv id h1 h2
    obtain ⟨k1, k2, k3⟩ := hed v hv id ed h1 h2 hed'
    exact ⟨ed, _, _, hed', k1, k2, rank_get hs hv, rank_get hs k2, k3⟩
  · rintro u hu v hv hne b e b' e' id h1 h2 h3 h4 ⟨k1, k2, k3, k4⟩
    rw [hb u hu] at h1
    rw [he u hu] at h2
    rw [hb v hv] at h3
    rw [he v hv] at h4
    injection h1 with h1; injection h2 with h2; injection h3 with h3; injection h4 with h4
    subst h1 h2 h3 h4
    obtain ⟨ed, hed'⟩ := hex u hu id k1 k2
    exact hne ((hed u hu id ed k1 k2 hed').1.symm.trans (hed v hv id ed k3 k4 hed').1)
  · intro id hid
    obtain ⟨j, hj, h1, h2⟩ := range_cover hf hid
    obtain ⟨v, hv, rfl⟩ := rank_surj hs hj
    exact ⟨v, hv, _, _, hb v hv, he v hv, h1, h2⟩

/-- **C35** The out-edges of a prepared graph are laid out correctly, and so are the in-edges. -/
theorem C35_edge_ranges {P : Plat} (hP : P.checked = true) {ops : List Op} {ig : InputGraph} {fg : FastGraph}
    (hc : Client P ops ig fg) :
    LaidOut fg fg.getNumNodes fg.edgesFwd fg.beginOutEdges fg.endOutEdges ∧
      LaidOut fg fg.getNumNodes fg.edgesBwd fg.beginInEdges fg.endInEdges ∧ fg.getNumNodes = ig.numNodes := by
  have hg := hc.good hP
  have hn : fg.getNumNodes = ig.numNodes := hg.num
  rw [hn]
  refine ⟨laidOut_of hg.toShape hg.firstF (fun _ => hg.toShape.beginOut) (fun _ => hg.toShape.endOut) ?_,
    laidOut_of hg.toShape hg.firstB (fun _ => hg.toShape.beginIn) (fun _ => hg.toShape.endIn) ?_, rfl⟩
  · intro v hv id ed h1 h2 h3
    obtain ⟨k1, k2, k3, _⟩ := hg.fwd v hv id ed ⟨h1, h2, h3⟩
    exact ⟨k1, k2, k3⟩
  · intro v hv id ed h1 h2 h3
    obtain ⟨k1, k2, k3, _⟩ := hg.bwd v hv id ed ⟨h1, h2, h3⟩
    exact ⟨k1, k2, k3⟩

example : LaidOut Ex.fgo 5 Ex.fgo.edgesBwd Ex.fgo.beginInEdges Ex.fgo.endInEdges := (C35_edge_ranges rfl exampleClient').2.1

/-- **C36** Every stored edge weighs exactly as much as some walk in the input graph; out-edges lead from the node to the
neighbor, in-edges from the neighbor to the node. -/
theorem C36_edges_are_walks {P : Plat} (hP : P.checked = true) {ops : List Op} {ig : InputGraph} {fg : FastGraph}
    (hc : Client P ops ig fg) :
    (∀ ed ∈ fg.edgesFwd, HasWalk (edgesOf ig.edges) ed.baseNode ed.adjNode ed.weight) ∧
      ∀ ed ∈ fg.edgesBwd, HasWalk (edgesOf ig.edges) ed.adjNode ed.baseNode ed.weight := by
  have hg := hc.good hP
  constructor
  · intro ed hed
    obtain ⟨id, hid⟩ := List.mem_iff_getElem?.1 hed
    have hl : id < fg.edgesFwd.length := (List.getElem?_eq_some_iff.1 hid).1
    obtain ⟨j, hj, h1, h2⟩ := range_cover hg.firstF hl
    obtain ⟨v, hv, rfl⟩ := rank_surj hg.toShape hj
    have hat : fg.OutAt v id ed := ⟨h1, h2, hid⟩
    rw [(hg.fwd v hv id ed hat).1]
    exact hasWalk_iff.2 ((hg.realise _).1 v hv rfl id ed hat)
  · intro ed hed
    obtain ⟨id, hid⟩ := List.mem_iff_getElem?.1 hed
    have hl : id < fg.edgesBwd.length := (List.getElem?_eq_some_iff.1 hid).1
    obtain ⟨j, hj, h1, h2⟩ := range_cover hg.firstB hl
    obtain ⟨v, hv, rfl⟩ := rank_surj hg.toShape hj
    have hat : fg.InAt v id ed := ⟨h1, h2, hid⟩
    rw [(hg.bwd v hv id ed hat).1]
    exact hasWalk_iff.2 ((hg.realise _).2 v hv rfl id ed hat)

/-- **C36** … so no stored weight is below the shortest distance in the graph the client described. -/
theorem C36_never_below_distance {P : Plat} (hP : P.checked = true) {ops : List Op} {ig : InputGraph} {fg : FastGraph}
    (hc : Client P ops ig fg) {d : Nat} :
    (∀ ed ∈ fg.edgesFwd, IsDist (edgesOf (accepted ops)) ed.baseNode ed.adjNode d → d ≤ ed.weight) ∧
      ∀ ed ∈ fg.edgesBwd, IsDist (edgesOf (accepted ops)) ed.adjNode ed.baseNode d → d ≤ ed.weight := by
  obtain ⟨h1, h2⟩ := C36_edges_are_walks hP hc
  have hi := hc.inv hP
  exact ⟨fun ed hed hd => hd.2 _ (hasWalk_iff.2 (hi.walk_sub (hasWalk_iff.1 (h1 ed hed)))),
    fun ed hed hd => hd.2 _ (hasWalk_iff.2 (hi.walk_sub (hasWalk_iff.1 (h2 ed hed))))⟩

example : HasWalk (edgesOf Ex.ig.edges) 0 4 13 := (C36_edges_are_walks rfl exampleClient').2 ⟨4, 0, 13, 5, 2⟩ (by decide)

end Props
end FP
