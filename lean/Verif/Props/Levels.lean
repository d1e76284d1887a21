import Verif.Proofs.Levels
import Verif.Props.Height
import Verif.Props.Order
import Verif.Props.Preparation
set_option autoImplicit false
/-! # The levels are the heights

`prepare` keeps a level for every node and uses it in the priorities (C69). C126 bounds the effort after a search by chains of stored
edges. Both are the same number. -/
namespace FP.Props
open Spec PathCalculator

theorem level_height {P : Plat} {pq : PQ} {ig : InputGraph} (hF : FrozenOk ig) {ms : Nat} {fg : FastGraph} {E : EdgeRel}
    (hg : FSound P E ig.numNodes fg) (hB : BuiltFrom P ig.numNodes (freshStep pq P ig.numNodes ms) ig.edges fg) {order : List Nat}
    (hord : fg.getNodeOrdering = .ok order) {pre rest : List Nat} {x : Nat} (he : order = pre ++ x :: rest) (k : Nat) :
    IsLevel (remainingEdges P pq ig ms) pre x k ↔ IsHeight fg x k := by
  obtain ⟨h1, h2⟩ := depth_chain hF hg hB hord
  constructor
  · rintro ⟨a, b⟩
    exact ⟨h1 a _ he, fun L hL => b _ (h2 L x hL _ _ he)⟩
  · rintro ⟨⟨L, a, rfl⟩, b⟩
    refine ⟨h2 L x a _ _ he, fun k' hk' => ?_⟩
    obtain ⟨L', c, rfl⟩ := h1 hk' _ he
    exact b L' c

/-- **C128** After `prepare_with_params` the level a node `x` had when it was contracted (after the nodes `pre`) is the height of `x`
in the prepared graph. -/
theorem C128_params {P : Plat} (hP : P.checked = true) {ops : List Op} {ig : InputGraph} {fg : FastGraph}
    (hb : buildGraph P ops = .ok ig) (hf : ig.frozen = true) {pq : PQ} {nq : NodeQueue} {params : Params}
    (hp : prepareWithParams P pq nq ig params = .ok fg) {order : List Nat} (hord : getNodeOrdering fg = .ok order)
    {pre rest : List Nat} {x : Nat} (he : order = pre ++ x :: rest) (k : Nat) :
    IsLevel (remainingEdges P pq ig params.maxSettledContraction) pre x k ↔ IsHeight fg x k := by
  have hF := (buildGraph_inv (Or.inl hP) hb).frozenOk hf
  obtain ⟨hg, hB⟩ := (buildWithParams_built hP hF params (stepsOk_fresh pq P _ _)).of_ok hp
  exact level_height hF hg.toFSound hB hord he k

/-- **C128** The same for `prepare_with_order_with_params`. -/
theorem C128_order {P : Plat} (hP : P.checked = true) {ops : List Op} {ig : InputGraph} {fg : FastGraph}
    (hb : buildGraph P ops = .ok ig) (hf : ig.frozen = true) {pq : PQ} {order : List Nat} {maxSettled : Nat}
    (hperm : order.Perm (List.range ig.numNodes)) (hp : prepareWithOrderWithParams P pq ig order maxSettled = .ok (.ok fg))
    {pre rest : List Nat} {x : Nat} (he : order = pre ++ x :: rest) (k : Nat) :
    IsLevel (remainingEdges P pq ig maxSettled) pre x k ↔ IsHeight fg x k := by
  have hF := (buildGraph_inv (Or.inl hP) hb).frozenOk hf
  obtain ⟨fg', e, hg, hB, hr⟩ := (buildWithOrder_built hP hF hperm _ (stepsOk_fresh pq P _ _)).of_ok hp
  cases e
  have hlen : order.length = ig.numNodes := by simpa using hperm.length_eq
  have hord : fg.getNodeOrdering = .ok order :=
    getNodeOrdering_eq (by rw [hg.toShape.lenR, hlen]) (by rw [hlen]; exact hperm) hr
  exact level_height hF hg.toFSound hB hord he k

/-- **C128** The array `levels` of the code: when the loop of `run_contraction` ends, it holds the height of every node in the graph that
is returned. -/
theorem C128_levels {P : Plat} (hP : P.checked = true) {ops : List Op} {ig : InputGraph} {fg : FastGraph}
    (hb : buildGraph P ops = .ok ig) (hf : ig.frozen = true) {pq : PQ} {nq : NodeQueue} {prio : nq.σ → Nat → Nat}
    (ho : Ordered nq prio) {params : Params} (hp : prepareWithParams P pq nq ig params = .ok fg) :
    ∃ (fg0 : FastGraph) (pg0 : PreparationGraph) (st0 st : QState pq nq),
      FastGraph.new P ig.numNodes = .ok fg0 ∧ PreparationGraph.fromInputGraph P ig = .ok pg0 ∧
      forM (initialPriority P params) (⟨⟨pg0, WitnessSearch.new P pq ig.numNodes, fg0⟩, List.replicate ig.numNodes 0, nq.empty⟩ :
        QState pq nq) (List.range ig.numNodes) = .ok st0 ∧
      contractionLoop P params (ig.numNodes + 1) 0 st0 = .ok st ∧ finishContraction P ig.numNodes st.b.fg = .ok fg ∧
      ∀ x < ig.numNodes, ∃ k, st.levels[x]? = some k ∧ IsHeight fg x k := by
  have hF := (buildGraph_inv (Or.inl hP) hb).frozenOk hf
  obtain ⟨hg, hB⟩ := (buildWithParams_built hP hF params (stepsOk_fresh pq P _ _)).of_ok hp
  obtain ⟨nodes, pg0, fg0, st0, hord, hperm, _, hpg, hfg, hinit, hpops, _⟩ := prepare_pops hp
  obtain ⟨hn, hO, _⟩ := OInv.initial hP hF ho hpg hfg hinit
  have hrun : runContraction P pq nq ig ig.numNodes params = .ok fg := by
    have h := hp
    unfold prepareWithParams buildWithParams at h
    obtain ⟨k, hk, h⟩ := bind_eq_ok.1 h
    unfold InputGraph.getNumNodes at hk
    obtain ⟨_, _, hk⟩ := bind_eq_ok.1 hk
    injection hk with hk
    subst hk
    exact h
  unfold runContraction at hrun
  rw [hfg, bind_okM, hpg, bind_okM] at hrun
  simp only [hinit, bind_okM] at hrun
  obtain ⟨st, hst, hfin⟩ := bind_eq_ok.1 hrun
  refine ⟨fg0, pg0, st0, st, hfg, hpg, hinit, hst, hfin, fun x hx => ?_⟩
  obtain ⟨k, hk, hlev⟩ := (pops_final hP hn ho hpops [] _ _ hO hst).levels x hx
  refine ⟨k, hk, ?_⟩
  obtain ⟨h1, h2⟩ := depth_chain hF hg.toFSound hB hord
  obtain ⟨pre, rest, he⟩ := List.append_of_mem (hperm.mem_iff.2 (List.mem_range.2 hx))
  rw [List.nil_append] at hlev
  refine ⟨h1 hlev.1 [] (by simp), fun L hL => hlev.2 _ ?_⟩
  rw [he]
  exact depth_append (h2 L x hL _ _ he) _

/-- Chains of more than one node stay among the nodes of the graph. -/
theorem chain_head {P : Plat} (hP : P.checked = true) {ops : List Op} {ig : InputGraph} {fg : FastGraph} (hc : Client P ops ig fg)
    {x y : Nat} {L : List Nat} (h : fg.Chain (x :: y :: L)) : x < ig.numNodes := by
  obtain ⟨_, b, _, h2, _⟩ := (C126_chains hP hc).1 y x h.1
  rw [← (hc.good hP).toShape.lenR]
  exact (List.getElem?_eq_some_iff.1 h2).1

/-- **C128** So the levels bound the effort after the search: if no node had a level above `H` when it was contracted, unpacking needs
at most `H` nested calls. -/
theorem C128_depth {P : Plat} (hP : P.checked = true) {ops : List Op} {ig : InputGraph} {fg : FastGraph}
    (hb : buildGraph P ops = .ok ig) (hf : ig.frozen = true) {pq : PQ} {nq : NodeQueue} {params : Params}
    (hp : prepareWithParams P pq nq ig params = .ok fg) {order : List Nat} (hord : getNodeOrdering fg = .ok order) {H : Nat}
    (hH : ∀ pre x rest k, order = pre ++ x :: rest →
      IsLevel (remainingEdges P pq ig params.maxSettledContraction) pre x k → k ≤ H) (nodes : List Nat) (reverse : Bool) :
    (∀ id < fg.edgesFwd.length, ∃ R, ∀ more, unpackFwd P fg (H + more) nodes id reverse = .ok R) ∧
    ∀ id < fg.edgesBwd.length, ∃ R, ∀ more, unpackBwd P fg (H + more) nodes id reverse = .ok R := by
  have hc : Client P ops ig fg := ⟨hb, hf, .params pq nq params hp⟩
  refine C126_depth hP hc (fun L hL => ?_) nodes reverse
  rcases L with _ | ⟨x, _ | ⟨y, L⟩⟩
  · simp
  · simp
  · have hx := chain_head hP hc hL
    obtain ⟨nodes', h1, h2, _⟩ := C13_ordering_is_permutation hP hc
    have : nodes' = order := by
      have := h1.symm.trans hord
      cases this; rfl
    subst this
    obtain ⟨pre, rest, he⟩ := List.append_of_mem (h2.mem_iff.2 (List.mem_range.2 hx))
    obtain ⟨k, hk⟩ := isLevel_exists (remainingEdges P pq ig params.maxSettledContraction) pre x
    have h3 := hH _ _ _ _ he hk
    have h4 := ((C128_params hP hb hf hp hord he k).1 hk).2 _ hL
    simp only [List.length_cons] at h4 ⊢
    omega

/-- The height is bounded by any function that increases along stored edges. -/
theorem isHeight_of {fg : FastGraph} {f : Nat → Nat} (hf : ∀ x y, fg.Stored x y → f x < f y) {x : Nat} {L : List Nat}
    (hL : fg.Chain (x :: L)) (hx : f x = L.length) : IsHeight fg x L.length := by
  refine ⟨⟨L, hL, rfl⟩, ?_⟩
  rw [← hx]
  have len : ∀ L x, fg.Chain (x :: L) → L.length ≤ f x := by
    intro L
    induction L with
    | nil => intro x _; simp
    | cons y L ih =>
      rintro x ⟨h1, h2⟩
      have := ih y h2
      have := hf _ _ h1
      simp only [List.length_cons]
      omega
  exact fun L hL => len L x hL

theorem Space.increases : ∀ x y, Space.fg.Stored x y → Space.height x < Space.height y := by
  rintro x y ⟨ed, h, rfl, rfl⟩
  simp only [Space.fg, List.mem_cons, List.not_mem_nil, or_false] at h
  rcases h with (rfl | rfl | rfl | rfl | rfl | rfl) | rfl <;> decide

theorem Space.prepared : prepareWithOrderWithParams debug64 binaryHeap Space.ig [0, 1, 4, 2, 3] 100 = .ok (.ok Space.fg) := rfl

/-- a concrete case: when node 2 was contracted, its level was two, because of the chain 2, 1, 0; node 4 did not count -/
example : IsLevel (remainingEdges debug64 binaryHeap Space.ig 100) [0, 1, 4] 2 2 :=
  (C128_order rfl Space.client.built Space.client.frozen (by decide) Space.prepared (rest := [3]) rfl 2).2
    (isHeight_of Space.increases (L := [1, 0])
      ⟨⟨⟨1, 2, 1, Ex.inv, Ex.inv⟩, by decide, rfl, rfl⟩, ⟨⟨0, 1, 4, Ex.inv, Ex.inv⟩, by decide, rfl, rfl⟩, trivial⟩ rfl)

/-- Heights of the nodes of the example. -/
def Ex.height : Nat → Nat
  | 1 => 1
  | 3 => 2
  | 2 => 3
  | _ => 0

theorem Ex.increases : ∀ x y, Ex.fg.Stored x y → Ex.height x < Ex.height y := by
  rintro x y ⟨ed, h, rfl, rfl⟩
  simp only [Ex.fg, List.mem_cons, List.not_mem_nil, or_false] at h
  rcases h with (rfl | rfl | rfl | rfl | rfl) | rfl | rfl | rfl <;> decide

/-- a concrete case for `prepare`: the order is 0, 4, 1, 3, 2; node 4 had level 0 and node 3 level 2 -/
example : IsLevel (remainingEdges debug64 binaryHeap Ex.ig 500) [0] 4 0 ∧
    IsLevel (remainingEdges debug64 binaryHeap Ex.ig 500) [0, 4, 1] 3 2 :=
  ⟨(C128_params (P := debug64) rfl Ex.built Ex.frozen (params := .default Ex.rel) Ex.preparedDefault (order := [0, 4, 1, 3, 2]) rfl
    (rest := [1, 3, 2]) rfl 0).2 (isHeight_of Ex.increases (L := []) trivial rfl),
   (C128_params (P := debug64) rfl Ex.built Ex.frozen (params := .default Ex.rel) Ex.preparedDefault (order := [0, 4, 1, 3, 2]) rfl
    (rest := [2]) rfl 2).2 (isHeight_of Ex.increases (L := [1, 0])
      ⟨⟨⟨1, 3, 7, 0, 2⟩, by decide, rfl, rfl⟩, ⟨⟨0, 1, 3, Ex.inv, Ex.inv⟩, by decide, rfl, rfl⟩, trivial⟩ rfl)⟩

/-- a concrete case: the array at the end of `prepare` -/
example : ∃ st : QState binaryHeap listQueue, finishContraction debug64 5 st.b.fg = .ok Ex.fg ∧
    ∀ x < 5, ∃ k, st.levels[x]? = some k ∧ IsHeight Ex.fg x k := by
  obtain ⟨_, _, _, st, _, _, _, _, h1, h2⟩ :=
    C128_levels rfl Ex.built Ex.frozen listQueue_ordered (params := .default Ex.rel) Ex.preparedDefault
  exact ⟨st, h1, h2⟩

/-- a concrete case: no level is above three -/
example : ∃ R, ∀ more, unpackBwd debug64 Ex.fg (3 + more) [] 1 false = .ok R :=
  (C128_depth (P := debug64) rfl Ex.built Ex.frozen (params := .default Ex.rel) Ex.preparedDefault (order := [0, 4, 1, 3, 2]) rfl
    (H := 3) (fun pre x rest k he hk => by
      obtain ⟨⟨L, hL, rfl⟩, _⟩ := (C128_params (P := debug64) rfl Ex.built Ex.frozen (params := .default Ex.rel) Ex.preparedDefault
        (order := [0, 4, 1, 3, 2]) rfl he k).1 hk
      have := chain_le Ex.increases (H := 3) (fun x => by unfold Ex.height; split <;> decide) _ hL
      simp only [List.length_cons] at this
      omega) [] false).2 1 (by decide)

end FP.Props
