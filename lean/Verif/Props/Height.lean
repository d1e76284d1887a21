import Verif.Proofs.Height
import Verif.Props.SearchSpace
import Verif.Props.Unpack
set_option autoImplicit false
/-! # The height of the hierarchy

A chain (`FastGraph.Chain`) is a list of nodes in which each one was a neighbor of the next when that was contracted. The longest chain
bounds what a query does after the search. -/
namespace FP.Props
open Spec PathCalculator

/-- **C126** If no chain has more than `H` edges, unpacking any stored edge never needs more than `H` nested calls. -/
theorem C126_depth {P : Plat} (hP : P.checked = true) {ops : List Op} {ig : InputGraph} {fg : FastGraph} (hc : Client P ops ig fg)
    {H : Nat} (hH : ∀ L, fg.Chain L → L.length ≤ H + 1) (nodes : List Nat) (reverse : Bool) :
    (∀ id < fg.edgesFwd.length, ∃ R, ∀ more, unpackFwd P fg (H + more) nodes id reverse = .ok R) ∧
    ∀ id < fg.edgesBwd.length, ∃ R, ∀ more, unpackBwd P fg (H + more) nodes id reverse = .ok R := by
  have hg := (hc.good hP).toFSound
  have key : ∀ u x, fg.Stored u x → ∀ L, fg.Chain (u :: L) → L.length < H := by
    intro u x hs L hL
    have := hH (x :: u :: L) ⟨hs, hL⟩
    simp only [List.length_cons] at this
    omega
  constructor
  · intro id hid
    obtain ⟨u, hu, k1, k2⟩ := hg.toShape.out_id_cover hid
    have hat : fg.OutAt u id fg.edgesFwd[id] := ⟨k1, k2, List.getElem?_eq_getElem hid⟩
    exact (unpack_depth hg H).1 u hu (key _ _ (hg.storedF hu hat)) id _ hat nodes reverse
  · intro id hid
    obtain ⟨u, hu, k1, k2⟩ := hg.toShape.flip.out_id_cover hid
    have hat : fg.InAt u id fg.edgesBwd[id] := ⟨k1, k2, List.getElem?_eq_getElem hid⟩
    exact (unpack_depth hg H).2 u hu (key _ _ (hg.storedB hu hat)) id _ hat nodes reverse

/-- **C126** If no chain has more than `H` edges, a returned path is made of at most `2 * H` edges of the search trees, for
calculators with any history. -/
theorem C126_edges {P : Plat} (hP : P.checked = true) {ops : List Op} {ig : InputGraph} {fg : FastGraph} (hc : Client P ops ig fg)
    {H : Nat} (hH : ∀ L, fg.Chain L → L.length ≤ H + 1) {pq : PQ} (history : List Request) {c c' : PathCalculator pq}
    (hh : runRequests P (createCalculator P pq fg) history = .ok c) {S T : List (Nat × Nat)} {p : ShortestPath} {calls tops : Nat}
    (h : c.calcPathMultiC P fg S T = .ok ((c', some p), calls, tops)) :
    tops ≤ 2 * H ∧ 2 * (p.nodes.length - 1) ≤ calls + 2 * H := by
  have h0 : calcPathMulti P pq fg S T = .ok (some p) := by
    rw [← C55_create_calculator P pq fg history hh S T, ← C125_counting_is_harmless, h]
    rfl
  obtain ⟨ha, _, _⟩ := query_answer hP hc h0
  have hg := (hc.good hP).toFSound
  have hco : CalcOk ig.numNodes c := runRequests_base (by
    unfold createCalculator FastGraph.getNumNodes
    rw [hg.num]
    exact CalcOk.new P pq ig.numNodes) hh
  obtain ⟨x, L₁, L₂, k1, k2, k3⟩ := calcPathMultiC_chains hP hg hco ha.sl ha.el h
  have h1 := hH _ k1
  have h2 := hH _ k2
  simp only [List.length_cons] at h1 h2
  have := ((C125_calls h).2 p rfl).1
  omega

/-- **C126** A chain visits nodes in descending rank, so no chain has more nodes than the graph: C17 follows. -/
theorem C126_chains {P : Plat} (hP : P.checked = true) {ops : List Op} {ig : InputGraph} {fg : FastGraph} (hc : Client P ops ig fg) :
    (∀ x y, fg.Stored x y → ∃ a b, fg.ranks[x]? = some a ∧ fg.ranks[y]? = some b ∧ a < b) ∧
    ∀ x y L, fg.Chain (x :: y :: L) → (x :: y :: L).length ≤ ig.numNodes := by
  have hg := (hc.good hP).toFSound
  have rank : ∀ x y, fg.Stored x y → x < ig.numNodes ∧ y < ig.numNodes ∧ fg.rk x < fg.rk y := by
    rintro x y ⟨ed, hm | hm, rfl, rfl⟩
    · obtain ⟨u, hu, id, hat⟩ := hg.toShape.out_cover hm
      obtain ⟨k1, k2, k3, _⟩ := hg.fwd u hu id ed hat
      rw [k1]
      exact ⟨hu, k2, k3⟩
    · obtain ⟨u, hu, id, hat⟩ := hg.toShape.in_cover hm
      obtain ⟨k1, k2, k3, _⟩ := hg.bwd u hu id ed hat
      rw [k1]
      exact ⟨hu, k2, k3⟩
  have len : ∀ L x, fg.Chain (x :: L) → L.length ≤ fg.rk x := by
    intro L
    induction L with
    | nil => intro x _; simp
    | cons y L ih =>
      rintro x ⟨h1, h2⟩
      have := ih y h2
      have := (rank _ _ h1).2.2
      simp only [List.length_cons]
      omega
  constructor
  · intro x y h
    obtain ⟨h1, h2, h3⟩ := rank x y h
    rw [← hg.lenR] at h1 h2
    refine ⟨_, _, List.getElem?_eq_getElem h1, List.getElem?_eq_getElem h2, ?_⟩
    unfold FastGraph.rk at h3
    rw [List.getElem?_eq_getElem h1, List.getElem?_eq_getElem h2] at h3
    exact h3
  · intro x y L h
    have h1 := len (y :: L) x h
    have h2 := hg.rk_lt _ (rank _ _ h.1).2.1
    simp only [List.length_cons] at h1 ⊢
    omega

/-- A function that increases along the stored edges bounds the chains. -/
theorem chain_le {fg : FastGraph} {f : Nat → Nat} {H : Nat} (hf : ∀ x y, fg.Stored x y → f x < f y) (hH : ∀ x, f x ≤ H) :
    ∀ L, fg.Chain L → L.length ≤ H + 1 := by
  have len : ∀ L x, fg.Chain (x :: L) → L.length ≤ f x := by
    intro L
    induction L with
    | nil => intro x _; simp
    | cons y L ih =>
      rintro x ⟨h1, h2⟩
      have := ih y h2
      have := hf _ _ h1
      simp only [List.length_cons]
      omega
  intro L hL
  cases L with
  | nil => simp
  | cons x L =>
    have := len L x hL
    have := hH x
    simp only [List.length_cons]
    omega

/-- Heights of the nodes of the example of `SearchSpace`. -/
def Space.height : Nat → Nat
  | 1 | 4 => 1
  | 2 => 2
  | 3 => 3
  | _ => 0

theorem Space.chains : ∀ L, Space.fg.Chain L → L.length ≤ 3 + 1 :=
  chain_le (f := Space.height) (by
    rintro x y ⟨ed, h, rfl, rfl⟩
    simp only [Space.fg, List.mem_cons, List.not_mem_nil, or_false] at h
    rcases h with (rfl | rfl | rfl | rfl | rfl | rfl) | rfl <;> decide) (by
    intro x
    unfold Space.height
    split <;> decide)

/-- a concrete case: five nodes, but no chain of more than three edges; the chain 3, 2, 1, 0 has three -/
example : Space.fg.Chain [3, 2, 1, 0] ∧ (∃ R, ∀ more, unpackFwd debug64 Space.fg (3 + more) [] 5 false = .ok R) ∧
    unpackFwd debug64 Space.fg 1 [] 5 false ≠ unpackFwd debug64 Space.fg 3 [] 5 false :=
  ⟨⟨⟨⟨2, 3, 6, 0, 3⟩, by decide, rfl, rfl⟩, ⟨⟨1, 2, 1, Ex.inv, Ex.inv⟩, by decide, rfl, rfl⟩, ⟨⟨0, 1, 4, Ex.inv, Ex.inv⟩, by decide, rfl, rfl⟩,
    trivial⟩, (C126_depth rfl Space.client Space.chains [] false).1 5 (by decide), by decide⟩

/-- a concrete case: the path 0, 2, 1, 3 -/
example : ∃ c calls tops, (createCalculator debug64 binaryHeap Space.fg).calcPathMultiC debug64 Space.fg [(0, 0)] [(3, 0)] =
    .ok ((c, some ⟨0, 3, 7, [0, 2, 1, 3]⟩), calls, tops) ∧ tops ≤ 2 * 3 :=
  have h : (createCalculator debug64 binaryHeap Space.fg).calcPathMultiC debug64 Space.fg [(0, 0)] [(3, 0)] =
    .ok ((_, some ⟨0, 3, 7, [0, 2, 1, 3]⟩), _, _) := rfl
  ⟨_, _, _, h, (C126_edges rfl Space.client Space.chains [] rfl h).1⟩

example : ∃ a b, Space.fg.ranks[2]? = some a ∧ Space.fg.ranks[3]? = some b ∧ a < b :=
  (C126_chains rfl Space.client).1 2 3 ⟨⟨2, 3, 6, 0, 3⟩, by decide, rfl, rfl⟩

end FP.Props
