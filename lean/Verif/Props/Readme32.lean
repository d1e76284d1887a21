import Verif.Props.Convert
import Verif.Props.Simple
import Verif.Props.Sizes
/-!
# Which graphs can be stored in 32 bits

README.md:84 says that the 32-bit representation works for graphs with fewer than `2 ^ 32` nodes and edges and weights below
`2 ^ 32`. Read as a condition on the input graph this is not enough, because shortcuts can be heavier than all edges of the input.
-/
set_option autoImplicit false
namespace FP
namespace Props
open Spec

/-- **C120, refuted** Three nodes, two edges of weight `2 ^ 31`: the shortcut weighs `2 ^ 32`, and the conversion panics. -/
theorem C120_false : ∃ (ops : List Op) (ig : InputGraph) (fg : FastGraph), Client debug64 ops ig fg ∧
    ig.numNodes < 2 ^ 32 ∧ ig.edges.length < 2 ^ 32 ∧ fg.getNumOutEdges + fg.getNumInEdges < 2 ^ 32 ∧
    (∀ e ∈ accepted ops, e.weight < 2 ^ 32) ∧ FastGraph32.new debug64 2 fg = .error .assertion :=
  ⟨[.addEdge 0 1 2147483648, .addEdge 1 2 2147483648, .freeze], ⟨[⟨0, 1, 2147483648⟩, ⟨1, 2, 2147483648⟩], 3, true⟩, _,
    ⟨rfl, rfl, .order binaryHeap [1, 0, 2] (by decide) rfl⟩, by decide, by decide, by decide, by decide, rfl⟩

/-- **C120, refuted by the order alone** The same input graph can be stored if its middle node is contracted last: whether a graph
fits depends on the order of contraction, so no condition on the input graph decides it. -/
theorem C120_depends_on_order : ∃ (ops : List Op) (ig : InputGraph) (fg fg' : FastGraph) (g32 : FastGraph32),
    Client debug64 ops ig fg ∧ Client debug64 ops ig fg' ∧ FastGraph32.new debug64 2 fg = .error .assertion ∧
    FastGraph32.new debug64 2 fg' = .ok g32 ∧ g32.convertToUsize debug64 = .ok fg' :=
  ⟨[.addEdge 0 1 2147483648, .addEdge 1 2 2147483648, .freeze], ⟨[⟨0, 1, 2147483648⟩, ⟨1, 2, 2147483648⟩], 3, true⟩, _, _, _,
    ⟨rfl, rfl, .order binaryHeap [1, 0, 2] (by decide) rfl⟩, ⟨rfl, rfl, .order binaryHeap [0, 2, 1] (by decide) rfl⟩, rfl, rfl, rfl⟩

/-- **C120, what holds** A graph with `n` nodes and weights of at most `W` that was prepared with a budget above `n` is stored in
32 bits, and gives the same results, if `(n - 1) * W` and `n * (n - 1) / 2` and `n` are below `2 ^ 32 - 1`. (Missing for C120: the
bound is `(n - 1) * W`, not `W`; see `C120_false`.) -/
theorem C120_sufficient_partial {P : Plat} (hP : P.checked = true) (h64 : U32_MAX < P.umax) {ops : List Op} {ig : InputGraph}
    (hb : buildGraph P ops = .ok ig) (hf : ig.frozen = true) {fg : FastGraph} (hw : PreparedWide P ig fg) {W : Nat}
    (hW : ∀ e ∈ accepted ops, e.weight ≤ W) (hfit : (ig.numNodes - 1) * W < 2 ^ 32 - 1)
    (hpairs : ig.numNodes * (ig.numNodes - 1) < 2 * (2 ^ 32 - 1)) (hn : ig.numNodes < 2 ^ 32 - 1) :
    ∃ g32, FastGraph32.new P 2 fg = .ok g32 ∧ g32.convertToUsize P = .ok fg := by
  have hc : Client P ops ig fg := ⟨hb, hf, hw.prepared⟩
  have hu : U32_MAX = 2 ^ 32 - 1 := rfl
  have hg := hc.good hP
  obtain ⟨h1, h2⟩ := C63_number_of_edges hP hc
  have h3 := C64_stored_weights hP hb hf hw hW
  have hs : Small fg := by
    refine ⟨?_, ?_, ?_, ?_, ?_⟩
    · rw [hg.num]; omega
    · have : fg.getNumOutEdges = fg.edgesFwd.length := rfl
      omega
    · have : fg.getNumInEdges = fg.edgesBwd.length := rfl
      omega
    · intro e he
      have := h3 e (List.mem_append_left _ he)
      omega
    · intro e he
      have := h3 e (List.mem_append_right _ he)
      omega
  have hst := hg.fitsStrictly hs
  exact C27_round_trip_partial h64 hst.vals hst.num

/-- **C120, what is necessary** If the conversion of a client's graph succeeds on a platform with 64 bits, the graph has fewer than
`2 ^ 32` nodes and fewer than `2 ^ 32` edges in each direction, so that the input graph has fewer than `2 ^ 33`; and no stored weight
is `2 ^ 32` or more, except `usize::MAX`. (Missing for C120: weights of the input that a shorter way makes useless may be larger.) -/
theorem C120_necessary_partial {P : Plat} (hP : P.checked = true) (h64 : 2 ^ 63 ≤ P.umax) {ops : List Op} {ig : InputGraph}
    {fg : FastGraph} (hc : Client P ops ig fg) {g32 : FastGraph32} (h : FastGraph32.new P 2 fg = .ok g32) :
    ig.numNodes < 2 ^ 32 ∧ fg.getNumOutEdges < 2 ^ 32 ∧ fg.getNumInEdges < 2 ^ 32 ∧ ig.edges.length < 2 ^ 33 ∧
      ∀ e ∈ fg.edgesFwd ++ fg.edgesBwd, e.weight < 2 ^ 32 ∨ e.weight = P.umax := by
  have hg := hc.good hP
  have hu : U32_MAX = 2 ^ 32 - 1 := rfl
  have hv := (C28_rejects_exactly (by omega) fg).2.1 ⟨g32, h⟩
  have hin := C63_at_least_input hP hc
  obtain ⟨h1, h2⟩ := C63_number_of_edges hP hc
  have hlt := hg.n_lt
  have hn : ig.numNodes < 2 ^ 32 := by
    have := hv fg.numNodes (by simp [FastGraph.values])
    rw [hg.num] at this
    omega
  have hpairs : ig.numNodes * (ig.numNodes - 1) ≤ 2 ^ 32 * (2 ^ 32 - 1) := Nat.mul_le_mul (by omega) (by omega)
  have ho1 : fg.getNumOutEdges = fg.edgesFwd.length := rfl
  have ho2 : fg.getNumInEdges = fg.edgesBwd.length := rfl
  have last : ∀ {first : List Nat} {m : Nat}, FirstOk ig.numNodes first m → m ∈ first := by
    intro first m hf
    have hl := hf.len
    have hm := hf.last
    rw [List.getElem?_eq_getElem (by omega)] at hm
    exact hm ▸ List.getElem_mem _
  have hof : fg.getNumOutEdges < 2 ^ 32 := by
    have := hv fg.edgesFwd.length (by simp [FastGraph.values, last hg.firstF])
    omega
  have hob : fg.getNumInEdges < 2 ^ 32 := by
    have := hv fg.edgesBwd.length (by simp [FastGraph.values, last hg.firstB])
    omega
  refine ⟨hn, hof, hob, by omega, ?_⟩
  intro e he
  have hmem : e.weight ∈ fg.values := by
    rcases List.mem_append.1 he with he | he
    · simp only [FastGraph.values, List.mem_cons, List.mem_append, List.mem_flatMap]
      exact Or.inr (Or.inl (Or.inl (Or.inl (Or.inr ⟨e, he, by simp [FastGraphEdge.values]⟩))))
    · simp only [FastGraph.values, List.mem_cons, List.mem_append, List.mem_flatMap]
      exact Or.inr (Or.inl (Or.inr ⟨e, he, by simp [FastGraphEdge.values]⟩))
  have := hv _ hmem
  omega

example : ∃ g32, FastGraph32.new debug64 2 Ex.fg = .ok g32 ∧ g32.convertToUsize debug64 = .ok Ex.fg :=
  C120_sufficient_partial (W := 9) rfl (by decide) exampleClient.built exampleClient.frozen
    (.default binaryHeap listQueue Ex.rel (by decide) rfl) (by decide) (by decide) (by decide) (by decide)
example : ∀ g32, FastGraph32.new debug64 2 Ex.fg = .ok g32 → Ex.fg.getNumOutEdges < 2 ^ 32 :=
  fun _ h => (C120_necessary_partial rfl (by decide) exampleClient h).2.1
example : ∃ g32, FastGraph32.new debug64 2 Ex.fg = .ok g32 := ⟨_, rfl⟩

end Props
end FP
