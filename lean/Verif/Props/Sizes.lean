import Verif.Proofs.Sizes
import Verif.Props.Preparation
import Verif.Props.Query
/-! # How many edges a prepared graph has -/
set_option autoImplicit false
namespace FP
namespace Props
open Spec

theorem pairs_nodup {P : Plat} {n : Nat} {fg : FastGraph} (hs : Shape P n fg) {es : List FastGraphEdge} {first : List Nat}
    (hf : FirstOk n first es.length)
    (hbase : ∀ v < n, ∀ id ed, (first[fg.rk v]?).getD 0 ≤ id → id < (first[fg.rk v + 1]?).getD 0 → es[id]? = some ed →
      ed.baseNode = v)
    (honce : ∀ v < n, ∀ id ed id' ed', (first[fg.rk v]?).getD 0 ≤ id → id < (first[fg.rk v + 1]?).getD 0 →
      es[id]? = some ed → (first[fg.rk v]?).getD 0 ≤ id' → id' < (first[fg.rk v + 1]?).getD 0 → es[id']? = some ed' →
      ed.adjNode = ed'.adjNode → id = id') : (es.map (fun e => (e.baseNode, e.adjNode))).Nodup := by
  rw [List.nodup_iff_getElem?_ne_getElem?]
  intro i j hij hj heq
  simp only [List.length_map] at hj
  have hi : i < es.length := by omega
  obtain ⟨a, ha, a1, a2⟩ := range_cover hf hi
  obtain ⟨b, hb, b1, b2⟩ := range_cover hf hj
  obtain ⟨u, hu, rfl⟩ := rank_surj hs ha
  obtain ⟨v, hv, rfl⟩ := rank_surj hs hb
  have g1 : es[i]? = some es[i] := by simp [hi]
  have g2 : es[j]? = some es[j] := by simp [hj]
  rw [List.getElem?_map, List.getElem?_map, g1, g2] at heq
  simp only [Option.map_some, Option.some.injEq, Prod.mk.injEq] at heq
  have q1 := hbase u hu i _ a1 a2 g1
  have q2 := hbase v hv j _ b1 b2 g2
  have : u = v := by rw [← q1, ← q2]; exact heq.1
  subst this
  have := honce u hu i _ j _ a1 a2 g1 b1 b2 g2 heq.2
  omega

/-- **C63** A prepared graph stores at most one out-edge and at most one in-edge for every ordered pair of nodes. -/
theorem C63_one_edge_per_pair {P : Plat} (hP : P.checked = true) {ops : List Op} {ig : InputGraph} {fg : FastGraph}
    (hc : Client P ops ig fg) :
    (fg.edgesFwd.map (fun e => (e.baseNode, e.adjNode))).Nodup ∧
      (fg.edgesBwd.map (fun e => (e.baseNode, e.adjNode))).Nodup := by
  have hg := hc.good hP
  constructor
  · refine pairs_nodup hg.toShape hg.firstF ?_ ?_
    · intro v hv id ed h1 h2 h3; exact (hg.fwd v hv id ed ⟨h1, h2, h3⟩).1
    · intro v hv id ed id' ed' h1 h2 h3 h4 h5 h6 h7
      exact hg.onceF v hv id ed id' ed' ⟨h1, h2, h3⟩ ⟨h4, h5, h6⟩ h7
  · refine pairs_nodup hg.toShape hg.firstB ?_ ?_
    · intro v hv id ed h1 h2 h3; exact (hg.bwd v hv id ed ⟨h1, h2, h3⟩).1
    · intro v hv id ed id' ed' h1 h2 h3 h4 h5 h6 h7
      exact hg.onceB v hv id ed id' ed' ⟨h1, h2, h3⟩ ⟨h4, h5, h6⟩ h7

/-- **C63** So there are at most `n * (n - 1) / 2` out-edges and as many in-edges, shortcuts included. -/
theorem C63_number_of_edges {P : Plat} (hP : P.checked = true) {ops : List Op} {ig : InputGraph} {fg : FastGraph}
    (hc : Client P ops ig fg) :
    2 * fg.getNumOutEdges ≤ ig.numNodes * (ig.numNodes - 1) ∧ 2 * fg.getNumInEdges ≤ ig.numNodes * (ig.numNodes - 1) := by
  have hg := hc.good hP
  obtain ⟨h1, h2⟩ := C63_one_edge_per_pair hP hc
  have hF : ∀ e ∈ fg.edgesFwd, e.baseNode < ig.numNodes ∧ e.adjNode < ig.numNodes ∧ fg.rk e.baseNode < fg.rk e.adjNode := by
    intro e he
    obtain ⟨id, hid⟩ := List.mem_iff_getElem?.1 he
    obtain ⟨j, hj, a1, a2⟩ := range_cover hg.firstF (List.getElem?_eq_some_iff.1 hid).1
    obtain ⟨v, hv, rfl⟩ := rank_surj hg.toShape hj
    obtain ⟨q1, q2, q3, _⟩ := hg.fwd v hv id e ⟨a1, a2, hid⟩
    exact ⟨by omega, q2, by rw [q1]; exact q3⟩
  have hB : ∀ e ∈ fg.edgesBwd, e.baseNode < ig.numNodes ∧ e.adjNode < ig.numNodes ∧ fg.rk e.baseNode < fg.rk e.adjNode := by
    intro e he
    obtain ⟨id, hid⟩ := List.mem_iff_getElem?.1 he
    obtain ⟨j, hj, a1, a2⟩ := range_cover hg.firstB (List.getElem?_eq_some_iff.1 hid).1
    obtain ⟨v, hv, rfl⟩ := rank_surj hg.toShape hj
    obtain ⟨q1, q2, q3, _⟩ := hg.bwd v hv id e ⟨a1, a2, hid⟩
    exact ⟨by omega, q2, by rw [q1]; exact q3⟩
  exact ⟨length_le_pairs h1 (fun e he => ⟨(hF e he).1, (hF e he).2.1⟩)
      (fun e he => ⟨(hF e he).2.2, hg.rk_lt _ (hF e he).2.1⟩) hg.rk_inj,
    length_le_pairs h2 (fun e he => ⟨(hB e he).1, (hB e he).2.1⟩)
      (fun e he => ⟨(hB e he).2.2, hg.rk_lt _ (hB e he).2.1⟩) hg.rk_inj⟩

/-- The bound is attained: a complete graph of three nodes. -/
example : ∃ ig fg, buildGraph debug64 [.addEdgeBidir 0 1 1, .addEdgeBidir 0 2 1, .addEdgeBidir 1 2 1, .freeze] = .ok ig ∧
    prepareWithOrder debug64 binaryHeap ig [0, 1, 2] = .ok (.ok fg) ∧ 2 * fg.getNumOutEdges = ig.numNodes * (ig.numNodes - 1) :=
  ⟨_, _, rfl, rfl, rfl⟩

/-- **C63** Every input edge is still there: as an out-edge of its source or as an in-edge of its target, with its weight or a
smaller one. -/
theorem C63_input_edges_stored {P : Plat} (hP : P.checked = true) {ops : List Op} {ig : InputGraph} {fg : FastGraph}
    (hc : Client P ops ig fg) {u v w : Nat} (he : (⟨u, v, w⟩ : Edge) ∈ accepted ops) :
    (∃ ed ∈ fg.edgesFwd, ed.baseNode = u ∧ ed.adjNode = v ∧ ed.weight ≤ w) ∨
      ∃ ed ∈ fg.edgesBwd, ed.baseNode = v ∧ ed.adjNode = u ∧ ed.weight ≤ w := by
  have hi := hc.inv hP
  have hF := hi.frozenOk hc.frozen
  have hex : ∃ w, (⟨u, v, w⟩ : Edge) ∈ accepted ops := ⟨w, he⟩
  classical
  have hmem := (hi.mem_iff hc.frozen u v (Nat.find hex)).2 ⟨Nat.find_spec hex, fun w' h' => Nat.find_min' hex h'⟩
  have hle : Nat.find hex ≤ w := Nat.find_min' hex he
  rcases (hc.prepared.built hP hF).holds hmem (hF.lt _ hmem).1 with ⟨ed, m, q1, q2, q3⟩ | ⟨ed, m, q1, q2, q3⟩
  · exact Or.inl ⟨ed, m, q1, q2, by omega⟩
  · exact Or.inr ⟨ed, m, q1, q2, by omega⟩

/-- **C63** At least as many edges are stored as the input graph has. -/
theorem C63_at_least_input {P : Plat} (hP : P.checked = true) {ops : List Op} {ig : InputGraph} {fg : FastGraph}
    (hc : Client P ops ig fg) : ig.edges.length ≤ fg.getNumOutEdges + fg.getNumInEdges := by
  have hi := hc.inv hP
  have hF := hi.frozenOk hc.frozen
  have hs : (ig.edges.map (fun e => (e.src, e.dst))).Subperm (fg.edgesFwd.map (fun e => (e.baseNode, e.adjNode)) ++
      fg.edgesBwd.map (fun e => (e.adjNode, e.baseNode))) := List.subperm_of_subset hF.uniq (by
    intro p hp
    obtain ⟨⟨u, v, w⟩, m, rfl⟩ := List.mem_map.1 hp
    rcases (hc.prepared.built hP hF).holds m (hF.lt _ m).1 with ⟨ed, m, q1, q2, q3⟩ | ⟨ed, m, q1, q2, q3⟩
    · exact List.mem_append_left _ (List.mem_map.2 ⟨ed, m, by rw [q1, q2]⟩)
    · exact List.mem_append_right _ (List.mem_map.2 ⟨ed, m, by rw [q1, q2]⟩))
  simpa [FastGraph.getNumOutEdges, FastGraph.getNumInEdges] using hs.length_le

/-- The input edge 0 → 2 of weight 9 is stored at 0 with weight 7 when 1 is contracted first. -/
example : ∃ ig fg, buildGraph debug64 [.addEdge 0 1 3, .addEdge 1 2 4, .addEdge 0 2 9, .freeze] = .ok ig ∧
    prepareWithOrder debug64 binaryHeap ig [1, 0, 2] = .ok (.ok fg) ∧
    (∃ ed ∈ fg.edgesFwd, ed.baseNode = 0 ∧ ed.adjNode = 2 ∧ ed.weight = 7) ∧ ig.edges.length = 3 ∧
    fg.getNumOutEdges + fg.getNumInEdges = 3 := by
  refine ⟨_, _, rfl, rfl, ?_, rfl, rfl⟩
  decide
example : 7 ≤ Ex.fg.getNumOutEdges + Ex.fg.getNumInEdges := C63_at_least_input rfl exampleClient

end Props
end FP
