import Verif.Proofs.Output
import Verif.Props.Example
/-!
# The printed form of an input graph

`unit_test_output_string` (also used for `Debug`) prints a graph as a program. `Spec.IsCall line e` says that the line is
the statement `g.add_edge(<from>, <to>, <weight>);` for the edge `e`.
-/
set_option autoImplicit false
namespace FP
namespace Props
open Spec TextIO

/-- **C68** The output of a graph with edges has one statement per edge, in the order of the edges, and no other lines. -/
theorem C68_one_statement_per_edge (g : InputGraph) (hne : g.edges ≠ []) :
    ∃ ls, IsLines g.outputString ls ∧ List.Forall₂ IsCall ls g.edges :=
  ⟨_, isLines_output hne, forall₂_calls _⟩

/-- **C68** The output of a graph without edges is an empty line. -/
theorem C68_no_edges (g : InputGraph) (h : g.edges = []) : IsLines g.outputString [[]] := by
  unfold InputGraph.outputString
  rw [h]
  exact .unix (l := []) (by simp) (by simp) .nil

/-- **C68** Running the printed program on a new graph gives the printed graph, and after freezing the same frozen graph:
whatever edges the lines stand for. -/
theorem C68_output_rebuilds_graph {P : Plat} {ops : List Op} {g : InputGraph} (hb : buildGraph P ops = .ok g)
    (hnw : P.checked = true ∨ nodeCount (accepted ops) ≤ P.umax) (hne : g.edges ≠ []) {ls : List (List Char)}
    {es : List Edge} (hl : IsLines g.outputString ls) (he : List.Forall₂ IsCall ls es) :
    buildGraph P (es.map (fun e => Op.addEdge e.src e.dst e.weight)) = .ok ⟨g.edges, g.numNodes, false⟩ ∧
      (g.frozen = true → buildGraph P (es.map (fun e => Op.addEdge e.src e.dst e.weight) ++ [.freeze]) = .ok g) := by
  have hls : ls = g.edges.map Edge.outputString := (IsLines.eq hl).symm.trans (IsLines.eq (isLines_output hne))
  subst hls
  have hes := forall₂_calls_unique he (forall₂_calls g.edges)
  subst hes
  have hi := buildGraph_inv hnw hb
  exact ⟨rebuild_thawed hi (buildGraph_num hb), fun hf => rebuild hi hf (buildGraph_num hb)⟩

/-- **C68** Graphs with the same output have the same edges, in the same order. -/
theorem C68_output_injective {g g' : InputGraph} (h : g.outputString = g'.outputString) : g.edges = g'.edges := by
  by_cases h1 : g.edges = []
  · by_cases h2 : g'.edges = []
    · rw [h1, h2]
    · have e1 := IsLines.eq (C68_no_edges g h1)
      rw [h, IsLines.eq (isLines_output h2)] at e1
      cases he : g'.edges with
      | nil => exact absurd he h2
      | cons e es =>
        rw [he] at e1
        exact absurd (List.cons.inj e1).1 (outputString_ne e)
  · by_cases h2 : g'.edges = []
    · have e1 := IsLines.eq (C68_no_edges g' h2)
      rw [← h, IsLines.eq (isLines_output h1)] at e1
      cases he : g.edges with
      | nil => exact absurd he h1
      | cons e es =>
        rw [he] at e1
        exact absurd (List.cons.inj e1).1 (outputString_ne e)
    · have e1 := IsLines.eq (isLines_output h1)
      have e2 := IsLines.eq (isLines_output h2)
      have e3 : g.edges.map Edge.outputString = g'.edges.map Edge.outputString := by
        rw [← e1, ← e2]
        exact congrArg lines h
      have k1 := forall₂_calls g.edges
      rw [e3] at k1
      exact forall₂_calls_unique k1 (forall₂_calls g'.edges)

set_option maxRecDepth 10000 in
example : Ex.ig.outputString = ("g.add_edge(0, 1, 3);\ng.add_edge(0, 2, 9);\ng.add_edge(1, 2, 4);\ng.add_edge(2, 3, 1);\n" ++
    "g.add_edge(3, 2, 1);\ng.add_edge(3, 4, 5);\ng.add_edge(4, 1, 2);\n").toList := rfl
example : InputGraph.outputString ⟨[], 0, false⟩ = "\n".toList := rfl
example : ∃ es : List Edge, buildGraph debug64 (es.map (fun e => Op.addEdge e.src e.dst e.weight) ++ [.freeze]) = .ok Ex.ig := by
  obtain ⟨ls, h1, h2⟩ := C68_one_statement_per_edge Ex.ig (by decide)
  exact ⟨_, (C68_output_rebuilds_graph Ex.built (Or.inl rfl) (by decide) h1 h2).2 rfl⟩

end Props
end FP
