import Verif.Model.TextIO
/-! # Model of the printed form of an input graph (src/input_graph.rs) -/
namespace FP
open TextIO

/-- input_graph.rs:361-363 `Edge::unit_test_output_string` -/
def Edge.outputString (e : Edge) : List Char :=
  "g.add_edge(".toList ++ showNat e.src ++ ", ".toList ++ showNat e.dst ++ ", ".toList ++ showNat e.weight ++ ");".toList

/-- `Vec<String>::join("\n")` -/
def joinLines : List (List Char) → List Char
  | [] => []
  | [l] => l
  | l :: ls => l ++ '\n' :: joinLines ls

/-- input_graph.rs:170-178 `InputGraph::unit_test_output_string`; also the `Debug` output, 335-339. It does not check
whether the graph is frozen. -/
def InputGraph.outputString (g : InputGraph) : List Char :=
  joinLines (g.edges.map Edge.outputString) ++ ['\n']

end FP
