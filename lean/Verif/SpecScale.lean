import Verif.Model.FastGraph
import Verif.Model.InputGraph
set_option autoImplicit false
/-! # Graphs with other units of weight -/
namespace FP

/-- The edge with `k` times the weight. -/
def FastGraphEdge.scale (k : Nat) (e : FastGraphEdge) : FastGraphEdge := { e with weight := k * e.weight }
/-- The prepared graph with `k` times the weights. -/
def FastGraph.scale (k : Nat) (g : FastGraph) : FastGraph :=
  { g with edgesFwd := g.edgesFwd.map (FastGraphEdge.scale k), edgesBwd := g.edgesBwd.map (FastGraphEdge.scale k) }
/-- The input graph with `k` times the weights. -/
def InputGraph.scale (k : Nat) (g : InputGraph) : InputGraph :=
  { g with edges := g.edges.map (fun e => { e with weight := k * e.weight }) }

end FP
