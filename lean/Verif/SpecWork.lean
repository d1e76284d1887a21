import Verif.SpecSearch
import Verif.SpecPrep
import Verif.Model.WitnessHistory
/-! # Specification vocabulary for the work of a preparation -/
namespace FP
namespace Spec

/-- The items pushed since the last `init`, in this order. -/
def searchPushes {pq : PQ} (ws : WitnessSearch (logged pq)) : List HeapItem := ws.heap.2.1.reverse

/-- The items popped since the last `init`, in this order. -/
def searchPops {pq : PQ} (ws : WitnessSearch (logged pq)) : List HeapItem := ws.heap.2.2.reverse

/-- The items that are left in the heap. -/
def searchItems {pq : PQ} (ws : WitnessSearch (logged pq)) : List HeapItem := pq.items ws.heap.1

/-- Forget the log. -/
def unlogWitness {pq : PQ} (ws : WitnessSearch (logged pq)) : WitnessSearch pq :=
  ⟨ws.numNodes, ws.data, ws.validFlags, ws.heap.1, ws.startNode, ws.avoidNode, ws.settledNodes⟩

/-- One use of the witness search while `node` is contracted: `init` with the node `start` and then searches, each for a graph, a
target and a weight limit. -/
structure Session where
  node : Nat
  start : Nat
  searches : List (PreparationGraph × Nat × Nat)

/-- The calls of a session, with the settled limit `K` for every search. -/
def Session.calls (K : Nat) (s : Session) : List WitnessCall :=
  .init s.start s.node :: s.searches.map (fun q => .find q.1 q.2.1 q.2.2 K)

/-- Run a session and count the items it pushes. -/
def runSession (P : Plat) (K : Nat) {pq : PQ} (st : WitnessSearch (logged pq) × Nat) (s : Session) :
    M (WitnessSearch (logged pq) × Nat) := do
  let ws ← runWitness P st.1 (s.calls K)
  .ok (ws, st.2 + (searchPushes ws).length)

/-- The sessions needed to contract `v` in the graph `g` whose arcs to and from `v` are `ins` and `outs`: one for every arc `a` to `v`,
starting at its other end, with one search for every arc `b` from `v`, for its other end and the weight of the way over `v`. The
graphs that are searched satisfy `G`. -/
def SessionsOf (v : Nat) (ins outs : List Arc) (G : PreparationGraph → Prop) (ss : List Session) : Prop :=
  List.Forall₂ (fun (a : Arc) s => s.node = v ∧ s.start = a.adj ∧
    s.searches.map (fun q => q.2) = outs.map (fun b => (b.adj, a.weight + b.weight)) ∧ ∀ q ∈ s.searches, G q.1) ins ss

end Spec
end FP
