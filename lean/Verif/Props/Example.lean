import Verif.Proofs.BinaryHeap
import Verif.Model.ListQueue
import Verif.Model.History
/-!
# A concrete graph

Used by the `example`s beside the theorems to show that their hypotheses can be met: five nodes, a cycle, a parallel edge,
a bidirectional edge, rejected calls (loop, weight 0) and, in the given order, nested shortcuts. Everything is evaluated
by the kernel (`rfl`).
-/
set_option autoImplicit false
namespace FP
namespace Ex
open Spec

/-- the calls of the client -/
def ops : List Op :=
  [.addEdge 0 1 3, .addEdge 1 2 4, .addEdge 0 2 9, .addEdgeBidir 2 3 1, .addEdge 3 4 5, .addEdge 4 1 2, .addEdge 2 2 7,
    .addEdge 1 3 0, .addEdge 0 1 8, .freeze]

/-- the resulting graph -/
def ig : InputGraph where
  edges := [⟨0, 1, 3⟩, ⟨0, 2, 9⟩, ⟨1, 2, 4⟩, ⟨2, 3, 1⟩, ⟨3, 2, 1⟩, ⟨3, 4, 5⟩, ⟨4, 1, 2⟩]
  numNodes := 5
  frozen := true

/-- `usize::MAX` on the 64-bit platform -/
def inv : Nat := 18446744073709551615

/-- a relevance formula -/
def rel : Nat → Int → Nat → Nat := fun l s e => l + 10 * s.toNat + e

/-- result of `prepare` -/
def fg : FastGraph where
  numNodes := 5
  ranks := [0, 2, 4, 3, 1]
  edgesFwd := [⟨0, 1, 3, inv, inv⟩, ⟨0, 2, 9, inv, inv⟩, ⟨4, 1, 2, inv, inv⟩, ⟨1, 2, 4, inv, inv⟩, ⟨3, 2, 1, inv, inv⟩]
  firstEdgeIdsFwd := [0, 2, 3, 4, 5, 5]
  edgesBwd := [⟨4, 3, 5, inv, inv⟩, ⟨1, 3, 7, 0, 2⟩, ⟨3, 2, 1, inv, inv⟩]
  firstEdgeIdsBwd := [0, 0, 1, 2, 3, 3]

/-- an order with nested shortcuts -/
def order : List Nat := [2, 3, 1, 4, 0]

/-- result of `prepare_with_order` -/
def fgo : FastGraph where
  numNodes := 5
  ranks := [4, 2, 0, 1, 3]
  edgesFwd := [⟨2, 3, 1, inv, inv⟩, ⟨3, 4, 5, inv, inv⟩, ⟨1, 4, 10, 4, 1⟩]
  firstEdgeIdsFwd := [0, 1, 2, 3, 3, 3]
  edgesBwd := [⟨2, 0, 9, inv, inv⟩, ⟨2, 1, 4, inv, inv⟩, ⟨2, 3, 1, inv, inv⟩, ⟨3, 0, 10, 0, 0⟩, ⟨3, 1, 5, 1, 0⟩,
    ⟨1, 0, 3, inv, inv⟩, ⟨1, 4, 2, inv, inv⟩, ⟨4, 0, 13, 5, 2⟩]
  firstEdgeIdsBwd := [0, 3, 5, 7, 8, 8]

theorem built : buildGraph debug64 ops = .ok ig := rfl
theorem frozen : ig.frozen = true := rfl
theorem preparedDefault : prepare debug64 binaryHeap listQueue rel ig = .ok fg := rfl
theorem perm : order.Perm (List.range ig.numNodes) := by decide
theorem preparedOrder : prepareWithOrder debug64 binaryHeap ig order = .ok (.ok fgo) := rfl
theorem prepared : Prepared debug64 ig fg := .default binaryHeap listQueue rel preparedDefault
theorem prepared' : Prepared debug64 ig fgo := .order binaryHeap order perm preparedOrder

/-- the shortest path from 0 to 4 -/
def path : ShortestPath := ⟨0, 4, 13, [0, 1, 2, 3, 4]⟩

theorem query : calcPath debug64 binaryHeap fg 0 4 = .ok (some path) := rfl
theorem query' : calcPath debug64 binaryHeap fgo 0 4 = .ok (some path) := rfl
theorem queryNone : calcPath debug64 binaryHeap fg 4 0 = .ok none := rfl

/-- two sources, two targets, an entry that can never be used -/
def sources : List (Nat × Nat) := [(0, 2), (3, 9), (4, inv)]
/-- targets -/
def targets : List (Nat × Nat) := [(4, 1), (1, 20), (4, 0)]

theorem queryMulti : calcPathMulti debug64 binaryHeap fgo sources targets = .ok (some ⟨3, 4, 14, [3, 4]⟩) := rfl

end Ex
end FP
