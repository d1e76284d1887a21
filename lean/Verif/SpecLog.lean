import Verif.Model.Log
/-! # What the messages should say -/
namespace FP
open Spec

/-- The message a call gives because it adds nothing. -/
def skipped : Op → Option Msg
  | .addEdge s d w => if s = d then some (.loopEdge s d w) else if w = 0 then some (.zeroWeight s d w) else none
  | .addEdgeBidir s d w => if s = d then some (.loopEdge s d w) else if w = 0 then some (.zeroWeight s d w) else none
  | _ => none

/-- Is it a message about a call that adds nothing? -/
def Msg.skips : Msg → Bool
  | .loopEdge .. => true
  | .zeroWeight .. => true
  | _ => false

/-- The number of edges that were dropped according to a message. -/
def Msg.dropped : Msg → Nat
  | .duplicates c => c
  | _ => 0

/-- The number of edges of `es` that belong to nodes of rank at most `k`. -/
def storedUpTo (ranks : List Nat) (es : List FastGraphEdge) (k : Nat) : Nat :=
  es.countP (fun e => (ranks[e.baseNode]?).any (fun r => r ≤ k))

end FP
