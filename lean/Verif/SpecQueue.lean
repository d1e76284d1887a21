import Verif.SpecPriority
set_option autoImplicit false
/-! # A record of the calls of the queue of nodes -/
namespace FP.Spec

/-- A call of the queue of `run_contraction`, with the node it is about (fast_graph_builder.rs:98, 104, 147). -/
inductive QueueCall where
  | push (node : Nat)
  | pop (node : Nat)
  | change (node : Nat)
deriving DecidableEq, Repr

/-- A queue that behaves like `nq` and writes down the calls, the latest first. A call of `pop` that finds the queue empty is not
written down. -/
def loggedQueue (nq : NodeQueue) : NodeQueue where
  σ := nq.σ × List QueueCall
  empty := (nq.empty, [])
  push k p q := (nq.push k p q.1, .push k :: q.2)
  pop q := (nq.pop q.1).map (fun r => (r.1, r.2, .pop r.1 :: q.2))
  change k p q := (nq.change k p q.1, .change k :: q.2)
  keys q := nq.keys q.1
  keys_empty := nq.keys_empty
  keys_push k p q h := nq.keys_push k p q.1 h
  pop_none q := by rw [Option.map_eq_none_iff]; exact nq.pop_none q.1
  pop_some q k q' h := by
    obtain ⟨r, h1, h2⟩ := Option.map_eq_some_iff.1 h
    cases h2
    exact nq.pop_some q.1 r.1 r.2 h1
  keys_change k p q := nq.keys_change k p q.1

/-- The calls so far, in this order. -/
def callsOf {nq : NodeQueue} (q : (loggedQueue nq).σ) : List QueueCall := q.2.reverse

end FP.Spec
