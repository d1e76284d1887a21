import Verif.Model.WitnessSearch
/-! # Sequences of calls on one witness search object -/
namespace FP

/-- The calls: witness_search.rs:54-68 `init`, 85-150 `find_max_weight`. -/
inductive WitnessCall where
  | init (start avoid : Nat)
  | find (graph : PreparationGraph) (target weightLimit settledLimit : Nat)

/-- Run one call, dropping the returned weight. -/
def WitnessCall.run (P : Plat) {pq : PQ} (ws : WitnessSearch pq) : WitnessCall → M (WitnessSearch pq)
  | .init s v => ws.init P s v
  | .find g t wl sl => do
    let (ws, _) ← ws.findMaxWeight P g t wl sl
    .ok ws

/-- Run a sequence of calls. -/
def runWitness (P : Plat) {pq : PQ} (ws : WitnessSearch pq) (calls : List WitnessCall) : M (WitnessSearch pq) :=
  forM (fun ws c => c.run P ws) ws calls

end FP
