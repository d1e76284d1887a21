import Verif.Model.Base
/-! # Model of src/valid_flags.rs -/
namespace FP

/-- `std::u32::MAX` -/
def U32_MAX : Nat := 2 ^ 32 - 1

/-- valid_flags.rs:26-29 `struct ValidFlags` (the `u32`s are naturals ≤ `U32_MAX`; the only arithmetic on them is the
guarded `+= 1` in `invalidate_all`). -/
structure ValidFlags where
  validFlags : List Nat
  validFlag : Nat
  deriving DecidableEq, Repr

namespace ValidFlags

/-- valid_flags.rs:32-37 -/
def new (numNodes : Nat) : ValidFlags := ⟨List.replicate numNodes 0, 1⟩

/-- valid_flags.rs:39-41 -/
def isValid (f : ValidFlags) (node : Nat) : M Bool := do
  let x ← idx f.validFlags node
  .ok (x == f.validFlag)

/-- valid_flags.rs:43-45 -/
def setValid (f : ValidFlags) (node : Nat) : M ValidFlags := do
  let v ← setIdx f.validFlags node f.validFlag
  .ok { f with validFlags := v }

/-- valid_flags.rs:47-54 -/
def invalidateAll (f : ValidFlags) : ValidFlags :=
  if f.validFlag == U32_MAX then
    { validFlags := List.replicate f.validFlags.length 0, validFlag := 1 }
  else
    { f with validFlag := f.validFlag + 1 }

end ValidFlags
end FP
