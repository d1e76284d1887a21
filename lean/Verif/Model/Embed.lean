import Verif.Model.Bincode
set_option autoImplicit false
/-!
# Model of prepared graphs inside a client's own struct

README.md ("Serializing the prepared graph") and lib.rs:114-129: a client derives serde's traits for a struct of its own in which some
fields are prepared graphs, with or without `serialize_32`/`deserialize_32`. bincode writes the fields one after the other, and when
reading each field takes its bytes from what the fields before it have left. The other fields are a parameter.
-/
namespace FP

/-- lib.rs:118-120 with bincode as serializer -/
def serialize32 (P : Plat) (fuel : Nat) (g : FastGraph) : M (List UInt8) := do
  let g32 ← FastGraph32.new P fuel g
  .ok (encGraph32 g32)

/-- lib.rs:126-129 with bincode as deserializer: the graph and the bytes that are left -/
def deserialize32 (P : Plat) (bytes : List UInt8) : M (Except LoadError (FastGraph × List UInt8)) :=
  match (decGraph32 P).run bytes with
  | .error e => .ok (.error e)
  | .ok (g32, rest) => do
    let g ← g32.convertToUsize P
    .ok (.ok (g, rest))

/-- A field of a struct together with its value: a prepared graph, a prepared graph with `serialize_32`, or something else that
writes itself as `enc d`. -/
inductive Field (δ : Type) where
  | graph (g : FastGraph)
  | graph32 (g : FastGraph)
  | data (enc : δ → List UInt8) (d : δ)

/-- The same field in the struct that is read. -/
inductive FieldKind (δ : Type) where
  | graph
  | graph32
  | data (dec : Rd δ)

/-- The value of a field that was read. -/
inductive FieldValue (δ : Type) where
  | graph (g : FastGraph)
  | data (d : δ)

variable {δ : Type}

/-- write one field -/
def writeField (P : Plat) : Field δ → M (List UInt8)
  | .graph g => .ok (encGraph g)
  | .graph32 g => serialize32 P 2 g
  | .data enc d => .ok (enc d)

/-- write all fields in the order of their declaration -/
def writeFields (P : Plat) : List (Field δ) → M (List UInt8)
  | [] => .ok []
  | f :: fs => do
    let a ← writeField P f
    let b ← writeFields P fs
    .ok (a ++ b)

/-- read one field -/
def readField (P : Plat) (bytes : List UInt8) : FieldKind δ → M (Except LoadError (FieldValue δ × List UInt8))
  | .graph => .ok (match (decGraph P).run bytes with
    | .error e => .error e
    | .ok (g, rest) => .ok (.graph g, rest))
  | .graph32 => do
    match ← deserialize32 P bytes with
    | .error e => .ok (.error e)
    | .ok (g, rest) => .ok (.ok (.graph g, rest))
  | .data dec => .ok (match dec.run bytes with
    | .error e => .error e
    | .ok (d, rest) => .ok (.data d, rest))

/-- read all fields in the order of their declaration; the first error ends the reading -/
def readFields (P : Plat) : List (FieldKind δ) → List UInt8 → M (Except LoadError (List (FieldValue δ) × List UInt8))
  | [], bytes => .ok (.ok ([], bytes))
  | k :: ks, bytes => do
    match ← readField P bytes k with
    | .error e => .ok (.error e)
    | .ok (v, rest) =>
      match ← readFields P ks rest with
      | .error e => .ok (.error e)
      | .ok (vs, rest) => .ok (.ok (v :: vs, rest))

end FP
