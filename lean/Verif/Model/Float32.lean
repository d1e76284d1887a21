import Verif.Model.Builder
/-!
# Single precision numbers, as far as the preparation uses them

The priority of a node is computed in `f32` (node_contractor.rs:57-59). This is a model of IEEE 754 binary32 with the rounding Rust
prescribes (to nearest, ties to even): a finite number is an integer multiple of `2 ^ -149`; an operation computes the exact
result and rounds it. The two zeros are identified: nothing the code does can tell them apart, the only divisor is at least 1.
-/
namespace FP

/-- A binary32 number. `fin k` is `k * 2 ^ -149`. -/
inductive F32 where
  | nan
  | inf (neg : Bool)
  | fin (k : Int)
  deriving DecidableEq, Repr

namespace F32

/-- The quotient of two natural numbers rounded to the nearest integer, ties to the even one. -/
def rne (num den : Nat) : Nat :=
  let k := num / den
  let r := num % den
  if den < 2 * r ∨ (2 * r = den ∧ k % 2 = 1) then k + 1 else k

/-- Distance of neighboring numbers around `num / den`: 24 bits of precision, and never less than one unit. -/
def ulp (num den : Nat) : Nat := 2 ^ (Nat.log2 (num / den) - 23)

/-- `num / den` units rounded to a number of units that has 24 significant bits. -/
def roundNat (num den : Nat) : Nat := rne num (den * ulp num den) * ulp num den

/-- Rounding is symmetric. -/
def roundInt (num : Int) (den : Nat) : Int :=
  if 0 ≤ num then (roundNat num.natAbs den : Int) else -(roundNat num.natAbs den : Int)

/-- `2 ^ 128` in units, the first number beyond the finite range -/
def limit : Nat := 2 ^ 277

/-- One, in units. -/
def one : Nat := 2 ^ 149

/-- The number `num / den` units, rounded, infinite if beyond the finite range. -/
def ofRat (num : Int) (den : Nat) : F32 :=
  let z := roundInt num den
  if (limit : Int) ≤ z then inf false else if z ≤ -(limit : Int) then inf true else fin z

/-- `as f32` for integers (`usize` and `i32`) -/
def ofInt (z : Int) : F32 := ofRat (z * one) 1

/-- `*` -/
def mul : F32 → F32 → F32
  | nan, _ => nan
  | _, nan => nan
  | inf a, inf b => inf (a != b)
  | inf a, fin k => if k = 0 then nan else inf (a != decide (k < 0))
  | fin k, inf a => if k = 0 then nan else inf (a != decide (k < 0))
  | fin a, fin b => ofRat (a * b) one

/-- `+` -/
def add : F32 → F32 → F32
  | nan, _ => nan
  | _, nan => nan
  | inf a, inf b => if a = b then inf a else nan
  | inf a, fin _ => inf a
  | fin _, inf a => inf a
  | fin a, fin b => ofRat (a + b) 1

/-- `/` by a number that is not negative. (`x / 0` has the sign of `x`.) -/
def div : F32 → F32 → F32
  | nan, _ => nan
  | _, nan => nan
  | inf _, inf _ => nan
  | inf a, fin _ => inf a
  | fin _, inf _ => fin 0
  | fin a, fin b => if b = 0 then (if a = 0 then nan else inf (decide (a < 0))) else ofRat (a * one) b.toNat

/-- `as usize`: rounds towards zero, saturates, NaN becomes 0. -/
def toUsize (P : Plat) : F32 → Nat
  | nan => 0
  | inf neg => if neg then 0 else P.umax
  | fin k => min (k.toNat / one) P.umax

end F32

open F32

/-- node_contractor.rs:57-59 and the cast `as Weight` in fast_graph_builder.rs:97 and 146. -/
def relevanceF32 (P : Plat) (hierarchyDepthFactor edgeQuotientFactor : F32) (level : Nat) (numShortcuts : Int) (numEdges : Nat) :
    Nat :=
  let relevance := add (mul hierarchyDepthFactor (ofInt level))
    (div (add (mul edgeQuotientFactor (ofInt numShortcuts)) (ofInt 1)) (add (ofInt numEdges) (ofInt 1)))
  toUsize P (mul relevance (ofInt 1000))

/-- fast_graph_builder.rs:301-314 `Params::new` -/
def Params.new (P : Plat) (ratio : F32) (initialRelevance neighborRelevance contraction : Nat) : Params :=
  ⟨relevanceF32 P ratio (ofInt 1), initialRelevance, neighborRelevance, contraction⟩

/-- The literal `0.1` -/
def F32.tenth : F32 := ofRat one 10

/-- The relevance formula of `Params::default()` (fast_graph_builder.rs:316-318) -/
def defaultRelevance (P : Plat) : Nat → Int → Nat → Nat := relevanceF32 P F32.tenth (ofInt 1)

end FP
