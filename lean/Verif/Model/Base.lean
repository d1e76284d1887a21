/-!
# Base: panics, machine integers, vectors

Nothing in this file is specific to fast_paths: it fixes how Rust's panics, `usize` arithmetic and `Vec` accesses
are represented.
-/
namespace FP

/-- The ways a Rust run of the modelled code can abort.
* `overflow`  – `attempt to add with overflow` (only raised when overflow checks are on)
* `capacity`  – `Vec` capacity overflow
* `index`     – index out of bounds
* `assertion` – failed `assert!`/`assert_eq!`/`assert_ne!`, explicit `panic!`, `unwrap` on `None`/`Err`
* `debugAssertion` – failed `debug_assert!`/`debug_assert_eq!` (only compiled in when debug assertions are on)
* `outOfFuel` – not a Rust panic: the bound given in the model to a loop or recursion was exceeded. Proved
  unreachable; this is how termination is stated. -/
inductive Panic where
  | overflow | capacity | index | assertion | debugAssertion | outOfFuel
  deriving DecidableEq, Repr

/-- A computation that may panic. -/
abbrev M (α : Type) := Except Panic α

/-- The platform and build profile the code was compiled for: the largest `usize` value and whether arithmetic
overflow panics (debug profile / `overflow-checks`) or wraps (release profile). Cargo's default profiles turn overflow
checks and debug assertions on and off together, so one flag stands for both. -/
structure Plat where
  /-- `usize::MAX` -/
  umax : Nat
  /-- overflow checks and debug assertions enabled -/
  checked : Bool
  deriving DecidableEq, Repr

/-- 64-bit platform, overflow checks on. -/
def debug64 : Plat := ⟨2 ^ 64 - 1, true⟩
/-- 64-bit platform, overflow checks off. -/
def release64 : Plat := ⟨2 ^ 64 - 1, false⟩
/-- 32-bit platform (e.g. wasm32), overflow checks on. -/
def debug32 : Plat := ⟨2 ^ 32 - 1, true⟩

/-- constants.rs:24 `INVALID_NODE = std::usize::MAX` -/
def Plat.INVALID_NODE (P : Plat) : Nat := P.umax
/-- constants.rs:25 `INVALID_EDGE = std::usize::MAX` -/
def Plat.INVALID_EDGE (P : Plat) : Nat := P.umax
/-- constants.rs:26 `WEIGHT_MAX = std::usize::MAX` -/
def Plat.WEIGHT_MAX (P : Plat) : Nat := P.umax
/-- constants.rs:27 `WEIGHT_ZERO = 0` -/
def WEIGHT_ZERO : Nat := 0

/-- `a + b` on `usize`. -/
def addW (P : Plat) (a b : Nat) : M Nat :=
  if a + b ≤ P.umax then .ok (a + b)
  else if P.checked then .error .overflow
  else .ok ((a + b) % (P.umax + 1))

/-- `a * b` on `usize`. -/
def mulW (P : Plat) (a b : Nat) : M Nat :=
  if a * b ≤ P.umax then .ok (a * b)
  else if P.checked then .error .overflow
  else .ok ((a * b) % (P.umax + 1))

/-- `v[i]` -/
def idx {α : Type} (l : List α) (i : Nat) : M α :=
  match l[i]? with
  | some a => .ok a
  | none => .error .index

/-- `v[i] = a` -/
def setIdx {α : Type} (l : List α) (i : Nat) (a : α) : M (List α) :=
  if i < l.length then .ok (l.set i a) else .error .index

/-- in-place modification of the fields of `v[i]` -/
def modIdx {α : Type} (l : List α) (i : Nat) (f : α → α) : M (List α) :=
  match l[i]? with
  | some a => .ok (l.set i (f a))
  | none => .error .index

/-- `assert!(c)` -/
def assertM (c : Bool) : M Unit :=
  if c then .ok () else .error .assertion

/-- `debug_assert!(c)` -/
def debugAssertM (P : Plat) (c : Bool) : M Unit :=
  if P.checked && !c then .error .debugAssertion else .ok ()

/-- `v.push(a)`; the length of a `Vec` is a `usize`. -/
def vecPush {α : Type} (P : Plat) (l : List α) (a : α) : M (List α) :=
  if l.length < P.umax then .ok (l ++ [a]) else .error .capacity

/-- A `for x in xs { s = f(s, x) }` loop whose body may panic. -/
def forM {σ α : Type} (f : σ → α → M σ) : σ → List α → M σ
  | s, [] => .ok s
  | s, a :: as => do
    let s ← f s a
    forM f s as

end FP
