import Verif.Spec
import Verif.SpecText
/-! # A family of graphs whose shortcuts become heavy

Input of C104. For `m` levels and a search budget of `k` settled nodes there are nodes `s`, `t`, `z`, `d`, per level nodes `x i`,
`y i`, `g i` and `k - 2` nodes `e i` without outgoing edges that use up the budget of the searches. -/
namespace FP.Spec.Heavy

/-- The nodes by their roles. -/
inductive Role where
  | s | t | z | d
  | x (i : Nat) | y (i : Nat) | g (i : Nat) | e (i : Nat)
  deriving DecidableEq, Repr

/-- The nodes that exist (there is no `g 0` and no `g 1`). -/
def Role.Ok (m k : Nat) : Role → Prop
  | .x i => i < m
  | .y i => i < m
  | .g i => 2 ≤ i ∧ i < m
  | .e i => i + 2 < k
  | _ => True

/-- Node ids. -/
def Role.id (m : Nat) : Role → Nat
  | .s => 0
  | .t => 1
  | .z => 2
  | .d => 3
  | .x i => 4 + 3 * i
  | .y i => 5 + 3 * i
  | .g i => 6 + 3 * i
  | .e i => 4 + 3 * m + i

/-- Weights of the edges; `none` where there is no edge. The parameters describe how far a contraction has come: the nodes `x i` with
`i < c`, `y i` with `i < h` and `g i` with `i < b` are gone. -/
def weight (m c h b A : Nat) : Role → Role → Option Nat
  | .s, .e _ => some 1
  | .s, .z => some (4 * m + 10)
  | .s, .y i => if i = h then some (4 * h + 10) else none
  | .s, .x i => if i = c then some A else none
  | .z, .e _ => some 1
  | .z, .d => some 1
  | .z, .t => some 1
  | .z, .x i => if c ≤ i then some 1 else none
  | .z, .y i => if h ≤ i then some 1 else none
  | .x i, .e _ => if c ≤ i then some 1 else none
  | .x i, .z => if c ≤ i then some (4 * i + 5) else none
  | .x i, .x l => if c ≤ i ∧ c ≤ l ∧ i ≠ l ∧ (i = c ∨ l = c) then some A else none
  | .x i, .t => if i = c then some A else none
  | .x i, .g l => if c ≤ i ∧ l = i ∧ b ≤ i then some (4 * i + 3) else none
  | .x i, .d => if c ≤ i ∧ i < b then some (4 * i + 4) else none
  | .x i, .y l => if c ≤ i ∧ l = h ∧ h + 2 ≤ i then some (4 * h + 10) else none
  | .y i, .y l => if h ≤ i ∧ l = i + 1 then some 4 else none
  | .y i, .x l => if h ≤ i ∧ c ≤ l ∧ i + 2 ≤ l then some (4 * m + 10) else none
  | .y i, .t => if h ≤ i then some (4 * m + 10) else none
  | .y i, .d => if h ≤ i then some (4 * m + 10) else none
  | .g i, .e _ => if b ≤ i then some 1 else none
  | .g i, .d => if b ≤ i then some 1 else none
  | .g i, .x l => if b ≤ i ∧ c ≤ l then some 3 else none
  | .g i, .t => if b ≤ i then some 3 else none
  | .g i, .z => if b ≤ i then some 3 else none
  | .g i, .y l => if b ≤ i ∧ h ≤ l ∧ l + 1 = i then some 3 else none
  | _, _ => none

/-- Weight of the heaviest edge. -/
def top (m : Nat) : Nat := 8 * m + 20

/-- All nodes. -/
def roles (m k : Nat) : List Role :=
  [.s, .t, .z, .d] ++ (List.range m).map .x ++ (List.range m).map .y ++
    ((List.range m).filter (fun i => 2 ≤ i)).map .g ++ (List.range (k - 2)).map .e

/-- The edges. -/
def edges (m k : Nat) : List Edge :=
  (roles m k).flatMap (fun a => (roles m k).filterMap (fun b =>
    (weight m 0 0 2 (top m) a b).map (fun w => ⟨a.id m, b.id m, w⟩)))

/-- The nodes contracted first: `x 0`, `y 0`, `g 2`, `x 1`, `y 1`, `g 3` and so on. -/
def first (m : Nat) : List Role :=
  (List.range (m - 2)).flatMap (fun j => [.x j, .y j, .g (j + 2)]) ++ [.x (m - 2), .x (m - 1)]

/-- The order of the contraction. -/
def order (m k : Nat) : List Nat :=
  (first m).map (Role.id m) ++ (List.range (3 * m + k + 2)).filter (fun v => v ∉ (first m).map (Role.id m))

end FP.Spec.Heavy
