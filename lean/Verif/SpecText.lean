import Verif.Spec
import Verif.Model.TextIO
/-!
# Vocabulary for text files

What the lines of a file mean, without referring to how they are read. `TextIO.isWhitespace` (Rust's `char::is_whitespace`) is
taken as given; `TextIO.lines` (Rust's `BufRead::lines`) is used in statements, `IsLines` says what it is.
-/
namespace FP
namespace Spec
open TextIO

/-- The lines of a text: each ends with `\n` or `\r\n`; for the last one the line end may be missing if it is not empty. -/
inductive IsLines : List Char → List (List Char) → Prop where
  | nil : IsLines [] []
  | last {l : List Char} (hn : '\n' ∉ l) (h : l ≠ []) : IsLines l [l]
  | unix {l cs : List Char} {ls : List (List Char)} (hn : '\n' ∉ l) (hr : l.getLast? ≠ some '\r') (h : IsLines cs ls) :
      IsLines (l ++ '\n' :: cs) (l :: ls)
  | windows {l cs : List Char} {ls : List (List Char)} (hn : '\n' ∉ l) (h : IsLines cs ls) :
      IsLines (l ++ '\r' :: '\n' :: cs) (l :: ls)

/-- The value of a digit. -/
def digitVal (c : Char) : Nat := c.toNat - 48

/-- `ds` is a non-empty sequence of decimal digits with value `v`. -/
def IsDecimal (ds : List Char) (v : Nat) : Prop :=
  ds ≠ [] ∧ (∀ c ∈ ds, '0' ≤ c ∧ c ≤ '9') ∧ v = ds.foldl (fun a c => a * 10 + digitVal c) 0

/-- `word` is an unsigned number that fits into a machine word: digits, possibly after one plus sign. -/
def IsNumber (P : Plat) (word : List Char) (v : Nat) : Prop :=
  v ≤ P.umax ∧ (IsDecimal word v ∨ ∃ ds, word = '+' :: ds ∧ IsDecimal ds v)

/-- Only white space (possibly nothing). -/
def IsSpace (cs : List Char) : Prop := ∀ c ∈ cs, isWhitespace c = true

/-- A sequence of numbers, separated by white space, with white space allowed at both ends. -/
inductive IsNumbers (P : Plat) : List Char → List Nat → Prop where
  | nil {sp : List Char} (h : IsSpace sp) : IsNumbers P sp []
  | last {sp word sp' : List Char} {v : Nat} (h : IsSpace sp) (hw : IsNumber P word v) (h' : IsSpace sp') :
      IsNumbers P (sp ++ word ++ sp') [v]
  | cons {sp word rest : List Char} {v x : Nat} {vs : List Nat} {c : Char} (h : IsSpace sp) (hw : IsNumber P word v)
      (hc : isWhitespace c = true) (hr : IsNumbers P rest (x :: vs)) :
      IsNumbers P (sp ++ word ++ c :: rest) (v :: x :: vs)

/-- The line lists an arc: `a <from> <to> <weight>`. -/
def IsArcLine (P : Plat) (line : List Char) (e : Edge) : Prop :=
  ∃ rest, line = 'a' :: ' ' :: rest ∧ IsNumbers P rest [e.src, e.dst, e.weight]

/-- The line starts with `a` and a space. -/
def startsArc : List Char → Bool
  | 'a' :: ' ' :: _ => true
  | _ => false

/-- The line is a DIMACS problem line: `p sp <nodes> <edges>`. -/
def IsProblemLine (P : Plat) (line : List Char) (nodes edges : Nat) : Prop :=
  ∃ rest, line = 'p' :: ' ' :: 's' :: 'p' :: ' ' :: rest ∧ IsNumbers P rest [nodes, edges]

/-- The line is empty or a DIMACS comment. -/
def isComment : List Char → Bool
  | [] => true
  | 'c' :: _ => true
  | _ => false

/-- The calls that add these edges and freeze. -/
def addAll (es : List Edge) : List Op := es.map (fun e => .addEdge e.src e.dst e.weight) ++ [.freeze]

/-- An arc of a DIMACS file with its 0-based node ids. -/
def shiftEdge (e : Edge) : Edge := ⟨e.src - 1, e.dst - 1, e.weight⟩

/-- The edge with the last `j` digits of its weight cut off. -/
def cutEdge (j : Nat) (e : Edge) : Edge := ⟨e.src, e.dst, e.weight / 10 ^ j⟩

/-- The edges with the last `j` digits of the last weight cut off. -/
def cutLast (j : Nat) (es : List Edge) : List Edge := es.dropLast ++ (es.getLast?.map (cutEdge j)).toList

end Spec
end FP
