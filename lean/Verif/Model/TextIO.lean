import Verif.Model.InputGraph
/-!
# Model of src/input_graph.rs: text files

A text file is its list of characters. Opening the file and decoding it as UTF-8 (`File::open(..).unwrap()`,
`line.unwrap()`) are in `Verif.Model.TextBytes`, how the writers get their text to the disk is in `Verif.Model.Writer`.
-/
namespace FP
namespace TextIO

/-! ### Parts of the Rust standard library -/

/-- `BufRead::lines`, with the characters of the current line collected so far in reverse: a line ends at `'\n'`, which is
dropped together with one `'\r'` before it; characters after the last `'\n'` form a line if there are any. -/
def linesFrom (acc : List Char) : List Char → List (List Char)
  | [] => if acc.isEmpty then [] else [acc.reverse]
  | c :: cs =>
    if c = '\n' then
      (match acc with
        | '\r' :: r => r.reverse
        | _ => acc.reverse) :: linesFrom [] cs
    else linesFrom (c :: acc) cs

/-- `BufRead::lines` -/
def lines (cs : List Char) : List (List Char) := linesFrom [] cs

/-- `char::is_whitespace`: the Unicode property `White_Space`. -/
def isWhitespace (c : Char) : Bool :=
  let n := c.toNat
  (9 ≤ n && n ≤ 13) || n == 0x20 || n == 0x85 || n == 0xA0 || n == 0x1680 || (0x2000 ≤ n && n ≤ 0x200A) ||
    n == 0x2028 || n == 0x2029 || n == 0x202F || n == 0x205F || n == 0x3000

/-- `str::split_whitespace`, with the characters of the current word collected so far in reverse. -/
def splitFrom (acc : List Char) : List Char → List (List Char)
  | [] => if acc.isEmpty then [] else [acc.reverse]
  | c :: cs =>
    if isWhitespace c then
      if acc.isEmpty then splitFrom [] cs else acc.reverse :: splitFrom [] cs
    else splitFrom (c :: acc) cs

/-- `str::split_whitespace` -/
def splitWhitespace (cs : List Char) : List (List Char) := splitFrom [] cs

/-- `char::to_digit(10)` -/
def toDigit (c : Char) : Option Nat :=
  if 48 ≤ c.toNat ∧ c.toNat ≤ 57 then some (c.toNat - 48) else none

/-- The loop of `usize::from_str_radix(_, 10)`: `result = result * 10 + digit`, failing on other characters and when the
value does not fit. -/
def parseDigits (P : Plat) : Nat → List Char → Option Nat
  | v, [] => some v
  | v, c :: cs =>
    match toDigit c with
    | none => none
    | some d => if v * 10 + d ≤ P.umax then parseDigits P (v * 10 + d) cs else none

/-- `str::parse::<usize>()`: at least one digit after an optional plus sign. -/
def parseUsize (P : Plat) (cs : List Char) : Option Nat :=
  match cs with
  | [] => none
  | '+' :: r => if r.isEmpty then none else parseDigits P 0 r
  | _ => parseDigits P 0 cs

/-- `Option::unwrap`, `Result::unwrap` -/
def unwrap {α : Type} : Option α → M α
  | some a => .ok a
  | none => .error .assertion

/-- `split.next().unwrap().parse::<usize>().unwrap()` on the remaining words; also gives the words after it. -/
def nextNumber (P : Plat) (words : List (List Char)) : M (Nat × List (List Char)) :=
  match words with
  | [] => .error .assertion
  | w :: ws => do
    let v ← unwrap (parseUsize P w)
    .ok (v, ws)

/-- `{}` formatting of a `usize`: decimal digits. -/
def showNat (n : Nat) : List Char := Nat.toDigits 10 n

/-! ### Writing -/

/-- The line `"a {} {} {}\n"` of input_graph.rs:74 and 108. -/
def arcLine (src dst weight : Nat) : List Char :=
  'a' :: ' ' :: (showNat src ++ ' ' :: (showNat dst ++ ' ' :: (showNat weight ++ ['\n'])))

/-- input_graph.rs:71-77 `to_file`: the text that is written. -/
def toText (g : InputGraph) : M (List Char) := do
  let edges ← g.getEdges
  .ok (edges.flatMap (fun e => arcLine e.src e.dst e.weight))

/-- input_graph.rs:106 -/
def problemLine (nodes edges : Nat) : List Char :=
  ['p', ' ', 's', 'p', ' '] ++ showNat nodes ++ ' ' :: (showNat edges ++ ['\n'])

/-- input_graph.rs:104-111 `to_dimacs_file`: the text that is written. -/
def toDimacsText (P : Plat) (g : InputGraph) : M (List Char) := do
  let nodes ← g.getNumNodes
  let num ← g.getNumEdges
  let edges ← g.getEdges
  forM (fun txt (e : Edge) => do
    let src ← addW P e.src 1
    let dst ← addW P e.dst 1
    .ok (txt ++ arcLine src dst e.weight)) (problemLine nodes num) edges

/-! ### Reading -/

/-- `str::starts_with` -/
def startsWith (s pre : List Char) : Bool := pre.isPrefixOf s

/-- input_graph.rs:322-334 `read_arc_line`; `line[2..]` is the line without its first two (one byte) characters. -/
def readArcLine (P : Plat) (line : List Char) : M (Nat × Nat × Nat) := do
  let (src, ws) ← nextNumber P (splitWhitespace (line.drop 2))
  let (dst, ws) ← nextNumber P ws
  let (weight, ws) ← nextNumber P ws
  assertM ws.isEmpty
  .ok (src, dst, weight)

/-- input_graph.rs:240-248, the loop body of `read_from_file` -/
def readTextLine (P : Plat) (g : InputGraph) (line : List Char) : M InputGraph :=
  if startsWith line ['a', ' '] then do
    let (src, dst, weight) ← readArcLine P line
    let (g, _) ← g.addEdge P src dst weight
    .ok g
  else .ok g

/-- input_graph.rs:236-251 `read_from_file` -/
def readText (P : Plat) (cs : List Char) : M InputGraph := do
  let g ← forM (readTextLine P) InputGraph.new (lines cs)
  g.freeze

/-- The variables of `read_from_dimacs`, input_graph.rs:256-260. -/
structure DimacsState where
  g : InputGraph
  nodes : Nat
  edges : Nat
  currEdges : Nat
  foundProblemLine : Bool

/-- input_graph.rs:261-311, the loop body of `read_from_dimacs` -/
def readDimacsLine (P : Plat) (st : DimacsState) (line : List Char) : M DimacsState :=
  if line.isEmpty || startsWith line ['c'] then .ok st
  else if startsWith line ['p', ' ', 's', 'p', ' '] then do
    if st.foundProblemLine then .error .assertion
    else
      let (nodes, ws) ← nextNumber P (splitWhitespace (line.drop 5))
      let (edges, ws) ← nextNumber P ws
      assertM ws.isEmpty
      .ok { st with nodes := nodes, edges := edges, foundProblemLine := true }
  else if startsWith line ['a', ' '] then do
    assertM st.foundProblemLine
    let (src, dst, weight) ← readArcLine P line
    assertM (src ≤ st.nodes && dst ≤ st.nodes)
    assertM (st.currEdges < st.edges)
    assertM (0 < src && 0 < dst)
    let (g, _) ← st.g.addEdge P (src - 1) (dst - 1) weight
    let currEdges ← addW P st.currEdges 1
    .ok { st with g := g, currEdges := currEdges }
  else .error .assertion

/-- input_graph.rs:253-320 `read_from_dimacs` -/
def readDimacs (P : Plat) (cs : List Char) : M InputGraph := do
  let st ← forM (readDimacsLine P) ⟨InputGraph.new, 0, 0, 0, false⟩ (lines cs)
  assertM (st.currEdges == st.edges)
  st.g.freeze

end TextIO
end FP
