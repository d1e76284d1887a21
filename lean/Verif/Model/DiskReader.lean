import Verif.Model.DiskWriter
/-!
# Model of reading files on a disk that may fail

`Model/TextBytes` and `Model/Bincode` read files whose bytes are simply there. Here every call of `read` may return fewer bytes than asked
for, be interrupted, or fail. Of the standard library: `File::read`, `Read::read_exact`, `BufReader` and `BufRead::lines`.
-/
namespace FP
namespace DiskReader
open TextIO TextBytes DiskWriter

/-- What the operating system makes of one call of `read`. -/
inductive ReadAnswer where
  /-- at most `k + 1` bytes are returned -/
  | bytes (k : Nat)
  /-- `ErrorKind::Interrupted` -/
  | interrupted
  /-- any other error -/
  | error
  deriving DecidableEq, Repr

/-- An open file: the bytes that have not been read, and what happens to the next calls of `read`. When the list is used up, every call returns
as many bytes as there are, up to the number asked for. -/
structure OpenFile where
  rest : List UInt8
  answers : List ReadAnswer
  deriving DecidableEq, Repr

/-- The result of a call of `read`: bytes (none at the end of the file), or the two kinds of errors. -/
inductive Got where
  | bytes (bs : List UInt8)
  | interrupted
  | error
  deriving DecidableEq, Repr

/-- `File::read` with a buffer of `n` bytes -/
def OpenFile.read (f : OpenFile) (n : Nat) : OpenFile × Got :=
  match f.answers with
  | [] => (⟨f.rest.drop n, []⟩, .bytes (f.rest.take n))
  | .bytes k :: as => (⟨f.rest.drop (min (k + 1) n), as⟩, .bytes (f.rest.take (min (k + 1) n)))
  | .interrupted :: as => (⟨f.rest, as⟩, .interrupted)
  | .error :: as => (⟨f.rest, as⟩, .error)

/-! ### Text files -/

/-- The size of the buffer of a `BufReader`. -/
def BUFFER : Nat := 8192

/-- `BufReader<File>` -/
structure BufReader where
  file : OpenFile
  buf : List UInt8
  deriving DecidableEq, Repr

/-- `BufReader::fill_buf`: read if nothing is buffered. -/
def BufReader.fillBuf (r : BufReader) : BufReader × Got :=
  if r.buf.isEmpty then
    match r.file.read BUFFER with
    | (f, .bytes bs) => (⟨f, bs⟩, .bytes bs)
    | (f, e) => (⟨f, []⟩, e)
  else (r, .bytes r.buf)

/-- `memchr(b'\n', available)`: the bytes up to the line end and those after it -/
def cutLine : List UInt8 → Option (List UInt8 × List UInt8)
  | [] => none
  | b :: bs => if b = 10 then some ([b], bs) else (cutLine bs).map (fun x => (b :: x.1, x.2))

/-- `BufRead::read_until(b'\n')`: the line with its end and the reader, or `none` for an error other than an interruption. The number bounds the
loop. -/
def BufReader.readUntil : Nat → BufReader → List UInt8 → Option (List UInt8 × BufReader)
  | 0, _, _ => none
  | fuel + 1, r, line =>
    match r.fillBuf with
    | (r, .interrupted) => readUntil fuel r line
    | (_, .error) => none
    | (r, .bytes available) =>
      match cutLine available with
      | some (l, rest) => some (line ++ l, { r with buf := rest })
      | none => if available.isEmpty then some (line, r) else readUntil fuel { r with buf := [] } (line ++ available)

/-- bound for the number of loop iterations: every one of them reads a byte or uses up an answer -/
def BufReader.fuel (r : BufReader) : Nat := r.buf.length + r.file.rest.length + r.file.answers.length + 2

/-- The loop `for line in reader.lines() { let s = line.unwrap(); .. }`: `Lines::next` ends the loop when a line without any bytes is read. -/
def eachLine {σ : Type} (f : σ → List Char → M σ) : Nat → BufReader → σ → M σ
  | 0, _, _ => .error .outOfFuel
  | fuel + 1, r, st => do
    let (line, r) ← unwrap (r.readUntil r.fuel [])
    if line.isEmpty then .ok st
    else
      let st ← withLine f st line
      eachLine f fuel r st

/-- input_graph.rs:236-251 `read_from_file` -/
def fromFile (P : Plat) (file : Option OpenFile) : M InputGraph := do
  let file ← unwrap file
  let r : BufReader := ⟨file, []⟩
  let g ← eachLine (readTextLine P) r.fuel r InputGraph.new
  g.freeze

/-- input_graph.rs:253-320 `read_from_dimacs` -/
def fromDimacsFile (P : Plat) (file : Option OpenFile) : M InputGraph := do
  let file ← unwrap file
  let r : BufReader := ⟨file, []⟩
  let st ← eachLine (readDimacsLine P) r.fuel r ⟨InputGraph.new, 0, 0, 0, false⟩
  assertM (st.currEdges == st.edges)
  st.g.freeze

/-! ### Prepared graphs -/

/-- A reader of an open file. -/
abbrev Rd (α : Type) := StateT OpenFile (Except OpenError) α

/-- `Read::read_exact` on a file, for `n` bytes; the first number bounds the loop. -/
def readExact : Nat → Nat → List UInt8 → Rd (List UInt8)
  | 0, _, _ => throw .io
  | fuel + 1, n, got => do
    if n = 0 then pure got
    else
      let (f, r) := (← get).read n
      set f
      match r with
      | .bytes [] => throw (.content .eof)
      | .bytes bs => readExact fuel (n - bs.length) (got ++ bs)
      | .interrupted => readExact fuel n got
      | .error => throw .io

/-- the number that little-endian bytes stand for -/
def leValue : List UInt8 → Nat
  | [] => 0
  | b :: bs => b.toNat + 256 * leValue bs

/-- bincode reads a number of `k` bytes with `read_exact`. -/
def readLe (k : Nat) : Rd Nat := do
  let f ← get
  let bs ← readExact (k + f.answers.length + 1) k []
  pure (leValue bs)

/-- `decUsize` of `Model/Bincode` -/
def decUsize (P : Plat) : Rd Nat := do
  let n ← readLe 8
  if n ≤ P.umax then pure n else throw (.content .tooLarge)

/-- `decU32` of `Model/Bincode` -/
def decU32 : Rd Nat := readLe 4

/-- the elements of a `Vec` -/
def decList {α : Type} (dec : Rd α) : Nat → Rd (List α)
  | 0 => pure []
  | k + 1 => do
    let a ← dec
    let as ← decList dec k
    pure (a :: as)

/-- a `Vec`: length, then elements -/
def decVec {α : Type} (P : Plat) (dec : Rd α) : Rd (List α) := do
  let k ← decUsize P
  decList dec k

/-- fast_graph.rs:86-97 -/
def decEdge (P : Plat) : Rd FastGraphEdge := do
  let baseNode ← decUsize P
  let adjNode ← decUsize P
  let weight ← decUsize P
  let replacedInEdge ← decUsize P
  let replacedOutEdge ← decUsize P
  pure ⟨baseNode, adjNode, weight, replacedInEdge, replacedOutEdge⟩

/-- fast_graph32.rs:71-78 -/
def decEdge32 : Rd FastGraphEdge32 := do
  let baseNode ← decU32
  let adjNode ← decU32
  let weight ← decU32
  let replacedInEdge ← decU32
  let replacedOutEdge ← decU32
  pure ⟨baseNode, adjNode, weight, replacedInEdge, replacedOutEdge⟩

/-- fast_graph.rs:26-35 -/
def decGraph (P : Plat) : Rd FastGraph := do
  let numNodes ← decUsize P
  let ranks ← decVec P (decUsize P)
  let edgesFwd ← decVec P (decEdge P)
  let firstEdgeIdsFwd ← decVec P (decUsize P)
  let edgesBwd ← decVec P (decEdge P)
  let firstEdgeIdsBwd ← decVec P (decUsize P)
  pure ⟨numNodes, ranks, edgesFwd, firstEdgeIdsFwd, edgesBwd, firstEdgeIdsBwd⟩

/-- fast_graph32.rs:31-40 -/
def decGraph32 (P : Plat) : Rd FastGraph32 := do
  let numNodes ← decU32
  let ranks ← decVec P decU32
  let edgesFwd ← decVec P decEdge32
  let firstEdgeIdsFwd ← decVec P decU32
  let edgesBwd ← decVec P decEdge32
  let firstEdgeIdsBwd ← decVec P decU32
  pure ⟨numNodes, ranks, edgesFwd, firstEdgeIdsFwd, edgesBwd, firstEdgeIdsBwd⟩

/-- lib.rs:656-659 `load_from_disk` -/
def loadGraph (P : Plat) (file : Option OpenFile) : Except OpenError FastGraph :=
  match file with
  | none => .error .io
  | some f => do
    let (g, _) ← (decGraph P).run f
    pure g

/-- lib.rs:676-680 `load_from_disk32` -/
def loadGraph32 (P : Plat) (file : Option OpenFile) : M (Except OpenError FastGraph) :=
  match file with
  | none => .ok (.error .io)
  | some f =>
    match (decGraph32 P).run f with
    | .error e => .ok (.error e)
    | .ok (g32, _) => do
      let g ← g32.convertToUsize P
      .ok (.ok g)

end DiskReader
end FP
