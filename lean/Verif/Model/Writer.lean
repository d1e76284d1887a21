import Verif.Model.TextIO
/-!
# Model of how src/input_graph.rs writes text files

`to_file` and `to_dimacs_file` write through `std::io::BufWriter` to a `File`. What the operating system does with each write
is an arbitrary environment. All text written is ASCII, so a character stands for a byte.
-/
namespace FP
namespace Writer
open TextIO

/-- The operating system: whether the file can be created, and what happens to a write – given how many writes were made
before and the number of bytes: an error (`none`), or the number of bytes taken (at most all of them). Both loops of the standard
library that write (`write_all`, `flush_buf`) repeat an interrupted write at once, with the same bytes and without a trace, so
interrupted attempts are not counted: `write` is what the first attempt gives that is not interrupted. -/
structure Env where
  create : Bool
  write : Nat → Nat → Option Nat

/-- A file: number of writes so far and contents. -/
structure FileOf (α : Type) where
  calls : Nat
  bytes : List α
  deriving DecidableEq, Repr

/-- A text file; a character is a byte. -/
abbrev File := FileOf Char

/-- `File::write` -/
def rawWrite {α : Type} (env : Env) (f : FileOf α) (data : List α) : FileOf α × Option Nat :=
  match env.write f.calls data.length with
  | none => ({ f with calls := f.calls + 1 }, none)
  | some k =>
    let k := min k data.length
    (⟨f.calls + 1, f.bytes ++ data.take k⟩, some k)

/-- The loop of `Write::write_all` and of `BufWriter::flush_buf`: write until nothing is left, an error occurs, or a write
takes nothing (which is an error). Gives the file, what is left, and whether all went well. -/
def writeLoop {α : Type} (env : Env) : Nat → FileOf α → List α → FileOf α × List α × Bool
  | 0, f, data => (f, data, true)
  | fuel + 1, f, data =>
    if data.isEmpty then (f, [], true)
    else
      match rawWrite env f data with
      | (f, none) => (f, data, false)
      | (f, some 0) => (f, data, false)
      | (f, some (k + 1)) => writeLoop env fuel f (data.drop (k + 1))

/-- `Write::write_all` on a file; every write takes at least one byte, so the length bounds the number of writes. -/
def writeAllRaw {α : Type} (env : Env) (f : FileOf α) (data : List α) : FileOf α × List α × Bool :=
  writeLoop env data.length f data

/-- `BufWriter<File>` -/
structure BufWriter where
  file : File
  buf : List Char
  deriving DecidableEq, Repr

/-- The default capacity of a `BufWriter`. -/
def CAPACITY : Nat := 8192

/-- `BufWriter::flush_buf` -/
def flushBuf (env : Env) (w : BufWriter) : BufWriter × Bool :=
  let (f, rest, ok) := writeAllRaw env w.file w.buf
  (⟨f, rest⟩, ok)

/-- `BufWriter::write_all` -/
def writeAll (cap : Nat) (env : Env) (w : BufWriter) (data : List Char) : BufWriter × Bool :=
  if data.length < cap - w.buf.length then ({ w with buf := w.buf ++ data }, true)
  else
    match (if cap - w.buf.length < data.length then flushBuf env w else (w, true)) with
    | (w, false) => (w, false)
    | (w, true) =>
      if cap ≤ data.length then
        let (f, _, ok) := writeAllRaw env w.file data
        ({ w with file := f }, ok)
      else ({ w with buf := w.buf ++ data }, true)

/-- A sequence of `write_all` calls joined by `?`. -/
def writeChunks (cap : Nat) (env : Env) : BufWriter → List (List Char) → BufWriter × Bool
  | w, [] => (w, true)
  | w, c :: cs =>
    match writeAll cap env w c with
    | (w, false) => (w, false)
    | (w, true) => writeChunks cap env w cs

/-- `Drop` for `BufWriter`: a last `flush_buf` whose result is ignored. -/
def dropWriter (env : Env) (w : BufWriter) : File := (flushBuf env w).1.file

/-- The pieces in which `writeln!(f, "a {} {} {}", ..)` hands its text to the writer, input_graph.rs:74 and 108. -/
def arcChunks (src dst weight : Nat) : List (List Char) :=
  [['a', ' '], showNat src, [' '], showNat dst, [' '], showNat weight, ['\n']]

/-- input_graph.rs:106 -/
def problemChunks (nodes edges : Nat) : List (List Char) :=
  [['p', ' ', 's', 'p', ' '], showNat nodes, [' '], showNat edges, ['\n']]

/-- Create the file, write the pieces, drop the writer: the file afterwards and whether `Ok(())` is returned. -/
def saveChunks (env : Env) (chunks : List (List Char)) : File × Bool :=
  if env.create then
    let (w, ok) := writeChunks CAPACITY env ⟨⟨0, []⟩, []⟩ chunks
    (dropWriter env w, ok)
  else (⟨0, []⟩, false)

/-- input_graph.rs:71-77 `to_file` -/
def toFile (env : Env) (g : InputGraph) : M (File × Bool) := do
  let edges ← g.getEdges
  .ok (saveChunks env (edges.flatMap (fun e => arcChunks e.src e.dst e.weight)))

/-- How a call of `to_file` or `to_dimacs_file` ends. -/
inductive Saved where
  /-- `Ok(())` -/
  | ok
  /-- `Err(_)` -/
  | err
  | panic (p : Panic)
  deriving DecidableEq, Repr

/-- input_graph.rs:108: the arguments of `writeln!` are evaluated before anything of the line is written. -/
def dimacsArc (P : Plat) (e : Edge) : M (List (List Char)) := do
  let src ← addW P e.src 1
  let dst ← addW P e.dst 1
  .ok (arcChunks src dst e.weight)

/-- input_graph.rs:107-109 -/
def writeArcs (P : Plat) (env : Env) : BufWriter → List Edge → BufWriter × Saved
  | w, [] => (w, .ok)
  | w, e :: es =>
    match dimacsArc P e with
    | .error p => (w, .panic p)
    | .ok chunks =>
      match writeChunks CAPACITY env w chunks with
      | (w, false) => (w, .err)
      | (w, true) => writeArcs P env w es

/-- input_graph.rs:106-110: the two numbers of the first line, the first line, the edges -/
def writeDimacs (P : Plat) (env : Env) (w : BufWriter) (g : InputGraph) : BufWriter × Saved :=
  match (do let nodes ← g.getNumNodes; let num ← g.getNumEdges; .ok (problemChunks nodes num) : M (List (List Char))) with
  | .error p => (w, .panic p)
  | .ok chunks =>
    match writeChunks CAPACITY env w chunks with
    | (w, false) => (w, .err)
    | (w, true) =>
      match g.getEdges with
      | .error p => (w, .panic p)
      | .ok edges => writeArcs P env w edges

/-- input_graph.rs:104-111 `to_dimacs_file` after the file was created. The writer is dropped in any case, also when a panic unwinds
the stack. -/
def dimacsRun (P : Plat) (env : Env) (g : InputGraph) : File × Saved :=
  let (w, r) := writeDimacs P env ⟨⟨0, []⟩, []⟩ g
  (dropWriter env w, r)

/-- input_graph.rs:104-111 `to_dimacs_file`: the file afterwards and whether `Ok(())` is returned, for calls that do not panic (for the
others see `TextBytes.toDimacsFile`). -/
def toDimacsFile (P : Plat) (env : Env) (g : InputGraph) : M (File × Bool) :=
  if env.create then
    match dimacsRun P env g with
    | (f, .ok) => .ok (f, true)
    | (f, .err) => .ok (f, false)
    | (_, .panic p) => .error p
  else .ok (⟨0, []⟩, false)

end Writer
end FP
