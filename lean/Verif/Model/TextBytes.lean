import Verif.Model.Writer
/-!
# Model of src/input_graph.rs: text files as bytes

`Model/TextIO` reads characters and `Model/Writer` writes them. Here files are bytes: opening a file, decoding it as UTF-8 and
what a call that writes does to a file that is already there. The name of a file stands for its contents (`Disk`).
-/
namespace FP
namespace TextBytes
open TextIO Writer

/-- A file name on a disk: `none` if there is no (readable) file of this name, or its bytes. -/
abbrev Disk := Option (List UInt8)

/-! ### Parts of the Rust standard library -/

/-- a continuation byte of UTF-8 -/
def isCont (b : UInt8) : Bool := 0x80 ≤ b.toNat && b.toNat ≤ 0xBF

/-- `core::str::from_utf8`: decode strictly, following the table of well-formed byte sequences of the Unicode standard (no overlong
forms, no surrogates, nothing above U+10FFFF). -/
def utf8Decode : List UInt8 → Option (List Char)
  | [] => some []
  | b0 :: r =>
    let x := b0.toNat
    if x ≤ 0x7F then (utf8Decode r).map (Char.ofNat x :: ·)
    else if 0xC2 ≤ x && x ≤ 0xDF then
      match r with
      | b1 :: r =>
        if isCont b1 then (utf8Decode r).map (Char.ofNat ((x - 0xC0) * 64 + (b1.toNat - 0x80)) :: ·) else none
      | _ => none
    else if 0xE0 ≤ x && x ≤ 0xEF then
      match r with
      | b1 :: b2 :: r =>
        if isCont b1 && isCont b2 && (x != 0xE0 || 0xA0 ≤ b1.toNat) && (x != 0xED || b1.toNat ≤ 0x9F) then
          (utf8Decode r).map (Char.ofNat ((x - 0xE0) * 4096 + (b1.toNat - 0x80) * 64 + (b2.toNat - 0x80)) :: ·)
        else none
      | _ => none
    else if 0xF0 ≤ x && x ≤ 0xF4 then
      match r with
      | b1 :: b2 :: b3 :: r =>
        if isCont b1 && isCont b2 && isCont b3 && (x != 0xF0 || 0x90 ≤ b1.toNat) && (x != 0xF4 || b1.toNat ≤ 0x8F) then
          (utf8Decode r).map (Char.ofNat ((x - 0xF0) * 262144 + (b1.toNat - 0x80) * 4096 + (b2.toNat - 0x80) * 64 +
            (b3.toNat - 0x80)) :: ·)
        else none
      | _ => none
    else none

/-- `BufRead::read_until(b'\n')` repeated until the end of the file, with the bytes of the current line collected so far in reverse:
lines with their line ends. -/
def rawLinesFrom (acc : List UInt8) : List UInt8 → List (List UInt8)
  | [] => if acc.isEmpty then [] else [acc.reverse]
  | b :: bs => if b = 10 then (b :: acc).reverse :: rawLinesFrom [] bs else rawLinesFrom (b :: acc) bs

/-- `BufRead::read_until(b'\n')` repeated until the end of the file -/
def rawLines (bs : List UInt8) : List (List UInt8) := rawLinesFrom [] bs

/-- `Lines::next` after a line has been read: drop `'\n'` and then one `'\r'` at the end. -/
def stripEnd (cs : List Char) : List Char :=
  match cs.reverse with
  | '\n' :: '\r' :: r => r.reverse
  | '\n' :: r => r.reverse
  | _ => cs

/-- One step of the loops over `reader.lines()`: `line.unwrap()`, which panics for a line that is not UTF-8, and the loop body. -/
def withLine {σ : Type} (f : σ → List Char → M σ) (st : σ) (raw : List UInt8) : M σ := do
  let s ← unwrap (utf8Decode raw)
  f st (stripEnd s)

/-! ### Reading -/

/-- input_graph.rs:236-251 `read_from_file`, with `File::open(filename).unwrap()` -/
def fromFile (P : Plat) (disk : Disk) : M InputGraph := do
  let bytes ← unwrap disk
  let g ← forM (withLine (readTextLine P)) InputGraph.new (rawLines bytes)
  g.freeze

/-- input_graph.rs:253-320 `read_from_dimacs`, with `File::open(filename).unwrap()` -/
def fromDimacsFile (P : Plat) (disk : Disk) : M InputGraph := do
  let bytes ← unwrap disk
  let st ← forM (withLine (readDimacsLine P)) ⟨InputGraph.new, 0, 0, 0, false⟩ (rawLines bytes)
  assertM (st.currEdges == st.edges)
  st.g.freeze

/-! ### Writing -/

/-- a byte of the text that is written, which is ASCII -/
def asciiByte (c : Char) : UInt8 := UInt8.ofNat c.toNat

/-- `File::create(filename)?` comes first and empties the file, then the check that the graph is frozen (`get_edges` panics otherwise) and
the writes. `run` is what follows after the file was created. -/
def save (env : Env) (disk : Disk) (run : M (File × Bool)) : Disk × Saved :=
  if env.create then
    match run with
    | .ok (f, true) => (some (f.bytes.map asciiByte), .ok)
    | .ok (f, false) => (some (f.bytes.map asciiByte), .err)
    | .error p => (some [], .panic p)
  else (disk, .err)

/-- input_graph.rs:71-77 `to_file` -/
def toFile (env : Env) (disk : Disk) (g : InputGraph) : Disk × Saved := save env disk (Writer.toFile env g)

/-- input_graph.rs:104-111 `to_dimacs_file`. `edge.from + 1` can overflow (for graphs that were not built by `add_edge` in a build with
overflow checks); what was written before the panic is in the file then. -/
def toDimacsFile (P : Plat) (env : Env) (disk : Disk) (g : InputGraph) : Disk × Saved :=
  if env.create then
    let (f, r) := Writer.dimacsRun P env g
    (some (f.bytes.map asciiByte), r)
  else (disk, .err)

end TextBytes
end FP
