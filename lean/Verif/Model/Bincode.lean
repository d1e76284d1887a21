import Verif.Model.FastGraph32
import Verif.Model.InputGraph
/-!
# Model of saving and loading prepared graphs

The crate derives serde's `Serialize`/`Deserialize` for its graphs (fast_graph.rs:26, 86, fast_graph32.rs:31, 71, input_graph.rs:35, 349)
and its tests store prepared graphs with bincode 1.3 (lib.rs:649-680). Format of bincode's `serialize_into`/`deserialize_from` (fixed-width little-endian numbers):
the fields of a `struct` follow each other in the order of their declaration, a `usize` takes eight bytes on every platform, a
`u32` four, a `Vec` starts with its length in eight bytes. When reading, a number that does not fit into `usize` is an error,
bytes after the graph are left alone.

Failing disks are in `Model/DiskWriter` (saving) and `Model/DiskReader` (loading). Not modelled: memory exhaustion when loading.
-/
namespace FP

/-- The ways loading can fail. -/
inductive LoadError where
  /-- the file ends too early -/
  | eof
  /-- a number is too large for this platform -/
  | tooLarge
  /-- a byte that is neither 0 nor 1 stands for a `bool` -/
  | badBool
  deriving DecidableEq, Repr

/-- A reader of the bytes of a file. -/
abbrev Rd (α : Type) := StateT (List UInt8) (Except LoadError) α

/-- little-endian bytes of a number -/
def leBytes : Nat → Nat → List UInt8
  | 0, _ => []
  | k + 1, n => UInt8.ofNat (n % 256) :: leBytes k (n / 256)

/-- read a little-endian number of `k` bytes -/
def readLe : Nat → Rd Nat
  | 0 => pure 0
  | k + 1 => do
    match ← get with
    | [] => throw .eof
    | b :: bs =>
      set bs
      let n ← readLe k
      pure (b.toNat + 256 * n)

/-- a `usize` is written as `u64` -/
def encUsize (n : Nat) : List UInt8 := leBytes 8 n

/-- a `u64` is read and has to fit into `usize` -/
def decUsize (P : Plat) : Rd Nat := do
  let n ← readLe 8
  if n ≤ P.umax then pure n else throw .tooLarge

/-- a `u32` -/
def encU32 (n : Nat) : List UInt8 := leBytes 4 n
/-- a `u32` -/
def decU32 : Rd Nat := readLe 4

/-- the elements of a `Vec` -/
def decList {α : Type} (dec : Rd α) : Nat → Rd (List α)
  | 0 => pure []
  | k + 1 => do
    let a ← dec
    let as ← decList dec k
    pure (a :: as)

/-- a `Vec`: length, then elements -/
def encVec {α : Type} (enc : α → List UInt8) (l : List α) : List UInt8 := encUsize l.length ++ l.flatMap enc
/-- a `Vec`: length, then elements -/
def decVec {α : Type} (P : Plat) (dec : Rd α) : Rd (List α) := do
  let k ← decUsize P
  decList dec k

/-- fast_graph.rs:86-97 -/
def encEdge (e : FastGraphEdge) : List UInt8 :=
  encUsize e.baseNode ++ encUsize e.adjNode ++ encUsize e.weight ++ encUsize e.replacedInEdge ++ encUsize e.replacedOutEdge
/-- fast_graph.rs:86-97 -/
def decEdge (P : Plat) : Rd FastGraphEdge := do
  let baseNode ← decUsize P
  let adjNode ← decUsize P
  let weight ← decUsize P
  let replacedInEdge ← decUsize P
  let replacedOutEdge ← decUsize P
  pure ⟨baseNode, adjNode, weight, replacedInEdge, replacedOutEdge⟩

/-- fast_graph32.rs:71-78 -/
def encEdge32 (e : FastGraphEdge32) : List UInt8 :=
  encU32 e.baseNode ++ encU32 e.adjNode ++ encU32 e.weight ++ encU32 e.replacedInEdge ++ encU32 e.replacedOutEdge
/-- fast_graph32.rs:71-78 -/
def decEdge32 : Rd FastGraphEdge32 := do
  let baseNode ← decU32
  let adjNode ← decU32
  let weight ← decU32
  let replacedInEdge ← decU32
  let replacedOutEdge ← decU32
  pure ⟨baseNode, adjNode, weight, replacedInEdge, replacedOutEdge⟩

/-- fast_graph.rs:26-35 -/
def encGraph (g : FastGraph) : List UInt8 :=
  encUsize g.numNodes ++ encVec encUsize g.ranks ++ encVec encEdge g.edgesFwd ++ encVec encUsize g.firstEdgeIdsFwd ++
    encVec encEdge g.edgesBwd ++ encVec encUsize g.firstEdgeIdsBwd
/-- fast_graph.rs:26-35 -/
def decGraph (P : Plat) : Rd FastGraph := do
  let numNodes ← decUsize P
  let ranks ← decVec P (decUsize P)
  let edgesFwd ← decVec P (decEdge P)
  let firstEdgeIdsFwd ← decVec P (decUsize P)
  let edgesBwd ← decVec P (decEdge P)
  let firstEdgeIdsBwd ← decVec P (decUsize P)
  pure ⟨numNodes, ranks, edgesFwd, firstEdgeIdsFwd, edgesBwd, firstEdgeIdsBwd⟩

/-- fast_graph32.rs:31-40 -/
def encGraph32 (g : FastGraph32) : List UInt8 :=
  encU32 g.numNodes ++ encVec encU32 g.ranks ++ encVec encEdge32 g.edgesFwd ++ encVec encU32 g.firstEdgeIdsFwd ++
    encVec encEdge32 g.edgesBwd ++ encVec encU32 g.firstEdgeIdsBwd
/-- fast_graph32.rs:31-40 -/
def decGraph32 (P : Plat) : Rd FastGraph32 := do
  let numNodes ← decU32
  let ranks ← decVec P decU32
  let edgesFwd ← decVec P decEdge32
  let firstEdgeIdsFwd ← decVec P decU32
  let edgesBwd ← decVec P decEdge32
  let firstEdgeIdsBwd ← decVec P decU32
  pure ⟨numNodes, ranks, edgesFwd, firstEdgeIdsFwd, edgesBwd, firstEdgeIdsBwd⟩

/-- a `bool` is one byte -/
def encBool (b : Bool) : List UInt8 := [if b then 1 else 0]
/-- a `bool` is one byte, 0 or 1 -/
def decBool : Rd Bool := do
  let n ← readLe 1
  if n = 0 then pure false else if n = 1 then pure true else throw .badBool

/-- input_graph.rs:349-354 -/
def encInputEdge (e : Edge) : List UInt8 := encUsize e.src ++ encUsize e.dst ++ encUsize e.weight
/-- input_graph.rs:349-354 -/
def decInputEdge (P : Plat) : Rd Edge := do
  let src ← decUsize P
  let dst ← decUsize P
  let weight ← decUsize P
  pure ⟨src, dst, weight⟩

/-- input_graph.rs:35-40. The crate only derives the traits; this is what bincode makes of them. -/
def encInput (g : InputGraph) : List UInt8 := encVec encInputEdge g.edges ++ encUsize g.numNodes ++ encBool g.frozen
/-- input_graph.rs:35-40 -/
def decInput (P : Plat) : Rd InputGraph := do
  let edges ← decVec P (decInputEdge P)
  let numNodes ← decUsize P
  let frozen ← decBool
  pure ⟨edges, numNodes, frozen⟩

/-- bincode's `deserialize` for an input graph -/
def loadInput (P : Plat) (file : List UInt8) : Except LoadError InputGraph := do
  let (g, _) ← (decInput P).run file
  pure g

/-- lib.rs:650-653 `save_to_disk`: the bytes of the file -/
def saveToDisk (g : FastGraph) : List UInt8 := encGraph g

/-- lib.rs:656-659 `load_from_disk` -/
def loadFromDisk (P : Plat) (file : List UInt8) : Except LoadError FastGraph := do
  let (g, _) ← (decGraph P).run file
  pure g

/-- lib.rs:666-670 `save_to_disk32`; lib.rs:118-120 `serialize_32`. `fuel` bounds the recursion depth of `usize_to_u32`. -/
def saveToDisk32 (P : Plat) (fuel : Nat) (g : FastGraph) : M (List UInt8) := do
  let g32 ← FastGraph32.new P fuel g
  .ok (encGraph32 g32)

/-- lib.rs:676-680 `load_from_disk32`; lib.rs:126-129 `deserialize_32`. The conversion may panic. -/
def loadFromDisk32 (P : Plat) (file : List UInt8) : M (Except LoadError FastGraph) :=
  match (decGraph32 P).run file with
  | .error e => .ok (.error e)
  | .ok (g32, _) => do
    let g ← g32.convertToUsize P
    .ok (.ok g)

end FP
