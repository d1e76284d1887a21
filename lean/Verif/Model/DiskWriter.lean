import Verif.Model.Bincode
import Verif.Model.TextBytes
/-!
# Model of saving and loading prepared graphs on a disk that may fail

`Model/Bincode` says which bytes are written; here they go to a file through `Writer.Env`, which may refuse any write. bincode's
`serialize_into` hands its writer one number at a time with `write_all`, and the writer is the `File` itself (lib.rs:651-652, 668-669):
there is no buffer.
-/
namespace FP
namespace DiskWriter
open Writer TextBytes

/-- the pieces of a `Vec`: its length, then those of its elements -/
def vecPieces {α : Type} (pieces : α → List (List UInt8)) (l : List α) : List (List UInt8) :=
  encUsize l.length :: l.flatMap pieces

/-- fast_graph.rs:86-97, number by number -/
def edgePieces (e : FastGraphEdge) : List (List UInt8) :=
  [encUsize e.baseNode, encUsize e.adjNode, encUsize e.weight, encUsize e.replacedInEdge, encUsize e.replacedOutEdge]

/-- fast_graph.rs:26-35, number by number -/
def graphPieces (g : FastGraph) : List (List UInt8) :=
  encUsize g.numNodes :: (vecPieces (fun n => [encUsize n]) g.ranks ++ vecPieces edgePieces g.edgesFwd ++
    vecPieces (fun n => [encUsize n]) g.firstEdgeIdsFwd ++ vecPieces edgePieces g.edgesBwd ++
    vecPieces (fun n => [encUsize n]) g.firstEdgeIdsBwd)

/-- fast_graph32.rs:71-78, number by number -/
def edgePieces32 (e : FastGraphEdge32) : List (List UInt8) :=
  [encU32 e.baseNode, encU32 e.adjNode, encU32 e.weight, encU32 e.replacedInEdge, encU32 e.replacedOutEdge]

/-- fast_graph32.rs:31-40, number by number -/
def graphPieces32 (g : FastGraph32) : List (List UInt8) :=
  encU32 g.numNodes :: (vecPieces (fun n => [encU32 n]) g.ranks ++ vecPieces edgePieces32 g.edgesFwd ++
    vecPieces (fun n => [encU32 n]) g.firstEdgeIdsFwd ++ vecPieces edgePieces32 g.edgesBwd ++
    vecPieces (fun n => [encU32 n]) g.firstEdgeIdsBwd)

/-- `serialize_into`: a sequence of `File::write_all` calls joined by `?` -/
def writePieces (env : Env) : FileOf UInt8 → List (List UInt8) → FileOf UInt8 × Bool
  | f, [] => (f, true)
  | f, p :: ps =>
    match writeAllRaw env f p with
    | (f, _, true) => writePieces env f ps
    | (f, _, false) => (f, false)

/-- `File::create(file_name)?` and `serialize_into` -/
def createAndWrite (env : Env) (disk : Disk) (pieces : List (List UInt8)) : Disk × Saved :=
  if env.create then
    match writePieces env ⟨0, []⟩ pieces with
    | (f, true) => (some f.bytes, .ok)
    | (f, false) => (some f.bytes, .err)
  else (disk, .err)

/-- lib.rs:650-653 `save_to_disk` -/
def saveGraph (env : Env) (disk : Disk) (g : FastGraph) : Disk × Saved := createAndWrite env disk (graphPieces g)

/-- lib.rs:666-670 `save_to_disk32`: the conversion, which may panic, comes before the file is created. -/
def saveGraph32 (P : Plat) (fuel : Nat) (env : Env) (disk : Disk) (g : FastGraph) : Disk × Saved :=
  match FastGraph32.new P fuel g with
  | .error p => (disk, .panic p)
  | .ok g32 => createAndWrite env disk (graphPieces32 g32)

/-- The ways opening and loading a file can fail. -/
inductive OpenError where
  /-- the file cannot be opened -/
  | io
  /-- its contents are refused -/
  | content (e : LoadError)
  deriving DecidableEq, Repr

/-- lib.rs:656-659 `load_from_disk`, with `File::open(file_name)?` -/
def loadGraph (P : Plat) (disk : Disk) : Except OpenError FastGraph :=
  match disk with
  | none => .error .io
  | some bytes =>
    match loadFromDisk P bytes with
    | .error e => .error (.content e)
    | .ok g => .ok g

/-- lib.rs:676-680 `load_from_disk32`, with `File::open(file_name)?` -/
def loadGraph32 (P : Plat) (disk : Disk) : M (Except OpenError FastGraph) :=
  match disk with
  | none => .ok (.error .io)
  | some bytes => do
    match ← loadFromDisk32 P bytes with
    | .error e => .ok (.error (.content e))
    | .ok g => .ok (.ok g)

end DiskWriter
end FP
