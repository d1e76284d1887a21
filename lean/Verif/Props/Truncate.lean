import Verif.Proofs.Truncate
import Verif.Props.Bytes
/-!
# Files that end too early

A text file can be cut off: C41 and C74 say that `to_file` and `to_dimacs_file` leave a beginning of the text of the graph when the disk
fails, in the worst case with `Ok(())`. Here: which graphs are read from such a file. `cutLast j es` are the edges `es` with the last
`j` digits of the last weight cut off.
-/
set_option autoImplicit false
namespace FP
namespace Props
open Spec TextIO Writer TextBytes

/-- **C85** Cutting off a file of `to_file` is not noticed by `from_file`, or it panics: the graphs that can be read from beginnings of
the file are exactly those with the first `k` edges, where the weight of the last of these may have lost digits (but not all). -/
theorem C85_text {P : Plat} {ops : List Op} {g g' : InputGraph} (hb : buildGraph P ops = .ok g) (hf : g.frozen = true)
    (hnw : NoWrap P (accepted ops)) (hw : ∀ e ∈ accepted ops, e.weight ≤ P.umax) :
    ∃ txt, toText g = .ok txt ∧
      ((∃ bytes, bytes <+: txt.flatMap String.utf8EncodeChar ∧ fromFile P (some bytes) = .ok g') ↔
        ∃ k j, g' = ⟨cutLast j (g.edges.take k), nodeCount (g.edges.take k), true⟩ ∧ ∀ e ∈ g'.edges, 1 ≤ e.weight) := by
  have hi := buildGraph_inv hnw hb
  have hn := buildGraph_num hb
  have hw' : ∀ e ∈ g.edges, e.weight ≤ P.umax := fun e he => hw e (hi.sub e he)
  obtain ⟨txt, ht, _⟩ := C23_text_round_trip hb hf hnw hw
  refine ⟨txt, ht, ?_, ?_⟩
  · rintro ⟨bytes, h1, h2⟩
    obtain ⟨p, hp, rfl⟩ := bytes_prefix (toText_ascii ht) h1
    rw [fromFile_encode] at h2
    exact text_prefix hi hf hn hw' ht hp h2
  · rintro ⟨k, j, rfl, h2⟩
    obtain ⟨p, hp, h3⟩ := text_cut hi hf hn hw' ht k j h2
    refine ⟨encode p, ?_, by rw [fromFile_encode]; exact h3⟩
    obtain ⟨r, rfl⟩ := hp
    change encode p <+: encode (p ++ r)
    rw [encode_append]
    exact List.prefix_append _ _

example : ∃ txt, toText Ex.ig = .ok txt ∧
    ((∃ bytes, bytes <+: txt.flatMap String.utf8EncodeChar ∧ fromFile debug64 (some bytes) = .ok ⟨[⟨0, 1, 2⟩], 2, true⟩) ↔
      ∃ k j, (⟨[⟨0, 1, 2⟩], 2, true⟩ : InputGraph) = ⟨cutLast j (Ex.ig.edges.take k), nodeCount (Ex.ig.edges.take k), true⟩ ∧
        ∀ e ∈ (⟨[⟨0, 1, 2⟩], 2, true⟩ : InputGraph).edges, 1 ≤ e.weight) :=
  C85_text Ex.built Ex.frozen (Or.inl rfl) (by decide)
example : readText debug64 "a 0 1 305\na 1 2 4711\n".toList = .ok ⟨[⟨0, 1, 305⟩, ⟨1, 2, 4711⟩], 3, true⟩ ∧
    readText debug64 "a 0 1 305\na 1 2 47".toList = .ok ⟨[⟨0, 1, 305⟩, ⟨1, 2, 47⟩], 3, true⟩ ∧
    readText debug64 "a 0 1 305\na 1 2".toList = .error .assertion ∧
    readText debug64 "a 0 1 305\na".toList = .ok ⟨[⟨0, 1, 305⟩], 2, true⟩ ∧
    readText debug64 "a 0 1 3".toList = .ok ⟨[⟨0, 1, 3⟩], 2, true⟩ := ⟨rfl, rfl, rfl, rfl, rfl⟩

/-- **C85** Cutting off a file of `to_dimacs_file` is noticed by `from_dimacs_file` with two exceptions, thanks to the number of arcs
in the first line: a file from which everything was cut off is read as the empty graph, and the weight of the last edge may have lost
digits. These graphs are exactly those that can be read from beginnings of the file. -/
theorem C85_dimacs {P : Plat} {ops : List Op} {g g' : InputGraph} (hb : buildGraph P ops = .ok g) (hf : g.frozen = true)
    (hnw : NoWrap P (accepted ops)) (hw : ∀ e ∈ accepted ops, e.weight ≤ P.umax) (hl : g.edges.length ≤ P.umax) :
    ∃ txt, toDimacsText P g = .ok txt ∧
      (fromDimacsFile P (some []) = .ok ⟨[], 0, true⟩) ∧
      ((∃ bytes, bytes ≠ [] ∧ bytes <+: txt.flatMap String.utf8EncodeChar ∧ fromDimacsFile P (some bytes) = .ok g') ↔
        ∃ j, g' = ⟨cutLast j g.edges, g.numNodes, true⟩ ∧ ∀ e ∈ g'.edges, 1 ≤ e.weight) := by
  have hi := buildGraph_inv hnw hb
  have hn := buildGraph_num hb
  have hw' : ∀ e ∈ g.edges, e.weight ≤ P.umax := fun e he => hw e (hi.sub e he)
  obtain ⟨txt, ht, _⟩ := C24_dimacs_round_trip hb hf hnw hw hl
  refine ⟨txt, ht, rfl, ?_, ?_⟩
  · rintro ⟨bytes, hne, h1, h2⟩
    obtain ⟨p, hp, rfl⟩ := bytes_prefix (toDimacsText_ascii ht) h1
    rw [fromDimacsFile_encode] at h2
    rcases dimacs_prefix hi hf hn hw' ht hp h2 with ⟨rfl, _⟩ | h3
    · exact absurd rfl hne
    · exact h3
  · rintro ⟨j, rfl, h2⟩
    obtain ⟨p, hne, hp, h3⟩ := dimacs_cut hi hf hn hw' hl ht j h2
    refine ⟨encode p, ?_, ?_, by rw [fromDimacsFile_encode]; exact h3⟩
    · intro h
      have h4 := decode_encode p
      rw [h] at h4
      exact hne (Option.some.inj h4).symm
    · obtain ⟨r, rfl⟩ := hp
      change encode p <+: encode (p ++ r)
      rw [encode_append]
      exact List.prefix_append _ _

example : readDimacs debug64 "p sp 3 2\na 1 2 305\na 2 3 4711\n".toList = .ok ⟨[⟨0, 1, 305⟩, ⟨1, 2, 4711⟩], 3, true⟩ ∧
    readDimacs debug64 "p sp 3 2\na 1 2 305\na 2 3 47".toList = .ok ⟨[⟨0, 1, 305⟩, ⟨1, 2, 47⟩], 3, true⟩ ∧
    readDimacs debug64 "p sp 3 2\na 1 2 305\na 2 3".toList = .error .assertion ∧
    readDimacs debug64 "p sp 3 2\na 1 2 305\na".toList = .error .assertion ∧
    readDimacs debug64 "p sp 3 2\na 1 2 305\n".toList = .error .assertion ∧
    readDimacs debug64 "p sp 3".toList = .error .assertion ∧
    readDimacs debug64 [] = .ok ⟨[], 0, true⟩ := ⟨rfl, rfl, rfl, rfl, rfl, rfl, rfl⟩

/-- **C85** After `to_dimacs_file`, however the disk behaved and however the call ended: if a graph can be read from the file, it is
the graph that was saved, except that the last weight may have lost digits, or the file is empty. -/
theorem C85_dimacs_saved {P : Plat} {env : Env} {ops : List Op} {g g' : InputGraph} {disk : Disk} (h : env.create = true)
    (hb : buildGraph P ops = .ok g) (hf : g.frozen = true) (hnw : NoWrap P (accepted ops)) (hw : ∀ e ∈ accepted ops, e.weight ≤ P.umax)
    (hl : g.edges.length ≤ P.umax) (hr : fromDimacsFile P (toDimacsFile P env disk g).1 = .ok g') :
    ((toDimacsFile P env disk g).1 = some [] ∧ g' = ⟨[], 0, true⟩) ∨ ∃ j, g' = ⟨cutLast j g.edges, g.numNodes, true⟩ := by
  obtain ⟨txt, bytes, r, h1, h2, _, h3⟩ := C74_dimacs_frozen h hb hf hnw hw hl
  obtain ⟨txt', k1, k2, k3⟩ := C85_dimacs (g' := g') hb hf hnw hw hl
  rw [k1] at h1
  injection h1 with h1
  subst h1
  rw [h3] at hr ⊢
  by_cases hz : bytes = []
  · subst hz
    left
    rw [k2] at hr
    injection hr with hr
    exact ⟨rfl, hr.symm⟩
  · right
    obtain ⟨j, h4, _⟩ := k3.1 ⟨bytes, hz, h2, hr⟩
    exact ⟨j, h4⟩

example {g' : InputGraph} (hr : fromDimacsFile debug64 (toDimacsFile debug64 fullDisk none Ex.ig).1 = .ok g') :
    ((toDimacsFile debug64 fullDisk none Ex.ig).1 = some [] ∧ g' = ⟨[], 0, true⟩) ∨
      ∃ j, g' = ⟨cutLast j Ex.ig.edges, Ex.ig.numNodes, true⟩ :=
  C85_dimacs_saved rfl Ex.built Ex.frozen (Or.inl rfl) (by decide) (by decide) hr

/-- **C85** After `to_file`: if a graph can be read from the file it has the first edges of the graph that was saved, where the last of
the weights may have lost digits. -/
theorem C85_text_saved {P : Plat} {env : Env} {ops : List Op} {g g' : InputGraph} {disk : Disk} (h : env.create = true)
    (hb : buildGraph P ops = .ok g) (hf : g.frozen = true) (hnw : NoWrap P (accepted ops)) (hw : ∀ e ∈ accepted ops, e.weight ≤ P.umax)
    (hr : fromFile P (toFile env disk g).1 = .ok g') :
    ∃ k j, g' = ⟨cutLast j (g.edges.take k), nodeCount (g.edges.take k), true⟩ := by
  obtain ⟨txt, bytes, r, h1, h2, _, h3⟩ := C74_frozen h hf
  obtain ⟨txt', k1, k3⟩ := C85_text (g' := g') hb hf hnw hw
  rw [k1] at h1
  injection h1 with h1
  subst h1
  rw [h3] at hr
  obtain ⟨k, j, h4, _⟩ := k3.1 ⟨bytes, h2, hr⟩
  exact ⟨k, j, h4⟩

/-- A disk that takes 15 bytes. -/
def nearlyFullDisk : Env := ⟨true, fun i _ => if i = 0 then some 15 else none⟩

/-- The disk is full after 15 bytes and `to_file` returns `Ok(())` (C41); what is read back has the weight 6 instead of 64. -/
example : toFile nearlyFullDisk none ⟨[⟨0, 1, 5⟩, ⟨1, 2, 64⟩], 3, true⟩ =
      (some ("a 0 1 5\na 1 2 64\n".toList.take 15 |>.map asciiByte), .ok) ∧
    fromFile debug64 (toFile nearlyFullDisk none ⟨[⟨0, 1, 5⟩, ⟨1, 2, 64⟩], 3, true⟩).1 = .ok ⟨[⟨0, 1, 5⟩, ⟨1, 2, 6⟩], 3, true⟩ :=
  ⟨rfl, rfl⟩

end Props
end FP
