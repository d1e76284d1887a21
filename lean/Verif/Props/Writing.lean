import Verif.Proofs.Writer
import Verif.Props.Text
/-!
# Writing text files to a disk that may fail

An environment `env` says for every write to the file whether it fails and how many bytes it takes. `toFile`, `toDimacsFile`
give the contents of the file after the call and whether the call returned `Ok(())`.
-/
set_option autoImplicit false
namespace FP
namespace Props
open Spec TextIO Writer

/-- A disk on which every write fails. -/
def brokenDisk : Env := ⟨true, fun _ _ => none⟩
/-- A disk which takes at most three bytes at a time. -/
def slowDisk : Env := ⟨true, fun _ _ => some 3⟩
/-- A disk which takes ten bytes and then fails. -/
def fullDisk : Env := ⟨true, fun i _ => if i = 0 then some 10 else none⟩

/-- **C41, refuted** `to_file` and `to_dimacs_file` return `Ok(())` for a graph with an edge although every write fails and
the file stays empty: the buffered text is only written when the writer is dropped, and errors at that point are ignored. -/
theorem C41_false : ∃ (env : Env) (g : InputGraph), g.frozen = true ∧ g.edges ≠ [] ∧
    toFile env g = .ok (⟨1, []⟩, true) ∧ toDimacsFile debug64 env g = .ok (⟨1, []⟩, true) :=
  ⟨brokenDisk, ⟨[⟨0, 1, 5⟩], 2, true⟩, rfl, by simp, rfl, rfl⟩

/-- **C41, what holds** Whatever the disk does, the file is a beginning of the text of the graph; after `Ok(())` at most the
last 8192 bytes are missing. (Missing for C41: these last bytes, see `C41_false`.) -/
theorem C41_prefix_partial {env : Env} {g : InputGraph} {f : File} {ok : Bool} (h : toFile env g = .ok (f, ok)) :
    ∃ txt, toText g = .ok txt ∧ f.bytes <+: txt ∧ (ok = true → txt.length ≤ f.bytes.length + 8192) := by
  obtain ⟨chunks, txt, h1, rfl, h2⟩ := toFile_chunks h
  obtain ⟨k1, k2, _⟩ := saveChunks_spec env chunks
  rw [← h2] at k1 k2
  exact ⟨_, h1, k1, k2⟩

example : ∃ txt, toText Ex.ig = .ok txt ∧ (toFile fullDisk Ex.ig).toOption.map (fun r => r.1.bytes) = some (txt.take 10) ∧
    10 < txt.length := ⟨_, rfl, rfl, by decide⟩

/-- **C41, what holds** The same for DIMACS files. (The text of a graph does not exist if a node id has no successor, see
`C74_dimacs_any`.) -/
theorem C41_dimacs_prefix_partial {P : Plat} {env : Env} {g : InputGraph} {f : File} {ok : Bool}
    (h : toDimacsFile P env g = .ok (f, ok)) :
    (∀ txt, toDimacsText P g = .ok txt → f.bytes <+: txt) ∧
      (ok = true → ∃ txt, toDimacsText P g = .ok txt ∧ txt.length ≤ f.bytes.length + 8192) := by
  have key : ∀ txt, toDimacsText P g = .ok txt → f.bytes <+: txt ∧ (ok = true → txt.length ≤ f.bytes.length + 8192) := by
    intro txt ht
    obtain ⟨chunks, rfl, h2⟩ := toDimacsFile_chunks ht h
    obtain ⟨k1, k2, _⟩ := saveChunks_spec env chunks
    rw [← h2] at k1 k2
    exact ⟨k1, k2⟩
  refine ⟨fun txt ht => (key txt ht).1, ?_⟩
  rintro rfl
  obtain ⟨txt, ht⟩ := toDimacsFile_ok h
  exact ⟨txt, ht, (key txt ht).2 rfl⟩

example : ∃ txt, toDimacsText debug64 Ex.ig = .ok txt ∧
    (toDimacsFile debug64 fullDisk Ex.ig).toOption.map (fun r => r.1.bytes) = some (txt.take 10) ∧ 10 < txt.length :=
  ⟨_, rfl, rfl, by decide⟩

/-- **C41** How far `C41_false` reaches: once the file is created, a graph whose text has less than 8192 bytes is always reported as
saved, whatever the disk does. -/
theorem C41_small_always_ok {env : Env} {g : InputGraph} {txt : List Char} {f : File} {ok : Bool} (hc : env.create = true)
    (ht : toText g = .ok txt) (hl : txt.length < 8192) (h : toFile env g = .ok (f, ok)) : ok = true := by
  obtain ⟨chunks, txt', h1, rfl, h2⟩ := toFile_chunks h
  rw [ht] at h1
  injection h1 with h1
  subst h1
  have := saveChunks_small hc hl
  rw [← h2] at this
  exact this

example {f : File} {ok : Bool} (h : toFile brokenDisk Ex.ig = .ok (f, ok)) : ok = true :=
  C41_small_always_ok (txt := "a 0 1 3\na 0 2 9\na 1 2 4\na 2 3 1\na 3 2 1\na 3 4 5\na 4 1 2\n".toList) rfl rfl (by decide) h

/-- **C41** The same for DIMACS files. -/
theorem C41_dimacs_small_always_ok {P : Plat} {env : Env} {g : InputGraph} {txt : List Char} {f : File} {ok : Bool}
    (hc : env.create = true) (ht : toDimacsText P g = .ok txt) (hl : txt.length < 8192)
    (h : toDimacsFile P env g = .ok (f, ok)) : ok = true := by
  obtain ⟨chunks, rfl, h2⟩ := toDimacsFile_chunks ht h
  have := saveChunks_small hc hl
  rw [← h2] at this
  exact this

example {f : File} {ok : Bool} (h : toDimacsFile debug64 brokenDisk ⟨[⟨0, 1, 5⟩], 2, true⟩ = .ok (f, ok)) : ok = true :=
  C41_dimacs_small_always_ok (txt := "p sp 2 1\na 1 2 5\n".toList) rfl rfl (by decide) h

/-- **C41, what holds** If the file can be created and every write takes at least one byte, the call returns `Ok(())`, and
reading the contents of the file gives the graph back. -/
theorem C41_complete_partial {P : Plat} {env : Env} {ops : List Op} {g : InputGraph} (hc : env.create = true)
    (hgood : ∀ i n, ∃ k, env.write i n = some (k + 1)) (hb : buildGraph P ops = .ok g)
    (hf : g.frozen = true) (hnw : NoWrap P (accepted ops)) (hw : ∀ e ∈ accepted ops, e.weight ≤ P.umax) :
    ∃ f, toFile env g = .ok (f, true) ∧ readText P f.bytes = .ok g := by
  obtain ⟨txt, h1, h2⟩ := C23_text_round_trip hb hf hnw hw
  have hex : ∃ r, toFile env g = .ok r := by
    unfold toFile InputGraph.getEdges InputGraph.checkFrozen
    rw [hf]
    exact ⟨_, rfl⟩
  obtain ⟨⟨f, ok⟩, hr⟩ := hex
  obtain ⟨chunks, txt', k1, rfl, k2⟩ := toFile_chunks hr
  obtain ⟨_, _, k3⟩ := saveChunks_spec env chunks
  rw [← k2] at k3
  obtain ⟨rfl, k5⟩ := k3 ⟨hc, hgood⟩
  rw [h1] at k1
  injection k1 with k1
  subst k1
  refine ⟨f, hr, ?_⟩
  rw [k5]
  exact h2

example : ∃ f, toFile slowDisk Ex.ig = .ok (f, true) ∧ readText debug64 f.bytes = .ok Ex.ig :=
  C41_complete_partial rfl (fun _ _ => ⟨2, rfl⟩) Ex.built Ex.frozen (Or.inl rfl) (by decide)

/-- **C41, what holds** The same for DIMACS files. -/
theorem C41_dimacs_complete_partial {P : Plat} {env : Env} {ops : List Op} {g : InputGraph} (hc : env.create = true)
    (hgood : ∀ i n, ∃ k, env.write i n = some (k + 1)) (hb : buildGraph P ops = .ok g)
    (hf : g.frozen = true) (hnw : NoWrap P (accepted ops)) (hw : ∀ e ∈ accepted ops, e.weight ≤ P.umax)
    (hl : g.edges.length ≤ P.umax) :
    ∃ f, toDimacsFile P env g = .ok (f, true) ∧ readDimacs P f.bytes = .ok g := by
  obtain ⟨txt, h1, h2⟩ := C24_dimacs_round_trip hb hf hnw hw hl
  obtain ⟨chunks, rfl, hr, _⟩ := toDimacsFile_of_text (env := env) h1
  obtain ⟨_, _, k3⟩ := saveChunks_spec env chunks
  obtain ⟨k4, k5⟩ := k3 ⟨hc, hgood⟩
  refine ⟨(saveChunks env chunks).1, by rw [hr, ← k4], ?_⟩
  rw [k5]
  exact h2

example : ∃ f, toDimacsFile debug64 slowDisk Ex.ig = .ok (f, true) ∧ readDimacs debug64 f.bytes = .ok Ex.ig :=
  C41_dimacs_complete_partial rfl (fun _ _ => ⟨2, rfl⟩) Ex.built Ex.frozen (Or.inl rfl) (by decide) (by decide)

end Props
end FP
