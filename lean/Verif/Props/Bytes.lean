import Verif.Proofs.TextBytes
import Verif.Props.Writing
/-!
# Text files as bytes

`disk` stands for what is found under the name of a file: nothing or bytes. `cs.flatMap String.utf8EncodeChar` is the UTF-8 encoding
of a text `cs` (Lean's own encoder); the decoder of the model is not mentioned in the statements. `readText`, `readDimacs` say what is
read from a text, see `Props/Text`.
-/
set_option autoImplicit false
namespace FP
namespace Props
open Spec TextIO Writer TextBytes

/-! ### Reading -/

/-- **C73** `from_file` returns a graph exactly if there is a file which is the UTF-8 encoding of a text from which this graph is read. -/
theorem C73_from_file {P : Plat} {disk : Disk} {g : InputGraph} : fromFile P disk = .ok g ↔
    ∃ cs : List Char, disk = some (cs.flatMap String.utf8EncodeChar) ∧ readText P cs = .ok g :=
  fromFile_ok

/-- **C73** The same for `from_dimacs_file`. -/
theorem C73_from_dimacs_file {P : Plat} {disk : Disk} {g : InputGraph} : fromDimacsFile P disk = .ok g ↔
    ∃ cs : List Char, disk = some (cs.flatMap String.utf8EncodeChar) ∧ readDimacs P cs = .ok g :=
  fromDimacsFile_ok

/-- **C73** On a file that is a text the call does what the characters say, also if it panics. -/
theorem C73_text_file (P : Plat) (cs : List Char) :
    fromFile P (some (cs.flatMap String.utf8EncodeChar)) = readText P cs ∧
    fromDimacsFile P (some (cs.flatMap String.utf8EncodeChar)) = readDimacs P cs :=
  ⟨fromFile_encode P cs, fromDimacsFile_encode P cs⟩

-- "c Grüße €😀", windows line end, an arc line
example : fromFile debug64 (some ([99, 32, 71, 114, 0xC3, 0xBC, 0xC3, 0x9F, 101, 32, 0xE2, 0x82, 0xAC, 0xF0, 0x9F, 0x98, 0x80, 13, 10,
    97, 32, 48, 32, 49, 32, 53, 10])) = .ok ⟨[⟨0, 1, 5⟩], 2, true⟩ := by
  have h : readText debug64 "c Grüße €😀\r\na 0 1 5\n".toList = .ok ⟨[⟨0, 1, 5⟩], 2, true⟩ := by decide +kernel
  exact C73_from_file.2 ⟨_, by decide +kernel, h⟩
example : fromDimacsFile debug64 (some ("p sp 2 1\na 1 2 5\n".toList.flatMap String.utf8EncodeChar)) = .ok ⟨[⟨0, 1, 5⟩], 2, true⟩ :=
  (C73_text_file debug64 _).2.trans (by decide +kernel)

/-- **C73** A file which is missing, or is not UTF-8 in any line – also one that would be skipped – makes both calls panic. -/
theorem C73_panics {P : Plat} {disk : Disk} (h : ∀ cs : List Char, disk ≠ some (cs.flatMap String.utf8EncodeChar)) :
    (∃ p, fromFile P disk = .error p) ∧ (∃ p, fromDimacsFile P disk = .error p) := by
  constructor
  · cases hr : fromFile P disk with
    | error p => exact ⟨p, rfl⟩
    | ok g => obtain ⟨cs, h1, _⟩ := C73_from_file.1 hr; exact absurd h1 (h cs)
  · cases hr : fromDimacsFile P disk with
    | error p => exact ⟨p, rfl⟩
    | ok g => obtain ⟨cs, h1, _⟩ := C73_from_dimacs_file.1 hr; exact absurd h1 (h cs)

-- no file
example : ∃ p, fromFile debug64 none = .error p := (C73_panics (fun _ h => by cases h)).1
-- a byte 0xFF in a comment after an arc line
example : fromFile debug64 (some [97, 32, 48, 32, 49, 32, 53, 10, 99, 0xFF]) = .error .assertion := by decide +kernel
-- an overlong form of a line end, a surrogate, a number beyond the last character, a truncated character
example : fromFile debug64 (some [0xC0, 0x8A]) = .error .assertion ∧ fromFile debug64 (some [0xED, 0xA0, 0x80]) = .error .assertion ∧
    fromFile debug64 (some [0xF4, 0x90, 0x80, 0x80]) = .error .assertion ∧
    fromFile debug64 (some [0xE2, 0x82]) = .error .assertion := by decide +kernel

/-- **C73** The bytes determine the text. -/
theorem C73_one_text {cs cs' : List Char} (h : cs.flatMap String.utf8EncodeChar = cs'.flatMap String.utf8EncodeChar) : cs = cs' := by
  have h1 := decode_encode cs
  have h2 := decode_encode cs'
  have h3 : encode cs = encode cs' := h
  rw [h3, h2] at h1
  injection h1 with h1
  exact h1.symm

/-- **C73** Round trip through a file: if the file can be created and every write takes at least one byte, `to_file` returns `Ok(())` and
`from_file` then gives the graph back, whatever was in the file before. -/
theorem C73_round_trip {P : Plat} {env : Env} {ops : List Op} {g : InputGraph} (disk : Disk) (hc : env.create = true)
    (hgood : ∀ i n, ∃ k, env.write i n = some (k + 1)) (hb : buildGraph P ops = .ok g)
    (hf : g.frozen = true) (hnw : NoWrap P (accepted ops)) (hw : ∀ e ∈ accepted ops, e.weight ≤ P.umax) :
    (TextBytes.toFile env disk g).2 = .ok ∧ fromFile P (TextBytes.toFile env disk g).1 = .ok g := by
  obtain ⟨txt, h1, h2⟩ := C23_text_round_trip hb hf hnw hw
  have hex : ∃ r, Writer.toFile env g = .ok r := by
    unfold Writer.toFile InputGraph.getEdges InputGraph.checkFrozen
    rw [hf]
    exact ⟨_, rfl⟩
  obtain ⟨⟨f, ok⟩, hr⟩ := hex
  obtain ⟨chunks, txt', k1, rfl, k2⟩ := toFile_chunks hr
  obtain ⟨_, _, k3⟩ := saveChunks_spec env chunks
  rw [← k2] at k3
  obtain ⟨rfl, k5⟩ := k3 ⟨hc, hgood⟩
  rw [h1] at k1
  injection k1 with k1
  subst k1
  unfold TextBytes.toFile
  rw [hr, save_ok hc]
  refine ⟨rfl, ?_⟩
  simp only at k5 ⊢
  rw [k5, ← encode_ascii (toText_ascii h1), fromFile_encode]
  exact h2

example : (toFile slowDisk (some [1, 2, 3]) Ex.ig).2 = .ok ∧ fromFile debug64 (toFile slowDisk (some [1, 2, 3]) Ex.ig).1 = .ok Ex.ig :=
  C73_round_trip _ rfl (fun _ _ => ⟨2, rfl⟩) Ex.built Ex.frozen (Or.inl rfl) (by decide)

/-- **C73** The same for DIMACS files. -/
theorem C73_dimacs_round_trip {P : Plat} {env : Env} {ops : List Op} {g : InputGraph} (disk : Disk) (hc : env.create = true)
    (hgood : ∀ i n, ∃ k, env.write i n = some (k + 1)) (hb : buildGraph P ops = .ok g)
    (hf : g.frozen = true) (hnw : NoWrap P (accepted ops)) (hw : ∀ e ∈ accepted ops, e.weight ≤ P.umax)
    (hl : g.edges.length ≤ P.umax) :
    (toDimacsFile P env disk g).2 = .ok ∧ fromDimacsFile P (toDimacsFile P env disk g).1 = .ok g := by
  obtain ⟨txt, h1, h2⟩ := C24_dimacs_round_trip hb hf hnw hw hl
  obtain ⟨chunks, rfl, _, hr⟩ := toDimacsFile_of_text (env := env) h1
  obtain ⟨_, _, k3⟩ := saveChunks_spec env chunks
  obtain ⟨k4, k5⟩ := k3 ⟨hc, hgood⟩
  unfold TextBytes.toDimacsFile
  rw [if_pos hc, hr hc, k4]
  refine ⟨rfl, ?_⟩
  simp only at k5 ⊢
  rw [k5, ← encode_ascii (toDimacsText_ascii h1), fromDimacsFile_encode]
  exact h2

example : (toDimacsFile debug64 slowDisk none Ex.ig).2 = .ok ∧
    fromDimacsFile debug64 (toDimacsFile debug64 slowDisk none Ex.ig).1 = .ok Ex.ig :=
  C73_dimacs_round_trip _ rfl (fun _ _ => ⟨2, rfl⟩) Ex.built Ex.frozen (Or.inl rfl) (by decide) (by decide)

/-! ### What saving does to the file that was there -/

/-- **C74, refuted** A save that does not succeed can destroy the file: with a graph that is not frozen `to_file` and `to_dimacs_file`
panic, and the file is empty afterwards. The same happens when the disk takes nothing, and then `Ok(())` is returned. -/
theorem C74_false : ∃ (env env' : Env) (disk : Disk) (g g' : InputGraph), disk = some [99, 10] ∧
    toFile env disk g = (some [], .panic .assertion) ∧ toDimacsFile debug64 env disk g = (some [], .panic .assertion) ∧
    toFile env' disk g' = (some [], .ok) :=
  ⟨slowDisk, brokenDisk, _, ⟨[⟨0, 1, 5⟩], 2, false⟩, ⟨[⟨0, 1, 5⟩], 2, true⟩, rfl, rfl, rfl, rfl⟩

/-- **C74, what holds** If the file cannot be created it stays as it was and an error is returned, also for graphs that are not
frozen. -/
theorem C74_not_created_partial {P : Plat} {env : Env} {disk : Disk} {g : InputGraph} (h : env.create = false) :
    toFile env disk g = (disk, .err) ∧ toDimacsFile P env disk g = (disk, .err) :=
  ⟨save_create h, by unfold TextBytes.toDimacsFile; rw [h]; rfl⟩

example : toFile ⟨false, fun _ _ => some 1⟩ (some [99, 10]) Ex.ig = (some [99, 10], .err) :=
  (C74_not_created_partial (P := debug64) rfl).1

/-- **C74** Otherwise nothing of the old file is left: for a graph that is not frozen both calls panic with an empty file. -/
theorem C74_not_frozen {P : Plat} {env : Env} {disk : Disk} {g : InputGraph} (h : env.create = true) (hf : g.frozen = false) :
    toFile env disk g = (some [], .panic .assertion) ∧ toDimacsFile P env disk g = (some [], .panic .assertion) := by
  have h1 : Writer.toFile env g = .error .assertion := by
    unfold Writer.toFile InputGraph.getEdges InputGraph.checkFrozen
    rw [hf]; rfl
  unfold TextBytes.toFile TextBytes.toDimacsFile
  rw [h1, if_pos h, dimacsRun_not_frozen hf]
  exact ⟨save_panic h, rfl⟩

example : toFile slowDisk (some [99, 10]) ⟨[⟨0, 1, 5⟩], 2, false⟩ = (some [], .panic .assertion) :=
  (C74_not_frozen (P := debug64) rfl rfl).1

/-- **C74** and for a frozen graph the file is a beginning of the text of the graph, whatever the disk does and whatever the file held
before; there is no panic. -/
theorem C74_frozen {env : Env} {g : InputGraph} (h : env.create = true) (hf : g.frozen = true) :
    ∃ (txt : List Char) (bytes : List UInt8) (r : Saved), toText g = .ok txt ∧ bytes <+: txt.flatMap String.utf8EncodeChar ∧
      (r = .ok ∨ r = .err) ∧ ∀ disk : Disk, toFile env disk g = (some bytes, r) := by
  have hex : ∃ r, Writer.toFile env g = .ok r := by
    unfold Writer.toFile InputGraph.getEdges InputGraph.checkFrozen
    rw [hf]
    exact ⟨_, rfl⟩
  obtain ⟨⟨f, ok⟩, hr⟩ := hex
  obtain ⟨txt, h1, h2, _⟩ := C41_prefix_partial hr
  refine ⟨txt, f.bytes.map asciiByte, if ok then .ok else .err, h1, ascii_prefix h2 (toText_ascii h1), ?_, ?_⟩
  · cases ok <;> simp
  · intro disk
    unfold TextBytes.toFile
    rw [hr, save_ok h]

example : ∃ (txt : List Char) (bytes : List UInt8) (r : Saved), toText Ex.ig = .ok txt ∧
    bytes <+: txt.flatMap String.utf8EncodeChar ∧ (r = .ok ∨ r = .err) ∧ ∀ disk : Disk, toFile fullDisk disk Ex.ig = (some bytes, r) :=
  C74_frozen rfl Ex.frozen

/-- **C74** The same for DIMACS files and graphs that were built. -/
theorem C74_dimacs_frozen {P : Plat} {env : Env} {ops : List Op} {g : InputGraph} (h : env.create = true)
    (hb : buildGraph P ops = .ok g) (hf : g.frozen = true) (hnw : NoWrap P (accepted ops)) (hw : ∀ e ∈ accepted ops, e.weight ≤ P.umax)
    (hl : g.edges.length ≤ P.umax) :
    ∃ (txt : List Char) (bytes : List UInt8) (r : Saved), toDimacsText P g = .ok txt ∧ bytes <+: txt.flatMap String.utf8EncodeChar ∧
      (r = .ok ∨ r = .err) ∧ ∀ disk : Disk, toDimacsFile P env disk g = (some bytes, r) := by
  obtain ⟨txt0, h0, _⟩ := C24_dimacs_round_trip hb hf hnw hw hl
  obtain ⟨chunks, rfl, _, hr⟩ := toDimacsFile_of_text (env := env) h0
  obtain ⟨h2, _⟩ := saveChunks_spec env chunks
  refine ⟨_, (saveChunks env chunks).1.bytes.map asciiByte, if (saveChunks env chunks).2 then .ok else .err, h0,
    ascii_prefix h2 (toDimacsText_ascii h0), ?_, ?_⟩
  · cases (saveChunks env chunks).2 <;> simp
  · intro disk
    unfold TextBytes.toDimacsFile
    rw [if_pos h, hr h]

example : ∃ (txt : List Char) (bytes : List UInt8) (r : Saved), toDimacsText debug64 Ex.ig = .ok txt ∧
    bytes <+: txt.flatMap String.utf8EncodeChar ∧ (r = .ok ∨ r = .err) ∧
    ∀ disk : Disk, toDimacsFile debug64 fullDisk disk Ex.ig = (some bytes, r) :=
  C74_dimacs_frozen rfl Ex.built Ex.frozen (Or.inl rfl) (by decide) (by decide)

/-- **C74** `to_dimacs_file` of any frozen graph, e.g. a deserialised one, in a build with overflow checks. Let `good` be the edges before
the first one with the id `usize::MAX`. The file is a beginning of the first line and the lines of `good`. If these are all edges there
is no panic; otherwise the call panics or returns an error, and if the disk takes everything it panics and the file has all these
lines. -/
theorem C74_dimacs_any {P : Plat} (hP : P.checked = true) {env : Env} {g : InputGraph} (h : env.create = true) (hf : g.frozen = true)
    {good : List Edge} (hgood : good = g.edges.takeWhile (fun e => e.src < P.umax ∧ e.dst < P.umax)) :
    ∃ (bytes : List UInt8) (r : Saved), (∀ disk : Disk, toDimacsFile P env disk g = (some bytes, r)) ∧
      bytes <+: (problemLine g.numNodes g.edges.length ++
        good.flatMap (fun e => arcLine (e.src + 1) (e.dst + 1) e.weight)).flatMap String.utf8EncodeChar ∧
      (good = g.edges → r = .ok ∨ r = .err) ∧ (good ≠ g.edges → r = .panic .overflow ∨ r = .err) ∧
      ((∀ i n, ∃ k, env.write i n = some (k + 1)) → r ≠ .err ∧ bytes = (problemLine g.numNodes g.edges.length ++
        good.flatMap (fun e => arcLine (e.src + 1) (e.dst + 1) e.weight)).flatMap String.utf8EncodeChar) := by
  obtain ⟨a1, a2, a3⟩ := arcsUpTo_good hP g.edges
  rw [← hgood] at a1 a2 a3
  have hrun := dimacsRun_eq (P := P) h hf
  simp only at hrun
  obtain ⟨k1, _, k3⟩ := saveChunks_spec env (problemChunks g.numNodes g.edges.length ++ (arcsUpTo P g.edges).1)
  rw [List.flatten_append, problemChunks_flatten, a1] at k1 k3
  have hasc : ∀ c ∈ problemLine g.numNodes g.edges.length ++ good.flatMap (fun e => arcLine (e.src + 1) (e.dst + 1) e.weight),
      c.toNat ≤ 127 := by
    intro c hc
    rcases List.mem_append.1 hc with hc | hc
    · exact problemLine_ascii _ _ c hc
    · obtain ⟨e, _, hc⟩ := List.mem_flatMap.1 hc
      exact arcLine_ascii _ _ _ c hc
  refine ⟨_, if (saveChunks env (problemChunks g.numNodes g.edges.length ++ (arcsUpTo P g.edges).1)).2 then (arcsUpTo P g.edges).2 else .err,
    fun disk => ?_, ascii_prefix k1 hasc, ?_, ?_, ?_⟩
  · unfold TextBytes.toDimacsFile
    rw [if_pos h, hrun]
  · intro hg
    rw [a2 hg]
    split <;> simp
  · intro hg
    rw [a3 hg]
    split <;> simp
  · intro hw
    obtain ⟨k4, k5⟩ := k3 ⟨h, hw⟩
    rw [k4, k5, if_pos rfl]
    refine ⟨?_, (encode_ascii hasc).symm⟩
    by_cases hg : good = g.edges
    · rw [a2 hg]; simp
    · rw [a3 hg]; simp

/-- the second edge cannot be written -/
example : ∃ (bytes : List UInt8) (r : Saved), (∀ disk : Disk, toDimacsFile debug64 slowDisk disk
      ⟨[⟨0, 1, 5⟩, ⟨1, debug64.umax, 7⟩, ⟨2, 0, 3⟩], 3, true⟩ = (some bytes, r)) ∧
    r = .panic .overflow ∧ bytes = "p sp 3 3\na 1 2 5\n".toList.map asciiByte := by
  obtain ⟨bytes, r, h1, _, _, h4, h5⟩ := C74_dimacs_any (P := debug64) rfl (env := slowDisk)
    (g := ⟨[⟨0, 1, 5⟩, ⟨1, debug64.umax, 7⟩, ⟨2, 0, 3⟩], 3, true⟩) rfl rfl (good := [⟨0, 1, 5⟩]) rfl
  obtain ⟨h6, h7⟩ := h5 (fun _ _ => ⟨2, rfl⟩)
  exact ⟨bytes, r, h1, (h4 (by decide)).resolve_right h6, h7.trans rfl⟩

end Props
end FP
