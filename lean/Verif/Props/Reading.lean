import Verif.Props.Saving
import Verif.Proofs.DiskReader
/-! # C93: failing reads -/
set_option autoImplicit false
namespace FP
namespace Props
open DiskReader

/-- **C93** Whatever the disk does, `from_file` does what it does when all reads succeed, or panics, and the latter only because of a read error. -/
theorem C93_from_file (P : Plat) (bytes : List UInt8) (answers : List ReadAnswer) :
    DiskReader.fromFile P (some ⟨bytes, answers⟩) = TextBytes.fromFile P (some bytes) ∨
    (ReadAnswer.error ∈ answers ∧ ∃ p, DiskReader.fromFile P (some ⟨bytes, answers⟩) = .error p) := by
  have h := eachLine_cases (TextIO.readTextLine P) (BufReader.fuel ⟨⟨bytes, answers⟩, []⟩) ⟨⟨bytes, answers⟩, []⟩ InputGraph.new
    (by simp only [BufReader.left, BufReader.fuel, List.nil_append]; omega)
  unfold DiskReader.fromFile TextBytes.fromFile
  simp only [TextIO.unwrap, bind_okM]
  rcases h with e | ⟨⟨p, e⟩, he⟩
  · rw [e]; exact Or.inl rfl
  · rw [e]; exact Or.inr ⟨he, p, rfl⟩

/-- **C93** The same for `from_dimacs_file`. -/
theorem C93_from_dimacs_file (P : Plat) (bytes : List UInt8) (answers : List ReadAnswer) :
    DiskReader.fromDimacsFile P (some ⟨bytes, answers⟩) = TextBytes.fromDimacsFile P (some bytes) ∨
    (ReadAnswer.error ∈ answers ∧ ∃ p, DiskReader.fromDimacsFile P (some ⟨bytes, answers⟩) = .error p) := by
  have h := eachLine_cases (TextIO.readDimacsLine P) (BufReader.fuel ⟨⟨bytes, answers⟩, []⟩) ⟨⟨bytes, answers⟩, []⟩
    ⟨InputGraph.new, 0, 0, 0, false⟩ (by simp only [BufReader.left, BufReader.fuel, List.nil_append]; omega)
  unfold DiskReader.fromDimacsFile TextBytes.fromDimacsFile
  simp only [TextIO.unwrap, bind_okM]
  rcases h with e | ⟨⟨p, e⟩, he⟩
  · rw [e]; exact Or.inl rfl
  · rw [e]; exact Or.inr ⟨he, p, rfl⟩

/-- **C93** A read error that comes before all bytes of the file were delivered, or instead of the end of the file, is never overlooked: no graph
is returned. (A read for a text file returns at most 8192 bytes.) -/
theorem C93_text_error_noticed (P : Plat) (bytes : List UInt8) (before after : List ReadAnswer)
    (h : (before.map (fun a => match a with | .bytes k => min (k + 1) 8192 | _ => 0)).sum ≤ bytes.length) :
    (∃ p, DiskReader.fromFile P (some ⟨bytes, before ++ .error :: after⟩) = .error p) ∧
    ∃ p, DiskReader.fromDimacsFile P (some ⟨bytes, before ++ .error :: after⟩) = .error p := by
  have hd : Doomed ⟨bytes, before ++ .error :: after⟩ := by
    refine ⟨before, after, rfl, ?_⟩
    have : ReadAnswer.size BUFFER = (fun a => match a with | .bytes k => min (k + 1) 8192 | _ => 0) := by
      funext a
      cases a <;> rfl
    rw [this]
    exact h
  constructor
  · obtain ⟨p, e⟩ := eachLine_doomed (TextIO.readTextLine P) (BufReader.fuel ⟨⟨bytes, before ++ .error :: after⟩, []⟩)
      ⟨⟨bytes, before ++ .error :: after⟩, []⟩ InputGraph.new hd
    refine ⟨p, ?_⟩
    unfold DiskReader.fromFile
    simp only [TextIO.unwrap, bind_okM]
    rw [e]
    rfl
  · obtain ⟨p, e⟩ := eachLine_doomed (TextIO.readDimacsLine P) (BufReader.fuel ⟨⟨bytes, before ++ .error :: after⟩, []⟩)
      ⟨⟨bytes, before ++ .error :: after⟩, []⟩ ⟨InputGraph.new, 0, 0, 0, false⟩ hd
    refine ⟨p, ?_⟩
    unfold DiskReader.fromDimacsFile
    simp only [TextIO.unwrap, bind_okM]
    rw [e]
    rfl

/-- **C93** Whatever the disk does, `load_from_disk` returns what it returns when all reads succeed, or an error, and the latter only because of a
read error. -/
theorem C93_load (P : Plat) (bytes : List UInt8) (answers : List ReadAnswer) :
    DiskReader.loadGraph P (some ⟨bytes, answers⟩) = DiskWriter.loadGraph P (some bytes) ∨
    (ReadAnswer.error ∈ answers ∧ DiskReader.loadGraph P (some ⟨bytes, answers⟩) = .error .io) := by
  unfold DiskReader.loadGraph DiskWriter.loadGraph loadFromDisk
  simp only [StateT.run]
  rcases sim_decGraph P ⟨bytes, answers⟩ with ⟨e, he⟩ | ⟨er, e, e'⟩ | ⟨a, f', e, e', _⟩
  · rw [e]; exact Or.inr ⟨he, rfl⟩
  · rw [e, e']; exact Or.inl rfl
  · rw [e, e']; exact Or.inl rfl

/-- **C93** The same for `load_from_disk32`. -/
theorem C93_load_32 (P : Plat) (bytes : List UInt8) (answers : List ReadAnswer) :
    DiskReader.loadGraph32 P (some ⟨bytes, answers⟩) = DiskWriter.loadGraph32 P (some bytes) ∨
    (ReadAnswer.error ∈ answers ∧ DiskReader.loadGraph32 P (some ⟨bytes, answers⟩) = .ok (.error .io)) := by
  unfold DiskReader.loadGraph32 DiskWriter.loadGraph32 loadFromDisk32
  simp only [StateT.run]
  rcases sim_decGraph32 P ⟨bytes, answers⟩ with ⟨e, he⟩ | ⟨er, e, e'⟩ | ⟨a, f', e, e', _⟩
  · rw [e]; exact Or.inr ⟨he, rfl⟩
  · rw [e, e']; exact Or.inl rfl
  · rw [e, e']
    cases h : a.convertToUsize P with
    | error p => exact Or.inl (by dsimp only; rw [h]; rfl)
    | ok g => exact Or.inl (by dsimp only; rw [h]; rfl)

/-- **C93** Short reads and interruptions do not matter. -/
theorem C93_no_errors (P : Plat) (bytes : List UInt8) {answers : List ReadAnswer} (h : ReadAnswer.error ∉ answers) :
    DiskReader.fromFile P (some ⟨bytes, answers⟩) = TextBytes.fromFile P (some bytes) ∧
    DiskReader.fromDimacsFile P (some ⟨bytes, answers⟩) = TextBytes.fromDimacsFile P (some bytes) ∧
    DiskReader.loadGraph P (some ⟨bytes, answers⟩) = DiskWriter.loadGraph P (some bytes) ∧
    DiskReader.loadGraph32 P (some ⟨bytes, answers⟩) = DiskWriter.loadGraph32 P (some bytes) :=
  ⟨(C93_from_file P bytes answers).resolve_right (fun x => h x.1), (C93_from_dimacs_file P bytes answers).resolve_right (fun x => h x.1),
    (C93_load P bytes answers).resolve_right (fun x => h x.1), (C93_load_32 P bytes answers).resolve_right (fun x => h x.1)⟩

/-- **C93** A file that cannot be opened: the text readers panic, the others return the error of `File::open`. -/
theorem C93_missing_file (P : Plat) : DiskReader.fromFile P none = .error .assertion ∧ DiskReader.fromDimacsFile P none = .error .assertion ∧
    DiskReader.loadGraph P none = .error .io ∧ DiskReader.loadGraph32 P none = .ok (.error .io) := ⟨rfl, rfl, rfl, rfl⟩

/-- **C93** A graph that was returned is the one in the file. -/
theorem C93_returned (P : Plat) (bytes : List UInt8) (answers : List ReadAnswer) :
    (∀ g, DiskReader.fromFile P (some ⟨bytes, answers⟩) = .ok g → TextBytes.fromFile P (some bytes) = .ok g) ∧
    (∀ g, DiskReader.fromDimacsFile P (some ⟨bytes, answers⟩) = .ok g → TextBytes.fromDimacsFile P (some bytes) = .ok g) ∧
    (∀ g, DiskReader.loadGraph P (some ⟨bytes, answers⟩) = .ok g → DiskWriter.loadGraph P (some bytes) = .ok g) ∧
    ∀ g, DiskReader.loadGraph32 P (some ⟨bytes, answers⟩) = .ok (.ok g) → DiskWriter.loadGraph32 P (some bytes) = .ok (.ok g) := by
  refine ⟨?_, ?_, ?_, ?_⟩ <;> intro g h
  · rcases C93_from_file P bytes answers with e | ⟨_, p, e⟩
    · rw [← e]; exact h
    · rw [e] at h; cases h
  · rcases C93_from_dimacs_file P bytes answers with e | ⟨_, p, e⟩
    · rw [← e]; exact h
    · rw [e] at h; cases h
  · rcases C93_load P bytes answers with e | ⟨_, e⟩
    · rw [← e]; exact h
    · rw [e] at h; cases h
  · rcases C93_load_32 P bytes answers with e | ⟨_, e⟩
    · rw [← e]; exact h
    · rw [e] at h; cases h

/-- **C93** A read error before the last byte of a saved graph was delivered is never overlooked by `load_from_disk`. -/
theorem C93_load_error_noticed {P : Plat} (hP : P.umax < 2 ^ 64) {g : FastGraph} (hl : LenFit P g) (hv : ∀ v ∈ g.values, v ≤ P.umax)
    (rest : List UInt8) (before after : List ReadAnswer)
    (h : (before.map (fun a => match a with | .bytes k => k + 1 | _ => 0)).sum < (saveToDisk g).length) :
    ∃ e, DiskReader.loadGraph P (some ⟨saveToDisk g ++ rest, before ++ .error :: after⟩) = .error e := by
  have hm : ReadAnswer.most = (fun a => match a with | .bytes k => k + 1 | _ => 0) := by
    funext a
    cases a <;> rfl
  rw [← hm] at h
  unfold DiskReader.loadGraph
  simp only [StateT.run]
  rcases sim_decGraph P ⟨saveToDisk g ++ rest, before ++ .error :: after⟩ with ⟨e, _⟩ | ⟨er, e, _⟩ | ⟨g', f', e, e', pre, h1, h2, h3⟩
  · rw [e]; exact ⟨_, rfl⟩
  · rw [e]; exact ⟨_, rfl⟩
  · exfalso
    have hs := (codecGraph hP).rt g ⟨hl, hv⟩ rest
    have hs : FP.decGraph P (saveToDisk g ++ rest) = .ok (g, rest) := hs
    dsimp only at e' h1 h3
    rw [hs] at e'
    injection e' with e'
    injection e' with _ e'
    obtain ⟨q, hq⟩ : pre <+: before := by
      rcases List.append_eq_append_iff.1 h1 with ⟨x, hx, hy⟩ | ⟨x, hx, hy⟩
      · match x, hx, hy with
        | [], hx, hy => exact ⟨[], by rw [hx]; simp⟩
        | a :: x, hx, hy =>
          injection hy with hy _
          rw [hx, ← hy] at h2
          exact absurd (by simp) h2
      · exact ⟨x, hx.symm⟩
    rcases h3 with h3 | h3
    · rw [h3, List.append_nil] at h1
      rw [← h1] at h2
      exact absurd (by simp) h2
    · rw [← hq, List.map_append, List.sum_append] at h
      rw [← e', List.length_append] at h3
      omega

/-! ### Examples -/

/-- The file `a 0 1 7` is delivered in pieces of at most three bytes with an interruption; the result is the graph. -/
example : DiskReader.fromFile debug64 (some ⟨[97, 32, 48, 32, 49, 32, 55, 10], [.bytes 2, .interrupted, .bytes 0, .bytes 2]⟩) =
    .ok ⟨[⟨0, 1, 7⟩], 2, true⟩ :=
  (C93_no_errors debug64 [97, 32, 48, 32, 49, 32, 55, 10] (answers := [.bytes 2, .interrupted, .bytes 0, .bytes 2]) (by decide)).1.trans rfl

/-- An error after the fifth byte. -/
example : ∃ p, DiskReader.fromFile debug64 (some ⟨[97, 32, 48, 32, 49, 32, 55, 10], [.bytes 4, .error]⟩) = .error p :=
  (C93_text_error_noticed debug64 [97, 32, 48, 32, 49, 32, 55, 10] [.bytes 4] [] (by decide)).1

/-- An error instead of the end of the file. -/
example : ∃ p, DiskReader.fromDimacsFile debug64 (some ⟨[99, 10], [.interrupted, .bytes 1, .error]⟩) = .error p :=
  (C93_text_error_noticed debug64 [99, 10] [.interrupted, .bytes 1] [] (by decide)).2

/-- An error after the end has been seen is not met. -/
example : DiskReader.fromFile debug64 (some ⟨[99, 10], [.bytes 1, .bytes 1, .error]⟩) = .ok ⟨[], 0, true⟩ := rfl

/-- The first number of a saved graph arrives, then there is an error. -/
example : ∃ e, DiskReader.loadGraph debug64 (some ⟨saveToDisk Ex.fg ++ [], [.bytes 3, .bytes 3] ++ .error :: []⟩) = .error e :=
  C93_load_error_noticed (by decide) (by unfold LenFit; decide) (by decide) [] [.bytes 3, .bytes 3] [] (by decide +kernel)

end Props
end FP
