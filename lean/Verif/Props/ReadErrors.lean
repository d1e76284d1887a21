import Verif.Proofs.ReadErrors
/-! # C109: how the text readers fail -/
set_option autoImplicit false
namespace FP
namespace Props
open Spec TextIO

/-- **C109, `from_file`** The reader fails in two ways only: by an `unwrap` or `assert!`, and by an arithmetic overflow. -/
theorem C109_from_file_panics (P : Plat) (cs : List Char) :
    (∃ g, readText P cs = .ok g) ∨ readText P cs = .error .assertion ∨ readText P cs = .error .overflow := by
  rcases readText_cases (P := P) cs with ⟨_, _, _, _, _, _, _, h⟩ | ⟨_, _, _, _, _, _, _, _, h⟩ | ⟨_, h⟩
  · exact Or.inr (Or.inl h)
  · exact Or.inr (Or.inr h)
  · exact Or.inl h

/-- The line can be read: it does not start with `a `, or it lists an arc that is ignored or has node ids below `usize::MAX`
(without overflow checks the ids do not matter). -/
def Readable (P : Plat) (l : List Char) : Prop :=
  startsArc l = false ∨ ∃ e, IsArcLine P l e ∧
    (P.checked = false ∨ e.src = e.dst ∨ e.weight = 0 ∨ (e.src < P.umax ∧ e.dst < P.umax))

theorem readable_iff {P : Plat} {l : List Char} : Readable P l ↔ LineFine P l := by
  unfold Readable LineFine TooLarge
  constructor
  · rintro (h | ⟨e, he, h⟩) hs
    · rw [h] at hs; cases hs
    · refine ⟨e, he, fun ⟨k1, k2, k3, k4⟩ => ?_⟩
      rcases h with h | h | h | h
      · rw [h] at k1; cases k1
      · exact k2 h
      · omega
      · omega
  · intro h
    cases hs : startsArc l with
    | false => exact Or.inl rfl
    | true =>
      obtain ⟨e, he, hn⟩ := h hs
      refine Or.inr ⟨e, he, ?_⟩
      cases hc : P.checked with
      | false => exact Or.inl rfl
      | true =>
        refine Or.inr ?_
        by_cases h1 : e.src = e.dst
        · exact Or.inl h1
        by_cases h2 : e.weight = 0
        · exact Or.inr (Or.inl h2)
        refine Or.inr (Or.inr ?_)
        by_cases h3 : P.umax ≤ max e.src e.dst
        · exact absurd ⟨hc, h1, by omega, h3⟩ hn
        · omega

/-- **C109, `from_file`** It succeeds exactly if every line can be read. -/
theorem C109_from_file_ok (P : Plat) (cs : List Char) :
    (∃ g, readText P cs = .ok g) ↔ ∀ l ∈ lines cs, Readable P l := by
  constructor
  · rintro ⟨g, hg⟩ l hl
    rcases readText_cases (P := P) cs with ⟨_, _, _, _, _, _, _, h⟩ | ⟨_, _, _, _, _, _, _, _, h⟩ | ⟨h, _⟩
    · rw [hg] at h; cases h
    · rw [hg] at h; cases h
    · exact readable_iff.2 (h l hl)
  · intro h
    rcases readText_cases (P := P) cs with ⟨pre, l, post, k1, _, k2, k3, _⟩ | ⟨pre, l, post, e, k1, _, k2, k3, _⟩ | ⟨_, h⟩
    · obtain ⟨e, he, _⟩ := readable_iff.1 (h l (by rw [k1]; simp)) k2
      exact absurd he (k3 e)
    · obtain ⟨e', he, hn⟩ := readable_iff.1 (h l (by rw [k1]; simp)) (isArcLine_iff.1 k2).1
      rw [isArcLine_unique he k2] at hn
      exact absurd k3 hn
    · exact h

/-- **C109, `from_file`** It overflows exactly if the first line that cannot be read lists an arc: overflow checks are on, the arc is
neither a loop nor of weight 0, and one of its ends is `usize::MAX`. -/
theorem C109_from_file_overflow (P : Plat) (cs : List Char) : readText P cs = .error .overflow ↔
    ∃ pre l post e, lines cs = pre ++ l :: post ∧ (∀ x ∈ pre, Readable P x) ∧ IsArcLine P l e ∧
      P.checked = true ∧ e.src ≠ e.dst ∧ 1 ≤ e.weight ∧ (e.src = P.umax ∨ e.dst = P.umax) := by
  constructor
  · intro hr
    rcases readText_cases (P := P) cs with ⟨_, _, _, _, _, _, _, h⟩ | ⟨pre, l, post, e, k1, k2, k3, k4, h⟩ | ⟨_, _, h⟩
    · rw [hr] at h; cases h
    · refine ⟨pre, l, post, e, k1, fun x hx => readable_iff.2 (k2 x hx), k3, k4.1, k4.2.1, k4.2.2.1, ?_⟩
      obtain ⟨rest, _, hn⟩ := k3
      have hle := isNumbers_le hn
      have a := hle e.src (by simp)
      have b := hle e.dst (by simp)
      have c := k4.2.2.2
      omega
    · rw [hr] at h; cases h
  · rintro ⟨pre, l, post, e, k1, k2, k3, k4, k5, k6, k7⟩
    have hbad : ¬ LineFine P l := by
      intro hf
      obtain ⟨e', he, hn⟩ := hf (isArcLine_iff.1 k3).1
      rw [isArcLine_unique he k3] at hn
      exact hn ⟨k4, k5, k6, by omega⟩
    have k2' : ∀ x ∈ pre, LineFine P x := fun x hx => readable_iff.1 (k2 x hx)
    rcases readText_cases (P := P) cs with ⟨pre', l', post', i1, i2, i3, i4, h⟩ | ⟨_, _, _, _, _, _, _, _, h⟩ | ⟨h, _⟩
    · rw [k1] at i1
      have hl : l = l' := firstBad_unique i1 k2' i2 hbad (fun hf => by
        obtain ⟨e', he, _⟩ := hf i3
        exact i4 e' he)
      subst hl
      exact absurd k3 (i4 e)
    · exact h
    · exact absurd (h l (by rw [k1]; simp)) hbad

/-- **C109, `from_file`** It panics by `unwrap` or `assert!` exactly if the first line that cannot be read starts with `a ` and is not
of the form `a <from> <to> <weight>`. -/
theorem C109_from_file_assertion (P : Plat) (cs : List Char) : readText P cs = .error .assertion ↔
    ∃ pre l post, lines cs = pre ++ l :: post ∧ (∀ x ∈ pre, Readable P x) ∧ startsArc l = true ∧ ∀ e, ¬ IsArcLine P l e := by
  constructor
  · intro hr
    rcases readText_cases (P := P) cs with ⟨pre, l, post, k1, k2, k3, k4, h⟩ | ⟨_, _, _, _, _, _, _, _, h⟩ | ⟨_, _, h⟩
    · exact ⟨pre, l, post, k1, fun x hx => readable_iff.2 (k2 x hx), k3, k4⟩
    · rw [hr] at h; cases h
    · rw [hr] at h; cases h
  · rintro ⟨pre, l, post, k1, k2, k3, k4⟩
    have hbad : ¬ LineFine P l := fun hf => by
      obtain ⟨e', he, _⟩ := hf k3
      exact k4 e' he
    have k2' : ∀ x ∈ pre, LineFine P x := fun x hx => readable_iff.1 (k2 x hx)
    rcases readText_cases (P := P) cs with ⟨_, _, _, _, _, _, _, h⟩ | ⟨pre', l', post', e, i1, i2, i3, i4, h⟩ | ⟨h, _⟩
    · exact h
    · rw [k1] at i1
      have hl : l = l' := firstBad_unique i1 k2' i2 hbad (fun hf => by
        obtain ⟨e', he, hn⟩ := hf (isArcLine_iff.1 i3).1
        rw [isArcLine_unique he i3] at hn
        exact hn i4)
      subst hl
      exact absurd i3 (k4 e)
    · exact absurd (h l (by rw [k1]; simp)) hbad

example : readText debug32 "x\na 0 1\n".toList = .error .assertion := by decide +kernel
example : readText debug32 "a 0 1 2\na 0 4294967295 2\na b".toList = .error .overflow := by decide +kernel
example : readText debug32 "a 0 1 2\na b\na 0 4294967295 2".toList = .error .assertion := by decide +kernel
/-- The line `a 0 1` has one number too few. -/
example : ∃ pre l post, lines "x\na 0 1\n".toList = pre ++ l :: post ∧ (∀ x ∈ pre, Readable debug32 x) ∧ startsArc l = true ∧
    ∀ e, ¬ IsArcLine debug32 l e := (C109_from_file_assertion _ _).1 (by decide +kernel)
/-- Without overflow checks the largest id is accepted. -/
example : ∃ g, readText { debug32 with checked := false } "a 0 4294967295 2\n".toList = .ok g := ⟨_, rfl⟩

/-- **C109, `from_dimacs_file`** The reader fails by `unwrap`, `assert!` or `panic!` only: never by an overflow, whatever the numbers in
the file and whether or not overflows are checked. -/
theorem C109_from_dimacs_panics (P : Plat) (cs : List Char) :
    (∃ g, readDimacs P cs = .ok g) ∨ readDimacs P cs = .error .assertion :=
  (readDimacs_cases cs).symm

example : readDimacs debug32 "p sp 4294967295 1\na 1 4294967295 2\n".toList = .ok ⟨[⟨0, 4294967294, 2⟩], 4294967295, true⟩ := by
  decide +kernel
example : readDimacs debug32 "p sp 2\n".toList = .error .assertion := by decide +kernel

end Props
end FP
