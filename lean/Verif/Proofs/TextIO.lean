import Verif.SpecText
import Verif.Proofs.Api
import Mathlib.Data.List.Forall2
/-! # Reading and writing text files -/
namespace FP
open Spec TextIO

variable {P : Plat}

theorem forall₂_mem {α β : Type} {R : α → β → Prop} {l : List α} {r : List β} (h : List.Forall₂ R l r) {a : α} (ha : a ∈ l) :
    ∃ b ∈ r, R a b := by
  induction h with
  | nil => simp at ha
  | cons he _ ih =>
    rcases List.mem_cons.1 ha with rfl | ha
    · exact ⟨_, by simp, he⟩
    · obtain ⟨b, hb, hr⟩ := ih ha
      exact ⟨b, by simp [hb], hr⟩

/-! ### Numbers -/

theorem digit_iff {c : Char} : ('0' ≤ c ∧ c ≤ '9') ↔ (48 ≤ c.toNat ∧ c.toNat ≤ 57) := by
  simp only [Char.le_def, UInt32.le_iff_toNat_le]
  rfl

theorem toDigit_some {c : Char} {d : Nat} : toDigit c = some d ↔ ('0' ≤ c ∧ c ≤ '9') ∧ d = digitVal c := by
  rw [digit_iff]
  unfold toDigit digitVal
  by_cases h : 48 ≤ c.toNat ∧ c.toNat ≤ 57
  · rw [if_pos h]; simp [h, eq_comm]
  · rw [if_neg h]; simp [h]

theorem foldl_digits_le (cs : List Char) : ∀ v, v ≤ cs.foldl (fun a c => a * 10 + digitVal c) v := by
  induction cs with
  | nil => intro v; exact Nat.le_refl _
  | cons c cs ih => intro v; rw [List.foldl_cons]; exact Nat.le_trans (by omega) (ih (v * 10 + digitVal c))

theorem parseDigits_some {r : Nat} : ∀ {cs : List Char} {v : Nat}, v ≤ P.umax →
    (parseDigits P v cs = some r ↔
      (∀ c ∈ cs, '0' ≤ c ∧ c ≤ '9') ∧ r = cs.foldl (fun a c => a * 10 + digitVal c) v ∧ r ≤ P.umax)
  | [], v, hv => by
    unfold parseDigits
    simp only [List.not_mem_nil, false_imp_iff, implies_true, List.foldl_nil, true_and, Option.some.injEq]
    constructor
    · rintro rfl; exact ⟨rfl, hv⟩
    · rintro ⟨rfl, _⟩; rfl
  | c :: cs, v, hv => by
    unfold parseDigits
    cases hd : toDigit c with
    | none =>
      simp only [List.mem_cons, forall_eq_or_imp, List.foldl_cons]
      constructor
      · intro h; cases h
      · rintro ⟨⟨h, _⟩, _⟩
        rw [toDigit_some.2 ⟨h, rfl⟩] at hd
        cases hd
    | some d =>
      obtain ⟨h1, rfl⟩ := toDigit_some.1 hd
      simp only [List.mem_cons, forall_eq_or_imp, List.foldl_cons]
      by_cases hle : v * 10 + digitVal c ≤ P.umax
      · rw [if_pos hle, parseDigits_some hle]
        simp [h1]
      · rw [if_neg hle]
        constructor
        · intro h; cases h
        · rintro ⟨_, rfl, h⟩
          exact absurd (Nat.le_trans (foldl_digits_le _ _) h) hle

theorem plus_not_digit : ¬ ('0' ≤ '+' ∧ '+' ≤ '9') := by decide

theorem parseUsize_some {w : List Char} {v : Nat} : parseUsize P w = some v ↔ IsNumber P w v := by
  have hz : 0 ≤ P.umax := Nat.zero_le _
  unfold IsNumber IsDecimal
  cases w with
  | nil =>
    simp only [parseUsize]
    constructor
    · intro h; cases h
    · rintro ⟨_, ⟨h, _⟩ | ⟨ds, h, _⟩⟩
      · exact absurd rfl h
      · cases h
  | cons c cs =>
    by_cases hc : c = '+'
    · subst hc
      simp only [parseUsize]
      cases cs with
      | nil =>
        simp only [List.isEmpty_nil, if_true]
        constructor
        · intro h; cases h
        · rintro ⟨_, ⟨_, h, _⟩ | ⟨ds, h, h', _⟩⟩
          · exact absurd (h '+' (by simp)) plus_not_digit
          · injection h with _ h; exact absurd h.symm h'
      | cons a as =>
        simp only [List.isEmpty_cons]
        rw [if_neg (by simp), parseDigits_some hz]
        constructor
        · rintro ⟨h1, h2, h3⟩
          exact ⟨h3, Or.inr ⟨a :: as, rfl, by simp, h1, h2⟩⟩
        · rintro ⟨h3, ⟨_, h, _⟩ | ⟨ds, h, _, h1, h2⟩⟩
          · exact absurd (h '+' (by simp)) plus_not_digit
          · injection h with _ h; subst h; exact ⟨h1, h2, h3⟩
    · have : parseUsize P (c :: cs) = parseDigits P 0 (c :: cs) := by
        unfold parseUsize
        split
        · rename_i h; cases h
        · rename_i h; injection h with h _; exact absurd h hc
        · rfl
      rw [this, parseDigits_some hz]
      constructor
      · rintro ⟨h1, h2, h3⟩
        exact ⟨h3, Or.inl ⟨by simp, h1, h2⟩⟩
      · rintro ⟨h3, ⟨_, h1, h2⟩ | ⟨ds, h, _⟩⟩
        · exact ⟨h1, h2, h3⟩
        · injection h with h _; exact absurd h hc

theorem digit_not_space {c : Char} (h : '0' ≤ c ∧ c ≤ '9') : isWhitespace c = false := by
  rw [digit_iff] at h
  unfold isWhitespace
  simp only [Bool.or_eq_false_iff, Bool.and_eq_false_iff, decide_eq_false_iff_not, beq_eq_false_iff_ne]
  omega

/-- Not a character that ends a line or a word. -/
structure Plain (c : Char) : Prop where
  sp : isWhitespace c = false
  nl : c ≠ '\n'
  cr : c ≠ '\r'

theorem plain_of_not_space {c : Char} (h : isWhitespace c = false) : Plain c :=
  ⟨h, by rintro rfl; simp [isWhitespace] at h, by rintro rfl; simp [isWhitespace] at h⟩

theorem Spec.IsDecimal.plain {ds : List Char} {v : Nat} (h : IsDecimal ds v) : ∀ c ∈ ds, isWhitespace c = false :=
  fun c hc => digit_not_space (h.2.1 c hc)

theorem Spec.IsNumber.plain {w : List Char} {v : Nat} (h : IsNumber P w v) : ∀ c ∈ w, isWhitespace c = false := by
  rcases h.2 with h' | ⟨ds, rfl, h'⟩
  · exact h'.plain
  · intro c hc
    rcases List.mem_cons.1 hc with rfl | hc
    · decide
    · exact h'.plain c hc

theorem Spec.IsNumber.ne {w : List Char} {v : Nat} (h : IsNumber P w v) : w ≠ [] := by
  rcases h.2 with h | ⟨ds, rfl, h⟩
  · exact h.1
  · simp

theorem digitChar_ok : ∀ d < 10, ('0' ≤ Nat.digitChar d ∧ Nat.digitChar d ≤ '9') ∧ digitVal (Nat.digitChar d) = d := by
  decide

theorem showNat_decimal (n : Nat) : IsDecimal (showNat n) n := by
  induction n using Nat.strongRecOn with
  | ind n ih =>
    unfold showNat
    rw [Nat.toDigits_eq_if (by omega)]
    by_cases h : n < 10
    · rw [if_pos h]
      obtain ⟨h1, h2⟩ := digitChar_ok n h
      refine ⟨by simp, ?_, by simp [h2]⟩
      intro c hc
      rw [List.mem_singleton.1 hc]; exact h1
    · rw [if_neg h]
      obtain ⟨i1, i2, i3⟩ := ih (n / 10) (by omega)
      obtain ⟨h1, h2⟩ := digitChar_ok (n % 10) (by omega)
      unfold showNat at i1 i2 i3
      refine ⟨by simp, ?_, ?_⟩
      · intro c hc
        rcases List.mem_append.1 hc with hc | hc
        · exact i2 c hc
        · rw [List.mem_singleton.1 hc]; exact h1
      · rw [List.foldl_append, ← i3]
        simp only [List.foldl_cons, List.foldl_nil, h2]
        omega

theorem showNat_number {n : Nat} (h : n ≤ P.umax) : IsNumber P (showNat n) n := ⟨h, Or.inl (showNat_decimal n)⟩

/-! ### Words -/

theorem splitFrom_word : ∀ {w : List Char} (acc rest : List Char), (∀ c ∈ w, isWhitespace c = false) →
    splitFrom acc (w ++ rest) = splitFrom (w.reverse ++ acc) rest
  | [], acc, rest, _ => rfl
  | c :: w, acc, rest, h => by
    rw [List.cons_append]
    conv_lhs => unfold splitFrom
    rw [if_neg (by simp [h c (by simp)]), splitFrom_word (c :: acc) rest (fun x hx => h x (by simp [hx]))]
    simp

theorem splitFrom_space {sp : List Char} (rest : List Char) (h : IsSpace sp) : splitFrom [] (sp ++ rest) = splitFrom [] rest := by
  induction sp with
  | nil => rfl
  | cons c sp ih =>
    rw [List.cons_append]
    conv_lhs => unfold splitFrom
    rw [if_pos (h c (by simp))]
    exact ih (fun x hx => h x (by simp [hx]))

theorem splitWhitespace_space {sp : List Char} (h : IsSpace sp) : splitWhitespace sp = [] := by
  have := splitFrom_space (sp := sp) [] h
  rw [List.append_nil] at this
  exact this

theorem splitWhitespace_cons {sp w rest : List Char} {c : Char} (h : IsSpace sp) (hw : ∀ c ∈ w, isWhitespace c = false)
    (hne : w ≠ []) (hc : isWhitespace c = true) :
    splitWhitespace (sp ++ w ++ c :: rest) = w :: splitWhitespace rest := by
  unfold splitWhitespace
  rw [List.append_assoc, splitFrom_space _ h, splitFrom_word [] _ hw]
  conv_lhs => unfold splitFrom
  rw [if_pos hc, if_neg (by simpa using hne), List.append_nil, List.reverse_reverse]

theorem splitWhitespace_last {sp w : List Char} (h : IsSpace sp) (hw : ∀ c ∈ w, isWhitespace c = false)
    (hne : w ≠ []) : splitWhitespace (sp ++ w) = [w] := by
  unfold splitWhitespace
  rw [splitFrom_space _ h]
  have := splitFrom_word [] [] hw
  rw [List.append_nil] at this
  rw [this]
  unfold splitFrom
  rw [if_neg (by simpa using hne)]
  simp

theorem splitWhitespace_one {sp w sp' : List Char} (h : IsSpace sp) (hw : ∀ c ∈ w, isWhitespace c = false)
    (hne : w ≠ []) (h' : IsSpace sp') : splitWhitespace (sp ++ w ++ sp') = [w] := by
  cases sp' with
  | nil => rw [List.append_nil]; exact splitWhitespace_last h hw hne
  | cons c r =>
    rw [splitWhitespace_cons h hw hne (h' c (by simp)), splitWhitespace_space (fun x hx => h' x (by simp [hx]))]

/-- Every text is blank, or starts with a first word. -/
theorem first_word (cs : List Char) : IsSpace cs ∨ ∃ sp w rest, cs = sp ++ w ++ rest ∧ IsSpace sp ∧
    (∀ c ∈ w, isWhitespace c = false) ∧ w ≠ [] ∧ (rest = [] ∨ ∃ c r, rest = c :: r ∧ isWhitespace c = true) := by
  induction cs with
  | nil => exact Or.inl (by intro c hc; simp at hc)
  | cons a as ih =>
    cases ha : isWhitespace a with
    | true =>
      rcases ih with ih | ⟨sp, w, rest, rfl, h1, h2⟩
      · refine Or.inl ?_
        intro c hc
        rcases List.mem_cons.1 hc with rfl | hc
        · exact ha
        · exact ih c hc
      · refine Or.inr ⟨a :: sp, w, rest, rfl, ?_, h2⟩
        intro c hc
        rcases List.mem_cons.1 hc with rfl | hc
        · exact ha
        · exact h1 c hc
    | false =>
      refine Or.inr ?_
      rcases ih with ih | ⟨sp, w, rest, rfl, h1, h2, h3, h4⟩
      · refine ⟨[], [a], as, rfl, by intro c hc; simp at hc, by intro c hc; rw [List.mem_singleton.1 hc]; exact ha, by simp, ?_⟩
        cases as with
        | nil => exact Or.inl rfl
        | cons b bs => exact Or.inr ⟨b, bs, rfl, ih b (by simp)⟩
      · cases sp with
        | nil =>
          refine ⟨[], a :: w, rest, rfl, by intro c hc; simp at hc, ?_, by simp, h4⟩
          intro c hc
          rcases List.mem_cons.1 hc with rfl | hc
          · exact ha
          · exact h2 c hc
        | cons b bs =>
          refine ⟨[], [a], (b :: bs) ++ w ++ rest, rfl, by intro c hc; simp at hc, by intro c hc; rw [List.mem_singleton.1 hc]; exact ha, by simp, ?_⟩
          exact Or.inr ⟨b, bs ++ w ++ rest, rfl, h1 b (by simp)⟩

theorem isNumbers_iff : ∀ {vs : List Nat} {cs : List Char},
    IsNumbers P cs vs ↔ List.Forall₂ (IsNumber P) (splitWhitespace cs) vs := by
  intro vs cs
  constructor
  · intro h
    induction h with
    | nil h => rw [splitWhitespace_space h]; exact .nil
    | last h hw h' => rw [splitWhitespace_one h hw.plain hw.ne h']; exact .cons hw .nil
    | cons h hw hc _ ih => rw [splitWhitespace_cons h hw.plain hw.ne hc]; exact .cons hw ih
  · intro h
    induction vs generalizing cs with
    | nil =>
      rcases first_word cs with h' | ⟨sp, w, rest, rfl, h1, h2, h3, h4⟩
      · exact .nil h'
      · rcases h4 with rfl | ⟨c, r, rfl, hc⟩
        · rw [List.append_nil, splitWhitespace_last h1 h2 h3] at h; cases h
        · rw [splitWhitespace_cons h1 h2 h3 hc] at h; cases h
    | cons v vs ih =>
      rcases first_word cs with h' | ⟨sp, w, rest, rfl, h1, h2, h3, h4⟩
      · rw [splitWhitespace_space h'] at h; cases h
      · rcases h4 with rfl | ⟨c, r, rfl, hc⟩
        · rw [List.append_nil, splitWhitespace_last h1 h2 h3] at h
          cases h with
          | cons hw ht => cases ht; exact .last h1 hw (by intro c hc; simp at hc)
        · rw [splitWhitespace_cons h1 h2 h3 hc] at h
          cases h with
          | cons hw ht =>
            cases vs with
            | nil =>
              cases hn : ih ht with
              | nil hsp =>
                exact .last h1 hw (by
                  intro x hx
                  rcases List.mem_cons.1 hx with rfl | hx
                  · exact hc
                  · exact hsp x hx)
            | cons x xs => exact .cons h1 hw hc (ih ht)

/-! ### Lines -/

theorem linesFrom_line : ∀ {l : List Char} (acc rest : List Char), '\n' ∉ l →
    linesFrom acc (l ++ rest) = linesFrom (l.reverse ++ acc) rest
  | [], _, _, _ => rfl
  | c :: l, acc, rest, h => by
    rw [List.cons_append]
    conv_lhs => unfold linesFrom
    rw [if_neg (by rintro rfl; simp at h), linesFrom_line (c :: acc) rest (fun hx => h (by simp [hx]))]
    simp

theorem lines_cons {l : List Char} (rest : List Char) (hn : '\n' ∉ l) (hr : '\r' ∉ l) :
    lines (l ++ '\n' :: rest) = l :: lines rest := by
  unfold lines
  rw [linesFrom_line [] _ hn, List.append_nil]
  conv_lhs => unfold linesFrom
  rw [if_pos rfl]
  have hr' : '\r' ∉ l.reverse := by simpa using hr
  congr 1
  split
  · rename_i h; rw [h] at hr'; simp at hr'
  · exact List.reverse_reverse l

theorem lines_nil : lines [] = [] := rfl

theorem lines_unix {l : List Char} (rest : List Char) (hn : '\n' ∉ l) (hr : l.getLast? ≠ some '\r') :
    lines (l ++ '\n' :: rest) = l :: lines rest := by
  unfold lines
  rw [linesFrom_line [] _ hn, List.append_nil]
  conv_lhs => unfold linesFrom
  rw [if_pos rfl]
  congr 1
  split
  · rename_i r h
    exact absurd (by rw [← List.reverse_reverse l, h]; simp) hr
  · exact List.reverse_reverse l

theorem lines_windows {l : List Char} (rest : List Char) (hn : '\n' ∉ l) :
    lines (l ++ '\r' :: '\n' :: rest) = l :: lines rest := by
  have e : l ++ '\r' :: '\n' :: rest = (l ++ ['\r']) ++ '\n' :: rest := by simp
  unfold lines
  rw [e, linesFrom_line [] _ (by simp [hn]), List.append_nil]
  conv_lhs => unfold linesFrom
  rw [if_pos rfl]
  simp

theorem lines_last {l : List Char} (hn : '\n' ∉ l) (h : l ≠ []) : lines l = [l] := by
  have := linesFrom_line [] [] hn
  rw [List.append_nil, List.append_nil] at this
  unfold lines
  rw [this, linesFrom, if_neg (by simpa using h), List.reverse_reverse]

theorem split_at_first {c : Char} : ∀ {cs : List Char}, c ∈ cs → ∃ l rest, cs = l ++ c :: rest ∧ c ∉ l
  | d :: cs, h => by
    by_cases e : d = c
    · subst e; exact ⟨[], cs, rfl, by simp⟩
    · obtain ⟨l, rest, rfl, hl⟩ := split_at_first (c := c) (cs := cs) (by
        rcases List.mem_cons.1 h with h | h
        · exact absurd h.symm e
        · exact h)
      exact ⟨d :: l, rest, rfl, by simp [Ne.symm e, hl]⟩

theorem IsLines.eq {cs : List Char} {ls : List (List Char)} (h : IsLines cs ls) : lines cs = ls := by
  induction h with
  | nil => rfl
  | last hn h => exact lines_last hn h
  | unix hn hr h ih => rw [lines_unix _ hn hr, ih]
  | windows hn h ih => rw [lines_windows _ hn, ih]

theorem isLines (cs : List Char) : IsLines cs (lines cs) := by
  by_cases hn : '\n' ∈ cs
  · obtain ⟨l, rest, rfl, hl⟩ := split_at_first hn
    by_cases hr : l.getLast? = some '\r'
    · obtain ⟨l', rfl⟩ := List.getLast?_eq_some_iff.1 hr
      have hl' : '\n' ∉ l' := fun h => hl (by simp [h])
      rw [List.append_assoc]
      show IsLines (l' ++ '\r' :: '\n' :: rest) (lines (l' ++ '\r' :: '\n' :: rest))
      rw [lines_windows _ hl']
      exact .windows hl' (isLines rest)
    · rw [lines_unix _ hl hr]
      exact .unix hl hr (isLines rest)
  · by_cases h : cs = []
    · subst h; exact .nil
    · rw [lines_last hn h]; exact .last hn h
termination_by cs.length
decreasing_by all_goals subst_vars; simp only [List.length_append, List.length_cons]; omega

/-! ### Arc lines -/

theorem unwrap_some {α : Type} {o : Option α} {a : α} : unwrap o = .ok a ↔ o = some a := by
  cases o <;> simp [unwrap]

theorem nextNumber_ok {ws ws' : List (List Char)} {v : Nat} :
    nextNumber P ws = .ok (v, ws') ↔ ∃ w, ws = w :: ws' ∧ IsNumber P w v := by
  cases ws with
  | nil => simp [nextNumber]
  | cons w ws =>
    unfold nextNumber
    constructor
    · intro h
      obtain ⟨x, hx, h⟩ := bind_eq_ok.1 h
      injection h with h
      injection h with h1 h2
      subst h1 h2
      exact ⟨w, rfl, parseUsize_some.1 (unwrap_some.1 hx)⟩
    · rintro ⟨w', h, hw⟩
      injection h with h1 h2
      subst h1 h2
      simp only [unwrap_some.2 (parseUsize_some.2 hw)]
      rfl

theorem readArcLine_ok {line : List Char} {s d w : Nat} :
    readArcLine P line = .ok (s, d, w) ↔ IsNumbers P (line.drop 2) [s, d, w] := by
  rw [isNumbers_iff]
  unfold readArcLine
  constructor
  · intro h
    obtain ⟨⟨s', ws1⟩, h1, h⟩ := bind_eq_ok.1 h
    obtain ⟨⟨d', ws2⟩, h2, h⟩ := bind_eq_ok.1 h
    obtain ⟨⟨w', ws3⟩, h3, h⟩ := bind_eq_ok.1 h
    obtain ⟨_, h4, h⟩ := bind_eq_ok.1 h
    injection h with h
    simp only [Prod.mk.injEq] at h
    obtain ⟨rfl, rfl, rfl⟩ := h
    obtain ⟨x1, e1, k1⟩ := nextNumber_ok.1 h1
    obtain ⟨x2, e2, k2⟩ := nextNumber_ok.1 h2
    obtain ⟨x3, e3, k3⟩ := nextNumber_ok.1 h3
    have e4 : ws3 = [] := by simpa using assertM_eq_ok.1 h4
    rw [e1, e2, e3, e4]
    exact .cons k1 (.cons k2 (.cons k3 .nil))
  · intro h
    cases hs : splitWhitespace (line.drop 2) with
    | nil => rw [hs] at h; cases h
    | cons x1 t =>
      rw [hs] at h
      cases h with
      | cons k1 h =>
        cases h with
        | cons k2 h =>
          cases h with
          | cons k3 h =>
            cases h
            rw [nextNumber_ok.2 ⟨_, rfl, k1⟩]
            simp only [bind_okM]
            rw [nextNumber_ok.2 ⟨_, rfl, k2⟩]
            simp only [bind_okM]
            rw [nextNumber_ok.2 ⟨_, rfl, k3⟩]
            rfl

theorem startsWith_arc {l : List Char} : startsWith l ['a', ' '] = true ↔ ∃ rest, l = 'a' :: ' ' :: rest := by
  unfold startsWith
  rw [List.isPrefixOf_iff_prefix]
  constructor
  · rintro ⟨t, rfl⟩; exact ⟨t, rfl⟩
  · rintro ⟨t, rfl⟩; exact ⟨t, rfl⟩

theorem startsArc_iff {l : List Char} : startsArc l = true ↔ ∃ rest, l = 'a' :: ' ' :: rest := by
  unfold startsArc
  split
  · simp
  · rename_i h
    simp only [Bool.false_eq_true, false_iff, not_exists]
    intro r hr; exact h r hr

theorem startsWith_eq (l : List Char) : startsWith l ['a', ' '] = startsArc l := by
  rw [Bool.eq_iff_iff, startsWith_arc, startsArc_iff]

theorem isArcLine_iff {l : List Char} {e : Edge} :
    IsArcLine P l e ↔ startsArc l = true ∧ readArcLine P l = .ok (e.src, e.dst, e.weight) := by
  rw [startsArc_iff, readArcLine_ok]
  constructor
  · rintro ⟨rest, rfl, h⟩; exact ⟨⟨rest, rfl⟩, h⟩
  · rintro ⟨⟨rest, rfl⟩, h⟩; exact ⟨rest, rfl, h⟩

/-- The call made for an arc. -/
def arcOp (e : Edge) : Op := .addEdge e.src e.dst e.weight

theorem readTextLine_arc {g g' : InputGraph} {l : List Char} (hs : startsArc l = true) :
    readTextLine P g l = .ok g' ↔ ∃ e, IsArcLine P l e ∧ (arcOp e).run P g = .ok g' := by
  unfold readTextLine
  rw [startsWith_eq, if_pos hs]
  simp only [arcOp, Spec.Op.run]
  constructor
  · intro h
    obtain ⟨⟨s, d, w⟩, h1, h⟩ := bind_eq_ok.1 h
    exact ⟨⟨s, d, w⟩, isArcLine_iff.2 ⟨hs, h1⟩, h⟩
  · rintro ⟨e, he, h⟩
    rw [(isArcLine_iff.1 he).2]
    exact h

theorem readText_loop : ∀ {ls : List (List Char)} {g g' : InputGraph}, forM (readTextLine P) g ls = .ok g' ↔
    ∃ es, List.Forall₂ (IsArcLine P) (ls.filter startsArc) es ∧
      forM (fun g (op : Op) => op.run P g) g (es.map arcOp) = .ok g'
  | [], g, g' => by
    constructor
    · intro h; exact ⟨[], .nil, h⟩
    · rintro ⟨es, h1, h2⟩
      cases h1
      exact h2
  | l :: ls, g, g' => by
    rw [forM_cons]
    cases hs : startsArc l with
    | false =>
      rw [List.filter_cons_of_neg (by simp [hs]), ← readText_loop (g := g)]
      unfold readTextLine
      rw [startsWith_eq, if_neg (by simp [hs])]
      rfl
    | true =>
      rw [List.filter_cons_of_pos hs]
      constructor
      · intro h
        obtain ⟨g1, h1, h⟩ := bind_eq_ok.1 h
        obtain ⟨e, he, hr⟩ := (readTextLine_arc hs).1 h1
        obtain ⟨es, k1, k2⟩ := readText_loop.1 h
        refine ⟨e :: es, .cons he k1, ?_⟩
        rw [List.map_cons, forM_cons, hr]
        exact k2
      · rintro ⟨es, h1, h2⟩
        cases h1 with
        | cons he h1 =>
          rw [List.map_cons, forM_cons] at h2
          obtain ⟨g1, k1, k2⟩ := bind_eq_ok.1 h2
          rw [(readTextLine_arc hs).2 ⟨_, he, k1⟩]
          exact readText_loop.2 ⟨_, h1, k2⟩

theorem build_addAll (es : List Edge) :
    buildGraph P (addAll es) = (forM (fun g (op : Op) => op.run P g) InputGraph.new (es.map arcOp) >>= fun g => g.freeze) := by
  unfold buildGraph addAll
  rw [forM_append]
  have : (es.map fun e => Op.addEdge e.src e.dst e.weight) = es.map arcOp := rfl
  rw [this]
  congr 1
  funext g
  rw [forM_cons]
  simp only [Spec.Op.run]
  cases g.freeze <;> rfl

theorem readText_ok {cs : List Char} {g : InputGraph} : readText P cs = .ok g ↔
    ∃ es, List.Forall₂ (IsArcLine P) ((lines cs).filter startsArc) es ∧ buildGraph P (addAll es) = .ok g := by
  unfold readText
  constructor
  · intro h
    obtain ⟨g1, h1, h⟩ := bind_eq_ok.1 h
    obtain ⟨es, k1, k2⟩ := readText_loop.1 h1
    refine ⟨es, k1, ?_⟩
    rw [build_addAll, k2]; exact h
  · rintro ⟨es, h1, h2⟩
    rw [build_addAll] at h2
    obtain ⟨g1, k1, k2⟩ := bind_eq_ok.1 h2
    rw [readText_loop.2 ⟨es, h1, k1⟩]
    exact k2

theorem readText_filter (cs : List Char) :
    readText P cs = (forM (readTextLine P) InputGraph.new ((lines cs).filter startsArc) >>= fun g => g.freeze) := by
  have key : ∀ (ls : List (List Char)) (g : InputGraph),
      forM (readTextLine P) g ls = forM (readTextLine P) g (ls.filter startsArc) := by
    intro ls
    induction ls with
    | nil => intro g; rfl
    | cons l ls ih =>
      intro g
      cases hs : startsArc l with
      | false =>
        rw [List.filter_cons_of_neg (by simp [hs]), forM_cons, ← ih]
        unfold readTextLine
        rw [startsWith_eq, if_neg (by simp [hs])]
        rfl
      | true =>
        rw [List.filter_cons_of_pos hs, forM_cons, forM_cons]
        cases readTextLine P g l with
        | error e => rfl
        | ok g1 => exact ih g1
  unfold readText
  rw [key]

/-! ### The order of the lines -/

/-- Graphs that only differ in the order of their edges. -/
structure SameUpTo (g g' : InputGraph) : Prop where
  edges : g.edges.Perm g'.edges
  num : g.numNodes = g'.numNodes
  frozen : g.frozen = g'.frozen

theorem SameUpTo.refl (g : InputGraph) : SameUpTo g g := ⟨.refl _, rfl, rfl⟩

theorem SameUpTo.trans {a b c : InputGraph} (h : SameUpTo a b) (h' : SameUpTo b c) : SameUpTo a c :=
  ⟨h.edges.trans h'.edges, h.num.trans h'.num, h.frozen.trans h'.frozen⟩

theorem SameUpTo.freeze {g g' h : InputGraph} (hs : SameUpTo g g') (hf : g.freeze = .ok h) : g'.freeze = .ok h := by
  have he : InputGraph.sortEdges g.edges = InputGraph.sortEdges g'.edges :=
    sorted_perm_unique (((sortEdges_perm _).trans hs.edges).trans (sortEdges_perm _).symm) (sortEdges_sorted _)
      (sortEdges_sorted _)
  unfold InputGraph.freeze at hf ⊢
  rw [← hs.frozen, ← hs.num, ← he]
  exact hf

/-- What the call for an arc does. -/
theorem arcRun_iff {g g' : InputGraph} {e : Edge} : (arcOp e).run P g = .ok g' ↔ g.frozen = false ∧
    ((¬ (e.src ≠ e.dst ∧ 1 ≤ e.weight) ∧ g' = g) ∨ ((e.src ≠ e.dst ∧ 1 ≤ e.weight) ∧
      ∃ m, addW P (max e.src e.dst) 1 = .ok m ∧ g' = ⟨g.edges ++ [e], max g.numNodes m, false⟩)) := by
  simp only [arcOp, Spec.Op.run, InputGraph.addEdge, InputGraph.doAddEdge]
  by_cases h1 : g.frozen = true
  · rw [if_pos h1]
    constructor
    · intro h; cases h
    · rintro ⟨h, _⟩; rw [h1] at h; cases h
  rw [if_neg h1]
  have h1' : g.frozen = false := by simpa using h1
  by_cases h2 : e.src = e.dst
  · rw [if_pos (by simpa using h2)]
    simp only [bind_okM, h1', true_and]
    constructor
    · intro h; injection h with h; exact Or.inl ⟨fun h => h.1 h2, h.symm⟩
    · rintro (⟨_, rfl⟩ | ⟨h, _⟩)
      · rfl
      · exact absurd h2 h.1
  rw [if_neg (by simpa using h2)]
  by_cases h3 : e.weight < 1
  · rw [if_pos h3]
    simp only [bind_okM, h1', true_and]
    constructor
    · intro h; injection h with h; exact Or.inl ⟨fun h => by omega, h.symm⟩
    · rintro (⟨_, rfl⟩ | ⟨h, _⟩)
      · rfl
      · omega
  rw [if_neg h3]
  cases ha : addW P (max e.src e.dst) 1 with
  | error x =>
    constructor
    · intro h; cases h
    · rintro ⟨_, ⟨h, _⟩ | ⟨_, m, h, _⟩⟩
      · exact absurd ⟨h2, by omega⟩ h
      · cases h
  | ok m =>
    simp only [bind_okM, h1', true_and]
    constructor
    · intro h
      injection h with h
      exact Or.inr ⟨⟨h2, by omega⟩, m, rfl, by rw [← h]; simp⟩
    · rintro (⟨h, _⟩ | ⟨_, m', h, rfl⟩)
      · exact absurd ⟨h2, by omega⟩ h
      · injection h with h; subst h; simp

/-- One call on two such graphs. -/
theorem SameUpTo.run {g g' h : InputGraph} (hs : SameUpTo g g') (e : Edge) (hr : (arcOp e).run P g = .ok h) :
    ∃ h', (arcOp e).run P g' = .ok h' ∧ SameUpTo h h' := by
  obtain ⟨hf, ⟨hv, rfl⟩ | ⟨hv, m, hm, rfl⟩⟩ := arcRun_iff.1 hr
  · exact ⟨g', arcRun_iff.2 ⟨by rw [← hs.frozen, hf], Or.inl ⟨hv, rfl⟩⟩, hs⟩
  · exact ⟨_, arcRun_iff.2 ⟨by rw [← hs.frozen, hf], Or.inr ⟨hv, m, hm, rfl⟩⟩, hs.edges.append_right _,
      by rw [hs.num], rfl⟩

theorem SameUpTo.swap {g g1 g2 : InputGraph} {a b : Edge} (h1 : (arcOp a).run P g = .ok g1) (h2 : (arcOp b).run P g1 = .ok g2) :
    ∃ g1' g2', (arcOp b).run P g = .ok g1' ∧ (arcOp a).run P g1' = .ok g2' ∧ SameUpTo g2 g2' := by
  obtain ⟨hf, ⟨hv, rfl⟩ | ⟨hv, m, hm, rfl⟩⟩ := arcRun_iff.1 h1
  · obtain ⟨hf2, h2'⟩ := arcRun_iff.1 h2
    refine ⟨g2, g2, h2, arcRun_iff.2 ⟨?_, Or.inl ⟨hv, rfl⟩⟩, .refl _⟩
    rcases h2' with ⟨_, rfl⟩ | ⟨_, _, _, rfl⟩
    · exact hf
    · rfl
  · obtain ⟨hf2, ⟨hv2, rfl⟩ | ⟨hv2, m2, hm2, rfl⟩⟩ := arcRun_iff.1 h2
    · exact ⟨g, _, arcRun_iff.2 ⟨hf, Or.inl ⟨hv2, rfl⟩⟩, h1, .refl _⟩
    · refine ⟨_, _, arcRun_iff.2 ⟨hf, Or.inr ⟨hv2, m2, hm2, rfl⟩⟩, arcRun_iff.2 ⟨rfl, Or.inr ⟨hv, m, hm, rfl⟩⟩, ?_, ?_, rfl⟩
      · simp only [List.append_assoc]
        exact List.Perm.append_left _ (.swap _ _ _)
      · show max (max _ _) _ = max (max _ _) _
        omega

/-- Calls on two such graphs, in another order. -/
theorem SameUpTo.runs {es es' : List Edge} (hp : es.Perm es') : ∀ {g g' h : InputGraph}, SameUpTo g g' →
    forM (fun g (op : Op) => op.run P g) g (es.map arcOp) = .ok h →
    ∃ h', forM (fun g (op : Op) => op.run P g) g' (es'.map arcOp) = .ok h' ∧ SameUpTo h h' := by
  have same : ∀ (es : List Edge) {g g' h : InputGraph}, SameUpTo g g' →
      forM (fun g (op : Op) => op.run P g) g (es.map arcOp) = .ok h →
      ∃ h', forM (fun g (op : Op) => op.run P g) g' (es.map arcOp) = .ok h' ∧ SameUpTo h h' := by
    intro es
    induction es with
    | nil =>
      intro g g' h hs hr
      injection hr with hr; subst hr
      exact ⟨g', rfl, hs⟩
    | cons e es ih =>
      intro g g' h hs hr
      rw [List.map_cons, forM_cons] at hr
      obtain ⟨g1, h1, h2⟩ := bind_eq_ok.1 hr
      obtain ⟨g1', h1', hs1⟩ := hs.run e h1
      obtain ⟨h', k1, k2⟩ := ih hs1 h2
      refine ⟨h', ?_, k2⟩
      rw [List.map_cons, forM_cons, h1']
      exact k1
  induction hp with
  | nil => intro g g' h hs hr; exact same [] hs hr
  | cons e _ ih =>
    intro g g' h hs hr
    rw [List.map_cons, forM_cons] at hr
    obtain ⟨g1, h1, h2⟩ := bind_eq_ok.1 hr
    obtain ⟨g1', h1', hs1⟩ := hs.run e h1
    obtain ⟨h', k1, k2⟩ := ih hs1 h2
    refine ⟨h', ?_, k2⟩
    rw [List.map_cons, forM_cons, h1']
    exact k1
  | swap a b l =>
    intro g g' h hs hr
    obtain ⟨h1, hr1, hs1⟩ := same _ hs hr
    rw [List.map_cons, List.map_cons, forM_cons] at hr1
    obtain ⟨g1, k1, hr2⟩ := bind_eq_ok.1 hr1
    rw [forM_cons] at hr2
    obtain ⟨g2, k2, hr3⟩ := bind_eq_ok.1 hr2
    obtain ⟨g1', g2', k1', k2', hs2⟩ := SameUpTo.swap k1 k2
    obtain ⟨h', k3, hs3⟩ := same l hs2 hr3
    refine ⟨h', ?_, hs1.trans hs3⟩
    rw [List.map_cons, List.map_cons, forM_cons, k1']
    simp only [bind_okM]
    rw [forM_cons, k2']
    exact k3
  | trans _ _ ih1 ih2 =>
    intro g g' h hs hr
    obtain ⟨h1, k1, s1⟩ := ih1 hs hr
    obtain ⟨h2, k2, s2⟩ := ih2 (.refl _) k1
    exact ⟨h2, k2, s1.trans s2⟩

theorem buildGraph_perm {es es' : List Edge} (hp : es.Perm es') {g : InputGraph} (h : buildGraph P (addAll es) = .ok g) :
    buildGraph P (addAll es') = .ok g := by
  rw [build_addAll] at h ⊢
  obtain ⟨g1, h1, h2⟩ := bind_eq_ok.1 h
  obtain ⟨g1', h1', hs⟩ := SameUpTo.runs hp (.refl _) h1
  rw [h1']
  exact hs.freeze h2

theorem readText_perm {cs cs' : List Char} (hp : (lines cs).Perm (lines cs')) {g : InputGraph} (h : readText P cs = .ok g) :
    readText P cs' = .ok g := by
  obtain ⟨es, h1, h2⟩ := readText_ok.1 h
  obtain ⟨es', k1, k2⟩ := List.perm_comp_forall₂ (hp.symm.filter _) h1
  exact readText_ok.2 ⟨es', k1, buildGraph_perm k2.symm h2⟩

/-! ### DIMACS -/

theorem isComment_iff {l : List Char} : isComment l = true ↔ (l.isEmpty || startsWith l ['c']) = true := by
  cases l with
  | nil => simp [isComment]
  | cons c cs =>
    unfold isComment startsWith
    by_cases h : c = 'c'
    · subst h; simp
    · have h' : ('c' == c) = false := by
        rw [beq_eq_false_iff_ne]; exact fun hh => h hh.symm
      have h2 : List.isPrefixOf ['c'] (c :: cs) = false := by simp [List.isPrefixOf, h']
      split
      · rename_i heq; cases heq
      · rename_i heq; injection heq with heq _; exact absurd heq h
      · simp [h2]

theorem startsWith_problem {l : List Char} :
    startsWith l ['p', ' ', 's', 'p', ' '] = true ↔ ∃ rest, l = 'p' :: ' ' :: 's' :: 'p' :: ' ' :: rest := by
  unfold startsWith
  rw [List.isPrefixOf_iff_prefix]
  constructor
  · rintro ⟨t, rfl⟩; exact ⟨t, rfl⟩
  · rintro ⟨t, rfl⟩; exact ⟨t, rfl⟩

theorem comment_step {st : DimacsState} {l : List Char} (h : isComment l = true) : readDimacsLine P st l = .ok st := by
  unfold readDimacsLine
  rw [if_pos (isComment_iff.1 h)]

theorem isNumber_unique {w : List Char} {a b : Nat} (ha : IsNumber P w a) (hb : IsNumber P w b) : a = b := by
  have := parseUsize_some.2 ha
  rw [parseUsize_some.2 hb] at this
  exact (Option.some.inj this).symm

/-- A line lists at most one arc. -/
theorem isArcLine_unique {l : List Char} {e e' : Edge} (h : IsArcLine P l e) (h' : IsArcLine P l e') : e = e' := by
  obtain ⟨r1, e1, q1⟩ := h
  obtain ⟨r2, e2, q2⟩ := h'
  rw [e1] at e2
  injection e2 with _ e2; injection e2 with _ e2
  subst e2
  rw [isNumbers_iff] at q1 q2
  generalize splitWhitespace r1 = ws at q1 q2
  cases e; cases e'
  cases q1 with
  | cons a1 q1 =>
    cases q1 with
    | cons a2 q1 =>
      cases q1 with
      | cons a3 q1 =>
        cases q2 with
        | cons b1 q2 =>
          cases q2 with
          | cons b2 q2 =>
            cases q2 with
            | cons b3 q2 =>
              rw [Edge.mk.injEq]
              exact ⟨isNumber_unique a1 b1, isNumber_unique a2 b2, isNumber_unique a3 b3⟩

theorem forall₂_arc_unique : ∀ {ls : List (List Char)} {es es' : List Edge}, List.Forall₂ (IsArcLine P) ls es →
    List.Forall₂ (IsArcLine P) ls es' → es = es'
  | [], _, _, .nil, .nil => rfl
  | _ :: _, _, _, .cons h1 t1, .cons h2 t2 => by rw [isArcLine_unique h1 h2, forall₂_arc_unique t1 t2]

theorem IsArcLine.not_comment {l : List Char} {e : Edge} (h : IsArcLine P l e) : isComment l = false := by
  obtain ⟨rest, rfl, _⟩ := h
  rfl

theorem IsProblemLine.not_comment {l : List Char} {n m : Nat} (h : IsProblemLine P l n m) : isComment l = false := by
  obtain ⟨rest, rfl, _⟩ := h
  rfl

/-- A line after the problem line. -/
theorem arc_step {st st' : DimacsState} {l : List Char} (hf : st.foundProblemLine = true) (hc : isComment l = false)
    (hm : st.edges ≤ P.umax) : readDimacsLine P st l = .ok st' ↔ ∃ e, IsArcLine P l e ∧ (1 ≤ e.src ∧ e.src ≤ st.nodes) ∧
      (1 ≤ e.dst ∧ e.dst ≤ st.nodes) ∧ st.currEdges < st.edges ∧
      ∃ g', (arcOp (shiftEdge e)).run P st.g = .ok g' ∧ st' = { st with g := g', currEdges := st.currEdges + 1 } := by
  unfold readDimacsLine
  rw [if_neg (by rw [← isComment_iff]; simp [hc])]
  by_cases hp : startsWith l ['p', ' ', 's', 'p', ' '] = true
  · rw [if_pos hp, hf]
    constructor
    · intro h; cases h
    · rintro ⟨e, ⟨rest, rfl, _⟩, _⟩
      obtain ⟨r, hr⟩ := startsWith_problem.1 hp
      cases hr
  rw [if_neg hp]
  by_cases ha : startsWith l ['a', ' '] = true
  · rw [if_pos ha]
    rw [startsWith_eq] at ha
    constructor
    · intro h
      obtain ⟨_, h0, h⟩ := bind_eq_ok.1 h
      obtain ⟨⟨s, d, w⟩, h1, h⟩ := bind_eq_ok.1 h
      obtain ⟨_, h2, h⟩ := bind_eq_ok.1 h
      obtain ⟨_, h3, h⟩ := bind_eq_ok.1 h
      obtain ⟨_, h4, h⟩ := bind_eq_ok.1 h
      obtain ⟨⟨g', k⟩, h5, h⟩ := bind_eq_ok.1 h
      obtain ⟨c, h6, h⟩ := bind_eq_ok.1 h
      injection h with h
      rw [assertM_eq_ok] at h2 h3 h4
      simp only [Bool.and_eq_true, decide_eq_true_eq] at h2 h3 h4
      refine ⟨⟨s, d, w⟩, isArcLine_iff.2 ⟨ha, h1⟩, ⟨h4.1, h2.1⟩, ⟨h4.2, h2.2⟩, h3, g', ?_, ?_⟩
      · simp only [arcOp, Spec.Op.run, shiftEdge]
        rw [h5]; rfl
      · unfold addW at h6
        rw [if_pos (by omega)] at h6
        injection h6 with h6
        rw [← h, ← h6]
    · rintro ⟨e, he, h1, h2, h3, g', h5, rfl⟩
      rw [(isArcLine_iff.1 he).2, hf]
      simp only [arcOp, Spec.Op.run, shiftEdge] at h5
      obtain ⟨⟨g1, k⟩, h6, h7⟩ := bind_eq_ok.1 h5
      injection h7 with h7
      simp only at h7
      subst h7
      have a1 : assertM (decide (e.src ≤ st.nodes) && decide (e.dst ≤ st.nodes)) = .ok () :=
        assertM_eq_ok.2 (by simp [h1.2, h2.2])
      have a2 : assertM (decide (st.currEdges < st.edges)) = .ok () := assertM_eq_ok.2 (by simpa using h3)
      have a3 : assertM (decide (0 < e.src) && decide (0 < e.dst)) = .ok () :=
        assertM_eq_ok.2 (by simp; omega)
      have a4 : addW P st.currEdges 1 = .ok (st.currEdges + 1) := by unfold addW; rw [if_pos (by omega)]
      simp only [assertM, if_true, bind_okM]
      rw [show (if (decide (e.src ≤ st.nodes) && decide (e.dst ≤ st.nodes)) = true then Except.ok () else .error .assertion) = (.ok () : M Unit) from a1,
        show (if decide (st.currEdges < st.edges) = true then Except.ok () else .error .assertion) = (.ok () : M Unit) from a2,
        show (if (decide (0 < e.src) && decide (0 < e.dst)) = true then Except.ok () else .error .assertion) = (.ok () : M Unit) from a3, h6, a4]
      rfl
  · rw [if_neg ha]
    constructor
    · intro h; cases h
    · rintro ⟨e, he, _⟩
      rw [startsWith_eq] at ha
      exact absurd (isArcLine_iff.1 he).1 ha

/-- All lines after the problem line. -/
theorem arcs_loop : ∀ {ls : List (List Char)} {st st' : DimacsState}, st.foundProblemLine = true → st.edges ≤ P.umax →
    (forM (readDimacsLine P) st ls = .ok st' ↔ ∃ es, List.Forall₂ (IsArcLine P) (ls.filter (fun l => !isComment l)) es ∧
      (∀ e ∈ es, (1 ≤ e.src ∧ e.src ≤ st.nodes) ∧ (1 ≤ e.dst ∧ e.dst ≤ st.nodes)) ∧
      (es = [] ∨ st.currEdges + es.length ≤ st.edges) ∧
      ∃ g', forM (fun g (op : Op) => op.run P g) st.g ((es.map shiftEdge).map arcOp) = .ok g' ∧
        st' = { st with g := g', currEdges := st.currEdges + es.length })
  | [], st, st', _, _ => by
    constructor
    · intro h
      injection h with h; subst h
      exact ⟨[], .nil, by simp, Or.inl rfl, st.g, rfl, rfl⟩
    · rintro ⟨es, h1, _, _, g', h2, rfl⟩
      cases h1
      injection h2 with h2; subst h2
      rfl
  | l :: ls, st, st', hf, hm => by
    rw [forM_cons]
    cases hc : isComment l with
    | true =>
      rw [comment_step hc, List.filter_cons_of_neg (by simp [hc])]
      exact arcs_loop (ls := ls) hf hm
    | false =>
      rw [List.filter_cons_of_pos (by simp [hc])]
      constructor
      · intro h
        obtain ⟨st1, h1, h⟩ := bind_eq_ok.1 h
        obtain ⟨e, he, b1, b2, b3, g1, hr, rfl⟩ := (arc_step hf hc hm).1 h1
        obtain ⟨es, k1, k2, k3, g', k4, rfl⟩ := (arcs_loop (ls := ls) (st := { st with g := g1, currEdges := st.currEdges + 1 }) hf hm).1 h
        refine ⟨e :: es, .cons he k1, ?_, Or.inr ?_, g', ?_, ?_⟩
        · intro e' he'
          rcases List.mem_cons.1 he' with rfl | he'
          · exact ⟨b1, b2⟩
          · exact k2 e' he'
        · rcases k3 with rfl | k3
          · simp only [List.length_cons, List.length_nil]; omega
          · simp only at k3; simp only [List.length_cons]; omega
        · rw [List.map_cons, List.map_cons, forM_cons, hr]
          exact k4
        · simp only [List.length_cons]
          congr 1
          omega
      · rintro ⟨es, h1, h2, h3, g', h4, rfl⟩
        cases h1 with
        | cons he h1 =>
          rename_i e es
          rw [List.map_cons, List.map_cons, forM_cons] at h4
          obtain ⟨g1, k1, k2⟩ := bind_eq_ok.1 h4
          have hb := h2 e (by simp)
          have h3' : st.currEdges + (es.length + 1) ≤ st.edges := by
            rcases h3 with h3 | h3
            · cases h3
            · simpa using h3
          rw [(arc_step hf hc hm).2 ⟨e, he, hb.1, hb.2, by omega, g1, k1, rfl⟩]
          simp only [bind_okM]
          refine (arcs_loop (ls := ls) (st := { st with g := g1, currEdges := st.currEdges + 1 }) hf hm).2 ⟨es, h1, fun x hx => h2 x (by simp [hx]), Or.inr ?_, g', k2, ?_⟩
          · simp only; omega
          · simp only [List.length_cons]
            congr 1
            omega

/-- A line before the problem line. -/
theorem problem_step {st st' : DimacsState} {l : List Char} (hf : st.foundProblemLine = false) (hc : isComment l = false) :
    readDimacsLine P st l = .ok st' ↔ ∃ n m, IsProblemLine P l n m ∧
      st' = { st with nodes := n, edges := m, foundProblemLine := true } := by
  unfold readDimacsLine
  rw [if_neg (by rw [← isComment_iff]; simp [hc])]
  by_cases hp : startsWith l ['p', ' ', 's', 'p', ' '] = true
  · rw [if_pos hp, if_neg (by simp [hf])]
    obtain ⟨rest, rfl⟩ := startsWith_problem.1 hp
    have hdrop : List.drop 5 ('p' :: ' ' :: 's' :: 'p' :: ' ' :: rest) = rest := rfl
    rw [hdrop]
    constructor
    · intro h
      obtain ⟨⟨n, ws1⟩, h1, h⟩ := bind_eq_ok.1 h
      obtain ⟨⟨m, ws2⟩, h2, h⟩ := bind_eq_ok.1 h
      obtain ⟨_, h3, h⟩ := bind_eq_ok.1 h
      injection h with h
      obtain ⟨x1, e1, k1⟩ := nextNumber_ok.1 h1
      obtain ⟨x2, e2, k2⟩ := nextNumber_ok.1 h2
      have e3 : ws2 = [] := by simpa using assertM_eq_ok.1 h3
      refine ⟨n, m, ⟨rest, rfl, ?_⟩, h.symm⟩
      rw [isNumbers_iff, e1, e2, e3]
      exact .cons k1 (.cons k2 .nil)
    · rintro ⟨n, m, ⟨rest', hr, hn⟩, rfl⟩
      injection hr with _ hr; injection hr with _ hr; injection hr with _ hr; injection hr with _ hr; injection hr with _ hr
      subst hr
      rw [isNumbers_iff] at hn
      cases hs : splitWhitespace rest with
      | nil => rw [hs] at hn; cases hn
      | cons x1 t =>
        rw [hs] at hn
        cases hn with
        | cons k1 h =>
          cases h with
          | cons k2 h =>
            cases h
            rw [nextNumber_ok.2 ⟨_, rfl, k1⟩]
            simp only [bind_okM]
            rw [nextNumber_ok.2 ⟨_, rfl, k2⟩]
            rfl
  · rw [if_neg hp]
    have hno : ∀ n m, ¬ IsProblemLine P l n m := by
      rintro n m ⟨rest, rfl, _⟩
      exact hp (startsWith_problem.2 ⟨rest, rfl⟩)
    by_cases ha : startsWith l ['a', ' '] = true
    · rw [if_pos ha, hf]
      constructor
      · intro h; cases h
      · rintro ⟨n, m, h, _⟩; exact absurd h (hno n m)
    · rw [if_neg ha]
      constructor
      · intro h; cases h
      · rintro ⟨n, m, h, _⟩; exact absurd h (hno n m)

theorem dimacs_loop : ∀ {ls : List (List Char)} {st st' : DimacsState}, st.foundProblemLine = false →
    (forM (readDimacsLine P) st ls = .ok st' ↔ ((∀ l ∈ ls, isComment l = true) ∧ st' = st) ∨
      ∃ pre pl post n m, ls = pre ++ pl :: post ∧ (∀ l ∈ pre, isComment l = true) ∧ IsProblemLine P pl n m ∧
        forM (readDimacsLine P) { st with nodes := n, edges := m, foundProblemLine := true } post = .ok st')
  | [], st, st', _ => by
    constructor
    · intro h
      injection h with h; subst h
      exact Or.inl ⟨by simp, rfl⟩
    · rintro (⟨_, rfl⟩ | ⟨pre, pl, post, n, m, h, _⟩)
      · rfl
      · cases pre <;> cases h
  | l :: ls, st, st', hf => by
    rw [forM_cons]
    cases hc : isComment l with
    | true =>
      rw [comment_step hc]
      simp only [bind_okM]
      rw [dimacs_loop (ls := ls) hf]
      constructor
      · rintro (⟨h, rfl⟩ | ⟨pre, pl, post, n, m, rfl, h2, h3, h4⟩)
        · exact Or.inl ⟨by simpa [hc] using h, rfl⟩
        · exact Or.inr ⟨l :: pre, pl, post, n, m, rfl, by simpa [hc] using h2, h3, h4⟩
      · rintro (⟨h, rfl⟩ | ⟨pre, pl, post, n, m, h1, h2, h3, h4⟩)
        · exact Or.inl ⟨fun x hx => h x (by simp [hx]), rfl⟩
        · cases pre with
          | nil =>
            injection h1 with h1 _
            subst h1
            rw [IsProblemLine.not_comment h3] at hc; cases hc
          | cons p pre =>
            injection h1 with h1 h1'
            exact Or.inr ⟨pre, pl, post, n, m, h1', fun x hx => h2 x (by simp [hx]), h3, h4⟩
    | false =>
      constructor
      · intro h
        obtain ⟨st1, h1, h⟩ := bind_eq_ok.1 h
        obtain ⟨n, m, hp, rfl⟩ := (problem_step hf hc).1 h1
        exact Or.inr ⟨[], l, ls, n, m, rfl, by simp, hp, h⟩
      · rintro (⟨h, rfl⟩ | ⟨pre, pl, post, n, m, h1, h2, h3, h4⟩)
        · have := h l (by simp); rw [hc] at this; cases this
        · cases pre with
          | nil =>
            injection h1 with h1 h1'
            subst h1 h1'
            rw [(problem_step hf hc).2 ⟨n, m, h3, rfl⟩]
            exact h4
          | cons p pre =>
            injection h1 with h1 h1'
            subst h1
            have := h2 l (by simp); rw [hc] at this; cases this

theorem isNumbers_le {cs : List Char} {vs : List Nat} (h : IsNumbers P cs vs) : ∀ v ∈ vs, v ≤ P.umax := by
  induction h with
  | nil _ => simp
  | last _ hw _ => intro v hv; rw [List.mem_singleton.1 hv]; exact hw.1
  | cons _ hw _ _ ih =>
    intro v hv
    rcases List.mem_cons.1 hv with rfl | hv
    · exact hw.1
    · exact ih v hv

theorem readDimacs_ok {cs : List Char} {g : InputGraph} : readDimacs P cs = .ok g ↔
    ((∀ l ∈ lines cs, isComment l = true) ∧ g = ⟨[], 0, true⟩) ∨
    ∃ pre pl post n m es, lines cs = pre ++ pl :: post ∧ (∀ l ∈ pre, isComment l = true) ∧ IsProblemLine P pl n m ∧
      List.Forall₂ (IsArcLine P) (post.filter (fun l => !isComment l)) es ∧ es.length = m ∧
      (∀ e ∈ es, (1 ≤ e.src ∧ e.src ≤ n) ∧ (1 ≤ e.dst ∧ e.dst ≤ n)) ∧
      buildGraph P (addAll (es.map shiftEdge)) = .ok g := by
  unfold readDimacs
  constructor
  · intro h
    obtain ⟨st, h1, h⟩ := bind_eq_ok.1 h
    obtain ⟨_, h2, h⟩ := bind_eq_ok.1 h
    rcases (dimacs_loop rfl).1 h1 with ⟨hall, rfl⟩ | ⟨pre, pl, post, n, m, k1, k2, k3, k4⟩
    · refine Or.inl ⟨hall, ?_⟩
      injection h with h; exact h.symm
    · obtain ⟨rest, hrest, hnum⟩ := k3
      have hle := isNumbers_le hnum
      obtain ⟨es, i1, i2, i3, g', i4, rfl⟩ := (arcs_loop (P := P) (st := ⟨InputGraph.new, n, m, 0, true⟩) rfl
        (hle m (by simp))).1 k4
      refine Or.inr ⟨pre, pl, post, n, m, es, k1, k2, ⟨rest, hrest, hnum⟩, i1, ?_, i2, ?_⟩
      · simpa [assertM_eq_ok] using h2
      · rw [build_addAll, i4]; exact h
  · rintro (⟨hall, rfl⟩ | ⟨pre, pl, post, n, m, es, k1, k2, k3, i1, i2, i3, hb⟩)
    · rw [(dimacs_loop rfl).2 (Or.inl ⟨hall, rfl⟩)]
      rfl
    · rw [build_addAll] at hb
      obtain ⟨g', i4, hf⟩ := bind_eq_ok.1 hb
      have hle := isNumbers_le k3.choose_spec.2
      have := (arcs_loop (P := P) (st := ⟨InputGraph.new, n, m, 0, true⟩) rfl (hle m (by simp))).2
        ⟨es, i1, i3, Or.inr (by simp only; omega), g', i4, rfl⟩
      rw [(dimacs_loop rfl).2 (Or.inr ⟨pre, pl, post, n, m, k1, k2, k3, this⟩)]
      simp only [bind_okM]
      rw [show assertM (0 + es.length == m) = .ok () from assertM_eq_ok.2 (by simp [i2])]
      exact hf

/-! ### Round trips -/

theorem addEdge_num {g g' : InputGraph} {s d w k : Nat} {b : Bool} (hg : g.numNodes ≤ P.umax)
    (h : InputGraph.doAddEdge P g s d w b = .ok (g', k)) : g'.numNodes ≤ P.umax := by
  unfold InputGraph.doAddEdge at h
  by_cases h1 : g.frozen = true
  · rw [if_pos h1] at h; cases h
  rw [if_neg h1] at h
  by_cases h2 : (s == d) = true
  · rw [if_pos h2] at h; injection h with h; injection h with h; rw [← h]; exact hg
  rw [if_neg h2] at h
  by_cases h3 : w < 1
  · rw [if_pos h3] at h; injection h with h; injection h with h; rw [← h]; exact hg
  rw [if_neg h3] at h
  obtain ⟨m, hm, h⟩ := bind_eq_ok.1 h
  injection h with h; injection h with h
  have := addW_le hm
  rw [← h]
  show max _ _ ≤ _
  omega

/-- The node count is a machine word. -/
theorem buildGraph_num {ops : List Op} {g : InputGraph} (h : buildGraph P ops = .ok g) : g.numNodes ≤ P.umax := by
  refine forM_inv (f := fun g (op : Op) => op.run P g) (I := fun _ g => g.numNodes ≤ P.umax) ?_ ops [] _ _
    (Nat.zero_le _) h
  intro pre op g g' hg hr
  cases op with
  | addEdge s d w =>
    simp only [Spec.Op.run] at hr
    obtain ⟨⟨g1, k⟩, h1, h2⟩ := bind_eq_ok.1 hr
    injection h2 with h2; subst h2
    exact addEdge_num hg h1
  | addEdgeBidir s d w =>
    simp only [Spec.Op.run] at hr
    obtain ⟨⟨g1, k⟩, h1, h2⟩ := bind_eq_ok.1 hr
    injection h2 with h2; subst h2
    exact addEdge_num hg h1
  | freeze =>
    simp only [Spec.Op.run, InputGraph.freeze] at hr
    by_cases hf : g.frozen = true
    · rw [if_pos hf] at hr; cases hr
    · rw [if_neg hf] at hr; injection hr with hr; rw [← hr]; exact hg
  | thaw =>
    simp only [Spec.Op.run] at hr
    injection hr with hr; rw [← hr]; exact hg

theorem accepted_addAll {es : List Edge} (h : ∀ e ∈ es, e.src ≠ e.dst ∧ 1 ≤ e.weight) : accepted (addAll es) = es := by
  unfold addAll
  rw [accepted_append]
  have : accepted [Op.freeze] = [] := rfl
  rw [this, List.append_nil]
  induction es with
  | nil => rfl
  | cons e es ih =>
    have he := h e (by simp)
    have := ih (fun x hx => h x (by simp [hx]))
    simp only [accepted, List.map_cons, List.flatMap_cons] at this ⊢
    rw [this]
    simp only [Op.edges, if_pos he]
    rfl

theorem runs_ok {es : List Edge} (h : ∀ e ∈ es, max e.src e.dst + 1 ≤ P.umax) : ∀ {g : InputGraph}, g.frozen = false →
    ∃ g', forM (fun g (op : Op) => op.run P g) g (es.map arcOp) = .ok g' ∧ g'.frozen = false := by
  induction es with
  | nil => intro g hg; exact ⟨g, rfl, hg⟩
  | cons e es ih =>
    intro g hg
    have : ∃ g1, (arcOp e).run P g = .ok g1 ∧ g1.frozen = false := by
      by_cases hv : e.src ≠ e.dst ∧ 1 ≤ e.weight
      · refine ⟨_, arcRun_iff.2 ⟨hg, Or.inr ⟨hv, max e.src e.dst + 1, ?_, rfl⟩⟩, rfl⟩
        unfold addW
        rw [if_pos (h e (by simp))]
      · exact ⟨g, arcRun_iff.2 ⟨hg, Or.inl ⟨hv, rfl⟩⟩, hg⟩
    obtain ⟨g1, h1, h2⟩ := this
    obtain ⟨g', h3, h4⟩ := ih (fun x hx => h x (by simp [hx])) h2
    refine ⟨g', ?_, h4⟩
    rw [List.map_cons, forM_cons, h1]
    exact h3

/-- Adding the edges of a frozen graph to a new one gives the same graph. -/
theorem rebuild {acc : List Edge} {g : InputGraph} (h : GInv acc g) (hf : g.frozen = true) (hn : g.numNodes ≤ P.umax) :
    buildGraph P (addAll g.edges) = .ok g := by
  have hlt := (h.frozenOk hf).lt
  have hv : ∀ e ∈ g.edges, e.src ≠ e.dst ∧ 1 ≤ e.weight := fun e he => h.valid e (h.sub e he)
  obtain ⟨g1, h1, h2⟩ := runs_ok (P := P) (es := g.edges) (fun e he => by have := hlt e he; omega) (g := InputGraph.new) rfl
  have h3 : ∃ g2, g1.freeze = .ok g2 ∧ g2.frozen = true := by
    unfold InputGraph.freeze
    rw [if_neg (by simp [h2])]
    exact ⟨_, rfl, rfl⟩
  obtain ⟨g2, h3, h4⟩ := h3
  have hb : buildGraph P (addAll g.edges) = .ok g2 := by rw [build_addAll, h1]; exact h3
  have hacc := accepted_addAll hv
  have hnw : NoWrap P (accepted (addAll g.edges)) := by
    rw [hacc]
    exact Or.inr (Nat.le_trans (nodeCount_le hlt) hn)
  have hi := buildGraph_inv hnw hb
  rw [hacc] at hi
  rw [hb]
  congr 1
  refine hi.ext h h4 hf ?_
  intro u v w
  rw [← h.mem_iff hf]
  constructor
  · exact fun hm => hm.1
  · intro hm
    refine ⟨hm, ?_⟩
    intro w' hw'
    have := uniq_of_sorted (h.sorted hf) hm hw' ⟨rfl, rfl⟩
    injection this with _ _ h3
    omega

/-- A line of `arcLine` without its end. -/
def arcBody (s d w : Nat) : List Char := 'a' :: ' ' :: (showNat s ++ ' ' :: (showNat d ++ ' ' :: showNat w))

theorem arcLine_eq (s d w : Nat) : arcLine s d w = arcBody s d w ++ ['\n'] := by
  simp [arcLine, arcBody]

theorem showNat_plain (n : Nat) : ∀ c ∈ showNat n, Plain c :=
  fun c hc => plain_of_not_space ((showNat_decimal n).plain c hc)

theorem arcBody_plain (s d w : Nat) : '\n' ∉ arcBody s d w ∧ '\r' ∉ arcBody s d w := by
  unfold arcBody
  constructor
  · simp only [List.mem_cons, List.mem_append, not_or]
    exact ⟨by decide, by decide, fun h => (showNat_plain s _ h).nl rfl, by decide, fun h => (showNat_plain d _ h).nl rfl,
      by decide, fun h => (showNat_plain w _ h).nl rfl⟩
  · simp only [List.mem_cons, List.mem_append, not_or]
    exact ⟨by decide, by decide, fun h => (showNat_plain s _ h).cr rfl, by decide, fun h => (showNat_plain d _ h).cr rfl,
      by decide, fun h => (showNat_plain w _ h).cr rfl⟩

theorem arcBody_isArc {e : Edge} (hs : e.src ≤ P.umax) (hd : e.dst ≤ P.umax) (hw : e.weight ≤ P.umax) :
    IsArcLine P (arcBody e.src e.dst e.weight) e := by
  refine ⟨_, rfl, ?_⟩
  have nil : IsSpace ([] : List Char) := by intro c hc; simp at hc
  have h3 : IsNumbers P (showNat e.weight) [e.weight] := by
    have := IsNumbers.last (P := P) nil (showNat_number hw) nil
    simpa using this
  have h2 : IsNumbers P (showNat e.dst ++ ' ' :: showNat e.weight) [e.dst, e.weight] := by
    have := IsNumbers.cons (P := P) (c := ' ') nil (showNat_number hd) (by decide) h3
    simpa using this
  have := IsNumbers.cons (P := P) (c := ' ') nil (showNat_number hs) (by decide) h2
  simpa using this

theorem lines_arcs (es : List Edge) : lines (es.flatMap (fun e => arcLine e.src e.dst e.weight)) =
    es.map (fun e => arcBody e.src e.dst e.weight) := by
  induction es with
  | nil => rfl
  | cons e es ih =>
    rw [List.flatMap_cons, arcLine_eq, List.append_assoc, List.singleton_append,
      lines_cons _ (arcBody_plain _ _ _).1 (arcBody_plain _ _ _).2, ih]
    rfl

theorem forall₂_arcs {es : List Edge} (h : ∀ e ∈ es, e.src ≤ P.umax ∧ e.dst ≤ P.umax ∧ e.weight ≤ P.umax) :
    List.Forall₂ (IsArcLine P) (es.map (fun e => arcBody e.src e.dst e.weight)) es := by
  induction es with
  | nil => exact .nil
  | cons e es ih =>
    have he := h e (by simp)
    exact .cons (arcBody_isArc he.1 he.2.1 he.2.2) (ih (fun x hx => h x (by simp [hx])))

theorem filter_arcs {es : List Edge} : (es.map (fun e => arcBody e.src e.dst e.weight)).filter startsArc =
    es.map (fun e => arcBody e.src e.dst e.weight) := by
  rw [List.filter_eq_self]
  intro l hl
  obtain ⟨e, _, rfl⟩ := List.mem_map.1 hl
  rfl

theorem text_round_trip {acc : List Edge} {g : InputGraph} (h : GInv acc g) (hf : g.frozen = true) (hn : g.numNodes ≤ P.umax)
    (hw : ∀ e ∈ g.edges, e.weight ≤ P.umax) : ∃ txt, toText g = .ok txt ∧ readText P txt = .ok g := by
  have hlt := (h.frozenOk hf).lt
  refine ⟨g.edges.flatMap (fun e => arcLine e.src e.dst e.weight), ?_, ?_⟩
  · unfold toText InputGraph.getEdges InputGraph.checkFrozen
    rw [hf]; rfl
  · refine readText_ok.2 ⟨g.edges, ?_, rebuild h hf hn⟩
    rw [lines_arcs, filter_arcs]
    exact forall₂_arcs (fun e he => by have := hlt e he; have := hw e he; omega)

/-! #### DIMACS -/

/-- 1-based ids -/
def unshiftEdge (e : Edge) : Edge := ⟨e.src + 1, e.dst + 1, e.weight⟩

theorem shift_unshift (es : List Edge) : (es.map unshiftEdge).map shiftEdge = es := by
  rw [List.map_map]
  have : shiftEdge ∘ unshiftEdge = id := by
    funext e; cases e; rfl
  rw [this, List.map_id]

theorem toDimacs_loop {es : List Edge} (h : ∀ e ∈ es, e.src + 1 ≤ P.umax ∧ e.dst + 1 ≤ P.umax) : ∀ txt,
    forM (fun txt (e : Edge) => do
      let src ← addW P e.src 1
      let dst ← addW P e.dst 1
      (.ok (txt ++ arcLine src dst e.weight) : M (List Char))) txt es =
    .ok (txt ++ (es.map unshiftEdge).flatMap (fun e => arcLine e.src e.dst e.weight)) := by
  induction es with
  | nil => intro txt; simp
  | cons e es ih =>
    intro txt
    have he := h e (by simp)
    rw [forM_cons]
    unfold addW
    rw [if_pos he.1, if_pos he.2]
    simp only [bind_okM]
    have := ih (fun x hx => h x (by simp [hx])) (txt ++ arcLine (e.src + 1) (e.dst + 1) e.weight)
    unfold addW at this
    rw [this]
    simp [unshiftEdge]

/-- `problemLine` without its end. -/
def problemBody (n m : Nat) : List Char := ['p', ' ', 's', 'p', ' '] ++ (showNat n ++ ' ' :: showNat m)

theorem problemLine_eq (n m : Nat) : problemLine n m = problemBody n m ++ ['\n'] := by
  simp [problemLine, problemBody]

theorem problemBody_plain (n m : Nat) : '\n' ∉ problemBody n m ∧ '\r' ∉ problemBody n m := by
  unfold problemBody
  constructor
  · simp only [List.mem_cons, List.mem_append, List.not_mem_nil, or_false, not_or]
    exact ⟨by decide, fun h => (showNat_plain n _ h).nl rfl, by decide, fun h => (showNat_plain m _ h).nl rfl⟩
  · simp only [List.mem_cons, List.mem_append, List.not_mem_nil, or_false, not_or]
    exact ⟨by decide, fun h => (showNat_plain n _ h).cr rfl, by decide, fun h => (showNat_plain m _ h).cr rfl⟩

theorem problemBody_isProblem {n m : Nat} (hn : n ≤ P.umax) (hm : m ≤ P.umax) : IsProblemLine P (problemBody n m) n m := by
  refine ⟨_, rfl, ?_⟩
  have nil : IsSpace ([] : List Char) := by intro c hc; simp at hc
  have h3 : IsNumbers P (showNat m) [m] := by
    have := IsNumbers.last (P := P) nil (showNat_number hm) nil
    simpa using this
  have := IsNumbers.cons (P := P) (c := ' ') nil (showNat_number hn) (by decide) h3
  simpa using this

theorem dimacs_round_trip {acc : List Edge} {g : InputGraph} (h : GInv acc g) (hf : g.frozen = true)
    (hn : g.numNodes ≤ P.umax) (hw : ∀ e ∈ g.edges, e.weight ≤ P.umax) (hl : g.edges.length ≤ P.umax) :
    ∃ txt, toDimacsText P g = .ok txt ∧ readDimacs P txt = .ok g := by
  have hlt := (h.frozenOk hf).lt
  refine ⟨problemLine g.numNodes g.edges.length ++ (g.edges.map unshiftEdge).flatMap (fun e => arcLine e.src e.dst e.weight), ?_, ?_⟩
  · unfold toDimacsText
    rw [getNumNodes_frozen hf]
    unfold InputGraph.getEdges InputGraph.getNumEdges InputGraph.checkFrozen
    rw [hf]
    exact toDimacs_loop (fun e he => by have := hlt e he; omega) _
  · refine readDimacs_ok.2 (Or.inr ⟨[], problemBody g.numNodes g.edges.length,
      (g.edges.map unshiftEdge).map (fun e => arcBody e.src e.dst e.weight), g.numNodes, g.edges.length, g.edges.map unshiftEdge,
      ?_, by simp, problemBody_isProblem hn hl, ?_, by simp, ?_, ?_⟩)
    · rw [problemLine_eq, List.append_assoc, List.singleton_append, lines_cons _ (problemBody_plain _ _).1 (problemBody_plain _ _).2,
        lines_arcs]
      rfl
    · have : ∀ es : List Edge, (es.map (fun e => arcBody e.src e.dst e.weight)).filter (fun l => !isComment l) =
          es.map (fun e => arcBody e.src e.dst e.weight) := by
        intro es
        rw [List.filter_eq_self]
        intro l hl
        obtain ⟨e, _, rfl⟩ := List.mem_map.1 hl
        rfl
      rw [this]
      refine forall₂_arcs ?_
      intro e he
      obtain ⟨e', he', rfl⟩ := List.mem_map.1 he
      have := hlt e' he'
      have := hw e' he'
      simp only [unshiftEdge]
      omega
    · intro e he
      obtain ⟨e', he', rfl⟩ := List.mem_map.1 he
      have := hlt e' he'
      simp only [unshiftEdge]
      omega
    · rw [shift_unshift]
      exact rebuild h hf hn

end FP
