import Verif.Model.TextBytes
import Verif.Proofs.Writer
import Verif.Proofs.TextIO
/-! # Text files as bytes -/
namespace FP
namespace TextBytes
open TextIO Writer

/-! ### UTF-8 -/

theorem char_valid (c : Char) : c.toNat < 0xD800 ∨ (0xDFFF < c.toNat ∧ c.toNat < 0x110000) := by
  have := c.valid
  simpa [UInt32.isValidChar, Nat.isValidChar] using this

theorem toNat_ofNat8 {k : Nat} (h : k < 256) : (UInt8.ofNat k).toNat = k := by
  simp; omega

/-- Decoding gives back an encoded character. -/
theorem decode_encodeChar (c : Char) (r : List UInt8) :
    utf8Decode (String.utf8EncodeChar c ++ r) = (utf8Decode r).map (c :: ·) := by
  have hv := char_valid c
  have hc : Char.ofNat c.toNat = c := Char.ofNat_toNat c
  have he : c.val.toNat = c.toNat := rfl
  unfold String.utf8EncodeChar
  simp only [he]
  generalize hn : c.toNat = v at *
  by_cases h1 : v ≤ 127
  · rw [if_pos h1]
    show utf8Decode (UInt8.ofNat v :: r) = _
    have e0 : (UInt8.ofNat v).toNat = v := toNat_ofNat8 (by omega)
    rw [utf8Decode.eq_def]
    simp only [e0]
    rw [if_pos h1, hc]
  · rw [if_neg h1]
    by_cases h2 : v ≤ 2047
    · rw [if_pos h2]
      show utf8Decode (UInt8.ofNat _ :: UInt8.ofNat _ :: r) = _
      have e0 : (UInt8.ofNat (v / 64 % 32 + 192)).toNat = v / 64 % 32 + 192 := toNat_ofNat8 (by omega)
      have e1 : (UInt8.ofNat (v % 64 + 128)).toNat = v % 64 + 128 := toNat_ofNat8 (by omega)
      rw [utf8Decode.eq_def]
      simp only [e0, e1, isCont]
      rw [if_neg (by omega), if_pos (by simp; omega), if_pos (by simp; omega)]
      rw [show (v / 64 % 32 + 192 - 0xC0) * 64 + (v % 64 + 128 - 0x80) = v by omega, hc]
    · rw [if_neg h2]
      by_cases h3 : v ≤ 65535
      · rw [if_pos h3]
        show utf8Decode (UInt8.ofNat _ :: UInt8.ofNat _ :: UInt8.ofNat _ :: r) = _
        have e0 : (UInt8.ofNat (v / 4096 % 16 + 224)).toNat = v / 4096 % 16 + 224 := toNat_ofNat8 (by omega)
        have e1 : (UInt8.ofNat (v / 64 % 64 + 128)).toNat = v / 64 % 64 + 128 := toNat_ofNat8 (by omega)
        have e2 : (UInt8.ofNat (v % 64 + 128)).toNat = v % 64 + 128 := toNat_ofNat8 (by omega)
        rw [utf8Decode.eq_def]
        simp only [e0, e1, e2, isCont]
        rw [if_neg (by omega), if_neg (by grind), if_pos (by grind), if_pos (by simp; omega)]
        rw [show (v / 4096 % 16 + 224 - 0xE0) * 4096 + (v / 64 % 64 + 128 - 0x80) * 64 + (v % 64 + 128 - 0x80) = v by omega, hc]
      · rw [if_neg h3]
        show utf8Decode (UInt8.ofNat _ :: UInt8.ofNat _ :: UInt8.ofNat _ :: UInt8.ofNat _ :: r) = _
        have e0 : (UInt8.ofNat (v / 262144 % 8 + 240)).toNat = v / 262144 % 8 + 240 := toNat_ofNat8 (by omega)
        have e1 : (UInt8.ofNat (v / 4096 % 64 + 128)).toNat = v / 4096 % 64 + 128 := toNat_ofNat8 (by omega)
        have e2 : (UInt8.ofNat (v / 64 % 64 + 128)).toNat = v / 64 % 64 + 128 := toNat_ofNat8 (by omega)
        have e3 : (UInt8.ofNat (v % 64 + 128)).toNat = v % 64 + 128 := toNat_ofNat8 (by omega)
        rw [utf8Decode.eq_def]
        simp only [e0, e1, e2, e3, isCont]
        rw [if_neg (by omega), if_neg (by grind), if_neg (by grind), if_pos (by grind),
          if_pos (by simp; omega)]
        rw [show (v / 262144 % 8 + 240 - 0xF0) * 262144 + (v / 4096 % 64 + 128 - 0x80) * 4096 +
          (v / 64 % 64 + 128 - 0x80) * 64 + (v % 64 + 128 - 0x80) = v by omega, hc]

/-- The bytes of a text. -/
def encode (cs : List Char) : List UInt8 := cs.flatMap String.utf8EncodeChar

@[simp] theorem encode_nil : encode [] = [] := rfl
theorem encode_cons (c : Char) (cs : List Char) : encode (c :: cs) = String.utf8EncodeChar c ++ encode cs := rfl
theorem encode_append (a b : List Char) : encode (a ++ b) = encode a ++ encode b := by simp [encode]

theorem decode_encode (cs : List Char) : utf8Decode (encode cs) = some cs := by
  induction cs with
  | nil => rfl
  | cons c cs ih => rw [encode_cons, decode_encodeChar, ih]; rfl

theorem toNat_charOfNat {v : Nat} (h : v < 0xD800 ∨ (0xDFFF < v ∧ v < 0x110000)) : (Char.ofNat v).toNat = v := by
  have hv : v.isValidChar := h
  unfold Char.ofNat
  rw [dif_pos hv]
  simp [Char.ofNatAux, Char.toNat, UInt32.toNat]

theorem ofNat_eq8 {b : UInt8} {k : Nat} (h : k = b.toNat) : UInt8.ofNat k = b := by
  subst h; simp

/-- Only the encoding of a text is decoded to it. -/
theorem decode_sound : ∀ (k : Nat) (b : List UInt8) (cs : List Char), b.length ≤ k → utf8Decode b = some cs → b = encode cs := by
  intro k
  induction k with
  | zero =>
    intro b cs hk h
    cases b with
    | nil => cases h; rfl
    | cons _ _ => simp at hk
  | succ k ih =>
    intro b cs hk h
    cases b with
    | nil => cases h; rfl
    | cons b0 r =>
      simp only [List.length_cons] at hk
      rw [utf8Decode.eq_def] at h
      simp only at h
      by_cases h1 : b0.toNat ≤ 0x7F
      · rw [if_pos h1] at h
        obtain ⟨cs', h2, rfl⟩ := Option.map_eq_some_iff.1 h
        have := ih r cs' (by omega) h2
        rw [encode_cons, ← this]
        have e : (Char.ofNat b0.toNat).val.toNat = b0.toNat := toNat_charOfNat (by omega)
        unfold String.utf8EncodeChar
        simp only [e]
        rw [if_pos h1]
        simp
      · rw [if_neg h1] at h
        by_cases h2 : (decide (0xC2 ≤ b0.toNat) && decide (b0.toNat ≤ 0xDF)) = true
        · rw [if_pos h2] at h
          simp only [Bool.and_eq_true, decide_eq_true_eq] at h2
          match r, h with
          | b1 :: r, h =>
            by_cases h3 : isCont b1 = true
            · simp only [h3, if_true] at h
              obtain ⟨cs', h4, rfl⟩ := Option.map_eq_some_iff.1 h
              simp only [List.length_cons] at hk
              have := ih r cs' (by omega) h4
              simp only [isCont, Bool.and_eq_true, decide_eq_true_eq] at h3
              have hb := b1.toNat_lt
              have e : (Char.ofNat ((b0.toNat - 0xC0) * 64 + (b1.toNat - 0x80))).val.toNat =
                  (b0.toNat - 0xC0) * 64 + (b1.toNat - 0x80) := toNat_charOfNat (by omega)
              rw [encode_cons, ← this]
              unfold String.utf8EncodeChar
              simp only [e]
              rw [if_neg (by omega), if_pos (by omega), ofNat_eq8 (b := b0) (by omega), ofNat_eq8 (b := b1) (by omega)]
              rfl
            · simp only [h3] at h; cases h
        · rw [if_neg h2] at h
          by_cases h3 : (decide (0xE0 ≤ b0.toNat) && decide (b0.toNat ≤ 0xEF)) = true
          · rw [if_pos h3] at h
            simp only [Bool.and_eq_true, decide_eq_true_eq] at h3
            match r, h with
            | [_], h => cases h
            | b1 :: b2 :: r, h =>
              simp only at h
              split at h
              · rename_i h5
                obtain ⟨cs', h4, rfl⟩ := Option.map_eq_some_iff.1 h
                simp only [List.length_cons] at hk
                have := ih r cs' (by omega) h4
                simp only [isCont, Bool.and_eq_true, Bool.or_eq_true, decide_eq_true_eq, bne_iff_ne] at h5
                have e : (Char.ofNat ((b0.toNat - 0xE0) * 4096 + (b1.toNat - 0x80) * 64 + (b2.toNat - 0x80))).val.toNat =
                    (b0.toNat - 0xE0) * 4096 + (b1.toNat - 0x80) * 64 + (b2.toNat - 0x80) := toNat_charOfNat (by omega)
                rw [encode_cons, ← this]
                unfold String.utf8EncodeChar
                simp only [e]
                rw [if_neg (by omega), if_neg (by omega), if_pos (by omega), ofNat_eq8 (b := b0) (by omega),
                  ofNat_eq8 (b := b1) (by omega), ofNat_eq8 (b := b2) (by omega)]
                rfl
              · cases h
          · rw [if_neg h3] at h
            by_cases h4 : (decide (0xF0 ≤ b0.toNat) && decide (b0.toNat ≤ 0xF4)) = true
            · rw [if_pos h4] at h
              simp only [Bool.and_eq_true, decide_eq_true_eq] at h4
              match r, h with
              | [_], h => cases h
              | [_, _], h => cases h
              | b1 :: b2 :: b3 :: r, h =>
                simp only at h
                split at h
                · rename_i h5
                  obtain ⟨cs', h4, rfl⟩ := Option.map_eq_some_iff.1 h
                  simp only [List.length_cons] at hk
                  have := ih r cs' (by omega) h4
                  simp only [isCont, Bool.and_eq_true, Bool.or_eq_true, decide_eq_true_eq, bne_iff_ne] at h5
                  have e : (Char.ofNat ((b0.toNat - 0xF0) * 262144 + (b1.toNat - 0x80) * 4096 + (b2.toNat - 0x80) * 64 +
                      (b3.toNat - 0x80))).val.toNat = (b0.toNat - 0xF0) * 262144 + (b1.toNat - 0x80) * 4096 +
                      (b2.toNat - 0x80) * 64 + (b3.toNat - 0x80) := toNat_charOfNat (by omega)
                  rw [encode_cons, ← this]
                  unfold String.utf8EncodeChar
                  simp only [e]
                  rw [if_neg (by omega), if_neg (by omega), if_neg (by omega), ofNat_eq8 (b := b0) (by omega),
                    ofNat_eq8 (b := b1) (by omega), ofNat_eq8 (b := b2) (by omega), ofNat_eq8 (b := b3) (by omega)]
                  rfl
                · cases h
            · rw [if_neg h4] at h; cases h

theorem decode_eq_some {b : List UInt8} {cs : List Char} : utf8Decode b = some cs ↔ b = encode cs :=
  ⟨decode_sound _ b cs (Nat.le_refl _), by rintro rfl; exact decode_encode cs⟩

/-! ### Lines -/

/-- Lines of a text with their line ends. -/
def charLinesFrom (acc : List Char) : List Char → List (List Char)
  | [] => if acc.isEmpty then [] else [acc.reverse]
  | c :: cs => if c = '\n' then (c :: acc).reverse :: charLinesFrom [] cs else charLinesFrom (c :: acc) cs

theorem encode_newline : String.utf8EncodeChar '\n' = [10] := by decide

theorem encode_no_newline {c : Char} (hc : c ≠ '\n') : ∀ b ∈ String.utf8EncodeChar c, b ≠ 10 := by
  have hn : c.toNat ≠ 10 := fun h => hc (by rw [← Char.ofNat_toNat c, h])
  have he : c.val.toNat = c.toNat := rfl
  have key : ∀ k, k < 256 → k ≠ 10 → UInt8.ofNat k ≠ 10 := by
    intro k h1 h2 h3
    have := congrArg UInt8.toNat h3
    rw [toNat_ofNat8 h1] at this
    exact h2 this
  intro b hb
  unfold String.utf8EncodeChar at hb
  simp only [he] at hb
  generalize c.toNat = v at *
  split at hb
  · simp only [List.mem_singleton] at hb
    subst hb
    have : Nat.toUInt8 v = UInt8.ofNat v := rfl
    exact key v (by omega) hn
  · split at hb
    · simp only [List.mem_cons, List.not_mem_nil, or_false] at hb
      rcases hb with rfl | rfl <;> exact key _ (by omega) (by omega)
    · split at hb
      · simp only [List.mem_cons, List.not_mem_nil, or_false] at hb
        rcases hb with rfl | rfl | rfl <;> exact key _ (by omega) (by omega)
      · simp only [List.mem_cons, List.not_mem_nil, or_false] at hb
        rcases hb with rfl | rfl | rfl | rfl <;> exact key _ (by omega) (by omega)

theorem rawLinesFrom_append (xs : List UInt8) (hx : ∀ b ∈ xs, b ≠ 10) (acc r : List UInt8) :
    rawLinesFrom acc (xs ++ r) = rawLinesFrom (xs.reverse ++ acc) r := by
  induction xs generalizing acc with
  | nil => rfl
  | cons x xs ih =>
    rw [List.cons_append, rawLinesFrom, if_neg (hx x (by simp)), ih (fun b hb => hx b (by simp [hb]))]
    simp

theorem encode_eq_nil {cs : List Char} : encode cs = [] ↔ cs = [] := by
  constructor
  · intro h
    have := decode_encode cs
    rw [h] at this
    cases this
    rfl
  · rintro rfl; rfl

theorem rawLinesFrom_encode (cs acc : List Char) :
    rawLinesFrom (encode acc.reverse).reverse (encode cs) = (charLinesFrom acc cs).map encode := by
  induction cs generalizing acc with
  | nil =>
    simp only [encode_nil, rawLinesFrom, charLinesFrom, List.isEmpty_iff, List.reverse_eq_nil_iff, encode_eq_nil]
    by_cases h : acc = []
    · simp [h]
    · simp [h]
  | cons c cs ih =>
    rw [encode_cons, charLinesFrom]
    by_cases hc : c = '\n'
    · subst hc
      rw [encode_newline, List.singleton_append, rawLinesFrom, if_pos rfl, if_pos rfl]
      have := ih []
      simp only [List.reverse_nil, encode_nil] at this
      rw [this]
      simp [encode_append, encode_cons, encode_newline]
    · rw [if_neg hc, rawLinesFrom_append _ (encode_no_newline hc), ← ih (c :: acc)]
      congr 1
      simp [encode_append, encode_cons]

theorem rawLines_encode (cs : List Char) : rawLines (encode cs) = (charLinesFrom [] cs).map encode :=
  rawLinesFrom_encode cs []

theorem linesFrom_strip (cs acc : List Char) (ha : '\n' ∉ acc) : linesFrom acc cs = (charLinesFrom acc cs).map stripEnd := by
  induction cs generalizing acc with
  | nil =>
    rw [linesFrom, charLinesFrom]
    by_cases h : acc.isEmpty = true
    · simp [h]
    · rw [if_neg h]
      try rw [if_neg h]
      simp only [List.map_cons, List.map_nil, List.cons.injEq, and_true]
      unfold stripEnd
      rw [List.reverse_reverse]
      split
      · simp at ha
      · simp at ha
      · rfl
  | cons c cs ih =>
    rw [linesFrom.eq_def, charLinesFrom]
    simp only
    by_cases hc : c = '\n'
    · subst hc
      rw [if_pos rfl, if_pos rfl, ih [] (by simp)]
      simp only [List.map_cons, List.cons.injEq, and_true]
      unfold stripEnd
      rw [List.reverse_reverse]
      split
      · rfl
      · rename_i x h
        split
        · rename_i h1; simp only [List.cons.injEq, true_and] at h1; exact absurd h1 (h _)
        · rename_i h1; simp only [List.cons.injEq, true_and] at h1; rw [h1]
        · rename_i h1; exact absurd rfl (h1 _)
    · rw [if_neg hc, if_neg hc, ih (c :: acc) (by simp [Ne.symm hc, ha])]

theorem lines_strip (cs : List Char) : lines cs = (charLinesFrom [] cs).map stripEnd :=
  linesFrom_strip cs [] (by simp)

theorem rawLinesFrom_flatten (bs acc : List UInt8) : (rawLinesFrom acc bs).flatten = acc.reverse ++ bs := by
  induction bs generalizing acc with
  | nil =>
    rw [rawLinesFrom]
    split
    · rename_i h; simp [List.isEmpty_iff.1 h]
    · simp
  | cons b bs ih =>
    rw [rawLinesFrom]
    split
    · simp [ih]
    · rw [ih]; simp

theorem rawLines_flatten (bs : List UInt8) : (rawLines bs).flatten = bs := by
  show (rawLinesFrom [] bs).flatten = bs
  simpa using rawLinesFrom_flatten bs []

/-! ### Reading -/

theorem withLine_encode {σ : Type} (f : σ → List Char → M σ) (s : σ) (l : List Char) : withLine f s (encode l) = f s (stripEnd l) := by
  unfold withLine
  rw [decode_encode]
  rfl

theorem forM_withLine_encode {σ : Type} (f : σ → List Char → M σ) (s : σ) (L : List (List Char)) :
    forM (withLine f) s (L.map encode) = forM f s (L.map stripEnd) := by
  induction L generalizing s with
  | nil => rfl
  | cons l L ih =>
    rw [List.map_cons, List.map_cons, forM_cons, forM_cons, withLine_encode]
    congr 1
    funext s'
    exact ih s'

/-- A loop over the lines of a file that is a text. -/
theorem forM_rawLines_encode {σ : Type} (f : σ → List Char → M σ) (s : σ) (cs : List Char) :
    forM (withLine f) s (rawLines (encode cs)) = forM f s (lines cs) := by
  rw [rawLines_encode, lines_strip, forM_withLine_encode]

theorem decode_of_forM {σ : Type} (f : σ → List Char → M σ) (L : List (List UInt8)) (s s' : σ)
    (h : forM (withLine f) s L = .ok s') : ∃ cs, L.flatten = encode cs := by
  induction L generalizing s with
  | nil => exact ⟨[], rfl⟩
  | cons l L ih =>
    rw [forM_cons] at h
    obtain ⟨s1, h1, h2⟩ := bind_eq_ok.1 h
    obtain ⟨cs, h3⟩ := ih s1 h2
    unfold withLine at h1
    cases hd : utf8Decode l with
    | none => rw [hd] at h1; cases h1
    | some t =>
      have := decode_eq_some.1 hd
      exact ⟨t ++ cs, by rw [List.flatten_cons, h3, encode_append, this]⟩

/-- A loop over the lines of any file that ends well. -/
theorem forM_rawLines_ok {σ : Type} (f : σ → List Char → M σ) (s s' : σ) (b : List UInt8) :
    forM (withLine f) s (rawLines b) = .ok s' ↔ ∃ cs, b = encode cs ∧ forM f s (lines cs) = .ok s' := by
  constructor
  · intro h
    obtain ⟨cs, h1⟩ := decode_of_forM f _ s s' h
    rw [rawLines_flatten] at h1
    subst h1
    exact ⟨cs, rfl, by rw [← forM_rawLines_encode]; exact h⟩
  · rintro ⟨cs, rfl, h⟩
    rw [forM_rawLines_encode]; exact h

theorem fromFile_encode (P : Plat) (cs : List Char) : fromFile P (some (encode cs)) = readText P cs := by
  unfold fromFile readText
  simp only [unwrap, bind_okM]
  rw [forM_rawLines_encode]

theorem fromDimacsFile_encode (P : Plat) (cs : List Char) : fromDimacsFile P (some (encode cs)) = readDimacs P cs := by
  unfold fromDimacsFile readDimacs
  simp only [unwrap, bind_okM]
  rw [forM_rawLines_encode]

theorem fromFile_ok {P : Plat} {d : Disk} {g : InputGraph} :
    fromFile P d = .ok g ↔ ∃ cs, d = some (encode cs) ∧ readText P cs = .ok g := by
  constructor
  · intro h
    cases d with
    | none => cases h
    | some b =>
      have h0 := h
      unfold fromFile at h
      simp only [unwrap, bind_okM] at h
      obtain ⟨s, h1, _⟩ := bind_eq_ok.1 h
      obtain ⟨cs, rfl, _⟩ := (forM_rawLines_ok _ _ _ _).1 h1
      exact ⟨cs, rfl, by rw [← fromFile_encode]; exact h0⟩
  · rintro ⟨cs, rfl, h⟩
    rw [fromFile_encode]; exact h

theorem fromDimacsFile_ok {P : Plat} {d : Disk} {g : InputGraph} :
    fromDimacsFile P d = .ok g ↔ ∃ cs, d = some (encode cs) ∧ readDimacs P cs = .ok g := by
  constructor
  · intro h
    cases d with
    | none => cases h
    | some b =>
      have h0 := h
      unfold fromDimacsFile at h
      simp only [unwrap, bind_okM] at h
      obtain ⟨s, h1, _⟩ := bind_eq_ok.1 h
      obtain ⟨cs, rfl, _⟩ := (forM_rawLines_ok _ _ _ _).1 h1
      exact ⟨cs, rfl, by rw [← fromDimacsFile_encode]; exact h0⟩
  · rintro ⟨cs, rfl, h⟩
    rw [fromDimacsFile_encode]; exact h

/-! ### Writing -/

theorem encode_ascii {cs : List Char} (h : ∀ c ∈ cs, c.toNat ≤ 127) : encode cs = cs.map asciiByte := by
  induction cs with
  | nil => rfl
  | cons c cs ih =>
    rw [encode_cons, List.map_cons, ih (fun d hd => h d (by simp [hd]))]
    have he : c.val.toNat = c.toNat := rfl
    have h1 := h c (by simp)
    unfold String.utf8EncodeChar
    simp only [he]
    rw [if_pos h1]
    rfl

theorem showNat_ascii (n : Nat) : ∀ c ∈ showNat n, c.toNat ≤ 127 := by
  intro c hc
  have h : c.toNat ≤ 57 := ((showNat_decimal n).2.1 c hc).2
  omega

theorem arcLine_ascii (s d w : Nat) : ∀ c ∈ arcLine s d w, c.toNat ≤ 127 := by
  intro c hc
  simp only [arcLine, List.mem_cons, List.mem_append, List.not_mem_nil, or_false] at hc
  rcases hc with rfl | rfl | hc | rfl | hc | rfl | hc | rfl
  · decide
  · decide
  · exact showNat_ascii _ c hc
  · decide
  · exact showNat_ascii _ c hc
  · decide
  · exact showNat_ascii _ c hc
  · decide

theorem problemLine_ascii (n m : Nat) : ∀ c ∈ problemLine n m, c.toNat ≤ 127 := by
  intro c hc
  simp only [problemLine, List.mem_cons, List.mem_append, List.not_mem_nil, or_false] at hc
  rcases hc with ((rfl | rfl | rfl | rfl | rfl) | hc) | rfl | hc | rfl
  · decide
  · decide
  · decide
  · decide
  · decide
  · exact showNat_ascii _ c hc
  · decide
  · exact showNat_ascii _ c hc
  · decide

theorem toText_ascii {g : InputGraph} {txt : List Char} (h : toText g = .ok txt) : ∀ c ∈ txt, c.toNat ≤ 127 := by
  unfold toText at h
  obtain ⟨es, _, h2⟩ := bind_eq_ok.1 h
  injection h2 with h2
  subst h2
  intro c hc
  obtain ⟨e, _, hc⟩ := List.mem_flatMap.1 hc
  exact arcLine_ascii _ _ _ c hc

theorem toDimacsText_ascii {P : Plat} {g : InputGraph} {txt : List Char} (h : toDimacsText P g = .ok txt) :
    ∀ c ∈ txt, c.toNat ≤ 127 := by
  unfold toDimacsText at h
  obtain ⟨n, _, h⟩ := bind_eq_ok.1 h
  obtain ⟨m, _, h⟩ := bind_eq_ok.1 h
  obtain ⟨es, _, h⟩ := bind_eq_ok.1 h
  have key : ∀ (es : List Edge) (t0 : List Char), (∀ c ∈ t0, c.toNat ≤ 127) →
      forM (fun txt (e : Edge) => do
        let src ← addW P e.src 1
        let dst ← addW P e.dst 1
        (.ok (txt ++ arcLine src dst e.weight) : M (List Char))) t0 es = .ok txt → ∀ c ∈ txt, c.toNat ≤ 127 := by
    intro es
    induction es with
    | nil =>
      intro t0 h0 h1
      rw [forM] at h1
      injection h1 with h1
      subst h1
      exact h0
    | cons e es ih =>
      intro t0 h0 h1
      rw [forM_cons] at h1
      obtain ⟨t1, h2, h3⟩ := bind_eq_ok.1 h1
      refine ih t1 ?_ h3
      obtain ⟨a, _, h4⟩ := bind_eq_ok.1 h2
      obtain ⟨b, _, h5⟩ := bind_eq_ok.1 h4
      injection h5 with h5
      subst h5
      intro c hc
      rcases List.mem_append.1 hc with hc | hc
      · exact h0 c hc
      · exact arcLine_ascii _ _ _ c hc
  exact key es _ (problemLine_ascii _ _) h

theorem ascii_prefix {a t : List Char} (h : a <+: t) (ht : ∀ c ∈ t, c.toNat ≤ 127) : a.map asciiByte <+: encode t := by
  rw [encode_ascii ht]
  exact h.map asciiByte

theorem save_create {env : Env} {d : Disk} {run : M (File × Bool)} (h : env.create = false) : save env d run = (d, .err) := by
  unfold save; rw [h]; rfl

theorem save_panic {env : Env} {d : Disk} {p : Panic} (h : env.create = true) : save env d (.error p) = (some [], .panic p) := by
  unfold save; rw [h]; rfl

theorem save_ok {env : Env} {d : Disk} {f : File} {ok : Bool} (h : env.create = true) :
    save env d (.ok (f, ok)) = (some (f.bytes.map asciiByte), if ok then .ok else .err) := by
  unfold save; rw [h]; cases ok <;> rfl

end TextBytes

end FP
