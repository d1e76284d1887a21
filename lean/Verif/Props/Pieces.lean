import Verif.Model.Builder
import Verif.Model.TextIO
/-! # Claims about single functions

Complements of C15, C26 and C69. -/
set_option autoImplicit false
namespace FP
namespace Props

/-- **C26, white space** The characters at which lines are split are the 25 characters with the Unicode property `White_Space`. -/
theorem C26_whitespace (c : Char) : TextIO.isWhitespace c = true ↔ c.toNat ∈
    [0x9, 0xA, 0xB, 0xC, 0xD, 0x20, 0x85, 0xA0, 0x1680, 0x2000, 0x2001, 0x2002, 0x2003, 0x2004, 0x2005, 0x2006, 0x2007, 0x2008, 0x2009,
      0x200A, 0x2028, 0x2029, 0x202F, 0x205F, 0x3000] := by
  simp only [TextIO.isWhitespace, Bool.or_eq_true, Bool.and_eq_true, decide_eq_true_eq, beq_iff_eq, List.mem_cons,
    List.not_mem_nil, or_false]
  omega

example : TextIO.isWhitespace '\t' = true ∧ TextIO.isWhitespace ' ' = true ∧ TextIO.isWhitespace '\u00A0' = true ∧
    TextIO.isWhitespace '\u200B' = false ∧ TextIO.isWhitespace '1' = false := by decide

theorem btreeInsert_sorted (k : Nat) {l : List Nat} (h : l.Pairwise (· < ·)) :
    (btreeInsert k l).Pairwise (· < ·) ∧ ∀ x, x ∈ btreeInsert k l ↔ x = k ∨ x ∈ l := by
  induction l with
  | nil => simp [btreeInsert]
  | cons y ys ih =>
    rw [List.pairwise_cons] at h
    obtain ⟨h1, h2⟩ := h
    obtain ⟨i1, i2⟩ := ih h2
    unfold btreeInsert
    by_cases hlt : k < y
    · rw [if_pos hlt]
      refine ⟨?_, fun x => by simp⟩
      rw [List.pairwise_cons, List.pairwise_cons]
      refine ⟨fun a ha => ?_, h1, h2⟩
      rcases List.mem_cons.1 ha with rfl | ha
      · exact hlt
      · exact Nat.lt_trans hlt (h1 a ha)
    · rw [if_neg hlt]
      by_cases he : k = y
      · subst he
        rw [if_pos (by simp)]
        refine ⟨List.pairwise_cons.2 ⟨h1, h2⟩, fun x => ?_⟩
        rw [List.mem_cons]
        exact ⟨Or.inr, fun h => h.elim Or.inl id⟩
      · rw [if_neg (by simpa using he)]
        refine ⟨List.pairwise_cons.2 ⟨fun a ha => ?_, i1⟩, fun x => ?_⟩
        · rcases (i2 a).1 ha with rfl | ha
          · omega
          · exact h1 a ha
        · rw [List.mem_cons, i2, List.mem_cons]
          exact or_left_comm

theorem foldl_btreeInsert (arcs : List Arc) : ∀ {l : List Nat}, l.Pairwise (· < ·) →
    (arcs.foldl (fun s a => btreeInsert a.adj s) l).Pairwise (· < ·) ∧
      ∀ x, x ∈ arcs.foldl (fun s a => btreeInsert a.adj s) l ↔ (∃ a ∈ arcs, a.adj = x) ∨ x ∈ l := by
  induction arcs with
  | nil => intro l h; exact ⟨h, fun x => by simp⟩
  | cons a as ih =>
    intro l h
    obtain ⟨h1, h2⟩ := btreeInsert_sorted a.adj h
    obtain ⟨h3, h4⟩ := ih h1
    refine ⟨h3, fun x => ?_⟩
    rw [List.foldl_cons, h4, h2]
    constructor
    · rintro (⟨b, hb, rfl⟩ | rfl | h)
      · exact Or.inl ⟨b, List.mem_cons_of_mem _ hb, rfl⟩
      · exact Or.inl ⟨a, List.mem_cons_self, rfl⟩
      · exact Or.inr h
    · rintro (⟨b, hb, rfl⟩ | h)
      · rcases List.mem_cons.1 hb with rfl | hb
        · exact Or.inr (Or.inl rfl)
        · exact Or.inl ⟨b, hb, rfl⟩
      · exact Or.inr (Or.inr h)

/-- **C69, the neighbors** After a contraction the priorities of exactly the neighbors are computed again, of each of them once, in
ascending order. -/
theorem C69_neighbors (outs ins : List Arc) :
    (neighborSet outs ins).Pairwise (· < ·) ∧
      ∀ x, x ∈ neighborSet outs ins ↔ (∃ a ∈ outs, a.adj = x) ∨ ∃ a ∈ ins, a.adj = x := by
  obtain ⟨h1, h2⟩ := foldl_btreeInsert outs (l := []) List.Pairwise.nil
  obtain ⟨h3, h4⟩ := foldl_btreeInsert ins h1
  refine ⟨h3, fun x => ?_⟩
  unfold neighborSet
  rw [h4, h2]
  simp only [List.not_mem_nil, or_false]
  exact Or.comm

example : neighborSet [⟨5, 1, 9⟩, ⟨2, 1, 9⟩] [⟨5, 3, 9⟩, ⟨7, 1, 9⟩, ⟨1, 1, 9⟩] = [1, 2, 5, 7] := by decide

/-- **C15, the length of vectors** A vector grows until its length is `usize::MAX`, then `push` panics with "capacity overflow". -/
theorem C15_push {α : Type} (P : Plat) (l : List α) (a : α) :
    vecPush P l a = if P.umax ≤ l.length then .error .capacity else .ok (l ++ [a]) := by
  unfold vecPush
  by_cases h : l.length < P.umax
  · rw [if_pos h, if_neg (by omega)]
  · rw [if_neg h, if_pos (by omega)]

example : vecPush ⟨3, true⟩ [1, 2] 3 = .ok [1, 2, 3] ∧ vecPush ⟨3, true⟩ [1, 2, 3] 4 = .error .capacity := ⟨rfl, rfl⟩

end Props
end FP
