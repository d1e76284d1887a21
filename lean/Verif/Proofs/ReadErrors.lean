import Verif.Proofs.TextIO
/-! # How the text readers fail -/
set_option autoImplicit false
namespace FP
open Spec TextIO
variable {P : Plat}

theorem bind_eq_error {α β : Type} {m : M α} {f : α → M β} {x : Panic} :
    (m >>= f) = .error x ↔ m = .error x ∨ ∃ a, m = .ok a ∧ f a = .error x := by
  cases m with
  | error e => exact ⟨fun h => Or.inl (by injection h with h; rw [h]), fun h => by
      rcases h with h | ⟨a, h, _⟩
      · injection h with h; rw [h]; rfl
      · cases h⟩
  | ok a => exact ⟨fun h => Or.inr ⟨a, rfl, h⟩, fun h => by
      rcases h with h | ⟨b, h, h'⟩
      · cases h
      · injection h with h; subst h; exact h'⟩

theorem assertM_error {b : Bool} {x : Panic} (h : assertM b = .error x) : x = .assertion := by
  unfold assertM at h
  split at h
  · cases h
  · injection h with h; exact h.symm

theorem nextNumber_error {ws : List (List Char)} {x : Panic} (h : nextNumber P ws = .error x) : x = .assertion := by
  cases ws with
  | nil => injection h with h; exact h.symm
  | cons w ws =>
    rcases bind_eq_error.1 h with h | ⟨a, _, h⟩
    · unfold unwrap at h
      split at h
      · cases h
      · injection h with h; exact h.symm
    · cases h

theorem readArcLine_error {l : List Char} {x : Panic} (h : readArcLine P l = .error x) : x = .assertion := by
  unfold readArcLine at h
  rcases bind_eq_error.1 h with h | ⟨⟨_, _⟩, _, h⟩
  · exact nextNumber_error h
  rcases bind_eq_error.1 h with h | ⟨⟨_, _⟩, _, h⟩
  · exact nextNumber_error h
  rcases bind_eq_error.1 h with h | ⟨⟨_, _⟩, _, h⟩
  · exact nextNumber_error h
  rcases bind_eq_error.1 h with h | ⟨_, _, h⟩
  · exact assertM_error h
  · cases h

/-- Adding the edge overflows. -/
def TooLarge (P : Plat) (e : Edge) : Prop :=
  P.checked = true ∧ e.src ≠ e.dst ∧ 1 ≤ e.weight ∧ P.umax ≤ max e.src e.dst

theorem addEdge_cases {g : InputGraph} {s d w : Nat} (hf : g.frozen = false) :
    (TooLarge P ⟨s, d, w⟩ ∧ g.addEdge P s d w = .error .overflow) ∨
    (¬ TooLarge P ⟨s, d, w⟩ ∧ ∃ g' k, g.addEdge P s d w = .ok (g', k) ∧ g'.frozen = false) := by
  unfold TooLarge InputGraph.addEdge InputGraph.doAddEdge
  rw [hf]
  by_cases h1 : s = d
  · subst h1
    exact Or.inr ⟨by simp, g, 0, by simp, hf⟩
  by_cases h2 : w < 1
  · refine Or.inr ⟨fun h => by simp only at h; omega, g, 0, ?_, hf⟩
    simp [h2, h1]
  rw [if_neg (by simp), if_neg (by simpa using h1), if_neg h2]
  unfold addW
  by_cases h3 : max s d + 1 ≤ P.umax
  · rw [if_pos h3]
    exact Or.inr ⟨fun h => by simp only at h; omega, _, _, rfl, rfl⟩
  · rw [if_neg h3]
    cases hc : P.checked with
    | true => exact Or.inl ⟨⟨rfl, h1, by simp only; omega, by simp only; omega⟩, rfl⟩
    | false => exact Or.inr ⟨fun h => (by cases h.1), _, _, rfl, rfl⟩

/-- What one line does to a graph that is not frozen. -/
theorem readTextLine_cases {g : InputGraph} (hf : g.frozen = false) (l : List Char) :
    (startsArc l = true ∧ (∀ e, ¬ IsArcLine P l e) ∧ readTextLine P g l = .error .assertion) ∨
    (∃ e, IsArcLine P l e ∧ TooLarge P e ∧ readTextLine P g l = .error .overflow) ∨
    ((startsArc l = true → ∃ e, IsArcLine P l e ∧ ¬ TooLarge P e) ∧ ∃ g', readTextLine P g l = .ok g' ∧ g'.frozen = false) := by
  unfold readTextLine
  rw [startsWith_eq]
  cases hs : startsArc l with
  | false => exact Or.inr (Or.inr ⟨fun h => (by cases h), g, rfl, hf⟩)
  | true =>
    rw [if_pos rfl]
    cases hr : readArcLine P l with
    | error x =>
      refine Or.inl ⟨rfl, fun e he => ?_, ?_⟩
      · rw [(isArcLine_iff.1 he).2] at hr; cases hr
      · rw [readArcLine_error hr]; rfl
    | ok q =>
      obtain ⟨s, d, w⟩ := q
      have he : IsArcLine P l ⟨s, d, w⟩ := isArcLine_iff.2 ⟨hs, hr⟩
      rcases addEdge_cases (P := P) (s := s) (d := d) (w := w) hf with ⟨h1, h2⟩ | ⟨h1, g', k, h2, h3⟩
      · exact Or.inr (Or.inl ⟨_, he, h1, by simp only [bind_okM]; rw [h2]; rfl⟩)
      · exact Or.inr (Or.inr ⟨fun _ => ⟨_, he, h1⟩, g', by simp only [bind_okM]; rw [h2]; rfl, h3⟩)

/-- The line is skipped or lists an arc that can be added. -/
def LineFine (P : Plat) (l : List Char) : Prop := startsArc l = true → ∃ e, IsArcLine P l e ∧ ¬ TooLarge P e

theorem readText_loop_cases : ∀ (ls : List (List Char)) {g : InputGraph}, g.frozen = false →
    (∃ pre l post, ls = pre ++ l :: post ∧ (∀ x ∈ pre, LineFine P x) ∧ startsArc l = true ∧ (∀ e, ¬ IsArcLine P l e) ∧
      forM (readTextLine P) g ls = .error .assertion) ∨
    (∃ pre l post e, ls = pre ++ l :: post ∧ (∀ x ∈ pre, LineFine P x) ∧ IsArcLine P l e ∧ TooLarge P e ∧
      forM (readTextLine P) g ls = .error .overflow) ∨
    ((∀ x ∈ ls, LineFine P x) ∧ ∃ g', forM (readTextLine P) g ls = .ok g' ∧ g'.frozen = false)
  | [], g, hf => Or.inr (Or.inr ⟨by simp, g, rfl, hf⟩)
  | l :: ls, g, hf => by
    rw [forM_cons]
    rcases readTextLine_cases (P := P) hf l with ⟨h1, h2, h3⟩ | ⟨e, h1, h2, h3⟩ | ⟨h1, g', h2, h3⟩
    · exact Or.inl ⟨[], l, ls, rfl, by simp, h1, h2, by rw [h3]; rfl⟩
    · exact Or.inr (Or.inl ⟨[], l, ls, e, rfl, by simp, h1, h2, by rw [h3]; rfl⟩)
    · rw [h2]
      simp only [bind_okM]
      rcases readText_loop_cases ls h3 with ⟨pre, x, post, rfl, k1, k2⟩ | ⟨pre, x, post, e, rfl, k1, k2⟩ | ⟨k1, k2⟩
      · refine Or.inl ⟨l :: pre, x, post, rfl, fun y hy => ?_, k2⟩
        rcases List.mem_cons.1 hy with rfl | hy
        · exact h1
        · exact k1 y hy
      · refine Or.inr (Or.inl ⟨l :: pre, x, post, e, rfl, fun y hy => ?_, k2⟩)
        rcases List.mem_cons.1 hy with rfl | hy
        · exact h1
        · exact k1 y hy
      · refine Or.inr (Or.inr ⟨fun y hy => ?_, k2⟩)
        rcases List.mem_cons.1 hy with rfl | hy
        · exact h1
        · exact k1 y hy

theorem freeze_notFrozen {g : InputGraph} (hf : g.frozen = false) : ∃ g', g.freeze = .ok g' := by
  unfold InputGraph.freeze
  rw [hf]
  exact ⟨_, rfl⟩

/-- The three ways reading a text file ends. -/
theorem readText_cases (cs : List Char) :
    (∃ pre l post, lines cs = pre ++ l :: post ∧ (∀ x ∈ pre, LineFine P x) ∧ startsArc l = true ∧ (∀ e, ¬ IsArcLine P l e) ∧
      readText P cs = .error .assertion) ∨
    (∃ pre l post e, lines cs = pre ++ l :: post ∧ (∀ x ∈ pre, LineFine P x) ∧ IsArcLine P l e ∧ TooLarge P e ∧
      readText P cs = .error .overflow) ∨
    ((∀ x ∈ lines cs, LineFine P x) ∧ ∃ g, readText P cs = .ok g) := by
  unfold readText
  rcases readText_loop_cases (P := P) (lines cs) (g := InputGraph.new) rfl with
    ⟨pre, l, post, h1, h2, h3, h4, h5⟩ | ⟨pre, l, post, e, h1, h2, h3, h4, h5⟩ | ⟨h1, g', h2, h3⟩
  · exact Or.inl ⟨pre, l, post, h1, h2, h3, h4, by rw [h5]; rfl⟩
  · exact Or.inr (Or.inl ⟨pre, l, post, e, h1, h2, h3, h4, by rw [h5]; rfl⟩)
  · obtain ⟨g, hg⟩ := freeze_notFrozen h3
    exact Or.inr (Or.inr ⟨h1, g, by rw [h2]; exact hg⟩)

/-- The first line that is not fine is unique. -/
theorem firstBad_unique {Q : List Char → Prop} : ∀ {pre pre' : List (List Char)} {l l' : List Char} {post post' : List (List Char)},
    pre ++ l :: post = pre' ++ l' :: post' → (∀ x ∈ pre, Q x) → (∀ x ∈ pre', Q x) → ¬ Q l → ¬ Q l' → l = l'
  | [], [], _, _, _, _, h, _, _, _, _ => by injection h
  | [], _ :: _, _, _, _, _, h, _, h2, h3, _ => by
    injection h with h _; subst h
    exact absurd (h2 _ (by simp)) h3
  | _ :: _, [], _, _, _, _, h, h1, _, _, h4 => by
    injection h with h _; subst h
    exact absurd (h1 _ (by simp)) h4
  | _ :: _, _ :: _, _, _, _, _, h, h1, h2, h3, h4 => by
    injection h with _ h
    exact firstBad_unique h (fun x hx => h1 x (by simp [hx])) (fun x hx => h2 x (by simp [hx])) h3 h4

/-! ### DIMACS -/

theorem readDimacsLine_error {st : DimacsState} {l : List Char} {x : Panic} (hf : st.g.frozen = false) (hn : st.nodes ≤ P.umax)
    (he : st.edges ≤ P.umax) (h : readDimacsLine P st l = .error x) : x = .assertion := by
  unfold readDimacsLine at h
  split at h
  · cases h
  split at h
  · split at h
    · injection h with h; exact h.symm
    rcases bind_eq_error.1 h with h | ⟨⟨_, _⟩, _, h⟩
    · exact nextNumber_error h
    rcases bind_eq_error.1 h with h | ⟨⟨_, _⟩, _, h⟩
    · exact nextNumber_error h
    rcases bind_eq_error.1 h with h | ⟨_, _, h⟩
    · exact assertM_error h
    · cases h
  split at h
  · rcases bind_eq_error.1 h with h | ⟨_, _, h⟩
    · exact assertM_error h
    rcases bind_eq_error.1 h with h | ⟨⟨s, d, w⟩, _, h⟩
    · exact readArcLine_error h
    rcases bind_eq_error.1 h with h | ⟨_, h1, h⟩
    · exact assertM_error h
    rcases bind_eq_error.1 h with h | ⟨_, h2, h⟩
    · exact assertM_error h
    rcases bind_eq_error.1 h with h | ⟨_, h3, h⟩
    · exact assertM_error h
    rw [assertM_eq_ok] at h1 h2 h3
    simp only [Bool.and_eq_true, decide_eq_true_eq] at h1 h2 h3
    rcases addEdge_cases (P := P) (s := s - 1) (d := d - 1) (w := w) hf with ⟨⟨_, _, _, k⟩, _⟩ | ⟨_, g', k, k1, _⟩
    · simp only at k; omega
    · rw [k1] at h
      simp only [bind_okM] at h
      unfold addW at h
      rw [if_pos (by omega)] at h
      cases h
  · injection h with h; exact h.symm

theorem readDimacsLine_inv {st st' : DimacsState} {l : List Char} (hf : st.g.frozen = false) (hn : st.nodes ≤ P.umax)
    (he : st.edges ≤ P.umax) (h : readDimacsLine P st l = .ok st') :
    st'.g.frozen = false ∧ st'.nodes ≤ P.umax ∧ st'.edges ≤ P.umax := by
  unfold readDimacsLine at h
  split at h
  · injection h with h; subst h; exact ⟨hf, hn, he⟩
  split at h
  · split at h
    · cases h
    obtain ⟨⟨n, _⟩, h1, h⟩ := bind_eq_ok.1 h
    obtain ⟨⟨m, _⟩, h2, h⟩ := bind_eq_ok.1 h
    obtain ⟨_, _, h⟩ := bind_eq_ok.1 h
    injection h with h; subst h
    obtain ⟨_, _, k1⟩ := nextNumber_ok.1 h1
    obtain ⟨_, _, k2⟩ := nextNumber_ok.1 h2
    exact ⟨hf, k1.1, k2.1⟩
  split at h
  · obtain ⟨_, _, h⟩ := bind_eq_ok.1 h
    obtain ⟨⟨s, d, w⟩, _, h⟩ := bind_eq_ok.1 h
    obtain ⟨_, _, h⟩ := bind_eq_ok.1 h
    obtain ⟨_, _, h⟩ := bind_eq_ok.1 h
    obtain ⟨_, _, h⟩ := bind_eq_ok.1 h
    obtain ⟨⟨g, k⟩, h1, h⟩ := bind_eq_ok.1 h
    obtain ⟨_, _, h⟩ := bind_eq_ok.1 h
    injection h with h; subst h
    rcases addEdge_cases (P := P) (s := s - 1) (d := d - 1) (w := w) hf with ⟨_, k⟩ | ⟨_, g', k, k1, k2⟩
    · rw [k] at h1; cases h1
    · rw [k1] at h1
      injection h1 with h1; injection h1 with h1 _; subst h1
      exact ⟨k2, hn, he⟩
  · cases h

theorem dimacs_loop_error : ∀ (ls : List (List Char)) {st : DimacsState}, st.g.frozen = false → st.nodes ≤ P.umax →
    st.edges ≤ P.umax → forM (readDimacsLine P) st ls = .error .assertion ∨
      ∃ st', forM (readDimacsLine P) st ls = .ok st' ∧ st'.g.frozen = false
  | [], st, hf, _, _ => Or.inr ⟨st, rfl, hf⟩
  | l :: ls, st, hf, hn, he => by
    rw [forM_cons]
    cases hr : readDimacsLine P st l with
    | error x =>
      rw [readDimacsLine_error hf hn he hr]
      exact Or.inl rfl
    | ok st1 =>
      obtain ⟨h1, h2, h3⟩ := readDimacsLine_inv hf hn he hr
      exact dimacs_loop_error ls h1 h2 h3

/-- Reading a DIMACS file ends normally or with an assertion. -/
theorem readDimacs_cases (cs : List Char) : readDimacs P cs = .error .assertion ∨ ∃ g, readDimacs P cs = .ok g := by
  unfold readDimacs
  rcases dimacs_loop_error (P := P) (lines cs) (st := ⟨InputGraph.new, 0, 0, 0, false⟩) rfl (Nat.zero_le _) (Nat.zero_le _) with
    h | ⟨st, h, hf⟩
  · rw [h]; exact Or.inl rfl
  · rw [h]
    simp only [bind_okM]
    unfold assertM
    by_cases hb : (st.currEdges == st.edges) = true
    · rw [if_pos hb]
      exact Or.inr (freeze_notFrozen hf)
    · rw [if_neg hb]
      exact Or.inl rfl

end FP
