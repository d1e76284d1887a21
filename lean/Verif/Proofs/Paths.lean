import Verif.Proofs.Walk
/-! # Pieces of walks, simple paths -/
namespace FP
open Spec

variable {E : EdgeRel}

theorem isWalk_of_cons {u v : Nat} {rest : List Nat} {w : Nat} (h : IsWalk E (u :: v :: rest) w) :
    ∃ a b, E u v a ∧ IsWalk E (v :: rest) b ∧ w = a + b := h

/-- From every node of a walk the rest of the walk leads on. -/
theorem isWalk_suffix {t x : Nat} : ∀ {L : List Nat} {w : Nat}, IsWalk E L w → L.getLast? = some t → x ∈ L →
    ∃ w' ≤ w, Wk E x t w'
  | [], _, h, _, _ => h.elim
  | [u], w, h, ht, hx => by
    simp at ht hx
    subst ht hx
    exact ⟨0, Nat.zero_le _, .nil _⟩
  | u :: v :: rest, w, h, ht, hx => by
    obtain ⟨a, b, h1, h2, rfl⟩ := h
    have ht' : (v :: rest).getLast? = some t := by simpa [List.getLast?_cons_cons] using ht
    rcases List.mem_cons.1 hx with rfl | hx
    · obtain ⟨L, hL⟩ : ∃ L, WkL E v t b L := ⟨_, isWalk_toWkL h2 rfl ht'⟩
      exact ⟨a + b, Nat.le_refl _, .cons h1 hL.toWk⟩
    · obtain ⟨w', hw', hk⟩ := isWalk_suffix h2 ht' hx
      exact ⟨w', by omega, hk⟩

/-- Shortest walks over positive edges repeat no node. -/
theorem isWalk_nodup {t : Nat} (hpos : ∀ u v w, E u v w → 1 ≤ w) : ∀ {L : List Nat} {w s : Nat}, IsWalk E L w →
    L.head? = some s → L.getLast? = some t → (∀ w', Wk E s t w' → w ≤ w') → L.Nodup
  | [], _, _, h, _, _, _ => h.elim
  | [u], _, _, _, _, _, _ => by simp
  | u :: v :: rest, w, s, h, hs, ht, hmin => by
    obtain ⟨a, b, h1, h2, rfl⟩ := h
    have ht' : (v :: rest).getLast? = some t := by simpa [List.getLast?_cons_cons] using ht
    simp at hs
    subst hs
    refine List.nodup_cons.2 ⟨?_, ?_⟩
    · intro hm
      obtain ⟨w', hw', hk⟩ := isWalk_suffix h2 ht' hm
      have := hmin _ hk
      have := hpos _ _ _ h1
      omega
    · refine isWalk_nodup hpos h2 rfl ht' ?_
      intro w' hk
      have := hmin _ (.cons h1 hk)
      omega

/-- Cutting a walk after a non-empty prefix. -/
theorem isWalk_split {t : Nat} : ∀ {mid post : List Nat} {w y : Nat}, IsWalk E (mid ++ post) w →
    (mid ++ post).getLast? = some t → mid.getLast? = some y → ∃ a b, IsWalk E mid a ∧ Wk E y t b ∧ w = a + b
  | [], _, _, _, _, _, hy => by simp at hy
  | [u], [], w, y, h, ht, hy => by
    simp at ht hy
    subst ht hy
    exact ⟨0, 0, rfl, .nil _, h⟩
  | [u], p :: ps, w, y, h, ht, hy => by
    simp at hy
    subst hy
    refine ⟨0, w, rfl, ?_, by omega⟩
    exact (isWalk_toWkL h rfl ht).toWk
  | u :: v :: rest, post, w, y, h, ht, hy => by
    obtain ⟨a, b, h1, h2, rfl⟩ := h
    have ht' : ((v :: rest) ++ post).getLast? = some t := by simpa [List.getLast?_cons_cons] using ht
    have hy' : (v :: rest).getLast? = some y := by simpa [List.getLast?_cons_cons] using hy
    obtain ⟨c, d, k1, k2, rfl⟩ := isWalk_split (mid := v :: rest) (post := post) h2 ht' hy'
    exact ⟨a + c, d, ⟨a, c, h1, k1, rfl⟩, k2, by omega⟩

/-- A piece of a walk. -/
theorem isWalk_piece {t x y : Nat} {mid post : List Nat} (hx : mid.head? = some x) (hy : mid.getLast? = some y) :
    ∀ {pre : List Nat} {w s : Nat}, IsWalk E (pre ++ (mid ++ post)) w → (pre ++ (mid ++ post)).head? = some s →
    (pre ++ (mid ++ post)).getLast? = some t →
    ∃ a b c, Wk E s x a ∧ IsWalk E mid b ∧ Wk E y t c ∧ w = a + b + c
  | [], w, s, h, hs, ht => by
    obtain ⟨a, b, h1, h2, h3⟩ := isWalk_split (mid := mid) (post := post) h ht hy
    have : s = x := by
      cases mid with
      | nil => simp at hx
      | cons m ms => simp at hx hs; rw [← hs, hx]
    subst this
    exact ⟨0, a, b, .nil _, h1, h2, by omega⟩
  | [u], w, s, h, hs, ht => by
    cases mid with
    | nil => simp at hx
    | cons m ms =>
      obtain ⟨a, b, h1, h2, rfl⟩ := h
      have ht' : ([] ++ ((m :: ms) ++ post)).getLast? = some t := by simpa [List.getLast?_cons_cons] using ht
      obtain ⟨a', b', c', k1, k2, k3, rfl⟩ := isWalk_piece hx hy (pre := []) (s := m) h2 rfl ht'
      simp at hs
      subst hs
      exact ⟨a + a', b', c', .cons h1 k1, k2, k3, by omega⟩
  | u :: v :: rest, w, s, h, hs, ht => by
    obtain ⟨a, b, h1, h2, rfl⟩ := h
    have ht' : ((v :: rest) ++ (mid ++ post)).getLast? = some t := by simpa [List.getLast?_cons_cons] using ht
    obtain ⟨a', b', c', k1, k2, k3, rfl⟩ := isWalk_piece hx hy (pre := v :: rest) (s := v) h2 rfl ht'
    simp at hs
    subst hs
    exact ⟨a + a', b', c', .cons h1 k1, k2, k3, by omega⟩

theorem Spec.IsWalk.mono {F : EdgeRel} (hEF : ∀ u v w, E u v w → F u v w) : ∀ {L : List Nat} {w : Nat}, IsWalk E L w →
    IsWalk F L w
  | [], _, h => h
  | [_], _, h => h
  | u :: v :: rest, w, h => by
    obtain ⟨a, b, h1, h2, h3⟩ := h
    exact ⟨a, b, hEF _ _ _ h1, Spec.IsWalk.mono hEF h2, h3⟩

end FP
