import Verif.Proofs.Foreign
/-! # Up-down walks from local conditions -/
namespace FP
open Spec

variable {P : Plat} {E F B : EdgeRel} {n : Nat} {g : FastGraph}

/-- Edges of `F`, and those of `B` backwards. -/
def stored (F B : EdgeRel) : EdgeRel := fun x y w => F x y w ∨ B y x w

/-- The stored edges between nodes of rank at least `k`. -/
def storedFrom (F B : EdgeRel) (rk : Nat → Nat) (k : Nat) : EdgeRel :=
  fun x y w => stored F B x y w ∧ k ≤ rk x ∧ k ≤ rk y

theorem storedFrom_rev (F B : EdgeRel) (rk : Nat → Nat) (k : Nat) :
    revE (storedFrom F B rk k) = storedFrom B F rk k := by
  funext x y w
  unfold revE storedFrom stored
  exact propext ⟨fun ⟨h, a, b⟩ => ⟨h.symm, b, a⟩, fun ⟨h, a, b⟩ => ⟨h.symm, b, a⟩⟩

/-- Valleys have a way around. -/
def Bypass (umax : Nat) (F B : EdgeRel) (rk : Nat → Nat) : Prop :=
  ∀ c u v a b, B c u a → F c v b → a + b < umax → ∃ w ≤ a + b, Wk (storedFrom F B rk (rk c + 1)) u v w

theorem Bypass.flip {umax : Nat} {rk : Nat → Nat} (h : Bypass umax F B rk) : Bypass umax B F rk := by
  intro c u v a b h1 h2 h3
  obtain ⟨w, hw, k⟩ := h c v u b a h2 h1 (by omega)
  refine ⟨w, by omega, ?_⟩
  rw [← storedFrom_rev]
  exact k.rev

/-- Leaving out the nodes of rank `k`. -/
theorem walk_above {umax : Nat} {rk : Nat → Nat} (hF : ∀ u v w, F u v w → rk u < rk v) (hB : ∀ u v w, B u v w → rk u < rk v)
    (hby : Bypass umax F B rk) {k s t w : Nat} (h : Wk (storedFrom F B rk k) s t w) (ht : k < rk t) (hw : w < umax) :
    (k < rk s → ∃ w' ≤ w, Wk (storedFrom F B rk (k + 1)) s t w') ∧
    (rk s = k → ∃ b w₁ w₂, F s b w₁ ∧ Wk (storedFrom F B rk (k + 1)) b t w₂ ∧ w₁ + w₂ ≤ w) := by
  induction h with
  | nil s => exact ⟨fun _ => ⟨0, Nat.le_refl _, .nil s⟩, fun e => by omega⟩
  | @cons s x t a b e kk ih =>
    obtain ⟨ih1, ih2⟩ := ih ht (by omega)
    obtain ⟨e, es, ex⟩ := e
    constructor
    · intro hs
      by_cases hx : rk x = k
      · obtain ⟨y, w₁, w₂, hy, k2, hle⟩ := ih2 hx
        rcases e with e | e
        · have := hF _ _ _ e
          omega
        · obtain ⟨w', hw', kw⟩ := hby x s y a w₁ e hy (by omega)
          rw [hx] at kw
          exact ⟨w' + w₂, by omega, kw.append k2⟩
      · obtain ⟨w', hw', k'⟩ := ih1 (by omega)
        exact ⟨a + w', by omega, .cons ⟨e, by omega, by omega⟩ k'⟩
    · intro hs
      rcases e with e | e
      · have := hF _ _ _ e
        obtain ⟨w', hw', k'⟩ := ih1 (by omega)
        exact ⟨x, a, w', e, k', by omega⟩
      · have := hB _ _ _ e
        omega

/-- Walks over stored edges have up-down walks. -/
theorem upDown_of_bypass {umax : Nat} {rk : Nat → Nat} (hF : ∀ u v w, F u v w → rk u < rk v) (hB : ∀ u v w, B u v w → rk u < rk v)
    (hby : Bypass umax F B rk) (hn : ∀ u v w, stored F B u v w → rk u < n)
    (hinj : ∀ u v x y w w', stored F B u x w → stored F B y v w' → rk u = rk v → u = v) : ∀ j k s t w, n ≤ j + k →
    Wk (storedFrom F B rk k) s t w → w < umax → UpDown F B s t w := by
  intro j
  induction j with
  | zero =>
    intro k s t w hk h hw
    cases h with
    | nil => exact ⟨s, 0, 0, .nil s, .nil s, Nat.le_refl _⟩
    | cons e _ =>
      have := hn _ _ _ e.1
      have := e.2.1
      omega
  | succ j ih =>
    intro k s t w hk h hw
    by_cases hst : s = t
    · subst hst
      exact ⟨s, 0, 0, .nil s, .nil s, Nat.zero_le _⟩
    have hrev : Wk (storedFrom B F rk k) t s w := by rw [← storedFrom_rev]; exact h.rev
    obtain ⟨hs, x, wx, ex⟩ : k ≤ rk s ∧ ∃ x w, stored F B s x w := by
      cases h with
      | nil => exact absurd rfl hst
      | cons e _ => exact ⟨e.2.1, _, _, e.1⟩
    obtain ⟨ht, y, wy, ey⟩ : k ≤ rk t ∧ ∃ y w, stored F B y t w := by
      cases hrev with
      | nil => exact absurd rfl hst
      | cons e _ => exact ⟨e.2.1, _, _, e.1.symm⟩
    by_cases ht' : k < rk t
    · obtain ⟨q1, q2⟩ := walk_above hF hB hby h ht' hw
      by_cases hs' : k < rk s
      · obtain ⟨w', hle, k'⟩ := q1 hs'
        obtain ⟨m, a, b, r1, r2, r3⟩ := ih (k + 1) s t w' (by omega) k' (by omega)
        exact ⟨m, a, b, r1, r2, by omega⟩
      · obtain ⟨y, w₁, w₂, e, k', hle⟩ := q2 (by omega)
        obtain ⟨m, a, b, r1, r2, r3⟩ := ih (k + 1) y t w₂ (by omega) k' (by omega)
        exact ⟨m, w₁ + a, b, .cons e r1, r2, by omega⟩
    · by_cases hs' : k < rk s
      · obtain ⟨y, w₁, w₂, e, k', hle⟩ := (walk_above hB hF hby.flip hrev hs' hw).2 (by omega)
        have k'' : Wk (storedFrom F B rk (k + 1)) s y w₂ := by rw [← storedFrom_rev]; exact k'.rev
        obtain ⟨m, a, b, r1, r2, r3⟩ := ih (k + 1) s y w₂ (by omega) k'' (by omega)
        exact ⟨m, a, w₁ + b, r1, .cons e r2, by omega⟩
      · exact absurd (hinj _ _ _ _ _ _ ex ey (by omega)) hst

/-- Up-down walks stay above the lower end. -/
theorem UpDown.from {rk : Nat → Nat} (hF : ∀ u v w, F u v w → rk u < rk v) (hB : ∀ u v w, B u v w → rk u < rk v) {k s t w : Nat}
    (hs : k ≤ rk s) (ht : k ≤ rk t) (h : UpDown F B s t w) : ∃ w' ≤ w, Wk (storedFrom F B rk k) s t w' := by
  obtain ⟨m, a, b, k1, k2, hle⟩ := h
  have up : ∀ {F B : EdgeRel} {s m a : Nat}, (∀ u v w, F u v w → rk u < rk v) → Wk F s m a → k ≤ rk s →
      Wk (storedFrom F B rk k) s m a := by
    intro F B s m a hF h
    induction h with
    | nil s => exact fun _ => .nil s
    | cons e _ ih =>
      intro hs
      have := hF _ _ _ e
      exact .cons ⟨Or.inl e, hs, by omega⟩ (ih (by omega))
  have d := (up (B := F) hB k2 ht).rev
  rw [storedFrom_rev] at d
  exact ⟨a + b, hle, (up hF k1 hs).append d⟩

/-! ### For consistent graphs -/

theorem Shape.up_iff (h : Shape P n g) {u v w : Nat} : Up g u v w ↔ u < n ∧ g.FE u v w := by
  unfold Up FastGraph.FE
  constructor
  · rintro ⟨i, ed, h1, h2, h3⟩
    obtain ⟨q1, q2⟩ := h.outEdge_iff.1 h1
    exact ⟨q1, i, ed, q2, h2, h3⟩
  · rintro ⟨q1, i, ed, q2, h2, h3⟩
    exact ⟨i, ed, h.outEdge_iff.2 ⟨q1, q2⟩, h2, h3⟩

theorem Shape.down_iff (h : Shape P n g) {u v w : Nat} : Down g u v w ↔ v < n ∧ g.BE v u w := by
  unfold Down FastGraph.BE
  constructor
  · rintro ⟨i, ed, h1, h2, h3⟩
    obtain ⟨q1, q2⟩ := h.inEdge_iff.1 h1
    exact ⟨q1, i, ed, q2, h2, h3⟩
  · rintro ⟨q1, i, ed, q2, h2, h3⟩
    exact ⟨i, ed, h.inEdge_iff.2 ⟨q1, q2⟩, h2, h3⟩

theorem FSound.up (h : FSound P E n g) {u v w : Nat} (e : Up g u v w) : u < n ∧ v < n ∧ g.rk u < g.rk v ∧ Wk E u v w := by
  obtain ⟨hu, i, ed, h1, h2, h3⟩ := h.toShape.up_iff.1 e
  obtain ⟨q1, q2, q3⟩ := h.toSGood.up u hu i ed h1
  rw [h2] at q1 q2 q3
  rw [h3] at q3
  exact ⟨hu, q1, q2, q3⟩

theorem FSound.down (h : FSound P E n g) {u v w : Nat} (e : Down g u v w) : u < n ∧ v < n ∧ g.rk v < g.rk u ∧ Wk E u v w := by
  obtain ⟨hv, i, ed, h1, h2, h3⟩ := h.toShape.down_iff.1 e
  obtain ⟨q1, q2, q3⟩ := h.toSGood.dn v hv i ed h1
  rw [h2] at q1 q2 q3
  rw [h3] at q3
  exact ⟨q1, hv, q2, q3⟩

/-- The two ways to say that there is an up-down walk. -/
theorem FSound.upDownWalk_iff (h : FSound P E n g) {s t w : Nat} (hs : s < n) (ht : t < n) :
    UpDownWalk g s t w ↔ UpDown g.FE g.BE s t w := by
  have up : ∀ {s m a}, Wk (Up g) s m a → Wk g.FE s m a := fun k => k.mono (fun _ _ _ e => (h.toShape.up_iff.1 e).2)
  have dn : ∀ {t m a}, Wk (Down g) m t a → Wk g.BE t m a := fun k =>
    Wk.mono (fun _ _ _ e => (h.toShape.down_iff.1 e).2) k.rev
  have up' : ∀ {s m a}, Wk g.FE s m a → s < n → Wk (Up g) s m a := by
    intro s m a k
    induction k with
    | nil s => exact fun _ => .nil s
    | cons e _ ih =>
      intro hs
      have e' := h.toShape.up_iff.2 ⟨hs, e⟩
      exact .cons e' (ih (h.up e').2.1)
  have dn' : ∀ {t m a}, Wk g.BE t m a → t < n → Wk (Down g) m t a := by
    intro t m a k ht
    rw [← Wk.rev_iff]
    induction k with
    | nil s => exact .nil s
    | cons e _ ih =>
      have e' := h.toShape.down_iff.2 ⟨ht, e⟩
      exact .cons e' (ih (h.down e').1)
  unfold UpDownWalk UpDown
  constructor
  · rintro ⟨m, a, b, k1, k2, k3⟩
    exact ⟨m, a, b, up (hasWalk_iff.1 k1), dn (hasWalk_iff.1 k2), k3⟩
  · rintro ⟨m, a, b, k1, k2, k3⟩
    exact ⟨m, a, b, hasWalk_iff.2 (up' k1 hs), hasWalk_iff.2 (dn' k2 ht), k3⟩

/-- The stored edges of `Spec`, as used in the lemmas above. -/
theorem FSound.storedAbove (h : FSound P E n g) {c : Nat} (hc : c < n) :
    StoredAbove g c = storedFrom (Up g) (revE (Down g)) g.rk (g.rk c + 1) := by
  funext u v w
  refine propext ⟨?_, ?_⟩
  · rintro ⟨h1, h2, h3⟩
    exact ⟨h1, (h.toShape.above_iff.1 h2).2.2, (h.toShape.above_iff.1 h3).2.2⟩
  · rintro ⟨h1, h2, h3⟩
    have hb : u < n ∧ v < n := by
      rcases h1 with e | e
      · exact ⟨(h.up e).1, (h.up e).2.1⟩
      · exact ⟨(h.down e).1, (h.down e).2.1⟩
    exact ⟨h1, h.toShape.above_iff.2 ⟨hc, hb.1, h2⟩, h.toShape.above_iff.2 ⟨hc, hb.2, h3⟩⟩

theorem FSound.upDownWalk_iff' (g : FastGraph) {s t w : Nat} :
    UpDownWalk g s t w ↔ UpDown (Up g) (revE (Down g)) s t w := by
  unfold UpDownWalk UpDown
  simp only [hasWalk_iff, Wk.rev_iff]

/-- **The local conditions imply completeness.** -/
theorem FSound.complete_of_covering (h : FSound P E n g) (hc : Covering P.umax E g) {s t w : Nat} (hs : s < n) (ht : t < n)
    (k : Wk E s t w) (hw : w < P.umax) : UpDown g.FE g.BE s t w := by
  have hF : ∀ u v w, Up g u v w → g.rk u < g.rk v := fun u v w e => (h.up e).2.2.1
  have hB : ∀ u v w, revE (Down g) u v w → g.rk u < g.rk v := fun u v w e => (h.down e).2.2.1
  have hud := fun {s t w : Nat} => FSound.upDownWalk_iff' g (s := s) (t := t) (w := w)
  rw [← h.upDownWalk_iff hs ht, hud]
  have hby : Bypass P.umax (Up g) (revE (Down g)) g.rk := by
    intro c u v a b e1 e2 hlt
    obtain ⟨w, hle, k⟩ := hc.valley c u v a b e1 e2 hlt
    rw [hasWalk_iff, h.storedAbove (h.up e2).1] at k
    exact ⟨w, hle, k⟩
  have hends : ∀ u v w, stored (Up g) (revE (Down g)) u v w → u < n ∧ v < n := by
    rintro u v w (e | e)
    · exact ⟨(h.up e).1, (h.up e).2.1⟩
    · exact ⟨(h.down e).1, (h.down e).2.1⟩
  have hall : ∃ w' ≤ w, Wk (storedFrom (Up g) (revE (Down g)) g.rk 0) s t w' := by
    clear hs ht
    induction k with
    | nil s => exact ⟨0, Nat.le_refl _, .nil s⟩
    | cons e _ ih =>
      obtain ⟨w', hle, k'⟩ := ih (by omega)
      obtain ⟨w'', hle', k''⟩ := (hud.1 (hc.edge _ _ _ e (by omega))).from hF hB (Nat.zero_le _) (Nat.zero_le _)
      exact ⟨w'' + w', by omega, k''.append k'⟩
  obtain ⟨w', hle, k'⟩ := hall
  obtain ⟨m, a, b, k1, k2, k3⟩ := upDown_of_bypass (n := n) hF hB hby (fun u v w e => h.rk_lt _ (hends u v w e).1)
    (fun u v x y w w' e e' hr => h.rk_inj _ (hends _ _ _ e).1 _ (hends _ _ _ e').2 hr) n 0 s t w' (by omega) k' (by omega)
  exact ⟨m, a, b, k1, k2, by omega⟩

/-- **and are implied by it.** -/
theorem FSound.covering_of_complete (h : FSound P E n g) (hE : ∀ u v w, E u v w → u < n ∧ v < n)
    (hc : ∀ s t w, s < n → t < n → Wk E s t w → w < P.umax → UpDown g.FE g.BE s t w) : Covering P.umax E g := by
  have hF : ∀ u v w, Up g u v w → g.rk u < g.rk v := fun u v w e => (h.up e).2.2.1
  have hB : ∀ u v w, revE (Down g) u v w → g.rk u < g.rk v := fun u v w e => (h.down e).2.2.1
  constructor
  · intro u v w e hw
    obtain ⟨hu, hv⟩ := hE u v w e
    exact (h.upDownWalk_iff hu hv).2 (hc u v w hu hv (.single e) hw)
  · intro c u v a b e1 e2 hlt
    obtain ⟨d1, d2, d3, d4⟩ := h.down e1
    obtain ⟨u1, u2, u3, u4⟩ := h.up e2
    have := hc u v (a + b) d1 u2 (d4.append u4) hlt
    rw [← h.upDownWalk_iff d1 u2, FSound.upDownWalk_iff' g] at this
    obtain ⟨w', hle, k⟩ := this.from hF hB (k := g.rk c + 1) d3 u3
    refine ⟨w', hle, ?_⟩
    rw [hasWalk_iff, h.storedAbove u1]
    exact k

end FP
