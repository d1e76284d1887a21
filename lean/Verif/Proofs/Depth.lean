import Verif.Proofs.Api
/-!
# A line whose inner nodes are contracted one after the other

The nodes are `0, …, m`, every edge leads from some `u` to `u + 1`, and the inner nodes are contracted in ascending order before the two
ends. Then the edge from `0` to `x` replaces the edge from `0` to `x - 1`.
-/
namespace FP
open Spec PathCalculator

variable {P : Plat} {E : EdgeRel} {m : Nat} {fg : FastGraph}

/-- The ranks of the nodes of the line. -/
structure LineRanks (m : Nat) (fg : FastGraph) : Prop where
  inner : ∀ i, 1 ≤ i → i < m → fg.rk i = i - 1
  first : fg.rk 0 = m - 1
  last : fg.rk m = m

theorem Wk.line_le (hE : ∀ u v w, E u v w → v = u + 1) {s t w : Nat} (h : Wk E s t w) : s ≤ t := by
  induction h with
  | nil s => exact Nat.le_refl _
  | cons he _ ih => have := hE _ _ _ he; omega

/-- The out-edges stored for an inner node are input edges. -/
theorem line_out (h : FGood P E (m + 1) fg) (hE : ∀ u v w, E u v w → v = u + 1) (hr : LineRanks m fg) {c id : Nat}
    {ed : FastGraphEdge} (h1 : 1 ≤ c) (h2 : c < m) (hat : fg.OutAt c id ed) :
    ed.adjNode = c + 1 ∧ ed.replacedInEdge = P.umax ∧ ed.replacedOutEdge = P.umax := by
  obtain ⟨_, _, _, hres⟩ := h.fwd c (by omega) id ed hat
  rcases hres with ⟨r1, r2, he⟩ | ⟨_, _, c', hc', k1, _, e₁, e₂, a1, a2, _⟩
  · exact ⟨hE _ _ _ he, r1, r2⟩
  · exfalso
    rw [hr.inner c h1 h2] at k1
    have hlt : c' < c := by
      rcases Nat.eq_zero_or_pos c' with rfl | hpos
      · rw [hr.first] at k1; omega
      · by_cases hm : c' = m
        · subst hm; rw [hr.last] at k1; omega
        · rw [hr.inner c' hpos (by omega)] at k1; omega
    have := (((h.realise _).2 c' hc' rfl _ _ a1).line_le hE)
    rw [a2] at this
    omega

/-- What an edge from `0` to `x` replaces. -/
theorem line_replaced (h : FGood P E (m + 1) fg) (hE : ∀ u v w, E u v w → v = u + 1) (hr : LineRanks m fg) {x w rin rout : Nat}
    (h2 : 2 ≤ x) (hx : x ≤ m) (hres : Resolved P E (m + 1) fg 0 x w rin rout) :
    rin ≠ P.umax ∧ rout ≠ P.umax ∧ ∃ e₁ e₂, fg.InAt (x - 1) rin e₁ ∧ e₁.adjNode = 0 ∧ fg.OutAt (x - 1) rout e₂ ∧
      e₂.replacedInEdge = P.umax ∧ e₂.replacedOutEdge = P.umax := by
  rcases hres with ⟨_, _, he⟩ | ⟨r1, r2, c, hc, k1, k2, e₁, e₂, a1, a2, a3, a4, _⟩
  · have := hE _ _ _ he; omega
  · rw [hr.first] at k1
    have hpos : 1 ≤ c := by
      rcases Nat.eq_zero_or_pos c with rfl | hpos
      · rw [hr.first] at k1; omega
      · exact hpos
    have hcm : c < m := by
      by_cases hm : c = m
      · subst hm; rw [hr.last] at k1; omega
      · omega
    obtain ⟨b1, b2, b3⟩ := line_out h hE hr hpos hcm a3
    have : c = x - 1 := by omega
    subst this
    exact ⟨r1, r2, e₁, e₂, a1, a2, a3, b2, b3⟩

theorem unpackFwd_plain {u id fuel : Nat} {ed : FastGraphEdge} (hat : fg.OutAt u id ed) (r1 : ed.replacedInEdge = P.umax)
    (r2 : ed.replacedOutEdge = P.umax) (nodes : List Nat) (reverse : Bool) :
    unpackFwd P fg (fuel + 1) nodes id reverse = .ok (nodes ++ [ed.baseNode]) := by
  unfold unpackFwd
  rw [idx_some hat.2.2]
  simp only [bind_okM]
  rw [isShortcut_edge r1 r2]
  rfl

/-- One level of the recursion uses up one unit. -/
theorem line_step (h : FGood P E (m + 1) fg) (hE : ∀ u v w, E u v w → v = u + 1) (hr : LineRanks m fg) {x w : Nat} (hx : x ≤ m)
    {ed : FastGraphEdge} (hres : Resolved P E (m + 1) fg 0 x w ed.replacedInEdge ed.replacedOutEdge) {fuel : Nat}
    (hf : fuel + 1 < x) (ih : ∀ id ed, fg.InAt (x - 1) id ed → ed.adjNode = 0 → ∀ nodes reverse,
      unpackBwd P fg fuel nodes id reverse = .error .outOfFuel) :
    ed.isShortcut P = .ok true ∧
    (∀ nodes, (unpackFwd P fg fuel nodes ed.replacedOutEdge true >>=
      fun nodes => unpackBwd P fg fuel nodes ed.replacedInEdge true) = .error .outOfFuel) ∧
    ∀ nodes, (unpackBwd P fg fuel nodes ed.replacedInEdge false >>=
      fun nodes => unpackFwd P fg fuel nodes ed.replacedOutEdge false) = .error .outOfFuel := by
  obtain ⟨r1, r2, e₁, e₂, a1, a2, a3, a4, a5⟩ := line_replaced h hE hr (by omega) hx hres
  refine ⟨isShortcut_shortcut r1 r2, fun nodes => ?_, fun nodes => ?_⟩
  · cases fuel with
    | zero => unfold unpackFwd; rfl
    | succ k =>
      rw [unpackFwd_plain a3 a4 a5]
      exact ih _ _ a1 a2 _ _
  · rw [ih _ _ a1 a2 _ _]
    rfl

theorem line_deep_bwd (h : FGood P E (m + 1) fg) (hE : ∀ u v w, E u v w → v = u + 1) (hr : LineRanks m fg) : ∀ (fuel x : Nat),
    fuel < x → x ≤ m → ∀ id ed, fg.InAt x id ed → ed.adjNode = 0 → ∀ nodes reverse,
      unpackBwd P fg fuel nodes id reverse = .error .outOfFuel := by
  intro fuel
  induction fuel with
  | zero => intro x _ _ id ed _ _ nodes reverse; unfold unpackBwd; rfl
  | succ fuel ih =>
    intro x hf hx id ed hat h0 nodes reverse
    obtain ⟨_, _, _, hres⟩ := h.bwd x (by omega) id ed hat
    rw [h0] at hres
    obtain ⟨s1, s2, s3⟩ := line_step h hE hr hx hres hf (ih (x - 1) (by omega) (by omega))
    unfold unpackBwd
    rw [idx_some hat.2.2]
    simp only [bind_okM]
    rw [s1]
    cases reverse
    · exact s3 nodes
    · exact s2 nodes

theorem line_deep_fwd (h : FGood P E (m + 1) fg) (hE : ∀ u v w, E u v w → v = u + 1) (hr : LineRanks m fg) {fuel : Nat}
    (hf : fuel < m) {id : Nat} {ed : FastGraphEdge} (hat : fg.OutAt 0 id ed) (hm : ed.adjNode = m) (nodes : List Nat)
    (reverse : Bool) : unpackFwd P fg fuel nodes id reverse = .error .outOfFuel := by
  cases fuel with
  | zero => unfold unpackFwd; rfl
  | succ fuel =>
    obtain ⟨_, _, _, hres⟩ := h.fwd 0 (by omega) id ed hat
    rw [hm] at hres
    obtain ⟨s1, s2, s3⟩ := line_step h hE hr (Nat.le_refl m) hres hf (line_deep_bwd h hE hr fuel (m - 1) (by omega) (by omega))
    unfold unpackFwd
    rw [idx_some hat.2.2]
    simp only [bind_okM]
    rw [s1]
    cases reverse
    · exact s3 nodes
    · exact s2 nodes

/-- Nothing leads into the last node from above, and the only stored edge of node `0` leads to it. -/
theorem line_top (h : FGood P E (m + 1) fg) (hr : LineRanks m fg) (hm : 1 ≤ m) {w : Nat} (hw : Wk E 0 m w) (hlt : w < P.umax) :
    (∀ id ed, ¬ fg.InAt m id ed) ∧ (∀ id ed, fg.OutAt 0 id ed → ed.adjNode = m) ∧ ∃ id ed, fg.OutAt 0 id ed ∧ ed.adjNode = m := by
  have hno : ∀ id ed, ¬ fg.InAt m id ed := by
    intro id ed hat
    obtain ⟨_, h1, h2, _⟩ := h.bwd m (by omega) id ed hat
    have := h.rk_lt _ h1
    rw [hr.last] at h2
    omega
  have hout : ∀ id ed, fg.OutAt 0 id ed → ed.adjNode = m := by
    intro id ed hat
    obtain ⟨_, h1, h2, _⟩ := h.fwd 0 (by omega) id ed hat
    have := h.rk_lt _ h1
    rw [hr.first] at h2
    exact h.rk_inj _ h1 _ (by omega) (by rw [hr.last]; omega)
  refine ⟨hno, hout, ?_⟩
  obtain ⟨k, wf, wb, k1, k2, _⟩ := h.complete (by omega : 0 < m + 1) (by omega : m < m + 1) hw hlt
  cases k2 with
  | cons e _ => obtain ⟨id, ed, hat, _⟩ := e; exact absurd hat (hno id ed)
  | nil =>
    cases k1 with
    | nil => omega
    | cons e _ => obtain ⟨id, ed, hat, _⟩ := e; exact ⟨id, ed, hat, hout id ed hat⟩

end FP
