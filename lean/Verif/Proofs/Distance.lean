import Verif.Proofs.Paths
import Mathlib.Data.List.Nodup
import Mathlib.Data.List.Perm.Subperm
import Mathlib.Data.Nat.Find
/-! # Distances are bounded by the heaviest simple path -/
namespace FP
open Spec

variable {E : EdgeRel}

theorem isWalk_weight_le {W : Nat} (hW : ∀ u v w, E u v w → w ≤ W) : ∀ {L : List Nat} {w : Nat}, IsWalk E L w →
    w ≤ (L.length - 1) * W
  | [], _, h => h.elim
  | [_], w, h => by
    have h : w = 0 := h
    omega
  | u :: v :: rest, w, h => by
    obtain ⟨a, b, h1, h2, rfl⟩ := h
    have h3 := hW _ _ _ h1
    have h4 := isWalk_weight_le hW h2
    simp only [List.length_cons, Nat.add_sub_cancel] at h4 ⊢
    rw [Nat.add_mul]
    omega

theorem isWalk_lt {n : Nat} (hlt : ∀ u v w, E u v w → u < n ∧ v < n) : ∀ {L : List Nat} {w s : Nat}, IsWalk E L w →
    L.head? = some s → s < n → ∀ x ∈ L, x < n
  | [], _, _, h, _, _ => h.elim
  | [u], _, s, _, hs, hsn => by simp at hs; subst hs; simpa using hsn
  | u :: v :: rest, w, s, h, hs, hsn => by
    obtain ⟨a, b, h1, h2, rfl⟩ := h
    intro x hx
    rcases List.mem_cons.1 hx with rfl | hx
    · exact (hlt _ _ _ h1).1
    · exact isWalk_lt hlt h2 rfl (hlt _ _ _ h1).2 x hx

/-- If there is a walk at all there is one of at most `n - 1` edges. -/
theorem hasWalk_bound {n W s t w : Nat} (hpos : ∀ u v w, E u v w → 1 ≤ w) (hlt : ∀ u v w, E u v w → u < n ∧ v < n)
    (hW : ∀ u v w, E u v w → w ≤ W) (hs : s < n) (h : HasWalk E s t w) : ∃ w' ≤ (n - 1) * W, HasWalk E s t w' := by
  classical
  have hex : ∃ w, HasWalk E s t w := ⟨w, h⟩
  obtain ⟨L, hL, h1, h2⟩ := Nat.find_spec hex
  have hnd : L.Nodup := isWalk_nodup hpos hL h1 h2 (fun w' hk => Nat.find_min' hex (hasWalk_iff.2 hk))
  have hsub : L ⊆ List.range n := fun x hx => List.mem_range.2 (isWalk_lt hlt hL h1 hs x hx)
  have hlen : L.length ≤ n := by simpa using (List.subperm_of_subset hnd hsub).length_le
  refine ⟨_, ?_, Nat.find_spec hex⟩
  exact Nat.le_trans (isWalk_weight_le hW hL) (Nat.mul_le_mul_right W (by omega))

end FP
