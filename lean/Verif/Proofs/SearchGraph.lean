import Verif.Proofs.FastGraph
import Mathlib.Data.List.Perm.Subperm
import Mathlib.Algebra.BigOperators.Group.List.Basic
/-! # What the search needs to know about the fast graph; swapping the directions -/
namespace FP
open Spec

variable {P : Plat} {n : Nat} {fg : FastGraph} {E : EdgeRel}

/-- Search view of a fast graph: upward edges stand for walks. -/
structure SGood (P : Plat) (E : EdgeRel) (n : Nat) (fg : FastGraph) : Prop extends Shape P n fg where
  up : ∀ u < n, ∀ id ed, fg.OutAt u id ed → ed.adjNode < n ∧ fg.rk u < fg.rk ed.adjNode ∧ Wk E u ed.adjNode ed.weight
  dn : ∀ u < n, ∀ id ed, fg.InAt u id ed → ed.adjNode < n ∧ fg.rk u < fg.rk ed.adjNode ∧ Wk E ed.adjNode u ed.weight

/-- The same graph with the two directions exchanged. -/
def FastGraph.flip (g : FastGraph) : FastGraph where
  numNodes := g.numNodes
  ranks := g.ranks
  edgesFwd := g.edgesBwd
  firstEdgeIdsFwd := g.firstEdgeIdsBwd
  edgesBwd := g.edgesFwd
  firstEdgeIdsBwd := g.firstEdgeIdsFwd

theorem Shape.flip (h : Shape P n fg) : Shape P n fg.flip :=
  ⟨h.num, h.n_lt, h.lenR, h.rk_lt, h.rk_inj, h.firstB, h.firstF, h.capB, h.capF⟩

theorem SGood.flip (h : SGood P E n fg) : SGood P (revE E) n fg.flip := by
  refine ⟨h.toShape.flip, ?_, ?_⟩
  · intro u hu id ed hat
    obtain ⟨h1, h2, h3⟩ := h.dn u hu id ed hat
    exact ⟨h1, h2, h3.rev⟩
  · intro u hu id ed hat
    obtain ⟨h1, h2, h3⟩ := h.up u hu id ed hat
    exact ⟨h1, h2, h3.rev⟩

/-- Walk represented by an edge with the given replaced edges. -/
theorem FSound.walks (h : FSound P E n fg) : ∀ k,
    (∀ u < n, fg.rk u < k → ∀ id ed, fg.OutAt u id ed → Wk E u ed.adjNode ed.weight) ∧
    (∀ u < n, fg.rk u < k → ∀ id ed, fg.InAt u id ed → Wk E ed.adjNode u ed.weight) := by
  intro k
  induction k with
  | zero => exact ⟨fun u _ h => by omega, fun u _ h => by omega⟩
  | succ k ih =>
    refine ⟨?_, ?_⟩
    · intro u hu hk id ed hat
      obtain ⟨_, _, _, hr⟩ := h.fwd u hu id ed hat
      rcases hr with ⟨_, _, he⟩ | ⟨_, _, c, hc, r1, r2, e₁, e₂, a1, a2, a3, a4, a5⟩
      · exact Wk.single he
      · have w1 := ih.2 c hc (by omega) _ _ a1
        have w2 := ih.1 c hc (by omega) _ _ a3
        rw [a2] at w1
        rw [a4] at w2
        rw [a5]
        exact w1.append w2
    · intro u hu hk id ed hat
      obtain ⟨_, _, _, hr⟩ := h.bwd u hu id ed hat
      rcases hr with ⟨_, _, he⟩ | ⟨_, _, c, hc, r1, r2, e₁, e₂, a1, a2, a3, a4, a5⟩
      · exact Wk.single he
      · have w1 := ih.2 c hc (by omega) _ _ a1
        have w2 := ih.1 c hc (by omega) _ _ a3
        rw [a2] at w1
        rw [a4] at w2
        rw [a5]
        exact w1.append w2

theorem FSound.toSGood (h : FSound P E n fg) : SGood P E n fg := by
  refine ⟨h.toShape, ?_, ?_⟩
  · intro u hu id ed hat
    obtain ⟨_, h2, h3, _⟩ := h.fwd u hu id ed hat
    exact ⟨h2, h3, (h.walks (fg.rk u + 1)).1 u hu (by omega) id ed hat⟩
  · intro u hu id ed hat
    obtain ⟨_, h2, h3, _⟩ := h.bwd u hu id ed hat
    exact ⟨h2, h3, (h.walks (fg.rk u + 1)).2 u hu (by omega) id ed hat⟩

theorem SGood.FE_walk (h : SGood P E n fg) {u x w : Nat} (hu : u < n) (he : fg.FE u x w) :
    x < n ∧ fg.rk u < fg.rk x ∧ Wk E u x w := by
  obtain ⟨id, ed, h1, rfl, rfl⟩ := he
  exact h.up u hu id ed h1

/-! ### The ranges cover all edges -/

theorem telescope (f : Nat → Nat) (hm : ∀ j < n, f j ≤ f (j + 1)) :
    ((List.range n).map (fun j => f (j + 1) - f j)).sum = f n - f 0 ∧ f 0 ≤ f n := by
  induction n with
  | zero => simp
  | succ n ih =>
    obtain ⟨h1, h2⟩ := ih (fun j hj => hm j (by omega))
    have := hm n (by omega)
    rw [List.range_succ, List.map_append, List.sum_append, h1]
    simp
    omega

theorem Shape.perm_rk (h : Shape P n fg) : ((List.range n).map fg.rk).Perm (List.range n) := by
  have hnd : ((List.range n).map fg.rk).Nodup := by
    refine List.Nodup.map_on ?_ List.nodup_range
    intro x hx y hy e
    exact h.rk_inj x (List.mem_range.1 hx) y (List.mem_range.1 hy) e
  have hsub : ((List.range n).map fg.rk).Subperm (List.range n) := by
    refine List.subperm_of_subset hnd ?_
    intro x hx
    obtain ⟨l, hl, rfl⟩ := List.mem_map.1 hx
    exact List.mem_range.2 (h.rk_lt l (List.mem_range.1 hl))
  exact hsub.perm_of_length_le (by simp)

theorem Shape.sum_out (h : Shape P n fg) :
    ((List.range n).map (fun u => fg.eo u - fg.bo u)).sum = fg.edgesFwd.length := by
  have h1 : (List.range n).map (fun u => fg.eo u - fg.bo u) = ((List.range n).map fg.rk).map
      (fun j => (fg.firstEdgeIdsFwd[j + 1]?).getD 0 - (fg.firstEdgeIdsFwd[j]?).getD 0) := by
    rw [List.map_map]; rfl
  rw [h1, (h.perm_rk.map _).sum_eq]
  rw [(telescope (fun j => (fg.firstEdgeIdsFwd[j]?).getD 0) h.firstF.mono).1]
  simp only [h.firstF.last, h.firstF.zero]
  rfl

end FP
