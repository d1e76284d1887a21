import Verif.Proofs.Beginning
import Verif.Props.Example
set_option autoImplicit false
/-! # Orders that begin alike

What is stored for a node depends on the nodes contracted before it and on nothing that comes later. -/
namespace FP.Props
open Spec

/-- The part of a stored edge that queries compare: from, to and weight. -/
def endsAndWeight (e : FastGraphEdge) : Nat × Nat × Nat := (e.baseNode, e.adjNode, e.weight)

/-- **C135** Two preparations by orders that begin with the same nodes `pre`: the offsets of these nodes agree, and so do the beginnings of
the two arrays of edges up to the end of these nodes, with ends and weights in the same places. (Any build, any lists as orders.) -/
theorem C135_same_beginning {P : Plat} {pq : PQ} {ig : InputGraph} {maxSettled : Nat} {pre rest₁ rest₂ : List Nat} {fg₁ fg₂ : FastGraph}
    (h₁ : prepareWithOrderWithParams P pq ig (pre ++ rest₁) maxSettled = .ok (.ok fg₁))
    (h₂ : prepareWithOrderWithParams P pq ig (pre ++ rest₂) maxSettled = .ok (.ok fg₂)) :
    (∀ i ≤ pre.length, fg₁.firstEdgeIdsFwd[i]? = fg₂.firstEdgeIdsFwd[i]? ∧ fg₁.firstEdgeIdsBwd[i]? = fg₂.firstEdgeIdsBwd[i]?) ∧
    ∃ a b, fg₁.firstEdgeIdsFwd[pre.length]? = some a ∧ fg₁.firstEdgeIdsBwd[pre.length]? = some b ∧
      a ≤ fg₁.edgesFwd.length ∧ b ≤ fg₁.edgesBwd.length ∧ a ≤ fg₂.edgesFwd.length ∧ b ≤ fg₂.edgesBwd.length ∧
      (fg₁.edgesFwd.take a).map endsAndWeight = (fg₂.edgesFwd.take a).map endsAndWeight ∧
      (fg₁.edgesBwd.take b).map endsAndWeight = (fg₂.edgesBwd.take b).map endsAndWeight := by
  obtain ⟨n, fg0, pg, st, a1, a2, a3, a4, ae, g, ag, ac⟩ := prepare_beginning h₁
  obtain ⟨n', fg0', pg', st', b1, b2, b3, b4, _, g', bg, bc⟩ := prepare_beginning h₂
  rw [a1] at b1; cases b1
  rw [a2] at b2; cases b2
  rw [a3] at b3; cases b3
  rw [a4] at b4; cases b4
  have take : ∀ {x y z : List FastGraphEdge}, x <+: y → z.map FastGraphEdge.core = y.map FastGraphEdge.core →
      x.length ≤ z.length ∧ (z.take x.length).map endsAndWeight = x.map endsAndWeight := by
    intro x y z h e
    have hl : z.length = y.length := by have := congrArg List.length e; simpa using this
    refine ⟨by rw [hl]; exact h.length_le, ?_⟩
    show (z.take x.length).map FastGraphEdge.core = x.map FastGraphEdge.core
    rw [List.map_take, e, ← List.map_take, ← List.prefix_iff_eq_take.1 h]
  refine ⟨fun i hi => ?_, st.fg.edgesFwd.length, st.fg.edgesBwd.length, ?_, ?_, (take ag.ef ac.ef).1, (take ag.eb ac.eb).1,
    (take bg.ef bc.ef).1, (take bg.eb bc.eb).1, ?_, ?_⟩
  · rw [ac.ff, bc.ff, ag.ff i hi, bg.ff i hi, ac.fb, bc.fb, ag.fb i hi, bg.fb i hi]
    exact ⟨rfl, rfl⟩
  · rw [ac.ff, ag.ff _ (Nat.le_refl _)]; exact ae.1
  · rw [ac.fb, ag.fb _ (Nat.le_refl _)]; exact ae.2
  · rw [(take ag.ef ac.ef).2, (take bg.ef bc.ef).2]
  · rw [(take ag.eb ac.eb).2, (take bg.eb bc.eb).2]

/-- **C135** The nodes of the common beginning have the same ranks. -/
theorem C135_ranks {P : Plat} {pq : PQ} {ig : InputGraph} {maxSettled : Nat} {pre rest₁ rest₂ : List Nat} {fg₁ fg₂ : FastGraph}
    (hp₁ : (pre ++ rest₁).Nodup) (hp₂ : (pre ++ rest₂).Nodup)
    (h₁ : prepareWithOrderWithParams P pq ig (pre ++ rest₁) maxSettled = .ok (.ok fg₁))
    (h₂ : prepareWithOrderWithParams P pq ig (pre ++ rest₂) maxSettled = .ok (.ok fg₂)) {v : Nat} (hv : v ∈ pre) :
    fg₁.ranks[v]? = fg₂.ranks[v]? := by
  obtain ⟨n, fg0, pg, st, a1, a2, a3, a4, ae, g, ag, ac⟩ := prepare_beginning h₁
  obtain ⟨n', fg0', pg', st', b1, b2, b3, b4, _, g', bg, bc⟩ := prepare_beginning h₂
  rw [a1] at b1; cases b1
  rw [a2] at b2; cases b2
  rw [a3] at b3; cases b3
  rw [a4] at b4; cases b4
  rw [ac.ranks, bc.ranks, ag.ranks v (fun h => (List.nodup_append.1 hp₁).2.2 v hv v h rfl),
    bg.ranks v (fun h => (List.nodup_append.1 hp₂).2.2 v hv v h rfl)]

/-- **C135** So the number of edges stored for the beginning cannot be changed by choosing the rest. What is stored later can: here the
same two nodes come first, with shortcuts among their edges, and the graphs have different numbers of edges. -/
theorem C135_rest_matters : ∃ (fg₁ fg₂ : FastGraph),
    prepareWithOrderWithParams debug64 binaryHeap Ex.ig ([2, 3] ++ [1, 4, 0]) 500 = .ok (.ok fg₁) ∧
    prepareWithOrderWithParams debug64 binaryHeap Ex.ig ([2, 3] ++ [0, 1, 4]) 500 = .ok (.ok fg₂) ∧
    fg₁.firstEdgeIdsBwd[2]? = some 5 ∧ (fg₁.edgesBwd[3]?.map (·.replacedInEdge)) = some 0 ∧
    fg₁.edgesFwd.length ≠ fg₂.edgesFwd.length := by
  refine ⟨_, _, rfl, rfl, ?_⟩
  decide +kernel

/-- The hypotheses of `C135_same_beginning` and `C135_ranks` can be met. -/
example : ∃ fg₁ fg₂, prepareWithOrderWithParams debug64 binaryHeap Ex.ig ([2, 3] ++ [1, 4, 0]) 500 = .ok (.ok fg₁) ∧
    prepareWithOrderWithParams debug64 binaryHeap Ex.ig ([2, 3] ++ [0, 1, 4]) 500 = .ok (.ok fg₂) ∧
    fg₁.ranks[3]? = fg₂.ranks[3]? ∧ fg₁.firstEdgeIdsFwd[2]? = fg₂.firstEdgeIdsFwd[2]? := by
  obtain ⟨fg₁, fg₂, h₁, h₂, _⟩ := C135_rest_matters
  exact ⟨fg₁, fg₂, h₁, h₂, C135_ranks (by decide) (by decide) h₁ h₂ (by decide), ((C135_same_beginning h₁ h₂).1 2 (by decide)).1⟩

end FP.Props
