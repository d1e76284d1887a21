import Verif.Proofs.Bincode
import Verif.Proofs.Convert
/-! # Prepared graphs on disk -/
namespace FP

variable {P : Plat}

/-- Every number of a prepared graph is a machine word if the weights are. -/
theorem FGood.words {E : Spec.EdgeRel} {n : Nat} {fg : FastGraph} (h : FGood P E n fg)
    (hwf : ∀ e ∈ fg.edgesFwd, e.weight ≤ P.umax) (hwb : ∀ e ∈ fg.edgesBwd, e.weight ≤ P.umax) :
    LenFit P fg ∧ ∀ v ∈ fg.values, v ≤ P.umax := by
  have hn := h.n_lt
  have c1 := h.capF
  have c2 := h.capB
  refine ⟨⟨by rw [h.lenR]; omega, c1, by rw [h.firstF.len]; omega, c2, by rw [h.firstB.len]; omega⟩, ?_⟩
  intro v hv
  unfold FastGraph.values at hv
  simp only [List.mem_cons, List.mem_append, List.mem_flatMap] at hv
  rcases hv with rfl | (((hv | ⟨e, he, hv⟩) | hv) | ⟨e, he, hv⟩) | hv
  · rw [h.num]; omega
  · obtain ⟨j, hj⟩ := List.mem_iff_getElem?.1 hv
    have hjl := (List.getElem?_eq_some_iff.1 hj).1
    rw [h.lenR] at hjl
    have := h.rk_lt j hjl
    unfold FastGraph.rk at this
    rw [hj] at this
    simp only [Option.getD_some] at this
    omega
  · obtain ⟨u, hu, id, hat⟩ := h.toShape.out_cover he
    obtain ⟨h1, h2, _, h4⟩ := h.fwd u hu id e hat
    have h5 := h4.ids
    have h6 := hwf e he
    simp only [FastGraphEdge.values, List.mem_cons, List.not_mem_nil, or_false] at hv
    rcases hv with rfl | rfl | rfl | rfl | rfl <;> omega
  · have := h.firstF.mem_le hv
    omega
  · obtain ⟨u, hu, id, hat⟩ := h.toShape.in_cover he
    obtain ⟨h1, h2, _, h4⟩ := h.bwd u hu id e hat
    have h5 := h4.ids
    have h6 := hwb e he
    simp only [FastGraphEdge.values, List.mem_cons, List.not_mem_nil, or_false] at hv
    rcases hv with rfl | rfl | rfl | rfl | rfl <;> omega
  · have := h.firstB.mem_le hv
    omega

theorem toU32_le {v : Nat} (h : v ≤ U32_MAX ∨ v = P.umax) : toU32 P v ≤ U32_MAX := by
  unfold toU32
  by_cases hv : v = P.umax
  · rw [if_pos hv]
  · rw [if_neg hv]; omega

theorem toU32Edge_le {e : FastGraphEdge} (h : ∀ v ∈ e.values, v ≤ U32_MAX ∨ v = P.umax) :
    ∀ v ∈ (toU32Edge P e).vals, v ≤ U32_MAX := by
  intro v hv
  have h1 : ∀ v ∈ e.values, toU32 P v ≤ U32_MAX := fun v hv => toU32_le (h v hv)
  simp only [FastGraphEdge.values, List.mem_cons, List.not_mem_nil, or_false, forall_eq_or_imp, forall_eq] at h1
  obtain ⟨a1, a2, a3, a4, a5⟩ := h1
  simp only [FastGraphEdge32.vals, toU32Edge, List.mem_cons, List.not_mem_nil, or_false] at hv
  rcases hv with rfl | rfl | rfl | rfl | rfl <;> assumption

theorem toU32Graph_fit {P' : Plat} {g : FastGraph} (h : Fits P g) (hl : LenFit P' g) : Fit32 P' (toU32Graph P g) := by
  obtain ⟨l1, l2, l3, l4, l5⟩ := hl
  unfold Fits FastGraph.values at h
  simp only [List.mem_cons, List.mem_append, List.mem_flatMap] at h
  refine ⟨toU32_le (h _ (Or.inl rfl)), ⟨by simpa [toU32Graph] using l1, ?_⟩, ⟨by simpa [toU32Graph] using l2, ?_⟩,
    ⟨by simpa [toU32Graph] using l3, ?_⟩, ⟨by simpa [toU32Graph] using l4, ?_⟩, ⟨by simpa [toU32Graph] using l5, ?_⟩⟩
  · intro v hv
    obtain ⟨x, hx, rfl⟩ := List.mem_map.1 hv
    exact toU32_le (h x (Or.inr (Or.inl (Or.inl (Or.inl (Or.inl hx))))))
  · intro e he
    obtain ⟨x, hx, rfl⟩ := List.mem_map.1 he
    exact toU32Edge_le (fun v hv => h v (Or.inr (Or.inl (Or.inl (Or.inl (Or.inr ⟨x, hx, hv⟩))))))
  · intro v hv
    obtain ⟨x, hx, rfl⟩ := List.mem_map.1 hv
    exact toU32_le (h x (Or.inr (Or.inl (Or.inl (Or.inr hx)))))
  · intro e he
    obtain ⟨x, hx, rfl⟩ := List.mem_map.1 he
    exact toU32Edge_le (fun v hv => h v (Or.inr (Or.inl (Or.inr ⟨x, hx, hv⟩))))
  · intro v hv
    obtain ⟨x, hx, rfl⟩ := List.mem_map.1 hv
    exact toU32_le (h x (Or.inr (Or.inr hx)))

theorem length_flatMap_const {α : Type} {f : α → List UInt8} {c : Nat} (h : ∀ a, (f a).length = c) :
    ∀ l : List α, (l.flatMap f).length = c * l.length
  | [] => by simp
  | a :: l => by rw [List.flatMap_cons, List.length_append, h, length_flatMap_const h l, List.length_cons, Nat.mul_succ]; omega

theorem length_encVec {α : Type} {f : α → List UInt8} {c : Nat} (h : ∀ a, (f a).length = c) (l : List α) :
    (encVec f l).length = 8 + c * l.length := by
  unfold encVec
  rw [List.length_append, length_flatMap_const h, encUsize, length_leBytes]

theorem length_encEdge (e : FastGraphEdge) : (encEdge e).length = 40 := by
  simp [encEdge, encUsize, length_leBytes]
theorem length_encEdge32 (e : FastGraphEdge32) : (encEdge32 e).length = 20 := by
  simp [encEdge32, encU32, length_leBytes]

theorem length_encGraph (g : FastGraph) : (encGraph g).length = 48 + 8 * g.ranks.length + 40 * g.edgesFwd.length +
    8 * g.firstEdgeIdsFwd.length + 40 * g.edgesBwd.length + 8 * g.firstEdgeIdsBwd.length := by
  have hu : ∀ n, (encUsize n).length = 8 := fun n => length_leBytes 8 n
  unfold encGraph
  simp only [List.length_append, length_encVec hu, length_encVec length_encEdge, hu]
  omega

theorem length_encGraph32 (g : FastGraph32) : (encGraph32 g).length = 44 + 4 * g.ranks.length + 20 * g.edgesFwd.length +
    4 * g.firstEdgeIdsFwd.length + 20 * g.edgesBwd.length + 4 * g.firstEdgeIdsBwd.length := by
  have hu : ∀ n, (encU32 n).length = 4 := fun n => length_leBytes 4 n
  unfold encGraph32
  simp only [List.length_append, length_encVec hu, length_encVec length_encEdge32, hu]
  omega

end FP
