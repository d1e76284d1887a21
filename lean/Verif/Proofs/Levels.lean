import Verif.Proofs.Height
import Verif.Proofs.Minimal
set_option autoImplicit false
/-! # Levels during the preparation and chains of the prepared graph: helper lemmas for C128 -/
namespace FP
open Spec PreparationGraph

variable {pq : PQ} {P : Plat} {n : Nat} {fg : FastGraph} {E : EdgeRel}

theorem FSound.stored_iff (h : FSound P E n fg) {x y : Nat} : fg.Stored x y ↔ ∃ w, Up fg x y w ∨ Down fg y x w := by
  constructor
  · rintro ⟨ed, hm | hm, rfl, rfl⟩
    · obtain ⟨u, hu, id, hat⟩ := h.toShape.out_cover hm
      rw [(h.fwd u hu id ed hat).1]
      exact ⟨ed.weight, .inl (h.toShape.up_iff.2 ⟨hu, id, ed, hat, rfl, rfl⟩)⟩
    · obtain ⟨u, hu, id, hat⟩ := h.toShape.in_cover hm
      rw [(h.bwd u hu id ed hat).1]
      exact ⟨ed.weight, .inr (h.toShape.down_iff.2 ⟨hu, id, ed, hat, rfl, rfl⟩)⟩
  · rintro ⟨w, hw | hw⟩
    · obtain ⟨hu, id, ed, hat, rfl, _⟩ := h.toShape.up_iff.1 hw
      exact h.storedF hu hat
    · obtain ⟨hu, id, ed, hat, rfl, _⟩ := h.toShape.down_iff.1 hw
      exact h.storedB hu hat

/-- The edges stored at a node lead to its neighbors in the graph that is left when its turn comes. -/
theorem stored_adjacent {ig : InputGraph} (hF : FrozenOk ig) {ms : Nat} (hg : FSound P E ig.numNodes fg)
    (hB : BuiltFrom P ig.numNodes (freshStep pq P ig.numNodes ms) ig.edges fg) {order : List Nat}
    (hord : fg.getNodeOrdering = .ok order) {pre rest : List Nat} {v : Nat} (he : order = pre ++ v :: rest) {x : Nat} :
    (fg.Stored v x ↔ Adjacent (remainingEdges P pq ig ms pre) v x) ∧ (fg.Stored v x → x ∉ pre) := by
  obtain ⟨g, h1, h2, h3, _, h5, h6⟩ := stored_rel hF hB hord he
  rw [remainingEdges_of h1]
  have key : fg.Stored v x ↔ Adjacent (prepEdges g) v x := by
    rw [hg.stored_iff]
    unfold Adjacent
    simp only [h5, h6, prepEdges_iff]
  exact ⟨key, fun hs hx => (h3 x hx v).2 (key.1 hs)⟩

/-- The chains below a node, when its turn comes and at the end. -/
theorem depth_chain {ig : InputGraph} (hF : FrozenOk ig) {ms : Nat} (hg : FSound P E ig.numNodes fg)
    (hB : BuiltFrom P ig.numNodes (freshStep pq P ig.numNodes ms) ig.edges fg) {order : List Nat}
    (hord : fg.getNodeOrdering = .ok order) :
    (∀ {pre : List Nat} {x k : Nat}, Spec.Depth (remainingEdges P pq ig ms) pre x k → ∀ rest, order = pre ++ rest →
      ∃ L, fg.Chain (x :: L) ∧ L.length = k) ∧
    ∀ (L : List Nat) (x : Nat), fg.Chain (x :: L) → ∀ pre rest, order = pre ++ x :: rest →
      Spec.Depth (remainingEdges P pq ig ms) pre x L.length := by
  constructor
  · intro pre x k h
    induction h with
    | zero done x => intro rest _; exact ⟨[], trivial, rfl⟩
    | @step before after u x k hd ha ih =>
      intro rest he
      rw [List.append_assoc, List.cons_append] at he
      obtain ⟨L, h1, h2⟩ := ih _ he
      exact ⟨u :: L, ⟨(stored_adjacent hF hg hB hord he).1.2 ha, h1⟩, by rw [List.length_cons, h2]⟩
  · intro L
    induction L with
    | nil => intro x _ pre rest _; exact .zero _ _
    | cons y L ih =>
      rintro x ⟨hs, hL⟩ pre rest he
      obtain ⟨nodes, k1, k2, k3⟩ := hg.toShape.ordering
      have : nodes = order := by
        have := k1.symm.trans hord
        cases this; rfl
      subst this
      have hy : y < ig.numNodes ∧ fg.rk y < fg.rk x := by
        obtain ⟨w, hw | hw⟩ := hg.stored_iff.1 hs
        · obtain ⟨hu, id, ed, hat, rfl, _⟩ := hg.toShape.up_iff.1 hw
          exact ⟨hu, (hg.fwd y hu id ed hat).2.2.1⟩
        · obtain ⟨hu, id, ed, hat, rfl, _⟩ := hg.toShape.down_iff.1 hw
          exact ⟨hu, (hg.bwd y hu id ed hat).2.2.1⟩
      obtain ⟨before, after, hb⟩ := List.append_of_mem (k2.mem_iff.2 (List.mem_range.2 hy.1))
      obtain ⟨ha, hn⟩ := stored_adjacent hF hg hB hord hb (x := x)
      have hxy : x ≠ y := fun e => by rw [e] at hy; omega
      rw [hb] at he
      rcases List.append_eq_append_iff.1 he with ⟨a, h1, h2⟩ | ⟨a, h1, h2⟩
      · cases a with
        | nil => simp at h2; exact absurd h2.1.symm hxy
        | cons z a =>
          rw [List.cons_append] at h2
          injection h2 with h2 h3
          subst h2
          rw [h1]
          exact .step (ih y hL before after hb) (ha.1 hs)
      · cases a with
        | nil => simp at h2; exact absurd h2.1 hxy
        | cons z a =>
          rw [List.cons_append] at h2
          injection h2 with h2 h3
          subst h2
          exact absurd (by rw [h1]; simp) (hn hs)

theorem depth_append {G : List Nat → EdgeRel} {pre : List Nat} {x k : Nat} (h : Spec.Depth G pre x k) (l : List Nat) :
    Spec.Depth G (pre ++ l) x k := by
  cases h with
  | zero => exact .zero _ _
  | step hd ha => rw [List.append_assoc]; exact .step hd ha

/-- What holds when the loop over the nodes ends. -/
theorem pops_final {nq : NodeQueue} (hP : P.checked = true) {ig : InputGraph} (hn : ig.numNodes ≤ P.umax) {prio : nq.σ → Nat → Nat}
    (ho : Ordered nq prio) {params : Params} {rank : Nat} {st : QState pq nq} {nodes : List Nat} (hp : Pops P params rank st nodes) :
    ∀ done fuel st', OInv P pq nq prio ig params done st → contractionLoop P params fuel rank st = .ok st' →
      OInv P pq nq prio ig params (done ++ nodes) st' := by
  induction hp with
  | nil hp =>
    intro done fuel st' h hrun
    cases fuel with
    | zero => cases hrun
    | succ fuel =>
      unfold contractionLoop at hrun
      rw [hp] at hrun
      cases hrun
      simpa using h
  | @cons rank node st st1 queue outs ins b nodes hpop hout hin hb hu hp ih =>
    intro done fuel st' h hrun
    cases fuel with
    | zero => cases hrun
    | succ fuel =>
      unfold contractionLoop at hrun
      rw [hpop] at hrun
      simp only [hout, hin, hb, hu, bind_okM] at hrun
      have := ih _ _ _ (h.step hP hn ho hpop hout hin hb hu).1 hrun
      rw [List.append_assoc] at this
      exact this

end FP
