import Verif.Props.Query
set_option autoImplicit false
/-! # Heaviest routes in graphs without cycles

The library looks for lightest paths and takes no negative weights. In a graph without cycles, given by a layer `layer v` for every node
such that edges go to higher layers, a client finds the heaviest route (the critical path of a project) by adding each edge with
`C * (layer v - layer u) - w` for a `C` above all weights. -/
namespace FP.Props
open Spec

/-- The calls of such a client (input_graph.rs:113-115 `add_edge`). -/
def heaviestOps (roads : List Edge) (layer : Nat → Nat) (C : Nat) : List Op :=
  roads.map (fun e => .addEdge e.src e.dst (C * (layer e.dst - layer e.src) - e.weight)) ++ [.freeze]

theorem mem_heaviestOps {roads : List Edge} {layer : Nat → Nat} {C : Nat} (hr : ∀ e ∈ roads, layer e.src < layer e.dst ∧ e.weight < C)
    {u v x : Nat} : edgesOf (accepted (heaviestOps roads layer C)) u v x ↔
      ∃ w, (⟨u, v, w⟩ : Edge) ∈ roads ∧ layer u < layer v ∧ x + w = C * (layer v - layer u) := by
  have key : ∀ e ∈ roads, e.weight < C * (layer e.dst - layer e.src) := by
    intro e he
    obtain ⟨h1, h2⟩ := hr e he
    exact Nat.lt_of_lt_of_le h2 (Nat.le_mul_of_pos_right C (by omega))
  unfold edgesOf accepted heaviestOps
  simp only [List.mem_flatMap, List.mem_append, List.mem_map, List.mem_singleton]
  constructor
  · rintro ⟨op, ⟨e, he, rfl⟩ | rfl, h⟩
    · simp only [Op.edges] at h
      split at h
      · simp only [List.mem_singleton, Edge.mk.injEq] at h
        obtain ⟨rfl, rfl, rfl⟩ := h
        have := key e he
        exact ⟨e.weight, he, (hr e he).1, by omega⟩
      · cases h
    · simp [Op.edges] at h
  · rintro ⟨w, he, hl, hx⟩
    have := key _ he
    simp only at this
    refine ⟨_, .inl ⟨_, he, rfl⟩, ?_⟩
    simp only [Op.edges]
    rw [if_pos ⟨fun h => by subst h; omega, by omega⟩]
    simp only [List.mem_singleton, Edge.mk.injEq, true_and]
    omega

/-- Both weights of a walk add up to the same number. -/
theorem heaviest_of {roads : List Edge} {layer : Nat → Nat} {C : Nat} (hr : ∀ e ∈ roads, layer e.src < layer e.dst ∧ e.weight < C)
    {t : Nat} : ∀ (l : List Nat) (x s : Nat), IsWalk (edgesOf (accepted (heaviestOps roads layer C))) l x → l.head? = some s →
      l.getLast? = some t → layer s ≤ layer t ∧ ∃ w, IsWalk (edgesOf roads) l w ∧ x + w = C * (layer t - layer s) := by
  intro l
  induction l with
  | nil => intro x s h; exact h.elim
  | cons u l ih =>
    intro x s h h1 h2
    injection h1 with h1
    subst h1
    cases l with
    | nil =>
      injection h2 with h2
      subst h2
      have hx : x = 0 := h
      exact ⟨Nat.le_refl _, 0, rfl, by simp [hx]⟩
    | cons v l =>
      obtain ⟨a, b, k1, k2, rfl⟩ := h
      rw [List.getLast?_cons_cons] at h2
      obtain ⟨w, j1, j2, j3⟩ := (mem_heaviestOps hr).1 k1
      obtain ⟨i1, w', i2, i3⟩ := ih b v k2 rfl h2
      refine ⟨by omega, w + w', ⟨w, w', j1, i2, rfl⟩, ?_⟩
      rw [show layer t - layer u = (layer v - layer u) + (layer t - layer v) by omega, Nat.mul_add]
      omega

theorem heaviest_to {roads : List Edge} {layer : Nat → Nat} {C : Nat} (hr : ∀ e ∈ roads, layer e.src < layer e.dst ∧ e.weight < C)
    {t : Nat} : ∀ (l : List Nat) (w s : Nat), IsWalk (edgesOf roads) l w → l.head? = some s → l.getLast? = some t →
      layer s ≤ layer t ∧ ∃ x, IsWalk (edgesOf (accepted (heaviestOps roads layer C))) l x ∧ x + w = C * (layer t - layer s) := by
  intro l
  induction l with
  | nil => intro x s h; exact h.elim
  | cons u l ih =>
    intro w s h h1 h2
    injection h1 with h1
    subst h1
    cases l with
    | nil =>
      injection h2 with h2
      subst h2
      have hw : w = 0 := h
      exact ⟨Nat.le_refl _, 0, rfl, by simp [hw]⟩
    | cons v l =>
      obtain ⟨a, b, k1, k2, rfl⟩ := h
      rw [List.getLast?_cons_cons] at h2
      obtain ⟨i1, x, i2, i3⟩ := ih b v k2 rfl h2
      obtain ⟨q1, q2⟩ := hr _ k1
      simp only at q1 q2
      have q3 : C ≤ C * (layer v - layer u) := Nat.le_mul_of_pos_right C (by omega)
      have e := (mem_heaviestOps hr (x := C * (layer v - layer u) - a)).2 ⟨a, k1, q1, by omega⟩
      refine ⟨by omega, _, ⟨_, x, e, i2, rfl⟩, ?_⟩
      rw [show layer t - layer u = (layer v - layer u) + (layer t - layer v) by omega, Nat.mul_add]
      omega

/-- **C127** The nodes of the answer are a heaviest route, of weight `C * (layer t - layer s)` minus the reported weight. If this number
is below the maximum weight, no answer means that there is no route. -/
theorem C127_heaviest {P : Plat} (hP : P.checked = true) {roads : List Edge} {layer : Nat → Nat} {C : Nat}
    (hr : ∀ e ∈ roads, layer e.src < layer e.dst ∧ e.weight < C) {ig : InputGraph} {fg : FastGraph}
    (hc : Client P (heaviestOps roads layer C) ig fg) (pq : PQ) {s t : Nat} {r : Option ShortestPath}
    (h : calcPath P pq fg s t = .ok r) :
    (r = none → C * (layer t - layer s) < P.umax → ∀ w, ¬ HasWalk (edgesOf roads) s t w) ∧
    ∀ p, r = some p → ∃ w, p.weight + w = C * (layer t - layer s) ∧ IsWalk (edgesOf roads) p.nodes w ∧ p.nodes.head? = some s ∧
      p.nodes.getLast? = some t ∧ ∀ w', HasWalk (edgesOf roads) s t w' → w' ≤ w := by
  have ha := (query_answer hP hc (query_single h)).2.2
  constructor
  · rintro rfl hlt w ⟨l, h1, h2, h3⟩
    obtain ⟨_, x, k1, k2⟩ := heaviest_to hr l w s h1 h2 h3
    have := ha.single.1 rfl x ⟨l, k1, h2, h3⟩
    omega
  · rintro p rfl
    obtain ⟨_, _, _, k1, k2, k3, _, k5⟩ := ha.single.2 p rfl
    obtain ⟨_, w, j1, j2⟩ := heaviest_of hr _ _ s k1 k2 k3
    refine ⟨w, j2, j1, k2, k3, ?_⟩
    rintro w' ⟨l, h1, h2, h3⟩
    obtain ⟨_, x, i1, i2⟩ := heaviest_to hr l w' s h1 h2 h3
    have := k5 x ⟨l, i1, h2, h3⟩
    omega

/-- The steps of a project with their durations; node `i` is in layer `i`. -/
def Ex.steps : List Edge := [⟨0, 1, 3⟩, ⟨0, 2, 6⟩, ⟨1, 2, 8⟩, ⟨2, 3, 1⟩, ⟨1, 3, 1⟩]
def Ex.stepsIg : InputGraph := ⟨[⟨0, 1, 7⟩, ⟨0, 2, 14⟩, ⟨1, 2, 2⟩, ⟨1, 3, 19⟩, ⟨2, 3, 9⟩], 4, true⟩
def Ex.stepsFg : FastGraph := ⟨4, [1, 3, 2, 0], [⟨0, 1, 7, Ex.inv, Ex.inv⟩, ⟨0, 2, 14, Ex.inv, Ex.inv⟩], [0, 0, 2, 2, 2],
  [⟨3, 1, 19, Ex.inv, Ex.inv⟩, ⟨3, 2, 9, Ex.inv, Ex.inv⟩, ⟨2, 1, 2, Ex.inv, Ex.inv⟩], [0, 2, 2, 3, 3]⟩

/-- a concrete case: the critical path takes 12 -/
example : IsWalk (edgesOf Ex.steps) [0, 1, 2, 3] 12 ∧ ∀ w, HasWalk (edgesOf Ex.steps) 0 3 w → w ≤ 12 := by
  have hc : Client debug64 (heaviestOps Ex.steps id 10) Ex.stepsIg Ex.stepsFg :=
    ⟨rfl, rfl, .default binaryHeap listQueue Ex.rel rfl⟩
  obtain ⟨w, h1, h2, _, _, h3⟩ := (C127_heaviest (s := 0) (t := 3) (r := some ⟨0, 3, 18, [0, 1, 2, 3]⟩) rfl (by decide) hc
    binaryHeap rfl).2 _ rfl
  have h1 : 18 + w = 30 := h1
  obtain rfl : w = 12 := by omega
  exact ⟨h2, h3⟩

end FP.Props
