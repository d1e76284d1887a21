import Verif.Proofs.Contractor
/-! # Sequences of contractions: up-down paths and the origin of every arc -/
namespace FP
open Spec PreparationGraph

/-- A relation between the graph before a contraction, the contracted node and the graph afterwards. The chains below can carry
one along. -/
abbrev StepRel := PreparationGraph → Nat → PreparationGraph → Prop

/-- No condition. -/
def anyStep : StepRel := fun _ _ _ => True

variable {P : Plat} {n : Nat} {R : StepRel}

/-- What is recorded when a node is contracted. -/
structure Lvl where
  node : Nat
  outs : List Arc
  ins : List Arc

/-- `Chain g ls g'`: contracting the nodes of `ls` in order turns `g` into `g'`. -/
inductive Chain (P : Plat) (n : Nat) (R : StepRel) : PreparationGraph → List Lvl → PreparationGraph → Prop
  | nil (g) : Chain P n R g [] g
  | cons {g g₁ g₂ v ls} : v < n ∧ R g v g₁ → Contracts P n g v g₁ → Chain P n R g₁ ls g₂ →
      Chain P n R g (⟨v, g.outs v, g.ins v⟩ :: ls) g₂

theorem Chain.snoc {g g' g'' : PreparationGraph} {ls : List Lvl} (h : Chain P n R g ls g') {v : Nat} (hv : v < n ∧ R g' v g'')
    (hc : Contracts P n g' v g'') : Chain P n R g (ls ++ [⟨v, g'.outs v, g'.ins v⟩]) g'' := by
  induction h with
  | nil g => exact .cons hv hc (.nil _)
  | cons hv' hc' _ ih => exact .cons hv' hc' (ih hv hc)

/-- A walk ending outside `v` survives the contraction of `v`, except for a first step out of `v`. -/
theorem Contracts.walk {g g' : PreparationGraph} {v : Nat} (hg : WF n g) (h : Contracts P n g v g') {s t w : Nat}
    (k : Wk g.rel s t w) (ht : t ≠ v) (hw : w < P.umax) :
    (s ≠ v → ∃ w', w' ≤ w ∧ Wk g'.rel s t w') ∧
    (s = v → ∃ b w₁ w₂, g.rel v b w₁ ∧ Wk g'.rel b t w₂ ∧ w₁ + w₂ ≤ w) := by
  induction k with
  | nil s => exact ⟨fun _ => ⟨0, Nat.le_refl _, .nil s⟩, fun e => absurd e ht⟩
  | @cons s x t a b e k ih =>
    obtain ⟨ih1, ih2⟩ := ih ht (by omega)
    obtain ⟨c, hc⟩ := e
    have hsx : x ≠ s := hg.noLoop _ _ hc
    constructor
    · intro hs
      by_cases hx : x = v
      · subst hx
        obtain ⟨y, w₁, w₂, ⟨c', hy⟩, k2, hle⟩ := ih2 rfl
        by_cases hsy : s = y
        · subst hsy
          exact ⟨w₂, by omega, k2⟩
        · have hin := hg.mirror_out hc
          obtain ⟨w', hw', kw⟩ := h.bypass _ hin _ hy hsy (by simp only; omega)
          simp only at hw' kw
          exact ⟨w' + w₂, by omega, kw.append k2⟩
      · obtain ⟨w', hw', k'⟩ := ih1 hx
        obtain ⟨a', ha', e'⟩ := h.keep s x a ⟨⟨c, hc⟩, hs, hx⟩
        exact ⟨a' + w', by omega, .cons e' k'⟩
    · intro hs
      subst hs
      obtain ⟨w', hw', k'⟩ := ih1 hsx
      exact ⟨x, a, w', ⟨c, hc⟩, k', by omega⟩

/-- Mirror image: a walk starting outside `v`. -/
theorem Contracts.walk_rev {g g' : PreparationGraph} {v : Nat} (hg : WF n g) (h : Contracts P n g v g') {s t w : Nat}
    (k : Wk (revE g.rel) t s w) (hs : s ≠ v) (hw : w < P.umax) :
    (t ≠ v → ∃ w', w' ≤ w ∧ Wk (revE g'.rel) t s w') ∧
    (t = v → ∃ b w₁ w₂, g.rel b v w₁ ∧ Wk (revE g'.rel) b s w₂ ∧ w₁ + w₂ ≤ w) := by
  induction k with
  | nil s => exact ⟨fun _ => ⟨0, Nat.le_refl _, .nil s⟩, fun e => absurd e hs⟩
  | @cons t x s a b e k ih =>
    obtain ⟨ih1, ih2⟩ := ih hs (by omega)
    obtain ⟨c, hc⟩ := e
    have htx : t ≠ x := hg.noLoop _ _ hc
    constructor
    · intro ht
      by_cases hx : x = v
      · subst hx
        obtain ⟨y, w₁, w₂, ⟨c', hy⟩, k2, hle⟩ := ih2 rfl
        by_cases hsy : y = t
        · subst hsy
          exact ⟨w₂, by omega, k2⟩
        · have hin := hg.mirror_out hy
          obtain ⟨w', hw', kw⟩ := h.bypass _ hin _ hc hsy (by simp only; omega)
          simp only at hw' kw
          exact ⟨w' + w₂, by omega, kw.rev.append k2⟩
      · obtain ⟨w', hw', k'⟩ := ih1 hx
        obtain ⟨a', ha', e'⟩ := h.keep x t a ⟨⟨c, hc⟩, hx, ht⟩
        exact ⟨a' + w', by omega, .cons e' k'⟩
    · intro ht
      subst ht
      obtain ⟨w', hw', k'⟩ := ih1 htx.symm
      exact ⟨x, a, w', ⟨c, hc⟩, k', by omega⟩

/-- Up-down path: forward edges from `s` to some `m`, backward edges from `t` to the same `m`. -/
def UpDown (F B : EdgeRel) (s t w : Nat) : Prop :=
  ∃ m wf wb, Wk F s m wf ∧ Wk B t m wb ∧ wf + wb ≤ w

/-- **Completeness of the hierarchy.** Every walk lighter than `usize::MAX` has an up-down path of at most its weight. -/
theorem Chain.upDown {g g' : PreparationGraph} {ls : List Lvl} (h : Chain P n R g ls g') (hg : WF n g)
    (hend : ∀ u, g'.outs u = []) (F B : EdgeRel)
    (hF : ∀ l ∈ ls, ∀ a ∈ l.outs, F l.node a.adj a.weight)
    (hB : ∀ l ∈ ls, ∀ a ∈ l.ins, B l.node a.adj a.weight) :
    ∀ {s t w : Nat}, Wk g.rel s t w → w < P.umax → UpDown F B s t w := by
  induction h with
  | nil g =>
    intro s t w k _
    cases k with
    | nil => exact ⟨s, 0, 0, .nil s, .nil s, Nat.le_refl _⟩
    | cons e _ =>
      obtain ⟨c, hc⟩ := e
      rw [hend] at hc
      simp at hc
  | @cons g g₁ g₂ v ls hv hc hch ih =>
    intro s t w k hw
    have ih' := fun {s t w : Nat} => @ih hc.wf hend (fun l hl => hF l (by simp [hl])) (fun l hl => hB l (by simp [hl])) s t w
    by_cases hst : s = t
    · subst hst
      exact ⟨s, 0, 0, .nil s, .nil s, Nat.zero_le _⟩
    by_cases ht : t = v
    · subst ht
      obtain ⟨b, w₁, w₂, ⟨c, e⟩, k', hle⟩ := (Contracts.walk_rev hg hc k.rev hst hw).2 rfl
      obtain ⟨m, wf, wb, kf, kb, hle'⟩ := ih' (Wk.rev_iff.1 k') (by omega)
      have hb : B t b w₁ := hB _ (List.mem_cons_self ..) _ (hg.mirror_out e)
      exact ⟨m, wf, w₁ + wb, kf, .cons hb kb, by omega⟩
    · by_cases hs : s = v
      · subst hs
        obtain ⟨b, w₁, w₂, ⟨c, e⟩, k', hle⟩ := (Contracts.walk hg hc k ht hw).2 rfl
        obtain ⟨m, wf, wb, kf, kb, hle'⟩ := ih' k' (by omega)
        have hf : F s b w₁ := hF _ (List.mem_cons_self ..) _ e
        exact ⟨m, w₁ + wf, wb, .cons hf kf, kb, by omega⟩
      · obtain ⟨w', hle, k'⟩ := (Contracts.walk hg hc k ht hw).1 hs
        obtain ⟨m, wf, wb, kf, kb, hle'⟩ := ih' k' (by omega)
        exact ⟨m, wf, wb, kf, kb, by omega⟩

/-! ### Contracted nodes stay isolated -/

/-- No arc touches `u`. -/
def Isolated (g : PreparationGraph) (u : Nat) : Prop := g.outs u = [] ∧ g.ins u = []

theorem Isolated.not_adj {g : PreparationGraph} (hg : WF n g) {u x : Nat} (h : Isolated g u) {e : Arc}
    (he : e ∈ g.outs x) : e.adj ≠ u ∧ x ≠ u := by
  constructor
  · intro h'
    have := hg.mirror_out he
    rw [h', h.2] at this
    simp at this
  · intro h'
    rw [h', h.1] at he
    simp at he

theorem Contracts.isolated {g g' : PreparationGraph} {v : Nat} (hg : WF n g) (h : Contracts P n g v g') {u : Nat}
    (hu : Isolated g u) : Isolated g' u := by
  have key : ∀ x, ∀ e ∈ g'.outs x, e.adj ≠ u ∧ x ≠ u := by
    intro x e he
    rcases h.back x e he with h1 | ⟨_, a, ha, b, hb, rfl, hbe, _⟩
    · exact hu.not_adj hg h1
    · have h1 := hu.not_adj hg (hg.mirror_in ha)
      have h2 := hu.not_adj hg hb
      exact ⟨by rw [← hbe]; exact h2.1, h1.2⟩
  constructor
  · apply List.eq_nil_iff_forall_not_mem.2
    intro e he
    exact (key u e he).2 rfl
  · apply List.eq_nil_iff_forall_not_mem.2
    intro e he
    exact (key _ _ (h.wf.mirror_in he)).1 rfl

theorem Contracts.isolated_self {g g' : PreparationGraph} {v : Nat} (h : Contracts P n g v g') : Isolated g' v :=
  ⟨h.outs_nil, h.ins_nil⟩

theorem Chain.isolated {g g' : PreparationGraph} {ls : List Lvl} (h : Chain P n R g ls g') (hg : WF n g) :
    (∀ u, Isolated g u → Isolated g' u) ∧ (∀ l ∈ ls, Isolated g' l.node) := by
  induction h with
  | nil g => exact ⟨fun _ h => h, by simp⟩
  | cons hv hc _ ih =>
    obtain ⟨ih1, ih2⟩ := ih hc.wf
    refine ⟨fun u hu => ih1 u (hc.isolated hg hu), ?_⟩
    intro l hl
    rcases List.mem_cons.1 hl with rfl | hl
    · exact ih1 _ hc.isolated_self
    · exact ih2 l hl

theorem Chain.wf {g g' : PreparationGraph} {ls : List Lvl} (h : Chain P n R g ls g') (hg : WF n g) : WF n g' := by
  induction h with
  | nil g => exact hg
  | cons _ hc _ ih => exact ih hc.wf

/-- When all nodes are contracted nothing is left. -/
theorem Chain.empty {g g' : PreparationGraph} {ls : List Lvl} (h : Chain P n R g ls g') (hg : WF n g)
    (hall : ∀ u < n, u ∈ ls.map Lvl.node) : ∀ u, g'.outs u = [] := by
  intro u
  by_cases hu : u < n
  · obtain ⟨l, hl, rfl⟩ := List.mem_map.1 (hall u hu)
    exact ((h.isolated hg).2 l hl).1
  · have := (h.wf hg).lenOut
    simp only [outs]
    rw [List.getElem?_eq_none (by omega)]
    rfl

/-! ### Origin of arcs -/

/-- The arc `u → x` of weight `w` with center `c` is an input edge, or bypasses a node contracted in `ls`. -/
def Origin (P : Plat) (E : EdgeRel) (ls : List Lvl) (u x w c : Nat) : Prop :=
  (c = P.umax ∧ E u x w) ∨
  (∃ l ∈ ls, l.node = c ∧ ∃ a ∈ l.ins, ∃ b ∈ l.outs, a.adj = u ∧ b.adj = x ∧ w = a.weight + b.weight)

theorem Origin.mono {E : EdgeRel} {ls ls' : List Lvl} (hs : ∀ l ∈ ls, l ∈ ls') {u x w c : Nat}
    (h : Origin P E ls u x w c) : Origin P E ls' u x w c := by
  rcases h with h | ⟨l, hl, h⟩
  · exact Or.inl h
  · exact Or.inr ⟨l, hs l hl, h⟩

/-- All arcs of the graph have an origin. -/
def AllOrigin (P : Plat) (E : EdgeRel) (ls : List Lvl) (g : PreparationGraph) : Prop :=
  ∀ u, ∀ e ∈ g.outs u, Origin P E ls u e.adj e.weight e.center

theorem Contracts.allOrigin {E : EdgeRel} {ls : List Lvl} {g g' : PreparationGraph} {v : Nat}
    (h : Contracts P n g v g') (ho : AllOrigin P E ls g) :
    AllOrigin P E (ls ++ [⟨v, g.outs v, g.ins v⟩]) g' := by
  intro u e he
  rcases h.back u e he with h1 | ⟨hc, a, ha, b, hb, h2, h3, h4⟩
  · exact (ho u e h1).mono (by simp +contextual)
  · exact Or.inr ⟨⟨v, g.outs v, g.ins v⟩, by simp, hc.symm, a, ha, b, hb, h2, h3, h4⟩

/-- Facts about each recorded level. -/
structure LvlOk (P : Plat) (n : Nat) (E : EdgeRel) (prev : List Lvl) (l : Lvl) : Prop where
  lt : l.node < n
  nodupOut : (l.outs.map Arc.adj).Nodup
  nodupIn : (l.ins.map Arc.adj).Nodup
  outs_adj : ∀ a ∈ l.outs, a.adj < n ∧ a.adj ≠ l.node ∧ a.adj ∉ prev.map Lvl.node
  ins_adj : ∀ a ∈ l.ins, a.adj < n ∧ a.adj ≠ l.node ∧ a.adj ∉ prev.map Lvl.node
  outs_origin : ∀ a ∈ l.outs, Origin P E prev l.node a.adj a.weight a.center
  ins_origin : ∀ a ∈ l.ins, Origin P E prev a.adj l.node a.weight a.center

theorem Chain.levels {E : EdgeRel} {g g' : PreparationGraph} {ls : List Lvl} (h : Chain P n R g ls g') :
    ∀ prev, WF n g → AllOrigin P E prev g → (∀ l ∈ prev, Isolated g l.node) →
      ∀ j l, ls[j]? = some l → LvlOk P n E (prev ++ ls.take j) l := by
  induction h with
  | nil g => intro prev _ _ _ j l hl; simp at hl
  | @cons g g₁ g₂ v ls hv hc _ ih =>
    intro prev hg ho hiso j l hl
    cases j with
    | zero =>
      simp at hl
      subst hl
      have hnot : ∀ x, ∀ e ∈ g.outs x, e.adj ∉ prev.map Lvl.node ∧ x ∉ prev.map Lvl.node := by
        intro x e he
        constructor
        · intro hm
          obtain ⟨l', hl', e'⟩ := List.mem_map.1 hm
          exact ((hiso l' hl').not_adj hg he).1 e'.symm
        · intro hm
          obtain ⟨l', hl', e'⟩ := List.mem_map.1 hm
          exact ((hiso l' hl').not_adj hg he).2 e'.symm
      refine ⟨hv.1, hg.nodupOut v, hg.nodupIn v, ?_, ?_, ?_, ?_⟩
      · intro a ha
        exact ⟨hg.adj_lt ha, hg.noLoop _ _ ha, by simpa using (hnot v a ha).1⟩
      · intro a ha
        exact ⟨hg.adj_lt_in ha, hg.noLoop_in ha, by simpa using (hnot _ _ (hg.mirror_in ha)).2⟩
      · intro a ha
        simpa using ho v a ha
      · intro a ha
        simpa using ho _ _ (hg.mirror_in ha)
    | succ j =>
      have := ih (prev ++ [⟨v, g.outs v, g.ins v⟩]) hc.wf (hc.allOrigin ho) (by
        intro l' hl'
        rcases List.mem_append.1 hl' with h1 | h1
        · exact hc.isolated hg (hiso l' h1)
        · simp at h1; subst h1; exact hc.isolated_self) j l (by simpa using hl)
      simpa using this

end FP
