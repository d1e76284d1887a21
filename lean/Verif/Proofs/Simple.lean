import Verif.Proofs.Needed
import Verif.Proofs.Safe
import Verif.Proofs.Distance
import Verif.Proofs.Sizes
/-! # With a large enough budget every edge of the hierarchy stands for a simple path -/
namespace FP
open Spec PreparationGraph

variable {P : Plat} {n : Nat} {E : EdgeRel}

/-- `d` is the least weight of a walk. -/
def Dist (E : EdgeRel) (s t d : Nat) : Prop := Wk E s t d ∧ ∀ w, Wk E s t w → d ≤ w

theorem Dist.exists {s t w : Nat} (h : Wk E s t w) : ∃ d, Dist E s t d := by
  classical
  exact ⟨_, Nat.find_spec ⟨w, h⟩, fun w' h' => Nat.find_min' ⟨w, h⟩ h'⟩

theorem Dist.unique {s t d d' : Nat} (h : Dist E s t d) (h' : Dist E s t d') : d = d' := by
  have := h.2 _ h'.1
  have := h'.2 _ h.1
  omega

/-- `y` lies on a shortest walk from `s` to `t`. -/
def Between (E : EdgeRel) (s y t : Nat) : Prop := ∃ d₁ d₂, Dist E s y d₁ ∧ Dist E y t d₂ ∧ Dist E s t (d₁ + d₂)

theorem Dist.self (s : Nat) : Dist E s s 0 := ⟨.nil s, fun _ _ => Nat.zero_le _⟩

theorem Dist.zero (hpos : ∀ u v w, E u v w → 1 ≤ w) {s t : Nat} (h : Dist E s t 0) : s = t := by
  cases h with
  | intro h _ =>
    generalize hz : 0 = z at h
    cases h with
    | nil => rfl
    | cons e _ => have := hpos _ _ _ e; omega

theorem Between.left {s t d : Nat} (h : Dist E s t d) : Between E s s t := ⟨0, d, Dist.self s, h, by simpa using h⟩
theorem Between.right {s t d : Nat} (h : Dist E s t d) : Between E s t t := ⟨d, 0, h, Dist.self t, h⟩

theorem Between.trans_left {s y v t : Nat} (h : Between E s y v) (h' : Between E s v t) : Between E s y t := by
  obtain ⟨a, b, h1, h2, h3⟩ := h
  obtain ⟨c, d, k1, k2, k3⟩ := h'
  have e := h3.unique k1
  subst e
  refine ⟨a, b + d, h1, ⟨h2.1.append k2.1, ?_⟩, by rw [← Nat.add_assoc]; exact k3⟩
  intro w hw
  have := k3.2 _ (h1.1.append hw)
  omega

theorem Between.trans_right {s v y t : Nat} (h : Between E v y t) (h' : Between E s v t) : Between E s y t := by
  obtain ⟨a, b, h1, h2, h3⟩ := h
  obtain ⟨c, d, k1, k2, k3⟩ := h'
  have e := h3.unique k2
  subst e
  refine ⟨c + a, b, ⟨k1.1.append h1.1, ?_⟩, h2, by rw [Nat.add_assoc]; exact k3⟩
  intro w hw
  have := k3.2 _ (hw.append h2.1)
  omega

/-- A node on both halves is the middle one. -/
theorem Between.meet (hpos : ∀ u v w, E u v w → 1 ≤ w) {s v y t : Nat} (h : Between E s v t) (h1 : Between E s y v)
    (h2 : Between E v y t) : y = v := by
  obtain ⟨c, d, k1, k2, k3⟩ := h
  obtain ⟨a, b, p1, p2, p3⟩ := h1
  obtain ⟨a', b', q1, q2, q3⟩ := h2
  have e := p3.unique k1
  have e' := q3.unique k2
  have := k3.2 _ (p1.1.append q2.1)
  have hb : b = 0 := by omega
  subst hb
  exact p2.zero hpos

/-- The arc `u → x` of weight `w` stands for a simple path all nodes of which lie on shortest walks from `u` to `x`. -/
def Straight (E : EdgeRel) (u x w : Nat) : Prop :=
  ∃ L, WkL E u x w L ∧ (L ++ [x]).Nodup ∧ ∀ y ∈ L ++ [x], Between E u y x

theorem Straight.edge {u x w : Nat} (h : E u x w) (hne : u ≠ x) : Straight E u x w := by
  obtain ⟨d, hd⟩ := Dist.exists (Wk.single h)
  refine ⟨[u], WkL.single h, by simpa using hne, ?_⟩
  intro y hy
  simp at hy
  rcases hy with rfl | rfl
  · exact .left hd
  · exact .right hd

theorem Straight.comb (hpos : ∀ u v w, E u v w → 1 ≤ w) {u v x a b : Nat} (h1 : Straight E u v a) (h2 : Straight E v x b)
    (hb : Between E u v x) : Straight E u x (a + b) := by
  obtain ⟨L, k1, n1, b1⟩ := h1
  obtain ⟨M, k2, n2, b2⟩ := h2
  refine ⟨L ++ M, k1.append k2, ?_, ?_⟩
  · rw [List.append_assoc, List.nodup_append]
    rw [List.nodup_append] at n1
    refine ⟨n1.1, n2, ?_⟩
    rintro y hy _ hy' rfl
    have := Between.meet hpos hb (b1 y (by simp [hy])) (b2 y hy')
    subst this
    exact n1.2.2 y hy y (by simp) rfl
  · intro y hy
    rw [List.append_assoc, List.mem_append] at hy
    rcases hy with hy | hy
    · exact (b1 y (by simp [hy])).trans_left hb
    · exact (b2 y hy).trans_right hb

/-- A walk avoids `v` or can be cut at `v`. -/
theorem Wk.cut {g : PreparationGraph} {v u x w : Nat} (h : Wk g.rel u x w) (hu : u ≠ v) (hx : x ≠ v) :
    Wk (g.relNo v) u x w ∨ ∃ a b, Wk g.rel u v a ∧ Wk g.rel v x b ∧ a + b = w := by
  induction h with
  | nil s => exact Or.inl (.nil s)
  | @cons s y t a b e k ih =>
    by_cases hy : y = v
    · subst hy
      exact Or.inr ⟨a, b, .single e, k, rfl⟩
    · rcases ih hy hx with h | ⟨p, q, h1, h2, h3⟩
      · exact Or.inl (.cons ⟨e, hu, hy⟩ h)
      · exact Or.inr ⟨a + p, q, .cons e h1, h2, by omega⟩

/-- What a contraction with a large budget does: every new edge is needed. -/
def needStep (P : Plat) : StepRel := fun g v g' => ∀ u, ∀ e ∈ g'.outs u, e ∈ g.outs u ∨ (e.center = v ∧ ∃ a ∈ g.ins v,
  ∃ b ∈ g.outs v, a.adj = u ∧ b.adj = e.adj ∧ e.weight = a.weight + b.weight ∧
  (∀ w, Wk (g.relNo v) u e.adj w → e.weight < w) ∧ e.weight < P.umax)

theorem stepsOk_need {pq : PQ} (hP : P.checked = true) {ms : Nat} (hms : n < ms) : StepsOk pq P n ms (needStep P) :=
  fun hn _ _ _ _ hg hws hv h => (contractNode_need hP hn hg hv hws hms).of_ok h

/-- Invariant of contractions with a large budget. -/
structure Short (P : Plat) (E : EdgeRel) (done : List Nat) (g : PreparationGraph) : Prop where
  arcs : ∀ u, ∀ e ∈ g.outs u, Straight E u e.adj e.weight
  iso : ∀ v ∈ done, Isolated g v
  pres : ∀ s t w, s ∉ done → t ∉ done → Wk E s t w → w < P.umax → ∃ w', w' ≤ w ∧ Wk g.rel s t w'

theorem Short.real {done : List Nat} {g : PreparationGraph} (h : Short P E done g) {s t w : Nat} (k : Wk g.rel s t w) : Wk E s t w := by
  refine Wk.bind ?_ k
  rintro u v w ⟨c, hc⟩
  obtain ⟨L, hL, _⟩ := h.arcs _ _ hc
  exact hL.toWk

theorem Short.step (hpos : ∀ u v w, E u v w → 1 ≤ w) {done : List Nat} {g g' : PreparationGraph} {v : Nat} (hg : WF n g)
    (hc : Contracts P n g v g') (hr : needStep P g v g') (hv : v ∉ done) (h : Short P E done g) :
    Short P E (done ++ [v]) g' := by
  refine ⟨?_, ?_, ?_⟩
  · intro u e he
    rcases hr u e he with h1 | ⟨hcen, a, ha, b, hb, rfl, hbx, hw, hneed, hlt⟩
    · exact h.arcs u e h1
    · rw [hw]
      have hav := hg.noLoop_in ha
      have hbv := hg.noLoop _ _ hb
      have ha' := hg.mirror_in ha
      have s1 := h.arcs _ _ ha'
      have s2 := h.arcs _ _ hb
      simp only at s1
      rw [hbx] at s2 hbv
      refine s1.comb hpos s2 ?_
      have k : Wk E a.adj e.adj (a.weight + b.weight) := by
        obtain ⟨L, hL, _⟩ := s1
        obtain ⟨M, hM, _⟩ := s2
        exact hL.toWk.append hM.toWk
      obtain ⟨d, hd⟩ := Dist.exists k
      have hd' := hd.2 _ k
      have hna : a.adj ∉ done := fun hm => ((h.iso _ hm).not_adj hg ha').2 rfl
      have hnb : e.adj ∉ done := fun hm => ((h.iso _ hm).not_adj hg hb).1 hbx
      obtain ⟨w', hw', k'⟩ := h.pres _ _ _ hna hnb hd.1 (by omega)
      rcases k'.cut hav hbv with k2 | ⟨p, q, k2, k3, e3⟩
      · have := hneed _ k2; omega
      · have r2 := h.real k2
        have r3 := h.real k3
        obtain ⟨d1, hd1⟩ := Dist.exists r2
        obtain ⟨d2, hd2⟩ := Dist.exists r3
        have := hd1.2 _ r2
        have := hd2.2 _ r3
        have := hd.2 _ (hd1.1.append hd2.1)
        have : d = d1 + d2 := by omega
        subst this
        exact ⟨d1, d2, hd1, hd2, hd⟩
  · intro x hx
    rcases List.mem_append.1 hx with hx | hx
    · exact hc.isolated hg (h.iso x hx)
    · simp at hx; subst hx; exact hc.isolated_self
  · intro s t w hs ht k hw
    simp only [List.mem_append, List.mem_singleton, not_or] at hs ht
    obtain ⟨w', hw', k'⟩ := h.pres s t w hs.1 ht.1 k hw
    obtain ⟨w2, h2, k2⟩ := (hc.walk hg k' ht.2 (by omega)).1 hs.2
    exact ⟨w2, by omega, k2⟩

theorem Chain.short (hpos : ∀ u v w, E u v w → 1 ≤ w) {g g' : PreparationGraph} {ls : List Lvl}
    (h : Chain P n (needStep P) g ls g') : ∀ {done : List Nat}, WF n g → (done ++ ls.map Lvl.node).Nodup → Short P E done g →
    Short P E (done ++ ls.map Lvl.node) g' ∧ (∀ l ∈ ls, ∀ a ∈ l.outs, Straight E l.node a.adj a.weight) ∧
      ∀ l ∈ ls, ∀ a ∈ l.ins, Straight E a.adj l.node a.weight := by
  induction h with
  | nil g => intro done _ _ h; exact ⟨by simpa using h, by simp, by simp⟩
  | @cons g g₁ g₂ v ls hv hc hch ih =>
    intro done hg hnd h
    have hvd : v ∉ done := by
      intro hm
      exact (List.nodup_append.1 hnd).2.2 v hm v (by simp) rfl
    have e : done ++ (v :: ls.map Lvl.node) = (done ++ [v]) ++ ls.map Lvl.node := by simp
    rw [List.map_cons, e] at hnd ⊢
    obtain ⟨i1, i2, i3⟩ := ih hc.wf hnd (h.step hpos hg hc hv.2 hvd)
    refine ⟨i1, ?_, ?_⟩
    · intro l hl a ha
      rcases List.mem_cons.1 hl with rfl | hl
      · exact h.arcs v a ha
      · exact i2 l hl a ha
    · intro l hl a ha
      rcases List.mem_cons.1 hl with rfl | hl
      · exact h.arcs a.adj ⟨v, a.weight, a.center⟩ (hg.mirror_in ha)
      · exact i3 l hl a ha

theorem FromInput.short {es : List Edge} {g : PreparationGraph} (h : FromInput P n es g) : Short P (edgesOf es) [] g := by
  refine ⟨?_, by simp, ?_⟩
  · intro u e he
    obtain ⟨_, h2⟩ := (h.mem _ _).1 he
    exact Straight.edge h2 (fun e' => h.wf.noLoop _ _ he e'.symm)
  · intro s t w _ _ k _
    exact ⟨w, Nat.le_refl _, k.mono (fun u v w e => h.rel_iff.2 e)⟩

/-- A simple path has at most `n - 1` edges. -/
theorem Straight.le {W u x w : Nat} (hlt : ∀ u v w, E u v w → u < n ∧ v < n) (hW : ∀ u v w, E u v w → w ≤ W) (hu : u < n)
    (h : Straight E u x w) : w ≤ (n - 1) * W := by
  obtain ⟨L, hL, hnd, _⟩ := h
  obtain ⟨h1, h2, h3⟩ := hL.isWalk
  have hsub : L ++ [x] ⊆ List.range n := fun y hy => List.mem_range.2 (isWalk_lt hlt h1 h2 hu y hy)
  have hlen : (L ++ [x]).length ≤ n := by simpa using (List.subperm_of_subset hnd hsub).length_le
  exact Nat.le_trans (isWalk_weight_le hW h1) (Nat.mul_le_mul_right W (by omega))

theorem BuiltFrom.straight {es : List Edge} (hpos : ∀ e ∈ es, 1 ≤ e.weight) {fg : FastGraph}
    (h : BuiltFrom P n (needStep P) es fg) : (∀ ed ∈ fg.edgesFwd, Straight (edgesOf es) ed.baseNode ed.adjNode ed.weight) ∧
      ∀ ed ∈ fg.edgesBwd, Straight (edgesOf es) ed.adjNode ed.baseNode ed.weight := by
  obtain ⟨pq, ls, st, hI, hlen, hsc⟩ := h
  obtain ⟨g₀, hfi, hch⟩ := hI.start
  obtain ⟨_, h1, h2⟩ := hch.short (E := edgesOf es) (fun u v w e => hpos _ e) (done := []) hfi.wf (by simpa using hI.nodup) hfi.short
  constructor
  · intro ed hed
    have : ed.core ∈ fg.edgesFwd.map FastGraphEdge.core := List.mem_map.2 ⟨ed, hed, rfl⟩
    rw [hsc.ef, hI.rc.ef] at this
    obtain ⟨ed', m, e⟩ := List.mem_map.1 this
    obtain ⟨b, hb, m⟩ := List.mem_flatten.1 m
    obtain ⟨l, hl, rfl⟩ := List.mem_map.1 hb
    obtain ⟨a, ha, rfl⟩ := List.mem_map.1 m
    obtain ⟨q1, q2, q3⟩ := FastGraphEdge.core_eq e
    rw [← q1, ← q2, ← q3]
    exact h1 l hl a ha
  · intro ed hed
    have : ed.core ∈ fg.edgesBwd.map FastGraphEdge.core := List.mem_map.2 ⟨ed, hed, rfl⟩
    rw [hsc.eb, hI.rc.eb] at this
    obtain ⟨ed', m, e⟩ := List.mem_map.1 this
    obtain ⟨b, hb, m⟩ := List.mem_flatten.1 m
    obtain ⟨l, hl, rfl⟩ := List.mem_map.1 hb
    obtain ⟨a, ha, rfl⟩ := List.mem_map.1 m
    obtain ⟨q1, q2, q3⟩ := FastGraphEdge.core_eq e
    rw [← q1, ← q2, ← q3]
    exact h2 l hl a ha

/-- With a large budget arcs stay as light as simple paths. -/
theorem bounded_need {pq : PQ} {es : List Edge} {W : Nat} (hpos : ∀ e ∈ es, 1 ≤ e.weight)
    (hlt : ∀ e ∈ es, e.src < n ∧ e.dst < n) (hW : ∀ e ∈ es, e.weight ≤ W) (hfit : 4 * ((n - 1) * W) ≤ P.umax)
    (hcap : n * n < P.umax) : Bounded pq P n (needStep P) es := by
  refine ⟨hcap, ?_⟩
  intro ls st hI _
  refine ⟨(n - 1) * W, ?_, hfit⟩
  obtain ⟨g₀, hfi, hch⟩ := hI.start
  obtain ⟨h1, _, _⟩ := hch.short (E := edgesOf es) (fun u v w e => hpos _ e) (done := []) hfi.wf (by simpa using hI.nodup) hfi.short
  intro u a ha
  refine (h1.arcs u a ha).le (fun u v w e => hlt _ e) (fun u v w e => hW _ e) ?_
  have := hI.wf.mirror_out ha
  exact hI.wf.adj_lt_in this

end FP
