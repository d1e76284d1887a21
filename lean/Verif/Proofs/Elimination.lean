import Verif.Proofs.Simple
import Verif.Proofs.Sizes
/-!
# Contractions that need no shortcuts
-/
set_option autoImplicit false
namespace FP
open Spec PreparationGraph
variable {P : Plat} {n : Nat} {E : EdgeRel}

/-- The graph between the nodes that are left is a part of the input, with all its pairs. -/
structure Induced (E : EdgeRel) (done : List Nat) (g : PreparationGraph) : Prop where
  arcs : ∀ u, ∀ e ∈ g.outs u, E u e.adj e.weight
  iso : ∀ v ∈ done, Isolated g v
  kept : ∀ u x w, u ∉ done → x ∉ done → E u x w → ∃ w' ≤ w, g.rel u x w'

theorem Induced.step {done : List Nat} {g g' : PreparationGraph} {v : Nat} (hg : WF n g) (hc : Contracts P n g v g')
    (h : Induced E done g)
    (hno : ∀ u, ∀ e ∈ g'.outs u, e ∉ g.outs u → False) : Induced E (done ++ [v]) g' := by
  refine ⟨?_, ?_, ?_⟩
  · intro u e he
    by_cases hm : e ∈ g.outs u
    · exact h.arcs u e hm
    · exact absurd (hno u e he hm) id
  · intro x hx
    rcases List.mem_append.1 hx with hx | hx
    · exact hc.isolated hg (h.iso x hx)
    · simp at hx; subst hx; exact hc.isolated_self
  · intro u x w hu hx he
    simp only [List.mem_append, List.mem_singleton, not_or] at hu hx
    obtain ⟨w1, h1, r1⟩ := h.kept u x w hu.1 hx.1 he
    obtain ⟨w2, h2, r2⟩ := hc.keep u x w1 ⟨r1, hu.2, hx.2⟩
    exact ⟨w2, by omega, r2⟩

/-- If no step adds an arc, everything recorded is an edge of the input. -/
theorem Chain.induced {R : StepRel} {g g' : PreparationGraph} {ls : List Lvl} (h : Chain P n R g ls g') : ∀ {done : List Nat}, WF n g →
    Induced E done g →
    (∀ pre v post (g g' : PreparationGraph), ls.map Lvl.node = pre ++ v :: post → WF n g → Contracts P n g v g' → R g v g' →
      Induced E (done ++ pre) g → ∀ u, ∀ e ∈ g'.outs u, e ∉ g.outs u → False) →
    (∀ l ∈ ls, ∀ a ∈ l.outs, E l.node a.adj a.weight) ∧ ∀ l ∈ ls, ∀ a ∈ l.ins, E a.adj l.node a.weight := by
  induction h with
  | nil g => intro done _ _ _; exact ⟨by simp, by simp⟩
  | @cons g g₁ g₂ v ls hv hc hch ih =>
    intro done hg h hno
    have h1 := h.step hg hc (hno [] v (ls.map Lvl.node) g g₁ rfl hg hc hv.2 (by simpa using h))
    obtain ⟨i1, i2⟩ := ih hc.wf h1 (by
      intro pre v' post g g' e a b c d
      refine hno (v :: pre) v' post g g' (by simp [e]) a b c ?_
      simpa using d)
    refine ⟨?_, ?_⟩
    · intro l hl a ha
      rcases List.mem_cons.1 hl with rfl | hl
      · exact h.arcs v a ha
      · exact i1 l hl a ha
    · intro l hl a ha
      rcases List.mem_cons.1 hl with rfl | hl
      · exact h.arcs a.adj ⟨v, a.weight, a.center⟩ (hg.mirror_in ha)
      · exact i2 l hl a ha

theorem FromInput.induced {es : List Edge} {g : PreparationGraph} (h : FromInput P n es g) : Induced (edgesOf es) [] g := by
  refine ⟨fun u e he => ((h.mem _ _).1 he).2, by simp, ?_⟩
  intro u x w _ _ he
  exact ⟨w, Nat.le_refl _, h.rel_iff.2 he⟩

/-- The same for a fast graph. The condition speaks about steps in which only the nodes above are left. -/
theorem BuiltFrom.induced {R : StepRel} {es : List Edge} {fg : FastGraph} (h : BuiltFrom P n R es fg)
    (hno : ∀ v (g g' : PreparationGraph), WF n g → Contracts P n g v g' → R g v g' →
      (∀ u, ∀ e ∈ g.outs u, edgesOf es u e.adj e.weight) →
      (∀ u x w, u ≠ v → x ≠ v → fg.rk v < fg.rk u → fg.rk v < fg.rk x → edgesOf es u x w → ∃ w' ≤ w, g.rel u x w') →
      (∀ u, ∀ e ∈ g.outs u, (u = v ∨ fg.rk v < fg.rk u) ∧ (e.adj = v ∨ fg.rk v < fg.rk e.adj)) →
      ∀ u, ∀ e ∈ g'.outs u, e ∉ g.outs u → False) :
    (∀ ed ∈ fg.edgesFwd, edgesOf es ed.baseNode ed.adjNode ed.weight) ∧
      ∀ ed ∈ fg.edgesBwd, edgesOf es ed.adjNode ed.baseNode ed.weight := by
  obtain ⟨pq, ls, st, hI, hlen, hsc⟩ := h
  obtain ⟨g₀, hfi, hch⟩ := hI.start
  have hall' := all_nodes hI.nodup hch.node_lt hlen
  have hrk : ∀ u, fg.rk u = st.fg.rk u := by
    intro u
    unfold FastGraph.rk
    rw [hsc.ranks]
  have key : ∀ pre v post, ls.map Lvl.node = pre ++ v :: post → ∀ u, u < n → u ∉ pre → u ≠ v → fg.rk v < fg.rk u := by
    intro pre v post e u hu hup huv
    have hm : u ∈ ls.map Lvl.node := hall' u hu
    rw [e] at hm
    have hpost : u ∈ post := by
      rcases List.mem_append.1 hm with hm | hm
      · exact absurd hm hup
      · rcases List.mem_cons.1 hm with hm | hm
        · exact absurd hm huv
        · exact hm
    obtain ⟨k, hk⟩ := List.getElem?_of_mem hpost
    have e1 : (ls.map Lvl.node)[pre.length]? = some v := by rw [e]; simp
    have e2 : (ls.map Lvl.node)[pre.length + (k + 1)]? = some u := by
      rw [e, List.getElem?_append_right (by omega)]
      simpa using hk
    rw [List.getElem?_map, Option.map_eq_some_iff] at e1 e2
    obtain ⟨l1, g1, rfl⟩ := e1
    obtain ⟨l2, g2, rfl⟩ := e2
    rw [hrk, hrk, hI.rc.rk_eq g1, hI.rc.rk_eq g2]
    omega
  have below : ∀ pre v post, ls.map Lvl.node = pre ++ v :: post → ∀ u, fg.rk v < fg.rk u → u ∉ pre := by
    intro pre v post e u hlt hm
    obtain ⟨k, hk⟩ := List.getElem?_of_mem hm
    have hkl : k < pre.length := (List.getElem?_eq_some_iff.1 hk).1
    have e1 : (ls.map Lvl.node)[pre.length]? = some v := by rw [e]; simp
    have e2 : (ls.map Lvl.node)[k]? = some u := by
      rw [e, List.getElem?_append_left hkl]; exact hk
    rw [List.getElem?_map, Option.map_eq_some_iff] at e1 e2
    obtain ⟨l1, g1, rfl⟩ := e1
    obtain ⟨l2, g2, rfl⟩ := e2
    rw [hrk, hrk, hI.rc.rk_eq g1, hI.rc.rk_eq g2] at hlt
    omega
  obtain ⟨h1, h2⟩ := hch.induced (E := edgesOf es) (done := []) hfi.wf hfi.induced (by
    intro pre v post g g' e hg hc hr hind
    simp only [List.nil_append] at hind
    refine hno v g g' hg hc hr hind.arcs ?_ ?_
    · intro u x w _ _ hu hx he
      exact hind.kept u x w (below pre v post e u hu) (below pre v post e x hx) he
    · intro u a ha
      have hu : u < n := hg.adj_lt_in (hg.mirror_out ha)
      have hx : a.adj < n := hg.adj_lt ha
      have hup : u ∉ pre := fun hm => ((hind.iso _ hm).not_adj hg ha).2 rfl
      have hxp : a.adj ∉ pre := fun hm => ((hind.iso _ hm).not_adj hg ha).1 rfl
      refine ⟨?_, ?_⟩
      · by_cases hv : u = v
        · exact Or.inl hv
        · exact Or.inr (key pre v post e u hu hup hv)
      · by_cases hv : a.adj = v
        · exact Or.inl hv
        · exact Or.inr (key pre v post e a.adj hx hxp hv))
  constructor
  · intro ed hed
    have : ed.core ∈ fg.edgesFwd.map FastGraphEdge.core := List.mem_map.2 ⟨ed, hed, rfl⟩
    rw [hsc.ef, hI.rc.ef] at this
    obtain ⟨ed', m, e⟩ := List.mem_map.1 this
    obtain ⟨b, hb, m⟩ := List.mem_flatten.1 m
    obtain ⟨l, hl, rfl⟩ := List.mem_map.1 hb
    obtain ⟨a, ha, rfl⟩ := List.mem_map.1 m
    obtain ⟨q1, q2, q3⟩ := FastGraphEdge.core_eq e
    rw [← q1, ← q2, ← q3]
    exact h1 l hl a ha
  · intro ed hed
    have : ed.core ∈ fg.edgesBwd.map FastGraphEdge.core := List.mem_map.2 ⟨ed, hed, rfl⟩
    rw [hsc.eb, hI.rc.eb] at this
    obtain ⟨ed', m, e⟩ := List.mem_map.1 this
    obtain ⟨b, hb, m⟩ := List.mem_flatten.1 m
    obtain ⟨l, hl, rfl⟩ := List.mem_map.1 hb
    obtain ⟨a, ha, rfl⟩ := List.mem_map.1 m
    obtain ⟨q1, q2, q3⟩ := FastGraphEdge.core_eq e
    rw [← q1, ← q2, ← q3]
    exact h2 l hl a ha

/-- A node with at most one neighbour left (in-neighbours and out-neighbours together) needs no shortcut, whatever the budget. -/
theorem BuiltFrom.tree {es : List Edge} {fg : FastGraph} (h : BuiltFrom P n anyStep es fg)
    (ht : ∀ v x y a b, edgesOf es x v a → edgesOf es v y b → fg.rk v < fg.rk x → fg.rk v < fg.rk y → x = y) :
    (∀ ed ∈ fg.edgesFwd, edgesOf es ed.baseNode ed.adjNode ed.weight) ∧
      ∀ ed ∈ fg.edgesBwd, edgesOf es ed.adjNode ed.baseNode ed.weight := by
  refine h.induced ?_
  intro v g g' hg hc _ harcs _ habove u e he hnew
  rcases hc.back u e he with h1 | ⟨_, a, ha, b, hb, rfl, hbx, hw⟩
  · exact hnew h1
  have ha' := hg.mirror_in ha
  have hna := hg.noLoop_in ha
  have hnb := hg.noLoop _ _ hb
  have r1 := ((habove _ _ ha').1).resolve_left hna
  have r2 := ((habove _ _ hb).2).resolve_left hnb
  have := ht v _ _ _ _ (harcs _ _ ha') (harcs _ _ hb) r1 r2
  exact hc.wf.noLoop _ _ he (by rw [← hbx, ← this])

/-- If every way over a node is matched by an edge, a contraction with a large budget adds nothing. -/
theorem BuiltFrom.chordal {es : List Edge} {fg : FastGraph} (h : BuiltFrom P n (needStep P) es fg)
    (ht : ∀ v x y a b, edgesOf es x v a → edgesOf es v y b → fg.rk v < fg.rk x → fg.rk v < fg.rk y → x ≠ y →
      ∃ c ≤ a + b, edgesOf es x y c) :
    (∀ ed ∈ fg.edgesFwd, edgesOf es ed.baseNode ed.adjNode ed.weight) ∧
      ∀ ed ∈ fg.edgesBwd, edgesOf es ed.adjNode ed.baseNode ed.weight := by
  refine h.induced ?_
  intro v g g' hg hc hr harcs hkept habove u e he hnew
  rcases hr u e he with h1 | ⟨_, a, ha, b, hb, rfl, hbx, hw, hneed, _⟩
  · exact hnew h1
  have ha' := hg.mirror_in ha
  have hna := hg.noLoop_in ha
  have hnb := hg.noLoop _ _ hb
  have r1 := ((habove _ _ ha').1).resolve_left hna
  have r2 := ((habove _ _ hb).2).resolve_left hnb
  have hne : a.adj ≠ b.adj := by
    intro e'
    exact hc.wf.noLoop _ _ he (by rw [← hbx, ← e'])
  obtain ⟨c, hle, hE⟩ := ht v _ _ _ _ (harcs _ _ ha') (harcs _ _ hb) r1 r2 hne
  obtain ⟨w', hw', hrel⟩ := hkept _ _ _ hna hnb r1 r2 hE
  have := hneed w' (by rw [← hbx]; exact Wk.single ⟨hrel, hna, hnb⟩)
  simp only at hle
  omega

end FP
