import Verif.Proofs.Api
/-! # The number of stored edges -/
namespace FP
open Spec PreparationGraph

variable {P : Plat} {n : Nat}

/-- pairs `i < j < n` -/
def pairsBelow (n : Nat) : List (Nat × Nat) := (List.range n).flatMap (fun j => (List.range j).map (fun i => (i, j)))

theorem mem_pairsBelow {i j : Nat} : (i, j) ∈ pairsBelow n ↔ i < j ∧ j < n := by
  unfold pairsBelow
  simp only [List.mem_flatMap, List.mem_range, List.mem_map, Prod.mk.injEq]
  constructor
  · rintro ⟨_, h1, _, h2, rfl, rfl⟩; exact ⟨h2, h1⟩
  · rintro ⟨h1, h2⟩; exact ⟨j, h2, i, h1, rfl, rfl⟩

theorem length_pairsBelow : 2 * (pairsBelow n).length = n * (n - 1) := by
  induction n with
  | zero => rfl
  | succ n ih =>
    have : pairsBelow (n + 1) = pairsBelow n ++ (List.range n).map (fun i => (i, n)) := by
      unfold pairsBelow
      rw [List.range_succ, List.flatMap_append]
      simp
    rw [this, List.length_append, List.length_map, List.length_range, Nat.mul_add, ih]
    cases n with
    | zero => rfl
    | succ n =>
      simp only [Nat.add_sub_cancel]
      rw [show (n + 1) * n + 2 * (n + 1) = (n + 1) * (n + 2) by rw [Nat.mul_comm 2, ← Nat.mul_add], Nat.mul_comm]

/-- Edges leading to higher ranks, at most one for every pair of nodes. -/
theorem length_le_pairs {es : List FastGraphEdge} {rk : Nat → Nat}
    (hn : (es.map (fun e => (e.baseNode, e.adjNode))).Nodup) (hb : ∀ e ∈ es, e.baseNode < n ∧ e.adjNode < n)
    (hrk : ∀ e ∈ es, rk e.baseNode < rk e.adjNode ∧ rk e.adjNode < n)
    (hinj : ∀ u < n, ∀ v < n, rk u = rk v → u = v) : 2 * es.length ≤ n * (n - 1) := by
  rw [← length_pairsBelow]
  have hn' : (es.map (fun e => (rk e.baseNode, rk e.adjNode))).Nodup := by
    have : es.map (fun e => (rk e.baseNode, rk e.adjNode))
        = (es.map (fun e => (e.baseNode, e.adjNode))).map (fun p => (rk p.1, rk p.2)) := by
      rw [List.map_map]; rfl
    rw [this]
    refine hn.map_on ?_
    rintro ⟨a, b⟩ h1 ⟨c, d⟩ h2 he
    obtain ⟨e1, m1, q1⟩ := List.mem_map.1 h1
    obtain ⟨e2, m2, q2⟩ := List.mem_map.1 h2
    cases q1
    cases q2
    simp only [Prod.mk.injEq] at he ⊢
    have := hb _ m1
    have := hb _ m2
    exact ⟨hinj _ (by omega) _ (by omega) he.1, hinj _ (by omega) _ (by omega) he.2⟩
  have hs : (es.map (fun e => (rk e.baseNode, rk e.adjNode))).Subperm (pairsBelow n) := List.subperm_of_subset hn' (by
    rintro p hp
    obtain ⟨e, m, rfl⟩ := List.mem_map.1 hp
    exact mem_pairsBelow.2 (hrk e m))
  have := hs.length_le
  simp only [List.length_map] at this
  omega

theorem Chain.node_lt {g g' : PreparationGraph} {ls : List Lvl} (h : Chain P n R g ls g') : ∀ l ∈ ls, l.node < n := by
  induction h with
  | nil g => intro l hl; cases hl
  | cons hv _ _ ih =>
    intro l hl
    rcases List.mem_cons.1 hl with rfl | hl
    · exact hv.1
    · exact ih l hl

/-- Every edge is recorded when the first of its ends is contracted, possibly with a smaller weight. -/
theorem Chain.recorded {g g' : PreparationGraph} {ls : List Lvl} (h : Chain P n R g ls g') (hg : WF n g) {u x w : Nat}
    (hr : g.rel u x w) (hu : u ∈ ls.map Lvl.node) :
    ∃ l ∈ ls, (l.node = u ∧ ∃ a ∈ l.outs, a.adj = x ∧ a.weight ≤ w) ∨ (l.node = x ∧ ∃ a ∈ l.ins, a.adj = u ∧ a.weight ≤ w) := by
  induction h generalizing w with
  | nil g => cases hu
  | @cons g g₁ g₂ v ls hv hc _ ih =>
    obtain ⟨c, hc'⟩ := hr
    by_cases h1 : v = u
    · subst h1
      exact ⟨_, List.mem_cons_self .., Or.inl ⟨rfl, _, hc', rfl, Nat.le_refl _⟩⟩
    by_cases h2 : v = x
    · subst h2
      exact ⟨_, List.mem_cons_self .., Or.inr ⟨rfl, _, (hg.mirror _ _ _ _).1 hc', rfl, Nat.le_refl _⟩⟩
    obtain ⟨w', hw', hr'⟩ := hc.keep u x w ⟨⟨c, hc'⟩, fun e => h1 e.symm, fun e => h2 e.symm⟩
    have hu' : u ∈ ls.map Lvl.node := by
      rcases List.mem_cons.1 hu with e | e
      · exact absurd e.symm h1
      · exact e
    obtain ⟨l, hl, hcase⟩ := ih hc.wf hr' hu'
    refine ⟨l, List.mem_cons_of_mem _ hl, ?_⟩
    rcases hcase with ⟨q1, a, q2, q3, q4⟩ | ⟨q1, a, q2, q3, q4⟩
    · exact Or.inl ⟨q1, a, q2, q3, by omega⟩
    · exact Or.inr ⟨q1, a, q2, q3, by omega⟩

theorem BuiltFrom.holds {es : List Edge} {fg : FastGraph} (h : BuiltFrom P n R es fg) {u x w : Nat}
    (he : (⟨u, x, w⟩ : Edge) ∈ es) (hu : u < n) :
    (∃ ed ∈ fg.edgesFwd, ed.baseNode = u ∧ ed.adjNode = x ∧ ed.weight ≤ w) ∨
      ∃ ed ∈ fg.edgesBwd, ed.baseNode = x ∧ ed.adjNode = u ∧ ed.weight ≤ w := by
  obtain ⟨pq, ls, st, hI, hlen, hsc⟩ := h
  obtain ⟨g₀, hfi, hch⟩ := hI.start
  have hall : u ∈ ls.map Lvl.node := all_nodes hI.nodup hch.node_lt hlen u hu
  obtain ⟨l, hl, hcase⟩ := hch.recorded hfi.wf ⟨P.umax, (hfi.mem u ⟨x, w, P.umax⟩).2 ⟨rfl, he⟩⟩ hall
  have core : ∀ {es es' : List FastGraphEdge}, es.map FastGraphEdge.core = es'.map FastGraphEdge.core → ∀ e ∈ es',
      ∃ e' ∈ es, e'.baseNode = e.baseNode ∧ e'.adjNode = e.adjNode ∧ e'.weight = e.weight := by
    intro es es' heq e he
    have : e.core ∈ es.map FastGraphEdge.core := by rw [heq]; exact List.mem_map.2 ⟨e, he, rfl⟩
    obtain ⟨e', m, q⟩ := List.mem_map.1 this
    exact ⟨e', m, FastGraphEdge.core_eq q⟩
  rcases hcase with ⟨rfl, a, ha, rfl, hw⟩ | ⟨rfl, a, ha, rfl, hw⟩
  · obtain ⟨e', m, q1, q2, q3⟩ := core hsc.ef ⟨l.node, a.adj, a.weight, a.center, P.umax⟩ (by
      rw [hI.rc.ef]
      exact List.mem_flatten.2 ⟨_, List.mem_map.2 ⟨l, hl, rfl⟩, List.mem_map.2 ⟨a, ha, rfl⟩⟩)
    exact Or.inl ⟨e', m, q1, q2, by rw [q3]; exact hw⟩
  · obtain ⟨e', m, q1, q2, q3⟩ := core hsc.eb ⟨l.node, a.adj, a.weight, a.center, P.umax⟩ (by
      rw [hI.rc.eb]
      exact List.mem_flatten.2 ⟨_, List.mem_map.2 ⟨l, hl, rfl⟩, List.mem_map.2 ⟨a, ha, rfl⟩⟩)
    exact Or.inr ⟨e', m, q1, q2, by rw [q3]; exact hw⟩

end FP
