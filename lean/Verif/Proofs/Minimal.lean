import Verif.Proofs.ZeroBudget
import Verif.Proofs.Covering
import Verif.Proofs.Sizes
import Verif.Proofs.Foreign
import Verif.SpecMinimal
/-! # Which edges have to be stored -/
namespace FP
open Spec PreparationGraph

variable {pq : PQ} {P : Plat} {n : Nat} {E : EdgeRel}

/-- No node other than the two ends of an edge is on a route between them that is not longer than the edge. -/
def Irr (E : EdgeRel) : Prop := ∀ u y w x a b, E u y w → Wk E u x a → Wk E x y b → a + b ≤ w → x = u ∨ x = y

theorem Irr.le (h : Irr E) (hloop : ∀ u w, ¬ E u u w) (huniq : ∀ u y w w', E u y w → E u y w' → w = w') {u y w a : Nat}
    (e : E u y w) (k : Wk E u y a) : w ≤ a := by
  cases k with
  | nil => exact absurd e (hloop _ _)
  | @cons _ z _ a b e' k =>
    by_contra hlt
    rcases h u y w z a b e (.single e') k (by omega) with rfl | rfl
    · exact hloop _ _ e'
    · have := huniq _ _ _ _ e e'
      omega

/-- A walk avoids `c` or passes through it. -/
theorem walk_through {g : PreparationGraph} {c s t w : Nat} (k : Wk g.rel s t w) :
    (Wk (g.relNo c) s t w) ∨ ∃ a b, Wk g.rel s c a ∧ Wk g.rel c t b ∧ a + b = w := by
  induction k with
  | nil s => exact Or.inl (.nil s)
  | @cons s x t a b e k ih =>
    by_cases hs : s = c
    · subst hs
      exact Or.inr ⟨0, a + b, .nil _, .cons e k, by omega⟩
    by_cases hx : x = c
    · subst hx
      exact Or.inr ⟨a, b, .single e, k, rfl⟩
    rcases ih with ih | ⟨a', b', k1, k2, he⟩
    · exact Or.inl (.cons ⟨e, hs, hx⟩ ih)
    · exact Or.inr ⟨a + a', b', .cons e k1, k2, by omega⟩

theorem rel_uniq {g : PreparationGraph} (hg : WF n g) {u y w w' : Nat} (h : g.rel u y w) (h' : g.rel u y w') : w = w' := by
  obtain ⟨c, h⟩ := h
  obtain ⟨c', h'⟩ := h'
  have := List.inj_on_of_nodup_map (hg.nodupOut u) h h' rfl
  injection this

theorem rel_loop {g : PreparationGraph} (hg : WF n g) (u w : Nat) : ¬ g.rel u u w := fun ⟨_, h⟩ => hg.noLoop _ _ h rfl

/-- With a generous budget the contraction of a node adds no edge with a detour. -/
theorem Irr.contract {g g' : PreparationGraph} {c : Nat} (hg : WF n g) (h : Irr g.rel) (hc : Contracts P n g c g')
    (hneed : ∀ u, ∀ e ∈ g'.outs u, e ∈ g.outs u ∨ (e.center = c ∧ ∃ a ∈ g.ins c, ∃ b ∈ g.outs c, a.adj = u ∧ b.adj = e.adj ∧
      e.weight = a.weight + b.weight ∧ (∀ w, Wk (g.relNo c) u e.adj w → e.weight < w) ∧ e.weight < P.umax)) :
    Irr g'.rel ∧ ∀ u y w, g'.rel u y w → Wk g.rel u y w := by
  have hback : ∀ u y w, g'.rel u y w → g.rel u y w ∨ ∃ a b, g.rel u c a ∧ g.rel c y b ∧ w = a + b ∧
      ∀ w', Wk (g.relNo c) u y w' → w < w' := by
    rintro u y w ⟨e, he⟩
    rcases hneed u _ he with k | ⟨_, a, ha, b, hb, h1, h2, h3, h4, _⟩
    · exact Or.inl ⟨_, k⟩
    · right
      simp only at h2 h3 h4
      subst h1
      subst h2
      exact ⟨a.weight, b.weight, ⟨a.center, (hg.mirror _ _ _ _).2 ha⟩, ⟨b.center, hb⟩, h3, h4⟩
  have hold : ∀ u y w, g'.rel u y w → Wk g.rel u y w := by
    intro u y w e
    rcases hback u y w e with k | ⟨a, b, k1, k2, rfl, _⟩
    · exact .single k
    · exact .cons k1 (.single k2)
  refine ⟨?_, hold⟩
  intro u y w x a b e k1 k2 hle
  by_contra hne
  have hxu : x ≠ u := fun h => hne (Or.inl h)
  have hxy : x ≠ y := fun h => hne (Or.inr h)
  have hxc : x ≠ c := by
    rintro rfl
    cases k2 with
    | nil => exact hxy rfl
    | cons e' _ =>
      obtain ⟨_, he⟩ := e'
      rw [hc.outs_nil] at he
      simp at he
  have l1 : Wk g.rel u x a := k1.bind hold
  have l2 : Wk g.rel x y b := k2.bind hold
  rcases hback u y w e with k | ⟨wa, wb, q1, q2, rfl, q3⟩
  · exact hne (h u y w x a b k l1 l2 hle)
  have dist := fun {u y w a : Nat} => @Irr.le _ h (rel_loop hg) (fun _ _ _ _ => rel_uniq hg) u y w a
  rcases walk_through (c := c) l1 with m1 | ⟨a1, a2, m1, m2, rfl⟩
  · rcases walk_through (c := c) l2 with m2 | ⟨b1, b2, m2, m3, rfl⟩
    · have := q3 _ (m1.append m2)
      omega
    · have := dist q2 m3
      rcases h u c wa x a b1 q1 l1 m2 (by omega) with r | r
      · exact hxu r
      · exact hxc r
  · have := dist q1 m1
    rcases h c y wb x a2 b q2 m2 l2 (by omega) with r | r
    · exact hxc r
    · exact hxy r

/-- The graph that is left: no detours, the distances of the input. -/
structure LeftG (P : Plat) (E : EdgeRel) (n : Nat) (done : List Nat) (g : PreparationGraph) : Prop where
  wf : WF n g
  irr : Irr g.rel
  sound : ∀ u y w, g.rel u y w → Wk E u y w
  bnd : (∀ u y w, E u y w → w < P.umax) → ∀ u y w, g.rel u y w → w < P.umax
  dist : ∀ s t w, s ∉ done → t ∉ done → Wk E s t w → w < P.umax → ∃ w' ≤ w, Wk g.rel s t w'

theorem remaining_left (hP : P.checked = true) {ig : InputGraph} (hF : FrozenOk ig) (hn : ig.numNodes ≤ P.umax) {ms : Nat}
    (hms : ig.numNodes < ms) (hirr : Irr (edgesOf ig.edges)) (done : List Nat) : (∀ v ∈ done, v < ig.numNodes) →
      ∀ {g : PreparationGraph}, remaining P pq ig ms done = .ok g → LeftG P (edgesOf ig.edges) ig.numNodes done g := by
  induction hl : done.length generalizing done with
  | zero =>
    intro _ g h
    cases List.length_eq_zero_iff.1 hl
    obtain ⟨gi, e, hgi⟩ := fromInputGraph_ok (P := P) hF
    unfold remaining at h
    rw [e] at h
    simp only [bind_okM, forM_nil] at h
    cases h
    have hrel : g.rel = edgesOf ig.edges := by
      funext u y w
      refine propext ⟨fun ⟨c, hc⟩ => ((hgi.mem _ _).1 hc).2, fun h => ⟨P.umax, (hgi.mem _ _).2 ⟨rfl, h⟩⟩⟩
    exact ⟨hgi.wf, by rw [hrel]; exact hirr, fun _ _ _ e => .single (by rw [← hrel]; exact e),
      by rw [hrel]; exact fun h => h,
      fun s t w _ _ k _ => ⟨w, Nat.le_refl _, by rw [hrel]; exact k⟩⟩
  | succ k ih =>
    intro hlt g h
    obtain ⟨d, v, rfl⟩ : ∃ d v, done = d ++ [v] := by
      rcases List.eq_nil_or_concat done with rfl | ⟨d, v, rfl⟩
      · simp at hl
      · exact ⟨d, v, by rw [List.concat_eq_append]⟩
    obtain ⟨g1, hg1⟩ : ∃ g', remaining P pq ig ms d = .ok g' := by
      unfold remaining at h ⊢
      obtain ⟨gi, e, h⟩ := bind_eq_ok.1 h
      rw [e]
      simp only [bind_okM]
      rw [forM_append] at h
      obtain ⟨g', e', _⟩ := bind_eq_ok.1 h
      exact ⟨g', e'⟩
    rw [remaining_snoc hg1] at h
    obtain ⟨r, er, hr⟩ := bind_eq_ok.1 h
    injection hr with hr
    subst hr
    have q := ih d (by simpa using hl) (fun x hx => hlt x (by simp [hx])) hg1
    have hv : v < ig.numNodes := hlt v (by simp)
    have hc := ((contractNode_ok hP hn q.wf hv (WitnessSearch.Base.new P pq _)).of_ok er).1
    have hneed := (contractNode_need hP hn q.wf hv (WitnessSearch.Base.new P pq _) hms).of_ok er
    obtain ⟨i1, i2⟩ := q.irr.contract q.wf hc hneed
    refine ⟨hc.wf, i1, fun u y w e => (i2 u y w e).bind q.sound, ?_, ?_⟩
    · rintro hb u y w ⟨c, hc⟩
      rcases hneed u _ hc with k | ⟨_, _, _, _, _, _, _, _, _, k⟩
      · exact q.bnd hb u y w ⟨c, k⟩
      · exact k
    intro s t w hs ht k hw
    simp only [List.mem_append, List.mem_singleton, not_or] at hs ht
    obtain ⟨w', h1, h2⟩ := q.dist s t w hs.1 ht.1 k hw
    obtain ⟨w'', h3, h4⟩ := (hc.walk q.wf h2 ht.2 (by omega)).1 hs.2
    exact ⟨w'', by omega, h4⟩

/-! ### Stored edges -/

theorem Up.mem {g : FastGraph} {u v w : Nat} :
    Up g u v w ↔ ∃ l, storedOut g u = .ok l ∧ ∃ x, (x, v, w) ∈ l := by
  unfold Up OutEdge storedOut
  constructor
  · rintro ⟨i, ed, ⟨b, e, hb, he, h1, h2, h3⟩, rfl, rfl⟩
    rw [hb, he]
    refine ⟨_, rfl, ed.baseNode, List.mem_map.2 ⟨ed, ?_, rfl⟩⟩
    rw [List.mem_iff_getElem?]
    refine ⟨i - b, ?_⟩
    rw [List.getElem?_take_of_lt (by omega), List.getElem?_drop, show b + (i - b) = i by omega]
    exact h3
  · rintro ⟨l, hl, x, hx⟩
    obtain ⟨b, hb, hl⟩ := bind_eq_ok.1 hl
    obtain ⟨e, he, hl⟩ := bind_eq_ok.1 hl
    injection hl with hl
    subst hl
    obtain ⟨ed, hed, hx⟩ := List.mem_map.1 hx
    injection hx with _ hx
    injection hx with h1 h2
    obtain ⟨i, hi⟩ := List.mem_iff_getElem?.1 hed
    rw [List.getElem?_take] at hi
    split at hi
    · rw [List.getElem?_drop] at hi
      exact ⟨b + i, ed, ⟨b, e, hb, he, by omega, by omega, hi⟩, h1, h2⟩
    · cases hi

theorem Down.mem {g : FastGraph} {u v w : Nat} :
    Down g u v w ↔ ∃ l, storedIn g v = .ok l ∧ ∃ x, (x, u, w) ∈ l := by
  unfold Down InEdge storedIn
  constructor
  · rintro ⟨i, ed, ⟨b, e, hb, he, h1, h2, h3⟩, rfl, rfl⟩
    rw [hb, he]
    refine ⟨_, rfl, ed.baseNode, List.mem_map.2 ⟨ed, ?_, rfl⟩⟩
    rw [List.mem_iff_getElem?]
    refine ⟨i - b, ?_⟩
    rw [List.getElem?_take_of_lt (by omega), List.getElem?_drop, show b + (i - b) = i by omega]
    exact h3
  · rintro ⟨l, hl, x, hx⟩
    obtain ⟨b, hb, hl⟩ := bind_eq_ok.1 hl
    obtain ⟨e, he, hl⟩ := bind_eq_ok.1 hl
    injection hl with hl
    subst hl
    obtain ⟨ed, hed, hx⟩ := List.mem_map.1 hx
    injection hx with _ hx
    injection hx with h1 h2
    obtain ⟨i, hi⟩ := List.mem_iff_getElem?.1 hed
    rw [List.getElem?_take] at hi
    split at hi
    · rw [List.getElem?_drop] at hi
      exact ⟨b + i, ed, ⟨b, e, hb, he, by omega, by omega, hi⟩, h1, h2⟩
    · cases hi

/-- The stored edges of `v` and the graph that is left when its turn comes. -/
theorem stored_rel {ig : InputGraph} (hF : FrozenOk ig) {ms : Nat} {fg : FastGraph}
    (h : BuiltFrom P ig.numNodes (freshStep pq P ig.numNodes ms) ig.edges fg) {order : List Nat}
    (hord : fg.getNodeOrdering = .ok order) {pre rest : List Nat} {v : Nat} (he : order = pre ++ v :: rest) :
    ∃ g, remaining P pq ig ms pre = .ok g ∧ WF ig.numNodes g ∧ NoEdgesAt g pre ∧ order.Nodup ∧
      (∀ x w, Up fg v x w ↔ g.rel v x w) ∧ ∀ x w, Down fg x v w ↔ g.rel x v w := by
  obtain ⟨g, h1, h2, _, hnd, hno, h4, h5⟩ := stored_edges hF h hord he
  refine ⟨g, h1, h2, hno, hnd, fun x w => ?_, fun x w => ?_⟩
  · rw [Up.mem]
    constructor
    · rintro ⟨l, hl, y, hy⟩
      rw [h4] at hl
      injection hl with hl
      subst hl
      obtain ⟨a, ha, hy⟩ := List.mem_map.1 hy
      injection hy with _ hy
      injection hy with e1 e2
      subst e1
      subst e2
      exact ⟨a.center, ha⟩
    · rintro ⟨c, hc⟩
      exact ⟨_, h4, v, List.mem_map.2 ⟨_, hc, rfl⟩⟩
  · rw [Down.mem]
    constructor
    · rintro ⟨l, hl, y, hy⟩
      rw [h5] at hl
      injection hl with hl
      subst hl
      obtain ⟨a, ha, hy⟩ := List.mem_map.1 hy
      injection hy with _ hy
      injection hy with e1 e2
      subst e1
      subst e2
      exact ⟨a.center, (h2.mirror _ _ _ _).2 ha⟩
    · rintro ⟨c, hc⟩
      exact ⟨_, h5, v, List.mem_map.2 ⟨_, (h2.mirror _ _ _ _).1 hc, rfl⟩⟩

/-- If every stored edge of one graph has a counterpart in another one, the other one has at least as many. -/
theorem length_le_of_pairs {l l' : List FastGraphEdge} (hnd : (l.map (fun e => (e.baseNode, e.adjNode))).Nodup)
    (h : ∀ e ∈ l, ∃ e' ∈ l', e'.baseNode = e.baseNode ∧ e'.adjNode = e.adjNode) : l.length ≤ l'.length := by
  have := (List.subperm_of_subset (l₂ := l'.map (fun e => (e.baseNode, e.adjNode))) hnd (by
    intro p hp
    obtain ⟨e, he, rfl⟩ := List.mem_map.1 hp
    obtain ⟨e', he', h1, h2⟩ := h e he
    exact List.mem_map.2 ⟨e', he', by rw [h1, h2]⟩)).length_le
  simpa using this

theorem noDetours_iff : NoDetours E ↔ Irr E := by
  unfold NoDetours Irr
  simp only [hasWalk_iff]

/-- The order of a built graph around a node. -/
theorem order_split {fg : FastGraph} (hg : Shape P n fg) {v : Nat} (hv : v < n) : ∃ order pre rest, fg.getNodeOrdering = .ok order ∧
    order = pre ++ v :: rest ∧ (∀ x ∈ order, x < n) ∧ ∀ x ∈ pre, fg.rk x < fg.rk v := by
  obtain ⟨order, h1, h2, h3⟩ := hg.ordering
  have hmem : v ∈ order := h2.mem_iff.2 (List.mem_range.2 hv)
  obtain ⟨pre, rest, he⟩ := List.append_of_mem hmem
  have hrk : ∀ (j v : Nat), order[j]? = some v → fg.rk v = j := by
    intro j v h
    unfold FastGraph.rk
    rw [(h3 j v).1 h]
    rfl
  refine ⟨order, pre, rest, h1, he, fun x hx => List.mem_range.1 (h2.mem_iff.1 hx), ?_⟩
  intro x hx
  obtain ⟨j, hj, e⟩ := List.getElem_of_mem hx
  have q1 := hrk j x (by rw [he, List.getElem?_append_left hj, List.getElem?_eq_getElem hj, e])
  have q2 := hrk pre.length v (by rw [he]; simp)
  omega

/-- With a generous budget, and if there are no detours, only unavoidable edges are stored. -/
theorem stored_unavoidable (hP : P.checked = true) {ig : InputGraph} (hF : FrozenOk ig) {ms : Nat} (hms : ig.numNodes < ms)
    (hirr : Irr (edgesOf ig.edges)) {fg : FastGraph} (hg : FGood P (edgesOf ig.edges) ig.numNodes fg)
    (hB : BuiltFrom P ig.numNodes (freshStep pq P ig.numNodes ms) ig.edges fg) (s t d : Nat) :
    (Up fg s t d ∨ Down fg s t d → (∀ u y w, edgesOf ig.edges u y w → w < P.umax) → d < P.umax) ∧
    (Up fg s t d ∨ Down fg s t d → d < P.umax → Unavoidable (edgesOf ig.edges) fg s t d) := by
  have hn : ig.numNodes ≤ P.umax := Nat.le_of_lt hg.n_lt
  have key : ∀ pre g, remaining P pq ig ms pre = .ok g → (∀ x ∈ pre, x < ig.numNodes) → NoEdgesAt g pre →
      s < ig.numNodes → t < ig.numNodes → (∀ x ∈ pre, fg.rk x < fg.rk s ∧ fg.rk x < fg.rk t) → g.rel s t d →
      ((∀ u y w, edgesOf ig.edges u y w → w < P.umax) → d < P.umax) ∧
      (d < P.umax → Unavoidable (edgesOf ig.edges) fg s t d) := by
    intro pre g hr hpre hno hs ht hrk hrel
    have q := remaining_left hP hF hn hms hirr pre hpre hr
    have hsp : s ∉ pre := fun h => by have := (hrk s h).1; omega
    have htp : t ∉ pre := fun h => by have := (hrk t h).2; omega
    refine ⟨fun hb => q.bnd hb _ _ _ hrel, fun hd => ?_⟩
    refine ⟨⟨hasWalk_iff.2 (q.sound _ _ _ hrel), ?_⟩, ?_⟩
    · intro w' k
      by_contra hlt
      obtain ⟨w'', h1, h2⟩ := q.dist s t w' hsp htp (hasWalk_iff.1 k) (by omega)
      have := q.irr.le (rel_loop q.wf) (fun _ _ _ _ => rel_uniq q.wf) hrel h2
      omega
    · intro x a b k1 k2 hab
      rw [hasWalk_iff] at k1 k2
      by_cases hx : x ∈ pre
      · have hxn := hpre x hx
        exact Or.inr (Or.inr ⟨hg.toShape.above_iff.2 ⟨hxn, hs, (hrk x hx).1⟩, hg.toShape.above_iff.2 ⟨hxn, ht, (hrk x hx).2⟩⟩)
      · obtain ⟨a', ha, l1⟩ := q.dist s x a hsp hx k1 (by omega)
        obtain ⟨b', hb, l2⟩ := q.dist x t b hx htp k2 (by omega)
        rcases q.irr s t d x a' b' hrel l1 l2 (by omega) with r | r
        · exact Or.inl r
        · exact Or.inr (Or.inl r)
  have all : Up fg s t d ∨ Down fg s t d → ((∀ u y w, edgesOf ig.edges u y w → w < P.umax) → d < P.umax) ∧
      (d < P.umax → Unavoidable (edgesOf ig.edges) fg s t d) := by
    rintro (h | h)
    · obtain ⟨hs, ht, hst, _⟩ := hg.toFSound.up h
      obtain ⟨order, pre, rest, h1, h2, h3, h4⟩ := order_split hg.toShape hs
      obtain ⟨g, hr, _, hno, _, hup, _⟩ := stored_rel hF hB h1 h2
      exact key pre g hr (fun x hx => h3 x (by rw [h2]; simp [hx])) hno hs ht
        (fun x hx => ⟨h4 x hx, by have := h4 x hx; omega⟩) ((hup _ _).1 h)
    · obtain ⟨hs, ht, hst, _⟩ := hg.toFSound.down h
      obtain ⟨order, pre, rest, h1, h2, h3, h4⟩ := order_split hg.toShape ht
      obtain ⟨g, hr, _, hno, _, _, hdn⟩ := stored_rel hF hB h1 h2
      exact key pre g hr (fun x hx => h3 x (by rw [h2]; simp [hx])) hno hs ht
        (fun x hx => ⟨by have := h4 x hx; omega, h4 x hx⟩) ((hdn _ _).1 h)
  exact ⟨fun h => (all h).1, fun h => (all h).2⟩

theorem down_rank {g : FastGraph} (h : FSound P E n g) {s t w : Nat} (k : Wk (Down g) s t w) : g.rk t ≤ g.rk s := by
  induction k with
  | nil => exact Nat.le_refl _
  | cons e _ ih => have := (h.down e).2.2.1; omega

/-- Unavoidable edges are stored in every graph that answers all queries correctly. -/
theorem FSound.unavoidable_stored {g : FastGraph} (h : FSound P E n g) {s t d : Nat} (hne : s ≠ t)
    (hud : UpDownWalk g s t d) (hun : Unavoidable E g s t d) :
    (Above g s t ∧ Up g s t d) ∨ (Above g t s ∧ Down g s t d) := by
  obtain ⟨⟨_, hmin⟩, hin⟩ := hun
  obtain ⟨m, a, b, k1, k2, hle⟩ := hud
  rw [hasWalk_iff] at k1 k2
  have up : ∀ {s m a}, Wk (Up g) s m a → Wk E s m a := fun k => k.bind (fun _ _ _ e => (h.up e).2.2.2)
  have dn : ∀ {s m a}, Wk (Down g) s m a → Wk E s m a := fun k => k.bind (fun _ _ _ e => (h.down e).2.2.2)
  cases k1 with
  | nil =>
    cases k2 with
    | nil => exact absurd rfl hne
    | @cons _ y _ a b e k =>
      obtain ⟨e1, e2, e3, e4⟩ := h.down e
      have := hmin _ (hasWalk_iff.2 (e4.append (dn k)))
      have hr := down_rank h k
      rcases hin y a b (hasWalk_iff.2 e4) (hasWalk_iff.2 (dn k)) (by omega) with rfl | rfl | ⟨_, r⟩
      · omega
      · right
        have := hmin _ (hasWalk_iff.2 e4)
        have : a = d := by omega
        subst this
        exact ⟨h.toShape.above_iff.2 ⟨e2, e1, e3⟩, e⟩
      · have := (h.toShape.above_iff.1 r).2.2
        omega
  | @cons _ y _ a₁ a₂ e k =>
    obtain ⟨e1, e2, e3, e4⟩ := h.up e
    have := hmin _ (hasWalk_iff.2 (e4.append ((up k).append (dn k2))))
    rcases hin y a₁ (a₂ + b) (hasWalk_iff.2 e4) (hasWalk_iff.2 ((up k).append (dn k2))) (by omega) with rfl | rfl | ⟨r, _⟩
    · omega
    · left
      have := hmin _ (hasWalk_iff.2 e4)
      have : a₁ = d := by omega
      subst this
      exact ⟨h.toShape.above_iff.2 ⟨e1, e2, e3⟩, e⟩
    · have := (h.toShape.above_iff.1 r).2.2
      omega

end FP
