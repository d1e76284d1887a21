import Verif.Model.TestSuite
import Verif.Proofs.SafeOracles
import Verif.Proofs.Api
import Verif.Proofs.Float32
import Verif.Proofs.Refine
/-! # The randomised tests -/
namespace FP
namespace TestSuite
open Spec

variable {pq : PQ} {P : Plat} {n : Nat} {E : EdgeRel}

/-- What a reference query tells. -/
def DAns (P : Plat) (E : EdgeRel) (s t : Nat) : Option ShortestPath → Prop
  | none => ∀ w, Wk E s t w → P.umax ≤ w
  | some p => p.weight < P.umax ∧ p.source = s ∧ p.target = t ∧ (∃ L, WkL E s t p.weight L ∧ p.nodes = L ++ [t]) ∧
      ∀ w, Wk E s t w → p.weight ≤ w

/-- The graph the reference works on. -/
structure DGraph (P : Plat) (n : Nat) (E : EdgeRel) (dg : PreparationGraph) : Prop where
  wf : PreparationGraph.WF n dg
  rel : dg.rel = E
  pos : ∀ u x w, E u x w → 1 ≤ w
  lt : ∀ u x w, E u x w → u < n ∧ x < n
  le : n ≤ P.umax

theorem DGraph.of_client (hP : P.checked = true) {ops : List Op} {ig : InputGraph} (hb : buildGraph P ops = .ok ig)
    (hf : ig.frozen = true) : ∃ dg, PreparationGraph.fromInputGraph P ig = .ok dg ∧ DGraph P ig.numNodes (edgesOf ig.edges) dg := by
  have hi := buildGraph_inv (Or.inl hP) hb
  obtain ⟨g, e, hfi⟩ := fromInputGraph_ok (P := P) (hi.frozenOk hf)
  refine ⟨g, e, hfi.wf, ?_, fun u x w h => hi.pos _ h, fun u x w h => (hi.frozenOk hf).lt _ h, buildGraph_num_le hb⟩
  funext u x w
  refine propext ⟨?_, ?_⟩
  · rintro ⟨c, hc⟩
    exact ((hfi.mem u _).1 hc).2
  · intro h
    exact ⟨P.umax, (hfi.mem u ⟨x, w, P.umax⟩).2 ⟨rfl, h⟩⟩

theorem dijkstra_ok (hP : P.checked = true) {dg : PreparationGraph} (h : DGraph P n E dg) {d : Dijkstra pq}
    (hd : Dijkstra.Base n d) {s t : Nat} (hs : s < n) (ht : t < n) :
    Tri (d.calcPath P dg s t) (fun r => Dijkstra.Base n r.1 ∧ DAns P E s t r.2) := by
  obtain ⟨wf, rfl, pos, _, le⟩ := h
  exact (Dijkstra.calcPath_ok hP le wf pos hd hs ht).mono (fun r hr => ⟨hr.1, by
    have := hr.2
    obtain ⟨d', r'⟩ := r
    cases r' <;> exact this⟩)

theorem dijkstra_noRes (hP : P.checked = true) {dg : PreparationGraph} (h : DGraph P n E dg) {d : Dijkstra pq}
    (hd : Dijkstra.Base n d) {s t W : Nat} (hs : s < n) (hW : ∀ u x w, E u x w → w ≤ W) (hfit : n * W ≤ P.umax) :
    NoRes (d.calcPath P dg s t) := by
  obtain ⟨wf, rfl, pos, lt, le⟩ := h
  exact Dijkstra.noRes_calcPath hP le wf pos lt hW hd hs hfit

/-- What the matrix of the second reference tells. -/
def FwOk (P : Plat) (E : EdgeRel) (n : Nat) (fw : FloydWarshall) : Prop :=
  ∀ s t, s < n → t < n → ∃ w, fw.calcWeight P s t = .ok w ∧ (w = P.umax ∨ Wk E s t w) ∧
    (∀ w', Wk E s t w' → w ≤ w' ∨ P.umax ≤ w') ∧ w ≤ P.umax

/-- The answers to a query with one source and one target. -/
theorem answer_single {s t : Nat} {r : Option ShortestPath} (h : Answer P E [(s, 0)] [(t, 0)] r) :
    (r = none → ∀ w, Wk E s t w → P.umax ≤ w) ∧
    ∀ p, r = some p → p.weight < P.umax ∧ p.source = s ∧ p.target = t ∧ Wk E s t p.weight ∧ ∀ w, Wk E s t w → p.weight ≤ w := by
  constructor
  · rintro rfl w hw
    exact h w (hasRoute_single.2 (hasWalk_iff.2 hw))
  · rintro p rfl
    obtain ⟨h1, ⟨ws, wt, w, h2, h3, h4, h5, h6, h7⟩, h8⟩ := h
    simp only [List.mem_singleton, Prod.mk.injEq] at h2 h3
    obtain ⟨h2, rfl⟩ := h2
    obtain ⟨h3, rfl⟩ := h3
    refine ⟨h1, h2, h3, ?_, fun w hw => h8 w (hasRoute_single.2 (hasWalk_iff.2 hw))⟩
    have : p.weight = w := by omega
    rw [this]
    exact hasWalk_iff.1 ⟨p.nodes, h4, by rw [h5, h2], by rw [h6, h3]⟩

theorem incI32_ok {a : Int} (hP : P.checked = true) : Tri (incI32 P a) (fun b => b = a + 1) := by
  unfold incI32
  by_cases h : a < I32_MAX
  · rw [if_pos h]; exact rfl
  · rw [if_neg h, if_pos hP]; exact trivial

theorem incI32_noRes {a : Int} (h : a < I32_MAX) : NoRes (incI32 P a) := by
  unfold incI32
  rw [if_pos h]
  exact NoRes.ok _

/-- State of the loop of the first test. -/
structure SInv (n : Nat) (k : Nat) (st : PathCalculator pq × Dijkstra pq × Int) : Prop where
  cok : CalcOk n st.1
  dij : Dijkstra.Base n st.2.1
  lo : 0 ≤ st.2.2
  hi : st.2.2 ≤ k

theorem singleStep_ok (hP : P.checked = true) {fg : FastGraph} (hg : FGood P E n fg) {dg : PreparationGraph} (hd : DGraph P n E dg)
    {fw : FloydWarshall} (hw : FwOk P E n fw) {k : Nat} {st : PathCalculator pq × Dijkstra pq × Int} (h : SInv n k st) {q : Nat × Nat}
    (hq : q.1 < n ∧ q.2 < n) : Tri (singleStep P fg dg fw st q) (SInv n (k + 1)) := by
  obtain ⟨s, t⟩ := q
  obtain ⟨hs, ht⟩ := hq
  unfold singleStep
  simp only
  refine Tri.bind (calcPathMulti_ok hP hg h.cok (by simp) (by simp) (by simpa using hs) (by simpa using ht)) ?_
  rintro ⟨c', rf⟩ ⟨hc', hrf⟩
  simp only at hc' hrf
  obtain ⟨a1, a2⟩ := answer_single hrf
  refine Tri.bind (dijkstra_ok hP hd h.dij hs ht) ?_
  rintro ⟨d', rd⟩ ⟨hd', hrd⟩
  simp only at hd' hrd
  obtain ⟨w, e, f1, f2, f3⟩ := hw s t hs ht
  rw [e]
  simp only [bind_okM]
  have hfin : ∀ (b : Bool) , Tri (do
      let num ← (if b then incI32 P st.2.2 else .ok st.2.2 : M Int)
      .ok (c', d', num) : M (PathCalculator pq × Dijkstra pq × Int)) (SInv n (k + 1)) := by
    intro b
    have h1 := h.lo
    have h2 := h.hi
    cases b with
    | true =>
      refine Tri.bind (incI32_ok hP) ?_
      rintro b rfl
      exact ⟨hc', hd', by simp only; omega, by simp only; push_cast; omega⟩
    | false => exact ⟨hc', hd', h1, by simp only; push_cast; omega⟩
  cases rf with
  | none =>
    have hn := a1 rfl
    have hwe : w = P.umax := by
      rcases f1 with h | h
      · exact h
      · have := hn _ h; omega
    cases rd with
    | none =>
      rw [assertM_of (by simp [hwe, ShortestPath.notFound, Plat.WEIGHT_MAX])]
      simp only [bind_okM]
      rw [assertM_of (by simp [ShortestPath.eqv, ShortestPath.notFound])]
      simp only [bind_okM]
      exact hfin _
    | some p =>
      exfalso
      obtain ⟨h1, _, _, ⟨L, h2, _⟩, _⟩ := hrd
      have := hn _ h2.toWk
      omega
  | some p =>
    obtain ⟨h1, h2, h3, h4, h5⟩ := a2 p rfl
    have hwe : w = p.weight := by
      have h6 := f2 _ h4
      rcases f1 with h | h
      · omega
      · have := h5 _ h; omega
    cases rd with
    | none => have := hrd _ h4; omega
    | some q =>
      obtain ⟨k1, k2, k3, ⟨L, k4, _⟩, k5⟩ := hrd
      have hpq : q.weight = p.weight := Nat.le_antisymm (k5 _ h4) (h5 _ k4.toWk)
      simp only [Option.getD_some]
      rw [assertM_of (by simp [hwe])]
      simp only [bind_okM]
      rw [assertM_of (by simp [ShortestPath.eqv, k2, k3, h2, h3, hpq])]
      simp only [bind_okM]
      exact hfin _

/-- A query does not overflow. -/
def QSafe (pq : PQ) (P : Plat) (n : Nat) (fg : FastGraph) (S T : List (Nat × Nat)) : Prop :=
  ∀ c : PathCalculator pq, CalcOk n c → NoRes (c.calcPathMulti P fg S T)

theorem singleStep_noRes (hP : P.checked = true) {fg : FastGraph} {dg : PreparationGraph} (hd : DGraph P n E dg)
    {fw : FloydWarshall} (hw : FwOk P E n fw) {k : Nat} {st : PathCalculator pq × Dijkstra pq × Int} (h : SInv n k st)
    {W : Nat} (hW : ∀ u x w, E u x w → w ≤ W) (hfit : n * W ≤ P.umax) (hk : k < I32_MAX) {q : Nat × Nat}
    (hq : q.1 < n ∧ q.2 < n) (hsafe : QSafe pq P n fg [(q.1, 0)] [(q.2, 0)]) : NoRes (singleStep P fg dg fw st q) := by
  unfold singleStep
  refine NoRes.bind (hsafe _ h.cok) (fun _ _ => NoRes.bind (dijkstra_noRes hP hd h.dij hq.1 hW hfit) (fun _ _ =>
    NoRes.bind (NoRes.of_ok (hw _ _ hq.1 hq.2).choose_spec.1) (fun _ _ => NoRes.bind (NoRes.assertM _) (fun _ _ =>
    NoRes.bind (NoRes.assertM _) (fun _ _ => NoRes.bind (NoRes.ite (fun _ => incI32_noRes ?_) (fun _ => NoRes.ok _)) (fun _ _ => NoRes.ok _))))))
  have := h.hi
  omega

/-- A loop whose body keeps an invariant and does not run out of resources. -/
theorem forM_total {σ α : Type} {f : σ → α → M σ} {l : List α} (I : Nat → σ → Prop) {s : σ} {k : Nat} (h0 : I k s)
    (h1 : ∀ j s, ∀ a ∈ l, I j s → Tri (f s a) (I (j + 1))) (h2 : ∀ j s, ∀ a ∈ l, j < k + l.length → I j s → NoRes (f s a)) :
    ∃ s', forM f s l = .ok s' ∧ I (k + l.length) s' := by
  induction l generalizing s k with
  | nil => exact ⟨s, rfl, h0⟩
  | cons a l ih =>
    obtain ⟨s1, e1, hs1⟩ := (h1 k s a (by simp) h0).total (h2 k s a (by simp) (by simp) h0)
    obtain ⟨s2, e2, hs2⟩ := ih (k := k + 1) hs1 (fun j s b hb => h1 j s b (by simp [hb]))
      (fun j s b hb hj => h2 j s b (by simp [hb]) (by simp; omega))
    refine ⟨s2, ?_, by simpa [Nat.add_comm, Nat.add_left_comm, Nat.add_assoc] using hs2⟩
    unfold forM
    rw [e1]
    exact e2

/-! ### Several sources and targets -/

/-- The pairs in the order of the loops. -/
def pairs (S T : List (Nat × Nat)) : List ((Nat × Nat) × (Nat × Nat)) := S.flatMap (fun s => T.map (fun t => (s, t)))

theorem mem_pairs {S T : List (Nat × Nat)} {s t : Nat × Nat} : (s, t) ∈ pairs S T ↔ s ∈ S ∧ t ∈ T := by
  unfold pairs
  simp only [List.mem_flatMap, List.mem_map, Prod.mk.injEq]
  constructor
  · rintro ⟨a, ha, b, hb, rfl, rfl⟩; exact ⟨ha, hb⟩
  · rintro ⟨ha, hb⟩; exact ⟨s, ha, t, hb, rfl, rfl⟩

/-- The recorded paths belong to the pairs. -/
def Recorded (P : Plat) (E : EdgeRel) (ps : List ((Nat × Nat) × (Nat × Nat))) (l : List (Option ShortestPath × Nat × Nat)) : Prop :=
  List.Forall₂ (fun q x => x.2.1 = q.1.2 ∧ x.2.2 = q.2.2 ∧ DAns P E q.1.1 q.2.1 x.1) ps l

theorem allPairs_ok (hP : P.checked = true) {dg : PreparationGraph} (hd : DGraph P n E dg) {d : Dijkstra pq} (h : Dijkstra.Base n d)
    {S T : List (Nat × Nat)} (hS : ∀ x ∈ S, x.1 < n) (hT : ∀ x ∈ T, x.1 < n) :
    Tri (allPairs P dg d S T) (fun r => Dijkstra.Base n r.1 ∧ Recorded P E (pairs S T) r.2) := by
  unfold allPairs
  refine Tri_forM (fun pre (st : Dijkstra pq × List (Option ShortestPath × Nat × Nat)) =>
    Dijkstra.Base n st.1 ∧ Recorded P E (pairs pre T) st.2) ⟨h, .nil⟩ ?_
  rintro pre s post st hl ⟨h1, h2⟩
  have := Tri_forM (f := fun (st : Dijkstra pq × List (Option ShortestPath × Nat × Nat)) (t : Nat × Nat) => do
    let (d, r) ← st.1.calcPath P dg s.1 t.1
    .ok (d, st.2 ++ [(r, s.2, t.2)])) (l := T) (fun pre' (st : Dijkstra pq × List (Option ShortestPath × Nat × Nat)) =>
    Dijkstra.Base n st.1 ∧ Recorded P E (pairs pre T ++ pre'.map (fun t => (s, t))) st.2) (s := st) ⟨h1, by simpa using h2⟩ ?_
  · refine this.mono ?_
    rintro st' ⟨k1, k2⟩
    refine ⟨k1, ?_⟩
    rw [show pairs (pre ++ [s]) T = pairs pre T ++ T.map (fun t => (s, t)) by simp [pairs]]
    exact k2
  · rintro pre' t post' st1 hl' ⟨k1, k2⟩
    refine Tri.bind (dijkstra_ok hP hd k1 (hS s (by rw [hl]; simp)) (hT t (by rw [hl']; simp))) ?_
    rintro ⟨d', r⟩ ⟨m1, m2⟩
    refine ⟨m1, ?_⟩
    rw [List.map_append, ← List.append_assoc]
    exact List.rel_append k2 (.cons ⟨rfl, rfl, m2⟩ .nil)

theorem allPairs_noRes (hP : P.checked = true) {dg : PreparationGraph} (hd : DGraph P n E dg) {d : Dijkstra pq} (h : Dijkstra.Base n d)
    {S T : List (Nat × Nat)} (hS : ∀ x ∈ S, x.1 < n) (hT : ∀ x ∈ T, x.1 < n) {W : Nat} (hW : ∀ u x w, E u x w → w ≤ W)
    (hfit : n * W ≤ P.umax) : NoRes (allPairs P dg d S T) := by
  unfold allPairs
  refine Saf.noRes (Q := fun st => Dijkstra.Base n st.1) (Saf.forM _ h ?_)
  intro st s hs h1
  refine Saf.forM _ h1 ?_
  intro st1 t ht h2
  have hn := dijkstra_noRes hP hd h2 (t := t.1) (hS s hs) hW hfit
  have ho := dijkstra_ok hP hd h2 (hS s hs) (hT t ht)
  obtain ⟨⟨d', r⟩, e, k1, _⟩ := ho.total hn
  rw [e]
  exact k1

theorem forall₂_left {α β : Type} {R : α → β → Prop} {l : List α} {l' : List β} (h : List.Forall₂ R l l') {a : α} (ha : a ∈ l) :
    ∃ b, b ∈ l' ∧ R a b := by
  induction h with
  | nil => cases ha
  | @cons x y l l' h1 _ ih =>
    rcases List.mem_cons.1 ha with rfl | ha
    · exact ⟨y, by simp, h1⟩
    · obtain ⟨b, k1, k2⟩ := ih ha
      exact ⟨b, by simp [k1], k2⟩

theorem forall₂_right {α β : Type} {R : α → β → Prop} {l : List α} {l' : List β} (h : List.Forall₂ R l l') {b : β} (hb : b ∈ l') :
    ∃ a, a ∈ l ∧ R a b := forall₂_left h.flip hb

/-- What the filtered list holds: a pair for every entry, and an entry for every pair that is joined by a walk. -/
theorem found_spec {S T : List (Nat × Nat)} {l : List (Option ShortestPath × Nat × Nat)} (h : Recorded P E (pairs S T) l) :
    (∀ p ws wt, (p, ws, wt) ∈ foundPaths P l → ws < P.umax ∧ wt < P.umax ∧ ∃ s t, (s, ws) ∈ S ∧ (t, wt) ∈ T ∧ DAns P E s t (some p)) ∧
    ∀ s ws t wt w, (s, ws) ∈ S → (t, wt) ∈ T → ws < P.umax → wt < P.umax → w < P.umax → Wk E s t w →
      ∃ p, (p, ws, wt) ∈ foundPaths P l ∧ DAns P E s t (some p) := by
  constructor
  · intro p ws wt hm
    unfold foundPaths at hm
    obtain ⟨⟨r, a, b⟩, hx, hr⟩ := List.mem_filterMap.1 hm
    cases r with
    | none => cases hr
    | some p' =>
      simp only at hr
      split at hr
      · rename_i hlt
        simp only [Option.some.injEq, Prod.mk.injEq] at hr
        obtain ⟨rfl, rfl, rfl⟩ := hr
        obtain ⟨⟨⟨s, ws⟩, t, wt⟩, h1, h2, h3, h4⟩ := forall₂_right h hx
        obtain ⟨k1, k2⟩ := mem_pairs.1 h1
        simp only at h2 h3 h4
        subst h2 h3
        exact ⟨hlt.1, hlt.2, s, t, k1, k2, h4⟩
      · cases hr
  · intro s ws t wt w h1 h2 h3 h4 h5 h6
    obtain ⟨⟨r, a, b⟩, k1, k2, k3, k4⟩ := forall₂_left h (mem_pairs.2 ⟨h1, h2⟩)
    simp only at k2 k3 k4
    subst k2 k3
    cases r with
    | none => have := k4 _ h6; omega
    | some p =>
      refine ⟨p, List.mem_filterMap.2 ⟨_, k1, ?_⟩, k4⟩
      simp only
      rw [if_pos ⟨h3, h4⟩]

/-- The sum the test computes for an entry. -/
def tot (x : ShortestPath × Nat × Nat) : Nat := x.1.weight + x.2.1 + x.2.2

theorem totalWeight_ok (hP : P.checked = true) (x : ShortestPath × Nat × Nat) :
    Tri (totalWeight P x) (fun w => w = tot x ∧ w ≤ P.umax) := by
  unfold totalWeight
  refine Tri.bind (Tri_addW hP _ _) ?_
  rintro a ⟨rfl, _⟩
  exact Tri_addW hP _ _

theorem totalWeight_noRes {x : ShortestPath × Nat × Nat} (h : tot x ≤ P.umax) : NoRes (totalWeight P x) := by
  unfold totalWeight
  unfold tot at h
  rw [addW_ok (by omega)]
  exact NoRes.addW h

theorem minTotal_ok (hP : P.checked = true) (l : List (ShortestPath × Nat × Nat)) :
    Tri (minTotal P l) (fun r => (r = none → l = []) ∧
      ∀ w, r = some w → (∃ x ∈ l, w = tot x) ∧ ∀ x ∈ l, w ≤ tot x ∧ tot x ≤ P.umax) := by
  unfold minTotal
  refine Tri_forM (fun pre (r : Option Nat) => (r = none → pre = []) ∧
    ∀ w, r = some w → (∃ x ∈ pre, w = tot x) ∧ ∀ x ∈ pre, w ≤ tot x ∧ tot x ≤ P.umax) ⟨fun _ => rfl, fun _ h => by cases h⟩ ?_
  rintro pre a post r hl ⟨h1, h2⟩
  refine Tri.bind (totalWeight_ok hP a) ?_
  rintro w ⟨rfl, hw⟩
  refine ⟨fun h => (by cases h), ?_⟩
  intro w hw'
  cases r with
  | none =>
    have := h1 rfl
    subst this
    simp only [Option.some.injEq] at hw'
    subst hw'
    exact ⟨⟨a, by simp, rfl⟩, by simp [hw]⟩
  | some b =>
    simp only [Option.some.injEq] at hw'
    subst hw'
    obtain ⟨⟨x, k1, k2⟩, k3⟩ := h2 b rfl
    refine ⟨?_, ?_⟩
    · rcases Nat.le_total b (tot a) with h | h
      · exact ⟨x, by simp [k1], by rw [Nat.min_eq_left h, k2]⟩
      · exact ⟨a, by simp, by rw [Nat.min_eq_right h]⟩
    · intro y hy
      rcases List.mem_append.1 hy with hy | hy
      · have := k3 y hy
        exact ⟨Nat.le_trans (Nat.min_le_left _ _) this.1, this.2⟩
      · rw [List.mem_singleton.1 hy]
        exact ⟨Nat.min_le_right _ _, hw⟩

theorem minTotal_noRes {l : List (ShortestPath × Nat × Nat)} (h : ∀ x ∈ l, tot x ≤ P.umax) : NoRes (minTotal P l) := by
  unfold minTotal
  exact NoRes.forM (fun _ a ha => NoRes.bind (totalWeight_noRes (h a ha)) (fun _ _ => NoRes.ok _)) _

theorem matchingPaths_ok (hP : P.checked = true) (f : ShortestPath) (l : List (ShortestPath × Nat × Nat)) :
    Tri (matchingPaths P f l) (fun r => ∀ x ∈ l, tot x = f.weight → x.1.source = f.source → x.1.target = f.target → x ∈ r) := by
  unfold matchingPaths
  refine Tri_forM (fun pre (r : List (ShortestPath × Nat × Nat)) => ∀ x ∈ pre, tot x = f.weight → x.1.source = f.source →
    x.1.target = f.target → x ∈ r) (by simp) ?_
  intro pre a post r hl h1
  refine Tri.bind (totalWeight_ok hP a) ?_
  rintro w ⟨rfl, hw⟩
  intro x hx k1 k2 k3
  rcases List.mem_append.1 hx with hx | hx
  · have := h1 x hx k1 k2 k3
    split
    · exact List.mem_append_left _ this
    · exact this
  · rw [List.mem_singleton.1 hx] at k1 k2 k3 ⊢
    rw [if_pos (by simp [k1, k2, k3])]
    simp

theorem matchingPaths_noRes {f : ShortestPath} {l : List (ShortestPath × Nat × Nat)} (h : ∀ x ∈ l, tot x ≤ P.umax) :
    NoRes (matchingPaths P f l) := by
  unfold matchingPaths
  exact NoRes.forM (fun _ a ha => NoRes.bind (totalWeight_noRes (h a ha)) (fun _ _ => NoRes.ok _)) _

/-- State of the loop of the second test. -/
structure MInv (n : Nat) (k : Nat) (st : PathCalculator pq × Dijkstra pq × Int × Int) : Prop where
  cok : CalcOk n st.1
  dij : Dijkstra.Base n st.2.1
  lo1 : 0 ≤ st.2.2.1
  lo2 : 0 ≤ st.2.2.2
  hi : st.2.2.1 + st.2.2.2 ≤ k

/-- No lightest route weighs exactly `usize::MAX`. -/
def NotMax (P : Plat) (E : EdgeRel) (S T : List (Nat × Nat)) : Prop :=
  ∀ s ws t wt w, (s, ws) ∈ S → (t, wt) ∈ T → ws < P.umax → wt < P.umax → Wk E s t w → (∀ w', Wk E s t w' → w ≤ w') → ws + w + wt ≠ P.umax

theorem multiStep_ok (hP : P.checked = true) {fg : FastGraph} (hg : FGood P E n fg) {dg : PreparationGraph} (hd : DGraph P n E dg)
    {k : Nat} {st : PathCalculator pq × Dijkstra pq × Int × Int} (h : MInv n k st) {q : List (Nat × Nat) × List (Nat × Nat)}
    (hS : q.1 ≠ []) (hT : q.2 ≠ []) (hS' : ∀ x ∈ q.1, x.1 < n) (hT' : ∀ x ∈ q.2, x.1 < n) (hne : NotMax P E q.1 q.2) :
    Tri (multiStep P fg dg st q) (MInv n (k + 1)) := by
  obtain ⟨S, T⟩ := q
  unfold multiStep
  simp only at hS hT hS' hT' hne ⊢
  have i1 := h.lo1
  have i2 := h.lo2
  have i3 := h.hi
  refine Tri.bind (calcPathMulti_ok hP hg h.cok hS hT hS' hT') ?_
  rintro ⟨c', rf⟩ ⟨hc', hrf⟩
  simp only at hc' hrf
  refine Tri.bind (allPairs_ok hP hd h.dij hS' hT') ?_
  rintro ⟨d', l⟩ ⟨hd', hl⟩
  simp only at hd' hl
  obtain ⟨f1, f2⟩ := found_spec hl
  refine Tri.bind (minTotal_ok hP _) ?_
  rintro r ⟨hr1, hr2⟩
  simp only at hr1 hr2
  -- the route of the fast answer is among the found ones
  have hfast : ∀ f, rf = some f → ∃ p ws wt, (p, ws, wt) ∈ foundPaths P l ∧ p.source = f.source ∧ p.target = f.target ∧
      p.weight + ws + wt ≤ f.weight := by
    rintro f rfl
    obtain ⟨h1, ⟨ws, wt, w, h2, h3, h4, h5, h6, h7⟩, _⟩ := hrf
    have hw : Wk E f.source f.target w := hasWalk_iff.1 ⟨f.nodes, h4, h5, h6⟩
    obtain ⟨p, k1, k2, k3, k4, _, k6⟩ := f2 f.source ws f.target wt w h2 h3 (by omega) (by omega) (by omega) hw
    have := k6 _ hw
    exact ⟨p, ws, wt, k1, k3, k4, by omega⟩
  cases r with
  | none =>
    have hnil := hr1 rfl
    have : rf = none := by
      cases rf with
      | none => rfl
      | some f =>
        obtain ⟨p, ws, wt, k1, _⟩ := hfast f rfl
        rw [hnil] at k1
        cases k1
    subst this
    simp only
    rw [Option.isNone_none, assertM_true]
    simp only [bind_okM]
    refine Tri.bind (incI32_ok hP) ?_
    rintro b rfl
    exact ⟨hc', hd', i1, by simp only; omega, by simp only; push_cast; omega⟩
  | some w =>
    obtain ⟨⟨⟨p, ws, wt⟩, k1, k2⟩, k3⟩ := hr2 w rfl
    obtain ⟨m1, m2, s, t, m3, m4, m5, m6, m7, ⟨L, m8, _⟩, m9⟩ := f1 p ws wt k1
    have hroute : HasRoute E S T w := ⟨s, ws, t, wt, p.weight, m3, m4, hasWalk_iff.2 m8.toWk, by rw [k2]; unfold tot; simp only; omega⟩
    have hlt : w < P.umax := by
      have h1 := (k3 _ k1).2
      have h2 := hne s ws t wt p.weight m3 m4 m1 m2 m8.toWk m9
      rw [k2]
      unfold tot at h1 ⊢
      simp only at h1 ⊢
      omega
    cases rf with
    | none => have := hrf w hroute; omega
    | some f =>
      simp only
      obtain ⟨p', ws', wt', j1, j2, j3, j4⟩ := hfast f rfl
      have h1 : f.weight ≤ w := hrf.2.2 w hroute
      have h2 := (k3 _ j1).1
      unfold tot at h2
      simp only at h2
      rw [assertM_of (by simp; omega)]
      simp only [bind_okM]
      refine Tri.bind (matchingPaths_ok hP f _) ?_
      intro r hr
      have h3 : (p', ws', wt') ∈ r := hr _ j1 (by unfold tot; simp only; omega) j2 j3
      rw [assertM_of (by simpa using List.length_pos_of_mem h3)]
      simp only [bind_okM]
      have hfin : ∀ (b : Bool) , Tri (do
          let num ← (if b then .ok st.2.2.1 else incI32 P st.2.2.1 : M Int)
          .ok (c', d', num, st.2.2.2) : M (PathCalculator pq × Dijkstra pq × Int × Int)) (MInv n (k + 1)) := by
        intro b
        cases b with
        | true => exact ⟨hc', hd', i1, i2, by simp only; push_cast; omega⟩
        | false =>
          refine Tri.bind (incI32_ok hP) ?_
          rintro b rfl
          exact ⟨hc', hd', by simp only; omega, i2, by simp only; push_cast; omega⟩
      exact hfin _

theorem multiStep_noRes (hP : P.checked = true) {fg : FastGraph} {dg : PreparationGraph} (hd : DGraph P n E dg)
    {k : Nat} {st : PathCalculator pq × Dijkstra pq × Int × Int} (h : MInv n k st) {q : List (Nat × Nat) × List (Nat × Nat)}
    (hS' : ∀ x ∈ q.1, x.1 < n) (hT' : ∀ x ∈ q.2, x.1 < n) {W ws wt : Nat} (hW : ∀ u x w, E u x w → w ≤ W)
    (h3 : ∀ x ∈ q.1, x.2 < P.umax → x.2 ≤ ws) (h4 : ∀ x ∈ q.2, x.2 < P.umax → x.2 ≤ wt)
    (hfit : ws + wt + n * W ≤ P.umax) (hk : k < I32_MAX) (hsafe : QSafe pq P n fg q.1 q.2) : NoRes (multiStep P fg dg st q) := by
  have i1 := h.lo1
  have i2 := h.lo2
  have i3 := h.hi
  unfold multiStep
  refine NoRes.bind (hsafe _ h.cok) (fun _ _ => NoRes.bind (allPairs_noRes hP hd h.dij hS' hT' hW (by omega)) ?_)
  rintro ⟨d', l⟩ e
  obtain ⟨_, hl⟩ := (allPairs_ok hP hd h.dij hS' hT').of_ok e
  obtain ⟨f1, _⟩ := found_spec hl
  have hle : ∀ x ∈ foundPaths P l, tot x ≤ P.umax := by
    rintro ⟨p, a, b⟩ hx
    obtain ⟨m1, m2, s, t, m3, m4, m5, m6, m7, ⟨L, m8, _⟩, m9⟩ := f1 p a b hx
    obtain ⟨w', k1, k2⟩ := hasWalk_bound hd.pos hd.lt hW (hS' _ m3) (hasWalk_iff.2 m8.toWk)
    have h5 := m9 _ (hasWalk_iff.1 k2)
    have h6 := h3 _ m3 m1
    have h7 := h4 _ m4 m2
    have h8 : (n - 1) * W ≤ n * W := Nat.mul_le_mul_right W (by omega)
    unfold tot
    simp only at h6 h7 ⊢
    omega
  refine NoRes.bind (minTotal_noRes hle) (fun r _ => ?_)
  cases r with
  | none => exact NoRes.bind (NoRes.assertM _) (fun _ _ => NoRes.bind (incI32_noRes (by omega)) (fun _ _ => NoRes.ok _))
  | some w =>
    simp only
    split
    · exact NoRes.assertErr
    · exact NoRes.bind (NoRes.assertM _) (fun _ _ => NoRes.bind (matchingPaths_noRes hle) (fun _ _ =>
        NoRes.bind (NoRes.assertM _) (fun _ _ => NoRes.bind (NoRes.ite (fun _ => NoRes.ok _) (fun _ => incI32_noRes (by omega)))
          (fun _ _ => NoRes.ok _))))

/-! ### Random graphs -/

/-- The call made for a draw. -/
def drawOp (d : Nat × Nat × Nat) : Op := .addEdge d.2.1 d.1 d.2.2

theorem accepted_cons (op : Op) (ops : List Op) : accepted (op :: ops) = op.edges ++ accepted ops := rfl

theorem addEdge_count {g g' : InputGraph} {s d w k : Nat} (h : g.addEdge P s d w = .ok (g', k)) :
    k = (Op.edges (.addEdge s d w)).length ∧ Op.run P g (.addEdge s d w) = .ok g' := by
  constructor
  · unfold InputGraph.addEdge InputGraph.doAddEdge at h
    show k = (if s ≠ d ∧ 1 ≤ w then [(⟨s, d, w⟩ : Edge)] else []).length
    split at h
    · cases h
    · split at h
      · rename_i hsd
        injection h with h; injection h with _ h
        rw [if_neg (by rintro ⟨h1, _⟩; exact h1 (beq_iff_eq.1 hsd))]; exact h.symm
      · split at h
        · rename_i hw
          injection h with h; injection h with _ h
          rw [if_neg (by omega)]; exact h.symm
        · rename_i hsd hw
          obtain ⟨m, _, h⟩ := bind_eq_ok.1 h
          injection h with h; injection h with _ h
          rw [if_pos ⟨fun hh => hsd (beq_iff_eq.2 hh), by omega⟩]; exact h.symm
  · unfold Op.run; simp only; rw [h]; rfl

theorem randomLoop_ok (hP : P.checked = true) {k : Nat} {draws : List (Nat × Nat × Nat)} {g g' : InputGraph} {c : Nat}
    (h : InputGraph.randomLoop P k draws g c = .ok g') : ∃ pre, pre <+: draws ∧ pre ≠ [] ∧
      forM (fun g (op : Op) => op.run P g) g (pre.map drawOp) = .ok g' ∧ c + (accepted (pre.map drawOp)).length = k ∧
      ∀ pre', pre' <+: pre → pre' ≠ [] → pre' ≠ pre → c + (accepted (pre'.map drawOp)).length ≠ k := by
  induction draws generalizing g c with
  | nil => unfold InputGraph.randomLoop at h; cases h
  | cons d draws ih =>
    obtain ⟨head, tail, weight⟩ := d
    unfold InputGraph.randomLoop at h
    obtain ⟨⟨g1, j⟩, e1, h⟩ := bind_eq_ok.1 h
    obtain ⟨c1, e2, h⟩ := bind_eq_ok.1 h
    obtain ⟨hj, hrun⟩ := addEdge_count e1
    have hc1 : c1 = c + j := ((Tri_addW hP c j).of_ok e2).1
    by_cases hk : c1 = k
    · rw [if_pos (by simp [hk])] at h
      injection h with h
      refine ⟨[(head, tail, weight)], ⟨draws, rfl⟩, by simp, ?_, ?_, ?_⟩
      · simp only [List.map_cons, List.map_nil, drawOp, FP.forM]
        rw [hrun, ← h]; rfl
      · simp only [List.map_cons, List.map_nil, drawOp, accepted_cons]
        rw [List.length_append, ← hj]
        simp [accepted]; omega
      · intro pre' h1 h2 h3
        cases pre' with
        | nil => exact absurd rfl h2
        | cons a as =>
          obtain ⟨t, ht⟩ := h1
          simp at ht
          obtain ⟨rfl, rfl, _⟩ := ht
          exact absurd rfl h3
    · rw [if_neg (by simp [hk])] at h
      obtain ⟨pre, ⟨t, ht⟩, _, h3, h4, h5⟩ := ih h
      refine ⟨(head, tail, weight) :: pre, ⟨t, by simp [ht]⟩, by simp, ?_, ?_, ?_⟩
      · simp only [List.map_cons, drawOp, FP.forM]
        rw [hrun]; exact h3
      · simp only [List.map_cons, drawOp, accepted_cons]
        rw [List.length_append, ← hj]
        omega
      · intro pre' h1 h2 h6
        cases pre' with
        | nil => exact absurd rfl h2
        | cons a as =>
          obtain ⟨t', ht'⟩ := h1
          simp only [List.cons_append, List.cons.injEq] at ht'
          obtain ⟨rfl, ht'⟩ := ht'
          simp only [List.map_cons, drawOp, accepted_cons, List.length_append, ← hj]
          by_cases has : as = []
          · subst has; simp [accepted]; omega
          · have := h5 as ⟨t', ht'⟩ has (by rintro rfl; exact h6 rfl)
            omega

theorem randomLoop_total {k : Nat} (hk : k ≤ P.umax) {draws pre : List (Nat × Nat × Nat)} (hpre : pre <+: draws)
    (hlt : ∀ d ∈ pre, d.1 < P.umax ∧ d.2.1 < P.umax) {g : InputGraph} (hg : g.frozen = false) {c : Nat} (hne : pre ≠ [])
    (hc : c + (accepted (pre.map drawOp)).length = k) : ∃ g', InputGraph.randomLoop P k draws g c = .ok g' ∧ g'.frozen = false := by
  induction draws generalizing g c pre with
  | nil => simp at hpre; exact absurd hpre hne
  | cons d draws ih =>
    cases pre with
    | nil => exact absurd rfl hne
    | cons d' pre =>
      obtain ⟨t, ht⟩ := hpre
      simp only [List.cons_append, List.cons.injEq] at ht
      obtain ⟨rfl, ht⟩ := ht
      obtain ⟨head, tail, weight⟩ := d'
      obtain ⟨l1, l2⟩ := hlt (head, tail, weight) (by simp)
      simp only at l1 l2
      have hex : ∃ g1 j, g.addEdge P tail head weight = .ok (g1, j) ∧ g1.frozen = false := by
        unfold InputGraph.addEdge InputGraph.doAddEdge
        rw [hg]
        simp only [Bool.false_eq_true, if_false]
        split
        · exact ⟨_, _, rfl, hg⟩
        · split
          · exact ⟨_, _, rfl, hg⟩
          · rw [addW_ok (by omega)]
            exact ⟨_, _, rfl, rfl⟩
      obtain ⟨g1, j, e1, hg1⟩ := hex
      obtain ⟨hj, _⟩ := addEdge_count e1
      simp only [List.map_cons, drawOp, accepted_cons, List.length_append, ← hj] at hc
      unfold InputGraph.randomLoop
      rw [e1]
      simp only [bind_okM]
      rw [addW_ok (by omega)]
      simp only [bind_okM]
      by_cases hck : c + j = k
      · rw [if_pos (by simp [hck])]; exact ⟨g1, rfl, hg1⟩
      · rw [if_neg (by simp [hck])]
        refine ih ⟨t, ht⟩ (fun d hd => hlt d (by simp [hd])) hg1 ?_ (by omega)
        rintro rfl
        simp [accepted] at hc
        omega

/-! ### The limits of the statistical checks -/

theorem gt_iff {x y : F32} (hx : F32.Valid x) (hy : F32.Valid y) : F32.gt x y = true ↔ y.key < x.key := by
  have := F32.limit_pos
  cases x with
  | nan => exact hx.elim
  | inf a =>
    cases y with
    | nan => exact hy.elim
    | inf b => cases a <;> cases b <;> (simp [F32.gt, F32.key]; try omega)
    | fin k =>
      obtain ⟨h1, h2⟩ := hy
      cases a <;> (simp [F32.gt, F32.key]; try omega)
  | fin k =>
    obtain ⟨h1, h2⟩ := hx
    cases y with
    | nan => exact hy.elim
    | inf b => cases b <;> (simp [F32.gt, F32.key]; omega)
    | fin k' => simp [F32.gt, F32.key]

/-- A limit that is a whole number: the conversion to `f32` does not change what is compared. -/
theorem tooMany_iff {factor : F32} {q : Nat} {b : Int} (h1 : F32.mul factor (F32.ofInt q) = F32.ofInt b)
    (h2 : F32.gt (F32.ofInt (b + 1)) (F32.ofInt b) = true) (num : Int) : tooMany factor num q = true ↔ b < num := by
  unfold tooMany
  have hv : ∀ z : Int, F32.Valid (F32.ofInt z) := fun z => F32.ofRat_valid _ _
  rw [h1, gt_iff (hv _) (hv _)]
  rw [gt_iff (hv _) (hv _)] at h2
  constructor
  · intro h
    by_contra hle
    have := (F32.ofInt_le (show num ≤ b by omega)).2.2
    omega
  · intro h
    have := (F32.ofInt_le (show b + 1 ≤ num by omega)).2.2
    omega

/-! ### The checksum -/

theorem performanceStep_ok (hP : P.checked = true) {fg : FastGraph} (hg : FGood P E n fg) {st : PathCalculator pq × Nat × Nat}
    (hc : CalcOk n st.1) {q : Nat × Nat} (hq : q.1 < n ∧ q.2 < n) :
    Tri (performanceStep P fg st q) (fun st' => CalcOk n st'.1 ∧
      ((∃ d, d < P.umax ∧ Wk E q.1 q.2 d ∧ (∀ w, Wk E q.1 q.2 w → d ≤ w) ∧ st'.2 = (st.2.1 + d, st.2.2)) ∨
       ((∀ w, Wk E q.1 q.2 w → P.umax ≤ w) ∧ st'.2 = (st.2.1, st.2.2 + 1)))) := by
  unfold performanceStep
  refine Tri.bind (calcPathMulti_ok hP hg hc (by simp) (by simp) (by simpa using hq.1) (by simpa using hq.2)) ?_
  rintro ⟨c', r⟩ ⟨k1, k2⟩
  simp only at k1 k2
  obtain ⟨a1, a2⟩ := answer_single k2
  cases r with
  | none =>
    refine Tri.bind (Tri_addW hP _ _) ?_
    rintro _ ⟨rfl, _⟩
    exact ⟨k1, Or.inr ⟨a1 rfl, rfl⟩⟩
  | some p =>
    obtain ⟨b1, _, _, b4, b5⟩ := a2 p rfl
    refine Tri.bind (Tri_addW hP _ _) ?_
    rintro _ ⟨rfl, _⟩
    exact ⟨k1, Or.inl ⟨_, b1, b4, b5, rfl⟩⟩

theorem performanceLoop_ok (hP : P.checked = true) {fg : FastGraph} (hg : FGood P E n fg) (R : List (Nat × Nat) → Nat → Nat → Prop)
    (h0 : R [] 0 0) (hfound : ∀ qs sum nf s t d, R qs sum nf → d < P.umax → Wk E s t d → (∀ w, Wk E s t w → d ≤ w) →
      R (qs ++ [(s, t)]) (sum + d) nf) (hnone : ∀ qs sum nf s t, R qs sum nf → (∀ w, Wk E s t w → P.umax ≤ w) →
      R (qs ++ [(s, t)]) sum (nf + 1)) {c : PathCalculator pq} (hc : CalcOk n c) {queries : List (Nat × Nat)}
    (hq : ∀ q ∈ queries, q.1 < n ∧ q.2 < n) :
    Tri (performanceLoop P fg c queries) (fun r => CalcOk n r.1 ∧ R queries r.2.1 r.2.2) := by
  unfold performanceLoop
  refine Tri_forM (fun pre (st : PathCalculator pq × Nat × Nat) => CalcOk n st.1 ∧ R pre st.2.1 st.2.2) ⟨hc, h0⟩ ?_
  rintro pre q post st hl ⟨h1, h2⟩
  refine (performanceStep_ok hP hg h1 (hq q (by rw [hl]; simp))).mono ?_
  rintro st' ⟨k1, ⟨d, b1, b2, b3, e⟩ | ⟨b1, e⟩⟩
  · refine ⟨k1, ?_⟩
    rw [e]
    exact hfound _ _ _ _ _ _ h2 b1 b2 b3
  · refine ⟨k1, ?_⟩
    rw [e]
    exact hnone _ _ _ _ _ h2 b1

theorem performanceStep_noRes {fg : FastGraph} {st : PathCalculator pq × Nat × Nat}
    {q : Nat × Nat} (hsafe : NoRes (st.1.calcPath P fg q.1 q.2)) (h1 : ∀ c p, st.1.calcPath P fg q.1 q.2 = .ok (c, some p) →
      st.2.1 + p.weight ≤ P.umax) (h2 : st.2.2 + 1 ≤ P.umax) : NoRes (performanceStep P fg st q) := by
  unfold performanceStep
  refine NoRes.bind hsafe ?_
  rintro ⟨c, r⟩ e
  cases r with
  | none => exact NoRes.bind (NoRes.addW h2) (fun _ _ => NoRes.ok _)
  | some p => exact NoRes.bind (NoRes.addW (h1 c p e)) (fun _ _ => NoRes.ok _)

theorem ref_performanceLoop (fg : FastGraph) (c : PathCalculator pq) (queries : List (Nat × Nat)) :
    Ref (performanceLoop P.debug fg c queries) (performanceLoop P fg c queries) := by
  unfold performanceLoop
  refine Ref.forM (fun st q => ?_) _ _
  unfold performanceStep
  refine Ref.bind (ref_calcPathMulti P _ _ _ _) (fun r => ?_)
  obtain ⟨c', r⟩ := r
  cases r with
  | none => exact Ref.bind (Ref.addW _ _ _) (fun _ => Ref.rfl' _)
  | some p => exact Ref.bind (Ref.addW _ _ _) (fun _ => Ref.rfl' _)

end TestSuite
end FP
