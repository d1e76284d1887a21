import Verif.SpecGraph
import Verif.Proofs.Shape
import Verif.Proofs.Convert
/-!
# Queries on arbitrary fast graphs

`FastGraph` can be deserialised, so its ranks, offsets and edges may be anything. The search ends on every such value.
-/
namespace FP
open Spec Side PathCalculator

variable {pq : PQ} {P : Plat} {n : Nat} {g : FastGraph}

theorem TriN_isValid {δ : Type} {data : List δ} {f : ValidFlags} (h : TabOk n data f) (x : Nat) :
    TriN (f.isValid x) (fun b => x < n ∧ b = (lookT data f x).isSome) := by
  by_cases hx : x < n
  · rw [h.isValid hx]; exact ⟨hx, rfl⟩
  · unfold ValidFlags.isValid idx
    rw [List.getElem?_eq_none (by rw [h.flags.len]; omega)]
    simp

theorem TriN_getWeight {s : Side pq} (h : s.Base n) (x : Nat) :
    TriN (s.getWeight P x) (fun w => x < n ∧ w = s.wt P x) := by
  by_cases hx : x < n
  · rw [getWeight_ok h hx]; exact ⟨hx, rfl⟩
  · unfold getWeight
    refine TriN.bind (TriN_isValid h x) ?_
    rintro b ⟨h1, _⟩
    exact absurd h1 hx

/-- Invariant of one direction; `L` are the settled nodes in the order they were settled. -/
structure AInv (P : Plat) (n : Nat) (L : List Nat) (s : Side pq) : Prop where
  tab : s.Base n
  items : ∀ it ∈ pq.items s.heap, ∃ d, s.look it.nodeId = some d ∧ d.weight ≤ it.weight
  settled : ∀ x d, s.look x = some d → d.settled = true → ∀ it ∈ pq.items s.heap, d.weight ≤ it.weight
  mem : ∀ x, x ∈ L ↔ s.settledB x = true
  nodup : L.Nodup
  par : ∀ x d, s.look x = some d → d.incEdge ≠ P.umax → d.parent ∈ L
  ord : ∀ pre x post d, L = pre ++ x :: post → s.look x = some d → d.incEdge ≠ P.umax → d.parent ∈ pre

theorem settledB_look {s : Side pq} {x : Nat} (h : s.settledB x = true) : ∃ d, s.look x = some d ∧ d.settled = true := by
  unfold settledB at h
  cases hl : s.look x with
  | none => rw [hl] at h; simp at h
  | some d => rw [hl] at h; exact ⟨d, rfl, h⟩

theorem settledB_some {s : Side pq} {x : Nat} {d : PData} (h : s.look x = some d) : s.settledB x = d.settled := by
  unfold settledB; rw [h]

/-- The relaxation loop for `curr`, after `m` edges. -/
structure ARel (n : Nat) (curr : HeapItem) (s₀ : Side pq) (m : Nat) (s : Side pq) : Prop where
  tab : s.Base n
  items : ∀ it ∈ pq.items s.heap, curr.weight ≤ it.weight ∧ ∃ d, s.look it.nodeId = some d ∧ d.weight ≤ it.weight
  cur : s.look curr.nodeId = s₀.look curr.nodeId
  keep : ∀ x d, s₀.look x = some d → d.settled = true → s.look x = some d
  new : ∀ x d, s.look x = some d → s₀.look x = some d ∨ (d.parent = curr.nodeId ∧ d.settled = false ∧ x ≠ curr.nodeId)
  len : (pq.items s.heap).length ≤ (pq.items s₀.heap).length + m

theorem relaxEdge_any (hP : P.checked = true) {es : List FastGraphEdge} {curr : HeapItem} {s₀ s : Side pq} {m : Nat}
    (hset : ∀ x d, s₀.look x = some d → d.settled = true → d.weight ≤ curr.weight)
    (hcur : ∃ d, s₀.look curr.nodeId = some d ∧ d.weight ≤ curr.weight) (h : ARel n curr s₀ m s) (id : Nat) :
    TriN (s.relaxEdge P es curr id) (fun s' => id < es.length ∧ ARel n curr s₀ (m + 1) s') := by
  unfold relaxEdge
  refine TriN.bind (TriN_idx es id) ?_
  intro ed hed
  have hid : id < es.length := (List.getElem?_eq_some_iff.1 hed).1
  refine TriN.bind (Tri_addW hP _ _).toN ?_
  rintro w ⟨rfl, hw⟩
  refine TriN.bind (TriN_getWeight h.tab _) ?_
  rintro w' ⟨g1, rfl⟩
  by_cases hlt : curr.weight + ed.weight < s.wt P ed.adjNode
  · rw [if_pos hlt]
    obtain ⟨s', e, b', hh, hl⟩ := Side.updateNode_ok h.tab g1 (curr.weight + ed.weight) curr.nodeId id
    rw [e]
    simp only [bind_okM, TriN_ok]
    have hL : ∀ y, ({ s' with heap := pq.push ⟨curr.weight + ed.weight, ed.adjNode⟩ s'.heap } : Side pq).look y
        = if y = ed.adjNode then some ⟨false, curr.weight + ed.weight, curr.nodeId, id⟩ else s.look y := hl
    have hne : ed.adjNode ≠ curr.nodeId := by
      intro e'
      obtain ⟨d, h1, h2⟩ := hcur
      rw [e', wt_some (h.cur.trans h1)] at hlt
      omega
    refine ⟨hid, b', ?_, ?_, ?_, ?_, ?_⟩
    · intro it hit
      rw [PQ.mem_push, hh] at hit
      rcases hit with rfl | hit
      · exact ⟨by simp only; omega, ⟨false, curr.weight + ed.weight, curr.nodeId, id⟩, by rw [hL]; simp, Nat.le_refl _⟩
      · obtain ⟨h1, d, h2, h3⟩ := h.items it hit
        refine ⟨h1, ?_⟩
        rw [hL]
        by_cases hxa : it.nodeId = ed.adjNode
        · rw [if_pos hxa]
          rw [hxa] at h2
          rw [wt_some h2] at hlt
          exact ⟨_, rfl, by simp only; omega⟩
        · rw [if_neg hxa]; exact ⟨d, h2, h3⟩
    · rw [hL, if_neg (Ne.symm hne)]; exact h.cur
    · intro x d hx hd
      have h1 := h.keep x d hx hd
      rw [hL]
      by_cases hxa : x = ed.adjNode
      · subst hxa
        have := hset _ _ hx hd
        rw [wt_some h1] at hlt
        omega
      · rw [if_neg hxa]; exact h1
    · intro x d hx
      rw [hL] at hx
      by_cases hxa : x = ed.adjNode
      · rw [if_pos hxa] at hx; cases hx; exact Or.inr ⟨rfl, rfl, by rw [hxa]; exact hne⟩
      · rw [if_neg hxa] at hx; exact h.new x d hx
    · rw [PQ.length_push, hh]
      have := h.len
      omega
  · rw [if_neg hlt]
    simp only [TriN_ok]
    refine ⟨hid, h.tab, h.items, h.cur, h.keep, h.new, ?_⟩
    have := h.len
    omega

theorem rangeFrom_le {b e k : Nat} (h : ∀ id ∈ rangeFrom b e, id < k) : (rangeFrom b e).length ≤ k := by
  unfold rangeFrom at h ⊢
  rw [List.length_range']
  by_cases hbe : e - b = 0
  · omega
  · have := h (b + (e - b - 1)) (by rw [List.mem_range'_1]; omega)
    omega

theorem relaxAll_any (hP : P.checked = true) {es : List FastGraphEdge} {curr : HeapItem} {s₀ : Side pq}
    (hset : ∀ x d, s₀.look x = some d → d.settled = true → d.weight ≤ curr.weight)
    (hcur : ∃ d, s₀.look curr.nodeId = some d ∧ d.weight ≤ curr.weight) (h : ARel n curr s₀ 0 s₀) (b e : Nat) :
    TriN (forM (Side.relaxEdge P es curr) s₀ (rangeFrom b e)) (ARel n curr s₀ es.length) := by
  refine TriN.mono (TriN_forM (fun pre s => (∀ id ∈ pre, id < es.length) ∧ ARel n curr s₀ pre.length s) ⟨by simp, h⟩ ?_) ?_
  · rintro pre id post s _ ⟨h1, h2⟩
    refine TriN.mono (relaxEdge_any hP hset hcur h2 id) ?_
    rintro s' ⟨h3, h4⟩
    refine ⟨?_, by simpa using h4⟩
    intro i hi
    rcases List.mem_append.1 hi with hi | hi
    · exact h1 i hi
    · simp at hi; rw [hi]; exact h3
  · rintro s ⟨h1, h2⟩
    have := rangeFrom_le h1
    exact { h2 with len := by have := h2.len; omega }

theorem TriN_stallScan (hP : P.checked = true) {es : List FastGraphEdge} {s : Side pq} (ht : s.Base n) (curr : HeapItem) :
    ∀ l : List Nat, TriN (s.stallScan P es curr l) (fun _ => True) := by
  intro l
  induction l with
  | nil => simp [stallScan]
  | cons id rest ih =>
    unfold stallScan
    refine TriN.bind (TriN_idx _ _) ?_
    intro ed _
    refine TriN.bind (TriN_getWeight ht _) ?_
    rintro w ⟨_, rfl⟩
    split
    · exact ih
    · refine TriN.bind (Tri_addW hP _ _).toN ?_
      rintro w ⟨rfl, _⟩
      split
      · simp
      · exact ih

theorem TriN_begin (g : FastGraph) (x : Nat) : TriN (g.beginOutEdges x) (fun _ => True) ∧ TriN (g.endOutEdges x) (fun _ => True) ∧
    TriN (g.beginInEdges x) (fun _ => True) ∧ TriN (g.endInEdges x) (fun _ => True) := by
  refine ⟨?_, ?_, ?_, ?_⟩ <;>
  · refine TriN.bind (TriN_idx _ _) ?_
    intro r _
    exact (TriN_idx _ _).mono (fun _ _ => trivial)

theorem TriN_isStallableFwd (hP : P.checked = true) {s : Side pq} (ht : s.Base n) (g : FastGraph) (curr : HeapItem) :
    TriN (isStallableFwd P g s curr) (fun _ => True) := by
  unfold isStallableFwd
  refine TriN.bind (TriN_begin g _).2.2.1 ?_
  intro b _
  refine TriN.bind (TriN_begin g _).2.2.2 ?_
  intro e _
  exact TriN_stallScan hP ht curr _

/-- Work left on one side, if every settled node may use all edges. -/
def ameas (n : Nat) (g : FastGraph) (s : Side pq) : Nat :=
  (pq.items s.heap).length + openSum n s.settledB (fun _ => g.edgesFwd.length)

theorem ameas_le (g : FastGraph) (s : Side pq) : ameas n g s ≤ (pq.items s.heap).length + n * g.edgesFwd.length := by
  have := openSum_le (n := n) (S := s.settledB) (k := fun _ => g.edgesFwd.length)
  unfold ameas
  simp at this
  omega

theorem AInv.popped {L : List Nat} {s : Side pq} (h : AInv P n L s) {curr : HeapItem} {heap' : pq.σ}
    (hp : pq.pop s.heap = some (curr, heap')) : AInv P n L ({ s with heap := heap' } : Side pq) := by
  have hsub : ∀ it ∈ pq.items heap', it ∈ pq.items s.heap := fun it hit => (PQ.pop_mem hp).2 (Or.inr hit)
  exact ⟨h.tab, fun it hit => h.items it (hsub it hit), fun x d hx hd it hit => h.settled x d hx hd it (hsub it hit), h.mem,
    h.nodup, h.par, h.ord⟩

/-- The state after settling `curr`. -/
theorem settle_any (hP : P.checked = true) {L : List Nat} {s : Side pq} (h : AInv P n L s) {curr : HeapItem} {heap' : pq.σ}
    (hp : pq.pop s.heap = some (curr, heap')) (hun : s.settledB curr.nodeId = false) (b e : Nat) :
    TriN (forM (Side.relaxEdge P g.edgesFwd curr) ({ s with heap := heap' } : Side pq) (rangeFrom b e))
      (fun s1 => TriN (modIdx s1.data curr.nodeId (fun d => { d with settled := true })) (fun data =>
        AInv P n (L ++ [curr.nodeId]) ({ s1 with data := data } : Side pq) ∧
        ameas n g ({ s1 with data := data } : Side pq) < ameas n g s)) := by
  have hcurr : curr ∈ pq.items s.heap := (PQ.pop_mem hp).2 (Or.inl rfl)
  have hlen := PQ.pop_length hp
  have hsub : ∀ it ∈ pq.items heap', it ∈ pq.items s.heap := fun it hit => (PQ.pop_mem hp).2 (Or.inr hit)
  obtain ⟨dc, hdc, hdw⟩ := h.items curr hcurr
  have hdun : dc.settled = false := by rw [← settledB_some hdc]; exact hun
  have hcn : curr.nodeId < n := h.tab.look_lt hdc
  have hset : ∀ x d, ({ s with heap := heap' } : Side pq).look x = some d → d.settled = true →
      d.weight ≤ curr.weight := fun x d hx hd => h.settled x d hx hd curr hcurr
  have hR : ARel n curr ({ s with heap := heap' } : Side pq) 0 ({ s with heap := heap' } : Side pq) :=
    ⟨h.tab, fun it hit => ⟨PQ.pop_min hp (hsub it hit), h.items it (hsub it hit)⟩, rfl, fun _ _ h _ => h,
      fun _ _ h => Or.inl h, by omega⟩
  refine TriN.mono (relaxAll_any hP hset ⟨dc, hdc, hdw⟩ hR b e) ?_
  intro s1 h1
  have hd1 : s1.look curr.nodeId = some dc := by rw [h1.cur]; exact hdc
  obtain ⟨em, tabm, lm⟩ := TabOk.modify h1.tab hd1 (fun d => { d with settled := true })
  rw [em]
  simp only [TriN_ok]
  generalize hs2 : ({ s1 with data := s1.data.set curr.nodeId { dc with settled := true } } : Side pq) = s2
  have hL : ∀ y, s2.look y = if y = curr.nodeId then some { dc with settled := true } else s1.look y := by
    subst hs2; exact lm
  have hheap : s2.heap = s1.heap := by subst hs2; rfl
  have htab : s2.Base n := by subst hs2; exact tabm
  have hnotin : curr.nodeId ∉ L := by
    intro hm; rw [h.mem] at hm; rw [hm] at hun; cases hun
  -- settled nodes of the new table
  have hold : ∀ x d, x ≠ curr.nodeId → s2.look x = some d → d.settled = true → s.look x = some d := by
    intro x d hxc hx hd
    rw [hL, if_neg hxc] at hx
    rcases h1.new x d hx with h2 | ⟨_, h2, _⟩
    · exact h2
    · rw [hd] at h2; cases h2
  have hkeep : ∀ x d, s.look x = some d → d.settled = true → s2.look x = some d := by
    intro x d hx hd
    have hxc : x ≠ curr.nodeId := by
      rintro rfl; rw [hdc] at hx; cases hx; rw [hd] at hdun; cases hdun
    rw [hL, if_neg hxc]
    exact h1.keep x d hx hd
  have hmem : ∀ x, x ∈ L ++ [curr.nodeId] ↔ s2.settledB x = true := by
    intro x
    by_cases hxc : x = curr.nodeId
    · have : s2.settledB x = true := by unfold settledB; rw [hL, if_pos hxc]
      simp [hxc] at this ⊢; exact this
    · have : x ∈ L ++ [curr.nodeId] ↔ x ∈ L := by simp [hxc]
      rw [this, h.mem]
      constructor
      · intro hx
        obtain ⟨d, h2, h3⟩ := settledB_look hx
        rw [settledB_some (hkeep x d h2 h3)]; exact h3
      · intro hx
        obtain ⟨d, h2, h3⟩ := settledB_look hx
        rw [settledB_some (hold x d hxc h2 h3)]; exact h3
  refine ⟨⟨htab, ?_, ?_, hmem, ?_, ?_, ?_⟩, ?_⟩
  · intro it hit
    rw [hheap] at hit
    obtain ⟨_, d, h2, h3⟩ := h1.items it hit
    rw [hL]
    by_cases hxc : it.nodeId = curr.nodeId
    · rw [if_pos hxc]
      rw [hxc, hd1] at h2
      cases h2
      exact ⟨_, rfl, h3⟩
    · rw [if_neg hxc]; exact ⟨d, h2, h3⟩
  · intro x d hx hd it hit
    rw [hheap] at hit
    have hge := (h1.items it hit).1
    by_cases hxc : x = curr.nodeId
    · rw [hL, if_pos hxc] at hx
      cases hx; simp only; omega
    · have := hset x d (hold x d hxc hx hd) hd
      omega
  · exact List.nodup_append.2 ⟨h.nodup, by simp, by
      intro a ha b hb e
      simp at hb
      subst hb; subst e
      exact hnotin ha⟩
  · intro x d hx hi
    rw [hL] at hx
    by_cases hxc : x = curr.nodeId
    · rw [if_pos hxc] at hx
      cases hx
      exact List.mem_append_left _ (h.par _ dc hdc hi)
    · rw [if_neg hxc] at hx
      rcases h1.new x d hx with h2 | ⟨h2, _⟩
      · exact List.mem_append_left _ (h.par _ _ h2 hi)
      · rw [h2]; simp
  · intro pre x post d hl hx hi
    rcases List.eq_nil_or_concat post with hpost | ⟨post', y, hpost⟩
    · subst hpost
      have := List.append_inj' hl (by simp)
      obtain ⟨h2, h3⟩ := this
      simp at h3
      subst h2
      rw [hL, if_pos h3.symm] at hx
      cases hx
      exact h.par _ dc hdc hi
    · subst hpost
      have hl' : L ++ [curr.nodeId] = (pre ++ x :: post') ++ [y] := by rw [hl]; simp
      obtain ⟨h2, h3⟩ := List.append_inj' hl' (by simp)
      have hxL : x ∈ L := by rw [h2]; simp
      obtain ⟨d0, k1, k2⟩ := settledB_look ((h.mem x).1 hxL)
      have := hkeep x d0 k1 k2
      rw [hx] at this
      cases this
      exact h.ord pre x post' d h2 k1 hi
  · have hs1 : ∀ u, s.settledB u = true → s2.settledB u = true := by
      intro u hu
      rw [← hmem]
      exact List.mem_append_left _ ((h.mem u).2 hu)
    have hs2' : s2.settledB curr.nodeId = true := by rw [← hmem]; simp
    have := openSum_settle (k := fun _ => g.edgesFwd.length) hs1 hcn hun hs2'
    have hlen1 := h1.len
    unfold ameas
    rw [hheap]
    simp only at this hlen1
    omega

theorem innerFwd_any (hP : P.checked = true) : ∀ fuel (st : QS pq) L, AInv P n L st.fwd → st.bwd.Base n →
    (pq.items st.fwd.heap).length < fuel →
    TriN (innerFwd P g fuel st) (fun st' => st'.bwd = st.bwd ∧ ∃ L', AInv P n L' st'.fwd ∧
      ameas n g st'.fwd ≤ ameas n g st.fwd ∧ (pq.items st.fwd.heap ≠ [] → ameas n g st'.fwd < ameas n g st.fwd)) := by
  intro fuel
  induction fuel with
  | zero => intro st L _ _ h; omega
  | succ fuel ih =>
    intro st L hf hb hfuel
    unfold innerFwd
    cases hp : pq.pop st.fwd.heap with
    | none =>
      rw [TriN_ok]
      refine ⟨rfl, L, hf, Nat.le_refl _, ?_⟩
      intro h; exact absurd ((pq.pop_none _).1 hp) h
    | some r =>
      obtain ⟨curr, heap'⟩ := r
      simp only
      have hcurr : curr ∈ pq.items st.fwd.heap := (PQ.pop_mem hp).2 (Or.inl rfl)
      have hlen := PQ.pop_length hp
      obtain ⟨dc, hc1, hc2⟩ := hf.items curr hcurr
      have hcn : curr.nodeId < n := hf.tab.look_lt hc1
      have hbase : Base n ({ st.fwd with heap := heap' } : Side pq) := hf.tab
      have hmeas' : ameas n g ({ st.fwd with heap := heap' } : Side pq) + 1 = ameas n g st.fwd := by
        unfold ameas
        have : openSum n (settledB ({ st.fwd with heap := heap' } : Side pq)) (fun _ => g.edgesFwd.length)
          = openSum n st.fwd.settledB (fun _ => g.edgesFwd.length) := rfl
        rw [this]
        simp only
        omega
      have hcont : TriN (innerFwd P g fuel ({ st with fwd := { st.fwd with heap := heap' } } : QS pq))
            (fun st' => st'.bwd = st.bwd ∧ ∃ L', AInv P n L' st'.fwd ∧
              ameas n g st'.fwd ≤ ameas n g st.fwd ∧ (pq.items st.fwd.heap ≠ [] → ameas n g st'.fwd < ameas n g st.fwd)) := by
        refine TriN.mono (ih _ L (hf.popped hp) hb (by simp only; omega)) ?_
        rintro st' ⟨k1, L', k2, k4, _⟩
        have k5 := Nat.lt_of_le_of_lt k4 (Nat.lt_of_succ_le (Nat.le_of_eq hmeas'))
        exact ⟨k1, L', k2, Nat.le_of_lt k5, fun _ => k5⟩
      rw [isSettled_ok hbase hcn]
      simp only [bind_okM]
      by_cases hset : settledB ({ st.fwd with heap := heap' } : Side pq) curr.nodeId = true
      · rw [if_pos hset]; exact hcont
      · rw [if_neg hset]
        have hun : st.fwd.settledB curr.nodeId = false := Bool.eq_false_iff.2 hset
        by_cases hbest : curr.weight > st.best
        · rw [if_pos hbest]
          have k5 := Nat.lt_of_succ_le (Nat.le_of_eq hmeas')
          exact ⟨rfl, L, hf.popped hp, Nat.le_of_lt k5, fun _ => k5⟩
        · rw [if_neg hbest]
          refine TriN.bind (TriN_isStallableFwd hP hbase g curr) ?_
          intro r _
          split
          · exact hcont
          · refine TriN.bind (TriN_begin g _).1 ?_
            intro b _
            refine TriN.bind (TriN_begin g _).2.1 ?_
            intro e _
            refine TriN.bind (settle_any (g := g) hP hf hp hun b e) ?_
            intro s1 h1
            refine TriN.bind h1 ?_
            rintro data ⟨h2, h3⟩
            refine TriN.bind (TriN_isValid hb curr.nodeId) ?_
            rintro v ⟨_, hv⟩
            split
            · refine TriN.bind (TriN_getWeight hb _) ?_
              rintro wb ⟨_, rfl⟩
              refine TriN.bind (Tri_addW hP _ _).toN ?_
              rintro w ⟨rfl, _⟩
              split
              · exact ⟨rfl, _, h2, Nat.le_of_lt h3, fun _ => h3⟩
              · exact ⟨rfl, _, h2, Nat.le_of_lt h3, fun _ => h3⟩
            · exact ⟨rfl, _, h2, Nat.le_of_lt h3, fun _ => h3⟩

theorem mainLoop_any (hP : P.checked = true) : ∀ fuel (st : QS pq), (∃ L, AInv P n L st.fwd) → (∃ L, AInv P n L st.bwd) →
    ameas n g st.fwd + ameas n g.flip st.bwd < fuel →
    TriN (mainLoop P g fuel st) (fun st' => (∃ L, AInv P n L st'.fwd) ∧ ∃ L, AInv P n L st'.bwd) := by
  intro fuel
  induction fuel with
  | zero => intro st _ _ h; omega
  | succ fuel ih =>
    rintro st ⟨L, hf⟩ ⟨K, hb⟩ hfuel
    unfold mainLoop
    by_cases hemp : (pq.isEmpty st.fwd.heap && pq.isEmpty st.bwd.heap) = true
    · rw [if_pos hemp]
      exact ⟨⟨L, hf⟩, K, hb⟩
    · rw [if_neg hemp]
      simp only [Bool.and_eq_true, isEmpty_iff, not_and_or] at hemp
      refine TriN.bind (innerFwd_any (g := g) hP _ st L hf hb.tab (by omega)) ?_
      rintro st1 ⟨e1, L1, f1, m1, m1'⟩
      rw [innerBwd_eq]
      have hb1 : AInv P n K (swapQS st1).fwd := by show AInv P n K st1.bwd; rw [e1]; exact hb
      have h2 := innerFwd_any (g := g.flip) hP ((pq.items st1.bwd.heap).length + 1) (swapQS st1) K hb1 f1.tab
        (by simp only [swapQS]; omega)
      refine TriN.bind (TriN.bind h2 (R := fun st2 => st2.fwd = st1.fwd ∧ ∃ K', AInv P n K' st2.bwd ∧
        ameas n g.flip st2.bwd ≤ ameas n g.flip st1.bwd ∧
        (pq.items st1.bwd.heap ≠ [] → ameas n g.flip st2.bwd < ameas n g.flip st1.bwd)) ?_) ?_
      · rintro st2 ⟨g1, K', g2, g4, g5⟩
        exact ⟨g1, K', g2, g4, g5⟩
      · rintro st2 ⟨g1, K', g2, g4, g5⟩
        refine ih st2 ⟨L1, by rw [g1]; exact f1⟩ ⟨K', g2⟩ ?_
        rw [e1] at g4 g5
        rw [g1]
        rcases hemp with hh | hh
        · have := m1' hh; omega
        · have := g5 hh; omega

theorem RootInv.ainv {fg : FastGraph} {roots : List (Nat × Nat)} {s : Side pq} (h : RootInv P n fg roots s) :
    AInv P n [] s := by
  refine ⟨h.tab, h.items, ?_, ?_, by simp, ?_, by simp⟩
  · intro x d hx hd
    have := (h.lab x d hx).2.2.1
    rw [hd] at this; cases this
  · intro x
    simp only [List.not_mem_nil, false_iff, Bool.not_eq_true]
    unfold settledB
    cases hl : s.look x with
    | none => rfl
    | some d => exact (h.lab x d hl).2.2.1
  · intro x d hx hi
    exact absurd (h.lab x d hx).1 hi

/-! ### Unpacking -/

/-- All stored edges. -/
def allEdges (g : FastGraph) : List (Bool × Nat) :=
  (List.range g.edgesFwd.length).map (fun i => (true, i)) ++ (List.range g.edgesBwd.length).map (fun i => (false, i))

theorem mem_allEdges {a : Bool × Nat} {ed : FastGraphEdge} (h : edgeAt g a = some ed) : a ∈ allEdges g := by
  obtain ⟨b, i⟩ := a
  unfold edgeAt at h
  have hi := (List.getElem?_eq_some_iff.1 h).1
  cases b <;> simp [allEdges] at hi ⊢ <;> exact hi

theorem TriN_isShortcut (ed : FastGraphEdge) : TriN (ed.isShortcut P) (fun b => b = true →
    ed.replacedInEdge ≠ P.umax ∧ ed.replacedOutEdge ≠ P.umax) := by
  unfold FastGraphEdge.isShortcut
  refine TriN.bind (TriN_assertM _) ?_
  intro _ h
  simp [Plat.INVALID_EDGE] at h ⊢
  rcases h with h | h
  · exact fun h' => absurd h.1 h'
  · exact fun _ => h

/-- Unpacking any edge, by direction. -/
def unpackAny (P : Plat) (g : FastGraph) (fuel : Nat) (nodes : List Nat) (a : Bool × Nat) (reverse : Bool) : M (List Nat) :=
  if a.1 then unpackFwd P g fuel nodes a.2 reverse else unpackBwd P g fuel nodes a.2 reverse

theorem unpackAny_zero (nodes : List Nat) (a : Bool × Nat) (reverse : Bool) :
    unpackAny P g 0 nodes a reverse = .error .outOfFuel := by
  unfold unpackAny
  split <;> rfl

theorem unpackAny_succ (fuel : Nat) (nodes : List Nat) (a : Bool × Nat) (reverse : Bool) :
    unpackAny P g (fuel + 1) nodes a reverse = (do
      let ed ← idx (if a.1 then g.edgesFwd else g.edgesBwd) a.2
      if !(← ed.isShortcut P) then .ok (nodes ++ [if a.1 then ed.baseNode else ed.adjNode])
      else if reverse then do
        let nodes ← unpackAny P g fuel nodes (true, ed.replacedOutEdge) reverse
        unpackAny P g fuel nodes (false, ed.replacedInEdge) reverse
      else do
        let nodes ← unpackAny P g fuel nodes (false, ed.replacedInEdge) reverse
        unpackAny P g fuel nodes (true, ed.replacedOutEdge) reverse) := by
  obtain ⟨b, i⟩ := a
  cases b
  · rfl
  · rfl

theorem unpackAny_ends (hc : ¬ Cyclic P.umax g) (reverse : Bool) : ∀ fuel (seen : List (Bool × Nat)) (a : Bool × Nat) nodes,
    seen.Nodup → (∀ b ∈ seen, b ∈ allEdges g ∧ Relation.TransGen (Replaces P.umax g) b a) →
    g.edgesFwd.length + g.edgesBwd.length < fuel + seen.length → TriN (unpackAny P g fuel nodes a reverse) (fun _ => True) := by
  intro fuel
  induction fuel with
  | zero =>
    intro seen a nodes hn hs hlt
    have hsub : seen.Subperm (allEdges g) := List.subperm_of_subset hn (fun b hb => (hs b hb).1)
    have := hsub.length_le
    simp [allEdges] at this
    omega
  | succ fuel ih =>
    intro seen a nodes hn hs hlt
    rw [unpackAny_succ]
    refine TriN.bind (TriN_idx _ _) ?_
    intro ed hed
    have hed' : edgeAt g a = some ed := hed
    refine TriN.bind (TriN_isShortcut ed) ?_
    intro sc hsc
    cases sc with
    | false => simp
    | true =>
      obtain ⟨h1, h2⟩ := hsc rfl
      have hrec : ∀ b nodes, Replaces P.umax g a b → TriN (unpackAny P g fuel nodes b reverse) (fun _ => True) := by
        intro b nodes hr
        refine ih (a :: seen) b nodes ?_ ?_ (by simp; omega)
        · refine List.nodup_cons.2 ⟨fun hm => hc ⟨a, (hs a hm).2⟩, hn⟩
        · intro b' hb'
          rcases List.mem_cons.1 hb' with rfl | hb'
          · exact ⟨mem_allEdges hed', .single hr⟩
          · exact ⟨(hs b' hb').1, (hs b' hb').2.tail hr⟩
      have hin := fun nodes => hrec (false, ed.replacedInEdge) nodes ⟨ed, hed', h1, h2, Or.inl rfl⟩
      have hout := fun nodes => hrec (true, ed.replacedOutEdge) nodes ⟨ed, hed', h1, h2, Or.inr rfl⟩
      cases reverse with
      | true =>
        simp only [Bool.not_true, Bool.false_eq_true, if_false, if_true]
        exact TriN.bind (hout _) (fun _ _ => hin _)
      | false =>
        simp only [Bool.not_true, Bool.false_eq_true, if_false]
        exact TriN.bind (hin _) (fun _ _ => hout _)

theorem unpack_ends (hc : ¬ Cyclic P.umax g) (a : Bool × Nat) (nodes : List Nat) (reverse : Bool) :
    TriN (unpackAny P g (unpackFuel g) nodes a reverse) (fun _ => True) := by
  refine unpackAny_ends hc reverse _ [] a nodes (by simp) (by simp) ?_
  unfold unpackFuel
  simp
  omega

/-- The nodes found so far are only extended. -/
theorem unpackAny_append (reverse : Bool) : ∀ fuel nodes (a : Bool × Nat),
    unpackAny P g fuel nodes a reverse = (unpackAny P g fuel [] a reverse >>= fun l => .ok (nodes ++ l)) := by
  intro fuel
  induction fuel with
  | zero => intro nodes a; rw [unpackAny_zero, unpackAny_zero]; rfl
  | succ fuel ih =>
    intro nodes a
    rw [unpackAny_succ, unpackAny_succ]
    cases idx (if a.1 then g.edgesFwd else g.edgesBwd) a.2 with
    | error e => rfl
    | ok ed =>
      simp only [bind_okM]
      cases ed.isShortcut P with
      | error e => rfl
      | ok sc =>
        simp only [bind_okM]
        cases sc with
        | false => simp
        | true =>
          cases reverse
          · simp only [Bool.not_true, Bool.false_eq_true, if_false]
            rw [ih nodes (false, ed.replacedInEdge)]
            cases unpackAny P g fuel [] (false, ed.replacedInEdge) false with
            | error e => rfl
            | ok l =>
              simp only [bind_okM]
              rw [ih (nodes ++ l), ih l]
              cases unpackAny P g fuel [] (true, ed.replacedOutEdge) false with
              | error e => rfl
              | ok l' => simp
          · simp only [Bool.not_true, Bool.false_eq_true, if_false, if_true]
            rw [ih nodes (true, ed.replacedOutEdge)]
            cases unpackAny P g fuel [] (true, ed.replacedOutEdge) true with
            | error e => rfl
            | ok l =>
              simp only [bind_okM]
              rw [ih (nodes ++ l), ih l]
              cases unpackAny P g fuel [] (false, ed.replacedInEdge) true with
              | error e => rfl
              | ok l' => simp

theorem unpackAny_fuel_iff {fuel : Nat} {nodes : List Nat} {a : Bool × Nat} {reverse : Bool} :
    unpackAny P g fuel nodes a reverse = .error .outOfFuel ↔ unpackAny P g fuel [] a reverse = .error .outOfFuel := by
  rw [unpackAny_append reverse fuel nodes a]
  cases unpackAny P g fuel [] a reverse with
  | error e => exact Iff.rfl
  | ok l => simp

/-- The two edges in the order in which they are unpacked. -/
theorem unpackAny_two {a : Bool × Nat} {ed : FastGraphEdge} (reverse : Bool)
    (h : idx (if a.1 then g.edgesFwd else g.edgesBwd) a.2 = .ok ed) (hs : ed.isShortcut P = .ok true) :
    ∃ b c, Replaces P.umax g a b ∧ Replaces P.umax g a c ∧ ∀ fuel nodes, unpackAny P g (fuel + 1) nodes a reverse =
      (unpackAny P g fuel nodes b reverse >>= fun nodes => unpackAny P g fuel nodes c reverse) := by
  have hed : edgeAt g a = some ed := (TriN_idx _ _).of_ok h
  obtain ⟨h1, h2⟩ := (TriN_isShortcut (P := P) ed).of_ok hs rfl
  have hin : Replaces P.umax g a (false, ed.replacedInEdge) := ⟨ed, hed, h1, h2, Or.inl rfl⟩
  have hout : Replaces P.umax g a (true, ed.replacedOutEdge) := ⟨ed, hed, h1, h2, Or.inr rfl⟩
  cases reverse
  · refine ⟨_, _, hin, hout, fun fuel nodes => ?_⟩
    rw [unpackAny_succ, h]
    simp only [bind_okM]
    rw [hs]
    simp
  · refine ⟨_, _, hout, hin, fun fuel nodes => ?_⟩
    rw [unpackAny_succ, h]
    simp only [bind_okM]
    rw [hs]
    simp

/-- Either an edge is unpacked without recursion, or it replaces two others. -/
theorem unpackAny_cases (P : Plat) (g : FastGraph) (a : Bool × Nat) (reverse : Bool) :
    (∃ r : M (List Nat), r ≠ .error .outOfFuel ∧ r ≠ .error .debugAssertion ∧
      ∀ fuel, unpackAny P g (fuel + 1) [] a reverse = r) ∨
    (a ∈ allEdges g ∧ ∃ b c, Replaces P.umax g a b ∧ Replaces P.umax g a c ∧ ∀ fuel nodes,
      unpackAny P g (fuel + 1) nodes a reverse =
        (unpackAny P g fuel nodes b reverse >>= fun nodes => unpackAny P g fuel nodes c reverse)) := by
  have hT := TriN_idx (if a.1 then g.edgesFwd else g.edgesBwd) a.2
  cases hi : idx (if a.1 then g.edgesFwd else g.edgesBwd) a.2 with
  | error e =>
    rw [hi] at hT
    left
    refine ⟨.error e, by simpa using hT.1, by simpa using hT.2, fun fuel => ?_⟩
    rw [unpackAny_succ, hi]; rfl
  | ok ed =>
    have hS := TriN_isShortcut (P := P) ed
    cases hs : ed.isShortcut P with
    | error e =>
      rw [hs] at hS
      left
      refine ⟨.error e, by simpa using hS.1, by simpa using hS.2, fun fuel => ?_⟩
      rw [unpackAny_succ, hi]
      simp only [bind_okM]
      rw [hs]; rfl
    | ok sc =>
      cases sc with
      | false =>
        left
        refine ⟨.ok [if a.1 then ed.baseNode else ed.adjNode], by simp, by simp, fun fuel => ?_⟩
        rw [unpackAny_succ, hi]
        simp only [bind_okM]
        rw [hs]
        simp
      | true =>
        right
        exact ⟨mem_allEdges ((TriN_idx _ _).of_ok hi), unpackAny_two reverse hi hs⟩

/-- More fuel changes nothing. -/
theorem unpackAny_mono (reverse : Bool) : ∀ fuel nodes (a : Bool × Nat) r, unpackAny P g fuel nodes a reverse = r →
    r ≠ .error .outOfFuel → unpackAny P g (fuel + 1) nodes a reverse = r := by
  intro fuel
  induction fuel with
  | zero => intro nodes a r h h'; rw [unpackAny_zero] at h; exact absurd h.symm h'
  | succ fuel ih =>
    intro nodes a r h h'
    rcases unpackAny_cases P g a reverse with ⟨x, _, _, hx⟩ | ⟨_, b, c, _, _, hbc⟩
    · rw [unpackAny_append, hx] at h ⊢
      exact h
    · rw [hbc] at h ⊢
      cases hb : unpackAny P g fuel nodes b reverse with
      | error e =>
        rw [hb] at h
        have h2 : Except.error e = r := h
        rw [ih nodes b (.error e) hb (by rw [h2]; exact h')]
        exact h
      | ok l =>
        rw [hb] at h
        rw [ih nodes b (.ok l) hb (by simp)]
        exact ih l c r h h'

theorem unpackAny_mono' (reverse : Bool) {fuel fuel' : Nat} (hle : fuel ≤ fuel') {nodes : List Nat} {a : Bool × Nat}
    (h : unpackAny P g fuel nodes a reverse ≠ .error .outOfFuel) :
    unpackAny P g fuel' nodes a reverse = unpackAny P g fuel nodes a reverse := by
  induction fuel', hle using Nat.le_induction with
  | base => rfl
  | succ m _ ih => exact unpackAny_mono reverse m nodes a _ ih h

/-- The recursion from `a` is exactly `k` deep. -/
def Depth (P : Plat) (g : FastGraph) (reverse : Bool) (k : Nat) (a : Bool × Nat) : Prop :=
  unpackAny P g (k + 1) [] a reverse ≠ .error .outOfFuel ∧ unpackAny P g k [] a reverse = .error .outOfFuel

theorem Depth.unique {reverse : Bool} {k k' : Nat} {a : Bool × Nat} (h : Depth P g reverse k a) (h' : Depth P g reverse k' a) :
    k = k' := by
  rcases Nat.lt_trichotomy k k' with hlt | h1 | hlt
  · have := unpackAny_mono' reverse (Nat.succ_le_of_lt hlt) h.1
    rw [h'.2] at this
    exact absurd this.symm h.1
  · exact h1
  · have := unpackAny_mono' reverse (Nat.succ_le_of_lt hlt) h'.1
    rw [h.2] at this
    exact absurd this.symm h'.1

theorem Depth.step {reverse : Bool} {k : Nat} {a : Bool × Nat} (h : Depth P g reverse (k + 1) a) :
    a ∈ allEdges g ∧ ∃ b, Depth P g reverse k b := by
  obtain ⟨h1, h2⟩ := h
  rcases unpackAny_cases P g a reverse with ⟨x, hx1, _, hx⟩ | ⟨hm, b, c, _, _, hbc⟩
  · rw [hx] at h2
    exact absurd h2 hx1
  · refine ⟨hm, ?_⟩
    rw [hbc] at h1 h2
    cases hb : unpackAny P g k [] b reverse with
    | error e =>
      rw [hb] at h2
      have he : e = .outOfFuel := by simpa using h2
      subst he
      refine ⟨b, ?_, hb⟩
      intro hb'
      rw [hb'] at h1
      exact h1 rfl
    | ok l =>
      rw [hb] at h2
      rw [unpackAny_mono reverse k [] b _ hb (by simp)] at h1
      exact ⟨c, fun hc => h1 (unpackAny_fuel_iff.2 hc), unpackAny_fuel_iff.1 h2⟩

theorem Depth.chain {reverse : Bool} : ∀ k a, Depth P g reverse k a → ∃ l : List (Bool × Nat), l.length = k ∧ l.Nodup ∧
    ∀ b ∈ l, b ∈ allEdges g ∧ ∃ j, j ≤ k ∧ Depth P g reverse j b := by
  intro k
  induction k with
  | zero => intro a _; exact ⟨[], rfl, by simp, by simp⟩
  | succ k ih =>
    intro a h
    obtain ⟨hm, b, hb⟩ := h.step
    obtain ⟨l, l1, l2, l3⟩ := ih b hb
    refine ⟨a :: l, by simp [l1], List.nodup_cons.2 ⟨?_, l2⟩, ?_⟩
    · intro hal
      obtain ⟨_, j, hj, hd⟩ := l3 a hal
      have := h.unique hd
      omega
    · intro c hc
      rcases List.mem_cons.1 hc with rfl | hc
      · exact ⟨hm, k + 1, Nat.le_refl _, h⟩
      · obtain ⟨c1, j, hj, hd⟩ := l3 c hc
        exact ⟨c1, j, by omega, hd⟩

/-- If unpacking ends at all, the depth given by `unpackFuel` is enough. -/
theorem unpackAny_exact {reverse : Bool} {a : Bool × Nat} {nodes : List Nat}
    (h : unpackAny P g (unpackFuel g) nodes a reverse = .error .outOfFuel) (fuel : Nat) (nodes' : List Nat) :
    unpackAny P g fuel nodes' a reverse = .error .outOfFuel := by
  by_contra hc
  rw [unpackAny_fuel_iff] at h hc
  have hex : ∃ k, unpackAny P g k [] a reverse ≠ .error .outOfFuel := ⟨fuel, hc⟩
  classical
  have hspec := Nat.find_spec hex
  have hmin := fun m hm => Nat.find_min hex (m := m) hm
  generalize Nat.find hex = k at hspec hmin
  cases k with
  | zero => exact hspec (unpackAny_zero _ _ _)
  | succ k =>
    have hd : Depth P g reverse k a := ⟨hspec, not_not.1 (hmin k (by omega))⟩
    obtain ⟨l, l1, l2, l3⟩ := hd.chain
    have hsub : l.Subperm (allEdges g) := List.subperm_of_subset l2 (fun b hb => (l3 b hb).1)
    have hlen := hsub.length_le
    simp [allEdges] at hlen
    have := unpackAny_mono' reverse (fuel' := unpackFuel g) (by unfold unpackFuel; omega) hspec
    rw [h] at this
    exact hspec this.symm

theorem unpackAny_no_debug (reverse : Bool) : ∀ fuel nodes (a : Bool × Nat),
    unpackAny P g fuel nodes a reverse ≠ .error .debugAssertion := by
  intro fuel
  induction fuel with
  | zero => intro nodes a; rw [unpackAny_zero]; simp
  | succ fuel ih =>
    intro nodes a
    rcases unpackAny_cases P g a reverse with ⟨x, hx1, hx2, hx⟩ | ⟨hm, b, c, _, _, hbc⟩
    · rw [unpackAny_append, hx]
      cases x with
      | ok l => simp
      | error e => intro he; exact hx2 he
    · rw [hbc]
      have := ih nodes b
      cases hb : unpackAny P g fuel nodes b reverse with
      | error e => rw [hb] at this; intro he; exact this he
      | ok l => exact ih l c

/-- Either the recursion ends, or it is infinite. -/
theorem unpack_alt (P : Plat) (g : FastGraph) (a : Bool × Nat) (nodes : List Nat) (reverse : Bool) :
    TriN (unpackAny P g (unpackFuel g) nodes a reverse) (fun _ => True) ∨
      ∀ fuel nodes, unpackAny P g fuel nodes a reverse = .error .outOfFuel := by
  have hd := unpackAny_no_debug (P := P) (g := g) reverse (unpackFuel g) nodes a
  cases h : unpackAny P g (unpackFuel g) nodes a reverse with
  | ok l => exact Or.inl trivial
  | error e =>
    by_cases he : e = .outOfFuel
    · subst he
      exact Or.inr (fun fuel nodes' => unpackAny_exact h fuel nodes')
    · rw [h] at hd
      exact Or.inl ⟨he, by simpa using hd⟩

/-- No unpacking is infinite. -/
def Unpackable (P : Plat) (g : FastGraph) : Prop :=
  ∀ a nodes reverse, TriN (unpackAny P g (unpackFuel g) nodes a reverse) (fun _ => True)

/-! ### Following the parents -/

theorem walkFwd_any (hc : Unpackable P g) {L : List Nat} {s : Side pq} (h : AInv P n L s) : ∀ fuel x result pre post,
    L = pre ++ x :: post → pre.length < fuel → TriN (walkFwd P g s fuel result x) (fun _ => True) := by
  intro fuel
  induction fuel with
  | zero => intro x result pre post _ h; omega
  | succ fuel ih =>
    intro x result pre post hl hlt
    have hx : x ∈ L := by rw [hl]; simp
    obtain ⟨d, h1, h2⟩ := settledB_look ((h.mem x).1 hx)
    unfold walkFwd
    rw [idx_of_look h1]
    simp only [bind_okM]
    by_cases hi : d.incEdge = P.umax
    · rw [if_neg (by simp [hi, Plat.INVALID_EDGE])]; simp
    · rw [if_pos (by simp [hi, Plat.INVALID_EDGE])]
      refine TriN.bind (hc (true, d.incEdge) result true) ?_
      intro r _
      obtain ⟨a, b, hab⟩ := List.append_of_mem (h.ord pre x post d hl h1 hi)
      refine ih d.parent r a (b ++ x :: post) (by rw [hl, hab]; simp) ?_
      have := congrArg List.length hab
      simp at this
      omega

theorem walkBwd_any (hc : Unpackable P g) {L : List Nat} {s : Side pq} (h : AInv P n L s) : ∀ fuel x result pre post,
    L = pre ++ x :: post → pre.length < fuel → TriN (walkBwd P g s fuel result x) (fun _ => True) := by
  intro fuel
  induction fuel with
  | zero => intro x result pre post _ h; omega
  | succ fuel ih =>
    intro x result pre post hl hlt
    have hx : x ∈ L := by rw [hl]; simp
    obtain ⟨d, h1, h2⟩ := settledB_look ((h.mem x).1 hx)
    unfold walkBwd
    rw [idx_of_look h1]
    simp only [bind_okM]
    by_cases hi : d.incEdge = P.umax
    · rw [if_neg (by simp [hi, Plat.INVALID_EDGE])]; simp
    · rw [if_pos (by simp [hi, Plat.INVALID_EDGE])]
      refine TriN.bind (hc (false, d.incEdge) result false) ?_
      intro r _
      obtain ⟨a, b, hab⟩ := List.append_of_mem (h.ord pre x post d hl h1 hi)
      refine ih d.parent r a (b ++ x :: post) (by rw [hl, hab]; simp) ?_
      have := congrArg List.length hab
      simp at this
      omega

theorem AInv.length_le {L : List Nat} {s : Side pq} (h : AInv P n L s) : L.length ≤ n := by
  have hsub : L.Subperm (List.range n) := by
    refine List.subperm_of_subset h.nodup ?_
    intro x hx
    obtain ⟨d, h1, _⟩ := settledB_look ((h.mem x).1 hx)
    exact List.mem_range.2 (h.tab.look_lt h1)
  simpa using hsub.length_le

theorem walkFwd_start (hc : Unpackable P g) {L : List Nat} {s : Side pq} (h : AInv P n L s) {x : Nat} {d : PData}
    (hx : s.look x = some d) (result : List Nat) : TriN (walkFwd P g s (n + 1) result x) (fun _ => True) := by
  have hlen := h.length_le
  unfold walkFwd
  rw [idx_of_look hx]
  simp only [bind_okM]
  by_cases hi : d.incEdge = P.umax
  · rw [if_neg (by simp [hi, Plat.INVALID_EDGE])]; simp
  · rw [if_pos (by simp [hi, Plat.INVALID_EDGE])]
    refine TriN.bind (hc (true, d.incEdge) result true) ?_
    intro r _
    obtain ⟨a, b, hab⟩ := List.append_of_mem (h.par x d hx hi)
    refine walkFwd_any hc h _ _ _ a b hab ?_
    have := congrArg List.length hab
    simp at this
    omega

theorem walkBwd_start (hc : Unpackable P g) {L : List Nat} {s : Side pq} (h : AInv P n L s) {x : Nat} {d : PData}
    (hx : s.look x = some d) (result : List Nat) : TriN (walkBwd P g s (n + 1) result x) (fun _ => True) := by
  have hlen := h.length_le
  unfold walkBwd
  rw [idx_of_look hx]
  simp only [bind_okM]
  by_cases hi : d.incEdge = P.umax
  · rw [if_neg (by simp [hi, Plat.INVALID_EDGE])]; simp
  · rw [if_pos (by simp [hi, Plat.INVALID_EDGE])]
    refine TriN.bind (hc (false, d.incEdge) result false) ?_
    intro r _
    obtain ⟨a, b, hab⟩ := List.append_of_mem (h.par x d hx hi)
    refine walkBwd_any hc h _ _ _ a b hab ?_
    have := congrArg List.length hab
    simp at this
    omega

/-! ### The complete query -/

theorem initialMeeting_any (hP : P.checked = true) (S T : List (Nat × Nat)) :
    TriN (initialMeeting P S T) (fun _ => True) := by
  unfold initialMeeting
  refine TriN.mono (TriN_forM (fun _ _ => True) trivial ?_) (fun _ _ => trivial)
  intro _ s _ st _ _
  refine TriN.mono (TriN_forM (fun _ _ => True) trivial ?_) (fun _ _ => trivial)
  intro _ e _ st _ _
  unfold pairStep
  split
  · refine TriN.bind (Tri_addW hP _ _).toN ?_
    intro w _
    split <;> simp
  · simp

/-- Everything before the path is extracted ends. -/
theorem search_any (hP : P.checked = true) {c : PathCalculator pq} (hco : CalcOk g.numNodes c) {S T : List (Nat × Nat)}
    (hS : ∀ x ∈ S, x.1 < g.numNodes) (hT : ∀ x ∈ T, x.1 < g.numNodes) :
    ∃ fwd bwd, forM (Side.addRoot P) c.fwd.clear S = .ok fwd ∧ forM (Side.addRoot P) c.bwd.clear T = .ok bwd ∧
      ∀ best meet, TriN (mainLoop P g (mainFuel g S T) ⟨fwd, bwd, best, meet⟩)
        (fun st => (∃ L, AInv P g.numNodes L st.fwd) ∧ ∃ L, AInv P g.numNodes L st.bwd) := by
  obtain ⟨fwd, ef, rf⟩ := addRoots_ok (P := P) (fg := g) hS (RootInv.clear hco.f)
  obtain ⟨bwd, eb, rb⟩ := addRoots_ok (P := P) (fg := g) hT (RootInv.clear hco.b)
  refine ⟨fwd, bwd, ef, eb, fun best meet => mainLoop_any hP _ _ ⟨[], rf.ainv⟩ ⟨[], rb.ainv⟩ ?_⟩
  have q1 := ameas_le (n := g.numNodes) g fwd
  have q2 := ameas_le (n := g.numNodes) g.flip bwd
  have q3 := rf.len
  have q4 := rb.len
  have q5 : g.flip.edgesFwd.length = g.edgesBwd.length := rfl
  rw [q5] at q2
  simp only
  unfold mainFuel
  rw [Nat.add_mul, Nat.mul_add]
  omega

theorem calcPathMulti_any (hP : P.checked = true) (hc : Unpackable P g) {c : PathCalculator pq} (hco : CalcOk c.numNodes c)
    (S T : List (Nat × Nat)) : TriN (c.calcPathMulti P g S T) (fun _ => True) := by
  by_cases ha : ArgsOk c.numNodes g S T
  · simp only [PathCalculator.calcPathMulti]
    rw [checkArgs_iff.2 ha]
    simp only [bind_okM]
    have hn := ha.num
    rw [← hn] at hco
    obtain ⟨fwd, bwd, ef, eb, hm⟩ := search_any (g := g) hP hco (by rw [hn]; exact ha.sl) (by rw [hn]; exact ha.el)
    refine TriN.bind (initialMeeting_any hP S T) ?_
    rintro ⟨best, meet⟩ _
    simp only
    rw [ef, eb]
    simp only [bind_okM]
    refine TriN.bind (hm best meet) ?_
    rintro st ⟨⟨L, hL⟩, K, hK⟩
    split
    · simp
    · refine TriN.bind (TriN_assertM _) ?_
      intro _ _
      refine TriN.bind (Q := fun _ => True) ?_ ?_
      · unfold extractNodes
        refine TriN.bind (TriN_assertM _) ?_
        intro _ _
        refine TriN.bind (TriN_isValid hL.tab _) ?_
        rintro v ⟨_, hv⟩
        refine TriN.bind (TriN_assertM _) ?_
        intro _ hv1
        refine TriN.bind (TriN_isValid hK.tab _) ?_
        rintro v' ⟨_, hv'⟩
        refine TriN.bind (TriN_assertM _) ?_
        intro _ hv2
        rw [hv1] at hv
        rw [hv2] at hv'
        obtain ⟨d, hd⟩ := Option.isSome_iff_exists.1 hv.symm
        obtain ⟨d', hd'⟩ := Option.isSome_iff_exists.1 hv'.symm
        refine TriN.bind (walkFwd_start hc hL hd _) ?_
        intro r _
        exact walkBwd_start hc hK hd' _
      · intro nodes _
        refine TriN.bind (TriN_assertM _) ?_
        intro _ _
        refine TriN.bind (TriN_idx _ _) ?_
        intro a _
        refine TriN.bind (TriN_idx _ _) ?_
        intro b _
        simp
  · unfold PathCalculator.calcPathMulti
    rw [checkArgs_err ha]
    simp

/-! ### Graphs whose edges stand for walks -/

/-- The path returned on such a graph exists and is not heavier than reported. -/
theorem calcPathMulti_sound {E : EdgeRel} (hP : P.checked = true) (h : FSound P E n g) {c : PathCalculator pq} (hc : CalcOk n c)
    {S T : List (Nat × Nat)} (h1 : S ≠ []) (h2 : T ≠ []) (h3 : ∀ x ∈ S, x.1 < n) (h4 : ∀ x ∈ T, x.1 < n) :
    Tri (c.calcPathMulti P g S T) (fun r => ∀ p, r.2 = some p → p.weight < P.umax ∧ ∃ ws wt w, (p.source, ws) ∈ S ∧
      (p.target, wt) ∈ T ∧ IsWalk E p.nodes w ∧ p.nodes.head? = some p.source ∧ p.nodes.getLast? = some p.target ∧
      ws + w + wt ≤ p.weight) := by
  refine Tri.mono (calcPathMulti_core hP h hc h1 h2 h3 h4) ?_
  rintro r ⟨_, h, _⟩ p hp
  obtain ⟨q1, q2, _⟩ := h p hp
  exact ⟨q1, q2⟩

/-! ### `Consistent` -/

theorem Offsets.firstOk {first : List Nat} {m : Nat} (h : Offsets n first m) : FirstOk n first m := by
  obtain ⟨h1, h2, h3, h4⟩ := h
  refine ⟨h1, ?_, ?_, ?_⟩
  · intro j hj
    have ha : j < first.length := by omega
    have hb : j + 1 < first.length := by omega
    simp only [List.getElem?_eq_getElem ha, List.getElem?_eq_getElem hb, Option.getD_some]
    exact List.pairwise_iff_getElem.1 h2 j (j + 1) ha hb (by omega)
  · rw [← List.head?_eq_getElem?, h3]; rfl
  · rw [List.getLast?_eq_getElem?, h1] at h4
    rw [show n = n + 1 - 1 from rfl, h4]; rfl

theorem FirstOk.offsets {first : List Nat} {m : Nat} (h : FirstOk n first m) : Offsets n first m := by
  have hval : ∀ i, i ≤ n → first[i]? = some ((first[i]?).getD 0) := by
    intro i hi
    have : i < first.length := by rw [h.len]; omega
    simp [List.getElem?_eq_getElem this]
  refine ⟨h.len, ?_, ?_, ?_⟩
  · rw [List.pairwise_iff_getElem]
    intro i j hi hj hij
    have := h.le (i := i) (j := j) (by omega) (by rw [h.len] at hj; omega)
    simpa [List.getElem?_eq_getElem hi, List.getElem?_eq_getElem hj] using this
  · rw [List.head?_eq_getElem?, hval 0 (by omega), h.zero]
  · rw [List.getLast?_eq_getElem?, h.len, show n + 1 - 1 = n from rfl, hval n (Nat.le_refl _), h.last]

theorem begin_lt {u b : Nat} (hlen : g.ranks.length = n) (h : g.beginOutEdges u = .ok b ∨ g.beginInEdges u = .ok b) : u < n := by
  rcases h with h | h <;>
  · obtain ⟨r, hr, _⟩ := bind_eq_ok.1 h
    have := (TriN_idx _ _).of_ok hr
    rw [← hlen]
    exact (List.getElem?_eq_some_iff.1 this).1

theorem Shape.outEdge_iff (h : Shape P n g) {u i : Nat} {ed : FastGraphEdge} :
    OutEdge g u i ed ↔ u < n ∧ g.OutAt u i ed := by
  constructor
  · rintro ⟨b, e, h1, h2, h3, h4, h5⟩
    have hu := begin_lt h.lenR (Or.inl h1)
    rw [h.beginOut hu] at h1
    rw [h.endOut hu] at h2
    cases h1; cases h2
    exact ⟨hu, h3, h4, h5⟩
  · rintro ⟨hu, h1, h2, h3⟩
    exact ⟨_, _, h.beginOut hu, h.endOut hu, h1, h2, h3⟩

theorem Shape.inEdge_iff (h : Shape P n g) {u i : Nat} {ed : FastGraphEdge} :
    InEdge g u i ed ↔ u < n ∧ g.InAt u i ed := by
  constructor
  · rintro ⟨b, e, h1, h2, h3, h4, h5⟩
    have hu := begin_lt h.lenR (Or.inr h1)
    rw [h.beginIn hu] at h1
    rw [h.endIn hu] at h2
    cases h1; cases h2
    exact ⟨hu, h3, h4, h5⟩
  · rintro ⟨hu, h1, h2, h3⟩
    exact ⟨_, _, h.beginIn hu, h.endIn hu, h1, h2, h3⟩

theorem Shape.above_iff (h : Shape P n g) {u v : Nat} : Above g u v ↔ u < n ∧ v < n ∧ g.rk u < g.rk v := by
  have hval : ∀ {u}, u < n → g.ranks[u]? = some (g.rk u) := by
    intro u hu
    have : u < g.ranks.length := by rw [h.lenR]; exact hu
    unfold FastGraph.rk
    simp [List.getElem?_eq_getElem this]
  constructor
  · rintro ⟨r, r', h1, h2, h3⟩
    have hu : u < n := by rw [← h.lenR]; exact (List.getElem?_eq_some_iff.1 h1).1
    have hv : v < n := by rw [← h.lenR]; exact (List.getElem?_eq_some_iff.1 h2).1
    rw [hval hu] at h1
    rw [hval hv] at h2
    cases h1; cases h2
    exact ⟨hu, hv, h3⟩
  · rintro ⟨hu, hv, h3⟩
    exact ⟨_, _, hval hu, hval hv, h3⟩

theorem Shape.standsFor_iff {E : EdgeRel} (h : Shape P n g) {u v w rin rout : Nat} (hu : u < n) (hv : v < n) :
    StandsFor P.umax E g u v w rin rout ↔ Resolved P E n g u v w rin rout := by
  unfold StandsFor Resolved
  refine or_congr Iff.rfl (and_congr Iff.rfl (and_congr Iff.rfl ?_))
  constructor
  · rintro ⟨c, e₁, e₂, a1, a2, a3, a4, a5, a6, a7⟩
    rw [h.above_iff] at a1 a2
    rw [h.inEdge_iff] at a3
    rw [h.outEdge_iff] at a5
    exact ⟨c, a1.1, a1.2.2, a2.2.2, e₁, e₂, a3.2, a4, a5.2, a6, a7⟩
  · rintro ⟨c, hc, a1, a2, e₁, e₂, a3, a4, a5, a6, a7⟩
    exact ⟨c, e₁, e₂, h.above_iff.2 ⟨hc, hu, a1⟩, h.above_iff.2 ⟨hc, hv, a2⟩, h.inEdge_iff.2 ⟨hc, a3⟩, a4,
      h.outEdge_iff.2 ⟨hc, a5⟩, a6, a7⟩

theorem Spec.Consistent.shape {E : EdgeRel} (h : Consistent P.umax E g) : Shape P g.numNodes g := by
  have hlen : g.ranks.length = g.numNodes := by simpa using h.ranks.length_eq
  have hnd : g.ranks.Nodup := h.ranks.nodup_iff.2 List.nodup_range
  have hval : ∀ u < g.numNodes, g.ranks[u]? = some (g.rk u) := by
    intro u hu
    have : u < g.ranks.length := by rw [hlen]; exact hu
    unfold FastGraph.rk
    simp [List.getElem?_eq_getElem this]
  refine ⟨rfl, h.nodes, hlen, ?_, ?_, Offsets.firstOk h.offsetsOut, Offsets.firstOk h.offsetsIn, h.numOut, h.numIn⟩
  · intro u hu
    have := List.mem_of_getElem? (hval u hu)
    exact List.mem_range.1 (h.ranks.mem_iff.1 this)
  · intro u hu v hv e
    have h1 := hval u hu
    have h2 := hval v hv
    rw [e, ← h2] at h1
    exact (List.getElem?_inj (by rw [hlen]; exact hu) hnd).1 h1

theorem Spec.Consistent.sound {E : EdgeRel} (h : Consistent P.umax E g) : FSound P E g.numNodes g := by
  have hs := h.shape
  refine ⟨hs, ?_, ?_⟩
  · intro u hu id ed hat
    obtain ⟨h1, h2, h3⟩ := h.outEdge u id ed (hs.outEdge_iff.2 ⟨hu, hat⟩)
    obtain ⟨_, h4, h5⟩ := hs.above_iff.1 h2
    exact ⟨h1, h4, h5, (hs.standsFor_iff hu h4).1 h3⟩
  · intro u hu id ed hat
    obtain ⟨h1, h2, h3⟩ := h.inEdge u id ed (hs.inEdge_iff.2 ⟨hu, hat⟩)
    obtain ⟨_, h4, h5⟩ := hs.above_iff.1 h2
    exact ⟨h1, h4, h5, (hs.standsFor_iff h4 hu).1 h3⟩

theorem FSound.consistent {E : EdgeRel} (h : FSound P E n g) : Consistent P.umax E g := by
  have hs := h.toShape
  have hn := h.num
  subst hn
  refine ⟨h.n_lt, ?_, h.capF, h.capB, h.firstF.offsets, h.firstB.offsets, ?_, ?_⟩
  · have := h.perm_rk
    have e : (List.range g.numNodes).map g.rk = g.ranks := by
      refine List.ext_getElem (by simp [h.lenR]) ?_
      intro i h1 h2
      simp [FastGraph.rk, h2]
    rwa [e] at this
  · intro u i ed ho
    obtain ⟨hu, hat⟩ := hs.outEdge_iff.1 ho
    obtain ⟨h1, h2, h3, h4⟩ := h.fwd u hu i ed hat
    exact ⟨h1, hs.above_iff.2 ⟨hu, h2, h3⟩, (hs.standsFor_iff hu h2).2 h4⟩
  · intro u i ed ho
    obtain ⟨hu, hat⟩ := hs.inEdge_iff.1 ho
    obtain ⟨h1, h2, h3, h4⟩ := h.bwd u hu i ed hat
    exact ⟨h1, hs.above_iff.2 ⟨hu, h2, h3⟩, (hs.standsFor_iff h2 hu).2 h4⟩

/-- Shortcuts of such a graph replace edges of lower nodes. -/
theorem FSound.not_cyclic {E : EdgeRel} (h : FSound P E n g) : ¬ Cyclic P.umax g := by
  -- the node an edge belongs to
  let At : Bool × Nat → Nat → Prop := fun a u => u < n ∧ ∃ ed, if a.1 then g.OutAt u a.2 ed else g.InAt u a.2 ed
  have step : ∀ {a b u}, At a u → Replaces P.umax g a b → ∃ c, At b c ∧ g.rk c < g.rk u := by
    rintro ⟨da, ia⟩ b u ⟨hu, ed, hat⟩ ⟨ed', hed, r1, r2, hb⟩
    have key : ∃ c < n, g.rk c < g.rk u ∧ ∃ e₁ e₂, g.InAt c ed'.replacedInEdge e₁ ∧ g.OutAt c ed'.replacedOutEdge e₂ := by
      cases da with
      | true =>
        simp only [if_true] at hat
        have : ed = ed' := by
          have h1 := hat.2.2
          unfold edgeAt at hed
          simp only [if_true] at hed
          rw [h1] at hed; cases hed; rfl
        subst this
        obtain ⟨_, _, _, hr⟩ := h.fwd u hu _ _ hat
        rcases hr with ⟨r, _⟩ | ⟨_, _, c, hc, k1, k2, e₁, e₂, a1, _, a3, _⟩
        · exact absurd r r1
        · exact ⟨c, hc, k1, e₁, e₂, a1, a3⟩
      | false =>
        simp only [Bool.false_eq_true, if_false] at hat
        have : ed = ed' := by
          have h1 := hat.2.2
          unfold edgeAt at hed
          simp only [Bool.false_eq_true, if_false] at hed
          rw [h1] at hed; cases hed; rfl
        subst this
        obtain ⟨_, _, _, hr⟩ := h.bwd u hu _ _ hat
        rcases hr with ⟨r, _⟩ | ⟨_, _, c, hc, k1, k2, e₁, e₂, a1, _, a3, _⟩
        · exact absurd r r1
        · exact ⟨c, hc, k2, e₁, e₂, a1, a3⟩
    obtain ⟨c, hc, k, e₁, e₂, a1, a3⟩ := key
    rcases hb with rfl | rfl
    · exact ⟨c, ⟨hc, e₁, by simpa using a1⟩, k⟩
    · exact ⟨c, ⟨hc, e₂, by simpa using a3⟩, k⟩
  have trans : ∀ {a b u}, At a u → Relation.TransGen (Replaces P.umax g) a b → ∃ c, At b c ∧ g.rk c < g.rk u := by
    intro a b u ha ht
    induction ht with
    | single h1 => exact step ha h1
    | tail _ h1 ih =>
      obtain ⟨c, hc, hk⟩ := ih
      obtain ⟨c', hc', hk'⟩ := step hc h1
      exact ⟨c', hc', by omega⟩
  have unique : ∀ {a u v}, At a u → At a v → g.rk u = g.rk v := by
    rintro ⟨da, ia⟩ u v ⟨hu, ed, h1⟩ ⟨hv, ed', h2⟩
    cases da with
    | true =>
      simp only [if_true] at h1 h2
      rcases Nat.lt_trichotomy (g.rk u) (g.rk v) with hlt | he | hlt
      · have := h.firstF.le (i := g.rk u + 1) (j := g.rk v) hlt (Nat.le_of_lt (h.rk_lt v hv))
        have q1 : ia < g.eo u := h1.2.1
        have q2 : g.bo v ≤ ia := h2.1
        unfold FastGraph.eo at q1
        unfold FastGraph.bo at q2
        omega
      · exact he
      · have := h.firstF.le (i := g.rk v + 1) (j := g.rk u) hlt (Nat.le_of_lt (h.rk_lt u hu))
        have q1 : ia < g.eo v := h2.2.1
        have q2 : g.bo u ≤ ia := h1.1
        unfold FastGraph.eo at q1
        unfold FastGraph.bo at q2
        omega
    | false =>
      simp only [Bool.false_eq_true, if_false] at h1 h2
      rcases Nat.lt_trichotomy (g.rk u) (g.rk v) with hlt | he | hlt
      · have := h.firstB.le (i := g.rk u + 1) (j := g.rk v) hlt (Nat.le_of_lt (h.rk_lt v hv))
        have q1 : ia < g.ei u := h1.2.1
        have q2 : g.bi v ≤ ia := h2.1
        unfold FastGraph.ei at q1
        unfold FastGraph.bi at q2
        omega
      · exact he
      · have := h.firstB.le (i := g.rk v + 1) (j := g.rk u) hlt (Nat.le_of_lt (h.rk_lt u hu))
        have q1 : ia < g.ei v := h2.2.1
        have q2 : g.bi u ≤ ia := h1.1
        unfold FastGraph.ei at q1
        unfold FastGraph.bi at q2
        omega
  rintro ⟨a, ht⟩
  obtain ⟨b, hab, _⟩ := Relation.TransGen.head'_iff.1 ht
  have ha : ∃ u, At a u := by
    obtain ⟨ed, hed, _⟩ := hab
    obtain ⟨da, ia⟩ := a
    unfold edgeAt at hed
    have hlt := (List.getElem?_eq_some_iff.1 hed).1
    cases da with
    | true =>
      obtain ⟨u, hu, h1, h2⟩ := h.toShape.out_id_cover hlt
      exact ⟨u, hu, ed, h1, h2, hed⟩
    | false =>
      obtain ⟨u, hu, h1, h2⟩ := h.toShape.flip.out_id_cover hlt
      exact ⟨u, hu, ed, h1, h2, hed⟩
  obtain ⟨u, hu⟩ := ha
  obtain ⟨c, hc, hk⟩ := trans hu ht
  have := unique hu hc
  omega

end FP
