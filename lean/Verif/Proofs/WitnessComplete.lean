import Verif.Proofs.WitnessSearch
/-! # Witness search: completeness within the limits -/
namespace FP

/-- The argument common to all Dijkstra searches: when the start has label 0, settled nodes have had their edges relaxed and
unsettled labelled nodes are in the heap, every walk is matched by a label or by a heap item. -/
theorem frontier {E : Spec.EdgeRel} {s umax : Nat} {wt : Nat → Nat} {settled : Nat → Prop} {items : List HeapItem}
    (hs : wt s = 0) (hmax : ∀ x, wt x ≤ umax)
    (hset : ∀ u x w, settled u → E u x w → wt x ≤ wt u + w)
    (hopen : ∀ u, ¬ settled u → wt u < umax → ∃ it ∈ items, it.weight = wt u) {x w : Nat} (h : Wk E s x w) :
    wt x ≤ w ∨ ∃ it ∈ items, it.weight ≤ w := by
  have h' := h.rev
  have key : ∀ {a b c : Nat}, Wk (revE E) a b c → b = s → wt a ≤ c ∨ ∃ it ∈ items, it.weight ≤ c := by
    intro a b c h
    induction h with
    | nil a => rintro rfl; exact Or.inl (by omega)
    | @cons a y t p q e _ ih =>
      intro hb
      rcases ih hb with h1 | ⟨it, hi, h2⟩
      · by_cases hu : wt y < umax
        · by_cases hsy : settled y
          · left
            have := hset y a p hsy e
            omega
          · right
            obtain ⟨it, hi, h2⟩ := hopen y hsy hu
            exact ⟨it, hi, by omega⟩
        · left
          have := hmax a
          omega
      · exact Or.inr ⟨it, hi, by omega⟩
  exact key h' rfl

namespace WitnessSearch
open Spec

variable {pq : PQ} {P : Plat} {n : Nat} {ws : WitnessSearch pq} {g g0 : PreparationGraph} {s v : Nat} {E : EdgeRel}

/-- Completeness invariant with respect to a graph `g0`; labels are weights of walks along edges in `E`. -/
structure CInv (P : Plat) (E : EdgeRel) (g0 : PreparationGraph) (s v : Nat) (ws : WitnessSearch pq) : Prop where
  root : ws.wt P s = 0
  fit : ∀ x d, ws.look x = some d → d.weight ≤ P.umax
  done : ∀ u x w, ws.settledB u = true → g0.relNo v u x w → ws.wt P x ≤ ws.wt P u + w
  opn : ∀ u d, ws.look u = some d → d.settled = false → ∃ it ∈ pq.items ws.heap, it.nodeId = u ∧ it.weight = d.weight
  ex : ∀ x d, ws.look x = some d → Wk E s x d.weight
  par : ∀ x d, ws.look x = some d → x = s ∨ ∃ u w, ws.settledB u = true ∧ E u x w ∧ d.weight = ws.wt P u + w

theorem wt_some {x : Nat} {d : WData} (h : ws.look x = some d) : ws.wt P x = d.weight := by unfold wt; rw [h]
theorem wt_none {x : Nat} (h : ws.look x = none) : ws.wt P x = P.umax := by unfold wt; rw [h]
theorem settledB_some {x : Nat} {d : WData} (h : ws.look x = some d) : ws.settledB x = d.settled := by unfold settledB; rw [h]

theorem CInv.le (h : CInv P E g0 s v ws) (x : Nat) : ws.wt P x ≤ P.umax := by
  cases hl : ws.look x with
  | none => rw [wt_none hl]; exact Nat.le_refl _
  | some d => rw [wt_some hl]; exact h.fit _ _ hl

/-- Every walk from the start is matched by a label or a heap item. -/
theorem CInv.walk (h : CInv P E g0 s v ws) {x w : Nat} (hw : Wk (g0.relNo v) s x w) :
    ws.wt P x ≤ w ∨ ∃ it ∈ pq.items ws.heap, it.weight ≤ w := by
  refine frontier (umax := P.umax) (settled := fun u => ws.settledB u = true) h.root h.le h.done ?_ hw
  intro u hu hlt
  cases hl : ws.look u with
  | none => rw [wt_none hl] at hlt; omega
  | some d =>
    have : d.settled = false := by rw [settledB_some hl] at hu; simpa using hu
    obtain ⟨it, h1, _, h3⟩ := h.opn u d hl this
    exact ⟨it, h1, by rw [wt_some hl]; exact h3⟩

/-- A settled label is a lower bound for all walks. -/
theorem CInv.exact (h : CInv P E g0 s v ws) (hi : Inv n g s v ws) {x w : Nat} {d : WData} (hl : ws.look x = some d)
    (hd : d.settled = true) (hw : Wk (g0.relNo v) s x w) : d.weight ≤ w := by
  rcases h.walk hw with h1 | ⟨it, h1, h2⟩
  · rw [wt_some hl] at h1; exact h1
  · exact Nat.le_trans (hi.settled _ _ hl hd it h1) h2

theorem init_CInv (h : Base n ws) (hs : s < n) {ws' : WitnessSearch pq} (e : ws.init P s v = .ok ws')
    (hsP : s ≠ P.umax) (hne : s ≠ v) : CInv P E g0 s v ws' := by
  obtain ⟨ok, hl⟩ := h.tab.invalidate
  have hb : Base n ({ ws with startNode := s, avoidNode := v, heap := pq.empty,
                              validFlags := ws.validFlags.invalidateAll } : WitnessSearch pq) := ⟨h.num, ok⟩
  obtain ⟨ws1, e1, b', hh, hst, hav, _, hl'⟩ := updateNode_ok hb hs 0
  unfold init at e
  rw [assertM_of (by simpa [Plat.INVALID_NODE] using hsP), assertM_of (by simpa using hne)] at e
  simp only [bind_okM] at e
  rw [e1] at e
  injection e with e
  subst e
  have hL : ∀ y, ({ ws1 with heap := pq.push ⟨0, s⟩ ws1.heap, settledNodes := 0 } : WitnessSearch pq).look y
      = if y = s then some ⟨false, 0⟩ else none := by
    intro y
    have : look ({ ws with startNode := s, avoidNode := v, heap := pq.empty,
                           validFlags := ws.validFlags.invalidateAll } : WitnessSearch pq) y = none := hl y
    have h2 := hl' y
    rw [this] at h2
    exact h2
  refine ⟨?_, ?_, ?_, ?_, ?_, ?_⟩
  · have := hL s
    rw [if_pos rfl] at this
    rw [wt_some this]
  · intro x d hx
    rw [hL] at hx
    split at hx
    · cases hx; exact Nat.zero_le _
    · cases hx
  · intro u x w hu
    unfold settledB at hu
    rw [hL] at hu
    split at hu <;> rename_i h'
    · split at h'
      · cases h'; cases hu
      · cases h'
    · cases hu
  · intro u d hu hd
    rw [hL] at hu
    split at hu
    · rename_i hus
      cases hu
      exact ⟨⟨0, s⟩, PQ.mem_push.2 (Or.inl rfl), hus.symm, rfl⟩
    · cases hu
  · intro x d hx
    rw [hL] at hx
    split at hx
    · rename_i hxs
      cases hx
      subst hxs
      exact Wk.nil _
    · cases hx
  · intro x d hx
    rw [hL] at hx
    split at hx
    · rename_i hxs
      exact Or.inl hxs
    · cases hx

/-- Completeness part of the invariant of the relaxation loop, after the arcs `pre`. -/
structure CRInv (P : Plat) (E : EdgeRel) (g0 : PreparationGraph) (s v : Nat) (curr : HeapItem) (target wl : Nat)
    (pre : List Arc) (ws : WitnessSearch pq) (found : Bool) : Prop where
  root : ws.wt P s = 0
  fit : ∀ x d, ws.look x = some d → d.weight ≤ P.umax
  done : ∀ u x w, ws.settledB u = true → g0.relNo v u x w → ws.wt P x ≤ ws.wt P u + w
  opn : ∀ u d, ws.look u = some d → d.settled = false → u ≠ curr.nodeId →
    ∃ it ∈ pq.items ws.heap, it.nodeId = u ∧ it.weight = d.weight
  cur : ws.wt P curr.nodeId = curr.weight
  rel : ∀ a ∈ pre, a.adj ≠ v → ws.wt P a.adj ≤ curr.weight + a.weight
  fnd : found = true → ws.wt P target ≤ wl
  ex : ∀ x d, ws.look x = some d → Wk E s x d.weight
  par : ∀ x d, ws.look x = some d → x = s ∨ ∃ u w, (ws.settledB u = true ∨ u = curr.nodeId) ∧ E u x w ∧ d.weight = ws.wt P u + w

theorem relaxArc_complete (hP : P.checked = true) {curr : HeapItem} {ws₀ : WitnessSearch pq} {k : Nat} {target wl : Nat}
    {found : Bool} (hg : PreparationGraph.WF n g) (h : RInv n g s v curr ws₀ k ws) {pre : List Arc}
    (hE : ∀ b w, g.relNo v curr.nodeId b w → E curr.nodeId b w) (hc : CRInv P E g0 s v curr target wl pre ws found) {a : Arc}
    (ha : a ∈ g.outs curr.nodeId) :
    Tri (relaxArc P curr target wl (ws, found) a)
      (fun st => CRInv P E g0 s v curr target wl (pre ++ [a]) st.1 st.2) := by
  unfold relaxArc
  simp only [h.avoid]
  have keep : (a.adj ≠ v → ws.wt P a.adj ≤ curr.weight + a.weight) →
      CRInv P E g0 s v curr target wl (pre ++ [a]) ws found := by
    intro hx
    refine { hc with rel := ?_ }
    intro b hb
    rcases List.mem_append.1 hb with hb | hb
    · exact hc.rel b hb
    · rw [List.mem_singleton.1 hb]; exact hx
  by_cases hav : a.adj = v
  · rw [if_pos (by simpa using hav)]
    exact keep (fun h => absurd hav h)
  rw [if_neg (by simpa using hav)]
  have hadj : a.adj < n := hg.adj_lt ha
  refine Tri.bind (Tri_addW hP _ _) ?_
  rintro w ⟨rfl, hw⟩
  rw [getCurrentWeight_ok h.toBase hadj]
  simp only [bind_okM]
  by_cases hlt : curr.weight + a.weight < ws.wt P a.adj
  · rw [if_pos hlt]
    obtain ⟨ws', e, b', hh, hst, hav', hcnt, hl⟩ := updateNode_ok h.toBase hadj (curr.weight + a.weight)
    rw [e]
    simp only [bind_okM, Tri_ok]
    have hnc : a.adj ≠ curr.nodeId := hg.noLoop _ _ ha
    generalize hws2 : ({ ws' with heap := pq.push ⟨curr.weight + a.weight, a.adj⟩ ws'.heap } : WitnessSearch pq) = ws2
    have hL : ∀ y, ws2.look y = if y = a.adj then some ⟨false, curr.weight + a.weight⟩ else ws.look y := by
      subst hws2; exact hl
    have hheap : ∀ it, it ∈ pq.items ws2.heap ↔ it = ⟨curr.weight + a.weight, a.adj⟩ ∨ it ∈ pq.items ws.heap := by
      intro it
      subst hws2
      rw [PQ.mem_push, hh]
    have hwa : ws2.wt P a.adj = curr.weight + a.weight := by
      have := hL a.adj
      rw [if_pos rfl] at this
      exact wt_some this
    have hwo : ∀ y, y ≠ a.adj → ws2.wt P y = ws.wt P y := by
      intro y hy
      unfold wt
      rw [hL, if_neg hy]
    have hwle : ∀ y, ws2.wt P y ≤ ws.wt P y := by
      intro y
      by_cases hy : y = a.adj
      · subst hy; rw [hwa]; omega
      · rw [hwo y hy]; exact Nat.le_refl _
    refine ⟨?_, ?_, ?_, ?_, ?_, ?_, ?_, ?_, ?_⟩
    · have h1 := hwle s
      have h2 := hc.root
      omega
    · intro x d hx
      rw [hL] at hx
      by_cases hxa : x = a.adj
      · rw [if_pos hxa] at hx; cases hx; exact hw
      · rw [if_neg hxa] at hx; exact hc.fit x d hx
    · intro u x w hu hr
      by_cases hua : u = a.adj
      · subst hua
        unfold settledB at hu
        rw [hL, if_pos rfl] at hu
        cases hu
      · have hu' : ws.settledB u = true := by
          unfold settledB at hu ⊢
          rw [hL, if_neg hua] at hu
          exact hu
        rw [hwo u hua]
        exact Nat.le_trans (hwle x) (hc.done u x w hu' hr)
    · intro u d hu hd huc
      rw [hL] at hu
      by_cases hua : u = a.adj
      · rw [if_pos hua] at hu
        cases hu
        exact ⟨_, (hheap _).2 (Or.inl rfl), hua.symm, rfl⟩
      · rw [if_neg hua] at hu
        obtain ⟨it, h1, h2⟩ := hc.opn u d hu hd huc
        exact ⟨it, (hheap _).2 (Or.inr h1), h2⟩
    · rw [hwo _ (Ne.symm hnc)]; exact hc.cur
    · intro b hb hbv
      rcases List.mem_append.1 hb with hb | hb
      · exact Nat.le_trans (hwle _) (hc.rel b hb hbv)
      · rw [List.mem_singleton.1 hb, hwa]; exact Nat.le_refl _
    · intro hf
      by_cases hcond : (a.adj == target && decide (curr.weight + a.weight ≤ wl)) = true
      · simp only [Bool.and_eq_true, beq_iff_eq, decide_eq_true_eq] at hcond
        rw [← hcond.1, hwa]; exact hcond.2
      · rw [if_neg hcond] at hf
        exact Nat.le_trans (hwle _) (hc.fnd hf)
    · intro x d hx
      rw [hL] at hx
      by_cases hxa : x = a.adj
      · rw [if_pos hxa] at hx
        cases hx
        subst hxa
        obtain ⟨dc, hc1, _, _⟩ := h.cur
        have h1 := hc.ex _ _ hc1
        have h2 := hc.cur
        rw [wt_some hc1] at h2
        rw [h2] at h1
        exact h1.snoc (hE _ _ ⟨⟨a.center, ha⟩, (h.lab _ _ hc1).1, hav⟩)
      · rw [if_neg hxa] at hx; exact hc.ex x d hx
    · intro x d hx
      rw [hL] at hx
      by_cases hxa : x = a.adj
      · rw [if_pos hxa] at hx
        cases hx
        subst hxa
        obtain ⟨dc, hc1, _, _⟩ := h.cur
        exact Or.inr ⟨curr.nodeId, a.weight, Or.inr rfl, hE _ _ ⟨⟨a.center, ha⟩, (h.lab _ _ hc1).1, hav⟩,
          by rw [hwo _ (Ne.symm hnc), hc.cur]⟩
      · rw [if_neg hxa] at hx
        rcases hc.par x d hx with k | ⟨u, w, k1, k2, k3⟩
        · exact Or.inl k
        · have hua : u ≠ a.adj := by
            rintro rfl
            rcases k1 with k1 | k1
            · cases hl : ws.look a.adj with
              | none => unfold settledB at k1; rw [hl] at k1; cases k1
              | some da =>
                rw [settledB_some hl] at k1
                have := h.settled _ _ hl k1
                rw [wt_some hl] at hlt
                omega
            · exact hnc k1
          refine Or.inr ⟨u, w, ?_, k2, by rw [hwo u hua]; exact k3⟩
          refine k1.imp (fun k => ?_) id
          unfold settledB at k ⊢
          rw [hL, if_neg hua]
          exact k
  · rw [if_neg hlt]
    exact keep (fun _ => by omega)

/-- While no arc to the target within the limit has been found, the label of the target is above the limit; settled labels stay. -/
theorem relaxArc_keeps {curr : HeapItem} {ws₀ ws₁ : WitnessSearch pq} {k : Nat} {target wl : Nat}
    {found : Bool} (hP : P.checked = true) (hg : PreparationGraph.WF n g) (h : RInv n g s v curr ws₀ k ws)
    (hw : wl < ws₁.wt P target → found = false → wl < ws.wt P target)
    (hk : ∀ u d, d.settled = true → (ws₁.look u = some d ↔ ws.look u = some d)) {a : Arc} (ha : a ∈ g.outs curr.nodeId) :
    Tri (relaxArc P curr target wl (ws, found) a) (fun st => (wl < ws₁.wt P target → st.2 = false → wl < st.1.wt P target) ∧
      ∀ u d, d.settled = true → (ws₁.look u = some d ↔ st.1.look u = some d)) := by
  unfold relaxArc
  simp only [h.avoid]
  by_cases hav : a.adj = v
  · rw [if_pos (by simpa using hav)]
    exact ⟨hw, hk⟩
  rw [if_neg (by simpa using hav)]
  have hadj : a.adj < n := hg.adj_lt ha
  refine Tri.bind (Tri_addW hP _ _) ?_
  rintro w ⟨rfl, hwm⟩
  rw [getCurrentWeight_ok h.toBase hadj]
  simp only [bind_okM]
  by_cases hlt : curr.weight + a.weight < ws.wt P a.adj
  · rw [if_pos hlt]
    obtain ⟨ws', e, b', hh, hst, hav', hcnt, hl⟩ := updateNode_ok h.toBase hadj (curr.weight + a.weight)
    rw [e]
    simp only [bind_okM, Tri_ok]
    generalize hws2 : ({ ws' with heap := pq.push ⟨curr.weight + a.weight, a.adj⟩ ws'.heap } : WitnessSearch pq) = ws2
    have hL : ∀ y, ws2.look y = if y = a.adj then some ⟨false, curr.weight + a.weight⟩ else ws.look y := by
      subst hws2; exact hl
    refine ⟨fun h1 h2 => ?_, fun u d hd => ?_⟩
    · by_cases hcond : (a.adj == target && decide (curr.weight + a.weight ≤ wl)) = true
      · rw [if_pos hcond] at h2; cases h2
      · rw [if_neg hcond] at h2
        have := hw h1 h2
        unfold wt
        rw [hL]
        by_cases hta : target = a.adj
        · rw [if_pos hta]
          simp only [hta, beq_self_eq_true, Bool.true_and, decide_eq_true_eq] at hcond
          simp only
          omega
        · rw [if_neg hta]; exact this
    · rw [hk u d hd, hL]
      by_cases hua : u = a.adj
      · subst hua
        rw [if_pos rfl]
        constructor
        · intro h1
          have := h.settled _ _ h1 hd
          rw [wt_some h1] at hlt
          omega
        · intro h1
          cases h1
          cases hd
      · rw [if_neg hua]
  · rw [if_neg hlt]
    exact ⟨hw, hk⟩

/-- How a search for `target` with the weight limit `wl` ends that started with a label of the target above the limit: no settled
label is above the limit; either the target is still above the limit, or the node settled last has a label as large as any settled
one, and from no other settled node there is an arc to the target that stays within the limit. The target itself is not settled. -/
def Stopped (P : Plat) (g0 : PreparationGraph) (v target wl : Nat) (ws : WitnessSearch pq) : Prop :=
  (∀ u, ws.settledB u = true → ws.wt P u ≤ wl) ∧ ws.settledB target = false ∧
  (wl < ws.wt P target ∨ ∃ c, ws.settledB c = true ∧ (∀ x, ws.settledB x = true → ws.wt P x ≤ ws.wt P c) ∧
    ∀ u w, ws.settledB u = true → u ≠ c → g0.relNo v u target w → wl < ws.wt P u + w)

theorem target_open {target wl : Nat} (h1 : wl < ws.wt P target) (h2 : ∀ u, ws.settledB u = true → ws.wt P u ≤ wl) :
    ws.settledB target = false := by
  cases h : ws.settledB target with
  | false => rfl
  | true =>
    have := h2 _ h
    omega

/-- `findLoop` keeps the completeness invariant; when it stops before the settled limit and without a label of the target
within the weight limit, all items left in the heap are above the weight limit. Only arcs of nodes that were not settled at the start
matter; settled nodes stay settled. -/
theorem findLoop_complete (hP : P.checked = true) (hg : PreparationGraph.WF n g)
    (hgg : ∀ a b w, g0.relNo v a b w → ∃ w', w' ≤ w ∧ g.relNo v a b w') {target wl sl : Nat} :
    ∀ fuel (ws : WitnessSearch pq), Inv n g s v ws → CInv P E g0 s v ws →
      (∀ a b w, ws.settledB a = false → g.relNo v a b w → E a b w) → meas n g ws < fuel →
      Tri (findLoop P g target wl sl fuel ws) (fun ws' => Inv n g s v ws' ∧ CInv P E g0 s v ws' ∧
        (∀ u, ws.settledB u = true → ws'.settledB u = true) ∧
        (ws'.settledNodes < sl → wl < ws'.wt P target → ∀ it ∈ pq.items ws'.heap, wl < it.weight) ∧
        (wl < ws.wt P target → (∀ u, ws.settledB u = true → ws.wt P u ≤ wl) → Stopped P g0 v target wl ws') ∧
        (wl < ws.wt P target → ws.settledB target = false → ws'.settledB target = false)) := by
  intro fuel
  induction fuel with
  | zero => intro ws _ _ _ h; omega
  | succ fuel ih =>
    intro ws h hci hE hm
    unfold findLoop
    cases hp : pq.pop ws.heap with
    | none =>
      refine ⟨h, hci, fun _ hu => hu, ?_, fun h1 h2 => ⟨h2, target_open h1 h2, Or.inl h1⟩, fun _ h => h⟩
      intro _ _ it hit
      rw [(pq.pop_none _).1 hp] at hit
      cases hit
    | some r =>
      obtain ⟨curr, heap'⟩ := r
      simp only
      by_cases hsl : ws.settledNodes ≥ sl
      · rw [if_pos hsl]
        exact ⟨h, hci, fun _ hu => hu, fun h' => by omega, fun h1 h2 => ⟨h2, target_open h1 h2, Or.inl h1⟩, fun _ h => h⟩
      rw [if_neg hsl]
      by_cases hcw : curr.weight > wl
      · rw [if_pos hcw]
        refine ⟨h, hci, fun _ hu => hu, ?_, fun h1 h2 => ⟨h2, target_open h1 h2, Or.inl h1⟩, fun _ h => h⟩
        intro _ _ it hit
        have := PQ.pop_min hp hit
        omega
      rw [if_neg hcw]
      have hcurr : curr ∈ pq.items ws.heap := (PQ.pop_mem hp).2 (Or.inl rfl)
      have hlen := PQ.pop_length hp
      obtain ⟨dc, hc1, hc2⟩ := h.items curr hcurr
      have hcn : curr.nodeId < n := h.tab.look_lt hc1
      have hbase : Base n ({ ws with heap := heap' } : WitnessSearch pq) := ⟨h.num, h.tab⟩
      have hsb : ∀ x, settledB ({ ws with heap := heap' } : WitnessSearch pq) x = ws.settledB x := fun _ => rfl
      rw [isSettled_ok hbase hcn, hsb]
      simp only [bind_okM]
      have hsub : ∀ it ∈ pq.items heap', it ∈ pq.items ws.heap := fun it hit => (PQ.pop_mem hp).2 (Or.inr hit)
      by_cases hset : ws.settledB curr.nodeId = true
      · rw [if_pos hset]
        refine ih _ ⟨hbase, h.start, h.avoid, h.ne, h.lab, ?_, ?_⟩ ⟨hci.root, hci.fit, hci.done, ?_, hci.ex, hci.par⟩ hE ?_
        · intro it hit; exact h.items it (hsub it hit)
        · intro x d hx hd it hit; exact h.settled x d hx hd it (hsub it hit)
        · intro u d hu hd
          obtain ⟨it, h1, h2, h3⟩ := hci.opn u d hu hd
          rcases (PQ.pop_mem hp).1 h1 with rfl | h1
          · subst h2
            have hu' : ws.look it.nodeId = some d := hu
            rw [settledB_some hu', hd] at hset
            cases hset
          · exact ⟨it, h1, h2, h3⟩
        · have : meas n g ({ ws with heap := heap' } : WitnessSearch pq) + 1 = meas n g ws := by
            unfold meas
            have : openSum n (settledB ({ ws with heap := heap' } : WitnessSearch pq)) (fun u => (g.outs u).length)
              = openSum n ws.settledB (fun u => (g.outs u).length) := rfl
            rw [this]
            simp only
            omega
          omega
      · rw [if_neg hset]
        have hidx : idx g.outEdges curr.nodeId = .ok (g.outs curr.nodeId) :=
          PreparationGraph.idx_outEdges (by rw [hg.lenOut]; exact hcn)
        rw [hidx]
        simp only [bind_okM]
        have hset' : dc.settled = false := by
          rw [settledB_some hc1] at hset
          simpa using hset
        have hcwt : dc.weight = curr.weight := by
          obtain ⟨it, h1, h2, h3⟩ := hci.opn _ _ hc1 hset'
          have := PQ.pop_min hp h1
          omega
        have h0 : RInv n g s v curr ({ ws with heap := heap' } : WitnessSearch pq) 0 { ws with heap := heap' } := by
          refine ⟨hbase, h.start, h.avoid, h.lab, ?_, ?_, ?_, fun _ hx => hx, Nat.le_refl _, rfl⟩
          · intro it hit
            exact ⟨PQ.pop_min hp (hsub it hit), h.items it (hsub it hit)⟩
          · intro x d hx hd
            exact h.settled x d hx hd curr hcurr
          · exact ⟨dc, hc1, hc2, hset'⟩
        have hc0 : CRInv P E g0 s v curr target wl [] ({ ws with heap := heap' } : WitnessSearch pq) false := by
          refine ⟨hci.root, hci.fit, hci.done, ?_, ?_, fun a ha => by simp at ha, fun h => (by cases h), hci.ex,
            fun x d hx => (hci.par x d hx).imp id (fun ⟨u, w, k1, k2, k3⟩ => ⟨u, w, Or.inl k1, k2, k3⟩)⟩
          · intro u d hu hd huc
            obtain ⟨it, h1, h2, h3⟩ := hci.opn u d hu hd
            rcases (PQ.pop_mem hp).1 h1 with rfl | h1
            · exact absurd h2.symm huc
            · exact ⟨it, h1, h2, h3⟩
          · have : ws.wt P curr.nodeId = curr.weight := by rw [wt_some hc1]; exact hcwt
            exact this
        have hrelax : Tri (forM (relaxArc P curr target wl) (({ ws with heap := heap' } : WitnessSearch pq), false)
            (g.outs curr.nodeId))
            (fun st => RInv n g s v curr ({ ws with heap := heap' } : WitnessSearch pq)
              (g.outs curr.nodeId).length st.1 ∧ CRInv P E g0 s v curr target wl (g.outs curr.nodeId) st.1 st.2 ∧
              (wl < ws.wt P target → st.2 = false → wl < st.1.wt P target) ∧
              ∀ u d, d.settled = true → (ws.look u = some d ↔ st.1.look u = some d)) := by
          refine Tri_forM (fun pre (st : WitnessSearch pq × Bool) => RInv n g s v curr ({ ws with heap := heap' } : WitnessSearch pq)
              pre.length st.1 ∧ CRInv P E g0 s v curr target wl pre st.1 st.2 ∧
              (wl < ws.wt P target → st.2 = false → wl < st.1.wt P target) ∧
              ∀ u d, d.settled = true → (ws.look u = some d ↔ st.1.look u = some d))
              ?_ ?_
          · exact ⟨h0, hc0, fun h _ => h, fun _ _ _ => Iff.rfl⟩
          rintro pre a post ⟨ws1, f1⟩ hl ⟨h1, h1', h1a, h1b⟩
          have ha : a ∈ g.outs curr.nodeId := by rw [hl]; simp
          have k1 := relaxArc_ok hP (target := target) (wl := wl) (found := f1) hg.lax h1 ha
          have k2 := relaxArc_complete hP hg h1 (fun b w => hE _ b w (by simpa using hset)) h1' ha
          have k3 := relaxArc_keeps hP hg h1 h1a h1b ha
          have := k1.and (k2.and k3)
          simpa using this
        refine Tri.bind hrelax ?_
        rintro ⟨ws1, found⟩ ⟨h1, hc1', hnf, hkeep⟩
        simp only at h1 hc1' hnf hkeep ⊢
        obtain ⟨d1, hd1, hd2, hd3⟩ := h1.cur
        obtain ⟨em, tabm, lm⟩ := h1.tab.modify hd1 (fun d => { d with settled := true })
        rw [em]
        simp only [bind_okM]
        generalize hws2 : ({ ws1 with data := ws1.data.set curr.nodeId { d1 with settled := true },
                                      settledNodes := ws1.settledNodes + 1 } : WitnessSearch pq) = ws2
        have hL : ∀ y, ws2.look y = if y = curr.nodeId then some { d1 with settled := true } else ws1.look y := by
          subst hws2; exact lm
        have hheap : ws2.heap = ws1.heap := by subst hws2; rfl
        have hwt : ∀ y, ws2.wt P y = ws1.wt P y := by
          intro y
          unfold wt
          rw [hL]
          by_cases hy : y = curr.nodeId
          · rw [if_pos hy, hy, hd1]
          · rw [if_neg hy]
        have hI : Inv n g s v ws2 := by
          refine ⟨⟨by subst hws2; exact h1.num, by subst hws2; exact tabm⟩, by subst hws2; exact h1.start,
            by subst hws2; exact h1.avoid, h.ne, ?_, ?_, ?_⟩
          · intro x d hx
            rw [hL] at hx
            split at hx
            · rename_i hxc; cases hx; subst hxc; have := h1.lab _ _ hd1; exact this
            · exact h1.lab x d hx
          · intro it hit
            rw [hheap] at hit
            obtain ⟨_, d, hx1, hx2⟩ := h1.items it hit
            rw [hL]
            split
            · rename_i hxc
              rw [hxc, hd1] at hx1
              cases hx1
              exact ⟨_, rfl, hx2⟩
            · exact ⟨d, hx1, hx2⟩
          · intro x d hx hd it hit
            rw [hheap] at hit
            have hge := (h1.items it hit).1
            rw [hL] at hx
            split at hx
            · cases hx; simp only; omega
            · have := h1.settled x d hx hd
              omega
        have hCI : CInv P E g0 s v ws2 := by
          refine ⟨by rw [hwt]; exact hc1'.root, ?_, ?_, ?_, ?_, ?_⟩
          · intro x d hx
            rw [hL] at hx
            by_cases hxc : x = curr.nodeId
            · rw [if_pos hxc] at hx; cases hx; exact hc1'.fit curr.nodeId d1 hd1
            · rw [if_neg hxc] at hx; exact hc1'.fit _ _ hx
          · intro u x w hu hr
            rw [hwt, hwt]
            by_cases huc : u = curr.nodeId
            · subst huc
              obtain ⟨w', hw', ⟨⟨c, hr1⟩, _, hr2⟩⟩ := hgg _ _ _ hr
              have := hc1'.rel _ hr1 hr2
              rw [hc1'.cur]
              simp only at this
              omega
            · refine hc1'.done u x w ?_ hr
              unfold settledB at hu ⊢
              rw [hL, if_neg huc] at hu
              exact hu
          · intro u d hu hd
            rw [hL] at hu
            by_cases huc : u = curr.nodeId
            · rw [if_pos huc] at hu; cases hu; cases hd
            · rw [if_neg huc] at hu
              rw [hheap]
              exact hc1'.opn u d hu hd huc
          · intro x d hx
            rw [hL] at hx
            by_cases hxc : x = curr.nodeId
            · rw [if_pos hxc] at hx; cases hx; subst hxc; exact hc1'.ex curr.nodeId d1 hd1
            · rw [if_neg hxc] at hx; exact hc1'.ex _ _ hx
          · intro x d hx
            obtain ⟨d', hd', hw'⟩ : ∃ d', ws1.look x = some d' ∧ d'.weight = d.weight := by
              rw [hL] at hx
              by_cases hxc : x = curr.nodeId
              · rw [if_pos hxc] at hx; cases hx; subst hxc; exact ⟨d1, hd1, rfl⟩
              · rw [if_neg hxc] at hx; exact ⟨d, hx, rfl⟩
            rcases hc1'.par x d' hd' with k | ⟨u, w, k1, k2, k3⟩
            · exact Or.inl k
            · refine Or.inr ⟨u, w, ?_, k2, by rw [hwt, ← hw']; exact k3⟩
              unfold settledB
              rw [hL]
              by_cases huc : u = curr.nodeId
              · rw [if_pos huc]
              · rw [if_neg huc]
                rcases k1 with k1 | k1
                · exact k1
                · exact absurd k1 huc
        have hs1 : ∀ u, ws.settledB u = true → ws2.settledB u = true := by
          intro u hu
          have := h1.mono u hu
          unfold settledB at this ⊢
          rw [hL]
          by_cases huc : u = curr.nodeId
          · rw [if_pos huc]
          · rw [if_neg huc]; exact this
        have hmeas : meas n g ws2 < meas n g ws := by
          have hs2 : ws2.settledB curr.nodeId = true := by
            unfold settledB; rw [hL]; simp
          have := openSum_settle (k := fun u => (g.outs u).length) hs1 hcn (by simpa using hset) hs2
          have hlen1 := h1.len
          unfold meas
          rw [hheap]
          simp only at this hlen1
          omega
        have hkw : ∀ u, ws.settledB u = true → ws2.wt P u = ws.wt P u := by
          intro u hu
          cases hl : ws.look u with
          | none => unfold settledB at hu; rw [hl] at hu; cases hu
          | some d =>
            rw [settledB_some hl] at hu
            rw [hwt, wt_some hl, wt_some ((hkeep u d hu).1 hl)]
        have hsplit : ∀ u, ws2.settledB u = true → u ≠ curr.nodeId → ws.settledB u = true := by
          intro u hu huc
          unfold settledB at hu
          rw [hL, if_neg huc] at hu
          cases hl1 : ws1.look u with
          | none => rw [hl1] at hu; cases hu
          | some d1 =>
            rw [hl1] at hu
            rw [settledB_some ((hkeep u d1 hu).2 hl1)]
            exact hu
        have hle : ∀ u, ws2.settledB u = true → ws2.wt P u ≤ curr.weight := by
          intro u hu
          by_cases huc : u = curr.nodeId
          · rw [huc, hwt, hc1'.cur]; exact Nat.le_refl _
          · have hu' := hsplit u hu huc
            rw [hkw u hu']
            cases hl : ws.look u with
            | none => unfold settledB at hu'; rw [hl] at hu'; cases hu'
            | some d =>
              rw [settledB_some hl] at hu'
              rw [wt_some hl]
              exact h.settled u d hl hu' curr hcurr
        have htop : wl < ws.wt P target → ws.settledB target = false → ws2.settledB target = false := by
          intro k1 k0
          have hcw' : ws.wt P curr.nodeId = curr.weight := by rw [wt_some hc1]; exact hcwt
          cases hs2 : ws2.settledB target with
          | false => rfl
          | true =>
            have := hsplit target hs2 (by rintro rfl; omega)
            rw [k0] at this
            cases this
        by_cases hstop : (found || curr.nodeId == target) = true
        · rw [if_pos hstop]
          refine ⟨hI, hCI, hs1, ?_, ?_, fun k1 k0 => htop k1 k0⟩
          rotate_left
          · intro k1 k0
            refine ⟨fun u hu => Nat.le_trans (hle u hu) (by omega), ?_, Or.inr ⟨curr.nodeId, ?_, ?_, ?_⟩⟩
            · exact htop k1 (target_open k1 k0)
            · unfold settledB; rw [hL]; simp
            · intro x hx
              rw [hwt curr.nodeId, hc1'.cur]
              exact hle x hx
            · intro u w hu huc hr
              have hu' := hsplit u hu huc
              have := hci.done u target w hu' hr
              rw [hkw u hu']
              omega
          intro _ hgt
          exfalso
          rw [hwt] at hgt
          rcases Bool.or_eq_true_iff.1 hstop with hf | hf
          · have := hc1'.fnd hf; omega
          · have : curr.nodeId = target := by simpa using hf
            rw [← this, hc1'.cur] at hgt
            omega
        · rw [if_neg hstop]
          refine (ih ws2 hI hCI (fun a b w ha => hE a b w ?_) (by omega)).mono ?_
          · cases hws : ws.settledB a with
            | false => rfl
            | true => rw [hs1 a hws] at ha; cases ha
          · rintro ws3 ⟨k1, k2, k3, k4, k5, k6⟩
            have hkw2 : wl < ws.wt P target → wl < ws2.wt P target := by
              intro h1
              rw [hwt]
              refine hnf h1 ?_
              cases hf : found with
              | false => rfl
              | true => rw [hf] at hstop; exact absurd rfl hstop
            refine ⟨k1, k2, fun u hu => k3 u (hs1 u hu), k4, fun h1 h2 => k5 (hkw2 h1) ?_,
              fun h1 h2 => k6 (hkw2 h1) (htop h1 h2)⟩
            · exact fun u hu => Nat.le_trans (hle u hu) (by omega)

/-- While the start is not settled it is in the heap. -/
theorem CInv.start_settled (h : CInv P E g0 s v ws) (h0 : 0 < P.umax) {wl : Nat} (hit : ∀ it ∈ pq.items ws.heap, wl < it.weight) :
    ws.settledB s = true := by
  cases hl : ws.look s with
  | none =>
    have := h.root
    rw [wt_none hl] at this
    omega
  | some d =>
    rw [settledB_some hl]
    have h1 := h.root
    rw [wt_some hl] at h1
    cases hd : d.settled with
    | true => rfl
    | false =>
      obtain ⟨it, k1, _, k2⟩ := h.opn s d hl hd
      have := hit it k1
      omega

/-- One call of `find_max_weight`. Only arcs of nodes that were not settled before matter. -/
theorem findMaxWeight_exact (hP : P.checked = true) (hg : PreparationGraph.WF n g)
    (hgg : ∀ a b w, g0.relNo v a b w → ∃ w', w' ≤ w ∧ g.relNo v a b w')
    (hE : ∀ a b w, ws.settledB a = false → g.relNo v a b w → E a b w)
    (h : Inv n g s v ws) (hci : CInv P E g0 s v ws)
    {target wl sl : Nat} (hsP : s ≠ P.umax) (ht : target < n) (htv : target ≠ v) :
    Tri (ws.findMaxWeight P g target wl sl) (fun r => Inv n g s v r.1 ∧ CInv P E g0 s v r.1 ∧
      (∀ u, ws.settledB u = true → r.1.settledB u = true) ∧
      (r.2 ≤ P.umax ∧ (r.2 = P.umax ∨ Wk E s target r.2)) ∧
      (r.1.settledNodes < sl → wl < r.2 → (∀ w, Wk (g0.relNo v) s target w → wl < w) ∧ (0 < P.umax → r.1.settledB s = true))) := by
  unfold findMaxWeight
  rw [assertM_of (by simp [hg.num, h.num]), assertM_of (by simpa [h.start, Plat.INVALID_NODE] using hsP),
    assertM_of (by simp [h.start, h.avoid, h.ne, htv])]
  simp only [bind_okM]
  by_cases hts : target = ws.startNode
  · rw [if_pos (by simpa using hts)]
    rw [h.start] at hts
    subst hts
    exact ⟨h, hci, fun _ hu => hu, ⟨Nat.zero_le _, Or.inr (Wk.nil _)⟩, fun _ h => by simp [WEIGHT_ZERO] at h⟩
  · rw [if_neg (by simpa using hts)]
    have hrest : Tri (findLoop P g target wl sl (ws.fuelFor g) ws >>= fun ws => do
        let w ← ws.getCurrentWeight P target
        .ok (ws, w)) (fun r => Inv n g s v r.1 ∧ CInv P E g0 s v r.1 ∧
      (∀ u, ws.settledB u = true → r.1.settledB u = true) ∧
      (r.2 ≤ P.umax ∧ (r.2 = P.umax ∨ Wk E s target r.2)) ∧
      (r.1.settledNodes < sl → wl < r.2 → (∀ w, Wk (g0.relNo v) s target w → wl < w) ∧ (0 < P.umax → r.1.settledB s = true))) := by
      refine Tri.bind (findLoop_complete hP hg hgg _ ws h hci hE (meas_lt_fuel hg.lax)) ?_
      rintro ws' ⟨h', hci', hmono, hx, _⟩
      rw [getCurrentWeight_ok h'.toBase ht]
      simp only [bind_okM, Tri_ok]
      refine ⟨h', hci', hmono, ⟨hci'.le _, ?_⟩, ?_⟩
      · cases hl : ws'.look target with
        | none => exact Or.inl (wt_none hl)
        | some d => rw [wt_some hl]; exact Or.inr (hci'.ex _ _ hl)
      · intro h1 h2
        refine ⟨fun w hw => ?_, fun h0 => hci'.start_settled h0 (hx h1 h2)⟩
        rcases hci'.walk hw with h3 | ⟨it, h3, h4⟩
        · omega
        · have := hx h1 h2 it h3
          omega
    cases hl : ws.look target with
    | none =>
      rw [h.tab.isValid_none ht hl]
      simpa using hrest
    | some d =>
      rw [h.tab.isValid_some hl]
      simp only [bind_okM, if_true]
      rw [idx_of_look hl]
      simp only [bind_okM]
      by_cases hd : (d.settled || decide (d.weight ≤ wl)) = true
      · rw [if_pos hd]
        refine ⟨h, hci, fun _ hu => hu, ⟨hci.fit _ _ hl, Or.inr (hci.ex _ _ hl)⟩, ?_⟩
        intro _ h2
        simp only at h2
        have hds : d.settled = true := by
          rcases Bool.or_eq_true_iff.1 hd with h3 | h3
          · exact h3
          · simp only [decide_eq_true_eq] at h3
            omega
        refine ⟨fun w hw => ?_, fun h0 => hci.start_settled (wl := wl) h0 (fun it hit => ?_)⟩
        · have := hci.exact h hl hds hw
          omega
        · have := h.settled _ _ hl hds it hit
          omega
      · rw [if_neg hd]
        exact hrest

/-- One call of `find_max_weight`. -/
theorem findMaxWeight_complete (hP : P.checked = true) (hg : PreparationGraph.WF n g)
    (hgg : ∀ a b w, g0.relNo v a b w → ∃ w', w' ≤ w ∧ g.relNo v a b w') (hE : ∀ a b w, g.relNo v a b w → E a b w)
    (h : Inv n g s v ws) (hci : CInv P E g0 s v ws)
    {target wl sl : Nat} (hsP : s ≠ P.umax) (ht : target < n) (htv : target ≠ v) :
    Tri (ws.findMaxWeight P g target wl sl) (fun r => Inv n g s v r.1 ∧ CInv P E g0 s v r.1 ∧
      (r.2 ≤ P.umax ∧ (r.2 = P.umax ∨ Wk E s target r.2)) ∧
      (r.1.settledNodes < sl → wl < r.2 → ∀ w, Wk (g0.relNo v) s target w → wl < w)) :=
  (findMaxWeight_exact hP hg hgg (fun a b w _ => hE a b w) h hci hsP ht htv).mono
    (fun _ ⟨k1, k2, _, k3, k4⟩ => ⟨k1, k2, k3, fun h1 h2 => (k4 h1 h2).1⟩)

/-- A search never settles its target. -/
theorem findMaxWeight_target (hP : P.checked = true) (hg : PreparationGraph.WF n g)
    (hgg : ∀ a b w, g0.relNo v a b w → ∃ w', w' ≤ w ∧ g.relNo v a b w') (hE : ∀ a b w, g.relNo v a b w → E a b w)
    (h : Inv n g s v ws) (hci : CInv P E g0 s v ws) {target wl sl : Nat} (hsP : s ≠ P.umax)
    (ht : target < n) (htv : target ≠ v) (hwl : wl < P.umax) :
    Tri (ws.findMaxWeight P g target wl sl) (fun r => r.1.settledB target = ws.settledB target) := by
  unfold findMaxWeight
  rw [assertM_of (by simp [hg.num, h.num]), assertM_of (by simpa [h.start, Plat.INVALID_NODE] using hsP),
    assertM_of (by simp [h.start, h.avoid, h.ne, htv])]
  simp only [bind_okM]
  by_cases hts : target = ws.startNode
  · rw [if_pos (by simpa using hts)]
    exact rfl
  rw [if_neg (by simpa using hts)]
  have hrest : wl < ws.wt P target → ws.settledB target = false →
      Tri (findLoop P g target wl sl (ws.fuelFor g) ws >>= fun ws => do
      let w ← ws.getCurrentWeight P target
      .ok (ws, w)) (fun r => r.1.settledB target = ws.settledB target) := by
    intro k1 k2
    refine Tri.bind (findLoop_complete hP hg hgg _ ws h hci (fun a b w _ => hE a b w) (meas_lt_fuel hg.lax)) ?_
    rintro ws' ⟨h', _, _, _, _, hx⟩
    rw [getCurrentWeight_ok h'.toBase ht]
    simp only [bind_okM, Tri_ok]
    rw [hx k1 k2, k2]
  cases hl : ws.look target with
  | none =>
    rw [h.tab.isValid_none ht hl]
    simpa using hrest (by rw [wt_none hl]; exact hwl) (by unfold settledB; rw [hl])
  | some d =>
    rw [h.tab.isValid_some hl]
    simp only [bind_okM, if_true]
    rw [idx_of_look hl]
    simp only [bind_okM]
    by_cases hd : (d.settled || decide (d.weight ≤ wl)) = true
    · rw [if_pos hd]
      exact rfl
    · rw [if_neg hd]
      simp only [Bool.or_eq_true, decide_eq_true_eq, not_or, Nat.not_le, Bool.not_eq_true] at hd
      exact hrest (by rw [wt_some hl]; exact hd.2) (by rw [settledB_some hl]; exact hd.1)

/-- The labels after `init` -/
theorem init_look (h : Base n ws) (hs : s < n) {ws' : WitnessSearch pq} (e : ws.init P s v = .ok ws')
    (hsP : s ≠ P.umax) (hne : s ≠ v) (y : Nat) : ws'.look y = if y = s then some ⟨false, 0⟩ else none := by
  obtain ⟨ok, hl⟩ := h.tab.invalidate
  have hb : Base n ({ ws with startNode := s, avoidNode := v, heap := pq.empty,
                              validFlags := ws.validFlags.invalidateAll } : WitnessSearch pq) := ⟨h.num, ok⟩
  obtain ⟨ws1, e1, b', hh, hst, hav, _, hl'⟩ := updateNode_ok hb hs 0
  unfold init at e
  rw [assertM_of (by simpa [Plat.INVALID_NODE] using hsP), assertM_of (by simpa using hne)] at e
  simp only [bind_okM] at e
  rw [e1] at e
  injection e with e
  subst e
  have : look ({ ws with startNode := s, avoidNode := v, heap := pq.empty,
                         validFlags := ws.validFlags.invalidateAll } : WitnessSearch pq) y = none := hl y
  have h2 := hl' y
  rw [this] at h2
  exact h2

/-- The end of the first search after `init`. -/
theorem findMaxWeight_stopped (hP : P.checked = true) (hg : PreparationGraph.WF n g) (h : Inv n g s v ws)
    (hci : CInv P (g.relNo v) g s v ws) (hfresh : ∀ u, ws.settledB u = false) {target wl sl : Nat} (hsP : s ≠ P.umax)
    (ht : target < n) (htv : target ≠ v) (hts : target ≠ s) (hlab : wl < ws.wt P target) :
    Tri (ws.findMaxWeight P g target wl sl) (fun r => Stopped P g v target wl r.1) := by
  unfold findMaxWeight
  rw [assertM_of (by simp [hg.num, h.num]), assertM_of (by simpa [h.start, Plat.INVALID_NODE] using hsP),
    assertM_of (by simp [h.start, h.avoid, h.ne, htv])]
  simp only [bind_okM]
  rw [if_neg (by simpa [h.start] using hts)]
  have hrest : Tri (findLoop P g target wl sl (ws.fuelFor g) ws >>= fun ws => do
      let w ← ws.getCurrentWeight P target
      .ok (ws, w)) (fun r => Stopped P g v target wl r.1) := by
    refine Tri.bind (findLoop_complete hP hg (fun _ _ w h => ⟨w, Nat.le_refl _, h⟩) _ ws h hci (fun _ _ _ _ h => h)
      (meas_lt_fuel hg.lax)) ?_
    rintro ws' ⟨h', _, _, _, hx, _⟩
    rw [getCurrentWeight_ok h'.toBase ht]
    simp only [bind_okM, Tri_ok]
    exact hx hlab (fun u hu => by rw [hfresh u] at hu; cases hu)
  cases hl : ws.look target with
  | none =>
    rw [h.tab.isValid_none ht hl]
    simpa using hrest
  | some d =>
    rw [h.tab.isValid_some hl]
    simp only [bind_okM, if_true]
    rw [idx_of_look hl]
    simp only [bind_okM]
    have hd : ¬ (d.settled || decide (d.weight ≤ wl)) = true := by
      have h1 := hfresh target
      rw [settledB_some hl] at h1
      rw [wt_some hl] at hlab
      simp [h1]
      omega
    rw [if_neg hd]
    exact hrest

end WitnessSearch
end FP
