import Verif.Model.WitnessSearch
import Verif.Proofs.Table
import Verif.Proofs.PrepGraph
/-! # Witness search: soundness and termination -/
namespace FP
namespace WitnessSearch
open Spec

variable {pq : PQ} {P : Plat} {n : Nat}

/-- Label of node `x`. -/
def look (ws : WitnessSearch pq) (x : Nat) : Option WData := lookT ws.data ws.validFlags x

/-- Shape invariant, independent of the current search. -/
structure Base (n : Nat) (ws : WitnessSearch pq) : Prop where
  num : ws.numNodes = n
  tab : TabOk n ws.data ws.validFlags

/-- Search invariant for start `s` and avoided node `v` on graph `g`. -/
structure Inv (n : Nat) (g : PreparationGraph) (s v : Nat) (ws : WitnessSearch pq) : Prop extends Base n ws where
  start : ws.startNode = s
  avoid : ws.avoidNode = v
  ne : s ≠ v
  lab : ∀ x d, ws.look x = some d → x ≠ v ∧ ∃ w, w ≤ d.weight ∧ Wk (g.relNo v) s x w
  items : ∀ it ∈ pq.items ws.heap, ∃ d, ws.look it.nodeId = some d ∧ d.weight ≤ it.weight
  settled : ∀ x d, ws.look x = some d → d.settled = true → ∀ it ∈ pq.items ws.heap, d.weight ≤ it.weight

/-- Whether `x` is settled. -/
def settledB (ws : WitnessSearch pq) (x : Nat) : Bool :=
  match ws.look x with
  | some d => d.settled
  | none => false

theorem Base.new (P : Plat) (pq : PQ) (n : Nat) : Base n (WitnessSearch.new P pq n) :=
  ⟨rfl, by simp [WitnessSearch.new], ValidFlags.Ok.new n⟩

variable {ws : WitnessSearch pq} {g : PreparationGraph} {s v : Nat}

theorem isSettled_ok (h : Base n ws) {x : Nat} (hx : x < n) : ws.isSettled x = .ok (ws.settledB x) := by
  unfold isSettled settledB
  cases hl : ws.look x with
  | none => rw [h.tab.isValid_none hx hl]; rfl
  | some d => rw [h.tab.isValid_some hl]; simp only [bind_okM, if_true]; rw [idx_of_look hl]; rfl

/-- label weight, `usize::MAX` if there is no label -/
def wt (P : Plat) (ws : WitnessSearch pq) (x : Nat) : Nat :=
  match ws.look x with
  | some d => d.weight
  | none => P.umax

theorem getCurrentWeight_ok (h : Base n ws) {x : Nat} (hx : x < n) : ws.getCurrentWeight P x = .ok (ws.wt P x) := by
  unfold getCurrentWeight wt
  cases hl : ws.look x with
  | none => rw [h.tab.isValid_none hx hl]; rfl
  | some d => rw [h.tab.isValid_some hl]; simp only [bind_okM, if_true]; rw [idx_of_look hl]; rfl

theorem updateNode_ok (h : Base n ws) {x : Nat} (hx : x < n) (w : Nat) :
    ∃ ws', ws.updateNode x w = .ok ws' ∧ Base n ws' ∧ ws'.heap = ws.heap ∧ ws'.startNode = ws.startNode ∧
      ws'.avoidNode = ws.avoidNode ∧ ws'.settledNodes = ws.settledNodes ∧
      ∀ y, ws'.look y = if y = x then some ⟨false, w⟩ else ws.look y := by
  obtain ⟨f', e1, e2, ok, hl⟩ := h.tab.update hx (⟨false, w⟩ : WData)
  refine ⟨{ ws with validFlags := f', data := ws.data.set x ⟨false, w⟩ }, ?_, ⟨h.num, ok⟩, rfl, rfl, rfl, rfl, hl⟩
  unfold updateNode
  rw [e1, e2]; rfl

theorem init_ok (h : Base n ws) (hs : s < n) (hsP : s ≠ P.umax) (hne : s ≠ v) (g : PreparationGraph) :
    ∃ ws', ws.init P s v = .ok ws' ∧ Inv n g s v ws' ∧ ws'.settledNodes = 0 := by
  obtain ⟨ok, hl⟩ := h.tab.invalidate
  have hb : Base n ({ ws with startNode := s, avoidNode := v, heap := pq.empty,
                              validFlags := ws.validFlags.invalidateAll } : WitnessSearch pq) := ⟨h.num, ok⟩
  obtain ⟨ws', e, b', hh, hst, hav, _, hl'⟩ := updateNode_ok hb hs 0
  refine ⟨{ ws' with heap := pq.push ⟨0, s⟩ ws'.heap, settledNodes := 0 }, ?_, ?_, rfl⟩
  · unfold init
    rw [assertM_of (by simpa [Plat.INVALID_NODE] using hsP), assertM_of (by simpa using hne)]
    simp only [bind_okM]
    rw [e]; rfl
  · have hL : ∀ y, ({ ws' with heap := pq.push ⟨0, s⟩ ws'.heap, settledNodes := 0 } : WitnessSearch pq).look y
        = if y = s then some ⟨false, 0⟩ else none := by
      intro y
      have : look ({ ws with startNode := s, avoidNode := v, heap := pq.empty,
                             validFlags := ws.validFlags.invalidateAll } : WitnessSearch pq) y = none := hl y
      have h2 := hl' y
      rw [this] at h2
      exact h2
    refine ⟨⟨b'.num, b'.tab⟩, hst, hav, hne, ?_, ?_, ?_⟩
    · intro x d hx
      rw [hL] at hx
      split at hx
      · rename_i hxs; subst hxs; exact ⟨hne, 0, Nat.zero_le _, Wk.nil _⟩
      · cases hx
    · intro it hit
      rw [PQ.mem_push, hh] at hit
      simp only [pq.items_empty, List.not_mem_nil, or_false] at hit
      subst hit
      exact ⟨⟨false, 0⟩, by rw [hL]; simp, Nat.le_refl _⟩
    · intro x d hx hd
      rw [hL] at hx
      split at hx
      · cases hx; cases hd
      · cases hx

/-- Invariant of the relaxation loop. -/
structure RInv (n : Nat) (g : PreparationGraph) (s v : Nat) (curr : HeapItem) (ws₀ : WitnessSearch pq)
    (k : Nat) (ws : WitnessSearch pq) : Prop extends Base n ws where
  start : ws.startNode = s
  avoid : ws.avoidNode = v
  lab : ∀ x d, ws.look x = some d → x ≠ v ∧ ∃ w, w ≤ d.weight ∧ Wk (g.relNo v) s x w
  items : ∀ it ∈ pq.items ws.heap, curr.weight ≤ it.weight ∧ ∃ d, ws.look it.nodeId = some d ∧ d.weight ≤ it.weight
  settled : ∀ x d, ws.look x = some d → d.settled = true → d.weight ≤ curr.weight
  cur : ∃ d, ws.look curr.nodeId = some d ∧ d.weight ≤ curr.weight ∧ d.settled = false
  mono : ∀ x, ws₀.settledB x = true → ws.settledB x = true
  len : (pq.items ws.heap).length ≤ (pq.items ws₀.heap).length + k
  cnt : ws.settledNodes = ws₀.settledNodes

theorem relaxArc_ok (hP : P.checked = true) {curr : HeapItem} {ws₀ : WitnessSearch pq} {k : Nat} {target wl : Nat}
    {found : Bool} (hg : PreparationGraph.Lax n g)
    (h : RInv n g s v curr ws₀ k ws) {a : Arc} (ha : a ∈ g.outs curr.nodeId) :
    Tri (relaxArc P curr target wl (ws, found) a) (fun st => RInv n g s v curr ws₀ (k + 1) st.1) := by
  unfold relaxArc
  simp only [h.avoid]
  have hk : RInv n g s v curr ws₀ (k + 1) ws :=
    { h with len := Nat.le_succ_of_le h.len }
  by_cases hav : a.adj = v
  · simp [hav]; exact hk
  · have hadj : a.adj < n := hg.adj_lt ha
    rw [if_neg (by simpa using hav)]
    refine Tri.bind (Tri_addW hP _ _) ?_
    rintro w ⟨rfl, hw⟩
    rw [getCurrentWeight_ok h.toBase hadj]
    simp only [bind_okM]
    by_cases hlt : curr.weight + a.weight < ws.wt P a.adj
    · rw [if_pos hlt]
      obtain ⟨ws', e, b', hh, hst, hav', hcnt, hl⟩ := updateNode_ok h.toBase hadj (curr.weight + a.weight)
      rw [e]
      simp only [bind_okM, Tri_ok]
      obtain ⟨dc, hc1, hc2, hc3⟩ := h.cur
      have hnc : a.adj ≠ curr.nodeId := by
        intro e
        have : ws.wt P a.adj = dc.weight := by unfold wt; rw [e, hc1]
        omega
      have hL : ∀ y, ({ ws' with heap := pq.push ⟨curr.weight + a.weight, a.adj⟩ ws'.heap } : WitnessSearch pq).look y
          = if y = a.adj then some ⟨false, curr.weight + a.weight⟩ else ws.look y := hl
      refine ⟨⟨b'.num, b'.tab⟩, hst.trans h.start, hav'.trans h.avoid, ?_, ?_, ?_, ?_, ?_, ?_, hcnt.trans h.cnt⟩
      · intro x d hx
        rw [hL] at hx
        split at hx
        · rename_i hxa
          subst hxa
          cases hx
          refine ⟨hav, ?_⟩
          obtain ⟨hcv, w, hw1, hw2⟩ := h.lab _ _ hc1
          refine ⟨w + a.weight, by simp only; omega, hw2.snoc ⟨⟨a.center, ha⟩, hcv, hav⟩⟩
        · exact h.lab x d hx
      · intro it hit
        rw [PQ.mem_push, hh] at hit
        rcases hit with rfl | hit
        · exact ⟨by simp only; omega, ⟨false, curr.weight + a.weight⟩, by rw [hL]; simp, Nat.le_refl _⟩
        · obtain ⟨h1, d, h2, h3⟩ := h.items it hit
          refine ⟨h1, ?_⟩
          rw [hL]
          split
          · rename_i hia
            refine ⟨_, rfl, ?_⟩
            simp only
            have : ws.wt P a.adj = d.weight := by unfold wt; rw [← hia, h2]
            omega
          · exact ⟨d, h2, h3⟩
      · intro x d hx hd
        rw [hL] at hx
        split at hx
        · cases hx; cases hd
        · exact h.settled x d hx hd
      · refine ⟨dc, ?_, hc2, hc3⟩
        rw [hL, if_neg (Ne.symm hnc)]; exact hc1
      · intro x hx
        have := h.mono x hx
        unfold settledB at this ⊢
        rw [hL]
        by_cases hxa : x = a.adj
        · subst hxa
          exfalso
          cases hlk : ws.look a.adj with
          | none => simp [hlk] at this
          | some d =>
            simp [hlk] at this
            have h1 := h.settled _ _ hlk this
            have h2 : ws.wt P a.adj = d.weight := by unfold wt; rw [hlk]
            omega
        · rw [if_neg hxa]; exact this
      · rw [PQ.length_push, hh]
        have := h.len
        omega
    · rw [if_neg hlt]
      exact hk

/-- Termination measure of `findLoop`. -/
def meas (n : Nat) (g : PreparationGraph) (ws : WitnessSearch pq) : Nat :=
  (pq.items ws.heap).length + openSum n ws.settledB (fun u => (g.outs u).length)

theorem findLoop_ok (hP : P.checked = true) (hg : PreparationGraph.Lax n g) {target wl sl : Nat} :
    ∀ fuel (ws : WitnessSearch pq), Inv n g s v ws → meas n g ws < fuel →
      Tri (findLoop P g target wl sl fuel ws) (Inv n g s v) := by
  intro fuel
  induction fuel with
  | zero => intro ws _ h; omega
  | succ fuel ih =>
    intro ws h hm
    unfold findLoop
    cases hp : pq.pop ws.heap with
    | none => exact h
    | some r =>
      obtain ⟨curr, heap'⟩ := r
      simp only
      split
      · exact h
      split
      · exact h
      have hcurr : curr ∈ pq.items ws.heap := (PQ.pop_mem hp).2 (Or.inl rfl)
      have hlen := PQ.pop_length hp
      obtain ⟨dc, hc1, hc2⟩ := h.items curr hcurr
      have hcn : curr.nodeId < n := h.tab.look_lt hc1
      have hbase : Base n ({ ws with heap := heap' } : WitnessSearch pq) := ⟨h.num, h.tab⟩
      have hsb : ∀ x, settledB ({ ws with heap := heap' } : WitnessSearch pq) x = ws.settledB x := fun _ => rfl
      rw [isSettled_ok hbase hcn, hsb]
      simp only [bind_okM]
      have hsub : ∀ it ∈ pq.items heap', it ∈ pq.items ws.heap := fun it hit => (PQ.pop_mem hp).2 (Or.inr hit)
      by_cases hset : ws.settledB curr.nodeId = true
      · rw [if_pos hset]
        refine ih _ ⟨hbase, h.start, h.avoid, h.ne, h.lab, ?_, ?_⟩ ?_
        · intro it hit; exact h.items it (hsub it hit)
        · intro x d hx hd it hit; exact h.settled x d hx hd it (hsub it hit)
        · have : meas n g ({ ws with heap := heap' } : WitnessSearch pq) + 1 = meas n g ws := by
            unfold meas
            have : openSum n (settledB ({ ws with heap := heap' } : WitnessSearch pq)) (fun u => (g.outs u).length)
              = openSum n ws.settledB (fun u => (g.outs u).length) := rfl
            rw [this]
            simp only
            omega
          omega
      · rw [if_neg hset]
        have hidx : idx g.outEdges curr.nodeId = .ok (g.outs curr.nodeId) :=
          PreparationGraph.idx_outEdges (by rw [hg.lenOut]; exact hcn)
        rw [hidx]
        simp only [bind_okM]
        have hset' : dc.settled = false := by
          unfold settledB at hset
          rw [hc1] at hset
          simpa using hset
        have h0 : RInv n g s v curr ({ ws with heap := heap' } : WitnessSearch pq) 0 { ws with heap := heap' } := by
          refine ⟨hbase, h.start, h.avoid, h.lab, ?_, ?_, ?_, fun _ hx => hx, Nat.le_refl _, rfl⟩
          · intro it hit
            exact ⟨PQ.pop_min hp (hsub it hit), h.items it (hsub it hit)⟩
          · intro x d hx hd
            exact h.settled x d hx hd curr hcurr
          · exact ⟨dc, hc1, hc2, hset'⟩
        have hrelax : Tri (forM (relaxArc P curr target wl) (({ ws with heap := heap' } : WitnessSearch pq), false)
            (g.outs curr.nodeId))
            (fun st => RInv n g s v curr ({ ws with heap := heap' } : WitnessSearch pq)
              (g.outs curr.nodeId).length st.1) := by
          refine Tri_forM (fun pre (st : WitnessSearch pq × Bool) => RInv n g s v curr ({ ws with heap := heap' } : WitnessSearch pq)
              pre.length st.1) h0 ?_
          rintro pre a post ⟨ws1, f1⟩ hl h1
          have := relaxArc_ok hP (target := target) (wl := wl) (found := f1) hg h1 (a := a) (by rw [hl]; simp)
          simpa using this
        refine Tri.bind hrelax ?_
        rintro ⟨ws1, found⟩ h1
        simp only at h1 ⊢
        obtain ⟨d1, hd1, hd2, hd3⟩ := h1.cur
        obtain ⟨em, tabm, lm⟩ := h1.tab.modify hd1 (fun d => { d with settled := true })
        rw [em]
        simp only [bind_okM]
        generalize hws2 : ({ ws1 with data := ws1.data.set curr.nodeId { d1 with settled := true },
                                      settledNodes := ws1.settledNodes + 1 } : WitnessSearch pq) = ws2
        have hL : ∀ y, ws2.look y = if y = curr.nodeId then some { d1 with settled := true } else ws1.look y := by
          subst hws2; exact lm
        have hheap : ws2.heap = ws1.heap := by subst hws2; rfl
        have hI : Inv n g s v ws2 := by
          refine ⟨⟨by subst hws2; exact h1.num, by subst hws2; exact tabm⟩, by subst hws2; exact h1.start,
            by subst hws2; exact h1.avoid, h.ne, ?_, ?_, ?_⟩
          · intro x d hx
            rw [hL] at hx
            split at hx
            · rename_i hxc; cases hx; subst hxc; have := h1.lab _ _ hd1; exact this
            · exact h1.lab x d hx
          · intro it hit
            rw [hheap] at hit
            obtain ⟨_, d, hx1, hx2⟩ := h1.items it hit
            rw [hL]
            split
            · rename_i hxc
              rw [hxc, hd1] at hx1
              cases hx1
              exact ⟨_, rfl, hx2⟩
            · exact ⟨d, hx1, hx2⟩
          · intro x d hx hd it hit
            rw [hheap] at hit
            have hge := (h1.items it hit).1
            rw [hL] at hx
            split at hx
            · cases hx; simp only; omega
            · have := h1.settled x d hx hd
              omega
        have hmeas : meas n g ws2 < meas n g ws := by
          have hs1 : ∀ u, ws.settledB u = true → ws2.settledB u = true := by
            intro u hu
            have := h1.mono u hu
            unfold settledB at this ⊢
            rw [hL]
            by_cases huc : u = curr.nodeId
            · rw [if_pos huc]
            · rw [if_neg huc]; exact this
          have hs2 : ws2.settledB curr.nodeId = true := by
            unfold settledB; rw [hL]; simp
          have := openSum_settle (k := fun u => (g.outs u).length) hs1 hcn (by simpa using hset) hs2
          have hlen1 := h1.len
          unfold meas
          rw [hheap]
          simp only at this hlen1
          omega
        split
        · exact hI
        · exact ih ws2 hI (by omega)

theorem meas_lt_fuel (hg : PreparationGraph.Lax n g) : meas n g ws < ws.fuelFor g := by
  unfold meas fuelFor
  have h1 := openSum_le (n := n) (S := ws.settledB) (k := fun u => (g.outs u).length)
  have h2 : (List.range n).map (fun u => (g.outs u).length) = g.outEdges.map List.length := by
    apply List.ext_getElem
    · simp [hg.lenOut]
    · intro i h1 h2
      simp [PreparationGraph.outs] at h1 h2 ⊢
      simp [h2]
  rw [h2] at h1
  omega

/-- One call of `find_max_weight`: the invariant is kept and a returned weight within the limit is witnessed by a walk
avoiding `v`. -/
theorem findMaxWeight_ok (hP : P.checked = true) (hg : PreparationGraph.Lax n g) (h : Inv n g s v ws) {target wl sl : Nat}
    (hsP : s ≠ P.umax) (ht : target < n) (htv : target ≠ v) :
    Tri (ws.findMaxWeight P g target wl sl) (fun r => Inv n g s v r.1 ∧ (target = s → r.2 = 0) ∧
      (r.2 ≤ wl → wl < P.umax → ∃ w, w ≤ r.2 ∧ Wk (g.relNo v) s target w)) := by
  unfold findMaxWeight
  rw [assertM_of (by simp [hg.num, h.num]), assertM_of (by simpa [h.start, Plat.INVALID_NODE] using hsP),
    assertM_of (by simp [h.start, h.avoid, h.ne, htv])]
  simp only [bind_okM]
  by_cases hts : target = ws.startNode
  · rw [if_pos (by simpa using hts)]
    rw [h.start] at hts
    subst hts
    exact ⟨h, fun _ => rfl, fun _ _ => ⟨0, Nat.zero_le _, Wk.nil _⟩⟩
  · rw [if_neg (by simpa using hts)]
    have hts' : target = s → False := fun e => hts (e.trans h.start.symm)
    have hrest : Tri (findLoop P g target wl sl (ws.fuelFor g) ws >>= fun ws => do
        let w ← ws.getCurrentWeight P target
        .ok (ws, w)) (fun r => Inv n g s v r.1 ∧ (target = s → r.2 = 0) ∧
      (r.2 ≤ wl → wl < P.umax → ∃ w, w ≤ r.2 ∧ Wk (g.relNo v) s target w)) := by
      refine Tri.bind (findLoop_ok hP hg _ ws h (meas_lt_fuel hg)) ?_
      intro ws' h'
      rw [getCurrentWeight_ok h'.toBase ht]
      simp only [bind_okM, Tri_ok]
      refine ⟨h', fun e => (hts' e).elim, ?_⟩
      intro h1 h2
      unfold wt at h1 ⊢
      cases hl : ws'.look target with
      | none => rw [hl] at h1; simp only at h1; omega
      | some d => exact (h'.lab _ _ hl).2
    cases hl : ws.look target with
    | none =>
      rw [h.tab.isValid_none ht hl]
      simpa using hrest
    | some d =>
      rw [h.tab.isValid_some hl]
      simp only [bind_okM, if_true]
      rw [idx_of_look hl]
      simp only [bind_okM]
      by_cases hd : (d.settled || decide (d.weight ≤ wl)) = true
      · rw [if_pos hd]
        exact ⟨h, fun e => (hts' e).elim, fun _ _ => (h.lab _ _ hl).2⟩
      · rw [if_neg hd]
        exact hrest

/-- The invariant survives graph changes that keep (or improve) every edge away from `v`. -/
theorem Inv.mono {g' : PreparationGraph} (h : Inv n g s v ws)
    (hgg : ∀ a b w, g.relNo v a b w → ∃ w', w' ≤ w ∧ g'.relNo v a b w') : Inv n g' s v ws := by
  refine ⟨h.toBase, h.start, h.avoid, h.ne, ?_, h.items, h.settled⟩
  intro x d hx
  obtain ⟨h1, w, h2, h3⟩ := h.lab x d hx
  refine ⟨h1, ?_⟩
  obtain ⟨w', hw', hk⟩ := h3.bind_le (F := g'.relNo v) (fun a b w e => by
    obtain ⟨w', h', e'⟩ := hgg a b w e
    exact ⟨w', h', Wk.single e'⟩)
  exact ⟨w', by omega, hk⟩

end WitnessSearch
end FP
