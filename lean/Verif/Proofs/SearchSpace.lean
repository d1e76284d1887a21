import Verif.Proofs.Extract
import Verif.Proofs.Reorder
import Verif.Proofs.Api
import Verif.SpecSearch
/-! # What a query leaves in the label tables -/
namespace FP
open Spec Side PathCalculator

variable {pq : PQ} {P : Plat} {n : Nat} {fg : FastGraph} {E : EdgeRel}

/-- A label of weight `w` at `x` is beaten by a label of a higher node and the edge down from it. -/
def Beaten (fg : FastGraph) (look : Nat → Option PData) (x w : Nat) : Prop :=
  ∃ id ed dy, fg.InAt x id ed ∧ look ed.adjNode = some dy ∧ dy.weight + ed.weight < w

theorem Beaten.mono {l l' : Nat → Option PData} (h : Better l l') {x w : Nat} (hb : Beaten fg l x w) : Beaten fg l' x w := by
  obtain ⟨id, ed, dy, h1, h2, h3⟩ := hb
  obtain ⟨d', h4, h5⟩ := h _ _ h2
  exact ⟨id, ed, d', h1, h4, by omega⟩

/-- How the label `d` of `x` came about: as a root, or from a node for which `ok` holds and that still has the same label. -/
def Came (n : Nat) (fg : FastGraph) (roots : List (Nat × Nat)) (look : Nat → Option PData) (ok : Nat → PData → Prop)
    (x : Nat) (d : PData) : Prop :=
  (x, d.weight) ∈ roots ∨
  (d.parent < n ∧ ∃ ed dp, fg.OutAt d.parent d.incEdge ed ∧ ed.adjNode = x ∧ look d.parent = some dp ∧ ok d.parent dp ∧
    dp.weight + ed.weight = d.weight)

/-- Invariant of the label table of one direction, between two settled nodes. -/
structure LInv (P : Plat) (n : Nat) (fg : FastGraph) (roots : List (Nat × Nat)) (best : Nat) (s : Side pq) : Prop where
  tab : s.Base n
  lt : ∀ x d, s.look x = some d → d.weight < P.umax
  lab : ∀ x d, s.look x = some d → Came n fg roots s.look (fun _ dp => dp.settled = true) x d
  items : ∀ it ∈ pq.items s.heap, ∃ d, s.look it.nodeId = some d ∧ d.weight ≤ it.weight
  settled : ∀ x d, s.look x = some d → d.settled = true → ∀ it ∈ pq.items s.heap, d.weight ≤ it.weight
  root : ∀ r wr, (r, wr) ∈ roots → wr < P.umax → ∃ d, s.look r = some d ∧ d.weight ≤ wr
  unsettled : ∀ x d, s.look x = some d → d.settled = false →
    (⟨d.weight, x⟩ : HeapItem) ∈ pq.items s.heap ∨ Beaten fg s.look x d.weight ∨ best < d.weight
  relaxed : ∀ x d, s.look x = some d → d.settled = true → ∀ id ed, fg.OutAt x id ed → d.weight + ed.weight < P.umax →
    ∃ d', s.look ed.adjNode = some d' ∧ d'.weight ≤ d.weight + ed.weight
  nostall : ∀ x d, s.look x = some d → d.settled = true → ¬ Beaten fg s.look x d.weight

theorem LInv.lower {roots : List (Nat × Nat)} {b b' : Nat} {s : Side pq} (h : LInv P n fg roots b s) (hb : b' ≤ b) :
    LInv P n fg roots b' s := by
  refine { h with unsettled := ?_ }
  intro x d hx hd
  rcases h.unsettled x d hx hd with h1 | h1 | h1
  · exact Or.inl h1
  · exact Or.inr (Or.inl h1)
  · exact Or.inr (Or.inr (by omega))

/-- The scan for a stalling edge tells whether the label is beaten. -/
theorem stallScan_exact (hP : P.checked = true) (hg : SGood P E n fg) {s : Side pq} (ht : s.Base n)
    (hlt : ∀ x d, s.look x = some d → d.weight < P.umax) {curr : HeapItem} (hc : curr.nodeId < n) :
    ∀ l : List Nat, (∀ id ∈ l, ∃ ed, fg.InAt curr.nodeId id ed) →
    Tri (s.stallScan P fg.edgesBwd curr l) (fun r => (r = true → Beaten fg s.look curr.nodeId curr.weight) ∧
      (r = false → ∀ id ∈ l, ∀ ed dy, fg.InAt curr.nodeId id ed → s.look ed.adjNode = some dy →
        curr.weight ≤ dy.weight + ed.weight)) := by
  intro l
  induction l with
  | nil => intro _; simp [stallScan]
  | cons id rest ih =>
    intro hl
    obtain ⟨ed, hat⟩ := hl id (List.mem_cons_self ..)
    have ih' := ih (fun i hi => hl i (List.mem_cons_of_mem _ hi))
    obtain ⟨g1, g2, g3⟩ := hg.dn _ hc _ _ hat
    have huniq : ∀ ed', fg.InAt curr.nodeId id ed' → ed' = ed := by
      intro ed' h'
      have := h'.2.2.symm.trans hat.2.2
      cases this; rfl
    have hstep : (∀ dy, s.look ed.adjNode = some dy → curr.weight ≤ dy.weight + ed.weight) →
        Tri (s.stallScan P fg.edgesBwd curr rest) (fun r => (r = true → Beaten fg s.look curr.nodeId curr.weight) ∧
          (r = false → ∀ id' ∈ id :: rest, ∀ ed dy, fg.InAt curr.nodeId id' ed → s.look ed.adjNode = some dy →
            curr.weight ≤ dy.weight + ed.weight)) := by
      intro hh
      refine Tri.mono ih' ?_
      rintro r ⟨r1, r2⟩
      refine ⟨r1, ?_⟩
      intro hr id' hid' ed' dy hat' hdy
      rcases List.mem_cons.1 hid' with rfl | hid'
      · have := huniq ed' hat'
        subst this
        exact hh dy hdy
      · exact r2 hr id' hid' ed' dy hat' hdy
    unfold stallScan
    rw [idx_some hat.2.2]
    simp only [bind_okM]
    rw [getWeight_ok ht g1]
    simp only [bind_okM]
    by_cases hmax : s.wt P ed.adjNode = P.umax
    · rw [if_pos (by simpa [Plat.WEIGHT_MAX] using hmax)]
      refine hstep ?_
      intro dy hdy
      rw [wt_some hdy] at hmax
      have := hlt _ _ hdy
      omega
    · rw [if_neg (by simpa [Plat.WEIGHT_MAX] using hmax)]
      refine Tri.bind (Tri_addW hP _ _) ?_
      rintro w ⟨rfl, _⟩
      by_cases hlt' : s.wt P ed.adjNode + ed.weight < curr.weight
      · rw [if_pos hlt']
        simp only [Tri_ok]
        refine ⟨?_, fun h => by cases h⟩
        intro _
        cases hlk : s.look ed.adjNode with
        | none => unfold wt at hmax; rw [hlk] at hmax; exact absurd rfl hmax
        | some d =>
          rw [wt_some hlk] at hlt'
          exact ⟨id, ed, d, hat, hlk, hlt'⟩
      · rw [if_neg hlt']
        refine hstep ?_
        intro dy hdy
        rw [wt_some hdy] at hlt'
        omega

theorem isStallableFwd_exact (hP : P.checked = true) (hg : SGood P E n fg) {s : Side pq} (ht : s.Base n)
    (hlt : ∀ x d, s.look x = some d → d.weight < P.umax) {curr : HeapItem} (hc : curr.nodeId < n) :
    Tri (isStallableFwd P fg s curr) (fun r => (r = true ↔ Beaten fg s.look curr.nodeId curr.weight)) := by
  unfold isStallableFwd
  rw [hg.beginIn hc, hg.endIn hc]
  simp only [bind_okM]
  refine Tri.mono (stallScan_exact hP hg ht hlt hc _ ?_) ?_
  · intro id hid
    simp only [rangeFrom, List.mem_range'_1] at hid
    exact hg.inAt hc hid.1 (by omega)
  · rintro r ⟨r1, r2⟩
    refine ⟨r1, ?_⟩
    rintro ⟨id, ed, dy, h1, h2, h3⟩
    cases r with
    | true => rfl
    | false =>
      have := r2 rfl id (by simp only [rangeFrom, List.mem_range'_1]; have := h1.1; have := h1.2.1; omega) ed dy h1 h2
      omega

/-! ### Relaxing the edges of one node -/

/-- Invariant of the relaxation loop for `curr`, started in `s₀`; edge `k` is next. -/
structure LRel (P : Plat) (n : Nat) (fg : FastGraph) (roots : List (Nat × Nat)) (best : Nat)
    (curr : HeapItem) (s₀ : Side pq) (k : Nat) (s : Side pq) : Prop where
  tab : s.Base n
  lt : ∀ x d, s.look x = some d → d.weight < P.umax
  lab : ∀ x d, s.look x = some d →
    Came n fg roots s.look (fun y dp => dp.settled = true ∨ y = curr.nodeId) x d
  items : ∀ it ∈ pq.items s.heap, curr.weight ≤ it.weight ∧ ∃ d, s.look it.nodeId = some d ∧ d.weight ≤ it.weight
  better : Better s₀.look s.look
  cur : s.look curr.nodeId = s₀.look curr.nodeId
  keep : ∀ x d, s₀.look x = some d → d.settled = true → s.look x = some d
  back : ∀ x d, s.look x = some d → d.settled = true → s₀.look x = some d
  new : ∀ x d, s.look x = some d → s₀.look x = some d ∨ curr.weight ≤ d.weight
  unsettled : ∀ x d, x ≠ curr.nodeId → s.look x = some d → d.settled = false →
    (⟨d.weight, x⟩ : HeapItem) ∈ pq.items s.heap ∨ Beaten fg s.look x d.weight ∨ best < d.weight
  done : ∀ id ed, fg.OutAt curr.nodeId id ed → id < k → curr.weight + ed.weight < P.umax →
    ∃ d, s.look ed.adjNode = some d ∧ d.weight ≤ curr.weight + ed.weight

theorem relaxEdge_lrel (hP : P.checked = true) (hg : SGood P E n fg) {roots : List (Nat × Nat)} {best : Nat}
    {curr : HeapItem} {s₀ s : Side pq} {k : Nat} (hc : curr.nodeId < n)
    (hset : ∀ x d, s₀.look x = some d → d.settled = true → d.weight ≤ curr.weight)
    (hcur : ∃ d, s₀.look curr.nodeId = some d ∧ d.weight = curr.weight)
    (hb : fg.bo curr.nodeId ≤ k) (he : k < fg.eo curr.nodeId) (h : LRel P n fg roots best curr s₀ k s) :
    Tri (s.relaxEdge P fg.edgesFwd curr k) (LRel P n fg roots best curr s₀ (k + 1)) := by
  obtain ⟨ed, hat⟩ := hg.outAt hc hb he
  obtain ⟨g1, g2, g3⟩ := hg.up _ hc _ _ hat
  unfold relaxEdge
  rw [idx_some hat.2.2]
  simp only [bind_okM]
  refine Tri.bind (Tri_addW hP _ _) ?_
  rintro w ⟨rfl, hw⟩
  rw [getWeight_ok h.tab g1]
  simp only [bind_okM]
  have hedk : ∀ id ed', fg.OutAt curr.nodeId id ed' → id < k + 1 → ¬ id < k → ed' = ed := by
    intro id ed' hat' h1 h2
    have : id = k := by omega
    subst this
    have := hat'.2.2.symm.trans hat.2.2
    cases this; rfl
  have hwle : s.wt P ed.adjNode ≤ P.umax := by
    unfold wt
    cases hlk : s.look ed.adjNode with
    | none => exact Nat.le_refl _
    | some d => exact Nat.le_of_lt (h.lt _ _ hlk)
  by_cases hlt : curr.weight + ed.weight < s.wt P ed.adjNode
  · rw [if_pos hlt]
    obtain ⟨s', e, b', hh, hl⟩ := Side.updateNode_ok h.tab g1 (curr.weight + ed.weight) curr.nodeId k
    rw [e]
    simp only [bind_okM, Tri_ok]
    have hne : ed.adjNode ≠ curr.nodeId := fun e' => by rw [e'] at g2; omega
    have hL : ∀ y, ({ s' with heap := pq.push ⟨curr.weight + ed.weight, ed.adjNode⟩ s'.heap } : Side pq).look y
        = if y = ed.adjNode then some ⟨false, curr.weight + ed.weight, curr.nodeId, k⟩ else s.look y := hl
    have hbetter : Better s.look
        ({ s' with heap := pq.push ⟨curr.weight + ed.weight, ed.adjNode⟩ s'.heap } : Side pq).look := by
      intro x d hx
      rw [hL]
      by_cases hxa : x = ed.adjNode
      · subst hxa
        rw [if_pos rfl]
        rw [wt_some hx] at hlt
        exact ⟨_, rfl, by simp only; omega⟩
      · rw [if_neg hxa]; exact ⟨d, hx, Nat.le_refl _⟩
    have hnotset : ∀ d, s.look ed.adjNode = some d → d.settled = false := by
      intro d hd
      cases hds : d.settled with
      | false => rfl
      | true =>
        have h1 := hset _ _ (h.back _ _ hd hds) hds
        rw [wt_some hd] at hlt
        omega
    obtain ⟨dc, hdc, hdcw⟩ := hcur
    have hdc' : s.look curr.nodeId = some dc := by rw [h.cur]; exact hdc
    refine ⟨b', ?_, ?_, ?_, h.better.trans hbetter, ?_, ?_, ?_, ?_, ?_, ?_⟩
    · intro x d hx
      rw [hL] at hx
      by_cases hxa : x = ed.adjNode
      · rw [if_pos hxa] at hx
        cases hx
        simp only; omega
      · rw [if_neg hxa] at hx
        exact h.lt x d hx
    · intro x d hx
      rw [hL] at hx
      by_cases hxa : x = ed.adjNode
      · rw [if_pos hxa] at hx
        cases hx
        refine Or.inr ⟨hc, ed, dc, hat, hxa.symm, ?_, Or.inr rfl, ?_⟩
        · simp only; rw [hL, if_neg (Ne.symm hne)]; exact hdc'
        · simp only; omega
      · rw [if_neg hxa] at hx
        rcases h.lab x d hx with h1 | ⟨h1, ed', dp, h2, h3, h4, h5, h6⟩
        · exact Or.inl h1
        · refine Or.inr ⟨h1, ed', dp, h2, h3, ?_, h5, h6⟩
          rw [hL, if_neg ?_]
          · exact h4
          · intro hpa
            rcases h5 with h5 | h5
            · rw [hpa] at h4
              have := hnotset dp h4
              rw [h5] at this; cases this
            · exact hne (hpa.symm.trans h5)
    · intro it hit
      rw [PQ.mem_push, hh] at hit
      rcases hit with rfl | hit
      · exact ⟨by simp only; omega, ⟨false, curr.weight + ed.weight, curr.nodeId, k⟩, by rw [hL]; simp, Nat.le_refl _⟩
      · obtain ⟨h1, d, h2, h3⟩ := h.items it hit
        obtain ⟨d', h4, h5⟩ := hbetter _ _ h2
        exact ⟨h1, d', h4, by omega⟩
    · rw [hL, if_neg (Ne.symm hne)]; exact h.cur
    · intro x d hx hd
      have h1 := h.keep x d hx hd
      rw [hL]
      by_cases hxa : x = ed.adjNode
      · subst hxa
        have := hnotset d h1
        rw [hd] at this; cases this
      · rw [if_neg hxa]; exact h1
    · intro x d hx hd
      rw [hL] at hx
      by_cases hxa : x = ed.adjNode
      · rw [if_pos hxa] at hx; cases hx; cases hd
      · rw [if_neg hxa] at hx; exact h.back x d hx hd
    · intro x d hx
      rw [hL] at hx
      by_cases hxa : x = ed.adjNode
      · rw [if_pos hxa] at hx; cases hx
        exact Or.inr (by simp only; omega)
      · rw [if_neg hxa] at hx
        exact h.new x d hx
    · intro x d hxc hx hd
      rw [PQ.mem_push, hh]
      rw [hL] at hx
      by_cases hxa : x = ed.adjNode
      · rw [if_pos hxa] at hx; cases hx; left; left; rw [hxa]
      · rw [if_neg hxa] at hx
        rcases h.unsettled x d hxc hx hd with h1 | h1 | h1
        · exact Or.inl (Or.inr h1)
        · exact Or.inr (Or.inl (h1.mono hbetter))
        · exact Or.inr (Or.inr h1)
    · intro id ed' hat' hid hlt'
      by_cases hidk : id < k
      · obtain ⟨d, h1, h2⟩ := h.done id ed' hat' hidk hlt'
        obtain ⟨d', h3, h4⟩ := hbetter _ _ h1
        exact ⟨d', h3, by omega⟩
      · have := hedk id ed' hat' hid hidk
        subst this
        exact ⟨_, by rw [hL, if_pos rfl], Nat.le_refl _⟩
  · rw [if_neg hlt]
    simp only [Tri_ok]
    refine { h with done := ?_ }
    intro id ed' hat' hid hlt'
    by_cases hidk : id < k
    · exact h.done id ed' hat' hidk hlt'
    · have := hedk id ed' hat' hid hidk
      subst this
      cases hlk : s.look ed'.adjNode with
      | none => unfold wt at hlt; rw [hlk] at hlt; simp only at hlt; omega
      | some d => rw [wt_some hlk] at hlt; exact ⟨d, rfl, by omega⟩

/-- The state after settling `curr`, which is not beaten and has the weight of its label. -/
theorem settle_linv (hP : P.checked = true) (hg : SGood P E n fg) {roots : List (Nat × Nat)} {best : Nat}
    {s : Side pq} (h : LInv P n fg roots best s) {curr : HeapItem} {heap' : pq.σ}
    (hp : pq.pop s.heap = some (curr, heap')) {dc : PData} (hdc : s.look curr.nodeId = some dc)
    (hw : dc.weight = curr.weight) (hnb : ¬ Beaten fg s.look curr.nodeId curr.weight)
    {s1 : Side pq} {data : List PData}
    (e1 : forM (Side.relaxEdge P fg.edgesFwd curr) ({ s with heap := heap' } : Side pq)
        (rangeFrom (fg.bo curr.nodeId) (fg.eo curr.nodeId)) = .ok s1)
    (e2 : modIdx s1.data curr.nodeId (fun d => { d with settled := true }) = .ok data) :
    LInv P n fg roots best ({ s1 with data := data } : Side pq) ∧
      (∀ x d, x ≠ curr.nodeId → s.look x = some d → d.settled = true → ({ s1 with data := data } : Side pq).look x = some d) ∧
      ({ s1 with data := data } : Side pq).look curr.nodeId = some { dc with settled := true } ∧
      ∀ x d, x ≠ curr.nodeId → ({ s1 with data := data } : Side pq).look x = some d → d.settled = true → s.look x = some d := by
  have hcurr : curr ∈ pq.items s.heap := (PQ.pop_mem hp).2 (Or.inl rfl)
  have hsub : ∀ it ∈ pq.items heap', it ∈ pq.items s.heap := fun it hit => (PQ.pop_mem hp).2 (Or.inr hit)
  have hcn : curr.nodeId < n := h.tab.look_lt hdc
  have hset : ∀ x d, ({ s with heap := heap' } : Side pq).look x = some d → d.settled = true →
      d.weight ≤ curr.weight := fun x d hx hd => h.settled x d hx hd curr hcurr
  have hR : LRel P n fg roots best curr ({ s with heap := heap' } : Side pq) (fg.bo curr.nodeId)
      ({ s with heap := heap' } : Side pq) := by
    refine ⟨h.tab, h.lt, ?_, ?_, Better.refl _, rfl, fun _ _ h _ => h, fun _ _ h _ => h, fun _ _ h => Or.inl h, ?_, ?_⟩
    · intro x d hx
      rcases h.lab x d hx with h1 | ⟨h1, ed', dp, h2, h3, h4, h5, h6⟩
      · exact Or.inl h1
      · exact Or.inr ⟨h1, ed', dp, h2, h3, h4, Or.inl h5, h6⟩
    · intro it hit; exact ⟨PQ.pop_min hp (hsub it hit), h.items it (hsub it hit)⟩
    · intro x d hxc hx hd
      rcases h.unsettled x d hx hd with h1 | h1 | h1
      · rcases (PQ.pop_mem hp).1 h1 with he | he
        · subst he; exact absurd rfl hxc
        · exact Or.inl he
      · exact Or.inr (Or.inl h1)
      · exact Or.inr (Or.inr h1)
    · intro id ed hat hid; have := hat.1; omega
  have h1 : LRel P n fg roots best curr ({ s with heap := heap' } : Side pq) (fg.eo curr.nodeId) s1 :=
    Tri.of_ok (Tri_forM_range' (hg.bo_le hcn) (LRel P n fg roots best curr ({ s with heap := heap' } : Side pq)) hR
      (fun _ _ h1 h2 h3 => relaxEdge_lrel hP hg hcn hset ⟨dc, hdc, hw⟩ h1 h2 h3)) e1
  have hd1 : s1.look curr.nodeId = some dc := by rw [h1.cur]; exact hdc
  obtain ⟨em, tabm, lm⟩ := TabOk.modify h1.tab hd1 (fun d => { d with settled := true })
  rw [em] at e2
  cases e2
  generalize hs2 : ({ s1 with data := s1.data.set curr.nodeId { dc with settled := true } } : Side pq) = s2
  have hL : ∀ y, s2.look y = if y = curr.nodeId then some { dc with settled := true } else s1.look y := by
    subst hs2; exact lm
  have hheap : s2.heap = s1.heap := by subst hs2; rfl
  have htab : s2.Base n := by subst hs2; exact tabm
  have hbet : Better s1.look s2.look := by
    intro x d hx
    rw [hL]
    by_cases hxc : x = curr.nodeId
    · rw [if_pos hxc]
      subst hxc
      rw [hd1] at hx; cases hx
      exact ⟨_, rfl, Nat.le_refl _⟩
    · rw [if_neg hxc]; exact ⟨d, hx, Nat.le_refl _⟩
  have hback : ∀ x d, x ≠ curr.nodeId → s2.look x = some d → d.settled = true → s.look x = some d := by
    intro x d hxc hx hd
    rw [hL, if_neg hxc] at hx
    exact h1.back x d hx hd
  have hbet0 : Better s.look s2.look := h1.better.trans hbet
  -- what beats a settled node has a weight below `curr.weight`, so it is an old label
  have hold : ∀ x w, w ≤ curr.weight → Beaten fg s2.look x w → Beaten fg s.look x w := by
    rintro x w hwc ⟨id, ed, dy, q1, q2, q3⟩
    by_cases hyc : ed.adjNode = curr.nodeId
    · rw [hL, if_pos hyc] at q2
      cases q2
      simp only at q3
      omega
    · rw [hL, if_neg hyc] at q2
      rcases h1.new _ _ q2 with q4 | q4
      · exact ⟨id, ed, dy, q1, q4, q3⟩
      · omega
  refine ⟨?_, fun x d hxc hx hd => by rw [hL, if_neg hxc]; exact h1.keep x d hx hd, by rw [hL, if_pos rfl], hback⟩
  refine ⟨htab, ?_, ?_, ?_, ?_, ?_, ?_, ?_, ?_⟩
  · intro x d hx
    rw [hL] at hx
    by_cases hxc : x = curr.nodeId
    · rw [if_pos hxc] at hx
      cases hx
      exact h1.lt _ dc hd1
    · rw [if_neg hxc] at hx
      exact h1.lt x d hx
  · have hcame : ∀ x d, s1.look x = some d → Came n fg roots s2.look (fun _ dp => dp.settled = true) x d := by
      intro x d hx
      rcases h1.lab x d hx with k1 | ⟨k1, ed', dp, k2, k3, k4, k5, k6⟩
      · exact Or.inl k1
      · by_cases hpc : d.parent = curr.nodeId
        · rw [hpc, hd1] at k4
          cases k4
          exact Or.inr ⟨k1, ed', { dc with settled := true }, k2, k3, by rw [hL, if_pos hpc], rfl, k6⟩
        · refine Or.inr ⟨k1, ed', dp, k2, k3, by rw [hL, if_neg hpc]; exact k4, ?_, k6⟩
          rcases k5 with k5 | k5
          · exact k5
          · exact absurd k5 hpc
    intro x d hx
    rw [hL] at hx
    by_cases hxc : x = curr.nodeId
    · rw [if_pos hxc] at hx
      cases hx
      subst hxc
      exact hcame _ dc hd1
    · rw [if_neg hxc] at hx
      exact hcame x d hx
  · intro it hit
    rw [hheap] at hit
    obtain ⟨_, d, hx1, hx2⟩ := h1.items it hit
    obtain ⟨d', hx3, hx4⟩ := hbet _ _ hx1
    exact ⟨d', hx3, by omega⟩
  · intro x d hx hd it hit
    rw [hheap] at hit
    have hge := (h1.items it hit).1
    by_cases hxc : x = curr.nodeId
    · rw [hL, if_pos hxc] at hx
      cases hx; simp only; omega
    · have := hset x d (hback x d hxc hx hd) hd
      omega
  · intro r wr hr hlt
    obtain ⟨d, k1, k2⟩ := h.root r wr hr hlt
    obtain ⟨d', k3, k4⟩ := hbet0 _ _ k1
    exact ⟨d', k3, by omega⟩
  · intro x d hx hd
    rw [hheap]
    rw [hL] at hx
    by_cases hxc : x = curr.nodeId
    · rw [if_pos hxc] at hx; cases hx; cases hd
    · rw [if_neg hxc] at hx
      rcases h1.unsettled x d hxc hx hd with k | k | k
      · exact Or.inl k
      · exact Or.inr (Or.inl (k.mono hbet))
      · exact Or.inr (Or.inr k)
  · intro x d hx hd id ed hat hU
    by_cases hxc : x = curr.nodeId
    · rw [hL, if_pos hxc] at hx
      cases hx
      subst hxc
      simp only at hU ⊢
      obtain ⟨d', k1, k2⟩ := h1.done id ed hat hat.2.1 (by omega)
      obtain ⟨d'', k3, k4⟩ := hbet _ _ k1
      exact ⟨d'', k3, by omega⟩
    · obtain ⟨d', k1, k2⟩ := h.relaxed x d (hback x d hxc hx hd) hd id ed hat hU
      obtain ⟨d'', k3, k4⟩ := hbet0 _ _ k1
      exact ⟨d'', k3, by omega⟩
  · intro x d hx hd hbt
    by_cases hxc : x = curr.nodeId
    · rw [hL, if_pos hxc] at hx
      cases hx
      simp only at hbt
      rw [hw] at hbt
      have := hold _ _ (Nat.le_refl _) hbt
      rw [hxc] at this
      exact hnb this
    · have hxs := hback x d hxc hx hd
      exact h.nostall x d hxs hd (hold _ _ (hset x d hxs hd) hbt)

/-- Dropping an item keeps the invariant unless the item was needed. -/
theorem LInv.popped {roots : List (Nat × Nat)} {best : Nat} {s : Side pq} (h : LInv P n fg roots best s) {curr : HeapItem}
    {heap' : pq.σ} (hp : pq.pop s.heap = some (curr, heap'))
    (hn : ∀ d, s.look curr.nodeId = some d → d.settled = false → d.weight = curr.weight →
      Beaten fg s.look curr.nodeId curr.weight ∨ best < curr.weight) :
    LInv P n fg roots best ({ s with heap := heap' } : Side pq) := by
  have hsub : ∀ it ∈ pq.items heap', it ∈ pq.items s.heap := fun it hit => (PQ.pop_mem hp).2 (Or.inr hit)
  refine ⟨h.tab, h.lt, h.lab, ?_, ?_, h.root, ?_, h.relaxed, h.nostall⟩
  · intro it hit; exact h.items it (hsub it hit)
  · intro x d hx hd it hit; exact h.settled x d hx hd it (hsub it hit)
  · intro x d hx hd
    rcases h.unsettled x d hx hd with h1 | h1
    · rcases (PQ.pop_mem hp).1 h1 with he | he
      · subst he
        exact Or.inr (hn d hx hd rfl)
      · exact Or.inl he
    · exact Or.inr h1

/-- The inner forward loop. -/
theorem innerFwd_linv (hP : P.checked = true) (hg : SGood P E n fg) {roots : List (Nat × Nat)} :
    ∀ fuel (st st' : QS pq), LInv P n fg roots st.best st.fwd → (st.meet = P.umax → st.best = P.umax) →
      innerFwd P fg fuel st = .ok st' →
      st'.bwd = st.bwd ∧ LInv P n fg roots st'.best st'.fwd ∧ st'.best ≤ st.best ∧
        (st'.meet = P.umax → st'.best = P.umax) := by
  intro fuel
  induction fuel with
  | zero => intro st st' _ _ h; cases h
  | succ fuel ih =>
    intro st st' hf hmt h
    unfold innerFwd at h
    cases hp : pq.pop st.fwd.heap with
    | none =>
      rw [hp] at h
      cases h
      exact ⟨rfl, hf, Nat.le_refl _, hmt⟩
    | some r =>
      obtain ⟨curr, heap'⟩ := r
      rw [hp] at h
      simp only at h
      have hcurr : curr ∈ pq.items st.fwd.heap := (PQ.pop_mem hp).2 (Or.inl rfl)
      obtain ⟨dc, hc1, hc2⟩ := hf.items curr hcurr
      have hcn : curr.nodeId < n := hf.tab.look_lt hc1
      have hbase : Base n ({ st.fwd with heap := heap' } : Side pq) := hf.tab
      have hsb : settledB ({ st.fwd with heap := heap' } : Side pq) curr.nodeId = dc.settled := by
        have : settledB ({ st.fwd with heap := heap' } : Side pq) curr.nodeId = st.fwd.settledB curr.nodeId := rfl
        rw [this]; unfold settledB; rw [hc1]
      rw [isSettled_ok hbase hcn, hsb] at h
      simp only [bind_okM] at h
      by_cases hset : dc.settled = true
      · rw [if_pos hset] at h
        refine ih { st with fwd := { st.fwd with heap := heap' } } _ (hf.popped hp ?_) hmt h
        intro d hd hds
        rw [hc1] at hd; cases hd
        rw [hset] at hds; cases hds
      · rw [if_neg hset] at h
        have hun : dc.settled = false := by simpa using hset
        by_cases hbest : curr.weight > st.best
        · rw [if_pos hbest] at h
          cases h
          exact ⟨rfl, hf.popped hp (fun _ _ _ _ => Or.inr hbest), Nat.le_refl _, hmt⟩
        · rw [if_neg hbest] at h
          obtain ⟨r, er, h⟩ := bind_eq_ok.1 h
          have hr := Tri.of_ok (isStallableFwd_exact hP hg hbase hf.lt hcn) er
          by_cases hrt : r = true
          · rw [if_pos hrt] at h
            exact ih { st with fwd := { st.fwd with heap := heap' } } _ (hf.popped hp (fun _ _ _ _ => Or.inl (hr.1 hrt))) hmt h
          · rw [if_neg hrt] at h
            have hnb : ¬ Beaten fg st.fwd.look curr.nodeId curr.weight := fun hb => hrt (hr.2 hb)
            have hw : dc.weight = curr.weight := by
              rcases hf.unsettled _ _ hc1 hun with k | k | k
              · have := PQ.pop_min hp k
                simp only at this
                omega
              · obtain ⟨id, ed, dy, q1, q2, q3⟩ := k
                exact absurd ⟨id, ed, dy, q1, q2, by omega⟩ hnb
              · omega
            rw [hg.beginOut hcn, hg.endOut hcn] at h
            simp only [bind_okM] at h
            obtain ⟨s1, e1, h⟩ := bind_eq_ok.1 h
            obtain ⟨data, e2, h⟩ := bind_eq_ok.1 h
            have hS := (settle_linv hP hg hf hp hc1 hw hnb e1 e2).1
            obtain ⟨v, _, h⟩ := bind_eq_ok.1 h
            cases v with
            | false =>
              cases h
              exact ⟨rfl, hS, Nat.le_refl _, hmt⟩
            | true =>
              simp only [if_true] at h
              obtain ⟨wb, _, h⟩ := bind_eq_ok.1 h
              obtain ⟨w, _, h⟩ := bind_eq_ok.1 h
              by_cases hlt : w < st.best
              · rw [if_pos hlt] at h
                cases h
                refine ⟨rfl, hS.lower (Nat.le_of_lt hlt), Nat.le_of_lt hlt, ?_⟩
                intro hm
                simp only at hm
                have := hg.n_lt
                omega
              · rw [if_neg hlt] at h
                cases h
                exact ⟨rfl, hS, Nat.le_refl _, hmt⟩

/-- The main loop. -/
theorem mainLoop_linv (hP : P.checked = true) (hg : SGood P E n fg) {starts ends : List (Nat × Nat)} :
    ∀ fuel (st st' : QS pq), LInv P n fg starts st.best st.fwd → LInv P n fg.flip ends st.best st.bwd →
      (st.meet = P.umax → st.best = P.umax) → mainLoop P fg fuel st = .ok st' →
      LInv P n fg starts st'.best st'.fwd ∧ LInv P n fg.flip ends st'.best st'.bwd ∧
        (st'.meet = P.umax → st'.best = P.umax) ∧ pq.items st'.fwd.heap = [] ∧ pq.items st'.bwd.heap = [] := by
  intro fuel
  induction fuel with
  | zero => intro st st' _ _ _ h; cases h
  | succ fuel ih =>
    intro st st' hf hb hm h
    unfold mainLoop at h
    by_cases hemp : (pq.isEmpty st.fwd.heap && pq.isEmpty st.bwd.heap) = true
    · rw [if_pos hemp] at h
      cases h
      simp only [Bool.and_eq_true, isEmpty_iff] at hemp
      exact ⟨hf, hb, hm, hemp.1, hemp.2⟩
    · rw [if_neg hemp] at h
      obtain ⟨st1, e1, h⟩ := bind_eq_ok.1 h
      obtain ⟨st2, e2, h⟩ := bind_eq_ok.1 h
      obtain ⟨q1, q2, q3, q4⟩ := innerFwd_linv hP hg _ _ _ hf hm e1
      rw [innerBwd_eq] at e2
      obtain ⟨st2', e3, e4⟩ := bind_eq_ok.1 e2
      cases e4
      have hb1 : LInv P n fg.flip ends (swapQS st1).best (swapQS st1).fwd := by
        show LInv P n fg.flip ends st1.best st1.bwd
        rw [q1]; exact hb.lower q3
      obtain ⟨k1, k2, k3, k4⟩ := innerFwd_linv hP hg.flip _ _ _ hb1 q4 e3
      refine ih (swapQS st2') _ ?_ k2 k4 h
      show LInv P n fg starts st2'.best st2'.bwd
      rw [k1]
      exact q2.lower k3

theorem RootInv.linv {roots : List (Nat × Nat)} {s : Side pq} (h : RootInv P n fg roots s) (best : Nat)
    (hlt : ∀ x d, s.look x = some d → d.weight < P.umax) : LInv P n fg roots best s := by
  have hns : ∀ x d, s.look x = some d → d.settled = true → False := by
    intro x d hx hd
    have := (h.lab x d hx).2.2.1
    rw [hd] at this; cases this
  refine ⟨h.tab, hlt, ?_, h.items, ?_, h.root, ?_, ?_, ?_⟩
  · intro x d hx; exact Or.inl (h.lab x d hx).2.2.2
  · intro x d hx hd; exact (hns x d hx hd).elim
  · intro x d hx _; exact Or.inl (h.queued x d hx)
  · intro x d hx hd; exact (hns x d hx hd).elim
  · intro x d hx hd; exact (hns x d hx hd).elim
/-- The weights of roots are representable. -/
theorem addRoots_lt {roots : List (Nat × Nat)} : ∀ {s s' : Side pq}, s.Base n → (∀ x ∈ roots, x.1 < n) →
    (∀ x d, s.look x = some d → d.weight < P.umax) → forM (Side.addRoot P) s roots = .ok s' →
    ∀ x d, s'.look x = some d → d.weight < P.umax := by
  induction roots with
  | nil => intro s s' _ _ h e; cases e; exact h
  | cons r rest ih =>
    intro s s' hb hr h e
    obtain ⟨s1, e1, e2⟩ := bind_eq_ok.1 e
    obtain ⟨r, wr⟩ := r
    have hrn : r < n := hr (r, wr) (List.mem_cons_self ..)
    unfold addRoot at e1
    simp only at e1
    rw [getWeight_ok hb hrn] at e1
    simp only [bind_okM] at e1
    by_cases hlt : wr < s.wt P r
    · rw [if_pos hlt] at e1
      obtain ⟨s2, e3, b', hh, hl⟩ := Side.updateNode_ok hb hrn wr r P.INVALID_EDGE
      rw [e3] at e1
      cases e1
      refine ih (s := { s2 with heap := pq.push ⟨wr, r⟩ s2.heap }) b' (fun x hx => hr x (List.mem_cons_of_mem _ hx)) ?_ e2
      intro x d hx
      have hx' := (hl x).symm.trans hx
      by_cases hxr : x = r
      · rw [if_pos hxr] at hx'
        cases hx'
        unfold wt at hlt
        cases hlk : s.look r with
        | none => rw [hlk] at hlt; exact hlt
        | some d => rw [hlk] at hlt; have := h _ _ hlk; simp only at hlt ⊢; omega
      · rw [if_neg hxr] at hx'
        exact h x d hx'
    · rw [if_neg hlt] at e1
      cases e1
      exact ih hb (fun x hx => hr x (List.mem_cons_of_mem _ hx)) h e2

/-- Both label tables and the weight found after a query that returns. -/
theorem calcPathMulti_linv (hP : P.checked = true) (h : FGood P E n fg) {c c' : PathCalculator pq} (hc : CalcOk n c)
    {starts ends : List (Nat × Nat)} {r : Option ShortestPath} (hq : c.calcPathMulti P fg starts ends = .ok (c', r)) :
    ∃ best, (∀ p, r = some p → best = p.weight) ∧ (r = none → best = P.umax) ∧
      LInv P n fg starts best c'.fwd ∧ LInv P n fg.flip ends best c'.bwd ∧
      pq.items c'.fwd.heap = [] ∧ pq.items c'.bwd.heap = [] := by
  have hg := h.toSGood
  simp only [PathCalculator.calcPathMulti] at hq
  obtain ⟨u, ea, hq⟩ := bind_eq_ok.1 hq
  have hargs : (∀ x ∈ starts, x.1 < n) ∧ (∀ x ∈ ends, x.1 < n) := by
    have := checkArgs_iff.1 ea
    rw [hc.num] at this
    exact ⟨this.sl, this.el⟩
  obtain ⟨⟨best, meet⟩, em, hq⟩ := bind_eq_ok.1 hq
  have hnl := h.n_lt
  obtain ⟨m1, m2, m3⟩ := Tri.of_ok (initialMeeting_ok hP (fun x hx => by have := hargs.1 x hx; omega)) em
  simp only at m1 m2 m3 hq
  obtain ⟨fwd, ef, rf⟩ := addRoots_ok (P := P) (fg := fg) hargs.1 (RootInv.clear hc.f)
  obtain ⟨bwd, eb, rb⟩ := addRoots_ok (P := P) (fg := fg.flip) hargs.2 (RootInv.clear hc.b)
  rw [ef, eb] at hq
  simp only [bind_okM] at hq
  obtain ⟨st, es, hq⟩ := bind_eq_ok.1 hq
  have hclear : ∀ {s : Side pq}, s.Base n → ∀ x d, s.clear.look x = some d → d.weight < P.umax := by
    intro s hs x d hx
    have := ((RootInv.clear (P := P) (fg := fg) hs).lab x d hx).2.2.2
    cases this
  obtain ⟨k1, k2, k3, k4, k5⟩ := mainLoop_linv hP hg _ _ _
    (rf.linv best (addRoots_lt (RootInv.clear (P := P) (fg := fg) hc.f).tab hargs.1 (hclear hc.f) ef))
    (rb.linv best (addRoots_lt (RootInv.clear (P := P) (fg := fg) hc.b).tab hargs.2 (hclear hc.b) eb)) m2 es
  by_cases hm : st.meet = P.umax
  · rw [if_pos (by simpa [Plat.INVALID_NODE] using hm)] at hq
    cases hq
    exact ⟨st.best, by simp, fun _ => k3 hm, k1, k2, k4, k5⟩
  · rw [if_neg (by simpa [Plat.INVALID_NODE] using hm)] at hq
    obtain ⟨_, _, hq⟩ := bind_eq_ok.1 hq
    obtain ⟨_, _, hq⟩ := bind_eq_ok.1 hq
    obtain ⟨_, _, hq⟩ := bind_eq_ok.1 hq
    obtain ⟨_, _, hq⟩ := bind_eq_ok.1 hq
    obtain ⟨_, _, hq⟩ := bind_eq_ok.1 hq
    cases hq
    exact ⟨st.best, by rintro p hp; cases hp; rfl, by simp, k1, k2, k4, k5⟩

/-! ### In terms of the specification -/

theorem labelled_iff {s : Side pq} (h : s.Base n) {x w : Nat} : Labelled s x w ↔ ∃ d, s.look x = some d ∧ d.weight = w := by
  unfold Labelled
  constructor
  · rintro ⟨h1, d, h2, h3⟩
    have hx : x < n := by rw [← h.len]; exact (List.getElem?_eq_some_iff.1 h2).1
    cases hl : s.look x with
    | none => rw [h.isValid_none hx hl] at h1; cases h1
    | some d' =>
      have := getElem?_of_look hl
      rw [h2] at this; cases this
      exact ⟨d, rfl, h3⟩
  · rintro ⟨d, h1, h2⟩
    exact ⟨h.isValid_some h1, d, getElem?_of_look h1, h2⟩

theorem expanded_iff {s : Side pq} (h : s.Base n) {x : Nat} : Expanded s x ↔ ∃ d, s.look x = some d ∧ d.settled = true := by
  unfold Expanded
  constructor
  · intro h1
    have hx : x < n := by
      by_contra hc
      have hv : s.flags.isValid x ≠ .ok true ∧ s.flags.isValid x ≠ .ok false := by
        have : s.flags.validFlags[x]? = none := by
          have := h.flags.len
          simp; omega
        constructor <;> · unfold ValidFlags.isValid idx; rw [this]; intro hh; cases hh
      unfold isSettled at h1
      obtain ⟨v, e1, _⟩ := bind_eq_ok.1 h1
      cases v with
      | true => exact hv.1 e1
      | false => exact hv.2 e1
    rw [isSettled_ok h hx] at h1
    cases h1' : s.look x with
    | none => unfold settledB at h1; rw [h1'] at h1; cases h1
    | some d =>
      unfold settledB at h1; rw [h1'] at h1
      exact ⟨d, rfl, by simpa using h1⟩
  · rintro ⟨d, h1, h2⟩
    rw [isSettled_ok h (h.look_lt h1)]
    unfold settledB; rw [h1]; simp [h2]

theorem mem_window {es : List FastGraphEdge} {b e x y w : Nat} :
    (x, y, w) ∈ ((es.drop b).take (e - b)).map (fun d => (d.baseNode, d.adjNode, d.weight)) ↔
      ∃ id ed, b ≤ id ∧ id < e ∧ es[id]? = some ed ∧ ed.baseNode = x ∧ ed.adjNode = y ∧ ed.weight = w := by
  rw [List.mem_map]
  constructor
  · rintro ⟨ed, h1, h2⟩
    obtain ⟨i, hi⟩ := List.getElem?_of_mem h1
    rw [List.getElem?_take] at hi
    split at hi
    · rw [List.getElem?_drop] at hi
      cases h2
      exact ⟨b + i, ed, by omega, by omega, hi, rfl, rfl, rfl⟩
    · cases hi
  · rintro ⟨id, ed, h1, h2, h3, rfl, rfl, rfl⟩
    refine ⟨ed, ?_, rfl⟩
    apply List.mem_of_getElem? (i := id - b)
    rw [List.getElem?_take, if_pos (by omega), List.getElem?_drop]
    rw [show b + (id - b) = id by omega]
    exact h3

theorem upEdges_iff (h : FGood P E n fg) {x y w : Nat} :
    upEdges fg x y w ↔ ∃ id ed, x < n ∧ fg.OutAt x id ed ∧ ed.adjNode = y ∧ ed.weight = w := by
  unfold upEdges
  constructor
  · rintro ⟨l, h1, h2⟩
    have hx : x < n := by
      by_contra hc
      unfold storedOut FastGraph.beginOutEdges at h1
      have : fg.ranks[x]? = none := by have := h.lenR; simp; omega
      obtain ⟨b, e1, _⟩ := bind_eq_ok.1 h1
      obtain ⟨b, e1, _⟩ := bind_eq_ok.1 e1
      unfold idx at e1; rw [this] at e1; cases e1
    unfold storedOut at h1
    rw [h.beginOut hx, h.endOut hx] at h1
    cases h1
    obtain ⟨id, ed, k1, k2, k3, k4, k5, k6⟩ := mem_window.1 h2
    exact ⟨id, ed, hx, ⟨k1, k2, k3⟩, k5, k6⟩
  · rintro ⟨id, ed, hx, h1, h2, h3⟩
    refine ⟨_, by unfold storedOut; rw [h.beginOut hx, h.endOut hx]; rfl, ?_⟩
    exact mem_window.2 ⟨id, ed, h1.1, h1.2.1, h1.2.2, (h.fwd x hx id ed h1).1, h2, h3⟩

theorem downEdges_iff (h : FGood P E n fg) {x y w : Nat} :
    downEdges fg x y w ↔ ∃ id ed, x < n ∧ fg.InAt x id ed ∧ ed.adjNode = y ∧ ed.weight = w := by
  unfold downEdges
  constructor
  · rintro ⟨l, h1, h2⟩
    have hx : x < n := by
      by_contra hc
      unfold storedIn FastGraph.beginInEdges at h1
      have : fg.ranks[x]? = none := by have := h.lenR; simp; omega
      obtain ⟨b, e1, _⟩ := bind_eq_ok.1 h1
      obtain ⟨b, e1, _⟩ := bind_eq_ok.1 e1
      unfold idx at e1; rw [this] at e1; cases e1
    unfold storedIn at h1
    rw [h.beginIn hx, h.endIn hx] at h1
    cases h1
    obtain ⟨id, ed, k1, k2, k3, k4, k5, k6⟩ := mem_window.1 h2
    exact ⟨id, ed, hx, ⟨k1, k2, k3⟩, k5, k6⟩
  · rintro ⟨id, ed, hx, h1, h2, h3⟩
    refine ⟨_, by unfold storedIn; rw [h.beginIn hx, h.endIn hx]; rfl, ?_⟩
    exact mem_window.2 ⟨id, ed, h1.1, h1.2.1, h1.2.2, (h.bwd x hx id ed h1).1, h2, h3⟩

/-- The invariant at the end of a search. -/
theorem LInv.space {out inn : EdgeRel} {roots : List (Nat × Nat)} {best : Nat} {s : Side pq}
    (h : LInv P n fg roots best s) (he : pq.items s.heap = [])
    (ho : ∀ {x y w}, out x y w ↔ ∃ id ed, x < n ∧ fg.OutAt x id ed ∧ ed.adjNode = y ∧ ed.weight = w)
    (hi : ∀ {x y w}, inn x y w ↔ ∃ id ed, x < n ∧ fg.InAt x id ed ∧ ed.adjNode = y ∧ ed.weight = w) :
    SearchSpace P.umax out inn roots best (Labelled s) (Expanded s) := by
  have hl : ∀ {x w}, Labelled s x w ↔ _ := labelled_iff h.tab
  have hx : ∀ {x}, Expanded s x ↔ _ := expanded_iff h.tab
  refine ⟨?_, ?_, ?_, ?_, ?_, ?_, ?_, ?_⟩
  · intro x w w' h1 h2
    obtain ⟨d, g1, rfl⟩ := hl.1 h1
    obtain ⟨d', g2, rfl⟩ := hl.1 h2
    rw [g1] at g2; cases g2; rfl
  · intro x w h1
    obtain ⟨d, g1, rfl⟩ := hl.1 h1
    exact h.lt x d g1
  · intro x h1
    obtain ⟨d, h1, h2⟩ := hx.1 h1
    exact ⟨d.weight, hl.2 ⟨d, h1, rfl⟩⟩
  · intro x w h1
    obtain ⟨d, g1, rfl⟩ := hl.1 h1
    rcases h.lab x d g1 with k | ⟨k1, ed, dp, k2, k3, k4, k5, k6⟩
    · exact Or.inl k
    · exact Or.inr ⟨d.parent, dp.weight, ed.weight, hx.2 ⟨dp, k4, k5⟩, hl.2 ⟨dp, k4, rfl⟩,
        ho.2 ⟨_, ed, k1, k2, k3, rfl⟩, k6.symm⟩
  · intro r w hr hw
    obtain ⟨d, k1, k2⟩ := h.root r w hr hw
    exact ⟨d.weight, k2, hl.2 ⟨d, k1, rfl⟩⟩
  · intro x w y e h1 h2 h3 h4
    obtain ⟨d, g1, hs⟩ := hx.1 h1
    obtain ⟨d', g2, rfl⟩ := hl.1 h2
    rw [g1] at g2; cases g2
    obtain ⟨id, ed, _, k1, rfl, rfl⟩ := ho.1 h3
    obtain ⟨d', q1, q2⟩ := h.relaxed x d g1 hs id ed k1 h4
    exact ⟨d'.weight, q2, hl.2 ⟨d', q1, rfl⟩⟩
  · intro x w y wy e h1 h2 h3 h4
    obtain ⟨d, g1, hs⟩ := hx.1 h1
    obtain ⟨d', g2, rfl⟩ := hl.1 h2
    rw [g1] at g2; cases g2
    obtain ⟨id, ed, _, k1, rfl, rfl⟩ := hi.1 h3
    obtain ⟨dy, g4, rfl⟩ := hl.1 h4
    by_contra hc
    exact h.nostall x d g1 hs ⟨id, ed, dy, k1, g4, by omega⟩
  · intro x w h1 h2
    obtain ⟨d, g1, rfl⟩ := hl.1 h1
    have hs : d.settled = false := by
      cases hs : d.settled with
      | false => rfl
      | true => exact absurd (hx.2 ⟨d, g1, hs⟩) h2
    rcases h.unsettled x d g1 hs with k | ⟨id, ed, dy, k1, k2, k3⟩ | k
    · rw [he] at k; cases k
    · exact Or.inl ⟨ed.adjNode, dy.weight, ed.weight, hi.2 ⟨id, ed, h.tab.look_lt g1, k1, rfl, rfl⟩,
        hl.2 ⟨dy, k2, rfl⟩, k3⟩
    · exact Or.inr k

/-- Weights belong to walks along `out` from a root. -/
theorem _root_.FP.Spec.SearchSpace.walk {umax : Nat} {out inn : EdgeRel} {roots : List (Nat × Nat)} {bound : Nat}
    {label : Nat → Nat → Prop} {expanded : Nat → Prop} (h : SearchSpace umax out inn roots bound label expanded)
    (rk : Nat → Nat) (hup : ∀ x y e, out x y e → rk x < rk y) :
    ∀ k x w, rk x < k → label x w → ∃ r w₀ a, (r, w₀) ∈ roots ∧ Wk out r x a ∧ w = w₀ + a := by
  intro k
  induction k with
  | zero => intro x w h; omega
  | succ k ih =>
    intro x w hk hl
    rcases h.origin x w hl with h1 | ⟨y, wy, e, h1, h2, h3, h4⟩
    · exact ⟨x, w, 0, h1, .nil x, by omega⟩
    · obtain ⟨r, w₀, a, k1, k2, k3⟩ := ih y wy (by have := hup _ _ _ h3; omega) h2
      exact ⟨r, w₀, a + e, k1, k2.append (.single h3), by omega⟩

end FP
