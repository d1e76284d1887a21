import Verif.Model.PathCalculator
import Verif.Proofs.SearchGraph
import Verif.Proofs.Table
/-! # One side of the bidirectional search -/
namespace FP
open Spec

variable {pq : PQ} {P : Plat} {n : Nat} {fg : FastGraph} {E : EdgeRel}

namespace Side

/-- Label of node `x`. -/
def look (s : Side pq) (x : Nat) : Option PData := lookT s.data s.flags x

/-- Shape of the label table. -/
def Base (n : Nat) (s : Side pq) : Prop := TabOk n s.data s.flags

/-- Whether `x` is settled. -/
def settledB (s : Side pq) (x : Nat) : Bool :=
  match s.look x with
  | some d => d.settled
  | none => false

/-- Label weight, `usize::MAX` if there is none. -/
def wt (P : Plat) (s : Side pq) (x : Nat) : Nat :=
  match s.look x with
  | some d => d.weight
  | none => P.umax

variable {s : Side pq}

theorem Base.new (P : Plat) (pq : PQ) (n : Nat) : Base n (Side.new P pq n) :=
  ⟨by simp [Side.new], ValidFlags.Ok.new n⟩

theorem isSettled_ok (h : Base n s) {x : Nat} (hx : x < n) : s.isSettled x = .ok (s.settledB x) := by
  unfold isSettled settledB
  cases hl : s.look x with
  | none => rw [h.isValid_none hx hl]; rfl
  | some d => rw [h.isValid_some hl]; simp only [bind_okM, if_true]; rw [idx_of_look hl]; rfl

theorem getWeight_ok (h : Base n s) {x : Nat} (hx : x < n) : s.getWeight P x = .ok (s.wt P x) := by
  unfold getWeight wt
  cases hl : s.look x with
  | none => rw [h.isValid_none hx hl]; rfl
  | some d => rw [h.isValid_some hl]; simp only [bind_okM, if_true]; rw [idx_of_look hl]; rfl

theorem updateNode_ok (h : Base n s) {x : Nat} (hx : x < n) (w p i : Nat) :
    ∃ s', s.updateNode x w p i = .ok s' ∧ Base n s' ∧ s'.heap = s.heap ∧
      ∀ y, s'.look y = if y = x then some ⟨false, w, p, i⟩ else s.look y := by
  obtain ⟨f', e1, e2, ok, hl⟩ := TabOk.update h hx (⟨false, w, p, i⟩ : PData)
  refine ⟨{ s with flags := f', data := s.data.set x ⟨false, w, p, i⟩ }, ?_, ok, rfl, hl⟩
  unfold updateNode
  rw [e1, e2]; rfl

theorem wt_some {x : Nat} {d : PData} (h : s.look x = some d) : s.wt P x = d.weight := by
  unfold wt; rw [h]

end Side
open Side

/-- No walk from a root to `x` is cheaper than `d`. -/
def MinAt (E : EdgeRel) (roots : List (Nat × Nat)) (x d : Nat) : Prop :=
  ∀ r wr a, (r, wr) ∈ roots → Wk E r x a → d ≤ wr + a

/-- How the label `d` of `x` came about. -/
def Trace (P : Plat) (n : Nat) (fg : FastGraph) (roots : List (Nat × Nat)) (look : Nat → Option PData) (x : Nat)
    (d : PData) : Prop :=
  (d.incEdge = P.umax ∧ d.parent = x ∧ (x, d.weight) ∈ roots) ∨
  (d.incEdge ≠ P.umax ∧ d.parent < n ∧ ∃ ed, fg.OutAt d.parent d.incEdge ed ∧ ed.adjNode = x ∧
    ∃ dp, look d.parent = some dp ∧ dp.weight + ed.weight ≤ d.weight)

/-- Labels only get better. -/
def Better (l l' : Nat → Option PData) : Prop := ∀ x d, l x = some d → ∃ d', l' x = some d' ∧ d'.weight ≤ d.weight

theorem Better.refl (l : Nat → Option PData) : Better l l := fun _ d h => ⟨d, h, Nat.le_refl _⟩

theorem Better.trans {a b c : Nat → Option PData} (h : Better a b) (h' : Better b c) : Better a c := by
  intro x d hd
  obtain ⟨d1, h1, h2⟩ := h x d hd
  obtain ⟨d2, h3, h4⟩ := h' x d1 h1
  exact ⟨d2, h3, Nat.le_trans h4 h2⟩

theorem Trace.mono {roots : List (Nat × Nat)} {l l' : Nat → Option PData} (h : Better l l') {x : Nat} {d : PData}
    (ht : Trace P n fg roots l x d) : Trace P n fg roots l' x d := by
  rcases ht with ht | ⟨h1, h2, ed, h3, h4, dp, h5, h6⟩
  · exact Or.inl ht
  · obtain ⟨dp', h7, h8⟩ := h _ _ h5
    exact Or.inr ⟨h1, h2, ed, h3, h4, dp', h7, by omega⟩

/-- Invariant of one side of the search. `D` is a bound up to which the search is complete. -/
structure SInv (P : Plat) (E : EdgeRel) (n : Nat) (fg : FastGraph) (roots : List (Nat × Nat)) (D : Nat) (s : Side pq) :
    Prop where
  tab : s.Base n
  lab : ∀ x d, s.look x = some d → Trace P n fg roots s.look x d
  items : ∀ it ∈ pq.items s.heap, ∃ d, s.look it.nodeId = some d ∧ d.weight ≤ it.weight
  settled : ∀ x d, s.look x = some d → d.settled = true → ∀ it ∈ pq.items s.heap, d.weight ≤ it.weight
  root : ∀ r wr, (r, wr) ∈ roots → wr < P.umax → ∃ d, s.look r = some d ∧ d.weight ≤ wr
  queued : ∀ x d, s.look x = some d → d.settled = false → MinAt E roots x d.weight → d.weight ≤ D →
    (⟨d.weight, x⟩ : HeapItem) ∈ pq.items s.heap
  relaxed : ∀ x d, s.look x = some d → d.settled = true → MinAt E roots x d.weight → ∀ y w, fg.FE x y w →
    d.weight + w ≤ D → d.weight + w < P.umax → ∃ d', s.look y = some d' ∧ d'.weight ≤ d.weight + w

/-- Labels stand for real walks. -/
theorem trace_sound (hg : SGood P E n fg) {roots : List (Nat × Nat)} {look : Nat → Option PData}
    (hlab : ∀ x d, look x = some d → Trace P n fg roots look x d) :
    ∀ k x d, fg.rk x < k → look x = some d → ∃ r wr a, (r, wr) ∈ roots ∧ Wk E r x a ∧ wr + a ≤ d.weight := by
  intro k
  induction k with
  | zero => intro x d h; omega
  | succ k ih =>
    intro x d hk hl
    rcases hlab x d hl with ⟨_, _, h3⟩ | ⟨_, h2, ed, h3, h4, dp, h5, h6⟩
    · exact ⟨x, d.weight, 0, h3, .nil x, by omega⟩
    · obtain ⟨g1, g2, g3⟩ := hg.up _ h2 _ _ h3
      rw [h4] at g2 g3
      obtain ⟨r, wr, a, k1, k2, k3⟩ := ih d.parent dp (by omega) h5
      exact ⟨r, wr, a + ed.weight, k1, k2.append g3, by omega⟩

theorem SInv.sound {roots : List (Nat × Nat)} {D : Nat} {s : Side pq} (h : SInv P E n fg roots D s)
    (hg : SGood P E n fg) {x : Nat} {d : PData} (hl : s.look x = some d) :
    ∃ r wr a, (r, wr) ∈ roots ∧ Wk E r x a ∧ wr + a ≤ d.weight :=
  trace_sound hg h.lab _ x d (Nat.lt_succ_self _) hl

theorem SInv.min_le {roots : List (Nat × Nat)} {D : Nat} {s : Side pq} (h : SInv P E n fg roots D s)
    (hg : SGood P E n fg) {x m : Nat} {d : PData} (hl : s.look x = some d) (hm : MinAt E roots x m) : m ≤ d.weight := by
  obtain ⟨r, wr, a, h1, h2, h3⟩ := h.sound hg hl
  have := hm r wr a h1 h2
  omega

/-! ### Stalling -/

/-- A stalled node is not reached at minimal weight. -/
theorem stallScan_ok (hP : P.checked = true) (hg : SGood P E n fg) {roots : List (Nat × Nat)} {s : Side pq}
    (hs : ∀ x d, s.look x = some d → Trace P n fg roots s.look x d) (ht : s.Base n) {curr : HeapItem}
    (hc : curr.nodeId < n) : ∀ l : List Nat, (∀ id ∈ l, ∃ ed, fg.InAt curr.nodeId id ed) →
    Tri (s.stallScan P fg.edgesBwd curr l) (fun r => r = true → ¬ MinAt E roots curr.nodeId curr.weight) := by
  intro l
  induction l with
  | nil => intro _; simp [stallScan]
  | cons id rest ih =>
    intro hl
    obtain ⟨ed, hat⟩ := hl id (List.mem_cons_self ..)
    have ih' := ih (fun i hi => hl i (List.mem_cons_of_mem _ hi))
    obtain ⟨g1, g2, g3⟩ := hg.dn _ hc _ _ hat
    unfold stallScan
    rw [idx_some hat.2.2]
    simp only [bind_okM]
    rw [getWeight_ok ht g1]
    simp only [bind_okM]
    by_cases hmax : s.wt P ed.adjNode = P.umax
    · rw [if_pos (by simpa [Plat.WEIGHT_MAX] using hmax)]
      exact ih'
    · rw [if_neg (by simpa [Plat.WEIGHT_MAX] using hmax)]
      refine Tri.bind (Tri_addW hP _ _) ?_
      rintro w ⟨rfl, _⟩
      by_cases hlt : s.wt P ed.adjNode + ed.weight < curr.weight
      · rw [if_pos hlt]
        simp only [Tri_ok]
        intro _ hm
        cases hlk : s.look ed.adjNode with
        | none => unfold wt at hmax; rw [hlk] at hmax; exact hmax rfl
        | some d =>
          rw [wt_some hlk] at hlt
          obtain ⟨r, wr, a, h1, h2, h3⟩ := trace_sound hg hs _ _ d (Nat.lt_succ_self _) hlk
          have := hm r wr _ h1 (h2.append g3)
          omega
      · rw [if_neg hlt]
        exact ih'

theorem isStallableFwd_ok (hP : P.checked = true) (hg : SGood P E n fg) {roots : List (Nat × Nat)} {s : Side pq}
    (hs : ∀ x d, s.look x = some d → Trace P n fg roots s.look x d) (ht : s.Base n) {curr : HeapItem}
    (hc : curr.nodeId < n) :
    Tri (PathCalculator.isStallableFwd P fg s curr) (fun r => r = true → ¬ MinAt E roots curr.nodeId curr.weight) := by
  unfold PathCalculator.isStallableFwd
  rw [hg.beginIn hc, hg.endIn hc]
  simp only [bind_okM]
  refine stallScan_ok hP hg hs ht hc _ ?_
  intro id hid
  simp only [rangeFrom, List.mem_range'_1] at hid
  exact hg.inAt hc hid.1 (by omega)

/-! ### Relaxation -/

/-- Invariant of the relaxation loop for `curr`, started in `s₀`; edge `k` is next. -/
structure RelInv (P : Plat) (E : EdgeRel) (n : Nat) (fg : FastGraph) (roots : List (Nat × Nat)) (D : Nat)
    (curr : HeapItem) (s₀ : Side pq) (k : Nat) (s : Side pq) : Prop where
  tab : s.Base n
  lab : ∀ x d, s.look x = some d → Trace P n fg roots s.look x d
  items : ∀ it ∈ pq.items s.heap, curr.weight ≤ it.weight ∧ ∃ d, s.look it.nodeId = some d ∧ d.weight ≤ it.weight
  better : Better s₀.look s.look
  cur : s.look curr.nodeId = s₀.look curr.nodeId
  keep : ∀ x d, s₀.look x = some d → d.settled = true → s.look x = some d
  back : ∀ x d, s.look x = some d → d.settled = true → s₀.look x = some d
  queued : ∀ x d, x ≠ curr.nodeId → s.look x = some d → d.settled = false → MinAt E roots x d.weight → d.weight ≤ D →
    (⟨d.weight, x⟩ : HeapItem) ∈ pq.items s.heap
  done : ∀ id ed, fg.OutAt curr.nodeId id ed → id < k → curr.weight + ed.weight < P.umax →
    ∃ d, s.look ed.adjNode = some d ∧ d.weight ≤ curr.weight + ed.weight
  len : (pq.items s.heap).length ≤ (pq.items s₀.heap).length + (k - fg.bo curr.nodeId)

theorem relaxEdge_ok (hP : P.checked = true) (hg : SGood P E n fg) {roots : List (Nat × Nat)} {D : Nat}
    {curr : HeapItem} {s₀ s : Side pq} {k : Nat} (hc : curr.nodeId < n)
    (hset : ∀ x d, s₀.look x = some d → d.settled = true → d.weight ≤ curr.weight)
    (hcur : ∃ d, s₀.look curr.nodeId = some d ∧ d.weight ≤ curr.weight)
    (hb : fg.bo curr.nodeId ≤ k) (he : k < fg.eo curr.nodeId) (h : RelInv P E n fg roots D curr s₀ k s) :
    Tri (s.relaxEdge P fg.edgesFwd curr k) (RelInv P E n fg roots D curr s₀ (k + 1)) := by
  obtain ⟨ed, hat⟩ := hg.outAt hc hb he
  obtain ⟨g1, g2, g3⟩ := hg.up _ hc _ _ hat
  unfold relaxEdge
  rw [idx_some hat.2.2]
  simp only [bind_okM]
  refine Tri.bind (Tri_addW hP _ _) ?_
  rintro w ⟨rfl, hw⟩
  rw [getWeight_ok h.tab g1]
  simp only [bind_okM]
  have hedk : ∀ id ed', fg.OutAt curr.nodeId id ed' → id < k + 1 → ¬ id < k → ed' = ed := by
    intro id ed' hat' h1 h2
    have : id = k := by omega
    subst this
    have := hat'.2.2.symm.trans hat.2.2
    cases this; rfl
  by_cases hlt : curr.weight + ed.weight < s.wt P ed.adjNode
  · rw [if_pos hlt]
    obtain ⟨s', e, b', hh, hl⟩ := Side.updateNode_ok h.tab g1 (curr.weight + ed.weight) curr.nodeId k
    rw [e]
    simp only [bind_okM, Tri_ok]
    have hne : ed.adjNode ≠ curr.nodeId := fun e' => by rw [e'] at g2; omega
    have hL : ∀ y, ({ s' with heap := pq.push ⟨curr.weight + ed.weight, ed.adjNode⟩ s'.heap } : Side pq).look y
        = if y = ed.adjNode then some ⟨false, curr.weight + ed.weight, curr.nodeId, k⟩ else s.look y := hl
    have hbetter : Better s.look
        ({ s' with heap := pq.push ⟨curr.weight + ed.weight, ed.adjNode⟩ s'.heap } : Side pq).look := by
      intro x d hx
      rw [hL]
      by_cases hxa : x = ed.adjNode
      · subst hxa
        rw [if_pos rfl]
        rw [wt_some hx] at hlt
        exact ⟨_, rfl, by simp only; omega⟩
      · rw [if_neg hxa]; exact ⟨d, hx, Nat.le_refl _⟩
    have hnotset : ∀ d, s.look ed.adjNode = some d → d.settled = false := by
      intro d hd
      cases hds : d.settled with
      | false => rfl
      | true =>
        have h1 := hset _ _ (h.back _ _ hd hds) hds
        rw [wt_some hd] at hlt
        omega
    obtain ⟨dc, hdc, hdcw⟩ := hcur
    have hdc' : s.look curr.nodeId = some dc := by rw [h.cur]; exact hdc
    refine ⟨b', ?_, ?_, h.better.trans hbetter, ?_, ?_, ?_, ?_, ?_, ?_⟩
    · intro x d hx
      rw [hL] at hx
      by_cases hxa : x = ed.adjNode
      · rw [if_pos hxa] at hx
        cases hx
        refine Or.inr ⟨?_, hc, ed, hat, hxa.symm, dc, ?_, ?_⟩
        · have h1 := hg.eo_le hc; have h2 := hg.capF; simp only; omega
        · simp only; rw [hL, if_neg (Ne.symm hne)]; exact hdc'
        · simp only; omega
      · rw [if_neg hxa] at hx
        exact (h.lab x d hx).mono hbetter
    · intro it hit
      rw [PQ.mem_push, hh] at hit
      rcases hit with rfl | hit
      · exact ⟨by simp only; omega, ⟨false, curr.weight + ed.weight, curr.nodeId, k⟩, by rw [hL]; simp, Nat.le_refl _⟩
      · obtain ⟨h1, d, h2, h3⟩ := h.items it hit
        obtain ⟨d', h4, h5⟩ := hbetter _ _ h2
        exact ⟨h1, d', h4, by omega⟩
    · rw [hL, if_neg (Ne.symm hne)]; exact h.cur
    · intro x d hx hd
      have h1 := h.keep x d hx hd
      rw [hL]
      by_cases hxa : x = ed.adjNode
      · subst hxa
        have := hnotset d h1
        rw [hd] at this; cases this
      · rw [if_neg hxa]; exact h1
    · intro x d hx hd
      rw [hL] at hx
      by_cases hxa : x = ed.adjNode
      · rw [if_pos hxa] at hx; cases hx; cases hd
      · rw [if_neg hxa] at hx; exact h.back x d hx hd
    · intro x d hxc hx hd hm hD
      rw [PQ.mem_push, hh]
      rw [hL] at hx
      by_cases hxa : x = ed.adjNode
      · rw [if_pos hxa] at hx; cases hx; left; rw [hxa]
      · rw [if_neg hxa] at hx
        exact Or.inr (h.queued x d hxc hx hd hm hD)
    · intro id ed' hat' hid hlt'
      by_cases hidk : id < k
      · obtain ⟨d, h1, h2⟩ := h.done id ed' hat' hidk hlt'
        obtain ⟨d', h3, h4⟩ := hbetter _ _ h1
        exact ⟨d', h3, by omega⟩
      · have := hedk id ed' hat' hid hidk
        subst this
        exact ⟨_, by rw [hL, if_pos rfl], Nat.le_refl _⟩
    · rw [PQ.length_push, hh]
      have := h.len
      omega
  · rw [if_neg hlt]
    simp only [Tri_ok]
    refine ⟨h.tab, h.lab, h.items, h.better, h.cur, h.keep, h.back, h.queued, ?_, ?_⟩
    · intro id ed' hat' hid hlt'
      by_cases hidk : id < k
      · exact h.done id ed' hat' hidk hlt'
      · have := hedk id ed' hat' hid hidk
        subst this
        cases hlk : s.look ed'.adjNode with
        | none => unfold wt at hlt; rw [hlk] at hlt; simp only at hlt; omega
        | some d => rw [wt_some hlk] at hlt; exact ⟨d, rfl, by omega⟩
    · have := h.len
      omega

theorem relaxAll_ok (hP : P.checked = true) (hg : SGood P E n fg) {roots : List (Nat × Nat)} {D : Nat}
    {curr : HeapItem} {s₀ : Side pq} (hc : curr.nodeId < n)
    (hset : ∀ x d, s₀.look x = some d → d.settled = true → d.weight ≤ curr.weight)
    (hcur : ∃ d, s₀.look curr.nodeId = some d ∧ d.weight ≤ curr.weight)
    (h : RelInv P E n fg roots D curr s₀ (fg.bo curr.nodeId) s₀) :
    Tri (forM (Side.relaxEdge P fg.edgesFwd curr) s₀ (rangeFrom (fg.bo curr.nodeId) (fg.eo curr.nodeId)))
      (RelInv P E n fg roots D curr s₀ (fg.eo curr.nodeId)) :=
  Tri_forM_range' (hg.bo_le hc) (RelInv P E n fg roots D curr s₀) h
    (fun _ _ h1 h2 h3 => relaxEdge_ok hP hg hc hset hcur h1 h2 h3)

/-! ### Adding the roots -/

/-- State while roots are added: `done` are the roots so far. -/
structure RootInv (P : Plat) (n : Nat) (fg : FastGraph) (done : List (Nat × Nat)) (s : Side pq) : Prop where
  tab : s.Base n
  lab : ∀ x d, s.look x = some d → d.incEdge = P.umax ∧ d.parent = x ∧ d.settled = false ∧ (x, d.weight) ∈ done
  items : ∀ it ∈ pq.items s.heap, ∃ d, s.look it.nodeId = some d ∧ d.weight ≤ it.weight
  root : ∀ r wr, (r, wr) ∈ done → wr < P.umax → ∃ d, s.look r = some d ∧ d.weight ≤ wr
  queued : ∀ x d, s.look x = some d → (⟨d.weight, x⟩ : HeapItem) ∈ pq.items s.heap
  len : (pq.items s.heap).length ≤ done.length

theorem addRoot_ok {done : List (Nat × Nat)} {s : Side pq} (h : RootInv P n fg done s) {x : Nat × Nat} (hx : x.1 < n) :
    ∃ s', Side.addRoot P s x = .ok s' ∧ RootInv P n fg (done ++ [x]) s' := by
  obtain ⟨r, wr⟩ := x
  simp only at hx
  unfold addRoot
  simp only
  rw [getWeight_ok h.tab hx]
  simp only [bind_okM]
  by_cases hlt : wr < s.wt P r
  · rw [if_pos hlt]
    obtain ⟨s', e, b', hh, hl⟩ := Side.updateNode_ok h.tab hx wr r P.INVALID_EDGE
    rw [e]
    simp only [bind_okM]
    refine ⟨_, rfl, b', ?_, ?_, ?_, ?_, ?_⟩
    · intro y d hy
      have hy' := (hl y).symm.trans hy
      by_cases hyr : y = r
      · rw [if_pos hyr] at hy'
        cases hy'
        exact ⟨rfl, hyr.symm, rfl, by simp [hyr]⟩
      · rw [if_neg hyr] at hy'
        obtain ⟨h1, h2, h3, h4⟩ := h.lab y d hy'
        exact ⟨h1, h2, h3, by simp [h4]⟩
    · intro it hit
      rw [PQ.mem_push, hh] at hit
      have hlk : ∀ y, Side.look ({ s' with heap := pq.push ⟨wr, r⟩ s'.heap } : Side pq) y = _ := hl
      rcases hit with rfl | hit
      · rw [hlk]; exact ⟨_, by rw [if_pos rfl], Nat.le_refl _⟩
      · obtain ⟨d, h1, h2⟩ := h.items it hit
        rw [hlk]
        by_cases hyr : it.nodeId = r
        · rw [if_pos hyr]
          rw [hyr] at h1
          rw [wt_some h1] at hlt
          exact ⟨_, rfl, by simp only; omega⟩
        · rw [if_neg hyr]; exact ⟨d, h1, h2⟩
    · intro r' wr' hm hlt'
      have hlk : ∀ y, Side.look ({ s' with heap := pq.push ⟨wr, r⟩ s'.heap } : Side pq) y = _ := hl
      rw [hlk]
      rcases List.mem_append.1 hm with hm | hm
      · obtain ⟨d, h1, h2⟩ := h.root r' wr' hm hlt'
        by_cases hyr : r' = r
        · rw [if_pos hyr]
          rw [hyr] at h1
          rw [wt_some h1] at hlt
          exact ⟨_, rfl, by simp only; omega⟩
        · rw [if_neg hyr]; exact ⟨d, h1, h2⟩
      · simp at hm
        obtain ⟨rfl, rfl⟩ := hm
        rw [if_pos rfl]
        exact ⟨_, rfl, Nat.le_refl _⟩
    · intro y d hy
      have hy' := (hl y).symm.trans hy
      rw [PQ.mem_push, hh]
      by_cases hyr : y = r
      · rw [if_pos hyr] at hy'
        cases hy'
        left; rw [hyr]
      · rw [if_neg hyr] at hy'
        exact Or.inr (h.queued y d hy')
    · rw [PQ.length_push, hh]
      have := h.len
      simp; omega
  · rw [if_neg hlt]
    refine ⟨s, rfl, h.tab, ?_, h.items, ?_, h.queued, ?_⟩
    · intro y d hy
      obtain ⟨h1, h2, h3, h4⟩ := h.lab y d hy
      exact ⟨h1, h2, h3, by simp [h4]⟩
    · intro r' wr' hm hlt'
      rcases List.mem_append.1 hm with hm | hm
      · exact h.root r' wr' hm hlt'
      · simp at hm
        obtain ⟨rfl, rfl⟩ := hm
        cases hlk : s.look r' with
        | none => unfold wt at hlt; rw [hlk] at hlt; simp only at hlt; omega
        | some d => rw [wt_some hlk] at hlt; exact ⟨d, rfl, by omega⟩
    · have := h.len
      simp; omega

theorem addRoots_ok {roots : List (Nat × Nat)} {s : Side pq} (hr : ∀ x ∈ roots, x.1 < n) (h : RootInv P n fg [] s) :
    ∃ s', forM (Side.addRoot P) s roots = .ok s' ∧ RootInv P n fg roots s' :=
  forM_ok_of (fun pre s => RootInv P n fg pre s) h
    (fun _ a _ _ hl hI => addRoot_ok hI (hr a (by rw [hl]; simp)))

theorem RootInv.clear {s : Side pq} (h : s.Base n) : RootInv P n fg [] s.clear := by
  obtain ⟨ok, hl⟩ := TabOk.invalidate h
  have hl' : ∀ x, s.clear.look x = none := hl
  refine ⟨ok, ?_, ?_, by simp, ?_, by simp [Side.clear, pq.items_empty]⟩
  · intro x d hx; rw [hl'] at hx; cases hx
  · intro it hit; simp [Side.clear, pq.items_empty] at hit
  · intro x d hx; rw [hl'] at hx; cases hx

theorem RootInv.sinv {roots : List (Nat × Nat)} {s : Side pq} (h : RootInv P n fg roots s) (D : Nat) :
    SInv P E n fg roots D s := by
  refine ⟨h.tab, ?_, h.items, ?_, h.root, ?_, ?_⟩
  · intro x d hx
    obtain ⟨h1, h2, h3, h4⟩ := h.lab x d hx
    exact Or.inl ⟨h1, h2, h4⟩
  · intro x d hx hd
    have := (h.lab x d hx).2.2.1
    rw [hd] at this; cases this
  · intro x d hx _ _ _; exact h.queued x d hx
  · intro x d hx hd
    have := (h.lab x d hx).2.2.1
    rw [hd] at this; cases this

end FP
