import Verif.Model.Dijkstra
import Verif.Proofs.WitnessComplete
/-! # The reference Dijkstra -/
namespace FP
namespace Dijkstra
open Spec

variable {pq : PQ} {P : Plat} {n : Nat} {g : PreparationGraph} {s t : Nat} {d : Dijkstra pq}

/-- Label of node `x`. -/
def look (d : Dijkstra pq) (x : Nat) : Option DData := lookT d.data d.validFlags x

/-- Shape invariant. -/
structure Base (n : Nat) (d : Dijkstra pq) : Prop where
  num : d.numNodes = n
  tab : TabOk n d.data d.validFlags

theorem Base.new (P : Plat) (pq : PQ) (n : Nat) : Base n (Dijkstra.new P pq n) :=
  ⟨rfl, by simp [Dijkstra.new], ValidFlags.Ok.new n⟩

/-- Whether `x` is settled. -/
def settledB (d : Dijkstra pq) (x : Nat) : Bool :=
  match d.look x with
  | some y => y.settled
  | none => false

/-- label weight, `usize::MAX` if there is no label -/
def wt (P : Plat) (d : Dijkstra pq) (x : Nat) : Nat :=
  match d.look x with
  | some y => y.weight
  | none => P.umax

theorem wt_some {x : Nat} {y : DData} (h : d.look x = some y) : d.wt P x = y.weight := by unfold wt; rw [h]
theorem wt_none {x : Nat} (h : d.look x = none) : d.wt P x = P.umax := by unfold wt; rw [h]
theorem settledB_some {x : Nat} {y : DData} (h : d.look x = some y) : d.settledB x = y.settled := by unfold settledB; rw [h]

theorem isSettled_ok (h : Base n d) {x : Nat} (hx : x < n) : d.isSettled x = .ok (d.settledB x) := by
  unfold isSettled settledB
  cases hl : d.look x with
  | none => rw [h.tab.isValid_none hx hl]; rfl
  | some d => rw [h.tab.isValid_some hl]; simp only [bind_okM, if_true]; rw [idx_of_look hl]; rfl

theorem getWeight_ok (h : Base n d) {x : Nat} (hx : x < n) : d.getWeight P x = .ok (d.wt P x) := by
  unfold getWeight wt
  cases hl : d.look x with
  | none => rw [h.tab.isValid_none hx hl]; rfl
  | some d => rw [h.tab.isValid_some hl]; simp only [bind_okM, if_true]; rw [idx_of_look hl]; rfl

theorem updateNode_ok (h : Base n d) {x : Nat} (hx : x < n) (w p : Nat) :
    ∃ d', d.updateNode x w p = .ok d' ∧ Base n d' ∧ d'.heap = d.heap ∧
      ∀ y, d'.look y = if y = x then some ⟨false, w, p⟩ else d.look y := by
  obtain ⟨f', e1, e2, ok, hl⟩ := h.tab.update hx (⟨false, w, p⟩ : DData)
  refine ⟨{ d with validFlags := f', data := d.data.set x ⟨false, w, p⟩ }, ?_, ⟨h.num, ok⟩, rfl, hl⟩
  unfold updateNode
  rw [e1, e2]; rfl

/-- Search invariant. -/
structure Inv (P : Plat) (n : Nat) (g : PreparationGraph) (s : Nat) (d : Dijkstra pq) : Prop extends Base n d where
  root : d.wt P s = 0
  fit : ∀ x y, d.look x = some y → y.weight < P.umax
  par : ∀ x y, d.look x = some y → (x = s ∧ y.parent = P.umax ∧ y.weight = 0) ∨
    ∃ p w, d.look y.parent = some p ∧ p.settled = true ∧ g.rel y.parent x w ∧ y.weight = p.weight + w
  items : ∀ it ∈ pq.items d.heap, ∃ y, d.look it.nodeId = some y ∧ y.weight ≤ it.weight
  settled : ∀ x y, d.look x = some y → y.settled = true → ∀ it ∈ pq.items d.heap, y.weight ≤ it.weight
  done : ∀ u x w, d.settledB u = true → g.rel u x w → d.wt P x ≤ d.wt P u + w
  opn : ∀ u y, d.look u = some y → y.settled = false → ∃ it ∈ pq.items d.heap, it.nodeId = u ∧ it.weight = y.weight

theorem Inv.le (h : Inv P n g s d) (x : Nat) : d.wt P x ≤ P.umax := by
  cases hl : d.look x with
  | none => rw [wt_none hl]; exact Nat.le_refl _
  | some y => rw [wt_some hl]; exact Nat.le_of_lt (h.fit _ _ hl)

theorem Inv.walk (h : Inv P n g s d) {x w : Nat} (hw : Wk g.rel s x w) :
    d.wt P x ≤ w ∨ ∃ it ∈ pq.items d.heap, it.weight ≤ w := by
  refine frontier (umax := P.umax) (settled := fun u => d.settledB u = true) h.root h.le h.done ?_ hw
  intro u hu hlt
  cases hl : d.look u with
  | none => rw [wt_none hl] at hlt; omega
  | some y =>
    have : y.settled = false := by rw [settledB_some hl] at hu; simpa using hu
    obtain ⟨it, h1, _, h3⟩ := h.opn u y hl this
    exact ⟨it, h1, by rw [wt_some hl]; exact h3⟩

theorem init_ok (hn : n ≤ P.umax) (h : Base n d) (hs : s < n) : ∃ d', d.init P s = .ok d' ∧ Inv P n g s d' ∧
    ∀ x, d'.settledB x = false := by
  obtain ⟨ok, hl⟩ := h.tab.invalidate
  have hb : Base n ({ d with heap := pq.empty, validFlags := d.validFlags.invalidateAll } : Dijkstra pq) := ⟨h.num, ok⟩
  obtain ⟨d', e, b', hh, hl'⟩ := updateNode_ok hb hs 0 P.umax
  generalize hd2 : ({ d' with heap := pq.push ⟨0, s⟩ d'.heap } : Dijkstra pq) = d2
  have hL : ∀ y, d2.look y = if y = s then some ⟨false, 0, P.umax⟩ else none := by
    intro y
    have h2 := hl' y
    have : look ({ d with heap := pq.empty, validFlags := d.validFlags.invalidateAll } : Dijkstra pq) y = none := hl y
    rw [this] at h2
    subst hd2
    exact h2
  have hheap : ∀ it, it ∈ pq.items d2.heap ↔ it = ⟨0, s⟩ := by
    intro it
    subst hd2
    rw [PQ.mem_push, hh]
    simp [pq.items_empty]
  have hset : ∀ x, d2.settledB x = false := by
    intro x
    unfold settledB
    rw [hL]
    by_cases hx : x = s
    · rw [if_pos hx]
    · rw [if_neg hx]
  refine ⟨d2, ?_, ⟨⟨by subst hd2; exact b'.num, by subst hd2; exact b'.tab⟩, ?_, ?_, ?_, ?_, ?_, ?_, ?_⟩, hset⟩
  · unfold init
    have e' : updateNode ({ d with heap := pq.empty, validFlags := d.validFlags.invalidateAll } : Dijkstra pq) s 0
      P.INVALID_NODE = .ok d' := e
    simp only [e', bind_okM, hd2]
  · have := hL s
    rw [if_pos rfl] at this
    rw [wt_some this]
  · intro x y hx
    rw [hL] at hx
    split at hx
    · cases hx; simp only; omega
    · cases hx
  · intro x y hx
    rw [hL] at hx
    split at hx
    · rename_i hxs
      cases hx; exact Or.inl ⟨hxs, rfl, rfl⟩
    · cases hx
  · intro it hit
    rw [hheap] at hit
    subst hit
    exact ⟨⟨false, 0, P.umax⟩, by rw [hL]; simp, Nat.le_refl _⟩
  · intro x y hx hy
    have := hset x
    rw [settledB_some hx, hy] at this
    cases this
  · intro u x w hu
    rw [hset] at hu
    cases hu
  · intro u y hu hy
    rw [hL] at hu
    split at hu
    · rename_i hus
      cases hu
      exact ⟨⟨0, s⟩, (hheap _).2 rfl, hus.symm, rfl⟩
    · cases hu

/-- Invariant of the relaxation loop after the arcs `pre`. -/
structure RInv (P : Plat) (n : Nat) (g : PreparationGraph) (s : Nat) (curr : HeapItem) (d₀ : Dijkstra pq) (pre : List Arc)
    (d : Dijkstra pq) : Prop extends Base n d where
  root : d.wt P s = 0
  fit : ∀ x y, d.look x = some y → y.weight < P.umax
  par : ∀ x y, d.look x = some y → (x = s ∧ y.parent = P.umax ∧ y.weight = 0) ∨
    ∃ p w, d.look y.parent = some p ∧ (p.settled = true ∨ y.parent = curr.nodeId) ∧ g.rel y.parent x w ∧
      y.weight = p.weight + w
  items : ∀ it ∈ pq.items d.heap, curr.weight ≤ it.weight ∧ ∃ y, d.look it.nodeId = some y ∧ y.weight ≤ it.weight
  settled : ∀ x y, d.look x = some y → y.settled = true → y.weight ≤ curr.weight
  done : ∀ u x w, d.settledB u = true → g.rel u x w → d.wt P x ≤ d.wt P u + w
  opn : ∀ u y, d.look u = some y → y.settled = false → u ≠ curr.nodeId →
    ∃ it ∈ pq.items d.heap, it.nodeId = u ∧ it.weight = y.weight
  cur : ∃ y, d.look curr.nodeId = some y ∧ y.weight = curr.weight ∧ y.settled = false
  mono : ∀ x, d₀.settledB x = true → d.settledB x = true
  len : (pq.items d.heap).length ≤ (pq.items d₀.heap).length + pre.length
  rel : ∀ a ∈ pre, d.wt P a.adj ≤ curr.weight + a.weight

theorem relaxArc_ok (hP : P.checked = true) (hg : PreparationGraph.WF n g) {curr : HeapItem} {d₀ : Dijkstra pq}
    {pre : List Arc} (h : RInv P n g s curr d₀ pre d) {a : Arc} (ha : a ∈ g.outs curr.nodeId) :
    Tri (relaxArc P curr d a) (RInv P n g s curr d₀ (pre ++ [a])) := by
  unfold relaxArc
  have hadj : a.adj < n := hg.adj_lt ha
  refine Tri.bind (Tri_addW hP _ _) ?_
  rintro w ⟨rfl, hw⟩
  rw [getWeight_ok h.toBase hadj]
  simp only [bind_okM]
  by_cases hlt : curr.weight + a.weight < d.wt P a.adj
  · rw [if_pos hlt]
    obtain ⟨d', e, b', hh, hl⟩ := updateNode_ok h.toBase hadj (curr.weight + a.weight) curr.nodeId
    rw [e]
    simp only [bind_okM, Tri_ok]
    obtain ⟨dc, hc1, hc2, hc3⟩ := h.cur
    have hnc : a.adj ≠ curr.nodeId := hg.noLoop _ _ ha
    generalize hd2 : ({ d' with heap := pq.push ⟨curr.weight + a.weight, a.adj⟩ d'.heap } : Dijkstra pq) = d2
    have hL : ∀ y, d2.look y = if y = a.adj then some ⟨false, curr.weight + a.weight, curr.nodeId⟩ else d.look y := by
      subst hd2; exact hl
    have hheap : ∀ it, it ∈ pq.items d2.heap ↔ it = ⟨curr.weight + a.weight, a.adj⟩ ∨ it ∈ pq.items d.heap := by
      intro it
      subst hd2
      rw [PQ.mem_push, hh]
    have hwa : d2.wt P a.adj = curr.weight + a.weight := by
      have := hL a.adj
      rw [if_pos rfl] at this
      exact wt_some this
    have hwo : ∀ y, y ≠ a.adj → d2.wt P y = d.wt P y := by
      intro y hy
      unfold wt
      rw [hL, if_neg hy]
    have hwle : ∀ y, d2.wt P y ≤ d.wt P y := by
      intro y
      by_cases hy : y = a.adj
      · subst hy; rw [hwa]; omega
      · rw [hwo y hy]; exact Nat.le_refl _
    have hns : ∀ y, d.look a.adj = some y → y.settled = false := by
      intro y hy
      cases hs' : y.settled with
      | false => rfl
      | true =>
        have h1 := h.settled _ _ hy hs'
        have h2 : d.wt P a.adj = y.weight := wt_some hy
        omega
    refine ⟨⟨by subst hd2; exact b'.num, by subst hd2; exact b'.tab⟩, ?_, ?_, ?_, ?_, ?_, ?_, ?_, ?_, ?_, ?_, ?_⟩
    · have h1 := hwle s
      have h2 := h.root
      omega
    · intro x y hx
      rw [hL] at hx
      by_cases hxa : x = a.adj
      · rw [if_pos hxa] at hx
        cases hx
        cases hlk : d.look a.adj with
        | none => rw [wt_none hlk] at hlt; exact hlt
        | some y =>
          rw [wt_some hlk] at hlt
          have := h.fit _ _ hlk
          simp only
          omega
      · rw [if_neg hxa] at hx; exact h.fit x y hx
    · intro x y hx
      rw [hL] at hx
      by_cases hxa : x = a.adj
      · rw [if_pos hxa] at hx
        cases hx
        subst hxa
        refine Or.inr ⟨dc, a.weight, ?_, Or.inr rfl, ⟨a.center, ha⟩, ?_⟩
        · rw [hL, if_neg (Ne.symm hnc)]; exact hc1
        · simp only; omega
      · rw [if_neg hxa] at hx
        rcases h.par x y hx with h1 | ⟨p, w, h1, h2, h3, h4⟩
        · exact Or.inl h1
        · refine Or.inr ⟨p, w, ?_, h2, h3, h4⟩
          rw [hL, if_neg ?_]
          · exact h1
          · intro hpa
            rcases h2 with h2 | h2
            · rw [hpa] at h1
              have := hns p h1
              rw [h2] at this
              cases this
            · exact hnc (hpa.symm.trans h2)
    · intro it hit
      rcases (hheap it).1 hit with rfl | hit
      · exact ⟨by simp only; omega, _, by rw [hL, if_pos rfl], Nat.le_refl _⟩
      · obtain ⟨h1, y, h2, h3⟩ := h.items it hit
        refine ⟨h1, ?_⟩
        rw [hL]
        by_cases hia : it.nodeId = a.adj
        · rw [if_pos hia]
          refine ⟨_, rfl, ?_⟩
          have : d.wt P a.adj = y.weight := by rw [← hia]; exact wt_some h2
          simp only
          omega
        · rw [if_neg hia]; exact ⟨y, h2, h3⟩
    · intro x y hx hy
      rw [hL] at hx
      by_cases hxa : x = a.adj
      · rw [if_pos hxa] at hx; cases hx; cases hy
      · rw [if_neg hxa] at hx; exact h.settled x y hx hy
    · intro u x w hu hr
      by_cases hua : u = a.adj
      · subst hua
        unfold settledB at hu
        rw [hL, if_pos rfl] at hu
        cases hu
      · have hu' : d.settledB u = true := by
          unfold settledB at hu ⊢
          rw [hL, if_neg hua] at hu
          exact hu
        rw [hwo u hua]
        exact Nat.le_trans (hwle x) (h.done u x w hu' hr)
    · intro u y hu hy huc
      rw [hL] at hu
      by_cases hua : u = a.adj
      · rw [if_pos hua] at hu
        cases hu
        exact ⟨_, (hheap _).2 (Or.inl rfl), hua.symm, rfl⟩
      · rw [if_neg hua] at hu
        obtain ⟨it, h1, h2⟩ := h.opn u y hu hy huc
        exact ⟨it, (hheap _).2 (Or.inr h1), h2⟩
    · exact ⟨dc, by rw [hL, if_neg (Ne.symm hnc)]; exact hc1, hc2, hc3⟩
    · intro x hx
      have := h.mono x hx
      unfold settledB at this ⊢
      rw [hL]
      by_cases hxa : x = a.adj
      · subst hxa
        exfalso
        cases hlk : d.look a.adj with
        | none => rw [hlk] at this; cases this
        | some y =>
          rw [hlk] at this
          have h1 := hns y hlk
          simp only at this
          rw [this] at h1
          cases h1
      · rw [if_neg hxa]; exact this
    · have := h.len
      subst hd2
      rw [PQ.length_push, hh]
      simp
      omega
    · intro b hb
      rcases List.mem_append.1 hb with hb | hb
      · exact Nat.le_trans (hwle _) (h.rel b hb)
      · rw [List.mem_singleton.1 hb, hwa]; exact Nat.le_refl _
  · rw [if_neg hlt]
    refine { h with len := ?_, rel := ?_ }
    · have := h.len
      simp
      omega
    · intro b hb
      rcases List.mem_append.1 hb with hb | hb
      · exact h.rel b hb
      · rw [List.mem_singleton.1 hb]; omega

/-- Termination measure. -/
def meas (n : Nat) (g : PreparationGraph) (d : Dijkstra pq) : Nat :=
  (pq.items d.heap).length + openSum n d.settledB (fun u => (g.outs u).length)

theorem meas_lt_fuel (hg : PreparationGraph.WF n g) : meas n g d < d.fuelFor g := by
  unfold meas fuelFor
  have h1 := openSum_le (n := n) (S := d.settledB) (k := fun u => (g.outs u).length)
  have h2 : (List.range n).map (fun u => (g.outs u).length) = g.outEdges.map List.length := by
    apply List.ext_getElem
    · simp [hg.lenOut]
    · intro i h1 h2
      simp [PreparationGraph.outs] at h1 h2 ⊢
      simp [h2]
  rw [h2] at h1
  omega

/-- All arcs of the popped node. -/
theorem relax_ok (hP : P.checked = true) (hg : PreparationGraph.WF n g) {curr : HeapItem} {d₀ : Dijkstra pq}
    (h0 : RInv P n g s curr d₀ [] d₀) :
    Tri (forM (relaxArc P curr) d₀ (g.outs curr.nodeId)) (RInv P n g s curr d₀ (g.outs curr.nodeId)) := by
  refine Tri_forM (fun pre (d1 : Dijkstra pq) => RInv P n g s curr d₀ pre d1) h0 ?_
  intro pre a post d1 hl h1
  exact relaxArc_ok hP hg h1 (by rw [hl]; simp)

/-- A popped item of a node that is settled already is dropped. -/
theorem Inv.skip (h : Inv P n g s d) {curr : HeapItem} {heap' : pq.σ} (hp : pq.pop d.heap = some (curr, heap'))
    (hset : d.settledB curr.nodeId = true) : Inv P n g s ({ d with heap := heap' } : Dijkstra pq) ∧
      meas n g ({ d with heap := heap' } : Dijkstra pq) < meas n g d := by
  have hlen := PQ.pop_length hp
  have hsub : ∀ it ∈ pq.items heap', it ∈ pq.items d.heap := fun it hit => (PQ.pop_mem hp).2 (Or.inr hit)
  refine ⟨⟨⟨h.num, h.tab⟩, h.root, h.fit, h.par, ?_, ?_, h.done, ?_⟩, ?_⟩
  · intro it hit; exact h.items it (hsub it hit)
  · intro x y hx hy it hit; exact h.settled x y hx hy it (hsub it hit)
  · intro u y hu hy
    obtain ⟨it, h1, h2, h3⟩ := h.opn u y hu hy
    rcases (PQ.pop_mem hp).1 h1 with rfl | h1
    · subst h2
      have hu' : d.look it.nodeId = some y := hu
      rw [settledB_some hu', hy] at hset
      cases hset
    · exact ⟨it, h1, h2, h3⟩
  · have : meas n g ({ d with heap := heap' } : Dijkstra pq) + 1 = meas n g d := by
      unfold meas
      have : openSum n (settledB ({ d with heap := heap' } : Dijkstra pq)) (fun u => (g.outs u).length)
        = openSum n d.settledB (fun u => (g.outs u).length) := rfl
      rw [this]
      simp only
      omega
    omega

/-- Before the arcs of the popped node are relaxed. -/
theorem Inv.start (h : Inv P n g s d) {curr : HeapItem} {heap' : pq.σ} (hp : pq.pop d.heap = some (curr, heap'))
    (hset : ¬ d.settledB curr.nodeId = true) :
    RInv P n g s curr ({ d with heap := heap' } : Dijkstra pq) [] { d with heap := heap' } := by
  have hcurr : curr ∈ pq.items d.heap := (PQ.pop_mem hp).2 (Or.inl rfl)
  have hlen := PQ.pop_length hp
  obtain ⟨dc, hc1, hc2⟩ := h.items curr hcurr
  have hcn : curr.nodeId < n := h.tab.look_lt hc1
  have hsub : ∀ it ∈ pq.items heap', it ∈ pq.items d.heap := fun it hit => (PQ.pop_mem hp).2 (Or.inr hit)
  have hbase : Base n ({ d with heap := heap' } : Dijkstra pq) := ⟨h.num, h.tab⟩
  have hset' : dc.settled = false := by
    rw [settledB_some hc1] at hset
    simpa using hset
  have hcwt : dc.weight = curr.weight := by
    obtain ⟨it, h1, h2, h3⟩ := h.opn _ _ hc1 hset'
    have := PQ.pop_min hp h1
    omega
  refine ⟨hbase, h.root, h.fit, ?_, ?_, ?_, h.done, ?_, ⟨dc, hc1, hcwt, hset'⟩, fun _ hx => hx, Nat.le_refl _,
    fun a ha => by simp at ha⟩
  · intro x y hx
    rcases h.par x y hx with h1 | ⟨p, w, h1, h2, h3⟩
    · exact Or.inl h1
    · exact Or.inr ⟨p, w, h1, Or.inl h2, h3⟩
  · intro it hit
    exact ⟨PQ.pop_min hp (hsub it hit), h.items it (hsub it hit)⟩
  · intro x y hx hy
    exact h.settled x y hx hy curr hcurr
  · intro u y hu hy huc
    obtain ⟨it, h1, h2, h3⟩ := h.opn u y hu hy
    rcases (PQ.pop_mem hp).1 h1 with rfl | h1
    · exact absurd h2.symm huc
    · exact ⟨it, h1, h2, h3⟩

/-- The weight of a node when it is settled is its distance. -/
theorem Inv.popped (h : Inv P n g s d) {curr : HeapItem} {heap' : pq.σ} (hp : pq.pop d.heap = some (curr, heap'))
    (hset : ¬ d.settledB curr.nodeId = true) : (∃ y, d.look curr.nodeId = some y ∧ y.weight = curr.weight) ∧
      ∀ w, Wk g.rel s curr.nodeId w → curr.weight ≤ w := by
  obtain ⟨y, h1, h2, _⟩ := (h.start hp hset).cur
  refine ⟨⟨y, h1, h2⟩, ?_⟩
  intro w hw
  rcases h.walk hw with h3 | ⟨it, h3, h4⟩
  · have h1' : d.look curr.nodeId = some y := h1
    rw [wt_some h1'] at h3; omega
  · exact Nat.le_trans (PQ.pop_min hp h3) h4

/-- After the popped node is marked as settled. -/
theorem Inv.settle (h : Inv P n g s d) {curr : HeapItem} {heap' : pq.σ} (hp : pq.pop d.heap = some (curr, heap'))
    (hset : ¬ d.settledB curr.nodeId = true) {d1 : Dijkstra pq}
    (h1 : RInv P n g s curr ({ d with heap := heap' } : Dijkstra pq) (g.outs curr.nodeId) d1) :
    ∃ y1 : DData, modIdx d1.data curr.nodeId (fun x => { x with settled := true }) =
        .ok (d1.data.set curr.nodeId { y1 with settled := true }) ∧
      Inv P n g s ({ d1 with data := d1.data.set curr.nodeId { y1 with settled := true } } : Dijkstra pq) ∧
      settledB ({ d1 with data := d1.data.set curr.nodeId { y1 with settled := true } } : Dijkstra pq) curr.nodeId = true ∧
      meas n g ({ d1 with data := d1.data.set curr.nodeId { y1 with settled := true } } : Dijkstra pq) < meas n g d := by
  have hcurr : curr ∈ pq.items d.heap := (PQ.pop_mem hp).2 (Or.inl rfl)
  have hlen := PQ.pop_length hp
  obtain ⟨dc, hc1, hc2⟩ := h.items curr hcurr
  have hcn : curr.nodeId < n := h.tab.look_lt hc1
  have hsub : ∀ it ∈ pq.items heap', it ∈ pq.items d.heap := fun it hit => (PQ.pop_mem hp).2 (Or.inr hit)
  obtain ⟨y1, hd1, hd2, hd3⟩ := h1.cur
  obtain ⟨em, tabm, lm⟩ := h1.tab.modify hd1 (fun x => { x with settled := true })
  refine ⟨y1, em, ?_⟩
  generalize hd2' : ({ d1 with data := d1.data.set curr.nodeId { y1 with settled := true } } : Dijkstra pq) = d2
  have hL : ∀ y, d2.look y = if y = curr.nodeId then some { y1 with settled := true } else d1.look y := by
    subst hd2'; exact lm
  have hheap : d2.heap = d1.heap := by subst hd2'; rfl
  have hwt : ∀ y, d2.wt P y = d1.wt P y := by
    intro y
    unfold wt
    rw [hL]
    by_cases hy : y = curr.nodeId
    · rw [if_pos hy, hy, hd1]
    · rw [if_neg hy]
  have hI : Inv P n g s d2 := by
    refine ⟨⟨by subst hd2'; exact h1.num, by subst hd2'; exact tabm⟩, by rw [hwt]; exact h1.root, ?_, ?_, ?_, ?_, ?_, ?_⟩
    · intro x y hx
      rw [hL] at hx
      by_cases hxc : x = curr.nodeId
      · rw [if_pos hxc] at hx; cases hx; exact h1.fit curr.nodeId y1 hd1
      · rw [if_neg hxc] at hx; exact h1.fit _ _ hx
    · intro x y hx
      have hy' : ∃ y', d1.look x = some y' ∧ y'.weight = y.weight ∧ y'.parent = y.parent := by
        rw [hL] at hx
        by_cases hxc : x = curr.nodeId
        · rw [if_pos hxc] at hx; cases hx; rw [hxc]; exact ⟨y1, hd1, rfl, rfl⟩
        · rw [if_neg hxc] at hx; exact ⟨y, hx, rfl, rfl⟩
      obtain ⟨y', k1, k2, k3⟩ := hy'
      rcases h1.par x y' k1 with h2 | ⟨p, w, m1, m2, m3, m4⟩
      · exact Or.inl ⟨h2.1, k3 ▸ h2.2.1, k2 ▸ h2.2.2⟩
      · rw [k3] at m1 m2 m3
        rw [k2] at m4
        right
        by_cases hpc : y.parent = curr.nodeId
        · rw [hpc, hd1] at m1
          cases m1
          exact ⟨{ y1 with settled := true }, w, by rw [hL, if_pos hpc], rfl, m3, m4⟩
        · refine ⟨p, w, by rw [hL, if_neg hpc]; exact m1, ?_, m3, m4⟩
          rcases m2 with m2 | m2
          · exact m2
          · exact absurd m2 hpc
    · intro it hit
      rw [hheap] at hit
      obtain ⟨_, y, hx1, hx2⟩ := h1.items it hit
      rw [hL]
      by_cases hxc : it.nodeId = curr.nodeId
      · rw [if_pos hxc]
        rw [hxc, hd1] at hx1
        cases hx1
        exact ⟨_, rfl, hx2⟩
      · rw [if_neg hxc]; exact ⟨y, hx1, hx2⟩
    · intro x y hx hy it hit
      rw [hheap] at hit
      have hge := (h1.items it hit).1
      rw [hL] at hx
      by_cases hxc : x = curr.nodeId
      · rw [if_pos hxc] at hx; cases hx; simp only; omega
      · rw [if_neg hxc] at hx
        have := h1.settled x y hx hy
        omega
    · intro u x w hu hr
      rw [hwt, hwt]
      by_cases huc : u = curr.nodeId
      · subst huc
        obtain ⟨c, hr1⟩ := hr
        have := h1.rel _ hr1
        rw [wt_some hd1, hd2]
        exact this
      · refine h1.done u x w ?_ hr
        unfold settledB at hu ⊢
        rw [hL, if_neg huc] at hu
        exact hu
    · intro u y hu hy
      rw [hL] at hu
      by_cases huc : u = curr.nodeId
      · rw [if_pos huc] at hu; cases hu; cases hy
      · rw [if_neg huc] at hu
        rw [hheap]
        exact h1.opn u y hu hy huc
  have hs2 : d2.settledB curr.nodeId = true := by
    unfold settledB; rw [hL]; simp
  have hmeas : meas n g d2 < meas n g d := by
    have hs1 : ∀ u, d.settledB u = true → d2.settledB u = true := by
      intro u hu
      have := h1.mono u hu
      unfold settledB at this ⊢
      rw [hL]
      by_cases huc : u = curr.nodeId
      · rw [if_pos huc]
      · rw [if_neg huc]; exact this
    have := openSum_settle (k := fun u => (g.outs u).length) hs1 hcn (by simpa using hset) hs2
    have hlen1 := h1.len
    unfold meas
    rw [hheap]
    simp only at this hlen1
    omega
  exact ⟨hI, hs2, hmeas⟩

theorem loop_ok (hP : P.checked = true) (hg : PreparationGraph.WF n g) :
    ∀ fuel (d : Dijkstra pq), Inv P n g s d → meas n g d < fuel →
      Tri (loop P g t fuel d) (fun d' => Inv P n g s d' ∧ (pq.items d'.heap = [] ∨ d'.settledB t = true)) := by
  intro fuel
  induction fuel with
  | zero => intro d _ h; omega
  | succ fuel ih =>
    intro d h hm
    unfold loop
    cases hp : pq.pop d.heap with
    | none => exact ⟨h, Or.inl ((pq.pop_none _).1 hp)⟩
    | some r =>
      obtain ⟨curr, heap'⟩ := r
      simp only
      obtain ⟨dc, hc1, hc2⟩ := h.items curr ((PQ.pop_mem hp).2 (Or.inl rfl))
      have hcn : curr.nodeId < n := h.tab.look_lt hc1
      have hbase : Base n ({ d with heap := heap' } : Dijkstra pq) := ⟨h.num, h.tab⟩
      have hsb : ∀ x, settledB ({ d with heap := heap' } : Dijkstra pq) x = d.settledB x := fun _ => rfl
      rw [isSettled_ok hbase hcn, hsb]
      simp only [bind_okM]
      by_cases hset : d.settledB curr.nodeId = true
      · rw [if_pos hset]
        obtain ⟨h1, h2⟩ := h.skip hp hset
        exact ih _ h1 (by omega)
      · rw [if_neg hset]
        have hidx : idx g.outEdges curr.nodeId = .ok (g.outs curr.nodeId) :=
          PreparationGraph.idx_outEdges (by rw [hg.lenOut]; exact hcn)
        rw [hidx]
        simp only [bind_okM]
        refine Tri.bind (relax_ok hP hg (h.start hp hset)) ?_
        intro d1 h1
        obtain ⟨y1, em, hI, hs2, hmeas⟩ := h.settle hp hset h1
        rw [em]
        simp only [bind_okM]
        by_cases hstop : curr.nodeId = t
        · rw [if_pos (by simpa using hstop)]
          exact ⟨hI, Or.inr (by rw [← hstop]; exact hs2)⟩
        · rw [if_neg (by simpa using hstop)]
          exact ih _ hI (by omega)

theorem buildLoop_ok (hn : n ≤ P.umax) (hpos : ∀ u x w, g.rel u x w → 1 ≤ w) (h : Inv P n g s d) :
    ∀ fuel x (y : DData) acc b L, d.look x = some y → y.weight < fuel → WkL g.rel x t b L → x :: acc.reverse = L ++ [t] →
      ∃ path L', d.buildLoop P fuel x acc = .ok path ∧ WkL g.rel s t (y.weight + b) L' ∧
        (path ++ [s]).reverse = L' ++ [t] := by
  intro fuel
  induction fuel with
  | zero => intro x y acc b L _ h; omega
  | succ fuel ih =>
    intro x y acc b L hx hf hw hacc
    unfold buildLoop
    rw [idx_of_look hx]
    simp only [bind_okM]
    rcases h.par x y hx with ⟨h1, h2, h3⟩ | ⟨p, w, h1, h2, h3, h4⟩
    · rw [if_neg (by simp [h2, Plat.INVALID_NODE])]
      subst h1
      refine ⟨acc, L, rfl, by rw [h3, Nat.zero_add]; exact hw, ?_⟩
      simpa using hacc
    · have hlt : y.parent < n := h.tab.look_lt h1
      rw [if_pos (by simp [Plat.INVALID_NODE]; omega)]
      have := hpos _ _ _ h3
      obtain ⟨path, L', e, k1, k2⟩ := ih y.parent p (acc ++ [x]) (w + b) (y.parent :: L) h1 (by omega)
        (WkL.cons h3 hw) (by simp [hacc])
      refine ⟨path, L', e, ?_, k2⟩
      have e2 : y.weight + b = p.weight + (w + b) := by omega
      rw [e2]
      exact k1

/-- Labels are weights of walks. -/
theorem Inv.wk (h : Inv P n g s d) (hn : n ≤ P.umax) (hpos : ∀ u x w, g.rel u x w → 1 ≤ w) {x : Nat} {y : DData}
    (hx : d.look x = some y) : Wk g.rel s x y.weight := by
  obtain ⟨_, _, _, h1, _⟩ := buildLoop_ok hn hpos h (y.weight + 1) x y [] 0 [] hx (Nat.lt_succ_self _) (WkL.nil x) rfl
  exact h1.toWk

/-- What one query of the reference answers. -/
theorem calcPath_ok (hP : P.checked = true) (hn : n ≤ P.umax) (hg : PreparationGraph.WF n g)
    (hpos : ∀ u x w, g.rel u x w → 1 ≤ w) (h : Base n d) (hs : s < n) (ht : t < n) :
    Tri (d.calcPath P g s t) (fun r => Base n r.1 ∧
      match r.2 with
      | none => ∀ w, Wk g.rel s t w → P.umax ≤ w
      | some p => p.weight < P.umax ∧ p.source = s ∧ p.target = t ∧ (∃ L, WkL g.rel s t p.weight L ∧ p.nodes = L ++ [t]) ∧
          ∀ w, Wk g.rel s t w → p.weight ≤ w) := by
  unfold calcPath
  obtain ⟨d1, e1, h1, hs1⟩ := init_ok (P := P) (g := g) hn h hs
  rw [e1]
  simp only [bind_okM]
  unfold doCalcPath
  rw [assertM_of (by simp [hg.num, h1.num])]
  simp only [bind_okM]
  by_cases hst : s = t
  · subst hst
    rw [if_pos (by simp)]
    simp only [bind_okM, buildPath, beq_self_eq_true, if_true, Tri_ok]
    exact ⟨h1.toBase, by simp only [WEIGHT_ZERO]; omega, trivial, trivial, ⟨[], WkL.nil s, rfl⟩, fun w _ => Nat.zero_le _⟩
  · rw [if_neg (by simpa using hst), isSettled_ok h1.toBase ht, hs1]
    simp only [bind_okM, Bool.false_eq_true, if_false]
    refine Tri.bind (loop_ok hP hg _ d1 h1 (meas_lt_fuel hg)) ?_
    rintro d2 ⟨h2, hend⟩
    unfold buildPath
    rw [if_neg (by simpa using hst), isSettled_ok h2.toBase ht]
    simp only [bind_okM]
    cases hl : d2.look t with
    | none =>
      have hsb : d2.settledB t = false := by unfold settledB; rw [hl]
      rw [hsb]
      simp only [Bool.not_false, if_true, bind_okM, Tri_ok]
      refine ⟨h2.toBase, ?_⟩
      intro w hw
      rcases hend with h3 | h3
      · rcases h2.walk hw with h4 | ⟨it, h4, _⟩
        · rw [wt_none hl] at h4; exact h4
        · rw [h3] at h4; cases h4
      · rw [hsb] at h3; cases h3
    | some y =>
      have hsb : d2.settledB t = true := by
        rcases hend with h3 | h3
        · rw [settledB_some hl]
          cases hy : y.settled with
          | true => rfl
          | false =>
            obtain ⟨it, h4, _⟩ := h2.opn t y hl hy
            rw [h3] at h4; cases h4
        · exact h3
      rw [hsb]
      simp only [Bool.not_true, Bool.false_eq_true, if_false]
      rw [idx_of_look hl]
      simp only [bind_okM]
      obtain ⟨path, L', e, k1, k2⟩ := buildLoop_ok hn hpos h2 (y.weight + d2.data.length + 1) t y [] 0 [] hl (by omega)
        (WkL.nil t) rfl
      rw [e]
      simp only [bind_okM, Tri_ok]
      refine ⟨h2.toBase, h2.fit _ _ hl, by first | rfl | trivial, by first | rfl | trivial, ⟨L', k1, k2⟩, ?_⟩
      intro w hw
      rw [settledB_some hl] at hsb
      rcases h2.walk hw with h4 | ⟨it, h4, h5⟩
      · rw [wt_some hl] at h4; exact h4
      · have := h2.settled _ _ hl hsb it h4
        omega

theorem runQueries_base {d d' : Dijkstra pq} (hP : P.checked = true) (hn : n ≤ P.umax)
    {qs : List (PreparationGraph × Nat × Nat)} (hq : ∀ q ∈ qs, PreparationGraph.WF n q.1 ∧
      (∀ u x w, q.1.rel u x w → 1 ≤ w) ∧ q.2.1 < n ∧ q.2.2 < n)
    (h : Base n d) (e : runQueries P d qs = .ok d') : Base n d' := by
  induction qs generalizing d with
  | nil => cases e; exact h
  | cons q qs ih =>
    obtain ⟨g, s, t⟩ := q
    have hq0 := hq (g, s, t) (by simp)
    have := calcPath_ok (d := d) hP hn hq0.1 hq0.2.1 h hq0.2.2.1 hq0.2.2.2
    unfold runQueries at e
    cases hc : d.calcPath P g s t with
    | error x => rw [hc] at e; cases e
    | ok r =>
      rw [hc] at e this
      exact ih (fun q hq' => hq q (by simp [hq'])) this.1 e

end Dijkstra
end FP
