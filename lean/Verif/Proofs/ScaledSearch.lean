import Verif.Proofs.Scaled
import Verif.Proofs.ScaledHeap
set_option autoImplicit false
/-! # Searches and contractions in a graph whose weights are scaled: helper lemmas for C133 -/
namespace FP

section Lists
variable {α β : Type} {R : α → β → Prop} {l : List α} {l' : List β}

theorem forall₂_get (h : List.Forall₂ R l l') {i : Nat} {b : β} (hb : l'[i]? = some b) : ∃ a, l[i]? = some a ∧ R a b := by
  induction h generalizing i with
  | nil => cases hb
  | cons h _ ih =>
    cases i with
    | zero => cases hb; exact ⟨_, rfl, h⟩
    | succ i => simpa using ih (by simpa using hb)

theorem forall₂_set (h : List.Forall₂ R l l') {a : α} {b : β} (hab : R a b) (i : Nat) : List.Forall₂ R (l.set i a) (l'.set i b) := by
  induction h generalizing i with
  | nil => exact .nil
  | cons h hs ih =>
    cases i with
    | zero => exact .cons hab hs
    | succ i => exact .cons h (ih i)

theorem Back.idx_rel (h : List.Forall₂ R l l') (i : Nat) : Back R (idx l i) (idx l' i) := by
  intro b hb
  obtain ⟨a, h1, h2⟩ := forall₂_get h (idx_eq_ok.1 hb)
  exact ⟨a, idx_some h1, h2⟩

theorem Back.setIdx_rel (h : List.Forall₂ R l l') {a : α} {b : β} (hab : R a b) (i : Nat) :
    Back (List.Forall₂ R) (setIdx l i a) (setIdx l' i b) := by
  intro c hc
  obtain ⟨h1, rfl⟩ := setIdx_eq_ok.1 hc
  exact ⟨_, setIdx_ok (by rw [h.length_eq]; exact h1), forall₂_set h hab i⟩

theorem Back.modIdx_rel (h : List.Forall₂ R l l') {f : α → α} {f' : β → β} (hf : ∀ a b, R a b → R (f a) (f' b)) (i : Nat) :
    Back (List.Forall₂ R) (modIdx l i f) (modIdx l' i f') := by
  intro c hc
  obtain ⟨b, h1, rfl⟩ := modIdx_eq_ok.1 hc
  obtain ⟨a, h2, h3⟩ := forall₂_get h h1
  exact ⟨_, modIdx_ok h2, forall₂_set h (hf a b h3) i⟩

end Lists

variable {P : Plat} {k : Nat} {pq : PQ} {S : pq.σ → pq.σ → Prop}

/-- Weights of the two runs: scaled, or unknown in both. -/
def ScaledWeight (P : Plat) (k w w' : Nat) : Prop := w' = k * w ∨ (w = P.umax ∧ w' = P.umax)

/-- Labels of the two runs. -/
def ScaledData (P : Plat) (k : Nat) (d d' : WData) : Prop := d'.settled = d.settled ∧ ScaledWeight P k d.weight d'.weight

/-- States of the search in the two runs. -/
structure ScaledWs (P : Plat) (k : Nat) (S : pq.σ → pq.σ → Prop) (ws ws' : WitnessSearch pq) : Prop where
  numNodes : ws'.numNodes = ws.numNodes
  data : List.Forall₂ (ScaledData P k) ws.data ws'.data
  flags : ws'.validFlags = ws.validFlags
  heap : S ws.heap ws'.heap
  start : ws'.startNode = ws.startNode
  avoid : ws'.avoidNode = ws.avoidNode
  settled : ws'.settledNodes = ws.settledNodes

/-- The factor can be handled: with it no weight becomes the value that stands for "unknown". -/
structure Factor (P : Plat) (k : Nat) : Prop where
  pos : 1 ≤ k
  ndvd : ¬ k ∣ P.umax

theorem Factor.lt (hk : Factor P k) {w : Nat} (h : k * w ≤ P.umax) : k * w < P.umax :=
  Nat.lt_of_le_of_ne h (fun e => hk.ndvd ⟨w, e.symm⟩)

theorem Factor.le_self (hk : Factor P k) (w : Nat) : w ≤ k * w := Nat.le_mul_of_pos_left w hk.pos

theorem ScaledWeight.lt_iff (hk : Factor P k) {w c c' : Nat} (h : ScaledWeight P k c c') (hw : k * w < P.umax) : k * w < c' ↔ w < c := by
  rcases h with rfl | ⟨rfl, rfl⟩
  · exact Nat.mul_lt_mul_left hk.pos
  · have := hk.le_self w
    constructor <;> intro _ <;> omega

theorem ScaledWeight.le_iff (hk : Factor P k) {w c c' : Nat} (h : ScaledWeight P k c c') (hw : k * w < P.umax) : c' ≤ k * w ↔ c ≤ w := by
  have := h.lt_iff hk hw
  omega

theorem addW_scale (hP : P.checked = true) (hk : Factor P k) (a b : Nat) :
    Back (fun c c' => c' = k * c ∧ k * c < P.umax) (addW P a b) (addW P (k * a) (k * b)) := by
  intro c hc
  unfold addW at hc
  split at hc
  · next h =>
    cases hc
    rw [← Nat.mul_add] at h
    exact ⟨a + b, addW_ok (Nat.le_trans (hk.le_self _) h), (Nat.mul_add ..).symm, hk.lt h⟩
  · simp [hP] at hc

namespace WitnessSearch

theorem updateNode_scale {ws ws' : WitnessSearch pq} (h : ScaledWs P k S ws ws') (node w : Nat) :
    Back (ScaledWs P k S) (ws.updateNode node w) (ws'.updateNode node (k * w)) := by
  unfold updateNode
  refine Back.bind (Back.of_eq (by rw [h.flags])) ?_
  rintro vf _ rfl
  refine Back.bind (Back.setIdx_rel h.data (a := ⟨false, w⟩) (b := ⟨false, k * w⟩) ⟨rfl, .inl rfl⟩ node) ?_
  intro d d' hd
  exact Back.ok ⟨h.numNodes, hd, rfl, h.heap, h.start, h.avoid, h.settled⟩

theorem isSettled_scale {ws ws' : WitnessSearch pq} (h : ScaledWs P k S ws ws') (node : Nat) :
    Back Eq (ws.isSettled node) (ws'.isSettled node) := by
  unfold isSettled
  refine Back.bind (Back.of_eq (by rw [h.flags])) ?_
  rintro b _ rfl
  cases b
  · exact Back.ok rfl
  · refine Back.bind (Back.idx_rel h.data node) ?_
    intro d d' hd
    exact Back.ok hd.1.symm

theorem getCurrentWeight_scale {ws ws' : WitnessSearch pq} (h : ScaledWs P k S ws ws') (node : Nat) :
    Back (ScaledWeight P k) (ws.getCurrentWeight P node) (ws'.getCurrentWeight P node) := by
  unfold getCurrentWeight
  refine Back.bind (Back.of_eq (by rw [h.flags])) ?_
  rintro b _ rfl
  cases b
  · exact Back.ok (.inr ⟨rfl, rfl⟩)
  · refine Back.bind (Back.idx_rel h.data node) ?_
    intro d d' hd
    exact Back.ok hd.2

variable (hS : SameHeaps pq (fun w w' => w' = k * w) S)
include hS

theorem init_scale {ws ws' : WitnessSearch pq} (h : ScaledWs P k S ws ws') (start avoid : Nat) :
    Back (ScaledWs P k S) (ws.init P start avoid) (ws'.init P start avoid) := by
  unfold init
  refine Back.bind (R := Eq) (Back.of_eq rfl) ?_
  rintro _ _ rfl
  refine Back.bind (R := Eq) (Back.of_eq rfl) ?_
  rintro _ _ rfl
  have h1 : ScaledWs P k S { ws with startNode := start, avoidNode := avoid, heap := pq.empty, validFlags := ws.validFlags.invalidateAll }
      { ws' with startNode := start, avoidNode := avoid, heap := pq.empty, validFlags := ws'.validFlags.invalidateAll } :=
    ⟨h.numNodes, h.data, by simp only [h.flags], hS.empty, rfl, rfl, h.settled⟩
  have := updateNode_scale h1 start 0
  refine Back.bind this ?_
  intro w w' hw
  exact Back.ok ⟨hw.numNodes, hw.data, hw.flags, hS.push _ _ _ _ _ hw.heap (by simp), hw.start, hw.avoid, rfl⟩

variable (hP : P.checked = true) (hk : Factor P k)
include hP hk

theorem relaxArc_scale {curr : HeapItem} {target limit : Nat} (hl : k * limit < P.umax) (st st' : WitnessSearch pq × Bool)
    (h : ScaledWs P k S st.1 st'.1 ∧ st'.2 = st.2) (a : Arc) :
    Back (fun st st' => ScaledWs P k S st.1 st'.1 ∧ st'.2 = st.2) (relaxArc P curr target limit st a)
      (relaxArc P ⟨k * curr.weight, curr.nodeId⟩ target (k * limit) st' (a.scale k)) := by
  obtain ⟨ws, found⟩ := st
  obtain ⟨ws', found'⟩ := st'
  obtain ⟨h, hf⟩ := h
  simp only at h hf
  subst hf
  unfold relaxArc
  simp only [Arc.scale, h.avoid]
  split
  · exact Back.ok ⟨h, rfl⟩
  · refine Back.bind (addW_scale hP hk curr.weight a.weight) ?_
    rintro w _ ⟨rfl, hw⟩
    refine Back.bind (getCurrentWeight_scale h a.adj) ?_
    intro c c' hc
    have hlt := hc.lt_iff hk hw
    by_cases hwc : w < c
    · rw [if_pos hwc, if_pos (hlt.2 hwc)]
      refine Back.bind (updateNode_scale h a.adj w) ?_
      intro v v' hv
      refine Back.ok ⟨⟨hv.numNodes, hv.data, hv.flags, hS.push _ _ _ _ _ hv.heap rfl, hv.start, hv.avoid, hv.settled⟩, ?_⟩
      have : decide (k * w ≤ k * limit) = decide (w ≤ limit) := by
        rw [decide_eq_decide]; exact Nat.mul_le_mul_left_iff hk.pos
      simp only [this]
    · rw [if_neg hwc, if_neg (fun h => hwc (hlt.1 h))]
      exact Back.ok ⟨h, rfl⟩

theorem findLoop_scale {target limit settled : Nat} (hl : k * limit < P.umax) (g : PreparationGraph) :
    ∀ (fuel : Nat) (ws ws' : WitnessSearch pq), ScaledWs P k S ws ws' →
      Back (ScaledWs P k S) (findLoop P g target limit settled fuel ws) (findLoop P (g.scale k) target (k * limit) settled fuel ws')
  | 0, _, _, _ => Back.error
  | fuel + 1, ws, ws', h => by
    unfold findLoop
    rcases hS.pop _ _ h.heap with ⟨e1, e2⟩ | ⟨n, w, w', r, r', e1, e2, rfl, hr⟩
    · simp only [e1, e2]
      exact Back.ok h
    · simp only [e1, e2]
      by_cases hs : ws.settledNodes ≥ settled
      · have hs' : ws'.settledNodes ≥ settled := by rw [h.settled]; exact hs
        rw [if_pos hs, if_pos hs']
        exact Back.ok h
      · have hs' : ¬ ws'.settledNodes ≥ settled := by rw [h.settled]; exact hs
        rw [if_neg hs, if_neg hs']
        have hgt : (k * w > k * limit) ↔ (w > limit) := Nat.mul_lt_mul_left hk.pos
        by_cases hw : w > limit
        · rw [if_pos hw, if_pos (hgt.2 hw)]
          exact Back.ok h
        · rw [if_neg hw, if_neg (fun h => hw (hgt.1 h))]
          have h1 : ScaledWs P k S { ws with heap := r } { ws' with heap := r' } :=
            ⟨h.numNodes, h.data, h.flags, hr, h.start, h.avoid, h.settled⟩
          have := isSettled_scale h1 n
          refine Back.bind this ?_
          rintro b _ rfl
          cases b
          · simp only [Bool.false_eq_true, if_false]
            refine Back.bind (Back.idx_map (List.map (Arc.scale k)) _ _) ?_
            rintro outs _ rfl
            refine Back.bind (Back.forM_map (Arc.scale k) (f := relaxArc P ⟨w, n⟩ target limit)
              (fun s s' a hs => relaxArc_scale hS hP hk hl s s' hs a) outs _ _ ⟨h1, rfl⟩) ?_
            rintro ⟨v, f⟩ ⟨v', f'⟩ ⟨hv, hf⟩
            simp only at hv hf
            subst hf
            refine Back.bind (Back.modIdx_rel hv.data (f := fun d => { d with settled := true })
              (f' := fun d => { d with settled := true }) (fun a b hab => ⟨rfl, hab.2⟩) n) ?_
            intro d d' hd
            have h2 : ScaledWs P k S { v with data := d, settledNodes := v.settledNodes + 1 }
                { v' with data := d', settledNodes := v'.settledNodes + 1 } :=
              ⟨hv.numNodes, hd, hv.flags, hv.heap, hv.start, hv.avoid, by simp only [hv.settled]⟩
            split
            · exact Back.ok h2
            · exact findLoop_scale hl g fuel _ _ h2
          · simp only [if_true]
            exact findLoop_scale hl g fuel _ _ h1

theorem findMaxWeight_scale {ws ws' : WitnessSearch pq} (h : ScaledWs P k S ws ws') (g : PreparationGraph) (target : Nat) {limit : Nat}
    (hl : k * limit < P.umax) (settled : Nat) :
    Back (fun r r' => ScaledWs P k S r.1 r'.1 ∧ ScaledWeight P k r.2 r'.2) (ws.findMaxWeight P g target limit settled)
      (ws'.findMaxWeight P (g.scale k) target (k * limit) settled) := by
  unfold findMaxWeight
  rw [h.numNodes, h.start, h.avoid]
  refine Back.bind (R := Eq) (Back.of_eq rfl) ?_
  rintro _ _ rfl
  refine Back.bind (R := Eq) (Back.of_eq rfl) ?_
  rintro _ _ rfl
  refine Back.bind (R := Eq) (Back.of_eq rfl) ?_
  rintro _ _ rfl
  split
  · exact Back.ok ⟨h, .inl (by simp [WEIGHT_ZERO])⟩
  · refine Back.bind (Back.of_eq (by rw [h.flags])) ?_
    rintro valid _ rfl
    refine Back.bind (R := fun o o' => (o = none ∧ o' = none) ∨ ∃ w w', o = some w ∧ o' = some w' ∧ ScaledWeight P k w w') ?_ ?_
    · cases valid
      · exact Back.ok (.inl ⟨rfl, rfl⟩)
      · refine Back.bind (Back.idx_rel h.data target) ?_
        intro d d' hd
        have : decide (d'.weight ≤ k * limit) = decide (d.weight ≤ limit) := by
          rw [decide_eq_decide]; exact hd.2.le_iff hk hl
        rw [this, hd.1]
        split
        · exact Back.ok (.inr ⟨_, _, rfl, rfl, hd.2⟩)
        · exact Back.ok (.inl ⟨rfl, rfl⟩)
    · rintro o o' (⟨rfl, rfl⟩ | ⟨w, w', rfl, rfl, hw⟩)
      · have hfuel : ws'.fuelFor (g.scale k) = ws.fuelFor g := by
          unfold fuelFor
          rw [hS.items _ _ h.heap]
          simp only [PreparationGraph.scale, List.map_map]
          congr 3
          apply List.map_congr_left
          intro l _
          simp
        simp only [hfuel]
        refine Back.bind (findLoop_scale hS hP hk hl g _ _ _ h) ?_
        intro v v' hv
        refine Back.bind (getCurrentWeight_scale hv target) ?_
        intro c c' hc
        exact Back.ok ⟨hv, hc⟩
      · exact Back.ok ⟨h, hw⟩

end WitnessSearch
end FP
