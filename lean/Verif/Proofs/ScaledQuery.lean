import Verif.Proofs.ScaledPrep
import Verif.Model.Lib
set_option autoImplicit false
/-! # Queries in a graph whose weights are scaled: helper lemmas for C134 -/
namespace FP

variable {P : Plat} {k : Nat} {pq : PQ} {S : pq.σ → pq.σ → Prop}

/-- Weights of the two runs: scaled and proper, or unknown in both. -/
def RouteWeight (P : Plat) (k w w' : Nat) : Prop := (w' = k * w ∧ w' < P.umax) ∨ (w = P.umax ∧ w' = P.umax)

namespace RouteWeight

variable {a b a' b' : Nat} (hk : Factor P k)
include hk

theorem lt_iff (ha : RouteWeight P k a a') (hb : RouteWeight P k b b') : a' < b' ↔ a < b := by
  rcases ha with ⟨rfl, ha⟩ | ⟨rfl, rfl⟩ <;> rcases hb with ⟨rfl, hb⟩ | ⟨rfl, rfl⟩
  · exact Nat.mul_lt_mul_left hk.pos
  · have := hk.le_self a
    constructor <;> intro _ <;> omega
  · have := hk.le_self b
    constructor <;> intro _ <;> omega
  · rfl

theorem le_iff (ha : RouteWeight P k a a') (hb : RouteWeight P k b b') : a' ≤ b' ↔ a ≤ b := by
  have := lt_iff hk hb ha
  omega

theorem eq_max_iff (ha : RouteWeight P k a a') : a' = P.umax ↔ a = P.umax := by
  rcases ha with ⟨rfl, ha⟩ | ⟨rfl, rfl⟩
  · have := hk.le_self a
    constructor <;> intro _ <;> omega
  · exact ⟨fun _ => rfl, fun _ => rfl⟩

theorem of_le {w : Nat} (h : k * w ≤ P.umax) : RouteWeight P k w (k * w) := .inl ⟨rfl, hk.lt h⟩

theorem addW_edge (hP : P.checked = true) (ha : RouteWeight P k a a') (b : Nat) :
    Back (RouteWeight P k) (addW P a b) (addW P a' (k * b)) := by
  rcases ha with ⟨rfl, ha⟩ | ⟨rfl, rfl⟩
  · intro c hc
    obtain ⟨d, h1, h2, h3⟩ := addW_scale hP hk a b c hc
    exact ⟨d, h1, .inl ⟨h2, h2 ▸ h3⟩⟩
  · intro c hc
    unfold addW at hc
    split at hc
    · next h =>
      cases hc
      have h1 := hk.le_self b
      have h2 : b = 0 := by omega
      subst h2
      refine ⟨P.umax, addW_ok (by omega), .inr ⟨rfl, by simp⟩⟩
    · simp [hP] at hc

theorem addW_both (hP : P.checked = true) (ha : RouteWeight P k a a') (hb : RouteWeight P k b b') :
    Back (RouteWeight P k) (addW P a b) (addW P a' b') := by
  rcases hb with ⟨rfl, hb⟩ | ⟨rfl, rfl⟩
  · exact addW_edge hk hP ha b
  · intro c hc
    unfold addW at hc
    split at hc
    · next h =>
      cases hc
      have h0 : a' = 0 := by omega
      subst h0
      have h1 : a = 0 := by
        rcases ha with ⟨e, _⟩ | ⟨rfl, e⟩
        · have := hk.le_self a; omega
        · exact e.symm
      subst h1
      exact ⟨P.umax, by have := addW_ok (P := P) (a := 0) (b := P.umax) (by omega); simpa using this, .inr ⟨rfl, by simp⟩⟩
    · simp [hP] at hc

end RouteWeight

theorem Back.forM_rel {σ σ' γ γ' : Type} {R : σ → σ' → Prop} {Q : γ → γ' → Prop} {f : σ → γ → M σ} {f' : σ' → γ' → M σ'}
    (hf : ∀ s s' a a', R s s' → Q a a' → Back R (f s a) (f' s' a')) {l : List γ} {l' : List γ'} (hl : List.Forall₂ Q l l') :
    ∀ (s : σ) (s' : σ'), R s s' → Back R (FP.forM f s l) (FP.forM f' s' l') := by
  induction hl with
  | nil => intro s s' h; exact Back.ok h
  | cons ha _ ih =>
    intro s s' h
    rw [forM_cons, forM_cons]
    exact Back.bind (hf s s' _ _ h ha) (fun s s' h => ih s s' h)

/-- Labels of the two runs. -/
def RouteData (P : Plat) (k : Nat) (d d' : PData) : Prop :=
  d'.settled = d.settled ∧ RouteWeight P k d.weight d'.weight ∧ d'.parent = d.parent ∧ d'.incEdge = d.incEdge

/-- One direction of the search in the two runs. -/
structure RouteSide (P : Plat) (k : Nat) (S : pq.σ → pq.σ → Prop) (s s' : Side pq) : Prop where
  data : List.Forall₂ (RouteData P k) s.data s'.data
  flags : s'.flags = s.flags
  heap : S s.heap s'.heap

namespace Side

theorem updateNode_route {s s' : Side pq} (h : RouteSide P k S s s') (node parent inc : Nat) {w w' : Nat} (hw : RouteWeight P k w w') :
    Back (RouteSide P k S) (s.updateNode node w parent inc) (s'.updateNode node w' parent inc) := by
  unfold updateNode
  refine Back.bind (Back.of_eq (by rw [h.flags])) ?_
  rintro vf _ rfl
  refine Back.bind (Back.setIdx_rel h.data (a := ⟨false, w, parent, inc⟩) (b := ⟨false, w', parent, inc⟩) ⟨rfl, hw, rfl, rfl⟩ node) ?_
  intro d d' hd
  exact Back.ok ⟨hd, rfl, h.heap⟩

theorem isSettled_route {s s' : Side pq} (h : RouteSide P k S s s') (node : Nat) :
    Back Eq (s.isSettled node) (s'.isSettled node) := by
  unfold isSettled
  refine Back.bind (Back.of_eq (by rw [h.flags])) ?_
  rintro b _ rfl
  cases b
  · exact Back.ok rfl
  · refine Back.bind (Back.idx_rel h.data node) ?_
    intro d d' hd
    exact Back.ok hd.1.symm

theorem getWeight_route {s s' : Side pq} (h : RouteSide P k S s s') (node : Nat) :
    Back (RouteWeight P k) (s.getWeight P node) (s'.getWeight P node) := by
  unfold getWeight
  refine Back.bind (Back.of_eq (by rw [h.flags])) ?_
  rintro b _ rfl
  cases b
  · exact Back.ok (.inr ⟨rfl, rfl⟩)
  · refine Back.bind (Back.idx_rel h.data node) ?_
    intro d d' hd
    exact Back.ok hd.2.1

variable (hS : SameHeaps pq (RouteWeight P k) S) (hk : Factor P k)
include hS hk

theorem addRoot_route {s s' : Side pq} {x x' : Nat × Nat} (h : RouteSide P k S s s') (hx : x'.1 = x.1 ∧ RouteWeight P k x.2 x'.2) :
    Back (RouteSide P k S) (s.addRoot P x) (s'.addRoot P x') := by
  obtain ⟨n, w⟩ := x
  obtain ⟨n', w'⟩ := x'
  obtain ⟨e, hw⟩ := hx
  simp only at e hw
  subst e
  unfold addRoot
  refine Back.bind (getWeight_route h n') ?_
  intro c c' hc
  have hlt := hw.lt_iff hk hc
  by_cases hwc : w < c
  · rw [if_pos hwc, if_pos (hlt.2 hwc)]
    refine Back.bind (updateNode_route h _ _ _ hw) ?_
    intro v v' hv
    exact Back.ok ⟨hv.data, hv.flags, hS.push _ _ _ _ _ hv.heap hw⟩
  · rw [if_neg hwc, if_neg (fun h => hwc (hlt.1 h))]
    exact Back.ok h

variable (hP : P.checked = true)
include hP

theorem relaxEdge_route (es : List FastGraphEdge) {n w w' : Nat} (hw : RouteWeight P k w w') (s s' : Side pq) (i : Nat)
    (h : RouteSide P k S s s') :
    Back (RouteSide P k S) (relaxEdge P es ⟨w, n⟩ s i) (relaxEdge P (es.map (FastGraphEdge.scale k)) ⟨w', n⟩ s' i) := by
  unfold relaxEdge
  refine Back.bind (Back.idx_map (FastGraphEdge.scale k) es i) ?_
  rintro ed _ rfl
  simp only [FastGraphEdge.scale]
  refine Back.bind (hw.addW_edge hk hP ed.weight) ?_
  intro x x' hx
  refine Back.bind (getWeight_route h ed.adjNode) ?_
  intro c c' hc
  have hlt := hx.lt_iff hk hc
  by_cases hwc : x < c
  · rw [if_pos hwc, if_pos (hlt.2 hwc)]
    refine Back.bind (updateNode_route h _ _ _ hx) ?_
    intro v v' hv
    exact Back.ok ⟨hv.data, hv.flags, hS.push _ _ _ _ _ hv.heap hx⟩
  · rw [if_neg hwc, if_neg (fun h => hwc (hlt.1 h))]
    exact Back.ok h

omit hS in
theorem stallScan_route (es : List FastGraphEdge) {n w w' : Nat} (hw : RouteWeight P k w w') {s s' : Side pq}
    (h : RouteSide P k S s s') : ∀ l : List Nat,
    Back Eq (stallScan P es s ⟨w, n⟩ l) (stallScan P (es.map (FastGraphEdge.scale k)) s' ⟨w', n⟩ l)
  | [] => Back.ok rfl
  | i :: l => by
    unfold stallScan
    refine Back.bind (Back.idx_map (FastGraphEdge.scale k) es i) ?_
    rintro ed _ rfl
    simp only [FastGraphEdge.scale]
    refine Back.bind (getWeight_route h ed.adjNode) ?_
    intro c c' hc
    have hm : (c' == P.WEIGHT_MAX) = (c == P.WEIGHT_MAX) := by
      rw [Bool.eq_iff_iff, beq_iff_eq, beq_iff_eq]
      exact hc.eq_max_iff hk
    rw [hm]
    split
    · exact stallScan_route es hw h l
    · refine Back.bind (hc.addW_edge hk hP ed.weight) ?_
      intro x x' hx
      have hlt := hx.lt_iff hk hw
      by_cases hwc : x < w
      · rw [if_pos hwc, if_pos (hlt.2 hwc)]
        exact Back.ok rfl
      · rw [if_neg hwc, if_neg (fun h => hwc (hlt.1 h))]
        exact stallScan_route es hw h l

end Side

namespace PathCalculator

/-- States of the main loop in the two runs. -/
structure RouteQS (P : Plat) (k : Nat) (S : pq.σ → pq.σ → Prop) (s s' : QS pq) : Prop where
  fwd : RouteSide P k S s.fwd s'.fwd
  bwd : RouteSide P k S s.bwd s'.bwd
  best : RouteWeight P k s.best s'.best
  meet : s'.meet = s.meet

section
variable (hk : Factor P k) (hP : P.checked = true)
include hk hP

theorem isStallableFwd_route (g : FastGraph) {n w w' : Nat} (hw : RouteWeight P k w w') {s s' : Side pq}
    (h : RouteSide P k S s s') : Back Eq (isStallableFwd P g s ⟨w, n⟩) (isStallableFwd P (g.scale k) s' ⟨w', n⟩) := by
  unfold isStallableFwd
  refine Back.bind (R := Eq) (Back.of_eq rfl) ?_
  rintro b _ rfl
  refine Back.bind (R := Eq) (Back.of_eq rfl) ?_
  rintro e _ rfl
  exact Side.stallScan_route hk hP _ hw h _

theorem isStallableBwd_route (g : FastGraph) {n w w' : Nat} (hw : RouteWeight P k w w') {s s' : Side pq}
    (h : RouteSide P k S s s') : Back Eq (isStallableBwd P g s ⟨w, n⟩) (isStallableBwd P (g.scale k) s' ⟨w', n⟩) := by
  unfold isStallableBwd
  refine Back.bind (R := Eq) (Back.of_eq rfl) ?_
  rintro b _ rfl
  refine Back.bind (R := Eq) (Back.of_eq rfl) ?_
  rintro e _ rfl
  exact Side.stallScan_route hk hP _ hw h _

variable (hS : SameHeaps pq (RouteWeight P k) S)
include hS

theorem innerFwd_route (g : FastGraph) : ∀ (fuel : Nat) (s s' : QS pq), RouteQS P k S s s' →
    Back (RouteQS P k S) (innerFwd P g fuel s) (innerFwd P (g.scale k) fuel s')
  | 0, _, _, _ => Back.error
  | fuel + 1, s, s', h => by
    unfold innerFwd
    rcases hS.pop _ _ h.fwd.heap with ⟨e1, e2⟩ | ⟨n, w, w', r, r', e1, e2, hw, hr⟩
    · simp only [e1, e2]
      exact Back.ok h
    · simp only [e1, e2]
      have h1 : RouteSide P k S { s.fwd with heap := r } { s'.fwd with heap := r' } := ⟨h.fwd.data, h.fwd.flags, hr⟩
      have h2 : RouteQS P k S { s with fwd := { s.fwd with heap := r } } { s' with fwd := { s'.fwd with heap := r' } } :=
        ⟨h1, h.bwd, h.best, h.meet⟩
      refine Back.bind (Side.isSettled_route h1 n) ?_
      rintro b _ rfl
      cases b
      · simp only [Bool.false_eq_true, if_false]
        have hlt := h.best.lt_iff hk hw
        by_cases hb : s.best < w
        · rw [if_pos hb, if_pos (hlt.2 hb)]
          exact Back.ok h2
        · rw [if_neg hb, if_neg (fun h => hb (hlt.1 h))]
          refine Back.bind (isStallableFwd_route hk hP g hw h1) ?_
          rintro b _ rfl
          cases b
          · simp only [Bool.false_eq_true, if_false]
            refine Back.bind (R := Eq) (Back.of_eq rfl) ?_
            rintro b _ rfl
            refine Back.bind (R := Eq) (Back.of_eq rfl) ?_
            rintro e _ rfl
            refine Back.bind (Back.forM (R := RouteSide P k S) (fun s s' i h => Side.relaxEdge_route hS hk hP g.edgesFwd hw s s' i h)
              _ _ _ h1) ?_
            intro v v' hv
            refine Back.bind (Back.modIdx_rel hv.data (f := fun d => { d with settled := true })
              (f' := fun d => { d with settled := true }) (fun a b hab => ⟨rfl, hab.2⟩) n) ?_
            intro d d' hd
            have h3 : RouteQS P k S { s with fwd := { v with data := d } } { s' with fwd := { v' with data := d' } } :=
              ⟨⟨hd, hv.flags, hv.heap⟩, h.bwd, h.best, h.meet⟩
            refine Back.bind (Back.of_eq (by simp only [h.bwd.flags])) ?_
            rintro b _ rfl
            cases b
            · exact Back.ok h3
            · simp only [if_true]
              refine Back.bind (Side.getWeight_route h.bwd n) ?_
              intro c c' hc
              refine Back.bind (hw.addW_both hk hP hc) ?_
              intro x x' hx
              have hlt := hx.lt_iff hk h.best
              by_cases hb : x < s.best
              · rw [if_pos hb, if_pos (hlt.2 hb)]
                exact Back.ok ⟨h3.fwd, h3.bwd, hx, rfl⟩
              · rw [if_neg hb, if_neg (fun h => hb (hlt.1 h))]
                exact Back.ok h3
          · simp only [if_true]
            exact innerFwd_route g fuel _ _ h2
      · simp only [if_true]
        exact innerFwd_route g fuel _ _ h2

theorem innerBwd_route (g : FastGraph) : ∀ (fuel : Nat) (s s' : QS pq), RouteQS P k S s s' →
    Back (RouteQS P k S) (innerBwd P g fuel s) (innerBwd P (g.scale k) fuel s')
  | 0, _, _, _ => Back.error
  | fuel + 1, s, s', h => by
    unfold innerBwd
    rcases hS.pop _ _ h.bwd.heap with ⟨e1, e2⟩ | ⟨n, w, w', r, r', e1, e2, hw, hr⟩
    · simp only [e1, e2]
      exact Back.ok h
    · simp only [e1, e2]
      have h1 : RouteSide P k S { s.bwd with heap := r } { s'.bwd with heap := r' } := ⟨h.bwd.data, h.bwd.flags, hr⟩
      have h2 : RouteQS P k S { s with bwd := { s.bwd with heap := r } } { s' with bwd := { s'.bwd with heap := r' } } :=
        ⟨h.fwd, h1, h.best, h.meet⟩
      refine Back.bind (Side.isSettled_route h1 n) ?_
      rintro b _ rfl
      cases b
      · simp only [Bool.false_eq_true, if_false]
        have hlt := h.best.lt_iff hk hw
        by_cases hb : s.best < w
        · rw [if_pos hb, if_pos (hlt.2 hb)]
          exact Back.ok h2
        · rw [if_neg hb, if_neg (fun h => hb (hlt.1 h))]
          refine Back.bind (isStallableBwd_route hk hP g hw h1) ?_
          rintro b _ rfl
          cases b
          · simp only [Bool.false_eq_true, if_false]
            refine Back.bind (R := Eq) (Back.of_eq rfl) ?_
            rintro b _ rfl
            refine Back.bind (R := Eq) (Back.of_eq rfl) ?_
            rintro e _ rfl
            refine Back.bind (Back.forM (R := RouteSide P k S) (fun s s' i h => Side.relaxEdge_route hS hk hP g.edgesBwd hw s s' i h)
              _ _ _ h1) ?_
            intro v v' hv
            refine Back.bind (Back.modIdx_rel hv.data (f := fun d => { d with settled := true })
              (f' := fun d => { d with settled := true }) (fun a b hab => ⟨rfl, hab.2⟩) n) ?_
            intro d d' hd
            have h3 : RouteQS P k S { s with bwd := { v with data := d } } { s' with bwd := { v' with data := d' } } :=
              ⟨h.fwd, ⟨hd, hv.flags, hv.heap⟩, h.best, h.meet⟩
            refine Back.bind (Back.of_eq (by simp only [h.fwd.flags])) ?_
            rintro b _ rfl
            cases b
            · exact Back.ok h3
            · simp only [if_true]
              refine Back.bind (Side.getWeight_route h.fwd n) ?_
              intro c c' hc
              refine Back.bind (hw.addW_both hk hP hc) ?_
              intro x x' hx
              have hlt := hx.lt_iff hk h.best
              by_cases hb : x < s.best
              · rw [if_pos hb, if_pos (hlt.2 hb)]
                exact Back.ok ⟨h3.fwd, h3.bwd, hx, rfl⟩
              · rw [if_neg hb, if_neg (fun h => hb (hlt.1 h))]
                exact Back.ok h3
          · simp only [if_true]
            exact innerBwd_route g fuel _ _ h2
      · simp only [if_true]
        exact innerBwd_route g fuel _ _ h2

omit hk hP in
theorem isEmpty_route {q q' : pq.σ} (h : S q q') : pq.isEmpty q' = pq.isEmpty q := by
  unfold PQ.isEmpty
  rcases hS.pop _ _ h with ⟨e1, e2⟩ | ⟨n, w, w', r, r', e1, e2, _, _⟩ <;> rw [e1, e2] <;> rfl

theorem mainLoop_route (g : FastGraph) : ∀ (fuel : Nat) (s s' : QS pq), RouteQS P k S s s' →
    Back (RouteQS P k S) (mainLoop P g fuel s) (mainLoop P (g.scale k) fuel s')
  | 0, _, _, _ => Back.error
  | fuel + 1, s, s', h => by
    unfold mainLoop
    rw [isEmpty_route hS h.fwd.heap, isEmpty_route hS h.bwd.heap, hS.items _ _ h.fwd.heap]
    split
    · exact Back.ok h
    · refine Back.bind (innerFwd_route hk hP hS g _ _ _ h) ?_
      intro a a' ha
      rw [hS.items _ _ ha.bwd.heap]
      refine Back.bind (innerBwd_route hk hP hS g _ _ _ ha) ?_
      intro b b' hb
      exact mainLoop_route g fuel _ _ hb

end

theorem idx_scale (es : List FastGraphEdge) (i : Nat) :
    idx (es.map (FastGraphEdge.scale k)) i = (idx es i >>= fun ed => .ok (ed.scale k) : M FastGraphEdge) := by
  unfold idx
  rw [List.getElem?_map]
  cases es[i]? <;> rfl

theorem unpack_route (g : FastGraph) : ∀ (fuel : Nat) (nodes : List Nat) (i : Nat) (rev : Bool),
    unpackFwd P (g.scale k) fuel nodes i rev = unpackFwd P g fuel nodes i rev ∧
    unpackBwd P (g.scale k) fuel nodes i rev = unpackBwd P g fuel nodes i rev
  | 0, _, _, _ => ⟨by unfold unpackFwd; rfl, by unfold unpackBwd; rfl⟩
  | fuel + 1, nodes, i, rev => by
    have ihF : ∀ nodes i rev, unpackFwd P (g.scale k) fuel nodes i rev = unpackFwd P g fuel nodes i rev :=
      fun a b c => (unpack_route g fuel a b c).1
    have ihB : ∀ nodes i rev, unpackBwd P (g.scale k) fuel nodes i rev = unpackBwd P g fuel nodes i rev :=
      fun a b c => (unpack_route g fuel a b c).2
    constructor
    · unfold unpackFwd
      simp only [ihF, ihB]
      show (idx (g.edgesFwd.map (FastGraphEdge.scale k)) i >>= _) = _
      rw [idx_scale]
      cases idx g.edgesFwd i <;> rfl
    · unfold unpackBwd
      simp only [ihF, ihB]
      show (idx (g.edgesBwd.map (FastGraphEdge.scale k)) i >>= _) = _
      rw [idx_scale]
      cases idx g.edgesBwd i <;> rfl

theorem unpackFuel_scale (g : FastGraph) : unpackFuel (g.scale k) = unpackFuel g := by
  simp [unpackFuel, FastGraph.scale]

theorem walkFwd_route (g : FastGraph) {s s' : Side pq} (h : RouteSide P k S s s') : ∀ (fuel : Nat) (l : List Nat) (node : Nat),
    Back Eq (walkFwd P g s fuel l node) (walkFwd P (g.scale k) s' fuel l node)
  | 0, _, _ => Back.error
  | fuel + 1, l, node => by
    unfold walkFwd
    refine Back.bind (Back.idx_rel h.data node) ?_
    rintro d d' ⟨_, _, e1, e2⟩
    rw [e1, e2, unpackFuel_scale, (unpack_route g _ _ _ _).1]
    split
    · refine Back.bind (R := Eq) (Back.of_eq rfl) ?_
      rintro r _ rfl
      exact walkFwd_route g h fuel _ _
    · exact Back.ok rfl

theorem walkBwd_route (g : FastGraph) {s s' : Side pq} (h : RouteSide P k S s s') : ∀ (fuel : Nat) (l : List Nat) (node : Nat),
    Back Eq (walkBwd P g s fuel l node) (walkBwd P (g.scale k) s' fuel l node)
  | 0, _, _ => Back.error
  | fuel + 1, l, node => by
    unfold walkBwd
    refine Back.bind (Back.idx_rel h.data node) ?_
    rintro d d' ⟨_, _, e1, e2⟩
    rw [e1, e2, unpackFuel_scale, (unpack_route g _ _ _ _).2]
    split
    · refine Back.bind (R := Eq) (Back.of_eq rfl) ?_
      rintro r _ rfl
      exact walkBwd_route g h fuel _ _
    · exact Back.ok rfl

theorem extractNodes_route (g : FastGraph) {s s' t t' : Side pq} (h : RouteSide P k S s s') (h' : RouteSide P k S t t') (meet : Nat) :
    Back Eq (extractNodes P g s t meet) (extractNodes P (g.scale k) s' t' meet) := by
  unfold extractNodes
  rw [h.flags, h'.flags]
  refine Back.bind (R := Eq) (Back.of_eq rfl) ?_
  rintro _ _ rfl
  refine Back.bind (R := Eq) (Back.of_eq rfl) ?_
  rintro _ _ rfl
  refine Back.bind (R := Eq) (Back.of_eq rfl) ?_
  rintro _ _ rfl
  refine Back.bind (R := Eq) (Back.of_eq rfl) ?_
  rintro _ _ rfl
  refine Back.bind (R := Eq) (Back.of_eq rfl) ?_
  rintro _ _ rfl
  refine Back.bind (walkFwd_route g h _ _ _) ?_
  rintro l _ rfl
  exact walkBwd_route g h' _ _ _

section
variable (hk : Factor P k) (hP : P.checked = true)
include hk hP

/-- Sources or targets of the two runs. -/
abbrev Ends (P : Plat) (k : Nat) (l l' : List (Nat × Nat)) : Prop :=
  List.Forall₂ (fun x x' => x'.1 = x.1 ∧ RouteWeight P k x.2 x'.2) l l'

theorem initialMeeting_route {a a' b b' : List (Nat × Nat)} (ha : Ends P k a a') (hb : Ends P k b b') :
    Back (fun r r' => RouteWeight P k r.1 r'.1 ∧ r'.2 = r.2) (initialMeeting P a b) (initialMeeting P a' b') := by
  unfold initialMeeting
  refine Back.forM_rel ?_ ha _ _ ⟨.inr ⟨rfl, rfl⟩, rfl⟩
  intro s s' x x' hs hx
  refine Back.forM_rel ?_ hb _ _ hs
  intro s s' y y' hs hy
  unfold pairStep
  have hmax : RouteWeight P k P.WEIGHT_MAX P.WEIGHT_MAX := .inr ⟨rfl, rfl⟩
  have e1 : decide (x'.2 < P.WEIGHT_MAX) = decide (x.2 < P.WEIGHT_MAX) := by
    rw [decide_eq_decide]; exact hx.2.lt_iff hk hmax
  have e2 : decide (y'.2 < P.WEIGHT_MAX) = decide (y.2 < P.WEIGHT_MAX) := by
    rw [decide_eq_decide]; exact hy.2.lt_iff hk hmax
  rw [hx.1, hy.1, e1, e2]
  split
  · refine Back.bind (hx.2.addW_both hk hP hy.2) ?_
    intro w w' hw
    have hlt := hw.lt_iff hk hs.1
    by_cases hb : w < s.1
    · rw [if_pos hb, if_pos (hlt.2 hb)]
      exact Back.ok ⟨hw, rfl⟩
    · rw [if_neg hb, if_neg (fun h => hb (hlt.1 h))]
      exact Back.ok hs
  · exact Back.ok hs

variable (hS : SameHeaps pq (RouteWeight P k) S)
include hS

/-- Answers of the two runs. -/
def RouteAnswer (k : Nat) (r r' : Option ShortestPath) : Prop := r' = r.map (fun p => { p with weight := k * p.weight })

theorem calcPathMulti_route (g : FastGraph) {c c' : PathCalculator pq} (hn : c'.numNodes = c.numNodes)
    (hf : RouteSide P k S c.fwd c'.fwd) (hb : RouteSide P k S c.bwd c'.bwd) {a a' b b' : List (Nat × Nat)} (ha : Ends P k a a')
    (hb' : Ends P k b b') :
    Back (fun r r' => r'.1.numNodes = r.1.numNodes ∧ RouteSide P k S r.1.fwd r'.1.fwd ∧ RouteSide P k S r.1.bwd r'.1.bwd ∧
        RouteAnswer k r.2 r'.2)
      (c.calcPathMulti P g a b) (c'.calcPathMulti P (g.scale k) a' b') := by
  unfold calcPathMulti
  have emp : ∀ {l l' : List (Nat × Nat)}, Ends P k l l' → l'.isEmpty = l.isEmpty := by
    rintro _ _ (_ | _) <;> rfl
  have all : ∀ {l l' : List (Nat × Nat)}, Ends P k l l' →
      l'.all (fun s => decide (s.1 < c.numNodes)) = l.all (fun s => decide (s.1 < c.numNodes)) := by
    intro l l' h
    induction h with
    | nil => rfl
    | cons h _ ih => simp only [List.all_cons, ih, h.1]
  have hargs : checkArgs c' (g.scale k) a' b' = checkArgs c g a b := by
    unfold checkArgs
    rw [hn, emp ha, emp hb', all ha, all hb']
    rfl
  rw [hargs]
  refine Back.bind (R := Eq) (Back.of_eq rfl) ?_
  rintro _ _ rfl
  refine Back.bind (initialMeeting_route hk hP ha hb') ?_
  rintro ⟨best, meet⟩ ⟨best', meet'⟩ ⟨h1, h2⟩
  simp only at h1 h2
  subst h2
  have hc : ∀ {s s' : Side pq}, RouteSide P k S s s' → RouteSide P k S s.clear s'.clear := fun h =>
    ⟨h.data, by simp only [Side.clear, h.flags], hS.empty⟩
  refine Back.bind (Back.forM_rel (R := RouteSide P k S) (f := Side.addRoot P) (f' := Side.addRoot P)
    (fun s s' x x' h hx => Side.addRoot_route hS hk h hx) ha _ _ (hc hf)) ?_
  intro f f' hf
  refine Back.bind (Back.forM_rel (R := RouteSide P k S) (f := Side.addRoot P) (f' := Side.addRoot P)
    (fun s s' x x' h hx => Side.addRoot_route hS hk h hx) hb' _ _ (hc hb)) ?_
  intro d d' hd
  have hfuel : mainFuel (g.scale k) a' b' = mainFuel g a b := by
    simp [mainFuel, FastGraph.scale, ha.length_eq, hb'.length_eq]
  rw [hfuel]
  refine Back.bind (mainLoop_route hk hP hS g _ ⟨f, d, best, meet'⟩ ⟨f', d', best', meet'⟩ ⟨hf, hd, h1, rfl⟩) ?_
  intro s s' hs
  rw [hs.meet]
  split
  · exact Back.ok ⟨hn, hs.fwd, hs.bwd, rfl⟩
  · have hmax : RouteWeight P k P.WEIGHT_MAX P.WEIGHT_MAX := .inr ⟨rfl, rfl⟩
    have hdec : decide (s'.best < P.WEIGHT_MAX) = decide (s.best < P.WEIGHT_MAX) := by
      rw [decide_eq_decide]; exact hs.best.lt_iff hk hmax
    rw [hdec]
    by_cases hlt : s.best < P.WEIGHT_MAX
    · refine Back.bind (R := Eq) (Back.of_eq rfl) ?_
      rintro _ _ rfl
      refine Back.bind (extractNodes_route g hs.fwd hs.bwd s.meet) ?_
      rintro nodes _ rfl
      refine Back.bind (R := Eq) (Back.of_eq rfl) ?_
      rintro _ _ rfl
      refine Back.bind (R := Eq) (Back.of_eq rfl) ?_
      rintro x _ rfl
      refine Back.bind (R := Eq) (Back.of_eq rfl) ?_
      rintro y _ rfl
      refine Back.ok ⟨hn, hs.fwd, hs.bwd, ?_⟩
      rcases hs.best with ⟨e, _⟩ | ⟨e, _⟩
      · simp only [RouteAnswer, Option.map_some, e]
      · exact absurd e (Nat.ne_of_lt hlt)
    · rw [decide_eq_false hlt]
      exact Back.error

theorem libCalcPathMulti_route (g : FastGraph) {a a' b b' : List (Nat × Nat)} (ha : Ends P k a a') (hb : Ends P k b b') :
    Back (RouteAnswer k) (FP.calcPathMulti P pq g a b) (FP.calcPathMulti P pq (g.scale k) a' b') := by
  unfold FP.calcPathMulti
  have hside : RouteSide P k S (Side.new P pq g.getNumNodes) (Side.new P pq g.getNumNodes) := by
    refine ⟨?_, rfl, hS.empty⟩
    unfold Side.new
    rw [List.forall₂_same]
    intro x hx
    rw [(List.mem_replicate.1 hx).2]
    exact ⟨rfl, .inr ⟨rfl, rfl⟩, rfl, rfl⟩
  refine Back.bind (calcPathMulti_route hk hP hS g (c := PathCalculator.new P pq g.getNumNodes)
    (c' := PathCalculator.new P pq (g.scale k).getNumNodes) rfl hside hside ha hb) ?_
  rintro ⟨c, r⟩ ⟨c', r'⟩ ⟨_, _, _, h⟩
  exact Back.ok h

end

end PathCalculator
end FP
