import Verif.Proofs.SafeQuery
/-! # The query from a node to itself never overflows -/
namespace FP
open Spec PathCalculator

variable {pq : PQ} {P : Plat} {n s : Nat} {fg : FastGraph} {E : EdgeRel}

/-- One side of a search whose only root is `s` with weight 0: before and after `s` is expanded. -/
structure SelfInv (n s : Nat) (sd : Side pq) : Prop where
  tab : sd.Base n
  cur : ∃ d, sd.look s = some d ∧ d.weight = 0
  lt : ∀ it ∈ pq.items sd.heap, it.nodeId < n
  phase : ((∀ it ∈ pq.items sd.heap, it = ⟨0, s⟩) ∧ (pq.items sd.heap).length ≤ 1 ∧ ∀ x, x ≠ s → sd.look x = none) ∨
    ∀ it ∈ pq.items sd.heap, 1 ≤ it.weight

/-- Stored edges are positive and representable. -/
structure EdgesFit (P : Plat) (n : Nat) (fg : FastGraph) : Prop where
  fwd : ∀ u < n, ∀ id ed, fg.OutAt u id ed → 1 ≤ ed.weight ∧ ed.weight ≤ P.umax
  bwd : ∀ u < n, ∀ id ed, fg.InAt u id ed → 1 ≤ ed.weight ∧ ed.weight ≤ P.umax

theorem EdgesFit.flip (h : EdgesFit P n fg) : EdgesFit P n fg.flip := ⟨h.bwd, h.fwd⟩

theorem stallScan_self (hg : SGood P E n fg) (hs : s < n) {sd : Side pq} (ht : sd.Base n)
    (hnone : ∀ x, x ≠ s → sd.look x = none) : ∀ l : List Nat, (∀ id ∈ l, ∃ ed, fg.InAt s id ed) →
    sd.stallScan P fg.edgesBwd ⟨0, s⟩ l = .ok false := by
  intro l
  induction l with
  | nil => intro _; rfl
  | cons id rest ih =>
    intro hl
    obtain ⟨ed, hat⟩ := hl id (List.mem_cons_self ..)
    obtain ⟨g1, g2, _⟩ := hg.dn _ hs _ _ hat
    unfold Side.stallScan
    rw [idx_some hat.2.2]
    simp only [bind_okM]
    rw [Side.getWeight_ok ht g1]
    simp only [bind_okM]
    have hne : ed.adjNode ≠ s := by intro e; rw [e] at g2; omega
    have : sd.wt P ed.adjNode = P.umax := by unfold Side.wt; rw [hnone _ hne]
    rw [if_pos (by simpa [Plat.WEIGHT_MAX] using this)]
    exact ih (fun i hi => hl i (List.mem_cons_of_mem _ hi))

/-- After the expansion of `s`. -/
structure SelfDone (n s : Nat) (sd : Side pq) : Prop where
  tab : sd.Base n
  cur : ∃ d, sd.look s = some d ∧ d.weight = 0
  lt : ∀ it ∈ pq.items sd.heap, it.nodeId < n
  pos : ∀ it ∈ pq.items sd.heap, 1 ≤ it.weight

theorem SelfDone.inv {sd : Side pq} (h : SelfDone n s sd) : SelfInv n s sd := ⟨h.tab, h.cur, h.lt, Or.inr h.pos⟩

theorem relaxEdge_self (hg : SGood P E n fg) (hE : EdgesFit P n fg) (hs : s < n) {sd : Side pq} (h : SelfDone n s sd)
    {id : Nat} {ed : FastGraphEdge} (hat : fg.OutAt s id ed) :
    Saf (sd.relaxEdge P fg.edgesFwd ⟨0, s⟩ id) (SelfDone n s) := by
  obtain ⟨g1, g2, g3⟩ := hg.up _ hs _ _ hat
  obtain ⟨w1, w2⟩ := hE.fwd _ hs _ _ hat
  unfold Side.relaxEdge
  rw [idx_some hat.2.2]
  simp only [bind_okM]
  rw [addW_ok (by omega : 0 + ed.weight ≤ P.umax)]
  simp only [bind_okM]
  rw [Side.getWeight_ok h.tab g1]
  simp only [bind_okM]
  by_cases hlt : 0 + ed.weight < sd.wt P ed.adjNode
  · rw [if_pos hlt]
    obtain ⟨s', e, b', hh, hl⟩ := Side.updateNode_ok h.tab g1 (0 + ed.weight) s id
    rw [e]
    simp only [bind_okM]
    have hL : ∀ y, ({ s' with heap := pq.push ⟨0 + ed.weight, ed.adjNode⟩ s'.heap } : Side pq).look y
        = if y = ed.adjNode then some ⟨false, 0 + ed.weight, s, id⟩ else sd.look y := hl
    refine ⟨b', ?_, ?_, ?_⟩
    · obtain ⟨d, h1, h2⟩ := h.cur
      refine ⟨d, ?_, h2⟩
      rw [hL, if_neg (by intro e; rw [← e] at g2; omega)]
      exact h1
    · intro it hit
      rw [PQ.mem_push, hh] at hit
      rcases hit with rfl | hit
      · exact g1
      · exact h.lt it hit
    · intro it hit
      rw [PQ.mem_push, hh] at hit
      rcases hit with rfl | hit
      · simp only; omega
      · exact h.pos it hit
  · rw [if_neg hlt]; exact h

theorem innerFwd_self (hg : SGood P E n fg) (hE : EdgesFit P n fg) (hs : s < n) : ∀ fuel (st : QS pq), st.best = 0 →
    SelfInv n s st.fwd → SelfInv n s st.bwd →
    Saf (innerFwd P fg fuel st) (fun st' => st'.best = 0 ∧ SelfInv n s st'.fwd ∧ st'.bwd = st.bwd) := by
  intro fuel
  induction fuel with
  | zero => intro st _ _ _; exact id
  | succ fuel ih =>
    intro st hbest hf hb
    unfold innerFwd
    cases hp : pq.pop st.fwd.heap with
    | none => exact ⟨hbest, hf, rfl⟩
    | some r =>
      obtain ⟨curr, heap'⟩ := r
      simp only
      have hcurr : curr ∈ pq.items st.fwd.heap := (PQ.pop_mem hp).2 (Or.inl rfl)
      have hsub : ∀ it ∈ pq.items heap', it ∈ pq.items st.fwd.heap := fun it hit => (PQ.pop_mem hp).2 (Or.inr hit)
      have hcn := hf.lt _ hcurr
      have hpos : ∀ it ∈ pq.items heap', 1 ≤ it.weight := by
        intro it hit
        rcases hf.phase with ⟨_, h2, _⟩ | h
        · have := PQ.pop_length hp
          have : (pq.items heap').length = 0 := by omega
          rw [List.length_eq_zero_iff.1 this] at hit
          cases hit
        · exact h it (hsub it hit)
      have hd' : SelfDone n s ({ st.fwd with heap := heap' } : Side pq) :=
        ⟨hf.tab, hf.cur, fun it hit => hf.lt it (hsub it hit), hpos⟩
      have hcont := ih ({ st with fwd := { st.fwd with heap := heap' } } : QS pq) hbest hd'.inv hb
      rw [Side.isSettled_ok hd'.tab hcn]
      simp only [bind_okM]
      by_cases hset : Side.settledB ({ st.fwd with heap := heap' } : Side pq) curr.nodeId = true
      · rw [if_pos hset]; exact hcont
      rw [if_neg hset]
      by_cases hw : curr.weight > st.best
      · rw [if_pos hw]; exact ⟨hbest, hd'.inv, rfl⟩
      rw [if_neg hw]
      -- `s` itself
      rcases hf.phase with ⟨h1, _, h3⟩ | h
      swap
      · have := h _ hcurr; omega
      have hcs := h1 _ hcurr
      subst hcs
      have hst : isStallableFwd P fg ({ st.fwd with heap := heap' } : Side pq) ⟨0, s⟩ = .ok false := by
        unfold isStallableFwd
        rw [hg.beginIn hs, hg.endIn hs]
        simp only [bind_okM]
        refine stallScan_self hg hs hd'.tab h3 _ ?_
        intro id hid
        simp only [rangeFrom, List.mem_range'_1] at hid
        exact hg.inAt hs hid.1 (by omega)
      rw [hst]
      simp only [bind_okM]
      rw [if_neg (by simp), hg.beginOut hs, hg.endOut hs]
      simp only [bind_okM]
      refine Saf.bind (Q := SelfDone n s) ?_ ?_
      · refine Saf.forM (SelfDone n s) hd' ?_
        intro sd id hid hI
        simp only [rangeFrom, List.mem_range'_1] at hid
        obtain ⟨ed, hat⟩ := hg.outAt hs hid.1 (by omega)
        exact relaxEdge_self hg hE hs hI hat
      intro sd hI
      obtain ⟨d, k1, k2⟩ := hI.cur
      obtain ⟨e, ht, hl⟩ := TabOk.modify hI.tab k1 (fun d => { d with settled := true })
      rw [e]
      simp only [bind_okM]
      have hs2 : SelfInv n s ({ sd with data := sd.data.set s { d with settled := true } } : Side pq) := by
        refine ⟨ht, ⟨{ d with settled := true }, (hl s).trans (by rw [if_pos rfl]), k2⟩, hI.lt, Or.inr hI.pos⟩
      obtain ⟨db, q1, q2⟩ := hb.cur
      rw [hb.tab.isValid_some q1]
      simp only [bind_okM, if_true]
      rw [Side.getWeight_ok hb.tab hs, Side.wt_some q1]
      simp only [bind_okM]
      rw [q2, addW_ok (by omega : 0 + 0 ≤ P.umax)]
      simp only [bind_okM]
      rw [if_neg (by omega)]
      exact ⟨hbest, hs2, rfl⟩

theorem mainLoop_self (hg : SGood P E n fg) (hE : EdgesFit P n fg) (hs : s < n) : ∀ fuel (st : QS pq), st.best = 0 →
    SelfInv n s st.fwd → SelfInv n s st.bwd → NoRes (mainLoop P fg fuel st) := by
  intro fuel
  induction fuel with
  | zero => intro st _ _ _; exact NoRes.fuel
  | succ fuel ih =>
    intro st hbest hf hb
    unfold mainLoop
    refine NoRes.ite (fun _ => NoRes.ok _) (fun _ => ?_)
    refine Saf.noRes (Q := fun _ => True) ?_
    refine Saf.bind (innerFwd_self hg hE hs _ st hbest hf hb) ?_
    rintro st1 ⟨h1, h2, h3⟩
    rw [innerBwd_eq]
    refine Saf.bind (Q := fun (st2 : QS pq) => st2.best = 0 ∧ SelfInv n s st2.fwd ∧ SelfInv n s st2.bwd) ?_ ?_
    · refine Saf.bind (innerFwd_self hg.flip hE.flip hs _ (swapQS st1) h1
        (by rw [show (swapQS st1).fwd = st1.bwd from rfl, h3]; exact hb) h2) ?_
      rintro st2 ⟨h4, h5, h6⟩
      refine ⟨h4, ?_, h5⟩
      show SelfInv n s st2.bwd
      rw [h6]; exact h2
    · rintro st2 ⟨h4, h5, h6⟩
      exact Saf.of_noRes (ih st2 h4 h5 h6)

theorem addRoot_self {sd : Side pq} (h : sd.Base n) (hs : s < n) (hu : 0 < P.umax) :
    ∃ sd', forM (Side.addRoot P) sd.clear [(s, 0)] = .ok sd' ∧ SelfInv n s sd' := by
  obtain ⟨ok, hl⟩ := TabOk.invalidate h
  have hcl : ∀ x, sd.clear.look x = none := hl
  have hbase : sd.clear.Base n := ok
  simp only [FP.forM]
  unfold Side.addRoot
  simp only
  rw [Side.getWeight_ok hbase hs]
  simp only [bind_okM]
  have : sd.clear.wt P s = P.umax := by unfold Side.wt; rw [hcl]
  rw [if_pos (by rw [this]; exact hu)]
  obtain ⟨s', e, b', hh, hL⟩ := Side.updateNode_ok hbase hs 0 s P.INVALID_EDGE
  rw [e]
  simp only [bind_okM]
  have hit : ∀ it, it ∈ pq.items (pq.push ⟨0, s⟩ s'.heap) ↔ it = ⟨0, s⟩ := by
    intro it
    rw [PQ.mem_push, hh, show sd.clear.heap = pq.empty from rfl, pq.items_empty]
    simp
  refine ⟨_, rfl, b', ⟨_, (hL s).trans (by rw [if_pos rfl]), rfl⟩, ?_, Or.inl ⟨?_, ?_, ?_⟩⟩
  · intro it h; rw [(hit it).1 h]; exact hs
  · intro it h; exact (hit it).1 h
  · show (pq.items (pq.push ⟨0, s⟩ s'.heap)).length ≤ 1
    rw [PQ.length_push, hh, show sd.clear.heap = pq.empty from rfl, pq.items_empty]
    simp
  · intro x hx
    refine (hL x).trans ?_
    rw [if_neg hx]; exact hcl x

/-- The query from `s` to `s` returns the empty path. -/
theorem calcPath_self (hP : P.checked = true) (h : FGood P E n fg) (hE : EdgesFit P n fg)
    (hpos : ∀ u v w, E u v w → 1 ≤ w) {c : PathCalculator pq} (hc : CalcOk n c) (hs : s < n) :
    ∃ c', c.calcPath P fg s s = .ok (c', some ⟨s, s, 0, [s]⟩) ∧ CalcOk n c' := by
  have hu : 0 < P.umax := by have := h.n_lt; omega
  have hl : ∀ x ∈ [(s, 0)], x.1 < n := by intro x hx; simp at hx; subst hx; exact hs
  have hn : NoRes (c.calcPathMulti P fg [(s, 0)] [(s, 0)]) := by
    simp only [PathCalculator.calcPathMulti]
    refine NoRes.bind (noRes_checkArgs _ _ _ _) (fun _ _ => ?_)
    have him : initialMeeting P [(s, 0)] [(s, 0)] = .ok (0, s) := by
      unfold initialMeeting
      simp only [FP.forM, pairStep]
      rw [if_pos (by simp [Plat.WEIGHT_MAX, hu])]
      rw [addW_ok (by omega : 0 + 0 ≤ P.umax)]
      simp only [bind_okM]
      rw [if_pos (by simpa [Plat.WEIGHT_MAX] using hu)]
      rfl
    rw [him]
    simp only [bind_okM]
    obtain ⟨f, e1, hf⟩ := addRoot_self (P := P) hc.f hs hu
    obtain ⟨b, e2, hb⟩ := addRoot_self (P := P) hc.b hs hu
    rw [e1, e2]
    simp only [bind_okM]
    exact NoRes.bind (mainLoop_self h.toSGood hE hs _ _ rfl hf hb) (fun st _ => noRes_finishQuery c fg st)
  obtain ⟨⟨c', r⟩, e, h1, h2⟩ := (calcPathMulti_ok hP h hc (by simp) (by simp) hl hl).total hn
  simp only at h1 h2
  refine ⟨c', ?_, h1⟩
  unfold PathCalculator.calcPath
  rw [e]
  have hw0 : HasWalk E s s 0 := ⟨[s], rfl, rfl, rfl⟩
  obtain ⟨k1, k2⟩ := h2.single
  cases r with
  | none => exact absurd (k1 rfl 0 hw0) (by omega)
  | some p =>
    obtain ⟨_, q1, q2, q3, q4, _, q6⟩ := k2 p rfl
    have hw : p.weight = 0 := by have := q6.2 0 hw0; omega
    rw [hw] at q3
    have hnodes : p.nodes = [s] := by
      cases hno : p.nodes with
      | nil => rw [hno] at q4; cases q4
      | cons a as =>
        rw [hno] at q3 q4
        simp at q4
        subst q4
        cases as with
        | nil => rfl
        | cons b bs =>
          obtain ⟨x, y, g1, _, g3⟩ := q3
          have := hpos _ _ _ g1
          omega
    cases p
    simp only at hw q1 q2 hnodes
    subst hw q1 hnodes
    rw [q2]

/-! ### Prepared graphs hold positive, representable weights -/

theorem FGood.pos (h : FGood P E n fg) (hpos : ∀ u v w, E u v w → 1 ≤ w) :
    (∀ u < n, ∀ id ed, fg.OutAt u id ed → 1 ≤ ed.weight) ∧ (∀ u < n, ∀ id ed, fg.InAt u id ed → 1 ≤ ed.weight) := by
  have key : ∀ {a b w}, Wk E a b w → a ≠ b → 1 ≤ w := by
    intro a b w k hab
    cases k with
    | nil => exact absurd rfl hab
    | cons e k => have := hpos _ _ _ e; omega
  have hg := h.toSGood
  constructor
  · intro u hu id ed hat
    obtain ⟨_, g2, g3⟩ := hg.up u hu id ed hat
    exact key g3 (by intro e; rw [← e] at g2; omega)
  · intro u hu id ed hat
    obtain ⟨_, g2, g3⟩ := hg.dn u hu id ed hat
    exact key g3 (by intro e; rw [e] at g2; omega)

theorem BuiltFrom.fits {es : List Edge} (h : BuiltFrom P n R es fg) (hes : ∀ e ∈ es, e.weight ≤ P.umax) :
    (∀ ed ∈ fg.edgesFwd, ed.weight ≤ P.umax) ∧ ∀ ed ∈ fg.edgesBwd, ed.weight ≤ P.umax := by
  obtain ⟨pq, ls, st, hI, hlen, hsc⟩ := h
  obtain ⟨g₀, hfi, hch⟩ := hI.start
  obtain ⟨_, h1, h2⟩ := hch.arc_fits (fun u a ha => hes _ ((hfi.mem u a).1 ha).2) hfi.wf
  constructor
  · intro ed hed
    have : ed.core ∈ fg.edgesFwd.map FastGraphEdge.core := List.mem_map.2 ⟨ed, hed, rfl⟩
    rw [hsc.ef, hI.rc.ef] at this
    obtain ⟨ed', m, e⟩ := List.mem_map.1 this
    obtain ⟨b, hb, m⟩ := List.mem_flatten.1 m
    obtain ⟨l, hl, rfl⟩ := List.mem_map.1 hb
    obtain ⟨a, ha, rfl⟩ := List.mem_map.1 m
    have hw := h1 l hl a ha
    have : ed.weight = a.weight := by
      simp only [FastGraphEdge.core, Prod.mk.injEq] at e
      exact e.2.2.symm
    omega
  · intro ed hed
    have : ed.core ∈ fg.edgesBwd.map FastGraphEdge.core := List.mem_map.2 ⟨ed, hed, rfl⟩
    rw [hsc.eb, hI.rc.eb] at this
    obtain ⟨ed', m, e⟩ := List.mem_map.1 this
    obtain ⟨b, hb, m⟩ := List.mem_flatten.1 m
    obtain ⟨l, hl, rfl⟩ := List.mem_map.1 hb
    obtain ⟨a, ha, rfl⟩ := List.mem_map.1 m
    have hw := h2 l hl a ha
    have : ed.weight = a.weight := by
      simp only [FastGraphEdge.core, Prod.mk.injEq] at e
      exact e.2.2.symm
    omega

end FP
