import Verif.Proofs.Safe
import Verif.Proofs.Api
/-! # Queries without arithmetic overflow -/
namespace FP
open Spec PathCalculator

variable {pq : PQ} {P : Plat} {n : Nat} {α β σ : Type}

/-- `m` returns a value with `Q` or stops with something other than a resource panic. -/
def Saf (m : M α) (Q : α → Prop) : Prop :=
  match m with
  | .ok a => Q a
  | .error e => ¬ e.Res

theorem Saf.noRes {m : M α} {Q : α → Prop} (h : Saf m Q) : NoRes m := by
  intro e he; subst he; exact h

theorem Saf.of_noRes {m : M α} (h : NoRes m) : Saf m (fun _ => True) := by
  cases m with
  | ok a => trivial
  | error e => exact h e rfl

theorem Saf.of_ok {m : M α} {a : α} {Q : α → Prop} (h : m = .ok a) (hq : Q a) : Saf m Q := by subst h; exact hq

theorem Saf.bind {m : M α} {f : α → M β} {Q : α → Prop} {R : β → Prop} (h : Saf m Q) (hf : ∀ a, Q a → Saf (f a) R) :
    Saf (m >>= f) R := by
  cases m with
  | ok a => exact hf a h
  | error e => exact h

theorem Saf.mono {m : M α} {Q R : α → Prop} (h : Saf m Q) (hf : ∀ a, Q a → R a) : Saf m R := by
  cases m with
  | ok a => exact hf a h
  | error e => exact h

theorem Saf.forM {f : σ → α → M σ} {l : List α} (I : σ → Prop) {s : σ} (h0 : I s)
    (hs : ∀ s, ∀ a ∈ l, I s → Saf (f s a) I) : Saf (forM f s l) I := by
  induction l generalizing s with
  | nil => exact h0
  | cons a as ih =>
    exact Saf.bind (hs s a (List.mem_cons_self ..) h0) (fun s' h' => ih h' (fun s a ha => hs s a (List.mem_cons_of_mem _ ha)))

/-- Bounds `F` on the labels of one side of the search. -/
structure SideB (n : Nat) (F : Nat → Nat) (s : Side pq) : Prop where
  tab : s.Base n
  lab : ∀ x d, s.look x = some d → d.weight ≤ F x
  items : ∀ it ∈ pq.items s.heap, (∃ d, s.look it.nodeId = some d) ∧ it.weight ≤ F it.nodeId

/-- `F` can be used as a bound on labels of a search on `fg`. -/
structure Bound (P : Plat) (n : Nat) (fg : FastGraph) (F : Nat → Nat) : Prop where
  up : ∀ u < n, ∀ id ed, fg.OutAt u id ed → F u + ed.weight ≤ F ed.adjNode
  stall : ∀ u < n, ∀ id ed, fg.InAt u id ed → F ed.adjNode + ed.weight ≤ P.umax
  le : ∀ u < n, F u ≤ P.umax

variable {fg : FastGraph} {F G : Nat → Nat}

theorem SideB.push {s s' : Side pq} (h : SideB n F s) {x w p i : Nat} (hx : w ≤ F x) (hb : s'.Base n)
    (hh : s'.heap = s.heap) (hl : ∀ y, s'.look y = if y = x then some ⟨false, w, p, i⟩ else s.look y) :
    SideB n F ({ s' with heap := pq.push ⟨w, x⟩ s'.heap } : Side pq) := by
  have hL : ∀ y, ({ s' with heap := pq.push ⟨w, x⟩ s'.heap } : Side pq).look y
    = if y = x then some ⟨false, w, p, i⟩ else s.look y := hl
  refine ⟨hb, ?_, ?_⟩
  · intro y d hy
    rw [hL] at hy
    by_cases hyx : y = x
    · rw [if_pos hyx] at hy; cases hy; rw [hyx]; exact hx
    · rw [if_neg hyx] at hy; exact h.lab y d hy
  · intro it hit
    rw [PQ.mem_push, hh] at hit
    rcases hit with rfl | hit
    · exact ⟨⟨_, by rw [hL, if_pos rfl]⟩, hx⟩
    · obtain ⟨⟨d, h1⟩, h2⟩ := h.items it hit
      refine ⟨?_, h2⟩
      rw [hL]
      by_cases hyx : it.nodeId = x
      · rw [if_pos hyx]; exact ⟨_, rfl⟩
      · rw [if_neg hyx]; exact ⟨d, h1⟩

theorem SideB.wt_le {s : Side pq} (h : SideB n F s) {x : Nat} (hx : s.wt P x ≠ P.umax) : s.wt P x ≤ F x := by
  unfold Side.wt at hx ⊢
  cases hl : s.look x with
  | none => rw [hl] at hx; exact absurd rfl hx
  | some d => exact h.lab x d hl

theorem addRoot_saf {s : Side pq} (h : SideB n F s) {r wr : Nat} (hr : r < n) (hw : wr < P.umax → wr ≤ F r)
    (hF : ∀ u < n, F u ≤ P.umax) : Saf (Side.addRoot P s (r, wr)) (SideB n F) := by
  unfold Side.addRoot
  simp only
  rw [Side.getWeight_ok h.tab hr]
  simp only [bind_okM]
  by_cases hlt : wr < s.wt P r
  · rw [if_pos hlt]
    obtain ⟨s', e, b', hh, hl⟩ := Side.updateNode_ok h.tab hr wr r P.INVALID_EDGE
    rw [e]
    simp only [bind_okM]
    have : wr < P.umax := by
      by_cases hm : s.wt P r = P.umax
      · omega
      · have := h.wt_le hm; have := hF r hr; omega
    exact h.push (hw this) b' hh hl
  · rw [if_neg hlt]; exact h

theorem clear_sideB {s : Side pq} (h : s.Base n) : SideB n F s.clear := by
  obtain ⟨ok, hl⟩ := TabOk.invalidate h
  refine ⟨ok, ?_, ?_⟩
  · intro x d hx; rw [show s.clear.look x = none from hl x] at hx; cases hx
  · intro it hit
    rw [show s.clear.heap = pq.empty from rfl, pq.items_empty] at hit
    cases hit

theorem stallScan_saf {E : EdgeRel} (hg : SGood P E n fg) (hB : Bound P n fg F) {s : Side pq} (h : SideB n F s)
    {curr : HeapItem} (hc : curr.nodeId < n) : ∀ l : List Nat, (∀ id ∈ l, ∃ ed, fg.InAt curr.nodeId id ed) →
    NoRes (s.stallScan P fg.edgesBwd curr l) := by
  intro l
  induction l with
  | nil => intro _; exact NoRes.ok _
  | cons id rest ih =>
    intro hl
    obtain ⟨ed, hat⟩ := hl id (List.mem_cons_self ..)
    have ih' := ih (fun i hi => hl i (List.mem_cons_of_mem _ hi))
    obtain ⟨g1, g2, g3⟩ := hg.dn _ hc _ _ hat
    unfold Side.stallScan
    rw [idx_some hat.2.2]
    simp only [bind_okM]
    rw [Side.getWeight_ok h.tab g1]
    simp only [bind_okM]
    refine NoRes.ite (fun _ => ih') (fun hne => NoRes.bind (NoRes.addW ?_) (fun _ _ => NoRes.ite (fun _ => NoRes.ok _)
      (fun _ => ih')))
    have hne' : s.wt P ed.adjNode ≠ P.umax := by simpa [Plat.WEIGHT_MAX] using hne
    have := h.wt_le hne'
    have := hB.stall _ hc _ _ hat
    omega

theorem relaxEdge_saf {E : EdgeRel} (hg : SGood P E n fg) (hB : Bound P n fg F) {s : Side pq} (h : SideB n F s)
    {curr : HeapItem} (hc : curr.nodeId < n) (hw : curr.weight ≤ F curr.nodeId)
    (hd : ∃ d, s.look curr.nodeId = some d) {id : Nat} {ed : FastGraphEdge} (hat : fg.OutAt curr.nodeId id ed) :
    Saf (s.relaxEdge P fg.edgesFwd curr id) (fun s' => SideB n F s' ∧ ∃ d, s'.look curr.nodeId = some d) := by
  obtain ⟨g1, g2, g3⟩ := hg.up _ hc _ _ hat
  have hup := hB.up _ hc _ _ hat
  have hle := hB.le _ g1
  unfold Side.relaxEdge
  rw [idx_some hat.2.2]
  simp only [bind_okM]
  rw [addW_ok (by omega : curr.weight + ed.weight ≤ P.umax)]
  simp only [bind_okM]
  rw [Side.getWeight_ok h.tab g1]
  simp only [bind_okM]
  by_cases hlt : curr.weight + ed.weight < s.wt P ed.adjNode
  · rw [if_pos hlt]
    obtain ⟨s', e, b', hh, hl⟩ := Side.updateNode_ok h.tab g1 (curr.weight + ed.weight) curr.nodeId id
    rw [e]
    simp only [bind_okM]
    refine ⟨h.push (by omega) b' hh hl, ?_⟩
    obtain ⟨d, hd⟩ := hd
    refine ⟨d, (hl _).trans ?_⟩
    rw [if_neg (by intro e; rw [← e] at g2; omega)]
    exact hd
  · rw [if_neg hlt]; exact ⟨h, hd⟩

theorem innerFwd_saf {E : EdgeRel} (hg : SGood P E n fg) (hB : Bound P n fg F) (hm : ∀ x < n, F x + G x ≤ P.umax) :
    ∀ fuel (st : QS pq), SideB n F st.fwd → SideB n G st.bwd →
      Saf (innerFwd P fg fuel st) (fun st' => SideB n F st'.fwd ∧ st'.bwd = st.bwd) := by
  intro fuel
  induction fuel with
  | zero => intro st _ _; exact id
  | succ fuel ih =>
    intro st hf hb
    unfold innerFwd
    cases hp : pq.pop st.fwd.heap with
    | none => exact ⟨hf, rfl⟩
    | some r =>
      obtain ⟨curr, heap'⟩ := r
      simp only
      have hcurr : curr ∈ pq.items st.fwd.heap := (PQ.pop_mem hp).2 (Or.inl rfl)
      obtain ⟨⟨dc, hc1⟩, hc2⟩ := hf.items curr hcurr
      have hcn : curr.nodeId < n := hf.tab.look_lt hc1
      have hf' : SideB n F ({ st.fwd with heap := heap' } : Side pq) :=
        ⟨hf.tab, hf.lab, fun it hit => hf.items it ((PQ.pop_mem hp).2 (Or.inr hit))⟩
      have hcont := ih ({ st with fwd := { st.fwd with heap := heap' } } : QS pq) hf' hb
      rw [Side.isSettled_ok hf'.tab hcn]
      simp only [bind_okM]
      by_cases hset : Side.settledB ({ st.fwd with heap := heap' } : Side pq) curr.nodeId = true
      · rw [if_pos hset]; exact hcont
      rw [if_neg hset]
      by_cases hbest : curr.weight > st.best
      · rw [if_pos hbest]; exact ⟨hf', rfl⟩
      rw [if_neg hbest]
      refine Saf.bind (Q := fun _ => True) (Saf.of_noRes ?_) ?_
      · unfold isStallableFwd
        rw [hg.beginIn hcn, hg.endIn hcn]
        simp only [bind_okM]
        refine stallScan_saf hg hB hf' hcn _ ?_
        intro id hid
        simp only [rangeFrom, List.mem_range'_1] at hid
        exact hg.inAt hcn hid.1 (by omega)
      · intro r _
        by_cases hr : r = true
        · rw [if_pos hr]; exact hcont
        rw [if_neg hr, hg.beginOut hcn, hg.endOut hcn]
        simp only [bind_okM]
        refine Saf.bind (Q := fun s => SideB n F s ∧ ∃ d, s.look curr.nodeId = some d) ?_ ?_
        · refine Saf.forM (fun s => SideB n F s ∧ ∃ d, s.look curr.nodeId = some d) ⟨hf', dc, hc1⟩ ?_
          rintro s id hid ⟨h1, h2⟩
          simp only [rangeFrom, List.mem_range'_1] at hid
          obtain ⟨ed, hat⟩ := hg.outAt hcn hid.1 (by omega)
          exact relaxEdge_saf hg hB h1 hcn hc2 h2 hat
        rintro s ⟨h1, d, hd⟩
        obtain ⟨e, ht, hl⟩ := TabOk.modify h1.tab hd (fun d => { d with settled := true })
        rw [e]
        simp only [bind_okM]
        have hs2 : SideB n F ({ s with data := s.data.set curr.nodeId { d with settled := true } } : Side pq) := by
          have hL : ∀ y, ({ s with data := s.data.set curr.nodeId { d with settled := true } } : Side pq).look y
            = if y = curr.nodeId then some { d with settled := true } else s.look y := hl
          refine ⟨ht, ?_, ?_⟩
          · intro y d' hy
            rw [hL] at hy
            by_cases hyx : y = curr.nodeId
            · rw [if_pos hyx] at hy; cases hy; rw [hyx]; exact h1.lab _ d hd
            · rw [if_neg hyx] at hy; exact h1.lab y d' hy
          · intro it hit
            obtain ⟨⟨d', h3⟩, h4⟩ := h1.items it hit
            refine ⟨?_, h4⟩
            rw [hL]
            by_cases hyx : it.nodeId = curr.nodeId
            · rw [if_pos hyx]; exact ⟨_, rfl⟩
            · rw [if_neg hyx]; exact ⟨d', h3⟩
        cases hlb : st.bwd.look curr.nodeId with
        | none => rw [hb.tab.isValid_none hcn hlb]; exact ⟨hs2, rfl⟩
        | some db =>
          rw [hb.tab.isValid_some hlb]
          simp only [bind_okM, if_true]
          rw [Side.getWeight_ok hb.tab hcn, Side.wt_some hlb]
          simp only [bind_okM]
          have := hb.lab _ _ hlb
          have := hm _ hcn
          rw [addW_ok (by omega : curr.weight + db.weight ≤ P.umax)]
          simp only [bind_okM]
          by_cases hlt : curr.weight + db.weight < st.best
          · rw [if_pos hlt]; exact ⟨hs2, rfl⟩
          · rw [if_neg hlt]; exact ⟨hs2, rfl⟩

theorem mainLoop_saf {E : EdgeRel} (hg : SGood P E n fg) (hBF : Bound P n fg F) (hBG : Bound P n fg.flip G)
    (hm : ∀ x < n, F x + G x ≤ P.umax) :
    ∀ fuel (st : QS pq), SideB n F st.fwd → SideB n G st.bwd → NoRes (mainLoop P fg fuel st) := by
  intro fuel
  induction fuel with
  | zero => intro st _ _; exact NoRes.fuel
  | succ fuel ih =>
    intro st hf hb
    unfold mainLoop
    refine NoRes.ite (fun _ => NoRes.ok _) (fun _ => ?_)
    refine Saf.noRes (Q := fun _ => True) ?_
    refine Saf.bind (innerFwd_saf hg hBF hm _ st hf hb) ?_
    rintro st1 ⟨h1, h2⟩
    rw [innerBwd_eq]
    refine Saf.bind (Q := fun (st2 : QS pq) => SideB n F st2.fwd ∧ SideB n G st2.bwd) ?_ ?_
    · refine Saf.bind (innerFwd_saf (F := G) (G := F) hg.flip hBG (fun x hx => by have := hm x hx; omega) _ (swapQS st1)
        (by rw [show (swapQS st1).fwd = st1.bwd from rfl, h2]; exact hb) h1) ?_
      rintro st2 ⟨h3, h4⟩
      refine ⟨?_, h3⟩
      show SideB n F st2.bwd
      rw [h4]; exact h1
    · rintro st2 ⟨h3, h4⟩
      exact Saf.of_noRes (ih st2 h3 h4)

theorem noRes_isShortcut (e : FastGraphEdge) : NoRes (e.isShortcut P) :=
  NoRes.bind (NoRes.assertM _) (fun _ _ => NoRes.ok _)

theorem noRes_unpack (g : FastGraph) : ∀ fuel, (∀ nodes e r, NoRes (unpackFwd P g fuel nodes e r)) ∧
    ∀ nodes e r, NoRes (unpackBwd P g fuel nodes e r) := by
  intro fuel
  induction fuel with
  | zero => exact ⟨fun _ _ _ => by unfold unpackFwd; exact NoRes.fuel, fun _ _ _ => by unfold unpackBwd; exact NoRes.fuel⟩
  | succ fuel ih =>
    refine ⟨fun nodes e r => ?_, fun nodes e r => ?_⟩
    · unfold unpackFwd
      exact NoRes.bind (NoRes.idx _ _) (fun _ _ => NoRes.bind (noRes_isShortcut _) (fun _ _ => NoRes.ite (fun _ => NoRes.ok _)
        (fun _ => NoRes.ite (fun _ => NoRes.bind (ih.1 _ _ _) (fun _ _ => ih.2 _ _ _))
          (fun _ => NoRes.bind (ih.2 _ _ _) (fun _ _ => ih.1 _ _ _)))))
    · unfold unpackBwd
      exact NoRes.bind (NoRes.idx _ _) (fun _ _ => NoRes.bind (noRes_isShortcut _) (fun _ _ => NoRes.ite (fun _ => NoRes.ok _)
        (fun _ => NoRes.ite (fun _ => NoRes.bind (ih.1 _ _ _) (fun _ _ => ih.2 _ _ _))
          (fun _ => NoRes.bind (ih.2 _ _ _) (fun _ _ => ih.1 _ _ _)))))

theorem noRes_walkFwd (g : FastGraph) (s : Side pq) : ∀ fuel r x, NoRes (walkFwd P g s fuel r x) := by
  intro fuel
  induction fuel with
  | zero => intro r x; exact NoRes.fuel
  | succ fuel ih =>
    intro r x
    unfold walkFwd
    exact NoRes.bind (NoRes.idx _ _) (fun _ _ => NoRes.ite (fun _ => NoRes.bind ((noRes_unpack g _).1 _ _ _)
      (fun _ _ => ih _ _)) (fun _ => NoRes.ok _))

theorem noRes_walkBwd (g : FastGraph) (s : Side pq) : ∀ fuel r x, NoRes (walkBwd P g s fuel r x) := by
  intro fuel
  induction fuel with
  | zero => intro r x; exact NoRes.fuel
  | succ fuel ih =>
    intro r x
    unfold walkBwd
    exact NoRes.bind (NoRes.idx _ _) (fun _ _ => NoRes.ite (fun _ => NoRes.bind ((noRes_unpack g _).2 _ _ _)
      (fun _ _ => ih _ _)) (fun _ => NoRes.ok _))

theorem noRes_extractNodes (g : FastGraph) (f b : Side pq) (m : Nat) : NoRes (extractNodes P g f b m) := by
  unfold extractNodes
  exact NoRes.bind (NoRes.assertM _) (fun _ _ => NoRes.bind (noRes_isValid _ _) (fun _ _ => NoRes.bind (NoRes.assertM _)
    (fun _ _ => NoRes.bind (noRes_isValid _ _) (fun _ _ => NoRes.bind (NoRes.assertM _) (fun _ _ =>
      NoRes.bind (noRes_walkFwd _ _ _ _ _) (fun _ _ => noRes_walkBwd _ _ _ _ _))))))

theorem noRes_checkArgs (c : PathCalculator pq) (g : FastGraph) (starts ends : List (Nat × Nat)) :
    NoRes (checkArgs c g starts ends) := by
  unfold checkArgs
  exact NoRes.bind (NoRes.assertM _) (fun _ _ => NoRes.bind (NoRes.assertM _) (fun _ _ => NoRes.bind (NoRes.assertM _)
    (fun _ _ => NoRes.bind (NoRes.assertM _) (fun _ _ => NoRes.assertM _))))

/-- What follows the main loop does no arithmetic. -/
theorem noRes_finishQuery (c : PathCalculator pq) (g : FastGraph) (st : QS pq) :
    NoRes (if st.meet == P.INVALID_NODE then
      .ok (({ c with fwd := st.fwd, bwd := st.bwd } : PathCalculator pq), (none : Option ShortestPath)) else do
    assertM (decide (st.best < P.WEIGHT_MAX))
    let nodes ← extractNodes P g st.fwd st.bwd st.meet
    assertM (!nodes.isEmpty)
    let first ← idx nodes 0
    let last ← idx nodes (nodes.length - 1)
    .ok (({ c with fwd := st.fwd, bwd := st.bwd } : PathCalculator pq), some ⟨first, last, st.best, nodes⟩)) :=
  NoRes.ite (fun _ => NoRes.ok _) (fun _ => NoRes.bind (NoRes.assertM _) (fun _ _ => NoRes.bind (noRes_extractNodes _ _ _ _)
    (fun _ _ => NoRes.bind (NoRes.assertM _) (fun _ _ => NoRes.bind (NoRes.idx _ _) (fun _ _ => NoRes.bind (NoRes.idx _ _)
      (fun _ _ => NoRes.ok _))))))

/-- Query without overflow, given bounds on the labels. -/
theorem calcPathMulti_noRes {E : EdgeRel} (hg : SGood P E n fg) (hBF : Bound P n fg F) (hBG : Bound P n fg.flip G)
    (hm : ∀ x < n, F x + G x ≤ P.umax) {c : PathCalculator pq} (hc : CalcOk n c) {starts ends : List (Nat × Nat)}
    (hs : ∀ x ∈ starts, x.1 < n ∧ (x.2 < P.umax → x.2 ≤ F x.1)) (ht : ∀ x ∈ ends, x.1 < n ∧ (x.2 < P.umax → x.2 ≤ G x.1)) :
    NoRes (PathCalculator.calcPathMulti P c fg starts ends) := by
  simp only [PathCalculator.calcPathMulti]
  refine NoRes.bind (noRes_checkArgs _ _ _ _) (fun _ _ => NoRes.bind ?_ (fun r _ => ?_))
  · unfold initialMeeting
    refine NoRes.forM (fun st s hs' => NoRes.forM (fun st e he => ?_) _) _
    unfold pairStep
    refine NoRes.ite (fun hcond => NoRes.bind (NoRes.addW ?_) (fun _ _ => NoRes.ite (fun _ => NoRes.ok _)
      (fun _ => NoRes.ok _))) (fun _ => NoRes.ok _)
    simp only [Bool.and_eq_true, beq_iff_eq, Plat.WEIGHT_MAX] at hcond
    obtain ⟨h1, h2⟩ := hs s hs'
    obtain ⟨_, h3⟩ := ht e he
    have h4 := h2 (of_decide_eq_true hcond.1.2)
    have h5 := h3 (of_decide_eq_true hcond.2)
    have h6 := hm _ h1
    rw [← hcond.1.1] at h5
    omega
  · obtain ⟨best, meet⟩ := r
    refine Saf.noRes (Q := fun _ => True) ?_
    refine Saf.bind (Q := SideB n F) (Saf.forM (SideB n F) (clear_sideB hc.f) ?_) ?_
    · rintro s ⟨x, w⟩ hx h; exact addRoot_saf h (hs _ hx).1 (hs _ hx).2 hBF.le
    intro fwd hf
    refine Saf.bind (Q := SideB n G) (Saf.forM (SideB n G) (clear_sideB hc.b) ?_) ?_
    · rintro s ⟨x, w⟩ hx h; exact addRoot_saf h (ht _ hx).1 (ht _ hx).2 hBG.le
    intro bwd hb
    refine Saf.bind (Q := fun _ => True) (Saf.of_noRes (mainLoop_saf hg hBF hBG hm _ _ hf hb)) ?_
    intro st _
    exact Saf.of_noRes (noRes_finishQuery c fg st)

/-! ### Weights of stored edges -/

/-- Edges stored at a node of rank `k` weigh at most `2 ^ k` times the largest input weight. -/
theorem FGood.weight_le {E : EdgeRel} (h : FGood P E n fg) {W : Nat} (hW : ∀ u v w, E u v w → w ≤ W) : ∀ k,
    (∀ u < n, fg.rk u < k → ∀ id ed, fg.OutAt u id ed → ed.weight ≤ 2 ^ fg.rk u * W) ∧
    (∀ u < n, fg.rk u < k → ∀ id ed, fg.InAt u id ed → ed.weight ≤ 2 ^ fg.rk u * W) := by
  have key : ∀ a b w1 w2 : Nat, a < b → w1 ≤ 2 ^ a * W → w2 ≤ 2 ^ a * W → w1 + w2 ≤ 2 ^ b * W := by
    intro a b w1 w2 hab h1 h2
    have h3 : 2 ^ (a + 1) * W ≤ 2 ^ b * W := Nat.mul_le_mul_right W (Nat.pow_le_pow_right (by omega) hab)
    rw [Nat.pow_succ, Nat.mul_right_comm, Nat.mul_two] at h3
    omega
  have key1 : ∀ a w : Nat, w ≤ W → w ≤ 2 ^ a * W := by
    intro a w hw
    exact Nat.le_trans hw (Nat.le_mul_of_pos_left W (Nat.two_pow_pos a))
  intro k
  induction k with
  | zero => exact ⟨fun u _ h => by omega, fun u _ h => by omega⟩
  | succ k ih =>
    refine ⟨?_, ?_⟩
    · intro u hu hk id ed hat
      obtain ⟨_, _, _, hr⟩ := h.fwd u hu id ed hat
      rcases hr with ⟨_, _, he⟩ | ⟨_, _, c, hc, r1, r2, e₁, e₂, a1, a2, a3, a4, a5⟩
      · exact key1 _ _ (hW _ _ _ he)
      · rw [a5]
        exact key _ _ _ _ r1 (ih.2 c hc (by omega) _ _ a1) (ih.1 c hc (by omega) _ _ a3)
    · intro u hu hk id ed hat
      obtain ⟨_, _, _, hr⟩ := h.bwd u hu id ed hat
      rcases hr with ⟨_, _, he⟩ | ⟨_, _, c, hc, r1, r2, e₁, e₂, a1, a2, a3, a4, a5⟩
      · exact key1 _ _ (hW _ _ _ he)
      · rw [a5]
        exact key _ _ _ _ r2 (ih.2 c hc (by omega) _ _ a1) (ih.1 c hc (by omega) _ _ a3)

/-- Bound for edge weights growing with the rank like `2 ^ rank`. -/
theorem Bound.exp {E : EdgeRel} (hg : SGood P E n fg) {W W0 : Nat}
    (ho : ∀ u < n, ∀ id ed, fg.OutAt u id ed → ed.weight ≤ 2 ^ fg.rk u * W)
    (hi : ∀ u < n, ∀ id ed, fg.InAt u id ed → ed.weight ≤ 2 ^ fg.rk u * W)
    (hfit : W0 + 2 ^ n * W ≤ P.umax) : Bound P n fg (fun x => W0 + 2 ^ fg.rk x * W) := by
  have mono : ∀ a b : Nat, a ≤ b → 2 ^ a * W ≤ 2 ^ b * W := fun a b h =>
    Nat.mul_le_mul_right W (Nat.pow_le_pow_right (by omega) h)
  have dbl : ∀ a : Nat, 2 ^ (a + 1) * W = 2 ^ a * W + 2 ^ a * W := by
    intro a; rw [Nat.pow_succ, Nat.mul_right_comm, Nat.mul_two]
  refine ⟨?_, ?_, ?_⟩
  · intro u hu id ed hat
    obtain ⟨_, g2, _⟩ := hg.up u hu id ed hat
    have h1 := ho u hu id ed hat
    have h2 := mono _ _ g2
    rw [Nat.succ_eq_add_one, dbl] at h2
    omega
  · intro u hu id ed hat
    obtain ⟨g1, g2, _⟩ := hg.dn u hu id ed hat
    have h1 := hi u hu id ed hat
    have h2 := mono _ _ (Nat.le_of_lt g2)
    have h3 := mono _ _ (hg.rk_lt _ g1)
    rw [Nat.succ_eq_add_one, dbl] at h3
    omega
  · intro u hu
    have h3 := mono _ _ (Nat.le_of_lt (hg.rk_lt _ hu))
    omega

/-- Bound for uniformly bounded edge weights. -/
theorem Bound.lin {E : EdgeRel} (hg : SGood P E n fg) {A W0 : Nat}
    (ho : ∀ u < n, ∀ id ed, fg.OutAt u id ed → ed.weight ≤ A) (hi : ∀ u < n, ∀ id ed, fg.InAt u id ed → ed.weight ≤ A)
    (hfit : W0 + n * A ≤ P.umax) : Bound P n fg (fun x => W0 + fg.rk x * A) := by
  have step : ∀ a b : Nat, a < b → a * A + A ≤ b * A := fun a b h => by
    have := Nat.mul_le_mul_right A h
    rw [Nat.succ_mul] at this
    exact this
  refine ⟨?_, ?_, ?_⟩
  · intro u hu id ed hat
    obtain ⟨_, g2, _⟩ := hg.up u hu id ed hat
    have h1 := ho u hu id ed hat
    have h2 := step _ _ g2
    omega
  · intro u hu id ed hat
    obtain ⟨g1, g2, _⟩ := hg.dn u hu id ed hat
    have h1 := hi u hu id ed hat
    have h3 := step _ _ (hg.rk_lt _ g1)
    omega
  · intro u hu
    have h3 := step _ _ (hg.rk_lt _ hu)
    omega

/-- A query returns when start weights up to `ws`, end weights up to `wt` and paths of `n` edges up to weight `W` fit. -/
theorem calcPathMulti_total (hP : P.checked = true) {E : EdgeRel} (h : FGood P E n fg) {W ws wt : Nat}
    (hW : ∀ u v w, E u v w → w ≤ W) {c : PathCalculator pq} (hc : CalcOk n c) {starts ends : List (Nat × Nat)}
    (h1 : starts ≠ []) (h2 : ends ≠ []) (h3 : ∀ x ∈ starts, x.1 < n ∧ (x.2 < P.umax → x.2 ≤ ws))
    (h4 : ∀ x ∈ ends, x.1 < n ∧ (x.2 < P.umax → x.2 ≤ wt)) (hfit : ws + wt + 2 ^ n * W ≤ P.umax) :
    ∃ r, PathCalculator.calcPathMulti P c fg starts ends = .ok r ∧ CalcOk n r.1 ∧ Answer P E starts ends r.2 := by
  have hg := h.toSGood
  have ho : ∀ u < n, ∀ id ed, fg.OutAt u id ed → ed.weight ≤ 2 ^ fg.rk u * W :=
    fun u hu => (h.weight_le hW (fg.rk u + 1)).1 u hu (by omega)
  have hi : ∀ u < n, ∀ id ed, fg.InAt u id ed → ed.weight ≤ 2 ^ fg.rk u * W :=
    fun u hu => (h.weight_le hW (fg.rk u + 1)).2 u hu (by omega)
  refine (calcPathMulti_ok hP h hc h1 h2 (fun x hx => (h3 x hx).1) (fun x hx => (h4 x hx).1)).total ?_
  refine calcPathMulti_noRes hg (Bound.exp (W := W) (W0 := ws) hg ho hi (by omega))
    (Bound.exp (W := W) (W0 := wt) hg.flip hi ho (by omega)) ?_ hc ?_ ?_
  · intro x hx
    have h5 : 2 ^ (fg.rk x + 1) * W ≤ 2 ^ n * W :=
      Nat.mul_le_mul_right W (Nat.pow_le_pow_right (by omega) (hg.rk_lt x hx))
    rw [Nat.pow_succ, Nat.mul_right_comm, Nat.mul_two] at h5
    have : fg.flip.rk x = fg.rk x := rfl
    rw [this]
    omega
  · intro x hx
    exact ⟨(h3 x hx).1, fun h => Nat.le_trans ((h3 x hx).2 h) (Nat.le_add_right _ _)⟩
  · intro x hx
    exact ⟨(h4 x hx).1, fun h => Nat.le_trans ((h4 x hx).2 h) (Nat.le_add_right _ _)⟩

/-- The same in terms of the largest stored edge weight `A`. -/
theorem calcPathMulti_total_stored (hP : P.checked = true) {E : EdgeRel} (h : FGood P E n fg) {A ws wt : Nat}
    (ho : ∀ ed ∈ fg.edgesFwd, ed.weight ≤ A) (hi : ∀ ed ∈ fg.edgesBwd, ed.weight ≤ A)
    {c : PathCalculator pq} (hc : CalcOk n c) {starts ends : List (Nat × Nat)}
    (h1 : starts ≠ []) (h2 : ends ≠ []) (h3 : ∀ x ∈ starts, x.1 < n ∧ (x.2 < P.umax → x.2 ≤ ws))
    (h4 : ∀ x ∈ ends, x.1 < n ∧ (x.2 < P.umax → x.2 ≤ wt)) (hfit : ws + wt + 2 * (n * A) ≤ P.umax) :
    ∃ r, PathCalculator.calcPathMulti P c fg starts ends = .ok r ∧ CalcOk n r.1 ∧ Answer P E starts ends r.2 := by
  have hg := h.toSGood
  have ho' : ∀ u < n, ∀ id ed, fg.OutAt u id ed → ed.weight ≤ A :=
    fun u hu id ed hat => ho ed (List.mem_of_getElem? hat.2.2)
  have hi' : ∀ u < n, ∀ id ed, fg.InAt u id ed → ed.weight ≤ A :=
    fun u hu id ed hat => hi ed (List.mem_of_getElem? hat.2.2)
  refine (calcPathMulti_ok hP h hc h1 h2 (fun x hx => (h3 x hx).1) (fun x hx => (h4 x hx).1)).total ?_
  refine calcPathMulti_noRes hg (Bound.lin (A := A) (W0 := ws) hg ho' hi' (by omega))
    (Bound.lin (A := A) (W0 := wt) hg.flip hi' ho' (by omega)) ?_ hc ?_ ?_
  · intro x hx
    have h5 : fg.rk x * A ≤ n * A := Nat.mul_le_mul_right A (Nat.le_of_lt (hg.rk_lt x hx))
    have : fg.flip.rk x = fg.rk x := rfl
    rw [this]
    omega
  · intro x hx
    exact ⟨(h3 x hx).1, fun h => Nat.le_trans ((h3 x hx).2 h) (Nat.le_add_right _ _)⟩
  · intro x hx
    exact ⟨(h4 x hx).1, fun h => Nat.le_trans ((h4 x hx).2 h) (Nat.le_add_right _ _)⟩

end FP
