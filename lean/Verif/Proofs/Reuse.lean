import Verif.Proofs.Rel
import Verif.Proofs.MainLoop
/-! # A reused calculator behaves like a fresh one -/
namespace FP
open PathCalculator

variable {pq : PQ} {P : Plat} {n : Nat}

/-- Two search sides with the same observable contents. -/
structure SRel (P : Plat) (n : Nat) (s₁ s₂ : Side pq) : Prop where
  tab : TabRel n s₁.data s₁.flags s₂.data s₂.flags
  heap : s₁.heap = s₂.heap
  items : ∀ it ∈ pq.items s₁.heap, (s₁.look it.nodeId).isSome
  par : ∀ x d, s₁.look x = some d → d.incEdge ≠ P.umax → (s₁.look d.parent).isSome

variable {s₁ s₂ : Side pq}

theorem SRel.clear (h1 : s₁.Base n) (h2 : s₂.Base n) : SRel P n s₁.clear s₂.clear := by
  refine ⟨TabRel.invalidate h1 h2, rfl, ?_, ?_⟩
  · intro it hit
    simp [Side.clear, pq.items_empty] at hit
  · intro x d hx
    have := (TabOk.invalidate h1).2 x
    have hx' : lookT s₁.data s₁.flags.invalidateAll x = some d := hx
    rw [this] at hx'; cases hx'

theorem SRel.isSettled (h : SRel P n s₁ s₂) (x : Nat) : s₁.isSettled x = s₂.isSettled x :=
  h.tab.read x (fun d => d.settled) false

theorem SRel.getWeight (h : SRel P n s₁ s₂) (x : Nat) : s₁.getWeight P x = s₂.getWeight P x :=
  h.tab.read x (fun d => d.weight) P.WEIGHT_MAX

/-- update a label and push a heap item for it -/
theorem SRel.updatePush (h : SRel P n s₁ s₂) (x w p i : Nat) (hp : i ≠ P.umax → (s₁.look p).isSome) :
    RelM (fun t₁ t₂ => SRel P n t₁ t₂ ∧ ∀ y, (s₁.look y).isSome → (t₁.look y).isSome)
      (s₁.updateNode x w p i >>= fun s => .ok { s with heap := pq.push ⟨w, x⟩ s.heap })
      (s₂.updateNode x w p i >>= fun s => .ok { s with heap := pq.push ⟨w, x⟩ s.heap }) := by
  have key := h.tab.write x (⟨false, w, p, i⟩ : PData)
  unfold Side.updateNode
  cases e1 : s₁.flags.setValid x with
  | error e =>
    rw [e1] at key
    cases e2 : s₂.flags.setValid x with
    | error e' => rw [e2] at key; exact key
    | ok f₂ =>
      rw [e2] at key
      simp only [bind_okM, bind_errorM] at key ⊢
      cases e3 : setIdx s₂.data x (⟨false, w, p, i⟩ : PData) with
      | error e' => rw [e3] at key; exact key
      | ok l => rw [e3] at key; exact key.elim
  | ok f₁ =>
    rw [e1] at key
    simp only [bind_okM] at key ⊢
    cases e3 : setIdx s₁.data x (⟨false, w, p, i⟩ : PData) with
    | error e =>
      rw [e3] at key
      simp only [bind_errorM] at key ⊢
      cases e2 : s₂.flags.setValid x with
      | error e' => rw [e2] at key; exact key
      | ok f₂ =>
        rw [e2] at key
        simp only [bind_okM] at key ⊢
        cases e4 : setIdx s₂.data x (⟨false, w, p, i⟩ : PData) with
        | error e' => rw [e4] at key; exact key
        | ok l => rw [e4] at key; exact key.elim
    | ok l₁ =>
      rw [e3] at key
      simp only [bind_okM] at key ⊢
      cases e2 : s₂.flags.setValid x with
      | error e' => rw [e2] at key; exact key.elim
      | ok f₂ =>
        rw [e2] at key
        simp only [bind_okM] at key ⊢
        cases e4 : setIdx s₂.data x (⟨false, w, p, i⟩ : PData) with
        | error e' => rw [e4] at key; exact key.elim
        | ok l₂ =>
          rw [e4] at key
          simp only [bind_okM] at key ⊢
          obtain ⟨k1, k2, k3⟩ := key
          have hmono : ∀ y, (s₁.look y).isSome → (lookT l₁ f₁ y).isSome := by
            intro y hy
            rw [k3]
            by_cases hyx : y = x
            · rw [if_pos hyx]; rfl
            · rw [if_neg hyx]; exact hy
          refine ⟨⟨k1, ?_, ?_, ?_⟩, hmono⟩
          · simp only; rw [h.heap]
          · intro it hit
            rcases PQ.mem_push.1 hit with rfl | hit
            · show (lookT l₁ f₁ x).isSome = true
              rw [k3, if_pos rfl]; rfl
            · exact hmono _ (h.items it hit)
          · intro y d hy hd
            have hy' : lookT l₁ f₁ y = some d := hy
            rw [k3] at hy'
            by_cases hyx : y = x
            · rw [if_pos hyx] at hy'
              injection hy' with hy'
              subst hy'
              exact hmono _ (hp hd)
            · rw [if_neg hyx] at hy'
              exact hmono _ (h.par y d hy' hd)

theorem SRel.addRoot (h : SRel P n s₁ s₂) (x : Nat × Nat) :
    RelM (SRel P n) (s₁.addRoot P x) (s₂.addRoot P x) := by
  unfold Side.addRoot
  refine RelM.bind_eq (h.getWeight _) (fun w _ => RelM.ite (fun _ => ?_) (fun _ => h))
  exact (h.updatePush x.1 x.2 x.1 P.INVALID_EDGE (fun hc => absurd rfl hc)).mono (fun _ _ hh => hh.1)

theorem SRel.relaxEdge (h : SRel P n s₁ s₂) (es : List FastGraphEdge) (curr : HeapItem) (e : Nat)
    (hc : (s₁.look curr.nodeId).isSome) :
    RelM (fun t₁ t₂ => SRel P n t₁ t₂ ∧ (t₁.look curr.nodeId).isSome) (s₁.relaxEdge P es curr e)
      (s₂.relaxEdge P es curr e) := by
  unfold Side.relaxEdge
  refine RelM.bind_eq rfl (fun ed _ => RelM.bind_eq rfl (fun weight _ => RelM.bind_eq (h.getWeight _) (fun w _ =>
    RelM.ite (fun _ => ?_) (fun _ => ⟨h, hc⟩))))
  exact (h.updatePush ed.adjNode weight curr.nodeId e (fun _ => hc)).mono (fun _ _ hh => ⟨hh.1, hh.2 _ hc⟩)

theorem SRel.stallScan (h : SRel P n s₁ s₂) (es : List FastGraphEdge) (curr : HeapItem) : ∀ l : List Nat,
    s₁.stallScan P es curr l = s₂.stallScan P es curr l
  | [] => rfl
  | e :: r => by
    unfold Side.stallScan
    simp only [h.getWeight, h.stallScan es curr r]

/-- Two states of the main loop. -/
structure QRel (P : Plat) (n : Nat) (q₁ q₂ : QS pq) : Prop where
  f : SRel P n q₁.fwd q₂.fwd
  b : SRel P n q₁.bwd q₂.bwd
  best : q₁.best = q₂.best
  meet : q₁.meet = q₂.meet

theorem QRel.swap {q₁ q₂ : QS pq} (h : QRel P n q₁ q₂) : QRel P n (swapQS q₁) (swapQS q₂) :=
  ⟨h.b, h.f, h.best, h.meet⟩

theorem innerFwd_rel (g : FastGraph) : ∀ (fuel : Nat) (q₁ q₂ : QS pq), QRel P n q₁ q₂ →
    RelM (QRel P n) (innerFwd P g fuel q₁) (innerFwd P g fuel q₂)
  | 0, _, _, _ => rfl
  | fuel + 1, q₁, q₂, h => by
    unfold innerFwd
    rw [← h.f.heap]
    cases hp : pq.pop q₁.fwd.heap with
    | none => exact h
    | some r =>
      obtain ⟨curr, heap'⟩ := r
      simp only
      have hf : SRel P n ({ q₁.fwd with heap := heap' } : Side pq) ({ q₂.fwd with heap := heap' } : Side pq) :=
        ⟨h.f.tab, rfl, fun it hit => h.f.items it ((PQ.pop_mem hp).2 (Or.inr hit)), h.f.par⟩
      have hcur : (Side.look ({ q₁.fwd with heap := heap' } : Side pq) curr.nodeId).isSome :=
        h.f.items curr ((PQ.pop_mem hp).2 (Or.inl rfl))
      have hq : QRel P n ({ q₁ with fwd := { q₁.fwd with heap := heap' } } : QS pq)
          ({ q₂ with fwd := { q₂.fwd with heap := heap' } } : QS pq) := ⟨hf, h.b, h.best, h.meet⟩
      refine RelM.bind_eq (hf.isSettled _) (fun st _ => RelM.ite (fun _ => innerFwd_rel g fuel _ _ hq) (fun _ => ?_))
      have hq2 : QRel P n (⟨{ q₁.fwd with heap := heap' }, q₁.bwd, q₁.best, q₁.meet⟩ : QS pq)
          ⟨{ q₂.fwd with heap := heap' }, q₂.bwd, q₁.best, q₂.meet⟩ := ⟨hf, h.b, rfl, h.meet⟩
      rw [← h.best]
      refine RelM.ite (fun _ => RelM.ok hq2) (fun _ => ?_)
      have hst : isStallableFwd P g ({ q₁.fwd with heap := heap' } : Side pq) curr =
          isStallableFwd P g ({ q₂.fwd with heap := heap' } : Side pq) curr := by
        unfold isStallableFwd
        simp only [hf.stallScan]
      refine RelM.bind_eq hst (fun _ _ => RelM.ite (fun _ => innerFwd_rel g fuel _ _ hq2) (fun _ => ?_))
      refine RelM.bind_eq rfl (fun bb _ => RelM.bind_eq rfl (fun ee _ => ?_))
      refine RelM.bind (RelM.forM (R := fun t₁ t₂ => SRel P n t₁ t₂ ∧ (t₁.look curr.nodeId).isSome)
        (fun t₁ t₂ e _ ht => ht.1.relaxEdge g.edgesFwd curr e ht.2) ⟨hf, hcur⟩) ?_
      rintro t₁ t₂ ⟨ht, hc⟩
      obtain ⟨d, hd⟩ := Option.isSome_iff_exists.1 hc
      refine RelM.bind (ht.tab.modify hd _) ?_
      rintro p q ⟨k1, k2⟩
      have hmono : ∀ y, (t₁.look y).isSome → (lookT p t₁.flags y).isSome := by
        intro y hy
        rw [k2]
        by_cases hyx : y = curr.nodeId
        · rw [if_pos hyx]; rfl
        · rw [if_neg hyx]; exact hy
      have hs : SRel P n ({ t₁ with data := p } : Side pq) ({ t₂ with data := q } : Side pq) := by
        refine ⟨k1, ht.heap, fun it hit => hmono _ (ht.items it hit), ?_⟩
        intro y d' hy hd'
        have hy' : lookT p t₁.flags y = some d' := hy
        rw [k2] at hy'
        by_cases hyx : y = curr.nodeId
        · rw [if_pos hyx] at hy'
          injection hy' with hy'
          subst hy'
          exact hmono _ (ht.par _ d hd hd')
        · rw [if_neg hyx] at hy'
          exact hmono _ (ht.par y d' hy' hd')
      refine RelM.bind_eq (h.b.tab.isValid _) (fun v _ => RelM.ite (fun _ => ?_) (fun _ => ⟨hs, h.b, rfl, h.meet⟩))
      refine RelM.bind_eq (h.b.getWeight _) (fun wb _ => RelM.bind_eq rfl (fun w _ => ?_))
      exact RelM.ite (fun _ => ⟨hs, h.b, rfl, rfl⟩) (fun _ => ⟨hs, h.b, rfl, h.meet⟩)

theorem innerBwd_rel (g : FastGraph) (fuel : Nat) (q₁ q₂ : QS pq) (h : QRel P n q₁ q₂) :
    RelM (QRel P n) (innerBwd P g fuel q₁) (innerBwd P g fuel q₂) := by
  rw [innerBwd_eq, innerBwd_eq]
  exact RelM.bind (innerFwd_rel g.flip fuel _ _ h.swap) (fun a a' haa => haa.swap)

theorem mainLoop_rel (g : FastGraph) : ∀ (fuel : Nat) (q₁ q₂ : QS pq), QRel P n q₁ q₂ →
    RelM (QRel P n) (mainLoop P g fuel q₁) (mainLoop P g fuel q₂)
  | 0, _, _, _ => rfl
  | fuel + 1, q₁, q₂, h => by
    unfold mainLoop
    rw [← h.f.heap, ← h.b.heap]
    refine RelM.ite (fun _ => h) (fun _ => ?_)
    refine RelM.bind (innerFwd_rel g _ _ _ h) (fun a a' haa => ?_)
    rw [← haa.b.heap]
    exact RelM.bind (innerBwd_rel g _ _ _ haa) (fun b b' hbb => mainLoop_rel g fuel _ _ hbb)

theorem walkFwd_rel (g : FastGraph) (h : SRel P n s₁ s₂) : ∀ (fuel : Nat) (l : List Nat) (x : Nat),
    (s₁.look x).isSome → walkFwd P g s₁ fuel l x = walkFwd P g s₂ fuel l x
  | 0, _, _, _ => rfl
  | fuel + 1, l, x, hx => by
    obtain ⟨d, hd⟩ := Option.isSome_iff_exists.1 hx
    have hd' : lookT s₂.data s₂.flags x = some d := by rw [← h.tab.look]; exact hd
    unfold walkFwd
    rw [idx_of_look hd, idx_of_look hd']
    simp only [bind_okM]
    by_cases hi : d.incEdge = P.umax
    · simp [hi, Plat.INVALID_EDGE]
    · simp only [walkFwd_rel g h fuel _ _ (h.par x d hd hi)]

theorem walkBwd_rel (g : FastGraph) (h : SRel P n s₁ s₂) : ∀ (fuel : Nat) (l : List Nat) (x : Nat),
    (s₁.look x).isSome → walkBwd P g s₁ fuel l x = walkBwd P g s₂ fuel l x
  | 0, _, _, _ => rfl
  | fuel + 1, l, x, hx => by
    obtain ⟨d, hd⟩ := Option.isSome_iff_exists.1 hx
    have hd' : lookT s₂.data s₂.flags x = some d := by rw [← h.tab.look]; exact hd
    unfold walkBwd
    rw [idx_of_look hd, idx_of_look hd']
    simp only [bind_okM]
    by_cases hi : d.incEdge = P.umax
    · simp [hi, Plat.INVALID_EDGE]
    · simp only [walkBwd_rel g h fuel _ _ (h.par x d hd hi)]

theorem assertM_isValid {s : Side pq} (h : s.Base n) {x : Nat} {b : Bool} (hb : s.flags.isValid x = .ok b)
    (ha : assertM b = .ok ()) : (s.look x).isSome := by
  have hbt : b = true := by
    cases b
    · cases ha
    · rfl
  subst hbt
  by_cases hx : x < n
  · rw [h.isValid hx] at hb
    injection hb
  · unfold ValidFlags.isValid at hb
    rw [idx_ge (by rw [h.flags.len]; omega)] at hb
    cases hb

theorem extractNodes_rel (g : FastGraph) {f₁ b₁ f₂ b₂ : Side pq} (hf : SRel P n f₁ f₂) (hb : SRel P n b₁ b₂) (m : Nat) :
    extractNodes P g f₁ b₁ m = extractNodes P g f₂ b₂ m := by
  refine RelM.eq ?_
  unfold extractNodes
  refine RelM.bind_eq rfl (fun _ _ => RelM.bind_eq (hf.tab.isValid m) (fun v hv => RelM.bind_eq rfl (fun u hu =>
    RelM.bind_eq (hb.tab.isValid m) (fun v' hv' => RelM.bind_eq rfl (fun u' hu' => ?_)))))
  have k1 := assertM_isValid hf.tab.t₁ hv hu
  have k2 := assertM_isValid hb.tab.t₁ hv' hu'
  exact RelM.bind_eq (walkFwd_rel g hf _ _ _ k1) (fun r _ => RelM.of_eq (walkBwd_rel g hb _ _ _ k2))

/-- Two calculators for `n` nodes give the same answer (or panic) to the same query and stay usable. -/
theorem calcPathMulti_rel {c₁ c₂ : PathCalculator pq} (h1 : c₁.numNodes = n) (h2 : c₂.numNodes = n)
    (f1 : c₁.fwd.Base n) (b1 : c₁.bwd.Base n) (f2 : c₂.fwd.Base n) (b2 : c₂.bwd.Base n) (g : FastGraph)
    (starts ends : List (Nat × Nat)) :
    RelM (fun r₁ r₂ => r₁.2 = r₂.2 ∧ r₁.1.numNodes = n ∧ r₁.1.fwd.Base n ∧ r₁.1.bwd.Base n)
      (c₁.calcPathMulti P g starts ends) (c₂.calcPathMulti P g starts ends) := by
  unfold PathCalculator.calcPathMulti
  refine RelM.bind_eq (by unfold checkArgs; rw [h1, h2]) (fun _ _ => RelM.bind_eq rfl (fun r _ => ?_))
  obtain ⟨best, meet⟩ := r
  simp only
  refine RelM.bind (RelM.forM (R := SRel P n) (fun s s' a _ h => h.addRoot a) (SRel.clear f1 f2)) (fun fw fw' hfw => ?_)
  refine RelM.bind (RelM.forM (R := SRel P n) (fun s s' a _ h => h.addRoot a) (SRel.clear b1 b2)) (fun bw bw' hbw => ?_)
  refine RelM.bind (mainLoop_rel g _ _ _ ⟨hfw, hbw, rfl, rfl⟩) (fun q q' hq => ?_)
  rw [← hq.meet, ← hq.best]
  refine RelM.ite (fun _ => ⟨rfl, h1, hq.f.tab.t₁, hq.b.tab.t₁⟩) (fun _ => ?_)
  refine RelM.bind_eq rfl (fun _ _ => RelM.bind_eq (extractNodes_rel g hq.f hq.b _) (fun nodes _ => RelM.bind_eq rfl
    (fun _ _ => RelM.bind_eq rfl (fun _ _ => RelM.bind_eq rfl (fun _ _ => ?_)))))
  exact ⟨rfl, h1, hq.f.tab.t₁, hq.b.tab.t₁⟩

end FP
