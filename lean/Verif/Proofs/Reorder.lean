import Verif.Proofs.Rel
import Verif.Proofs.Assemble
import Verif.Proofs.InputGraph
/-! # Witness searches do not depend on earlier ones; contraction with the order found before -/
namespace FP
open WitnessSearch

variable {pq : PQ} {nq : NodeQueue} {P : Plat} {n : Nat} {β : Type}

theorem bind_eq_ok {α γ : Type} {m : M α} {f : α → M γ} {b : γ} : (m >>= f) = .ok b ↔ ∃ a, m = .ok a ∧ f a = .ok b := by
  cases m with
  | error e => simp
  | ok a => simp

/-- Two witness searches in the same situation. -/
structure WRel (n : Nat) (w₁ w₂ : WitnessSearch pq) : Prop where
  b₁ : w₁.Base n
  b₂ : w₂.Base n
  look : ∀ x, w₁.look x = w₂.look x
  heap : w₁.heap = w₂.heap
  start : w₁.startNode = w₂.startNode
  avoid : w₁.avoidNode = w₂.avoidNode
  settled : w₁.settledNodes = w₂.settledNodes
  items : ∀ it ∈ pq.items w₁.heap, (w₁.look it.nodeId).isSome

variable {w₁ w₂ : WitnessSearch pq}

theorem WRel.tab (h : WRel n w₁ w₂) : TabRel n w₁.data w₁.validFlags w₂.data w₂.validFlags :=
  ⟨h.b₁.tab, h.b₂.tab, h.look⟩

theorem WRel.isSettled (h : WRel n w₁ w₂) (x : Nat) : w₁.isSettled x = w₂.isSettled x :=
  h.tab.read x (fun d => d.settled) false

theorem WRel.getCurrentWeight (h : WRel n w₁ w₂) (x : Nat) : w₁.getCurrentWeight P x = w₂.getCurrentWeight P x :=
  h.tab.read x (fun d => d.weight) P.WEIGHT_MAX

/-- `update_node` on two searches whose tables agree. -/
theorem updateNode_rel (b₁ : w₁.Base n) (b₂ : w₂.Base n) (hl : ∀ x, w₁.look x = w₂.look x) (x w : Nat) :
    RelM (fun v₁ v₂ => v₁.Base n ∧ v₂.Base n ∧ (∀ y, v₁.look y = v₂.look y) ∧ v₁.heap = w₁.heap ∧ v₂.heap = w₂.heap ∧
        v₁.startNode = w₁.startNode ∧ v₂.startNode = w₂.startNode ∧ v₁.avoidNode = w₁.avoidNode ∧
        v₂.avoidNode = w₂.avoidNode ∧ v₁.settledNodes = w₁.settledNodes ∧ v₂.settledNodes = w₂.settledNodes ∧
        ∀ y, v₁.look y = if y = x then some ⟨false, w⟩ else w₁.look y)
      (w₁.updateNode x w) (w₂.updateNode x w) := by
  by_cases hx : x < n
  · obtain ⟨v₁, e1, k1, k2, k3, k4, k5, k6⟩ := updateNode_ok b₁ hx w
    obtain ⟨v₂, e2, m1, m2, m3, m4, m5, m6⟩ := updateNode_ok b₂ hx w
    rw [e1, e2]
    exact ⟨k1, m1, fun y => by rw [k6, m6, hl], k2, m2, k3, m3, k4, m4, k5, m5, k6⟩
  · unfold WitnessSearch.updateNode
    rw [b₁.tab.setValid_ge hx, b₂.tab.setValid_ge hx]
    rfl

theorem init_rel (b₁ : w₁.Base n) (b₂ : w₂.Base n) (s v : Nat) : RelM (WRel n) (w₁.init P s v) (w₂.init P s v) := by
  unfold WitnessSearch.init
  refine RelM.bind_eq rfl (fun _ _ => RelM.bind_eq rfl (fun _ _ => ?_))
  obtain ⟨ok1, hl1⟩ := b₁.tab.invalidate
  obtain ⟨ok2, hl2⟩ := b₂.tab.invalidate
  refine RelM.bind (updateNode_rel (n := n)
    (w₁ := { w₁ with startNode := s, avoidNode := v, heap := pq.empty, validFlags := w₁.validFlags.invalidateAll })
    (w₂ := { w₂ with startNode := s, avoidNode := v, heap := pq.empty, validFlags := w₂.validFlags.invalidateAll })
    ⟨b₁.num, ok1⟩ ⟨b₂.num, ok2⟩ (fun x => (hl1 x).trans (hl2 x).symm) s 0) ?_
  rintro v₁ v₂ ⟨h1, h2, h3, h4, h5, h6, h7, h8, h9, _, _, h12⟩
  refine ⟨⟨h1.num, h1.tab⟩, ⟨h2.num, h2.tab⟩, h3, ?_, h6.trans h7.symm, h8.trans h9.symm, rfl, ?_⟩
  · simp only [h4, h5]
  · intro it hit
    simp only [h4] at hit
    rcases PQ.mem_push.1 hit with rfl | hit
    · show (v₁.look s).isSome = true
      rw [h12, if_pos rfl]; rfl
    · rw [pq.items_empty] at hit; cases hit

theorem relaxArc_rel (h : WRel n w₁ w₂) (curr : HeapItem) (t wl : Nat) (fnd : Bool) (a : Arc)
    (hc : (w₁.look curr.nodeId).isSome) :
    RelM (fun p q => WRel n p.1 q.1 ∧ p.2 = q.2 ∧ (p.1.look curr.nodeId).isSome) (relaxArc P curr t wl (w₁, fnd) a)
      (relaxArc P curr t wl (w₂, fnd) a) := by
  unfold relaxArc
  simp only
  rw [← h.avoid]
  refine RelM.ite (fun _ => ⟨h, rfl, hc⟩) (fun _ => RelM.bind_eq rfl (fun weight _ =>
    RelM.bind_eq (h.getCurrentWeight _) (fun cw _ => RelM.ite (fun _ => ?_) (fun _ => ⟨h, rfl, hc⟩))))
  refine RelM.bind (updateNode_rel h.b₁ h.b₂ h.look a.adj weight) ?_
  rintro v₁ v₂ ⟨h1, h2, h3, h4, h5, h6, h7, h8, h9, h10, h11, h12⟩
  have hmono : ∀ y, (w₁.look y).isSome → (v₁.look y).isSome := by
    intro y hy
    rw [h12]
    by_cases hyx : y = a.adj
    · rw [if_pos hyx]; rfl
    · rw [if_neg hyx]; exact hy
  refine ⟨⟨⟨h1.num, h1.tab⟩, ⟨h2.num, h2.tab⟩, h3, ?_, ?_, ?_, ?_, ?_⟩, rfl, hmono _ hc⟩
  · simp only [h4, h5, h.heap]
  · simp only [h6, h7, h.start]
  · simp only [h8, h9, h.avoid]
  · simp only [h10, h11, h.settled]
  · intro it hit
    simp only [h4] at hit
    rcases PQ.mem_push.1 hit with rfl | hit
    · show (v₁.look a.adj).isSome = true
      rw [h12, if_pos rfl]; rfl
    · exact hmono _ (h.items it hit)

theorem findLoop_rel (g : PreparationGraph) (t wl sl : Nat) : ∀ (fuel : Nat) (w₁ w₂ : WitnessSearch pq), WRel n w₁ w₂ →
    RelM (WRel n) (findLoop P g t wl sl fuel w₁) (findLoop P g t wl sl fuel w₂)
  | 0, _, _, _ => rfl
  | fuel + 1, w₁, w₂, h => by
    unfold findLoop
    rw [← h.heap]
    cases hp : pq.pop w₁.heap with
    | none => exact h
    | some r =>
      obtain ⟨curr, heap'⟩ := r
      simp only
      rw [← h.settled]
      have h' : WRel n ({ w₁ with heap := heap' } : WitnessSearch pq) ({ w₂ with heap := heap' } : WitnessSearch pq) :=
        ⟨⟨h.b₁.num, h.b₁.tab⟩, ⟨h.b₂.num, h.b₂.tab⟩, h.look, rfl, h.start, h.avoid, h.settled,
          fun it hit => h.items it ((PQ.pop_mem hp).2 (Or.inr hit))⟩
      have hcur : (WitnessSearch.look ({ w₁ with heap := heap' } : WitnessSearch pq) curr.nodeId).isSome :=
        h.items curr ((PQ.pop_mem hp).2 (Or.inl rfl))
      refine RelM.ite (fun _ => h) (fun _ => RelM.ite (fun _ => h) (fun _ => ?_))
      have h'' : WRel n ({ w₁ with heap := heap' } : WitnessSearch pq)
          (⟨w₂.numNodes, w₂.data, w₂.validFlags, heap', w₂.startNode, w₂.avoidNode, w₁.settledNodes⟩ : WitnessSearch pq) :=
        ⟨⟨h.b₁.num, h.b₁.tab⟩, ⟨h.b₂.num, h.b₂.tab⟩, h.look, rfl, h.start, h.avoid, rfl, h'.items⟩
      refine RelM.bind_eq (h''.isSettled _) (fun st _ => RelM.ite (fun _ => findLoop_rel g t wl sl fuel _ _ h'') (fun _ => ?_))
      refine RelM.bind_eq rfl (fun outs _ => ?_)
      refine RelM.bind (RelM.forM (R := fun (p q : WitnessSearch pq × Bool) => WRel n p.1 q.1 ∧ p.2 = q.2 ∧
        (p.1.look curr.nodeId).isSome) (fun p q a _ hpq => ?_) ⟨h'', rfl, hcur⟩) ?_
      · obtain ⟨p1, p2⟩ := p
        obtain ⟨q1, q2⟩ := q
        obtain ⟨k1, k2, k3⟩ := hpq
        simp only at k2
        subst k2
        exact relaxArc_rel k1 curr t wl p2 a k3
      · rintro ⟨v₁, f₁⟩ ⟨v₂, f₂⟩ ⟨k1, k2, k3⟩
        simp only at k1 k2 k3
        subst k2
        obtain ⟨d, hd⟩ := Option.isSome_iff_exists.1 k3
        simp only
        refine RelM.bind (k1.tab.modify hd _) ?_
        rintro p q ⟨m1, m2⟩
        have hs : WRel n ({ v₁ with data := p, settledNodes := v₁.settledNodes + 1 } : WitnessSearch pq)
            ({ v₂ with data := q, settledNodes := v₂.settledNodes + 1 } : WitnessSearch pq) := by
          refine ⟨⟨k1.b₁.num, m1.t₁⟩, ⟨k1.b₂.num, m1.t₂⟩, m1.look, k1.heap, k1.start, k1.avoid, by simp only [k1.settled], ?_⟩
          intro it hit
          have := k1.items it hit
          show (lookT p v₁.validFlags it.nodeId).isSome = true
          rw [m2]
          by_cases hyx : it.nodeId = curr.nodeId
          · rw [if_pos hyx]; rfl
          · rw [if_neg hyx]; exact this
        exact RelM.ite (fun _ => hs) (fun _ => findLoop_rel g t wl sl fuel _ _ hs)

theorem findMaxWeight_rel (h : WRel n w₁ w₂) (g : PreparationGraph) (t wl sl : Nat) :
    RelM (fun p q => WRel n p.1 q.1 ∧ p.2 = q.2) (w₁.findMaxWeight P g t wl sl) (w₂.findMaxWeight P g t wl sl) := by
  unfold WitnessSearch.findMaxWeight
  rw [← h.start, ← h.avoid, h.b₁.num, h.b₂.num]
  refine RelM.bind_eq rfl (fun _ _ => RelM.bind_eq rfl (fun _ _ => RelM.bind_eq rfl (fun _ _ =>
    RelM.ite (fun _ => ⟨h, rfl⟩) (fun _ => ?_))))
  refine RelM.bind_eq (h.tab.isValid t) (fun v hv => ?_)
  have hearly : (if v = true then idx w₁.data t >>= fun d =>
        (.ok (if (d.settled || decide (d.weight ≤ wl)) = true then some d.weight else none) : M (Option Nat)) else .ok none) =
      (if v = true then idx w₂.data t >>= fun d =>
        (.ok (if (d.settled || decide (d.weight ≤ wl)) = true then some d.weight else none) : M (Option Nat)) else .ok none) := by
    cases v with
    | false => rfl
    | true =>
      have hs : (w₁.look t).isSome := by
        by_cases ht : t < n
        · rw [h.b₁.tab.isValid ht] at hv
          injection hv
        · rw [h.b₁.tab.isValid_ge ht] at hv; cases hv
      obtain ⟨d, hd⟩ := Option.isSome_iff_exists.1 hs
      have hd' : lookT w₂.data w₂.validFlags t = some d := by
        have := h.look t
        unfold WitnessSearch.look at this
        rw [← this]; exact hd
      rw [idx_of_look hd, idx_of_look hd']
  refine RelM.bind_eq hearly (fun early _ => ?_)
  cases early with
  | some w => exact ⟨h, rfl⟩
  | none =>
    simp only
    have hfuel : w₁.fuelFor g = w₂.fuelFor g := by unfold WitnessSearch.fuelFor; rw [h.heap]
    rw [hfuel]
    refine RelM.bind (findLoop_rel g t wl sl _ _ _ h) (fun v₁ v₂ hv => ?_)
    exact RelM.bind_eq (hv.getCurrentWeight t) (fun w _ => ⟨hv, rfl⟩)

/-- `handle_shortcuts` does not depend on what the witness search object was used for before. -/
theorem handleShortcuts_rel (b₁ : w₁.Base n) (b₂ : w₂.Base n) (g : PreparationGraph) (node : Nat)
    (handle : PreparationGraph → β → Shortcut → M (PreparationGraph × β)) (acc : β) (ms : Nat) :
    RelM (fun p q : HSState pq β => p.graph = q.graph ∧ p.acc = q.acc ∧ p.ws.Base n ∧ q.ws.Base n)
      (handleShortcuts P g w₁ node handle acc ms) (handleShortcuts P g w₂ node handle acc ms) := by
  unfold handleShortcuts
  refine RelM.bind_eq rfl (fun ins _ => RelM.forM (fun p q i _ hpq => ?_) ⟨rfl, rfl, b₁, b₂⟩)
  obtain ⟨pg, pw, pa⟩ := p
  obtain ⟨qg, qw, qa⟩ := q
  obtain ⟨h1, h2, h3, h4⟩ := hpq
  simp only at h1 h2 h3 h4
  subst h1 h2
  unfold handleIn
  simp only
  refine RelM.bind_eq rfl (fun _ _ => RelM.bind_eq rfl (fun ia _ => RelM.bind (init_rel h3 h4 _ _) (fun v₁ v₂ hv =>
    RelM.bind_eq rfl (fun outs _ => ?_))))
  refine RelM.mono (RelM.forM (R := fun p q : HSState pq β => p.graph = q.graph ∧ p.acc = q.acc ∧ WRel n p.ws q.ws)
    (fun p q j _ hpq => ?_) ⟨rfl, rfl, hv⟩) (fun p q hpq => ⟨hpq.1, hpq.2.1, hpq.2.2.b₁, hpq.2.2.b₂⟩)
  obtain ⟨pg', pw', pa'⟩ := p
  obtain ⟨qg', qw', qa'⟩ := q
  obtain ⟨h1, h2, h3⟩ := hpq
  simp only at h1 h2 h3
  subst h1 h2
  unfold handlePair
  simp only
  refine RelM.bind_eq rfl (fun _ _ => RelM.bind_eq rfl (fun _ _ => RelM.bind_eq rfl (fun _ _ => RelM.bind_eq rfl (fun _ _ =>
    RelM.bind_eq rfl (fun _ _ => RelM.bind (findMaxWeight_rel h3 _ _ _ _) ?_)))))
  rintro ⟨x₁, y₁⟩ ⟨x₂, y₂⟩ ⟨hx, hy⟩
  simp only at hx hy
  subst hy
  exact RelM.ite (fun _ => ⟨rfl, rfl, hx⟩) (fun _ => RelM.bind_eq rfl (fun _ _ => ⟨rfl, rfl, hx⟩))

theorem contractNode_rel (b₁ : w₁.Base n) (b₂ : w₂.Base n) (g : PreparationGraph) (node ms : Nat) :
    RelM (fun p q : PreparationGraph × WitnessSearch pq => p.1 = q.1 ∧ p.2.Base n ∧ q.2.Base n)
      (contractNode P g w₁ node ms) (contractNode P g w₂ node ms) := by
  unfold contractNode
  refine RelM.bind (handleShortcuts_rel b₁ b₂ g node _ _ ms) (fun p q h => ?_)
  obtain ⟨h1, _, h3, h4⟩ := h
  rw [h1]
  exact RelM.bind_eq rfl (fun g' _ => ⟨rfl, h3, h4⟩)

theorem RelM.self {α : Type} {R : α → α → Prop} {m : M α} (h : RelM R m m) {a : α} (ha : m = .ok a) : R a a := by
  subst ha; exact h

theorem countShortcut_graph {g : PreparationGraph} {k : Int} {sc : Shortcut} {r : PreparationGraph × Int}
    (h : countShortcut P g k sc = .ok r) : r.1 = g := by
  unfold countShortcut at h
  split at h
  · injection h with h; rw [← h]
  · split at h
    · cases h
    · injection h with h; rw [← h]

/-- `calc_relevance` leaves the graph alone. -/
theorem calcRelevance_same (b₁ : w₁.Base n) {g g' : PreparationGraph} {ws' : WitnessSearch pq} {rel : Nat → Int → Nat → Nat}
    {node l ms p : Nat} (h : calcRelevance P rel g w₁ node l ms = .ok (g', ws', p)) : g' = g ∧ ws'.Base n := by
  unfold calcRelevance at h
  obtain ⟨st, h1, h2⟩ := bind_eq_ok.1 h
  have hb := RelM.self (handleShortcuts_rel b₁ b₁ g node (countShortcut P) 0 ms) h1
  have hg : st.graph = g := by
    unfold handleShortcuts at h1
    obtain ⟨ins, _, h1⟩ := bind_eq_ok.1 h1
    refine forM_inv (I := fun _ (s : HSState pq Int) => s.graph = g) ?_ (List.range ins.length) []
      (⟨g, w₁, 0⟩ : HSState pq Int) st rfl h1
    intro _ i s s' hs hrun
    unfold handleIn at hrun
    obtain ⟨_, _, hrun⟩ := bind_eq_ok.1 hrun
    obtain ⟨_, _, hrun⟩ := bind_eq_ok.1 hrun
    obtain ⟨ws1, _, hrun⟩ := bind_eq_ok.1 hrun
    obtain ⟨outs, _, hrun⟩ := bind_eq_ok.1 hrun
    refine forM_inv (I := fun _ (s : HSState pq Int) => s.graph = g) ?_ (List.range outs.length) []
      ({ s with ws := ws1 } : HSState pq Int) s' hs hrun
    intro _ j t t' ht hrun
    unfold handlePair at hrun
    obtain ⟨_, _, hrun⟩ := bind_eq_ok.1 hrun
    obtain ⟨_, _, hrun⟩ := bind_eq_ok.1 hrun
    obtain ⟨_, _, hrun⟩ := bind_eq_ok.1 hrun
    obtain ⟨_, _, hrun⟩ := bind_eq_ok.1 hrun
    obtain ⟨wt, _, hrun⟩ := bind_eq_ok.1 hrun
    obtain ⟨⟨ws2, mw⟩, _, hrun⟩ := bind_eq_ok.1 hrun
    simp only at hrun
    by_cases hc : mw ≤ wt
    · rw [if_pos hc] at hrun
      injection hrun with hrun
      subst hrun; exact ht
    · rw [if_neg hc] at hrun
      obtain ⟨⟨g2, a2⟩, hh, hrun⟩ := bind_eq_ok.1 hrun
      have hh1 := countShortcut_graph hh
      injection hrun with hrun
      subst hrun
      simp only
      exact (show g2 = t.graph from hh1).trans ht
  obtain ⟨outs, _, h2⟩ := bind_eq_ok.1 h2
  obtain ⟨ins, _, h2⟩ := bind_eq_ok.1 h2
  injection h2 with h2
  injection h2 with h3 h4
  injection h4 with h4 h5
  rw [← h3, ← h4]
  exact ⟨hg, hb.2.2.1⟩

/-- Builder states that agree on the graph being contracted and on the output. -/
structure BRel (n : Nat) (b₁ b₂ : BState pq) : Prop where
  pg : b₁.pg = b₂.pg
  fg : b₁.fg = b₂.fg
  w₁ : b₁.ws.Base n
  w₂ : b₂.ws.Base n

theorem recordAndContract_rel {b₁ b₂ : BState pq} (h : BRel n b₁ b₂) (ms rank node : Nat) :
    RelM (BRel n) (recordAndContract P ms b₁ rank node) (recordAndContract P ms b₂ rank node) := by
  unfold recordAndContract
  rw [h.pg, h.fg]
  refine RelM.bind_eq rfl (fun fg _ => RelM.bind (contractNode_rel h.w₁ h.w₂ _ _ _) ?_)
  rintro ⟨g1, w1⟩ ⟨g2, w2⟩ ⟨k1, k2, k3⟩
  exact ⟨k1, rfl, k2, k3⟩

theorem updateNeighbor_same {params : Params} {node : Nat} {st st' : QState pq nq} {k : Nat} (hb : st.b.ws.Base n)
    (h : updateNeighbor P params node st k = .ok st') :
    st'.b.pg = st.b.pg ∧ st'.b.fg = st.b.fg ∧ st'.b.ws.Base n ∧ (nq.keys st'.queue).Perm (nq.keys st.queue) := by
  unfold updateNeighbor at h
  obtain ⟨_, _, h⟩ := bind_eq_ok.1 h
  obtain ⟨_, _, h⟩ := bind_eq_ok.1 h
  obtain ⟨_, _, h⟩ := bind_eq_ok.1 h
  obtain ⟨_, _, h⟩ := bind_eq_ok.1 h
  obtain ⟨_, _, h⟩ := bind_eq_ok.1 h
  obtain ⟨⟨pg, ws, p⟩, hc, h⟩ := bind_eq_ok.1 h
  obtain ⟨k1, k2⟩ := calcRelevance_same hb hc
  injection h with h
  subst h
  exact ⟨k1, rfl, k2, nq.keys_change _ _ _⟩

/-- The nodes popped by the loop, with the intermediate states. -/
inductive Pops (P : Plat) (params : Params) : Nat → QState pq nq → List Nat → Prop where
  | nil {rank : Nat} {st : QState pq nq} : nq.pop st.queue = none → Pops P params rank st []
  | cons {rank node : Nat} {st st' : QState pq nq} {queue : nq.σ} {outs ins : List Arc} {b : BState pq} {nodes : List Nat} :
      nq.pop st.queue = some (node, queue) → idx st.b.pg.outEdges node = .ok outs → idx st.b.pg.inEdges node = .ok ins →
      recordAndContract P params.maxSettledContraction st.b rank node = .ok b →
      forM (updateNeighbor P params node) { st with b := b, queue := queue } (neighborSet outs ins) = .ok st' →
      Pops P params (rank + 1) st' nodes → Pops P params rank st (node :: nodes)

/-- The priority driven contraction is the contraction in the order of the pops. -/
theorem contractionLoop_order {params : Params} : ∀ (fuel rank : Nat) (st st' : QState pq nq) (b : BState pq),
    BRel n st.b b → contractionLoop P params fuel rank st = .ok st' →
    ∃ nodes, ((nq.keys st.queue).Perm nodes ∧ Pops P params rank st nodes) ∧ ∃ b', forM (fun b (x : Nat × Nat) =>
      recordAndContract P params.maxSettledContraction b x.2 x.1) b (nodes.zipIdx rank) = .ok b' ∧ BRel n st'.b b'
  | 0, _, _, _, _, _, h => by cases h
  | fuel + 1, rank, st, st', b, hr, h => by
    unfold contractionLoop at h
    cases hp : nq.pop st.queue with
    | none =>
      rw [hp] at h
      injection h with h
      subst h
      refine ⟨[], ⟨by rw [(nq.pop_none _).1 hp], .nil hp⟩, b, rfl, hr⟩
    | some r =>
      obtain ⟨node, queue⟩ := r
      rw [hp] at h
      simp only at h
      obtain ⟨outs, ho, h⟩ := bind_eq_ok.1 h
      obtain ⟨ins, hi, h⟩ := bind_eq_ok.1 h
      obtain ⟨b1, hb1, h⟩ := bind_eq_ok.1 h
      obtain ⟨st2, hst2, h⟩ := bind_eq_ok.1 h
      obtain ⟨b1', hb1', hrel⟩ := (recordAndContract_rel hr params.maxSettledContraction rank node).ok_left hb1
      have hinv := forM_inv (f := updateNeighbor P params node)
        (I := fun _ (s : QState pq nq) => s.b.pg = b1.pg ∧ s.b.fg = b1.fg ∧ s.b.ws.Base n ∧
          (nq.keys s.queue).Perm (nq.keys queue)) (by
          rintro _ k s s' ⟨i1, i2, i3, i4⟩ hrun
          obtain ⟨j1, j2, j3, j4⟩ := updateNeighbor_same i3 hrun
          exact ⟨j1.trans i1, j2.trans i2, j3, j4.trans i4⟩) (neighborSet outs ins) []
        ({ st with b := b1, queue := queue } : QState pq nq) st2 ⟨rfl, rfl, hrel.w₁, .refl _⟩ hst2
      obtain ⟨i1, i2, i3, i4⟩ := hinv
      obtain ⟨nodes, ⟨hperm, hpops⟩, b', hb', hrel'⟩ := contractionLoop_order fuel (rank + 1) st2 st' b1'
        ⟨i1.trans hrel.pg, i2.trans hrel.fg, i3, hrel.w₂⟩ h
      refine ⟨node :: nodes, ?_, b', ?_, hrel'⟩
      · exact ⟨(nq.pop_some _ _ _ hp).trans ((i4.symm.trans hperm).cons node), .cons hp ho hi hb1 hst2 hpops⟩
      · rw [List.zipIdx_cons, forM_cons, hb1']
        exact hb'

/-- Ranks written by the contraction loop. -/
theorem ranks_loop {ms : Nat} : ∀ (nodes : List Nat) (rank : Nat) (b b' : BState pq),
    forM (fun b (x : Nat × Nat) => recordAndContract P ms b x.2 x.1) b (nodes.zipIdx rank) = .ok b' → nodes.Nodup →
    b'.fg.ranks.length = b.fg.ranks.length ∧ (∀ (j v : Nat), nodes[j]? = some v → b'.fg.ranks[v]? = some (rank + j)) ∧
    ∀ v, v ∉ nodes → b'.fg.ranks[v]? = b.fg.ranks[v]?
  | [], rank, b, b', h, _ => by
    injection h with h
    subst h
    exact ⟨rfl, by simp, fun _ _ => rfl⟩
  | node :: nodes, rank, b, b', h, hnd => by
    rw [List.zipIdx_cons, forM_cons] at h
    obtain ⟨b1, h1, h2⟩ := bind_eq_ok.1 h
    obtain ⟨k1, k2, k3⟩ := ranks_loop nodes (rank + 1) b1 b' h2 (List.nodup_cons.1 hnd).2
    unfold recordAndContract at h1
    obtain ⟨fg, hfg, h1⟩ := bind_eq_ok.1 h1
    obtain ⟨⟨pg, ws⟩, _, h1⟩ := bind_eq_ok.1 h1
    injection h1 with h1
    subst h1
    unfold recordNode at hfg
    obtain ⟨_, _, hfg⟩ := bind_eq_ok.1 hfg
    obtain ⟨_, _, hfg⟩ := bind_eq_ok.1 hfg
    obtain ⟨_, _, hfg⟩ := bind_eq_ok.1 hfg
    obtain ⟨_, _, hfg⟩ := bind_eq_ok.1 hfg
    obtain ⟨_, _, hfg⟩ := bind_eq_ok.1 hfg
    obtain ⟨_, _, hfg⟩ := bind_eq_ok.1 hfg
    obtain ⟨ranks, hset, hfg⟩ := bind_eq_ok.1 hfg
    injection hfg with hfg
    obtain ⟨hlt, hrk⟩ := setIdx_eq_ok.1 hset
    subst hfg
    simp only at k1 k2 k3
    subst hrk
    refine ⟨by rw [k1]; simp, ?_, ?_⟩
    · intro j v hj
      cases j with
      | zero =>
        simp at hj
        subst hj
        rw [k3 _ (List.nodup_cons.1 hnd).1, getElem?_set' hlt]
        simp
      | succ j =>
        rw [k2 j v (by simpa using hj)]
        congr 1; omega
    · intro v hv
      rw [List.mem_cons, not_or] at hv
      rw [k3 v hv.2, getElem?_set' hlt, if_neg (fun e => hv.1 e.symm)]

theorem finishFwdEdge_ranks {i e : Nat} {fg fg' : FastGraph} (h : finishFwdEdge P i fg e = .ok fg') : fg'.ranks = fg.ranks := by
  unfold finishFwdEdge at h
  obtain ⟨ed, _, h⟩ := bind_eq_ok.1 h
  simp only at h
  by_cases hc : (ed.replacedInEdge == P.INVALID_NODE) = true
  · rw [if_pos hc] at h
    obtain ⟨_, _, h⟩ := bind_eq_ok.1 h
    injection h with h; subst h; rfl
  · rw [if_neg hc] at h
    obtain ⟨_, _, h⟩ := bind_eq_ok.1 h
    obtain ⟨_, _, h⟩ := bind_eq_ok.1 h
    injection h with h; subst h; rfl

theorem finishBwdEdge_ranks {i e : Nat} {fg fg' : FastGraph} (h : finishBwdEdge P i fg e = .ok fg') : fg'.ranks = fg.ranks := by
  unfold finishBwdEdge at h
  obtain ⟨ed, _, h⟩ := bind_eq_ok.1 h
  simp only at h
  by_cases hc : (ed.replacedInEdge == P.INVALID_NODE) = true
  · rw [if_pos hc] at h
    obtain ⟨_, _, h⟩ := bind_eq_ok.1 h
    injection h with h; subst h; rfl
  · rw [if_neg hc] at h
    obtain ⟨_, _, h⟩ := bind_eq_ok.1 h
    obtain ⟨_, _, h⟩ := bind_eq_ok.1 h
    injection h with h; subst h; rfl

theorem finishContraction_ranks {k : Nat} {fg fg' : FastGraph} (h : finishContraction P k fg = .ok fg') :
    fg'.ranks = fg.ranks := by
  unfold finishContraction at h
  obtain ⟨fg1, h1, h2⟩ := bind_eq_ok.1 h
  have e1 : fg1.ranks = fg.ranks := by
    refine forM_inv (I := fun _ (s : FastGraph) => s.ranks = fg.ranks) ?_ (List.range k) [] fg fg1 rfl h1
    intro _ i s s' hs hrun
    unfold finishFwdNode at hrun
    obtain ⟨b, _, hrun⟩ := bind_eq_ok.1 hrun
    obtain ⟨e, _, hrun⟩ := bind_eq_ok.1 hrun
    refine forM_inv (I := fun _ (s : FastGraph) => s.ranks = fg.ranks) ?_ (rangeFrom b e) [] s s' hs hrun
    intro _ j t t' ht hrun
    exact (finishFwdEdge_ranks hrun).trans ht
  refine forM_inv (I := fun _ (s : FastGraph) => s.ranks = fg.ranks) ?_ (List.range k) [] fg1 fg' e1 h2
  intro _ i s s' hs hrun
  unfold finishBwdNode at hrun
  obtain ⟨b, _, hrun⟩ := bind_eq_ok.1 hrun
  obtain ⟨e, _, hrun⟩ := bind_eq_ok.1 hrun
  refine forM_inv (I := fun _ (s : FastGraph) => s.ranks = fg.ranks) ?_ (rangeFrom b e) [] s s' hs hrun
  intro _ j t t' ht hrun
  exact (finishBwdEdge_ranks hrun).trans ht

/-- `get_node_ordering` inverts the ranks. -/
theorem getNodeOrdering_eq {fg : FastGraph} {nodes : List Nat} (hlen : fg.ranks.length = nodes.length)
    (hp : nodes.Perm (List.range nodes.length)) (hr : ∀ (j v : Nat), nodes[j]? = some v → fg.ranks[v]? = some j) :
    fg.getNodeOrdering = .ok nodes := by
  have hnd : nodes.Nodup := hp.nodup_iff.2 List.nodup_range
  unfold FastGraph.getNodeOrdering
  obtain ⟨o, ho, h1, h2⟩ := forM_ok_of (f := fun ordering i => idx fg.ranks i >>= fun r => setIdx ordering r i)
    (l := List.range fg.ranks.length) (fun pre (o : List Nat) => o.length = nodes.length ∧
      ∀ (j v : Nat), nodes[j]? = some v → v ∈ pre → o[j]? = some v)
    (s := List.replicate fg.ranks.length 0) ⟨by simp [hlen], by simp⟩ (by
      rintro pre i post o hl ⟨i1, i2⟩
      have hi : i < nodes.length := by
        have : i ∈ List.range fg.ranks.length := by rw [hl]; simp
        rw [← hlen]; exact List.mem_range.1 this
      have him : i ∈ nodes := hp.mem_iff.2 (List.mem_range.2 hi)
      obtain ⟨j, hj⟩ := List.getElem?_of_mem him
      have hjl : j < nodes.length := (List.getElem?_eq_some_iff.1 hj).1
      rw [idx_some (hr j i hj)]
      simp only [bind_okM]
      rw [setIdx_ok (by rw [i1]; exact hjl)]
      refine ⟨_, rfl, by simp [i1], ?_⟩
      intro j' v' hj' hv'
      rw [getElem?_set' (by rw [i1]; exact hjl)]
      by_cases hjj : j = j'
      · subst hjj
        rw [hj] at hj'
        rw [if_pos rfl]; exact hj'
      · rw [if_neg hjj]
        rcases List.mem_append.1 hv' with hv' | hv'
        · exact i2 j' v' hj' hv'
        · simp at hv'
          subst hv'
          exact absurd (nodup_getElem?_inj hnd hj hj') hjj)
  rw [ho]
  congr 1
  apply List.ext_getElem?
  intro j
  cases hj : nodes[j]? with
  | none =>
    rw [List.getElem?_eq_none_iff] at hj ⊢
    omega
  | some v =>
    refine h2 j v hj ?_
    have := hp.mem_iff.1 (List.mem_of_getElem? hj)
    rw [hlen]; exact this

/-- The ordering of a prepared graph is the order of the pops, and preparing again in this order gives the same graph. -/
theorem prepare_pops {ig : InputGraph} {params : Params} {fg : FastGraph}
    (h : buildWithParams P pq nq ig params = .ok fg) : ∃ nodes pg0 fg0 st, fg.getNodeOrdering = .ok nodes ∧
      nodes.Perm (List.range ig.numNodes) ∧
      buildWithOrderWithParams P pq ig nodes params.maxSettledContraction = .ok (.ok fg) ∧
      PreparationGraph.fromInputGraph P ig = .ok pg0 ∧ FastGraph.new P ig.numNodes = .ok fg0 ∧
      forM (initialPriority P params) (⟨⟨pg0, WitnessSearch.new P pq ig.numNodes, fg0⟩, List.replicate ig.numNodes 0, nq.empty⟩ :
        QState pq nq) (List.range ig.numNodes) = .ok st ∧
      Pops P params 0 st nodes ∧ ∀ j v : Nat, nodes[j]? = some v → fg.ranks[v]? = some j := by
  unfold buildWithParams at h
  obtain ⟨k, hk, h⟩ := bind_eq_ok.1 h
  have hk0 := hk
  unfold InputGraph.getNumNodes at hk
  obtain ⟨_, _, hk⟩ := bind_eq_ok.1 hk
  injection hk with hk
  subst hk
  unfold runContraction at h
  obtain ⟨fg0, hfg0, h⟩ := bind_eq_ok.1 h
  obtain ⟨pg0, hpg0, h⟩ := bind_eq_ok.1 h
  obtain ⟨st1, hst1, h⟩ := bind_eq_ok.1 h
  obtain ⟨st2, hst2, hfin⟩ := bind_eq_ok.1 h
  have hinit : st1.b.pg = pg0 ∧ st1.b.fg = fg0 ∧ st1.b.ws.Base ig.numNodes ∧
      (nq.keys st1.queue).Perm (List.range ig.numNodes) := by
    have := forM_inv (f := initialPriority P params)
      (I := fun pre (s : QState pq nq) => pre.Nodup → s.b.pg = pg0 ∧ s.b.fg = fg0 ∧ s.b.ws.Base ig.numNodes ∧
        (nq.keys s.queue).Perm pre) (by
        intro pre i s s' hI hrun hnd
        have hnd' := List.nodup_append.1 hnd
        obtain ⟨i1, i2, i3, i4⟩ := hI hnd'.1
        unfold initialPriority at hrun
        obtain ⟨⟨pg, ws, p⟩, hc, hrun⟩ := bind_eq_ok.1 hrun
        obtain ⟨k1, k2⟩ := calcRelevance_same i3 hc
        injection hrun with hrun
        subst hrun
        refine ⟨k1.trans i1, i2, k2, ?_⟩
        have hnot : i ∉ nq.keys s.queue := by
          intro hm
          exact hnd'.2.2 i (i4.mem_iff.1 hm) i (by simp) rfl
        exact (nq.keys_push i p s.queue hnot).trans ((i4.cons i).trans (List.perm_append_singleton i pre).symm))
      (List.range ig.numNodes) [] _ _ (fun _ => ⟨rfl, rfl, WitnessSearch.Base.new P pq _, by simp [nq.keys_empty]⟩) hst1
    simpa using this List.nodup_range
  obtain ⟨i1, i2, i3, i4⟩ := hinit
  obtain ⟨nodes, ⟨hperm, hhead⟩, b', hb', hrel⟩ := contractionLoop_order (ig.numNodes + 1) 0 st1 st2
    (⟨pg0, WitnessSearch.new P pq ig.numNodes, fg0⟩ : BState pq)
    ⟨i1, i2, i3, WitnessSearch.Base.new P pq _⟩ hst2
  have hp : nodes.Perm (List.range ig.numNodes) := hperm.symm.trans i4
  have hlen : nodes.length = ig.numNodes := by simpa using hp.length_eq
  have hnd : nodes.Nodup := hp.nodup_iff.2 List.nodup_range
  obtain ⟨r1, r2, _⟩ := ranks_loop nodes 0 _ b' hb' hnd
  have hfr := finishContraction_ranks hfin
  have hfg0len : fg0.ranks.length = ig.numNodes := by
    unfold FastGraph.new at hfg0
    by_cases hc : ig.numNodes < P.umax
    · rw [if_pos hc] at hfg0
      injection hfg0 with hfg0
      subst hfg0
      simp [FastGraph.empty]
    · rw [if_neg hc] at hfg0; cases hfg0
  refine ⟨nodes, pg0, fg0, st1, ?_, hp, ?_, hpg0, hfg0, hst1, hhead, ?_⟩
  · refine getNodeOrdering_eq ?_ (by rw [hlen]; exact hp) ?_
    · rw [hfr, hrel.fg, r1, hlen]; exact hfg0len
    · intro j v hj
      rw [hfr, hrel.fg, r2 j v hj]; simp
  · unfold buildWithOrderWithParams
    rw [hk0]
    simp only [bind_okM]
    rw [if_neg (by simp [hlen])]
    have hrun : runContractionWithOrder P pq ig ig.numNodes nodes params.maxSettledContraction = .ok fg := by
      unfold runContractionWithOrder
      rw [hfg0]
      simp only [bind_okM]
      rw [hpg0]
      simp only [bind_okM]
      have : forM (orderStep P ig.numNodes params.maxSettledContraction)
          (⟨pg0, WitnessSearch.new P pq ig.numNodes, fg0⟩ : BState pq) nodes.zipIdx = .ok b' := by
        rw [← hb']
        apply forM_congr
        rintro s ⟨v, r⟩ hv
        unfold orderStep
        simp only
        have hvn : v ∈ nodes := by
          have := List.mem_zipIdx hv
          rw [this.2.2]
          exact List.getElem_mem _
        have : v < ig.numNodes := List.mem_range.1 (hp.mem_iff.1 hvn)
        rw [if_neg (by omega)]
      rw [this]
      simp only [bind_okM]
      rw [← hrel.fg]
      exact hfin
    rw [hrun]
    rfl
  · intro j v hj
    rw [hfr, hrel.fg, r2 j v hj]; simp

/-- Preparing again in the order of an earlier preparation gives the same graph. -/
theorem prepare_again {ig : InputGraph} {params : Params} {fg : FastGraph}
    (h : buildWithParams P pq nq ig params = .ok fg) : ∃ nodes, fg.getNodeOrdering = .ok nodes ∧
      nodes.Perm (List.range ig.numNodes) ∧
      buildWithOrderWithParams P pq ig nodes params.maxSettledContraction = .ok (.ok fg) := by
  obtain ⟨nodes, _, _, _, h1, h2, h3, _⟩ := prepare_pops h
  exact ⟨nodes, h1, h2, h3⟩

end FP
