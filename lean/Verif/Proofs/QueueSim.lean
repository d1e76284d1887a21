import Verif.Proofs.Order
set_option autoImplicit false
/-! # Two queues with the same priorities: helper lemmas for C130 -/
namespace FP
open Spec

variable {pq : PQ} {nq nq' : NodeQueue} {P : Plat}

theorem forM_two {σ τ α : Type} {f : σ → α → M σ} {g : τ → α → M τ} {R : List α → σ → τ → Prop}
    (hs : ∀ pre a s t s', R pre s t → f s a = .ok s' → ∃ t', g t a = .ok t' ∧ R (pre ++ [a]) s' t') :
    ∀ (l pre : List α) (s : σ) (t : τ) (s' : σ), R pre s t → forM f s l = .ok s' →
      ∃ t', forM g t l = .ok t' ∧ R (pre ++ l) s' t' := by
  intro l
  induction l with
  | nil => intro pre s t s' h hr; simp at hr; subst hr; exact ⟨t, by simp, by simpa using h⟩
  | cons a as ih =>
    intro pre s t s' h hr
    rw [forM_cons] at hr
    obtain ⟨s1, h1, hr⟩ := bind_eq_ok.1 hr
    obtain ⟨t1, k1, k2⟩ := hs pre a s t s1 h h1
    obtain ⟨t', j1, j2⟩ := ih (pre ++ [a]) s1 t1 s' k2 hr
    refine ⟨t', ?_, by simpa using j2⟩
    rw [forM_cons, k1, bind_okM]
    exact j1

/-- The states differ at most in the way the queue is stored. -/
structure QSim (prio : nq.σ → Nat → Nat) (prio' : nq'.σ → Nat → Nat) (st : QState pq nq) (st' : QState pq nq') : Prop where
  b : st'.b = st.b
  levels : st'.levels = st.levels
  nodup : (nq.keys st.queue).Nodup
  keys : (nq'.keys st'.queue).Perm (nq.keys st.queue)
  prios : ∀ x ∈ nq.keys st.queue, prio' st'.queue x = prio st.queue x

variable {prio : nq.σ → Nat → Nat} {prio' : nq'.σ → Nat → Nat}

theorem QSim.initial (ho : Ordered nq prio) (ho' : Ordered nq' prio') {params : Params} {st1 : QState pq nq} {st : QState pq nq}
    {st' : QState pq nq'} (h : QSim prio prio' st st') {node : Nat} (hn : node ∉ nq.keys st.queue)
    (hr : initialPriority P params st node = .ok st1) : ∃ st1', initialPriority P params st' node = .ok st1' ∧ QSim prio prio' st1 st1' ∧
      (nq.keys st1.queue).Perm (node :: nq.keys st.queue) := by
  unfold initialPriority at hr ⊢
  obtain ⟨⟨pg, ws, p⟩, hc, hr⟩ := bind_eq_ok.1 hr
  injection hr with hr
  subst hr
  have hn' : node ∉ nq'.keys st'.queue := fun hm => hn (h.keys.mem_iff.1 hm)
  have hk := nq.keys_push node p st.queue hn
  refine ⟨⟨{ st'.b with pg := pg, ws := ws }, st'.levels, nq'.push node p st'.queue⟩, by rw [h.b, hc, bind_okM],
    ⟨by rw [h.b], h.levels, hk.nodup_iff.2 (List.nodup_cons.2 ⟨hn, h.nodup⟩), ?_, ?_⟩, hk⟩
  · exact (nq'.keys_push node p st'.queue hn').trans ((h.keys.cons node).trans hk.symm)
  · intro x hx
    rcases List.mem_cons.1 (hk.mem_iff.1 hx) with rfl | hx
    · exact (ho'.push_self _ _ _ hn').trans (ho.push_self _ _ _ hn).symm
    · exact (ho'.push_other _ _ _ _ hn' (h.keys.mem_iff.2 hx)).trans ((h.prios x hx).trans (ho.push_other _ _ _ _ hn hx).symm)

theorem QSim.initials (ho : Ordered nq prio) (ho' : Ordered nq' prio') {params : Params} : ∀ (l : List Nat) (st : QState pq nq)
    (st' : QState pq nq') (s : QState pq nq), QSim prio prio' st st' → l.Nodup → (∀ x ∈ l, x ∉ nq.keys st.queue) →
    forM (initialPriority P params) st l = .ok s →
    ∃ s', forM (initialPriority P params) st' l = .ok s' ∧ QSim prio prio' s s' := by
  intro l
  induction l with
  | nil => intro st st' s h _ _ hr; simp at hr; subst hr; exact ⟨st', by simp, h⟩
  | cons a as ih =>
    intro st st' s h hnd hk hr
    rw [forM_cons] at hr
    obtain ⟨s1, h1, hr⟩ := bind_eq_ok.1 hr
    obtain ⟨hna, hnd⟩ := List.nodup_cons.1 hnd
    obtain ⟨t1, k1, k2, k3⟩ := h.initial ho ho' (hk a (List.mem_cons_self ..)) h1
    obtain ⟨t', j1, j2⟩ := ih s1 t1 s k2 hnd (fun x hx hm => by
      rcases List.mem_cons.1 (k3.mem_iff.1 hm) with rfl | hm
      · exact hna hx
      · exact hk x (List.mem_cons_of_mem _ hx) hm) hr
    refine ⟨t', ?_, j2⟩
    rw [forM_cons, k1, bind_okM]
    exact j1

theorem QSim.update (ho : Ordered nq prio) (ho' : Ordered nq' prio') {params : Params} {st1 : QState pq nq} {st : QState pq nq}
    {st' : QState pq nq'} (h : QSim prio prio' st st') {node neighbor : Nat}
    (hr : updateNeighbor P params node st neighbor = .ok st1) : ∃ st1', updateNeighbor P params node st' neighbor = .ok st1' ∧
      QSim prio prio' st1 st1' := by
  unfold updateNeighbor at hr ⊢
  obtain ⟨ln, h1, hr⟩ := bind_eq_ok.1 hr
  obtain ⟨lv, h2, hr⟩ := bind_eq_ok.1 hr
  obtain ⟨lv1, h3, hr⟩ := bind_eq_ok.1 hr
  obtain ⟨levels, h4, hr⟩ := bind_eq_ok.1 hr
  obtain ⟨l, h5, hr⟩ := bind_eq_ok.1 hr
  obtain ⟨⟨pg, ws, p⟩, hc, hr⟩ := bind_eq_ok.1 hr
  injection hr with hr
  subst hr
  have hk := nq.keys_change neighbor p st.queue
  have hnd' := h.keys.nodup_iff.2 h.nodup
  refine ⟨⟨{ st'.b with pg := pg, ws := ws }, levels, nq'.change neighbor p st'.queue⟩, ?_,
    ⟨by rw [h.b], rfl, hk.nodup_iff.2 h.nodup, (nq'.keys_change _ _ _).trans (h.keys.trans hk.symm), ?_⟩⟩
  · rw [h.levels, h1, bind_okM, h2, bind_okM, h3, bind_okM, h4, bind_okM, h5, bind_okM, h.b, hc, bind_okM]
  · intro x hx
    replace hx := hk.mem_iff.1 hx
    have hx' := h.keys.mem_iff.2 hx
    by_cases e : x = neighbor
    · subst e
      exact (ho'.change_self _ _ _ hnd' hx').trans (ho.change_self _ _ _ h.nodup hx).symm
    · exact (ho'.change_other _ _ _ _ hnd' hx' e).trans ((h.prios x hx).trans (ho.change_other _ _ _ _ h.nodup hx e).symm)

/-- If no other node of the first queue has as small a priority, the second queue hands out the same node. -/
theorem QSim.pop (ho : Ordered nq prio) (ho' : Ordered nq' prio') {st : QState pq nq} {st' : QState pq nq'}
    (h : QSim prio prio' st st') {node : Nat} {queue : nq.σ} (hp : nq.pop st.queue = some (node, queue))
    (hl : ∀ x ∈ nq.keys queue, prio st.queue node < prio st.queue x) (b : BState pq) :
    ∃ queue', nq'.pop st'.queue = some (node, queue') ∧
      QSim prio prio' { st with b := b, queue := queue } { st' with b := b, queue := queue' } := by
  have hk := nq.pop_some _ _ _ hp
  have hnd' := h.keys.nodup_iff.2 h.nodup
  have hm : node ∈ nq.keys st.queue := hk.mem_iff.2 (List.mem_cons_self ..)
  have hm' := h.keys.mem_iff.2 hm
  cases hp' : nq'.pop st'.queue with
  | none => rw [(nq'.pop_none _).1 hp'] at hm'; simp at hm'
  | some r =>
    obtain ⟨node', queue'⟩ := r
    have hk' := nq'.pop_some _ _ _ hp'
    have hn' : node' ∈ nq.keys st.queue := h.keys.mem_iff.1 (hk'.mem_iff.2 (List.mem_cons_self ..))
    have he : node' = node := by
      rcases List.mem_cons.1 (hk.mem_iff.1 hn') with e | hx
      · exact e
      · have h1 := ho'.pop_least _ _ _ hnd' hp' node hm'
        rw [h.prios _ hm, h.prios _ hn'] at h1
        have := hl _ hx
        omega
    subst he
    have hkk : (nq'.keys queue').Perm (nq.keys queue) := (hk'.symm.trans (h.keys.trans hk)).cons_inv
    refine ⟨queue', rfl, rfl, h.levels, (List.nodup_cons.1 (hk.nodup_iff.1 h.nodup)).2, hkk, fun x hx => ?_⟩
    have hxs := hk.mem_iff.2 (List.mem_cons_of_mem _ hx)
    exact (ho'.pop_other _ _ _ hnd' hp' x (hkk.mem_iff.2 hx)).trans
      ((h.prios x hxs).trans (ho.pop_other _ _ _ h.nodup hp x hx).symm)

/-- The loops run alike if there are no ties. -/
theorem QSim.loop (hP : P.checked = true) {ig : InputGraph} (hn : ig.numNodes ≤ P.umax) (ho : Ordered nq prio)
    (ho' : Ordered nq' prio') {params : Params} {rank : Nat} {st : QState pq nq} {nodes : List Nat} (hp : Pops P params rank st nodes) :
    ∀ done fuel st' s, OInv P pq nq prio ig params done st → (nq.keys st.queue).Perm nodes →
      (∀ pre v rest, nodes = pre ++ v :: rest → ∀ u ∈ rest, ∀ p q,
        IsPriority P.umax ig.numNodes (remainingEdges P pq ig params.maxSettledContraction) params.relevance
          params.maxSettledInitialRelevance params.maxSettledNeighborRelevance (done ++ pre) v p →
        IsPriority P.umax ig.numNodes (remainingEdges P pq ig params.maxSettledContraction) params.relevance
          params.maxSettledInitialRelevance params.maxSettledNeighborRelevance (done ++ pre) u q → p < q) →
      QSim prio prio' st st' → contractionLoop P params fuel rank st = .ok s →
      ∃ s', contractionLoop P params fuel rank st' = .ok s' ∧ QSim prio prio' s s' := by
  induction hp with
  | @nil rank st hp =>
    intro done fuel st' s h hperm hties hsim hrun
    cases fuel with
    | zero => cases hrun
    | succ fuel =>
      unfold contractionLoop at hrun ⊢
      rw [hp] at hrun
      cases hrun
      have h0 := (nq.pop_none _).1 hp
      have : nq'.keys st'.queue = [] := by
        have := hsim.keys
        rw [h0] at this
        exact this.eq_nil
      rw [(nq'.pop_none _).2 this]
      exact ⟨st', rfl, hsim⟩
  | @cons rank node st st1 queue outs ins b nodes hpop hout hin hb hu hp ih =>
    intro done fuel st' s h hperm hties hsim hrun
    cases fuel with
    | zero => cases hrun
    | succ fuel =>
      have hk := nq.pop_some _ _ _ hpop
      have hkn : (nq.keys queue).Perm nodes := (hk.symm.trans hperm).cons_inv
      have hm : node ∈ nq.keys st.queue := hk.mem_iff.2 (List.mem_cons_self ..)
      obtain ⟨queue', hpop', hsim'⟩ := hsim.pop ho ho' hpop (fun x hx => by
        refine hties [] node nodes rfl x (hkn.mem_iff.1 hx) _ _ ?_ ?_
        · rw [List.append_nil]; exact h.prios _ hm
        · rw [List.append_nil]; exact h.prios _ (hk.mem_iff.2 (List.mem_cons_of_mem _ hx))) b
      obtain ⟨st1', hu', hsim1⟩ := forM_two (R := fun _ (s : QState pq nq) (t : QState pq nq') => QSim prio prio' s t)
        (f := updateNeighbor P params node) (g := updateNeighbor P params node)
        (fun _ a s t s' hR hr => hR.update ho ho' hr) _ [] _ _ _ hsim' hu
      obtain ⟨h', hk'⟩ := h.step hP hn ho hpop hout hin hb hu
      unfold contractionLoop at hrun ⊢
      rw [hpop] at hrun
      simp only [hout, hin, hb, hu, bind_okM] at hrun
      rw [hpop']
      simp only [hsim.b, hout, hin, hb, hu', bind_okM]
      refine ih _ fuel st1' s h' (hk'.trans hkn) (fun pre v rest e u hu p q hp hq => ?_) hsim1 hrun
      rw [List.append_assoc] at hp hq
      exact hties (node :: pre) v rest (by rw [e]; rfl) u hu p q hp hq

end FP
