import Verif.Proofs.Search
/-! # The bidirectional main loop -/
namespace FP
open Spec Side PathCalculator

variable {pq : PQ} {P : Plat} {n : Nat} {fg : FastGraph} {E : EdgeRel}

/-- No route is cheaper than `D`. -/
def RouteLB (E : EdgeRel) (starts ends : List (Nat × Nat)) (D : Nat) : Prop :=
  ∀ s ws t wt w, (s, ws) ∈ starts → (t, wt) ∈ ends → Wk E s t w → D ≤ ws + w + wt

theorem RouteLB.swap {starts ends : List (Nat × Nat)} {D : Nat} (h : RouteLB E starts ends D) :
    RouteLB (revE E) ends starts D := by
  intro s ws t wt w h1 h2 h3
  have := h t wt s ws w h2 h1 h3.rev
  omega

/-- Invariant connecting both sides with `best_weight` and `meeting_node`. -/
structure Pair (P : Plat) (E : EdgeRel) (starts ends : List (Nat × Nat)) (D : Nat) (st : QS pq) : Prop where
  lb : D ≤ st.best
  ub : st.best ≤ P.umax
  meetNone : st.meet = P.umax → st.best = P.umax
  meetSome : st.meet ≠ P.umax → st.best < P.umax ∧ ∃ d d', st.fwd.look st.meet = some d ∧ st.bwd.look st.meet = some d' ∧
    d.weight + d'.weight ≤ st.best
  both : ∀ x d d', st.fwd.look x = some d → d.settled = true → MinAt E starts x d.weight → d.weight ≤ D →
    st.bwd.look x = some d' → d'.settled = true → MinAt (revE E) ends x d'.weight → d'.weight ≤ D →
    st.best ≤ d.weight + d'.weight

/-- Exchange the sides. -/
def swapQS (st : QS pq) : QS pq := ⟨st.bwd, st.fwd, st.best, st.meet⟩

theorem revE_revE (E : EdgeRel) : revE (revE E) = E := rfl

theorem Pair.swap {starts ends : List (Nat × Nat)} {D : Nat} {st : QS pq} (h : Pair P E starts ends D st) :
    Pair P (revE E) ends starts D (swapQS st) := by
  refine ⟨h.lb, h.ub, h.meetNone, ?_, ?_⟩
  · intro hm
    obtain ⟨h1, d, d', h2, h3, h4⟩ := h.meetSome hm
    exact ⟨h1, d', d, h3, h2, by simp only [swapQS]; omega⟩
  · intro x d d' h1 h2 h3 h4 h5 h6 h7 h8
    have := h.both x d' d h5 h6 h7 h8 h1 h2 h3 h4
    simp only [swapQS]
    omega

/-- Work left on one side. -/
def smeas (n : Nat) (fg : FastGraph) (s : Side pq) : Nat :=
  (pq.items s.heap).length + openSum n s.settledB (fun u => fg.eo u - fg.bo u)

/-- Dropping a popped item keeps the invariant unless the item was needed. -/
theorem SInv.popped {roots : List (Nat × Nat)} {D : Nat} {s : Side pq} (h : SInv P E n fg roots D s) {curr : HeapItem}
    {heap' : pq.σ} (hp : pq.pop s.heap = some (curr, heap'))
    (hn : ∀ d, s.look curr.nodeId = some d → d.settled = false → MinAt E roots curr.nodeId d.weight → d.weight ≤ D →
      d.weight ≠ curr.weight) :
    SInv P E n fg roots D ({ s with heap := heap' } : Side pq) := by
  have hsub : ∀ it ∈ pq.items heap', it ∈ pq.items s.heap := fun it hit => (PQ.pop_mem hp).2 (Or.inr hit)
  refine ⟨h.tab, h.lab, ?_, ?_, h.root, ?_, h.relaxed⟩
  · intro it hit; exact h.items it (hsub it hit)
  · intro x d hx hd it hit; exact h.settled x d hx hd it (hsub it hit)
  · intro x d hx hd hm hD
    have := h.queued x d hx hd hm hD
    rcases (PQ.pop_mem hp).1 this with he | he
    · subst he
      exact absurd rfl (hn d hx hd hm hD)
    · exact he

/-- The state after settling `curr`. -/
theorem settle_ok (hP : P.checked = true) (hg : SGood P E n fg) {starts : List (Nat × Nat)} {D : Nat}
    {s : Side pq} (h : SInv P E n fg starts D s) {curr : HeapItem} {heap' : pq.σ}
    (hp : pq.pop s.heap = some (curr, heap')) {dc : PData} (hdc : s.look curr.nodeId = some dc)
    (hun : dc.settled = false) :
    Tri (forM (Side.relaxEdge P fg.edgesFwd curr) ({ s with heap := heap' } : Side pq)
        (rangeFrom (fg.bo curr.nodeId) (fg.eo curr.nodeId)) >>= fun s =>
      modIdx s.data curr.nodeId (fun d => { d with settled := true }) >>= fun data =>
      .ok ({ s with data := data } : Side pq))
      (fun s' => SInv P E n fg starts D s' ∧ Better s.look s'.look ∧
        s'.look curr.nodeId = some { dc with settled := true } ∧
        (∀ x d, x ≠ curr.nodeId → s'.look x = some d → d.settled = true → s.look x = some d) ∧
        smeas n fg s' < smeas n fg s) := by
  have hcurr : curr ∈ pq.items s.heap := (PQ.pop_mem hp).2 (Or.inl rfl)
  have hlen := PQ.pop_length hp
  have hsub : ∀ it ∈ pq.items heap', it ∈ pq.items s.heap := fun it hit => (PQ.pop_mem hp).2 (Or.inr hit)
  obtain ⟨dc', hc1, hc2⟩ := h.items curr hcurr
  rw [hdc] at hc1; cases hc1
  have hcn : curr.nodeId < n := h.tab.look_lt hdc
  have hset : ∀ x d, ({ s with heap := heap' } : Side pq).look x = some d → d.settled = true →
      d.weight ≤ curr.weight := fun x d hx hd => h.settled x d hx hd curr hcurr
  have hR : RelInv P E n fg starts D curr ({ s with heap := heap' } : Side pq) (fg.bo curr.nodeId)
      ({ s with heap := heap' } : Side pq) := by
    refine ⟨h.tab, h.lab, ?_, Better.refl _, rfl, fun _ _ h _ => h, fun _ _ h _ => h, ?_, ?_, by omega⟩
    · intro it hit; exact ⟨PQ.pop_min hp (hsub it hit), h.items it (hsub it hit)⟩
    · intro x d hxc hx hd hm hD
      have := h.queued x d hx hd hm hD
      rcases (PQ.pop_mem hp).1 this with he | he
      · subst he; exact absurd rfl hxc
      · exact he
    · intro id ed hat hid; have := hat.1; omega
  refine Tri.bind (relaxAll_ok hP hg hcn hset ⟨dc, hdc, hc2⟩ hR) ?_
  intro s1 h1
  have hd1 : s1.look curr.nodeId = some dc := by rw [h1.cur]; exact hdc
  obtain ⟨em, tabm, lm⟩ := TabOk.modify h1.tab hd1 (fun d => { d with settled := true })
  rw [em]
  simp only [bind_okM, Tri_ok]
  generalize hs2 : ({ s1 with data := s1.data.set curr.nodeId { dc with settled := true } } : Side pq) = s2
  have hL : ∀ y, s2.look y = if y = curr.nodeId then some { dc with settled := true } else s1.look y := by
    subst hs2; exact lm
  have hheap : s2.heap = s1.heap := by subst hs2; rfl
  have htab : s2.Base n := by subst hs2; exact tabm
  have hbet : Better s1.look s2.look := by
    intro x d hx
    rw [hL]
    by_cases hxc : x = curr.nodeId
    · rw [if_pos hxc]
      subst hxc
      rw [hd1] at hx; cases hx
      exact ⟨_, rfl, Nat.le_refl _⟩
    · rw [if_neg hxc]; exact ⟨d, hx, Nat.le_refl _⟩
  have hback : ∀ x d, x ≠ curr.nodeId → s2.look x = some d → d.settled = true → s.look x = some d := by
    intro x d hxc hx hd
    rw [hL, if_neg hxc] at hx
    exact h1.back x d hx hd
  have hbet0 : Better s.look s2.look := h1.better.trans hbet
  refine ⟨⟨htab, ?_, ?_, ?_, ?_, ?_, ?_⟩, hbet0, ?_, hback, ?_⟩
  · intro x d hx
    rw [hL] at hx
    by_cases hxc : x = curr.nodeId
    · rw [if_pos hxc] at hx
      cases hx
      subst hxc
      exact Trace.mono (d := dc) hbet (h1.lab _ _ hd1)
    · rw [if_neg hxc] at hx
      exact (h1.lab x d hx).mono hbet
  · intro it hit
    rw [hheap] at hit
    obtain ⟨_, d, hx1, hx2⟩ := h1.items it hit
    obtain ⟨d', hx3, hx4⟩ := hbet _ _ hx1
    exact ⟨d', hx3, by omega⟩
  · intro x d hx hd it hit
    rw [hheap] at hit
    have hge := (h1.items it hit).1
    by_cases hxc : x = curr.nodeId
    · rw [hL, if_pos hxc] at hx
      cases hx; simp only; omega
    · have := hset x d (hback x d hxc hx hd) hd
      omega
  · intro r wr hr hlt
    obtain ⟨d, k1, k2⟩ := h.root r wr hr hlt
    obtain ⟨d', k3, k4⟩ := hbet0 _ _ k1
    exact ⟨d', k3, by omega⟩
  · intro x d hx hd hm hD
    rw [hheap]
    rw [hL] at hx
    by_cases hxc : x = curr.nodeId
    · rw [if_pos hxc] at hx; cases hx; cases hd
    · rw [if_neg hxc] at hx
      exact h1.queued x d hxc hx hd hm hD
  · intro x d hx hd hm y w hf hD hU
    by_cases hxc : x = curr.nodeId
    · rw [hL, if_pos hxc] at hx
      cases hx
      subst hxc
      simp only at hm hD hU ⊢
      have hq := h.queued _ _ hdc hun hm (by omega)
      have hmin := PQ.pop_min hp hq
      simp only at hmin
      have hw : dc.weight = curr.weight := by omega
      obtain ⟨id, ed, hat, rfl, rfl⟩ := hf
      obtain ⟨d', k1, k2⟩ := h1.done id ed hat hat.2.1 (by omega)
      obtain ⟨d'', k3, k4⟩ := hbet _ _ k1
      exact ⟨d'', k3, by omega⟩
    · obtain ⟨d', k1, k2⟩ := h.relaxed x d (hback x d hxc hx hd) hd hm y w hf hD hU
      obtain ⟨d'', k3, k4⟩ := hbet0 _ _ k1
      exact ⟨d'', k3, by omega⟩
  · rw [hL, if_pos rfl]
  · have hs1 : ∀ u, s.settledB u = true → s2.settledB u = true := by
      intro u hu
      unfold settledB at hu ⊢
      cases hlk : s.look u with
      | none => rw [hlk] at hu; simp at hu
      | some d =>
        rw [hlk] at hu
        simp only at hu
        have := h1.keep u d hlk hu
        rw [hL]
        by_cases huc : u = curr.nodeId
        · rw [if_pos huc]
        · rw [if_neg huc, this]; exact hu
    have hs2' : s2.settledB curr.nodeId = true := by
      unfold settledB; rw [hL, if_pos rfl]
    have hs0 : s.settledB curr.nodeId = false := by
      unfold settledB; rw [hdc]; exact hun
    have := openSum_settle (k := fun u => fg.eo u - fg.bo u) hs1 hcn hs0 hs2'
    have hlen1 := h1.len
    unfold smeas
    rw [hheap]
    simp only at this hlen1
    omega

/-- The inner forward loop. -/
theorem innerFwd_ok (hP : P.checked = true) (hg : SGood P E n fg) {starts ends : List (Nat × Nat)} {D : Nat}
    (hD : RouteLB E starts ends D) : ∀ fuel (st : QS pq), SInv P E n fg starts D st.fwd →
      SInv P (revE E) n fg.flip ends D st.bwd → Pair P E starts ends D st → (pq.items st.fwd.heap).length < fuel →
      Tri (innerFwd P fg fuel st) (fun st' => st'.bwd = st.bwd ∧ SInv P E n fg starts D st'.fwd ∧
        Pair P E starts ends D st' ∧ smeas n fg st'.fwd ≤ smeas n fg st.fwd ∧
        (pq.items st.fwd.heap ≠ [] → smeas n fg st'.fwd < smeas n fg st.fwd)) := by
  intro fuel
  induction fuel with
  | zero => intro st _ _ _ h; omega
  | succ fuel ih =>
    intro st hf hb hpair hfuel
    unfold innerFwd
    cases hp : pq.pop st.fwd.heap with
    | none =>
      rw [Tri_ok]
      refine ⟨rfl, hf, hpair, Nat.le_refl _, ?_⟩
      intro h; exact absurd ((pq.pop_none _).1 hp) h
    | some r =>
      obtain ⟨curr, heap'⟩ := r
      simp only
      have hcurr : curr ∈ pq.items st.fwd.heap := (PQ.pop_mem hp).2 (Or.inl rfl)
      have hlen := PQ.pop_length hp
      obtain ⟨dc, hc1, hc2⟩ := hf.items curr hcurr
      have hcn : curr.nodeId < n := hf.tab.look_lt hc1
      have hbase : Base n ({ st.fwd with heap := heap' } : Side pq) := hf.tab
      have hsb : settledB ({ st.fwd with heap := heap' } : Side pq) curr.nodeId = dc.settled := by
        have : settledB ({ st.fwd with heap := heap' } : Side pq) curr.nodeId = st.fwd.settledB curr.nodeId := rfl
        rw [this]; unfold settledB; rw [hc1]
      have hmeas' : smeas n fg ({ st.fwd with heap := heap' } : Side pq) + 1 = smeas n fg st.fwd := by
        unfold smeas
        have : openSum n (settledB ({ st.fwd with heap := heap' } : Side pq)) (fun u => fg.eo u - fg.bo u)
          = openSum n st.fwd.settledB (fun u => fg.eo u - fg.bo u) := rfl
        rw [this]
        simp only
        omega
      have hpair' : Pair P E starts ends D ({ st with fwd := { st.fwd with heap := heap' } } : QS pq) :=
        ⟨hpair.lb, hpair.ub, hpair.meetNone, hpair.meetSome, hpair.both⟩
      have hcont : ∀ (_ : SInv P E n fg starts D ({ st.fwd with heap := heap' } : Side pq)),
          Tri (innerFwd P fg fuel ({ st with fwd := { st.fwd with heap := heap' } } : QS pq))
            (fun st' => st'.bwd = st.bwd ∧ SInv P E n fg starts D st'.fwd ∧
              Pair P E starts ends D st' ∧ smeas n fg st'.fwd ≤ smeas n fg st.fwd ∧
              (pq.items st.fwd.heap ≠ [] → smeas n fg st'.fwd < smeas n fg st.fwd)) := by
        intro hf'
        refine Tri.mono (ih _ hf' hb hpair' (by simp only; omega)) ?_
        rintro st' ⟨k1, k2, k3, k4, _⟩
        have k5 := Nat.lt_of_le_of_lt k4 (Nat.lt_of_succ_le (Nat.le_of_eq hmeas'))
        exact ⟨k1, k2, k3, Nat.le_of_lt k5, fun _ => k5⟩
      rw [isSettled_ok hbase hcn, hsb]
      simp only [bind_okM]
      by_cases hset : dc.settled = true
      · rw [if_pos hset]
        refine hcont (hf.popped hp ?_)
        intro d hd hds
        rw [hc1] at hd; cases hd
        rw [hset] at hds; cases hds
      · rw [if_neg hset]
        have hun : dc.settled = false := by simpa using hset
        by_cases hbest : curr.weight > st.best
        · rw [if_pos hbest]
          rw [Tri_ok]
          have k5 := Nat.lt_of_succ_le (Nat.le_of_eq hmeas')
          refine ⟨rfl, hf.popped hp ?_, hpair', Nat.le_of_lt k5, fun _ => k5⟩
          intro d hd _ _ hdD
          have := hpair.lb
          omega
        · rw [if_neg hbest]
          refine Tri.bind (isStallableFwd_ok hP hg (roots := starts) (s := ({ st.fwd with heap := heap' } : Side pq)) hf.lab hbase hcn) ?_
          intro r hr
          by_cases hrt : r = true
          · rw [if_pos hrt]
            refine hcont (hf.popped hp ?_)
            intro d hd _ hm _ he
            rw [he] at hm
            exact hr hrt hm
          · rw [if_neg hrt]
            rw [hg.beginOut hcn, hg.endOut hcn]
            simp only [bind_okM]
            have hS := settle_ok hP hg hf hp hc1 hun
            -- reassociate
            have hassoc : ∀ (k : Side pq → M (QS pq)),
                (forM (Side.relaxEdge P fg.edgesFwd curr) ({ st.fwd with heap := heap' } : Side pq)
                  (rangeFrom (fg.bo curr.nodeId) (fg.eo curr.nodeId)) >>= fun s =>
                  modIdx s.data curr.nodeId (fun d => { d with settled := true }) >>= fun data =>
                  k { s with data := data }) =
                ((forM (Side.relaxEdge P fg.edgesFwd curr) ({ st.fwd with heap := heap' } : Side pq)
                  (rangeFrom (fg.bo curr.nodeId) (fg.eo curr.nodeId)) >>= fun s =>
                  modIdx s.data curr.nodeId (fun d => { d with settled := true }) >>= fun data =>
                  .ok { s with data := data }) >>= k) := by
              intro k
              cases forM (Side.relaxEdge P fg.edgesFwd curr) ({ st.fwd with heap := heap' } : Side pq)
                  (rangeFrom (fg.bo curr.nodeId) (fg.eo curr.nodeId)) with
              | error e => rfl
              | ok s =>
                simp only [bind_okM]
                cases modIdx s.data curr.nodeId (fun d => { d with settled := true }) with
                | error e => rfl
                | ok d => rfl
            rw [hassoc (fun s => do
              if ← st.bwd.flags.isValid curr.nodeId then do
                let wb ← st.bwd.getWeight P curr.nodeId
                let w ← addW P curr.weight wb
                if w < st.best then .ok { ({ st with fwd := s } : QS pq) with best := w, meet := curr.nodeId }
                else .ok { st with fwd := s }
              else .ok { st with fwd := s })]
            refine Tri.bind hS ?_
            rintro s2 ⟨hs2, hbet, hcur2, hback, hm2⟩
            -- facts used for the pair invariant
            have hmin_eq : MinAt E starts curr.nodeId dc.weight → dc.weight ≤ D → dc.weight = curr.weight := by
              intro hm hle
              have hq := hf.queued _ _ hc1 hun hm hle
              have := PQ.pop_min hp hq
              simp only at this
              omega
            have hsome : ∀ b, b ≤ st.best → st.meet ≠ P.umax → st.best ≤ b →
                b < P.umax ∧ ∃ d d', s2.look st.meet = some d ∧ st.bwd.look st.meet = some d' ∧
                  d.weight + d'.weight ≤ b := by
              intro b h1 hm h2
              obtain ⟨g0, d, d', g1, g2, g3⟩ := hpair.meetSome hm
              obtain ⟨d2, g4, g5⟩ := hbet _ _ g1
              exact ⟨by omega, d2, d', g4, g2, by omega⟩
            have hother : ∀ x d d', x ≠ curr.nodeId → s2.look x = some d → d.settled = true → MinAt E starts x d.weight →
                d.weight ≤ D → st.bwd.look x = some d' → d'.settled = true → MinAt (revE E) ends x d'.weight →
                d'.weight ≤ D → st.best ≤ d.weight + d'.weight := by
              intro x d d' hxc h1 h2 h3 h4 h5 h6 h7 h8
              exact hpair.both x d d' (hback x d hxc h1 h2) h2 h3 h4 h5 h6 h7 h8
            cases hlb : st.bwd.look curr.nodeId with
            | none =>
              rw [hb.tab.isValid_none hcn hlb]
              simp only [bind_okM]
              refine ⟨rfl, hs2, ⟨hpair.lb, hpair.ub, hpair.meetNone, fun hm => hsome _ (Nat.le_refl _) hm (Nat.le_refl _), ?_⟩,
                by simp only; omega, fun _ => by simp only; omega⟩
              intro x d d' h1 h2 h3 h4 h5 h6 h7 h8
              by_cases hxc : x = curr.nodeId
              · subst hxc
                simp only at h5
                rw [hlb] at h5; cases h5
              · exact hother x d d' hxc h1 h2 h3 h4 h5 h6 h7 h8
            | some db =>
              rw [hb.tab.isValid_some hlb]
              simp only [bind_okM, if_true]
              rw [getWeight_ok hb.tab hcn, wt_some hlb]
              simp only [bind_okM]
              refine Tri.bind (Tri_addW hP _ _) ?_
              rintro w ⟨rfl, hw⟩
              have hDw : D ≤ curr.weight + db.weight := by
                obtain ⟨r, wr, a, g1, g2, g3⟩ := hf.sound hg hc1
                obtain ⟨r', wr', a', g4, g5, g6⟩ := hb.sound hg.flip hlb
                have := hD r wr r' wr' (a + a') g1 g4 (g2.append g5.rev)
                omega
              by_cases hlt : curr.weight + db.weight < st.best
              · rw [if_pos hlt]
                have hub := hpair.ub
                refine ⟨rfl, hs2, ⟨hDw, by simp only; omega, ?_, ?_, ?_⟩, by simp only; omega, fun _ => by simp only; omega⟩
                · intro hm
                  simp only at hm
                  have := hg.n_lt
                  omega
                · intro _
                  exact ⟨by simp only; omega, _, db, hcur2, hlb, by simp only; omega⟩
                · intro x d d' h1 h2 h3 h4 h5 h6 h7 h8
                  by_cases hxc : x = curr.nodeId
                  · subst hxc
                    simp only at h1 h5
                    rw [hcur2] at h1; cases h1
                    rw [hlb] at h5; cases h5
                    simp only at h3 h4 ⊢
                    have := hmin_eq h3 h4
                    omega
                  · have := hother x d d' hxc h1 h2 h3 h4 h5 h6 h7 h8
                    simp only; omega
              · rw [if_neg hlt]
                refine ⟨rfl, hs2, ⟨hpair.lb, hpair.ub, hpair.meetNone, fun hm => hsome _ (Nat.le_refl _) hm (Nat.le_refl _), ?_⟩,
                  by simp only; omega, fun _ => by simp only; omega⟩
                intro x d d' h1 h2 h3 h4 h5 h6 h7 h8
                by_cases hxc : x = curr.nodeId
                · subst hxc
                  simp only at h1 h5
                  rw [hcur2] at h1; cases h1
                  rw [hlb] at h5; cases h5
                  simp only at h3 h4 ⊢
                  have := hmin_eq h3 h4
                  omega
                · exact hother x d d' hxc h1 h2 h3 h4 h5 h6 h7 h8

/-- The backward loop is the forward loop on the flipped graph. -/
theorem innerBwd_eq (P : Plat) (g : FastGraph) : ∀ fuel (st : QS pq),
    innerBwd P g fuel st = (innerFwd P g.flip fuel (swapQS st) >>= fun st => .ok (swapQS st)) := by
  intro fuel
  induction fuel with
  | zero => intro st; rfl
  | succ fuel ih =>
    intro st
    unfold innerBwd innerFwd
    have h1 : (swapQS st).fwd = st.bwd := rfl
    rw [h1]
    cases hp : pq.pop st.bwd.heap with
    | none => rfl
    | some r =>
      obtain ⟨curr, heap'⟩ := r
      simp only [ih]
      change (Side.isSettled ({ st.bwd with heap := heap' } : Side pq) curr.nodeId >>= _) =
        ((Side.isSettled ({ st.bwd with heap := heap' } : Side pq) curr.nodeId >>= _) >>= _)
      cases Side.isSettled ({ st.bwd with heap := heap' } : Side pq) curr.nodeId with
      | error e => rfl
      | ok b =>
        simp only [bind_okM]
        cases b with
        | true => rfl
        | false =>
          simp only [Bool.false_eq_true, if_false]
          change (if curr.weight > st.best then _ else _) = (if curr.weight > st.best then _ else _) >>= _
          by_cases hb : curr.weight > st.best
          · rw [if_pos hb, if_pos hb]; rfl
          · rw [if_neg hb, if_neg hb]
            change (isStallableBwd P g _ curr >>= _) = ((isStallableBwd P g _ curr >>= _) >>= _)
            cases isStallableBwd P g ({ st.bwd with heap := heap' } : Side pq) curr with
            | error e => rfl
            | ok b =>
              simp only [bind_okM]
              cases b with
              | true => rfl
              | false =>
                simp only [Bool.false_eq_true, if_false]
                change (g.beginInEdges curr.nodeId >>= _) = ((g.beginInEdges curr.nodeId >>= _) >>= _)
                cases g.beginInEdges curr.nodeId with
                | error e => rfl
                | ok b =>
                  simp only [bind_okM]
                  change (g.endInEdges curr.nodeId >>= _) = ((g.endInEdges curr.nodeId >>= _) >>= _)
                  cases g.endInEdges curr.nodeId with
                  | error e => rfl
                  | ok e =>
                    simp only [bind_okM]
                    change (forM (Side.relaxEdge P g.edgesBwd curr) _ _ >>= _) =
                      ((forM (Side.relaxEdge P g.edgesBwd curr) _ _ >>= _) >>= _)
                    cases forM (Side.relaxEdge P g.edgesBwd curr) ({ st.bwd with heap := heap' } : Side pq)
                        (rangeFrom b e) with
                    | error e => rfl
                    | ok s =>
                      simp only [bind_okM]
                      cases modIdx s.data curr.nodeId (fun d => { d with settled := true }) with
                      | error e => rfl
                      | ok data =>
                        simp only [bind_okM]
                        change (st.fwd.flags.isValid curr.nodeId >>= _) = ((st.fwd.flags.isValid curr.nodeId >>= _) >>= _)
                        cases st.fwd.flags.isValid curr.nodeId with
                        | error e => rfl
                        | ok v =>
                          simp only [bind_okM]
                          cases v with
                          | false => rfl
                          | true =>
                            simp only [if_true]
                            change (st.fwd.getWeight P curr.nodeId >>= _) = ((st.fwd.getWeight P curr.nodeId >>= _) >>= _)
                            cases st.fwd.getWeight P curr.nodeId with
                            | error e => rfl
                            | ok wf =>
                              simp only [bind_okM]
                              cases addW P curr.weight wf with
                              | error e => rfl
                              | ok w =>
                                simp only [bind_okM]
                                change (if w < st.best then _ else _) = (if w < st.best then _ else _) >>= _
                                by_cases hw : w < st.best
                                · rw [if_pos hw, if_pos hw]; rfl
                                · rw [if_neg hw, if_neg hw]; rfl

/-- Invariant of the main loop. -/
structure QInv2 (P : Plat) (E : EdgeRel) (n : Nat) (fg : FastGraph) (starts ends : List (Nat × Nat)) (D : Nat)
    (st : QS pq) : Prop where
  f : SInv P E n fg starts D st.fwd
  b : SInv P (revE E) n fg.flip ends D st.bwd
  p : Pair P E starts ends D st

theorem isEmpty_iff {q : pq.σ} : pq.isEmpty q = true ↔ pq.items q = [] := by
  unfold PQ.isEmpty
  rw [Option.isNone_iff_eq_none]
  exact pq.pop_none q

theorem mainLoop_ok (hP : P.checked = true) (hg : SGood P E n fg) {starts ends : List (Nat × Nat)} {D : Nat}
    (hD : RouteLB E starts ends D) : ∀ fuel (st : QS pq), QInv2 P E n fg starts ends D st →
      smeas n fg st.fwd + smeas n fg.flip st.bwd < fuel →
      Tri (mainLoop P fg fuel st) (fun st' => QInv2 P E n fg starts ends D st' ∧ pq.items st'.fwd.heap = [] ∧
        pq.items st'.bwd.heap = []) := by
  intro fuel
  induction fuel with
  | zero => intro st _ h; omega
  | succ fuel ih =>
    intro st h hfuel
    unfold mainLoop
    by_cases hemp : (pq.isEmpty st.fwd.heap && pq.isEmpty st.bwd.heap) = true
    · rw [if_pos hemp]
      simp only [Bool.and_eq_true, isEmpty_iff] at hemp
      exact ⟨h, hemp.1, hemp.2⟩
    · rw [if_neg hemp]
      simp only [Bool.and_eq_true, isEmpty_iff, not_and_or] at hemp
      refine Tri.bind (innerFwd_ok hP hg hD _ st h.f h.b h.p (by omega)) ?_
      rintro st1 ⟨e1, f1, p1, m1, m1'⟩
      rw [innerBwd_eq]
      have hb1 : SInv P (revE E) n fg.flip ends D st1.bwd := by rw [e1]; exact h.b
      have h2 := innerFwd_ok hP hg.flip hD.swap ((pq.items st1.bwd.heap).length + 1) (swapQS st1) hb1 f1 p1.swap
        (by simp only [swapQS]; omega)
      refine Tri.bind (Tri.bind h2 (R := fun st2 => st2.fwd = st1.fwd ∧ SInv P (revE E) n fg.flip ends D st2.bwd ∧
        Pair P E starts ends D st2 ∧ smeas n fg.flip st2.bwd ≤ smeas n fg.flip st1.bwd ∧
        (pq.items st1.bwd.heap ≠ [] → smeas n fg.flip st2.bwd < smeas n fg.flip st1.bwd)) ?_) ?_
      · rintro st2 ⟨g1, g2, g3, g4, g5⟩
        exact ⟨g1, g2, g3.swap, g4, g5⟩
      · rintro st2 ⟨g1, g2, g3, g4, g5⟩
        refine ih st2 ⟨by rw [g1]; exact f1, g2, g3⟩ ?_
        rw [e1] at g4 g5
        rw [g1]
        rcases hemp with hh | hh
        · have := m1' hh; omega
        · have := g5 hh; omega

theorem smeas_le (hg : Shape P n fg) (s : Side pq) :
    smeas n fg s ≤ (pq.items s.heap).length + fg.edgesFwd.length := by
  have := openSum_le (n := n) (S := s.settledB) (k := fun u => fg.eo u - fg.bo u)
  rw [hg.sum_out] at this
  unfold smeas
  omega

/-! ### Completeness at the end of the search -/

/-- With an empty heap, nodes reached at minimal weight within the bound are settled with that weight. -/
theorem SInv.complete (hg : SGood P E n fg) {roots : List (Nat × Nat)} {D : Nat} {s : Side pq}
    (h : SInv P E n fg roots D s) (he : pq.items s.heap = []) (hDu : D < P.umax) (hr : ∀ x ∈ roots, x.1 < n) :
    ∀ {r wr x a}, (r, wr) ∈ roots → Wk fg.FE r x a → MinAt E roots x (wr + a) → wr + a ≤ D →
      ∃ d, s.look x = some d ∧ d.weight = wr + a ∧ d.settled = true := by
  intro r wr x a hroot k
  -- induction over the walk from the back
  have hset : ∀ y d, s.look y = some d → MinAt E roots y d.weight → d.weight ≤ D → d.settled = true := by
    intro y d hy hm hD
    cases hds : d.settled with
    | true => rfl
    | false =>
      have := h.queued y d hy hds hm hD
      rw [he] at this; cases this
  have key : ∀ {y b : Nat}, Wk (revE fg.FE) y r b → y < n ∧ Wk E r y b ∧ (MinAt E roots y (wr + b) → wr + b ≤ D →
      ∃ d, s.look y = some d ∧ d.weight = wr + b ∧ d.settled = true) := by
    intro y b k
    generalize hz : r = z at k
    induction k with
    | nil t =>
      subst hz
      refine ⟨hr _ hroot, .nil _, ?_⟩
      intro hm hle
      obtain ⟨d, h1, h2⟩ := h.root r wr hroot (by omega)
      have h3 := h.min_le hg h1 hm
      have h4 : d.weight = wr + 0 := by omega
      exact ⟨d, h1, h4, hset _ _ h1 (by rw [h4]; exact hm) (by omega)⟩
    | @cons y y' t c b e k ih =>
      obtain ⟨i1, i2, i3⟩ := ih hz
      subst hz
      obtain ⟨g1, g2, g3⟩ := hg.FE_walk i1 e
      refine ⟨g1, ?_, ?_⟩
      · rw [Nat.add_comm]; exact i2.append g3
      · intro hm hle
        have hm' : MinAt E roots y' (wr + b) := by
          intro r' wr' a' hr' hk'
          have := hm r' wr' _ hr' (hk'.append g3)
          omega
        obtain ⟨d, h1, h2, h3⟩ := i3 hm' (by omega)
        obtain ⟨d', h4, h5⟩ := h.relaxed y' d h1 h3 (by rw [h2]; exact hm') y c e (by omega) (by omega)
        have h6 := h.min_le hg h4 hm
        have h7 : d'.weight = wr + (c + b) := by omega
        exact ⟨d', h4, h7, hset _ _ h4 (by rw [h7]; exact hm) (by omega)⟩
  exact (key k.rev).2.2

/-- The search finds the optimum. -/
theorem QInv2.best_le (hg : SGood P E n fg) {starts ends : List (Nat × Nat)} {D : Nat} {st : QS pq}
    (h : QInv2 P E n fg starts ends D st) (he : pq.items st.fwd.heap = []) (he' : pq.items st.bwd.heap = [])
    (hD : RouteLB E starts ends D) (hDu : D < P.umax) (hs : ∀ x ∈ starts, x.1 < n) (ht : ∀ x ∈ ends, x.1 < n)
    {r wr r' wr' w : Nat} (h1 : (r, wr) ∈ starts) (h2 : (r', wr') ∈ ends) (hw : wr + w + wr' = D)
    (hud : UpDown fg.FE fg.BE r r' w) : st.best ≤ D := by
  obtain ⟨m, a, b, ka, kb, hle⟩ := hud
  have hFE : ∀ {u x c}, u < n → Wk fg.FE u x c → Wk E u x c := by
    intro u x c hu k
    induction k with
    | nil => exact .nil _
    | cons e k ih =>
      obtain ⟨g1, _, g3⟩ := hg.FE_walk hu e
      exact g3.append (ih g1)
  have hBE : ∀ {u x c}, u < n → Wk fg.BE u x c → Wk (revE E) u x c := by
    intro u x c hu k
    induction k with
    | nil => exact .nil _
    | cons e k ih =>
      obtain ⟨g1, _, g3⟩ := hg.flip.FE_walk hu e
      exact g3.append (ih g1)
  have wa := hFE (hs _ h1) ka
  have wb := hBE (ht _ h2) kb
  have hab : D ≤ wr + (a + b) + wr' := hD _ _ _ _ _ h1 h2 (wa.append wb.rev)
  have hmf : MinAt E starts m (wr + a) := by
    intro r₁ w₁ a₁ hr₁ hk₁
    have := hD _ _ _ _ _ hr₁ h2 (hk₁.append wb.rev)
    omega
  have hmb : MinAt (revE E) ends m (wr' + b) := by
    intro r₁ w₁ a₁ hr₁ hk₁
    have := hD _ _ _ _ _ h1 hr₁ (wa.append hk₁.rev)
    omega
  obtain ⟨d, f1, f2, f3⟩ := h.f.complete hg he hDu hs h1 ka hmf (by omega)
  obtain ⟨d', b1, b2, b3⟩ := h.b.complete hg.flip he' hDu ht h2 kb hmb (by omega)
  have := h.p.both m d d' f1 f3 (by rw [f2]; exact hmf) (by omega) b1 b3 (by rw [b2]; exact hmb) (by omega)
  omega

end FP
