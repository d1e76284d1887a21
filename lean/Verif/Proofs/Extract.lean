import Mathlib.Data.Nat.Find
import Verif.Proofs.MainLoop
/-! # Path extraction and the complete query -/
namespace FP
open Spec Side PathCalculator

variable {pq : PQ} {P : Plat} {n : Nat} {fg : FastGraph} {E : EdgeRel}

theorem isShortcut_edge {ed : FastGraphEdge} (h1 : ed.replacedInEdge = P.umax) (h2 : ed.replacedOutEdge = P.umax) :
    ed.isShortcut P = .ok false := by
  unfold FastGraphEdge.isShortcut
  rw [assertM_of (by simp [h1, h2, Plat.INVALID_EDGE])]
  simp [h1, Plat.INVALID_EDGE]

theorem isShortcut_shortcut {ed : FastGraphEdge} (h1 : ed.replacedInEdge ≠ P.umax) (h2 : ed.replacedOutEdge ≠ P.umax) :
    ed.isShortcut P = .ok true := by
  unfold FastGraphEdge.isShortcut
  rw [assertM_of (by simp [h1, h2, Plat.INVALID_EDGE])]
  simp [h1, Plat.INVALID_EDGE]

/-- Unpacking an edge yields the nodes of the walk it stands for, without the last one. -/
theorem unpack_ok (h : FSound P E n fg) : ∀ fuel,
    (∀ u < n, fg.rk u < fuel → ∀ id ed, fg.OutAt u id ed → ∃ L, WkL E u ed.adjNode ed.weight L ∧
      ∀ nodes, unpackFwd P fg fuel nodes id false = .ok (nodes ++ L) ∧
        unpackFwd P fg fuel nodes id true = .ok (nodes ++ L.reverse)) ∧
    (∀ u < n, fg.rk u < fuel → ∀ id ed, fg.InAt u id ed → ∃ L, WkL E ed.adjNode u ed.weight L ∧
      ∀ nodes, unpackBwd P fg fuel nodes id false = .ok (nodes ++ L) ∧
        unpackBwd P fg fuel nodes id true = .ok (nodes ++ L.reverse)) := by
  intro fuel
  induction fuel with
  | zero => exact ⟨fun u _ h => by omega, fun u _ h => by omega⟩
  | succ fuel ih =>
    refine ⟨?_, ?_⟩
    · intro u hu hk id ed hat
      obtain ⟨hb, _, _, hr⟩ := h.fwd u hu id ed hat
      rcases hr with ⟨r1, r2, he⟩ | ⟨r1, r2, c, hc, k1, k2, e₁, e₂, a1, a2, a3, a4, a5⟩
      · refine ⟨[u], WkL.single he, fun nodes => ?_⟩
        constructor
        · unfold unpackFwd
          rw [idx_some hat.2.2]
          simp only [bind_okM]
          rw [isShortcut_edge r1 r2]
          simp [hb]
        · unfold unpackFwd
          rw [idx_some hat.2.2]
          simp only [bind_okM]
          rw [isShortcut_edge r1 r2]
          simp [hb]
      · obtain ⟨L₁, w1, u1⟩ := ih.2 c hc (by omega) _ _ a1
        obtain ⟨L₂, w2, u2⟩ := ih.1 c hc (by omega) _ _ a3
        rw [a2] at w1
        rw [a4] at w2
        refine ⟨L₁ ++ L₂, by rw [a5]; exact w1.append w2, fun nodes => ?_⟩
        constructor
        · unfold unpackFwd
          rw [idx_some hat.2.2]
          simp only [bind_okM]
          rw [isShortcut_shortcut r1 r2]
          simp [(u1 _).1, (u2 _).1]
        · unfold unpackFwd
          rw [idx_some hat.2.2]
          simp only [bind_okM]
          rw [isShortcut_shortcut r1 r2]
          simp [(u1 _).2, (u2 _).2]
    · intro u hu hk id ed hat
      obtain ⟨hb, _, _, hr⟩ := h.bwd u hu id ed hat
      rcases hr with ⟨r1, r2, he⟩ | ⟨r1, r2, c, hc, k1, k2, e₁, e₂, a1, a2, a3, a4, a5⟩
      · refine ⟨[ed.adjNode], WkL.single he, fun nodes => ?_⟩
        constructor
        · unfold unpackBwd
          rw [idx_some hat.2.2]
          simp only [bind_okM]
          rw [isShortcut_edge r1 r2]
          simp
        · unfold unpackBwd
          rw [idx_some hat.2.2]
          simp only [bind_okM]
          rw [isShortcut_edge r1 r2]
          simp
      · obtain ⟨L₁, w1, u1⟩ := ih.2 c hc (by omega) _ _ a1
        obtain ⟨L₂, w2, u2⟩ := ih.1 c hc (by omega) _ _ a3
        rw [a2] at w1
        rw [a4] at w2
        refine ⟨L₁ ++ L₂, by rw [a5]; exact w1.append w2, fun nodes => ?_⟩
        constructor
        · unfold unpackBwd
          rw [idx_some hat.2.2]
          simp only [bind_okM]
          rw [isShortcut_shortcut r1 r2]
          simp [(u1 _).1, (u2 _).1]
        · unfold unpackBwd
          rw [idx_some hat.2.2]
          simp only [bind_okM]
          rw [isShortcut_shortcut r1 r2]
          simp [(u1 _).2, (u2 _).2]

/-- Following the forward parents. -/
theorem walkFwd_ok (h : FSound P E n fg) {roots : List (Nat × Nat)} {s : Side pq}
    (hlab : ∀ x d, s.look x = some d → Trace P n fg roots s.look x d) :
    ∀ fuel x d, s.look x = some d → fg.rk x < fuel → ∃ r wr a L, (r, wr) ∈ roots ∧ WkL E r x a L ∧ wr + a ≤ d.weight ∧
      ∀ result, walkFwd P fg s fuel result x = .ok (result ++ L.reverse) := by
  intro fuel
  induction fuel with
  | zero => intro x d _ h; omega
  | succ fuel ih =>
    intro x d hx hk
    rcases hlab x d hx with ⟨h1, _, h3⟩ | ⟨h1, h2, ed, h3, h4, dp, h5, h6⟩
    · refine ⟨x, d.weight, 0, [], h3, .nil x, by omega, fun result => ?_⟩
      unfold walkFwd
      rw [idx_of_look hx]
      simp [h1, Plat.INVALID_EDGE]
    · obtain ⟨_, _, g3, _⟩ := h.fwd _ h2 _ _ h3
      rw [h4] at g3
      obtain ⟨r, wr, a, L, k1, k2, k3, k4⟩ := ih d.parent dp h5 (by omega)
      obtain ⟨L₁, w1, u1⟩ := (unpack_ok h (unpackFuel fg)).1 d.parent h2
        (by unfold unpackFuel; rw [h.num]; have := h.rk_lt _ h2; omega) _ _ h3
      rw [h4] at w1
      refine ⟨r, wr, a + ed.weight, L ++ L₁, k1, k2.append w1, by omega, fun result => ?_⟩
      unfold walkFwd
      rw [idx_of_look hx]
      simp [h1, Plat.INVALID_EDGE, (u1 _).2, k4]

/-- Following the backward parents. -/
theorem walkBwd_ok (h : FSound P E n fg) {roots : List (Nat × Nat)} {s : Side pq}
    (hlab : ∀ x d, s.look x = some d → Trace P n fg.flip roots s.look x d) :
    ∀ fuel x d, s.look x = some d → fg.rk x < fuel → ∃ t wt a L, (t, wt) ∈ roots ∧ WkL E x t a L ∧ wt + a ≤ d.weight ∧
      ∀ result, walkBwd P fg s fuel result x = .ok (result ++ L ++ [t]) := by
  intro fuel
  induction fuel with
  | zero => intro x d _ h; omega
  | succ fuel ih =>
    intro x d hx hk
    rcases hlab x d hx with ⟨h1, _, h3⟩ | ⟨h1, h2, ed, h3, h4, dp, h5, h6⟩
    · refine ⟨x, d.weight, 0, [], h3, .nil x, by omega, fun result => ?_⟩
      unfold walkBwd
      rw [idx_of_look hx]
      simp [h1, Plat.INVALID_EDGE]
    · have h3' : fg.InAt d.parent d.incEdge ed := h3
      obtain ⟨_, _, g3, _⟩ := h.bwd _ h2 _ _ h3'
      rw [h4] at g3
      obtain ⟨r, wr, a, L, k1, k2, k3, k4⟩ := ih d.parent dp h5 (by omega)
      obtain ⟨L₁, w1, u1⟩ := (unpack_ok h (unpackFuel fg)).2 d.parent h2
        (by unfold unpackFuel; rw [h.num]; have := h.rk_lt _ h2; omega) _ _ h3'
      rw [h4] at w1
      refine ⟨r, wr, ed.weight + a, L₁ ++ L, k1, w1.append k2, by omega, fun result => ?_⟩
      unfold walkBwd
      rw [idx_of_look hx]
      simp [h1, Plat.INVALID_EDGE, (u1 _).1, k4]

/-! ### Initial meeting node -/

/-- State of `initialMeeting`. -/
def MeetOk (P : Plat) (starts ends : List (Nat × Nat)) (st : Nat × Nat) : Prop :=
  st.1 ≤ P.umax ∧ (st.2 = P.umax → st.1 = P.umax) ∧
  (st.2 ≠ P.umax → st.1 < P.umax ∧ ∃ ws wt, (st.2, ws) ∈ starts ∧ (st.2, wt) ∈ ends ∧ ws < P.umax ∧ wt < P.umax ∧
    ws + wt = st.1)

theorem initialMeeting_ok (hP : P.checked = true) {starts ends : List (Nat × Nat)} (hs : ∀ x ∈ starts, x.1 < P.umax) :
    Tri (initialMeeting P starts ends) (MeetOk P starts ends) := by
  unfold initialMeeting
  refine Tri_forM' (MeetOk P starts ends) ⟨Nat.le_refl _, fun _ => rfl, fun h => absurd rfl h⟩ ?_
  intro st s hs' hI
  refine Tri_forM' (MeetOk P starts ends) hI ?_
  intro st e he hI
  unfold pairStep
  by_cases hc : (s.1 == e.1 && decide (s.2 < P.WEIGHT_MAX) && decide (e.2 < P.WEIGHT_MAX)) = true
  · rw [if_pos hc]
    simp only [Bool.and_eq_true, beq_iff_eq, Plat.WEIGHT_MAX] at hc
    obtain ⟨⟨h1, h2⟩, h3⟩ := hc
    refine Tri.bind (Tri_addW hP _ _) ?_
    rintro w ⟨rfl, hw⟩
    by_cases hlt : s.2 + e.2 < st.1
    · rw [if_pos hlt]
      have := hs s hs'
      refine ⟨hw, ?_, ?_⟩
      · intro h; simp only at h; omega
      · intro _
        have := hI.1
        exact ⟨by simp only; omega, s.2, e.2, by simp only; rw [← h1]; exact hs', he, of_decide_eq_true h2, of_decide_eq_true h3, rfl⟩
    · rw [if_neg hlt]; exact hI
  · rw [if_neg hc]; exact hI

/-! ### The complete query -/

/-- Usable calculator for graphs with `n` nodes. -/
structure CalcOk (n : Nat) (c : PathCalculator pq) : Prop where
  num : c.numNodes = n
  f : c.fwd.Base n
  b : c.bwd.Base n

theorem CalcOk.new (P : Plat) (pq : PQ) (n : Nat) : CalcOk n (PathCalculator.new P pq n) :=
  ⟨rfl, Side.Base.new P pq n, Side.Base.new P pq n⟩

/-- `r` is a correct answer. -/
def Answer (P : Plat) (E : EdgeRel) (starts ends : List (Nat × Nat)) : Option ShortestPath → Prop
  | none => ∀ total, HasRoute E starts ends total → P.umax ≤ total
  | some p => p.weight < P.umax ∧ (∃ ws wt w, (p.source, ws) ∈ starts ∧ (p.target, wt) ∈ ends ∧ IsWalk E p.nodes w ∧
      p.nodes.head? = some p.source ∧ p.nodes.getLast? = some p.target ∧ p.weight = ws + w + wt) ∧
      ∀ total, HasRoute E starts ends total → p.weight ≤ total

theorem exists_bound (P : Plat) (E : EdgeRel) (starts ends : List (Nat × Nat)) :
    ∃ D, D ≤ P.umax ∧ RouteLB E starts ends D ∧ (D < P.umax → ∃ s ws t wt w, (s, ws) ∈ starts ∧ (t, wt) ∈ ends ∧
      Wk E s t w ∧ ws + w + wt = D) ∨ (D = P.umax ∧ RouteLB E starts ends D) := by
  classical
  by_cases h : ∃ D, D < P.umax ∧ ∃ s ws t wt w, (s, ws) ∈ starts ∧ (t, wt) ∈ ends ∧ Wk E s t w ∧ ws + w + wt = D
  · refine ⟨Nat.find h, Or.inl ⟨Nat.le_of_lt (Nat.find_spec h).1, ?_, fun _ => (Nat.find_spec h).2⟩⟩
    intro s ws t wt w h1 h2 h3
    by_contra hc
    have := (Nat.find_spec h).1
    exact Nat.find_min h (m := ws + w + wt) (by omega) ⟨by omega, s, ws, t, wt, w, h1, h2, h3, rfl⟩
  · refine ⟨P.umax, Or.inr ⟨rfl, ?_⟩⟩
    intro s ws t wt w h1 h2 h3
    by_contra hc
    exact h ⟨ws + w + wt, by omega, s, ws, t, wt, w, h1, h2, h3, rfl⟩

theorem checkArgs_ok {c : PathCalculator pq} (hnum : fg.numNodes = c.numNodes) {starts ends : List (Nat × Nat)}
    (h1 : starts ≠ []) (h2 : ends ≠ []) (h3 : ∀ x ∈ starts, x.1 < c.numNodes) (h4 : ∀ x ∈ ends, x.1 < c.numNodes) :
    checkArgs c fg starts ends = .ok () := by
  unfold checkArgs
  rw [assertM_of (by simp [FastGraph.getNumNodes, hnum]), assertM_of (by simpa using h1), assertM_of (by simpa using h2),
    assertM_of (by simpa using fun a b => h3 (a, b)), assertM_of (by simpa using fun a b => h4 (a, b))]
  rfl

/-- The state in which the main loop starts. -/
theorem init_ok (hP : P.checked = true) (h : FSound P E n fg) {c : PathCalculator pq} (hc : CalcOk n c)
    {starts ends : List (Nat × Nat)} (h3 : ∀ x ∈ starts, x.1 < n) (h4 : ∀ x ∈ ends, x.1 < n) :
    Tri (initialMeeting P starts ends) (fun bm => ∃ fwd bwd D,
      forM (Side.addRoot P) c.fwd.clear starts = .ok fwd ∧ forM (Side.addRoot P) c.bwd.clear ends = .ok bwd ∧
      (D ≤ P.umax ∧ RouteLB E starts ends D ∧ (D < P.umax → ∃ s ws t wt w, (s, ws) ∈ starts ∧ (t, wt) ∈ ends ∧
        Wk E s t w ∧ ws + w + wt = D) ∨ (D = P.umax ∧ RouteLB E starts ends D)) ∧
      QInv2 P E n fg starts ends D (⟨fwd, bwd, bm.1, bm.2⟩ : QS pq) ∧
      smeas n fg fwd + smeas n fg.flip bwd <
        starts.length + ends.length + fg.edgesFwd.length + fg.edgesBwd.length + 1) := by
  have hg := h.toSGood
  have hnl := h.n_lt
  refine Tri.mono (initialMeeting_ok hP (fun x hx => by have := h3 x hx; omega)) ?_
  rintro ⟨best, meet⟩ ⟨m1, m2, m3⟩
  simp only at m1 m2 m3 ⊢
  obtain ⟨fwd, ef, rf⟩ := addRoots_ok (P := P) (fg := fg) h3 (RootInv.clear hc.f)
  obtain ⟨bwd, eb, rb⟩ := addRoots_ok (P := P) (fg := fg.flip) h4 (RootInv.clear hc.b)
  obtain ⟨D, hDD⟩ := exists_bound P E starts ends
  have hDle : D ≤ P.umax := by rcases hDD with h | h <;> omega
  have hlb : RouteLB E starts ends D := by
    rcases hDD with h | h
    · exact h.2.1
    · exact h.2
  have hpair : Pair P E starts ends D (⟨fwd, bwd, best, meet⟩ : QS pq) := by
    refine ⟨?_, m1, m2, ?_, ?_⟩
    · simp only
      by_cases hm : meet = P.umax
      · have := m2 hm; omega
      · obtain ⟨_, ws, wt, k1, k2, _, _, k5⟩ := m3 hm
        have := hlb _ _ _ _ _ k1 k2 (.nil _)
        omega
    · intro hm
      obtain ⟨k0, ws, wt, k1, k2, k3, k4, k5⟩ := m3 hm
      obtain ⟨d, q1, q2⟩ := rf.root _ _ k1 k3
      obtain ⟨d', q3, q4⟩ := rb.root _ _ k2 k4
      exact ⟨k0, d, d', q1, q3, by simp only; omega⟩
    · intro x d d' k1 k2
      have := (rf.lab x d k1).2.2.1
      rw [k2] at this; cases this
  refine ⟨fwd, bwd, D, ef, eb, hDD, ⟨rf.sinv D, rb.sinv D, hpair⟩, ?_⟩
  have q1 := smeas_le hg.toShape fwd
  have q2 := smeas_le hg.toShape.flip bwd
  have q3 := rf.len
  have q4 := rb.len
  have q5 : fg.flip.edgesFwd.length = fg.edgesBwd.length := rfl
  omega

theorem linear_le_mainFuel (fg : FastGraph) (starts ends : List (Nat × Nat)) :
    starts.length + ends.length + fg.edgesFwd.length + fg.edgesBwd.length + 1 ≤ mainFuel fg starts ends := by
  have q6 := Nat.le_mul_of_pos_left (fg.edgesFwd.length + fg.edgesBwd.length) (Nat.succ_pos fg.numNodes)
  simp only [Nat.succ_eq_add_one] at q6
  unfold mainFuel
  omega

/-- A label stands for a walk over stored edges. -/
theorem trace_up (hg : SGood P E n fg) {roots : List (Nat × Nat)} {look : Nat → Option PData}
    (hlab : ∀ x d, look x = some d → Trace P n fg roots look x d) :
    ∀ k x d, fg.rk x < k → look x = some d → ∃ r wr a, (r, wr) ∈ roots ∧ Wk fg.FE r x a ∧ wr + a ≤ d.weight := by
  intro k
  induction k with
  | zero => intro x d h; omega
  | succ k ih =>
    intro x d hk hl
    rcases hlab x d hl with ⟨_, _, h3⟩ | ⟨_, h2, ed, h3, h4, dp, h5, h6⟩
    · exact ⟨x, d.weight, 0, h3, .nil x, by omega⟩
    · obtain ⟨g1, g2, g3⟩ := hg.up _ h2 _ _ h3
      rw [h4] at g2 g3
      obtain ⟨r, wr, a, k1, k2, k3⟩ := ih d.parent dp (by omega) h5
      exact ⟨r, wr, a + ed.weight, k1, k2.snoc ⟨_, ed, h3, h4, rfl⟩, by omega⟩

/-- What a query on a graph with sound edges returns: a path that is at most as heavy as reported, with an up-down path of at most this
weight; and if a lightest route has an up-down path, a path of its weight is found. -/
theorem calcPathMulti_core (hP : P.checked = true) (h : FSound P E n fg) {c : PathCalculator pq} (hc : CalcOk n c)
    {starts ends : List (Nat × Nat)} (h1 : starts ≠ []) (h2 : ends ≠ []) (h3 : ∀ x ∈ starts, x.1 < n)
    (h4 : ∀ x ∈ ends, x.1 < n) :
    Tri (calcPathMulti P c fg starts ends) (fun r => CalcOk n r.1 ∧
      (∀ p, r.2 = some p → p.weight < P.umax ∧
        (∃ ws wt w, (p.source, ws) ∈ starts ∧ (p.target, wt) ∈ ends ∧ IsWalk E p.nodes w ∧
          p.nodes.head? = some p.source ∧ p.nodes.getLast? = some p.target ∧ ws + w + wt ≤ p.weight) ∧
        ∃ s ws t wt w, (s, ws) ∈ starts ∧ (t, wt) ∈ ends ∧ UpDown fg.FE fg.BE s t w ∧ ws + w + wt ≤ p.weight) ∧
      ∀ s ws t wt w, (s, ws) ∈ starts → (t, wt) ∈ ends → ws + w + wt < P.umax → RouteLB E starts ends (ws + w + wt) →
        Wk E s t w → UpDown fg.FE fg.BE s t w → ∃ p, r.2 = some p ∧ p.weight ≤ ws + w + wt) := by
  have hg := h.toSGood
  simp only [calcPathMulti]
  rw [checkArgs_ok (by rw [h.num, hc.num]) h1 h2 (by rw [hc.num]; exact h3) (by rw [hc.num]; exact h4)]
  simp only [bind_okM]
  refine Tri.bind (init_ok hP h hc h3 h4) ?_
  rintro ⟨best, meet⟩ ⟨fwd, bwd, D, ef, eb, hDD, hinv, hfuel⟩
  simp only at hinv ⊢
  rw [ef, eb]
  simp only [bind_okM]
  have hlb : RouteLB E starts ends D := by
    rcases hDD with h | h
    · exact h.2.1
    · exact h.2
  have hfuel := Nat.lt_of_lt_of_le hfuel (linear_le_mainFuel fg starts ends)
  refine Tri.bind (mainLoop_ok hP hg hlb _ _ hinv hfuel) ?_
  rintro st ⟨hI, he1, he2⟩
  have hcok : CalcOk n ({ c with fwd := st.fwd, bwd := st.bwd } : PathCalculator pq) := ⟨hc.num, hI.f.tab, hI.b.tab⟩
  have hbest : ∀ s ws t wt w, (s, ws) ∈ starts → (t, wt) ∈ ends → ws + w + wt < P.umax →
      RouteLB E starts ends (ws + w + wt) → Wk E s t w → UpDown fg.FE fg.BE s t w → st.best ≤ ws + w + wt := by
    intro s ws t wt w k1 k2 k3 k4 k5 k6
    have hge := hlb _ _ _ _ _ k1 k2 k5
    rcases hDD with ⟨_, _, hex⟩ | ⟨hu, _⟩
    · obtain ⟨s', ws', t', wt', w', q1, q2, q3, q4⟩ := hex (by omega)
      have := k4 _ _ _ _ _ q1 q2 q3
      have hD : ws + w + wt = D := by omega
      rw [hD]
      exact hI.best_le hg he1 he2 hlb (by omega) h3 h4 k1 k2 hD k6
    · omega
  by_cases hm : st.meet = P.umax
  · rw [if_pos (by simpa [Plat.INVALID_NODE] using hm)]
    refine ⟨hcok, fun p hp => (by cases hp), ?_⟩
    intro s ws t wt w k1 k2 k3 k4 k5 k6
    have hb := hI.p.meetNone hm
    have := hbest s ws t wt w k1 k2 k3 k4 k5 k6
    omega
  · rw [if_neg (by simpa [Plat.INVALID_NODE] using hm)]
    obtain ⟨hlt, d, d', l1, l2, l3⟩ := hI.p.meetSome hm
    rw [assertM_of (c := decide (st.best < P.WEIGHT_MAX)) (decide_eq_true hlt)]
    simp only [bind_okM]
    have hmn : st.meet < n := hI.f.tab.look_lt l1
    have hrk := h.rk_lt _ hmn
    obtain ⟨r, wr, a, L, f1, f2, f3, f4⟩ := walkFwd_ok h hI.f.lab (fg.numNodes + 1)
      st.meet d l1 (by rw [h.num]; omega)
    obtain ⟨t, wt, b, L', b1, b2, b3, b4⟩ := walkBwd_ok h hI.b.lab (fg.numNodes + 1)
      st.meet d' l2 (by rw [h.num]; omega)
    obtain ⟨us, uws, ua, u1, u2, u3⟩ := trace_up hg hI.f.lab _ _ _ (Nat.lt_succ_self _) l1
    obtain ⟨ut, uwt, ub, v1, v2, v3⟩ := trace_up hg.flip hI.b.lab _ _ _ (Nat.lt_succ_self _) l2
    have hwalk := f2.append b2
    have hex : extractNodes P fg st.fwd st.bwd st.meet = .ok (L ++ L' ++ [t]) := by
      unfold extractNodes
      rw [assertM_of (by simpa [Plat.INVALID_NODE] using hm), hI.f.tab.isValid_some l1, hI.b.tab.isValid_some l2]
      simp only [bind_okM, assertM_true]
      rw [f4]
      simp only [bind_okM, List.nil_append, List.reverse_reverse]
      rw [b4]
    rw [hex]
    simp only [bind_okM]
    rw [assertM_of (by simp)]
    simp only [bind_okM]
    obtain ⟨i1, i2, i3⟩ := hwalk.isWalk
    have hlast : (L ++ L' ++ [t])[(L ++ L' ++ [t]).length - 1]? = some t := by
      rw [← i3, List.getLast?_eq_getElem?]
    have hfirst : (L ++ L' ++ [t])[0]? = some r := by
      rw [← i2, List.head?_eq_getElem?]
    rw [idx_some hfirst]
    simp only [bind_okM]
    rw [idx_some hlast]
    simp only [bind_okM, Tri_ok]
    refine ⟨hcok, ?_, ?_⟩
    · intro p hp
      cases hp
      exact ⟨hlt, ⟨wr, wt, a + b, f1, b1, i1, i2, i3, by simp only; omega⟩,
        us, uws, ut, uwt, ua + ub, u1, v1, ⟨_, ua, ub, u2, v2, Nat.le_refl _⟩, by simp only; omega⟩
    · intro s ws t wt w k1 k2 k3 k4 k5 k6
      exact ⟨_, rfl, hbest s ws t wt w k1 k2 k3 k4 k5 k6⟩

/-- A query on a graph with sound edges in which light walks have up-down paths. -/
theorem calcPathMulti_complete (hP : P.checked = true) (h : FSound P E n fg) {c : PathCalculator pq} (hc : CalcOk n c)
    {starts ends : List (Nat × Nat)} (h1 : starts ≠ []) (h2 : ends ≠ []) (h3 : ∀ x ∈ starts, x.1 < n)
    (h4 : ∀ x ∈ ends, x.1 < n)
    (hcomplete : ∀ {s t w : Nat}, s < n → t < n → Wk E s t w → w < P.umax → UpDown fg.FE fg.BE s t w) :
    Tri (calcPathMulti P c fg starts ends) (fun r => CalcOk n r.1 ∧ Answer P E starts ends r.2) := by
  refine Tri.mono (calcPathMulti_core hP h hc h1 h2 h3 h4) ?_
  rintro ⟨c', r⟩ ⟨hcok, hsome, hfound⟩
  refine ⟨hcok, ?_⟩
  simp only at hsome hfound ⊢
  obtain ⟨D, hD⟩ := exists_bound P E starts ends
  have hlb : RouteLB E starts ends D := by
    rcases hD with h | h
    · exact h.2.1
    · exact h.2
  have hfound' : D < P.umax → ∃ p, r = some p ∧ p.weight ≤ D := by
    intro hlt
    rcases hD with ⟨_, _, hex⟩ | ⟨hu, _⟩
    · obtain ⟨s, ws, t, wt, w, k1, k2, k3, k4⟩ := hex hlt
      subst k4
      exact hfound s ws t wt w k1 k2 hlt hlb k3 (hcomplete (h3 _ k1) (h4 _ k2) k3 (by omega))
    · omega
  have hroutes : ∀ total, HasRoute E starts ends total → D ≤ total := by
    rintro total ⟨s, ws, t, wt, w, k1, k2, k3, rfl⟩
    exact hlb _ _ _ _ _ k1 k2 (hasWalk_iff.1 k3)
  cases r with
  | none =>
    intro total ht
    have := hroutes total ht
    by_contra hcon
    obtain ⟨p, hp, _⟩ := hfound' (by omega)
    cases hp
  | some p =>
    obtain ⟨hlt, ⟨ws, wt, w, k1, k2, k3, k4, k5, k6⟩, _⟩ := hsome p rfl
    have hge := hlb _ _ _ _ _ k1 k2 (hasWalk_iff.1 ⟨p.nodes, k3, k4, k5⟩)
    obtain ⟨p', hp, hle⟩ := hfound' (by omega)
    cases hp
    exact ⟨hlt, ⟨ws, wt, w, k1, k2, k3, k4, k5, by omega⟩, fun total ht => by have := hroutes total ht; omega⟩

/-- **Correctness of a query** on a correct fast graph, whatever earlier queries left in the calculator. -/
theorem calcPathMulti_ok (hP : P.checked = true) (h : FGood P E n fg) {c : PathCalculator pq} (hc : CalcOk n c)
    {starts ends : List (Nat × Nat)} (h1 : starts ≠ []) (h2 : ends ≠ []) (h3 : ∀ x ∈ starts, x.1 < n)
    (h4 : ∀ x ∈ ends, x.1 < n) :
    Tri (calcPathMulti P c fg starts ends) (fun r => CalcOk n r.1 ∧ Answer P E starts ends r.2) :=
  calcPathMulti_complete hP h.toFSound hc h1 h2 h3 h4 h.complete

end FP
