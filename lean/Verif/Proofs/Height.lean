import Verif.Proofs.Api
import Verif.Proofs.Convert
import Verif.Proofs.UnpackWork
import Verif.SpecHeight
set_option autoImplicit false
/-! # Chains of stored edges: helper lemmas for C126 -/
namespace FP
open Spec Side PathCalculator

variable {pq : PQ} {P : Plat} {n : Nat} {fg : FastGraph} {E : EdgeRel}

theorem FSound.storedF (h : FSound P E n fg) {u id : Nat} (hu : u < n) {ed : FastGraphEdge} (hat : fg.OutAt u id ed) :
    fg.Stored u ed.adjNode :=
  ⟨ed, .inl (List.mem_of_getElem? hat.2.2), (h.fwd u hu id ed hat).1, rfl⟩

theorem FSound.storedB (h : FSound P E n fg) {u id : Nat} (hu : u < n) {ed : FastGraphEdge} (hat : fg.InAt u id ed) :
    fg.Stored u ed.adjNode :=
  ⟨ed, .inr (List.mem_of_getElem? hat.2.2), (h.bwd u hu id ed hat).1, rfl⟩

/-- The chains below the base node bound the depth of unpacking. -/
theorem unpack_depth (h : FSound P E n fg) : ∀ fuel,
    (∀ u < n, (∀ L, fg.Chain (u :: L) → L.length < fuel) → ∀ id ed, fg.OutAt u id ed → ∀ nodes rev,
      ∃ R, ∀ k, unpackFwd P fg (fuel + k) nodes id rev = .ok R) ∧
    (∀ u < n, (∀ L, fg.Chain (u :: L) → L.length < fuel) → ∀ id ed, fg.InAt u id ed → ∀ nodes rev,
      ∃ R, ∀ k, unpackBwd P fg (fuel + k) nodes id rev = .ok R) := by
  intro fuel
  induction fuel with
  | zero => exact ⟨fun u _ h => absurd (h [] trivial) (Nat.lt_irrefl _), fun u _ h => absurd (h [] trivial) (Nat.lt_irrefl _)⟩
  | succ fuel ih =>
    have down : ∀ u c, (∀ L, fg.Chain (u :: L) → L.length < fuel + 1) → fg.Stored c u → ∀ L, fg.Chain (c :: L) → L.length < fuel := by
      intro u c hu hs L hL
      have := hu (c :: L) ⟨hs, hL⟩
      simp only [List.length_cons] at this
      omega
    refine ⟨?_, ?_⟩
    · intro u hu hk id ed hat nodes rev
      obtain ⟨hb, _, _, hr⟩ := h.fwd u hu id ed hat
      rcases hr with ⟨r1, r2, he⟩ | ⟨r1, r2, c, hc, k1, k2, e₁, e₂, a1, a2, a3, a4, a5⟩
      · refine ⟨nodes ++ [ed.baseNode], fun k => ?_⟩
        rw [Nat.add_right_comm]
        unfold unpackFwd
        rw [idx_some hat.2.2]
        simp only [bind_okM]
        rw [isShortcut_edge r1 r2]
        simp
      · have hd := down u c hk (by rw [← a2]; exact h.storedB hc a1)
        have hB := ih.2 c hc hd _ _ a1
        have hF := ih.1 c hc hd _ _ a3
        cases rev with
        | false =>
          obtain ⟨R₁, u1⟩ := hB nodes false
          obtain ⟨R₂, u2⟩ := hF R₁ false
          refine ⟨R₂, fun k => ?_⟩
          rw [Nat.add_right_comm]
          unfold unpackFwd
          rw [idx_some hat.2.2]
          simp only [bind_okM]
          rw [isShortcut_shortcut r1 r2]
          simp [u1, u2]
        | true =>
          obtain ⟨R₁, u1⟩ := hF nodes true
          obtain ⟨R₂, u2⟩ := hB R₁ true
          refine ⟨R₂, fun k => ?_⟩
          rw [Nat.add_right_comm]
          unfold unpackFwd
          rw [idx_some hat.2.2]
          simp only [bind_okM]
          rw [isShortcut_shortcut r1 r2]
          simp [u1, u2]
    · intro u hu hk id ed hat nodes rev
      obtain ⟨hb, _, _, hr⟩ := h.bwd u hu id ed hat
      rcases hr with ⟨r1, r2, he⟩ | ⟨r1, r2, c, hc, k1, k2, e₁, e₂, a1, a2, a3, a4, a5⟩
      · refine ⟨nodes ++ [ed.adjNode], fun k => ?_⟩
        rw [Nat.add_right_comm]
        unfold unpackBwd
        rw [idx_some hat.2.2]
        simp only [bind_okM]
        rw [isShortcut_edge r1 r2]
        simp
      · have hd := down u c hk (by rw [← a4]; exact h.storedF hc a3)
        have hB := ih.2 c hc hd _ _ a1
        have hF := ih.1 c hc hd _ _ a3
        cases rev with
        | false =>
          obtain ⟨R₁, u1⟩ := hB nodes false
          obtain ⟨R₂, u2⟩ := hF R₁ false
          refine ⟨R₂, fun k => ?_⟩
          rw [Nat.add_right_comm]
          unfold unpackBwd
          rw [idx_some hat.2.2]
          simp only [bind_okM]
          rw [isShortcut_shortcut r1 r2]
          simp [u1, u2]
        | true =>
          obtain ⟨R₁, u1⟩ := hF nodes true
          obtain ⟨R₂, u2⟩ := hB R₁ true
          refine ⟨R₂, fun k => ?_⟩
          rw [Nat.add_right_comm]
          unfold unpackBwd
          rw [idx_some hat.2.2]
          simp only [bind_okM]
          rw [isShortcut_shortcut r1 r2]
          simp [u1, u2]

/-- Every turn of the first loop goes one edge down. -/
theorem walkFwdC_chain (h : FSound P E n fg) {roots : List (Nat × Nat)} {s : Side pq}
    (hlab : ∀ x d, s.look x = some d → Trace P n fg roots s.look x d) :
    ∀ fuel x d, s.look x = some d → ∀ nodes k tp R c t, walkFwdC P fg s fuel (nodes, k, tp) x = .ok (R, c, t) →
      ∃ L, fg.Chain (x :: L) ∧ t = tp + L.length := by
  intro fuel
  induction fuel with
  | zero => intro x d _ nodes k tp R c t h; cases h
  | succ fuel ih =>
    intro x d hx nodes k tp R c t hr
    simp only [walkFwdC] at hr
    rw [idx_of_look hx] at hr
    simp only [bind_okM] at hr
    rcases hlab x d hx with ⟨h1, _, h3⟩ | ⟨h1, h2, ed, h3, h4, dp, h5, h6⟩
    · rw [if_neg (by simp [h1, Plat.INVALID_EDGE])] at hr
      cases hr
      exact ⟨[], trivial, rfl⟩
    · rw [if_pos (by simp [h1, Plat.INVALID_EDGE])] at hr
      obtain ⟨⟨R₁, c₁⟩, _, hr⟩ := bind_eq_ok.1 hr
      obtain ⟨L, k1, k2⟩ := ih _ _ h5 _ _ _ _ _ _ hr
      exact ⟨d.parent :: L, ⟨by rw [← h4]; exact h.storedF h2 h3, k1⟩, by simp only [List.length_cons]; omega⟩

/-- Every turn of the second loop goes one edge down. -/
theorem walkBwdC_chain (h : FSound P E n fg) {roots : List (Nat × Nat)} {s : Side pq}
    (hlab : ∀ x d, s.look x = some d → Trace P n fg.flip roots s.look x d) :
    ∀ fuel x d, s.look x = some d → ∀ nodes k tp R c t, walkBwdC P fg s fuel (nodes, k, tp) x = .ok (R, c, t) →
      ∃ L, fg.Chain (x :: L) ∧ t = tp + L.length := by
  intro fuel
  induction fuel with
  | zero => intro x d _ nodes k tp R c t h; cases h
  | succ fuel ih =>
    intro x d hx nodes k tp R c t hr
    simp only [walkBwdC] at hr
    rw [idx_of_look hx] at hr
    simp only [bind_okM] at hr
    rcases hlab x d hx with ⟨h1, _, h3⟩ | ⟨h1, h2, ed, h3, h4, dp, h5, h6⟩
    · rw [if_neg (by simp [h1, Plat.INVALID_EDGE])] at hr
      cases hr
      exact ⟨[], trivial, rfl⟩
    · rw [if_pos (by simp [h1, Plat.INVALID_EDGE])] at hr
      obtain ⟨⟨R₁, c₁⟩, _, hr⟩ := bind_eq_ok.1 hr
      obtain ⟨L, k1, k2⟩ := ih _ _ h5 _ _ _ _ _ _ hr
      have h3' : fg.InAt d.parent d.incEdge ed := h3
      exact ⟨d.parent :: L, ⟨by rw [← h4]; exact h.storedB h2 h3', k1⟩, by simp only [List.length_cons]; omega⟩

/-- The edges of the search trees on a returned path are two chains that meet. -/
theorem calcPathMultiC_chains (hP : P.checked = true) (h : FSound P E n fg) {c c' : PathCalculator pq} (hc : CalcOk n c)
    {starts ends : List (Nat × Nat)} (h3 : ∀ x ∈ starts, x.1 < n) (h4 : ∀ x ∈ ends, x.1 < n)
    {p : ShortestPath} {calls tops : Nat} (hr : c.calcPathMultiC P fg starts ends = .ok ((c', some p), calls, tops)) :
    ∃ x L₁ L₂, fg.Chain (x :: L₁) ∧ fg.Chain (x :: L₂) ∧ tops = L₁.length + L₂.length := by
  have hg := h.toSGood
  unfold calcPathMultiC at hr
  obtain ⟨_, _, hr⟩ := bind_eq_ok.1 hr
  obtain ⟨⟨best, meet⟩, em, hr⟩ := bind_eq_ok.1 hr
  obtain ⟨fwd, ef, hr⟩ := bind_eq_ok.1 hr
  obtain ⟨bwd, eb, hr⟩ := bind_eq_ok.1 hr
  obtain ⟨st, es, hr⟩ := bind_eq_ok.1 hr
  have hi := init_ok hP h hc h3 h4
  rw [em] at hi
  obtain ⟨fwd', bwd', D, ef', eb', hDD, hinv, hfuel⟩ := hi
  rw [ef] at ef'
  rw [eb] at eb'
  cases ef'
  cases eb'
  have hlb : RouteLB E starts ends D := by
    rcases hDD with h | h
    · exact h.2.1
    · exact h.2
  have hm := mainLoop_ok hP hg hlb _ _ hinv (Nat.lt_of_lt_of_le hfuel (linear_le_mainFuel fg starts ends))
  rw [es] at hm
  obtain ⟨hI, _, _⟩ := hm
  simp only at hr
  split at hr
  · cases hr
  · rename_i hne
    obtain ⟨_, _, hr⟩ := bind_eq_ok.1 hr
    obtain ⟨⟨nodes, calls', tops'⟩, ex, hr⟩ := bind_eq_ok.1 hr
    have ht : tops' = tops := by
      obtain ⟨_, _, hr⟩ := bind_eq_ok.1 hr
      obtain ⟨_, _, hr⟩ := bind_eq_ok.1 hr
      obtain ⟨_, _, hr⟩ := bind_eq_ok.1 hr
      cases hr
      rfl
    obtain ⟨_, d, d', l1, l2, _⟩ := hI.p.meetSome (by simpa [Plat.INVALID_NODE] using hne)
    unfold extractNodesC at ex
    obtain ⟨_, _, ex⟩ := bind_eq_ok.1 ex
    obtain ⟨_, _, ex⟩ := bind_eq_ok.1 ex
    obtain ⟨_, _, ex⟩ := bind_eq_ok.1 ex
    obtain ⟨_, _, ex⟩ := bind_eq_ok.1 ex
    obtain ⟨_, _, ex⟩ := bind_eq_ok.1 ex
    obtain ⟨⟨R, c₁, t₁⟩, e1, ex⟩ := bind_eq_ok.1 ex
    obtain ⟨L₁, k1, k2⟩ := walkFwdC_chain h hI.f.lab _ _ _ l1 _ _ _ _ _ _ e1
    obtain ⟨L₂, k3, k4⟩ := walkBwdC_chain h hI.b.lab _ _ _ l2 _ _ _ _ _ _ ex
    exact ⟨_, L₁, L₂, k1, k3, by omega⟩

end FP
