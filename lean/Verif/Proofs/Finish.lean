import Verif.Proofs.FastGraph
/-! # `finish_contraction` resolves all shortcuts -/
namespace FP
open Spec

variable {P : Plat} {n : Nat}

theorem set_eq_self {α : Type} {l : List α} {i : Nat} {a : α} (h : l[i]? = some a) : l.set i a = l := by
  apply List.ext_getElem?
  intro j
  rw [List.getElem?_set]
  split
  · rename_i hij
    subst hij
    split
    · exact h.symm
    · rename_i hl
      rw [List.getElem?_eq_none (by omega)] at h
      cases h
  · rfl

/-- Loop invariant: node `i`, edge `k` is next. -/
structure FinInvFwd (P : Plat) (E : EdgeRel) (n : Nat) (fg₀ : FastGraph) (oth : List FastGraphEdge) (i k : Nat) (fg : FastGraph) : Prop where
  core : SameCore fg₀ fg
  other : fg.edgesBwd = oth
  done : ∀ u < n, ∀ id ed, fg.OutAt u id ed → (u < i ∨ (u = i ∧ id < k)) →
    Resolved P E n fg₀ u ed.adjNode ed.weight ed.replacedInEdge ed.replacedOutEdge
  todo : ∀ u < n, ∀ id ed, fg.OutAt u id ed → ¬ (u < i ∨ (u = i ∧ id < k)) → fg₀.OutAt u id ed

theorem finInvFwd_set {E : EdgeRel} {fg₀ fg : FastGraph} {oth : List FastGraphEdge} (h₀ : FPre P E n fg₀) {i k : Nat} (hi : i < n)
    (h : FinInvFwd P E n fg₀ oth i k fg) {ed ed' : FastGraphEdge} (he : fg.OutAt i k ed) (hcore : ed'.core = ed.core)
    (hr : Resolved P E n fg₀ i ed'.adjNode ed'.weight ed'.replacedInEdge ed'.replacedOutEdge) :
    FinInvFwd P E n fg₀ oth i (k + 1) { fg with edgesFwd := fg.edgesFwd.set k ed' } := by
  have hk : k < fg.edgesFwd.length := by
    have := he.2.2
    by_contra hc
    rw [List.getElem?_eq_none (by omega)] at this
    cases this
  have hc1 : SameCore fg { fg with edgesFwd := fg.edgesFwd.set k ed' } := by
    refine ⟨rfl, rfl, rfl, rfl, ?_, ?_⟩
    · rw [List.map_set, hcore]
      have : (fg.edgesFwd.map FastGraphEdge.core)[k]? = some ed.core := by simp [he.2.2]
      rw [set_eq_self this]
    · rfl
  have hbase : ∀ u < n, ∀ ed, fg.OutAt u k ed → u = i := by
    intro u hu ed₁ h₁
    obtain ⟨e₂, h₂, c₂⟩ := h.core.symm.outAt h₁
    obtain ⟨e₃, h₃, c₃⟩ := h.core.symm.outAt he
    have b₂ := (h₀.fwd u hu _ _ h₂).1
    have b₃ := (h₀.fwd i hi _ _ h₃).1
    have : e₂ = e₃ := by have := h₂.2.2.symm.trans h₃.2.2; cases this; rfl
    rw [← b₂, this, b₃]
  have hcase : ∀ u < n, ∀ id e, FastGraph.OutAt { fg with edgesFwd := fg.edgesFwd.set k ed' } u id e →
      (id = k ∧ u = i ∧ e = ed') ∨ (id ≠ k ∧ fg.OutAt u id e) := by
    intro u hu id e hat
    obtain ⟨h1, h2, h3⟩ := hat
    have h1' : fg.bo u ≤ id := h1
    have h2' : id < fg.eo u := h2
    simp only at h3
    rw [getElem?_set' hk] at h3
    by_cases hid : k = id
    · rw [if_pos hid] at h3
      cases h3
      subst hid
      exact Or.inl ⟨rfl, hbase u hu _ ⟨h1', h2', he.2.2⟩, rfl⟩
    · rw [if_neg hid] at h3
      exact Or.inr ⟨fun x => hid x.symm, h1', h2', h3⟩
  refine ⟨h.core.trans hc1, h.other, ?_, ?_⟩
  · intro u hu id e hat hd
    rcases hcase u hu id e hat with ⟨rfl, rfl, rfl⟩ | ⟨hne, hat'⟩
    · exact hr
    · exact h.done u hu id e hat' (by omega)
  · intro u hu id e hat hd
    rcases hcase u hu id e hat with ⟨rfl, rfl, rfl⟩ | ⟨hne, hat'⟩
    · omega
    · exact h.todo u hu id e hat' (by omega)

theorem finishFwdEdge_ok {E : EdgeRel} {fg₀ fg : FastGraph} {oth : List FastGraphEdge} (h₀ : FPre P E n fg₀) {i k : Nat} (hi : i < n)
    (hb : fg₀.bo i ≤ k) (he : k < fg₀.eo i) (h : FinInvFwd P E n fg₀ oth i k fg) :
    Tri (finishFwdEdge P i fg k) (FinInvFwd P E n fg₀ oth i (k + 1)) := by
  have hsh := h.core.shape h₀.toShape
  obtain ⟨ed, hat⟩ := hsh.outAt hi (id := k) (by rw [h.core.bo]; exact hb) (by rw [h.core.eo]; exact he)
  have hat₀ := h.todo i hi k ed hat (by omega)
  obtain ⟨f1, f2, f3, f4, f5⟩ := h₀.fwd i hi k ed hat₀
  unfold finishFwdEdge
  rw [idx_some hat.2.2]
  simp only [bind_okM]
  by_cases hc : ed.replacedInEdge = P.umax
  · rw [if_pos (by simpa [Plat.INVALID_NODE] using hc), debugAssertM_of (by simp [f4, Plat.INVALID_EDGE])]
    simp only [bind_okM, Tri_ok]
    refine finInvFwd_set h₀ hi h hat (by rfl) (Or.inl ⟨rfl, f4, ?_⟩)
    rcases f5 with f5 | f5
    · exact f5.2
    · have := f5.1; have := h₀.n_lt; omega
  · rw [if_neg (by simpa [Plat.INVALID_NODE] using hc)]
    obtain ⟨a, b, g1, g2, g3⟩ := resolve_ok h₀ h.core f5 hc
    rw [g1, g2]
    simp only [bind_okM, Tri_ok]
    exact finInvFwd_set h₀ hi h hat (by rfl) g3

theorem finishFwdNode_ok {E : EdgeRel} {fg₀ fg : FastGraph} {oth : List FastGraphEdge} (h₀ : FPre P E n fg₀) {i : Nat} (hi : i < n)
    (h : FinInvFwd P E n fg₀ oth i 0 fg) : Tri (finishFwdNode P fg i) (FinInvFwd P E n fg₀ oth (i + 1) 0) := by
  have hsh := h.core.shape h₀.toShape
  unfold finishFwdNode
  rw [hsh.beginOut hi, hsh.endOut hi]
  simp only [bind_okM, rangeFrom]
  refine Tri.mono (Tri_forM_range' (hsh.bo_le hi) (FinInvFwd P E n fg₀ oth i) ?_ ?_) ?_
  · refine ⟨h.core, h.other, ?_, ?_⟩
    · intro u hu id ed hat hd
      refine h.done u hu id ed hat ?_
      rcases hd with hd | ⟨rfl, hd⟩
      · exact Or.inl hd
      · have := hat.1; omega
    · intro u hu id ed hat hd
      exact h.todo u hu id ed hat (by omega)
  · intro k fg' h1 h2 h'
    rw [h.core.bo] at h1
    rw [h.core.eo] at h2
    exact finishFwdEdge_ok h₀ hi h1 h2 h'
  · intro fg' h'
    refine ⟨h'.core, h'.other, ?_, ?_⟩
    · intro u hu id ed hat hd
      refine h'.done u hu id ed hat ?_
      rcases Nat.lt_or_ge u i with h1 | h1
      · exact Or.inl h1
      · have hui : u = i := by omega
        subst hui
        have := hat.2.1
        rw [h'.core.eo] at this
        rw [h.core.eo]
        exact Or.inr ⟨rfl, this⟩
    · intro u hu id ed hat hd
      exact h'.todo u hu id ed hat (by omega)

/-- Loop invariant: node `i`, edge `k` is next. -/
structure FinInvBwd (P : Plat) (E : EdgeRel) (n : Nat) (fg₀ : FastGraph) (oth : List FastGraphEdge) (i k : Nat) (fg : FastGraph) : Prop where
  core : SameCore fg₀ fg
  other : fg.edgesFwd = oth
  done : ∀ u < n, ∀ id ed, fg.InAt u id ed → (u < i ∨ (u = i ∧ id < k)) →
    Resolved P E n fg₀ ed.adjNode u ed.weight ed.replacedInEdge ed.replacedOutEdge
  todo : ∀ u < n, ∀ id ed, fg.InAt u id ed → ¬ (u < i ∨ (u = i ∧ id < k)) → fg₀.InAt u id ed

theorem finInvBwd_set {E : EdgeRel} {fg₀ fg : FastGraph} {oth : List FastGraphEdge} (h₀ : FPre P E n fg₀) {i k : Nat} (hi : i < n)
    (h : FinInvBwd P E n fg₀ oth i k fg) {ed ed' : FastGraphEdge} (he : fg.InAt i k ed) (hcore : ed'.core = ed.core)
    (hr : Resolved P E n fg₀ ed'.adjNode i ed'.weight ed'.replacedInEdge ed'.replacedOutEdge) :
    FinInvBwd P E n fg₀ oth i (k + 1) { fg with edgesBwd := fg.edgesBwd.set k ed' } := by
  have hk : k < fg.edgesBwd.length := by
    have := he.2.2
    by_contra hc
    rw [List.getElem?_eq_none (by omega)] at this
    cases this
  have hc1 : SameCore fg { fg with edgesBwd := fg.edgesBwd.set k ed' } := by
    refine ⟨rfl, rfl, rfl, rfl, ?_, ?_⟩
    · rfl
    · rw [List.map_set, hcore]
      have : (fg.edgesBwd.map FastGraphEdge.core)[k]? = some ed.core := by simp [he.2.2]
      rw [set_eq_self this]
  have hbase : ∀ u < n, ∀ ed, fg.InAt u k ed → u = i := by
    intro u hu ed₁ h₁
    obtain ⟨e₂, h₂, c₂⟩ := h.core.symm.inAt h₁
    obtain ⟨e₃, h₃, c₃⟩ := h.core.symm.inAt he
    have b₂ := (h₀.bwd u hu _ _ h₂).1
    have b₃ := (h₀.bwd i hi _ _ h₃).1
    have : e₂ = e₃ := by have := h₂.2.2.symm.trans h₃.2.2; cases this; rfl
    rw [← b₂, this, b₃]
  have hcase : ∀ u < n, ∀ id e, FastGraph.InAt { fg with edgesBwd := fg.edgesBwd.set k ed' } u id e →
      (id = k ∧ u = i ∧ e = ed') ∨ (id ≠ k ∧ fg.InAt u id e) := by
    intro u hu id e hat
    obtain ⟨h1, h2, h3⟩ := hat
    have h1' : fg.bi u ≤ id := h1
    have h2' : id < fg.ei u := h2
    simp only at h3
    rw [getElem?_set' hk] at h3
    by_cases hid : k = id
    · rw [if_pos hid] at h3
      cases h3
      subst hid
      exact Or.inl ⟨rfl, hbase u hu _ ⟨h1', h2', he.2.2⟩, rfl⟩
    · rw [if_neg hid] at h3
      exact Or.inr ⟨fun x => hid x.symm, h1', h2', h3⟩
  refine ⟨h.core.trans hc1, h.other, ?_, ?_⟩
  · intro u hu id e hat hd
    rcases hcase u hu id e hat with ⟨rfl, rfl, rfl⟩ | ⟨hne, hat'⟩
    · exact hr
    · exact h.done u hu id e hat' (by omega)
  · intro u hu id e hat hd
    rcases hcase u hu id e hat with ⟨rfl, rfl, rfl⟩ | ⟨hne, hat'⟩
    · omega
    · exact h.todo u hu id e hat' (by omega)

theorem finishBwdEdge_ok {E : EdgeRel} {fg₀ fg : FastGraph} {oth : List FastGraphEdge} (h₀ : FPre P E n fg₀) {i k : Nat} (hi : i < n)
    (hb : fg₀.bi i ≤ k) (he : k < fg₀.ei i) (h : FinInvBwd P E n fg₀ oth i k fg) :
    Tri (finishBwdEdge P i fg k) (FinInvBwd P E n fg₀ oth i (k + 1)) := by
  have hsh := h.core.shape h₀.toShape
  obtain ⟨ed, hat⟩ := hsh.inAt hi (id := k) (by rw [h.core.bi]; exact hb) (by rw [h.core.ei]; exact he)
  have hat₀ := h.todo i hi k ed hat (by omega)
  obtain ⟨f1, f2, f3, f4, f5⟩ := h₀.bwd i hi k ed hat₀
  unfold finishBwdEdge
  rw [idx_some hat.2.2]
  simp only [bind_okM]
  by_cases hc : ed.replacedInEdge = P.umax
  · rw [if_pos (by simpa [Plat.INVALID_NODE] using hc), debugAssertM_of (by simp [f4, Plat.INVALID_EDGE])]
    simp only [bind_okM, Tri_ok]
    refine finInvBwd_set h₀ hi h hat (by rfl) (Or.inl ⟨rfl, f4, ?_⟩)
    rcases f5 with f5 | f5
    · exact f5.2
    · have := f5.1; have := h₀.n_lt; omega
  · rw [if_neg (by simpa [Plat.INVALID_NODE] using hc)]
    obtain ⟨a, b, g1, g2, g3⟩ := resolve_ok h₀ h.core f5 hc
    rw [g1, g2]
    simp only [bind_okM, Tri_ok]
    exact finInvBwd_set h₀ hi h hat (by rfl) g3

theorem finishBwdNode_ok {E : EdgeRel} {fg₀ fg : FastGraph} {oth : List FastGraphEdge} (h₀ : FPre P E n fg₀) {i : Nat} (hi : i < n)
    (h : FinInvBwd P E n fg₀ oth i 0 fg) : Tri (finishBwdNode P fg i) (FinInvBwd P E n fg₀ oth (i + 1) 0) := by
  have hsh := h.core.shape h₀.toShape
  unfold finishBwdNode
  rw [hsh.beginIn hi, hsh.endIn hi]
  simp only [bind_okM, rangeFrom]
  refine Tri.mono (Tri_forM_range' (hsh.bi_le hi) (FinInvBwd P E n fg₀ oth i) ?_ ?_) ?_
  · refine ⟨h.core, h.other, ?_, ?_⟩
    · intro u hu id ed hat hd
      refine h.done u hu id ed hat ?_
      rcases hd with hd | ⟨rfl, hd⟩
      · exact Or.inl hd
      · have := hat.1; omega
    · intro u hu id ed hat hd
      exact h.todo u hu id ed hat (by omega)
  · intro k fg' h1 h2 h'
    rw [h.core.bi] at h1
    rw [h.core.ei] at h2
    exact finishBwdEdge_ok h₀ hi h1 h2 h'
  · intro fg' h'
    refine ⟨h'.core, h'.other, ?_, ?_⟩
    · intro u hu id ed hat hd
      refine h'.done u hu id ed hat ?_
      rcases Nat.lt_or_ge u i with h1 | h1
      · exact Or.inl h1
      · have hui : u = i := by omega
        subst hui
        have := hat.2.1
        rw [h'.core.ei] at this
        rw [h.core.ei]
        exact Or.inr ⟨rfl, this⟩
    · intro u hu id ed hat hd
      exact h'.todo u hu id ed hat (by omega)

/-- **`finish_contraction`.** -/
theorem finishContraction_ok {E : EdgeRel} {fg : FastGraph} (h : FPre P E n fg)
    (hcomp : ∀ {s t w : Nat}, s < n → t < n → Wk E s t w → w < P.umax → UpDown fg.FE fg.BE s t w) :
    Tri (finishContraction P n fg) (fun fg' => FGood P E n fg' ∧ SameCore fg fg') := by
  unfold finishContraction
  have h1 : Tri (forM (finishFwdNode P) fg (List.range n)) (FinInvFwd P E n fg fg.edgesBwd n 0) := by
    refine Tri_forM_range (fun i fg' => FinInvFwd P E n fg fg.edgesBwd i 0 fg') ⟨SameCore.refl fg, rfl, ?_, ?_⟩ ?_
    · intro u hu id ed hat hd; omega
    · intro u hu id ed hat hd; exact hat
    · intro i fg' hi h'; exact finishFwdNode_ok h hi h'
  refine Tri.bind h1 ?_
  intro fg1 f1
  have h2 : Tri (forM (finishBwdNode P) fg1 (List.range n)) (FinInvBwd P E n fg fg1.edgesFwd n 0) := by
    refine Tri_forM_range (fun i fg' => FinInvBwd P E n fg fg1.edgesFwd i 0 fg') ⟨f1.core, rfl, ?_, ?_⟩ ?_
    · intro u hu id ed hat hd; omega
    · intro u hu id ed hat hd
      obtain ⟨g1, g2, g3⟩ := hat
      rw [f1.core.bi] at g1
      rw [f1.core.ei] at g2
      rw [f1.other] at g3
      exact ⟨g1, g2, g3⟩
    · intro i fg' hi h'; exact finishBwdNode_ok h hi h'
  refine Tri.mono h2 ?_
  intro fg2 f2
  have hc := f2.core
  refine ⟨⟨⟨hc.shape h.toShape, ?_, ?_⟩, ?_, ?_, ?_⟩, hc⟩
  · intro u hu id ed hat
    obtain ⟨ed₀, hat₀, c₀⟩ := hc.symm.outAt hat
    obtain ⟨k1, k2, k3⟩ := FastGraphEdge.core_eq c₀
    obtain ⟨m1, m2, m3, _⟩ := h.fwd u hu id ed₀ hat₀
    refine ⟨k1 ▸ m1, k2 ▸ m2, by rw [hc.rk, hc.rk, ← k2]; exact m3, ?_⟩
    refine hc.resolved (f1.done u hu id ed ?_ (Or.inl hu))
    obtain ⟨g1, g2, g3⟩ := hat
    rw [hc.bo] at g1
    rw [hc.eo] at g2
    rw [f2.other] at g3
    exact ⟨by rw [f1.core.bo]; exact g1, by rw [f1.core.eo]; exact g2, g3⟩
  · intro u hu id ed hat
    obtain ⟨ed₀, hat₀, c₀⟩ := hc.symm.inAt hat
    obtain ⟨k1, k2, k3⟩ := FastGraphEdge.core_eq c₀
    obtain ⟨m1, m2, m3, _⟩ := h.bwd u hu id ed₀ hat₀
    refine ⟨k1 ▸ m1, k2 ▸ m2, by rw [hc.rk, hc.rk, ← k2]; exact m3, ?_⟩
    exact hc.resolved (f2.done u hu id ed hat (Or.inl hu))
  · intro u hu id ed id' ed' hat hat' he
    obtain ⟨ed₀, hat₀, c₀⟩ := hc.symm.outAt hat
    obtain ⟨ed₁, hat₁, c₁⟩ := hc.symm.outAt hat'
    exact h.uniqF u hu id ed₀ id' ed₁ hat₀ hat₁
      ((FastGraphEdge.core_eq c₀).2.1.trans (he.trans (FastGraphEdge.core_eq c₁).2.1.symm))
  · intro u hu id ed id' ed' hat hat' he
    obtain ⟨ed₀, hat₀, c₀⟩ := hc.symm.inAt hat
    obtain ⟨ed₁, hat₁, c₁⟩ := hc.symm.inAt hat'
    exact h.uniqB u hu id ed₀ id' ed₁ hat₀ hat₁
      ((FastGraphEdge.core_eq c₀).2.1.trans (he.trans (FastGraphEdge.core_eq c₁).2.1.symm))
  · intro s t w hs ht k hw
    obtain ⟨m, a, b, ka, kb, hle⟩ := hcomp hs ht k hw
    exact ⟨m, a, b, ka.mono (fun _ _ _ => hc.FE), kb.mono (fun _ _ _ => hc.BE), hle⟩

end FP
