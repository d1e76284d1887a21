import Verif.Proofs.Table
/-! # Relational logic for `M`: two runs with the same observable behaviour -/
namespace FP

variable {α α' β β' σ σ' γ : Type}

/-- Both runs return related values or stop with the same panic. -/
def RelM (R : α → α' → Prop) (m : M α) (m' : M α') : Prop :=
  match m, m' with
  | .ok a, .ok a' => R a a'
  | .error e, .error e' => e = e'
  | _, _ => False

theorem RelM.bind {R : α → α' → Prop} {S : β → β' → Prop} {m : M α} {m' : M α'} {f : α → M β} {f' : α' → M β'}
    (h : RelM R m m') (hf : ∀ a a', R a a' → RelM S (f a) (f' a')) : RelM S (m >>= f) (m' >>= f') := by
  cases m <;> cases m'
  · exact h
  · exact h.elim
  · exact h.elim
  · exact hf _ _ h

theorem RelM.mono {R S : α → α' → Prop} {m : M α} {m' : M α'} (h : RelM R m m') (hRS : ∀ a a', R a a' → S a a') :
    RelM S m m' := by
  cases m <;> cases m'
  · exact h
  · exact h.elim
  · exact h.elim
  · exact hRS _ _ h

/-- Runs that are equal. -/
theorem RelM.of_eq {m m' : M α} (h : m = m') : RelM Eq m m' := by
  subst h
  cases m <;> rfl

theorem RelM.eq {m m' : M α} (h : RelM Eq m m') : m = m' := by
  cases m <;> cases m'
  · exact congrArg _ h
  · exact h.elim
  · exact h.elim
  · exact congrArg _ h

/-- Sequencing after equal runs of the same type. -/
theorem RelM.bind_eq {S : β → β' → Prop} {m m' : M α} {f : α → M β} {f' : α → M β'}
    (h : m = m') (hf : ∀ a, m = .ok a → RelM S (f a) (f' a)) : RelM S (m >>= f) (m' >>= f') := by
  subst h
  cases m with
  | error e => rfl
  | ok a => exact hf a rfl

theorem RelM.ite {R : α → α' → Prop} {c : Prop} [Decidable c] {a b : M α} {a' b' : M α'} (h1 : c → RelM R a a')
    (h2 : ¬ c → RelM R b b') : RelM R (if c then a else b) (if c then a' else b') := by
  by_cases h : c
  · rw [if_pos h, if_pos h]; exact h1 h
  · rw [if_neg h, if_neg h]; exact h2 h

theorem RelM.ok {R : α → α' → Prop} {a : α} {a' : α'} (h : R a a') : RelM R (.ok a) (.ok a') := h

theorem RelM.forM {R : σ → σ' → Prop} {f : σ → γ → M σ} {f' : σ' → γ → M σ'} {l : List γ}
    (hf : ∀ s s', ∀ a ∈ l, R s s' → RelM R (f s a) (f' s' a)) {s : σ} {s' : σ'} (h : R s s') :
    RelM R (forM f s l) (forM f' s' l) := by
  induction l generalizing s s' with
  | nil => exact h
  | cons a as ih =>
    exact RelM.bind (hf s s' a (by simp) h) (fun s1 s1' h1 => ih (fun s s' a ha => hf s s' a (by simp [ha])) h1)

theorem RelM.ok_left {R : α → α' → Prop} {m : M α} {m' : M α'} (h : RelM R m m') {a : α} (ha : m = .ok a) :
    ∃ a', m' = .ok a' ∧ R a a' := by
  subst ha
  cases m' with
  | error e => exact h.elim
  | ok a' => exact ⟨a', rfl, h⟩

/-! ### Tables -/

variable {δ : Type} {n : Nat}

/-- Two label tables with the same contents. -/
structure TabRel (n : Nat) (d₁ : List δ) (f₁ : ValidFlags) (d₂ : List δ) (f₂ : ValidFlags) : Prop where
  t₁ : TabOk n d₁ f₁
  t₂ : TabOk n d₂ f₂
  look : ∀ x, lookT d₁ f₁ x = lookT d₂ f₂ x

variable {d₁ d₂ : List δ} {f₁ f₂ : ValidFlags}

theorem idx_ge {l : List δ} {i : Nat} (h : l.length ≤ i) : idx l i = .error .index := by
  unfold idx; rw [List.getElem?_eq_none h]

theorem TabOk.isValid_ge {d : List δ} {f : ValidFlags} (h : TabOk n d f) {x : Nat} (hx : ¬ x < n) :
    f.isValid x = .error .index := by
  unfold ValidFlags.isValid
  rw [idx_ge (by rw [h.flags.len]; omega)]
  rfl

theorem TabOk.setValid_ge {d : List δ} {f : ValidFlags} (h : TabOk n d f) {x : Nat} (hx : ¬ x < n) :
    f.setValid x = .error .index := by
  unfold ValidFlags.setValid setIdx
  rw [if_neg (by rw [h.flags.len]; omega)]
  rfl

theorem TabRel.isValid (h : TabRel n d₁ f₁ d₂ f₂) (x : Nat) : f₁.isValid x = f₂.isValid x := by
  by_cases hx : x < n
  · rw [h.t₁.isValid hx, h.t₂.isValid hx, h.look]
  · rw [h.t₁.isValid_ge hx, h.t₂.isValid_ge hx]


/-- Reading an entry guarded by its flag. -/
theorem TabRel.read {γ : Type} (h : TabRel n d₁ f₁ d₂ f₂) (x : Nat) (g : δ → γ) (c : γ) :
    (f₁.isValid x >>= fun b => if b = true then idx d₁ x >>= fun d => (.ok (g d) : M γ) else .ok c) =
    (f₂.isValid x >>= fun b => if b = true then idx d₂ x >>= fun d => (.ok (g d) : M γ) else .ok c) := by
  by_cases hx : x < n
  · cases hl : lookT d₁ f₁ x with
    | none =>
      rw [h.t₁.isValid_none hx hl, h.t₂.isValid_none hx (by rw [← h.look]; exact hl)]
      rfl
    | some d =>
      have hl' : lookT d₂ f₂ x = some d := by rw [← h.look]; exact hl
      rw [h.t₁.isValid_some hl, h.t₂.isValid_some hl']
      simp only [bind_okM, if_true]
      rw [idx_of_look hl, idx_of_look hl']
  · rw [h.t₁.isValid_ge hx, h.t₂.isValid_ge hx]
    rfl

/-- Writing an entry. -/
theorem TabRel.write (h : TabRel n d₁ f₁ d₂ f₂) (x : Nat) (d : δ) :
    RelM (fun p q : ValidFlags × List δ => TabRel n p.2 p.1 q.2 q.1 ∧ x < n ∧
        ∀ y, lookT p.2 p.1 y = if y = x then some d else lookT d₁ f₁ y)
      (f₁.setValid x >>= fun f => setIdx d₁ x d >>= fun l => (.ok (f, l) : M (ValidFlags × List δ)))
      (f₂.setValid x >>= fun f => setIdx d₂ x d >>= fun l => (.ok (f, l) : M (ValidFlags × List δ))) := by
  by_cases hx : x < n
  · obtain ⟨g₁, e1, e2, k1, l1⟩ := h.t₁.update hx d
    obtain ⟨g₂, e3, e4, k2, l2⟩ := h.t₂.update hx d
    rw [e1, e3]
    simp only [bind_okM]
    rw [e2, e4]
    exact ⟨⟨k1, k2, fun y => by rw [l1, l2, h.look]⟩, hx, l1⟩
  · rw [h.t₁.setValid_ge hx, h.t₂.setValid_ge hx]
    rfl

/-- Modifying a valid entry. -/
theorem TabRel.modify (h : TabRel n d₁ f₁ d₂ f₂) {x : Nat} {d : δ} (hx : lookT d₁ f₁ x = some d) (g : δ → δ) :
    RelM (fun p q : List δ => TabRel n p f₁ q f₂ ∧ ∀ y, lookT p f₁ y = if y = x then some (g d) else lookT d₁ f₁ y)
      (modIdx d₁ x g) (modIdx d₂ x g) := by
  obtain ⟨e1, k1, l1⟩ := h.t₁.modify hx g
  obtain ⟨e2, k2, l2⟩ := h.t₂.modify (by rw [← h.look]; exact hx) g
  rw [e1, e2]
  exact ⟨⟨k1, k2, fun y => by rw [l1, l2, h.look]⟩, l1⟩

theorem TabRel.invalidate (h1 : TabOk n d₁ f₁) (h2 : TabOk n d₂ f₂) :
    TabRel n d₁ f₁.invalidateAll d₂ f₂.invalidateAll := by
  obtain ⟨a1, b1⟩ := h1.invalidate
  obtain ⟨a2, b2⟩ := h2.invalidate
  exact ⟨a1, a2, fun x => by rw [b1, b2]⟩

end FP
