import Verif.Model.Base
import Mathlib.Data.List.Basic
import Mathlib.Tactic.Common
/-! # Program logic for `M`: total-correctness triples modulo resource panics -/
namespace FP

/-- Resource panics: arithmetic overflow and capacity exhaustion. -/
def Panic.Res : Panic → Prop
  | .overflow => True
  | .capacity => True
  | _ => False

/-- `m` returns a value satisfying `Q`, or stops with a resource panic. -/
def Tri {α : Type} (m : M α) (Q : α → Prop) : Prop :=
  match m with
  | .ok a => Q a
  | .error e => e.Res

variable {α β σ : Type}

@[simp] theorem Tri_ok (a : α) (Q : α → Prop) : Tri (.ok a) Q ↔ Q a := Iff.rfl
@[simp] theorem Tri_pure (a : α) (Q : α → Prop) : Tri (pure a) Q ↔ Q a := Iff.rfl
@[simp] theorem Tri_error (e : Panic) (Q : α → Prop) : Tri (.error e : M α) Q ↔ e.Res := Iff.rfl

theorem Tri.mono {m : M α} {Q R : α → Prop} (h : Tri m Q) (hQR : ∀ a, Q a → R a) : Tri m R := by
  cases m with
  | ok a => exact hQR a h
  | error e => exact h

theorem Tri.bind {m : M α} {f : α → M β} {Q : α → Prop} {R : β → Prop}
    (h : Tri m Q) (hf : ∀ a, Q a → Tri (f a) R) : Tri (m >>= f) R := by
  cases m with
  | ok a => exact hf a h
  | error e => exact h

theorem Tri.bind_ok {m : M α} {f : α → M β} {R : β → Prop} (a : α) (h : m = .ok a)
    (hf : Tri (f a) R) : Tri (m >>= f) R := by subst h; exact hf

theorem Tri.and {m : M α} {Q R : α → Prop} (h : Tri m Q) (h' : Tri m R) : Tri m (fun a => Q a ∧ R a) := by
  cases m with
  | ok a => exact ⟨h, h'⟩
  | error e => exact h

theorem Tri.of_ok {m : M α} {Q : α → Prop} {a : α} (h : Tri m Q) (e : m = .ok a) : Q a := by
  subst e; exact h

@[simp] theorem bind_okM (a : α) (f : α → M β) : ((.ok a : M α) >>= f) = f a := rfl
@[simp] theorem bind_errorM (e : Panic) (f : α → M β) : ((.error e : M α) >>= f) = .error e := rfl

@[simp] theorem forM_nil (f : σ → α → M σ) (s : σ) : forM f s [] = .ok s := rfl
@[simp] theorem forM_cons (f : σ → α → M σ) (s : σ) (a : α) (as : List α) :
    forM f s (a :: as) = (f s a >>= fun s => forM f s as) := rfl

theorem forM_append (f : σ → α → M σ) (s : σ) (l₁ l₂ : List α) :
    forM f s (l₁ ++ l₂) = (forM f s l₁ >>= fun s => forM f s l₂) := by
  induction l₁ generalizing s with
  | nil => rfl
  | cons a as ih =>
    simp only [List.cons_append, forM_cons]
    cases f s a with
    | ok s' => simp [ih]
    | error e => rfl

/-- Loop rule with the processed prefix in the invariant. -/
theorem Tri_forM {f : σ → α → M σ} {l : List α} (I : List α → σ → Prop) {s : σ} (h0 : I [] s)
    (hs : ∀ pre a post s, l = pre ++ a :: post → I pre s → Tri (f s a) (I (pre ++ [a]))) :
    Tri (forM f s l) (I l) := by
  suffices ∀ post pre s, l = pre ++ post → I pre s → Tri (forM f s post) (I l) from this l [] s rfl h0
  intro post
  induction post with
  | nil => intro pre s hl hI; simp at hl; subst hl; exact hI
  | cons a as ih =>
    intro pre s hl hI
    refine Tri.bind (hs pre a as s hl hI) ?_
    intro s' hs'
    exact ih (pre ++ [a]) s' (by simp [hl]) hs'

/-- Loop rule with a plain invariant. -/
theorem Tri_forM' {f : σ → α → M σ} {l : List α} (I : σ → Prop) {s : σ} (h0 : I s)
    (hs : ∀ s, ∀ a ∈ l, I s → Tri (f s a) I) : Tri (forM f s l) I :=
  Tri_forM (fun _ => I) h0 (fun pre a post s hl h => hs s a (by simp [hl]) h)

/-- Loop rule for `for i in 0..k`. -/
theorem Tri_forM_range {f : σ → Nat → M σ} {k : Nat} (I : Nat → σ → Prop) {s : σ} (h0 : I 0 s)
    (hs : ∀ i s, i < k → I i s → Tri (f s i) (I (i + 1))) : Tri (forM f s (List.range k)) (I k) := by
  have := Tri_forM (f := f) (l := List.range k) (fun pre s => I pre.length s) h0 (by
    intro pre a post s hl hI
    have hlen : pre.length + (post.length + 1) = k := by
      have := congrArg List.length hl
      simpa using this.symm
    have ha : a = pre.length := by
      have h1 : (List.range k)[pre.length]? = some a := by rw [hl]; simp
      rw [List.getElem?_range (by omega)] at h1
      exact (Option.some.inj h1).symm
    subst ha
    have := hs pre.length s (by omega) hI
    simpa using this)
  simpa using this

theorem rangeFrom_split {b e : Nat} {pre post : List Nat} {a : Nat} (h : List.range' b (e - b) = pre ++ a :: post) :
    a = b + pre.length ∧ a < e := by
  have hlen : pre.length + (post.length + 1) = e - b := by
    have := congrArg List.length h
    simpa using this.symm
  have h1 : (List.range' b (e - b))[pre.length]? = some a := by rw [h]; simp
  rw [List.getElem?_range' (by omega)] at h1
  have := Option.some.inj h1
  omega

/-- Loop rule for `for k in b..e`. -/
theorem Tri_forM_range' {f : σ → Nat → M σ} {b e : Nat} (hbe : b ≤ e) (I : Nat → σ → Prop) {s : σ} (h0 : I b s)
    (hs : ∀ k s, b ≤ k → k < e → I k s → Tri (f s k) (I (k + 1))) : Tri (forM f s (List.range' b (e - b))) (I e) := by
  have := Tri_forM (f := f) (l := List.range' b (e - b)) (fun pre s => I (b + pre.length) s) h0 (by
    intro pre a post s hl hI
    obtain ⟨h1, h2⟩ := rangeFrom_split hl
    subst h1
    have := hs (b + pre.length) s (by omega) h2 hI
    simpa [Nat.add_assoc] using this)
  simpa [hbe] using this

theorem forM_ok_of {f : σ → α → M σ} {l : List α} (I : List α → σ → Prop) {s : σ} (h0 : I [] s)
    (hs : ∀ pre a post s, l = pre ++ a :: post → I pre s → ∃ s', f s a = .ok s' ∧ I (pre ++ [a]) s') :
    ∃ s', forM f s l = .ok s' ∧ I l s' := by
  suffices ∀ post pre s, l = pre ++ post → I pre s → ∃ s', forM f s post = .ok s' ∧ I l s' from this l [] s rfl h0
  intro post
  induction post with
  | nil => intro pre s hl hI; simp at hl; subst hl; exact ⟨s, rfl, hI⟩
  | cons a as ih =>
    intro pre s hl hI
    obtain ⟨s', e, hI'⟩ := hs pre a as s hl hI
    obtain ⟨s'', e', hI''⟩ := ih (pre ++ [a]) s' (by simp [hl]) hI'
    exact ⟨s'', by rw [forM_cons, e]; exact e', hI''⟩

theorem forM_congr {f g : σ → α → M σ} {l : List α} (h : ∀ s, ∀ a ∈ l, f s a = g s a) (s : σ) :
    forM f s l = forM g s l := by
  induction l generalizing s with
  | nil => rfl
  | cons a as ih =>
    simp only [forM_cons]
    rw [h s a (by simp)]
    cases g s a with
    | ok s' => exact ih (fun s a ha => h s a (by simp [ha])) s'
    | error e => rfl

/-! ### Primitive operations -/

theorem idx_ok {l : List α} {i : Nat} (h : i < l.length) : idx l i = .ok l[i] := by
  simp [idx, h]

theorem idx_some {l : List α} {i : Nat} {a : α} (h : l[i]? = some a) : idx l i = .ok a := by
  simp [idx, h]

theorem idx_eq_ok {l : List α} {i : Nat} {a : α} : idx l i = .ok a ↔ l[i]? = some a := by
  unfold idx
  cases h : l[i]? <;> simp

theorem Tri_idx {l : List α} {i : Nat} (h : i < l.length) : Tri (idx l i) (fun a => l[i]? = some a) := by
  rw [idx_ok h]; simp [h]

theorem setIdx_ok {l : List α} {i : Nat} {a : α} (h : i < l.length) : setIdx l i a = .ok (l.set i a) := by
  simp [setIdx, h]

theorem setIdx_eq_ok {l l' : List α} {i : Nat} {a : α} :
    setIdx l i a = .ok l' ↔ i < l.length ∧ l' = l.set i a := by
  unfold setIdx
  split
  · simp_all [eq_comm]
  · rename_i h
    simp [h]

theorem modIdx_ok {l : List α} {i : Nat} {a : α} {f : α → α} (h : l[i]? = some a) :
    modIdx l i f = .ok (l.set i (f a)) := by
  simp [modIdx, h]

theorem modIdx_eq_ok {l l' : List α} {i : Nat} {f : α → α} :
    modIdx l i f = .ok l' ↔ ∃ a, l[i]? = some a ∧ l' = l.set i (f a) := by
  unfold modIdx
  cases h : l[i]? <;> simp [eq_comm]

@[simp] theorem assertM_true : assertM true = .ok () := rfl
@[simp] theorem assertM_false : assertM false = .error .assertion := rfl

theorem assertM_of {c : Bool} (h : c = true) : assertM c = .ok () := by subst h; rfl

theorem debugAssertM_of {P : Plat} {c : Bool} (h : c = true) : debugAssertM P c = .ok () := by
  subst h; simp [debugAssertM]

/-- With overflow checks, a returning addition is the mathematical sum and fits. -/
theorem Tri_addW {P : Plat} (hP : P.checked = true) (a b : Nat) :
    Tri (addW P a b) (fun c => c = a + b ∧ c ≤ P.umax) := by
  unfold addW
  by_cases h : a + b ≤ P.umax
  · simp [h]
  · simp [h, hP, Panic.Res]

theorem mulW_ok {P : Plat} {a b : Nat} (h : a * b ≤ P.umax) : mulW P a b = .ok (a * b) := by
  simp [mulW, h]

theorem Tri_mulW {P : Plat} (hP : P.checked = true) (a b : Nat) :
    Tri (mulW P a b) (fun c => c = a * b ∧ c ≤ P.umax) := by
  unfold mulW
  by_cases h : a * b ≤ P.umax
  · simp [h]
  · simp [h, hP, Panic.Res]

theorem addW_ok {P : Plat} {a b : Nat} (h : a + b ≤ P.umax) : addW P a b = .ok (a + b) := by
  simp [addW, h]

theorem Tri_vecPush {P : Plat} (l : List α) (a : α) :
    Tri (vecPush P l a) (fun l' => l' = l ++ [a] ∧ l.length < P.umax) := by
  unfold vecPush
  split <;> simp_all [Panic.Res]

theorem getElem?_set' {l : List α} {i j : Nat} {a : α} (h : i < l.length) :
    (l.set i a)[j]? = if i = j then some a else l[j]? := by
  rw [List.getElem?_set]
  split <;> simp_all

theorem Tri.with_ok {α : Type} {m : M α} {Q R : α → Prop} (h : Tri m Q) (h' : ∀ a, m = .ok a → R a) : Tri m (fun a => Q a ∧ R a) := by
  cases m with
  | ok a => exact ⟨h, h' a rfl⟩
  | error e => exact h

end FP
