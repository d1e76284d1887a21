import Verif.Proofs.Near
import Verif.SpecHeavy
/-! # Contraction of the graphs of `SpecHeavy` -/
namespace FP
open Spec PreparationGraph
open Spec.Heavy

namespace HeavyP
variable {pq : PQ} {P : Plat} {m k : Nat}

theorem id_inj {a b : Role} (ha : a.Ok m k) (hb : b.Ok m k) (h : a.id m = b.id m) : a = b := by
  cases a <;> cases b <;> simp only [Role.id, Role.Ok, reduceCtorEq, Role.x.injEq, Role.y.injEq, Role.g.injEq, Role.e.injEq] at * <;> omega

theorem id_lt {a : Role} (ha : a.Ok m k) (hk : 2 ≤ k) : a.id m < 3 * m + k + 2 := by
  cases a <;> simp only [Role.id, Role.Ok] at * <;> omega

/-- The relation on node ids given by weights on roles. -/
def Rel (m k : Nat) (f : Role → Role → Option Nat) : EdgeRel := fun p q w =>
  ∃ a b : Role, a.Ok m k ∧ b.Ok m k ∧ a.id m = p ∧ b.id m = q ∧ f a b = some w

theorem Rel_iff {f : Role → Role → Option Nat} {a b : Role} (ha : a.Ok m k) (hb : b.Ok m k) {w : Nat} :
    Rel m k f (a.id m) (b.id m) w ↔ f a b = some w := by
  constructor
  · rintro ⟨a', b', h1, h2, h3, h4, h5⟩
    rw [← id_inj h1 ha h3, ← id_inj h2 hb h4]
    exact h5
  · exact fun h => ⟨a, b, ha, hb, rfl, rfl, h⟩

/-- `Answers` on roles. -/
def AnswersR (m k : Nat) (f : Role → Role → Option Nat) (v : Role) (Made : Role → Role → Prop) (a : Role) (wa : Nat) : Prop :=
  (∀ b wb, b.Ok m k → f v b = some wb → b ≠ a → (∃ w, w ≤ wa + wb ∧ f a b = some w) ∧ ¬ Made a b) ∨
  ∃ y r, y.Ok m k ∧ y ≠ a ∧ y ≠ v ∧ (∀ i, a ≠ .e i ∧ y ≠ .e i ∧ v ≠ .e i) ∧ f a y = some r ∧
    (∀ i, i + 2 < k → ∃ w, w ≤ r ∧ f a (.e i) = some w) ∧
    (∀ u w, u.Ok m k → u ≠ v → f a u = some w → (∃ i, u = .e i) ∨ u = y ∨ r < w) ∧
    (∀ i q, f (.e i) q = none) ∧ (∀ b, ¬ Made y b) ∧ (∀ i b, ¬ Made (.e i) b) ∧
    ∀ b wb, b.Ok m k → f v b = some wb → b ≠ a →
      (Made a b ↔ ¬ ((∃ w, w ≤ wa + wb ∧ f a b = some w) ∨ ∃ w, f y b = some w ∧ r + w ≤ wa + wb))

/-- One contraction. -/
theorem step (hP : P.checked = true) (hk : 2 ≤ k) (hn : 3 * m + k + 2 ≤ P.umax) {g : PreparationGraph} (hg : WF (3 * m + k + 2) g)
    {f f' : Role → Role → Option Nat} (hf : ∀ p q w, g.rel p q w ↔ Rel m k f p q w) {v : Role} (hv : v.Ok m k)
    {Made : Role → Role → Prop} (hpos : ∀ a b w, f a b = some w → 0 < w)
    (hirr : ∀ a b, Made a b → a ≠ b ∧ f a b = none)
    (hsum : ∀ a b wa wb, a.Ok m k → b.Ok m k → f a v = some wa → f v b = some wb → wa + wb < P.umax)
    (hans : ∀ a wa, a.Ok m k → f a v = some wa → AnswersR m k f v Made a wa)
    (hf' : ∀ a b w, a.Ok m k → b.Ok m k → (f' a b = some w ↔ a ≠ v ∧ b ≠ v ∧
      (f a b = some w ∨ (Made a b ∧ ∃ wa wb, f a v = some wa ∧ f v b = some wb ∧ w = wa + wb))))
    {ws : WitnessSearch pq} (hws : ws.Base (3 * m + k + 2)) {r : PreparationGraph × WitnessSearch pq}
    (e : contractNode P g ws (v.id m) k = .ok r) : ∀ p q w, r.1.rel p q w ↔ Rel m k f' p q w := by
  have hrel : ∀ {a b : Role}, a.Ok m k → b.Ok m k → ∀ {w}, g.rel (a.id m) (b.id m) w ↔ f a b = some w := by
    intro a b ha hb w
    rw [hf, Rel_iff ha hb]
  have hvv : ∀ w, f v v ≠ some w := by
    intro w h
    obtain ⟨c, hc⟩ := (hrel hv hv).2 h
    exact hg.noLoop _ _ hc rfl
  have hne : ∀ {a b : Role}, a.Ok m k → b.Ok m k → (a.id m ≠ b.id m ↔ a ≠ b) := by
    intro a b ha hb
    exact ⟨fun h e => h (by rw [e]), fun h e => h (id_inj ha hb e)⟩
  have hno : ∀ {a b : Role}, a.Ok m k → b.Ok m k → ∀ {w}, g.relNo (v.id m) (a.id m) (b.id m) w ↔ f a b = some w ∧ a ≠ v ∧ b ≠ v := by
    intro a b ha hb w
    unfold relNo
    rw [hrel ha hb, hne ha hv, hne hb hv]
  let MadeN : Nat → Nat → Prop := fun p q => ∃ a b : Role, a.Ok m k ∧ b.Ok m k ∧ a.id m = p ∧ b.id m = q ∧ Made a b
  have hMade : ∀ {a b : Role}, a.Ok m k → b.Ok m k → (MadeN (a.id m) (b.id m) ↔ Made a b) := by
    intro a b ha hb
    constructor
    · rintro ⟨a', b', h1, h2, h3, h4, h5⟩
      rw [← id_inj h1 ha h3, ← id_inj h2 hb h4]
      exact h5
    · exact fun h => ⟨a, b, ha, hb, rfl, rfl, h⟩
  have key := (contractNode_made (Made := MadeN) hP hn hg (id_lt hv hk) (by omega : 0 < k) ?_ ?_ ?_ ?_ hws).of_ok e
  · intro p q w
    rw [key]
    constructor
    · rintro ⟨h1, h2, h3⟩
      obtain ⟨a, b, ha, hb, rfl, rfl, h4⟩ : ∃ a b : Role, a.Ok m k ∧ b.Ok m k ∧ a.id m = p ∧ b.id m = q ∧
          (f a b = some w ∨ (Made a b ∧ ∃ wa wb, f a v = some wa ∧ f v b = some wb ∧ w = wa + wb)) := by
        rcases h3 with h3 | ⟨⟨a, b, ha, hb, rfl, rfl, h3⟩, wa, wb, h4, h5, h6⟩
        · obtain ⟨a, b, ha, hb, h4, h5, h6⟩ := (hf _ _ _).1 h3
          exact ⟨a, b, ha, hb, h4, h5, Or.inl h6⟩
        · exact ⟨a, b, ha, hb, rfl, rfl, Or.inr ⟨h3, wa, wb, (hrel ha hv).1 h4, (hrel hv hb).1 h5, h6⟩⟩
      exact (Rel_iff ha hb).2 ((hf' a b w ha hb).2 ⟨(hne ha hv).1 h1, (hne hb hv).1 h2, h4⟩)
    · rintro ⟨a, b, ha, hb, rfl, rfl, h⟩
      obtain ⟨h1, h2, h3⟩ := (hf' a b w ha hb).1 h
      refine ⟨(hne ha hv).2 h1, (hne hb hv).2 h2, ?_⟩
      rcases h3 with h3 | ⟨h3, wa, wb, h4, h5, h6⟩
      · exact Or.inl ((hrel ha hb).2 h3)
      · exact Or.inr ⟨(hMade ha hb).2 h3, wa, wb, (hrel ha hv).2 h4, (hrel hv hb).2 h5, h6⟩
  · intro p q w h
    obtain ⟨a, b, _, _, _, _, h⟩ := (hf _ _ _).1 h
    exact hpos _ _ _ h
  · rintro p q ⟨a, b, ha, hb, rfl, rfl, h⟩
    obtain ⟨h1, h2⟩ := hirr a b h
    refine ⟨(hne ha hb).2 h1, fun w hw => ?_⟩
    rw [hrel ha hb, h2] at hw
    cases hw
  · intro wa wb p q h1 h2
    obtain ⟨a, v', ha, hv', rfl, h3, h4⟩ := (hf _ _ _).1 h1
    obtain ⟨v'', b, hv'', hb, h5, rfl, h6⟩ := (hf _ _ _).1 h2
    cases id_inj hv' hv h3
    cases id_inj hv'' hv h5
    exact hsum a b wa wb ha hb h4 h6
  · intro p wa h
    obtain ⟨a, v', ha, hv', rfl, h3, h4⟩ := (hf _ _ _).1 h
    cases id_inj hv' hv h3
    have hav : a ≠ v := by
      rintro rfl
      exact hvv _ h4
    have hout : ∀ q wb, g.rel (v.id m) q wb → ∃ b : Role, b.Ok m k ∧ b.id m = q ∧ f v b = some wb ∧ b ≠ v := by
      intro q wb h
      obtain ⟨v', b, h1, h2, h3, h4, h5⟩ := (hf _ _ _).1 h
      cases id_inj h1 hv h3
      refine ⟨b, h2, h4, h5, ?_⟩
      rintro rfl
      exact hvv _ h5
    rcases hans a wa ha h4 with hd | ⟨y, r, hy, hya, hyv, hae, hay, hE, hon, hdead, hMy, hMe, hM⟩
    · left
      intro q wb hq hqa
      obtain ⟨b, hb, rfl, hvb, hbv⟩ := hout q wb hq
      obtain ⟨⟨w, h1, h2⟩, h3⟩ := hd b wb hb hvb ((hne hb ha).1 hqa)
      exact ⟨⟨w, h1, (hno ha hb).2 ⟨h2, hav, hbv⟩⟩, fun h => h3 ((hMade ha hb).1 h)⟩
    · right
      have hmem : ∀ u, u ∈ (List.range (k - 2)).map (fun i => (Role.e i).id m) ↔ ∃ i, i + 2 < k ∧ u = (Role.e i).id m := by
        intro u
        simp only [List.mem_map, List.mem_range]
        constructor
        · rintro ⟨i, h1, rfl⟩
          exact ⟨i, by omega, rfl⟩
        · rintro ⟨i, h1, rfl⟩
          exact ⟨i, by omega, rfl⟩
      have heok : ∀ i, i + 2 < k → (Role.e i).Ok m k := fun i h => h
      refine ⟨y.id m, r, (List.range (k - 2)).map (fun i => (Role.e i).id m), ⟨?_, ?_, ?_, ?_, ?_, ?_, ?_, ?_⟩, ?_, ?_⟩
      · have h1 : ((List.range (k - 2)).map (fun i => (Role.e i).id m)).Nodup := by
          refine List.nodup_range.map ?_
          intro i j h
          simp only [Role.id] at h
          omega
        have h2 : ∀ b : Role, b.Ok m k → (∀ i, b ≠ .e i) → b.id m ∉ (List.range (k - 2)).map (fun i => (Role.e i).id m) := by
          intro b hb hbe hc
          obtain ⟨i, hi, h⟩ := (hmem _).1 hc
          exact hbe i (id_inj hb (heok i hi) h)
        refine List.nodup_cons.2 ⟨?_, List.nodup_cons.2 ⟨h2 y hy (fun i => (hae i).2.1), h1⟩⟩
        rw [List.mem_cons, not_or]
        exact ⟨(hne ha hy).2 (Ne.symm hya), h2 a ha (fun i => (hae i).1)⟩
      · simp only [List.length_map, List.length_range]
        omega
      · intro u hu
        rcases List.mem_cons.1 hu with rfl | hu
        · exact id_lt ha hk
        · rcases List.mem_cons.1 hu with rfl | hu
          · exact id_lt hy hk
          · obtain ⟨i, hi, rfl⟩ := (hmem _).1 hu
            exact id_lt (heok i hi) hk
      · intro u hu
        obtain ⟨i, hi, rfl⟩ := (hmem _).1 hu
        obtain ⟨w, h1, h2⟩ := hE i hi
        exact ⟨w, h1, (hno ha (heok i hi)).2 ⟨h2, hav, fun h => (hae i).2.2 h.symm⟩⟩
      · exact (hno ha hy).2 ⟨hay, hav, hyv⟩
      · rintro u w ⟨h1, _, h3⟩
        obtain ⟨a', b, ha', hb, h4, rfl, h5⟩ := (hf _ _ _).1 h1
        cases id_inj ha' ha h4
        rcases hon b w hb ((hne hb hv).1 h3) h5 with ⟨i, rfl⟩ | rfl | h
        · exact Or.inl ((hmem _).2 ⟨i, hb, rfl⟩)
        · refine Or.inr (Or.inl ⟨rfl, ?_⟩)
          rw [hay] at h5
          injection h5 with h5
          exact h5.symm
        · exact Or.inr (Or.inr h)
      · rintro u hu q w ⟨h1, _⟩
        obtain ⟨i, hi, rfl⟩ := (hmem _).1 hu
        obtain ⟨a', b, ha', hb, h4, rfl, h5⟩ := (hf _ _ _).1 h1
        cases id_inj ha' (heok i hi) h4
        rw [hdead] at h5
        cases h5
      · rintro q w ⟨h1, _⟩
        obtain ⟨_, _, _, _, _, _, h⟩ := (hf _ _ _).1 h1
        exact hpos _ _ _ h
      · rintro u hu q ⟨a', b', ha', hb', h1, rfl, h3⟩
        rcases List.mem_cons.1 hu with rfl | hu
        · cases id_inj ha' hy h1
          exact hMy _ h3
        · obtain ⟨i, hi, rfl⟩ := (hmem _).1 hu
          cases id_inj ha' (heok i hi) h1
          exact hMe i _ h3
      · intro q wb hq hqa
        obtain ⟨b, hb, rfl, hvb, hbv⟩ := hout q wb hq
        rw [hMade ha hb, hM b wb hb hvb ((hne hb ha).1 hqa)]
        simp only [hno ha hb, hno hy hb, hav, hyv, hbv, ne_eq, not_false_iff, and_true]

theorem weight_pos {c h b A : Nat} (hA : 0 < A) {u v : Role} {w : Nat} (e : weight m c h b A u v = some w) : 0 < w := by
  cases u <;> cases v <;> simp only [weight, Option.ite_none_right_eq_some, Option.some.injEq, reduceCtorEq] at e <;> omega

/-- The shortcuts made when `x j` is contracted. -/
def MadeX (j : Nat) : Role → Role → Prop
  | .s, .x l => l = j + 1
  | .x i, .x l => (l = j + 1 ∧ j + 2 ≤ i) ∨ (i = j + 1 ∧ j + 2 ≤ l)
  | .x i, .t => i = j + 1
  | _, _ => False

theorem answers_x {j A : Nat} (hj : j + 1 < m) (hA : 8 * m + 20 ≤ A) {a : Role} {wa : Nat} (ha : a.Ok m k)
    (e : weight m j j (j + 2) A a (.x j) = some wa) : AnswersR m k (weight m j j (j + 2) A) (.x j) (MadeX j) a wa := by
  cases a with
  | s =>
    simp [weight] at e
    subst e
    refine Or.inr ⟨.y j, 4 * j + 10, by simp only [Role.Ok]; omega, by simp, by simp, by simp, by simp [weight], ?_, ?_, ?_, ?_, ?_, ?_⟩
    · intro i _; exact ⟨1, by omega, rfl⟩
    · intro u w hu huv h
      cases u <;> simp [weight] at * <;> omega
    · intro i q; rfl
    · intro b; cases b <;> simp [MadeX]
    · intro i b; simp [MadeX]
    · intro b wb hb
      cases b <;> simp [weight, MadeX, Role.Ok] at * <;> omega
  | x i =>
    simp [weight] at e
    obtain ⟨⟨h1, h2⟩, rfl⟩ := e
    by_cases hi : i = j + 1
    · subst hi
      refine Or.inr ⟨.d, 4 * j + 8, by simp only [Role.Ok], by simp, by simp, by simp, by simp [weight]; omega, ?_, ?_, ?_, ?_, ?_, ?_⟩
      · intro i _; exact ⟨1, by omega, by simp [weight]⟩
      · intro u w hu huv h
        cases u <;> simp [weight] at * <;> omega
      · intro i q; rfl
      · intro b; cases b <;> simp [MadeX]
      · intro i b; simp [MadeX]
      · intro b wb hb
        cases b <;> simp [weight, MadeX, Role.Ok] at * <;> omega
    · refine Or.inr ⟨.y j, 4 * j + 10, by simp only [Role.Ok]; omega, by simp, by simp, by simp, by simp [weight]; omega, ?_, ?_, ?_, ?_, ?_, ?_⟩
      · intro i _; exact ⟨1, by omega, by simp [weight]; omega⟩
      · intro u w hu huv h
        cases u <;> simp [weight] at * <;> omega
      · intro i q; rfl
      · intro b; cases b <;> simp [MadeX]
      · intro i b; simp [MadeX]
      · intro b wb hb
        cases b <;> simp [weight, MadeX, Role.Ok] at * <;> omega
  | z =>
    refine Or.inl fun b wb hb => ?_
    cases b <;> simp [weight, MadeX] at * <;> omega
  | g i =>
    refine Or.inl fun b wb hb => ?_
    cases b <;> simp [weight, MadeX] at * <;> omega
  | y i => simp [weight] at e; omega
  | t => simp [weight] at e
  | d => simp [weight] at e
  | e i => simp [weight] at e

/-- The shortcuts made when `y j` is contracted. -/
def MadeY (j : Nat) : Role → Role → Prop
  | .s, .y l => l = j + 1
  | .x i, .y l => l = j + 1 ∧ j + 3 ≤ i
  | _, _ => False

theorem answers_y {j A : Nat} (hj : j + 2 < m) (hA : 8 * m + 20 ≤ A) {a : Role} {wa : Nat} (ha : a.Ok m k)
    (e : weight m (j + 1) j (j + 2) A a (.y j) = some wa) :
    AnswersR m k (weight m (j + 1) j (j + 2) A) (.y j) (MadeY j) a wa := by
  cases a with
  | s =>
    simp [weight] at e
    subst e
    refine Or.inr ⟨.z, 4 * m + 10, by simp only [Role.Ok], by simp, by simp, by simp, by simp [weight], ?_, ?_, ?_, ?_, ?_, ?_⟩
    · intro i _; exact ⟨1, by omega, rfl⟩
    · intro u w hu huv h
      cases u <;> simp [weight] at * <;> omega
    · intro i q; rfl
    · intro b; cases b <;> simp [MadeY]
    · intro i b; simp [MadeY]
    · intro b wb hb
      cases b <;> simp [weight, MadeY, Role.Ok] at * <;> omega
  | x i =>
    simp [weight] at e
    obtain ⟨⟨h1, h2⟩, rfl⟩ := e
    simp only [Role.Ok] at ha
    refine Or.inr ⟨.g i, 4 * i + 3, by simp only [Role.Ok]; omega, by simp, by simp, by simp, by simp [weight]; omega, ?_, ?_, ?_, ?_, ?_, ?_⟩
    · intro i _; exact ⟨1, by omega, by simp [weight]; omega⟩
    · intro u w hu huv h
      cases u <;> simp [weight] at * <;> omega
    · intro i q; rfl
    · intro b; cases b <;> simp [MadeY]
    · intro i b; simp [MadeY]
    · intro b wb hb
      cases b <;> simp [weight, MadeY, Role.Ok] at * <;> omega
  | z =>
    refine Or.inl fun b wb hb => ?_
    cases b <;> simp [weight, MadeY] at * <;> omega
  | g i => simp [weight] at e; omega
  | y i => simp [weight] at e; omega
  | t => simp [weight] at e
  | d => simp [weight] at e
  | e i => simp [weight] at e

/-- The shortcut made when `g (j + 2)` is contracted. -/
def MadeG' (j : Nat) : Role → Role → Prop
  | .x i, .d => i = j + 2
  | _, _ => False

theorem answers_g {j A : Nat} (hj : j + 2 < m) (hA : 8 * m + 20 ≤ A) {a : Role} {wa : Nat}
    (e : weight m (j + 1) (j + 1) (j + 2) A a (.g (j + 2)) = some wa) :
    AnswersR m k (weight m (j + 1) (j + 1) (j + 2) A) (.g (j + 2)) (MadeG' j) a wa := by
  cases a with
  | x i =>
    simp [weight] at e
    obtain ⟨⟨h1, rfl, _⟩, rfl⟩ := e
    refine Or.inr ⟨.z, 4 * j + 13, by simp only [Role.Ok], by simp, by simp, by simp, by simp [weight]; omega, ?_, ?_, ?_, ?_, ?_, ?_⟩
    · intro i _; exact ⟨1, by omega, by simp [weight]⟩
    · intro u w hu huv h
      cases u <;> simp [weight] at * <;> omega
    · intro i q; rfl
    · intro b; cases b <;> simp [MadeG']
    · intro i b; simp [MadeG']
    · intro b wb hb
      cases b <;> simp [weight, MadeG', Role.Ok] at * <;> omega
  | s => simp [weight] at e
  | z => simp [weight] at e
  | g i => simp [weight] at e
  | y i => simp [weight] at e
  | t => simp [weight] at e
  | d => simp [weight] at e
  | e i => simp [weight] at e

/-- What is known while the first nodes are contracted. -/
structure Stage (m k c h b A : Nat) (g : PreparationGraph) : Prop where
  wf : WF (3 * m + k + 2) g
  rel : ∀ p q w, g.rel p q w ↔ Rel m k (weight m c h b A) p q w

section
variable (hP : P.checked = true) (hodd : P.umax % 2 = 1) (hk : 2 ≤ k) (hn : 3 * m + k + 2 ≤ P.umax)
  {ws : WitnessSearch pq} (hws : ws.Base (3 * m + k + 2)) {g : PreparationGraph} {r : PreparationGraph × WitnessSearch pq}
include hP hk hn hws

theorem Stage.wf_next {c h b A : Nat} (hg : Stage m k c h b A g) {v : Role} (hv : v.Ok m k)
    (e : contractNode P g ws (v.id m) k = .ok r) : WF (3 * m + k + 2) r.1 :=
  ((contractNode_ok hP hn hg.wf (id_lt hv hk) hws).of_ok e).1.wf

include hodd in
theorem Stage.x_step {j A : Nat} (hj : j + 1 < m) (hA : 8 * m + 20 ≤ A) (hg : Stage m k j j (j + 2) A g)
    (e : contractNode P g ws ((Role.x j).id m) k = .ok r) : 2 * A ≤ P.umax ∧ Stage m k (j + 1) j (j + 2) (2 * A) r.1 := by
  have hv : (Role.x j).Ok m k := by simp only [Role.Ok]; omega
  have hsum := (contractNode_sums hP hn hg.wf (id_lt hv hk) hws).of_ok e
  have h2A : A + A ≤ P.umax := hsum (Role.s.id m) (Role.t.id m) A A
    ((hg.rel _ _ _).2 ((Rel_iff (by simp only [Role.Ok]) hv).2 (by simp [weight])))
    ((hg.rel _ _ _).2 ((Rel_iff hv (by simp only [Role.Ok])).2 (by simp [weight])))
  refine ⟨by omega, hg.wf_next hP hk hn hws hv e, ?_⟩
  refine step hP hk hn hg.wf hg.rel hv (Made := MadeX j) (fun _ _ _ h => weight_pos (by omega) h) ?_ ?_
    (fun a wa ha h => answers_x hj hA ha h) ?_ hws e
  · intro a b h
    cases a <;> cases b <;> simp [MadeX, weight] at h ⊢ <;> omega
  · intro a b wa wb ha hb h1 h2
    have h3 : wa ≤ A := by cases a <;> simp [weight, Role.Ok] at h1 ha <;> omega
    have h4 : wb ≤ A := by cases b <;> simp [weight, Role.Ok] at h2 hb <;> omega
    omega
  · intro a b w ha hb
    cases a <;> cases b <;> simp [MadeX, weight, Role.Ok] at * <;> omega

theorem Stage.y_step {j A : Nat} (hj : j + 2 < m) (hA : 8 * m + 20 ≤ A) (hAP : A < P.umax) (hg : Stage m k (j + 1) j (j + 2) A g)
    (e : contractNode P g ws ((Role.y j).id m) k = .ok r) : Stage m k (j + 1) (j + 1) (j + 2) A r.1 := by
  have hv : (Role.y j).Ok m k := by simp only [Role.Ok]; omega
  refine ⟨hg.wf_next hP hk hn hws hv e, ?_⟩
  refine step hP hk hn hg.wf hg.rel hv (Made := MadeY j) (fun _ _ _ h => weight_pos (by omega) h) ?_ ?_
    (fun a wa ha h => answers_y hj hA ha h) ?_ hws e
  · intro a b h
    cases a <;> cases b <;> simp [MadeY, weight] at h ⊢ <;> omega
  · intro a b wa wb ha hb h1 h2
    have h3 : wa ≤ 4 * m + 10 := by cases a <;> simp [weight, Role.Ok] at h1 ha <;> omega
    have h4 : wb ≤ 4 * m + 10 := by cases b <;> simp [weight, Role.Ok] at h2 hb <;> omega
    omega
  · intro a b w ha hb
    cases a <;> cases b <;> simp [MadeY, weight, Role.Ok] at * <;> omega

theorem Stage.g_step {j A : Nat} (hj : j + 2 < m) (hA : 8 * m + 20 ≤ A) (hAP : A < P.umax)
    (hg : Stage m k (j + 1) (j + 1) (j + 2) A g)
    (e : contractNode P g ws ((Role.g (j + 2)).id m) k = .ok r) : Stage m k (j + 1) (j + 1) (j + 3) A r.1 := by
  have hv : (Role.g (j + 2)).Ok m k := by simp only [Role.Ok]; omega
  refine ⟨hg.wf_next hP hk hn hws hv e, ?_⟩
  refine step hP hk hn hg.wf hg.rel hv (Made := MadeG' j) (fun _ _ _ h => weight_pos (by omega) h) ?_ ?_
    (fun a wa ha h => answers_g hj hA h) ?_ hws e
  · intro a b h
    (cases a <;> cases b <;> simp [MadeG', weight] at h ⊢)
    omega
  · intro a b wa wb ha hb h1 h2
    have h3 : wa ≤ 4 * m + 10 := by (cases a <;> simp [weight, Role.Ok] at h1 ha); omega
    have h4 : wb ≤ 4 * m + 10 := by cases b <;> simp [weight, Role.Ok] at h2 hb <;> omega
    omega
  · intro a b w ha hb
    cases a <;> cases b <;> simp [MadeG', weight, Role.Ok] at * <;> omega

end

end HeavyP
end FP
