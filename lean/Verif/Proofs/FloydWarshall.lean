import Verif.Model.FloydWarshall
import Verif.Proofs.Logic
import Verif.Proofs.Walk
import Verif.Proofs.Recorded
/-! # The Floyd-Warshall reference -/
namespace FP
namespace FloydWarshall
open Spec

variable {P : Plat} {n : Nat} {E : EdgeRel}

/-- The matrix stores the function `f`. -/
def Mat (P : Plat) (n : Nat) (m : List Nat) (f : Nat → Nat → Nat) : Prop :=
  (n * n ≤ P.umax ∧ m.length = n * n) ∧ ∀ i j, i < n → j < n → m[i * n + j]? = some (f i j)

theorem index_lt {i j : Nat} (hi : i < n) (hj : j < n) : i * n + j < n * n := by
  have : (i + 1) * n ≤ n * n := Nat.mul_le_mul_right n hi
  rw [Nat.add_mul] at this
  omega

theorem index_inj {i j i' j' : Nat} (hj : j < n) (hj' : j' < n) (h : i * n + j = i' * n + j') : i = i' ∧ j = j' := by
  have hn : 0 < n := by omega
  have h1 : (i * n + j) / n = i := by
    rw [Nat.add_comm, Nat.add_mul_div_right _ _ hn, Nat.div_eq_of_lt hj, Nat.zero_add]
  have h2 : (i' * n + j') / n = i' := by
    rw [Nat.add_comm, Nat.add_mul_div_right _ _ hn, Nat.div_eq_of_lt hj', Nat.zero_add]
  have h3 : i = i' := by rw [← h1, ← h2, h]
  subst h3
  exact ⟨rfl, by omega⟩

theorem index_ok (hn : n * n ≤ P.umax) {i j : Nat} (hi : i < n) (hj : j < n) : index P n i j = .ok (i * n + j) := by
  have := index_lt hi hj
  unfold index
  rw [mulW_ok (by omega), bind_okM, addW_ok (by omega)]

theorem Mat.idx {m : List Nat} {f : Nat → Nat → Nat} (h : Mat P n m f) {i j : Nat} (hi : i < n) (hj : j < n) :
    get P n m i j = .ok (f i j) := by
  unfold get
  rw [index_ok h.1.1 hi hj, bind_okM]
  exact idx_some (h.2 i j hi hj)

/-- The function `f` changed at one place. -/
def upd (f : Nat → Nat → Nat) (i j w : Nat) : Nat → Nat → Nat := fun a b => if a = i ∧ b = j then w else f a b

theorem upd_self {f : Nat → Nat → Nat} {i j w : Nat} : upd f i j w i j = w := by simp [upd]

theorem upd_le {f : Nat → Nat → Nat} {i j w : Nat} (h : w ≤ f i j) (a b : Nat) : upd f i j w a b ≤ f a b := by
  unfold upd
  by_cases hab : a = i ∧ b = j
  · rw [if_pos hab, hab.1, hab.2]; exact h
  · rw [if_neg hab]; exact Nat.le_refl _

theorem Mat.set {m : List Nat} {f : Nat → Nat → Nat} (h : Mat P n m f) {i j : Nat} (hi : i < n) (hj : j < n) (w : Nat) :
    ∃ m', put P n m i j w = .ok m' ∧ Mat P n m' (upd f i j w) := by
  have hlt : i * n + j < m.length := by rw [h.1.2]; exact index_lt hi hj
  refine ⟨m.set (i * n + j) w, ?_, ⟨h.1.1, by simp [h.1.2]⟩, ?_⟩
  · unfold put
    rw [index_ok h.1.1 hi hj, bind_okM]
    exact setIdx_ok hlt
  intro a b ha hb
  rw [getElem?_set' hlt]
  unfold upd
  by_cases hab : a = i ∧ b = j
  · rw [if_pos hab, if_pos (by rw [hab.1, hab.2])]
  · rw [if_neg hab, if_neg (fun e => hab ?_)]
    · exact h.2 a b ha hb
    · obtain ⟨h1, h2⟩ := index_inj hj hb e
      exact ⟨h1.symm, h2.symm⟩

/-- Finite entries are weights of walks. -/
def Sound (P : Plat) (E : EdgeRel) (n : Nat) (f : Nat → Nat → Nat) : Prop :=
  ∀ i j, i < n → j < n → f i j = P.umax ∨ Wk E i j (f i j)

/-- Walks all of whose inner nodes are below `k`. -/
inductive Via (E : EdgeRel) (k : Nat) : Nat → Nat → Nat → Prop
  | nil (i : Nat) : Via E k i i 0
  | edge {i j w : Nat} : E i j w → Via E k i j w
  | trans {i m j a b : Nat} : m < k → Via E k i m a → Via E k m j b → Via E k i j (a + b)

/-- A walk through nodes up to `k` avoids `k` or passes it. -/
theorem Via.split {k i j w : Nat} (h : Via E (k + 1) i j w) :
    (∃ w' ≤ w, Via E k i j w') ∨ ∃ a b, a + b ≤ w ∧ Via E k i k a ∧ Via E k k j b := by
  induction h with
  | nil i => exact Or.inl ⟨0, Nat.le_refl _, .nil i⟩
  | edge e => exact Or.inl ⟨_, Nat.le_refl _, .edge e⟩
  | @trans i m j a b hm _ _ ih1 ih2 =>
    by_cases hmk : m = k
    · subst hmk
      right
      have h1 : ∃ a' ≤ a, Via E m i m a' := by
        rcases ih1 with h | ⟨x, y, hxy, h1, _⟩
        · exact h
        · exact ⟨x, by omega, h1⟩
      have h2 : ∃ b' ≤ b, Via E m m j b' := by
        rcases ih2 with h | ⟨x, y, hxy, _, h1⟩
        · exact h
        · exact ⟨y, by omega, h1⟩
      obtain ⟨a', ha, h1⟩ := h1
      obtain ⟨b', hb, h2⟩ := h2
      exact ⟨a', b', by omega, h1, h2⟩
    · have hm' : m < k := by omega
      rcases ih1 with ⟨a', ha, h1⟩ | ⟨x, y, hxy, h1, h1'⟩
      · rcases ih2 with ⟨b', hb, h2⟩ | ⟨x, y, hxy, h2, h2'⟩
        · exact Or.inl ⟨a' + b', by omega, .trans hm' h1 h2⟩
        · exact Or.inr ⟨a' + x, y, by omega, .trans hm' h1 h2, h2'⟩
      · rcases ih2 with ⟨b', hb, h2⟩ | ⟨x', y', hxy', h2, h2'⟩
        · exact Or.inr ⟨x, y + b', by omega, h1, .trans hm' h1' h2⟩
        · exact Or.inr ⟨x, y', by omega, h1, h2'⟩

theorem Wk.toVia (hE : ∀ u v w, E u v w → v < n) {i j w : Nat} (h : Wk E i j w) : Via E n i j w := by
  induction h with
  | nil i => exact .nil i
  | cons e _ ih => exact .trans (hE _ _ _ e) (.edge e) ih

theorem Via.zero {i j w : Nat} (h : Via E 0 i j w) (hij : i ≠ j) : E i j w := by
  cases h with
  | nil => exact absurd rfl hij
  | edge e => exact e
  | trans hm => omega

/-- Entries off the diagonal are at most the weight of any walk through nodes below `k`. -/
def Complete (P : Plat) (E : EdgeRel) (n k : Nat) (f : Nat → Nat → Nat) : Prop :=
  ∀ i j w, i < n → j < n → i ≠ j → Via E k i j w → f i j ≤ w ∨ P.umax ≤ w

/-- Invariant of round `k`, which started with `f₀`, for the pairs for which `dn` holds. -/
structure Round (P : Plat) (E : EdgeRel) (n k : Nat) (f₀ : Nat → Nat → Nat) (dn : Nat → Nat → Prop)
    (f : Nat → Nat → Nat) : Prop where
  sound : Sound P E n f
  le : ∀ i j, f i j ≤ f₀ i j
  diag : ∀ i, dn i i → f i i = 0
  off : ∀ i j, dn i j → i ≠ j → P.umax ≤ f₀ i k ∨ P.umax ≤ f₀ k j ∨ f i j ≤ f₀ i k + f₀ k j

theorem step_ok (hP : P.checked = true) {k i j : Nat} (hk : k < n) (hi : i < n) (hj : j < n) {f₀ f : Nat → Nat → Nat}
    {dn : Nat → Nat → Prop} {m : List Nat} (hm : Mat P n m f) (h : Round P E n k f₀ dn f) :
    Tri (step P n k i m j) (fun m' => ∃ f', Mat P n m' f' ∧
      Round P E n k f₀ (fun a b => dn a b ∨ (a = i ∧ b = j)) f') := by
  unfold step
  obtain ⟨m1, f1, e1, hm1, h1, hd⟩ : ∃ m1 f1, (if i == j then put P n m i j 0 else .ok m : M (List Nat)) = .ok m1 ∧
      Mat P n m1 f1 ∧ Round P E n k f₀ dn f1 ∧ (i = j → f1 i j = 0) := by
    by_cases hij : i = j
    · obtain ⟨m1, e, hm1⟩ := hm.set hi hj 0
      have hle := upd_le (f := f) (i := i) (j := j) (w := 0) (Nat.zero_le _)
      refine ⟨m1, _, by rw [if_pos (by simpa using hij)]; exact e, hm1, ⟨?_, ?_, ?_, ?_⟩, fun _ => upd_self⟩
      · intro a b ha hb
        unfold upd
        by_cases hab : a = i ∧ b = j
        · rw [if_pos hab, hab.1, hab.2, ← hij]; exact Or.inr (Wk.nil _)
        · rw [if_neg hab]; exact h.sound a b ha hb
      · intro a b
        exact Nat.le_trans (hle a b) (h.le a b)
      · intro a ha
        have h1 := hle a a
        have h2 := h.diag a ha
        omega
      · intro a b hab hne
        have h1 := hle a b
        rcases h.off a b hab hne with h2 | h2 | h2
        · exact Or.inl h2
        · exact Or.inr (Or.inl h2)
        · exact Or.inr (Or.inr (by omega))
    · exact ⟨m, f, by rw [if_neg (by simpa using hij)], hm, h, fun h => absurd h hij⟩
  rw [e1]
  simp only [bind_okM]
  rw [hm1.idx hi hk, hm1.idx hk hj]
  simp only [bind_okM]
  by_cases hmax : f1 i k = P.umax ∨ f1 k j = P.umax
  · rw [if_pos (by simpa [Plat.WEIGHT_MAX] using hmax)]
    refine ⟨f1, hm1, ⟨h1.sound, h1.le, ?_, ?_⟩⟩
    · rintro a (ha | ⟨rfl, ha⟩)
      · exact h1.diag a ha
      · subst ha; exact hd rfl
    · rintro a b (hab | ⟨rfl, rfl⟩) hne
      · exact h1.off a b hab hne
      · have h2 := h1.le a k
        have h3 := h1.le k b
        rcases hmax with h4 | h4
        · exact Or.inl (by omega)
        · exact Or.inr (Or.inl (by omega))
  · rw [if_neg (by simpa [Plat.WEIGHT_MAX] using hmax), hm1.idx hi hj]
    simp only [bind_okM]
    refine Tri.bind (Tri_addW hP _ _) ?_
    rintro w ⟨rfl, _⟩
    obtain ⟨m2, e2, hm2⟩ := hm1.set hi hj (min (f1 i j) (f1 i k + f1 k j))
    rw [e2]
    have hle := upd_le (f := f1) (i := i) (j := j) (w := min (f1 i j) (f1 i k + f1 k j)) (Nat.min_le_left _ _)
    refine ⟨_, hm2, ⟨?_, ?_, ?_, ?_⟩⟩
    · intro a b ha hb
      unfold upd
      by_cases hab : a = i ∧ b = j
      · rw [if_pos hab, hab.1, hab.2]
        rcases Nat.le_total (f1 i j) (f1 i k + f1 k j) with h2 | h2
        · rw [Nat.min_eq_left h2]; exact h1.sound i j hi hj
        · rw [Nat.min_eq_right h2]
          right
          rcases h1.sound i k hi hk with h3 | h3
          · exact absurd (Or.inl h3) hmax
          · rcases h1.sound k j hk hj with h4 | h4
            · exact absurd (Or.inr h4) hmax
            · exact h3.append h4
      · rw [if_neg hab]; exact h1.sound a b ha hb
    · intro a b
      exact Nat.le_trans (hle a b) (h1.le a b)
    · rintro a (ha | ⟨rfl, ha⟩)
      · have h2 := hle a a
        have h3 := h1.diag a ha
        omega
      · subst ha
        have h2 := hle a a
        have h3 := hd rfl
        omega
    · rintro a b (hab | ⟨rfl, rfl⟩) hne
      · have h2 := hle a b
        rcases h1.off a b hab hne with h3 | h3 | h3
        · exact Or.inl h3
        · exact Or.inr (Or.inl h3)
        · exact Or.inr (Or.inr (by omega))
      · have h2 := h1.le a k
        have h3 := h1.le k b
        rw [upd_self]
        have h4 := Nat.min_le_right (f1 a b) (f1 a k + f1 k b)
        exact Or.inr (Or.inr (by omega))

theorem Round.congr {k : Nat} {f₀ f : Nat → Nat → Nat} {dn dn' : Nat → Nat → Prop} (h : Round P E n k f₀ dn f)
    (hd : ∀ a b, dn' a b → dn a b) : Round P E n k f₀ dn' f :=
  ⟨h.sound, h.le, fun i hi => h.diag i (hd _ _ hi), fun i j hij => h.off i j (hd _ _ hij)⟩

theorem round_ok (hP : P.checked = true) {k : Nat} (hk : k < n) {f : Nat → Nat → Nat} {m : List Nat} (hm : Mat P n m f)
    (hs : Sound P E n f) (hc : Complete P E n k f) :
    Tri (forM (fun m i => forM (step P n k i) m (List.range n)) m (List.range n)) (fun m' => ∃ f', Mat P n m' f' ∧
      Sound P E n f' ∧ Complete P E n (k + 1) f' ∧ (∀ i < n, f' i i = 0) ∧ ∀ i j, f' i j ≤ f i j) := by
  have := Tri_forM_range (f := fun m i => forM (step P n k i) m (List.range n)) (k := n) (s := m)
    (fun r m' => ∃ f', Mat P n m' f' ∧ Round P E n k f (fun a b => a < r ∧ b < n) f') ?_ ?_
  · refine this.mono ?_
    rintro m' ⟨f', h1, h2⟩
    refine ⟨f', h1, h2.sound, ?_, fun i hi => h2.diag i ⟨hi, hi⟩, h2.le⟩
    intro i j w hi hj hij hv
    rcases hv.split with ⟨w', hw, hv'⟩ | ⟨a, b, hab, ha, hb⟩
    · have h3 := h2.le i j
      rcases hc i j w' hi hj hij hv' with h4 | h4
      · exact Or.inl (by omega)
      · exact Or.inr (by omega)
    · have h3 := h2.le i j
      by_cases hik : i = k
      · subst hik
        rcases hc i j b hi hj hij hb with h4 | h4
        · exact Or.inl (by omega)
        · exact Or.inr (by omega)
      by_cases hjk : k = j
      · subst hjk
        rcases hc i k a hi hj hij ha with h4 | h4
        · exact Or.inl (by omega)
        · exact Or.inr (by omega)
      have h5 := hc i k a hi hk hik ha
      have h6 := hc k j b hk hj hjk hb
      have h7 := h2.off i j ⟨hi, hj⟩ hij
      omega
  · exact ⟨f, hm, ⟨hs, fun _ _ => Nat.le_refl _, fun i h => absurd h.1 (Nat.not_lt_zero _),
      fun i j h => absurd h.1 (Nat.not_lt_zero _)⟩⟩
  · rintro i m1 hi ⟨f1, hm1, h1⟩
    have := Tri_forM_range (f := step P n k i) (k := n) (s := m1)
      (fun c m' => ∃ f', Mat P n m' f' ∧ Round P E n k f (fun a b => (a < i ∧ b < n) ∨ (a = i ∧ b < c)) f') ?_ ?_
    · refine this.mono ?_
      rintro m' ⟨f', h2, h3⟩
      refine ⟨f', h2, h3.congr ?_⟩
      rintro a b ⟨ha, hb⟩
      rcases Nat.lt_succ_iff_lt_or_eq.1 ha with h | h
      · exact Or.inl ⟨h, hb⟩
      · exact Or.inr ⟨h, hb⟩
    · refine ⟨f1, hm1, h1.congr ?_⟩
      rintro a b (h | h)
      · exact h
      · exact absurd h.2 (Nat.not_lt_zero _)
    · rintro j m2 hj ⟨f2, hm2, h2⟩
      refine (step_ok hP hk hi hj hm2 h2).mono ?_
      rintro m' ⟨f', h3, h4⟩
      refine ⟨f', h3, h4.congr ?_⟩
      rintro a b (h | ⟨ha, hb⟩)
      · exact Or.inl (Or.inl h)
      · rcases Nat.lt_succ_iff_lt_or_eq.1 hb with h | h
        · exact Or.inl (Or.inr ⟨ha, h⟩)
        · exact Or.inr ⟨ha, h⟩

theorem loops_ok (hP : P.checked = true) {f : Nat → Nat → Nat} {m : List Nat} (hm : Mat P n m f)
    (hs : Sound P E n f) (hc : Complete P E n 0 f) :
    Tri (forM (fun m k => forM (fun m i => forM (step P n k i) m (List.range n)) m (List.range n)) m (List.range n))
      (fun m' => ∃ f', Mat P n m' f' ∧ Sound P E n f' ∧ Complete P E n n f' ∧ (∀ i < n, f' i i = 0) ∧
        ∀ i j, f' i j ≤ f i j) := by
  have := Tri_forM_range (f := fun m k => forM (fun m i => forM (step P n k i) m (List.range n)) m (List.range n)) (k := n)
    (s := m) (fun k m' => ∃ f', Mat P n m' f' ∧ Sound P E n f' ∧ Complete P E n k f' ∧ (0 < k → ∀ i < n, f' i i = 0) ∧
      ∀ i j, f' i j ≤ f i j) ?_ ?_
  · refine this.mono ?_
    rintro m' ⟨f', h1, h2, h3, h4, h5⟩
    exact ⟨f', h1, h2, h3, fun i hi => h4 (by omega) i hi, h5⟩
  · exact ⟨f, hm, hs, hc, fun h => absurd h (Nat.lt_irrefl _), fun _ _ => Nat.le_refl _⟩
  · rintro k m1 hk ⟨f1, hm1, h1, h2, _, hle⟩
    refine (round_ok hP hk hm1 h1 h2).mono ?_
    rintro m' ⟨f', k1, k2, k3, k4, k5⟩
    exact ⟨f', k1, k2, k3, fun _ => k4, fun i j => Nat.le_trans (k5 i j) (hle i j)⟩

/-- Storing the edges. -/
theorem setEdges_ok (hn : n * n ≤ P.umax) {es : List Edge} (hlt : ∀ e ∈ es, e.src < n ∧ e.dst < n)
    (huniq : ∀ e ∈ es, ∀ e' ∈ es, e.src = e'.src → e.dst = e'.dst → e = e') :
    ∃ m f, forM (setEdge P n) (List.replicate (n * n) P.umax) es = .ok m ∧ Mat P n m f ∧
      Sound P (edgesOf es) n f ∧ Complete P (edgesOf es) n 0 f ∧
      ((∀ e ∈ es, e.weight ≤ P.umax) → ∀ i j, f i j ≤ P.umax) := by
  obtain ⟨m, e, f, h1, h2, h3⟩ := forM_ok_of (f := setEdge P n) (l := es) (s := List.replicate (n * n) P.umax)
    (fun pre m => ∃ f, Mat P n m f ∧ (∀ e ∈ pre, f e.src e.dst = e.weight) ∧
      ∀ i j, f i j = P.umax ∨ (⟨i, j, f i j⟩ : Edge) ∈ pre)
    ⟨fun _ _ => P.umax, ⟨⟨hn, by simp⟩, fun i j hi hj => by simp [index_lt hi hj]⟩, fun e he => by simp at he,
      fun _ _ => Or.inl rfl⟩ (by
      rintro pre a post m hl ⟨f, h1, h2, h3⟩
      obtain ⟨ha1, ha2⟩ := hlt a (by rw [hl]; simp)
      obtain ⟨m', e, hm'⟩ := h1.set ha1 ha2 a.weight
      refine ⟨m', e, _, hm', ?_, ?_⟩
      · intro b hb
        rcases List.mem_append.1 hb with hb | hb
        · unfold upd
          by_cases hab : b.src = a.src ∧ b.dst = a.dst
          · rw [if_pos hab]
            rw [huniq b (by rw [hl]; simp [hb]) a (by rw [hl]; simp) hab.1 hab.2]
          · rw [if_neg hab]; exact h2 b hb
        · rw [List.mem_singleton.1 hb, upd_self]
      · intro i j
        unfold upd
        by_cases hab : i = a.src ∧ j = a.dst
        · rw [if_pos hab, hab.1, hab.2]
          exact Or.inr (by simp)
        · rw [if_neg hab]
          rcases h3 i j with h | h
          · exact Or.inl h
          · exact Or.inr (List.mem_append_left _ h))
  refine ⟨m, f, e, h1, ?_, ?_, ?_⟩
  · intro i j _ _
    rcases h3 i j with h | h
    · exact Or.inl h
    · exact Or.inr (Wk.single h)
  · intro i j w _ _ hij hv
    have h : (⟨i, j, w⟩ : Edge) ∈ es := hv.zero hij
    have := h2 _ h
    exact Or.inl (by simp only at this; omega)
  · intro hw i j
    rcases h3 i j with h | h
    · omega
    · exact hw _ h

/-- `new` and `prepare`. -/
theorem prepare_ok (hP : P.checked = true) {ig : InputGraph} (h : FrozenOk ig) :
    Tri (do (← FloydWarshall.new P ig.numNodes).prepare P ig) (fun fw => ∀ s t, s < ig.numNodes → t < ig.numNodes →
      ∃ w, fw.calcWeight P s t = .ok w ∧ (w = P.umax ∨ Wk (edgesOf ig.edges) s t w) ∧
        (∀ w', Wk (edgesOf ig.edges) s t w' → w ≤ w' ∨ P.umax ≤ w') ∧
        ((∀ e ∈ ig.edges, e.weight ≤ P.umax) → w ≤ P.umax)) := by
  unfold FloydWarshall.new
  simp only [bind_assoc]
  refine Tri.bind (Tri_mulW hP _ _) ?_
  rintro size ⟨rfl, hn⟩
  simp only [bind_okM]
  unfold prepare InputGraph.getNumNodes InputGraph.getEdges InputGraph.checkFrozen
  rw [h.frozen]
  simp only [assertM_true, bind_okM, beq_self_eq_true]
  obtain ⟨m, f, e, hm, hs, hc, hle⟩ := setEdges_ok (P := P) (n := ig.numNodes) hn h.lt (fun a ha b hb h1 h2 =>
    List.inj_on_of_nodup_map h.uniq ha hb (by simp [h1, h2]))
  have e' : forM (setEdge P ig.numNodes) (List.replicate (ig.numNodes * ig.numNodes) P.WEIGHT_MAX) ig.edges = .ok m := e
  rw [e']
  simp only [bind_okM]
  refine Tri.bind (loops_ok hP hm hs hc) ?_
  rintro m' ⟨f', h1, h2, h3, h4, h5⟩
  intro s t hs ht
  refine ⟨f' s t, h1.idx hs ht, h2 s t hs ht, ?_, fun hw => Nat.le_trans (h5 s t) (hle hw s t)⟩
  intro w' hw
  by_cases hst : s = t
  · subst hst
    rw [h4 s hs]
    exact Or.inl (Nat.zero_le _)
  · exact h3 s t w' hs ht hst (Wk.toVia (fun u v w he => (h.lt _ he).2) hw)

end FloydWarshall
end FP
