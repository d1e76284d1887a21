import Verif.Model.History
import Verif.Proofs.Recorded
import Mathlib.Data.List.Pairwise
/-! # Histories of `InputGraph` calls -/
namespace FP
open Spec InputGraph

/-! ### The comparator -/

/-- Lexicographic order on (source, target, weight). -/
def ELe (a b : Edge) : Prop :=
  a.src < b.src ∨ (a.src = b.src ∧ (a.dst < b.dst ∨ (a.dst = b.dst ∧ a.weight ≤ b.weight)))

theorem compare_cases (a b : Nat) :
    (a < b ∧ compare a b = .lt) ∨ (a = b ∧ compare a b = .eq) ∨ (b < a ∧ compare a b = .gt) := by
  rcases Nat.lt_trichotomy a b with h | h | h
  · exact Or.inl ⟨h, Nat.compare_eq_lt.2 h⟩
  · exact Or.inr (Or.inl ⟨h, Nat.compare_eq_eq.2 h⟩)
  · exact Or.inr (Or.inr ⟨h, Nat.compare_eq_gt.2 h⟩)

theorem edgeCmp_le (a b : Edge) : edgeCmp a b ≠ .gt ↔ ELe a b := by
  unfold edgeCmp ELe
  rcases compare_cases a.src b.src with ⟨h1, e1⟩ | ⟨h1, e1⟩ | ⟨h1, e1⟩ <;>
  rcases compare_cases a.dst b.dst with ⟨h2, e2⟩ | ⟨h2, e2⟩ | ⟨h2, e2⟩ <;>
  rcases compare_cases a.weight b.weight with ⟨h3, e3⟩ | ⟨h3, e3⟩ | ⟨h3, e3⟩ <;>
  rw [e1, e2, e3] <;> simp [Ordering.then] <;> omega

theorem edgeCmp_gt (a b : Edge) : (edgeCmp a b == .gt) = true ↔ ¬ ELe a b := by
  rw [← edgeCmp_le]; simp

theorem ELe.trans {a b c : Edge} (h1 : ELe a b) (h2 : ELe b c) : ELe a c := by
  unfold ELe at *; omega

theorem ELe.total (a b : Edge) : ELe a b ∨ ELe b a := by
  unfold ELe; omega

theorem ELe.antisymm {a b : Edge} (h1 : ELe a b) (h2 : ELe b a) : a = b := by
  cases a; cases b
  unfold ELe at *
  simp only at h1 h2
  simp only [Edge.mk.injEq]
  omega

/-! ### Sorting -/

theorem insertEdge_perm (e : Edge) : ∀ l, (insertEdge e l).Perm (e :: l)
  | [] => .refl _
  | x :: xs => by
    unfold insertEdge
    by_cases h : (edgeCmp e x == .gt) = true
    · rw [if_pos h]; exact ((insertEdge_perm e xs).cons x).trans (.swap e x xs)
    · rw [if_neg h]

theorem sortEdges_perm : ∀ l, (sortEdges l).Perm l
  | [] => .refl _
  | e :: es => (insertEdge_perm e _).trans ((sortEdges_perm es).cons e)

theorem insertEdge_sorted (e : Edge) : ∀ {l}, l.Pairwise ELe → (insertEdge e l).Pairwise ELe
  | [], _ => by simp [insertEdge]
  | x :: xs, h => by
    unfold insertEdge
    have hx := List.pairwise_cons.1 h
    by_cases hc : (edgeCmp e x == .gt) = true
    · rw [if_pos hc]
      refine List.pairwise_cons.2 ⟨?_, insertEdge_sorted e hx.2⟩
      intro b hb
      rcases List.mem_cons.1 ((insertEdge_perm e xs).mem_iff.1 hb) with rfl | hb
      · rcases ELe.total b x with h1 | h1
        · exact absurd h1 ((edgeCmp_gt _ _).1 hc)
        · exact h1
      · exact hx.1 b hb
    · rw [if_neg hc]
      have he : ELe e x := by
        by_contra hcon; exact hc ((edgeCmp_gt _ _).2 hcon)
      refine List.pairwise_cons.2 ⟨?_, h⟩
      intro b hb
      rcases List.mem_cons.1 hb with rfl | hb
      · exact he
      · exact he.trans (hx.1 b hb)

theorem sortEdges_sorted : ∀ l, (sortEdges l).Pairwise ELe
  | [] => .nil
  | e :: es => insertEdge_sorted e (sortEdges_sorted es)

/-- The sorted arrangement of a list is unique, so the sorting algorithm (and its stability) is irrelevant. -/
theorem sorted_perm_unique {l₁ l₂ : List Edge} (hp : l₁.Perm l₂) (h1 : l₁.Pairwise ELe) (h2 : l₂.Pairwise ELe) :
    l₁ = l₂ :=
  hp.eq_of_pairwise (fun _ _ _ _ h h' => ELe.antisymm h h') h1 h2

/-! ### Deduplication -/

def SameP (a b : Edge) : Prop := a.src = b.src ∧ a.dst = b.dst

/-- strict order on pairs -/
def PLt (a b : Edge) : Prop := a.src < b.src ∨ (a.src = b.src ∧ a.dst < b.dst)

abbrev dd (a b : Edge) : Bool := a.src == b.src && a.dst == b.dst

theorem dd_iff {a b : Edge} : dd a b = true ↔ SameP a b := by simp [dd, SameP]

theorem dedupFrom_sub (prev : Edge) : ∀ l, ∀ e ∈ dedupFrom dd prev l, e ∈ l
  | [], e, h => by simp [dedupFrom] at h
  | a :: r, e, h => by
    unfold dedupFrom at h
    by_cases hc : dd a prev = true
    · rw [if_pos hc] at h; exact List.mem_cons_of_mem _ (dedupFrom_sub prev r e h)
    · rw [if_neg hc] at h
      rcases List.mem_cons.1 h with rfl | h
      · exact List.mem_cons_self
      · exact List.mem_cons_of_mem _ (dedupFrom_sub a r e h)

theorem dedupFrom_spec : ∀ {l : List Edge} {prev : Edge}, (prev :: l).Pairwise ELe →
    (prev :: dedupFrom dd prev l).Pairwise PLt ∧
    ∀ a ∈ prev :: l, ∃ e ∈ prev :: dedupFrom dd prev l, SameP e a ∧ e.weight ≤ a.weight
  | [], prev, _ => by
    refine ⟨by simp [dedupFrom], ?_⟩
    intro a ha
    exact ⟨a, by simpa [dedupFrom] using ha, ⟨rfl, rfl⟩, Nat.le_refl _⟩
  | a :: r, prev, h => by
    unfold dedupFrom
    have hp := List.pairwise_cons.1 h
    have hpa := hp.1 a List.mem_cons_self
    have hr := List.pairwise_cons.1 hp.2
    by_cases hc : dd a prev = true
    · rw [if_pos hc]
      have hs := dd_iff.1 hc
      have h' : (prev :: r).Pairwise ELe :=
        List.pairwise_cons.2 ⟨fun b hb => hp.1 b (List.mem_cons_of_mem _ hb), hr.2⟩
      obtain ⟨i1, i2⟩ := dedupFrom_spec h'
      refine ⟨i1, ?_⟩
      intro b hb
      rcases List.mem_cons.1 hb with rfl | hb
      · exact i2 b List.mem_cons_self
      · rcases List.mem_cons.1 hb with rfl | hb
        · refine ⟨prev, List.mem_cons_self, ⟨hs.1.symm, hs.2.symm⟩, ?_⟩
          unfold ELe at hpa
          unfold SameP at hs
          omega
        · exact i2 b (List.mem_cons_of_mem _ hb)
    · rw [if_neg hc]
      obtain ⟨i1, i2⟩ := dedupFrom_spec hp.2
      have hlt : PLt prev a := by
        have : ¬ SameP a prev := fun hh => hc (dd_iff.2 hh)
        unfold ELe at hpa
        unfold SameP at this
        unfold PLt
        omega
      refine ⟨List.pairwise_cons.2 ⟨?_, i1⟩, ?_⟩
      · intro b hb
        rcases List.mem_cons.1 hb with rfl | hb
        · exact hlt
        · have := (List.pairwise_cons.1 i1).1 b hb
          unfold PLt at *
          omega
      · intro b hb
        rcases List.mem_cons.1 hb with rfl | hb
        · exact ⟨b, List.mem_cons_self, ⟨rfl, rfl⟩, Nat.le_refl _⟩
        · obtain ⟨e, he, h1⟩ := i2 b hb
          exact ⟨e, List.mem_cons_of_mem _ he, h1⟩

/-- What sorting and removing duplicates does. -/
theorem canon_spec (l : List Edge) :
    (removeDuplicateEdges (sortEdges l)).Pairwise PLt ∧
    (∀ e ∈ removeDuplicateEdges (sortEdges l), e ∈ l) ∧
    ∀ a ∈ l, ∃ e ∈ removeDuplicateEdges (sortEdges l), SameP e a ∧ e.weight ≤ a.weight := by
  have hs := sortEdges_sorted l
  have hm : ∀ e, e ∈ sortEdges l ↔ e ∈ l := fun e => (sortEdges_perm l).mem_iff
  unfold removeDuplicateEdges dedupBy
  cases he : sortEdges l with
  | nil =>
    rw [he] at hm
    exact ⟨.nil, by simp, fun a ha => by simpa using (hm a).2 ha⟩
  | cons b r =>
    rw [he] at hs hm
    obtain ⟨i1, i2⟩ := dedupFrom_spec hs
    refine ⟨i1, ?_, fun a ha => i2 a ((hm a).2 ha)⟩
    intro e h
    refine (hm e).1 ?_
    rcases List.mem_cons.1 h with rfl | h
    · exact List.mem_cons_self
    · exact List.mem_cons_of_mem _ (dedupFrom_sub b r e h)

/-! ### The history invariant -/

theorem nodeCount_append (a b : List Edge) : nodeCount (a ++ b) = max (nodeCount a) (nodeCount b) := by
  induction a with
  | nil => simp [nodeCount]
  | cons e es ih =>
    unfold nodeCount at *
    simp only [List.cons_append, List.foldr_cons, ih]
    omega

theorem nodeCount_gt {es : List Edge} : ∀ e ∈ es, e.src < nodeCount es ∧ e.dst < nodeCount es := by
  induction es with
  | nil => simp
  | cons a es ih =>
    intro e he
    have hc : nodeCount (a :: es) = max (nodeCount es) (max a.src a.dst + 1) := rfl
    rcases List.mem_cons.1 he with rfl | he
    · omega
    · have := ih e he; omega

theorem nodeCount_le {es : List Edge} {k : Nat} (h : ∀ e ∈ es, e.src < k ∧ e.dst < k) : nodeCount es ≤ k := by
  induction es with
  | nil => simp [nodeCount]
  | cons a es ih =>
    have hc : nodeCount (a :: es) = max (nodeCount es) (max a.src a.dst + 1) := rfl
    have := ih (fun e he => h e (List.mem_cons_of_mem _ he))
    have := h a List.mem_cons_self
    omega

/-- Invariant relating an `InputGraph` to the edges accepted so far. -/
structure GInv (acc : List Edge) (g : InputGraph) : Prop where
  sub : ∀ e ∈ g.edges, e ∈ acc
  cov : ∀ a ∈ acc, ∃ e ∈ g.edges, SameP e a ∧ e.weight ≤ a.weight
  num : g.numNodes = nodeCount acc
  valid : ∀ e ∈ acc, e.src ≠ e.dst ∧ 1 ≤ e.weight
  sorted : g.frozen = true → g.edges.Pairwise PLt

theorem GInv.new : GInv [] InputGraph.new :=
  ⟨by simp [InputGraph.new], by simp, by simp [InputGraph.new, nodeCount], by simp, by simp [InputGraph.new]⟩

theorem GInv.freeze {acc : List Edge} {g g' : InputGraph} (h : GInv acc g) (hf : g.freeze = .ok g') :
    GInv acc g' ∧ g'.frozen = true := by
  unfold InputGraph.freeze at hf
  by_cases hfr : g.frozen = true
  · rw [if_pos hfr] at hf; cases hf
  · rw [if_neg hfr] at hf
    injection hf with hf
    subst hf
    obtain ⟨c1, c2, c3⟩ := canon_spec g.edges
    refine ⟨⟨fun e he => h.sub e (c2 e he), ?_, h.num, h.valid, fun _ => c1⟩, rfl⟩
    intro a ha
    obtain ⟨e, he, hs, hw⟩ := h.cov a ha
    obtain ⟨e', he', hs', hw'⟩ := c3 e he
    exact ⟨e', he', ⟨hs'.1.trans hs.1, hs'.2.trans hs.2⟩, by omega⟩

theorem GInv.thaw {acc : List Edge} {g : InputGraph} (h : GInv acc g) : GInv acc g.thaw :=
  ⟨h.sub, h.cov, h.num, h.valid, by simp [InputGraph.thaw]⟩

/-- The two calls that add edges. -/
theorem GInv.add {P : Plat} {acc : List Edge} {g g' : InputGraph} (h : GInv acc g) {s d w k : Nat} {b : Bool}
    (hov : addW P (max s d) 1 = .ok (max s d + 1) ∨ P.checked = true)
    (hr : doAddEdge P g s d w b = .ok (g', k)) :
    GInv (acc ++ (if s ≠ d ∧ 1 ≤ w then (if b then [⟨s, d, w⟩, ⟨d, s, w⟩] else [⟨s, d, w⟩]) else [])) g' ∧
    k = (if s ≠ d ∧ 1 ≤ w then (if b then 2 else 1) else 0) ∧ g.frozen = false ∧ g'.frozen = false := by
  unfold doAddEdge at hr
  by_cases hfr : g.frozen = true
  · rw [if_pos hfr] at hr; cases hr
  have hfr' : g.frozen = false := by simpa using hfr
  rw [if_neg hfr] at hr
  by_cases hsd : s = d
  · rw [if_pos (by simp [hsd])] at hr
    injection hr with hr
    injection hr with h1 h2
    subst h1 h2
    have : ¬ (s ≠ d ∧ 1 ≤ w) := fun hh => hh.1 hsd
    rw [if_neg this, if_neg this, List.append_nil]
    exact ⟨h, rfl, hfr', hfr'⟩
  rw [if_neg (by simp [hsd])] at hr
  by_cases hw : w < 1
  · rw [if_pos hw] at hr
    injection hr with hr
    injection hr with h1 h2
    subst h1 h2
    have : ¬ (s ≠ d ∧ 1 ≤ w) := fun hh => by omega
    rw [if_neg this, if_neg this, List.append_nil]
    exact ⟨h, rfl, hfr', hfr'⟩
  rw [if_neg hw] at hr
  have hm : addW P (max s d) 1 = .ok (max s d + 1) := by
    rcases hov with hov | hov
    · exact hov
    · unfold addW at hr ⊢
      by_cases hle : max s d + 1 ≤ P.umax
      · rw [if_pos hle]
      · rw [if_neg hle, if_pos hov] at hr
        cases hr
  rw [hm] at hr
  simp only [bind_okM] at hr
  injection hr with hr
  injection hr with h1 h2
  have hc : s ≠ d ∧ 1 ≤ w := ⟨hsd, by omega⟩
  rw [if_pos hc, if_pos hc]
  refine ⟨?_, h2.symm, hfr', by rw [← h1]; exact hfr'⟩
  have hedges : g'.edges = g.edges ++ (if b then [⟨s, d, w⟩, ⟨d, s, w⟩] else [⟨s, d, w⟩]) := by
    rw [← h1]; cases b <;> simp
  refine ⟨?_, ?_, ?_, ?_, ?_⟩
  · intro e he
    rw [hedges] at he
    rcases List.mem_append.1 he with he | he
    · exact List.mem_append.2 (Or.inl (h.sub e he))
    · exact List.mem_append.2 (Or.inr he)
  · intro a ha
    rw [hedges]
    rcases List.mem_append.1 ha with ha | ha
    · obtain ⟨e, he, h3⟩ := h.cov a ha
      exact ⟨e, List.mem_append.2 (Or.inl he), h3⟩
    · exact ⟨a, List.mem_append.2 (Or.inr ha), ⟨rfl, rfl⟩, Nat.le_refl _⟩
  · rw [nodeCount_append, ← h.num, ← h1]
    cases b <;> simp [nodeCount, Nat.max_comm]
  · intro e he
    rcases List.mem_append.1 he with he | he
    · exact h.valid e he
    · cases b
      · simp at he; subst he; exact hc
      · simp at he
        rcases he with rfl | rfl
        · exact hc
        · exact ⟨fun hh => hsd hh.symm, hc.2⟩
  · intro hcon; rw [← h1] at hcon; simp only at hcon; rw [hfr'] at hcon; cases hcon

/-- Condition under which `max(from, to) + 1` does not wrap. -/
def NoWrap (P : Plat) (acc : List Edge) : Prop := P.checked = true ∨ nodeCount acc ≤ P.umax

theorem NoWrap.mono {P : Plat} {a b : List Edge} (h : NoWrap P (a ++ b)) : NoWrap P a := by
  rcases h with h | h
  · exact Or.inl h
  · refine Or.inr ?_
    rw [nodeCount_append] at h; omega

theorem accepted_append (a b : List Op) : accepted (a ++ b) = accepted a ++ accepted b := by
  simp [accepted]

theorem op_run_inv {P : Plat} {acc : List Edge} {g g' : InputGraph} (h : GInv acc g) (op : Op)
    (hw : NoWrap P (acc ++ op.edges)) (hr : op.run P g = .ok g') : GInv (acc ++ op.edges) g' := by
  have key : ∀ s d w, (s ≠ d ∧ 1 ≤ w → s < nodeCount (acc ++ op.edges) ∧ d < nodeCount (acc ++ op.edges)) →
      s ≠ d ∧ 1 ≤ w → addW P (max s d) 1 = .ok (max s d + 1) ∨ P.checked = true := by
    intro s d w hlt hc
    rcases hw with hw | hw
    · exact Or.inr hw
    · refine Or.inl ?_
      have := hlt hc
      unfold addW
      rw [if_pos (by omega)]
  have skip : ∀ {s d w b k}, doAddEdge P g s d w b = .ok (g', k) → ¬ (s ≠ d ∧ 1 ≤ w) →
      doAddEdge ⟨P.umax, true⟩ g s d w b = .ok (g', k) := by
    intro s d w b k h1 hc
    unfold doAddEdge at h1 ⊢
    by_cases hsd : s = d
    · subst hsd; simpa using h1
    · have : w < 1 := by
        by_contra hcon; exact hc ⟨hsd, by omega⟩
      simp only [this] at h1 ⊢
      exact h1
  cases op with
  | addEdge s d w =>
    simp only [Spec.Op.run, InputGraph.addEdge] at hr
    cases hd : doAddEdge P g s d w false with
    | error e => rw [hd] at hr; cases hr
    | ok r =>
      rw [hd] at hr
      simp only [bind_okM] at hr
      injection hr with hr
      subst hr
      by_cases hc : s ≠ d ∧ 1 ≤ w
      · have hk := key s d w (fun hc => by
          have := nodeCount_gt (es := acc ++ Op.edges (.addEdge s d w)) ⟨s, d, w⟩ (by simp [Op.edges, hc.1, hc.2])
          exact this) hc
        simpa [Op.edges] using (h.add (P := P) (k := r.2) hk hd).1
      · simpa [Op.edges] using (h.add (k := r.2) (Or.inr rfl) (skip hd hc)).1
  | addEdgeBidir s d w =>
    simp only [Spec.Op.run, InputGraph.addEdgeBidir] at hr
    cases hd : doAddEdge P g s d w true with
    | error e => rw [hd] at hr; cases hr
    | ok r =>
      rw [hd] at hr
      simp only [bind_okM] at hr
      injection hr with hr
      subst hr
      by_cases hc : s ≠ d ∧ 1 ≤ w
      · have hk := key s d w (fun hc => by
          have := nodeCount_gt (es := acc ++ Op.edges (.addEdgeBidir s d w)) ⟨s, d, w⟩ (by simp [Op.edges, hc.1, hc.2])
          exact this) hc
        simpa [Op.edges] using (h.add (P := P) (k := r.2) hk hd).1
      · simpa [Op.edges] using (h.add (k := r.2) (Or.inr rfl) (skip hd hc)).1
  | freeze => simpa [Op.edges] using (h.freeze hr).1
  | thaw =>
    simp only [Spec.Op.run] at hr
    injection hr with hr
    subst hr
    simpa [Op.edges] using h.thaw

theorem forM_inv {σ α : Type} {f : σ → α → M σ} {I : List α → σ → Prop}
    (hs : ∀ pre a s s', I pre s → f s a = .ok s' → I (pre ++ [a]) s') :
    ∀ (l pre : List α) (s s' : σ), I pre s → forM f s l = .ok s' → I (pre ++ l) s' := by
  intro l
  induction l with
  | nil => intro pre s s' h hr; simp at hr; subst hr; simpa using h
  | cons a as ih =>
    intro pre s s' h hr
    rw [forM_cons] at hr
    cases he : f s a with
    | error e => rw [he] at hr; cases hr
    | ok s1 =>
      rw [he] at hr
      simp only [bind_okM] at hr
      have := ih (pre ++ [a]) s1 s' (hs pre a s s1 h he) hr
      simpa using this

/-- Every reachable graph satisfies the invariant. -/
theorem buildGraph_inv {P : Plat} {ops : List Op} {g : InputGraph} (hw : NoWrap P (accepted ops))
    (hr : buildGraph P ops = .ok g) : GInv (accepted ops) g := by
  have := forM_inv (f := fun g (op : Op) => op.run P g)
    (I := fun pre g => NoWrap P (accepted pre) → GInv (accepted pre) g) (by
      intro pre a s s' hI hrun hnw
      rw [accepted_append] at hnw ⊢
      have ha : accepted [a] = a.edges := by simp [accepted]
      rw [ha] at hnw ⊢
      exact op_run_inv (hI hnw.mono) a hnw hrun) ops [] _ _ (fun _ => GInv.new) hr
  simpa using this (by simpa using hw)

theorem addW_le {P : Plat} {a b c : Nat} (h : addW P a b = .ok c) : c ≤ P.umax := by
  unfold addW at h
  split at h
  · cases h; assumption
  · split at h
    · cases h
    · cases h
      exact Nat.le_of_lt_succ (Nat.mod_lt _ (Nat.succ_pos _))

theorem doAddEdge_num_le {P : Plat} {g : InputGraph} {s d w : Nat} {b : Bool} {r : InputGraph × Nat}
    (h : g.doAddEdge P s d w b = .ok r) (hg : g.numNodes ≤ P.umax) : r.1.numNodes ≤ P.umax := by
  unfold InputGraph.doAddEdge at h
  split at h
  · cases h
  split at h
  · cases h; exact hg
  split at h
  · cases h; exact hg
  cases hm : addW P (max s d) 1 with
  | error e => rw [hm] at h; cases h
  | ok m =>
    rw [hm] at h
    cases h
    have := addW_le hm
    simp only
    omega

/-- The node count is always a `usize`. -/
theorem buildGraph_num_le {P : Plat} {ops : List Op} {g : InputGraph} (hr : buildGraph P ops = .ok g) :
    g.numNodes ≤ P.umax := by
  refine forM_inv (f := fun g (op : Op) => op.run P g) (I := fun _ g => g.numNodes ≤ P.umax) ?_ ops [] _ _
    (Nat.zero_le _) hr
  intro pre a s s' hs hrun
  cases a with
  | addEdge x y w =>
    simp only [Op.run, InputGraph.addEdge] at hrun
    cases hd : s.doAddEdge P x y w false with
    | error e => rw [hd] at hrun; cases hrun
    | ok r => rw [hd] at hrun; cases hrun; exact doAddEdge_num_le hd hs
  | addEdgeBidir x y w =>
    simp only [Op.run, InputGraph.addEdgeBidir] at hrun
    cases hd : s.doAddEdge P x y w true with
    | error e => rw [hd] at hrun; cases hrun
    | ok r => rw [hd] at hrun; cases hrun; exact doAddEdge_num_le hd hs
  | freeze =>
    simp only [Op.run, InputGraph.freeze] at hrun
    split at hrun
    · cases hrun
    · cases hrun; exact hs
  | thaw => cases hrun; exact hs

theorem pairwise_PLt_nodup {l : List Edge} (h : l.Pairwise PLt) : (l.map (fun e => (e.src, e.dst))).Nodup := by
  rw [List.Nodup, List.pairwise_map]
  refine h.imp ?_
  intro a b hab he
  simp only [Prod.mk.injEq] at he
  unfold PLt at hab
  omega

theorem GInv.frozenOk {acc : List Edge} {g : InputGraph} (h : GInv acc g) (hf : g.frozen = true) : FrozenOk g where
  frozen := hf
  ne := fun e he => (h.valid e (h.sub e he)).1
  lt := fun e he => by rw [h.num]; exact nodeCount_gt e (h.sub e he)
  uniq := pairwise_PLt_nodup (h.sorted hf)

theorem GInv.pos {acc : List Edge} {g : InputGraph} (h : GInv acc g) : ∀ e ∈ g.edges, 1 ≤ e.weight :=
  fun e he => (h.valid e (h.sub e he)).2

theorem uniq_of_sorted {l : List Edge} (h : l.Pairwise PLt) {a b : Edge} (ha : a ∈ l) (hb : b ∈ l) (hs : SameP a b) :
    a = b := by
  by_contra hne
  rcases List.mem_iff_getElem?.1 ha with ⟨i, hi⟩
  rcases List.mem_iff_getElem?.1 hb with ⟨j, hj⟩
  have hij : i ≠ j := by
    rintro rfl; rw [hi] at hj; exact hne (Option.some.inj hj)
  have hpw := List.pairwise_iff_getElem.1 h
  obtain ⟨hi1, hi2⟩ := List.getElem?_eq_some_iff.1 hi
  obtain ⟨hj1, hj2⟩ := List.getElem?_eq_some_iff.1 hj
  unfold SameP at hs
  rcases Nat.lt_or_ge i j with hlt | hge
  · have := hpw i j hi1 hj1 hlt
    rw [hi2, hj2] at this
    unfold PLt at this; omega
  · have := hpw j i hj1 hi1 (by omega)
    rw [hi2, hj2] at this
    unfold PLt at this; omega

/-- Membership in a frozen graph: exactly the lightest accepted edge of every pair. -/
theorem GInv.mem_iff {acc : List Edge} {g : InputGraph} (h : GInv acc g) (hf : g.frozen = true) (u v w : Nat) :
    (⟨u, v, w⟩ : Edge) ∈ g.edges ↔ IsMinEdge acc u v w := by
  constructor
  · intro he
    refine ⟨h.sub _ he, ?_⟩
    intro w' hw'
    obtain ⟨e, he', hs, hle⟩ := h.cov _ hw'
    have := uniq_of_sorted (h.sorted hf) he he' ⟨hs.1.symm, hs.2.symm⟩
    subst this
    exact hle
  · rintro ⟨hm, hmin⟩
    obtain ⟨⟨u', v', w'⟩, he', hs, hle⟩ := h.cov _ hm
    obtain ⟨rfl, rfl⟩ := hs
    have := hmin w' (h.sub _ he')
    simp only at hle
    have : w' = w := by omega
    subst this
    exact he'

/-- A strictly sorted list is determined by its elements. -/
theorem sorted_ext {l₁ l₂ : List Edge} (h1 : l₁.Pairwise PLt) (h2 : l₂.Pairwise PLt) (hm : ∀ e, e ∈ l₁ ↔ e ∈ l₂) :
    l₁ = l₂ := by
  have n1 : l₁.Nodup := (pairwise_PLt_nodup h1).of_map
  have n2 : l₂.Nodup := (pairwise_PLt_nodup h2).of_map
  refine sorted_perm_unique ((List.perm_ext_iff_of_nodup n1 n2).2 hm) ?_ ?_
  · exact h1.imp (fun h => by unfold PLt at h; unfold ELe; omega)
  · exact h2.imp (fun h => by unfold PLt at h; unfold ELe; omega)

theorem exists_minEdge {acc : List Edge} {a : Edge} (ha : a ∈ acc) : ∃ w, IsMinEdge acc a.src a.dst w := by
  classical
  have hex : ∃ w, (⟨a.src, a.dst, w⟩ : Edge) ∈ acc := ⟨a.weight, ha⟩
  induction hn : a.weight using Nat.strongRecOn generalizing a with
  | _ n ih =>
    by_cases h : ∃ w' < n, (⟨a.src, a.dst, w'⟩ : Edge) ∈ acc
    · obtain ⟨w', hlt, hm⟩ := h
      exact ih w' hlt (a := ⟨a.src, a.dst, w'⟩) hm ⟨w', hm⟩ rfl
    · refine ⟨n, by rw [← hn]; exact ha, ?_⟩
      intro w' hw'
      by_contra hc
      exact h ⟨w', by omega, hw'⟩

theorem nodeCount_congr {a b : List Edge} (h : ∀ u v, (∃ w, IsMinEdge a u v w) ↔ ∃ w, IsMinEdge b u v w) :
    nodeCount a = nodeCount b := by
  have key : ∀ {a b : List Edge}, (∀ u v, (∃ w, IsMinEdge a u v w) → ∃ w, IsMinEdge b u v w) → nodeCount a ≤ nodeCount b := by
    intro a b h
    refine nodeCount_le ?_
    intro e he
    obtain ⟨w, hw⟩ := h _ _ (exists_minEdge he)
    exact nodeCount_gt (⟨e.src, e.dst, w⟩ : Edge) hw.1
  exact Nat.le_antisymm (key (fun u v => (h u v).1)) (key (fun u v => (h u v).2))

/-- Graphs frozen from histories with the same lightest edges are equal. -/
theorem GInv.ext {a b : List Edge} {g g' : InputGraph} (h : GInv a g) (h' : GInv b g') (hf : g.frozen = true)
    (hf' : g'.frozen = true) (hab : ∀ u v w, IsMinEdge a u v w ↔ IsMinEdge b u v w) : g = g' := by
  have he : g.edges = g'.edges := by
    refine sorted_ext (h.sorted hf) (h'.sorted hf') ?_
    rintro ⟨u, v, w⟩
    rw [h.mem_iff hf, h'.mem_iff hf', hab]
  have hn : g.numNodes = g'.numNodes := by
    rw [h.num, h'.num]
    exact nodeCount_congr (fun u v => exists_congr (fun w => hab u v w))
  cases g; cases g'
  simp only at he hn hf hf'
  subst he hn hf hf'
  rfl

/-- Walks in the frozen graph and in the list of accepted edges have the same minimal weights. -/
theorem GInv.walk_sub {acc : List Edge} {g : InputGraph} (h : GInv acc g) {s t w : Nat}
    (hw : Wk (edgesOf g.edges) s t w) : Wk (edgesOf acc) s t w :=
  hw.mono (fun _ _ _ he => h.sub _ he)

theorem GInv.walk_le {acc : List Edge} {g : InputGraph} (h : GInv acc g) {s t w : Nat}
    (hw : Wk (edgesOf acc) s t w) : ∃ w' ≤ w, Wk (edgesOf g.edges) s t w' :=
  hw.bind_le (fun u v w he => by
    obtain ⟨⟨u', v', w'⟩, he', hs, hle⟩ := h.cov _ he
    obtain ⟨rfl, rfl⟩ := hs
    exact ⟨w', hle, Wk.single he'⟩)

end FP
