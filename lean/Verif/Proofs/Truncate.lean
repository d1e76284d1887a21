import Verif.Proofs.TextBytes
/-!
# Text files that end too early

Lemmas for C85: what the two readers make of a beginning of a text that was written by `to_file` or `to_dimacs_file`.
-/
namespace FP
open Spec TextIO

variable {P : Plat}

/-- A beginning of the digits of `w`, not empty, are the digits of `w` divided by a power of ten. -/
theorem showNat_prefix (w : Nat) : ∀ {p : List Char}, p <+: showNat w → p ≠ [] →
    ∃ j, p = showNat (w / 10 ^ j) ∧ (1 ≤ w → 1 ≤ w / 10 ^ j) := by
  induction w using Nat.strongRecOn with
  | ind w ih =>
    intro p hp hne
    by_cases h : w < 10
    · have hs : showNat w = [Nat.digitChar w] := by
        unfold showNat
        rw [Nat.toDigits_eq_if (by omega), if_pos h]
      refine ⟨0, ?_, by simp⟩
      rw [Nat.pow_zero, Nat.div_one]
      rw [hs] at hp ⊢
      cases p with
      | nil => exact absurd rfl hne
      | cons a p =>
        have := List.cons_prefix_cons.1 hp
        rw [this.1, List.prefix_nil.1 this.2]
    · have hs : showNat w = showNat (w / 10) ++ [Nat.digitChar (w % 10)] := by
        unfold showNat
        rw [Nat.toDigits_eq_if (by omega), if_neg h]
      have hp' := hp
      rw [hs] at hp'
      rcases List.prefix_concat_iff.1 hp' with h1 | h1
      · refine ⟨0, ?_, by simp⟩
        rw [Nat.pow_zero, Nat.div_one, h1, hs]
      · obtain ⟨j, h2, h3⟩ := ih (w / 10) (by omega) h1 hne
        have he : w / 10 / 10 ^ j = w / 10 ^ (j + 1) := by rw [Nat.div_div_eq_div_mul, Nat.pow_succ, Nat.mul_comm]
        rw [he] at h2 h3
        exact ⟨j + 1, h2, fun _ => h3 (by omega)⟩

/-- A beginning of a word, a separator and more. -/
theorem prefix_word {r s t : List Char} {c : Char} (h : r <+: s ++ c :: t) : r <+: s ∨ ∃ t', r = s ++ c :: t' ∧ t' <+: t := by
  rcases List.prefix_or_prefix_of_prefix h (List.prefix_append s (c :: t)) with h1 | h1
  · exact Or.inl h1
  · obtain ⟨u, rfl⟩ := h1
    cases u with
    | nil => left; rw [List.append_nil]; exact List.prefix_refl s
    | cons a u =>
      have h2 := (List.prefix_append_right_inj s).1 h
      have h3 := List.cons_prefix_cons.1 h2
      exact Or.inr ⟨u, by rw [h3.1], h3.2⟩

theorem space_nil : IsSpace ([] : List Char) := by intro c hc; simp at hc

/-- a beginning of a word is at most one word -/
theorem split_prefix {r s : List Char} (hs : ∀ c ∈ s, isWhitespace c = false) (h : r <+: s) :
    splitWhitespace r = [] ∨ (r ≠ [] ∧ splitWhitespace r = [r]) := by
  by_cases hr : r = []
  · left; rw [hr]; rfl
  · right
    refine ⟨hr, ?_⟩
    have := splitWhitespace_last space_nil (w := r) (fun c hc => hs c (h.subset hc)) hr
    simpa using this

theorem split_word {s t : List Char} (hs : ∀ c ∈ s, isWhitespace c = false) (hne : s ≠ []) :
    splitWhitespace (s ++ ' ' :: t) = s :: splitWhitespace t := by
  have := splitWhitespace_cons (c := ' ') space_nil hs hne (rest := t) (by decide)
  simpa using this

theorem showNat_space (n : Nat) : ∀ c ∈ showNat n, isWhitespace c = false := (showNat_decimal n).plain

/-- the number at the beginning of the digits of `w` -/
theorem number_showNat {w v : Nat} (h : IsNumber P (showNat w) v) : v = w := by
  have hd := showNat_decimal w
  rcases h.2 with h1 | ⟨ds, h1, _⟩
  · rw [h1.2.2, ← hd.2.2]
  · exact absurd (hd.2.1 '+' (by rw [h1]; simp)) plus_not_digit

theorem numbers_one {r : List Char} {w w' : Nat} (hr : r <+: showNat w) (h : List.Forall₂ (IsNumber P) (splitWhitespace r) [w']) :
    ∃ j, w' = w / 10 ^ j ∧ r = showNat w' ∧ (1 ≤ w → 1 ≤ w') := by
  rcases split_prefix (showNat_space w) hr with h1 | ⟨hne, h1⟩
  · rw [h1] at h; cases h
  · rw [h1] at h
    obtain ⟨j, h2, h3⟩ := showNat_prefix w hr hne
    cases h with
    | cons h4 _ =>
      rw [h2] at h4
      have := number_showNat h4
      exact ⟨j, this, by rw [h2, this], fun h => by rw [this]; exact h3 h⟩

theorem numbers_two {r : List Char} {a w a' w' : Nat} (hr : r <+: showNat a ++ ' ' :: showNat w)
    (h : List.Forall₂ (IsNumber P) (splitWhitespace r) [a', w']) :
    a' = a ∧ ∃ j, w' = w / 10 ^ j ∧ r = showNat a ++ ' ' :: showNat w' ∧ (1 ≤ w → 1 ≤ w') := by
  rcases prefix_word hr with h1 | ⟨t, rfl, h1⟩
  · rcases split_prefix (showNat_space a) h1 with h2 | ⟨_, h2⟩
    · rw [h2] at h; cases h
    · rw [h2] at h
      cases h with
      | cons _ h => cases h
  · rw [split_word (showNat_space a) (showNat_decimal a).1] at h
    cases h with
    | cons h2 h3 =>
      obtain ⟨j, h4, h5, h6⟩ := numbers_one h1 h3
      exact ⟨number_showNat h2, j, h4, by rw [← h5], h6⟩

theorem numbers_three {r : List Char} {a b w a' b' w' : Nat} (hr : r <+: showNat a ++ ' ' :: (showNat b ++ ' ' :: showNat w))
    (h : List.Forall₂ (IsNumber P) (splitWhitespace r) [a', b', w']) :
    a' = a ∧ b' = b ∧ ∃ j, w' = w / 10 ^ j ∧ r = showNat a ++ ' ' :: (showNat b ++ ' ' :: showNat w') ∧ (1 ≤ w → 1 ≤ w') := by
  rcases prefix_word hr with h1 | ⟨t, rfl, h1⟩
  · rcases split_prefix (showNat_space a) h1 with h2 | ⟨_, h2⟩
    · rw [h2] at h; cases h
    · rw [h2] at h
      cases h with
      | cons _ h => cases h
  · rw [split_word (showNat_space a) (showNat_decimal a).1] at h
    cases h with
    | cons h2 h3 =>
      obtain ⟨h4, j, h5, h6, h7⟩ := numbers_two h1 h3
      exact ⟨number_showNat h2, h4, j, h5, by rw [← h6], h7⟩

/-- An arc that is read from a beginning of an arc line. -/
theorem arc_prefix {e e' : Edge} {q : List Char} (hq : q <+: arcBody e.src e.dst e.weight) (h : IsArcLine P q e') :
    ∃ j, e' = cutEdge j e ∧ (1 ≤ e.weight → 1 ≤ e'.weight) := by
  obtain ⟨rest, rfl, h2⟩ := h
  unfold arcBody at hq
  have h3 := (List.cons_prefix_cons.1 (List.cons_prefix_cons.1 hq).2).2
  obtain ⟨h4, h5, j, h6, _, h7⟩ := numbers_three h3 (isNumbers_iff.1 h2)
  refine ⟨j, ?_, h7⟩
  cases e'
  simp only at h4 h5 h6
  rw [h4, h5, h6]; rfl

/-- A problem line that is read from a beginning of one. -/
theorem problem_prefix {n m n' m' : Nat} {q : List Char} (hq : q <+: problemBody n m) (h : IsProblemLine P q n' m') :
    n' = n ∧ ∃ j, m' = m / 10 ^ j ∧ (1 ≤ m → 1 ≤ m') := by
  obtain ⟨rest, rfl, h2⟩ := h
  have h3 : rest <+: showNat n ++ ' ' :: showNat m := by
    unfold problemBody at hq
    simpa [List.cons_prefix_cons] using hq
  obtain ⟨h4, j, h6, _, h7⟩ := numbers_two h3 (isNumbers_iff.1 h2)
  exact ⟨h4, j, h6, h7⟩

theorem problem_unique {n m n' m' : Nat} (h : IsProblemLine P (problemBody n m) n' m') : n' = n ∧ m' = m := by
  obtain ⟨rest, h1, h2⟩ := h
  have h3 : rest = showNat n ++ ' ' :: showNat m := by
    unfold problemBody at h1
    simpa using h1.symm
  subst h3
  obtain ⟨h4, j, _, h6, _⟩ := numbers_two (List.prefix_refl _) (isNumbers_iff.1 h2)
  refine ⟨h4, ?_⟩
  have h7 := List.append_cancel_left h6
  injection h7 with _ h7
  have h8 := (showNat_decimal m).2.2
  rw [h7, ← (showNat_decimal m').2.2] at h8
  exact h8.symm

/-- A beginning of the arc lines: some complete lines and a beginning of the next. -/
theorem prefix_arcs : ∀ {es : List Edge} {p : List Char}, p <+: es.flatMap (fun e => arcLine e.src e.dst e.weight) →
    ∃ k q, p = (es.take k).flatMap (fun e => arcLine e.src e.dst e.weight) ++ q ∧
      (q = [] ∨ q ≠ [] ∧ ∃ e, es[k]? = some e ∧ q <+: arcBody e.src e.dst e.weight)
  | [], p, h => ⟨0, [], by simpa using h, Or.inl rfl⟩
  | e :: es, p, h => by
    rw [List.flatMap_cons] at h
    rcases List.prefix_or_prefix_of_prefix h (List.prefix_append _ _) with h1 | ⟨u, rfl⟩
    · rw [arcLine_eq] at h1
      rcases List.prefix_concat_iff.1 h1 with h2 | h2
      · exact ⟨1, [], by simp [h2, arcLine_eq], Or.inl rfl⟩
      · by_cases hp : p = []
        · exact ⟨0, [], by simp [hp], Or.inl rfl⟩
        · exact ⟨0, p, by simp, Or.inr ⟨hp, e, rfl, h2⟩⟩
    · obtain ⟨k, q, h3, h4⟩ := prefix_arcs ((List.prefix_append_right_inj _).1 h)
      exact ⟨k + 1, q, by simp [h3], by simpa using h4⟩

theorem lines_arcs_append (es : List Edge) (r : List Char) :
    lines (es.flatMap (fun e => arcLine e.src e.dst e.weight) ++ r) =
      es.map (fun e => arcBody e.src e.dst e.weight) ++ lines r := by
  induction es with
  | nil => rfl
  | cons e es ih =>
    rw [List.flatMap_cons, arcLine_eq, List.append_assoc, List.append_assoc, List.singleton_append,
      lines_cons _ (arcBody_plain _ _ _).1 (arcBody_plain _ _ _).2, ih]
    rfl

theorem lines_tail {e : Edge} {q : List Char} (hq : q <+: arcBody e.src e.dst e.weight) (hne : q ≠ []) : lines q = [q] :=
  lines_last (fun h => (arcBody_plain _ _ _).1 (hq.subset h)) hne

/-- `Forall₂` over the arc lines and something else -/
theorem forall₂_arcs_append {es : List Edge} (h : ∀ e ∈ es, e.src ≤ P.umax ∧ e.dst ≤ P.umax ∧ e.weight ≤ P.umax)
    {ls : List (List Char)} {xs : List Edge}
    (hf : List.Forall₂ (IsArcLine P) (es.map (fun e => arcBody e.src e.dst e.weight) ++ ls) xs) :
    ∃ ys, xs = es ++ ys ∧ List.Forall₂ (IsArcLine P) ls ys := by
  induction es generalizing xs with
  | nil => exact ⟨xs, rfl, hf⟩
  | cons e es ih =>
    cases hf with
    | cons h1 h2 =>
      have he := h e (by simp)
      obtain ⟨ys, h3, h4⟩ := ih (fun x hx => h x (by simp [hx])) h2
      rw [isArcLine_unique h1 (arcBody_isArc he.1 he.2.1 he.2.2), h3]
      exact ⟨ys, rfl, h4⟩

/-- What comes after the complete lines. -/
theorem tail_arcs {es : List Edge} {k : Nat} {q : List Char} {ys : List Edge} {f : List Char → Bool}
    (hq : q = [] ∨ q ≠ [] ∧ ∃ e, es[k]? = some e ∧ q <+: arcBody e.src e.dst e.weight)
    (h : List.Forall₂ (IsArcLine P) ((lines q).filter f) ys) :
    ys = [] ∨ ∃ e j, es[k]? = some e ∧ ys = [cutEdge j e] ∧ (1 ≤ e.weight → 1 ≤ (cutEdge j e).weight) := by
  rcases hq with rfl | ⟨hne, e, he, hp⟩
  · left
    rw [lines_nil] at h
    cases h; rfl
  · rw [lines_tail hp hne] at h
    by_cases hf : f q = true
    · rw [List.filter_cons_of_pos hf] at h
      cases h with
      | cons h1 h2 =>
        cases h2
        obtain ⟨j, rfl, h3⟩ := arc_prefix hp h1
        exact Or.inr ⟨e, j, he, rfl, h3⟩
    · left
      rw [List.filter_cons_of_neg hf] at h
      cases h; rfl

/-- Adding edges that are already sorted gives a graph with exactly these edges. -/
theorem build_sorted {es : List Edge} (hs : es.Pairwise PLt) (hv : ∀ e ∈ es, e.src ≠ e.dst ∧ 1 ≤ e.weight)
    (hn : nodeCount es ≤ P.umax) : buildGraph P (addAll es) = .ok ⟨es, nodeCount es, true⟩ :=
  rebuild (acc := es) (g := ⟨es, nodeCount es, true⟩)
    ⟨fun _ h => h, fun a ha => ⟨a, ha, ⟨rfl, rfl⟩, Nat.le_refl _⟩, rfl, hv, fun _ => hs⟩ rfl hn

/-- The same pairs. -/
theorem pairs_sorted : ∀ {a b : List Edge}, List.Forall₂ SameP a b → b.Pairwise PLt → a.Pairwise PLt
  | [], _, _, _ => .nil
  | _ :: _, _, .cons h1 h2, .cons h3 h4 => by
    refine .cons ?_ (pairs_sorted h2 h4)
    intro x hx
    obtain ⟨y, hy, hxy⟩ := forall₂_mem h2 hx
    have h5 := h3 y hy
    unfold PLt SameP at *
    rw [h1.1, h1.2, hxy.1, hxy.2]
    exact h5

theorem pairs_count {a b : List Edge} (h : List.Forall₂ SameP a b) : nodeCount a = nodeCount b := by
  induction h with
  | nil => rfl
  | cons h1 _ ih =>
    unfold nodeCount at *
    rw [List.foldr_cons, List.foldr_cons, ih, h1.1, h1.2]

theorem cutLast_nil (j : Nat) : cutLast j [] = [] := rfl

theorem cutLast_concat (j : Nat) (es : List Edge) (e : Edge) : cutLast j (es ++ [e]) = es ++ [cutEdge j e] := by
  simp [cutLast]

theorem cutEdge_zero (e : Edge) : cutEdge 0 e = e := by simp [cutEdge]

theorem cutLast_zero (es : List Edge) : cutLast 0 es = es := by
  rcases List.eq_nil_or_concat es with rfl | ⟨l, e, rfl⟩
  · rfl
  · rw [List.concat_eq_append, cutLast_concat, cutEdge_zero]

theorem samePairs_refl : ∀ (es : List Edge), List.Forall₂ SameP es es
  | [] => .nil
  | _ :: es => .cons ⟨rfl, rfl⟩ (samePairs_refl es)

theorem cutLast_pairs (j : Nat) (es : List Edge) : List.Forall₂ SameP (cutLast j es) es := by
  rcases List.eq_nil_or_concat es with rfl | ⟨l, e, rfl⟩
  · exact .nil
  · rw [List.concat_eq_append, cutLast_concat]
    induction l with
    | nil => exact .cons ⟨rfl, rfl⟩ .nil
    | cons a l ih => exact .cons ⟨rfl, rfl⟩ ih

theorem nodeCount_take (k : Nat) (es : List Edge) : nodeCount (es.take k) ≤ nodeCount es := by
  have h := nodeCount_append (es.take k) (es.drop k)
  rw [List.take_append_drop] at h
  omega

/-- The graph that is built from the first `k` edges with the last weight cut. -/
theorem build_cut {acc : List Edge} {g : InputGraph} (h : GInv acc g) (hf : g.frozen = true) (hn : g.numNodes ≤ P.umax) (k j : Nat)
    (hv : ∀ e ∈ cutLast j (g.edges.take k), 1 ≤ e.weight) :
    buildGraph P (addAll (cutLast j (g.edges.take k))) =
      .ok ⟨cutLast j (g.edges.take k), nodeCount (g.edges.take k), true⟩ := by
  have hp := cutLast_pairs j (g.edges.take k)
  have hlt := (h.frozenOk hf).lt
  rw [build_sorted (P := P)]
  · rw [pairs_count hp]
  · exact pairs_sorted hp ((h.sorted hf).sublist (List.take_sublist _ _))
  · intro e he
    obtain ⟨y, hy, hxy⟩ := forall₂_mem hp he
    have := (h.valid y (h.sub y (List.mem_of_mem_take hy))).1
    rw [hxy.1, hxy.2]
    exact ⟨this, hv e he⟩
  · rw [pairs_count hp]
    exact Nat.le_trans (nodeCount_take _ _) (Nat.le_trans (nodeCount_le hlt) hn)

theorem take_one_more {es : List Edge} {k : Nat} {e : Edge} (h : es[k]? = some e) : es.take (k + 1) = es.take k ++ [e] := by
  rw [List.take_add_one, h]; rfl

/-- Reading a beginning of the text of a graph. -/
theorem text_prefix {acc : List Edge} {g g' : InputGraph} (h : GInv acc g) (hf : g.frozen = true) (hn : g.numNodes ≤ P.umax)
    (hw : ∀ e ∈ g.edges, e.weight ≤ P.umax) {txt p : List Char} (ht : toText g = .ok txt) (hp : p <+: txt)
    (hr : readText P p = .ok g') :
    ∃ k j, g' = ⟨cutLast j (g.edges.take k), nodeCount (g.edges.take k), true⟩ ∧ ∀ e ∈ g'.edges, 1 ≤ e.weight := by
  have hlt := (h.frozenOk hf).lt
  have hv : ∀ e ∈ g.edges, 1 ≤ e.weight := fun e he => (h.valid e (h.sub e he)).2
  unfold toText InputGraph.getEdges InputGraph.checkFrozen at ht
  rw [hf] at ht
  have ht' : g.edges.flatMap (fun e => arcLine e.src e.dst e.weight) = txt := by injection ht
  subst ht'
  obtain ⟨k, q, rfl, hq⟩ := prefix_arcs hp
  obtain ⟨xs, h1, h2⟩ := readText_ok.1 hr
  rw [lines_arcs_append, List.filter_append, filter_arcs] at h1
  obtain ⟨ys, rfl, h3⟩ := forall₂_arcs_append (fun e he => by
    have he := List.mem_of_mem_take he
    have := hlt e he; have := hw e he; omega) h1
  have key : ∃ k' j, g.edges.take k ++ ys = cutLast j (g.edges.take k') ∧ ∀ e ∈ g.edges.take k ++ ys, 1 ≤ e.weight := by
    rcases tail_arcs hq h3 with rfl | ⟨e, j, h4, rfl, h5⟩
    · refine ⟨k, 0, by rw [cutLast_zero, List.append_nil], ?_⟩
      intro e he
      rw [List.append_nil] at he
      exact hv e (List.mem_of_mem_take he)
    · refine ⟨k + 1, j, by rw [take_one_more h4, cutLast_concat], ?_⟩
      intro e' he'
      rcases List.mem_append.1 he' with he' | he'
      · exact hv e' (List.mem_of_mem_take he')
      · rw [List.mem_singleton.1 he']
        exact h5 (hv e (List.mem_of_getElem? h4))
  obtain ⟨k', j, h4, h5⟩ := key
  rw [h4] at h2 h5
  rw [build_cut h hf hn k' j h5] at h2
  injection h2 with h2
  subst h2
  exact ⟨k', j, rfl, h5⟩

theorem map_shift_cut {es : List Edge} (j : Nat) : (cutLast j (es.map unshiftEdge)).map shiftEdge = cutLast j es := by
  rcases List.eq_nil_or_concat es with rfl | ⟨l, e, rfl⟩
  · rfl
  · rw [List.concat_eq_append, List.map_append, List.map_singleton, cutLast_concat, cutLast_concat, List.map_append, shift_unshift]
    rfl

theorem cutLast_mem_pos {es : List Edge} {j : Nat} : (∀ e ∈ (cutLast j (es.map unshiftEdge)), 1 ≤ e.weight) →
    ∀ e ∈ cutLast j es, 1 ≤ e.weight := by
  intro h e he
  rw [← map_shift_cut] at he
  obtain ⟨x, hx, rfl⟩ := List.mem_map.1 he
  exact h x hx

theorem ginv_count {acc : List Edge} {g : InputGraph} (h : GInv acc g) (hf : g.frozen = true) : nodeCount g.edges = g.numNodes := by
  refine Nat.le_antisymm (nodeCount_le (h.frozenOk hf).lt) ?_
  rw [h.num]
  refine nodeCount_le ?_
  intro e he
  obtain ⟨x, hx, hxe, _⟩ := h.cov e he
  have := nodeCount_gt x hx
  rw [← hxe.1, ← hxe.2]
  exact this

/-- The text of a frozen graph in DIMACS format. -/
theorem dimacs_text {acc : List Edge} {g : InputGraph} (h : GInv acc g) (hf : g.frozen = true)
    (hn : g.numNodes ≤ P.umax) {txt : List Char} (ht : toDimacsText P g = .ok txt) :
    txt = problemLine g.numNodes g.edges.length ++ (g.edges.map unshiftEdge).flatMap (fun e => arcLine e.src e.dst e.weight) := by
  have hlt := (h.frozenOk hf).lt
  unfold toDimacsText at ht
  rw [getNumNodes_frozen hf] at ht
  unfold InputGraph.getEdges InputGraph.getNumEdges InputGraph.checkFrozen at ht
  rw [hf] at ht
  have h2 := toDimacs_loop (P := P) (es := g.edges) (fun e he => by have := hlt e he; omega) (problemLine g.numNodes g.edges.length)
  have ht' : (.ok (problemLine g.numNodes g.edges.length ++
      (g.edges.map unshiftEdge).flatMap (fun e => arcLine e.src e.dst e.weight)) : M (List Char)) = .ok txt := h2.symm.trans ht
  injection ht' with ht'
  exact ht'.symm

/-- Reading a beginning of the DIMACS text of a graph. -/
theorem dimacs_prefix {acc : List Edge} {g g' : InputGraph} (h : GInv acc g) (hf : g.frozen = true) (hn : g.numNodes ≤ P.umax)
    (hw : ∀ e ∈ g.edges, e.weight ≤ P.umax) {txt p : List Char} (ht : toDimacsText P g = .ok txt) (hp : p <+: txt)
    (hr : readDimacs P p = .ok g') :
    (p = [] ∧ g' = ⟨[], 0, true⟩) ∨ ∃ j, g' = ⟨cutLast j g.edges, g.numNodes, true⟩ ∧ ∀ e ∈ g'.edges, 1 ≤ e.weight := by
  have hlt := (h.frozenOk hf).lt
  have hv : ∀ e ∈ g.edges, 1 ≤ e.weight := fun e he => (h.valid e (h.sub e he)).2
  have hnum := ginv_count h hf
  rw [dimacs_text h hf hn ht] at hp
  -- the result, if the edges that are read are these
  have fin : ∀ j, (∀ e ∈ cutLast j g.edges, 1 ≤ e.weight) → buildGraph P (addAll (cutLast j g.edges)) = .ok g' →
      ∃ j, g' = ⟨cutLast j g.edges, g.numNodes, true⟩ ∧ ∀ e ∈ g'.edges, 1 ≤ e.weight := by
    intro j hj hb
    have h2 := build_cut (P := P) h hf hn g.edges.length j (by rw [List.take_length]; exact hj)
    rw [List.take_length, hb, hnum] at h2
    injection h2 with h2
    subst h2
    exact ⟨j, rfl, hj⟩
  by_cases hpn : p = []
  · left
    refine ⟨hpn, ?_⟩
    subst hpn
    rcases readDimacs_ok.1 hr with h1 | ⟨pre, pl, post, _, _, _, h1, _⟩
    · exact h1.2
    · rw [lines_nil] at h1
      simp at h1
  right
  rw [problemLine_eq, List.append_assoc, List.singleton_append] at hp
  rcases prefix_word hp with h1 | ⟨t, rfl, h1⟩
  · -- within the problem line
    have hl : lines p = [p] := lines_last (fun h => (problemBody_plain _ _).1 (h1.subset h)) hpn
    have hc : isComment p = false := by
      cases p with
      | nil => exact absurd rfl hpn
      | cons a p =>
        unfold problemBody at h1
        rw [(List.cons_prefix_cons.1 h1).1]; rfl
    rcases readDimacs_ok.1 hr with ⟨h2, _⟩ | ⟨pre, pl, post, n, m, es, h2, h3, h4, h5, h6, _, h8⟩
    · rw [hl] at h2
      rw [h2 p (by simp)] at hc
      cases hc
    · rw [hl] at h2
      have h9 : pre = [] ∧ pl = p ∧ post = [] := by
        cases pre with
        | nil =>
          injection h2 with a b
          exact ⟨rfl, a.symm, b.symm⟩
        | cons x pre =>
          injection h2 with _ b
          simp at b
      obtain ⟨rfl, rfl, rfl⟩ := h9
      cases h5
      obtain ⟨_, j, _, h10⟩ := problem_prefix h1 h4
      have hz : g.edges = [] := by
        apply List.eq_nil_of_length_eq_zero
        simp only [List.length_nil] at h6
        omega
      refine fin 0 ?_ ?_
      · rw [hz]; simp [cutLast_nil]
      · rw [hz, cutLast_nil]; exact h8
  · obtain ⟨k, q, rfl, hq⟩ := prefix_arcs h1
    have hl : lines (problemBody g.numNodes g.edges.length ++ '\n' :: (((g.edges.map unshiftEdge).take k).flatMap
        (fun e => arcLine e.src e.dst e.weight) ++ q)) = problemBody g.numNodes g.edges.length ::
        (((g.edges.map unshiftEdge).take k).map (fun e => arcBody e.src e.dst e.weight) ++ lines q) := by
      rw [lines_cons _ (problemBody_plain _ _).1 (problemBody_plain _ _).2, lines_arcs_append]
    have hc : isComment (problemBody g.numNodes g.edges.length) = false := rfl
    rcases readDimacs_ok.1 hr with ⟨h2, _⟩ | ⟨pre, pl, post, n, m, es, h2, h3, h4, h5, h6, _, h8⟩
    · rw [hl] at h2
      rw [h2 _ (by simp)] at hc
      cases hc
    · rw [hl] at h2
      cases pre with
      | cons x pre =>
        injection h2 with a b
        have := h3 x (by simp)
        rw [← a, hc] at this
        cases this
      | nil =>
        injection h2 with a b
        subst a
        obtain ⟨_, rfl⟩ := problem_unique h4
        rw [← b, List.filter_append] at h5
        have hfa : ∀ es : List Edge, (es.map (fun e => arcBody e.src e.dst e.weight)).filter (fun l => !isComment l) =
            es.map (fun e => arcBody e.src e.dst e.weight) := by
          intro es
          rw [List.filter_eq_self]
          intro l hl
          obtain ⟨e, _, rfl⟩ := List.mem_map.1 hl
          rfl
        rw [hfa] at h5
        obtain ⟨ys, rfl, h9⟩ := forall₂_arcs_append (fun e he => by
          have he := List.mem_of_mem_take he
          obtain ⟨e', he', rfl⟩ := List.mem_map.1 he
          have := hlt e' he'; have := hw e' he'
          simp only [unshiftEdge]; omega) h5
        have key : ∃ j, (g.edges.map unshiftEdge).take k ++ ys = cutLast j (g.edges.map unshiftEdge) ∧
            ∀ e ∈ cutLast j (g.edges.map unshiftEdge), 1 ≤ e.weight := by
          have hv' : ∀ e ∈ g.edges.map unshiftEdge, 1 ≤ e.weight := by
            intro e he
            obtain ⟨e', he', rfl⟩ := List.mem_map.1 he
            exact hv e' he'
          rcases tail_arcs hq h9 with rfl | ⟨e, j, h10, rfl, h11⟩
          · refine ⟨0, ?_, by rw [cutLast_zero]; exact hv'⟩
            rw [cutLast_zero, List.append_nil]
            apply List.take_of_length_le
            rw [List.append_nil, List.length_take, List.length_map] at h6
            rw [List.length_map]
            omega
          · have h12 : (g.edges.map unshiftEdge).take (k + 1) = g.edges.map unshiftEdge := by
              apply List.take_of_length_le
              rw [List.length_append, List.length_take, List.length_map, List.length_singleton] at h6
              rw [List.length_map]
              omega
            have h13 : cutLast j (g.edges.map unshiftEdge) = (g.edges.map unshiftEdge).take k ++ [cutEdge j e] := by
              rw [← h12, take_one_more h10, cutLast_concat, ← take_one_more h10, h12]
            refine ⟨j, h13.symm, ?_⟩
            rw [h13]
            intro e' he'
            rcases List.mem_append.1 he' with he' | he'
            · exact hv' e' (List.mem_of_mem_take he')
            · rw [List.mem_singleton.1 he']
              exact h11 (hv' e (List.mem_of_getElem? h10))
        obtain ⟨j, h10, h11⟩ := key
        rw [h10, map_shift_cut] at h8
        exact fin j (cutLast_mem_pos h11) h8

/-! ### Everything that can be read -/

theorem showNat_cut (j : Nat) : ∀ {w : Nat}, 1 ≤ w / 10 ^ j → showNat (w / 10 ^ j) <+: showNat w := by
  induction j with
  | zero => intro w _; simp
  | succ j ih =>
    intro w h
    have he : w / 10 / 10 ^ j = w / 10 ^ (j + 1) := by rw [Nat.div_div_eq_div_mul, Nat.pow_succ, Nat.mul_comm]
    rw [← he] at h ⊢
    refine (ih h).trans ?_
    have h10 : ¬ w < 10 := by
      intro hlt
      rw [Nat.div_eq_of_lt hlt, Nat.zero_div] at h
      omega
    have hs : showNat w = showNat (w / 10) ++ [Nat.digitChar (w % 10)] := by
      unfold showNat
      rw [Nat.toDigits_eq_if (by omega), if_neg h10]
    rw [hs]
    exact List.prefix_append _ _

theorem arcBody_cut {j : Nat} {e : Edge} (h : 1 ≤ (cutEdge j e).weight) :
    arcBody (cutEdge j e).src (cutEdge j e).dst (cutEdge j e).weight <+: arcBody e.src e.dst e.weight := by
  unfold arcBody
  simp only [cutEdge] at h ⊢
  rw [List.cons_prefix_cons, List.cons_prefix_cons, List.prefix_append_right_inj, List.cons_prefix_cons, List.prefix_append_right_inj,
    List.cons_prefix_cons]
  exact ⟨rfl, rfl, rfl, rfl, showNat_cut j h⟩

/-- The beginning of the arc lines from which the cut edges are read. -/
theorem cut_lines {es : List Edge} {j : Nat} (h : ∀ e ∈ cutLast j es, 1 ≤ e.weight) :
    ∃ p, p <+: es.flatMap (fun e => arcLine e.src e.dst e.weight) ∧
      lines p = (cutLast j es).map (fun e => arcBody e.src e.dst e.weight) := by
  rcases List.eq_nil_or_concat es with rfl | ⟨l, e, rfl⟩
  · exact ⟨[], List.prefix_refl _, rfl⟩
  · rw [List.concat_eq_append] at h ⊢
    rw [cutLast_concat] at h ⊢
    have h1 := h (cutEdge j e) (by simp)
    refine ⟨l.flatMap (fun e => arcLine e.src e.dst e.weight) ++
      arcBody (cutEdge j e).src (cutEdge j e).dst (cutEdge j e).weight, ?_, ?_⟩
    · rw [List.flatMap_append, List.prefix_append_right_inj, List.flatMap_singleton, arcLine_eq]
      exact (arcBody_cut h1).trans (List.prefix_append _ _)
    · rw [lines_arcs_append, List.map_append]
      congr 1
      exact lines_last (arcBody_plain _ _ _).1 (by simp [arcBody])

theorem cutLast_le {es : List Edge} {j : Nat} (h : ∀ e ∈ es, e.src ≤ P.umax ∧ e.dst ≤ P.umax ∧ e.weight ≤ P.umax) :
    ∀ e ∈ cutLast j es, e.src ≤ P.umax ∧ e.dst ≤ P.umax ∧ e.weight ≤ P.umax := by
  rcases List.eq_nil_or_concat es with rfl | ⟨l, e, rfl⟩
  · intro e he
    rw [cutLast_nil] at he
    cases he
  · rw [List.concat_eq_append] at h ⊢
    rw [cutLast_concat]
    intro x hx
    rcases List.mem_append.1 hx with hx | hx
    · exact h x (by simp [hx])
    · rw [List.mem_singleton.1 hx]
      have := h e (by simp)
      refine ⟨this.1, this.2.1, ?_⟩
      exact Nat.le_trans (Nat.div_le_self _ _) this.2.2

theorem text_cut {acc : List Edge} {g : InputGraph} (h : GInv acc g) (hf : g.frozen = true) (hn : g.numNodes ≤ P.umax)
    (hw : ∀ e ∈ g.edges, e.weight ≤ P.umax) {txt : List Char} (ht : toText g = .ok txt) (k j : Nat)
    (hv : ∀ e ∈ cutLast j (g.edges.take k), 1 ≤ e.weight) :
    ∃ p, p <+: txt ∧ readText P p = .ok ⟨cutLast j (g.edges.take k), nodeCount (g.edges.take k), true⟩ := by
  have hlt := (h.frozenOk hf).lt
  unfold toText InputGraph.getEdges InputGraph.checkFrozen at ht
  rw [hf] at ht
  have ht' : g.edges.flatMap (fun e => arcLine e.src e.dst e.weight) = txt := by injection ht
  subst ht'
  obtain ⟨p, h1, h2⟩ := cut_lines hv
  refine ⟨p, h1.trans ?_, ?_⟩
  · conv_rhs => rw [← List.take_append_drop k g.edges, List.flatMap_append]
    exact List.prefix_append _ _
  · refine readText_ok.2 ⟨_, ?_, build_cut h hf hn k j hv⟩
    rw [h2, filter_arcs]
    refine forall₂_arcs (cutLast_le ?_)
    intro e he
    have he := List.mem_of_mem_take he
    have := hlt e he; have := hw e he; omega

theorem map_unshift_cut {es : List Edge} (j : Nat) : cutLast j (es.map unshiftEdge) = (cutLast j es).map unshiftEdge := by
  rcases List.eq_nil_or_concat es with rfl | ⟨l, e, rfl⟩
  · rfl
  · rw [List.concat_eq_append, List.map_append, List.map_singleton, cutLast_concat, cutLast_concat, List.map_append]
    rfl

theorem dimacs_cut {acc : List Edge} {g : InputGraph} (h : GInv acc g) (hf : g.frozen = true) (hn : g.numNodes ≤ P.umax)
    (hw : ∀ e ∈ g.edges, e.weight ≤ P.umax) (hl : g.edges.length ≤ P.umax) {txt : List Char} (ht : toDimacsText P g = .ok txt)
    (j : Nat) (hv : ∀ e ∈ cutLast j g.edges, 1 ≤ e.weight) :
    ∃ p, p ≠ [] ∧ p <+: txt ∧ readDimacs P p = .ok ⟨cutLast j g.edges, g.numNodes, true⟩ := by
  have hlt := (h.frozenOk hf).lt
  rw [dimacs_text h hf hn ht]
  obtain ⟨p, h1, h2⟩ := cut_lines (es := g.edges.map unshiftEdge) (j := j) (by
    rw [map_unshift_cut]
    intro e he
    obtain ⟨x, hx, rfl⟩ := List.mem_map.1 he
    exact hv x hx)
  rw [map_unshift_cut] at h2
  have hp := cutLast_pairs j g.edges
  have hmem : ∀ e ∈ cutLast j g.edges, e.src < g.numNodes ∧ e.dst < g.numNodes := by
    intro e he
    obtain ⟨y, hy, hxy⟩ := forall₂_mem hp he
    rw [hxy.1, hxy.2]
    exact hlt y hy
  refine ⟨problemLine g.numNodes g.edges.length ++ p, by simp [problemLine], (List.prefix_append_right_inj _).2 h1, ?_⟩
  refine readDimacs_ok.2 (Or.inr ⟨[], problemBody g.numNodes g.edges.length,
      ((cutLast j g.edges).map unshiftEdge).map (fun e => arcBody e.src e.dst e.weight), g.numNodes, g.edges.length,
      (cutLast j g.edges).map unshiftEdge, ?_, by simp, problemBody_isProblem hn hl, ?_, ?_, ?_, ?_⟩)
  · rw [problemLine_eq, List.append_assoc, List.singleton_append, lines_cons _ (problemBody_plain _ _).1 (problemBody_plain _ _).2, h2]
    rfl
  · have : ∀ es : List Edge, (es.map (fun e => arcBody e.src e.dst e.weight)).filter (fun l => !isComment l) =
        es.map (fun e => arcBody e.src e.dst e.weight) := by
      intro es
      rw [List.filter_eq_self]
      intro l hl
      obtain ⟨e, _, rfl⟩ := List.mem_map.1 hl
      rfl
    rw [this]
    refine forall₂_arcs ?_
    intro e he
    obtain ⟨e', he', rfl⟩ := List.mem_map.1 he
    have h3 := hmem e' he'
    have h4 := (cutLast_le (P := P) (j := j) (es := g.edges) (fun e he => by have := hlt e he; have := hw e he; omega) e' he').2.2
    simp only [unshiftEdge]
    omega
  · rw [List.length_map, hp.length_eq]
  · intro e he
    obtain ⟨e', he', rfl⟩ := List.mem_map.1 he
    have := hmem e' he'
    simp only [unshiftEdge]
    omega
  · rw [shift_unshift]
    have h3 := build_cut (P := P) h hf hn g.edges.length j (by rw [List.take_length]; exact hv)
    rw [List.take_length, ginv_count h hf] at h3
    exact h3

/-- A beginning of the bytes of an ASCII text is the encoding of a beginning of the text. -/
theorem TextBytes.bytes_prefix {bs : List UInt8} {t : List Char} (ht : ∀ c ∈ t, c.toNat ≤ 127) (h : bs <+: encode t) :
    ∃ p, p <+: t ∧ bs = encode p := by
  rw [encode_ascii ht] at h
  refine ⟨t.take bs.length, List.take_prefix _ _, ?_⟩
  rw [encode_ascii (fun c hc => ht c (List.mem_of_mem_take hc)), List.map_take]
  exact List.prefix_iff_eq_take.1 h

end FP
