import Verif.Proofs.TextIO
import Verif.Props.Example
/-!
# Text files

A text file is a list of characters; `toText`, `toDimacsText` are the texts written by `to_file` and `to_dimacs_file`,
`readText`, `readDimacs` are `from_file` and `from_dimacs_file`. All statements hold for every word size and for builds with
and without overflow checks.
-/
set_option autoImplicit false
namespace FP
namespace Props
open Spec TextIO

/-- **C23** Writing a frozen graph and reading it again gives the same graph. (`hw`: weights are machine words; `NoWrap`:
overflow checks are on, or no node id was `usize::MAX`.) -/
theorem C23_text_round_trip {P : Plat} {ops : List Op} {g : InputGraph} (hb : buildGraph P ops = .ok g)
    (hf : g.frozen = true) (hnw : NoWrap P (accepted ops)) (hw : ∀ e ∈ accepted ops, e.weight ≤ P.umax) :
    ∃ txt, toText g = .ok txt ∧ readText P txt = .ok g :=
  have hi := buildGraph_inv hnw hb
  text_round_trip hi hf (buildGraph_num hb) (fun e he => hw e (hi.sub e he))

example : ∃ txt, toText Ex.ig = .ok txt ∧ readText debug64 txt = .ok Ex.ig :=
  C23_text_round_trip Ex.built Ex.frozen (Or.inl rfl) (by decide)
example : toText ⟨[⟨0, 12, 305⟩, ⟨7, 0, 18446744073709551615⟩], 13, true⟩ =
    .ok "a 0 12 305\na 7 0 18446744073709551615\n".toList := rfl
example : toText ⟨[], 0, false⟩ = .error .assertion := rfl

/-- **C24** The same for DIMACS files. (`hl`: the length of the edge list is a machine word.) -/
theorem C24_dimacs_round_trip {P : Plat} {ops : List Op} {g : InputGraph} (hb : buildGraph P ops = .ok g)
    (hf : g.frozen = true) (hnw : NoWrap P (accepted ops)) (hw : ∀ e ∈ accepted ops, e.weight ≤ P.umax)
    (hl : g.edges.length ≤ P.umax) : ∃ txt, toDimacsText P g = .ok txt ∧ readDimacs P txt = .ok g :=
  have hi := buildGraph_inv hnw hb
  dimacs_round_trip hi hf (buildGraph_num hb) (fun e he => hw e (hi.sub e he)) hl

example : ∃ txt, toDimacsText debug64 Ex.ig = .ok txt ∧ readDimacs debug64 txt = .ok Ex.ig :=
  C24_dimacs_round_trip Ex.built Ex.frozen (Or.inl rfl) (by decide) (by decide)
example : toDimacsText debug64 ⟨[⟨0, 12, 305⟩], 13, true⟩ = .ok "p sp 13 1\na 1 13 305\n".toList := rfl

/-- **C25, refuted** The declared number of nodes is not honoured: here it is 5 and the graph has 2 nodes. -/
theorem C25_false : ∃ (cs : List Char) (pl : List Char) (g : InputGraph), pl ∈ lines cs ∧ IsProblemLine debug64 pl 5 1 ∧
    readDimacs debug64 cs = .ok g ∧ g.numNodes = 2 := by
  refine ⟨"p sp 5 1\na 1 2 3\n".toList, "p sp 5 1".toList, _, by decide, ?_, rfl, rfl⟩
  exact problemBody_isProblem (P := debug64) (n := 5) (m := 1) (by decide) (by decide)

/-- **C25, what holds** The graph has at most the declared number of nodes, and exactly one more than the largest 0-based
node id of an arc that is neither a loop nor of weight 0. (Missing for C25: the declared nodes above it, see `C25_false`.) -/
theorem C25_at_most_declared_partial {P : Plat} {cs : List Char} {g : InputGraph} (h : readDimacs P cs = .ok g)
    {pre post : List (List Char)} {pl : List Char} {n m : Nat} (hl : lines cs = pre ++ pl :: post)
    (hpre : ∀ l ∈ pre, isComment l = true) (hp : IsProblemLine P pl n m) :
    g.numNodes ≤ n ∧ ∃ es, List.Forall₂ (IsArcLine P) (post.filter (fun l => !isComment l)) es ∧
      g.numNodes = nodeCount (accepted (addAll (es.map shiftEdge))) ∧
      ∀ e ∈ es, (1 ≤ e.src ∧ e.src ≤ n) ∧ (1 ≤ e.dst ∧ e.dst ≤ n) := by
  rcases readDimacs_ok.1 h with ⟨hall, _⟩ | ⟨pre', pl', post', n', m', es, k1, k2, k3, k4, k5, k6, k7⟩
  · have := hall pl (by rw [hl]; simp)
    rw [IsProblemLine.not_comment hp] at this
    cases this
  · have hsplit : ∀ {a b : List (List Char)} {x y : List Char} {c d : List (List Char)}, a ++ x :: c = b ++ y :: d →
        (∀ l ∈ a, isComment l = true) → (∀ l ∈ b, isComment l = true) → isComment x = false → isComment y = false →
        x = y ∧ c = d := by
      intro a
      induction a with
      | nil =>
        intro b x y c d he _ hb hx _
        cases b with
        | nil => injection he with h1 h2; exact ⟨h1, h2⟩
        | cons z b =>
          injection he with h1 _
          subst h1
          rw [hb x (by simp)] at hx; cases hx
      | cons z a ih =>
        intro b x y c d he ha hb hx hy
        cases b with
        | nil =>
          injection he with h1 _
          subst h1
          rw [ha z (by simp)] at hy; cases hy
        | cons z' b =>
          injection he with _ h2
          exact ih h2 (fun l hl => ha l (by simp [hl])) (fun l hl => hb l (by simp [hl])) hx hy
    obtain ⟨rfl, rfl⟩ := hsplit (hl.symm.trans k1) hpre k2 (IsProblemLine.not_comment hp) (IsProblemLine.not_comment k3)
    have hn : n = n' ∧ m = m' := by
      obtain ⟨r1, e1, q1⟩ := hp
      obtain ⟨r2, e2, q2⟩ := k3
      rw [e1] at e2
      injection e2 with _ e2; injection e2 with _ e2; injection e2 with _ e2; injection e2 with _ e2; injection e2 with _ e2
      subst e2
      rw [isNumbers_iff] at q1 q2
      have huniq : ∀ {w : List Char} {a b : Nat}, IsNumber P w a → IsNumber P w b → a = b := by
        intro w a b ha hb
        have := parseUsize_some.2 ha
        rw [parseUsize_some.2 hb] at this
        exact (Option.some.inj this).symm
      generalize splitWhitespace r1 = ws at q1 q2
      cases q1 with
      | cons a1 q1 =>
        cases q1 with
        | cons a2 q1 =>
          cases q2 with
          | cons b1 q2 =>
            cases q2 with
            | cons b2 q2 => exact ⟨huniq a1 b1, huniq a2 b2⟩
    obtain ⟨rfl, rfl⟩ := hn
    have hacc : ∀ e ∈ accepted (addAll (es.map shiftEdge)), e.src < n ∧ e.dst < n := by
      intro e he
      unfold addAll at he
      rw [accepted_append] at he
      rcases List.mem_append.1 he with he | he
      · simp only [accepted, List.mem_flatMap, List.mem_map] at he
        obtain ⟨op, ⟨e1, ⟨e2, he2, rfl⟩, rfl⟩, hm⟩ := he
        have := k6 e2 he2
        simp only [Op.edges] at hm
        by_cases hc : (shiftEdge e2).src ≠ (shiftEdge e2).dst ∧ 1 ≤ (shiftEdge e2).weight
        · rw [if_pos hc] at hm
          rw [List.mem_singleton.1 hm]
          simp only [shiftEdge]
          omega
        · rw [if_neg hc] at hm; simp at hm
      · cases he
    have hle := nodeCount_le hacc
    have hnm := isNumbers_le k3.choose_spec.2 n (by simp)
    have hi := buildGraph_inv (Or.inr (by omega)) k7
    exact ⟨by rw [hi.num]; exact hle, es, k4, hi.num, k6⟩

/-- **C25, exactly** The declared number of nodes `n` is honoured exactly if node `n` occurs in an arc that is neither a loop nor of
weight 0 (or there are no nodes). -/
theorem C25_exactly_partial {P : Plat} {cs : List Char} {g : InputGraph} (h : readDimacs P cs = .ok g)
    {pre post : List (List Char)} {pl : List Char} {n m : Nat} (hl : lines cs = pre ++ pl :: post)
    (hpre : ∀ l ∈ pre, isComment l = true) (hp : IsProblemLine P pl n m) {es : List Edge}
    (hes : List.Forall₂ (IsArcLine P) (post.filter (fun l => !isComment l)) es) :
    g.numNodes = n ↔ n = 0 ∨ ∃ e ∈ es, e.src ≠ e.dst ∧ 1 ≤ e.weight ∧ (e.src = n ∨ e.dst = n) := by
  obtain ⟨hle, es', h1, h2, h3⟩ := C25_at_most_declared_partial h hl hpre hp
  have he : es' = es := forall₂_arc_unique h1 hes
  subst he
  have hmem : ∀ x, x ∈ accepted (addAll (es'.map shiftEdge)) ↔
      ∃ e ∈ es', e.src ≠ e.dst ∧ 1 ≤ e.weight ∧ x = shiftEdge e := by
    intro x
    unfold addAll
    rw [accepted_append, List.mem_append]
    simp only [accepted, List.mem_flatMap, List.mem_map]
    constructor
    · rintro (⟨op, ⟨e1, ⟨e2, he2, rfl⟩, rfl⟩, hm⟩ | ⟨op, hop, hm⟩)
      · have := h3 e2 he2
        simp only [Op.edges] at hm
        by_cases hc : (shiftEdge e2).src ≠ (shiftEdge e2).dst ∧ 1 ≤ (shiftEdge e2).weight
        · rw [if_pos hc] at hm
          simp only [shiftEdge] at hc
          exact ⟨e2, he2, by omega, hc.2, List.mem_singleton.1 hm⟩
        · rw [if_neg hc] at hm; simp at hm
      · rw [List.mem_singleton.1 hop] at hm
        simp [Op.edges] at hm
    · rintro ⟨e, he, k1, k2, rfl⟩
      have := h3 e he
      refine Or.inl ⟨_, ⟨shiftEdge e, ⟨e, he, rfl⟩, rfl⟩, ?_⟩
      simp only [Op.edges]
      rw [if_pos (by simp only [shiftEdge]; omega)]
      simp
  constructor
  · intro hn
    rcases Nat.eq_zero_or_pos n with h0 | h0
    · exact Or.inl h0
    · refine Or.inr ?_
      by_contra hc
      have : nodeCount (accepted (addAll (es'.map shiftEdge))) ≤ n - 1 := by
        refine nodeCount_le ?_
        intro x hx
        obtain ⟨e, he, k1, k2, rfl⟩ := (hmem x).1 hx
        have := h3 e he
        have : e.src ≠ n ∧ e.dst ≠ n := by
          constructor <;> intro hh <;> exact hc ⟨e, he, k1, k2, by simp [hh]⟩
        simp only [shiftEdge]
        omega
      omega
  · rintro (h0 | ⟨e, he, k1, k2, k3⟩)
    · omega
    · have := nodeCount_gt _ ((hmem _).2 ⟨e, he, k1, k2, rfl⟩)
      simp only [shiftEdge] at this
      have := h3 e he
      omega

example : ∃ g, readDimacs debug64 "p sp 4 2\na 1 2 3\na 2 4 1\n".toList = .ok g ∧ (g.numNodes = 4 ↔
    4 = 0 ∨ ∃ e ∈ [⟨1, 2, 3⟩, ⟨2, 4, 1⟩], Edge.src e ≠ e.dst ∧ 1 ≤ e.weight ∧ (e.src = 4 ∨ e.dst = 4)) :=
  ⟨_, rfl, C25_exactly_partial (P := debug64) (cs := "p sp 4 2\na 1 2 3\na 2 4 1\n".toList) (pre := []) (pl := "p sp 4 2".toList)
    (post := ["a 1 2 3".toList, "a 2 4 1".toList]) (n := 4) (m := 2) rfl rfl (by simp)
    (problemBody_isProblem (P := debug64) (n := 4) (m := 2) (by decide) (by decide))
    (forall₂_arcs (P := debug64) (es := [⟨1, 2, 3⟩, ⟨2, 4, 1⟩]) (by decide))⟩

example : ∃ g, readDimacs debug64 "c x\np sp 5 2\na 1 2 3\na 2 4 1\n".toList = .ok g ∧ g.numNodes = 4 := ⟨_, rfl, rfl⟩

/-- **C26, `from_file`** The result is the graph of exactly the arcs listed by the lines starting with `a `; if such a line
does not list an arc the reader panics. -/
theorem C26_from_file_reads_exactly {P : Plat} {cs : List Char} {g : InputGraph} :
    readText P cs = .ok g ↔
      ∃ es, List.Forall₂ (IsArcLine P) ((lines cs).filter startsArc) es ∧ buildGraph P (addAll es) = .ok g := readText_ok

example : readText debug64 "hello\na 0 1 5\r\nb 3\n\na  +1\t02 7\na 2 2 9\na 0 1 4".toList =
    .ok ⟨[⟨0, 1, 4⟩, ⟨1, 2, 7⟩], 3, true⟩ := rfl
example : readText debug64 "a 0 1\n".toList = .error .assertion := rfl
example : readText debug64 "a 0 1 2 3\n".toList = .error .assertion := rfl
example : readText debug64 "a 0 -1 2\n".toList = .error .assertion := rfl
example : readText debug64 "a 0 1 18446744073709551616\n".toList = .error .assertion := rfl

/-- **C26, `from_file`** All other lines are ignored, also when the reader panics. -/
theorem C26_from_file_ignores_other_lines {P : Plat} {cs cs' : List Char}
    (h : (lines cs).filter startsArc = (lines cs').filter startsArc) : readText P cs = readText P cs' := by
  rw [readText_filter, readText_filter, h]

/-- **C26, `from_file`** The order of the lines does not matter. -/
theorem C26_from_file_line_order {P : Plat} {cs cs' : List Char} (hp : (lines cs).Perm (lines cs')) (g : InputGraph) :
    readText P cs = .ok g ↔ readText P cs' = .ok g := ⟨readText_perm hp, readText_perm hp.symm⟩

example : readText debug64 "a 0 1 5\na 1 2 7\n".toList = .ok ⟨[⟨0, 1, 5⟩, ⟨1, 2, 7⟩], 3, true⟩ :=
  (C26_from_file_line_order (P := debug64) (cs' := "a 1 2 7\na 0 1 5\n".toList) (by decide) _).2 rfl

/-- **C26, refuted for `from_dimacs_file`** A file without problem line is accepted if it has no arcs. -/
theorem C26_dimacs_false : ∃ (cs : List Char) (g : InputGraph), (∀ l ∈ lines cs, ∀ n m, ¬ IsProblemLine debug64 l n m) ∧
    readDimacs debug64 cs = .ok g := by
  refine ⟨"c nothing here\n".toList, _, ?_, rfl⟩
  intro l hl n m hp
  have : l = "c nothing here".toList := by
    have h2 : lines "c nothing here\n".toList = ["c nothing here".toList] := rfl
    rw [h2] at hl
    exact List.mem_singleton.1 hl
  subst this
  have := IsProblemLine.not_comment hp
  cases this

/-- **C26, what holds for `from_dimacs_file`** The reader returns exactly for two kinds of files: those with only empty and
comment lines (giving the empty graph), and those with empty and comment lines, then one problem line, then arcs mixed with
empty and comment lines, where all end points are in `1..=nodes` and the number of arcs is the declared one; the result is
the graph of these arcs with 0-based ids. (Missing for C26: a file without problem line is accepted, see
`C26_dimacs_false`.) -/
theorem C26_dimacs_reads_exactly_partial {P : Plat} {cs : List Char} {g : InputGraph} : readDimacs P cs = .ok g ↔
    ((∀ l ∈ lines cs, isComment l = true) ∧ g = ⟨[], 0, true⟩) ∨
    ∃ pre pl post n m es, lines cs = pre ++ pl :: post ∧ (∀ l ∈ pre, isComment l = true) ∧ IsProblemLine P pl n m ∧
      List.Forall₂ (IsArcLine P) (post.filter (fun l => !isComment l)) es ∧ es.length = m ∧
      (∀ e ∈ es, (1 ≤ e.src ∧ e.src ≤ n) ∧ (1 ≤ e.dst ∧ e.dst ≤ n)) ∧
      buildGraph P (addAll (es.map shiftEdge)) = .ok g := readDimacs_ok

/-- **C26** In particular, with an arc there is a problem line before it, and no second one. -/
theorem C26_dimacs_one_problem_line {P : Plat} {cs : List Char} {g : InputGraph} (h : readDimacs P cs = .ok g)
    (ha : ∃ l ∈ lines cs, startsArc l = true) :
    ∃ pre pl post n m, lines cs = pre ++ pl :: post ∧ IsProblemLine P pl n m ∧ (∀ l ∈ pre, startsArc l = false) ∧
      ∀ l ∈ pre ++ post, ∀ n m, ¬ IsProblemLine P l n m := by
  obtain ⟨l, hl, hs⟩ := ha
  have hcs : ∀ l, isComment l = true → startsArc l = false := by
    intro l hc
    cases hs : startsArc l with
    | false => rfl
    | true =>
      obtain ⟨r, rfl⟩ := startsArc_iff.1 hs
      cases hc
  rcases readDimacs_ok.1 h with ⟨hall, _⟩ | ⟨pre, pl, post, n, m, es, k1, k2, k3, k4, _⟩
  · rw [hcs l (hall l hl)] at hs; cases hs
  · refine ⟨pre, pl, post, n, m, k1, k3, fun l hl => hcs l (k2 l hl), ?_⟩
    intro l hl n m hp
    have hnc := IsProblemLine.not_comment hp
    rcases List.mem_append.1 hl with hl | hl
    · rw [k2 l hl] at hnc; cases hnc
    · have hmem : l ∈ post.filter (fun l => !isComment l) := List.mem_filter.2 ⟨hl, by simp [hnc]⟩
      obtain ⟨e, _, r, rfl, _⟩ := forall₂_mem k4 hmem
      obtain ⟨r', hr', _⟩ := hp
      cases hr'

example : readDimacs debug64 "c x\n\np sp 3 2\na 1 2 3\nc y\na 3 1 1\n".toList = .ok ⟨[⟨0, 1, 3⟩, ⟨2, 0, 1⟩], 3, true⟩ := rfl
example : readDimacs debug64 "p sp 3 2\na 1 2 3\n".toList = .error .assertion := rfl
example : readDimacs debug64 "p sp 3 1\na 1 2 3\na 3 1 1\n".toList = .error .assertion := rfl
example : readDimacs debug64 "p sp 3 1\na 1 4 3\n".toList = .error .assertion := rfl
example : readDimacs debug64 "p sp 3 1\na 0 1 3\n".toList = .error .assertion := rfl
example : readDimacs debug64 "a 1 2 3\np sp 3 1\n".toList = .error .assertion := rfl
/-- The documentation of `from_dimacs_file` gives the problem line as `p <num_nodes> <num_edges>`; that form is rejected. -/
example : readDimacs debug64 "p 3 1\na 1 2 3\n".toList = .error .assertion := rfl

/-- **C26** What the lines of a file are: they end with `\n` or `\r\n`; the last line end may be missing. -/
theorem C26_lines {cs : List Char} {ls : List (List Char)} : lines cs = ls ↔ IsLines cs ls :=
  ⟨fun h => h ▸ isLines cs, IsLines.eq⟩

/-- **C26** Both readers treat `\n` and `\r\n` alike, and the last line end may be missing (unless a lone `\r` is in its
place): files with the same lines are read alike, panics included. -/
theorem C26_line_ends {P : Plat} {cs cs' : List Char} {ls : List (List Char)} (h : IsLines cs ls) (h' : IsLines cs' ls) :
    readText P cs = readText P cs' ∧ readDimacs P cs = readDimacs P cs' := by
  unfold readText readDimacs
  rw [C26_lines.2 h, C26_lines.2 h']
  exact ⟨rfl, rfl⟩

example : IsLines "a 0 1 3\r\n\na 1 2 4".toList ["a 0 1 3".toList, [], "a 1 2 4".toList] :=
  .windows (l := "a 0 1 3".toList) (by decide) (.unix (l := []) (by decide) (by decide) (.last (by decide) (by decide)))
example : readText debug64 "a 0 1 3\r\n\na 1 2 4".toList = .ok ⟨[⟨0, 1, 3⟩, ⟨1, 2, 4⟩], 3, true⟩ := rfl

end Props
end FP
