import Verif.Props.Text
import Verif.Props.Rename
/-!
# The two text formats

The comment on `InputGraph::from_file` (input_graph.rs:61-62) says that it is compatible to DIMACS files. Node ids start with 1 there.
-/
set_option autoImplicit false
namespace FP
namespace Props
open Spec TextIO

/-- The edge between the nodes with the next ids. -/
def raiseEdge (e : Edge) : Edge := ⟨e.src + 1, e.dst + 1, e.weight⟩

theorem mem_accepted_addAll {es : List Edge} {x : Edge} : x ∈ accepted (addAll es) ↔ x ∈ es ∧ x.src ≠ x.dst ∧ 1 ≤ x.weight := by
  unfold addAll
  rw [accepted_append, List.mem_append]
  simp only [accepted, List.mem_flatMap, List.mem_map]
  constructor
  · rintro (⟨_, ⟨e, he, rfl⟩, hm⟩ | ⟨op, hop, hm⟩)
    · simp only [Op.edges] at hm
      by_cases hc : e.src ≠ e.dst ∧ 1 ≤ e.weight
      · rw [if_pos hc] at hm
        cases List.mem_singleton.1 hm
        exact ⟨he, hc⟩
      · rw [if_neg hc] at hm; cases hm
    · cases List.mem_singleton.1 hop
      cases hm
  · rintro ⟨h1, h2⟩
    refine Or.inl ⟨_, ⟨x, h1, rfl⟩, ?_⟩
    simp only [Op.edges]
    rw [if_pos h2]
    exact List.mem_singleton.2 rfl

theorem mem_accepted_shift {es : List Edge} (h : ∀ e ∈ es, 1 ≤ e.src ∧ 1 ≤ e.dst) {x : Edge} :
    x ∈ accepted (addAll (es.map shiftEdge)) ↔ raiseEdge x ∈ accepted (addAll es) := by
  rw [mem_accepted_addAll, mem_accepted_addAll, List.mem_map]
  have hx : ∀ e ∈ es, shiftEdge e = x ↔ e = raiseEdge x := by
    intro e he
    obtain ⟨h1, h2⟩ := h e he
    obtain ⟨a, b, w⟩ := e
    obtain ⟨a', b', w'⟩ := x
    simp only [shiftEdge, raiseEdge, Edge.mk.injEq] at h1 h2 ⊢
    omega
  constructor
  · rintro ⟨⟨e, he, hs⟩, h1, h2⟩
    have := (hx e he).1 hs
    subst this
    refine ⟨he, ?_, h2⟩
    simp only [raiseEdge]; omega
  · rintro ⟨h1, h2, h3⟩
    refine ⟨⟨_, h1, (hx _ h1).2 rfl⟩, ?_, h3⟩
    simp only [raiseEdge] at h2; omega

theorem accepted_raised {es : List Edge} (h : ∀ e ∈ es, 1 ≤ e.src ∧ 1 ≤ e.dst) {x : Edge} (hx : x ∈ accepted (addAll es)) :
    ∃ y ∈ accepted (addAll (es.map shiftEdge)), x = raiseEdge y := by
  obtain ⟨h1, h2⟩ := h x (mem_accepted_addAll.1 hx).1
  have hr : raiseEdge (shiftEdge x) = x := by
    obtain ⟨a, b, w⟩ := x
    simp only at h1 h2
    simp only [shiftEdge, raiseEdge, Edge.mk.injEq, and_true]
    omega
  refine ⟨shiftEdge x, (mem_accepted_shift h).2 ?_, hr.symm⟩
  rw [hr]; exact hx

theorem runs_accepted {P : Plat} {es : List Edge} (h : ∀ e ∈ accepted (addAll es), max e.src e.dst + 1 ≤ P.umax) :
    ∀ {g : InputGraph}, g.frozen = false → ∃ g', forM (fun g (op : Op) => op.run P g) g (es.map arcOp) = .ok g' ∧ g'.frozen = false := by
  induction es with
  | nil => intro g hg; exact ⟨g, rfl, hg⟩
  | cons e es ih =>
    intro g hg
    have ih := @ih (fun x hx => h x (mem_accepted_addAll.2 ⟨List.mem_cons_of_mem _ (mem_accepted_addAll.1 hx).1, (mem_accepted_addAll.1 hx).2⟩))
    rw [List.map_cons, forM_cons]
    have : ∃ g1, (arcOp e).run P g = .ok g1 ∧ g1.frozen = false := by
      simp only [arcOp, Spec.Op.run, InputGraph.addEdge, InputGraph.doAddEdge]
      rw [if_neg (by simp [hg])]
      by_cases h1 : e.src = e.dst
      · rw [if_pos (by simp [h1])]; exact ⟨_, rfl, hg⟩
      rw [if_neg (by simp [h1])]
      by_cases h2 : e.weight < 1
      · rw [if_pos (by simpa using h2)]; exact ⟨_, rfl, hg⟩
      rw [if_neg (by simpa using h2)]
      have := h e (mem_accepted_addAll.2 ⟨List.mem_cons_self .., h1, by omega⟩)
      unfold addW
      rw [if_pos this]
      exact ⟨_, rfl, hg⟩
    obtain ⟨g1, e1, hg1⟩ := this
    rw [e1]
    exact ih hg1

theorem build_accepted {P : Plat} {es : List Edge} (h : ∀ e ∈ accepted (addAll es), max e.src e.dst + 1 ≤ P.umax) :
    ∃ g, buildGraph P (addAll es) = .ok g ∧ g.frozen = true := by
  obtain ⟨g', h1, h2⟩ := runs_accepted h (g := InputGraph.new) rfl
  rw [build_addAll, h1]
  exact ⟨{ g' with edges := InputGraph.removeDuplicateEdges (InputGraph.sortEdges g'.edges), frozen := true }, by
    simp only [bind_okM, InputGraph.freeze, h2]; rfl, rfl⟩

theorem accepted_lt_iff {es : List Edge} (h : ∀ e ∈ es, 1 ≤ e.src ∧ 1 ≤ e.dst) :
    nodeCount (accepted (addAll es)) = if accepted (addAll (es.map shiftEdge)) = [] then 0 else
      nodeCount (accepted (addAll (es.map shiftEdge))) + 1 := by
  by_cases he : accepted (addAll (es.map shiftEdge)) = []
  · rw [if_pos he]
    have : accepted (addAll es) = [] := by
      apply List.eq_nil_iff_forall_not_mem.2
      intro x hx
      obtain ⟨y, hy, _⟩ := accepted_raised h hx
      rw [he] at hy; cases hy
    rw [this]; rfl
  · rw [if_neg he]
    apply Nat.le_antisymm
    · apply nodeCount_le
      intro x hx
      obtain ⟨y, hy, rfl⟩ := accepted_raised h hx
      have := nodeCount_gt y hy
      simp only [raiseEdge]; omega
    · obtain ⟨y, hy⟩ := List.exists_mem_of_ne_nil _ he
      have h0 := nodeCount_gt _ ((mem_accepted_shift h).1 hy)
      have h1 : nodeCount (accepted (addAll (es.map shiftEdge))) ≤ nodeCount (accepted (addAll es)) - 1 := by
        apply nodeCount_le
        intro z hz
        have := nodeCount_gt _ ((mem_accepted_shift h).1 hz)
        simp only [raiseEdge] at this; omega
      simp only [raiseEdge] at h0; omega

/-- The calls behind the two results: what `from_file` reads from a file that `from_dimacs_file` accepts. -/
theorem dimacs_arcs {P : Plat} {cs : List Char} {g : InputGraph} (h : readDimacs P cs = .ok g) :
    ∃ es, List.Forall₂ (IsArcLine P) ((lines cs).filter startsArc) es ∧ (∀ e ∈ es, 1 ≤ e.src ∧ 1 ≤ e.dst) ∧
      (∀ e ∈ es, e.src ≤ P.umax ∧ e.dst ≤ P.umax) ∧ buildGraph P (addAll (es.map shiftEdge)) = .ok g := by
  have hcs : ∀ l, isComment l = true → startsArc l = false := by
    intro l hc
    cases hs : startsArc l with
    | false => rfl
    | true =>
      obtain ⟨r, rfl⟩ := startsArc_iff.1 hs
      cases hc
  rcases readDimacs_ok.1 h with ⟨hall, rfl⟩ | ⟨pre, pl, post, n, m, es, k1, k2, k3, k4, _, k6, k7⟩
  · refine ⟨[], ?_, by simp, by simp, rfl⟩
    rw [List.filter_eq_nil_iff.2 (fun l hl => by rw [hcs l (hall l hl)]; simp)]
    exact .nil
  · have hn : n ≤ P.umax := by
      obtain ⟨rest, _, hr⟩ := k3
      cases hr with
      | cons _ hw _ _ => exact hw.1
    refine ⟨es, ?_, fun e he => ⟨(k6 e he).1.1, (k6 e he).2.1⟩, fun e he => ⟨Nat.le_trans (k6 e he).1.2 hn, Nat.le_trans (k6 e he).2.2 hn⟩, k7⟩
    have hpl : startsArc pl = false := by
      obtain ⟨rest, rfl, _⟩ := k3
      rfl
    have hpost : post.filter (fun l => !isComment l) = post.filter startsArc := by
      apply List.filter_congr
      intro l hl
      cases hc : isComment l with
      | true => rw [hcs l hc]; rfl
      | false =>
        have hm : l ∈ post.filter (fun l => !isComment l) := List.mem_filter.2 ⟨hl, by rw [hc]; rfl⟩
        obtain ⟨e, _, rest, rfl, _⟩ := forall₂_mem k4 hm
        rfl
    rw [k1, List.filter_append, List.filter_cons, hpl,
      List.filter_eq_nil_iff.2 (fun l hl => by rw [hcs l (k2 l hl)]; simp : ∀ l ∈ pre, ¬ startsArc l = true)]
    simp only [List.nil_append, Bool.false_eq_true, if_false]
    rw [← hpost]
    exact k4

/-- **C101** `from_file` reads every file that `from_dimacs_file` accepts: with the ids as they are in the file, one higher than those of
`from_dimacs_file`, the same weights, and one node more (node 0, without edges). The only exception are graphs with `usize::MAX` nodes, whose
largest id is `usize::MAX` in the file. -/
theorem C101_from_file_reads_dimacs {P : Plat} {cs : List Char} {g : InputGraph} (h : readDimacs P cs = .ok g) (hn : g.numNodes < P.umax) :
    ∃ g', readText P cs = .ok g' ∧ g'.edges = g.edges.map (fun e => ⟨e.src + 1, e.dst + 1, e.weight⟩) ∧
      g'.numNodes = (if g.edges = [] then 0 else g.numNodes + 1) ∧ g'.frozen = true := by
  obtain ⟨es, h1, h2, h3, h4⟩ := dimacs_arcs h
  have hcnt : nodeCount (accepted (addAll (es.map shiftEdge))) ≤ P.umax := by
    apply nodeCount_le
    intro y hy
    have := (mem_accepted_addAll.1 ((mem_accepted_shift h2).1 hy)).1
    have := h3 _ this
    simp only [raiseEdge] at this; omega
  have hi := buildGraph_inv (Or.inr hcnt) h4
  have hnum := hi.num
  have hf : g.frozen = true := by
    rw [build_addAll] at h4
    obtain ⟨g1, _, k⟩ := bind_eq_ok.1 h4
    unfold InputGraph.freeze at k
    by_cases hg1 : g1.frozen = true
    · rw [if_pos hg1] at k; cases k
    · rw [if_neg hg1] at k; injection k with k; rw [← k]
  have hmax : ∀ e ∈ accepted (addAll es), max e.src e.dst + 1 ≤ P.umax := by
    intro x hx
    obtain ⟨y, hy, rfl⟩ := accepted_raised h2 hx
    have := nodeCount_gt y hy
    simp only [raiseEdge]; omega
  obtain ⟨g', h5, hf'⟩ := build_accepted hmax
  have hcnt' : nodeCount (accepted (addAll es)) ≤ P.umax := nodeCount_le (fun e he => by have := hmax e he; omega)
  have hi' := buildGraph_inv (Or.inr hcnt') h5
  have hnil : accepted (addAll (es.map shiftEdge)) = [] ↔ g.edges = [] := by
    constructor
    · intro e
      apply List.eq_nil_iff_forall_not_mem.2
      intro x hx
      have := hi.sub x hx
      rw [e] at this; cases this
    · intro e
      apply List.eq_nil_iff_forall_not_mem.2
      intro x hx
      obtain ⟨y, hy, _⟩ := hi.cov x hx
      rw [e] at hy; cases hy
  refine ⟨g', readText_ok.2 ⟨es, h1, h5⟩, ?_, ?_, hf'⟩
  · apply sorted_ext (hi'.sorted hf')
    · rw [List.pairwise_map]
      refine (hi.sorted hf).imp ?_
      intro a b hab
      unfold PLt at hab ⊢
      simp only
      omega
    · intro e
      rw [List.mem_map]
      constructor
      · intro he
        obtain ⟨y, hy, rfl⟩ := accepted_raised h2 (hi'.sub e he)
        refine ⟨y, (hi.mem_iff hf y.src y.dst y.weight).2 ⟨hy, fun w' hw' => ?_⟩, rfl⟩
        exact ((hi'.mem_iff hf' (y.src + 1) (y.dst + 1) y.weight).1 he).2 w' ((mem_accepted_shift h2).1 hw')
      · rintro ⟨y, hy, rfl⟩
        obtain ⟨k1, k2⟩ := (hi.mem_iff hf y.src y.dst y.weight).1 hy
        refine (hi'.mem_iff hf' _ _ _).2 ⟨(mem_accepted_shift h2).1 k1, fun w' hw' => ?_⟩
        exact k2 w' ((mem_accepted_shift h2).2 hw')
  · rw [hi'.num, accepted_lt_iff h2, ← hnum]
    by_cases he : g.edges = []
    · rw [if_pos he, if_pos (hnil.2 he)]
    · rw [if_neg he, if_neg (fun k => he (hnil.1 k))]

/-- **C101** With overflow checks `from_file` panics in the exceptional case. -/
theorem C101_last_node {P : Plat} (hP : P.checked = true) (h0 : 0 < P.umax) {cs : List Char} {g : InputGraph} (h : readDimacs P cs = .ok g) :
    (∃ g', readText P cs = .ok g') ↔ g.numNodes < P.umax := by
  constructor
  · rintro ⟨g', h'⟩
    obtain ⟨es, h1, h2, _, h4⟩ := dimacs_arcs h
    obtain ⟨es', h1', h5⟩ := readText_ok.1 h'
    cases forall₂_arc_unique h1 h1'
    have hi := buildGraph_inv (Or.inl hP) h4
    have hi' := buildGraph_inv (Or.inl hP) h5
    have := buildGraph_num h5
    rw [hi'.num, accepted_lt_iff h2] at this
    rw [hi.num]
    by_cases he : accepted (addAll (es.map shiftEdge)) = []
    · rw [he]; exact h0
    · rw [if_neg he] at this; omega
  · intro hn
    obtain ⟨g', h', _⟩ := C101_from_file_reads_dimacs h hn
    exact ⟨g', h'⟩

example : readDimacs debug64 "c x\np sp 4 3\na 1 2 5\na 2 4 7\na 1 2 3\n".toList = .ok ⟨[⟨0, 1, 3⟩, ⟨1, 3, 7⟩], 4, true⟩ ∧
    readText debug64 "c x\np sp 4 3\na 1 2 5\na 2 4 7\na 1 2 3\n".toList = .ok ⟨[⟨1, 2, 3⟩, ⟨2, 4, 7⟩], 5, true⟩ := by
  have h : readDimacs debug64 "c x\np sp 4 3\na 1 2 5\na 2 4 7\na 1 2 3\n".toList = .ok ⟨[⟨0, 1, 3⟩, ⟨1, 3, 7⟩], 4, true⟩ := rfl
  obtain ⟨⟨e, n, f⟩, h1, h2, h3, h4⟩ := C101_from_file_reads_dimacs h (by decide)
  simp only [List.map] at h2
  rw [if_neg (by simp)] at h3
  simp only at h3 h4
  subst h2 h3 h4
  exact ⟨h, h1⟩

/-- **C101** Queries on the two graphs: the ids of the file are those of `from_dimacs_file` plus one, and the weights are the same. -/
theorem C101_queries {P : Plat} (hP : P.checked = true) {cs : List Char} {g g' : InputGraph} (h : readDimacs P cs = .ok g)
    (h' : readText P cs = .ok g') {fg fg' : FastGraph} (hp : Prepared P g fg) (hp' : Prepared P g' fg') (pq pq' : PQ)
    {S T : List (Nat × Nat)} {r r' : Option ShortestPath} (hr : calcPathMulti P pq fg S T = .ok r)
    (hr' : calcPathMulti P pq' fg' (S.map (fun x => (x.1 + 1, x.2))) (T.map (fun x => (x.1 + 1, x.2))) = .ok r') :
    r.map (·.weight) = r'.map (·.weight) := by
  obtain ⟨es, h1, h2, _, h4⟩ := dimacs_arcs h
  obtain ⟨es', h1', h5⟩ := readText_ok.1 h'
  cases forall₂_arc_unique h1 h1'
  have hi := buildGraph_inv (Or.inl hP) h4
  have hfz : ∀ {es : List Edge} {g : InputGraph}, buildGraph P (addAll es) = .ok g → g.frozen = true := by
    intro es g h4
    rw [build_addAll] at h4
    obtain ⟨g1, _, k⟩ := bind_eq_ok.1 h4
    unfold InputGraph.freeze at k
    by_cases hg1 : g1.frozen = true
    · rw [if_pos hg1] at k; cases k
    · rw [if_neg hg1] at k; injection k with k; rw [← k]
  refine C83_renamed_multi hP (f := fun u => u + 1) ⟨h4, hfz h4, hp⟩ ⟨h5, hfz h5, hp'⟩ ⟨?_, ?_, ?_⟩ pq pq' hr hr'
  · intro u _ v _ e; exact Nat.succ.inj e
  · intro e he; exact (mem_accepted_shift h2).1 he
  · intro e he u _ hu
    obtain ⟨y, hy, rfl⟩ := accepted_raised h2 he
    have hlt := nodeCount_gt y hy
    refine ⟨y.dst, by rw [hi.num]; exact hlt.2, rfl, ?_⟩
    have : y.src = u := Nat.succ.inj hu
    subst this
    exact hy

example : ∃ fg fg' p p',
    prepareWithOrder debug64 binaryHeap ⟨[⟨0, 1, 3⟩, ⟨1, 3, 7⟩], 4, true⟩ [1, 0, 2, 3] = .ok (.ok fg) ∧
    prepareWithOrder debug64 binaryHeap ⟨[⟨1, 2, 3⟩, ⟨2, 4, 7⟩], 5, true⟩ [4, 1, 0, 2, 3] = .ok (.ok fg') ∧
    calcPathMulti debug64 binaryHeap fg [(0, 2), (2, 0)] [(3, 1)] = .ok (some p) ∧
    calcPathMulti debug64 binaryHeap fg' [(1, 2), (3, 0)] [(4, 1)] = .ok (some p') ∧ p.weight = p'.weight := by
  have h : readDimacs debug64 "c x\np sp 4 3\na 1 2 5\na 2 4 7\na 1 2 3\n".toList = .ok ⟨[⟨0, 1, 3⟩, ⟨1, 3, 7⟩], 4, true⟩ := rfl
  have h' : readText debug64 "c x\np sp 4 3\na 1 2 5\na 2 4 7\na 1 2 3\n".toList = .ok ⟨[⟨1, 2, 3⟩, ⟨2, 4, 7⟩], 5, true⟩ := rfl
  obtain ⟨fg, p, e1, e2⟩ : ∃ fg p, prepareWithOrder debug64 binaryHeap ⟨[⟨0, 1, 3⟩, ⟨1, 3, 7⟩], 4, true⟩ [1, 0, 2, 3] = .ok (.ok fg) ∧
    calcPathMulti debug64 binaryHeap fg [(0, 2), (2, 0)] [(3, 1)] = .ok (some p) := ⟨_, _, rfl, rfl⟩
  obtain ⟨fg', p', e3, e4⟩ : ∃ fg' p', prepareWithOrder debug64 binaryHeap ⟨[⟨1, 2, 3⟩, ⟨2, 4, 7⟩], 5, true⟩ [4, 1, 0, 2, 3] = .ok (.ok fg') ∧
    calcPathMulti debug64 binaryHeap fg' [(1, 2), (3, 0)] [(4, 1)] = .ok (some p') := ⟨_, _, rfl, rfl⟩
  refine ⟨fg, fg', p, p', e1, e3, e2, e4, ?_⟩
  have := C101_queries rfl h h' (.order binaryHeap [1, 0, 2, 3] (by decide) e1) (.order binaryHeap [4, 1, 0, 2, 3] (by decide) e3)
    binaryHeap binaryHeap e2 e4
  exact Option.some.inj this

/-- **C101** Not the other way round: `from_dimacs_file` panics on every file of `to_file` that has an edge. -/
theorem C101_dimacs_rejects_text {P : Plat} {g : InputGraph} {txt : List Char} (h : toText g = .ok txt) (hne : g.edges ≠ []) :
    readDimacs P txt = .error .assertion := by
  obtain ⟨es, he, h⟩ := bind_eq_ok.1 h
  injection h with h
  obtain ⟨_, _, he⟩ := bind_eq_ok.1 he
  injection he with he
  subst he h
  obtain ⟨e, es, he⟩ := List.exists_cons_of_ne_nil hne
  unfold readDimacs
  rw [lines_arcs, he, List.map_cons, forM_cons]
  have : readDimacsLine P ⟨InputGraph.new, 0, 0, 0, false⟩ (arcBody e.src e.dst e.weight) = .error .assertion := rfl
  rw [this]
  rfl

example : readDimacs debug64 "a 0 1 5\n".toList = .error .assertion :=
  C101_dimacs_rejects_text (g := ⟨[⟨0, 1, 5⟩], 2, true⟩) rfl (by simp)

end Props
end FP
