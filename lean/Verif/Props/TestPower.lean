import Verif.Props.TestSuite
/-!
# What the randomised tests notice

`Props/TestSuite` says that the tests cannot fail. Here nothing is assumed about the fast graph and the calculator (they may be the work
of a wrong program), and the theorems say what is true if a test does not fail.
-/
set_option autoImplicit false
namespace FP
namespace Props
open Spec TestSuite

/-- The answer to a query from `s` to `t` has the right ends and the right weight. `none` and the weight `usize::MAX` both mean
that there is no path below `usize::MAX`. -/
def RightWeight (P : Plat) (E : EdgeRel) (s t : Nat) : Option ShortestPath → Prop
  | none => ∀ w, HasWalk E s t w → P.umax ≤ w
  | some p => p.source = s ∧ p.target = t ∧
      (IsDist E s t p.weight ∧ p.weight < P.umax ∨ p.weight = P.umax ∧ ∀ w, HasWalk E s t w → P.umax ≤ w)

/-- The nodes of the answer are a path from `s` to `t` of the reported weight. -/
def RightNodes (P : Plat) (E : EdgeRel) (s t : Nat) : Option ShortestPath → Prop
  | none => True
  | some p => p.weight < P.umax → IsWalk E p.nodes p.weight ∧ p.nodes.head? = some s ∧ p.nodes.getLast? = some t

/-- **C96** One query of the first test. Whatever the programs and graphs are: if it passes, the three weights agree, and the ends
agree as well. -/
theorem C96_agreement {P : Plat} {pq : PQ} {fg : FastGraph} {dg : PreparationGraph} {fw : FloydWarshall}
    {st st' : PathCalculator pq × Dijkstra pq × Int} {q : Nat × Nat} (h : singleStep P fg dg fw st q = .ok st') :
    ∃ rf rd w, st.1.calcPath P fg q.1 q.2 = .ok (st'.1, rf) ∧ st.2.1.calcPath P dg q.1 q.2 = .ok (st'.2.1, rd) ∧
      fw.calcWeight P q.1 q.2 = .ok w ∧ (rf.getD (ShortestPath.notFound P q.1 q.2)).weight = w ∧
      (rd.getD (ShortestPath.notFound P q.1 q.2)).weight = w ∧
      (rd.getD (ShortestPath.notFound P q.1 q.2)).source = (rf.getD (ShortestPath.notFound P q.1 q.2)).source ∧
      (rd.getD (ShortestPath.notFound P q.1 q.2)).target = (rf.getD (ShortestPath.notFound P q.1 q.2)).target ∧
      ((rd.getD (ShortestPath.notFound P q.1 q.2)).nodes = (rf.getD (ShortestPath.notFound P q.1 q.2)).nodes ∧ st'.2.2 = st.2.2 ∨
        incI32 P st.2.2 = .ok st'.2.2) := by
  unfold singleStep at h
  obtain ⟨⟨c, rf⟩, h1, h⟩ := bind_eq_ok.1 h
  obtain ⟨⟨d, rd⟩, h2, h⟩ := bind_eq_ok.1 h
  obtain ⟨w, h3, h⟩ := bind_eq_ok.1 h
  obtain ⟨_, h4, h⟩ := bind_eq_ok.1 h
  obtain ⟨_, h5, h⟩ := bind_eq_ok.1 h
  obtain ⟨num, h6, h⟩ := bind_eq_ok.1 h
  cases h
  have h4 := assertM_eq_ok.1 h4
  have h5 := assertM_eq_ok.1 h5
  simp only [beq_iff_eq] at h4
  unfold ShortestPath.eqv at h5
  simp only [Bool.and_eq_true, beq_iff_eq] at h5
  refine ⟨rf, rd, w, h1, h2, h3, h4.symm, h5.2.trans h4.symm, h5.1.1, h5.1.2, ?_⟩
  split at h6
  · exact Or.inr h6
  · rename_i hne
    cases h6
    left
    simpa using hne

theorem wkL_mono {E E' : EdgeRel} (hE : ∀ u v w, E u v w → E' u v w) {s t w : Nat} {L : List Nat} (h : WkL E s t w L) : WkL E' s t w L := by
  induction h with
  | nil s => exact .nil s
  | cons e _ ih => exact .cons (hE _ _ _ e) ih

/-- The answers of a calculator to queries one after the other. -/
def answersOf {pq : PQ} (P : Plat) (fg : FastGraph) (c : PathCalculator pq) (queries : List (Nat × Nat)) :
    M (PathCalculator pq × List (Option ShortestPath)) :=
  forM (fun st q => do
    let (c, r) ← st.1.calcPath P fg q.1 q.2
    .ok (c, st.2 ++ [r])) (c, []) queries

theorem rightWeight_of {P : Plat} {ops : List Op} {ig : InputGraph} (hP : P.checked = true) (hb : buildGraph P ops = .ok ig)
    {s t : Nat} {rd rf : Option ShortestPath} (hd : DAns P (edgesOf ig.edges) s t rd)
    (hw : (rd.getD (ShortestPath.notFound P s t)).weight = (rf.getD (ShortestPath.notFound P s t)).weight)
    (hs : (rd.getD (ShortestPath.notFound P s t)).source = (rf.getD (ShortestPath.notFound P s t)).source)
    (ht : (rd.getD (ShortestPath.notFound P s t)).target = (rf.getD (ShortestPath.notFound P s t)).target) :
    RightWeight P (edgesOf (accepted ops)) s t rf ∧
      ((rd.getD (ShortestPath.notFound P s t)).nodes = (rf.getD (ShortestPath.notFound P s t)).nodes →
        RightNodes P (edgesOf (accepted ops)) s t rf) := by
  have hi := buildGraph_inv (Or.inl hP) hb
  have hall : ∀ {m : Nat}, (∀ w, Wk (edgesOf ig.edges) s t w → m ≤ w) → ∀ w, HasWalk (edgesOf (accepted ops)) s t w → m ≤ w := by
    intro m h w hw
    obtain ⟨w', hle, hw'⟩ := hi.walk_le (hasWalk_iff.1 hw)
    exact Nat.le_trans (h w' hw') hle
  cases rd with
  | none =>
    cases rf with
    | none => exact ⟨hall hd, fun _ => trivial⟩
    | some p =>
      simp only [Option.getD_none, Option.getD_some, ShortestPath.notFound, Plat.WEIGHT_MAX] at hw hs ht
      exact ⟨⟨hs.symm, ht.symm, Or.inr ⟨hw.symm, hall hd⟩⟩, fun _ h => absurd h (by omega)⟩
  | some d =>
    obtain ⟨k1, k2, k3, ⟨L, k4, k5⟩, k6⟩ := hd
    cases rf with
    | none =>
      simp only [Option.getD_none, Option.getD_some, ShortestPath.notFound, Plat.WEIGHT_MAX] at hw
      omega
    | some p =>
      simp only [Option.getD_some] at hw hs ht ⊢
      refine ⟨⟨by rw [← hs, k2], by rw [← ht, k3], Or.inl ⟨⟨?_, ?_⟩, by omega⟩⟩, ?_⟩
      · rw [← hw]
        exact hasWalk_iff.2 (hi.walk_sub k4.toWk)
      · rw [← hw]
        exact hall k6
      · intro hn _
        have k7 : WkL (edgesOf (accepted ops)) s t d.weight L := wkL_mono (fun _ _ _ he => hi.sub _ he) k4
        rw [← hn, k5, ← hw]
        exact k7.isWalk

-- in the five-node graph
example : ∃ fw st', (do (← FloydWarshall.new debug64 5).prepare debug64 Ex.ig) = .ok fw ∧ singleStep debug64 Ex.fg exPrep fw
      (PathCalculator.new debug64 binaryHeap 5, Dijkstra.new debug64 binaryHeap 5, 0) (0, 4) = .ok st' := ⟨_, _, rfl, rfl⟩

/-- **C96, one source and one target** If the loop of the first test ends, every answer has the right weight and the right ends, and at
most `num` answers have wrong nodes (`x.2` says that the nodes differ from Dijkstra's). -/
theorem C96_single_test {P : Plat} (hP : P.checked = true) {ops : List Op} {ig : InputGraph} (hb : buildGraph P ops = .ok ig)
    (hf : ig.frozen = true) {pq : PQ} {dg : PreparationGraph} (hd : PreparationGraph.fromInputGraph P ig = .ok dg)
    {fg : FastGraph} {fw : FloydWarshall} {c c' : PathCalculator pq} {d' : Dijkstra pq} {num : Int} {queries : List (Nat × Nat)}
    (hq : ∀ q ∈ queries, q.1 < ig.numNodes ∧ q.2 < ig.numNodes)
    (h : forM (singleStep P fg dg fw) (c, Dijkstra.new P pq ig.numNodes, 0) queries = .ok (c', d', num)) :
    ∃ l : List (Option ShortestPath × Bool), answersOf P fg c queries = .ok (c', l.map Prod.fst) ∧
      List.Forall₂ (fun q x => RightWeight P (edgesOf (accepted ops)) q.1 q.2 x.1 ∧
        (x.2 = false → RightNodes P (edgesOf (accepted ops)) q.1 q.2 x.1)) queries l ∧
      num = (l.filter (fun x => x.2)).length := by
  obtain ⟨dg', e, hd'⟩ := DGraph.of_client hP hb hf
  rw [hd] at e
  cases e
  suffices H : ∀ (queries : List (Nat × Nat)) (c : PathCalculator pq) (d : Dijkstra pq) (k : Int) (acc : List (Option ShortestPath)),
      Dijkstra.Base ig.numNodes d → (∀ q ∈ queries, q.1 < ig.numNodes ∧ q.2 < ig.numNodes) →
      forM (singleStep P fg dg fw) (c, d, k) queries = .ok (c', d', num) →
      ∃ l : List (Option ShortestPath × Bool), forM (fun (st : PathCalculator pq × List (Option ShortestPath)) (q : Nat × Nat) => do
          let (c, r) ← st.1.calcPath P fg q.1 q.2
          .ok (c, st.2 ++ [r])) (c, acc) queries = .ok (c', acc ++ l.map Prod.fst) ∧
        List.Forall₂ (fun q x => RightWeight P (edgesOf (accepted ops)) q.1 q.2 x.1 ∧
          (x.2 = false → RightNodes P (edgesOf (accepted ops)) q.1 q.2 x.1)) queries l ∧
        num = k + (l.filter (fun x => x.2)).length by
    obtain ⟨l, h1, h2, h3⟩ := H queries c _ 0 [] (Dijkstra.Base.new P pq _) hq h
    refine ⟨l, ?_, h2, by omega⟩
    unfold answersOf
    simpa using h1
  intro queries
  induction queries with
  | nil =>
    intro c d k acc _ _ h
    cases h
    exact ⟨[], by simp [forM], .nil, by simp⟩
  | cons q queries ih =>
    intro c d k acc hb0 hq h
    rw [forM_cons] at h
    obtain ⟨⟨c1, d1, k1⟩, h1, h2⟩ := bind_eq_ok.1 h
    obtain ⟨rf, rd, w, e1, e2, _, e4, e5, e6, e7, e8⟩ := C96_agreement h1
    simp only at e1 e2 e8
    obtain ⟨hb1, hans⟩ := (dijkstra_ok hP hd' hb0 (hq q (by simp)).1 (hq q (by simp)).2).of_ok e2
    simp only at hb1 hans
    obtain ⟨r1, r2⟩ := rightWeight_of hP hb hans (e5.trans e4.symm) e6 e7
    obtain ⟨l, l1, l2, l3⟩ := ih c1 d1 k1 (acc ++ [rf]) hb1 (fun x hx => hq x (by simp [hx])) h2
    rcases e8 with ⟨hn, rfl⟩ | hn
    · refine ⟨(rf, false) :: l, ?_, .cons ⟨r1, fun _ => r2 hn⟩ l2, by simpa using l3⟩
      rw [forM_cons, e1]
      simp only [bind_okM, List.map_cons]
      rw [l1]
      simp
    · refine ⟨(rf, true) :: l, ?_, .cons ⟨r1, fun h => (by cases h)⟩ l2, ?_⟩
      · rw [forM_cons, e1]
        simp only [bind_okM, List.map_cons]
        rw [l1]
        simp
      · have := (incI32_ok hP).of_ok hn
        simp only [List.filter_cons_of_pos, List.length_cons]
        push_cast
        omega

-- the five-node graph
example : ∃ fw c' d' num, (do (← FloydWarshall.new debug64 5).prepare debug64 Ex.ig) = .ok fw ∧
    forM (singleStep debug64 Ex.fg exPrep fw) (PathCalculator.new debug64 binaryHeap 5, Dijkstra.new debug64 binaryHeap 5, 0)
      [(0, 4), (4, 0), (2, 2), (1, 3)] = .ok (c', d', num) ∧
    ∃ l : List (Option ShortestPath × Bool), answersOf debug64 Ex.fg (PathCalculator.new debug64 binaryHeap 5)
      [(0, 4), (4, 0), (2, 2), (1, 3)] = .ok (c', l.map Prod.fst) ∧
      List.Forall₂ (fun q x => RightWeight debug64 (edgesOf (accepted Ex.ops)) q.1 q.2 x.1 ∧
        (x.2 = false → RightNodes debug64 (edgesOf (accepted Ex.ops)) q.1 q.2 x.1)) [(0, 4), (4, 0), (2, 2), (1, 3)] l ∧
      num = (l.filter (fun x => x.2)).length := by
  obtain ⟨fw, e⟩ : ∃ r, (do (← FloydWarshall.new debug64 5).prepare debug64 Ex.ig) = .ok r := ⟨_, rfl⟩
  have h : (do let fw ← (← FloydWarshall.new debug64 5).prepare debug64 Ex.ig
               let st ← forM (singleStep debug64 Ex.fg exPrep fw)
                 (PathCalculator.new debug64 binaryHeap 5, Dijkstra.new debug64 binaryHeap 5, 0) [(0, 4), (4, 0), (2, 2), (1, 3)]
               .ok st.2.2 : M Int) = .ok 0 := by decide +kernel
  rw [← bind_assoc, e, bind_okM] at h
  obtain ⟨⟨c', d', num⟩, e', _⟩ := bind_eq_ok.1 h
  exact ⟨fw, c', d', num, e, e', C96_single_test (P := debug64) rfl Ex.built Ex.frozen rfl (by decide) e'⟩

/-! ### Several sources and targets -/

/-- The answer has the weight of a lightest route between entries with weights below `usize::MAX`, and the ends of such a route; `none`
means that no two such entries are joined by a path below `usize::MAX`. -/
def RightMulti (P : Plat) (E : EdgeRel) (S T : List (Nat × Nat)) : Option ShortestPath → Prop
  | none => ∀ s ws t wt w, (s, ws) ∈ S → (t, wt) ∈ T → ws < P.umax → wt < P.umax → HasWalk E s t w → P.umax ≤ w
  | some p => (∃ ws wt w, (p.source, ws) ∈ S ∧ (p.target, wt) ∈ T ∧ ws < P.umax ∧ wt < P.umax ∧ IsDist E p.source p.target w ∧
        p.weight = ws + w + wt) ∧
      ∀ s ws t wt w, (s, ws) ∈ S → (t, wt) ∈ T → ws < P.umax → wt < P.umax → HasWalk E s t w → w < P.umax → p.weight ≤ ws + w + wt

/-- The nodes of the answer are a path that has, together with entries of the lists, the reported weight. -/
def RightMultiNodes (E : EdgeRel) (S T : List (Nat × Nat)) : Option ShortestPath → Prop
  | none => True
  | some p => ∃ ws wt w, (p.source, ws) ∈ S ∧ (p.target, wt) ∈ T ∧ IsWalk E p.nodes w ∧ p.nodes.head? = some p.source ∧
      p.nodes.getLast? = some p.target ∧ p.weight = ws + w + wt

/-- The answers of a calculator to queries with several sources and targets. -/
def multiAnswersOf {pq : PQ} (P : Plat) (fg : FastGraph) (c : PathCalculator pq) (queries : List (List (Nat × Nat) × List (Nat × Nat))) :
    M (PathCalculator pq × List (Option ShortestPath)) :=
  forM (fun st q => do
    let (c, r) ← st.1.calcPathMulti P fg q.1 q.2
    .ok (c, st.2 ++ [r])) (c, []) queries

theorem matchingPaths_sub {P : Plat} (hP : P.checked = true) (f : ShortestPath) {l r : List (ShortestPath × Nat × Nat)}
    (h : matchingPaths P f l = .ok r) : ∀ x ∈ r, x ∈ l ∧ tot x = f.weight ∧ x.1.source = f.source ∧ x.1.target = f.target := by
  unfold matchingPaths at h
  refine forM_inv (I := fun pre (r : List (ShortestPath × Nat × Nat)) => ∀ x ∈ r, x ∈ pre ∧ tot x = f.weight ∧ x.1.source = f.source ∧
    x.1.target = f.target) ?_ _ [] _ _ (by simp) h
  intro pre a s s' hI he x hx
  obtain ⟨w, e1, he⟩ := bind_eq_ok.1 he
  obtain ⟨rfl, _⟩ := (totalWeight_ok hP a).of_ok e1
  cases he
  split at hx
  · rename_i hc
    simp only [Bool.and_eq_true, beq_iff_eq] at hc
    rcases List.mem_append.1 hx with hx | hx
    · obtain ⟨k1, k2⟩ := hI x hx
      exact ⟨by simp [k1], k2⟩
    · rw [List.mem_singleton.1 hx]
      exact ⟨by simp, hc.1.1, hc.1.2, hc.2⟩
  · obtain ⟨k1, k2⟩ := hI x hx
    exact ⟨by simp [k1], k2⟩

theorem multiStep_passes {P : Plat} (hP : P.checked = true) {ops : List Op} {ig : InputGraph} (hb : buildGraph P ops = .ok ig)
    {pq : PQ} {dg : PreparationGraph} (hd : DGraph P ig.numNodes (edgesOf ig.edges) dg) {fg : FastGraph}
    {st st' : PathCalculator pq × Dijkstra pq × Int × Int} (hst : Dijkstra.Base ig.numNodes st.2.1) {q : List (Nat × Nat) × List (Nat × Nat)}
    (hS : ∀ x ∈ q.1, x.1 < ig.numNodes) (hT : ∀ x ∈ q.2, x.1 < ig.numNodes) (h : multiStep P fg dg st q = .ok st') :
    Dijkstra.Base ig.numNodes st'.2.1 ∧ ∃ r diff, st.1.calcPathMulti P fg q.1 q.2 = .ok (st'.1, r) ∧
      RightMulti P (edgesOf (accepted ops)) q.1 q.2 r ∧ (diff = false → RightMultiNodes (edgesOf (accepted ops)) q.1 q.2 r) ∧
      st'.2.2.1 = st.2.2.1 + (if diff then 1 else 0) ∧ st'.2.2.2 = st.2.2.2 + (if r.isNone then 1 else 0) ∧ (r = none → diff = false) := by
  have hi := buildGraph_inv (Or.inl hP) hb
  obtain ⟨S, T⟩ := q
  unfold multiStep at h
  obtain ⟨⟨c, r⟩, e1, h⟩ := bind_eq_ok.1 h
  obtain ⟨⟨d, paths⟩, e2, h⟩ := bind_eq_ok.1 h
  obtain ⟨shortest, e3, h⟩ := bind_eq_ok.1 h
  obtain ⟨hb1, hrec⟩ := (allPairs_ok hP hd hst hS hT).of_ok e2
  obtain ⟨f1, f2⟩ := found_spec hrec
  obtain ⟨m1, m2⟩ := (minTotal_ok hP _).of_ok e3
  cases shortest with
  | none =>
    simp only at h
    obtain ⟨_, e4, h⟩ := bind_eq_ok.1 h
    obtain ⟨nf, e5, h⟩ := bind_eq_ok.1 h
    cases h
    have hr := assertM_eq_ok.1 e4
    rw [Option.isNone_iff_eq_none] at hr
    subst hr
    have hnf := (incI32_ok hP).of_ok e5
    refine ⟨hb1, none, false, e1, ?_, fun _ => trivial, by simp, by simpa using hnf, fun _ => rfl⟩
    intro s ws t wt w h1 h2 h3 h4 h5
    by_contra hlt
    obtain ⟨w', hle, hw'⟩ := hi.walk_le (hasWalk_iff.1 h5)
    obtain ⟨p, hp, _⟩ := f2 s ws t wt w' h1 h2 h3 h4 (by omega) hw'
    rw [m1 rfl] at hp
    cases hp
  | some w =>
    simp only at h
    cases r with
    | none => cases h
    | some f =>
      simp only at h
      obtain ⟨_, e4, h⟩ := bind_eq_ok.1 h
      obtain ⟨ms, e5, h⟩ := bind_eq_ok.1 h
      obtain ⟨_, e6, h⟩ := bind_eq_ok.1 h
      obtain ⟨num, e7, h⟩ := bind_eq_ok.1 h
      cases h
      have hw := assertM_eq_ok.1 e4
      simp only [beq_iff_eq] at hw
      have hne := assertM_eq_ok.1 e6
      simp only [decide_eq_true_eq] at hne
      obtain ⟨k1, k2⟩ := m2 w rfl
      have hsub := matchingPaths_sub hP f e5
      have hpath : ∀ x ∈ ms, ∃ ws wt w L, (f.source, ws) ∈ S ∧ (f.target, wt) ∈ T ∧ ws < P.umax ∧ wt < P.umax ∧
          IsDist (edgesOf (accepted ops)) f.source f.target w ∧ f.weight = ws + w + wt ∧
          WkL (edgesOf (accepted ops)) f.source f.target w L ∧ x.1.nodes = L ++ [f.target] := by
        rintro ⟨p, ws, wt⟩ hx
        obtain ⟨x1, x2, x3, x4⟩ := hsub _ hx
        obtain ⟨y1, y2, s, t, y3, y4, y5, y6, y7, ⟨L, y8, y9⟩, y10⟩ := f1 p ws wt x1
        simp only at x3 x4
        rw [y6] at x3
        rw [y7] at x4
        subst x3 x4
        have y11 := wkL_mono (fun _ _ _ he => hi.sub _ he) y8
        refine ⟨ws, wt, p.weight, L, y3, y4, y1, y2, ⟨hasWalk_iff.2 y11.toWk, ?_⟩, ?_, y11, y9⟩
        · intro w' hw'
          obtain ⟨w'', hle, hk⟩ := hi.walk_le (hasWalk_iff.1 hw')
          exact Nat.le_trans (y10 _ hk) hle
        · rw [← x2]; unfold tot; simp only; omega
      have hright : RightMulti P (edgesOf (accepted ops)) S T (some f) := by
        constructor
        · obtain ⟨x, hx⟩ := List.exists_mem_of_length_pos hne
          obtain ⟨ws, wt, w, L, z1, z2, z3, z4, z5, z6, _⟩ := hpath x hx
          exact ⟨ws, wt, w, z1, z2, z3, z4, z5, z6⟩
        · intro s ws t wt w' h1 h2 h3 h4 h5 h6
          obtain ⟨w'', hle, hk⟩ := hi.walk_le (hasWalk_iff.1 h5)
          obtain ⟨p, hp, hd⟩ := f2 s ws t wt w'' h1 h2 h3 h4 (by omega) hk
          have h7 := (k2 _ hp).1
          have h8 := hd.2.2.2.2 _ hk
          unfold tot at h7
          simp only at h7
          omega
      refine ⟨hb1, some f, !(ms.any (fun x => x.1.nodes == f.nodes)), e1, hright, ?_, ?_, by simp, fun h => (by cases h)⟩
      · intro hdiff
        simp only [Bool.not_eq_false', List.any_eq_true, beq_iff_eq] at hdiff
        obtain ⟨x, hx, hn⟩ := hdiff
        obtain ⟨ws, wt, w, L, z1, z2, _, _, _, z6, z7, z8⟩ := hpath x hx
        refine ⟨ws, wt, w, z1, z2, ?_, ?_, ?_, z6⟩
        · rw [← hn, z8]; exact z7.isWalk.1
        · rw [← hn, z8]; exact z7.isWalk.2.1
        · rw [← hn, z8]; exact z7.isWalk.2.2
      · cases ha : ms.any (fun x => x.1.nodes == f.nodes) with
        | true => rw [ha] at e7; cases e7; simp
        | false =>
          rw [ha] at e7
          simpa using (incI32_ok hP).of_ok e7

/-- **C96, several sources and targets** If the loop of the second test ends, every answer has the right weight and right ends, `nf` is the
number of `None`, and at most `num` answers have wrong nodes. -/
theorem C96_multi_test {P : Plat} (hP : P.checked = true) {ops : List Op} {ig : InputGraph} (hb : buildGraph P ops = .ok ig)
    (hf : ig.frozen = true) {pq : PQ} {dg : PreparationGraph} (hd : PreparationGraph.fromInputGraph P ig = .ok dg)
    {fg : FastGraph} {c c' : PathCalculator pq} {d' : Dijkstra pq} {num nf : Int} {queries : List (List (Nat × Nat) × List (Nat × Nat))}
    (hq : ∀ q ∈ queries, (∀ x ∈ q.1, x.1 < ig.numNodes) ∧ ∀ x ∈ q.2, x.1 < ig.numNodes)
    (h : forM (multiStep P fg dg) (c, Dijkstra.new P pq ig.numNodes, 0, 0) queries = .ok (c', d', num, nf)) :
    ∃ l : List (Option ShortestPath × Bool), multiAnswersOf P fg c queries = .ok (c', l.map Prod.fst) ∧
      List.Forall₂ (fun q x => RightMulti P (edgesOf (accepted ops)) q.1 q.2 x.1 ∧
        (x.2 = false → RightMultiNodes (edgesOf (accepted ops)) q.1 q.2 x.1)) queries l ∧
      num = (l.filter (fun x => x.2)).length ∧ nf = (l.filter (fun x => x.1.isNone)).length := by
  obtain ⟨dg', e, hd'⟩ := DGraph.of_client hP hb hf
  rw [hd] at e
  cases e
  suffices H : ∀ (queries : List (List (Nat × Nat) × List (Nat × Nat))) (c : PathCalculator pq) (d : Dijkstra pq) (k kn : Int)
      (acc : List (Option ShortestPath)),
      Dijkstra.Base ig.numNodes d → (∀ q ∈ queries, (∀ x ∈ q.1, x.1 < ig.numNodes) ∧ ∀ x ∈ q.2, x.1 < ig.numNodes) →
      forM (multiStep P fg dg) (c, d, k, kn) queries = .ok (c', d', num, nf) →
      ∃ l : List (Option ShortestPath × Bool), forM (fun (st : PathCalculator pq × List (Option ShortestPath))
          (q : List (Nat × Nat) × List (Nat × Nat)) => do
          let (c, r) ← st.1.calcPathMulti P fg q.1 q.2
          .ok (c, st.2 ++ [r])) (c, acc) queries = .ok (c', acc ++ l.map Prod.fst) ∧
        List.Forall₂ (fun q x => RightMulti P (edgesOf (accepted ops)) q.1 q.2 x.1 ∧
          (x.2 = false → RightMultiNodes (edgesOf (accepted ops)) q.1 q.2 x.1)) queries l ∧
        num = k + (l.filter (fun x => x.2)).length ∧ nf = kn + (l.filter (fun x => x.1.isNone)).length by
    obtain ⟨l, h1, h2, h3, h4⟩ := H queries c _ 0 0 [] (Dijkstra.Base.new P pq _) hq h
    refine ⟨l, ?_, h2, by omega, by omega⟩
    unfold multiAnswersOf
    simpa using h1
  intro queries
  induction queries with
  | nil =>
    intro c d k kn acc _ _ h
    cases h
    exact ⟨[], by simp [forM], .nil, by simp, by simp⟩
  | cons q queries ih =>
    intro c d k kn acc hb0 hq h
    rw [forM_cons] at h
    obtain ⟨⟨c1, d1, k1, kn1⟩, h1, h2⟩ := bind_eq_ok.1 h
    obtain ⟨hb1, r, diff, e1, e2, e3, e4, e5, _⟩ := multiStep_passes hP hb hd' hb0 (hq q (by simp)).1 (hq q (by simp)).2 h1
    simp only at hb1 e1 e4 e5
    obtain ⟨l, l1, l2, l3, l4⟩ := ih c1 d1 k1 kn1 (acc ++ [r]) hb1 (fun x hx => hq x (by simp [hx])) h2
    refine ⟨(r, diff) :: l, ?_, .cons ⟨e2, e3⟩ l2, ?_, ?_⟩
    · rw [forM_cons, e1]
      simp only [bind_okM, List.map_cons]
      rw [l1]
      simp
    · cases diff <;> simp_all; omega
    · cases r <;> simp_all; omega

-- the five-node graph with two queries, the second without a path
example : ∃ c' d' num nf, forM (multiStep debug64 Ex.fg exPrep)
      (PathCalculator.new debug64 binaryHeap 5, Dijkstra.new debug64 binaryHeap 5, 0, 0)
      [(Ex.sources, Ex.targets), ([(4, 0)], [(0, 7)])] = .ok (c', d', num, nf) ∧
    ∃ l : List (Option ShortestPath × Bool), multiAnswersOf debug64 Ex.fg (PathCalculator.new debug64 binaryHeap 5)
      [(Ex.sources, Ex.targets), ([(4, 0)], [(0, 7)])] = .ok (c', l.map Prod.fst) ∧
      List.Forall₂ (fun q x => RightMulti debug64 (edgesOf (accepted Ex.ops)) q.1 q.2 x.1 ∧
        (x.2 = false → RightMultiNodes (edgesOf (accepted Ex.ops)) q.1 q.2 x.1))
        [(Ex.sources, Ex.targets), ([(4, 0)], [(0, 7)])] l ∧
      num = (l.filter (fun x => x.2)).length ∧ nf = (l.filter (fun x => x.1.isNone)).length := by
  obtain ⟨⟨c', d', num, nf⟩, e⟩ : ∃ r, forM (multiStep debug64 Ex.fg exPrep)
      (PathCalculator.new debug64 binaryHeap 5, Dijkstra.new debug64 binaryHeap 5, 0, 0)
      [(Ex.sources, Ex.targets), ([(4, 0)], [(0, 7)])] = .ok r := ⟨_, rfl⟩
  exact ⟨c', d', num, nf, e, C96_multi_test (P := debug64) rfl Ex.built Ex.frozen rfl (by decide) e⟩

/-! ### What they do not notice -/

/-- The graph 0 → 1 → 2 with weights 1. -/
def chainOps : List Op := [.addEdge 0 1 1, .addEdge 1 2 1, .freeze]

def chainGraph : InputGraph := ⟨[⟨0, 1, 1⟩, ⟨1, 2, 1⟩], 3, true⟩

/-- What `prepare_with_order` with the order 1, 0, 2 gives, but the shortcut 0 → 2 is stored as if it was an edge of the graph. -/
def chainWrong : FastGraph where
  numNodes := 3
  ranks := [1, 0, 2]
  edgesFwd := [⟨1, 2, 1, Ex.inv, Ex.inv⟩, ⟨0, 2, 2, Ex.inv, Ex.inv⟩]
  firstEdgeIdsFwd := [0, 1, 2, 2]
  edgesBwd := [⟨1, 0, 1, Ex.inv, Ex.inv⟩]
  firstEdgeIdsBwd := [0, 1, 1, 1]

def chainPairs : List (Nat × Nat) := [(0, 0), (0, 1), (0, 2), (1, 0), (1, 1), (1, 2), (2, 0), (2, 1), (2, 2)]

/-- **C96** Nodes are only counted: a fast graph that answers a query with nodes that are no path passes the queries between all nine
pairs, with `num_different_paths = 1`. The tests accept up to 100 such answers in 1000. -/
theorem C96_wrong_nodes_pass : buildGraph debug64 chainOps = .ok chainGraph ∧
    (∃ dg fw c' d', PreparationGraph.fromInputGraph debug64 chainGraph = .ok dg ∧
      (do (← FloydWarshall.new debug64 3).prepare debug64 chainGraph) = .ok fw ∧
      forM (singleStep debug64 chainWrong dg fw) (PathCalculator.new debug64 binaryHeap 3, Dijkstra.new debug64 binaryHeap 3, 0)
        chainPairs = .ok (c', d', 1)) ∧
    (∃ c p, (PathCalculator.new debug64 binaryHeap 3).calcPath debug64 chainWrong 0 2 = .ok (c, some p) ∧ p.nodes = [0, 2] ∧
      ∀ w, ¬ IsWalk (edgesOf (accepted chainOps)) p.nodes w) ∧
    tooMany F32.tenth 100 1000 = false ∧ tooMany F32.tenth 101 1000 = true := by
  refine ⟨rfl, ?_, ?_, by decide +kernel, by decide +kernel⟩
  · obtain ⟨dg, e1⟩ : ∃ r, PreparationGraph.fromInputGraph debug64 chainGraph = .ok r := ⟨_, rfl⟩
    obtain ⟨fw, e2⟩ : ∃ r, (do (← FloydWarshall.new debug64 3).prepare debug64 chainGraph) = .ok r := ⟨_, rfl⟩
    have h : (do let dg ← PreparationGraph.fromInputGraph debug64 chainGraph
                 let fw ← (← FloydWarshall.new debug64 3).prepare debug64 chainGraph
                 let st ← forM (singleStep debug64 chainWrong dg fw)
                   (PathCalculator.new debug64 binaryHeap 3, Dijkstra.new debug64 binaryHeap 3, 0) chainPairs
                 .ok st.2.2 : M Int) = .ok 1 := by decide +kernel
    rw [e1, bind_okM, ← bind_assoc, e2, bind_okM] at h
    obtain ⟨⟨c', d', num⟩, e3, h⟩ := bind_eq_ok.1 h
    cases h
    exact ⟨dg, fw, c', d', e1, e2, e3⟩
  · obtain ⟨⟨c, r⟩, e⟩ : ∃ r, (PathCalculator.new debug64 binaryHeap 3).calcPath debug64 chainWrong 0 2 = .ok r := ⟨_, rfl⟩
    have h : (do let r ← (PathCalculator.new debug64 binaryHeap 3).calcPath debug64 chainWrong 0 2
                 .ok (r.2.map (fun p => p.nodes)) : M (Option (List Nat))) = .ok (some [0, 2]) := by decide +kernel
    rw [e, bind_okM] at h
    simp only [Except.ok.injEq, Option.map_eq_some_iff] at h
    obtain ⟨p, rfl, hp⟩ := h
    refine ⟨c, p, e, hp, fun w hw => ?_⟩
    rw [hp] at hw
    obtain ⟨a, b, he, _⟩ := hw
    simp [edgesOf, accepted, chainOps, Op.edges] at he

end Props
end FP
