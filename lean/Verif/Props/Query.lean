import Verif.Proofs.Api
import Verif.Props.Example
/-!
# Queries on prepared graphs

All statements are about a client that builds a graph by some calls (`Spec.Op`), prepares it in any of the four ways and
asks for paths: `Client`. Distances are those of `Spec`, in the graph with the edges the client added. They are stated for
builds with overflow checks (`P.checked = true`), for every word size; `Verif.Props.Build` transfers results to builds
without overflow checks.
-/
set_option autoImplicit false
namespace FP
namespace Props
open Spec

/-- **C01** A returned path has minimal weight. -/
theorem C01_calc_path_is_minimal {P : Plat} (hP : P.checked = true) {ops : List Op} {ig : InputGraph} {fg : FastGraph}
    (hc : Client P ops ig fg) (pq : PQ) {s t : Nat} {p : ShortestPath} (hq : calcPath P pq fg s t = .ok (some p)) :
    IsDist (edgesOf (accepted ops)) s t p.weight :=
  ((query_answer hP hc (query_single hq)).2.2.single.2 p rfl).2.2.2.2.2.2

/-- The client of the examples. -/
theorem exampleClient : Client debug64 Ex.ops Ex.ig Ex.fg := ⟨Ex.built, Ex.frozen, Ex.prepared⟩
/-- The same client preparing with a given order. -/
theorem exampleClient' : Client debug64 Ex.ops Ex.ig Ex.fgo := ⟨Ex.built, Ex.frozen, Ex.prepared'⟩

example : IsDist (edgesOf (accepted Ex.ops)) 0 4 13 := C01_calc_path_is_minimal rfl exampleClient binaryHeap Ex.query
example : IsDist (edgesOf (accepted Ex.ops)) 0 4 13 := C01_calc_path_is_minimal rfl exampleClient' binaryHeap Ex.query'

/-- **C02** `None` is returned exactly when every walk weighs at least `usize::MAX` (in particular when there is none). -/
theorem C02_none_iff_unreachable {P : Plat} (hP : P.checked = true) {ops : List Op} {ig : InputGraph} {fg : FastGraph}
    (hc : Client P ops ig fg) (pq : PQ) {s t : Nat} {r : Option ShortestPath} (hq : calcPath P pq fg s t = .ok r) :
    r = none ↔ ¬ ∃ w < P.umax, HasWalk (edgesOf (accepted ops)) s t w := by
  have ha := (query_answer hP hc (query_single hq)).2.2
  rw [ha.found_iff]
  constructor
  · rintro h ⟨w, hw, hk⟩
    have := h w (hasRoute_single.2 hk)
    omega
  · intro h total ht
    by_contra hlt
    exact h ⟨total, by omega, hasRoute_single.1 ht⟩

example : ¬ ∃ w < debug64.umax, HasWalk (edgesOf (accepted Ex.ops)) 4 0 w :=
  (C02_none_iff_unreachable rfl exampleClient binaryHeap Ex.queryNone).1 rfl
example : ∃ w < debug64.umax, HasWalk (edgesOf (accepted Ex.ops)) 0 4 w := by
  have := (C02_none_iff_unreachable rfl exampleClient binaryHeap Ex.query).not.1 (by simp)
  exact not_not.1 this

/-- **C03** The node list is a path of the frozen graph with the reported end points and weight. -/
theorem C03_nodes_are_a_path {P : Plat} (hP : P.checked = true) {ops : List Op} {ig : InputGraph} {fg : FastGraph}
    (hc : Client P ops ig fg) (pq : PQ) {s t : Nat} {p : ShortestPath} (hq : calcPath P pq fg s t = .ok (some p)) :
    p.nodes.head? = some s ∧ p.nodes.getLast? = some t ∧ p.source = s ∧ p.target = t ∧
      IsWalk (edgesOf ig.edges) p.nodes p.weight := by
  obtain ⟨_, h2, h3, h4, h5, h6, _⟩ := (query_answer hP hc (query_single hq)).2.1.single.2 p rfl
  exact ⟨h5, h6, h2, h3, h4⟩

example : IsWalk (edgesOf Ex.ig.edges) [0, 1, 2, 3, 4] 13 :=
  (C03_nodes_are_a_path rfl exampleClient binaryHeap Ex.query).2.2.2.2

/-- **C04** No node is visited twice. -/
theorem C04_path_is_simple {P : Plat} (hP : P.checked = true) {ops : List Op} {ig : InputGraph} {fg : FastGraph}
    (hc : Client P ops ig fg) (pq : PQ) {s t : Nat} {p : ShortestPath} (hq : calcPath P pq fg s t = .ok (some p)) :
    p.nodes.Nodup := by
  obtain ⟨_, _, _, h4, h5, h6, h7⟩ := (query_answer hP hc (query_single hq)).2.1.single.2 p rfl
  have hpos := (hc.inv hP).pos
  exact isWalk_nodup (fun u v w he => hpos _ he) h4 h5 h6 (fun w' hw => h7.2 w' (hasWalk_iff.2 hw))

example : ([0, 1, 2, 3, 4] : List Nat).Nodup := C04_path_is_simple rfl exampleClient' binaryHeap Ex.query'

/-- **C06** A multi source/target result is minimal over all entries and walks. -/
theorem C06_multi_is_minimal {P : Plat} (hP : P.checked = true) {ops : List Op} {ig : InputGraph} {fg : FastGraph}
    (hc : Client P ops ig fg) (pq : PQ) {S T : List (Nat × Nat)} {p : ShortestPath}
    (hq : calcPathMulti P pq fg S T = .ok (some p)) :
    HasRoute (edgesOf (accepted ops)) S T p.weight ∧
      ∀ total, HasRoute (edgesOf (accepted ops)) S T total → p.weight ≤ total :=
  have ha := (query_answer hP hc hq).2.2
  ⟨ha.route, ha.2.2⟩

example : ∀ total, HasRoute (edgesOf (accepted Ex.ops)) Ex.sources Ex.targets total → 14 ≤ total :=
  (C06_multi_is_minimal rfl exampleClient' binaryHeap Ex.queryMulti).2

/-- **C07** A multi result decomposes into a source entry, a path of the frozen graph and a target entry. -/
theorem C07_multi_decomposes {P : Plat} (hP : P.checked = true) {ops : List Op} {ig : InputGraph} {fg : FastGraph}
    (hc : Client P ops ig fg) (pq : PQ) {S T : List (Nat × Nat)} {p : ShortestPath}
    (hq : calcPathMulti P pq fg S T = .ok (some p)) :
    ∃ ws w wt, (p.source, ws) ∈ S ∧ (p.target, wt) ∈ T ∧ p.nodes.head? = some p.source ∧
      p.nodes.getLast? = some p.target ∧ IsWalk (edgesOf ig.edges) p.nodes w ∧ p.weight = ws + w + wt := by
  obtain ⟨_, ⟨ws, wt, w, k1, k2, k3, k4, k5, k6⟩, _⟩ := (query_answer hP hc hq).2.1
  exact ⟨ws, w, wt, k1, k2, k4, k5, k3, k6⟩

example : ∃ ws w wt, (3, ws) ∈ Ex.sources ∧ (4, wt) ∈ Ex.targets ∧ IsWalk (edgesOf Ex.ig.edges) [3, 4] w ∧
    14 = ws + w + wt := by
  obtain ⟨ws, w, wt, h1, h2, _, _, h3, h4⟩ := C07_multi_decomposes rfl exampleClient' binaryHeap Ex.queryMulti
  exact ⟨ws, w, wt, h1, h2, h3, h4⟩

/-- **C08** A multi query returns `None` exactly when every route weighs at least `usize::MAX`. -/
theorem C08_multi_none_iff {P : Plat} (hP : P.checked = true) {ops : List Op} {ig : InputGraph} {fg : FastGraph}
    (hc : Client P ops ig fg) (pq : PQ) {S T : List (Nat × Nat)} {r : Option ShortestPath}
    (hq : calcPathMulti P pq fg S T = .ok r) :
    r = none ↔ ¬ ∃ total < P.umax, HasRoute (edgesOf (accepted ops)) S T total := by
  rw [(query_answer hP hc hq).2.2.found_iff]
  constructor
  · rintro h ⟨w, hw, hk⟩
    have := h w hk
    omega
  · intro h total ht
    by_contra hlt
    exact h ⟨total, by omega, ht⟩

example : ¬ ∃ total < debug64.umax, HasRoute (edgesOf (accepted Ex.ops)) [(4, 0), (0, Ex.inv)] [(0, 0)] total :=
  (C08_multi_none_iff (r := none) rfl exampleClient' binaryHeap rfl).1 rfl

/-- **C09** A calculator that has answered any sequence of queries (on any graphs) answers the next one like a fresh
one: same path, same `None`, same panic. No assumption on the graphs, the arguments or overflow checks. -/
theorem C09_reused_calculator_like_fresh (P : Plat) (pq : PQ) (n : Nat) (history : List Request)
    {c : PathCalculator pq} (hc : runRequests P (PathCalculator.new P pq n) history = .ok c) (q : Request) :
    (c.calcPathMulti P q.graph q.sources q.targets).map Prod.snd =
      ((PathCalculator.new P pq n).calcPathMulti P q.graph q.sources q.targets).map Prod.snd := by
  have h1 := runRequests_base (CalcOk.new P pq n) hc
  have h2 := CalcOk.new P pq n
  have := calcPathMulti_rel (P := P) h1.num h2.num h1.f h1.b h2.f h2.b q.graph q.sources q.targets
  revert this
  cases c.calcPathMulti P q.graph q.sources q.targets <;>
    cases (PathCalculator.new P pq n).calcPathMulti P q.graph q.sources q.targets <;> intro h
  · exact congrArg Except.error h
  · exact h.elim
  · exact h.elim
  · exact congrArg Except.ok h.1

example : ∃ c, runRequests debug64 (PathCalculator.new debug64 binaryHeap 5)
      [⟨Ex.fg, [(0, 0)], [(4, 0)]⟩, ⟨Ex.fgo, Ex.sources, Ex.targets⟩, ⟨Ex.fg, [(4, 0)], [(0, 0)]⟩] = .ok c ∧
    (c.calcPathMulti debug64 Ex.fgo [(0, 0)] [(4, 0)]).map Prod.snd = .ok (some Ex.path) :=
  ⟨_, rfl, rfl⟩

/-- **C12** Parameters, orders, relevance formulas and heap tie-breaking do not influence found/not found or the
weight: two clients with the same calls, each with its own preparation and its own heaps. -/
theorem C12_answers_do_not_depend_on_preparation {P : Plat} (hP : P.checked = true) {ops : List Op} {ig₁ ig₂ : InputGraph}
    {fg₁ fg₂ : FastGraph} (hc₁ : Client P ops ig₁ fg₁) (hc₂ : Client P ops ig₂ fg₂) (pq₁ pq₂ : PQ)
    {S T : List (Nat × Nat)} {r₁ r₂ : Option ShortestPath} (hq₁ : calcPathMulti P pq₁ fg₁ S T = .ok r₁)
    (hq₂ : calcPathMulti P pq₂ fg₂ S T = .ok r₂) : r₁.map (·.weight) = r₂.map (·.weight) :=
  (query_answer hP hc₁ hq₁).2.2.weight_eq (query_answer hP hc₂ hq₂).2.2 (fun w _ h => ⟨w, Nat.le_refl _, h⟩)
    (fun w _ h => ⟨w, Nat.le_refl _, h⟩)

example : ∃ r₁ r₂, calcPathMulti debug64 binaryHeap Ex.fg Ex.sources Ex.targets = .ok (some r₁) ∧
    calcPathMulti debug64 binaryHeap Ex.fgo Ex.sources Ex.targets = .ok (some r₂) ∧ Ex.fg ≠ Ex.fgo :=
  ⟨_, _, rfl, rfl, by decide⟩

/-- **C16, valid arguments** On a prepared graph, with a calculator that has the right size and any history, a query with
non-empty lists of existing nodes returns or panics with an arithmetic overflow. -/
theorem C16_valid_arguments {P : Plat} (hP : P.checked = true) {ops : List Op} {ig : InputGraph} {fg : FastGraph}
    (hc : Client P ops ig fg) (pq : PQ) (history : List Request) {c : PathCalculator pq}
    (hh : runRequests P (PathCalculator.new P pq ig.numNodes) history = .ok c) {S T : List (Nat × Nat)}
    (hS : S ≠ []) (hT : T ≠ []) (hSn : ∀ x ∈ S, x.1 < ig.numNodes) (hTn : ∀ x ∈ T, x.1 < ig.numNodes) :
    (∃ r, c.calcPathMulti P fg S T = .ok r) ∨ c.calcPathMulti P fg S T = .error .overflow :=
  reused_total hP hc (runRequests_base (CalcOk.new P pq ig.numNodes) hh) ⟨(hc.good hP).num, hS, hT, hSn, hTn⟩

example : (∃ r, (PathCalculator.new debug64 binaryHeap 5).calcPathMulti debug64 Ex.fg [(0, 0)] [(4, 0)] = .ok r) ∨
    (PathCalculator.new debug64 binaryHeap 5).calcPathMulti debug64 Ex.fg [(0, 0)] [(4, 0)] = .error .overflow :=
  C16_valid_arguments rfl exampleClient binaryHeap [] rfl (by decide) (by decide) (by decide) (by decide)

/-- An overflow is possible: initial weights that add up beyond `usize::MAX`. -/
example : calcPathMulti debug64 binaryHeap Ex.fg [(0, Ex.inv - 1)] [(0, 2)] = .error .overflow := rfl

/-- **C16, invalid arguments** An unknown node, an empty list or a calculator of another size panics; no assumption on
the graph or the calculator. -/
theorem C16_invalid_arguments (P : Plat) (pq : PQ) (c : PathCalculator pq) (fg : FastGraph) (S T : List (Nat × Nat))
    (h : c.numNodes ≠ fg.getNumNodes ∨ S = [] ∨ T = [] ∨ (∃ x ∈ S, c.numNodes ≤ x.1) ∨ ∃ x ∈ T, c.numNodes ≤ x.1) :
    c.calcPathMulti P fg S T = .error .assertion := by
  unfold PathCalculator.calcPathMulti
  rw [checkArgs_err]
  · rfl
  · rintro ⟨h1, h2, h3, h4, h5⟩
    rcases h with h | h | h | ⟨x, hx, h⟩ | ⟨x, hx, h⟩
    · exact h h1.symm
    · exact h2 h
    · exact h3 h
    · have := h4 x hx; omega
    · have := h5 x hx; omega

example : calcPath debug64 binaryHeap Ex.fg 0 5 = .error .assertion := by
  unfold calcPath PathCalculator.calcPath
  rw [C16_invalid_arguments _ _ _ _ _ _ (Or.inr (Or.inr (Or.inr (Or.inr ⟨_, List.mem_singleton.2 rfl, by decide⟩))))]
  rfl

/-- **C17** Every query on a prepared graph ends, whatever the calculator was used for before. -/
theorem C17_queries_terminate {P : Plat} (hP : P.checked = true) {ops : List Op} {ig : InputGraph} {fg : FastGraph}
    (hc : Client P ops ig fg) (pq : PQ) (history : List Request) {c : PathCalculator pq}
    (hh : runRequests P (PathCalculator.new P pq ig.numNodes) history = .ok c) (S T : List (Nat × Nat)) :
    c.calcPathMulti P fg S T ≠ .error .outOfFuel := by
  have hco := runRequests_base (CalcOk.new P pq ig.numNodes) hh
  by_cases ha : ArgsOk ig.numNodes fg S T
  · rcases reused_total hP hc hco ha with ⟨r, h⟩ | h <;> rw [h] <;> simp
  · unfold PathCalculator.calcPathMulti
    rw [checkArgs_err (by rw [hco.num]; exact ha)]
    simp

example : (PathCalculator.new debug64 binaryHeap 5).calcPathMulti debug64 Ex.fgo Ex.sources Ex.targets ≠
    .error .outOfFuel :=
  C17_queries_terminate rfl exampleClient' binaryHeap [] rfl _ _

/-- **C17, rounds** The main loop, started as the query starts it, takes at most
`|S| + |T| + num_out_edges + num_in_edges` rounds: one more than that is enough to notice that the heaps are empty. -/
theorem C17_linear_rounds {P : Plat} (hP : P.checked = true) {ops : List Op} {ig : InputGraph} {fg : FastGraph}
    (hc : Client P ops ig fg) (pq : PQ) (history : List Request) {c : PathCalculator pq}
    (hh : runRequests P (PathCalculator.new P pq ig.numNodes) history = .ok c) {S T : List (Nat × Nat)}
    (hS : ∀ x ∈ S, x.1 < ig.numNodes) (hT : ∀ x ∈ T, x.1 < ig.numNodes) {best meet : Nat} {fwd bwd : Side pq}
    (hm : PathCalculator.initialMeeting P S T = .ok (best, meet)) (hf : forM (Side.addRoot P) c.fwd.clear S = .ok fwd)
    (hb : forM (Side.addRoot P) c.bwd.clear T = .ok bwd) :
    PathCalculator.mainLoop P fg (S.length + T.length + fg.getNumOutEdges + fg.getNumInEdges + 1) ⟨fwd, bwd, best, meet⟩ ≠
      .error .outOfFuel := by
  have hco := runRequests_base (CalcOk.new P pq ig.numNodes) hh
  obtain ⟨f', b', D, e1, e2, hD, hI, hfu⟩ := (init_ok hP (hc.good hP).toFSound hco hS hT).of_ok hm
  rw [hf] at e1; cases e1
  rw [hb] at e2; cases e2
  have := mainLoop_ok hP (hc.good hP).toSGood (by rcases hD with h | h; exacts [h.2.1, h.2]) _ _ hI hfu
  intro he
  unfold FastGraph.getNumOutEdges FastGraph.getNumInEdges at he
  rw [he] at this
  exact this

example (fwd bwd : Side binaryHeap)
    (hf : forM (Side.addRoot debug64) (PathCalculator.new debug64 binaryHeap 5).fwd.clear [(0, 0)] = .ok fwd)
    (hb : forM (Side.addRoot debug64) (PathCalculator.new debug64 binaryHeap 5).bwd.clear [(4, 0)] = .ok bwd) :
    PathCalculator.mainLoop debug64 Ex.fg ([(0, 0)].length + [(4, 0)].length + Ex.fg.getNumOutEdges + Ex.fg.getNumInEdges + 1)
      ⟨fwd, bwd, debug64.umax, debug64.umax⟩ ≠ .error .outOfFuel :=
  C17_linear_rounds (S := [(0, 0)]) (T := [(4, 0)]) rfl exampleClient binaryHeap [] rfl (by decide) (by decide) rfl hf hb
example : (∃ fwd : Side binaryHeap,
      forM (Side.addRoot debug64) (PathCalculator.new debug64 binaryHeap 5).fwd.clear [(0, 0)] = .ok fwd) ∧
    ∃ bwd : Side binaryHeap,
      forM (Side.addRoot debug64) (PathCalculator.new debug64 binaryHeap 5).bwd.clear [(4, 0)] = .ok bwd := ⟨⟨_, rfl⟩, ⟨_, rfl⟩⟩

/-- **C17, depth** The recursion that unpacks an edge of a prepared graph is no deeper than the number of nodes. -/
theorem C17_unpacking_depth {P : Plat} (hP : P.checked = true) {ops : List Op} {ig : InputGraph} {fg : FastGraph}
    (hc : Client P ops ig fg) {u b e id : Nat} (hu : u < ig.numNodes) (hb : b ≤ id) (he : id < e) (nodes : List Nat)
    (reverse : Bool) :
    (fg.beginOutEdges u = .ok b → fg.endOutEdges u = .ok e →
      ∃ l, PathCalculator.unpackFwd P fg fg.getNumNodes nodes id reverse = .ok l) ∧
    (fg.beginInEdges u = .ok b → fg.endInEdges u = .ok e →
      ∃ l, PathCalculator.unpackBwd P fg fg.getNumNodes nodes id reverse = .ok l) := by
  have hg := hc.good hP
  have hk := hg.rk_lt u hu
  have hn : fg.getNumNodes = ig.numNodes := hg.num
  rw [hn]
  constructor
  · intro h1 h2
    rw [hg.beginOut hu] at h1
    rw [hg.endOut hu] at h2
    cases h1; cases h2
    obtain ⟨ed, hat⟩ := hg.outAt hu hb he
    obtain ⟨L, _, h⟩ := (unpack_ok hg.toFSound ig.numNodes).1 u hu hk id ed hat
    cases reverse
    · exact ⟨_, (h nodes).1⟩
    · exact ⟨_, (h nodes).2⟩
  · intro h1 h2
    rw [hg.beginIn hu] at h1
    rw [hg.endIn hu] at h2
    cases h1; cases h2
    obtain ⟨ed, hat⟩ := hg.inAt hu hb he
    obtain ⟨L, _, h⟩ := (unpack_ok hg.toFSound ig.numNodes).2 u hu hk id ed hat
    cases reverse
    · exact ⟨_, (h nodes).1⟩
    · exact ⟨_, (h nodes).2⟩

/-- Edge 7 of the backward graph is a shortcut with a shortcut in it. -/
example : ∃ l, PathCalculator.unpackBwd debug64 Ex.fgo 5 [] 7 false = .ok l :=
  (C17_unpacking_depth (u := 4) (b := 7) (e := 8) rfl exampleClient' (by decide) (by decide) (by decide) [] false).2 rfl rfl

/-- **C37** When only `add_edge_bidir` was used, both directions have the same answer. -/
theorem C37_undirected_symmetric {P : Plat} (hP : P.checked = true) {ops : List Op} {ig : InputGraph} {fg : FastGraph}
    (hc : Client P ops ig fg) (hbi : ∀ op ∈ ops, ∀ a b w, op ≠ .addEdge a b w) (pq₁ pq₂ : PQ) {s t : Nat}
    {r₁ r₂ : Option ShortestPath} (hq₁ : calcPath P pq₁ fg s t = .ok r₁) (hq₂ : calcPath P pq₂ fg t s = .ok r₂) :
    r₁.map (·.weight) = r₂.map (·.weight) := by
  have hsym : ∀ u v w, edgesOf (accepted ops) u v w → edgesOf (accepted ops) v u w := by
    intro u v w h
    unfold edgesOf accepted at h ⊢
    obtain ⟨op, hop, he⟩ := List.mem_flatMap.1 h
    refine List.mem_flatMap.2 ⟨op, hop, ?_⟩
    cases op with
    | addEdge a b x => exact absurd rfl (hbi _ hop a b x)
    | addEdgeBidir a b x =>
      simp only [Op.edges] at he ⊢
      by_cases hcond : a ≠ b ∧ 1 ≤ x
      · rw [if_pos hcond] at he ⊢
        simp at he ⊢
        rcases he with ⟨rfl, rfl, rfl⟩ | ⟨rfl, rfl, rfl⟩ <;> simp
      · rw [if_neg hcond] at he; simp at he
    | freeze => simp [Op.edges] at he
    | thaw => simp [Op.edges] at he
  have hw : ∀ u v w, HasWalk (edgesOf (accepted ops)) u v w → HasWalk (edgesOf (accepted ops)) v u w := by
    intro u v w h
    have := (hasWalk_iff.1 h).rev
    exact hasWalk_iff.2 (this.mono (fun _ _ _ h => hsym _ _ _ h))
  exact (query_answer hP hc hq₁).2.2.weight_eq (query_answer hP hc hq₂).2.2
    (fun w _ h => ⟨w, Nat.le_refl _, hasRoute_single.2 (hw _ _ _ (hasRoute_single.1 h))⟩)
    (fun w _ h => ⟨w, Nat.le_refl _, hasRoute_single.2 (hw _ _ _ (hasRoute_single.1 h))⟩)

example : ∃ ops ig fg, Client debug64 ops ig fg ∧ (∀ op ∈ ops, ∀ a b w, op ≠ Op.addEdge a b w) ∧ ig.edges.length = 6 ∧
    ∃ p q, calcPath debug64 binaryHeap fg 0 2 = .ok (some p) ∧ calcPath debug64 binaryHeap fg 2 0 = .ok (some q) :=
  ⟨[.addEdgeBidir 0 1 2, .addEdgeBidir 2 1 3, .addEdgeBidir 0 2 9, .freeze], _, _,
    ⟨rfl, rfl, .default binaryHeap listQueue Ex.rel rfl⟩, by simp, rfl, _, _, rfl, rfl⟩

/-- **C38** Triangle inequality. -/
theorem C38_triangle {P : Plat} (hP : P.checked = true) {ops : List Op} {ig : InputGraph} {fg : FastGraph}
    (hc : Client P ops ig fg) (pq₁ pq₂ pq₃ : PQ) {s t u : Nat} {p q : ShortestPath} {r : Option ShortestPath}
    (h₁ : calcPath P pq₁ fg s t = .ok (some p)) (h₂ : calcPath P pq₂ fg t u = .ok (some q))
    (hlt : p.weight + q.weight < P.umax) (h₃ : calcPath P pq₃ fg s u = .ok r) :
    ∃ x, r = some x ∧ x.weight ≤ p.weight + q.weight := by
  have d₁ := (C01_calc_path_is_minimal hP hc pq₁ h₁).1
  have d₂ := (C01_calc_path_is_minimal hP hc pq₂ h₂).1
  have d₃ : HasWalk (edgesOf (accepted ops)) s u (p.weight + q.weight) :=
    hasWalk_iff.2 ((hasWalk_iff.1 d₁).append (hasWalk_iff.1 d₂))
  cases r with
  | none => exact absurd ⟨_, hlt, d₃⟩ ((C02_none_iff_unreachable hP hc pq₃ h₃).1 rfl)
  | some x => exact ⟨x, rfl, (C01_calc_path_is_minimal hP hc pq₃ h₃).2 _ d₃⟩

example : ∃ x, (some Ex.path) = some x ∧ x.weight ≤ 3 + 10 :=
  C38_triangle (t := 1) (p := ⟨0, 1, 3, [0, 1]⟩) (q := ⟨1, 4, 10, [1, 2, 3, 4]⟩) rfl exampleClient binaryHeap binaryHeap
    binaryHeap rfl rfl (by decide) Ex.query

/-- **C39** More or cheaper edges never make a route longer or unreachable. -/
theorem C39_more_edges_never_longer {P : Plat} (hP : P.checked = true) {ops₁ ops₂ : List Op} {ig₁ ig₂ : InputGraph}
    {fg₁ fg₂ : FastGraph} (hc₁ : Client P ops₁ ig₁ fg₁) (hc₂ : Client P ops₂ ig₂ fg₂)
    (hsub : ∀ e ∈ accepted ops₁, ∃ w ≤ e.weight, (⟨e.src, e.dst, w⟩ : Edge) ∈ accepted ops₂) (pq₁ pq₂ : PQ) {s t : Nat}
    {p : ShortestPath} {r : Option ShortestPath} (h₁ : calcPath P pq₁ fg₁ s t = .ok (some p))
    (h₂ : calcPath P pq₂ fg₂ s t = .ok r) : ∃ q, r = some q ∧ q.weight ≤ p.weight := by
  refine (query_answer hP hc₁ h₁).2.2.weight_le (query_answer hP hc₂ h₂).2.2 ?_ rfl
  intro w _ h
  obtain ⟨w', hw', hk⟩ := (hasWalk_iff.1 (hasRoute_single.1 h)).bind_le (F := edgesOf (accepted ops₂)) (by
    intro u v x he
    obtain ⟨y, hy, hm⟩ := hsub _ he
    exact ⟨y, hy, Wk.single hm⟩)
  exact ⟨w', hw', hasRoute_single.2 (hasWalk_iff.2 hk)⟩

example : ∃ ig fg q, Client debug64 ([.addEdge 3 4 4, .addEdge 5 6 2, .addEdge 1 3 4] ++ Ex.ops) ig fg ∧
    calcPath debug64 binaryHeap fg 0 4 = .ok (some q) ∧
    ∀ e ∈ accepted Ex.ops, ∃ w ≤ e.weight, (⟨e.src, e.dst, w⟩ : Edge) ∈
      accepted ([.addEdge 3 4 4, .addEdge 5 6 2, .addEdge 1 3 4] ++ Ex.ops) :=
  ⟨_, _, _, ⟨rfl, rfl, .default binaryHeap listQueue Ex.rel rfl⟩, rfl, fun e he =>
    ⟨e.weight, Nat.le_refl _, List.mem_flatMap.2 (by
      obtain ⟨op, h1, h2⟩ := List.mem_flatMap.1 he
      exact ⟨op, List.mem_append_right _ h1, h2⟩)⟩⟩

/-- **C40** Any contiguous piece of a returned path is itself shortest: a query between its end points returns the
weight of exactly that piece. -/
theorem C40_subpaths_are_shortest {P : Plat} (hP : P.checked = true) {ops : List Op} {ig : InputGraph} {fg : FastGraph}
    (hc : Client P ops ig fg) (pq₁ pq₂ : PQ) {s t : Nat} {p : ShortestPath} (h₁ : calcPath P pq₁ fg s t = .ok (some p))
    {pre piece post : List Nat} (hp : p.nodes = pre ++ (piece ++ post)) {x y : Nat} (hx : piece.head? = some x)
    (hy : piece.getLast? = some y) {r : Option ShortestPath} (h₂ : calcPath P pq₂ fg x y = .ok r) :
    ∃ q, r = some q ∧ IsWalk (edgesOf ig.edges) piece q.weight := by
  obtain ⟨h1, _, _, h4, h5, h6, h7⟩ := (query_answer hP hc h₁).2.1.single.2 p rfl
  rw [hp] at h4 h5 h6
  obtain ⟨a, b, c, k1, k2, k3, hw⟩ := isWalk_piece hx hy h4 h5 h6
  have hb : HasWalk (edgesOf ig.edges) x y b := ⟨piece, k2, hx, hy⟩
  have ha := (query_answer hP hc h₂).2.1
  cases r with
  | none => have := ha.single.1 rfl b hb; omega
  | some q =>
    obtain ⟨_, _, _, _, _, _, hd⟩ := ha.single.2 q rfl
    have h1 := hd.2 b hb
    have h2 := h7.2 _ (hasWalk_iff.2 ((k1.append (hasWalk_iff.1 hd.1)).append k3))
    have : q.weight = b := by omega
    exact ⟨q, rfl, by rw [this]; exact k2⟩

example : ∃ q, (some (⟨1, 3, 5, [1, 2, 3]⟩ : ShortestPath)) = some q ∧ IsWalk (edgesOf Ex.ig.edges) [1, 2, 3] q.weight :=
  C40_subpaths_are_shortest (pre := [0]) (post := [4]) rfl exampleClient binaryHeap binaryHeap Ex.query rfl rfl rfl rfl

/-- Every usable entry of the first list has an entry for the same node, at most as heavy, in the second. -/
def Covers (umax : Nat) (A B : List (Nat × Nat)) : Prop := ∀ x w, (x, w) ∈ A → w < umax → ∃ w' ≤ w, (x, w') ∈ B

/-- **C42** Only the least weight per node counts in the two lists. -/
theorem C42_only_least_entries_count {P : Plat} (hP : P.checked = true) {ops : List Op} {ig : InputGraph}
    {fg : FastGraph} (hc : Client P ops ig fg) (pq₁ pq₂ : PQ) {S S' T T' : List (Nat × Nat)} (hS : Covers P.umax S S')
    (hS' : Covers P.umax S' S) (hT : Covers P.umax T T') (hT' : Covers P.umax T' T) {r₁ r₂ : Option ShortestPath}
    (h₁ : calcPathMulti P pq₁ fg S T = .ok r₁) (h₂ : calcPathMulti P pq₂ fg S' T' = .ok r₂) :
    r₁.map (·.weight) = r₂.map (·.weight) := by
  have key : ∀ {S S' T T' : List (Nat × Nat)}, Covers P.umax S S' → Covers P.umax T T' → ∀ w < P.umax,
      HasRoute (edgesOf (accepted ops)) S T w → ∃ w' ≤ w, HasRoute (edgesOf (accepted ops)) S' T' w' := by
    rintro S S' T T' hs ht w hw ⟨s, ws, t, wt, x, k1, k2, k3, rfl⟩
    obtain ⟨ws', hws, m1⟩ := hs s ws k1 (by omega)
    obtain ⟨wt', hwt, m2⟩ := ht t wt k2 (by omega)
    exact ⟨ws' + x + wt', by omega, s, ws', t, wt', x, m1, m2, k3, rfl⟩
  exact (query_answer hP hc h₁).2.2.weight_eq (query_answer hP hc h₂).2.2 (key hS hT) (key hS' hT')

/-- **C42** Order of the entries is irrelevant. -/
theorem C42_order_irrelevant {P : Plat} (hP : P.checked = true) {ops : List Op} {ig : InputGraph}
    {fg : FastGraph} (hc : Client P ops ig fg) (pq₁ pq₂ : PQ) {S S' T T' : List (Nat × Nat)} (hS : S.Perm S')
    (hT : T.Perm T') {r₁ r₂ : Option ShortestPath} (h₁ : calcPathMulti P pq₁ fg S T = .ok r₁)
    (h₂ : calcPathMulti P pq₂ fg S' T' = .ok r₂) : r₁.map (·.weight) = r₂.map (·.weight) :=
  C42_only_least_entries_count hP hc pq₁ pq₂ (fun _ w h _ => ⟨w, Nat.le_refl _, hS.mem_iff.1 h⟩)
    (fun _ w h _ => ⟨w, Nat.le_refl _, hS.mem_iff.2 h⟩) (fun _ w h _ => ⟨w, Nat.le_refl _, hT.mem_iff.1 h⟩)
    (fun _ w h _ => ⟨w, Nat.le_refl _, hT.mem_iff.2 h⟩) h₁ h₂

/-- **C42** A further source entry that is heavier than one for the same node, or has weight `usize::MAX`, is
irrelevant. -/
theorem C42_redundant_source_irrelevant {P : Plat} (hP : P.checked = true) {ops : List Op} {ig : InputGraph}
    {fg : FastGraph} (hc : Client P ops ig fg) (pq₁ pq₂ : PQ) {S T : List (Nat × Nat)} {x w : Nat}
    (hx : (∃ w' ≤ w, (x, w') ∈ S) ∨ w = P.WEIGHT_MAX) {r₁ r₂ : Option ShortestPath}
    (h₁ : calcPathMulti P pq₁ fg S T = .ok r₁) (h₂ : calcPathMulti P pq₂ fg ((x, w) :: S) T = .ok r₂) :
    r₁.map (·.weight) = r₂.map (·.weight) := by
  refine C42_only_least_entries_count hP hc pq₁ pq₂ (fun _ w h _ => ⟨w, Nat.le_refl _, List.mem_cons_of_mem _ h⟩) ?_
    (fun _ w h _ => ⟨w, Nat.le_refl _, h⟩) (fun _ w h _ => ⟨w, Nat.le_refl _, h⟩) h₁ h₂
  intro y v hy hv
  rcases List.mem_cons.1 hy with hy | hy
  · cases hy
    rcases hx with hx | hx
    · exact hx
    · rw [hx] at hv; exact absurd hv (Nat.lt_irrefl _)
  · exact ⟨v, Nat.le_refl _, hy⟩

/-- **C42** The same for target entries. -/
theorem C42_redundant_target_irrelevant {P : Plat} (hP : P.checked = true) {ops : List Op} {ig : InputGraph}
    {fg : FastGraph} (hc : Client P ops ig fg) (pq₁ pq₂ : PQ) {S T : List (Nat × Nat)} {x w : Nat}
    (hx : (∃ w' ≤ w, (x, w') ∈ T) ∨ w = P.WEIGHT_MAX) {r₁ r₂ : Option ShortestPath}
    (h₁ : calcPathMulti P pq₁ fg S T = .ok r₁) (h₂ : calcPathMulti P pq₂ fg S ((x, w) :: T) = .ok r₂) :
    r₁.map (·.weight) = r₂.map (·.weight) := by
  refine C42_only_least_entries_count hP hc pq₁ pq₂ (fun _ w h _ => ⟨w, Nat.le_refl _, h⟩)
    (fun _ w h _ => ⟨w, Nat.le_refl _, h⟩) (fun _ w h _ => ⟨w, Nat.le_refl _, List.mem_cons_of_mem _ h⟩) ?_ h₁ h₂
  intro y v hy hv
  rcases List.mem_cons.1 hy with hy | hy
  · cases hy
    rcases hx with hx | hx
    · exact hx
    · rw [hx] at hv; exact absurd hv (Nat.lt_irrefl _)
  · exact ⟨v, Nat.le_refl _, hy⟩

example : ∃ r, calcPathMulti debug64 binaryHeap Ex.fgo [(3, 9), (4, Ex.inv), (3, 30), (0, 2)] (Ex.targets ++ [(4, 3)]) =
    .ok (some r) ∧ r.weight = 14 := ⟨_, rfl, rfl⟩

/-- **C43** `calc_path` is the multi query with one entry of weight 0 on each side: same result, `None` or panic. -/
theorem C43_single_is_multi (P : Plat) (pq : PQ) (fg : FastGraph) (s t : Nat) :
    calcPath P pq fg s t = calcPathMulti P pq fg [(s, 0)] [(t, 0)] := rfl

/-- **C43** A found multi result is realised by one pair of entries: the single query for this pair finds the remaining
weight. -/
theorem C43_multi_attained {P : Plat} (hP : P.checked = true) {ops : List Op} {ig : InputGraph}
    {fg : FastGraph} (hc : Client P ops ig fg) (pq₁ : PQ) {S T : List (Nat × Nat)} {p : ShortestPath}
    (h₁ : calcPathMulti P pq₁ fg S T = .ok (some p)) :
    ∃ s ws t wt, (s, ws) ∈ S ∧ (t, wt) ∈ T ∧ ∀ (pq₂ : PQ) (r : Option ShortestPath), calcPath P pq₂ fg s t = .ok r →
      ∃ q, r = some q ∧ p.weight = ws + q.weight + wt := by
  have ha := (query_answer hP hc h₁).2.2
  obtain ⟨hlt, ⟨ws, wt, w, k1, k2, k3, k4, k5, k6⟩, hmin⟩ := ha
  refine ⟨p.source, ws, p.target, wt, k1, k2, ?_⟩
  intro pq₂ r h₂
  have hb := (query_answer hP hc h₂).2.2
  have hk : HasWalk (edgesOf (accepted ops)) p.source p.target w := ⟨p.nodes, k3, k4, k5⟩
  cases r with
  | none => have := hb.single.1 rfl w hk; omega
  | some q =>
    obtain ⟨_, _, _, _, _, _, hd⟩ := hb.single.2 q rfl
    have h1 := hd.2 w hk
    have h2 := hmin (ws + q.weight + wt) ⟨_, ws, _, wt, _, k1, k2, hd.1, rfl⟩
    exact ⟨q, rfl, by omega⟩

/-- **C43** No pair of entries is better than the multi result. -/
theorem C43_multi_is_least {P : Plat} (hP : P.checked = true) {ops : List Op} {ig : InputGraph}
    {fg : FastGraph} (hc : Client P ops ig fg) (pq₁ pq₂ : PQ) {S T : List (Nat × Nat)} {r : Option ShortestPath}
    (h₁ : calcPathMulti P pq₁ fg S T = .ok r) {s ws t wt : Nat} (hs : (s, ws) ∈ S) (ht : (t, wt) ∈ T)
    {q : ShortestPath} (h₂ : calcPath P pq₂ fg s t = .ok (some q)) (hlt : ws + q.weight + wt < P.umax) :
    ∃ p, r = some p ∧ p.weight ≤ ws + q.weight + wt := by
  have ha := (query_answer hP hc h₁).2.2
  have hd := (C01_calc_path_is_minimal hP hc pq₂ h₂).1
  have hr : HasRoute (edgesOf (accepted ops)) S T (ws + q.weight + wt) := ⟨s, ws, t, wt, _, hs, ht, hd, rfl⟩
  cases r with
  | none => have := ha _ hr; omega
  | some p => exact ⟨p, rfl, ha.2.2 _ hr⟩

example : ∃ p, some (⟨3, 4, 14, [3, 4]⟩ : ShortestPath) = some p ∧ p.weight ≤ 2 + 13 + 1 :=
  C43_multi_is_least rfl exampleClient' binaryHeap binaryHeap Ex.queryMulti (s := 0) (ws := 2) (t := 4) (wt := 1)
    (by decide) (by decide) Ex.query' (by decide)

/-- **C46** In the graph with all edges reversed the reversed query has the same answer. -/
theorem C46_reversed_graph {P : Plat} (hP : P.checked = true) {ops₁ ops₂ : List Op} {ig₁ ig₂ : InputGraph}
    {fg₁ fg₂ : FastGraph} (hc₁ : Client P ops₁ ig₁ fg₁) (hc₂ : Client P ops₂ ig₂ fg₂)
    (hrev : ∀ u v w, (⟨u, v, w⟩ : Edge) ∈ accepted ops₁ ↔ (⟨v, u, w⟩ : Edge) ∈ accepted ops₂) (pq₁ pq₂ : PQ) {s t : Nat}
    {r₁ r₂ : Option ShortestPath} (h₁ : calcPath P pq₁ fg₁ s t = .ok r₁) (h₂ : calcPath P pq₂ fg₂ t s = .ok r₂) :
    r₁.map (·.weight) = r₂.map (·.weight) := by
  refine (query_answer hP hc₁ h₁).2.2.weight_eq (query_answer hP hc₂ h₂).2.2 ?_ ?_
  · intro w _ h
    have := (hasWalk_iff.1 (hasRoute_single.1 h)).rev
    exact ⟨w, Nat.le_refl _, hasRoute_single.2 (hasWalk_iff.2 (this.mono (fun u v x he => (hrev v u x).1 he)))⟩
  · intro w _ h
    have := (hasWalk_iff.1 (hasRoute_single.1 h)).rev
    exact ⟨w, Nat.le_refl _, hasRoute_single.2 (hasWalk_iff.2 (this.mono (fun u v x he => (hrev u v x).2 he)))⟩

/-- The calls of the example with every edge turned round. -/
def Ex.revOps : List Op := Ex.ops.map (fun
  | .addEdge a b w => .addEdge b a w
  | .addEdgeBidir a b w => .addEdgeBidir b a w
  | op => op)

example : ∃ ig fg p, Client debug64 Ex.revOps ig fg ∧ calcPath debug64 binaryHeap fg 4 0 = .ok (some p) ∧
    p.weight = 13 ∧ accepted Ex.revOps = (accepted Ex.ops).map (fun e => ⟨e.dst, e.src, e.weight⟩) :=
  ⟨_, _, _, ⟨rfl, rfl, .default binaryHeap listQueue Ex.rel rfl⟩, rfl, rfl, rfl⟩

theorem Wk.scale {E F : EdgeRel} {k : Nat} (h : ∀ u v w, E u v w → F u v (k * w)) {s t w : Nat} (hk : Wk E s t w) :
    Wk F s t (k * w) := by
  induction hk with
  | nil s => exact .nil s
  | cons e _ ih => rw [Nat.mul_add]; exact .cons (h _ _ _ e) ih

theorem Wk.unscale {E F : EdgeRel} {k : Nat} (h : ∀ u v w', F u v w' → ∃ w, E u v w ∧ w' = k * w) {s t w' : Nat}
    (hk : Wk F s t w') : ∃ w, Wk E s t w ∧ w' = k * w := by
  induction hk with
  | nil s => exact ⟨0, .nil s, rfl⟩
  | cons e _ ih =>
    obtain ⟨w, h1, rfl⟩ := h _ _ _ e
    obtain ⟨v, h2, rfl⟩ := ih
    exact ⟨w + v, .cons h1 h2, by rw [Nat.mul_add]⟩

/-- **C47** Multiplying every weight by `k` multiplies the answers by `k`, as long as they stay below `usize::MAX`. -/
theorem C47_scaled_graph {P : Plat} (hP : P.checked = true) {ops₁ ops₂ : List Op} {ig₁ ig₂ : InputGraph}
    {fg₁ fg₂ : FastGraph} (hc₁ : Client P ops₁ ig₁ fg₁) (hc₂ : Client P ops₂ ig₂ fg₂) {k : Nat} (hk : 1 ≤ k)
    (hsc : ∀ u v w', (⟨u, v, w'⟩ : Edge) ∈ accepted ops₂ ↔ ∃ w, (⟨u, v, w⟩ : Edge) ∈ accepted ops₁ ∧ w' = k * w)
    (pq₁ pq₂ : PQ) {s t : Nat} {r₁ r₂ : Option ShortestPath} (h₁ : calcPath P pq₁ fg₁ s t = .ok r₁)
    (h₂ : calcPath P pq₂ fg₂ s t = .ok r₂) :
    (∀ p, r₁ = some p → k * p.weight < P.umax → ∃ q, r₂ = some q ∧ q.weight = k * p.weight) ∧
    (∀ q, r₂ = some q → ∃ p, r₁ = some p ∧ q.weight = k * p.weight) := by
  have up : ∀ w, HasWalk (edgesOf (accepted ops₁)) s t w → HasWalk (edgesOf (accepted ops₂)) s t (k * w) := by
    intro w h
    exact hasWalk_iff.2 (Wk.scale (fun u v w he => (hsc u v (k * w)).2 ⟨w, he, rfl⟩) (hasWalk_iff.1 h))
  have down : ∀ w', HasWalk (edgesOf (accepted ops₂)) s t w' →
      ∃ w, HasWalk (edgesOf (accepted ops₁)) s t w ∧ w' = k * w := by
    intro w' h
    obtain ⟨w, h1, h2⟩ := Wk.unscale (fun u v w' he => (hsc u v w').1 he) (hasWalk_iff.1 h)
    exact ⟨w, hasWalk_iff.2 h1, h2⟩
  have a₁ := (query_answer hP hc₁ h₁).2.2
  have a₂ := (query_answer hP hc₂ h₂).2.2
  constructor
  · rintro p rfl hlt
    obtain ⟨_, _, _, _, _, _, d₁⟩ := a₁.single.2 p rfl
    cases r₂ with
    | none => have := a₂.single.1 rfl _ (up _ d₁.1); omega
    | some q =>
      obtain ⟨_, _, _, _, _, _, d₂⟩ := a₂.single.2 q rfl
      refine ⟨q, rfl, ?_⟩
      have h1 := d₂.2 _ (up _ d₁.1)
      obtain ⟨w, hw, he⟩ := down _ d₂.1
      have h2 := Nat.mul_le_mul_left k (d₁.2 w hw)
      omega
  · rintro q rfl
    obtain ⟨hq, _, _, _, _, _, d₂⟩ := a₂.single.2 q rfl
    obtain ⟨w, hw, he⟩ := down _ d₂.1
    cases r₁ with
    | none =>
      have h1 := a₁.single.1 rfl w hw
      have h2 := Nat.mul_le_mul hk h1
      omega
    | some p =>
      obtain ⟨_, _, _, _, _, _, d₁⟩ := a₁.single.2 p rfl
      refine ⟨p, rfl, ?_⟩
      have h1 := d₂.2 _ (up _ d₁.1)
      have h2 := Nat.mul_le_mul_left k (d₁.2 w hw)
      omega

/-- The calls of the example with every weight multiplied by 7. -/
def Ex.scaledOps : List Op := Ex.ops.map (fun
  | .addEdge a b w => .addEdge a b (7 * w)
  | .addEdgeBidir a b w => .addEdgeBidir a b (7 * w)
  | op => op)

example : ∃ ig fg p, Client debug64 Ex.scaledOps ig fg ∧ calcPath debug64 binaryHeap fg 0 4 = .ok (some p) ∧
    p.weight = 91 ∧ accepted Ex.scaledOps = (accepted Ex.ops).map (fun e => ⟨e.src, e.dst, 7 * e.weight⟩) :=
  ⟨_, _, _, ⟨rfl, rfl, .default binaryHeap listQueue Ex.rel rfl⟩, rfl, rfl, rfl⟩

end Props
end FP
