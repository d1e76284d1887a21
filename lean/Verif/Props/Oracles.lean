import Verif.Proofs.Dijkstra
import Verif.Proofs.FloydWarshall
import Verif.Proofs.Api
import Verif.Props.Query
import Verif.Props.Witness
/-!
# The reference implementations used by the tests

`src/dijkstra.rs` and `src/floyd_warshall.rs` are what the project's randomised tests compare the library with.
-/
set_option autoImplicit false
namespace FP
namespace Props
open Spec

/-- The stored edges and the calls of the client give the same shortest distances. -/
private theorem isDist_accepted {acc : List Edge} {ig : InputGraph} (hi : GInv acc ig) {s t w : Nat}
    (h1 : Wk (edgesOf ig.edges) s t w) (h2 : ∀ w', Wk (edgesOf ig.edges) s t w' → w ≤ w') :
    IsDist (edgesOf acc) s t w := by
  refine ⟨hasWalk_iff.2 (hi.walk_sub h1), ?_⟩
  intro w' hw
  obtain ⟨w'', hle, hk⟩ := hi.walk_le (hasWalk_iff.1 hw)
  exact Nat.le_trans (h2 _ hk) hle

/-- **C44** The answer of the Floyd-Warshall reference: the exact distance, or `usize::MAX` if there is no walk below
`usize::MAX`. (That weights are at most `usize::MAX` is part of their type in the code.) -/
theorem C44_floyd_warshall {P : Plat} (hP : P.checked = true) {ops : List Op} {ig : InputGraph}
    (hb : buildGraph P ops = .ok ig) (hf : ig.frozen = true) (hw : ∀ e ∈ ig.edges, e.weight ≤ P.umax) {fw : FloydWarshall}
    (hfw : (do (← FloydWarshall.new P ig.numNodes).prepare P ig) = .ok fw) {s t : Nat} (hs : s < ig.numNodes)
    (ht : t < ig.numNodes) :
    ∃ w, fw.calcWeight P s t = .ok w ∧ w ≤ P.umax ∧ (w < P.umax → IsDist (edgesOf (accepted ops)) s t w) ∧
      (w = P.umax ↔ ¬ ∃ w' < P.umax, HasWalk (edgesOf (accepted ops)) s t w') := by
  have hi := buildGraph_inv (Or.inl hP) hb
  obtain ⟨w, e, h1, h2, h0⟩ := (FloydWarshall.prepare_ok hP (hi.frozenOk hf)).of_ok hfw s t hs ht
  have h0 := h0 hw
  refine ⟨w, e, h0, ?_, ?_⟩
  · intro hlt
    rcases h1 with h1 | h1
    · omega
    · refine isDist_accepted hi h1 (fun w' hw => ?_)
      rcases h2 w' hw with h3 | h3
      · exact h3
      · omega
  · constructor
    · rintro hle ⟨w', hlt, hw⟩
      obtain ⟨w'', hle', hk⟩ := hi.walk_le (hasWalk_iff.1 hw)
      rcases h2 _ hk with h3 | h3 <;> omega
    · intro hn
      by_contra hlt
      rcases h1 with h1 | h1
      · omega
      · exact hn ⟨w, by omega, hasWalk_iff.2 (hi.walk_sub h1)⟩

/-- the prepared matrix of the example -/
def exFw : FloydWarshall where
  numNodes := 5
  matrix := [0, 3, 7, 8, 13, Ex.inv, 0, 4, 5, 10, Ex.inv, 8, 0, 1, 6, Ex.inv, 7, 1, 0, 5, Ex.inv, 2, 6, 7, 0]

theorem exFw_eq : (do (← FloydWarshall.new debug64 5).prepare debug64 Ex.ig) = .ok exFw := rfl

example : IsDist (edgesOf (accepted Ex.ops)) 4 3 7 := by
  obtain ⟨w, e, _, h, _⟩ := C44_floyd_warshall rfl Ex.built Ex.frozen (by decide) exFw_eq (s := 4) (t := 3) (by decide) (by decide)
  cases e
  exact h (by decide)
example : ¬ ∃ w' < debug64.umax, HasWalk (edgesOf (accepted Ex.ops)) 4 0 w' := by
  obtain ⟨w, e, _, _, h⟩ := C44_floyd_warshall rfl Ex.built Ex.frozen (by decide) exFw_eq (s := 4) (t := 0) (by decide) (by decide)
  cases e
  exact h.1 rfl

/-- **C44** `prepare` checks that the graph has the announced number of nodes and is frozen. -/
theorem C44_floyd_warshall_checks (P : Plat) (fw : FloydWarshall) (ig : InputGraph)
    (h : ig.frozen = false ∨ ig.numNodes ≠ fw.numNodes) : fw.prepare P ig = .error .assertion := by
  unfold FloydWarshall.prepare InputGraph.getNumNodes InputGraph.checkFrozen
  cases hf : ig.frozen with
  | false => rfl
  | true =>
    have hne : ig.numNodes ≠ fw.numNodes := by simpa [hf] using h
    rw [assertM_of rfl]
    simp only [bind_okM]
    rw [show (ig.numNodes == fw.numNodes) = false by simpa using hne]
    rfl

example : (do (← FloydWarshall.new debug64 4).prepare debug64 Ex.ig) = .error .assertion :=
  C44_floyd_warshall_checks debug64 ⟨4, List.replicate 16 debug64.umax⟩ Ex.ig (Or.inr (by decide))

/-- **C44** With overflow checks `new` returns exactly if the size of the matrix is a `usize`; all entries are `WEIGHT_MAX`. -/
theorem C44_floyd_warshall_new {P : Plat} (hP : P.checked = true) (n : Nat) :
    FloydWarshall.new P n = if n * n ≤ P.umax then .ok ⟨n, List.replicate (n * n) P.umax⟩ else .error .overflow := by
  unfold FloydWarshall.new mulW
  by_cases h : n * n ≤ P.umax
  · rw [if_pos h, if_pos h]; rfl
  · rw [if_neg h, if_neg h, if_pos hP]; rfl

example : FloydWarshall.new debug64 (2 ^ 32) = .error .overflow := C44_floyd_warshall_new rfl _
example : FloydWarshall.new debug64 3 = .ok ⟨3, List.replicate 9 debug64.umax⟩ := C44_floyd_warshall_new rfl _

/-- What the theorem does not promise. A prepared object prepared again keeps what it learnt from the first graph: here the second
graph has no edge from 0, and still the distance from 0 to 1 is 5. -/
example : ∃ ig₁ ig₂ fw, buildGraph debug64 [.addEdge 0 1 5, .freeze] = .ok ig₁ ∧
    buildGraph debug64 [.addEdge 1 0 3, .freeze] = .ok ig₂ ∧
    (do let fw ← (← FloydWarshall.new debug64 2).prepare debug64 ig₁; fw.prepare debug64 ig₂) = .ok fw ∧
    fw.calcWeight debug64 0 1 = .ok 5 ∧ ¬ ∃ w, HasWalk (edgesOf ig₂.edges) 0 1 w := by
  refine ⟨_, ⟨[⟨1, 0, 3⟩], 2, true⟩, _, rfl, rfl, rfl, rfl, ?_⟩
  rintro ⟨w, L, hL, h1, h2⟩
  cases L with
  | nil => cases h1
  | cons a L =>
    simp only [List.head?_cons, Option.some.injEq] at h1
    subst h1
    cases L with
    | nil => simp at h2
    | cons b L =>
      obtain ⟨w1, w2, he, _⟩ := hL
      simp [edgesOf] at he
/-- And a target outside of the graph reads the next row instead of panicking, unless it is the last row. -/
example : exFw.calcWeight debug64 0 6 = exFw.calcWeight debug64 1 1 ∧ exFw.calcWeight debug64 0 6 = .ok 0 ∧ exFw.calcWeight debug64 4 5 = .error .index :=
  ⟨rfl, rfl, rfl⟩

/-- Graphs made by `from_input_graph` from a client's graph of `n` nodes. -/
def MadeFrom (P : Plat) (n : Nat) (g : PreparationGraph) : Prop :=
  ∃ ops ig, buildGraph P ops = .ok ig ∧ ig.frozen = true ∧ ig.numNodes = n ∧ PreparationGraph.fromInputGraph P ig = .ok g

private theorem MadeFrom.ok {P : Plat} (hP : P.checked = true) {n : Nat} {g : PreparationGraph} (h : MadeFrom P n g) :
    PreparationGraph.WF n g ∧ (∀ u x w, g.rel u x w → 1 ≤ w) ∧ n ≤ P.umax := by
  obtain ⟨ops, ig, hb, hf, rfl, e⟩ := h
  have hfo := (buildGraph_inv (Or.inl hP) hb).frozenOk hf
  obtain ⟨g', e', h⟩ := fromInputGraph_ok (P := P) hfo
  rw [e] at e'
  cases e'
  exact ⟨h.wf, fun u x w ⟨c, hc⟩ => (buildGraph_inv (Or.inl hP) hb).pos _ ((h.mem u _).1 hc).2, buildGraph_num_le hb⟩

/-- **C44** The answer of the Dijkstra reference after any earlier queries on the same object: a shortest path with its weight, or
`None` if there is no walk below `usize::MAX`. -/
theorem C44_dijkstra {P : Plat} (hP : P.checked = true) {pq : PQ} {ops : List Op} {ig : InputGraph}
    (hb : buildGraph P ops = .ok ig) (hf : ig.frozen = true) {g : PreparationGraph}
    (hg : PreparationGraph.fromInputGraph P ig = .ok g) {earlier : List (PreparationGraph × Nat × Nat)}
    (he : ∀ q ∈ earlier, MadeFrom P ig.numNodes q.1 ∧ q.2.1 < ig.numNodes ∧ q.2.2 < ig.numNodes)
    {d d' : Dijkstra pq} (hd : (Dijkstra.new P pq ig.numNodes).runQueries P earlier = .ok d)
    {s t : Nat} (hs : s < ig.numNodes) (ht : t < ig.numNodes) {r : Option ShortestPath}
    (hq : d.calcPath P g s t = .ok (d', r)) :
    (r = none ↔ ¬ ∃ w < P.umax, HasWalk (edgesOf (accepted ops)) s t w) ∧
    (∀ p, r = some p → p.source = s ∧ p.target = t ∧ IsDist (edgesOf (accepted ops)) s t p.weight ∧
      IsWalk (edgesOf ig.edges) p.nodes p.weight ∧ p.nodes.head? = some s ∧ p.nodes.getLast? = some t) := by
  have hi := buildGraph_inv (Or.inl hP) hb
  have hfo := hi.frozenOk hf
  have hm : MadeFrom P ig.numNodes g := ⟨ops, ig, hb, hf, rfl, hg⟩
  obtain ⟨hwf, hpos, hn⟩ := hm.ok hP
  have hbase := Dijkstra.runQueries_base hP hn (fun q hq => by
    obtain ⟨h1, h2⟩ := he q hq
    obtain ⟨k1, k2, _⟩ := h1.ok hP
    exact ⟨k1, k2, h2⟩) (Dijkstra.Base.new P pq ig.numNodes) hd
  obtain ⟨_, ha⟩ := (Dijkstra.calcPath_ok hP hn hwf hpos hbase hs ht).of_ok hq
  obtain ⟨g', e', hfi⟩ := fromInputGraph_ok (P := P) hfo
  rw [hg] at e'
  cases e'
  have hrel : g.rel = edgesOf ig.edges := by
    funext u x w
    refine propext ⟨?_, ?_⟩
    · rintro ⟨c, hc⟩
      exact ((hfi.mem u _).1 hc).2
    · intro h
      exact ⟨P.umax, (hfi.mem u ⟨x, w, P.umax⟩).2 ⟨rfl, h⟩⟩
  rw [hrel] at ha
  cases r with
  | none =>
    refine ⟨⟨fun _ => ?_, fun _ => rfl⟩, fun p h => by cases h⟩
    rintro ⟨w, hlt, hw⟩
    obtain ⟨w', hle, hk⟩ := hi.walk_le (hasWalk_iff.1 hw)
    have := ha w' hk
    omega
  | some p =>
    obtain ⟨h0, h1, h2, ⟨L, h3, h4⟩, h5⟩ := ha
    obtain ⟨k1, k2, k3⟩ := h3.isWalk
    rw [← h4] at k1 k2 k3
    refine ⟨⟨fun h => (by cases h), fun h => ?_⟩, ?_⟩
    · exact absurd ⟨p.weight, h0, hasWalk_iff.2 (hi.walk_sub h3.toWk)⟩ h
    · rintro _ ⟨⟩
      exact ⟨h1, h2, isDist_accepted hi h3.toWk h5, k1, k2, k3⟩

/-- the object after one query -/
example : ∃ d d' : Dijkstra binaryHeap, (Dijkstra.new debug64 binaryHeap 5).runQueries debug64 [(exPrep, 4, 0)] = .ok d ∧
    d.calcPath debug64 exPrep 0 4 = .ok (d', some Ex.path) ∧ IsDist (edgesOf (accepted Ex.ops)) 0 4 13 := by
  refine ⟨_, _, rfl, rfl, ?_⟩
  have hm : MadeFrom debug64 5 exPrep := ⟨Ex.ops, Ex.ig, Ex.built, rfl, rfl, exPrep_eq⟩
  exact ((C44_dijkstra (P := debug64) (pq := binaryHeap) (earlier := [(exPrep, 4, 0)]) rfl Ex.built Ex.frozen exPrep_eq
    (by simp [hm, Ex.ig]) rfl (s := 0) (t := 4) (by decide) (by decide) rfl).2 Ex.path rfl).2.2.1

/-- **C44** The comparison the randomised tests make (lib.rs:176-204): for every client and every pair of nodes, if all three runs
return, the path calculator, Dijkstra and Floyd-Warshall agree. -/
theorem C44_agreement {P : Plat} (hP : P.checked = true) {pq pq' : PQ} {ops : List Op} {ig : InputGraph} {fg : FastGraph}
    (hc : Client P ops ig fg) (hw : ∀ e ∈ ig.edges, e.weight ≤ P.umax) {fw : FloydWarshall}
    (hfw : (do (← FloydWarshall.new P ig.numNodes).prepare P ig) = .ok fw) {g : PreparationGraph}
    (hg : PreparationGraph.fromInputGraph P ig = .ok g) {earlier : List (PreparationGraph × Nat × Nat)}
    (he : ∀ q ∈ earlier, MadeFrom P ig.numNodes q.1 ∧ q.2.1 < ig.numNodes ∧ q.2.2 < ig.numNodes)
    {d d' : Dijkstra pq} (hd : (Dijkstra.new P pq ig.numNodes).runQueries P earlier = .ok d)
    {s t : Nat} {rf rd : Option ShortestPath} (hq : calcPath P pq' fg s t = .ok rf)
    (hqd : d.calcPath P g s t = .ok (d', rd)) :
    (match rf, rd with
      | none, none => fw.calcWeight P s t = .ok P.WEIGHT_MAX
      | some p, some q => p.eqv q = true ∧ fw.calcWeight P s t = .ok p.weight
      | _, _ => False) := by
  have hi := hc.inv hP
  have ha := query_answer hP hc hq
  have hargs : s < ig.numNodes ∧ t < ig.numNodes := by
    exact ⟨ha.1.sl (s, 0) (by simp), ha.1.el (t, 0) (by simp)⟩
  obtain ⟨w, ew, h1, h2, h3⟩ := C44_floyd_warshall hP hc.built hc.frozen hw hfw hargs.1 hargs.2
  obtain ⟨k1, k2⟩ := C44_dijkstra hP hc.built hc.frozen hg he hd hargs.1 hargs.2 hqd
  have m1 := C02_none_iff_unreachable hP hc pq' hq
  cases rf with
  | none =>
    cases rd with
    | none =>
      have := h3.2 (k1.1 rfl)
      subst this
      exact ew
    | some q => exact absurd (k1.2 (m1.1 rfl)) (by simp)
  | some p =>
    cases rd with
    | none => exact absurd (m1.2 (k1.1 rfl)) (by simp)
    | some q =>
      have h4 := C01_calc_path_is_minimal hP hc pq' hq
      have h5 := k2 q rfl
      obtain ⟨_, _, h6, h7, _⟩ := C03_nodes_are_a_path hP hc pq' hq
      have hpq : p.weight = q.weight := Nat.le_antisymm (h4.2 _ h5.2.2.1.1) (h5.2.2.1.2 _ h4.1)
      refine ⟨by simp [ShortestPath.eqv, h5.1, h5.2.1, h6, h7, hpq], ?_⟩
      have hne : ¬ w = P.umax := by
        intro hh
        have := m1.2 (h3.1 hh)
        cases this
      have h8 := h2 (by omega)
      have : w = p.weight := Nat.le_antisymm (h8.2 _ h4.1) (h4.2 _ h8.1)
      rw [ew, this]

example : ∃ d' : Dijkstra binaryHeap, calcPath debug64 binaryHeap Ex.fgo 0 4 = .ok (some Ex.path) ∧
    (Dijkstra.new debug64 binaryHeap 5).calcPath debug64 exPrep 0 4 = .ok (d', some Ex.path) ∧
    exFw.calcWeight debug64 0 4 = .ok 13 := by
  refine ⟨_, rfl, rfl, ?_⟩
  exact (C44_agreement (P := debug64) (pq := binaryHeap) (pq' := binaryHeap) (earlier := []) rfl exampleClient' (by decide)
    exFw_eq exPrep_eq (by simp) rfl Ex.query' rfl).2

end Props
end FP
