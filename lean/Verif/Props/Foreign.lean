import Mathlib.Tactic.IntervalCases
import Verif.Proofs.Covering
import Verif.Props.Query
import Verif.Props.Saving
/-!
# Fast graphs not built by the API

`FastGraph` derives `Deserialize` (fast_graph.rs:26), so a client can obtain values of this type that no preparation returned: files that
were edited, damaged or written by another version. The statements are about arbitrary values of the type; `Spec.Consistent` and
`Spec.Cyclic` are the two conditions used.
-/
set_option autoImplicit false
namespace FP
namespace Props
open Spec DiskWriter

/-- **C77** On any graph whatsoever, the only way a query does not end is the recursion that unpacks a shortcut, and for some edge it
really never ends: no bound on the depth is enough. The search itself always ends. No debug assertion fails. -/
theorem C77_only_unpacking_diverges {P : Plat} (hP : P.checked = true) (g : FastGraph) (pq : PQ) (n : Nat) (history : List Request)
    {c : PathCalculator pq} (hh : runRequests P (PathCalculator.new P pq n) history = .ok c) (S T : List (Nat × Nat)) :
    (c.calcPathMulti P g S T ≠ .error .outOfFuel ∧ c.calcPathMulti P g S T ≠ .error .debugAssertion) ∨
    ∃ id reverse, (∀ depth nodes, PathCalculator.unpackFwd P g depth nodes id reverse = .error .outOfFuel) ∨
      (∀ depth nodes, PathCalculator.unpackBwd P g depth nodes id reverse = .error .outOfFuel) := by
  have hco := runRequests_base (CalcOk.new P pq n) hh
  by_cases hu : Unpackable P g
  · have := calcPathMulti_any hP hu (by rw [hco.num]; exact hco) S T
    refine Or.inl ⟨fun h => ?_, fun h => ?_⟩ <;> rw [h] at this
    exacts [this.1 rfl, this.2 rfl]
  · right
    unfold Unpackable at hu
    push Not at hu
    obtain ⟨⟨d, id⟩, nodes, reverse, h⟩ := hu
    have h' := (unpack_alt P g (d, id) nodes reverse).resolve_left h
    refine ⟨id, reverse, ?_⟩
    cases d with
    | true => exact Or.inl h'
    | false => exact Or.inr h'

/-- **C77** Prepared graphs satisfy both conditions. -/
theorem C77_prepared {P : Plat} (hP : P.checked = true) {ops : List Op} {ig : InputGraph} {fg : FastGraph} (hc : Client P ops ig fg) :
    ¬ Cyclic P.umax fg ∧ Consistent P.umax (edgesOf ig.edges) fg :=
  ⟨(hc.good hP).toFSound.not_cyclic, (hc.good hP).toFSound.consistent⟩

example : Consistent debug64.umax (edgesOf Ex.ig.edges) Ex.fgo := (C77_prepared rfl exampleClient').2
example : ¬ Cyclic debug64.umax Ex.fgo := (C77_prepared rfl exampleClient').1

/-- **C77** Without a shortcut that replaces itself, directly or through others, every query ends. -/
theorem C77_acyclic_ends {P : Plat} (hP : P.checked = true) {g : FastGraph} (hg : ¬ Cyclic P.umax g) (pq : PQ) (n : Nat)
    (history : List Request) {c : PathCalculator pq} (hh : runRequests P (PathCalculator.new P pq n) history = .ok c)
    (S T : List (Nat × Nat)) :
    c.calcPathMulti P g S T ≠ .error .outOfFuel ∧ c.calcPathMulti P g S T ≠ .error .debugAssertion := by
  have hco := runRequests_base (CalcOk.new P pq n) hh
  have := calcPathMulti_any hP (fun a nodes reverse => unpack_ends hg a nodes reverse) (by rw [hco.num]; exact hco) S T
  refine ⟨fun h => ?_, fun h => ?_⟩ <;> rw [h] at this
  exacts [this.1 rfl, this.2 rfl]

example : (PathCalculator.new debug64 binaryHeap 5).calcPathMulti debug64 Ex.fgo [(0, 1)] [(4, 0), (3, 2)] ≠ .error .outOfFuel :=
  (C77_acyclic_ends rfl (C77_prepared rfl exampleClient').1 binaryHeap 5 [] rfl _ _).1

/-- A file with one edge 0 → 1 and one edge 1 → 0, both stored at node 0 and both claiming to be shortcuts that replace the two. -/
def selfShortcut : FastGraph := ⟨2, [0, 1], [⟨0, 1, 1, 0, 0⟩], [0, 1, 1], [⟨0, 1, 1, 0, 0⟩], [0, 1, 1]⟩

/-- **C77** The condition cannot be dropped: `load_from_disk` accepts this file, the graph is cyclic, both queries never end – for no
depth of the recursion. In Rust: the stack overflows and the process aborts. -/
theorem C77_cyclic_overflows : ∃ g : FastGraph,
    (∀ P : Plat, 3 ≤ P.umax → P.umax < 2 ^ 64 → loadGraph P (some (saveToDisk g)) = .ok g) ∧
    (∀ P : Plat, 0 < P.umax → Cyclic P.umax g) ∧
    calcPath debug64 binaryHeap g 0 1 = .error .outOfFuel ∧ calcPath debug64 binaryHeap g 1 0 = .error .outOfFuel ∧
    ∀ P : Plat, 0 < P.umax → ∀ depth nodes reverse, PathCalculator.unpackFwd P g depth nodes 0 reverse = .error .outOfFuel ∧
      PathCalculator.unpackBwd P g depth nodes 0 reverse = .error .outOfFuel := by
  refine ⟨selfShortcut, ?_, ?_, rfl, rfl, ?_⟩
  · intro P h3 h64
    refine (C75_load_exactly h64).2 ⟨[], (by rw [List.append_nil] : some (saveToDisk selfShortcut) = _), ?_, ?_⟩
    · unfold LenFit
      simp only [selfShortcut, List.length_cons, List.length_nil]
      omega
    · intro v hv
      have : v ≤ 2 := by revert hv; revert v; decide
      omega
  · intro P hU
    exact ⟨(true, 0), Relation.TransGen.single ⟨⟨0, 1, 1, 0, 0⟩, rfl, Nat.ne_of_lt hU, Nat.ne_of_lt hU, Or.inr rfl⟩⟩
  · intro P hU depth
    have hne : (0 == P.umax) = false := by simpa using Nat.ne_of_lt hU
    have hs : (⟨0, 1, 1, 0, 0⟩ : FastGraphEdge).isShortcut P = .ok true := by
      simp only [FastGraphEdge.isShortcut, Plat.INVALID_EDGE, bne, hne]
      rfl
    induction depth with
    | zero => exact fun _ _ => ⟨rfl, rfl⟩
    | succ d ih =>
      intro nodes reverse
      have e1 : idx selfShortcut.edgesFwd 0 = .ok ⟨0, 1, 1, 0, 0⟩ := rfl
      have e2 : idx selfShortcut.edgesBwd 0 = .ok ⟨0, 1, 1, 0, 0⟩ := rfl
      constructor
      · unfold PathCalculator.unpackFwd
        rw [e1]
        simp only [bind_okM, hs]
        cases reverse
        · simp only [(ih nodes false).2]
          rfl
        · simp only [(ih nodes true).1]
          rfl
      · unfold PathCalculator.unpackBwd
        rw [e2]
        simp only [bind_okM, hs]
        cases reverse
        · simp only [(ih nodes false).2]
          rfl
        · simp only [(ih nodes true).1]
          rfl

/-- **C77** On a consistent graph every query with legal arguments ends without a panic other than overflowing weights, and what it returns
is a path over the edges `E` from a source entry to a target entry that weighs, with the entries, at most what was reported. -/
theorem C77_consistent_sound {P : Plat} (hP : P.checked = true) {E : EdgeRel} {g : FastGraph} (hg : Consistent P.umax E g) (pq : PQ)
    (history : List Request) {c : PathCalculator pq} (hh : runRequests P (PathCalculator.new P pq g.numNodes) history = .ok c)
    {S T : List (Nat × Nat)} (h1 : S ≠ []) (h2 : T ≠ []) (h3 : ∀ x ∈ S, x.1 < g.numNodes) (h4 : ∀ x ∈ T, x.1 < g.numNodes) :
    (∃ c' r, c.calcPathMulti P g S T = .ok (c', r) ∧ ∀ p, r = some p → p.weight < P.umax ∧ ∃ ws wt w, (p.source, ws) ∈ S ∧
      (p.target, wt) ∈ T ∧ IsWalk E p.nodes w ∧ p.nodes.head? = some p.source ∧ p.nodes.getLast? = some p.target ∧
      ws + w + wt ≤ p.weight) ∨
    c.calcPathMulti P g S T = .error .overflow ∨ c.calcPathMulti P g S T = .error .capacity := by
  have hco := runRequests_base (CalcOk.new P pq g.numNodes) hh
  have := calcPathMulti_sound hP hg.sound hco h1 h2 h3 h4
  cases hr : c.calcPathMulti P g S T with
  | ok r => rw [hr] at this; exact Or.inl ⟨r.1, r.2, rfl, this⟩
  | error e =>
    rw [hr] at this
    cases e with
    | overflow => exact Or.inr (Or.inl rfl)
    | capacity => exact Or.inr (Or.inr rfl)
    | _ => exact this.elim

/-- A graph with seven edges, ordered by the numbers of the nodes, without any shortcut. The shortcut 3 → 4 around node 2 is
missing. -/
def noShortcuts : FastGraph :=
  let m := 2 ^ 64 - 1
  ⟨5, [0, 1, 2, 3, 4], [⟨1, 2, 10, m, m⟩, ⟨1, 3, 3, m, m⟩, ⟨2, 4, 3, m, m⟩], [0, 0, 2, 3, 3, 3],
    [⟨0, 1, 50, m, m⟩, ⟨0, 2, 10, m, m⟩, ⟨0, 4, 3, m, m⟩, ⟨2, 3, 3, m, m⟩], [0, 3, 3, 4, 4, 4]⟩

/-- The edges of `noShortcuts`. -/
def noShortcutsEdges : List Edge := [⟨1, 2, 10⟩, ⟨1, 3, 3⟩, ⟨2, 4, 3⟩, ⟨1, 0, 50⟩, ⟨2, 0, 10⟩, ⟨4, 0, 3⟩, ⟨3, 2, 3⟩]

theorem noShortcuts_consistent : Consistent debug64.umax (edgesOf noShortcutsEdges) noShortcuts := by
  refine ⟨by decide, by decide, by decide, by decide, ⟨by decide, by decide, by decide, by decide⟩,
    ⟨by decide, by decide, by decide, by decide⟩, ?_, ?_⟩
  · rintro u i ed ⟨b, e, hb, he, h1, h2, h3⟩
    have hu : u < 5 := begin_lt (g := noShortcuts) (n := 5) rfl (Or.inl hb)
    interval_cases u <;> cases hb <;> cases he <;> interval_cases i <;> cases h3 <;>
      exact ⟨rfl, ⟨_, _, rfl, rfl, by decide⟩, Or.inl ⟨rfl, rfl, by unfold edgesOf; decide⟩⟩
  · rintro u i ed ⟨b, e, hb, he, h1, h2, h3⟩
    have hu : u < 5 := begin_lt (g := noShortcuts) (n := 5) rfl (Or.inr hb)
    interval_cases u <;> cases hb <;> cases he <;> interval_cases i <;> cases h3 <;>
      exact ⟨rfl, ⟨_, _, rfl, rfl, by decide⟩, Or.inl ⟨rfl, rfl, by unfold edgesOf; decide⟩⟩

example : (∃ c' r, (PathCalculator.new debug64 binaryHeap 5).calcPathMulti debug64 noShortcuts [(1, 0)] [(1, 100), (0, 0)] =
    .ok (c', r) ∧ ∀ p, r = some p → p.weight < debug64.umax ∧ ∃ ws wt w, (p.source, ws) ∈ [(1, 0)] ∧
      (p.target, wt) ∈ [(1, 100), (0, 0)] ∧ IsWalk (edgesOf noShortcutsEdges) p.nodes w ∧ p.nodes.head? = some p.source ∧
      p.nodes.getLast? = some p.target ∧ ws + w + wt ≤ p.weight) ∨
    (PathCalculator.new debug64 binaryHeap 5).calcPathMulti debug64 noShortcuts [(1, 0)] [(1, 100), (0, 0)] = .error .overflow ∨
    (PathCalculator.new debug64 binaryHeap 5).calcPathMulti debug64 noShortcuts [(1, 0)] [(1, 100), (0, 0)] = .error .capacity :=
  C77_consistent_sound rfl noShortcuts_consistent binaryHeap [] rfl (by decide) (by decide) (by decide) (by decide)

theorem noShortcuts_walk : HasWalk (edgesOf noShortcutsEdges) 1 0 12 :=
  ⟨[1, 3, 2, 4, 0], ⟨3, 9, by unfold edgesOf; decide, ⟨3, 6, by unfold edgesOf; decide,
    ⟨3, 3, by unfold edgesOf; decide, ⟨3, 0, by unfold edgesOf; decide, rfl, rfl⟩, rfl⟩, rfl⟩, rfl⟩, rfl, rfl⟩

/-- **C77** "At most" cannot be replaced by "exactly": on this consistent graph the reported weight is not that of the returned nodes, for
no choice of the entries, and it is not minimal. Being complete – what preparations ensure – is needed for C07 and C06. -/
theorem C77_weight_inexact : ∃ (g : FastGraph) (E : EdgeRel) (S T : List (Nat × Nat)) (p : ShortestPath),
    Consistent debug64.umax E g ∧ calcPathMulti debug64 binaryHeap g S T = .ok (some p) ∧
    (∀ ws wt w, (p.source, ws) ∈ S → (p.target, wt) ∈ T → IsWalk E p.nodes w → ws + w + wt < p.weight) ∧
    ∃ total < p.weight, HasRoute E S T total := by
  refine ⟨noShortcuts, edgesOf noShortcutsEdges, [(1, 0)], [(1, 100), (0, 0)], ⟨1, 0, 100, [1, 0]⟩, noShortcuts_consistent, rfl, ?_, ?_⟩
  · intro ws wt w h1 h2 h3
    obtain ⟨a, b, he, hw, rfl⟩ := h3
    have hb : b = 0 := hw
    have hws : ws = 0 := by simpa using h1
    have hwt : wt = 0 := by simpa using h2
    have ha : a = 50 := by simpa [edgesOf, noShortcutsEdges] using he
    show ws + (a + b) + wt < 100
    omega
  · exact ⟨12, by decide, 1, 0, 0, 0, 12, by decide, by decide, noShortcuts_walk, rfl⟩

/-! ### C78 -/

/-- **C78** On a consistent graph, a query that does not panic returns the right weight exactly if there is a walk of the right weight that
goes up and then down. -/
theorem C78_right_iff_up_down {P : Plat} (hP : P.checked = true) {E : EdgeRel} {g : FastGraph} (hg : Consistent P.umax E g) (pq : PQ)
    {s t : Nat} {r : Option ShortestPath} (hq : calcPath P pq g s t = .ok r) :
    RightWeight P.umax E s t r ↔ ∀ d < P.umax, IsDist E s t d → UpDownWalk g s t d := by
  have hs := hg.sound
  obtain ⟨c, hc⟩ := calcPathMulti_inv (query_single hq)
  have ha := calcPathMulti_args hc
  have hn : (PathCalculator.new P pq g.numNodes).numNodes = g.numNodes := rfl
  rw [hn] at ha
  have hsn : s < g.numNodes := ha.sl (s, 0) (by simp)
  have htn : t < g.numNodes := ha.el (t, 0) (by simp)
  obtain ⟨_, h1, h2⟩ := (calcPathMulti_core hP hs (CalcOk.new P pq g.numNodes) ha.s ha.e ha.sl ha.el).of_ok hc
  simp only at h1 h2
  have hlb : ∀ d, (∀ w', HasWalk E s t w' → d ≤ w') → RouteLB E [(s, 0)] [(t, 0)] (0 + d + 0) := by
    intro d hd s' ws t' wt w k1 k2 k3
    simp at k1 k2
    obtain ⟨rfl, rfl⟩ := k1
    obtain ⟨rfl, rfl⟩ := k2
    have := hd w (hasWalk_iff.2 k3)
    omega
  constructor
  · intro hr d hd hdist
    cases r with
    | none => have := hr d hdist.1; omega
    | some p =>
      obtain ⟨_, _, s', ws, t', wt, w, k1, k2, ⟨m, a, b, q1, q2, q3⟩, k4⟩ := h1 p rfl
      simp at k1 k2
      obtain ⟨rfl, rfl⟩ := k1
      obtain ⟨rfl, rfl⟩ := k2
      have := hr.2 d hdist.1
      have := hdist.2 _ hr.1
      exact (hs.upDownWalk_iff hsn htn).2 ⟨m, a, b, q1, q2, by omega⟩
  · intro hud
    have hfound : ∀ d < P.umax, IsDist E s t d → ∃ p, r = some p ∧ p.weight ≤ d := by
      intro d hd hdist
      obtain ⟨p, hp, hle⟩ := h2 s 0 t 0 d (by simp) (by simp) (by omega) (hlb d hdist.2) (hasWalk_iff.1 hdist.1)
        ((hs.upDownWalk_iff hsn htn).1 (hud d hd hdist))
      exact ⟨p, hp, by omega⟩
    have hmin : ∀ w, HasWalk E s t w → ∃ d ≤ w, IsDist E s t d := by
      intro w hw
      classical
      exact ⟨Nat.find ⟨w, hw⟩, Nat.find_min' _ hw, Nat.find_spec ⟨w, hw⟩, fun w' hw' => Nat.find_min' _ hw'⟩
    cases r with
    | none =>
      intro w hw
      by_contra hlt
      obtain ⟨d, hd, hdist⟩ := hmin w hw
      obtain ⟨p, hp, _⟩ := hfound d (by omega) hdist
      cases hp
    | some p =>
      obtain ⟨q1, ⟨ws, wt, w, k1, k2, k3, k4, k5, k6⟩, _⟩ := h1 p rfl
      simp at k1 k2
      obtain ⟨hs', rfl⟩ := k1
      obtain ⟨ht', rfl⟩ := k2
      have hw : HasWalk E s t w := ⟨p.nodes, k3, by rw [k4, hs'], by rw [k5, ht']⟩
      obtain ⟨d, hd, hdist⟩ := hmin w hw
      obtain ⟨p', hp, hle⟩ := hfound d (by omega) hdist
      cases hp
      have : p.weight = d := by omega
      show IsDist E s t p.weight
      rw [this]
      exact hdist

/-- **C78** On a consistent and covering graph all queries answer correctly, multiple sources and targets included: `None` if all routes
weigh `usize::MAX` or more, otherwise a real path with exactly the reported weight, which is minimal. Only overflows can panic. -/
theorem C78_covering_correct {P : Plat} (hP : P.checked = true) {E : EdgeRel} {g : FastGraph} (hg : Consistent P.umax E g)
    (hv : Covering P.umax E g) (pq : PQ) (history : List Request) {c : PathCalculator pq}
    (hh : runRequests P (PathCalculator.new P pq g.numNodes) history = .ok c)
    {S T : List (Nat × Nat)} (h1 : S ≠ []) (h2 : T ≠ []) (h3 : ∀ x ∈ S, x.1 < g.numNodes) (h4 : ∀ x ∈ T, x.1 < g.numNodes) :
    (∃ c' r, c.calcPathMulti P g S T = .ok (c', r) ∧
      (r = none → ∀ total, HasRoute E S T total → P.umax ≤ total) ∧
      ∀ p, r = some p → (∃ ws wt w, (p.source, ws) ∈ S ∧ (p.target, wt) ∈ T ∧ IsWalk E p.nodes w ∧
        p.nodes.head? = some p.source ∧ p.nodes.getLast? = some p.target ∧ p.weight = ws + w + wt) ∧
        ∀ total, HasRoute E S T total → p.weight ≤ total) ∨
    c.calcPathMulti P g S T = .error .overflow ∨ c.calcPathMulti P g S T = .error .capacity := by
  have hs := hg.sound
  have hco := runRequests_base (CalcOk.new P pq g.numNodes) hh
  have := calcPathMulti_complete hP hs hco h1 h2 h3 h4 (fun a b k hw => hs.complete_of_covering hv a b k hw)
  cases hr : c.calcPathMulti P g S T with
  | ok r =>
    rw [hr] at this
    refine Or.inl ⟨r.1, r.2, rfl, ?_, ?_⟩
    · intro hn
      have h := this.2
      rw [hn] at h
      exact h
    · intro p hp
      have h := this.2
      rw [hp] at h
      exact h.2
  | error e =>
    rw [hr] at this
    cases e with
    | overflow => exact Or.inr (Or.inl rfl)
    | capacity => exact Or.inr (Or.inr rfl)
    | _ => exact this.elim

/-- **C78** The two local conditions are also necessary: if all queries return and have the right weight, they hold. -/
theorem C78_right_covering {P : Plat} (hP : P.checked = true) {E : EdgeRel} {g : FastGraph} (hg : Consistent P.umax E g)
    (hE : ∀ u v w, E u v w → u < g.numNodes ∧ v < g.numNodes) (pq : PQ)
    (hq : ∀ s t, s < g.numNodes → t < g.numNodes → ∃ r, calcPath P pq g s t = .ok r ∧ RightWeight P.umax E s t r) :
    Covering P.umax E g := by
  have hs := hg.sound
  refine hs.covering_of_complete hE ?_
  intro s t w hsn htn k hw
  obtain ⟨r, h1, h2⟩ := hq s t hsn htn
  have hex : ∃ w, HasWalk E s t w := ⟨w, hasWalk_iff.2 k⟩
  classical
  have hmin := Nat.find_min' hex (hasWalk_iff.2 k)
  have := (C78_right_iff_up_down hP hg pq h1).1 h2 (Nat.find hex) (by omega)
    ⟨Nat.find_spec hex, fun w' hw' => Nat.find_min' _ hw'⟩
  obtain ⟨m, a, b, q1, q2, q3⟩ := (hs.upDownWalk_iff hsn htn).1 this
  exact ⟨m, a, b, q1, q2, by omega⟩

/-- **C78** Prepared graphs are covering. -/
theorem C78_prepared {P : Plat} (hP : P.checked = true) {ops : List Op} {ig : InputGraph} {fg : FastGraph} (hc : Client P ops ig fg) :
    Covering P.umax (edgesOf ig.edges) fg := by
  have hg := hc.good hP
  refine hg.toFSound.covering_of_complete ?_ (fun s t w h1 h2 k hw => hg.complete h1 h2 k hw)
  intro u v w he
  exact ((hc.inv hP).frozenOk hc.frozen).lt _ he

example : ∀ d < debug64.umax, IsDist (edgesOf Ex.ig.edges) 0 4 d → UpDownWalk Ex.fgo 0 4 d :=
  (C78_right_iff_up_down rfl (C77_prepared rfl exampleClient').2 binaryHeap Ex.query').1
    ((query_answer rfl exampleClient' (query_single Ex.query')).2.1.single.2 _ rfl).2.2.2.2.2.2

/-- `noShortcuts` lacks the up-down walk from 1 to 0: the query even returns `None`, although there is an edge (nodes with a shorter way from
above are not expanded). -/
example : ¬ ∀ d < debug64.umax, IsDist (edgesOf noShortcutsEdges) 1 0 d → UpDownWalk noShortcuts 1 0 d := by
  rw [← C78_right_iff_up_down (r := none) rfl noShortcuts_consistent binaryHeap rfl]
  intro h
  exact absurd (h 12 noShortcuts_walk) (by decide)

/-- The graph above with the missing shortcut 3 → 4, written down by hand. -/
def withShortcut : FastGraph :=
  let m := 2 ^ 64 - 1
  ⟨5, [0, 1, 2, 3, 4], [⟨1, 2, 10, m, m⟩, ⟨1, 3, 3, m, m⟩, ⟨2, 4, 3, m, m⟩, ⟨3, 4, 6, 3, 2⟩], [0, 0, 2, 3, 4, 4],
    [⟨0, 1, 50, m, m⟩, ⟨0, 2, 10, m, m⟩, ⟨0, 4, 3, m, m⟩, ⟨2, 3, 3, m, m⟩], [0, 3, 3, 4, 4, 4]⟩

theorem withShortcut_consistent : Consistent debug64.umax (edgesOf noShortcutsEdges) withShortcut := by
  refine ⟨by decide, by decide, by decide, by decide, ⟨by decide, by decide, by decide, by decide⟩,
    ⟨by decide, by decide, by decide, by decide⟩, ?_, ?_⟩
  · rintro u i ed ⟨b, e, hb, he, h1, h2, h3⟩
    have hu : u < 5 := begin_lt (g := withShortcut) (n := 5) rfl (Or.inl hb)
    interval_cases u <;> cases hb <;> cases he <;> interval_cases i <;> cases h3
    · exact ⟨rfl, ⟨_, _, rfl, rfl, by decide⟩, Or.inl ⟨rfl, rfl, by unfold edgesOf; decide⟩⟩
    · exact ⟨rfl, ⟨_, _, rfl, rfl, by decide⟩, Or.inl ⟨rfl, rfl, by unfold edgesOf; decide⟩⟩
    · exact ⟨rfl, ⟨_, _, rfl, rfl, by decide⟩, Or.inl ⟨rfl, rfl, by unfold edgesOf; decide⟩⟩
    · exact ⟨rfl, ⟨_, _, rfl, rfl, by decide⟩, Or.inr ⟨by decide, by decide, 2, _, _, ⟨_, _, rfl, rfl, by decide⟩,
        ⟨_, _, rfl, rfl, by decide⟩, ⟨_, _, rfl, rfl, by decide, by decide, rfl⟩, rfl,
        ⟨_, _, rfl, rfl, by decide, by decide, rfl⟩, rfl, rfl⟩⟩
  · rintro u i ed ⟨b, e, hb, he, h1, h2, h3⟩
    have hu : u < 5 := begin_lt (g := withShortcut) (n := 5) rfl (Or.inr hb)
    interval_cases u <;> cases hb <;> cases he <;> interval_cases i <;> cases h3 <;>
      exact ⟨rfl, ⟨_, _, rfl, rfl, by decide⟩, Or.inl ⟨rfl, rfl, by unfold edgesOf; decide⟩⟩

theorem withShortcut_up {u v w : Nat} : Up withShortcut u v w ↔ (u, v, w) ∈ [(1, 2, 10), (1, 3, 3), (2, 4, 3), (3, 4, 6)] := by
  constructor
  · rintro ⟨i, ed, ⟨b, e, hb, he, h1, h2, h3⟩, rfl, rfl⟩
    have hu : u < 5 := begin_lt (g := withShortcut) (n := 5) rfl (Or.inl hb)
    interval_cases u <;> cases hb <;> cases he <;> interval_cases i <;> cases h3 <;> decide
  · intro h
    simp only [List.mem_cons, List.not_mem_nil, or_false, Prod.mk.injEq] at h
    rcases h with ⟨rfl, rfl, rfl⟩ | ⟨rfl, rfl, rfl⟩ | ⟨rfl, rfl, rfl⟩ | ⟨rfl, rfl, rfl⟩
    · exact ⟨0, _, ⟨_, _, rfl, rfl, by decide, by decide, rfl⟩, rfl, rfl⟩
    · exact ⟨1, _, ⟨_, _, rfl, rfl, by decide, by decide, rfl⟩, rfl, rfl⟩
    · exact ⟨2, _, ⟨_, _, rfl, rfl, by decide, by decide, rfl⟩, rfl, rfl⟩
    · exact ⟨3, _, ⟨_, _, rfl, rfl, by decide, by decide, rfl⟩, rfl, rfl⟩

theorem withShortcut_down {u v w : Nat} : Down withShortcut u v w ↔ (u, v, w) ∈ [(1, 0, 50), (2, 0, 10), (4, 0, 3), (3, 2, 3)] := by
  constructor
  · rintro ⟨i, ed, ⟨b, e, hb, he, h1, h2, h3⟩, rfl, rfl⟩
    have hu : v < 5 := begin_lt (g := withShortcut) (n := 5) rfl (Or.inr hb)
    interval_cases v <;> cases hb <;> cases he <;> interval_cases i <;> cases h3 <;> decide
  · intro h
    simp only [List.mem_cons, List.not_mem_nil, or_false, Prod.mk.injEq] at h
    rcases h with ⟨rfl, rfl, rfl⟩ | ⟨rfl, rfl, rfl⟩ | ⟨rfl, rfl, rfl⟩ | ⟨rfl, rfl, rfl⟩
    · exact ⟨0, _, ⟨_, _, rfl, rfl, by decide, by decide, rfl⟩, rfl, rfl⟩
    · exact ⟨1, _, ⟨_, _, rfl, rfl, by decide, by decide, rfl⟩, rfl, rfl⟩
    · exact ⟨2, _, ⟨_, _, rfl, rfl, by decide, by decide, rfl⟩, rfl, rfl⟩
    · exact ⟨3, _, ⟨_, _, rfl, rfl, by decide, by decide, rfl⟩, rfl, rfl⟩

theorem withShortcut_covering : Covering debug64.umax (edgesOf noShortcutsEdges) withShortcut := by
  constructor
  · intro u v w he _
    have h : (u, v, w) ∈ [(1, 2, 10), (1, 3, 3), (2, 4, 3), (3, 4, 6)] ∨ (u, v, w) ∈ [(1, 0, 50), (2, 0, 10), (4, 0, 3), (3, 2, 3)] := by
      simp only [edgesOf, noShortcutsEdges, List.mem_cons, List.not_mem_nil, or_false, Edge.mk.injEq] at he
      rcases he with ⟨rfl, rfl, rfl⟩ | ⟨rfl, rfl, rfl⟩ | ⟨rfl, rfl, rfl⟩ | ⟨rfl, rfl, rfl⟩ | ⟨rfl, rfl, rfl⟩ | ⟨rfl, rfl, rfl⟩ |
        ⟨rfl, rfl, rfl⟩ <;> decide
    rcases h with h | h
    · exact ⟨v, w, 0, hasWalk_iff.2 (.single (withShortcut_up.2 h)), hasWalk_iff.2 (.nil v), by omega⟩
    · exact ⟨u, 0, w, hasWalk_iff.2 (.nil u), hasWalk_iff.2 (.single (withShortcut_down.2 h)), by omega⟩
  · intro c u v a b h1 h2 _
    rw [withShortcut_down] at h1
    rw [withShortcut_up] at h2
    simp only [List.mem_cons, List.not_mem_nil, or_false, Prod.mk.injEq] at h1 h2
    obtain ⟨rfl, rfl, rfl, rfl, rfl⟩ : u = 3 ∧ c = 2 ∧ a = 3 ∧ v = 4 ∧ b = 3 := by omega
    exact ⟨6, by decide, hasWalk_iff.2 (.single ⟨Or.inl (withShortcut_up.2 (by decide)), ⟨_, _, rfl, rfl, by decide⟩,
      ⟨_, _, rfl, rfl, by decide⟩⟩)⟩

example : ∀ p, calcPath debug64 binaryHeap withShortcut 1 0 = .ok (some p) → ∀ total,
    HasRoute (edgesOf noShortcutsEdges) [(1, 0)] [(0, 0)] total → p.weight ≤ total := by
  intro p hp
  rcases C78_covering_correct rfl withShortcut_consistent withShortcut_covering binaryHeap [] rfl (S := [(1, 0)]) (T := [(0, 0)])
    (by decide) (by decide) (by decide) (by decide) with ⟨c', r, h1, _, h2⟩ | h | h
  · obtain ⟨c, hc⟩ := calcPathMulti_inv (query_single hp)
    rw [show PathCalculator.new debug64 binaryHeap withShortcut.numNodes = PathCalculator.new debug64 binaryHeap 5 from rfl] at hc h1
    rw [hc] at h1
    injection h1 with h1
    injection h1 with _ h1
    exact (h2 p h1.symm).2
  · cases h
  · cases h
example : calcPath debug64 binaryHeap withShortcut 1 0 = .ok (some ⟨1, 0, 12, [1, 3, 2, 4, 0]⟩) := rfl

end Props
end FP
