import Verif.Proofs.Convert
import Verif.Props.Query
/-!
# The 32-bit representation

`FastGraph32.new P 2` converts a graph on platform `P` (the number is the allowed recursion depth of `usize_to_u32`, C30
shows that 2 is enough on 64-bit platforms); `convertToUsize P'` converts it back on platform `P'`. That a platform has more
than 32 bits is written `U32_MAX < P.umax`.
-/
set_option autoImplicit false
namespace FP
namespace Props
open Spec

/-! ### C28, C30 -/

/-- **C28** On a platform with more than 32 bits the conversion panics exactly when some number of the graph neither fits
into 32 bits nor is `usize::MAX`; otherwise it returns. -/
theorem C28_rejects_exactly {P : Plat} (h64 : U32_MAX < P.umax) (g : FastGraph) :
    (FastGraph32.new P 2 g = .error .assertion ↔ ∃ v ∈ g.values, U32_MAX < v ∧ v ≠ P.umax) ∧
    ((∃ g32, FastGraph32.new P 2 g = .ok g32) ↔ ∀ v ∈ g.values, v ≤ U32_MAX ∨ v = P.umax) := by
  have hok : (∃ g32, FastGraph32.new P 2 g = .ok g32) ↔ ∀ v ∈ g.values, v ≤ U32_MAX ∨ v = P.umax :=
    ⟨fun ⟨_, h⟩ => new32_fits (fuel := 0) h, fun h => ⟨_, new32_ok h64 0 h⟩⟩
  refine ⟨?_, hok⟩
  constructor
  · intro h
    by_contra hc
    obtain ⟨g32, h'⟩ := hok.2 (fun v hv => by
      by_contra hn
      exact hc ⟨v, hv, by omega, by omega⟩)
    rw [h] at h'
    cases h'
  · rintro ⟨v, hv, h1, h2⟩
    rcases new32_cases h64 0 g with h | h
    · have := hok.1 h v hv
      omega
    · exact h

example : ∃ g32, FastGraph32.new debug64 2 Ex.fg = .ok g32 := ⟨_, rfl⟩
example : FastGraph32.new debug64 2 { Ex.fg with ranks := [4294967296] } = .error .assertion :=
  (C28_rejects_exactly (by decide) _).1.2 ⟨4294967296, by simp [FastGraph.values], by decide, by decide⟩

/-- **C30, what holds** On platforms with more than 32 bits the conversion always ends, with at most one nested call.
(Missing for C30: 32-bit platforms, see `C30_false`.) -/
theorem C30_terminates_64_partial {P : Plat} (h64 : U32_MAX < P.umax) (g : FastGraph) (depth : Nat) :
    FastGraph32.new P (depth + 2) g ≠ .error .outOfFuel ∧ FastGraph32.new P (depth + 2) g = FastGraph32.new P 2 g := by
  have key : ∀ d, FastGraph32.new P (d + 2) g ≠ .error .outOfFuel := by
    intro d h
    rcases new32_cases h64 d g with ⟨b, hb⟩ | hb <;> rw [h] at hb <;> cases hb
  refine ⟨key depth, ?_⟩
  by_cases hf : Fits P g
  · rw [new32_ok h64 depth hf, new32_ok h64 0 hf]
  · rcases new32_cases h64 depth g with ⟨b, hb⟩ | hb
    · exact absurd (new32_fits hb) hf
    · rcases new32_cases h64 0 g with ⟨b', hb'⟩ | hb'
      · exact absurd (new32_fits (fuel := 0) hb') hf
      · rw [hb, hb']

/-- **C30, refuted for every client** On a 32-bit platform the conversion of a prepared graph runs for ever as soon as
the graph has an edge lighter than `usize::MAX`: no recursion depth is enough. (`hv`: the numbers of the graph are
machine words.) -/
theorem C30_never_terminates_32 {P : Plat} (hP : P.checked = true) (h32 : P.umax = U32_MAX) {ops : List Op}
    {ig : InputGraph} {fg : FastGraph} (hc : Client P ops ig fg) (hv : ∀ v ∈ fg.values, v ≤ P.umax) {e : Edge}
    (he : e ∈ ig.edges) (hw : e.weight < P.umax) (depth : Nat) : FastGraph32.new P depth fg = .error .outOfFuel := by
  have hf := (hc.inv hP).frozenOk hc.frozen
  have hr := hf.lt e he
  exact new32_loops h32 ((hc.good hP).mark (u := e.src) (v := e.dst) (w := e.weight) he hr.1 hr.2 (hf.ne e he) hw) hv depth

/-- **C30, refuted** One edge is enough. -/
theorem C30_false : ∃ (ops : List Op) (ig : InputGraph) (fg : FastGraph), Client debug32 ops ig fg ∧
    ∀ depth, FastGraph32.new debug32 depth fg = .error .outOfFuel := by
  refine ⟨[.addEdge 0 1 5, .freeze], ⟨[⟨0, 1, 5⟩], 2, true⟩, _, ⟨rfl, rfl, .order binaryHeap [0, 1] (by decide) rfl⟩, ?_⟩
  exact C30_never_terminates_32 (ops := [.addEdge 0 1 5, .freeze]) (ig := ⟨[⟨0, 1, 5⟩], 2, true⟩) (e := ⟨0, 1, 5⟩) rfl rfl
    ⟨rfl, rfl, .order binaryHeap [0, 1] (by decide) rfl⟩ (by decide) (by simp) (by decide)

/-! ### C27, C29 -/

/-- **C27, refuted** A graph holding the number `u32::MAX` fits but does not come back. -/
theorem C27_false : ∃ (g : FastGraph) (g32 : FastGraph32) (g' : FastGraph), (∀ v ∈ g.values, v < 2 ^ 32 ∨ v = debug64.umax) ∧
    FastGraph32.new debug64 2 g = .ok g32 ∧ g32.convertToUsize debug64 = .ok g' ∧ g' ≠ g :=
  ⟨⟨2, [0, 1], [⟨0, 1, 4294967295, Ex.inv, Ex.inv⟩], [0, 1, 1], [], [0, 0, 0]⟩, _, _, by decide, rfl, rfl, by decide⟩

/-- **C27, what holds** The round trip is the identity if every number is below `u32::MAX` or is `usize::MAX`.
(Missing for C27: graphs holding the number `u32::MAX` itself, see `C27_false`.) -/
theorem C27_round_trip_partial {P : Plat} (h64 : U32_MAX < P.umax) {g : FastGraph}
    (hv : ∀ v ∈ g.values, v < U32_MAX ∨ v = P.umax) (hn : g.numNodes < U32_MAX) :
    ∃ g32, FastGraph32.new P 2 g = .ok g32 ∧ g32.convertToUsize P = .ok g := by
  have hf : FitsStrictly P g := ⟨hv, hn⟩
  refine ⟨_, new32_ok h64 0 hf.fits, ?_⟩
  rw [convert_ok (Nat.le_of_lt h64) h64 hf, moveGraph_self rfl]

example : ∃ g32, FastGraph32.new debug64 2 Ex.fgo = .ok g32 ∧ g32.convertToUsize debug64 = .ok Ex.fgo :=
  C27_round_trip_partial (by decide) (by decide) (by decide)

/-- **C27, exactly** On platforms with more than 32 bits a graph that can be converted comes back, and it comes back unchanged
exactly if `u32::MAX` is none of its numbers (it may be the node count, which must not be `usize::MAX`). -/
theorem C27_round_trip_exactly_partial {P : Plat} (h64 : U32_MAX < P.umax) {g : FastGraph} {g32 : FastGraph32}
    (h : FastGraph32.new P 2 g = .ok g32) :
    ∃ g', g32.convertToUsize P = .ok g' ∧ (g' = g ↔ g.numNodes ≠ P.umax ∧ ∀ v ∈ g.values.tail, v ≠ U32_MAX) := by
  have hf := new32_fits (fuel := 0) h
  rw [new32_ok h64 0 hf] at h
  cases h
  exact ⟨_, convert_round h64 hf, roundGraph_eq h64⟩

example : ∃ g32, FastGraph32.new debug64 2 Ex.fgo = .ok g32 ∧
    ∃ g', g32.convertToUsize debug64 = .ok g' ∧ (g' = Ex.fgo ↔ Ex.fgo.numNodes ≠ debug64.umax ∧ ∀ v ∈ Ex.fgo.values.tail, v ≠ U32_MAX) :=
  ⟨_, rfl, C27_round_trip_exactly_partial (by decide) rfl⟩
/-- The node count may be `u32::MAX`. -/
example : ∃ g32, FastGraph32.new debug64 2 ⟨4294967295, [], [], [], [], []⟩ = .ok g32 ∧
    ∃ g', g32.convertToUsize debug64 = .ok g' ∧ g' = ⟨4294967295, [], [], [], [], []⟩ := by
  have h : FastGraph32.new debug64 2 ⟨4294967295, [], [], [], [], []⟩ = .ok ⟨4294967295, [], [], [], [], []⟩ := rfl
  obtain ⟨g', h1, h2⟩ := C27_round_trip_exactly_partial (P := debug64) (by decide) h
  exact ⟨_, h, g', h1, h2.2 ⟨by decide, by decide⟩⟩

/-- **C29, refuted** For a client whose graph has one edge of weight `u32::MAX` every number fits, but the path found before
the round trip is not found any more. -/
theorem C29_false : ∃ (ops : List Op) (ig : InputGraph) (fg : FastGraph) (g32 : FastGraph32) (fg' : FastGraph) (p : ShortestPath),
    Client debug64 ops ig fg ∧ (∀ v ∈ fg.values, v ≤ U32_MAX ∨ v = debug64.umax) ∧ FastGraph32.new debug64 2 fg = .ok g32 ∧
    g32.convertToUsize debug64 = .ok fg' ∧ calcPath debug64 binaryHeap fg 0 1 = .ok (some p) ∧
    calcPath debug64 binaryHeap fg' 0 1 = .ok none :=
  ⟨[.addEdge 0 1 4294967295, .freeze], _, _, _, _, _, ⟨rfl, rfl, .order binaryHeap [0, 1] (by decide) rfl⟩, by decide, rfl, rfl,
    rfl, rfl⟩

/-- **C29, what holds** For a client's graph with fewer than `u32::MAX` nodes and edges and weights (of edges and
shortcuts) below `u32::MAX`, the conversion succeeds and every query on the round-tripped graph gives the same result,
panics included. (Missing for C29: weights equal to `u32::MAX`, see `C29_false`.) -/
theorem C29_same_answers_partial {P : Plat} (hP : P.checked = true) (h64 : U32_MAX < P.umax) {ops : List Op}
    {ig : InputGraph} {fg : FastGraph} (hc : Client P ops ig fg) (hs : Small fg) :
    ∃ g32 fg', FastGraph32.new P 2 fg = .ok g32 ∧ g32.convertToUsize P = .ok fg' ∧
      ∀ (pq : PQ) (c : PathCalculator pq) (S T : List (Nat × Nat)), c.calcPathMulti P fg' S T = c.calcPathMulti P fg S T := by
  have hf := (hc.good hP).fitsStrictly hs
  obtain ⟨g32, h1, h2⟩ := C27_round_trip_partial h64 hf.vals hf.num
  exact ⟨g32, fg, h1, h2, fun _ _ _ _ => rfl⟩

/-- **C29, refuted for release builds** There the changed weight can be added to and wraps: a path of weight 4294967300 is
reported with weight 4 after the round trip. -/
theorem C29_false_release : ∃ (ops : List Op) (ig : InputGraph) (fg : FastGraph) (g32 : FastGraph32) (fg' : FastGraph),
    Client release64 ops ig fg ∧ (∀ v ∈ fg.values, v ≤ U32_MAX ∨ v = release64.umax) ∧
    FastGraph32.new release64 2 fg = .ok g32 ∧ g32.convertToUsize release64 = .ok fg' ∧
    calcPath release64 binaryHeap fg 0 2 = .ok (some ⟨0, 2, 4294967300, [0, 1, 2]⟩) ∧
    calcPath release64 binaryHeap fg' 0 2 = .ok (some ⟨0, 2, 4, [0, 1, 2]⟩) :=
  ⟨[.addEdge 0 1 5, .addEdge 1 2 4294967295, .freeze], _, _, _, _,
    ⟨rfl, rfl, .order binaryHeap [0, 1, 2] (by decide) rfl⟩, by decide, rfl, rfl, rfl, rfl⟩

/-- **C29, refuted once more for debug builds** The same query panics after the round trip. -/
theorem C29_false_panic : ∃ (ops : List Op) (ig : InputGraph) (fg : FastGraph) (g32 : FastGraph32) (fg' : FastGraph),
    Client debug64 ops ig fg ∧ (∀ v ∈ fg.values, v ≤ U32_MAX ∨ v = debug64.umax) ∧
    FastGraph32.new debug64 2 fg = .ok g32 ∧ g32.convertToUsize debug64 = .ok fg' ∧
    calcPath debug64 binaryHeap fg 0 2 = .ok (some ⟨0, 2, 4294967300, [0, 1, 2]⟩) ∧
    calcPath debug64 binaryHeap fg' 0 2 = .error .overflow :=
  ⟨[.addEdge 0 1 5, .addEdge 1 2 4294967295, .freeze], _, _, _, _,
    ⟨rfl, rfl, .order binaryHeap [0, 1, 2] (by decide) rfl⟩, by decide, rfl, rfl, rfl, rfl⟩

/-- **C29, exactly** A client's graph with fewer than `u32::MAX` edges in each direction whose conversion succeeds comes back
unchanged, so that all queries give the same results, exactly if no edge or shortcut has weight `u32::MAX`. -/
theorem C29_exactly_partial {P : Plat} (hP : P.checked = true) (h64 : U32_MAX < P.umax) {ops : List Op} {ig : InputGraph}
    {fg : FastGraph} (hc : Client P ops ig fg) {g32 : FastGraph32} (h : FastGraph32.new P 2 fg = .ok g32)
    (ho : fg.edgesFwd.length < U32_MAX) (hi : fg.edgesBwd.length < U32_MAX) :
    g32.convertToUsize P = .ok fg ↔ ∀ e ∈ fg.edgesFwd ++ fg.edgesBwd, e.weight ≠ U32_MAX := by
  obtain ⟨g', h1, h2⟩ := C27_round_trip_exactly_partial h64 h
  have hg := hc.good hP
  have hn := hg.n_lt
  rw [← hg.num] at hn
  rw [← hg.only_weights h64 (new32_fits (fuel := 0) h) ho hi, h1]
  constructor
  · intro e
    injection e with e
    exact (h2.1 e).2
  · intro hw
    rw [h2.2 ⟨by omega, hw⟩]

example : ∃ g32, FastGraph32.new debug64 2 Ex.fg = .ok g32 ∧ (g32.convertToUsize debug64 = .ok Ex.fg ↔
    ∀ e ∈ Ex.fg.edgesFwd ++ Ex.fg.edgesBwd, e.weight ≠ U32_MAX) :=
  ⟨_, rfl, C29_exactly_partial rfl (by decide) exampleClient rfl (by decide) (by decide)⟩

theorem example_small : Small Ex.fg := ⟨by decide, by decide, by decide, by decide, by decide⟩
example : ∃ g32 fg', FastGraph32.new debug64 2 Ex.fg = .ok g32 ∧ g32.convertToUsize debug64 = .ok fg' ∧
    calcPath debug64 binaryHeap fg' 0 4 = .ok (some Ex.path) := by
  obtain ⟨g32, fg', h1, h2, h3⟩ := C29_same_answers_partial rfl (by decide) exampleClient example_small
  refine ⟨g32, fg', h1, h2, ?_⟩
  rw [calcPath_eq_multi]
  unfold FP.calcPathMulti
  rw [h3, show fg'.getNumNodes = Ex.fg.getNumNodes by
    have h4 : FastGraph32.new debug64 2 Ex.fg = .ok g32 := h1
    injection h1 with h1; subst h1; injection h2 with h2; subst h2; rfl]
  rfl

/-! ### C49 -/

/-- **C49** A graph prepared on a platform with more than 32 bits, written in the 32-bit representation and read on a
smaller platform (at least 32 bits) answers queries there correctly: minimal weight in the graph the client described,
a path of the frozen graph, and `None` exactly when there is no walk lighter than that platform's `usize::MAX`. -/
theorem C49_read_on_smaller_platform {P P' : Plat} (hP : P.checked = true) (hP' : P'.checked = true)
    (h64 : U32_MAX < P.umax) (h32 : U32_MAX ≤ P'.umax) (hle : P'.umax ≤ P.umax) {ops : List Op} {ig : InputGraph}
    {fg : FastGraph} (hc : Client P ops ig fg) (hs : Small fg) :
    ∃ g32 fg', FastGraph32.new P 2 fg = .ok g32 ∧ g32.convertToUsize P' = .ok fg' ∧
      ∀ (pq : PQ) (s t : Nat) (r : Option ShortestPath), calcPath P' pq fg' s t = .ok r →
        (r = none ↔ ¬ ∃ w < P'.umax, HasWalk (edgesOf (accepted ops)) s t w) ∧
        ∀ p, r = some p → IsDist (edgesOf (accepted ops)) s t p.weight ∧ p.nodes.head? = some s ∧
          p.nodes.getLast? = some t ∧ IsWalk (edgesOf ig.edges) p.nodes p.weight := by
  have hg := hc.good hP
  have hf := hg.fitsStrictly hs
  refine ⟨_, _, new32_ok h64 0 hf.fits, convert_ok h32 h64 hf, ?_⟩
  intro pq s t r hq
  obtain ⟨_, ha⟩ := query_good hP' (hg.move h64 h32 hle hs) hq
  have ha' := (hc.inv hP).answer ha
  constructor
  · rw [ha'.found_iff]
    constructor
    · rintro h ⟨w, hw, hk⟩
      have := h w (hasRoute_single.2 hk)
      omega
    · intro h total ht
      by_contra hlt
      exact h ⟨total, by omega, hasRoute_single.1 ht⟩
  · rintro p rfl
    obtain ⟨_, _, _, h4, h5, h6, _⟩ := ha.single.2 p rfl
    exact ⟨(ha'.single.2 p rfl).2.2.2.2.2.2, h5, h6, h4⟩

example : ∃ g32 fg', FastGraph32.new debug64 2 Ex.fg = .ok g32 ∧ g32.convertToUsize debug32 = .ok fg' ∧ fg' ≠ Ex.fg ∧
    calcPath debug32 binaryHeap fg' 0 4 = .ok (some Ex.path) := ⟨_, _, rfl, rfl, by decide, rfl⟩
example : Small Ex.fg ∧ U32_MAX < debug64.umax ∧ U32_MAX ≤ debug32.umax ∧ debug32.umax ≤ debug64.umax :=
  ⟨example_small, by decide, by decide, by decide⟩

end Props
end FP
