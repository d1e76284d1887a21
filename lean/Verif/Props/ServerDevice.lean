import Verif.Props.Disk
import Verif.Props.EndToEnd
import Verif.Props.Release
import Verif.Props.Simple
import Verif.Props.Sizes
/-!
# From the server to the device

A graph is built and prepared with the default parameters on a platform with 64 bits, saved in 32 bits, loaded on a platform with 32 to
64 bits and queried there. Builds with and without overflow checks on either side.
-/
set_option autoImplicit false
namespace FP
namespace Props
open Spec

/-- An answer is correct if all simple paths are lighter than `usize::MAX`. -/
theorem answer_correct {P : Plat} {ops : List Op} {ig : InputGraph} {fg : FastGraph} (hP : P.checked = true) (hc : Client P ops ig fg)
    {P' : Plat} {W : Nat} (hW : ∀ e ∈ accepted ops, e.weight ≤ W) (hlt : (ig.numNodes - 1) * W < P'.umax) {s t : Nat}
    (hs : s < ig.numNodes) {r : Option ShortestPath} (ha : Answer P' (edgesOf ig.edges) [(s, 0)] [(t, 0)] r) :
    Correct (edgesOf (accepted ops)) s t r := by
  have hi := hc.inv hP
  have hF := hi.frozenOk hc.frozen
  obtain ⟨h1, h2⟩ := (hi.answer ha).single
  constructor
  · constructor
    · rintro rfl ⟨w, hw⟩
      obtain ⟨w', hw', hk⟩ := hi.walk_le (hasWalk_iff.1 hw)
      obtain ⟨w'', hle, hk''⟩ := hasWalk_bound (W := W) (fun u v w he => hi.pos _ he) (fun u v w he => hF.lt _ he)
        (fun u v w he => weights_le hP hc.built hW _ he) hs (hasWalk_iff.2 hk)
      have h3 : HasWalk (edgesOf (accepted ops)) s t w'' := by
        obtain ⟨L, hL, k1, k2⟩ := hk''
        exact ⟨L, hL.mono (fun _ _ _ he => hi.sub _ he), k1, k2⟩
      have h4 : P'.umax ≤ w'' := h1 rfl w'' h3
      omega
    · intro hno
      cases r with
      | none => rfl
      | some p =>
        obtain ⟨_, _, _, h4, h5, h6, _⟩ := h2 p rfl
        exact absurd ⟨p.weight, p.nodes, h4, h5, h6⟩ hno
  · intro p hp
    obtain ⟨_, h2, h3, h4, h5, h6, h7⟩ := h2 p hp
    exact ⟨h2, h3, h5, h6, h4, h7.2⟩

/-- **C122** For fewer than 500 nodes and weights of at most `W` with `2 * n * (n - 1) * W < 2 ^ 32`: preparing with the defaults
returns, saving in 32 bits succeeds, loading on the device succeeds whatever follows in the file, and there every query, on a calculator
with any history, returns a correct answer. -/
theorem C122_server_to_device {P P' : Plat} (h64 : U32_MAX < P.umax) (h32 : U32_MAX ≤ P'.umax) (h64' : P'.umax < 2 ^ 64)
    (hle : P'.umax ≤ P.umax) {ops : List Op} {ig : InputGraph} (hb : buildGraph P.debug ops = .ok ig) (hf : ig.frozen = true)
    {W : Nat} (hW : ∀ e ∈ accepted ops, e.weight ≤ W) (hn : ig.numNodes < 500)
    (hfit : 2 * (ig.numNodes * ((ig.numNodes - 1) * W)) < 2 ^ 32) (pq : PQ) (nq : NodeQueue) (relevance : Nat → Int → Nat → Nat) :
    ∃ fg file fg', prepare P pq nq relevance ig = .ok fg ∧ saveToDisk32 P 2 fg = .ok file ∧
      (∀ rest, loadFromDisk32 P' (file ++ rest) = .ok (.ok fg')) ∧
      ∀ (pq' : PQ) (history : List Request) (c : PathCalculator pq'),
        runRequests P' (PathCalculator.new P' pq' ig.numNodes) history = .ok c → ∀ s < ig.numNodes, ∀ t < ig.numNodes,
          ∃ c' r, c.calcPath P' fg' s t = .ok (c', r) ∧ Correct (edgesOf (accepted ops)) s t r := by
  have hu : U32_MAX = 2 ^ 32 - 1 := rfl
  have hA : 4 * ((ig.numNodes - 1) * W) < 2 ^ 32 := by
    by_cases h2 : 2 ≤ ig.numNodes
    · have := Nat.mul_le_mul_right ((ig.numNodes - 1) * W) h2
      omega
    · rw [show ig.numNodes - 1 = 0 by omega]
      omega
  obtain ⟨fg, e⟩ := C64_prepare (P := P.debug) hb hf hW (show _ ≤ P.umax by omega) (show _ ≤ P.umax by omega) hn pq nq relevance
  have hw : PreparedWide P.debug ig fg := .default pq nq relevance hn e
  have hc : Client P.debug ops ig fg := ⟨hb, hf, hw.prepared⟩
  have hg := hc.good rfl
  have h3 := C64_stored_weights (P := P.debug) rfl hb hf hw hW
  obtain ⟨h1, h2⟩ := C63_number_of_edges (P := P.debug) rfl hc
  have hpairs : ig.numNodes * (ig.numNodes - 1) ≤ 499 * 499 := Nat.mul_le_mul (by omega) (by omega)
  have ho1 : fg.getNumOutEdges = fg.edgesFwd.length := rfl
  have ho2 : fg.getNumInEdges = fg.edgesBwd.length := rfl
  have hsm : Small fg := by
    refine ⟨?_, ?_, ?_, ?_, ?_⟩
    · rw [hg.num]; omega
    · omega
    · omega
    · intro x hx
      have := h3 x (List.mem_append_left _ hx)
      omega
    · intro x hx
      have := h3 x (List.mem_append_right _ hx)
      omega
  have hst' := hg.fitsStrictly hsm
  have hst : FitsStrictly P fg := ⟨hst'.vals, hst'.num⟩
  have hl : LenFit P' fg := ⟨by rw [hg.lenR]; omega, by omega, by rw [hg.firstF.len]; omega, by omega, by rw [hg.firstB.len]; omega⟩
  have hfit32 : Fit32 P' (toU32Graph P fg) := toU32Graph_fit hst.fits hl
  have hm : FGood P'.debug (edgesOf ig.edges) ig.numNodes (moveGraph P P' fg) :=
    FGood.move (P := P.debug) (P' := P'.debug) h64 h32 hle hg hsm
  refine ⟨fg, encGraph32 (toU32Graph P fg), moveGraph P P' fg, ?_, ?_, ?_, ?_⟩
  · exact (C32_prepare_with_params hb hf pq nq (Params.default relevance) (by
      rw [show prepareWithParams P.debug pq nq ig (Params.default relevance) = .ok fg from e]; simp)).trans e
  · unfold saveToDisk32
    rw [new32_ok h64 0 hst.fits]
    rfl
  · intro rest
    unfold loadFromDisk32
    rw [(codecGraph32 h64').rt _ hfit32 rest]
    simp only [convert_ok h32 h64 hst, bind_okM]
  · intro pq' history c hh s hs t ht
    have hwt : ∀ x ∈ fg.edgesFwd ++ fg.edgesBwd, (moveEdge P P' x).weight ≤ (ig.numNodes - 1) * W := by
      intro x hx
      have := h3 x hx
      have hx' : x.weight ≠ P.umax := by omega
      simp only [moveEdge, moveV, hx', if_false]
      exact this
    obtain ⟨⟨c', r⟩, e', _, ha⟩ := calcPathMulti_total_stored (P := P'.debug) (ws := 0) (wt := 0) (A := (ig.numNodes - 1) * W) rfl hm
      (by
        intro ed hed
        obtain ⟨x, hx, rfl⟩ := List.mem_map.1 hed
        exact hwt x (List.mem_append_left _ hx))
      (by
        intro ed hed
        obtain ⟨x, hx, rfl⟩ := List.mem_map.1 hed
        exact hwt x (List.mem_append_right _ hx))
      (runRequests_base (CalcOk.new P' pq' ig.numNodes) hh) (starts := [(s, 0)]) (ends := [(t, 0)]) (by simp) (by simp)
      (by intro x hx; simp at hx; subst hx; exact ⟨hs, fun _ => Nat.le_refl _⟩)
      (by intro x hx; simp at hx; subst hx; exact ⟨ht, fun _ => Nat.le_refl _⟩)
      (show _ ≤ P'.umax by omega)
    refine ⟨c', r, (C32_query P' pq' c _ _ _ (by rw [e']; simp)).trans e', ?_⟩
    exact answer_correct (P := P.debug) rfl hc (P' := P'.debug) hW (show _ < P'.umax by omega) hs ha

/-- a concrete case: prepared by a release build with 64 bits, queried by a debug build with 32 bits -/
example : ∃ fg file fg', prepare release64 binaryHeap listQueue Ex.rel Ex.ig = .ok fg ∧ saveToDisk32 release64 2 fg = .ok file ∧
    loadFromDisk32 debug32 file = .ok (.ok fg') ∧
    ∃ c' r, (PathCalculator.new debug32 binaryHeap 5).calcPath debug32 fg' 0 4 = .ok (c', r) ∧
      Correct (edgesOf (accepted Ex.ops)) 0 4 r := by
  obtain ⟨fg, file, fg', h1, h2, h3, h4⟩ := C122_server_to_device (P := release64) (P' := debug32) (W := 9) (by decide) (by decide)
    (by decide) (by decide) Ex.built rfl (by decide) (by decide) (by decide) binaryHeap listQueue Ex.rel
  refine ⟨fg, file, fg', h1, h2, ?_, h4 binaryHeap [] _ rfl 0 (by decide) 4 (by decide)⟩
  have := h3 []
  rwa [List.append_nil] at this

/-- **C122** The same for a graph prepared by any of the four functions with a budget above the number of nodes, on a release or a debug
build, and for queries with several sources and targets of weights at most `A` and `B`. -/
theorem C122_any_preparation {P P' : Plat} (h64 : U32_MAX < P.umax) (h32 : U32_MAX ≤ P'.umax) (h64' : P'.umax < 2 ^ 64)
    (hle : P'.umax ≤ P.umax) {ops : List Op} {ig : InputGraph} {fg : FastGraph} (hb : buildGraph P ops = .ok ig) (hf : ig.frozen = true)
    (hw : PreparedWide P ig fg) {W A B : Nat} (hW : ∀ e ∈ accepted ops, e.weight ≤ W) (hn : ig.numNodes * ig.numNodes < 2 ^ 32 - 1)
    (hfit : A + B + 2 * (ig.numNodes * ((ig.numNodes - 1) * W)) < 2 ^ 32 - 1) :
    ∃ file fg', saveToDisk32 P 2 fg = .ok file ∧ (∀ rest, loadFromDisk32 P' (file ++ rest) = .ok (.ok fg')) ∧
      ∀ (pq' : PQ) (history : List Request) (c : PathCalculator pq'),
        runRequests P' (PathCalculator.new P' pq' ig.numNodes) history = .ok c → ∀ S T : List (Nat × Nat), S ≠ [] → T ≠ [] →
          (∀ x ∈ S, x.1 < ig.numNodes ∧ x.2 ≤ A) → (∀ x ∈ T, x.1 < ig.numNodes ∧ x.2 ≤ B) →
          ∃ c' r, c.calcPathMulti P' fg' S T = .ok (c', r) ∧
            (r = none ↔ ∀ w, ¬ HasRoute (edgesOf (accepted ops)) S T w) ∧
            ∀ p, r = some p → (∃ ws wt w, (p.source, ws) ∈ S ∧ (p.target, wt) ∈ T ∧ IsWalk (edgesOf (accepted ops)) p.nodes w ∧
                p.nodes.head? = some p.source ∧ p.nodes.getLast? = some p.target ∧ p.weight = ws + w + wt) ∧
              ∀ w, HasRoute (edgesOf (accepted ops)) S T w → p.weight ≤ w := by
  have hu : U32_MAX = 2 ^ 32 - 1 := rfl
  have hA : 4 * ((ig.numNodes - 1) * W) ≤ 2 ^ 32 - 1 := by
    by_cases h2 : 2 ≤ ig.numNodes
    · have := Nat.mul_le_mul_right ((ig.numNodes - 1) * W) h2
      omega
    · rw [show ig.numNodes - 1 = 0 by omega]
      omega
  have hnn : ig.numNodes ≤ ig.numNodes * ig.numNodes := Nat.le_mul_self _
  have hnm : ig.numNodes * (ig.numNodes - 1) ≤ ig.numNodes * ig.numNodes := Nat.mul_le_mul_left _ (by omega)
  obtain ⟨hc, hw'⟩ := C94_client_wide hb hf hw hW (by omega) (by omega)
  have hg := hc.good rfl
  have h3 := C64_stored_weights (P := P.debug) rfl hc.built hf hw' hW
  obtain ⟨h1, h2⟩ := C63_number_of_edges (P := P.debug) rfl hc
  have ho1 : fg.getNumOutEdges = fg.edgesFwd.length := rfl
  have ho2 : fg.getNumInEdges = fg.edgesBwd.length := rfl
  have hsm : Small fg := by
    refine ⟨?_, ?_, ?_, ?_, ?_⟩
    · rw [hg.num]; omega
    · omega
    · omega
    · intro x hx
      have := h3 x (List.mem_append_left _ hx)
      omega
    · intro x hx
      have := h3 x (List.mem_append_right _ hx)
      omega
  have hst' := hg.fitsStrictly hsm
  have hst : FitsStrictly P fg := ⟨hst'.vals, hst'.num⟩
  have hl : LenFit P' fg := ⟨by rw [hg.lenR]; omega, by omega, by rw [hg.firstF.len]; omega, by omega, by rw [hg.firstB.len]; omega⟩
  have hfit32 : Fit32 P' (toU32Graph P fg) := toU32Graph_fit hst.fits hl
  have hm : FGood P'.debug (edgesOf ig.edges) ig.numNodes (moveGraph P P' fg) :=
    FGood.move (P := P.debug) (P' := P'.debug) h64 h32 hle hg hsm
  refine ⟨encGraph32 (toU32Graph P fg), moveGraph P P' fg, ?_, ?_, ?_⟩
  · unfold saveToDisk32
    rw [new32_ok h64 0 hst.fits]
    rfl
  · intro rest
    unfold loadFromDisk32
    rw [(codecGraph32 h64').rt _ hfit32 rest]
    simp only [convert_ok h32 h64 hst, bind_okM]
  · intro pq' history c hh S T hS hT hSn hTn
    have hwt : ∀ x ∈ fg.edgesFwd ++ fg.edgesBwd, (moveEdge P P' x).weight ≤ (ig.numNodes - 1) * W := by
      intro x hx
      have := h3 x hx
      have hx' : x.weight ≠ P.umax := by omega
      simp only [moveEdge, moveV, hx', if_false]
      exact this
    obtain ⟨⟨c', r⟩, e', _, ha⟩ := calcPathMulti_total_stored (P := P'.debug) (ws := A) (wt := B) (A := (ig.numNodes - 1) * W) rfl hm
      (by
        intro ed hed
        obtain ⟨x, hx, rfl⟩ := List.mem_map.1 hed
        exact hwt x (List.mem_append_left _ hx))
      (by
        intro ed hed
        obtain ⟨x, hx, rfl⟩ := List.mem_map.1 hed
        exact hwt x (List.mem_append_right _ hx))
      (runRequests_base (CalcOk.new P' pq' ig.numNodes) hh) hS hT (fun x hx => ⟨(hSn x hx).1, fun _ => (hSn x hx).2⟩)
      (fun x hx => ⟨(hTn x hx).1, fun _ => (hTn x hx).2⟩) (show _ ≤ P'.umax by omega)
    refine ⟨c', r, (C32_query P' pq' c _ _ _ (by rw [e']; simp)).trans e', ?_⟩
    have hi := hc.inv rfl
    have hF := hi.frozenOk hc.frozen
    have ha' := hi.answer ha
    cases r with
    | none =>
      refine ⟨⟨fun _ w hw => ?_, fun _ => rfl⟩, fun p hp => (nomatch hp)⟩
      obtain ⟨s, ws, t, wt, w₀, k1, k2, k3, rfl⟩ := hw
      obtain ⟨w', hw', hk⟩ := hi.walk_le (hasWalk_iff.1 k3)
      obtain ⟨w'', hle', hk''⟩ := hasWalk_bound (W := W) (fun u v w he => hi.pos _ he) (fun u v w he => hF.lt _ he)
        (fun u v w he => weights_le rfl hc.built hW _ he) (hSn _ k1).1 (hasWalk_iff.2 hk)
      have h5 : P'.umax ≤ ws + w'' + wt := ha' _ ⟨s, ws, t, wt, w'', k1, k2, by
        obtain ⟨L, hL, k1, k2⟩ := hk''
        exact ⟨L, hL.mono (fun _ _ _ he => hi.sub _ he), k1, k2⟩, rfl⟩
      have h6 := (hSn _ k1).2
      have h7 := (hTn _ k2).2
      simp only at h6 h7
      have h8 := Nat.le_mul_of_pos_left ((ig.numNodes - 1) * W) (Nat.lt_of_le_of_lt (Nat.zero_le _) (hSn _ k1).1)
      omega
    | some p =>
      obtain ⟨_, ⟨ws, wt, w, k1, k2, k3, k4, k5, k6⟩, k7⟩ := ha'
      refine ⟨⟨fun h => (nomatch h), fun h => ?_⟩, ?_⟩
      · exact absurd ⟨_, ws, _, wt, w, k1, k2, ⟨p.nodes, k3, k4, k5⟩, rfl⟩ (h _)
      · rintro _ ⟨⟩
        exact ⟨⟨ws, wt, w, k1, k2, k3, k4, k5, k6⟩, k7⟩

/-- a concrete case: prepared with a given order, two sources and two targets -/
example : ∃ file fg', saveToDisk32 debug64 2 Ex.fgo = .ok file ∧ loadFromDisk32 debug32 file = .ok (.ok fg') ∧
    ∃ c' r, (PathCalculator.new debug32 binaryHeap 5).calcPathMulti debug32 fg' [(0, 2), (4, 1)] [(2, 0), (3, 7)] = .ok (c', r) ∧
      (r = none ↔ ∀ w, ¬ HasRoute (edgesOf (accepted Ex.ops)) [(0, 2), (4, 1)] [(2, 0), (3, 7)] w) := by
  obtain ⟨file, fg', h1, h2, h3⟩ := C122_any_preparation (P := debug64) (P' := debug32) (W := 9) (A := 2) (B := 7) (by decide)
    (by decide) (by decide) (by decide) Ex.built rfl exampleWide' (by decide) (by decide) (by decide)
  obtain ⟨c', r, h4, h5, _⟩ := h3 binaryHeap [] _ rfl [(0, 2), (4, 1)] [(2, 0), (3, 7)] (by simp) (by simp) (by decide) (by decide)
  refine ⟨file, fg', h1, ?_, c', r, h4, h5⟩
  have := h2 []
  rwa [List.append_nil] at this

end Props
end FP
