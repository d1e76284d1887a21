import Verif.Proofs.Api
import Verif.Props.Example
/-!
# The input graph

Statements about sequences of `add_edge`, `add_edge_bidir`, `freeze` and `thaw`. They hold in every build; without
overflow checks under the hypothesis that no node id is `usize::MAX` (`NoWrap`), and `C22_wraps_without_checks` shows that
this is needed.
-/
set_option autoImplicit false
namespace FP
namespace Props
open Spec InputGraph

/-- **C19** The edges of a frozen graph are strictly sorted and consist of the lightest accepted edge of every pair. -/
theorem C19_freeze_canonicalises {P : Plat} {ops : List Op} (hw : P.checked = true ∨ nodeCount (accepted ops) ≤ P.umax)
    {ig : InputGraph} (hb : buildGraph P ops = .ok ig) {es : List Edge} (he : ig.getEdges = .ok es) :
    StrictlySorted es ∧ ∀ u v w, (⟨u, v, w⟩ : Edge) ∈ es ↔ IsMinEdge (accepted ops) u v w := by
  obtain ⟨_, h1, h2⟩ := bind_eq_ok.1 he
  injection h2 with h2
  subst h2
  have hf : ig.frozen = true := assertM_eq_ok.1 h1
  have hi := buildGraph_inv hw hb
  exact ⟨hi.sorted hf, hi.mem_iff hf⟩

example : StrictlySorted Ex.ig.edges := (C19_freeze_canonicalises (Or.inl rfl) Ex.built rfl).1
example : IsMinEdge (accepted Ex.ops) 0 1 3 :=
  ((C19_freeze_canonicalises (Or.inl rfl) Ex.built rfl).2 0 1 3).1 (by decide)

/-- **C20** Frozen graphs with the same lightest edges are identical, and so are the graphs prepared from them. -/
theorem C20_same_minima_same_graph {P : Plat} {ops₁ ops₂ : List Op}
    (hw₁ : P.checked = true ∨ nodeCount (accepted ops₁) ≤ P.umax)
    (hw₂ : P.checked = true ∨ nodeCount (accepted ops₂) ≤ P.umax) {ig₁ ig₂ : InputGraph}
    (hb₁ : buildGraph P ops₁ = .ok ig₁) (hb₂ : buildGraph P ops₂ = .ok ig₂) (hf₁ : ig₁.frozen = true)
    (hf₂ : ig₂.frozen = true)
    (hsame : ∀ u v w, IsMinEdge (accepted ops₁) u v w ↔ IsMinEdge (accepted ops₂) u v w) :
    ig₁ = ig₂ ∧ ∀ pq nq params, prepareWithParams P pq nq ig₁ params = prepareWithParams P pq nq ig₂ params := by
  have := (buildGraph_inv hw₁ hb₁).ext (buildGraph_inv hw₂ hb₂) hf₁ hf₂ hsame
  subst this
  exact ⟨rfl, fun _ _ _ => rfl⟩

/-- **C20** The order of insertion is irrelevant. -/
theorem C20_insertion_order {P : Plat} {ops₁ ops₂ : List Op}
    (hw : P.checked = true ∨ nodeCount (accepted ops₁) ≤ P.umax) {ig₁ ig₂ : InputGraph}
    (hb₁ : buildGraph P ops₁ = .ok ig₁) (hb₂ : buildGraph P ops₂ = .ok ig₂) (hf₁ : ig₁.frozen = true)
    (hf₂ : ig₂.frozen = true) (hperm : (accepted ops₁).Perm (accepted ops₂)) : ig₁ = ig₂ := by
  have hn : nodeCount (accepted ops₂) ≤ nodeCount (accepted ops₁) :=
    nodeCount_le (fun e he => nodeCount_gt e (hperm.mem_iff.2 he))
  have hw₂ : P.checked = true ∨ nodeCount (accepted ops₂) ≤ P.umax := by
    rcases hw with h | h
    · exact Or.inl h
    · exact Or.inr (by omega)
  refine (C20_same_minima_same_graph hw hw₂ hb₁ hb₂ hf₁ hf₂ ?_).1
  intro u v w
  unfold IsMinEdge
  simp only [hperm.mem_iff]

/-- **C20** A call whose edges are heavier duplicates of edges already added changes nothing. -/
theorem C20_redundant_edge {P : Plat} {ops₁ ops₂ : List Op}
    (hw₁ : P.checked = true ∨ nodeCount (accepted ops₁) ≤ P.umax)
    (hw₂ : P.checked = true ∨ nodeCount (accepted ops₂) ≤ P.umax) {ig₁ ig₂ : InputGraph}
    (hb₁ : buildGraph P ops₁ = .ok ig₁) (hb₂ : buildGraph P ops₂ = .ok ig₂) (hf₁ : ig₁.frozen = true)
    (hf₂ : ig₂.frozen = true) {extra : List Edge} (hperm : (accepted ops₂).Perm (extra ++ accepted ops₁))
    (hred : ∀ e ∈ extra, ∃ w ≤ e.weight, (⟨e.src, e.dst, w⟩ : Edge) ∈ accepted ops₁) : ig₁ = ig₂ := by
  refine (C20_same_minima_same_graph hw₁ hw₂ hb₁ hb₂ hf₁ hf₂ ?_).1
  intro u v w
  unfold IsMinEdge
  simp only [hperm.mem_iff, List.mem_append]
  constructor
  · rintro ⟨h1, h2⟩
    refine ⟨Or.inr h1, ?_⟩
    rintro w' (h | h)
    · obtain ⟨x, hx, hm⟩ := hred _ h
      exact (h2 x hm).trans hx
    · exact h2 w' h
  · rintro ⟨h1, h2⟩
    refine ⟨?_, fun w' h => h2 w' (Or.inr h)⟩
    rcases h1 with h1 | h1
    · obtain ⟨x, hx, hm⟩ := hred _ h1
      have := h2 x (Or.inr hm)
      simp only at hx hm
      have : x = w := by omega
      subst this
      exact hm
    · exact h1

/-- The bidirectional edge added by two calls, everything in reverse order, without the redundant `0 → 1` edge. -/
example : ∃ ig, buildGraph debug64 [.addEdge 4 1 2, .addEdge 3 4 5, .addEdge 3 2 1, .addEdge 2 3 1, .addEdge 0 2 9,
    .addEdge 1 2 4, .freeze, .thaw, .addEdge 0 1 3, .freeze] = .ok ig ∧ ig = Ex.ig := ⟨_, rfl, rfl⟩

/-- **C21** `add_edge` panics with its assertion iff the graph is frozen; for node ids below `usize::MAX` it does not
panic otherwise. -/
theorem C21_add_edge_panics_iff_frozen (P : Plat) (g : InputGraph) (s d w : Nat) :
    (g.addEdge P s d w = .error .assertion ↔ g.frozen = true) ∧
    (g.addEdgeBidir P s d w = .error .assertion ↔ g.frozen = true) ∧
    (s < P.umax → d < P.umax → ((∃ e, g.addEdge P s d w = .error e) ↔ g.frozen = true) ∧
      ((∃ e, g.addEdgeBidir P s d w = .error e) ↔ g.frozen = true)) := by
  have key : ∀ b, (doAddEdge P g s d w b = .error .assertion ↔ g.frozen = true) ∧
      (s < P.umax → d < P.umax → ((∃ e, doAddEdge P g s d w b = .error e) ↔ g.frozen = true)) := by
    intro b
    unfold doAddEdge
    by_cases hf : g.frozen = true
    · rw [if_pos hf]
      exact ⟨by simp [hf], fun _ _ => ⟨fun _ => hf, fun _ => ⟨_, rfl⟩⟩⟩
    · rw [if_neg hf]
      by_cases h1 : (s == d) = true
      · rw [if_pos h1]; simp [hf]
      rw [if_neg h1]
      by_cases h2 : w < 1
      · rw [if_pos h2]; simp [hf]
      rw [if_neg h2]
      constructor
      · unfold addW
        by_cases h3 : max s d + 1 ≤ P.umax
        · rw [if_pos h3]; simp [bind_okM, hf]
        · rw [if_neg h3]
          by_cases h4 : P.checked = true
          · rw [if_pos h4]
            exact ⟨fun h => (by cases h), fun h => absurd h hf⟩
          · rw [if_neg h4]; simp [bind_okM, hf]
      · intro k1 k2
        have : addW P (max s d) 1 = .ok (max s d + 1) := by
          unfold addW; rw [if_pos (by omega)]
        rw [this]
        simp [bind_okM, hf]
  exact ⟨(key false).1, (key true).1, fun h1 h2 => ⟨(key false).2 h1 h2, (key true).2 h1 h2⟩⟩

/-- **C21** `freeze` panics iff the graph is frozen; the accessors panic iff it is not; `thaw` never does (it is a total
function of the model). -/
theorem C21_freeze_and_accessors (g : InputGraph) :
    ((∃ e, g.freeze = .error e) ↔ g.frozen = true) ∧ ((∃ e, g.getEdges = .error e) ↔ g.frozen = false) ∧
    ((∃ e, g.getNumNodes = .error e) ↔ g.frozen = false) ∧ ((∃ e, g.getNumEdges = .error e) ↔ g.frozen = false) ∧
    g.thaw.frozen = false ∧ ∀ g', g.freeze = .ok g' → g'.frozen = true := by
  unfold InputGraph.freeze getEdges getNumNodes getNumEdges checkFrozen assertM
  cases hf : g.frozen
  · refine ⟨by simp, ?_, ?_, ?_, rfl, ?_⟩
    · exact ⟨fun _ => rfl, fun _ => ⟨_, rfl⟩⟩
    · exact ⟨fun _ => rfl, fun _ => ⟨_, rfl⟩⟩
    · exact ⟨fun _ => rfl, fun _ => ⟨_, rfl⟩⟩
    · intro g' h
      simp only [Bool.false_eq_true, if_false] at h
      injection h with h
      subst h
      rfl
  · refine ⟨by simp, ?_, ?_, ?_, rfl, by simp⟩
    · simp [bind_okM]
    · simp [bind_okM]
    · simp [bind_okM]

/-- **C21** Freezing, thawing and freezing again is like freezing once. -/
theorem C21_freeze_thaw_freeze {g g₁ : InputGraph} (h : g.freeze = .ok g₁) : g₁.thaw.freeze = .ok g₁ := by
  unfold InputGraph.freeze at h ⊢
  by_cases hf : g.frozen = true
  · rw [if_pos hf] at h; cases h
  rw [if_neg hf] at h
  injection h with h
  subst h
  rw [if_neg (by simp [InputGraph.thaw])]
  congr 1
  simp only [InputGraph.thaw, InputGraph.mk.injEq, and_true]
  obtain ⟨a1, a2, a3⟩ := canon_spec g.edges
  obtain ⟨b1, b2, b3⟩ := canon_spec (removeDuplicateEdges (sortEdges g.edges))
  refine sorted_ext b1 a1 ?_
  intro e
  refine ⟨b2 e, ?_⟩
  intro he
  obtain ⟨e', he', hs, _⟩ := b3 e he
  have := uniq_of_sorted a1 he (b2 e' he') ⟨hs.1.symm, hs.2.symm⟩
  rw [this]
  exact he'

example : Ex.ig.thaw.freeze = .ok Ex.ig :=
  C21_freeze_thaw_freeze (g := ⟨[⟨3, 2, 1⟩, ⟨0, 1, 3⟩, ⟨0, 1, 8⟩, ⟨0, 2, 9⟩, ⟨4, 1, 2⟩, ⟨1, 2, 4⟩, ⟨2, 3, 1⟩, ⟨3, 4, 5⟩],
    5, false⟩) rfl

/-- **C22** Return value and effect of `add_edge` and `add_edge_bidir` on a graph that is not frozen. -/
theorem C22_add_edge_effect {P : Plat} {g : InputGraph} (hf : g.frozen = false) {s d w : Nat} (hs : s < P.umax)
    (hd : d < P.umax) :
    (s ≠ d ∧ 1 ≤ w →
      g.addEdge P s d w = .ok (⟨g.edges ++ [⟨s, d, w⟩], max g.numNodes (max s d + 1), false⟩, 1) ∧
      g.addEdgeBidir P s d w = .ok (⟨g.edges ++ [⟨s, d, w⟩, ⟨d, s, w⟩], max g.numNodes (max s d + 1), false⟩, 2)) ∧
    (¬ (s ≠ d ∧ 1 ≤ w) → g.addEdge P s d w = .ok (g, 0) ∧ g.addEdgeBidir P s d w = .ok (g, 0)) := by
  have ha : addW P (max s d) 1 = .ok (max s d + 1) := by
    unfold addW; rw [if_pos (by omega)]
  unfold addEdge addEdgeBidir doAddEdge
  rw [hf, ha]
  constructor
  · rintro ⟨h1, h2⟩
    have h3 : ¬ w < 1 := by omega
    simp [h1, h3, bind_okM]
  · intro h
    by_cases h1 : s = d
    · simp [h1]
    · have h3 : w < 1 := by
        by_contra hc; exact h ⟨h1, by omega⟩
      simp [h1, h3]

/-- **C22** The node count is one more than the largest node id of an accepted edge, after any history. -/
theorem C22_node_count {P : Plat} {ops : List Op} (hw : P.checked = true ∨ nodeCount (accepted ops) ≤ P.umax)
    {ig : InputGraph} (hb : buildGraph P ops = .ok ig) :
    ig.numNodes = nodeCount (accepted ops) ∧ (∀ e ∈ accepted ops, e.src < ig.numNodes ∧ e.dst < ig.numNodes) ∧
      (ig.numNodes ≠ 0 → ∃ e ∈ accepted ops, ig.numNodes = e.src + 1 ∨ ig.numNodes = e.dst + 1) := by
  have h := (buildGraph_inv hw hb).num
  refine ⟨h, fun e he => by rw [h]; exact nodeCount_gt e he, ?_⟩
  rw [h]
  generalize accepted ops = es
  induction es with
  | nil => intro h; exact absurd rfl h
  | cons a es ih =>
    intro _
    have hc : nodeCount (a :: es) = max (nodeCount es) (max a.src a.dst + 1) := rfl
    by_cases hlt : nodeCount es ≤ max a.src a.dst + 1
    · refine ⟨a, List.mem_cons_self, ?_⟩
      omega
    · obtain ⟨e, he, h'⟩ := ih (by omega)
      refine ⟨e, List.mem_cons_of_mem _ he, ?_⟩
      omega

example : Ex.ig.numNodes = 5 ∧ nodeCount (accepted Ex.ops) = 5 := ⟨rfl, rfl⟩

/-- **C22, limit** Without overflow checks an edge with node id `usize::MAX` is recorded but the node count wraps to 0. -/
theorem C22_wraps_without_checks :
    ∃ ig, buildGraph release64 [.addEdge 0 Ex.inv 1, .freeze] = .ok ig ∧ ig.edges = [⟨0, Ex.inv, 1⟩] ∧ ig.numNodes = 0 ∧
      buildGraph debug64 [.addEdge 0 Ex.inv 1, .freeze] = .error .overflow :=
  ⟨_, rfl, rfl, rfl, rfl⟩

end Props
end FP
