import Verif.Proofs.Hub
import Verif.Props.EndToEnd
import Verif.Props.Input
/-!
# The `i32` counter of shortcuts

`num_shortcuts` in `calc_relevance` (node_contractor.rs:46) has no type annotation and is only increased and cast to `f32`,
so it is an `i32`. A node with many in- and out-neighbors makes it overflow: preparing panics in builds with overflow checks;
in other builds the counter wraps, which changes the order of the nodes but no answer.
-/
set_option autoImplicit false
namespace FP
namespace Props
open Spec

/-- **C62** In builds with overflow checks preparing does not return when some node `v` has so many in-neighbors and
out-neighbors that their product exceeds `i32::MAX` and no walk leads from an in-neighbor to an out-neighbor except through
`v` — however small the weights are and whatever the parameters. -/
theorem C62_hub_panics {P : Plat} (hP : P.checked = true) {ops : List Op} {ig : InputGraph}
    (hb : buildGraph P ops = .ok ig) (hf : ig.frozen = true) {v : Nat} {ins outs : List Nat} (hi : ins.Nodup)
    (ho : outs.Nodup) (hin : ∀ u ∈ ins, ∃ w, (⟨u, v, w⟩ : Edge) ∈ accepted ops)
    (hout : ∀ x ∈ outs, ∃ w, (⟨v, x, w⟩ : Edge) ∈ accepted ops) (hbig : 2 ^ 31 - 1 < ins.length * outs.length)
    (hsmall : ∀ e ∈ accepted ops, 2 * e.weight < P.umax)
    (hno : ∀ u x a b, (⟨u, v, a⟩ : Edge) ∈ accepted ops → (⟨v, x, b⟩ : Edge) ∈ accepted ops →
      ¬ ∃ w, HasWalk (fun s t w => (⟨s, t, w⟩ : Edge) ∈ accepted ops ∧ s ≠ v ∧ t ≠ v) u x w)
    (pq : PQ) (nq : NodeQueue) (params : Params) :
    prepareWithParams P pq nq ig params = .error .overflow ∨ prepareWithParams P pq nq ig params = .error .capacity := by
  have hg := buildGraph_inv (Or.inl hP) hb
  have hm := hg.mem_iff hf
  have hmin : ∀ s t w, (⟨s, t, w⟩ : Edge) ∈ accepted ops → ∃ w, (⟨s, t, w⟩ : Edge) ∈ ig.edges := by
    intro s t w h
    have hex : ∃ w, (⟨s, t, w⟩ : Edge) ∈ accepted ops := ⟨w, h⟩
    classical
    exact ⟨Nat.find hex, (hm _ _ _).2 ⟨Nat.find_spec hex, fun w' h' => Nat.find_min' hex h'⟩⟩
  have hacc : ∀ e, e ∈ ig.edges → e ∈ accepted ops := fun e he => ((hm e.src e.dst e.weight).1 he).1
  have hr : Tri (runContraction P pq nq ig ig.numNodes params) (fun _ => False) :=
    runContraction_hub hP (hg.frozenOk hf) params hi ho
      (fun u hu => by obtain ⟨w, hw⟩ := hin u hu; exact hmin _ _ _ hw)
      (fun x hx => by obtain ⟨w, hw⟩ := hout x hx; exact hmin _ _ _ hw) hbig
      (fun e he => hsmall e (hacc e he))
      (by
        rintro u x a b h1 h2 ⟨w, hw⟩
        exact hno u x a b (hacc _ h1) (hacc _ h2)
          ⟨w, hasWalk_iff.2 (hw.mono (fun s t w h => ⟨hacc _ h.1, h.2⟩))⟩)
  unfold prepareWithParams buildWithParams InputGraph.getNumNodes InputGraph.checkFrozen
  rw [assertM_of hf]
  simp only [bind_okM]
  cases hrc : runContraction P pq nq ig ig.numNodes params with
  | ok fg => rw [hrc] at hr; exact hr.elim
  | error e =>
    rw [hrc] at hr
    cases e <;> first | exact Or.inl rfl | exact Or.inr rfl | exact hr.elim

/-- A star: `a` edges into node 0 and `b` edges out of it, all of weight 1. -/
def starOps (a b : Nat) : List Op :=
  (List.range a).map (fun i => .addEdge (i + 1) 0 1) ++ (List.range b).map (fun j => .addEdge 0 (a + j + 1) 1) ++ [.freeze]

theorem starOps_mem {a b s t w : Nat} : (⟨s, t, w⟩ : Edge) ∈ accepted (starOps a b) ↔
    w = 1 ∧ ((1 ≤ s ∧ s ≤ a ∧ t = 0) ∨ (s = 0 ∧ a + 1 ≤ t ∧ t ≤ a + b)) := by
  unfold accepted starOps
  simp only [List.flatMap_append, List.mem_append, List.mem_flatMap, List.mem_map, List.mem_range]
  constructor
  · rintro ((⟨_, ⟨i, hi, rfl⟩, h⟩ | ⟨_, ⟨j, hj, rfl⟩, h⟩) | ⟨_, h, h'⟩)
    · simp [Op.edges] at h
      omega
    · simp [Op.edges] at h
      omega
    · simp only [List.mem_singleton] at h
      subst h
      simp [Op.edges] at h'
  · rintro ⟨rfl, ⟨h1, h2, rfl⟩ | ⟨rfl, h1, h2⟩⟩
    · exact Or.inl (Or.inl ⟨_, ⟨s - 1, by omega, rfl⟩, by simp [Op.edges]; omega⟩)
    · exact Or.inl (Or.inr ⟨_, ⟨t - a - 1, by omega, rfl⟩, by simp [Op.edges]; omega⟩)

/-- Adding edges between existing node ids and freezing at the end does not panic. -/
theorem addEdges_freeze_ok {P : Plat} (es : List Edge) (hes : ∀ e ∈ es, e.src < P.umax ∧ e.dst < P.umax) :
    ∃ ig, buildGraph P (es.map (fun e => .addEdge e.src e.dst e.weight) ++ [.freeze]) = .ok ig ∧ ig.frozen = true := by
  have key : ∀ (es : List Edge) (g : InputGraph), (∀ e ∈ es, e.src < P.umax ∧ e.dst < P.umax) → g.frozen = false →
      ∃ g', forM (fun g op => Op.run P g op) g (es.map (fun e => .addEdge e.src e.dst e.weight)) = .ok g' ∧
        g'.frozen = false := by
    intro es
    induction es with
    | nil => intro g _ hf; exact ⟨g, rfl, hf⟩
    | cons e es ih =>
      intro g h hf
      obtain ⟨h1, h2⟩ := h e (List.mem_cons_self ..)
      have hadd : ∃ g', Op.run P g (.addEdge e.src e.dst e.weight) = .ok g' ∧ g'.frozen = false := by
        obtain ⟨k1, k2⟩ := C22_add_edge_effect (g := g) hf (w := e.weight) h1 h2
        by_cases hc : e.src ≠ e.dst ∧ 1 ≤ e.weight
        · exact ⟨_, by simp only [Op.run]; rw [(k1 hc).1]; rfl, rfl⟩
        · exact ⟨_, by simp only [Op.run]; rw [(k2 hc).1]; rfl, hf⟩
      obtain ⟨g', e1, hf'⟩ := hadd
      obtain ⟨g'', e2, hf''⟩ := ih g' (fun e he => h e (List.mem_cons_of_mem _ he)) hf'
      exact ⟨g'', by rw [List.map_cons, forM_cons, e1]; exact e2, hf''⟩
  obtain ⟨g, e, hf⟩ := key es InputGraph.new hes rfl
  have : ∃ ig, g.freeze = .ok ig ∧ ig.frozen = true := by
    unfold InputGraph.freeze
    rw [if_neg (by rw [hf]; decide)]
    exact ⟨_, rfl, rfl⟩
  obtain ⟨ig, e', hf'⟩ := this
  refine ⟨ig, ?_, hf'⟩
  unfold buildGraph
  rw [forM_append, e]
  simp only [bind_okM]
  rw [forM_cons, show Op.run P g .freeze = .ok ig from e']
  rfl

/-- **C62** A graph on which preparing panics though all weights are 1: a node with 46341 in-neighbors and as many
out-neighbors, 92682 edges in all. -/
theorem C62_star_panics : ∃ ig, buildGraph debug64 (starOps 46341 46341) = .ok ig ∧ ig.frozen = true ∧
    ∀ (pq : PQ) (nq : NodeQueue) (params : Params), prepareWithParams debug64 pq nq ig params = .error .overflow ∨
      prepareWithParams debug64 pq nq ig params = .error .capacity := by
  have hops : starOps 46341 46341 = ((List.range 46341).map (fun i => (⟨i + 1, 0, 1⟩ : Edge)) ++
      (List.range 46341).map (fun j => (⟨0, 46341 + j + 1, 1⟩ : Edge))).map (fun e => .addEdge e.src e.dst e.weight) ++
      [.freeze] := by
    unfold starOps
    rw [List.map_append, List.map_map, List.map_map]
    rfl
  have humax : 100000 < debug64.umax := by decide
  obtain ⟨ig, hb, hf⟩ := addEdges_freeze_ok (P := debug64) ((List.range 46341).map (fun i => (⟨i + 1, 0, 1⟩ : Edge)) ++
      (List.range 46341).map (fun j => (⟨0, 46341 + j + 1, 1⟩ : Edge))) (by
    intro e he
    rcases List.mem_append.1 he with he | he <;> obtain ⟨i, hi, rfl⟩ := List.mem_map.1 he <;>
      have := List.mem_range.1 hi <;> simp only <;> omega)
  rw [← hops] at hb
  refine ⟨ig, hb, hf, fun pq nq params => ?_⟩
  refine C62_hub_panics rfl hb hf (v := 0) (ins := List.range' 1 46341) (outs := List.range' 46342 46341)
    List.nodup_range' List.nodup_range' ?_ ?_ ?_ ?_ ?_ pq nq params
  · intro u hu
    have := List.mem_range'_1.1 hu
    exact ⟨1, starOps_mem.2 ⟨rfl, Or.inl ⟨by omega, by omega, rfl⟩⟩⟩
  · intro u hu
    have := List.mem_range'_1.1 hu
    exact ⟨1, starOps_mem.2 ⟨rfl, Or.inr ⟨rfl, by omega, by omega⟩⟩⟩
  · rw [List.length_range', List.length_range']
    decide
  · rintro ⟨s, t, w⟩ he
    have := (starOps_mem.1 he).1
    simp only
    omega
  · rintro u x a b h1 h2 ⟨w, hw⟩
    have k1 := starOps_mem.1 h1
    have k2 := starOps_mem.1 h2
    cases hasWalk_iff.1 hw with
    | nil => omega
    | cons e _ =>
      obtain ⟨e, e1, e2⟩ := e
      have := starOps_mem.1 e
      omega

/-- **C62** Builds without overflow checks are not affected, the counter may wrap as often as it likes: for weights bounded
as in C54, whenever preparing returns, the graph is one that a build with overflow checks produces for some order, and every
query returns a right answer. -/
theorem C62_release_unaffected {P : Plat} {ops : List Op} {ig : InputGraph} (hb : buildGraph P.debug ops = .ok ig)
    (hf : ig.frozen = true) {W : Nat} (hW : ∀ e ∈ accepted ops, e.weight ≤ W)
    (hfit : 2 ^ (ig.numNodes + 2) * W ≤ P.umax) (hcap : ig.numNodes * ig.numNodes < P.umax) {pq : PQ} {nq : NodeQueue}
    {params : Params} {fg : FastGraph} (hp : prepareWithParams P pq nq ig params = .ok fg) :
    Client P.debug ops ig fg ∧ ∀ (pq' : PQ) (s t : Nat), s < ig.numNodes → t < ig.numNodes →
      ∃ r, calcPath P pq' fg s t = .ok r ∧ Correct (edgesOf (accepted ops)) s t r := by
  obtain ⟨nodes, _, hperm, hpo⟩ := prepare_again hp
  obtain ⟨fg₁, e⟩ := C33_prepare_with_order_with_params (P := P.debug) hb hf hW hfit hcap pq hperm
    params.maxSettledContraction
  have h1 := (C32_prepare_with_order hb hf pq hperm params.maxSettledContraction (by rw [e]; simp)).trans e
  have : fg₁ = fg := by
    have := h1.symm.trans hpo
    injection this with this
    injection this
  subst this
  refine ⟨⟨hb, hf, .orderParams pq nodes params.maxSettledContraction hperm e⟩, ?_⟩
  obtain ⟨fg₂, e2, h2⟩ := C54_prepare_with_order_and_query hb hf hW hfit hcap pq hperm params.maxSettledContraction
  have : fg₁ = fg₂ := by
    have := h1.symm.trans e2
    injection this with this
    injection this
  subst this
  exact h2

example : Client debug64 Ex.ops Ex.ig Ex.fg :=
  (C62_release_unaffected (P := release64) (pq := binaryHeap) (nq := listQueue) (params := .default Ex.rel) Ex.built rfl
    (W := 9) (by decide) (by decide) (by decide) (show _ = Except.ok Ex.fg from rfl)).1

end Props
end FP
