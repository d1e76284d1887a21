import Verif.Proofs.WitnessLimit
import Verif.Proofs.Needed
import Verif.Proofs.Hierarchy
import Verif.Props.Example
/-!
# The witness search and the contraction of one node

`runWitness` runs any sequence of calls on one witness search object. `prepEdges g` are the edges of a preparation graph,
`avoiding E v` those not touching `v`.
-/
set_option autoImplicit false
namespace FP
namespace Props
open Spec

/-- **C45** After any earlier use of the object, `init(s, v)` and any searches on the graph `g`, a search for `target`
returning `r` means: `r` is `usize::MAX` or exactly the weight of a walk avoiding `v` (so `r` is never below the shortest
distance); if `r` is within the limit there is a walk of weight `r`; if the number of settled nodes stayed below its limit
and `r` is above the weight limit, every walk avoiding `v` is above the weight limit. -/
theorem C45_witness_contract {P : Plat} (hP : P.checked = true) {pq : PQ} {n : Nat} {g : PreparationGraph} (hg : PrepOk n g)
    {before : List WitnessCall} {ws₀ ws₁ ws₂ ws₃ : WitnessSearch pq} {s v target limit settledLimit r : Nat}
    {searches : List (Nat × Nat × Nat)}
    (h₀ : runWitness P (WitnessSearch.new P pq n) before = .ok ws₀) (h₁ : ws₀.init P s v = .ok ws₁)
    (h₂ : runWitness P ws₁ (searches.map (fun q => .find g q.1 q.2.1 q.2.2)) = .ok ws₂)
    (h₃ : ws₂.findMaxWeight P g target limit settledLimit = .ok (ws₃, r)) :
    (r = P.umax ∨ HasWalk (avoiding (prepEdges g) v) s target r) ∧
    (r ≤ limit → limit < P.umax → HasWalk (avoiding (prepEdges g) v) s target r) ∧
    (ws₃.settledNodes < settledLimit → limit < r → ∀ w, HasWalk (avoiding (prepEdges g) v) s target w → limit < w) := by
  have hb := (runWitness_self (WRel.new P pq n) h₀).b₁
  obtain ⟨hs, hsP, hne⟩ := init_args hb h₁
  obtain ⟨ws', e, hinv, _⟩ := WitnessSearch.init_ok hb hs hsP hne g
  rw [e] at h₁
  injection h₁ with h₁
  subst h₁
  have hrefl : ∀ x, Improves v x x := fun x u y w h => ⟨w, Nat.le_refl _, h⟩
  have hci := WitnessSearch.init_CInv (g0 := g) (E := g.relNo v) hb hs e hsP hne
  have h₂' : runWitness P ws' ((searches.map (fun q => (g, q.1, q.2.1, q.2.2))).map
      (fun c : PreparationGraph × Nat × Nat × Nat => .find c.1 c.2.1 c.2.2.1 c.2.2.2)) = .ok ws₂ := by
    rw [List.map_map]; exact h₂
  obtain ⟨gl, hm, k1, k2⟩ := runFinds_ok hP hs hsP hinv hci (by
      intro c hc
      obtain ⟨q, _, rfl⟩ := List.mem_map.1 hc
      exact ⟨hg, hrefl g, fun a b w h => h⟩) (by
      rw [List.pairwise_cons, List.map_map]
      refine ⟨fun x hx => ?_, ?_⟩
      · obtain ⟨q, _, rfl⟩ := List.mem_map.1 hx
        exact hrefl g
      · rw [List.pairwise_map]
        exact List.pairwise_of_forall (fun _ _ => hrefl g)) h₂'
  have hgl : gl = g := by
    rcases List.mem_cons.1 hm with h | h
    · exact h
    · rw [List.map_map] at h
      obtain ⟨q, _, rfl⟩ := List.mem_map.1 h
      rfl
  subst hgl
  obtain ⟨ht, htv⟩ := find_args k1 hs h₃
  obtain ⟨_, _, ⟨_, m1⟩, m2⟩ := (WitnessSearch.findMaxWeight_complete hP (prepOk_iff.1 hg) (fun a b w h => ⟨w, Nat.le_refl _, h⟩)
    (fun a b w h => h) k1 k2 hsP ht htv).of_ok h₃
  simp only [avoiding_eq, hasWalk_iff]
  refine ⟨m1, ?_, m2⟩
  intro h1 h2
  rcases m1 with h | h
  · omega
  · exact h

/-- **C45 while shortcuts are added** The same when the graph changes between the searches, as it does during contraction:
graphs only improve away from `v`. Searches above the limit are then complete for the edges present at `init`, results
within the limit are matched by a walk of at most that weight in the last graph. -/
theorem C45_witness_contract_changing {P : Plat} (hP : P.checked = true) {pq : PQ} {n : Nat} {g₀ g : PreparationGraph}
    (hg₀ : PrepOk n g₀) (hg : PrepOk n g)
    {before : List WitnessCall} {ws₀ ws₁ ws₂ ws₃ : WitnessSearch pq} {s v target limit settledLimit r : Nat}
    {searches : List (PreparationGraph × Nat × Nat × Nat)} (hgs : ∀ q ∈ searches, PrepOk n q.1)
    (himp : (g₀ :: (searches.map (·.1) ++ [g])).Pairwise (Improves v))
    (h₀ : runWitness P (WitnessSearch.new P pq n) before = .ok ws₀) (h₁ : ws₀.init P s v = .ok ws₁)
    (h₂ : runWitness P ws₁ (searches.map (fun q => .find q.1 q.2.1 q.2.2.1 q.2.2.2)) = .ok ws₂)
    (h₃ : ws₂.findMaxWeight P g target limit settledLimit = .ok (ws₃, r)) :
    (r ≤ limit → limit < P.umax → ∃ w ≤ r, HasWalk (avoiding (prepEdges g) v) s target w) ∧
    (ws₃.settledNodes < settledLimit → limit < r → ∀ w, HasWalk (avoiding (prepEdges g₀) v) s target w → limit < w) := by
  have hb := (runWitness_self (WRel.new P pq n) h₀).b₁
  obtain ⟨hs, hsP, hne⟩ := init_args hb h₁
  obtain ⟨ws', e, hinv, _⟩ := WitnessSearch.init_ok hb hs hsP hne g₀
  rw [e] at h₁
  injection h₁ with h₁
  subst h₁
  have hci := WitnessSearch.init_CInv (g0 := g₀) (E := fun _ _ _ => True) hb hs e hsP hne
  obtain ⟨himp1, himp2⟩ := List.pairwise_cons.1 himp
  have hpw : (g₀ :: searches.map (·.1)).Pairwise (Improves v) := by
    refine himp.sublist ?_
    exact List.Sublist.cons_cons _ (List.sublist_append_left _ _)
  obtain ⟨gl, hm, k1, k2⟩ := runFinds_ok hP hs hsP hinv hci (by
      intro c hc
      exact ⟨hgs c hc, himp1 _ (List.mem_append_left _ (List.mem_map.2 ⟨c, hc, rfl⟩)), fun _ _ _ _ => trivial⟩) hpw h₂
  have hlast : Improves v gl g := by
    rcases List.mem_cons.1 hm with rfl | h
    · exact himp1 g (by simp)
    · exact (List.pairwise_append.1 himp2).2.2 gl h g (by simp)
  have k1' : WitnessSearch.Inv n g s v ws₂ := k1.mono (fun a b w h => by
    obtain ⟨w', k, k'⟩ := hlast a b w (avoiding_iff.2 h)
    exact ⟨w', k, avoiding_iff.1 k'⟩)
  obtain ⟨ht, htv⟩ := find_args k1' hs h₃
  obtain ⟨_, _, _, m2⟩ := (WitnessSearch.findMaxWeight_complete hP (prepOk_iff.1 hg) (fun a b w h => by
      obtain ⟨w', k, k'⟩ := himp1 g (by simp) a b w (avoiding_iff.2 h)
      exact ⟨w', k, avoiding_iff.1 k'⟩)
    (fun a b w h => trivial) k1' k2 hsP ht htv).of_ok h₃
  have m1 := (WitnessSearch.findMaxWeight_ok hP (prepOk_iff.1 hg).lax k1' hsP ht htv).of_ok h₃
  simp only [avoiding_eq, hasWalk_iff]
  exact ⟨m1.2.2, m2⟩

/-- The graph of the example as a preparation graph. -/
def exPrep : PreparationGraph where
  outEdges := [[⟨1, 3, Ex.inv⟩, ⟨2, 9, Ex.inv⟩], [⟨2, 4, Ex.inv⟩], [⟨3, 1, Ex.inv⟩], [⟨2, 1, Ex.inv⟩, ⟨4, 5, Ex.inv⟩],
    [⟨1, 2, Ex.inv⟩]]
  inEdges := [[], [⟨0, 3, Ex.inv⟩, ⟨4, 2, Ex.inv⟩], [⟨0, 9, Ex.inv⟩, ⟨1, 4, Ex.inv⟩, ⟨3, 1, Ex.inv⟩], [⟨2, 1, Ex.inv⟩],
    [⟨3, 5, Ex.inv⟩]]
  numNodes := 5

/-- `from_input_graph` on the example -/
theorem exPrep_eq : PreparationGraph.fromInputGraph debug64 Ex.ig = .ok exPrep := rfl

/-- **C50** The preparation graph made from a frozen graph is consistent and has exactly its edges. -/
theorem C50_from_input_graph {P : Plat} {ops : List Op} {ig : InputGraph} (hb : buildGraph P ops = .ok ig)
    (hf : ig.frozen = true) (hnw : NoWrap P (accepted ops)) :
    ∃ g, PreparationGraph.fromInputGraph P ig = .ok g ∧ PrepOk ig.numNodes g ∧
      ∀ u v w, prepEdges g u v w ↔ edgesOf ig.edges u v w := by
  obtain ⟨g, e, h⟩ := fromInputGraph_ok (P := P) ((buildGraph_inv hnw hb).frozenOk hf)
  refine ⟨g, e, prepOk_iff.2 h.wf, ?_⟩
  intro u v w
  rw [prepEdges_iff]
  constructor
  · rintro ⟨c, hc⟩
    exact ((h.mem u _).1 hc).2
  · intro he
    exact ⟨P.umax, (h.mem u ⟨v, w, P.umax⟩).2 ⟨rfl, he⟩⟩

/-- The example graph is consistent. -/
theorem exPrep_ok : PrepOk 5 exPrep := by
  obtain ⟨g, e, h, _⟩ := C50_from_input_graph Ex.built Ex.frozen (Or.inl rfl)
  rw [exPrep_eq] at e
  injection e with e
  subst e
  exact h

/-- A search from 0 avoiding 2, after unrelated use of the object. -/
example : ∃ ws₀ ws₁ ws₂ ws₃ : WitnessSearch binaryHeap,
    runWitness debug64 (WitnessSearch.new debug64 binaryHeap 5) [.init 0 1, .find exPrep 4 100 100] = .ok ws₀ ∧
    ws₀.init debug64 0 2 = .ok ws₁ ∧
    runWitness debug64 ws₁ ([(1, 2, 10)].map (fun q => .find exPrep q.1 q.2.1 q.2.2)) = .ok ws₂ ∧
    ws₂.findMaxWeight debug64 exPrep 1 5 10 = .ok (ws₃, 3) ∧ (HasWalk (avoiding (prepEdges exPrep) 2) 0 1 3) := by
  refine ⟨_, _, _, _, rfl, rfl, rfl, rfl, ?_⟩
  exact (C45_witness_contract (before := [.init 0 1, .find exPrep 4 100 100]) (searches := [(1, 2, 10)])
    (target := 1) (limit := 5) (settledLimit := 10) (s := 0) (v := 2)
    (pq := binaryHeap) (P := debug64) rfl exPrep_ok rfl rfl rfl rfl).2.1 (by decide) (by decide)

/-- No walk of weight at most 8 from 0 to 4 avoiding 1: the search says so, with 10 settled nodes allowed. -/
example : ∀ w, HasWalk (avoiding (prepEdges exPrep) 1) 0 4 w → 8 < w := by
  refine (C45_witness_contract (before := []) (searches := []) (target := 4) (limit := 8) (settledLimit := 10)
    (pq := binaryHeap) (P := debug64) (s := 0) (v := 1) rfl exPrep_ok rfl rfl rfl rfl).2.2 (by decide) (by decide)

/-- **C57** The budget of a witness search: after any earlier use, `init` and any searches whose settled limits are at most `K`,
on any graphs, the settled nodes are a set of exactly `settled_nodes` and at most `K` nodes. -/
theorem C57_settled_budget {P : Plat} (hP : P.checked = true) {pq : PQ} {n K : Nat} {before : List WitnessCall}
    {ws₀ ws₁ ws₂ : WitnessSearch pq} {s v : Nat} {searches : List (PreparationGraph × Nat × Nat × Nat)}
    (h₀ : runWitness P (WitnessSearch.new P pq n) before = .ok ws₀) (h₁ : ws₀.init P s v = .ok ws₁)
    (h₂ : runWitness P ws₁ (searches.map (fun q => .find q.1 q.2.1 q.2.2.1 q.2.2.2)) = .ok ws₂)
    (hK : ∀ q ∈ searches, q.2.2.2 ≤ K) :
    ∃ L : List Nat, L.Nodup ∧ (∀ x, x ∈ L ↔ ws₂.isSettled x = .ok true) ∧ L.length = ws₂.settledNodes ∧ L.length ≤ K := by
  have hb := (runWitness_self (WRel.new P pq n) h₀).b₁
  obtain ⟨k1, k2⟩ := WitnessSearch.init_count hb h₁
  obtain ⟨k3, k4⟩ := WitnessSearch.runFinds_count hP (K := K) (by
    intro c hc
    obtain ⟨q, hq, rfl⟩ := List.mem_map.1 hc
    exact ⟨_, _, _, _, rfl, hK q hq⟩) k1 (by omega) h₂
  refine ⟨(List.range n).filter ws₂.settledB, List.nodup_range.filter _, ?_, ?_, ?_⟩
  · intro x
    rw [List.mem_filter, List.mem_range]
    constructor
    · rintro ⟨h1, h2⟩
      rw [WitnessSearch.isSettled_ok k3.toBase h1, h2]
    · intro h
      have hx : x < n := by
        by_contra hlt
        unfold WitnessSearch.isSettled at h
        rw [WitnessSearch.isValid_ge k3.toBase hlt] at h
        cases h
      rw [WitnessSearch.isSettled_ok k3.toBase hx] at h
      injection h with h
      exact ⟨hx, h⟩
  · rw [← List.countP_eq_length_filter]
    exact k3.cnt
  · rw [← List.countP_eq_length_filter]
    exact k3.cnt.trans_le k4

/-- With a budget of 2 nodes only 0 and 1 get settled, with a larger one also 2. -/
example : ∃ ws₁ ws₂ ws₃ : WitnessSearch binaryHeap,
    (WitnessSearch.new debug64 binaryHeap 5).init debug64 0 4 = .ok ws₁ ∧
    runWitness debug64 ws₁ [.find exPrep 3 20 2, .find exPrep 3 20 2] = .ok ws₂ ∧ ws₂.settledNodes = 2 ∧
    ws₂.isSettled 1 = .ok true ∧ ws₂.isSettled 2 = .ok false ∧
    runWitness debug64 ws₂ [.find exPrep 3 20 3] = .ok ws₃ ∧ ws₃.isSettled 2 = .ok true :=
  ⟨_, _, _, rfl, rfl, rfl, rfl, rfl, rfl, rfl⟩
example : ∃ ws₂ : WitnessSearch binaryHeap, ∃ L : List Nat, L.Nodup ∧ (∀ x, x ∈ L ↔ ws₂.isSettled x = .ok true) ∧
    L.length = ws₂.settledNodes ∧ L.length ≤ 2 :=
  ⟨_, C57_settled_budget (P := debug64) (pq := binaryHeap) (n := 5) (before := [.init 0 1, .find exPrep 4 100 100]) rfl rfl
    (s := 0) (v := 4) rfl (searches := [(exPrep, 3, 20, 2), (exPrep, 3, 20, 2)]) rfl (by decide)⟩

/-- **C53** `add_or_reduce_edge` never fails for two different nodes and keeps the graph consistent; the edge between the two
nodes gets the smaller of its old weight and the new one (the new one if there was none); all other edges are unchanged. -/
theorem C53_add_or_reduce {n : Nat} {g : PreparationGraph} (hg : PrepOk n g) {u v w c : Nat} (hu : u < n) (hv : v < n)
    (huv : u ≠ v) :
    ∃ g', PreparationGraph.addOrReduceEdge g u v w c = .ok g' ∧ PrepOk n g' ∧
      (∀ a b x, ¬ (a = u ∧ b = v) → (prepEdges g' a b x ↔ prepEdges g a b x)) ∧
      (∀ x, prepEdges g' u v x ↔
        (prepEdges g u v x ∧ x ≤ w) ∨ (x = w ∧ ∀ y, prepEdges g u v y → w < y)) := by
  have hwf := prepOk_iff.1 hg
  obtain ⟨g', e, h⟩ := PreparationGraph.addOrReduceEdge_ok (w := w) (c := c) hwf hu hv huv
  have huniq : ∀ a b : Arc, a ∈ g.outs u → b ∈ g.outs u → a.adj = b.adj → a = b := fun a b ha hb hab =>
    List.inj_on_of_nodup_map (hwf.nodupOut u) ha hb hab
  have huniq' : ∀ a b : Arc, a ∈ g'.outs u → b ∈ g'.outs u → a.adj = b.adj → a = b := fun a b ha hb hab =>
    List.inj_on_of_nodup_map (h.wf.nodupOut u) ha hb hab
  refine ⟨g', e, prepOk_iff.2 h.wf, ?_, ?_⟩
  · intro a b x hab
    simp only [prepEdges_iff, PreparationGraph.rel]
    by_cases hau : a = u
    · subst hau
      have hbv : b ≠ v := fun h => hab ⟨rfl, h⟩
      constructor
      · rintro ⟨d, hd⟩
        rcases h.back _ hd with h1 | h1
        · exact ⟨d, h1⟩
        · cases h1; exact absurd rfl hbv
      · rintro ⟨d, hd⟩
        rcases h.keep _ hd with h1 | h1
        · exact ⟨d, h1⟩
        · exact absurd h1.1 hbv
    · rw [h.outs_ne a hau]
  · intro x
    simp only [prepEdges_iff, PreparationGraph.rel]
    obtain ⟨a, ha, hav, haw⟩ := h.have_
    constructor
    · rintro ⟨d, hd⟩
      have := huniq' _ _ hd ha hav.symm
      subst this
      simp only at haw
      rcases h.back _ hd with h1 | h1
      · exact Or.inl ⟨⟨d, h1⟩, haw⟩
      · cases h1
        by_cases hold : ∃ y d', (⟨v, y, d'⟩ : Arc) ∈ g.outs u ∧ y ≤ w
        · obtain ⟨y, d', hy, hyx⟩ := hold
          rcases h.keep _ hy with h2 | h2
          · have := huniq' _ _ h2 hd rfl
            cases this
            exact Or.inl ⟨⟨c, hy⟩, Nat.le_refl _⟩
          · have h3 : w < y := h2.2
            omega
        · refine Or.inr ⟨rfl, ?_⟩
          rintro y ⟨d', hy⟩
          by_contra hlt
          exact hold ⟨y, d', hy, by omega⟩
    · rintro (⟨⟨d, hd⟩, hx⟩ | ⟨rfl, hall⟩)
      · rcases h.keep _ hd with h1 | h1
        · exact ⟨d, h1⟩
        · have : w < x := h1.2
          omega
      · rcases h.back _ ha with h1 | h1
        · have := hall a.weight ⟨a.center, by rw [← hav]; exact h1⟩
          omega
        · rw [h1] at ha
          exact ⟨c, ha⟩

/-- **C53** `disconnect` removes exactly the edges at the node. -/
theorem C53_disconnect {n : Nat} {g : PreparationGraph} (hg : PrepOk n g) {v : Nat} (hv : v < n) :
    ∃ g', PreparationGraph.disconnect g v = .ok g' ∧ PrepOk n g' ∧
      ∀ a b x, prepEdges g' a b x ↔ avoiding (prepEdges g) v a b x := by
  obtain ⟨g', e, hwf', ho, _⟩ := PreparationGraph.disconnect_ok (prepOk_iff.1 hg) hv
  refine ⟨g', e, prepOk_iff.2 hwf', ?_⟩
  intro a b x
  simp only [avoiding, prepEdges_iff, PreparationGraph.rel, ho]
  by_cases hav : a = v
  · simp [hav]
  · simp [hav]

/-- The example with the arc 0 → 2 reduced to 7. -/
def exReduced : PreparationGraph where
  outEdges := [[⟨1, 3, Ex.inv⟩, ⟨2, 7, 1⟩], [⟨2, 4, Ex.inv⟩], [⟨3, 1, Ex.inv⟩], [⟨2, 1, Ex.inv⟩, ⟨4, 5, Ex.inv⟩],
    [⟨1, 2, Ex.inv⟩]]
  inEdges := [[], [⟨0, 3, Ex.inv⟩, ⟨4, 2, Ex.inv⟩], [⟨0, 7, 1⟩, ⟨1, 4, Ex.inv⟩, ⟨3, 1, Ex.inv⟩], [⟨2, 1, Ex.inv⟩],
    [⟨3, 5, Ex.inv⟩]]
  numNodes := 5

/-- `add_or_reduce_edge` on the example -/
theorem exReduced_eq : PreparationGraph.addOrReduceEdge exPrep 0 2 7 1 = .ok exReduced := rfl

/-- The reduced graph is consistent and improves the example. -/
theorem exReduced_ok : PrepOk 5 exReduced ∧ Improves 1 exPrep exReduced := by
  obtain ⟨g', e, h1, h2, h3⟩ := C53_add_or_reduce exPrep_ok (u := 0) (v := 2) (w := 7) (c := 1) (by decide) (by decide)
    (by decide)
  rw [exReduced_eq] at e
  injection e with e
  subst e
  refine ⟨h1, ?_⟩
  rintro u v w ⟨hw, hu, hv⟩
  by_cases huv : u = 0 ∧ v = 2
  · obtain ⟨rfl, rfl⟩ := huv
    by_cases hw7 : w ≤ 7
    · exact ⟨w, Nat.le_refl _, (h3 w).2 (Or.inl ⟨hw, hw7⟩), hu, hv⟩
    · refine ⟨7, by omega, (h3 7).2 (Or.inr ⟨rfl, ?_⟩), hu, hv⟩
      rintro y ⟨l, c, hl, hc⟩
      cases hl
      simp at hc
      omega
  · exact ⟨w, Nat.le_refl _, (h2 u v w huv).2 hw, hu, hv⟩

example : ∃ g', PreparationGraph.disconnect exPrep 2 = .ok g' ∧ PrepOk 5 g' ∧
    ∀ a b x, prepEdges g' a b x ↔ avoiding (prepEdges exPrep) 2 a b x := C53_disconnect exPrep_ok (by decide)

/-- The changing graph of the second theorem: after 0 → 2 was reduced from 9 to 7 the search still answers 10, which is
above the limit 9 although the new graph has a walk 0 → 2 → 3 of weight 8. Every walk of the old graph is above the limit. -/
example : ∃ ws₁ ws₂ ws₃ : WitnessSearch binaryHeap,
    [exPrep, exPrep, exReduced].Pairwise (Improves 1) ∧
    (WitnessSearch.new debug64 binaryHeap 5).init debug64 0 1 = .ok ws₁ ∧
    runWitness debug64 ws₁ [.find exPrep 3 6 10] = .ok ws₂ ∧
    ws₂.findMaxWeight debug64 exReduced 3 9 10 = .ok (ws₃, 10) ∧
    ws₃.settledNodes < 10 ∧ (∀ w, HasWalk (avoiding (prepEdges exPrep) 1) 0 3 w → 9 < w) ∧
    HasWalk (avoiding (prepEdges exReduced) 1) 0 3 8 := by
  have hI : Improves 1 exPrep exPrep := fun u y w h => ⟨w, Nat.le_refl _, h⟩
  have hp : [exPrep, exPrep, exReduced].Pairwise (Improves 1) := by simp [hI, exReduced_ok.2]
  refine ⟨_, _, _, hp, rfl, rfl, rfl, by decide, ?_, ?_⟩
  · exact (C45_witness_contract_changing (before := []) (searches := [(exPrep, 3, 6, 10)]) (g := exReduced) (target := 3)
      (limit := 9) (settledLimit := 10) (pq := binaryHeap) (P := debug64) (s := 0) (v := 1) rfl exPrep_ok exReduced_ok.1
      (by simp [exPrep_ok]) hp rfl rfl rfl rfl).2 (by decide) (by decide)
  · rw [hasWalk_iff]
    have e1 : avoiding (prepEdges exReduced) 1 0 2 7 := ⟨⟨_, 1, rfl, by simp⟩, by decide, by decide⟩
    have e2 : avoiding (prepEdges exReduced) 1 2 3 1 := ⟨⟨_, Ex.inv, rfl, by simp⟩, by decide, by decide⟩
    exact (Wk.single e1).snoc e2

/-- **C51** Contracting a node keeps the graph consistent, removes all its edges, and changes no shortest distance between
the other nodes (below `usize::MAX`): walks of the new graph are walks of the old one, walks of the old one are at most
improved. -/
theorem C51_contraction_keeps_distances {P : Plat} (hP : P.checked = true) {pq : PQ} {n : Nat} (hn : n ≤ P.umax)
    {g g' : PreparationGraph} (hg : PrepOk n g) {before : List WitnessCall} {ws ws' : WitnessSearch pq}
    (h₀ : runWitness P (WitnessSearch.new P pq n) before = .ok ws) {v maxSettled : Nat} (hv : v < n)
    (h : contractNode P g ws v maxSettled = .ok (g', ws')) :
    PrepOk n g' ∧ (∀ u x w, prepEdges g' u x w → u ≠ v ∧ x ≠ v) ∧
    (∀ s t w, HasWalk (prepEdges g') s t w → HasWalk (prepEdges g) s t w) ∧
    (∀ s t w, s ≠ v → t ≠ v → w < P.umax → HasWalk (prepEdges g) s t w → ∃ w' ≤ w, HasWalk (prepEdges g') s t w') ∧
    (∀ s t w, s ≠ v → t ≠ v → w < P.umax → (IsDist (prepEdges g') s t w ↔ IsDist (prepEdges g) s t w)) := by
  have hb := (runWitness_self (WRel.new P pq n) h₀).b₁
  have hwf := prepOk_iff.1 hg
  obtain ⟨hc, _⟩ := (contractNode_ok hP hn hwf hv hb).of_ok h
  have hrel : ∀ {g : PreparationGraph}, prepEdges g = g.rel := by
    intro g; funext a b c; exact propext prepEdges_iff
  simp only [hrel, hasWalk_iff]
  have hback : ∀ s t w, Wk g'.rel s t w → Wk g.rel s t w := by
    intro s t w hw
    refine hw.bind ?_
    rintro u x w ⟨c, he⟩
    rcases hc.back u _ he with h1 | ⟨_, a, ha, b, hb', h1, h2, h3⟩
    · exact Wk.single ⟨c, h1⟩
    · simp only at h2 h3
      subst h1 h2 h3
      have e1 : g.rel a.adj v a.weight := ⟨a.center, hwf.mirror_in ha⟩
      have e2 : g.rel v b.adj b.weight := ⟨b.center, hb'⟩
      exact (Wk.single e1).snoc e2
  have hforw : ∀ s t w, s ≠ v → t ≠ v → w < P.umax → Wk g.rel s t w → ∃ w' ≤ w, Wk g'.rel s t w' := by
    intro s t w hs ht hw k
    exact (hc.walk hwf k ht hw).1 hs
  refine ⟨prepOk_iff.2 hc.wf, ?_, hback, hforw, ?_⟩
  · rintro u x w ⟨c, he⟩
    have := Isolated.not_adj hc.wf hc.isolated_self he
    exact ⟨this.2, this.1⟩
  · intro s t w hs ht hw
    unfold IsDist
    simp only [hasWalk_iff]
    constructor
    · rintro ⟨h1, h2⟩
      refine ⟨hback _ _ _ h1, ?_⟩
      intro w' hw'
      by_contra hlt
      obtain ⟨w'', k1, k2⟩ := hforw s t w' hs ht (by omega) hw'
      have := h2 _ k2
      omega
    · rintro ⟨h1, h2⟩
      obtain ⟨w', k1, k2⟩ := hforw s t w hs ht hw h1
      have := h2 _ (hback _ _ _ k2)
      have hww : w' = w := by omega
      subst hww
      exact ⟨k2, fun x hx => h2 _ (hback _ _ _ hx)⟩

/-- Contracting node 2 of the example makes shortcuts 0 → 3 and 1 → 3. -/
example : ∃ g' ws', contractNode debug64 exPrep (WitnessSearch.new debug64 binaryHeap 5) 2 100 = .ok (g', ws') ∧
    g'.outEdges = [[⟨1, 3, Ex.inv⟩, ⟨3, 10, 2⟩], [⟨3, 5, 2⟩], [], [⟨4, 5, Ex.inv⟩], [⟨1, 2, Ex.inv⟩]] ∧ PrepOk 5 g' := by
  refine ⟨_, _, rfl, rfl, ?_⟩
  exact (C51_contraction_keeps_distances (before := []) (P := debug64) (pq := binaryHeap) (n := 5) rfl (by decide) exPrep_ok rfl
    (v := 2) (maxSettled := 100) (by decide) rfl).1

/-- **C58** With a budget above the number of nodes, contracting `v` adds an edge only if it is needed: every edge afterwards is an
old one, or it is a shortcut `u → v → x` of exactly that weight, marked with `v`, and every walk from `u` to `x` around `v` was
strictly longer. -/
theorem C58_shortcuts_are_needed {P : Plat} (hP : P.checked = true) {pq : PQ} {n : Nat} (hn : n ≤ P.umax)
    {g g' : PreparationGraph} (hg : PrepOk n g) {before : List WitnessCall} {ws ws' : WitnessSearch pq}
    (h₀ : runWitness P (WitnessSearch.new P pq n) before = .ok ws) {v maxSettled : Nat} (hv : v < n) (hms : n < maxSettled)
    (h : contractNode P g ws v maxSettled = .ok (g', ws')) {u : Nat} {l' : List Arc} (hl : g'.outEdges[u]? = some l')
    {e : Arc} (he : e ∈ l') :
    (∃ l, g.outEdges[u]? = some l ∧ e ∈ l) ∨
    (e.center = v ∧ (∃ a b, prepEdges g u v a ∧ prepEdges g v e.adj b ∧ e.weight = a + b) ∧
      ∀ w, HasWalk (avoiding (prepEdges g) v) u e.adj w → e.weight < w) := by
  have hb := (runWitness_self (WRel.new P pq n) h₀).b₁
  have hwf := prepOk_iff.1 hg
  have := (contractNode_need hP hn hwf hv hb hms).of_ok h u e (mem_outs_iff.2 ⟨l', hl, he⟩)
  rw [avoiding_eq]
  simp only [hasWalk_iff]
  rcases this with h1 | ⟨h1, a, ha, b, hb', h2, h3, h4, h5, _⟩
  · exact Or.inl (mem_outs_iff.1 h1)
  · refine Or.inr ⟨h1, ⟨a.weight, b.weight, ?_, ?_, h4⟩, h5⟩
    · rw [prepEdges_iff, ← h2]
      exact ⟨a.center, hwf.mirror_in ha⟩
    · rw [prepEdges_iff, ← h3]
      exact ⟨b.center, hb'⟩

/-- The shortcut 1 → 3 of weight 5 was needed. With a budget of one node an unnecessary shortcut 0 → 2 (through 1, of weight 7)
appears beside the edge 0 → 3 → 2 of weight 2, with the full budget it does not. -/
example : ∀ w, HasWalk (avoiding (prepEdges exPrep) 2) 1 3 w → 5 < w := by
  rcases C58_shortcuts_are_needed (before := []) (P := debug64) (pq := binaryHeap) (n := 5) rfl (by decide) exPrep_ok rfl
    (v := 2) (maxSettled := 100) (by decide) (by decide) rfl (u := 1) rfl (e := ⟨3, 5, 2⟩) (by decide) with h | h
  · obtain ⟨l, h1, h2⟩ := h
    cases h1
    simp at h2
  · exact h.2.2
/-- a detour 0 → 1 → 2 and a shorter way 0 → 3 → 2 -/
def detour : PreparationGraph where
  outEdges := [[⟨1, 3, Ex.inv⟩, ⟨3, 1, Ex.inv⟩], [⟨2, 4, Ex.inv⟩], [], [⟨2, 1, Ex.inv⟩]]
  inEdges := [[], [⟨0, 3, Ex.inv⟩], [⟨1, 4, Ex.inv⟩, ⟨3, 1, Ex.inv⟩], [⟨0, 1, Ex.inv⟩]]
  numNodes := 4
example : ∃ g' ws' g'' ws'', contractNode debug64 detour (WitnessSearch.new debug64 binaryHeap 4) 1 1 = .ok (g', ws') ∧
    contractNode debug64 detour (WitnessSearch.new debug64 binaryHeap 4) 1 5 = .ok (g'', ws'') ∧
    g'.outEdges = [[⟨3, 1, Ex.inv⟩, ⟨2, 7, 1⟩], [], [], [⟨2, 1, Ex.inv⟩]] ∧
    g''.outEdges = [[⟨3, 1, Ex.inv⟩], [], [], [⟨2, 1, Ex.inv⟩]] := ⟨_, _, _, _, rfl, rfl, rfl, rfl⟩

/-- **C52** Estimating the relevance of a node does not change the graph. -/
theorem C52_relevance_keeps_graph {P : Plat} {pq : PQ} {n : Nat} {g g' : PreparationGraph}
    {before : List WitnessCall} {ws ws' : WitnessSearch pq}
    (h₀ : runWitness P (WitnessSearch.new P pq n) before = .ok ws) {relevance : Nat → Int → Nat → Nat}
    {v level maxSettled p : Nat} (h : calcRelevance P relevance g ws v level maxSettled = .ok (g', ws', p)) : g' = g :=
  (calcRelevance_same (runWitness_self (WRel.new P pq n) h₀).b₁ h).1

example : ∃ ws', calcRelevance debug64 Ex.rel exPrep (WitnessSearch.new debug64 binaryHeap 5) 2 0 100 =
    .ok (exPrep, ws', 24) := ⟨_, rfl⟩

end Props
end FP
