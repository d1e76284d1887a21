import Verif.Proofs.ScaledSearch
set_option autoImplicit false
/-! # Preparation of a graph whose weights are scaled: helper lemmas for C133 -/
namespace FP

variable {P : Plat} {k : Nat} {pq : PQ} {S : pq.σ → pq.σ → Prop}

/-! ### Contraction -/
section Contraction
variable {β : Type} (hS : SameHeaps pq (fun w w' => w' = k * w) S) (hP : P.checked = true) (hk : Factor P k)

/-- States of `handle_shortcuts` in the two runs. -/
def ScaledHS (P : Plat) (k : Nat) (S : pq.σ → pq.σ → Prop) (s t : HSState pq β) : Prop :=
  t.graph = s.graph.scale k ∧ ScaledWs P k S s.ws t.ws ∧ t.acc = s.acc

/-- The closure does the same with scaled weights. -/
def ScaledHandle (k : Nat) (handle : PreparationGraph → β → Shortcut → M (PreparationGraph × β)) : Prop :=
  ∀ (g : PreparationGraph) (acc : β) (s : Shortcut), Back (fun r r' => r'.1 = r.1.scale k ∧ r'.2 = r.2) (handle g acc s)
    (handle (g.scale k) acc { s with weight := k * s.weight })

include hS hP hk

theorem handlePair_scale {handle : PreparationGraph → β → Shortcut → M (PreparationGraph × β)} (hh : ScaledHandle k handle)
    (node ms inNode i : Nat) (s t : HSState pq β) (j : Nat) (h : ScaledHS P k S s t) :
    Back (ScaledHS P k S) (handlePair P node handle ms inNode i s j) (handlePair P node handle ms inNode i t j) := by
  obtain ⟨g, ws, acc⟩ := s
  obtain ⟨g', ws', acc'⟩ := t
  obtain ⟨h1, h2, h3⟩ := h
  simp only at h1 h2 h3
  subst h1 h3
  unfold handlePair
  refine Back.bind (Back.idx_map (List.map (Arc.scale k)) _ _) ?_
  rintro ins _ rfl
  refine Back.bind (Back.idx_map (Arc.scale k) _ _) ?_
  rintro ia _ rfl
  refine Back.bind (Back.idx_map (List.map (Arc.scale k)) _ _) ?_
  rintro outs _ rfl
  refine Back.bind (Back.idx_map (Arc.scale k) _ _) ?_
  rintro oa _ rfl
  refine Back.bind (addW_scale hP hk ia.weight oa.weight) ?_
  rintro w _ ⟨rfl, hw⟩
  refine Back.bind (WitnessSearch.findMaxWeight_scale hS hP hk h2 g oa.adj hw ms) ?_
  rintro ⟨v, m⟩ ⟨v', m'⟩ ⟨hv, hm⟩
  simp only at hv hm
  have hle := hm.le_iff hk hw
  by_cases hc : m ≤ w
  · simp only
    rw [if_pos hc, if_pos (hle.2 hc)]
    exact Back.ok ⟨rfl, hv, rfl⟩
  · simp only
    rw [if_neg hc, if_neg (fun h => hc (hle.1 h))]
    refine Back.bind (hh g acc' ⟨inNode, oa.adj, node, w⟩) ?_
    rintro ⟨g1, a1⟩ ⟨g2, a2⟩ ⟨e1, e2⟩
    exact Back.ok ⟨e1, hv, e2⟩

theorem handleIn_scale {handle : PreparationGraph → β → Shortcut → M (PreparationGraph × β)} (hh : ScaledHandle k handle)
    (node ms : Nat) (s t : HSState pq β) (i : Nat) (h : ScaledHS P k S s t) :
    Back (ScaledHS P k S) (handleIn P node handle ms s i) (handleIn P node handle ms t i) := by
  obtain ⟨g, ws, acc⟩ := s
  obtain ⟨g', ws', acc'⟩ := t
  obtain ⟨h1, h2, h3⟩ := h
  simp only at h1 h2 h3
  subst h1 h3
  unfold handleIn
  refine Back.bind (Back.idx_map (List.map (Arc.scale k)) _ _) ?_
  rintro ins _ rfl
  refine Back.bind (Back.idx_map (Arc.scale k) _ _) ?_
  rintro ia _ rfl
  refine Back.bind (WitnessSearch.init_scale hS h2 ia.adj node) ?_
  intro v v' hv
  refine Back.bind (Back.idx_map (List.map (Arc.scale k)) _ _) ?_
  rintro outs _ rfl
  rw [List.length_map]
  exact Back.forM (fun s t j hst => handlePair_scale hS hP hk hh node ms _ i s t j hst) _ _ _ ⟨rfl, hv, rfl⟩

theorem handleShortcuts_scale {handle : PreparationGraph → β → Shortcut → M (PreparationGraph × β)} (hh : ScaledHandle k handle)
    (g : PreparationGraph) {ws ws' : WitnessSearch pq} (hw : ScaledWs P k S ws ws') (node : Nat) (acc : β) (ms : Nat) :
    Back (ScaledHS P k S) (handleShortcuts P g ws node handle acc ms) (handleShortcuts P (g.scale k) ws' node handle acc ms) := by
  unfold handleShortcuts
  refine Back.bind (Back.idx_map (List.map (Arc.scale k)) _ _) ?_
  rintro ins _ rfl
  rw [List.length_map]
  exact Back.forM (fun s t j hst => handleIn_scale hS hP hk hh node ms s t j hst) _ _ _ ⟨rfl, hw, rfl⟩

end Contraction

variable (hS : SameHeaps pq (fun w w' => w' = k * w) S) (hP : P.checked = true) (hk : Factor P k)
include hS hP hk

theorem contractNode_scale (g : PreparationGraph) {ws ws' : WitnessSearch pq} (hw : ScaledWs P k S ws ws') (node ms : Nat) :
    Back (fun r r' => r'.1 = r.1.scale k ∧ ScaledWs P k S r.2 r'.2) (contractNode P g ws node ms)
      (contractNode P (g.scale k) ws' node ms) := by
  unfold contractNode
  refine Back.bind (handleShortcuts_scale hS hP hk (handle := addShortcut) ?_ g hw node () ms) ?_
  · intro g acc s
    unfold addShortcut
    refine Back.bind (PreparationGraph.addOrReduceEdge_scale hk.pos g s.src s.dst s.weight s.center) ?_
    rintro g _ rfl
    exact Back.ok ⟨rfl, rfl⟩
  · rintro s t ⟨h1, h2, _⟩
    rw [h1]
    refine Back.bind (PreparationGraph.disconnect_scale s.graph node) ?_
    rintro g _ rfl
    exact Back.ok ⟨rfl, h2⟩

theorem calcRelevance_scale (relevance : Nat → Int → Nat → Nat) (g : PreparationGraph) {ws ws' : WitnessSearch pq}
    (hw : ScaledWs P k S ws ws') (node level ms : Nat) :
    Back (fun r r' => r'.1 = r.1.scale k ∧ ScaledWs P k S r.2.1 r'.2.1 ∧ r'.2.2 = r.2.2) (calcRelevance P relevance g ws node level ms)
      (calcRelevance P relevance (g.scale k) ws' node level ms) := by
  unfold calcRelevance
  refine Back.bind (handleShortcuts_scale hS hP hk (handle := countShortcut P) ?_ g hw node 0 ms) ?_
  · intro g acc s
    unfold countShortcut
    split
    · exact Back.ok ⟨rfl, rfl⟩
    · exact Back.error
  · rintro s t ⟨h1, h2, h3⟩
    rw [h1, h3]
    refine Back.bind (Back.idx_map (List.map (Arc.scale k)) _ _) ?_
    rintro outs _ rfl
    refine Back.bind (Back.idx_map (List.map (Arc.scale k)) _ _) ?_
    rintro ins _ rfl
    rw [List.length_map, List.length_map]
    exact Back.ok ⟨rfl, h2, rfl⟩

/-! ### The prepared graph -/

omit hS hP hk in
theorem pushArcs_scale (node : Nat) (es : List FastGraphEdge) (arcs : List Arc) :
    Back (Sc (List.map (FastGraphEdge.scale k))) (pushArcs P node es arcs)
      (pushArcs P node (es.map (FastGraphEdge.scale k)) (arcs.map (Arc.scale k))) := by
  unfold pushArcs
  refine Back.forM_map (Arc.scale k) ?_ arcs _ _ rfl
  rintro es _ a rfl
  unfold vecPush
  rw [List.length_map]
  split
  · exact Back.ok (by simp [Sc, FastGraphEdge.scale, Arc.scale])
  · exact Back.error

omit hS hP hk in
theorem recordNode_scale (fg : FastGraph) (pg : PreparationGraph) (rank node : Nat) :
    Back (Sc (FastGraph.scale k)) (recordNode P fg pg rank node) (recordNode P (fg.scale k) (pg.scale k) rank node) := by
  unfold recordNode
  refine Back.bind (Back.idx_map (List.map (Arc.scale k)) _ _) ?_
  rintro outs _ rfl
  refine Back.bind (pushArcs_scale node fg.edgesFwd outs) ?_
  rintro ef _ rfl
  rw [List.length_map]
  refine Back.bind (R := Eq) (Back.of_eq rfl) ?_
  rintro ff _ rfl
  refine Back.bind (Back.idx_map (List.map (Arc.scale k)) _ _) ?_
  rintro ins _ rfl
  refine Back.bind (pushArcs_scale node fg.edgesBwd ins) ?_
  rintro eb _ rfl
  rw [List.length_map]
  refine Back.bind (R := Eq) (Back.of_eq rfl) ?_
  rintro fb _ rfl
  refine Back.bind (R := Eq) (Back.of_eq rfl) ?_
  rintro ranks _ rfl
  exact Back.ok rfl

omit hS hP hk in
theorem findEdgeId_scale (es : List FastGraphEdge) (adj : Nat) : ∀ l : List Nat,
    Back Eq (findEdgeId es adj l) (findEdgeId (es.map (FastGraphEdge.scale k)) adj l)
  | [] => Back.error
  | e :: l => by
    unfold findEdgeId
    refine Back.bind (Back.idx_map (FastGraphEdge.scale k) _ _) ?_
    rintro ed _ rfl
    by_cases hc : (ed.adjNode == adj) = true
    · have hc' : ((ed.scale k).adjNode == adj) = true := hc
      rw [if_pos hc, if_pos hc']
      exact Back.ok rfl
    · have hc' : ¬ ((ed.scale k).adjNode == adj) = true := hc
      rw [if_neg hc, if_neg hc']
      exact findEdgeId_scale es adj l

omit hS hP hk in
theorem getOutEdgeId_scale (fg : FastGraph) (node adj : Nat) : Back Eq (getOutEdgeId fg node adj) (getOutEdgeId (fg.scale k) node adj) := by
  unfold getOutEdgeId
  refine Back.bind (R := Eq) (Back.of_eq rfl) ?_
  rintro b _ rfl
  refine Back.bind (R := Eq) (Back.of_eq rfl) ?_
  rintro e _ rfl
  exact findEdgeId_scale _ _ _

omit hS hP hk in
theorem getInEdgeId_scale (fg : FastGraph) (node adj : Nat) : Back Eq (getInEdgeId fg node adj) (getInEdgeId (fg.scale k) node adj) := by
  unfold getInEdgeId
  refine Back.bind (R := Eq) (Back.of_eq rfl) ?_
  rintro b _ rfl
  refine Back.bind (R := Eq) (Back.of_eq rfl) ?_
  rintro e _ rfl
  exact findEdgeId_scale _ _ _

omit hS hP hk in
theorem finishFwdEdge_scale (i : Nat) (fg : FastGraph) (id : Nat) :
    Back (Sc (FastGraph.scale k)) (finishFwdEdge P i fg id) (finishFwdEdge P i (fg.scale k) id) := by
  unfold finishFwdEdge
  refine Back.bind (Back.idx_map (FastGraphEdge.scale k) _ _) ?_
  rintro ed _ rfl
  dsimp only
  by_cases hc : (ed.replacedInEdge == P.INVALID_NODE) = true
  · have hc' : ((ed.scale k).replacedInEdge == P.INVALID_NODE) = true := hc
    rw [if_pos hc, if_pos hc']
    refine Back.bind (R := Eq) (Back.of_eq rfl) ?_
    rintro _ _ rfl
    exact Back.ok (by simp [Sc, FastGraph.scale, List.map_set, FastGraphEdge.scale])
  · have hc' : ¬ ((ed.scale k).replacedInEdge == P.INVALID_NODE) = true := hc
    rw [if_neg hc, if_neg hc']
    refine Back.bind (getInEdgeId_scale _ _ _) ?_
    rintro ei _ rfl
    refine Back.bind (getOutEdgeId_scale _ _ _) ?_
    rintro eo _ rfl
    exact Back.ok (by simp [Sc, FastGraph.scale, List.map_set, FastGraphEdge.scale])

omit hS hP hk in
theorem finishBwdEdge_scale (i : Nat) (fg : FastGraph) (id : Nat) :
    Back (Sc (FastGraph.scale k)) (finishBwdEdge P i fg id) (finishBwdEdge P i (fg.scale k) id) := by
  unfold finishBwdEdge
  refine Back.bind (Back.idx_map (FastGraphEdge.scale k) _ _) ?_
  rintro ed _ rfl
  dsimp only
  by_cases hc : (ed.replacedInEdge == P.INVALID_NODE) = true
  · have hc' : ((ed.scale k).replacedInEdge == P.INVALID_NODE) = true := hc
    rw [if_pos hc, if_pos hc']
    refine Back.bind (R := Eq) (Back.of_eq rfl) ?_
    rintro _ _ rfl
    exact Back.ok (by simp [Sc, FastGraph.scale, List.map_set, FastGraphEdge.scale])
  · have hc' : ¬ ((ed.scale k).replacedInEdge == P.INVALID_NODE) = true := hc
    rw [if_neg hc, if_neg hc']
    refine Back.bind (getInEdgeId_scale _ _ _) ?_
    rintro ei _ rfl
    refine Back.bind (getOutEdgeId_scale _ _ _) ?_
    rintro eo _ rfl
    exact Back.ok (by simp [Sc, FastGraph.scale, List.map_set, FastGraphEdge.scale])

omit hS hP hk in
theorem finishContraction_scale (n : Nat) (fg : FastGraph) :
    Back (Sc (FastGraph.scale k)) (finishContraction P n fg) (finishContraction P n (fg.scale k)) := by
  unfold finishContraction
  refine Back.bind (Back.forM (R := Sc (FastGraph.scale k)) ?_ _ _ _ rfl) ?_
  · rintro fg _ i rfl
    unfold finishFwdNode
    refine Back.bind (R := Eq) (Back.of_eq rfl) ?_
    rintro b _ rfl
    refine Back.bind (R := Eq) (Back.of_eq rfl) ?_
    rintro e _ rfl
    exact Back.forM (R := Sc (FastGraph.scale k)) (by rintro fg _ id rfl; exact finishFwdEdge_scale i fg id) _ _ _ rfl
  · rintro fg _ rfl
    refine Back.forM (R := Sc (FastGraph.scale k)) ?_ _ _ _ rfl
    rintro fg _ i rfl
    unfold finishBwdNode
    refine Back.bind (R := Eq) (Back.of_eq rfl) ?_
    rintro b _ rfl
    refine Back.bind (R := Eq) (Back.of_eq rfl) ?_
    rintro e _ rfl
    exact Back.forM (R := Sc (FastGraph.scale k)) (by rintro fg _ id rfl; exact finishBwdEdge_scale i fg id) _ _ _ rfl

/-! ### The loops -/

/-- States of the contraction in the two runs. -/
def ScaledB (P : Plat) (k : Nat) (S : pq.σ → pq.σ → Prop) (s t : BState pq) : Prop :=
  t.pg = s.pg.scale k ∧ ScaledWs P k S s.ws t.ws ∧ t.fg = s.fg.scale k

theorem recordAndContract_scale (ms : Nat) (s t : BState pq) (h : ScaledB P k S s t) (rank node : Nat) :
    Back (ScaledB P k S) (recordAndContract P ms s rank node) (recordAndContract P ms t rank node) := by
  obtain ⟨h1, h2, h3⟩ := h
  unfold recordAndContract
  rw [h1, h3]
  refine Back.bind (recordNode_scale s.fg s.pg rank node) ?_
  rintro fg _ rfl
  refine Back.bind (contractNode_scale hS hP hk s.pg h2 node ms) ?_
  rintro ⟨pg, ws⟩ ⟨pg', ws'⟩ ⟨e1, e2⟩
  exact Back.ok ⟨e1, e2, rfl⟩

omit hP hk in
theorem newWs_scale (n : Nat) : ScaledWs P k S (WitnessSearch.new P pq n) (WitnessSearch.new P pq n) := by
  refine ⟨rfl, ?_, rfl, hS.empty, rfl, rfl, rfl⟩
  show List.Forall₂ _ (List.replicate n _) (List.replicate n _)
  induction n with
  | zero => exact .nil
  | succ n ih => rw [List.replicate_succ]; exact .cons ⟨rfl, .inr ⟨rfl, rfl⟩⟩ ih

omit hS hP hk in
theorem newFg_scale (n : Nat) : Back (Sc (FastGraph.scale k)) (FastGraph.new P n) (FastGraph.new P n) := by
  unfold FastGraph.new
  split
  · exact Back.ok rfl
  · exact Back.error

theorem buildWithOrder_scale (ig : InputGraph) (order : List Nat) (ms : Nat) :
    Back (fun r r' => r' = r.map (FastGraph.scale k)) (buildWithOrderWithParams P pq ig order ms)
      (buildWithOrderWithParams P pq (ig.scale k) order ms) := by
  unfold buildWithOrderWithParams
  refine Back.bind (R := Eq) (Back.of_eq rfl) ?_
  rintro n _ rfl
  split
  · exact Back.ok rfl
  · refine Back.bind (R := Sc (FastGraph.scale k)) ?_ ?_
    · unfold runContractionWithOrder
      refine Back.bind (newFg_scale (k := k) n) ?_
      rintro fg _ rfl
      refine Back.bind (PreparationGraph.fromInputGraph_scale ig) ?_
      rintro pg _ rfl
      refine Back.bind (Back.forM (R := ScaledB P k S) ?_ _ _ _ ⟨rfl, newWs_scale hS n, rfl⟩) ?_
      · rintro s t ⟨node, rank⟩ h
        unfold orderStep
        simp only
        split
        · exact Back.error
        · exact recordAndContract_scale hS hP hk ms s t h rank node
      · rintro s t ⟨_, _, h⟩
        rw [h]
        exact finishContraction_scale n s.fg
    · rintro fg _ rfl
      exact Back.ok rfl

variable {nq : NodeQueue}

/-- States of the contraction with priorities in the two runs. -/
def ScaledQ (P : Plat) (k : Nat) (S : pq.σ → pq.σ → Prop) (s t : QState pq nq) : Prop :=
  ScaledB P k S s.b t.b ∧ t.levels = s.levels ∧ t.queue = s.queue

theorem initialPriority_scale (params : Params) (s t : QState pq nq) (i : Nat) (h : ScaledQ P k S s t) :
    Back (ScaledQ P k S) (initialPriority P params s i) (initialPriority P params t i) := by
  obtain ⟨⟨h1, h2, h3⟩, h4, h5⟩ := h
  unfold initialPriority
  rw [h1]
  refine Back.bind (calcRelevance_scale hS hP hk params.relevance s.b.pg h2 i 0 _) ?_
  rintro ⟨pg, ws, p⟩ ⟨pg', ws', p'⟩ ⟨e1, e2, e3⟩
  simp only at e1 e2 e3
  exact Back.ok ⟨⟨e1, e2, h3⟩, h4, by simp only [e3, h5]⟩

theorem updateNeighbor_scale (params : Params) (node : Nat) (s t : QState pq nq) (i : Nat) (h : ScaledQ P k S s t) :
    Back (ScaledQ P k S) (updateNeighbor P params node s i) (updateNeighbor P params node t i) := by
  obtain ⟨⟨h1, h2, h3⟩, h4, h5⟩ := h
  unfold updateNeighbor
  rw [h1, h4]
  refine Back.bind (R := Eq) (Back.of_eq rfl) ?_
  rintro ln _ rfl
  refine Back.bind (R := Eq) (Back.of_eq rfl) ?_
  rintro lv _ rfl
  refine Back.bind (R := Eq) (Back.of_eq rfl) ?_
  rintro lv1 _ rfl
  refine Back.bind (R := Eq) (Back.of_eq rfl) ?_
  rintro levels _ rfl
  refine Back.bind (R := Eq) (Back.of_eq rfl) ?_
  rintro l _ rfl
  refine Back.bind (calcRelevance_scale hS hP hk params.relevance s.b.pg h2 i l _) ?_
  rintro ⟨pg, ws, p⟩ ⟨pg', ws', p'⟩ ⟨e1, e2, e3⟩
  simp only at e1 e2 e3
  exact Back.ok ⟨⟨e1, e2, h3⟩, rfl, by simp only [e3, h5]⟩

omit hS hP hk in
theorem neighborSet_scale (outs ins : List Arc) :
    neighborSet (outs.map (Arc.scale k)) (ins.map (Arc.scale k)) = neighborSet outs ins := by
  unfold neighborSet
  rw [List.foldl_map, List.foldl_map]
  rfl

theorem contractionLoop_scale (params : Params) : ∀ (fuel rank : Nat) (s t : QState pq nq), ScaledQ P k S s t →
    Back (ScaledQ P k S) (contractionLoop P params fuel rank s) (contractionLoop P params fuel rank t)
  | 0, _, _, _, _ => Back.error
  | fuel + 1, rank, s, t, h => by
    obtain ⟨hB, h4, h5⟩ := h
    unfold contractionLoop
    rw [h5]
    cases nq.pop s.queue with
    | none => exact Back.ok ⟨hB, h4, h5⟩
    | some r =>
      obtain ⟨node, queue⟩ := r
      simp only
      rw [hB.1]
      refine Back.bind (Back.idx_map (List.map (Arc.scale k)) _ _) ?_
      rintro outs _ rfl
      refine Back.bind (Back.idx_map (List.map (Arc.scale k)) _ _) ?_
      rintro ins _ rfl
      rw [neighborSet_scale]
      refine Back.bind (recordAndContract_scale hS hP hk params.maxSettledContraction s.b t.b hB rank node) ?_
      intro b b' hb
      refine Back.bind (Back.forM (R := ScaledQ P k S) (fun s t i hst => updateNeighbor_scale hS hP hk params node s t i hst) _ _ _
        ⟨hb, h4, rfl⟩) ?_
      intro s1 t1 h1
      exact contractionLoop_scale params fuel _ _ _ h1

theorem buildWithParams_scale (ig : InputGraph) (params : Params) :
    Back (Sc (FastGraph.scale k)) (buildWithParams P pq nq ig params) (buildWithParams P pq nq (ig.scale k) params) := by
  unfold buildWithParams
  refine Back.bind (R := Eq) (Back.of_eq rfl) ?_
  rintro n _ rfl
  unfold runContraction
  refine Back.bind (newFg_scale (k := k) n) ?_
  rintro fg _ rfl
  refine Back.bind (PreparationGraph.fromInputGraph_scale ig) ?_
  rintro pg _ rfl
  refine Back.bind (Back.forM (R := ScaledQ P k S) (fun s t i hst => initialPriority_scale hS hP hk params s t i hst) _ _ _
    ⟨⟨rfl, newWs_scale hS n, rfl⟩, rfl, rfl⟩) ?_
  intro s t h
  refine Back.bind (contractionLoop_scale hS hP hk params _ _ _ _ h) ?_
  rintro s t ⟨⟨_, _, h⟩, _⟩
  rw [h]
  exact finishContraction_scale n s.b.fg

end FP
