import Verif.Proofs.Errs
import Verif.Proofs.Refine
import Verif.Proofs.Reorder
/-! # The debug assertions of `finish_contraction` never fail

For every input graph and every list of nodes, not only permutations. -/
namespace FP

variable {α β σ : Type} {pq : PQ}

/-- `m` does not fail a debug assertion, and `Q` holds of what it returns. -/
def DTri (m : M α) (Q : α → Prop) : Prop := (∀ a, m = .ok a → Q a) ∧ m ≠ .error .debugAssertion

theorem DTri.ok {a : α} {Q : α → Prop} (h : Q a) : DTri (.ok a) Q := ⟨fun b hb => by cases hb; exact h, by simp⟩

theorem DTri.of_qerr {m : M α} {Q : α → Prop} (h : QErr m) (hQ : ∀ a, m = .ok a → Q a) : DTri m Q := ⟨hQ, h.2⟩

theorem DTri.bind {m : M α} {f : α → M β} {Q : α → Prop} {R : β → Prop} (h : DTri m Q)
    (hf : ∀ a, Q a → DTri (f a) R) : DTri (m >>= f) R := by
  cases m with
  | ok a => exact hf a (h.1 a rfl)
  | error e => exact ⟨fun a ha => (by injection ha), fun he => h.2 (by injection he with he; rw [he])⟩

theorem DTri.bindq {m : M α} {f : α → M β} {R : β → Prop} (h : QErr m)
    (hf : ∀ a, m = .ok a → DTri (f a) R) : DTri (m >>= f) R := DTri.bind (Q := fun a => m = .ok a) (DTri.of_qerr h (fun _ e => e)) hf

theorem DTri.forM {f : σ → α → M σ} {Q : σ → Prop} (hf : ∀ s a, Q s → DTri (f s a) Q) :
    ∀ (l : List α) (s : σ), Q s → DTri (forM f s l) Q
  | [], _, h => DTri.ok h
  | a :: as, s, h => DTri.bind (hf s a h) (fun s hs => DTri.forM hf as s hs)

section
variable (P : Plat)

/-! ### Contraction -/

theorem qerr_addEdgeOrShortcut (g : PreparationGraph) (s d w c : Nat) : QErr (g.addEdgeOrShortcut s d w c) := by
  unfold PreparationGraph.addEdgeOrShortcut; qerr

theorem qerr_reduceEdge (g : PreparationGraph) (s d w c : Nat) : QErr (g.reduceEdge s d w c) := by
  unfold PreparationGraph.reduceEdge
  refine QErr.bind (QErr.idx _ _) (fun outs => ?_)
  cases outs.find? (fun a => a.adj == d) with
  | none => exact QErr.ok _
  | some o => exact QErr.ite (QErr.ok _) (QErr.bind (QErr.idx _ _) (fun _ => QErr.ite (QErr.ok _) (QErr.ok _)))

theorem qerr_addShortcut (g : PreparationGraph) (u : Unit) (s : Shortcut) : QErr (addShortcut g u s) := by
  unfold addShortcut PreparationGraph.addOrReduceEdge
  exact QErr.bind (QErr.bind (qerr_reduceEdge _ _ _ _ _) (fun _ => QErr.ite (QErr.ok _) (qerr_addEdgeOrShortcut _ _ _ _ _)))
    (fun _ => QErr.ok _)

theorem qerr_disconnect (g : PreparationGraph) (x : Nat) : QErr (g.disconnect x) := by
  unfold PreparationGraph.disconnect PreparationGraph.removeInEdge PreparationGraph.removeOutEdge
    PreparationGraph.removeEdgeWithAdjNode
  qerr

theorem qerr_wsUpdateNode (ws : WitnessSearch pq) (x w : Nat) : QErr (ws.updateNode x w) := by
  unfold WitnessSearch.updateNode ValidFlags.setValid; qerr

theorem qerr_wsIsSettled (ws : WitnessSearch pq) (x : Nat) : QErr (ws.isSettled x) := by
  unfold WitnessSearch.isSettled; exact QErr.bind (qerr_isValid _ _) (fun _ => by qerr)

theorem qerr_getCurrentWeight (ws : WitnessSearch pq) (x : Nat) : QErr (ws.getCurrentWeight P x) := by
  unfold WitnessSearch.getCurrentWeight; exact QErr.bind (qerr_isValid _ _) (fun _ => by qerr)

theorem qerr_wsInit (ws : WitnessSearch pq) (s v : Nat) : QErr (ws.init P s v) := by
  unfold WitnessSearch.init
  exact QErr.bind (QErr.assertM _) (fun _ => QErr.bind (QErr.assertM _) (fun _ => QErr.bind (qerr_wsUpdateNode _ _ _)
    (fun _ => QErr.ok _)))

theorem qerr_relaxArc (curr : HeapItem) (t wl : Nat) (st : WitnessSearch pq × Bool) (a : Arc) :
    QErr (WitnessSearch.relaxArc P curr t wl st a) := by
  unfold WitnessSearch.relaxArc
  exact QErr.ite (QErr.ok _) (QErr.bind (QErr.addW _ _ _) (fun _ => QErr.bind (qerr_getCurrentWeight P _ _) (fun _ =>
    QErr.ite (QErr.bind (qerr_wsUpdateNode _ _ _) (fun _ => QErr.ok _)) (QErr.ok _))))

theorem qerr_findLoop (g : PreparationGraph) (t wl sl : Nat) : ∀ (fuel : Nat) (ws : WitnessSearch pq),
    QErr (WitnessSearch.findLoop P g t wl sl fuel ws)
  | 0, _ => QErr.fuel
  | fuel + 1, ws => by
    unfold WitnessSearch.findLoop
    cases hp : pq.pop ws.heap with
    | none => exact QErr.ok _
    | some r =>
      obtain ⟨curr, heap'⟩ := r
      simp only
      refine QErr.ite (QErr.ok _) (QErr.ite (QErr.ok _) (QErr.bind (qerr_wsIsSettled _ _) (fun _ => QErr.ite ?_ ?_)))
      · exact qerr_findLoop g t wl sl fuel _
      · refine QErr.bind (QErr.idx _ _) (fun _ => QErr.bind (QErr.forM (fun _ _ => qerr_relaxArc P _ _ _ _ _) _ _)
          (fun _ => QErr.bind (QErr.modIdx _ _ _) (fun _ => QErr.ite (QErr.ok _) ?_)))
        exact qerr_findLoop g t wl sl fuel _

theorem qerr_findMaxWeight (ws : WitnessSearch pq) (g : PreparationGraph) (t wl sl : Nat) :
    QErr (ws.findMaxWeight P g t wl sl) := by
  unfold WitnessSearch.findMaxWeight
  refine QErr.bind (QErr.assertM _) (fun _ => QErr.bind (QErr.assertM _) (fun _ => QErr.bind (QErr.assertM _) (fun _ =>
    QErr.ite (QErr.ok _) (QErr.bind (qerr_isValid _ _) (fun _ => QErr.bind (QErr.ite (QErr.bind (QErr.idx _ _)
      (fun _ => QErr.ok _)) (QErr.ok _)) (fun early => ?_))))))
  cases early with
  | none => exact QErr.bind (qerr_findLoop P _ _ _ _ _ _) (fun _ => QErr.bind (qerr_getCurrentWeight P _ _) (fun _ => QErr.ok _))
  | some w => exact QErr.ok _

theorem qerr_handleShortcuts {handle : PreparationGraph → β → Shortcut → M (PreparationGraph × β)}
    (hh : ∀ g acc s, QErr (handle g acc s)) (g : PreparationGraph) (ws : WitnessSearch pq) (node : Nat) (acc : β) (ms : Nat) :
    QErr (handleShortcuts P g ws node handle acc ms) := by
  unfold handleShortcuts
  refine QErr.bind (QErr.idx _ _) (fun _ => QErr.forM (fun st i => ?_) _ _)
  unfold handleIn
  refine QErr.bind (QErr.idx _ _) (fun _ => QErr.bind (QErr.idx _ _) (fun _ => QErr.bind (qerr_wsInit P _ _ _) (fun _ =>
    QErr.bind (QErr.idx _ _) (fun _ => QErr.forM (fun st j => ?_) _ _))))
  unfold handlePair
  exact QErr.bind (QErr.idx _ _) (fun _ => QErr.bind (QErr.idx _ _) (fun _ => QErr.bind (QErr.idx _ _) (fun _ =>
    QErr.bind (QErr.idx _ _) (fun _ => QErr.bind (QErr.addW _ _ _) (fun _ => QErr.bind (qerr_findMaxWeight P _ _ _ _ _)
      (fun _ => QErr.ite (QErr.ok _) (QErr.bind (hh _ _ _) (fun _ => QErr.ok _))))))))

theorem qerr_contractNode (g : PreparationGraph) (ws : WitnessSearch pq) (node ms : Nat) :
    QErr (contractNode P g ws node ms) := by
  unfold contractNode
  exact QErr.bind (qerr_handleShortcuts P qerr_addShortcut _ _ _ _ _) (fun _ => QErr.bind (qerr_disconnect _ _) (fun _ => QErr.ok _))

theorem qerr_calcRelevance (rel : Nat → Int → Nat → Nat) (g : PreparationGraph) (ws : WitnessSearch pq) (node l ms : Nat) :
    QErr (calcRelevance P rel g ws node l ms) := by
  unfold calcRelevance
  refine QErr.bind (qerr_handleShortcuts P (fun g n s => ?_) _ _ _ _ _) (fun _ => by qerr)
  unfold countShortcut
  exact QErr.ite (QErr.ok _) (QErr.ite ⟨by simp, by simp⟩ (QErr.ok _))

theorem qerr_fromInputGraph (ig : InputGraph) : QErr (PreparationGraph.fromInputGraph P ig) := by
  unfold PreparationGraph.fromInputGraph InputGraph.getNumNodes InputGraph.getEdges InputGraph.checkFrozen
  exact QErr.bind (by qerr) (fun _ => QErr.bind (by qerr) (fun _ =>
    QErr.forM (fun _ _ => qerr_addEdgeOrShortcut _ _ _ _ _) _ _))

/-! ### Stored edges -/

/-- Edges without first half have no second half, and there are at most `usize::MAX` edges, so ids are below `INVALID_EDGE`. -/
def HalvesOk (es : List FastGraphEdge) : Prop :=
  es.length ≤ P.umax ∧ ∀ ed ∈ es, ed.replacedInEdge = P.umax → ed.replacedOutEdge = P.umax

theorem pushArcs_halves (node : Nat) {es : List FastGraphEdge} (arcs : List Arc) (h : HalvesOk P es) :
    DTri (pushArcs P node es arcs) (HalvesOk P) := by
  unfold pushArcs
  refine DTri.forM (fun es a h => ?_) _ _ h
  unfold vecPush
  by_cases hl : es.length < P.umax
  · rw [if_pos hl]
    refine DTri.ok ⟨by simp; omega, ?_⟩
    intro ed hed hr
    rcases List.mem_append.1 hed with hed | hed
    · exact h.2 ed hed hr
    · simp only [List.mem_singleton] at hed
      subst hed
      rfl
  · rw [if_neg hl]
    exact ⟨fun a ha => (by injection ha), by simp⟩

/-- Both lists of stored edges are as above. -/
def GraphHalves (fg : FastGraph) : Prop := HalvesOk P fg.edgesFwd ∧ HalvesOk P fg.edgesBwd

theorem recordAndContract_halves (ms : Nat) (st : BState pq) (rank node : Nat) (h : GraphHalves P st.fg) :
    DTri (recordAndContract P ms st rank node) (fun st => GraphHalves P st.fg) := by
  unfold recordAndContract
  refine DTri.bind (Q := GraphHalves P) ?_ (fun fg hfg => DTri.bindq (qerr_contractNode P _ _ _ _) (fun r _ => DTri.ok hfg))
  unfold recordNode
  refine DTri.bindq (QErr.idx _ _) (fun outs _ => DTri.bind (pushArcs_halves P _ outs h.1) (fun ef hef =>
    DTri.bindq (QErr.setIdx _ _ _) (fun _ _ => DTri.bindq (QErr.idx _ _) (fun ins _ =>
    DTri.bind (pushArcs_halves P _ ins h.2) (fun eb heb => DTri.bindq (QErr.setIdx _ _ _) (fun _ _ =>
    DTri.bindq (QErr.setIdx _ _ _) (fun _ _ => DTri.ok ⟨hef, heb⟩)))))))

theorem orderStep_halves (n ms : Nat) (st : BState pq) (x : Nat × Nat) (h : GraphHalves P st.fg) :
    DTri (orderStep P n ms st x) (fun st => GraphHalves P st.fg) := by
  unfold orderStep
  simp only
  by_cases hx : x.1 ≥ n
  · rw [if_pos hx]; exact ⟨fun a ha => (by injection ha), by simp⟩
  · rw [if_neg hx]; exact recordAndContract_halves P _ _ _ _ h

theorem contractionLoop_halves {nq : NodeQueue} (params : Params) : ∀ (fuel rank : Nat) (st : QState pq nq),
    GraphHalves P st.b.fg → DTri (contractionLoop P params fuel rank st) (fun st => GraphHalves P st.b.fg)
  | 0, _, _, _ => ⟨fun a ha => (by simp [contractionLoop] at ha), by simp [contractionLoop]⟩
  | fuel + 1, rank, st, h => by
    unfold contractionLoop
    cases hp : nq.pop st.queue with
    | none => exact DTri.ok h
    | some r =>
      obtain ⟨node, queue⟩ := r
      simp only
      refine DTri.bindq (QErr.idx _ _) (fun outs _ => DTri.bindq (QErr.idx _ _) (fun ins _ =>
        DTri.bind (recordAndContract_halves P _ _ _ _ h) (fun b hb => ?_)))
      refine DTri.bind (DTri.forM (Q := fun st : QState pq nq => GraphHalves P st.b.fg) (fun st x h => ?_) _ _ hb)
        (fun st h => contractionLoop_halves params fuel _ st h)
      unfold updateNeighbor
      exact DTri.bindq (QErr.idx _ _) (fun _ _ => DTri.bindq (QErr.idx _ _) (fun _ _ => DTri.bindq (QErr.addW _ _ _) (fun _ _ =>
        DTri.bindq (QErr.setIdx _ _ _) (fun _ _ => DTri.bindq (QErr.idx _ _) (fun _ _ =>
        DTri.bindq (qerr_calcRelevance P _ _ _ _ _ _) (fun _ _ => DTri.ok h))))))

/-! ### `finish_contraction` -/

theorem qerr_findEdgeId (es : List FastGraphEdge) (adj : Nat) : ∀ l, QErr (findEdgeId es adj l)
  | [] => ⟨by simp [findEdgeId], by simp [findEdgeId]⟩
  | a :: as => by
    unfold findEdgeId
    exact QErr.bind (QErr.idx _ _) (fun _ => QErr.ite (QErr.ok _) (qerr_findEdgeId es adj as))

theorem findEdgeId_lt {es : List FastGraphEdge} {adj : Nat} : ∀ {l : List Nat} {e : Nat},
    findEdgeId es adj l = .ok e → e < es.length
  | [], _, h => by simp [findEdgeId] at h
  | a :: as, e, h => by
    unfold findEdgeId at h
    obtain ⟨ed, h1, h2⟩ := bind_eq_ok.1 h
    by_cases hc : (ed.adjNode == adj) = true
    · rw [if_pos hc] at h2
      injection h2 with h2
      subst h2
      unfold idx at h1
      cases hl : es[a]? with
      | none => rw [hl] at h1; cases h1
      | some b =>
        by_contra hcon
        rw [List.getElem?_eq_none (by omega)] at hl
        cases hl
    · rw [if_neg hc] at h2
      exact findEdgeId_lt h2

theorem qerr_getOutEdgeId (fg : FastGraph) (x a : Nat) : QErr (getOutEdgeId fg x a) :=
  QErr.bind (qerr_bo _ _) (fun _ => QErr.bind (qerr_eo _ _) (fun _ => qerr_findEdgeId _ _ _))

theorem qerr_getInEdgeId (fg : FastGraph) (x a : Nat) : QErr (getInEdgeId fg x a) :=
  QErr.bind (qerr_bi _ _) (fun _ => QErr.bind (qerr_ei _ _) (fun _ => qerr_findEdgeId _ _ _))

theorem getInEdgeId_lt {fg : FastGraph} {x a e : Nat} (h : getInEdgeId fg x a = .ok e) : e < fg.edgesBwd.length := by
  unfold getInEdgeId at h
  obtain ⟨_, _, h⟩ := bind_eq_ok.1 h
  obtain ⟨_, _, h⟩ := bind_eq_ok.1 h
  exact findEdgeId_lt h

theorem HalvesOk.set {es : List FastGraphEdge} (h : HalvesOk P es) (k : Nat) {ed : FastGraphEdge}
    (he : ed.replacedInEdge = P.umax → ed.replacedOutEdge = P.umax) : HalvesOk P (es.set k ed) := by
  refine ⟨by simpa using h.1, fun e hm => ?_⟩
  rcases List.mem_or_eq_of_mem_set hm with hm | rfl
  · exact h.2 e hm
  · exact he

theorem finishFwdEdge_halves (i : Nat) (fg : FastGraph) (k : Nat) (h : GraphHalves P fg) :
    DTri (finishFwdEdge P i fg k) (GraphHalves P) := by
  unfold finishFwdEdge
  refine DTri.bindq (QErr.idx _ _) (fun ed hed => ?_)
  have hm : ed ∈ fg.edgesFwd := by
    unfold idx at hed
    cases hl : fg.edgesFwd[k]? with
    | none => rw [hl] at hed; cases hed
    | some b => rw [hl] at hed; cases hed; exact List.mem_of_getElem? hl
  by_cases hc : ed.replacedInEdge = P.umax
  · have ho := h.1.2 ed hm hc
    rw [if_pos (by simpa [Plat.INVALID_NODE] using hc), debugAssertM_of (by simp [ho, Plat.INVALID_EDGE])]
    exact DTri.ok ⟨h.1.set P k (fun _ => ho), h.2⟩
  · rw [if_neg (by simpa [Plat.INVALID_NODE] using hc)]
    refine DTri.bindq (qerr_getInEdgeId _ _ _) (fun ei hei => DTri.bindq (qerr_getOutEdgeId _ _ _) (fun eo _ => ?_))
    have := getInEdgeId_lt hei
    have := h.2.1
    exact DTri.ok ⟨h.1.set P k (fun hu => by simp only at hu; omega), h.2⟩

theorem finishBwdEdge_halves (i : Nat) (fg : FastGraph) (k : Nat) (h : GraphHalves P fg) :
    DTri (finishBwdEdge P i fg k) (GraphHalves P) := by
  unfold finishBwdEdge
  refine DTri.bindq (QErr.idx _ _) (fun ed hed => ?_)
  have hm : ed ∈ fg.edgesBwd := by
    unfold idx at hed
    cases hl : fg.edgesBwd[k]? with
    | none => rw [hl] at hed; cases hed
    | some b => rw [hl] at hed; cases hed; exact List.mem_of_getElem? hl
  by_cases hc : ed.replacedInEdge = P.umax
  · have ho := h.2.2 ed hm hc
    rw [if_pos (by simpa [Plat.INVALID_NODE] using hc), debugAssertM_of (by simp [ho, Plat.INVALID_EDGE])]
    exact DTri.ok ⟨h.1, h.2.set P k (fun _ => ho)⟩
  · rw [if_neg (by simpa [Plat.INVALID_NODE] using hc)]
    refine DTri.bindq (qerr_getInEdgeId _ _ _) (fun ei hei => DTri.bindq (qerr_getOutEdgeId _ _ _) (fun eo _ => ?_))
    have := getInEdgeId_lt hei
    have := h.2.1
    exact DTri.ok ⟨h.1, h.2.set P k (fun hu => by simp only at hu; omega)⟩

theorem finishContraction_halves (n : Nat) (fg : FastGraph) (h : GraphHalves P fg) :
    DTri (finishContraction P n fg) (GraphHalves P) := by
  unfold finishContraction
  refine DTri.bind (DTri.forM (fun fg i h => ?_) _ _ h) (fun fg h => DTri.forM (fun fg i h => ?_) _ _ h)
  · exact DTri.bindq (qerr_bo _ _) (fun _ _ => DTri.bindq (qerr_eo _ _) (fun _ _ =>
      DTri.forM (fun fg k h => finishFwdEdge_halves P i fg k h) _ _ h))
  · exact DTri.bindq (qerr_bi _ _) (fun _ _ => DTri.bindq (qerr_ei _ _) (fun _ _ =>
      DTri.forM (fun fg k h => finishBwdEdge_halves P i fg k h) _ _ h))

theorem fastGraphNew_halves (n : Nat) : DTri (FastGraph.new P n) (GraphHalves P) := by
  unfold FastGraph.new
  by_cases hl : n < P.umax
  · rw [if_pos hl]
    exact DTri.ok ⟨⟨Nat.zero_le _, fun _ h => absurd h List.not_mem_nil⟩, Nat.zero_le _, fun _ h => absurd h List.not_mem_nil⟩
  · rw [if_neg hl]; exact ⟨fun a ha => (by injection ha), by simp⟩

/-- Any input graph, any list of nodes. -/
theorem buildWithOrder_noDebug (ig : InputGraph) (order : List Nat) (ms : Nat) :
    buildWithOrderWithParams P pq ig order ms ≠ .error .debugAssertion := by
  refine (?_ : DTri (buildWithOrderWithParams P pq ig order ms) (fun _ => True)).2
  unfold buildWithOrderWithParams
  refine DTri.bindq (by unfold InputGraph.getNumNodes InputGraph.checkFrozen; qerr) (fun n _ => ?_)
  by_cases hn : (n != order.length) = true
  · rw [if_pos hn]; exact DTri.ok trivial
  · rw [if_neg hn]
    refine DTri.bind (Q := fun _ => True) ?_ (fun _ _ => DTri.ok trivial)
    unfold runContractionWithOrder
    refine DTri.bind (fastGraphNew_halves P n) (fun fg hfg => DTri.bindq (qerr_fromInputGraph P _) (fun pg _ =>
      DTri.bind (DTri.forM (Q := fun st : BState pq => GraphHalves P st.fg) (fun st x h => orderStep_halves P _ _ st x h) _ _ hfg)
        (fun st hst => ?_)))
    exact ⟨fun _ _ => trivial, (finishContraction_halves P n st.fg hst).2⟩

/-- Any input graph, any parameters. -/
theorem buildWithParams_noDebug {nq : NodeQueue} (ig : InputGraph) (params : Params) :
    buildWithParams P pq nq ig params ≠ .error .debugAssertion := by
  refine (?_ : DTri (buildWithParams P pq nq ig params) (fun _ => True)).2
  unfold buildWithParams
  refine DTri.bindq (by unfold InputGraph.getNumNodes InputGraph.checkFrozen; qerr) (fun n _ => ?_)
  unfold runContraction
  refine DTri.bind (fastGraphNew_halves P n) (fun fg hfg => DTri.bindq (qerr_fromInputGraph P _) (fun pg _ =>
    DTri.bind (DTri.forM (Q := fun st : QState pq nq => GraphHalves P st.b.fg) (fun st x h => ?_) _ _ hfg)
      (fun st hst => DTri.bind (contractionLoop_halves P params _ _ st hst) (fun st hst => ?_))))
  · unfold initialPriority
    exact DTri.bindq (qerr_calcRelevance P _ _ _ _ _ _) (fun _ _ => DTri.ok h)
  · exact ⟨fun _ _ => trivial, (finishContraction_halves P n st.b.fg hst).2⟩

end
end FP
