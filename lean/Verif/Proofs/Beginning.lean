import Verif.Proofs.Finish
import Verif.Proofs.InputGraph
import Verif.Proofs.Reorder
import Verif.Model.Lib
set_option autoImplicit false
/-! # Two orders with the same beginning: helper lemmas for C135 -/
namespace FP

variable {P : Plat} {pq : PQ}

theorem pushArcs_prefix {node : Nat} {es es' : List FastGraphEdge} {arcs : List Arc} (h : pushArcs P node es arcs = .ok es') :
    es <+: es' := by
  unfold pushArcs at h
  refine forM_inv (I := fun _ (l : List FastGraphEdge) => es <+: l) ?_ _ [] _ _ (List.prefix_refl es) h
  intro pre a s s' hI hs
  unfold vecPush at hs
  split at hs
  · cases hs
    exact hI.trans (List.prefix_append _ _)
  · cases hs

/-- What later steps leave alone: the edges so far, the offsets up to `k` and the ranks of nodes outside `l`. -/
structure Grown (k : Nat) (l : List Nat) (a b : FastGraph) : Prop where
  ef : a.edgesFwd <+: b.edgesFwd
  eb : a.edgesBwd <+: b.edgesBwd
  ff : ∀ i ≤ k, b.firstEdgeIdsFwd[i]? = a.firstEdgeIdsFwd[i]?
  fb : ∀ i ≤ k, b.firstEdgeIdsBwd[i]? = a.firstEdgeIdsBwd[i]?
  ranks : ∀ v, v ∉ l → b.ranks[v]? = a.ranks[v]?

/-- The offsets at `k` are the ends of the arrays. -/
def EndsAt (k : Nat) (fg : FastGraph) : Prop :=
  fg.firstEdgeIdsFwd[k]? = some fg.edgesFwd.length ∧ fg.firstEdgeIdsBwd[k]? = some fg.edgesBwd.length

theorem orderSteps_grown {n ms : Nat} : ∀ (l : List Nat) (k : Nat) (st st' : BState pq),
    forM (orderStep P n ms) st (l.zipIdx k) = .ok st' → Grown k l st.fg st'.fg ∧ (EndsAt k st.fg → EndsAt (k + l.length) st'.fg)
  | [], k, st, st', h => by
    cases h
    exact ⟨⟨List.prefix_refl _, List.prefix_refl _, fun _ _ => rfl, fun _ _ => rfl, fun _ _ => rfl⟩, fun h => h⟩
  | v :: l, k, st, st', h => by
    rw [List.zipIdx_cons, forM_cons] at h
    obtain ⟨s, h1, h2⟩ := bind_eq_ok.1 h
    obtain ⟨hg, he⟩ := orderSteps_grown l (k + 1) s st' h2
    unfold orderStep at h1
    simp only at h1
    split at h1
    · cases h1
    · unfold recordAndContract at h1
      obtain ⟨fg, hr, h1⟩ := bind_eq_ok.1 h1
      obtain ⟨⟨pg, ws⟩, _, h1⟩ := bind_eq_ok.1 h1
      cases h1
      unfold recordNode at hr
      obtain ⟨outs, _, hr⟩ := bind_eq_ok.1 hr
      obtain ⟨ef, hef, hr⟩ := bind_eq_ok.1 hr
      obtain ⟨ff, hff, hr⟩ := bind_eq_ok.1 hr
      obtain ⟨ins, _, hr⟩ := bind_eq_ok.1 hr
      obtain ⟨eb, heb, hr⟩ := bind_eq_ok.1 hr
      obtain ⟨fb, hfb, hr⟩ := bind_eq_ok.1 hr
      obtain ⟨ranks, hrk, hr⟩ := bind_eq_ok.1 hr
      cases hr
      obtain ⟨l1, rfl⟩ := setIdx_eq_ok.1 hff
      obtain ⟨l2, rfl⟩ := setIdx_eq_ok.1 hfb
      obtain ⟨l3, rfl⟩ := setIdx_eq_ok.1 hrk
      refine ⟨⟨(pushArcs_prefix hef).trans hg.ef, (pushArcs_prefix heb).trans hg.eb, ?_, ?_, ?_⟩, fun _ => ?_⟩
      · intro i hi
        rw [hg.ff i (by omega)]
        exact List.getElem?_set_ne (by omega)
      · intro i hi
        rw [hg.fb i (by omega)]
        exact List.getElem?_set_ne (by omega)
      · intro u hu
        rw [hg.ranks u (fun h => hu (List.mem_cons_of_mem _ h))]
        exact List.getElem?_set_ne (fun e => hu (by rw [e]; exact List.mem_cons_self ..))
      · have := he ⟨List.getElem?_set_self l1, List.getElem?_set_self l2⟩
        rwa [show k + 1 + l.length = k + (v :: l).length by simp only [List.length_cons]; omega] at this

theorem sameCore_setFwd {fg : FastGraph} {k a b : Nat} {ed : FastGraphEdge} (h : fg.edgesFwd[k]? = some ed) :
    SameCore fg { fg with edgesFwd := fg.edgesFwd.set k { ed with replacedInEdge := a, replacedOutEdge := b } } := by
  refine ⟨rfl, rfl, rfl, rfl, ?_, rfl⟩
  simp only
  rw [List.map_set]
  exact set_eq_self (by rw [List.getElem?_map, h]; rfl)

theorem sameCore_setBwd {fg : FastGraph} {k a b : Nat} {ed : FastGraphEdge} (h : fg.edgesBwd[k]? = some ed) :
    SameCore fg { fg with edgesBwd := fg.edgesBwd.set k { ed with replacedInEdge := a, replacedOutEdge := b } } := by
  refine ⟨rfl, rfl, rfl, rfl, rfl, ?_⟩
  simp only
  rw [List.map_set]
  exact set_eq_self (by rw [List.getElem?_map, h]; rfl)

theorem sameCore_forM {α : Type} {f : FastGraph → α → M FastGraph} (hf : ∀ s a s', f s a = .ok s' → SameCore s s') {l : List α}
    {s s' : FastGraph} (h : forM f s l = .ok s') : SameCore s s' :=
  forM_inv (I := fun _ x => SameCore s x) (fun _ a _ _ hI hs => hI.trans (hf _ a _ hs)) l [] s s' (SameCore.refl s) h

theorem finishContraction_core {n : Nat} {fg fg' : FastGraph} (h : finishContraction P n fg = .ok fg') : SameCore fg fg' := by
  unfold finishContraction at h
  obtain ⟨g, h1, h2⟩ := bind_eq_ok.1 h
  refine (sameCore_forM ?_ h1).trans (sameCore_forM ?_ h2)
  · intro s i s' hs
    unfold finishFwdNode at hs
    obtain ⟨b, _, hs⟩ := bind_eq_ok.1 hs
    obtain ⟨e, _, hs⟩ := bind_eq_ok.1 hs
    refine sameCore_forM ?_ hs
    intro s k s' hs
    unfold finishFwdEdge at hs
    obtain ⟨ed, hed, hs⟩ := bind_eq_ok.1 hs
    simp only at hs
    split at hs
    · obtain ⟨_, _, hs⟩ := bind_eq_ok.1 hs
      cases hs
      exact sameCore_setFwd (idx_eq_ok.1 hed)
    · obtain ⟨_, _, hs⟩ := bind_eq_ok.1 hs
      obtain ⟨_, _, hs⟩ := bind_eq_ok.1 hs
      cases hs
      exact sameCore_setFwd (idx_eq_ok.1 hed)
  · intro s i s' hs
    unfold finishBwdNode at hs
    obtain ⟨b, _, hs⟩ := bind_eq_ok.1 hs
    obtain ⟨e, _, hs⟩ := bind_eq_ok.1 hs
    refine sameCore_forM ?_ hs
    intro s k s' hs
    unfold finishBwdEdge at hs
    obtain ⟨ed, hed, hs⟩ := bind_eq_ok.1 hs
    simp only at hs
    split at hs
    · obtain ⟨_, _, hs⟩ := bind_eq_ok.1 hs
      cases hs
      exact sameCore_setBwd (idx_eq_ok.1 hed)
    · obtain ⟨_, _, hs⟩ := bind_eq_ok.1 hs
      obtain ⟨_, _, hs⟩ := bind_eq_ok.1 hs
      cases hs
      exact sameCore_setBwd (idx_eq_ok.1 hed)

/-- The state after the beginning of the order. -/
theorem prepare_beginning {ig : InputGraph} {ms : Nat} {pre rest : List Nat} {fg : FastGraph}
    (h : prepareWithOrderWithParams P pq ig (pre ++ rest) ms = .ok (.ok fg)) :
    ∃ (n : Nat) (fg0 : FastGraph) (pg : PreparationGraph) (st : BState pq), ig.getNumNodes = .ok n ∧ FastGraph.new P n = .ok fg0 ∧
      PreparationGraph.fromInputGraph P ig = .ok pg ∧
      forM (orderStep P n ms) ⟨pg, WitnessSearch.new P pq n, fg0⟩ pre.zipIdx = .ok st ∧ EndsAt pre.length st.fg ∧
      ∃ g, Grown pre.length rest st.fg g ∧ SameCore g fg := by
  unfold prepareWithOrderWithParams buildWithOrderWithParams at h
  obtain ⟨n, hn, h⟩ := bind_eq_ok.1 h
  split at h
  · cases h
  · obtain ⟨fg', h1, h⟩ := bind_eq_ok.1 h
    cases h
    unfold runContractionWithOrder at h1
    obtain ⟨fg0, hfg, h1⟩ := bind_eq_ok.1 h1
    obtain ⟨pg, hpg, h1⟩ := bind_eq_ok.1 h1
    obtain ⟨st', hst, h1⟩ := bind_eq_ok.1 h1
    rw [List.zipIdx_append, forM_append] at hst
    obtain ⟨st, hpre, hrest⟩ := bind_eq_ok.1 hst
    refine ⟨n, fg0, pg, st, hn, hfg, hpg, hpre, ?_, st'.fg, ?_, finishContraction_core h1⟩
    · have h0 : EndsAt 0 fg0 := by
        unfold FastGraph.new at hfg
        split at hfg
        · cases hfg
          exact ⟨by simp [FastGraph.empty], by simp [FastGraph.empty]⟩
        · cases hfg
      have := (orderSteps_grown pre 0 _ _ hpre).2 h0
      rwa [Nat.zero_add] at this
    · have := (orderSteps_grown rest (0 + pre.length) _ _ hrest).1
      rwa [Nat.zero_add] at this

end FP
