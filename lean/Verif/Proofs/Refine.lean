import Verif.Model.History
import Verif.Proofs.Logic
/-! # Debug and release runs of the same code

`Ref m₁ m₂`: the run `m₁` with overflow checks and debug assertions stops because of one of these checks, or it equals
the run `m₂` without them. -/
namespace FP

/-- The same platform with overflow checks and debug assertions on. -/
def Plat.debug (P : Plat) : Plat := ⟨P.umax, true⟩

def Ref {α : Type} (m₁ m₂ : M α) : Prop := m₁ = .error .overflow ∨ m₁ = .error .debugAssertion ∨ m₁ = m₂

variable {α β σ : Type} {pq : PQ} {nq : NodeQueue}

theorem Ref.rfl' (m : M α) : Ref m m := Or.inr (Or.inr rfl)

theorem Ref.bind {m₁ m₂ : M α} {f₁ f₂ : α → M β} (h : Ref m₁ m₂) (hf : ∀ a, Ref (f₁ a) (f₂ a)) :
    Ref (m₁ >>= f₁) (m₂ >>= f₂) := by
  rcases h with h | h | h
  · subst h; exact Or.inl rfl
  · subst h; exact Or.inr (Or.inl rfl)
  · subst h
    cases m₁ with
    | ok a => exact hf a
    | error e => exact Or.inr (Or.inr rfl)

theorem Ref.ite {c : Prop} [Decidable c] {a₁ a₂ b₁ b₂ : M α} (ha : Ref a₁ a₂) (hb : Ref b₁ b₂) :
    Ref (if c then a₁ else b₁) (if c then a₂ else b₂) := by
  by_cases h : c
  · rw [if_pos h, if_pos h]; exact ha
  · rw [if_neg h, if_neg h]; exact hb

theorem Ref.forM {f₁ f₂ : σ → α → M σ} (hf : ∀ s a, Ref (f₁ s a) (f₂ s a)) :
    ∀ (l : List α) (s : σ), Ref (forM f₁ s l) (forM f₂ s l)
  | [], _ => Ref.rfl' _
  | a :: as, s => Ref.bind (hf s a) (fun s => Ref.forM hf as s)

theorem Ref.addW (P : Plat) (a b : Nat) : Ref (addW P.debug a b) (addW P a b) := by
  unfold FP.addW
  by_cases h : a + b ≤ P.umax
  · rw [if_pos (show a + b ≤ P.debug.umax from h), if_pos h]; exact Ref.rfl' _
  · rw [if_neg (show ¬ a + b ≤ P.debug.umax from h), if_pos (show P.debug.checked = true from rfl)]
    exact Or.inl rfl

theorem Ref.debugAssertM (P : Plat) (c : Bool) : Ref (debugAssertM P.debug c) (debugAssertM P c) := by
  unfold FP.debugAssertM
  cases c
  · exact Or.inr (Or.inl rfl)
  · refine Or.inr (Or.inr ?_)
    simp

/-- close or decompose a refinement goal -/
macro "ref_tac" : tactic => `(tactic| repeat (first
  | intro _
  | exact Ref.addW _ _ _
  | exact Ref.debugAssertM _ _
  | refine Ref.bind ?_ (fun _ => ?_)
  | refine Ref.ite ?_ ?_
  | refine Ref.forM (fun _ _ => ?_) _ _
  | exact Ref.rfl' _))

section
variable (P : Plat)

theorem ref_doAddEdge (g : InputGraph) (s d w : Nat) (b : Bool) :
    Ref (g.doAddEdge P.debug s d w b) (g.doAddEdge P s d w b) := by
  unfold InputGraph.doAddEdge; ref_tac

theorem ref_op (g : InputGraph) (op : Spec.Op) : Ref (op.run P.debug g) (op.run P g) := by
  cases op
  · exact Ref.bind (ref_doAddEdge P _ _ _ _ _) (fun _ => Ref.rfl' _)
  · exact Ref.bind (ref_doAddEdge P _ _ _ _ _) (fun _ => Ref.rfl' _)
  · exact Ref.rfl' _
  · exact Ref.rfl' _

theorem ref_buildGraph (ops : List Spec.Op) : Ref (buildGraph P.debug ops) (buildGraph P ops) :=
  Ref.forM (fun g op => ref_op P g op) _ _

/-! ### Preparation -/

theorem ref_relaxArc (curr : HeapItem) (t wl : Nat) (st : WitnessSearch pq × Bool) (a : Arc) :
    Ref (WitnessSearch.relaxArc P.debug curr t wl st a) (WitnessSearch.relaxArc P curr t wl st a) := by
  unfold WitnessSearch.relaxArc; ref_tac

theorem ref_findLoop (g : PreparationGraph) (t wl sl : Nat) : ∀ (fuel : Nat) (ws : WitnessSearch pq),
    Ref (WitnessSearch.findLoop P.debug g t wl sl fuel ws) (WitnessSearch.findLoop P g t wl sl fuel ws)
  | 0, _ => Ref.rfl' _
  | fuel + 1, ws => by
    unfold WitnessSearch.findLoop
    cases hp : pq.pop ws.heap with
    | none => exact Ref.rfl' _
    | some r =>
      obtain ⟨curr, heap'⟩ := r
      simp only
      refine Ref.ite (Ref.rfl' _) (Ref.ite (Ref.rfl' _) (Ref.bind (Ref.rfl' _) (fun _ => Ref.ite ?_ ?_)))
      · exact ref_findLoop g t wl sl fuel _
      · refine Ref.bind (Ref.rfl' _) (fun _ => Ref.bind (Ref.forM (fun _ _ => ref_relaxArc P _ _ _ _ _) _ _)
          (fun _ => Ref.bind (Ref.rfl' _) (fun _ => Ref.ite (Ref.rfl' _) ?_)))
        exact ref_findLoop g t wl sl fuel _

theorem ref_findMaxWeight (ws : WitnessSearch pq) (g : PreparationGraph) (t wl sl : Nat) :
    Ref (ws.findMaxWeight P.debug g t wl sl) (ws.findMaxWeight P g t wl sl) := by
  unfold WitnessSearch.findMaxWeight
  refine Ref.bind (Ref.rfl' _) (fun _ => Ref.bind (Ref.rfl' _) (fun _ => Ref.bind (Ref.rfl' _) (fun _ =>
    Ref.ite (Ref.rfl' _) (Ref.bind (Ref.rfl' _) (fun _ => Ref.bind (Ref.rfl' _) (fun early => ?_))))))
  cases early with
  | none => exact Ref.bind (ref_findLoop P _ _ _ _ _ _) (fun _ => Ref.rfl' _)
  | some w => exact Ref.rfl' _

section
variable {h₁ h₂ : PreparationGraph → β → Shortcut → M (PreparationGraph × β)} (hh : ∀ g acc s, Ref (h₁ g acc s) (h₂ g acc s))
include hh

theorem ref_handlePair (node ms i j k : Nat) (st : HSState pq β) :
    Ref (handlePair P.debug node h₁ ms i j st k) (handlePair P node h₂ ms i j st k) := by
  unfold handlePair
  refine Ref.bind (Ref.rfl' _) (fun _ => Ref.bind (Ref.rfl' _) (fun _ => Ref.bind (Ref.rfl' _) (fun _ =>
    Ref.bind (Ref.rfl' _) (fun _ => Ref.bind (Ref.addW _ _ _) (fun _ => Ref.bind (ref_findMaxWeight P _ _ _ _ _)
    (fun _ => Ref.ite (Ref.rfl' _) (Ref.bind (hh _ _ _) (fun _ => Ref.rfl' _))))))))

theorem ref_handleIn (node ms i : Nat) (st : HSState pq β) :
    Ref (handleIn P.debug node h₁ ms st i) (handleIn P node h₂ ms st i) := by
  unfold handleIn
  refine Ref.bind (Ref.rfl' _) (fun _ => Ref.bind (Ref.rfl' _) (fun _ => Ref.bind (Ref.rfl' _) (fun _ =>
    Ref.bind (Ref.rfl' _) (fun _ => Ref.forM (fun _ _ => ref_handlePair P hh _ _ _ _ _ _) _ _))))

theorem ref_handleShortcuts (g : PreparationGraph) (ws : WitnessSearch pq) (node : Nat) (acc : β) (ms : Nat) :
    Ref (handleShortcuts P.debug g ws node h₁ acc ms) (handleShortcuts P g ws node h₂ acc ms) := by
  unfold handleShortcuts
  exact Ref.bind (Ref.rfl' _) (fun _ => Ref.forM (fun _ _ => ref_handleIn P hh _ _ _ _) _ _)

end

theorem ref_countShortcut (g : PreparationGraph) (k : Int) (s : Shortcut) :
    Ref (countShortcut P.debug g k s) (countShortcut P g k s) := by
  unfold countShortcut
  refine Ref.ite (Ref.rfl' _) ?_
  exact Or.inl rfl

theorem ref_contractNode (g : PreparationGraph) (ws : WitnessSearch pq) (node ms : Nat) :
    Ref (contractNode P.debug g ws node ms) (contractNode P g ws node ms) :=
  Ref.bind (ref_handleShortcuts P (fun _ _ _ => Ref.rfl' _) _ _ _ _ _) (fun _ => Ref.rfl' _)

theorem ref_calcRelevance (rel : Nat → Int → Nat → Nat) (g : PreparationGraph) (ws : WitnessSearch pq) (node l ms : Nat) :
    Ref (calcRelevance P.debug rel g ws node l ms) (calcRelevance P rel g ws node l ms) :=
  Ref.bind (ref_handleShortcuts P (ref_countShortcut P) _ _ _ _ _) (fun _ => Ref.rfl' _)

theorem ref_recordAndContract (ms : Nat) (st : BState pq) (rank node : Nat) :
    Ref (recordAndContract P.debug ms st rank node) (recordAndContract P ms st rank node) :=
  Ref.bind (Ref.rfl' _) (fun _ => Ref.bind (ref_contractNode P _ _ _ _) (fun _ => Ref.rfl' _))

theorem ref_finishFwdEdge (i : Nat) (fg : FastGraph) (e : Nat) :
    Ref (finishFwdEdge P.debug i fg e) (finishFwdEdge P i fg e) := by
  unfold finishFwdEdge; ref_tac

theorem ref_finishBwdEdge (i : Nat) (fg : FastGraph) (e : Nat) :
    Ref (finishBwdEdge P.debug i fg e) (finishBwdEdge P i fg e) := by
  unfold finishBwdEdge; ref_tac

theorem ref_finishContraction (n : Nat) (fg : FastGraph) :
    Ref (finishContraction P.debug n fg) (finishContraction P n fg) := by
  refine Ref.bind (Ref.forM (fun fg i => ?_) _ _) (fun _ => Ref.forM (fun fg i => ?_) _ _)
  · exact Ref.bind (Ref.rfl' _) (fun _ => Ref.bind (Ref.rfl' _) (fun _ => Ref.forM (fun _ _ => ref_finishFwdEdge P _ _ _) _ _))
  · exact Ref.bind (Ref.rfl' _) (fun _ => Ref.bind (Ref.rfl' _) (fun _ => Ref.forM (fun _ _ => ref_finishBwdEdge P _ _ _) _ _))

theorem ref_buildWithOrder (ig : InputGraph) (order : List Nat) (ms : Nat) :
    Ref (buildWithOrderWithParams P.debug pq ig order ms) (buildWithOrderWithParams P pq ig order ms) := by
  unfold buildWithOrderWithParams
  refine Ref.bind (Ref.rfl' _) (fun n => Ref.ite (Ref.rfl' _) (Ref.bind ?_ (fun _ => Ref.rfl' _)))
  unfold runContractionWithOrder
  refine Ref.bind (Ref.rfl' _) (fun _ => Ref.bind (Ref.rfl' _) (fun _ => Ref.bind (Ref.forM (fun st x => ?_) _ _)
    (fun _ => ref_finishContraction P _ _)))
  unfold orderStep
  exact Ref.ite (Ref.rfl' _) (ref_recordAndContract P _ _ _ _)

theorem ref_updateNeighbor (params : Params) (node : Nat) (st : QState pq nq) (k : Nat) :
    Ref (updateNeighbor P.debug params node st k) (updateNeighbor P params node st k) := by
  unfold updateNeighbor
  exact Ref.bind (Ref.rfl' _) (fun _ => Ref.bind (Ref.rfl' _) (fun _ => Ref.bind (Ref.addW _ _ _) (fun _ =>
    Ref.bind (Ref.rfl' _) (fun _ => Ref.bind (Ref.rfl' _) (fun _ => Ref.bind (ref_calcRelevance P _ _ _ _ _ _)
    (fun _ => Ref.rfl' _))))))

theorem ref_contractionLoop (params : Params) : ∀ (fuel rank : Nat) (st : QState pq nq),
    Ref (contractionLoop P.debug params fuel rank st) (contractionLoop P params fuel rank st)
  | 0, _, _ => Ref.rfl' _
  | fuel + 1, rank, st => by
    unfold contractionLoop
    cases hp : nq.pop st.queue with
    | none => exact Ref.rfl' _
    | some r =>
      obtain ⟨node, queue⟩ := r
      simp only
      exact Ref.bind (Ref.rfl' _) (fun _ => Ref.bind (Ref.rfl' _) (fun _ => Ref.bind (ref_recordAndContract P _ _ _ _)
        (fun _ => Ref.bind (Ref.forM (fun _ _ => ref_updateNeighbor P _ _ _ _) _ _)
        (fun _ => ref_contractionLoop params fuel _ _))))

theorem ref_buildWithParams (ig : InputGraph) (params : Params) :
    Ref (buildWithParams P.debug pq nq ig params) (buildWithParams P pq nq ig params) := by
  unfold buildWithParams
  refine Ref.bind (Ref.rfl' _) (fun n => ?_)
  unfold runContraction
  refine Ref.bind (Ref.rfl' _) (fun _ => Ref.bind (Ref.rfl' _) (fun _ => Ref.bind (Ref.forM (fun st x => ?_) _ _)
    (fun _ => Ref.bind (ref_contractionLoop P _ _ _ _) (fun _ => ref_finishContraction P _ _))))
  exact Ref.bind (ref_calcRelevance P _ _ _ _ _ _) (fun _ => Ref.rfl' _)

/-! ### Queries -/

theorem ref_relaxEdge (es : List FastGraphEdge) (curr : HeapItem) (s : Side pq) (e : Nat) :
    Ref (Side.relaxEdge P.debug es curr s e) (Side.relaxEdge P es curr s e) := by
  unfold Side.relaxEdge; ref_tac

theorem ref_stallScan (es : List FastGraphEdge) (s : Side pq) (curr : HeapItem) : ∀ (l : List Nat),
    Ref (Side.stallScan P.debug es s curr l) (Side.stallScan P es s curr l)
  | [] => Ref.rfl' _
  | e :: r => by
    unfold Side.stallScan
    exact Ref.bind (Ref.rfl' _) (fun _ => Ref.bind (Ref.rfl' _) (fun _ => Ref.ite (ref_stallScan es s curr r)
      (Ref.bind (Ref.addW _ _ _) (fun _ => Ref.ite (Ref.rfl' _) (ref_stallScan es s curr r)))))

open PathCalculator

theorem ref_innerFwd (g : FastGraph) : ∀ (fuel : Nat) (st : QS pq), Ref (innerFwd P.debug g fuel st) (innerFwd P g fuel st)
  | 0, _ => Ref.rfl' _
  | fuel + 1, st => by
    unfold innerFwd
    cases hp : pq.pop st.fwd.heap with
    | none => exact Ref.rfl' _
    | some r =>
      obtain ⟨curr, heap'⟩ := r
      simp only
      refine Ref.bind (Ref.rfl' _) (fun _ => Ref.ite (ref_innerFwd g fuel _) (Ref.ite (Ref.rfl' _) (Ref.bind ?_ (fun _ =>
        Ref.ite (ref_innerFwd g fuel _) (Ref.bind (Ref.rfl' _) (fun _ => Ref.bind (Ref.rfl' _) (fun _ =>
        Ref.bind (Ref.forM (fun _ _ => ref_relaxEdge P _ _ _ _) _ _) (fun _ => Ref.bind (Ref.rfl' _) (fun _ =>
        Ref.bind (Ref.rfl' _) (fun _ => Ref.ite (Ref.bind (Ref.rfl' _) (fun _ => Ref.bind (Ref.addW _ _ _)
        (fun _ => Ref.rfl' _))) (Ref.rfl' _)))))))))))
      exact Ref.bind (Ref.rfl' _) (fun _ => Ref.bind (Ref.rfl' _) (fun _ => ref_stallScan P _ _ _ _))

theorem ref_innerBwd (g : FastGraph) : ∀ (fuel : Nat) (st : QS pq), Ref (innerBwd P.debug g fuel st) (innerBwd P g fuel st)
  | 0, _ => Ref.rfl' _
  | fuel + 1, st => by
    unfold innerBwd
    cases hp : pq.pop st.bwd.heap with
    | none => exact Ref.rfl' _
    | some r =>
      obtain ⟨curr, heap'⟩ := r
      simp only
      refine Ref.bind (Ref.rfl' _) (fun _ => Ref.ite (ref_innerBwd g fuel _) (Ref.ite (Ref.rfl' _) (Ref.bind ?_ (fun _ =>
        Ref.ite (ref_innerBwd g fuel _) (Ref.bind (Ref.rfl' _) (fun _ => Ref.bind (Ref.rfl' _) (fun _ =>
        Ref.bind (Ref.forM (fun _ _ => ref_relaxEdge P _ _ _ _) _ _) (fun _ => Ref.bind (Ref.rfl' _) (fun _ =>
        Ref.bind (Ref.rfl' _) (fun _ => Ref.ite (Ref.bind (Ref.rfl' _) (fun _ => Ref.bind (Ref.addW _ _ _)
        (fun _ => Ref.rfl' _))) (Ref.rfl' _)))))))))))
      exact Ref.bind (Ref.rfl' _) (fun _ => Ref.bind (Ref.rfl' _) (fun _ => ref_stallScan P _ _ _ _))

theorem ref_mainLoop (g : FastGraph) : ∀ (fuel : Nat) (st : QS pq), Ref (mainLoop P.debug g fuel st) (mainLoop P g fuel st)
  | 0, _ => Ref.rfl' _
  | fuel + 1, st => by
    unfold mainLoop
    exact Ref.ite (Ref.rfl' _) (Ref.bind (ref_innerFwd P _ _ _) (fun _ => Ref.bind (ref_innerBwd P _ _ _)
      (fun _ => ref_mainLoop g fuel _)))

mutual
theorem unpackFwd_debug (g : FastGraph) : ∀ (fuel : Nat) (nodes : List Nat) (e : Nat) (r : Bool),
    unpackFwd P.debug g fuel nodes e r = unpackFwd P g fuel nodes e r
  | 0, _, _, _ => by simp [unpackFwd]
  | fuel + 1, nodes, e, r => by
    have h1 := unpackFwd_debug g fuel
    have h2 := unpackBwd_debug g fuel
    simp only [unpackFwd, h1, h2]
    rfl
theorem unpackBwd_debug (g : FastGraph) : ∀ (fuel : Nat) (nodes : List Nat) (e : Nat) (r : Bool),
    unpackBwd P.debug g fuel nodes e r = unpackBwd P g fuel nodes e r
  | 0, _, _, _ => by simp [unpackBwd]
  | fuel + 1, nodes, e, r => by
    have h1 := unpackFwd_debug g fuel
    have h2 := unpackBwd_debug g fuel
    simp only [unpackBwd, h1, h2]
    rfl
end

theorem walkFwd_debug (g : FastGraph) (s : Side pq) : ∀ (fuel : Nat) (l : List Nat) (x : Nat),
    walkFwd P.debug g s fuel l x = walkFwd P g s fuel l x
  | 0, _, _ => rfl
  | fuel + 1, l, x => by
    have ih := walkFwd_debug g s fuel
    simp only [walkFwd, ih, unpackFwd_debug P]
    rfl

theorem walkBwd_debug (g : FastGraph) (s : Side pq) : ∀ (fuel : Nat) (l : List Nat) (x : Nat),
    walkBwd P.debug g s fuel l x = walkBwd P g s fuel l x
  | 0, _, _ => rfl
  | fuel + 1, l, x => by
    have ih := walkBwd_debug g s fuel
    simp only [walkBwd, ih, unpackBwd_debug P]
    rfl

theorem extractNodes_debug (g : FastGraph) (f b : Side pq) (m : Nat) :
    extractNodes P.debug g f b m = extractNodes P g f b m := by
  simp only [extractNodes, walkFwd_debug P, walkBwd_debug P]
  rfl

theorem ref_calcPathMulti (c : PathCalculator pq) (g : FastGraph) (starts ends : List (Nat × Nat)) :
    Ref (c.calcPathMulti P.debug g starts ends) (c.calcPathMulti P g starts ends) := by
  unfold PathCalculator.calcPathMulti
  refine Ref.bind (Ref.rfl' _) (fun _ => Ref.bind ?_ (fun r => ?_))
  · unfold initialMeeting
    refine Ref.forM (fun st s => Ref.forM (fun st e => ?_) _ _) _ _
    unfold pairStep
    exact Ref.ite (Ref.bind (Ref.addW _ _ _) (fun _ => Ref.rfl' _)) (Ref.rfl' _)
  · obtain ⟨best, meet⟩ := r
    simp only
    refine Ref.bind (Ref.rfl' _) (fun _ => Ref.bind (Ref.rfl' _) (fun _ => Ref.bind (ref_mainLoop P _ _ _) (fun st => ?_)))
    refine Ref.ite (Ref.rfl' _) ?_
    simp only [extractNodes_debug P]
    exact Ref.rfl' _

end
end FP
