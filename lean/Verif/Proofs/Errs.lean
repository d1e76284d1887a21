import Verif.Model.Lib
import Verif.Proofs.Logic
/-! # Which panics the query code can raise at all -/
namespace FP
open PathCalculator

variable {α β σ : Type} {pq : PQ}

/-- Panics that queries can raise syntactically: neither capacity nor debug assertions. -/
def QErr (m : M α) : Prop := m ≠ .error .capacity ∧ m ≠ .error .debugAssertion

theorem QErr.ok (a : α) : QErr (.ok a : M α) := ⟨by simp, by simp⟩

theorem QErr.bind {m : M α} {f : α → M β} (h : QErr m) (hf : ∀ a, QErr (f a)) : QErr (m >>= f) := by
  cases m with
  | ok a => exact hf a
  | error e =>
    obtain ⟨h1, h2⟩ := h
    exact ⟨fun h => h1 (by injection h with h; rw [h]), fun h => h2 (by injection h with h; rw [h])⟩

theorem QErr.ite {c : Prop} [Decidable c] {a b : M α} (ha : QErr a) (hb : QErr b) : QErr (if c then a else b) := by
  by_cases h : c
  · rw [if_pos h]; exact ha
  · rw [if_neg h]; exact hb

theorem QErr.forM {f : σ → α → M σ} (hf : ∀ s a, QErr (f s a)) : ∀ (l : List α) (s : σ), QErr (forM f s l)
  | [], s => QErr.ok s
  | a :: as, s => QErr.bind (hf s a) (fun s => QErr.forM hf as s)

theorem QErr.addW (P : Plat) (a b : Nat) : QErr (addW P a b) := by
  unfold FP.addW
  exact QErr.ite (QErr.ok _) (QErr.ite ⟨by simp, by simp⟩ (QErr.ok _))

theorem QErr.idx (l : List α) (i : Nat) : QErr (idx l i) := by
  unfold FP.idx
  cases l[i]? with
  | none => exact ⟨by simp, by simp⟩
  | some a => exact QErr.ok a

theorem QErr.setIdx (l : List α) (i : Nat) (a : α) : QErr (setIdx l i a) := by
  unfold FP.setIdx
  exact QErr.ite (QErr.ok _) ⟨by simp, by simp⟩

theorem QErr.modIdx (l : List α) (i : Nat) (f : α → α) : QErr (modIdx l i f) := by
  unfold FP.modIdx
  cases l[i]? with
  | none => exact ⟨by simp, by simp⟩
  | some a => exact QErr.ok _

theorem QErr.assertM (c : Bool) : QErr (assertM c) := by
  cases c
  · exact ⟨by simp, by simp⟩
  · exact QErr.ok _

theorem QErr.fuel : QErr (.error .outOfFuel : M α) := ⟨by simp, by simp⟩

/-- decompose -/
macro "qerr" : tactic => `(tactic| repeat (first
  | intro _
  | exact QErr.ok _
  | exact QErr.addW _ _ _
  | exact QErr.idx _ _
  | exact QErr.setIdx _ _ _
  | exact QErr.modIdx _ _ _
  | exact QErr.assertM _
  | refine QErr.bind ?_ (fun _ => ?_)
  | refine QErr.ite ?_ ?_
  | refine QErr.forM (fun _ _ => ?_) _ _))

section
variable (P : Plat)

theorem qerr_isValid (f : ValidFlags) (x : Nat) : QErr (f.isValid x) := by unfold ValidFlags.isValid; qerr
theorem qerr_getWeight (s : Side pq) (x : Nat) : QErr (s.getWeight P x) := by
  unfold Side.getWeight; exact QErr.bind (qerr_isValid _ _) (fun _ => by qerr)
theorem qerr_isSettled (s : Side pq) (x : Nat) : QErr (s.isSettled x) := by
  unfold Side.isSettled; exact QErr.bind (qerr_isValid _ _) (fun _ => by qerr)
theorem qerr_updateNode (s : Side pq) (a b c d : Nat) : QErr (s.updateNode a b c d) := by
  unfold Side.updateNode ValidFlags.setValid; qerr
theorem qerr_addRoot (s : Side pq) (x : Nat × Nat) : QErr (s.addRoot P x) := by
  unfold Side.addRoot
  exact QErr.bind (qerr_getWeight P _ _) (fun _ => QErr.ite (QErr.bind (qerr_updateNode _ _ _ _ _) (fun _ => by qerr)) (by qerr))
theorem qerr_relaxEdge (es : List FastGraphEdge) (curr : HeapItem) (s : Side pq) (e : Nat) :
    QErr (Side.relaxEdge P es curr s e) := by
  unfold Side.relaxEdge
  exact QErr.bind (by qerr) (fun _ => QErr.bind (by qerr) (fun _ => QErr.bind (qerr_getWeight P _ _) (fun _ =>
    QErr.ite (QErr.bind (qerr_updateNode _ _ _ _ _) (fun _ => by qerr)) (by qerr))))
theorem qerr_stallScan (es : List FastGraphEdge) (s : Side pq) (curr : HeapItem) : ∀ (l : List Nat),
    QErr (Side.stallScan P es s curr l)
  | [] => QErr.ok _
  | e :: r => by
    unfold Side.stallScan
    exact QErr.bind (by qerr) (fun _ => QErr.bind (qerr_getWeight P _ _) (fun _ => QErr.ite (qerr_stallScan es s curr r)
      (QErr.bind (by qerr) (fun _ => QErr.ite (by qerr) (qerr_stallScan es s curr r)))))
theorem qerr_bo (g : FastGraph) (x : Nat) : QErr (g.beginOutEdges x) := by unfold FastGraph.beginOutEdges; qerr
theorem qerr_eo (g : FastGraph) (x : Nat) : QErr (g.endOutEdges x) := by unfold FastGraph.endOutEdges; qerr
theorem qerr_bi (g : FastGraph) (x : Nat) : QErr (g.beginInEdges x) := by unfold FastGraph.beginInEdges; qerr
theorem qerr_ei (g : FastGraph) (x : Nat) : QErr (g.endInEdges x) := by unfold FastGraph.endInEdges; qerr

theorem qerr_innerFwd (g : FastGraph) : ∀ (fuel : Nat) (st : QS pq), QErr (innerFwd P g fuel st)
  | 0, _ => QErr.fuel
  | fuel + 1, st => by
    unfold innerFwd
    cases hp : pq.pop st.fwd.heap with
    | none => exact QErr.ok _
    | some r =>
      obtain ⟨curr, heap'⟩ := r
      simp only
      refine QErr.bind (qerr_isSettled _ _) (fun _ => QErr.ite (qerr_innerFwd g fuel _) (QErr.ite (QErr.ok _) (QErr.bind ?_ (fun _ =>
        QErr.ite (qerr_innerFwd g fuel _) (QErr.bind (qerr_bo _ _) (fun _ => QErr.bind (qerr_eo _ _) (fun _ =>
        QErr.bind (QErr.forM (fun _ _ => qerr_relaxEdge P _ _ _ _) _ _) (fun _ => QErr.bind (QErr.modIdx _ _ _) (fun _ =>
        QErr.bind (qerr_isValid _ _) (fun _ => QErr.ite (QErr.bind (qerr_getWeight P _ _) (fun _ => QErr.bind (QErr.addW _ _ _)
        (fun _ => QErr.ite (QErr.ok _) (QErr.ok _)))) (QErr.ok _)))))))))))
      exact QErr.bind (qerr_bi _ _) (fun _ => QErr.bind (qerr_ei _ _) (fun _ => qerr_stallScan P _ _ _ _))

theorem qerr_innerBwd (g : FastGraph) : ∀ (fuel : Nat) (st : QS pq), QErr (innerBwd P g fuel st)
  | 0, _ => QErr.fuel
  | fuel + 1, st => by
    unfold innerBwd
    cases hp : pq.pop st.bwd.heap with
    | none => exact QErr.ok _
    | some r =>
      obtain ⟨curr, heap'⟩ := r
      simp only
      refine QErr.bind (qerr_isSettled _ _) (fun _ => QErr.ite (qerr_innerBwd g fuel _) (QErr.ite (QErr.ok _) (QErr.bind ?_ (fun _ =>
        QErr.ite (qerr_innerBwd g fuel _) (QErr.bind (qerr_bi _ _) (fun _ => QErr.bind (qerr_ei _ _) (fun _ =>
        QErr.bind (QErr.forM (fun _ _ => qerr_relaxEdge P _ _ _ _) _ _) (fun _ => QErr.bind (QErr.modIdx _ _ _) (fun _ =>
        QErr.bind (qerr_isValid _ _) (fun _ => QErr.ite (QErr.bind (qerr_getWeight P _ _) (fun _ => QErr.bind (QErr.addW _ _ _)
        (fun _ => QErr.ite (QErr.ok _) (QErr.ok _)))) (QErr.ok _)))))))))))
      exact QErr.bind (qerr_bo _ _) (fun _ => QErr.bind (qerr_eo _ _) (fun _ => qerr_stallScan P _ _ _ _))

theorem qerr_mainLoop (g : FastGraph) : ∀ (fuel : Nat) (st : QS pq), QErr (mainLoop P g fuel st)
  | 0, _ => QErr.fuel
  | fuel + 1, st => by
    unfold mainLoop
    exact QErr.ite (QErr.ok _) (QErr.bind (qerr_innerFwd P _ _ _) (fun _ => QErr.bind (qerr_innerBwd P _ _ _)
      (fun _ => qerr_mainLoop g fuel _)))

theorem qerr_isShortcut (e : FastGraphEdge) : QErr (e.isShortcut P) := by unfold FastGraphEdge.isShortcut; qerr

mutual
theorem qerr_unpackFwd (g : FastGraph) : ∀ (fuel : Nat) (nodes : List Nat) (e : Nat) (r : Bool),
    QErr (unpackFwd P g fuel nodes e r)
  | 0, _, _, _ => by unfold unpackFwd; exact QErr.fuel
  | fuel + 1, nodes, e, r => by
    have h1 := qerr_unpackFwd g fuel
    have h2 := qerr_unpackBwd g fuel
    unfold unpackFwd
    exact QErr.bind (QErr.idx _ _) (fun _ => QErr.bind (qerr_isShortcut P _) (fun _ => QErr.ite (QErr.ok _) (QErr.ite
      (QErr.bind (h1 _ _ _) (fun _ => h2 _ _ _)) (QErr.bind (h2 _ _ _) (fun _ => h1 _ _ _)))))
theorem qerr_unpackBwd (g : FastGraph) : ∀ (fuel : Nat) (nodes : List Nat) (e : Nat) (r : Bool),
    QErr (unpackBwd P g fuel nodes e r)
  | 0, _, _, _ => by unfold unpackBwd; exact QErr.fuel
  | fuel + 1, nodes, e, r => by
    have h1 := qerr_unpackFwd g fuel
    have h2 := qerr_unpackBwd g fuel
    unfold unpackBwd
    exact QErr.bind (QErr.idx _ _) (fun _ => QErr.bind (qerr_isShortcut P _) (fun _ => QErr.ite (QErr.ok _) (QErr.ite
      (QErr.bind (h1 _ _ _) (fun _ => h2 _ _ _)) (QErr.bind (h2 _ _ _) (fun _ => h1 _ _ _)))))
end

theorem qerr_walkFwd (g : FastGraph) (s : Side pq) : ∀ (fuel : Nat) (l : List Nat) (x : Nat),
    QErr (walkFwd P g s fuel l x)
  | 0, _, _ => QErr.fuel
  | fuel + 1, l, x => by
    unfold walkFwd
    exact QErr.bind (QErr.idx _ _) (fun _ => QErr.ite (QErr.bind (qerr_unpackFwd P _ _ _ _ _) (fun _ =>
      qerr_walkFwd g s fuel _ _)) (QErr.ok _))

theorem qerr_walkBwd (g : FastGraph) (s : Side pq) : ∀ (fuel : Nat) (l : List Nat) (x : Nat),
    QErr (walkBwd P g s fuel l x)
  | 0, _, _ => QErr.fuel
  | fuel + 1, l, x => by
    unfold walkBwd
    exact QErr.bind (QErr.idx _ _) (fun _ => QErr.ite (QErr.bind (qerr_unpackBwd P _ _ _ _ _) (fun _ =>
      qerr_walkBwd g s fuel _ _)) (QErr.ok _))

theorem qerr_calcPathMulti (c : PathCalculator pq) (g : FastGraph) (starts ends : List (Nat × Nat)) :
    QErr (c.calcPathMulti P g starts ends) := by
  unfold PathCalculator.calcPathMulti
  refine QErr.bind (by unfold checkArgs; qerr) (fun _ => QErr.bind ?_ (fun r => ?_))
  · unfold initialMeeting
    refine QErr.forM (fun st s => QErr.forM (fun st e => ?_) _ _) _ _
    unfold pairStep
    qerr
  · obtain ⟨best, meet⟩ := r
    simp only
    refine QErr.bind (QErr.forM (fun _ _ => qerr_addRoot P _ _) _ _) (fun _ => QErr.bind (QErr.forM (fun _ _ =>
      qerr_addRoot P _ _) _ _) (fun _ => QErr.bind (qerr_mainLoop P _ _ _) (fun st => ?_)))
    refine QErr.ite (QErr.ok _) (QErr.bind (QErr.assertM _) (fun _ => QErr.bind ?_ (fun _ => by qerr)))
    unfold extractNodes
    exact QErr.bind (QErr.assertM _) (fun _ => QErr.bind (qerr_isValid _ _) (fun _ => QErr.bind (QErr.assertM _) (fun _ =>
      QErr.bind (qerr_isValid _ _) (fun _ => QErr.bind (QErr.assertM _) (fun _ => QErr.bind (qerr_walkFwd P _ _ _ _ _)
      (fun _ => qerr_walkBwd P _ _ _ _ _))))))

end
end FP
