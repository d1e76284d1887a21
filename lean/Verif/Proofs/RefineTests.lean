import Verif.Proofs.Refine
import Verif.Model.TestSuite
/-! # Debug and release runs of the references and of the randomised tests -/
namespace FP
variable {pq : PQ} {nq : NodeQueue} (P : Plat)

theorem Ref.mulW (a b : Nat) : Ref (mulW P.debug a b) (mulW P a b) := by
  unfold FP.mulW
  by_cases h : a * b ≤ P.umax
  · rw [if_pos (show a * b ≤ P.debug.umax from h), if_pos h]; exact Ref.rfl' _
  · rw [if_neg (show ¬ a * b ≤ P.debug.umax from h), if_pos (show P.debug.checked = true from rfl)]
    exact Or.inl rfl

theorem Ref.incI32 (n : Int) : Ref (incI32 P.debug n) (incI32 P n) := by
  unfold FP.incI32
  by_cases h : n < I32_MAX
  · rw [if_pos h, if_pos h]; exact Ref.rfl' _
  · rw [if_neg h, if_neg h, if_pos (show P.debug.checked = true from rfl)]
    exact Or.inl rfl

/-! ### Dijkstra -/

namespace Dijkstra

theorem ref_relaxArc (curr : HeapItem) (d : Dijkstra pq) (a : Arc) : Ref (relaxArc P.debug curr d a) (relaxArc P curr d a) := by
  unfold relaxArc; ref_tac

theorem ref_loop (g : PreparationGraph) (t : Nat) : ∀ (fuel : Nat) (d : Dijkstra pq), Ref (loop P.debug g t fuel d) (loop P g t fuel d)
  | 0, _ => Ref.rfl' _
  | fuel + 1, d => by
    unfold loop
    cases hp : pq.pop d.heap with
    | none => exact Ref.rfl' _
    | some r =>
      obtain ⟨curr, heap'⟩ := r
      simp only
      refine Ref.bind (Ref.rfl' _) (fun _ => Ref.ite (ref_loop g t fuel _) ?_)
      exact Ref.bind (Ref.rfl' _) (fun _ => Ref.bind (Ref.forM (fun _ _ => ref_relaxArc P _ _ _) _ _)
        (fun _ => Ref.bind (Ref.rfl' _) (fun _ => Ref.ite (Ref.rfl' _) (ref_loop g t fuel _))))

theorem buildLoop_debug (d : Dijkstra pq) : ∀ fuel x acc, d.buildLoop P.debug fuel x acc = d.buildLoop P fuel x acc
  | 0, _, _ => rfl
  | fuel + 1, x, acc => by
    unfold buildLoop
    cases idx d.data x with
    | error e => rfl
    | ok v =>
      simp only [bind_okM, buildLoop_debug d fuel]
      rfl

theorem ref_calcPath (d : Dijkstra pq) (g : PreparationGraph) (s t : Nat) : Ref (d.calcPath P.debug g s t) (d.calcPath P g s t) := by
  unfold calcPath doCalcPath buildPath
  refine Ref.bind (Ref.rfl' _) (fun _ => Ref.bind ?_ (fun _ => Ref.bind ?_ (fun _ => Ref.rfl' _)))
  · exact Ref.bind (Ref.rfl' _) (fun _ => Ref.ite (Ref.rfl' _) (Ref.bind (Ref.rfl' _) (fun _ => Ref.ite (Ref.rfl' _) (ref_loop P _ _ _ _))))
  · simp only [buildLoop_debug]
    exact Ref.rfl' _

theorem new_debug (n : Nat) : Dijkstra.new P.debug pq n = Dijkstra.new P pq n := rfl

end Dijkstra

/-! ### Floyd-Warshall -/

namespace FloydWarshall

theorem ref_new (n : Nat) : Ref (FloydWarshall.new P.debug n) (FloydWarshall.new P n) :=
  Ref.bind (Ref.mulW P _ _) (fun _ => Ref.rfl' _)

theorem ref_index (n i j : Nat) : Ref (index P.debug n i j) (index P n i j) :=
  Ref.bind (Ref.mulW P _ _) (fun _ => Ref.addW P _ _)

theorem ref_get (n : Nat) (m : List Nat) (i j : Nat) : Ref (get P.debug n m i j) (get P n m i j) :=
  Ref.bind (ref_index P _ _ _) (fun _ => Ref.rfl' _)

theorem ref_put (n : Nat) (m : List Nat) (i j w : Nat) : Ref (put P.debug n m i j w) (put P n m i j w) :=
  Ref.bind (ref_index P _ _ _) (fun _ => Ref.rfl' _)

theorem ref_step (n k i : Nat) (m : List Nat) (j : Nat) : Ref (step P.debug n k i m j) (step P n k i m j) :=
  Ref.bind (Ref.ite (ref_put P _ _ _ _ _) (Ref.rfl' _)) (fun _ => Ref.bind (ref_get P _ _ _ _) (fun _ => Ref.bind (ref_get P _ _ _ _)
    (fun _ => Ref.ite (Ref.rfl' _) (Ref.bind (ref_get P _ _ _ _) (fun _ => Ref.bind (Ref.addW P _ _) (fun _ => ref_put P _ _ _ _ _))))))

theorem ref_prepare (fw : FloydWarshall) (ig : InputGraph) : Ref (fw.prepare P.debug ig) (fw.prepare P ig) :=
  Ref.bind (Ref.rfl' _) (fun _ => Ref.bind (Ref.rfl' _) (fun _ => Ref.bind (Ref.rfl' _) (fun _ =>
    Ref.bind (Ref.forM (fun _ _ => ref_put P _ _ _ _ _) _ _) (fun _ => Ref.bind
      (Ref.forM (fun _ _ => Ref.forM (fun _ _ => Ref.forM (fun _ _ => ref_step P _ _ _ _ _) _ _) _ _) _ _) (fun _ => Ref.rfl' _)))))

theorem ref_calcWeight (fw : FloydWarshall) (s t : Nat) : Ref (fw.calcWeight P.debug s t) (fw.calcWeight P s t) := ref_get P _ _ _ _

end FloydWarshall

/-! ### Tests -/

theorem InputGraph.ref_randomLoop (k : Nat) : ∀ (draws : List (Nat × Nat × Nat)) (g : InputGraph) (count : Nat),
    Ref (randomLoop P.debug k draws g count) (randomLoop P k draws g count)
  | [], _, _ => Ref.rfl' _
  | (h, t, w) :: draws, g, _ =>
    Ref.bind (ref_doAddEdge P g t h w false) (fun _ => Ref.bind (Ref.addW P _ _) (fun _ => Ref.ite (Ref.rfl' _) (ref_randomLoop k draws _ _)))

theorem InputGraph.ref_buildRandomGraph (draws : List (Nat × Nat × Nat)) (n : Nat) (deg : F32) :
    Ref (buildRandomGraph P.debug draws n deg) (buildRandomGraph P draws n deg) :=
  Ref.bind (InputGraph.ref_randomLoop P _ _ _ _) (fun _ => Ref.rfl' _)

namespace TestSuite

theorem toUsize_debug (x : F32) : F32.toUsize P.debug x = F32.toUsize P x := by
  cases x <;> rfl

theorem defaultRelevance_debug : defaultRelevance P.debug = defaultRelevance P := by
  unfold defaultRelevance
  generalize F32.tenth = a
  generalize F32.ofInt 1 = b
  funext l s e
  unfold relevanceF32
  exact toUsize_debug P _

theorem ref_prepare (ig : InputGraph) :
    Ref (prepare P.debug pq nq (defaultRelevance P.debug) ig) (prepare P pq nq (defaultRelevance P) ig) := by
  rw [defaultRelevance_debug]
  exact ref_buildWithParams P ig _

theorem ref_calcPath (c : PathCalculator pq) (g : FastGraph) (s t : Nat) : Ref (c.calcPath P.debug g s t) (c.calcPath P g s t) :=
  ref_calcPathMulti P c g _ _

theorem ref_singleStep (fg : FastGraph) (dg : PreparationGraph) (fw : FloydWarshall) (st : PathCalculator pq × Dijkstra pq × Int)
    (q : Nat × Nat) : Ref (singleStep P.debug fg dg fw st q) (singleStep P fg dg fw st q) :=
  Ref.bind (ref_calcPath P _ _ _ _) (fun _ => Ref.bind (Dijkstra.ref_calcPath P _ _ _ _) (fun _ =>
    Ref.bind (FloydWarshall.ref_calcWeight P _ _ _) (fun _ => Ref.bind (Ref.rfl' _) (fun _ => Ref.bind (Ref.rfl' _) (fun _ =>
      Ref.bind (Ref.ite (Ref.incI32 P _) (Ref.rfl' _)) (fun _ => Ref.rfl' _))))))

theorem ref_singleTest (ig : InputGraph) (queries : List (Nat × Nat)) :
    Ref (singleTest P.debug pq nq ig queries) (singleTest P pq nq ig queries) := by
  unfold singleTest
  exact Ref.bind (ref_prepare P ig) (fun _ => Ref.bind (Ref.rfl' _) (fun _ => Ref.bind (Ref.rfl' _) (fun _ =>
    Ref.bind (FloydWarshall.ref_new P _) (fun _ => Ref.bind (FloydWarshall.ref_prepare P _ _) (fun _ =>
      Ref.bind (Ref.forM (fun _ _ => ref_singleStep P _ _ _ _ _) _ _) (fun _ => Ref.rfl' _))))))

theorem ref_runTestOnRandomGraph (draws : List (Nat × Nat × Nat)) (queries : List (Nat × Nat)) :
    Ref (runTestOnRandomGraph P.debug pq nq draws queries) (runTestOnRandomGraph P pq nq draws queries) :=
  Ref.bind (InputGraph.ref_buildRandomGraph P _ _ _) (fun _ => Ref.bind (ref_singleTest P _ _) (fun _ => Ref.rfl' _))

theorem ref_totalWeight (x : ShortestPath × Nat × Nat) : Ref (totalWeight P.debug x) (totalWeight P x) :=
  Ref.bind (Ref.addW P _ _) (fun _ => Ref.addW P _ _)

theorem ref_multiStep (fg : FastGraph) (dg : PreparationGraph) (st : PathCalculator pq × Dijkstra pq × Int × Int)
    (q : List (Nat × Nat) × List (Nat × Nat)) : Ref (multiStep P.debug fg dg st q) (multiStep P fg dg st q) := by
  unfold multiStep
  refine Ref.bind (ref_calcPathMulti P _ _ _ _) (fun r => Ref.bind ?_ (fun _ => Ref.bind ?_ (fun w => ?_)))
  · exact Ref.forM (fun _ _ => Ref.forM (fun _ _ => Ref.bind (Dijkstra.ref_calcPath P _ _ _ _) (fun _ => Ref.rfl' _)) _ _) _ _
  · exact Ref.forM (fun _ _ => Ref.bind (ref_totalWeight P _) (fun _ => Ref.rfl' _)) _ _
  · cases w with
    | none => exact Ref.bind (Ref.rfl' _) (fun _ => Ref.bind (Ref.incI32 P _) (fun _ => Ref.rfl' _))
    | some w =>
      obtain ⟨c, fast⟩ := r
      cases fast with
      | none => exact Ref.rfl' _
      | some f =>
        refine Ref.bind (Ref.rfl' _) (fun _ => Ref.bind ?_ (fun _ => Ref.bind (Ref.rfl' _) (fun _ =>
          Ref.bind (Ref.ite (Ref.rfl' _) (Ref.incI32 P _)) (fun _ => Ref.rfl' _))))
        exact Ref.forM (fun _ _ => Ref.bind (ref_totalWeight P _) (fun _ => Ref.rfl' _)) _ _

theorem ref_multiTest (ig : InputGraph) (queries : List (List (Nat × Nat) × List (Nat × Nat))) :
    Ref (multiTest P.debug pq nq ig queries) (multiTest P pq nq ig queries) := by
  unfold multiTest
  exact Ref.bind (ref_prepare P ig) (fun _ => Ref.bind (Ref.rfl' _) (fun _ => Ref.bind (Ref.rfl' _) (fun _ =>
    Ref.bind (Ref.forM (fun _ _ => ref_multiStep P _ _ _ _) _ _) (fun _ => Ref.rfl' _))))

theorem ref_runMultiTestOnRandomGraph (draws : List (Nat × Nat × Nat)) (queries : List (List (Nat × Nat) × List (Nat × Nat))) :
    Ref (runMultiTestOnRandomGraph P.debug pq nq draws queries) (runMultiTestOnRandomGraph P pq nq draws queries) :=
  Ref.bind (InputGraph.ref_buildRandomGraph P _ _ _) (fun _ => Ref.bind (ref_multiTest P _ _) (fun _ => Ref.rfl' _))

theorem ref_runPerformanceTest (fg : FastGraph) (queries : List (Nat × Nat)) (c k : Nat) :
    Ref (runPerformanceTest P.debug pq fg queries c k) (runPerformanceTest P pq fg queries c k) := by
  refine Ref.bind (Ref.forM (fun st q => ?_) _ _) (fun _ => Ref.rfl' _)
  refine Ref.bind (ref_calcPath P _ _ _ _) (fun r => ?_)
  obtain ⟨c, r⟩ := r
  cases r with
  | none => exact Ref.bind (Ref.addW P _ _) (fun _ => Ref.rfl' _)
  | some p => exact Ref.bind (Ref.addW P _ _) (fun _ => Ref.rfl' _)

end TestSuite
end FP
