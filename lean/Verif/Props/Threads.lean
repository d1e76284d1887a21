import Verif.Props.Unwind
set_option autoImplicit false
/-! # Several calculators at the same time

README, lines 53-60: a calculator is used by one thread, other threads have their own. A query changes only its own calculator (`&mut self`)
and reads the graph (`&FastGraph`), so it makes no difference at which moment of the query other threads run: a schedule is a sequence of
whole queries. -/
namespace FP.Props
open Spec PathCalculator

/-- Queries of several threads in the order of a schedule: `(i, q)` is query `q` on the calculator of thread `i`
(path_calculator.rs:64-211). Threads go on after a panic was caught; every thread gets its own answer. -/
def runThreads (P : Plat) {pq : PQ} (cs : Nat → PathCalculator pq) : List (Nat × Request) → List (Nat × Except Panic (Option ShortestPath))
  | [] => []
  | (i, q) :: rest =>
    let (r, c) := calcPathMultiU P q.graph q.sources q.targets (cs i)
    (i, r) :: runThreads P (fun j => if j = i then c else cs j) rest

theorem runThreads_ok (P : Plat) {pq : PQ} (n : Nat → Nat) : ∀ (schedule : List (Nat × Request)) (cs : Nat → PathCalculator pq),
    (∀ i, CalcOk (n i) (cs i)) → runThreads P cs schedule = schedule.map (fun x =>
      (x.1, ((PathCalculator.new P pq (n x.1)).calcPathMulti P x.2.graph x.2.sources x.2.targets).map Prod.snd))
  | [], _, _ => rfl
  | (i, q) :: rest, cs, h => by
    simp only [runThreads, List.map_cons]
    rw [runThreads_ok P n rest _ (fun j => ?_)]
    · congr 2
      rw [(C67_same_results P pq _ _ _ _).1]
      have h2 := CalcOk.new P pq (n i)
      have := calcPathMulti_rel (P := P) (h i).num h2.num (h i).f (h i).b h2.f h2.b q.graph q.sources q.targets
      revert this
      cases (cs i).calcPathMulti P q.graph q.sources q.targets <;>
        cases (PathCalculator.new P pq (n i)).calcPathMulti P q.graph q.sources q.targets <;> intro h
      · exact congrArg Except.error h
      · exact h.elim
      · exact h.elim
      · exact congrArg Except.ok h.1
    · by_cases hj : j = i
      · subst hj
        simp only [if_pos]
        exact runRequestsU_ok [q] _ (h j)
      · simp only [if_neg hj]
        exact h j

/-- **C119** Whatever the schedule, every query of every thread gets the answer, or the panic, of a fresh calculator of the same size; no
assumption on graphs, arguments, panics or overflow checks. -/
theorem C119_schedules (P : Plat) (pq : PQ) (n : Nat → Nat) (schedule : List (Nat × Request)) :
    runThreads P (fun i => PathCalculator.new P pq (n i)) schedule = schedule.map (fun x =>
      (x.1, ((PathCalculator.new P pq (n x.1)).calcPathMulti P x.2.graph x.2.sources x.2.targets).map Prod.snd)) :=
  runThreads_ok P n schedule _ (fun i => CalcOk.new P pq (n i))

/-- **C119** A thread sees the same answers as if it ran alone. -/
theorem C119_alone (P : Plat) (pq : PQ) (n : Nat → Nat) (schedule : List (Nat × Request)) (i : Nat) :
    (runThreads P (fun i => PathCalculator.new P pq (n i)) schedule).filter (·.1 == i) =
      runThreads P (fun i => PathCalculator.new P pq (n i)) (schedule.filter (·.1 == i)) := by
  rw [C119_schedules, C119_schedules, List.filter_map]
  rfl

/-- **C119** On prepared graphs the answers are shortest, whoever asks in between. -/
theorem C119_answers {P : Plat} (hP : P.checked = true) {ops : List Op} {ig : InputGraph} {fg : FastGraph} (hc : Client P ops ig fg)
    (pq : PQ) (n : Nat → Nat) (before after : List (Nat × Request)) {i s t : Nat} (hn : n i = fg.getNumNodes) {r : Option ShortestPath}
    (h : (runThreads P (fun i => PathCalculator.new P pq (n i)) (before ++ (i, ⟨fg, [(s, 0)], [(t, 0)]⟩) :: after))[before.length]? =
      some (i, .ok r)) :
    (∀ p, r = some p → IsDist (edgesOf (accepted ops)) s t p.weight ∧ p.nodes.head? = some s ∧
        p.nodes.getLast? = some t ∧ IsWalk (edgesOf ig.edges) p.nodes p.weight) ∧
      (r = none ↔ ¬ ∃ w < P.umax, HasWalk (edgesOf (accepted ops)) s t w) := by
  rw [C119_schedules, List.getElem?_map, List.getElem?_append_right (Nat.le_refl _)] at h
  simp only [Nat.sub_self, List.getElem?_cons_zero, Option.map_some, Option.some.injEq, Prod.mk.injEq, true_and] at h
  refine C67_right_after_panics hP hc pq [] (s := s) (t := t) (r := r) ?_
  unfold calcPathU
  rw [C67_reuse_after_panics P pq fg.getNumNodes [] ⟨fg, [(s, 0)], [(t, 0)]⟩, ← hn]
  exact h

/-- Two threads on different graphs; the second one asks for a node that does not exist and goes on. -/
example : runThreads debug64 (fun _ => PathCalculator.new debug64 binaryHeap 5)
    [(0, ⟨Ex.fg, [(0, 0)], [(4, 0)]⟩), (1, ⟨Ex.fgo, [(9, 0)], [(0, 0)]⟩), (1, ⟨Ex.fgo, [(4, 0)], [(2, 0)]⟩), (0, ⟨Ex.fg, [(4, 0)], [(0, 0)]⟩)] =
    [(0, .ok (some ⟨0, 4, 13, [0, 1, 2, 3, 4]⟩)), (1, .error .assertion), (1, .ok (some ⟨4, 2, 6, [4, 1, 2]⟩)), (0, .ok none)] := by
  rw [C119_schedules debug64 binaryHeap (fun _ => 5)]
  rfl
example : IsDist (edgesOf (accepted Ex.ops)) 4 2 6 :=
  ((C119_answers rfl exampleClient' binaryHeap (fun _ => 5)
    [(0, ⟨Ex.fg, [(0, 0)], [(4, 0)]⟩), (1, ⟨Ex.fgo, [(9, 0)], [(0, 0)]⟩)] [(0, ⟨Ex.fg, [(4, 0)], [(0, 0)]⟩)] (i := 1) rfl
    (r := some ⟨4, 2, 6, [4, 1, 2]⟩) (by rw [C119_schedules debug64 binaryHeap (fun _ => 5)]; rfl)).1 _ rfl).1

end FP.Props
