import Verif.Proofs.Levels
import Verif.Proofs.Lockstep
import Verif.SpecQueue
set_option autoImplicit false
/-! # The calls of the queue of nodes: helper lemmas for C132 -/
namespace FP
open Spec PreparationGraph

variable {pq : PQ} {nq : NodeQueue} {P : Plat} {n : Nat}

theorem loggedQueue_same : SameQueues (loggedQueue nq) nq Eq (fun q q' => q.1 = q') where
  empty := rfl
  push := by rintro q _ k p _ rfl rfl; rfl
  change := by rintro q _ k p _ rfl rfl; rfl
  pop := by
    rintro q _ rfl
    cases h : nq.pop q.1 with
    | none => exact .inl ⟨by simp [loggedQueue, h], rfl⟩
    | some r => exact .inr ⟨r.1, (r.2, .pop r.1 :: q.2), r.2, by simp [loggedQueue, h], rfl, rfl⟩

theorem loggedQueue_ordered {prio : nq.σ → Nat → Nat} (ho : Ordered nq prio) : Ordered (loggedQueue nq) (fun q => prio q.1) where
  push_self k p q := ho.push_self k p q.1
  push_other k p q := ho.push_other k p q.1
  pop_least q k q' hn h := by
    obtain ⟨r, h1, h2⟩ := Option.map_eq_some_iff.1 h
    cases h2
    exact ho.pop_least q.1 r.1 r.2 hn h1
  pop_other q k q' hn h := by
    obtain ⟨r, h1, h2⟩ := Option.map_eq_some_iff.1 h
    cases h2
    exact ho.pop_other q.1 r.1 r.2 hn h1
  change_self k p q := ho.change_self k p q.1
  change_other k p q := ho.change_other k p q.1

theorem mem_btreeInsert' {k x : Nat} : ∀ {l : List Nat}, x ∈ btreeInsert k l → x = k ∨ x ∈ l
  | [], h => .inl (List.mem_singleton.1 h)
  | y :: ys, h => by
    unfold btreeInsert at h
    split at h
    · rcases List.mem_cons.1 h with rfl | h
      · exact .inl rfl
      · exact .inr h
    · split at h
      · exact .inr h
      · rcases List.mem_cons.1 h with rfl | h
        · exact .inr (List.mem_cons_self ..)
        · rcases mem_btreeInsert' h with rfl | h
          · exact .inl rfl
          · exact .inr (List.mem_cons_of_mem _ h)

theorem btreeInsert_sorted {k : Nat} : ∀ {l : List Nat}, l.Pairwise (· < ·) → (btreeInsert k l).Pairwise (· < ·)
  | [], _ => List.pairwise_singleton ..
  | y :: ys, h => by
    obtain ⟨h1, h2⟩ := List.pairwise_cons.1 h
    unfold btreeInsert
    split
    · rename_i hk
      refine List.pairwise_cons.2 ⟨fun x hx => ?_, h⟩
      rcases List.mem_cons.1 hx with rfl | hx
      · exact hk
      · exact Nat.lt_trans hk (h1 x hx)
    · split
      · exact h
      · rename_i hk he
        have he : k ≠ y := fun e => he (by simp [e])
        refine List.pairwise_cons.2 ⟨fun x hx => ?_, btreeInsert_sorted h2⟩
        rcases mem_btreeInsert' hx with rfl | hx
        · omega
        · exact h1 x hx

theorem neighborSet_sorted (outs ins : List Arc) : (neighborSet outs ins).Pairwise (· < ·) := by
  have key : ∀ (l : List Arc) (s : List Nat), s.Pairwise (· < ·) → (l.foldl (fun s a => btreeInsert a.adj s) s).Pairwise (· < ·) := by
    intro l
    induction l with
    | nil => intro s hs; exact hs
    | cons a l ih => intro s hs; exact ih _ (btreeInsert_sorted hs)
  exact key _ _ (key _ _ List.Pairwise.nil)

theorem initialPriority_calls {params : Params} {st st' : QState pq (loggedQueue nq)} {i : Nat}
    (h : initialPriority P params st i = .ok st') : callsOf st'.queue = callsOf st.queue ++ [.push i] := by
  unfold initialPriority at h
  obtain ⟨⟨g, ws, p⟩, _, h⟩ := bind_eq_ok.1 h
  injection h with h
  subst h
  exact List.reverse_cons

theorem updateNeighbor_calls {params : Params} {node : Nat} {st st' : QState pq (loggedQueue nq)} {i : Nat}
    (h : updateNeighbor P params node st i = .ok st') : callsOf st'.queue = callsOf st.queue ++ [.change i] := by
  unfold updateNeighbor at h
  obtain ⟨_, _, h⟩ := bind_eq_ok.1 h
  obtain ⟨_, _, h⟩ := bind_eq_ok.1 h
  obtain ⟨_, _, h⟩ := bind_eq_ok.1 h
  obtain ⟨_, _, h⟩ := bind_eq_ok.1 h
  obtain ⟨_, _, h⟩ := bind_eq_ok.1 h
  obtain ⟨⟨g, ws, p⟩, _, h⟩ := bind_eq_ok.1 h
  injection h with h
  subst h
  exact List.reverse_cons

theorem forM_calls {f : QState pq (loggedQueue nq) → Nat → M (QState pq (loggedQueue nq))} {c : Nat → QueueCall}
    (hf : ∀ st st' i, f st i = .ok st' → callsOf st'.queue = callsOf st.queue ++ [c i]) :
    ∀ (l : List Nat) (st st' : QState pq (loggedQueue nq)), forM f st l = .ok st' →
      callsOf st'.queue = callsOf st.queue ++ l.map c := by
  intro l
  induction l with
  | nil => intro st st' h; simp at h; subst h; simp
  | cons a l ih =>
    intro st st' h
    rw [forM_cons] at h
    obtain ⟨s1, h1, h⟩ := bind_eq_ok.1 h
    rw [ih _ _ h, hf _ _ _ h1]
    simp

/-- The calls of the loop over the nodes. `nb` lists for each node the neighbors it has when its turn comes. -/
theorem pops_calls (hP : P.checked = true) {ig : InputGraph} (hn : ig.numNodes ≤ P.umax) {prio : nq.σ → Nat → Nat}
    (ho : Ordered nq prio) {params : Params} {rank : Nat} {st : QState pq (loggedQueue nq)} {nodes : List Nat}
    (hp : Pops P params rank st nodes) : ∀ done fuel st', OInv P pq (loggedQueue nq) (fun q => prio q.1) ig params done st →
      contractionLoop P params fuel rank st = .ok st' → ∃ nbs : List (Nat × List Nat), nbs.map (·.1) = nodes ∧
        callsOf st'.queue = callsOf st.queue ++ nbs.flatMap (fun x => .pop x.1 :: x.2.map .change) ∧
        ∀ pre v l rest, nbs = pre ++ (v, l) :: rest → l.Pairwise (· < ·) ∧
          ∀ x, x ∈ l ↔ Adjacent (remainingEdges P pq ig params.maxSettledContraction (done ++ pre.map (·.1))) v x := by
  induction hp with
  | nil hp =>
    intro done fuel st' h hrun
    cases fuel with
    | zero => cases hrun
    | succ fuel =>
      unfold contractionLoop at hrun
      rw [hp] at hrun
      cases hrun
      exact ⟨[], rfl, by simp, fun pre v l rest e => by simp at e⟩
  | @cons rank node st st1 queue outs ins b nodes hpop hout hin hb hu hp ih =>
    intro done fuel st' h hrun
    cases fuel with
    | zero => cases hrun
    | succ fuel =>
      unfold contractionLoop at hrun
      rw [hpop] at hrun
      simp only [hout, hin, hb, hu, bind_okM] at hrun
      obtain ⟨nbs, h1, h2, h3⟩ := ih _ _ _ (h.step hP hn (loggedQueue_ordered ho) hpop hout hin hb hu).1 hrun
      have hq : callsOf queue = callsOf st.queue ++ [.pop node] := by
        obtain ⟨r, _, e⟩ := Option.map_eq_some_iff.1 hpop
        cases e
        exact List.reverse_cons
      refine ⟨(node, neighborSet outs ins) :: nbs, by simp [h1], ?_, ?_⟩
      · rw [h2, forM_calls (f := updateNeighbor P params node) (fun _ _ _ => updateNeighbor_calls) _ _ _ hu]
        simp [hq]
      · rintro (_ | ⟨a, pre⟩) v l rest e
        · simp only [List.nil_append, List.cons.injEq, Prod.mk.injEq] at e
          obtain ⟨⟨rfl, rfl⟩, _⟩ := e
          refine ⟨neighborSet_sorted _ _, fun x => ?_⟩
          have e1 : st.b.pg.outs node = outs := by simp [PreparationGraph.outs, idx_eq_ok.1 hout]
          have e2 : st.b.pg.ins node = ins := by simp [PreparationGraph.ins, idx_eq_ok.1 hin]
          rw [List.map_nil, List.append_nil, remainingEdges_of h.rem, adjacent_iff h.wf, e1, e2]
        · rw [List.cons_append] at e
          injection e with e e'
          subst e
          have := h3 pre v l rest e'
          simpa using this

end FP
