import Verif.Proofs.SearchSpace
/-! # Heap operations of a query -/
namespace FP
open Spec Side PathCalculator

variable {pq : PQ} {P : Plat} {n : Nat} {fg : FastGraph} {E : EdgeRel}

/-! ### The log changes nothing -/

/-- Apply a function to the result. -/
def mapM {α β : Type} (f : α → β) (m : M α) : M β := m >>= fun a => .ok (f a)

@[simp] theorem mapM_ok {α β : Type} (f : α → β) (a : α) : mapM f (.ok a) = .ok (f a) := rfl
@[simp] theorem mapM_error {α β : Type} (f : α → β) (e : Panic) : mapM f (.error e : M α) = .error e := rfl

theorem unlog_updateNode (s : Side (logged pq)) (x w p i : Nat) :
    (unlogSide s).updateNode x w p i = mapM unlogSide (s.updateNode x w p i) := by
  unfold Side.updateNode
  show (s.flags.setValid x >>= _) = mapM unlogSide (s.flags.setValid x >>= _)
  cases s.flags.setValid x with
  | error e => rfl
  | ok f =>
    simp only [bind_okM]
    show (setIdx s.data x _ >>= _) = mapM unlogSide (setIdx s.data x _ >>= _)
    cases setIdx s.data x ⟨false, w, p, i⟩ <;> rfl

theorem updateNode_heap {s s' : Side pq} {x w p i : Nat} (h : s.updateNode x w p i = .ok s') : s'.heap = s.heap := by
  unfold Side.updateNode at h
  obtain ⟨f, _, h⟩ := bind_eq_ok.1 h
  obtain ⟨d, _, h⟩ := bind_eq_ok.1 h
  cases h; rfl

theorem unlog_addRoot (s : Side (logged pq)) (x : Nat × Nat) :
    Side.addRoot P (unlogSide s) x = mapM unlogSide (Side.addRoot P s x) := by
  obtain ⟨x, w⟩ := x
  unfold Side.addRoot
  show (s.getWeight P x >>= _) = mapM unlogSide (s.getWeight P x >>= _)
  cases s.getWeight P x with
  | error e => rfl
  | ok w' =>
    simp only [bind_okM]
    by_cases h : w < w'
    · rw [if_pos h, if_pos h, unlog_updateNode]
      cases s.updateNode x w x P.INVALID_EDGE <;> rfl
    · rw [if_neg h, if_neg h]; rfl

theorem unlog_relaxEdge (es : List FastGraphEdge) (curr : HeapItem) (s : Side (logged pq)) (k : Nat) :
    Side.relaxEdge P es curr (unlogSide s) k = mapM unlogSide (Side.relaxEdge P es curr s k) := by
  unfold Side.relaxEdge
  cases idx es k with
  | error e => rfl
  | ok ed =>
    simp only [bind_okM]
    cases addW P curr.weight ed.weight with
    | error e => rfl
    | ok w =>
      simp only [bind_okM]
      show (s.getWeight P ed.adjNode >>= _) = mapM unlogSide (s.getWeight P ed.adjNode >>= _)
      cases s.getWeight P ed.adjNode with
      | error e => rfl
      | ok w' =>
        simp only [bind_okM]
        by_cases h : w < w'
        · rw [if_pos h, if_pos h, unlog_updateNode]
          cases s.updateNode ed.adjNode w curr.nodeId k <;> rfl
        · rw [if_neg h, if_neg h]; rfl

theorem unlog_forM {α : Type} {f : Side pq → α → M (Side pq)} {g : Side (logged pq) → α → M (Side (logged pq))}
    (h : ∀ s a, f (unlogSide s) a = mapM unlogSide (g s a)) : ∀ (l : List α) s,
    forM f (unlogSide s) l = mapM unlogSide (forM g s l) := by
  intro l
  induction l with
  | nil => intro s; rfl
  | cons a l ih =>
    intro s
    rw [forM_cons, forM_cons, h]
    cases g s a with
    | error e => rfl
    | ok s' => simp only [mapM_ok, bind_okM]; exact ih s'

theorem unlog_stallScan (es : List FastGraphEdge) (curr : HeapItem) (s : Side (logged pq)) : ∀ l,
    (unlogSide s).stallScan P es curr l = s.stallScan P es curr l := by
  intro l
  induction l with
  | nil => rfl
  | cons k l ih => unfold Side.stallScan; rw [ih]; rfl

/-- Forget the logs of a search state. -/
def unlogQS (st : QS (logged pq)) : QS pq := ⟨unlogSide st.fwd, unlogSide st.bwd, st.best, st.meet⟩

theorem unlog_swap (st : QS (logged pq)) : swapQS (unlogQS st) = unlogQS (swapQS st) := rfl

theorem unlog_innerFwd : ∀ fuel (st : QS (logged pq)), innerFwd P fg fuel (unlogQS st) = mapM unlogQS (innerFwd P fg fuel st) := by
  intro fuel
  induction fuel with
  | zero => intro st; rfl
  | succ fuel ih =>
    intro st
    unfold innerFwd
    cases hp : pq.pop st.fwd.heap.1 with
    | none =>
      have h1 : (logged pq).pop st.fwd.heap = none := by show Option.map _ (pq.pop _) = none; rw [hp]; rfl
      have h2 : pq.pop (unlogQS st).fwd.heap = none := hp
      rw [h1, h2]; rfl
    | some r =>
      obtain ⟨curr, heap'⟩ := r
      have h1 : (logged pq).pop st.fwd.heap = some (curr, (heap', st.fwd.heap.2.1, curr :: st.fwd.heap.2.2)) := by
        show Option.map _ (pq.pop _) = _; rw [hp]; rfl
      have h2 : pq.pop (unlogQS st).fwd.heap = some (curr, heap') := hp
      rw [h1, h2]
      simp only
      generalize hst : ({ st with fwd := { st.fwd with heap := (heap', st.fwd.heap.2.1, curr :: st.fwd.heap.2.2) } } :
        QS (logged pq)) = st1
      have hst' : ({ unlogQS st with fwd := { (unlogQS st).fwd with heap := heap' } } : QS pq) = unlogQS st1 := by
        subst hst; rfl
      have hf : ({ st.fwd with heap := (heap', st.fwd.heap.2.1, curr :: st.fwd.heap.2.2) } : Side (logged pq)) = st1.fwd := by
        subst hst; rfl
      have hf' : ({ (unlogQS st).fwd with heap := heap' } : Side pq) = unlogSide st1.fwd := by subst hst; rfl
      have hb : (unlogQS st).bwd = unlogSide st1.bwd := by subst hst; rfl
      have hb' : st.bwd = st1.bwd := by subst hst; rfl
      have hbe : (unlogQS st).best = st1.best := by subst hst; rfl
      have hbe' : st.best = st1.best := by subst hst; rfl
      have hme : (unlogQS st).meet = st1.meet := by subst hst; rfl
      have hme' : st.meet = st1.meet := by subst hst; rfl
      simp only [hf, hf', hb, hb', hbe, hbe', hme, hme']
      have hq : (⟨unlogSide st1.fwd, unlogSide st1.bwd, st1.best, st1.meet⟩ : QS pq) = unlogQS st1 := rfl
      simp only [hq, ih]
      show (st1.fwd.isSettled curr.nodeId >>= _) = mapM unlogQS (st1.fwd.isSettled curr.nodeId >>= _)
      cases st1.fwd.isSettled curr.nodeId with
      | error e => rfl
      | ok b =>
        cases b with
        | true => rfl
        | false =>
          simp only [bind_okM, Bool.false_eq_true, if_false]
          by_cases hw : curr.weight > st1.best
          · rw [if_pos hw, if_pos hw]; rfl
          · rw [if_neg hw, if_neg hw]
            have hstall : isStallableFwd P fg (unlogSide st1.fwd) curr = isStallableFwd P fg st1.fwd curr := by
              unfold isStallableFwd
              simp only [unlog_stallScan]
            rw [hstall]
            cases isStallableFwd P fg st1.fwd curr with
            | error e => rfl
            | ok b =>
              cases b with
              | true => rfl
              | false =>
                simp only [bind_okM, Bool.false_eq_true, if_false]
                cases fg.beginOutEdges curr.nodeId with
                | error e => rfl
                | ok b =>
                  simp only [bind_okM]
                  cases fg.endOutEdges curr.nodeId with
                  | error e => rfl
                  | ok e =>
                    simp only [bind_okM]
                    rw [unlog_forM (unlog_relaxEdge fg.edgesFwd curr)]
                    cases forM (Side.relaxEdge P fg.edgesFwd curr) st1.fwd (rangeFrom b e) with
                    | error e => rfl
                    | ok s =>
                      simp only [mapM_ok, bind_okM]
                      show (modIdx s.data curr.nodeId _ >>= _) = mapM unlogQS (modIdx s.data curr.nodeId _ >>= _)
                      cases modIdx s.data curr.nodeId (fun d => { d with settled := true }) with
                      | error e => rfl
                      | ok data =>
                        simp only [bind_okM]
                        show (st1.bwd.flags.isValid curr.nodeId >>= _) = mapM unlogQS (st1.bwd.flags.isValid curr.nodeId >>= _)
                        cases st1.bwd.flags.isValid curr.nodeId with
                        | error e => rfl
                        | ok v =>
                          cases v with
                          | false => rfl
                          | true =>
                            simp only [bind_okM, if_true]
                            show (st1.bwd.getWeight P curr.nodeId >>= _) = mapM unlogQS (st1.bwd.getWeight P curr.nodeId >>= _)
                            cases st1.bwd.getWeight P curr.nodeId with
                            | error e => rfl
                            | ok wb =>
                              simp only [bind_okM]
                              cases addW P curr.weight wb with
                              | error e => rfl
                              | ok w =>
                                simp only [bind_okM]
                                by_cases hlt : w < st1.best
                                · rw [if_pos hlt, if_pos hlt]; rfl
                                · rw [if_neg hlt, if_neg hlt]; rfl

theorem unlog_innerBwd (fuel : Nat) (st : QS (logged pq)) :
    innerBwd P fg fuel (unlogQS st) = mapM unlogQS (innerBwd P fg fuel st) := by
  rw [innerBwd_eq, innerBwd_eq, unlog_swap, unlog_innerFwd]
  cases innerFwd P fg.flip fuel (swapQS st) <;> rfl

theorem unlog_mainLoop : ∀ fuel (st : QS (logged pq)), mainLoop P fg fuel (unlogQS st) = mapM unlogQS (mainLoop P fg fuel st) := by
  intro fuel
  induction fuel with
  | zero => intro st; rfl
  | succ fuel ih =>
    intro st
    unfold mainLoop
    have he : ∀ (s : Side (logged pq)), pq.isEmpty (unlogSide s).heap = (logged pq).isEmpty s.heap := by
      intro s
      unfold PQ.isEmpty
      show (pq.pop s.heap.1).isNone = (Option.map _ (pq.pop s.heap.1)).isNone
      cases pq.pop s.heap.1 <;> rfl
    have h1 : pq.isEmpty (unlogQS st).fwd.heap = (logged pq).isEmpty st.fwd.heap := he _
    have h2 : pq.isEmpty (unlogQS st).bwd.heap = (logged pq).isEmpty st.bwd.heap := he _
    rw [h1, h2]
    by_cases hc : ((logged pq).isEmpty st.fwd.heap && (logged pq).isEmpty st.bwd.heap) = true
    · rw [if_pos hc, if_pos hc]; rfl
    · rw [if_neg hc, if_neg hc]
      have h3 : (pq.items (unlogQS st).fwd.heap).length = ((logged pq).items st.fwd.heap).length := rfl
      rw [h3, unlog_innerFwd]
      cases innerFwd P fg (((logged pq).items st.fwd.heap).length + 1) st with
      | error e => rfl
      | ok st1 =>
        simp only [mapM_ok, bind_okM]
        have h4 : (pq.items (unlogQS st1).bwd.heap).length = ((logged pq).items st1.bwd.heap).length := rfl
        rw [h4, unlog_innerBwd]
        cases innerBwd P fg (((logged pq).items st1.bwd.heap).length + 1) st1 with
        | error e => rfl
        | ok st2 => simp only [mapM_ok, bind_okM]; exact ih st2

theorem unlog_walkFwd (s : Side (logged pq)) : ∀ fuel r x, walkFwd P fg (unlogSide s) fuel r x = walkFwd P fg s fuel r x := by
  intro fuel
  induction fuel with
  | zero => intro r x; rfl
  | succ fuel ih => intro r x; unfold walkFwd; simp only [ih]; rfl

theorem unlog_walkBwd (s : Side (logged pq)) : ∀ fuel r x, walkBwd P fg (unlogSide s) fuel r x = walkBwd P fg s fuel r x := by
  intro fuel
  induction fuel with
  | zero => intro r x; rfl
  | succ fuel ih => intro r x; unfold walkBwd; simp only [ih]; rfl

theorem unlog_calcPathMulti (c : PathCalculator (logged pq)) (S T : List (Nat × Nat)) :
    (unlog c).calcPathMulti P fg S T = mapM (fun r => (unlog r.1, r.2)) (c.calcPathMulti P fg S T) := by
  unfold PathCalculator.calcPathMulti
  have h0 : checkArgs (unlog c) fg S T = checkArgs c fg S T := rfl
  rw [h0]
  cases checkArgs c fg S T with
  | error e => rfl
  | ok u =>
    simp only [bind_okM]
    cases initialMeeting P S T with
    | error e => rfl
    | ok bm =>
      obtain ⟨best, meet⟩ := bm
      simp only [bind_okM]
      have h1 : (unlog c).fwd.clear = unlogSide c.fwd.clear := rfl
      have h2 : (unlog c).bwd.clear = unlogSide c.bwd.clear := rfl
      rw [h1, h2, unlog_forM unlog_addRoot]
      cases forM (Side.addRoot P) c.fwd.clear S with
      | error e => rfl
      | ok fwd =>
        simp only [mapM_ok, bind_okM]
        rw [unlog_forM unlog_addRoot]
        cases forM (Side.addRoot P) c.bwd.clear T with
        | error e => rfl
        | ok bwd =>
          simp only [mapM_ok, bind_okM]
          have h3 : (⟨unlogSide fwd, unlogSide bwd, best, meet⟩ : QS pq) = unlogQS ⟨fwd, bwd, best, meet⟩ := rfl
          rw [h3, unlog_mainLoop]
          cases mainLoop P fg (mainFuel fg S T) (⟨fwd, bwd, best, meet⟩ : QS (logged pq)) with
          | error e => rfl
          | ok st =>
            simp only [mapM_ok, bind_okM]
            have h4 : (unlogQS st).meet = st.meet := rfl
            have h5 : (unlogQS st).best = st.best := rfl
            rw [h4, h5]
            by_cases hm : (st.meet == P.INVALID_NODE) = true
            · rw [if_pos hm, if_pos hm]; rfl
            · rw [if_neg hm, if_neg hm]
              cases assertM (decide (st.best < P.WEIGHT_MAX)) with
              | error e => rfl
              | ok u =>
                simp only [bind_okM]
                have h6 : extractNodes P fg (unlogQS st).fwd (unlogQS st).bwd st.meet = extractNodes P fg st.fwd st.bwd st.meet := by
                  unfold extractNodes
                  have h7 : (unlogQS st).fwd = unlogSide st.fwd := rfl
                  have h8 : (unlogQS st).bwd = unlogSide st.bwd := rfl
                  rw [h7, h8]
                  simp only [unlog_walkFwd, unlog_walkBwd]
                  rfl
                rw [h6]
                cases extractNodes P fg st.fwd st.bwd st.meet with
                | error e => rfl
                | ok nodes =>
                  simp only [bind_okM]
                  cases assertM (!nodes.isEmpty) with
                  | error e => rfl
                  | ok u =>
                    simp only [bind_okM]
                    cases idx nodes 0 with
                    | error e => rfl
                    | ok a =>
                      simp only [bind_okM]
                      cases idx nodes (nodes.length - 1) <;> rfl

/-! ### What is in the log -/

/-- Invariant of the log of one direction. -/
structure WLog (fg : FastGraph) (roots : List (Nat × Nat)) (s : Side (logged pq)) : Prop where
  count : ∃ done : List Nat, done.Nodup ∧ (∀ x ∈ done, ∃ d, s.look x = some d ∧ d.settled = true) ∧
    s.heap.2.1.length ≤ roots.length + (done.map (fun x => fg.eo x - fg.bo x)).sum
  all : s.heap.2.1.Perm (s.heap.2.2 ++ pq.items s.heap.1)
  sorted : s.heap.2.2.Pairwise (fun a b => b.weight ≤ a.weight)
  front : ∀ a ∈ s.heap.2.2, ∀ it ∈ pq.items s.heap.1, a.weight ≤ it.weight

/-- What relaxing edges of `curr` does to the log. -/
structure RLog (curr : HeapItem) (q q' : pq.σ × List HeapItem × List HeapItem) (k : Nat) : Prop where
  count : q'.2.1.length ≤ q.2.1.length + k
  pops : q'.2.2 = q.2.2
  all : q.2.1.Perm (q.2.2 ++ pq.items q.1) → q'.2.1.Perm (q'.2.2 ++ pq.items q'.1)
  new : ∀ it ∈ pq.items q'.1, it ∈ pq.items q.1 ∨ curr.weight ≤ it.weight

theorem perm_push {l a : List HeapItem} {x : HeapItem} {q : pq.σ} (h : l.Perm (a ++ pq.items q)) :
    (x :: l).Perm (a ++ pq.items (pq.push x q)) := by
  refine (h.cons x).trans ?_
  refine List.Perm.trans ?_ ((pq.items_push x q).symm.append_left a)
  exact List.perm_middle.symm

theorem relaxEdge_log (hP : P.checked = true) {es : List FastGraphEdge} {curr : HeapItem} {s s' : Side (logged pq)} {k : Nat}
    (h : Side.relaxEdge P es curr s k = .ok s') : RLog curr s.heap s'.heap 1 := by
  unfold Side.relaxEdge at h
  obtain ⟨ed, _, h⟩ := bind_eq_ok.1 h
  obtain ⟨w, e1, h⟩ := bind_eq_ok.1 h
  obtain ⟨w', _, h⟩ := bind_eq_ok.1 h
  have hw := (Tri.of_ok (Tri_addW hP _ _) e1).1
  by_cases hlt : w < w'
  · rw [if_pos hlt] at h
    obtain ⟨s1, e2, h⟩ := bind_eq_ok.1 h
    cases h
    have hh := updateNode_heap e2
    simp only [hh]
    refine ⟨?_, rfl, fun h => perm_push h, ?_⟩
    · show (_ :: _ : List HeapItem).length ≤ _
      simp
    · intro it hit
      rcases PQ.mem_push.1 hit with rfl | hit
      · right; simp only; omega
      · exact Or.inl hit
  · rw [if_neg hlt] at h
    cases h
    exact ⟨by omega, rfl, id, fun it hit => Or.inl hit⟩

theorem relaxAll_log (hP : P.checked = true) {es : List FastGraphEdge} {curr : HeapItem} : ∀ (l : List Nat)
    {s s' : Side (logged pq)}, forM (Side.relaxEdge P es curr) s l = .ok s' → RLog curr s.heap s'.heap l.length := by
  intro l
  induction l with
  | nil => intro s s' h; cases h; exact ⟨by omega, rfl, id, fun it hit => Or.inl hit⟩
  | cons a l ih =>
    intro s s' h
    rw [forM_cons] at h
    obtain ⟨s1, e1, e2⟩ := bind_eq_ok.1 h
    have h1 := relaxEdge_log hP e1
    have h2 := ih e2
    refine ⟨?_, h2.pops.trans h1.pops, fun h => h2.all (h1.all h), ?_⟩
    · have := h1.count; have := h2.count; simp only [List.length_cons]; omega
    · intro it hit
      rcases h2.new it hit with h3 | h3
      · exact h1.new it h3
      · exact Or.inr h3

theorem logged_pop {q : (logged pq).σ} {curr : HeapItem} {q' : (logged pq).σ} (h : (logged pq).pop q = some (curr, q')) :
    ∃ h', pq.pop q.1 = some (curr, h') ∧ q' = (h', q.2.1, curr :: q.2.2) := by
  obtain ⟨r, h1, h2⟩ := Option.map_eq_some_iff.1 h
  cases h2
  exact ⟨r.2, h1, rfl⟩

/-- Popping an item. -/
theorem WLog.popped {roots : List (Nat × Nat)} {s : Side (logged pq)} (h : WLog fg roots s) {curr : HeapItem}
    {heap' : (logged pq).σ} (hp : (logged pq).pop s.heap = some (curr, heap')) :
    WLog fg roots ({ s with heap := heap' } : Side (logged pq)) := by
  obtain ⟨q, h1, rfl⟩ := logged_pop hp
  have hmem : curr ∈ pq.items s.heap.1 := (PQ.pop_mem h1).2 (Or.inl rfl)
  refine ⟨h.count, ?_, ?_, ?_⟩
  · refine h.all.trans ?_
    refine ((pq.pop_some _ _ _ h1).1.append_left _).trans ?_
    exact List.perm_middle
  · exact List.pairwise_cons.2 ⟨fun b hb => h.front b hb curr hmem, h.sorted⟩
  · intro a ha it hit
    have hit' : it ∈ pq.items s.heap.1 := (PQ.pop_mem h1).2 (Or.inr hit)
    rcases List.mem_cons.1 ha with rfl | ha
    · exact PQ.pop_min h1 hit'
    · exact h.front a ha it hit'

/-- Settling a node. -/
theorem WLog.settle (hP : P.checked = true) (hg : SGood P E n fg) {roots : List (Nat × Nat)} {best : Nat}
    {s : Side (logged pq)} (h : LInv P n fg roots best s) (hl : WLog fg roots s) {curr : HeapItem} {heap' : (logged pq).σ}
    (hp : (logged pq).pop s.heap = some (curr, heap')) {dc : PData} (hdc : s.look curr.nodeId = some dc)
    (hun : dc.settled = false) (hw : dc.weight = curr.weight) (hnb : ¬ Beaten fg s.look curr.nodeId curr.weight)
    {s1 : Side (logged pq)} {data : List PData}
    (e1 : forM (Side.relaxEdge P fg.edgesFwd curr) ({ s with heap := heap' } : Side (logged pq))
        (rangeFrom (fg.bo curr.nodeId) (fg.eo curr.nodeId)) = .ok s1)
    (e2 : modIdx s1.data curr.nodeId (fun d => { d with settled := true }) = .ok data) :
    WLog fg roots ({ s1 with data := data } : Side (logged pq)) := by
  obtain ⟨_, hk1, hk2, _⟩ := settle_linv hP hg h hp hdc hw hnb e1 e2
  have hr := relaxAll_log hP _ e1
  have hp' := hl.popped hp
  simp only [rangeFrom, List.length_range'] at hr
  have hpw : ∀ a ∈ heap'.2.2, a.weight ≤ curr.weight := by
    obtain ⟨q, h1, rfl⟩ := logged_pop hp
    intro a ha
    rcases List.mem_cons.1 ha with rfl | ha
    · exact Nat.le_refl _
    · exact hl.front a ha curr ((PQ.pop_mem h1).2 (Or.inl rfl))
  refine ⟨?_, hr.all hp'.all, ?_, ?_⟩
  · obtain ⟨done, d1, d2, d3⟩ := hp'.count
    refine ⟨curr.nodeId :: done, ?_, ?_, ?_⟩
    · refine List.nodup_cons.2 ⟨?_, d1⟩
      intro hm
      obtain ⟨d, q1, q2⟩ := d2 _ hm
      have q1' : s.look curr.nodeId = some d := q1
      rw [hdc] at q1'; cases q1'
      rw [hun] at q2; cases q2
    · intro x hx
      by_cases hxc : x = curr.nodeId
      · subst hxc; exact ⟨_, hk2, rfl⟩
      · rcases List.mem_cons.1 hx with hx | hx
        · exact absurd hx hxc
        · obtain ⟨d, q1, q2⟩ := d2 x hx
          exact ⟨d, hk1 x d hxc q1 q2, q2⟩
    · have := hr.count
      simp only [List.map_cons, List.sum_cons]
      simp only at this d3 ⊢
      omega
  · have : s1.heap.2.2 = heap'.2.2 := hr.pops
    show s1.heap.2.2.Pairwise _
    rw [this]; exact hp'.sorted
  · intro a ha it hit
    have : s1.heap.2.2 = heap'.2.2 := hr.pops
    have ha' : a ∈ heap'.2.2 := by rw [← this]; exact ha
    rcases hr.new it hit with h3 | h3
    · exact hp'.front a ha' it h3
    · exact Nat.le_trans (hpw a ha') h3

/-- The inner forward loop. -/
theorem innerFwd_log (hP : P.checked = true) (hg : SGood P E n fg) {roots : List (Nat × Nat)} :
    ∀ fuel (st st' : QS (logged pq)), LInv P n fg roots st.best st.fwd → WLog fg roots st.fwd →
      innerFwd P fg fuel st = .ok st' → WLog fg roots st'.fwd := by
  intro fuel
  induction fuel with
  | zero => intro st st' _ _ h; cases h
  | succ fuel ih =>
    intro st st' hf hl h
    unfold innerFwd at h
    cases hp : (logged pq).pop st.fwd.heap with
    | none =>
      rw [hp] at h
      cases h
      exact hl
    | some r =>
      obtain ⟨curr, heap'⟩ := r
      rw [hp] at h
      simp only at h
      have hcurr : curr ∈ (logged pq).items st.fwd.heap := (PQ.pop_mem hp).2 (Or.inl rfl)
      obtain ⟨dc, hc1, hc2⟩ := hf.items curr hcurr
      have hcn : curr.nodeId < n := hf.tab.look_lt hc1
      have hbase : Base n ({ st.fwd with heap := heap' } : Side (logged pq)) := hf.tab
      have hsb : settledB ({ st.fwd with heap := heap' } : Side (logged pq)) curr.nodeId = dc.settled := by
        have : settledB ({ st.fwd with heap := heap' } : Side (logged pq)) curr.nodeId = st.fwd.settledB curr.nodeId := rfl
        rw [this]; unfold settledB; rw [hc1]
      rw [isSettled_ok hbase hcn, hsb] at h
      simp only [bind_okM] at h
      by_cases hset : dc.settled = true
      · rw [if_pos hset] at h
        refine ih { st with fwd := { st.fwd with heap := heap' } } _ (hf.popped hp ?_) (hl.popped hp) h
        intro d hd hds
        rw [hc1] at hd; cases hd
        rw [hset] at hds; cases hds
      · rw [if_neg hset] at h
        have hun : dc.settled = false := by simpa using hset
        by_cases hbest : curr.weight > st.best
        · rw [if_pos hbest] at h
          cases h
          exact hl.popped hp
        · rw [if_neg hbest] at h
          obtain ⟨r, er, h⟩ := bind_eq_ok.1 h
          have hr := Tri.of_ok (isStallableFwd_exact hP hg hbase hf.lt hcn) er
          by_cases hrt : r = true
          · rw [if_pos hrt] at h
            exact ih { st with fwd := { st.fwd with heap := heap' } } _ (hf.popped hp (fun _ _ _ _ => Or.inl (hr.1 hrt)))
              (hl.popped hp) h
          · rw [if_neg hrt] at h
            have hnb : ¬ Beaten fg st.fwd.look curr.nodeId curr.weight := fun hb => hrt (hr.2 hb)
            have hw : dc.weight = curr.weight := by
              rcases hf.unsettled _ _ hc1 hun with k | k | k
              · have := PQ.pop_min hp k
                simp only at this
                omega
              · obtain ⟨id, ed, dy, q1, q2, q3⟩ := k
                exact absurd ⟨id, ed, dy, q1, q2, by omega⟩ hnb
              · omega
            rw [hg.beginOut hcn, hg.endOut hcn] at h
            simp only [bind_okM] at h
            obtain ⟨s1, e1, h⟩ := bind_eq_ok.1 h
            obtain ⟨data, e2, h⟩ := bind_eq_ok.1 h
            have hS := WLog.settle hP hg hf hl hp hc1 hun hw hnb e1 e2
            obtain ⟨v, _, h⟩ := bind_eq_ok.1 h
            cases v with
            | false => cases h; exact hS
            | true =>
              simp only [if_true] at h
              obtain ⟨wb, _, h⟩ := bind_eq_ok.1 h
              obtain ⟨w, _, h⟩ := bind_eq_ok.1 h
              by_cases hlt : w < st.best
              · rw [if_pos hlt] at h; cases h; exact hS
              · rw [if_neg hlt] at h; cases h; exact hS

/-! ### Every push improves a label -/

/-- Pushed items have weights above the label of their node, and later ones for the same node are smaller. -/
structure ILog (n : Nat) (s : Side (logged pq)) : Prop where
  tab : s.Base n
  lab : ∀ a ∈ s.heap.2.1, ∃ d, s.look a.nodeId = some d ∧ d.weight ≤ a.weight
  decr : s.heap.2.1.Pairwise (fun a b => a.nodeId = b.nodeId → a.weight < b.weight)
  has : ∀ x d, s.look x = some d → (⟨d.weight, x⟩ : HeapItem) ∈ s.heap.2.1

theorem getWeight_lt {s : Side pq} (h : s.Base n) {x w : Nat} (e : s.getWeight P x = .ok w) : x < n := by
  by_contra hc
  have : s.flags.validFlags[x]? = none := by
    have := h.flags.len
    simp; omega
  unfold getWeight at e
  obtain ⟨v, e1, _⟩ := bind_eq_ok.1 e
  unfold ValidFlags.isValid idx at e1
  rw [this] at e1
  cases e1

theorem ILog.improve {s s1 : Side (logged pq)} (h : ILog n s) {x w w' p i : Nat} (e : s.getWeight P x = .ok w') (hlt : w < w')
    (e1 : s.updateNode x w p i = .ok s1) :
    ILog n ({ s1 with heap := (logged pq).push ⟨w, x⟩ s1.heap } : Side (logged pq)) := by
  have hx := getWeight_lt h.tab e
  rw [getWeight_ok h.tab hx] at e
  cases e
  obtain ⟨s', e2, b', hh, hl⟩ := Side.updateNode_ok h.tab hx w p i
  rw [e2] at e1
  cases e1
  have hL : ∀ y, ({ s1 with heap := (logged pq).push ⟨w, x⟩ s1.heap } : Side (logged pq)).look y
      = if y = x then some ⟨false, w, p, i⟩ else s.look y := hl
  have hp : ({ s1 with heap := (logged pq).push ⟨w, x⟩ s1.heap } : Side (logged pq)).heap.2.1 = ⟨w, x⟩ :: s.heap.2.1 := by
    rw [hh]; rfl
  refine ⟨b', ?_, ?_, ?_⟩
  · rw [hp]
    intro a ha
    rcases List.mem_cons.1 ha with rfl | ha
    · exact ⟨_, by rw [hL, if_pos rfl], Nat.le_refl _⟩
    · obtain ⟨d, k1, k2⟩ := h.lab a ha
      rw [hL]
      by_cases hax : a.nodeId = x
      · rw [if_pos hax]
        rw [hax] at k1
        rw [wt_some k1] at hlt
        exact ⟨_, rfl, by simp only; omega⟩
      · rw [if_neg hax]; exact ⟨d, k1, k2⟩
  · rw [hp]
    refine List.pairwise_cons.2 ⟨?_, h.decr⟩
    intro b hb hbx
    obtain ⟨d, k1, k2⟩ := h.lab b hb
    simp only at hbx ⊢
    rw [← hbx] at k1
    rw [wt_some k1] at hlt
    omega
  · rw [hp]
    intro y d hy
    rw [hL] at hy
    by_cases hyx : y = x
    · rw [if_pos hyx] at hy
      cases hy
      rw [hyx]
      exact List.mem_cons_self ..
    · rw [if_neg hyx] at hy
      exact List.mem_cons_of_mem _ (h.has y d hy)

theorem ILog.relaxAll {es : List FastGraphEdge} {curr : HeapItem} : ∀ (l : List Nat) {s s' : Side (logged pq)}, ILog n s →
    forM (Side.relaxEdge P es curr) s l = .ok s' → ILog n s' := by
  intro l
  induction l with
  | nil => intro s s' h e; cases e; exact h
  | cons k l ih =>
    intro s s' h e
    rw [forM_cons] at e
    obtain ⟨s1, e1, e2⟩ := bind_eq_ok.1 e
    refine ih ?_ e2
    unfold Side.relaxEdge at e1
    obtain ⟨ed, _, e1⟩ := bind_eq_ok.1 e1
    obtain ⟨w, _, e1⟩ := bind_eq_ok.1 e1
    obtain ⟨w', ew, e1⟩ := bind_eq_ok.1 e1
    by_cases hlt : w < w'
    · rw [if_pos hlt] at e1
      obtain ⟨s2, e3, e1⟩ := bind_eq_ok.1 e1
      cases e1
      exact h.improve ew hlt e3
    · rw [if_neg hlt] at e1
      cases e1
      exact h

theorem ILog.addRoots : ∀ (l : List (Nat × Nat)) {s s' : Side (logged pq)}, ILog n s →
    forM (Side.addRoot P) s l = .ok s' → ILog n s' := by
  intro l
  induction l with
  | nil => intro s s' h e; cases e; exact h
  | cons r l ih =>
    intro s s' h e
    rw [forM_cons] at e
    obtain ⟨s1, e1, e2⟩ := bind_eq_ok.1 e
    refine ih ?_ e2
    obtain ⟨r, wr⟩ := r
    unfold addRoot at e1
    simp only at e1
    obtain ⟨w', ew, e1⟩ := bind_eq_ok.1 e1
    by_cases hlt : wr < w'
    · rw [if_pos hlt] at e1
      obtain ⟨s2, e3, e1⟩ := bind_eq_ok.1 e1
      cases e1
      exact h.improve ew hlt e3
    · rw [if_neg hlt] at e1
      cases e1
      exact h

theorem ILog.popped {s : Side (logged pq)} (h : ILog n s) {curr : HeapItem}
    {heap' : (logged pq).σ} (hp : (logged pq).pop s.heap = some (curr, heap')) :
    ILog n ({ s with heap := heap' } : Side (logged pq)) := by
  obtain ⟨q, h1, rfl⟩ := logged_pop hp
  exact ⟨h.tab, h.lab, h.decr, h.has⟩

theorem ILog.mark {s : Side (logged pq)} (h : ILog n s) {x : Nat} {data : List PData} (hx : ∃ d, s.look x = some d)
    (e : modIdx s.data x (fun d => { d with settled := true }) = .ok data) : ILog n ({ s with data := data } : Side (logged pq)) := by
  obtain ⟨dx, hx⟩ := hx
  obtain ⟨em, tabm, lm⟩ := TabOk.modify h.tab hx (fun d => { d with settled := true })
  rw [em] at e
  cases e
  have hl : ∀ y, ({ s with data := s.data.set x { dx with settled := true } } : Side (logged pq)).look y =
      if y = x then some { dx with settled := true } else s.look y := lm
  refine ⟨tabm, ?_, h.decr, ?_⟩
  · intro a ha
    obtain ⟨d, k1, k2⟩ := h.lab a ha
    rw [hl]
    by_cases hax : a.nodeId = x
    · rw [if_pos hax]
      rw [hax, hx] at k1
      cases k1
      exact ⟨_, rfl, k2⟩
    · rw [if_neg hax]; exact ⟨d, k1, k2⟩
  · intro y d hy
    rw [hl] at hy
    by_cases hyx : y = x
    · rw [if_pos hyx] at hy
      cases hy
      rw [hyx]
      exact h.has x dx hx
    · rw [if_neg hyx] at hy
      exact h.has y d hy

theorem ILog.clear {s : Side (logged pq)} (h : s.Base n) : ILog n s.clear := by
  have h0 : RootInv debug64 n ⟨0, [], [], [], [], []⟩ [] s.clear := RootInv.clear h
  refine ⟨h0.tab, ?_, List.Pairwise.nil, ?_⟩
  · intro a ha
    have hz : (Side.clear s).heap.2.1 = [] := rfl
    rw [hz] at ha
    cases ha
  · intro x d hx
    have := (h0.lab x d hx).2.2.2
    cases this

theorem relaxAll_look {x : Nat} {es : List FastGraphEdge} {curr : HeapItem} : ∀ (l : List Nat) {s s' : Side (logged pq)}, s.Base n → (∃ d, s.look x = some d) →
    forM (Side.relaxEdge P es curr) s l = .ok s' → ∃ d, s'.look x = some d := by
  intro l
  induction l with
  | nil => intro s s' _ h e; cases e; exact h
  | cons k l ih =>
    intro s s' hb h e
    rw [forM_cons] at e
    obtain ⟨s1, e1, e2⟩ := bind_eq_ok.1 e
    unfold Side.relaxEdge at e1
    obtain ⟨ed, _, e1⟩ := bind_eq_ok.1 e1
    obtain ⟨w, _, e1⟩ := bind_eq_ok.1 e1
    obtain ⟨w', ew, e1⟩ := bind_eq_ok.1 e1
    by_cases hlt : w < w'
    · rw [if_pos hlt] at e1
      obtain ⟨s2, e3, e1⟩ := bind_eq_ok.1 e1
      cases e1
      obtain ⟨s3, e2', b', hh, hl⟩ := Side.updateNode_ok hb (getWeight_lt hb ew) w curr.nodeId k
      rw [e3] at e2'
      cases e2'
      refine ih (s := { s2 with heap := (logged pq).push ⟨w, ed.adjNode⟩ s2.heap }) b' ?_ e2
      have hl' : ({ s2 with heap := (logged pq).push ⟨w, ed.adjNode⟩ s2.heap } : Side (logged pq)).look x = _ := hl x
      rw [hl']
      by_cases hxa : x = ed.adjNode
      · rw [if_pos hxa]; exact ⟨_, rfl⟩
      · rw [if_neg hxa]; exact h
    · rw [if_neg hlt] at e1
      cases e1
      exact ih hb h e2

/-- The inner forward loop. -/
theorem innerFwd_ilog : ∀ fuel (st st' : QS (logged pq)), ILog n st.fwd →
    (∀ it ∈ pq.items st.fwd.heap.1, ∃ d, st.fwd.look it.nodeId = some d) →
    innerFwd P fg fuel st = .ok st' → ILog n st'.fwd := by
  intro fuel
  induction fuel with
  | zero => intro st st' _ _ h; cases h
  | succ fuel ih =>
    intro st st' hl hit h
    unfold innerFwd at h
    cases hp : (logged pq).pop st.fwd.heap with
    | none =>
      rw [hp] at h
      cases h
      exact hl
    | some r =>
      obtain ⟨curr, heap'⟩ := r
      rw [hp] at h
      simp only at h
      obtain ⟨q, hp1, hq⟩ := logged_pop hp
      have hcurr : ∃ d, st.fwd.look curr.nodeId = some d := hit curr ((PQ.pop_mem hp1).2 (Or.inl rfl))
      have hit' : ∀ it ∈ pq.items heap'.1, ∃ d, st.fwd.look it.nodeId = some d := by
        intro it hi
        rw [hq] at hi
        exact hit it ((PQ.pop_mem hp1).2 (Or.inr hi))
      have hl' := hl.popped hp
      obtain ⟨b, _, h⟩ := bind_eq_ok.1 h
      by_cases hset : b = true
      · rw [if_pos hset] at h
        exact ih { st with fwd := { st.fwd with heap := heap' } } _ hl' hit' h
      · rw [if_neg hset] at h
        by_cases hbest : curr.weight > st.best
        · rw [if_pos hbest] at h
          cases h
          exact hl'
        · rw [if_neg hbest] at h
          obtain ⟨r, er, h⟩ := bind_eq_ok.1 h
          by_cases hrt : r = true
          · rw [if_pos hrt] at h
            exact ih { st with fwd := { st.fwd with heap := heap' } } _ hl' hit' h
          · rw [if_neg hrt] at h
            obtain ⟨b, _, h⟩ := bind_eq_ok.1 h
            obtain ⟨e, _, h⟩ := bind_eq_ok.1 h
            obtain ⟨s1, e1, h⟩ := bind_eq_ok.1 h
            obtain ⟨data, e2, h⟩ := bind_eq_ok.1 h
            have hS : ILog n ({ s1 with data := data } : Side (logged pq)) :=
              (hl'.relaxAll _ e1).mark (relaxAll_look _ hl'.tab hcurr e1) e2
            obtain ⟨v, _, h⟩ := bind_eq_ok.1 h
            cases v with
            | false => cases h; exact hS
            | true =>
              simp only [if_true] at h
              obtain ⟨wb, _, h⟩ := bind_eq_ok.1 h
              obtain ⟨w, _, h⟩ := bind_eq_ok.1 h
              by_cases hlt : w < st.best
              · rw [if_pos hlt] at h; cases h; exact hS
              · rw [if_neg hlt] at h; cases h; exact hS

/-- The main loop. -/
theorem mainLoop_log (hP : P.checked = true) (hg : SGood P E n fg) {starts ends : List (Nat × Nat)} :
    ∀ fuel (st st' : QS (logged pq)), LInv P n fg starts st.best st.fwd → LInv P n fg.flip ends st.best st.bwd →
      (st.meet = P.umax → st.best = P.umax) → WLog fg starts st.fwd ∧ ILog n st.fwd → WLog fg.flip ends st.bwd ∧ ILog n st.bwd →
      mainLoop P fg fuel st = .ok st' → (WLog fg starts st'.fwd ∧ ILog n st'.fwd) ∧ WLog fg.flip ends st'.bwd ∧ ILog n st'.bwd := by
  intro fuel
  induction fuel with
  | zero => intro st st' _ _ _ _ _ h; cases h
  | succ fuel ih =>
    intro st st' hf hb hm lf lb h
    unfold mainLoop at h
    by_cases hemp : ((logged pq).isEmpty st.fwd.heap && (logged pq).isEmpty st.bwd.heap) = true
    · rw [if_pos hemp] at h
      cases h
      exact ⟨lf, lb⟩
    · rw [if_neg hemp] at h
      obtain ⟨st1, e1, h⟩ := bind_eq_ok.1 h
      obtain ⟨st2, e2, h⟩ := bind_eq_ok.1 h
      obtain ⟨q1, q2, q3, q4⟩ := innerFwd_linv hP hg _ _ _ hf hm e1
      have l1 : WLog fg starts st1.fwd ∧ ILog n st1.fwd :=
        ⟨innerFwd_log hP hg _ _ _ hf lf.1 e1, innerFwd_ilog _ _ _ lf.2 (fun it hit => (hf.items it hit).imp (fun _ k => k.1)) e1⟩
      rw [innerBwd_eq] at e2
      obtain ⟨st2', e3, e4⟩ := bind_eq_ok.1 e2
      cases e4
      have hb1 : LInv P n fg.flip ends (swapQS st1).best (swapQS st1).fwd := by
        show LInv P n fg.flip ends st1.best st1.bwd
        rw [q1]; exact hb.lower q3
      have lb1 : WLog fg.flip ends (swapQS st1).fwd ∧ ILog n (swapQS st1).fwd := by
        show WLog fg.flip ends st1.bwd ∧ ILog n st1.bwd
        rw [q1]; exact lb
      obtain ⟨k1, k2, k3, k4⟩ := innerFwd_linv hP hg.flip _ _ _ hb1 q4 e3
      have l2 : WLog fg.flip ends st2'.fwd ∧ ILog n st2'.fwd :=
        ⟨innerFwd_log hP hg.flip _ _ _ hb1 lb1.1 e3,
          innerFwd_ilog _ _ _ lb1.2 (fun it hit => (hb1.items it hit).imp (fun _ k => k.1)) e3⟩
      refine ih (swapQS st2') _ ?_ k2 k4 ?_ l2 h
      · show LInv P n fg starts st2'.best st2'.bwd
        rw [k1]
        exact q2.lower k3
      · show WLog fg starts st2'.bwd ∧ ILog n st2'.bwd
        rw [k1]; exact l1

/-- Adding the roots. -/
theorem addRoots_log {roots : List (Nat × Nat)} : ∀ {s s' : Side (logged pq)}, s.heap.2.2 = [] →
    s.heap.2.1.Perm (pq.items s.heap.1) → forM (Side.addRoot P) s roots = .ok s' →
    s'.heap.2.2 = [] ∧ s'.heap.2.1.Perm (pq.items s'.heap.1) ∧ s'.heap.2.1.length ≤ s.heap.2.1.length + roots.length := by
  induction roots with
  | nil => intro s s' h1 h2 e; cases e; exact ⟨h1, h2, by simp⟩
  | cons r rest ih =>
    intro s s' h1 h2 e
    rw [forM_cons] at e
    obtain ⟨s1, e1, e2⟩ := bind_eq_ok.1 e
    obtain ⟨r, wr⟩ := r
    unfold addRoot at e1
    simp only at e1
    obtain ⟨w, _, e1⟩ := bind_eq_ok.1 e1
    by_cases hlt : wr < w
    · rw [if_pos hlt] at e1
      obtain ⟨s2, e3, e1⟩ := bind_eq_ok.1 e1
      cases e1
      have hh := updateNode_heap e3
      rw [hh] at e2
      have h2' := perm_push (pq := pq) (a := []) (x := ⟨wr, r⟩) h2
      obtain ⟨k1, k2, k3⟩ := ih (s := { s2 with heap := (logged pq).push ⟨wr, r⟩ s.heap }) h1 h2' e2
      refine ⟨k1, k2, ?_⟩
      have : (({ s2 with heap := (logged pq).push ⟨wr, r⟩ s.heap } : Side (logged pq)).heap.2.1).length = s.heap.2.1.length + 1 := rfl
      simp only [List.length_cons]
      omega
    · rw [if_neg hlt] at e1
      cases e1
      obtain ⟨k1, k2, k3⟩ := ih h1 h2 e2
      exact ⟨k1, k2, by simp only [List.length_cons]; omega⟩

theorem WLog.start {roots : List (Nat × Nat)} {s s' : Side (logged pq)}
    (e : forM (Side.addRoot P) s.clear roots = .ok s') : WLog fg roots s' := by
  have hit : pq.items (Side.clear s).heap.1 = [] := pq.items_empty
  have h2 : (Side.clear s).heap.2.1.Perm (pq.items (Side.clear s).heap.1) := by rw [hit]; exact List.Perm.refl _
  obtain ⟨k1, k2, k3⟩ := addRoots_log rfl h2 e
  have hz : (Side.clear s).heap.2.1.length = 0 := rfl
  refine ⟨⟨[], List.nodup_nil, by simp, by simp only [List.map_nil, List.sum_nil]; omega⟩, by rw [k1]; exact k2, ?_, ?_⟩
  · rw [k1]; exact List.Pairwise.nil
  · rw [k1]; simp

/-- The logs of a query that returns. -/
theorem calcPathMulti_log (hP : P.checked = true) (h : FGood P E n fg) {c c' : PathCalculator (logged pq)} (hc : CalcOk n c)
    {starts ends : List (Nat × Nat)} {r : Option ShortestPath} (hq : c.calcPathMulti P fg starts ends = .ok (c', r)) :
    (WLog fg starts c'.fwd ∧ ILog n c'.fwd) ∧ WLog fg.flip ends c'.bwd ∧ ILog n c'.bwd := by
  have hg := h.toSGood
  simp only [PathCalculator.calcPathMulti] at hq
  obtain ⟨u, ea, hq⟩ := bind_eq_ok.1 hq
  have hargs : (∀ x ∈ starts, x.1 < n) ∧ (∀ x ∈ ends, x.1 < n) := by
    have := checkArgs_iff.1 ea
    rw [hc.num] at this
    exact ⟨this.sl, this.el⟩
  obtain ⟨⟨best, meet⟩, em, hq⟩ := bind_eq_ok.1 hq
  have hnl := h.n_lt
  obtain ⟨m1, m2, m3⟩ := Tri.of_ok (initialMeeting_ok hP (fun x hx => by have := hargs.1 x hx; omega)) em
  simp only at m1 m2 m3 hq
  obtain ⟨fwd, ef, rf⟩ := addRoots_ok (P := P) (fg := fg) hargs.1 (RootInv.clear hc.f)
  obtain ⟨bwd, eb, rb⟩ := addRoots_ok (P := P) (fg := fg.flip) hargs.2 (RootInv.clear hc.b)
  rw [ef, eb] at hq
  simp only [bind_okM] at hq
  obtain ⟨st, es, hq⟩ := bind_eq_ok.1 hq
  have hclear : ∀ {s : Side (logged pq)}, s.Base n → ∀ x d, s.clear.look x = some d → d.weight < P.umax := by
    intro s hs x d hx
    have := ((RootInv.clear (P := P) (fg := fg) hs).lab x d hx).2.2.2
    cases this
  have key := mainLoop_log hP hg _ _ _
    (rf.linv best (addRoots_lt (RootInv.clear (P := P) (fg := fg) hc.f).tab hargs.1 (hclear hc.f) ef))
    (rb.linv best (addRoots_lt (RootInv.clear (P := P) (fg := fg) hc.b).tab hargs.2 (hclear hc.b) eb)) m2
    ⟨WLog.start ef, (ILog.clear hc.f).addRoots _ ef⟩ ⟨WLog.start eb, (ILog.clear hc.b).addRoots _ eb⟩ es
  by_cases hm : st.meet = P.umax
  · rw [if_pos (by simpa [Plat.INVALID_NODE] using hm)] at hq
    cases hq
    exact key
  · rw [if_neg (by simpa [Plat.INVALID_NODE] using hm)] at hq
    obtain ⟨_, _, hq⟩ := bind_eq_ok.1 hq
    obtain ⟨_, _, hq⟩ := bind_eq_ok.1 hq
    obtain ⟨_, _, hq⟩ := bind_eq_ok.1 hq
    obtain ⟨_, _, hq⟩ := bind_eq_ok.1 hq
    obtain ⟨_, _, hq⟩ := bind_eq_ok.1 hq
    cases hq
    exact key

/-! ### In terms of the specification -/

theorem sum_le_of_sublist {l l' : List Nat} (h : l.Sublist l') : l.sum ≤ l'.sum := by
  induction h with
  | slnil => exact Nat.le_refl _
  | cons a _ ih => simp only [List.sum_cons]; omega
  | cons_cons a _ ih => simp only [List.sum_cons]; omega

theorem WLog.count_le {roots : List (Nat × Nat)} {s : Side (logged pq)} (h : WLog fg roots s) (ht : s.Base n) {nodes : List Nat}
    (hn : ∀ x, Expanded s x → x ∈ nodes) {deg : Nat → Nat} (hd : ∀ x, x < n → deg x = fg.eo x - fg.bo x) :
    (pushes s).length ≤ roots.length + (nodes.map deg).sum := by
  obtain ⟨done, d1, d2, d3⟩ := h.count
  have hsub : done ⊆ nodes := by
    intro x hx
    obtain ⟨d, q1, q2⟩ := d2 x hx
    exact hn x ((expanded_iff ht).2 ⟨d, q1, q2⟩)
  have heq : done.map (fun x => fg.eo x - fg.bo x) = done.map deg := by
    refine List.map_congr_left ?_
    intro x hx
    obtain ⟨d, q1, q2⟩ := d2 x hx
    exact (hd x (ht.look_lt q1)).symm
  rw [heq] at d3
  obtain ⟨l, l1, l2⟩ := List.subperm_of_subset d1 hsub
  have h1 : (l.map deg).sum = (done.map deg).sum := (l1.map deg).sum_eq
  have h2 : (l.map deg).sum ≤ (nodes.map deg).sum := sum_le_of_sublist (l2.map deg)
  unfold pushes
  rw [List.length_reverse]
  omega

theorem WLog.pops_perm {roots : List (Nat × Nat)} {s : Side (logged pq)} (h : WLog fg roots s)
    (he : (logged pq).items s.heap = []) : (pops s).Perm (pushes s) := by
  have he' : pq.items s.heap.1 = [] := he
  have := h.all
  rw [he', List.append_nil] at this
  unfold pops pushes
  exact (List.reverse_perm _).trans (this.symm.trans (List.reverse_perm _).symm)

theorem WLog.pops_sorted {roots : List (Nat × Nat)} {s : Side (logged pq)} (h : WLog fg roots s) :
    (pops s).Pairwise (fun a b => a.weight ≤ b.weight) := by
  unfold pops
  rw [List.pairwise_reverse]
  exact h.sorted

theorem ILog.pushes_decr {s : Side (logged pq)} (h : ILog n s) :
    (pushes s).Pairwise (fun a b => a.nodeId = b.nodeId → b.weight < a.weight) := by
  unfold pushes
  rw [List.pairwise_reverse]
  exact h.decr.imp (fun h e => h e.symm)

theorem numStored_out (h : FGood P E n fg) {x : Nat} (hx : x < n) : numStored (storedOut fg x) = fg.eo x - fg.bo x := by
  unfold storedOut
  rw [h.beginOut hx, h.endOut hx]
  simp only [bind_okM, numStored, List.length_map, List.length_take, List.length_drop]
  have := h.toSGood.toShape.eo_le hx
  omega

theorem numStored_in (h : FGood P E n fg) {x : Nat} (hx : x < n) : numStored (storedIn fg x) = fg.flip.eo x - fg.flip.bo x := by
  unfold storedIn
  rw [h.beginIn hx, h.endIn hx]
  simp only [bind_okM, numStored, List.length_map, List.length_take, List.length_drop]
  have := h.toSGood.flip.toShape.eo_le hx
  have h2 : fg.flip.edgesFwd = fg.edgesBwd := rfl
  rw [h2] at this
  show _ = fg.ei x - fg.bi x
  have h3 : fg.flip.eo x = fg.ei x := rfl
  omega

/-- The logs in terms of the specification. -/
theorem heapWork {roots : List (Nat × Nat)} {s : Side (logged pq)} (h : WLog fg roots s) (hi : ILog n s)
    (he : (logged pq).items s.heap = []) {deg : Nat → Nat} (hd : ∀ x, x < n → deg x = fg.eo x - fg.bo x) :
    HeapWork roots deg (Labelled s) (Expanded s) (pushes s) (pops s) := by
  refine ⟨h.pops_perm he, h.pops_sorted, hi.pushes_decr, ?_, ?_, fun nodes hn => h.count_le hi.tab hn hd⟩
  · intro x w hx
    obtain ⟨d, k1, rfl⟩ := (labelled_iff hi.tab).1 hx
    exact List.mem_reverse.2 (hi.has x d k1)
  · intro it hit
    obtain ⟨d, k1, k2⟩ := hi.lab it (List.mem_reverse.1 hit)
    exact ⟨d.weight, k2, (labelled_iff hi.tab).2 ⟨d, k1, rfl⟩⟩

theorem CalcOk.withLogs {c : PathCalculator pq} (h : CalcOk n c) : CalcOk n (withLogs c) := ⟨h.num, h.f, h.b⟩

/-! ### Nodes above a known bound are not expanded -/

theorem pairStep_le (hP : P.checked = true) {s st e st' : Nat × Nat} (h : pairStep P s st e = .ok st') :
    st'.1 ≤ st.1 ∧ (s.1 = e.1 → s.2 < P.umax → e.2 < P.umax → st'.1 ≤ s.2 + e.2) := by
  unfold pairStep at h
  by_cases hc : (s.1 == e.1 && decide (s.2 < P.WEIGHT_MAX) && decide (e.2 < P.WEIGHT_MAX)) = true
  · rw [if_pos hc] at h
    obtain ⟨w, e1, h⟩ := bind_eq_ok.1 h
    have hw := (Tri.of_ok (Tri_addW hP _ _) e1).1
    by_cases hlt : w < st.1
    · rw [if_pos hlt] at h
      cases h
      exact ⟨Nat.le_of_lt hlt, fun _ _ _ => by simp only; omega⟩
    · rw [if_neg hlt] at h
      cases h
      exact ⟨Nat.le_refl _, fun _ _ _ => by omega⟩
  · rw [if_neg hc] at h
    cases h
    refine ⟨Nat.le_refl _, fun h1 h2 h3 => absurd ?_ hc⟩
    rw [Bool.and_eq_true, Bool.and_eq_true, beq_iff_eq]
    exact ⟨⟨h1, decide_eq_true h2⟩, decide_eq_true h3⟩

theorem forM_min {α : Type} {f : Nat × Nat → α → M (Nat × Nat)} {B : α → Nat → Prop}
    (hf : ∀ st a st', f st a = .ok st' → st'.1 ≤ st.1 ∧ ∀ b, B a b → st'.1 ≤ b) :
    ∀ (l : List α) {st st' : Nat × Nat}, forM f st l = .ok st' → st'.1 ≤ st.1 ∧ ∀ a ∈ l, ∀ b, B a b → st'.1 ≤ b := by
  intro l
  induction l with
  | nil => intro st st' h; cases h; exact ⟨Nat.le_refl _, by simp⟩
  | cons a l ih =>
    intro st st' h
    rw [forM_cons] at h
    obtain ⟨s1, e1, e2⟩ := bind_eq_ok.1 h
    obtain ⟨h1, h2⟩ := hf _ _ _ e1
    obtain ⟨h3, h4⟩ := ih e2
    refine ⟨by omega, ?_⟩
    intro x hx b hb
    rcases List.mem_cons.1 hx with rfl | hx
    · have := h2 b hb; omega
    · exact h4 x hx b hb

theorem initialMeeting_le (hP : P.checked = true) {starts ends : List (Nat × Nat)} {r : Nat × Nat}
    (h : initialMeeting P starts ends = .ok r) {v ws we : Nat} (hs : (v, ws) ∈ starts) (he : (v, we) ∈ ends) (h1 : ws < P.umax)
    (h2 : we < P.umax) : r.1 ≤ ws + we := by
  have := (forM_min (B := fun s b => ∃ e ∈ ends, s.1 = e.1 ∧ s.2 < P.umax ∧ e.2 < P.umax ∧ b = s.2 + e.2) (by
    intro st s st' e
    obtain ⟨k1, k2⟩ := forM_min (B := fun e b => s.1 = e.1 ∧ s.2 < P.umax ∧ e.2 < P.umax ∧ b = s.2 + e.2) (by
      intro st e st' hh
      obtain ⟨q1, q2⟩ := pairStep_le hP hh
      exact ⟨q1, by rintro b ⟨a1, a2, a3, rfl⟩; exact q2 a1 a2 a3⟩) _ e
    refine ⟨k1, ?_⟩
    rintro b ⟨x, hx, hb⟩
    exact k2 x hx b hb) _ h).2 (v, ws) hs (ws + we) ⟨(v, we), he, rfl, h1, h2, rfl⟩
  exact this

/-- Expanded nodes are not above `B`. -/
def Below (B : Nat) (s : Side pq) : Prop := ∀ x d, s.look x = some d → d.settled = true → d.weight ≤ B

theorem innerFwd_below (hP : P.checked = true) (hg : SGood P E n fg) {roots : List (Nat × Nat)} {B : Nat} :
    ∀ fuel (st st' : QS pq), LInv P n fg roots st.best st.fwd → st.best ≤ B → Below B st.fwd →
      innerFwd P fg fuel st = .ok st' → Below B st'.fwd := by
  intro fuel
  induction fuel with
  | zero => intro st st' _ _ _ h; cases h
  | succ fuel ih =>
    intro st st' hf hB hl h
    unfold innerFwd at h
    cases hp : pq.pop st.fwd.heap with
    | none =>
      rw [hp] at h
      cases h
      exact hl
    | some r =>
      obtain ⟨curr, heap'⟩ := r
      rw [hp] at h
      simp only at h
      have hcurr : curr ∈ pq.items st.fwd.heap := (PQ.pop_mem hp).2 (Or.inl rfl)
      obtain ⟨dc, hc1, hc2⟩ := hf.items curr hcurr
      have hcn : curr.nodeId < n := hf.tab.look_lt hc1
      have hbase : Base n ({ st.fwd with heap := heap' } : Side pq) := hf.tab
      have hl' : Below B ({ st.fwd with heap := heap' } : Side pq) := hl
      have hsb : settledB ({ st.fwd with heap := heap' } : Side pq) curr.nodeId = dc.settled := by
        have : settledB ({ st.fwd with heap := heap' } : Side pq) curr.nodeId = st.fwd.settledB curr.nodeId := rfl
        rw [this]; unfold settledB; rw [hc1]
      rw [isSettled_ok hbase hcn, hsb] at h
      simp only [bind_okM] at h
      by_cases hset : dc.settled = true
      · rw [if_pos hset] at h
        refine ih { st with fwd := { st.fwd with heap := heap' } } _ (hf.popped hp ?_) hB hl' h
        intro d hd hds
        rw [hc1] at hd; cases hd
        rw [hset] at hds; cases hds
      · rw [if_neg hset] at h
        have hun : dc.settled = false := by simpa using hset
        by_cases hbest : curr.weight > st.best
        · rw [if_pos hbest] at h
          cases h
          exact hl'
        · rw [if_neg hbest] at h
          obtain ⟨r, er, h⟩ := bind_eq_ok.1 h
          have hr := Tri.of_ok (isStallableFwd_exact hP hg hbase hf.lt hcn) er
          by_cases hrt : r = true
          · rw [if_pos hrt] at h
            exact ih { st with fwd := { st.fwd with heap := heap' } } _ (hf.popped hp (fun _ _ _ _ => Or.inl (hr.1 hrt)))
              hB hl' h
          · rw [if_neg hrt] at h
            have hnb : ¬ Beaten fg st.fwd.look curr.nodeId curr.weight := fun hb => hrt (hr.2 hb)
            have hw : dc.weight = curr.weight := by
              rcases hf.unsettled _ _ hc1 hun with k | k | k
              · have := PQ.pop_min hp k
                simp only at this
                omega
              · obtain ⟨id, ed, dy, q1, q2, q3⟩ := k
                exact absurd ⟨id, ed, dy, q1, q2, by omega⟩ hnb
              · omega
            rw [hg.beginOut hcn, hg.endOut hcn] at h
            simp only [bind_okM] at h
            obtain ⟨s1, e1, h⟩ := bind_eq_ok.1 h
            obtain ⟨data, e2, h⟩ := bind_eq_ok.1 h
            obtain ⟨_, _, z1, z2⟩ := settle_linv hP hg hf hp hc1 hw hnb e1 e2
            have hS : Below B ({ s1 with data := data } : Side pq) := by
              intro x d hx hd
              by_cases hxc : x = curr.nodeId
              · rw [hxc, z1] at hx
                cases hx
                simp only; omega
              · exact hl x d (z2 x d hxc hx hd) hd
            obtain ⟨v, _, h⟩ := bind_eq_ok.1 h
            cases v with
            | false => cases h; exact hS
            | true =>
              simp only [if_true] at h
              obtain ⟨wb, _, h⟩ := bind_eq_ok.1 h
              obtain ⟨w, _, h⟩ := bind_eq_ok.1 h
              by_cases hlt : w < st.best
              · rw [if_pos hlt] at h; cases h; exact hS
              · rw [if_neg hlt] at h; cases h; exact hS

theorem mainLoop_below (hP : P.checked = true) (hg : SGood P E n fg) {starts ends : List (Nat × Nat)} {B : Nat} :
    ∀ fuel (st st' : QS pq), LInv P n fg starts st.best st.fwd → LInv P n fg.flip ends st.best st.bwd →
      (st.meet = P.umax → st.best = P.umax) → st.best ≤ B → Below B st.fwd → Below B st.bwd →
      mainLoop P fg fuel st = .ok st' → Below B st'.fwd ∧ Below B st'.bwd := by
  intro fuel
  induction fuel with
  | zero => intro st st' _ _ _ _ _ _ h; cases h
  | succ fuel ih =>
    intro st st' hf hb hm hB lf lb h
    unfold mainLoop at h
    by_cases hemp : (pq.isEmpty st.fwd.heap && pq.isEmpty st.bwd.heap) = true
    · rw [if_pos hemp] at h
      cases h
      exact ⟨lf, lb⟩
    · rw [if_neg hemp] at h
      obtain ⟨st1, e1, h⟩ := bind_eq_ok.1 h
      obtain ⟨st2, e2, h⟩ := bind_eq_ok.1 h
      obtain ⟨q1, q2, q3, q4⟩ := innerFwd_linv hP hg _ _ _ hf hm e1
      have l1 := innerFwd_below hP hg _ _ _ hf hB lf e1
      rw [innerBwd_eq] at e2
      obtain ⟨st2', e3, e4⟩ := bind_eq_ok.1 e2
      cases e4
      have hb1 : LInv P n fg.flip ends (swapQS st1).best (swapQS st1).fwd := by
        show LInv P n fg.flip ends st1.best st1.bwd
        rw [q1]; exact hb.lower q3
      have lb1 : Below B (swapQS st1).fwd := by
        show Below B st1.bwd
        rw [q1]; exact lb
      have hB1 : (swapQS st1).best ≤ B := Nat.le_trans q3 hB
      obtain ⟨k1, k2, k3, k4⟩ := innerFwd_linv hP hg.flip _ _ _ hb1 q4 e3
      have l2 := innerFwd_below hP hg.flip _ _ _ hb1 hB1 lb1 e3
      refine ih (swapQS st2') _ ?_ k2 k4 (Nat.le_trans k3 hB1) ?_ l2 h
      · show LInv P n fg starts st2'.best st2'.bwd
        rw [k1]
        exact q2.lower k3
      · show Below B st2'.bwd
        rw [k1]; exact l1

theorem calcPathMulti_below (hP : P.checked = true) (h : FGood P E n fg) {c c' : PathCalculator pq} (hc : CalcOk n c)
    {starts ends : List (Nat × Nat)} {r : Option ShortestPath} (hq : c.calcPathMulti P fg starts ends = .ok (c', r)) :
    ∃ b, initialMeeting P starts ends = .ok b ∧ Below b.1 c'.fwd ∧ Below b.1 c'.bwd := by
  have hg := h.toSGood
  simp only [PathCalculator.calcPathMulti] at hq
  obtain ⟨u, ea, hq⟩ := bind_eq_ok.1 hq
  have hargs : (∀ x ∈ starts, x.1 < n) ∧ (∀ x ∈ ends, x.1 < n) := by
    have := checkArgs_iff.1 ea
    rw [hc.num] at this
    exact ⟨this.sl, this.el⟩
  obtain ⟨⟨best, meet⟩, em, hq⟩ := bind_eq_ok.1 hq
  have hnl := h.n_lt
  obtain ⟨m1, m2, m3⟩ := Tri.of_ok (initialMeeting_ok hP (fun x hx => by have := hargs.1 x hx; omega)) em
  simp only at m1 m2 m3 hq
  obtain ⟨fwd, ef, rf⟩ := addRoots_ok (P := P) (fg := fg) hargs.1 (RootInv.clear hc.f)
  obtain ⟨bwd, eb, rb⟩ := addRoots_ok (P := P) (fg := fg.flip) hargs.2 (RootInv.clear hc.b)
  rw [ef, eb] at hq
  simp only [bind_okM] at hq
  obtain ⟨st, es, hq⟩ := bind_eq_ok.1 hq
  have hclear : ∀ {s : Side pq}, s.Base n → ∀ x d, s.clear.look x = some d → d.weight < P.umax := by
    intro s hs x d hx
    have := ((RootInv.clear (P := P) (fg := fg) hs).lab x d hx).2.2.2
    cases this
  have key := mainLoop_below hP hg _ _ _
    (rf.linv best (addRoots_lt (RootInv.clear (P := P) (fg := fg) hc.f).tab hargs.1 (hclear hc.f) ef))
    (rb.linv best (addRoots_lt (RootInv.clear (P := P) (fg := fg) hc.b).tab hargs.2 (hclear hc.b) eb)) m2 (Nat.le_refl best)
    (by intro x d hx hd; have := (rf.lab x d hx).2.2.1; rw [hd] at this; cases this)
    (by intro x d hx hd; have := (rb.lab x d hx).2.2.1; rw [hd] at this; cases this) es
  refine ⟨(best, meet), em, ?_⟩
  by_cases hm : st.meet = P.umax
  · rw [if_pos (by simpa [Plat.INVALID_NODE] using hm)] at hq
    cases hq
    exact key
  · rw [if_neg (by simpa [Plat.INVALID_NODE] using hm)] at hq
    obtain ⟨_, _, hq⟩ := bind_eq_ok.1 hq
    obtain ⟨_, _, hq⟩ := bind_eq_ok.1 hq
    obtain ⟨_, _, hq⟩ := bind_eq_ok.1 hq
    obtain ⟨_, _, hq⟩ := bind_eq_ok.1 hq
    obtain ⟨_, _, hq⟩ := bind_eq_ok.1 hq
    cases hq
    exact key

end FP
