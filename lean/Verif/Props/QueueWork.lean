import Verif.Proofs.QueueWork
import Verif.Props.Levels
import Verif.Props.NoTies
set_option autoImplicit false
/-! # The calls of the queue of nodes

`prepare` keeps the nodes that are left in a queue. Here are all the calls of this queue during a preparation, read off a queue that
writes them down. -/
namespace FP.Props
open Spec

/-- **C132** Writing down the calls does not change what `prepare_with_params` does. -/
theorem C132_same (P : Plat) (pq : PQ) (nq : NodeQueue) (ig : InputGraph) (params : Params) :
    prepareWithParams P pq (loggedQueue nq) ig params = prepareWithParams P pq nq ig params :=
  prepare_lockstep (r' := params.relevance) loggedQueue_same (fun _ _ _ => rfl) ig

/-- The calls of the queue in a preparation that returns `fg`. -/
def QueueCalls (P : Plat) (pq : PQ) (nq : NodeQueue) (ig : InputGraph) (params : Params) (fg : FastGraph) (calls : List QueueCall) :
    Prop :=
  ∃ (fg0 : FastGraph) (pg0 : PreparationGraph) (st0 st : QState pq (loggedQueue nq)),
    FastGraph.new P ig.numNodes = .ok fg0 ∧ PreparationGraph.fromInputGraph P ig = .ok pg0 ∧
    forM (initialPriority P params) (⟨⟨pg0, WitnessSearch.new P pq ig.numNodes, fg0⟩, List.replicate ig.numNodes 0,
      (loggedQueue nq).empty⟩ : QState pq (loggedQueue nq)) (List.range ig.numNodes) = .ok st0 ∧
    contractionLoop P params (ig.numNodes + 1) 0 st0 = .ok st ∧ finishContraction P ig.numNodes st.b.fg = .ok fg ∧
    callsOf st.queue = calls

/-- **C132** First every node is pushed, in ascending order. Then the nodes are popped in the order of their ranks, and after the pop of
`v` the priority is changed once for each node that an edge stored at `v` leads to, in ascending order. There are no other calls. -/
theorem C132_calls {P : Plat} (hP : P.checked = true) {ops : List Op} {ig : InputGraph} {fg : FastGraph}
    (hb : buildGraph P ops = .ok ig) (hf : ig.frozen = true) {pq : PQ} {nq : NodeQueue} {prio : nq.σ → Nat → Nat}
    (ho : Ordered nq prio) {params : Params} (hp : prepareWithParams P pq nq ig params = .ok fg) :
    ∃ nbs : List (Nat × List Nat), getNodeOrdering fg = .ok (nbs.map (·.1)) ∧
      (∀ v l, (v, l) ∈ nbs → l.Pairwise (· < ·) ∧ ∀ u, u ∈ l ↔ fg.Stored v u) ∧
      QueueCalls P pq nq ig params fg ((List.range ig.numNodes).map .push ++ nbs.flatMap (fun x => .pop x.1 :: x.2.map .change)) := by
  rw [← C132_same] at hp
  have hF := (buildGraph_inv (Or.inl hP) hb).frozenOk hf
  obtain ⟨hg, hB⟩ := (buildWithParams_built hP hF params (stepsOk_fresh pq P _ _)).of_ok hp
  obtain ⟨nodes, pg0, fg0, st0, hord, hperm, _, hpg, hfg, hinit, hpops, _⟩ := prepare_pops hp
  obtain ⟨hn, hO, _⟩ := OInv.initial hP hF (loggedQueue_ordered ho) hpg hfg hinit
  have hrun : runContraction P pq (loggedQueue nq) ig ig.numNodes params = .ok fg := by
    have h := hp
    unfold prepareWithParams buildWithParams at h
    obtain ⟨k, hk, h⟩ := bind_eq_ok.1 h
    unfold InputGraph.getNumNodes at hk
    obtain ⟨_, _, hk⟩ := bind_eq_ok.1 hk
    injection hk with hk
    subst hk
    exact h
  unfold runContraction at hrun
  rw [hfg, bind_okM, hpg, bind_okM] at hrun
  simp only [hinit, bind_okM] at hrun
  obtain ⟨st, hst, hfin⟩ := bind_eq_ok.1 hrun
  obtain ⟨nbs, h1, h2, h3⟩ := pops_calls hP hn ho hpops [] _ _ hO hst
  subst h1
  refine ⟨nbs, hord, fun v l hm => ?_, fg0, pg0, st0, st, hfg, hpg, hinit, hst, hfin, ?_⟩
  · obtain ⟨pre, rest, e⟩ := List.append_of_mem hm
    obtain ⟨k1, k2⟩ := h3 pre v l rest e
    refine ⟨k1, fun u => (k2 u).trans ?_⟩
    rw [List.nil_append]
    exact (stored_adjacent hF hg.toFSound hB hord (pre := pre.map (·.1)) (v := v) (rest := rest.map (·.1)) (by rw [e]; simp)).1.symm
  · rw [h2, forM_calls (f := initialPriority P params) (fun _ _ _ => initialPriority_calls) _ _ _ hinit]
    rfl

/-- **C132** No node is pushed twice, and a node whose priority is changed has been pushed and not been popped, so the change finds it
(the code ignores what `change_priority` returns). -/
theorem C132_present {P : Plat} (hP : P.checked = true) {ops : List Op} {ig : InputGraph} {fg : FastGraph}
    (hb : buildGraph P ops = .ok ig) (hf : ig.frozen = true) {pq : PQ} {nq : NodeQueue} {prio : nq.σ → Nat → Nat}
    (ho : Ordered nq prio) {params : Params} (hp : prepareWithParams P pq nq ig params = .ok fg) {calls : List QueueCall}
    (hc : QueueCalls P pq nq ig params fg calls) {before after : List QueueCall} {u : Nat} :
    (calls = before ++ .push u :: after → QueueCall.push u ∉ before) ∧
    (calls = before ++ .change u :: after → QueueCall.push u ∈ before ∧ QueueCall.pop u ∉ before) := by
  obtain ⟨nbs, h1, h2, h3⟩ := C132_calls hP hb hf ho hp
  have hcalls : calls = (List.range ig.numNodes).map .push ++ nbs.flatMap (fun x => .pop x.1 :: x.2.map .change) := by
    obtain ⟨a, b, c, d, e1, e2, e3, e4, _, e6⟩ := hc
    obtain ⟨a', b', c', d', f1, f2, f3, f4, _, f6⟩ := h3
    rw [e1] at f1; cases f1
    rw [e2] at f2; cases f2
    rw [e3] at f3; cases f3
    rw [e4] at f4; cases f4
    exact e6.symm.trans f6
  have hF := (buildGraph_inv (Or.inl hP) hb).frozenOk hf
  obtain ⟨hg, hB⟩ := (buildWithParams_built hP hF params (stepsOk_fresh pq P _ _)).of_ok hp
  constructor
  · intro e hm
    have hn : ((calls.filterMap (fun c => match c with | .push k => some k | _ => none))).Nodup := by
      have : ∀ l : List (Nat × List Nat), (l.flatMap (fun x => QueueCall.pop x.1 :: x.2.map .change)).filterMap
          (fun c => match c with | .push k => some k | _ => none) = [] := by
        intro l
        rw [List.filterMap_eq_nil_iff]
        intro c hc
        simp only [List.mem_flatMap, List.mem_cons, List.mem_map] at hc
        obtain ⟨x, _, rfl | ⟨y, _, rfl⟩⟩ := hc <;> rfl
      rw [hcalls, List.filterMap_append, this, List.append_nil, List.filterMap_map]
      have : ((fun c : QueueCall => match c with | .push k => some k | _ => none) ∘ QueueCall.push) = some := rfl
      rw [this, List.filterMap_some]
      exact List.nodup_range
    rw [e, List.filterMap_append, List.filterMap_cons] at hn
    simp only at hn
    exact (List.nodup_append.1 hn).2.2 u (List.mem_filterMap.2 ⟨_, hm, rfl⟩) u (List.mem_cons_self ..) rfl
  · intro e
    rw [hcalls] at e
    rcases List.append_eq_append_iff.1 e with ⟨a, k1, k2⟩ | ⟨a, k1, k2⟩
    · -- the change happens in the loop
      have key : ∀ (l : List (Nat × List Nat)) (b c : List QueueCall),
          l.flatMap (fun x => QueueCall.pop x.1 :: x.2.map .change) = b ++ .change u :: c →
          ∃ pre v m rest, l = pre ++ (v, m) :: rest ∧ u ∈ m ∧ ∀ x, QueueCall.pop x ∈ b → x = v ∨ x ∈ pre.map (·.1) := by
        intro l
        induction l with
        | nil => intro b c h; simp at h
        | cons y l ih =>
          intro b c h
          rw [List.flatMap_cons] at h
          rcases List.append_eq_append_iff.1 h with ⟨d, j1, j2⟩ | ⟨d, j1, j2⟩
          · obtain ⟨pre, v, m, rest, i1, i2, i3⟩ := ih d c j2
            refine ⟨y :: pre, v, m, rest, by rw [i1]; rfl, i2, fun x hx => ?_⟩
            rw [j1] at hx
            rcases List.mem_append.1 hx with hx | hx
            · simp at hx
              exact .inr (by simp [hx])
            · rcases i3 x hx with rfl | hx
              · exact .inl rfl
              · exact .inr (List.mem_cons_of_mem _ hx)
          · cases d with
            | nil =>
              obtain ⟨pre, v, m, rest, i1, i2, i3⟩ := ih [] c (by simpa using j2.symm)
              refine ⟨y :: pre, v, m, rest, by rw [i1]; rfl, i2, fun x hx => ?_⟩
              rw [List.append_nil] at j1
              rw [← j1] at hx
              simp at hx
              exact .inr (by simp [hx])
            | cons z d =>
              rw [List.cons_append] at j2
              injection j2 with j2 _
              subst j2
              refine ⟨[], y.1, y.2, l, rfl, ?_, fun x hx => ?_⟩
              · have : QueueCall.change u ∈ QueueCall.pop y.1 :: y.2.map .change := by rw [j1]; simp
                simpa using this
              · have : QueueCall.pop x ∈ QueueCall.pop y.1 :: y.2.map .change := by rw [j1]; simp [hx]
                simp at this
                exact .inl this
      obtain ⟨pre, v, m, rest, i1, i2, i3⟩ := key nbs a after k2
      have hs : fg.Stored v u := ((h2 v m (by rw [i1]; simp)).2 u).1 i2
      have hu : u < ig.numNodes ∧ v ≠ u := by
        obtain ⟨w, hw | hw⟩ := hg.toFSound.stored_iff.1 hs
        · obtain ⟨hv, id, ed, hat, rfl, _⟩ := hg.toFSound.toShape.up_iff.1 hw
          obtain ⟨_, q1, q2, _⟩ := hg.toFSound.fwd v hv id ed hat
          exact ⟨q1, fun e => by rw [← e] at q2; exact absurd q2 (Nat.lt_irrefl _)⟩
        · obtain ⟨hv, id, ed, hat, rfl, _⟩ := hg.toFSound.toShape.down_iff.1 hw
          obtain ⟨_, q1, q2, _⟩ := hg.toFSound.bwd v hv id ed hat
          exact ⟨q1, fun e => by rw [← e] at q2; exact absurd q2 (Nat.lt_irrefl _)⟩
      have hnot := (stored_adjacent hF hg.toFSound hB h1 (pre := pre.map (·.1)) (v := v) (rest := rest.map (·.1)) (x := u)
        (by rw [i1]; simp)).2 hs
      refine ⟨by rw [k1]; simp [hu.1], fun hm => ?_⟩
      rw [k1] at hm
      rcases List.mem_append.1 hm with hm | hm
      · simp at hm
      · rcases i3 u hm with e | hm
        · exact hu.2 e.symm
        · exact hnot hm
    · -- all calls before the loop are pushes
      cases a with
      | nil =>
        exfalso
        simp only [List.nil_append] at k2
        cases nbs with
        | nil => simp at k2
        | cons y l => simp at k2
      | cons z a =>
        rw [List.cons_append] at k2
        injection k2 with k2 _
        subst k2
        have : QueueCall.change u ∈ (List.range ig.numNodes).map QueueCall.push := by rw [k1]; simp
        simp at this

/-- **C132** The effort: besides the one push and the one pop for each node (see `C132_calls`) there is at most one change for each edge
of the prepared graph. -/
theorem C132_effort {P : Plat} (hP : P.checked = true) {ops : List Op} {ig : InputGraph} {fg : FastGraph}
    (hb : buildGraph P ops = .ok ig) (hf : ig.frozen = true) {pq : PQ} {nq : NodeQueue} {prio : nq.σ → Nat → Nat}
    (ho : Ordered nq prio) {params : Params} (hp : prepareWithParams P pq nq ig params = .ok fg) :
    ∃ calls, QueueCalls P pq nq ig params fg calls ∧
      calls.length ≤ 2 * ig.numNodes + fg.edgesFwd.length + fg.edgesBwd.length := by
  obtain ⟨nbs, h1, h2, h3⟩ := C132_calls hP hb hf ho hp
  refine ⟨_, h3, ?_⟩
  have hF := (buildGraph_inv (Or.inl hP) hb).frozenOk hf
  obtain ⟨hg, _⟩ := (buildWithParams_built hP hF params (stepsOk_fresh pq P _ _)).of_ok hp
  obtain ⟨nodes, k1, k2, _⟩ := hg.toFSound.toShape.ordering
  have k1 : getNodeOrdering fg = .ok nodes := k1
  rw [h1] at k1
  injection k1 with k1
  rw [← k1] at k2
  have hlen : nbs.length = ig.numNodes := by simpa using k2.length_eq
  have hnd : (nbs.map (·.1)).Nodup := k2.nodup_iff.2 List.nodup_range
  -- the pairs of nodes for which there is a change
  let pairs := nbs.flatMap (fun x => x.2.map (fun u => (x.1, u)))
  have hpairs : pairs.Nodup := by
    refine List.nodup_flatMap.2 ⟨fun x hx => ?_, ?_⟩
    · refine List.Nodup.map (fun a b e => by simpa using e) ?_
      exact (h2 x.1 x.2 hx).1.imp (fun hlt => Nat.ne_of_lt hlt)
    · refine (List.pairwise_map.1 hnd).imp (fun {x y} hne p hp hq => hne ?_)
      obtain ⟨a, _, rfl⟩ := List.mem_map.1 hp
      obtain ⟨b, _, e⟩ := List.mem_map.1 hq
      exact (congrArg Prod.fst e).symm
  have hsub : pairs ⊆ (fg.edgesFwd ++ fg.edgesBwd).map (fun ed => (ed.baseNode, ed.adjNode)) := by
    intro p hp
    obtain ⟨x, hx, hp⟩ := List.mem_flatMap.1 hp
    obtain ⟨u, hu, rfl⟩ := List.mem_map.1 hp
    obtain ⟨ed, hm, e1, e2⟩ := ((h2 x.1 x.2 hx).2 u).1 hu
    exact List.mem_map.2 ⟨ed, List.mem_append.2 hm, by rw [e1, e2]⟩
  have hle := (hpairs.subperm hsub).length_le
  have hcount : (nbs.flatMap (fun x => QueueCall.pop x.1 :: x.2.map .change)).length = nbs.length + pairs.length := by
    show _ = _ + (nbs.flatMap (fun x => x.2.map (fun u => (x.1, u)))).length
    clear h1 h2 h3 hlen hnd hpairs hsub hle k2 k1
    clear pairs
    induction nbs with
    | nil => rfl
    | cons x l ih =>
      rw [List.flatMap_cons, List.flatMap_cons, List.length_append, List.length_append, ih]
      simp only [List.length_cons, List.length_map]
      omega
  rw [List.length_append, List.length_map, List.length_range, hcount, hlen]
  rw [List.length_map, List.length_append] at hle
  omega

/-- a concrete case: the calls for the three nodes of C130, prepared in the order 0, 2, 1 -/
example : QueueCalls debug64 binaryHeap prioQueue Ties.ig (.default Ties.rel) Ties.fg
    [.push 0, .push 1, .push 2, .pop 0, .change 1, .pop 2, .change 1, .pop 1] :=
  ⟨_, _, _, _, rfl, rfl, rfl, rfl, rfl, rfl⟩

/-- and the theorems apply to it -/
example : ∃ calls, QueueCalls debug64 binaryHeap prioQueue Ties.ig (.default Ties.rel) Ties.fg calls ∧ calls.length ≤ 2 * 3 + 2 + 1 :=
  C132_effort rfl Ties.built rfl C79_node_queue_ordered Ties.prepared'

end FP.Props
