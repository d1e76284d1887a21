import Verif.Model.UnpackWork
set_option autoImplicit false
/-! # Work of unpacking shortcuts: helper lemmas for C125 -/
namespace FP
open PathCalculator

/-- Counting one unpacking: the same result or error, and `2 * m - 1` calls for `m` nodes. -/
def CntU (x : M (List Nat)) (y : M (List Nat × Nat)) (n k : Nat) : Prop :=
  match x with
  | .error e => y = .error e
  | .ok L => n < L.length ∧ y = .ok (L, k + (2 * (L.length - n) - 1))

theorem cntU_bind {x : M (List Nat)} {y : M (List Nat × Nat)} {n k : Nat} (h : CntU x y n (k + 1)) {f : List Nat → M (List Nat)}
    {f' : List Nat × Nat → M (List Nat × Nat)} (hf : ∀ L c, CntU (f L) (f' (L, c)) L.length c) : CntU (x >>= f) (y >>= f') n k := by
  cases x with
  | error e =>
    simp only [CntU] at h
    subst h
    rfl
  | ok L =>
    obtain ⟨h1, rfl⟩ := h
    have := hf L (k + 1 + (2 * (L.length - n) - 1))
    change CntU (f L) (f' _) n k
    cases e : f L with
    | error e' =>
      rw [e] at this
      exact this
    | ok L' =>
      rw [e] at this
      obtain ⟨h3, h4⟩ := this
      refine ⟨by omega, ?_⟩
      rw [h4]
      congr 2
      omega

theorem unpackC (P : Plat) (g : FastGraph) : ∀ fuel,
    (∀ nodes k id rev, CntU (unpackFwd P g fuel nodes id rev) (unpackFwdC P g fuel (nodes, k) id rev) nodes.length k) ∧
    ∀ nodes k id rev, CntU (unpackBwd P g fuel nodes id rev) (unpackBwdC P g fuel (nodes, k) id rev) nodes.length k := by
  intro fuel
  induction fuel with
  | zero => exact ⟨fun _ _ _ _ => by simp only [unpackFwd, unpackFwdC, CntU], fun _ _ _ _ => by simp only [unpackBwd, unpackBwdC, CntU]⟩
  | succ fuel ih =>
    obtain ⟨ihF, ihB⟩ := ih
    constructor
    · intro nodes k id rev
      simp only [unpackFwd, unpackFwdC]
      cases idx g.edgesFwd id with
      | error e => rfl
      | ok ed =>
        change CntU (ed.isShortcut P >>= _) (ed.isShortcut P >>= _) _ _
        cases ed.isShortcut P with
        | error e => rfl
        | ok b =>
          cases b with
          | false => exact ⟨by simp, by rw [show 2 * ((nodes ++ [ed.baseNode]).length - nodes.length) - 1 = 1 by simp]; rfl⟩
          | true =>
            cases rev with
            | true => exact cntU_bind (ihF _ _ _ _) (fun L c => ihB L c _ _)
            | false => exact cntU_bind (ihB _ _ _ _) (fun L c => ihF L c _ _)
    · intro nodes k id rev
      simp only [unpackBwd, unpackBwdC]
      cases idx g.edgesBwd id with
      | error e => rfl
      | ok ed =>
        change CntU (ed.isShortcut P >>= _) (ed.isShortcut P >>= _) _ _
        cases ed.isShortcut P with
        | error e => rfl
        | ok b =>
          cases b with
          | false => exact ⟨by simp, by rw [show 2 * ((nodes ++ [ed.adjNode]).length - nodes.length) - 1 = 1 by simp]; rfl⟩
          | true =>
            cases rev with
            | true => exact cntU_bind (ihF _ _ _ _) (fun L c => ihB L c _ _)
            | false => exact cntU_bind (ihB _ _ _ _) (fun L c => ihF L c _ _)

/-- Counting a loop: `tops` edges unpacked with `2 * m - tops` calls for `m` nodes; `x` nodes are added without a call. -/
def CntW (x : M (List Nat)) (y : M (List Nat × Nat × Nat)) (n k tp : Nat) : Prop :=
  match x with
  | .error e => y = .error e
  | .ok L => n ≤ L.length ∧ ∃ c t, y = .ok (L, c, t) ∧ c + t = k + tp + 2 * (L.length - n) ∧ tp ≤ t ∧ t - tp ≤ L.length - n

theorem cntW_bind {x : M (List Nat)} {y : M (List Nat × Nat)} {n k tp m : Nat} (h : CntU x y n k) {f : List Nat → M (List Nat)}
    {f' : List Nat × Nat → M (List Nat × Nat × Nat)}
    (hf : ∀ L c, CntW (f L) (f' (L, c)) (L.length + m) c (tp + 1)) : CntW (x >>= f) (y >>= f') (n + m) k tp := by
  cases x with
  | error e =>
    simp only [CntU] at h
    subst h
    rfl
  | ok L =>
    obtain ⟨h1, rfl⟩ := h
    have := hf L (k + (2 * (L.length - n) - 1))
    change CntW (f L) (f' _) (n + m) k tp
    cases e : f L with
    | error e' =>
      rw [e] at this
      exact this
    | ok L' =>
      rw [e] at this
      obtain ⟨h3, c, t, h4, h5, h6, h7⟩ := this
      exact ⟨by omega, c, t, h4, by omega, by omega, by omega⟩

theorem walkFwdC_cnt {pq : PQ} (P : Plat) (g : FastGraph) (s : Side pq) : ∀ fuel nodes k tp node,
    CntW (walkFwd P g s fuel nodes node) (walkFwdC P g s fuel (nodes, k, tp) node) nodes.length k tp := by
  intro fuel
  induction fuel with
  | zero => intro nodes k tp node; rfl
  | succ fuel ih =>
    intro nodes k tp node
    simp only [walkFwd, walkFwdC]
    cases idx s.data node with
    | error e => rfl
    | ok d =>
      change CntW (if d.incEdge != P.INVALID_EDGE then _ else _) (if d.incEdge != P.INVALID_EDGE then _ else _) _ _ _
      split
      · exact cntW_bind (m := 0) ((unpackC P g _).1 _ _ _ _) (fun L c => ih L c _ _)
      · exact ⟨by omega, k, tp, rfl, by omega, by omega, by omega⟩

theorem walkBwdC_cnt {pq : PQ} (P : Plat) (g : FastGraph) (s : Side pq) : ∀ fuel nodes k tp node,
    CntW (walkBwd P g s fuel nodes node) (walkBwdC P g s fuel (nodes, k, tp) node) (nodes.length + 1) k tp := by
  intro fuel
  induction fuel with
  | zero => intro nodes k tp node; rfl
  | succ fuel ih =>
    intro nodes k tp node
    simp only [walkBwd, walkBwdC]
    cases idx s.data node with
    | error e => rfl
    | ok d =>
      change CntW (if d.incEdge != P.INVALID_EDGE then _ else _) (if d.incEdge != P.INVALID_EDGE then _ else _) _ _ _
      split
      · exact cntW_bind (m := 1) ((unpackC P g _).2 _ _ _ _) (fun L c => ih L c _ _)
      · exact ⟨by simp, k, tp, rfl, by simp, by omega, by simp⟩

theorem extractC_cnt {pq : PQ} (P : Plat) (g : FastGraph) (fwd bwd : Side pq) (meet : Nat) :
    CntW (extractNodes P g fwd bwd meet) (extractNodesC P g fwd bwd meet) 1 0 0 := by
  simp only [extractNodes, extractNodesC]
  cases assertM (meet != P.INVALID_NODE) with
  | error e => rfl
  | ok _ =>
  change CntW (fwd.flags.isValid meet >>= _) (fwd.flags.isValid meet >>= _) _ _ _
  cases fwd.flags.isValid meet with
  | error e => rfl
  | ok b =>
  change CntW (assertM b >>= _) (assertM b >>= _) _ _ _
  cases assertM b with
  | error e => rfl
  | ok _ =>
  change CntW (bwd.flags.isValid meet >>= _) (bwd.flags.isValid meet >>= _) _ _ _
  cases bwd.flags.isValid meet with
  | error e => rfl
  | ok b =>
  change CntW (assertM b >>= _) (assertM b >>= _) _ _ _
  cases assertM b with
  | error e => rfl
  | ok _ =>
  have h1 := walkFwdC_cnt P g fwd (g.numNodes + 1) [] 0 0 meet
  change CntW (walkFwd P g fwd (g.numNodes + 1) [] meet >>= _) (walkFwdC P g fwd (g.numNodes + 1) ([], 0, 0) meet >>= _) _ _ _
  cases e : walkFwd P g fwd (g.numNodes + 1) [] meet with
  | error e' =>
    rw [e] at h1
    simp only [CntW] at h1
    rw [h1]
    rfl
  | ok L =>
    rw [e] at h1
    obtain ⟨_, c, t, h2, h3, h4, h5⟩ := h1
    rw [h2]
    have h6 := walkBwdC_cnt P g bwd (g.numNodes + 1) L.reverse c t meet
    change CntW (walkBwd P g bwd (g.numNodes + 1) L.reverse meet) (walkBwdC P g bwd (g.numNodes + 1) (L.reverse, c, t) meet) _ _ _
    cases e : walkBwd P g bwd (g.numNodes + 1) L.reverse meet with
    | error e' =>
      rw [e] at h6
      exact h6
    | ok L' =>
      rw [e] at h6
      obtain ⟨k1, c', t', k2, k3, k4, k5⟩ := h6
      simp only [List.length_reverse, List.length_nil] at *
      exact ⟨by omega, c', t', k2, by omega, by omega, by omega⟩

/-- The same answers and panics with and without counting, and what is counted. -/
def CntQ {pq : PQ} (x : M (PathCalculator pq × Option ShortestPath)) (y : M ((PathCalculator pq × Option ShortestPath) × Nat × Nat)) :
    Prop :=
  match x with
  | .error e => y = .error e
  | .ok (c, none) => y = .ok ((c, none), 0, 0)
  | .ok (c, some p) => ∃ calls tops, y = .ok ((c, some p), calls, tops) ∧ calls + tops = 2 * (p.nodes.length - 1) ∧
      tops ≤ p.nodes.length - 1

theorem cntQ_bind {pq : PQ} {α : Type} (x : M α) {f : α → M (PathCalculator pq × Option ShortestPath)}
    {f' : α → M ((PathCalculator pq × Option ShortestPath) × Nat × Nat)} (h : ∀ a, CntQ (f a) (f' a)) : CntQ (x >>= f) (x >>= f') := by
  cases x with
  | error e => rfl
  | ok a => exact h a

theorem calcPathMultiC_cnt {pq : PQ} (P : Plat) (c : PathCalculator pq) (g : FastGraph) (S T : List (Nat × Nat)) :
    CntQ (c.calcPathMulti P g S T) (c.calcPathMultiC P g S T) := by
  unfold PathCalculator.calcPathMulti PathCalculator.calcPathMultiC
  refine cntQ_bind _ fun _ => cntQ_bind _ fun ⟨best, meet⟩ => cntQ_bind _ fun fwd => cntQ_bind _ fun bwd => cntQ_bind _ fun st => ?_
  split
  · rfl
  · refine cntQ_bind _ fun _ => ?_
    have h := extractC_cnt P g st.fwd st.bwd st.meet
    cases e : extractNodes P g st.fwd st.bwd st.meet with
    | error e' =>
      rw [e] at h
      simp only [CntW] at h
      rw [h]
      rfl
    | ok L =>
      rw [e] at h
      obtain ⟨_, calls, tops, h2, h3, h4, h5⟩ := h
      rw [h2]
      change CntQ (assertM (!L.isEmpty) >>= _) (assertM (!L.isEmpty) >>= _)
      refine cntQ_bind _ fun _ => cntQ_bind _ fun first => cntQ_bind _ fun last => ?_
      exact ⟨calls, tops, rfl, by simp only; omega, by simp only; omega⟩

end FP
