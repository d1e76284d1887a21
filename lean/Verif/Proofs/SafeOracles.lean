import Verif.Proofs.SafeQuery
import Verif.Proofs.Dijkstra
import Verif.Proofs.FloydWarshall
import Verif.Proofs.Distance
/-! # The reference implementations without arithmetic overflow -/
namespace FP
open Spec

variable {pq : PQ} {P : Plat} {n : Nat}

namespace Dijkstra
variable {g : PreparationGraph} {s t : Nat} {d : Dijkstra pq} {W : Nat}

theorem noRes_updateNode (d : Dijkstra pq) (x w p : Nat) : NoRes (d.updateNode x w p) := by
  unfold updateNode
  exact NoRes.bind (noRes_setValid _ _) (fun _ _ => NoRes.bind (NoRes.setIdx _ _ _) (fun _ _ => NoRes.ok _))

theorem noRes_getWeight (d : Dijkstra pq) (x : Nat) : NoRes (d.getWeight P x) := by
  unfold getWeight
  exact NoRes.bind (noRes_isValid _ _) (fun _ _ => NoRes.ite (fun _ => NoRes.bind (NoRes.idx _ _) (fun _ _ => NoRes.ok _))
    (fun _ => NoRes.ok _))

theorem noRes_isSettled (d : Dijkstra pq) (x : Nat) : NoRes (d.isSettled x) := by
  unfold isSettled
  exact NoRes.bind (noRes_isValid _ _) (fun _ _ => NoRes.ite (fun _ => NoRes.bind (NoRes.idx _ _) (fun _ _ => NoRes.ok _))
    (fun _ => NoRes.ok _))

theorem noRes_relaxArc {curr : HeapItem} (d : Dijkstra pq) {a : Arc} (h : curr.weight + a.weight ≤ P.umax) :
    NoRes (relaxArc P curr d a) := by
  unfold relaxArc
  exact NoRes.bind (NoRes.addW h) (fun _ _ => NoRes.bind (noRes_getWeight _ _) (fun _ _ =>
    NoRes.ite (fun _ => NoRes.bind (noRes_updateNode _ _ _ _) (fun _ _ => NoRes.ok _)) (fun _ => NoRes.ok _)))

theorem noRes_loop (hP : P.checked = true) (hn : n ≤ P.umax) (hg : PreparationGraph.WF n g)
    (hpos : ∀ u x w, g.rel u x w → 1 ≤ w) (hlt : ∀ u x w, g.rel u x w → u < n ∧ x < n) (hW : ∀ u x w, g.rel u x w → w ≤ W)
    (hs : s < n) (hfit : n * W ≤ P.umax) :
    ∀ fuel (d : Dijkstra pq), Inv P n g s d → NoRes (loop P g t fuel d) := by
  intro fuel
  induction fuel with
  | zero => intro d _; exact NoRes.fuel
  | succ fuel ih =>
    intro d h
    unfold loop
    cases hp : pq.pop d.heap with
    | none => exact NoRes.ok _
    | some r =>
      obtain ⟨curr, heap'⟩ := r
      simp only
      obtain ⟨dc, hc1, hc2⟩ := h.items curr ((PQ.pop_mem hp).2 (Or.inl rfl))
      have hcn : curr.nodeId < n := h.tab.look_lt hc1
      have hbase : Base n ({ d with heap := heap' } : Dijkstra pq) := ⟨h.num, h.tab⟩
      have hsb : ∀ x, settledB ({ d with heap := heap' } : Dijkstra pq) x = d.settledB x := fun _ => rfl
      rw [isSettled_ok hbase hcn, hsb]
      simp only [bind_okM]
      refine NoRes.ite (fun hset => ih _ (h.skip hp hset).1) (fun hset => ?_)
      have hidx : idx g.outEdges curr.nodeId = .ok (g.outs curr.nodeId) :=
        PreparationGraph.idx_outEdges (by rw [hg.lenOut]; exact hcn)
      rw [hidx]
      simp only [bind_okM]
      have hle : curr.weight ≤ (n - 1) * W := by
        obtain ⟨⟨y, k1, k2⟩, k3⟩ := h.popped hp hset
        obtain ⟨w', k4, k5⟩ := hasWalk_bound hpos hlt hW hs (hasWalk_iff.2 (h.wk hn hpos k1))
        exact Nat.le_trans (k3 _ (hasWalk_iff.1 k5)) k4
      refine NoRes.bind (NoRes.forM (fun d1 a ha => noRes_relaxArc d1 ?_) _) ?_
      · have h1 := hW _ _ _ ⟨a.center, ha⟩
        have h2 : (n - 1 + 1) * W ≤ P.umax := by rw [Nat.sub_add_cancel (by omega)]; exact hfit
        rw [Nat.add_mul] at h2
        omega
      · intro d1 e1
        obtain ⟨y1, em, hI, _, _⟩ := h.settle hp hset ((relax_ok hP hg (h.start hp hset)).of_ok e1)
        rw [em]
        simp only [bind_okM]
        exact NoRes.ite (fun _ => NoRes.ok _) (fun _ => ih _ hI)

theorem noRes_buildLoop (d : Dijkstra pq) : ∀ fuel x acc, NoRes (d.buildLoop P fuel x acc) := by
  intro fuel
  induction fuel with
  | zero => intro x acc; exact NoRes.fuel
  | succ fuel ih =>
    intro x acc
    unfold buildLoop
    exact NoRes.bind (NoRes.idx _ _) (fun _ _ => NoRes.ite (fun _ => ih _ _) (fun _ => NoRes.ok _))

theorem noRes_buildPath (d : Dijkstra pq) (s t : Nat) : NoRes (d.buildPath P s t) := by
  unfold buildPath
  exact NoRes.ite (fun _ => NoRes.ok _) (fun _ => NoRes.bind (noRes_isSettled _ _) (fun _ _ => NoRes.ite (fun _ => NoRes.ok _)
    (fun _ => NoRes.bind (NoRes.idx _ _) (fun _ _ => NoRes.bind (noRes_buildLoop _ _ _ _) (fun _ _ => NoRes.ok _)))))

/-- A query of the reference returns if `n` times the largest weight fits. -/
theorem noRes_calcPath (hP : P.checked = true) (hn : n ≤ P.umax) (hg : PreparationGraph.WF n g)
    (hpos : ∀ u x w, g.rel u x w → 1 ≤ w) (hlt : ∀ u x w, g.rel u x w → u < n ∧ x < n) (hW : ∀ u x w, g.rel u x w → w ≤ W)
    (h : Base n d) (hs : s < n) (hfit : n * W ≤ P.umax) : NoRes (d.calcPath P g s t) := by
  unfold calcPath
  obtain ⟨d1, e1, h1, _⟩ := init_ok (P := P) (g := g) hn h hs
  rw [e1]
  simp only [bind_okM]
  refine NoRes.bind ?_ (fun _ _ => NoRes.bind (noRes_buildPath _ _ _) (fun _ _ => NoRes.ok _))
  unfold doCalcPath
  exact NoRes.bind (NoRes.assertM _) (fun _ _ => NoRes.ite (fun _ => NoRes.ok _) (fun _ => NoRes.bind (noRes_isSettled _ _)
    (fun _ _ => NoRes.ite (fun _ => NoRes.ok _) (fun _ => noRes_loop hP hn hg hpos hlt hW hs hfit _ _ h1))))

end Dijkstra

namespace FloydWarshall

/-- Entries during round `k`: within `2 * B`, in row and column `k` within `B`. -/
structure Small (P : Plat) (n k B : Nat) (f : Nat → Nat → Nat) : Prop where
  all : ∀ i j, i < n → j < n → f i j = P.umax ∨ f i j ≤ 2 * B
  col : ∀ i, i < n → f i k = P.umax ∨ f i k ≤ B
  row : ∀ j, j < n → f k j = P.umax ∨ f k j ≤ B

theorem Small.upd {k B i j w : Nat} {f : Nat → Nat → Nat} (h : Small P n k B f) (h1 : w ≤ 2 * B) (h2 : j = k → w ≤ B)
    (h3 : i = k → w ≤ B) : Small P n k B (upd f i j w) := by
  unfold FloydWarshall.upd
  refine ⟨?_, ?_, ?_⟩
  · intro a b ha hb
    by_cases hab : a = i ∧ b = j
    · rw [if_pos hab]; exact Or.inr h1
    · rw [if_neg hab]; exact h.all a b ha hb
  · intro a ha
    by_cases hab : a = i ∧ k = j
    · rw [if_pos hab]; exact Or.inr (h2 hab.2.symm)
    · rw [if_neg hab]; exact h.col a ha
  · intro b hb
    by_cases hab : k = i ∧ b = j
    · rw [if_pos hab]; exact Or.inr (h3 hab.1.symm)
    · rw [if_neg hab]; exact h.row b hb

theorem step_safe {k i j B : Nat} (hk : k < n) (hi : i < n) (hj : j < n) (hB : 2 * B ≤ P.umax) {f : Nat → Nat → Nat} {m : List Nat}
    (hm : Mat P n m f) (h : Small P n k B f) : Saf (step P n k i m j) (fun m' => ∃ f', Mat P n m' f' ∧ Small P n k B f') := by
  unfold step
  obtain ⟨m1, f1, e1, hm1, h1⟩ : ∃ m1 f1, (if i == j then put P n m i j 0 else .ok m : M (List Nat)) = .ok m1 ∧
      Mat P n m1 f1 ∧ Small P n k B f1 := by
    by_cases hij : i = j
    · obtain ⟨m1, e, hm1⟩ := hm.set hi hj 0
      exact ⟨m1, _, by rw [if_pos (by simpa using hij)]; exact e, hm1, h.upd (by omega) (by omega) (by omega)⟩
    · exact ⟨m, f, by rw [if_neg (by simpa using hij)], hm, h⟩
  rw [e1]
  simp only [bind_okM]
  rw [hm1.idx hi hk, hm1.idx hk hj]
  simp only [bind_okM]
  by_cases hmax : f1 i k = P.umax ∨ f1 k j = P.umax
  · rw [if_pos (by simpa [Plat.WEIGHT_MAX] using hmax)]
    exact ⟨f1, hm1, h1⟩
  · rw [if_neg (by simpa [Plat.WEIGHT_MAX] using hmax), hm1.idx hi hj]
    simp only [bind_okM]
    have h2 := (h1.col i hi).resolve_left (fun h => hmax (Or.inl h))
    have h3 := (h1.row j hj).resolve_left (fun h => hmax (Or.inr h))
    rw [addW_ok (by omega)]
    simp only [bind_okM]
    obtain ⟨m2, e2, hm2⟩ := hm1.set hi hj (min (f1 i j) (f1 i k + f1 k j))
    rw [e2]
    refine ⟨_, hm2, h1.upd (by omega) ?_ ?_⟩
    · rintro rfl; omega
    · rintro rfl; omega

/-- The three loops do not overflow if `2 ^ n` times the largest weight fits. -/
theorem noRes_loops {W : Nat} (hfit : 2 ^ n * W ≤ P.umax) {f : Nat → Nat → Nat} {m : List Nat} (hm : Mat P n m f)
    (h : ∀ i j, i < n → j < n → f i j = P.umax ∨ f i j ≤ W) :
    NoRes (forM (fun m k => forM (fun m i => forM (step P n k i) m (List.range n)) m (List.range n)) m (List.range n)) := by
  suffices ∀ r k m, k + r ≤ n → (∃ f, Mat P n m f ∧ ∀ i j, i < n → j < n → f i j = P.umax ∨ f i j ≤ 2 ^ k * W) →
      NoRes (forM (fun m k => forM (fun m i => forM (step P n k i) m (List.range n)) m (List.range n)) m (List.range' k r)) by
    have := this n 0 m (by omega) ⟨f, hm, by simpa using h⟩
    rwa [← List.range_eq_range'] at this
  intro r
  induction r with
  | zero => intro k m _ _; exact NoRes.ok m
  | succ r ih =>
    rintro k m hkr ⟨f, hm, hf⟩
    rw [List.range'_succ]
    have hk : k < n := by omega
    have hle : 2 * (2 ^ k * W) ≤ P.umax := by
      refine Nat.le_trans ?_ hfit
      rw [← Nat.mul_assoc, Nat.mul_comm 2, ← Nat.pow_succ]
      exact Nat.mul_le_mul_right W (Nat.pow_le_pow_right (by omega) hk)
    have hround : Saf (forM (fun m i => forM (step P n k i) m (List.range n)) m (List.range n))
        (fun m' => ∃ f', Mat P n m' f' ∧ Small P n k (2 ^ k * W) f') := by
      refine Saf.forM (fun m' => ∃ f', Mat P n m' f' ∧ Small P n k (2 ^ k * W) f') ⟨f, hm, ⟨?_, ?_, ?_⟩⟩ ?_
      · intro i j hi hj
        rcases hf i j hi hj with h | h
        · exact Or.inl h
        · exact Or.inr (by omega)
      · exact fun i hi => hf i k hi hk
      · exact fun j hj => hf k j hk hj
      · intro m1 i hi h1
        refine Saf.forM _ h1 ?_
        rintro m2 j hj ⟨f2, h2, h3⟩
        exact step_safe hk (List.mem_range.1 hi) (List.mem_range.1 hj) hle h2 h3
    refine NoRes.bind hround.noRes ?_
    intro m' e
    beta_reduce at e
    rw [e] at hround
    obtain ⟨f', h1, h2⟩ := hround
    refine ih (k + 1) m' (by omega) ⟨f', h1, ?_⟩
    intro i j hi hj
    rw [Nat.pow_succ, Nat.mul_right_comm, Nat.mul_comm (2 ^ k * W)]
    exact h2.all i j hi hj

theorem noRes_prepare {ig : InputGraph} (h : FrozenOk ig) {W : Nat} (hW : ∀ e ∈ ig.edges, e.weight ≤ W)
    (hfit : 2 ^ ig.numNodes * W ≤ P.umax) (hn : ig.numNodes * ig.numNodes ≤ P.umax) :
    NoRes (do (← FloydWarshall.new P ig.numNodes).prepare P ig) := by
  unfold FloydWarshall.new
  rw [mulW_ok hn]
  simp only [bind_okM]
  unfold prepare InputGraph.getNumNodes InputGraph.getEdges InputGraph.checkFrozen
  rw [h.frozen]
  simp only [assertM_true, bind_okM, beq_self_eq_true]
  obtain ⟨m, e, f, h1, h3⟩ := forM_ok_of (f := setEdge P ig.numNodes) (l := ig.edges)
    (s := List.replicate (ig.numNodes * ig.numNodes) P.umax)
    (fun pre m => ∃ f, Mat P ig.numNodes m f ∧ ∀ i j, f i j = P.umax ∨ f i j ≤ W)
    ⟨fun _ _ => P.umax, ⟨⟨hn, by simp⟩, fun i j hi hj => by simp [index_lt hi hj]⟩, fun _ _ => Or.inl rfl⟩ (by
      rintro pre a post m hl ⟨f, h1, h3⟩
      have ha : a ∈ ig.edges := by rw [hl]; simp
      obtain ⟨ha1, ha2⟩ := h.lt a ha
      obtain ⟨m', e, hm'⟩ := h1.set ha1 ha2 a.weight
      refine ⟨m', e, _, hm', ?_⟩
      intro i j
      unfold upd
      by_cases hab : i = a.src ∧ j = a.dst
      · rw [if_pos hab]; exact Or.inr (hW a ha)
      · rw [if_neg hab]; exact h3 i j)
  have e' : forM (setEdge P ig.numNodes) (List.replicate (ig.numNodes * ig.numNodes) P.WEIGHT_MAX) ig.edges = .ok m := e
  rw [e']
  simp only [bind_okM]
  exact NoRes.bind (noRes_loops hfit h1 (fun i j _ _ => h3 i j)) (fun _ _ => NoRes.ok _)

end FloydWarshall
end FP
