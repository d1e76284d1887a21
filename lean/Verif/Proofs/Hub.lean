import Verif.Proofs.Safe
import Verif.Proofs.Reorder
/-! # Nodes with many neighbours: the counter of `calc_relevance` -/
namespace FP
open PreparationGraph Spec

variable {P : Plat} {n : Nat} {pq : PQ} {nq : NodeQueue}

/-- If there are no witnesses, every pair is counted, and the counter is at most `i32::MAX`. -/
theorem handleShortcuts_count (hP : P.checked = true) (hn : n ≤ P.umax) {g : PreparationGraph} (hwf : WF n g) {v : Nat}
    (hv : v < n) {ws : WitnessSearch pq} {ms : Nat} (hws : ws.Base n)
    (hsum : ∀ a ∈ g.ins v, ∀ b ∈ g.outs v, a.weight + b.weight < P.umax)
    (hno : ∀ a ∈ g.ins v, ∀ b ∈ g.outs v, ¬ ∃ w, Wk (g.relNo v) a.adj b.adj w) :
    Tri (handleShortcuts P g ws v (countShortcut P) 0 ms) (fun st =>
      st.acc = ((g.ins v).length * (g.outs v).length : Nat) ∧ st.acc ≤ I32_MAX) := by
  have hidxI : idx g.inEdges v = .ok (g.ins v) := by rw [idx_inEdges (by rw [hwf.lenIn]; exact hv)]
  have hidxO : idx g.outEdges v = .ok (g.outs v) := by rw [idx_outEdges (by rw [hwf.lenOut]; exact hv)]
  unfold handleShortcuts
  rw [hidxI]
  simp only [bind_okM]
  refine Tri.mono (Tri_forM_range (fun i (st : HSState pq Int) => st.graph = g ∧ st.ws.Base n ∧
    st.acc = (i * (g.outs v).length : Nat) ∧ st.acc ≤ I32_MAX) ⟨rfl, hws, by simp, show (0 : Int) ≤ I32_MAX by decide⟩ ?_) (fun st h => h.2.2)
  rintro i ⟨gc, ws, acc⟩ hi ⟨hg, hbase, hacc, hle⟩
  simp only at hg hbase hacc hle
  subst hg
  unfold handleIn
  simp only
  rw [hidxI]
  simp only [bind_okM]
  have hai : (gc.ins v)[i]? = some (gc.ins v)[i] := by simp [hi]
  generalize (gc.ins v)[i] = a at hai
  have ha : a ∈ gc.ins v := List.mem_of_getElem? hai
  have halt : a.adj < n := hwf.adj_lt_in ha
  have haP : a.adj ≠ P.umax := by omega
  rw [idx_some hai]
  simp only [bind_okM]
  obtain ⟨ws', e, hinv, _⟩ := WitnessSearch.init_ok hbase halt haP (hwf.noLoop_in ha) gc
  rw [e]
  simp only [bind_okM]
  rw [hidxO]
  simp only [bind_okM]
  refine Tri.mono (Tri_forM_range (fun j (st : HSState pq Int) => st.graph = gc ∧
    WitnessSearch.Inv n gc a.adj v st.ws ∧ st.acc = (i * (gc.outs v).length + j : Nat) ∧ st.acc ≤ I32_MAX)
    ⟨rfl, hinv, by simpa using hacc, hle⟩ ?_) ?_
  · rintro j ⟨g', ws2, acc⟩ hj ⟨hg, hinv, hacc, hle⟩
    simp only at hg hinv hacc hle
    subst hg
    unfold handlePair
    simp only
    rw [hidxI]
    simp only [bind_okM]
    rw [idx_some hai]
    simp only [bind_okM]
    rw [hidxO]
    simp only [bind_okM]
    have hbj : (g'.outs v)[j]? = some (g'.outs v)[j] := by simp [hj]
    generalize (g'.outs v)[j] = b at hbj
    have hb : b ∈ g'.outs v := List.mem_of_getElem? hbj
    rw [idx_some hbj]
    simp only [bind_okM]
    have hs := hsum a ha b hb
    rw [addW_ok (Nat.le_of_lt hs)]
    simp only [bind_okM]
    refine Tri.bind (WitnessSearch.findMaxWeight_ok hP hwf.lax hinv haP (hwf.adj_lt hb) (hwf.noLoop _ _ hb)) ?_
    rintro ⟨ws3, mw⟩ ⟨hinv2, _, hwitness⟩
    simp only at hinv2 hwitness ⊢
    rw [if_neg (by
      intro hmw
      obtain ⟨w, _, hk⟩ := hwitness hmw hs
      exact hno a ha b hb ⟨w, hk⟩)]
    unfold countShortcut
    rw [hP]
    by_cases hlt : acc < (I32_MAX : Int)
    · rw [if_pos hlt]
      exact ⟨rfl, hinv2, by push_cast; push_cast at hacc; omega, by simp only; omega⟩
    · rw [if_neg hlt]
      exact trivial
  · rintro st ⟨h1, h2, h3, h4⟩
    exact ⟨h1, h2.toBase, by rw [h3, Nat.succ_mul], h4⟩

theorem calcRelevance_hub (hP : P.checked = true) (hn : n ≤ P.umax) {g : PreparationGraph} (hwf : WF n g) {v : Nat}
    (hv : v < n) {ws : WitnessSearch pq} {rel : Nat → Int → Nat → Nat} {level ms : Nat} (hws : ws.Base n)
    (hsum : ∀ a ∈ g.ins v, ∀ b ∈ g.outs v, a.weight + b.weight < P.umax)
    (hno : ∀ a ∈ g.ins v, ∀ b ∈ g.outs v, ¬ ∃ w, Wk (g.relNo v) a.adj b.adj w)
    (hbig : I32_MAX < (g.ins v).length * (g.outs v).length) :
    Tri (calcRelevance P rel g ws v level ms) (fun _ => False) := by
  unfold calcRelevance
  refine Tri.bind (handleShortcuts_count hP hn hwf hv hws hsum hno) ?_
  rintro st ⟨h1, h2⟩
  rw [h1] at h2
  omega

theorem Chain.nil_eq {g g' : PreparationGraph} (h : Chain P n R g [] g') : g' = g := by
  cases h
  rfl

theorem runContraction_hub (hP : P.checked = true) {ig : InputGraph} (h : FrozenOk ig) (params : Params) {v : Nat}
    {I O : List Nat} (hI : I.Nodup) (hO : O.Nodup) (hIe : ∀ u ∈ I, ∃ w, (⟨u, v, w⟩ : Edge) ∈ ig.edges)
    (hOe : ∀ x ∈ O, ∃ w, (⟨v, x, w⟩ : Edge) ∈ ig.edges) (hbig : I32_MAX < I.length * O.length)
    (hsmall : ∀ e ∈ ig.edges, 2 * e.weight < P.umax)
    (hno : ∀ u x a b, (⟨u, v, a⟩ : Edge) ∈ ig.edges → (⟨v, x, b⟩ : Edge) ∈ ig.edges →
      ¬ ∃ w, Wk (fun s t w => (⟨s, t, w⟩ : Edge) ∈ ig.edges ∧ s ≠ v ∧ t ≠ v) u x w) :
    Tri (runContraction P pq nq ig ig.numNodes params) (fun _ => False) := by
  unfold runContraction FastGraph.new
  by_cases hn : ig.numNodes < P.umax
  swap
  · rw [if_neg hn]; trivial
  rw [if_pos hn]
  simp only [bind_okM]
  obtain ⟨g, e, hg⟩ := fromInputGraph_ok (P := P) h
  rw [e]
  simp only [bind_okM]
  have hvn : v < ig.numNodes := by
    cases I with
    | nil => simp at hbig
    | cons u I =>
      obtain ⟨w, hw⟩ := hIe u (List.mem_cons_self ..)
      exact (h.lt _ hw).2
  have hinit : Tri (forM (initialPriority P params) (⟨⟨g, WitnessSearch.new P pq ig.numNodes,
      FastGraph.empty ig.numNodes⟩, List.replicate ig.numNodes 0, nq.empty⟩ : QState pq nq) (List.range ig.numNodes))
      (fun st => (BInv P ig.numNodes anyStep ig.edges [] st.b ∧ st.levels.length = ig.numNodes ∧
        (nq.keys st.queue).Perm (List.range ig.numNodes)) ∧ ig.numNodes ≤ v) := by
    refine Tri_forM_range (fun i (st : QState pq nq) => (BInv P ig.numNodes anyStep ig.edges [] st.b ∧
      st.levels.length = ig.numNodes ∧ (nq.keys st.queue).Perm (List.range i)) ∧ i ≤ v)
      ⟨⟨BInv.start_of hn hg, by simp, by simp [nq.keys_empty]⟩, Nat.zero_le _⟩ ?_
    rintro i st hi ⟨⟨h1, h2, h3⟩, h4⟩
    by_cases hiv : i = v
    · subst hiv
      unfold initialPriority
      obtain ⟨pg, hfi, hch⟩ := h1.start
      rw [hch.nil_eq]
      have hout : ∀ u a, a ∈ pg.outs u → (⟨u, a.adj, a.weight⟩ : Edge) ∈ ig.edges := fun u a ha => ((hfi.mem u a).1 ha).2
      have hin : ∀ u a, a ∈ pg.ins u → (⟨a.adj, u, a.weight⟩ : Edge) ∈ ig.edges := fun u a ha =>
        hout a.adj ⟨u, a.weight, a.center⟩ (hfi.wf.mirror_in ha)
      refine Tri.bind (calcRelevance_hub hP (Nat.le_of_lt hn) hfi.wf hi h1.ws ?_ ?_ ?_) (fun _ h => h.elim)
      · intro a ha b hb
        have := hsmall _ (hin _ a ha)
        have := hsmall _ (hout _ b hb)
        simp only at *
        omega
      · rintro a ha b hb ⟨w, hw⟩
        refine hno _ _ _ _ (hin _ a ha) (hout _ b hb) ⟨w, hw.mono ?_⟩
        rintro s t w ⟨⟨c, hc⟩, k1, k2⟩
        exact ⟨hout _ _ hc, k1, k2⟩
      · have l1 : I.length ≤ (pg.ins i).length := by
          have : I.Subperm ((pg.ins i).map Arc.adj) := List.subperm_of_subset hI (by
            intro u hu
            obtain ⟨w, hw⟩ := hIe u hu
            have := (hfi.mem u ⟨i, w, P.umax⟩).2 ⟨rfl, hw⟩
            exact List.mem_map.2 ⟨_, (hfi.wf.mirror _ _ _ _).1 this, rfl⟩)
          simpa using this.length_le
        have l2 : O.length ≤ (pg.outs i).length := by
          have : O.Subperm ((pg.outs i).map Arc.adj) := List.subperm_of_subset hO (by
            intro x hx
            obtain ⟨w, hw⟩ := hOe x hx
            exact List.mem_map.2 ⟨_, (hfi.mem i ⟨x, w, P.umax⟩).2 ⟨rfl, hw⟩, rfl⟩)
          simpa using this.length_le
        exact Nat.lt_of_lt_of_le hbig (Nat.mul_le_mul l1 l2)
    · refine (initialPriority_ok hP hi h1 h2 h3).mono (fun st' h' => ⟨h', ?_⟩)
      omega
  refine Tri.bind hinit ?_
  rintro st ⟨_, h2⟩
  omega

end FP
