import Verif.Proofs.Finish
import Mathlib.Data.List.Perm.Subperm
/-! # From recorded levels to a correct fast graph -/
namespace FP
open Spec PreparationGraph

variable {pq : PQ} {P : Plat} {n : Nat} {R : StepRel}

namespace Recorded
variable {ls : List Lvl} {fg : FastGraph}

theorem rk_eq (h : Recorded P n ls fg) {j : Nat} {l : Lvl} (hl : ls[j]? = some l) : fg.rk l.node = j := by
  unfold FastGraph.rk; rw [h.rk j l hl]; rfl

theorem j_lt {j : Nat} {l : Lvl} (hl : ls[j]? = some l) : j < ls.length := by
  by_contra hc
  rw [List.getElem?_eq_none (by omega)] at hl
  cases hl

theorem blockF {j : Nat} {l : Lvl} (hl : ls[j]? = some l) : (blocksF P ls)[j]? = some (mkEdges P l.node l.outs) := by
  simp [blocksF, hl]
theorem blockB {j : Nat} {l : Lvl} (hl : ls[j]? = some l) : (blocksB P ls)[j]? = some (mkEdges P l.node l.ins) := by
  simp [blocksB, hl]

theorem bo_eq (h : Recorded P n ls fg) {j : Nat} {l : Lvl} (hl : ls[j]? = some l) :
    fg.bo l.node = off (blocksF P ls) j ∧ fg.eo l.node = off (blocksF P ls) j + l.outs.length := by
  have hj := j_lt hl
  unfold FastGraph.bo FastGraph.eo
  rw [h.rk_eq hl, h.ff j (by omega), h.ff (j + 1) (by omega), off_succ (blockF hl)]
  simp [mkEdges]

theorem bi_eq (h : Recorded P n ls fg) {j : Nat} {l : Lvl} (hl : ls[j]? = some l) :
    fg.bi l.node = off (blocksB P ls) j ∧ fg.ei l.node = off (blocksB P ls) j + l.ins.length := by
  have hj := j_lt hl
  unfold FastGraph.bi FastGraph.ei
  rw [h.rk_eq hl, h.fb j (by omega), h.fb (j + 1) (by omega), off_succ (blockB hl)]
  simp [mkEdges]

theorem outAt_iff (h : Recorded P n ls fg) {j : Nat} {l : Lvl} (hl : ls[j]? = some l) {id : Nat} {ed : FastGraphEdge} :
    fg.OutAt l.node id ed ↔ ∃ k a, l.outs[k]? = some a ∧ id = off (blocksF P ls) j + k ∧
      ed = ⟨l.node, a.adj, a.weight, a.center, P.umax⟩ := by
  obtain ⟨hb, he⟩ := h.bo_eq hl
  unfold FastGraph.OutAt
  rw [hb, he, h.ef]
  constructor
  · rintro ⟨h1, h2, h3⟩
    have hk : id - off (blocksF P ls) j < (mkEdges P l.node l.outs).length := by simp [mkEdges]; omega
    have h4 := getElem?_flatten (blockF (P := P) hl) hk
    rw [show off (blocksF P ls) j + (id - off (blocksF P ls) j) = id by omega, h3] at h4
    have hk' : id - off (blocksF P ls) j < l.outs.length := by omega
    refine ⟨id - off (blocksF P ls) j, l.outs[id - off (blocksF P ls) j], by simp [hk'], by omega, ?_⟩
    simp [mkEdges, hk'] at h4
    exact h4
  · rintro ⟨k, a, h1, rfl, rfl⟩
    have hk : k < l.outs.length := by
      by_contra hc
      rw [List.getElem?_eq_none (by omega)] at h1
      cases h1
    refine ⟨by omega, by omega, ?_⟩
    rw [getElem?_flatten (blockF hl) (by simpa [mkEdges] using hk)]
    simp [mkEdges, h1]

theorem inAt_iff (h : Recorded P n ls fg) {j : Nat} {l : Lvl} (hl : ls[j]? = some l) {id : Nat} {ed : FastGraphEdge} :
    fg.InAt l.node id ed ↔ ∃ k a, l.ins[k]? = some a ∧ id = off (blocksB P ls) j + k ∧
      ed = ⟨l.node, a.adj, a.weight, a.center, P.umax⟩ := by
  obtain ⟨hb, he⟩ := h.bi_eq hl
  unfold FastGraph.InAt
  rw [hb, he, h.eb]
  constructor
  · rintro ⟨h1, h2, h3⟩
    have hk : id - off (blocksB P ls) j < (mkEdges P l.node l.ins).length := by simp [mkEdges]; omega
    have h4 := getElem?_flatten (blockB (P := P) hl) hk
    rw [show off (blocksB P ls) j + (id - off (blocksB P ls) j) = id by omega, h3] at h4
    have hk' : id - off (blocksB P ls) j < l.ins.length := by omega
    refine ⟨id - off (blocksB P ls) j, l.ins[id - off (blocksB P ls) j], by simp [hk'], by omega, ?_⟩
    simp [mkEdges, hk'] at h4
    exact h4
  · rintro ⟨k, a, h1, rfl, rfl⟩
    have hk : k < l.ins.length := by
      by_contra hc
      rw [List.getElem?_eq_none (by omega)] at h1
      cases h1
    refine ⟨by omega, by omega, ?_⟩
    rw [getElem?_flatten (blockB hl) (by simpa [mkEdges] using hk)]
    simp [mkEdges, h1]

theorem FE_of (h : Recorded P n ls fg) {l : Lvl} (hl : l ∈ ls) {a : Arc} (ha : a ∈ l.outs) :
    fg.FE l.node a.adj a.weight := by
  obtain ⟨j, hj⟩ := List.getElem?_of_mem hl
  obtain ⟨k, hk⟩ := List.getElem?_of_mem ha
  exact ⟨_, _, (h.outAt_iff hj).2 ⟨k, a, hk, rfl, rfl⟩, rfl, rfl⟩

theorem BE_of (h : Recorded P n ls fg) {l : Lvl} (hl : l ∈ ls) {a : Arc} (ha : a ∈ l.ins) :
    fg.BE l.node a.adj a.weight := by
  obtain ⟨j, hj⟩ := List.getElem?_of_mem hl
  obtain ⟨k, hk⟩ := List.getElem?_of_mem ha
  exact ⟨_, _, (h.inAt_iff hj).2 ⟨k, a, hk, rfl, rfl⟩, rfl, rfl⟩

theorem shape (h : Recorded P n ls fg) (hlen : ls.length = n) (hall : ∀ u < n, ∃ (j : Nat) (l : Lvl), ls[j]? = some l ∧ l.node = u) :
    Shape P n fg := by
  refine ⟨h.num, h.n_lt, h.lenR, ?_, ?_, ⟨h.lenF, ?_, ?_, ?_⟩, ⟨h.lenB, ?_, ?_, ?_⟩, h.capF, h.capB⟩
  · intro u hu
    obtain ⟨j, l, hl, rfl⟩ := hall u hu
    rw [h.rk_eq hl, ← hlen]; exact j_lt hl
  · intro u hu v hv e
    obtain ⟨j, l, hl, rfl⟩ := hall u hu
    obtain ⟨j', l', hl', rfl⟩ := hall v hv
    rw [h.rk_eq hl, h.rk_eq hl'] at e
    subst e
    rw [hl] at hl'
    cases hl'; rfl
  · intro j hj
    rw [h.ff j (by omega), h.ff (j + 1) (by omega)]
    exact off_mono (by omega)
  · rw [h.ff 0 (by omega)]; simp [off]
  · rw [h.ff n (by omega), h.ef, ← off_length]; simp [blocksF, hlen]
  · intro j hj
    rw [h.fb j (by omega), h.fb (j + 1) (by omega)]
    exact off_mono (by omega)
  · rw [h.fb 0 (by omega)]; simp [off]
  · rw [h.fb n (by omega), h.eb, ← off_length]; simp [blocksB, hlen]

end Recorded

/-- All nodes occur when there are `n` distinct nodes below `n`. -/
theorem all_nodes {ls : List Lvl} (hnd : (ls.map Lvl.node).Nodup) (hlt : ∀ l ∈ ls, l.node < n) (hlen : ls.length = n) :
    ∀ u < n, u ∈ ls.map Lvl.node := by
  have hsub : (ls.map Lvl.node).Subperm (List.range n) := by
    refine List.subperm_of_subset hnd ?_
    intro x hx
    obtain ⟨l, hl, rfl⟩ := List.mem_map.1 hx
    exact List.mem_range.2 (hlt l hl)
  have hp := hsub.perm_of_length_le (by simp [hlen])
  intro u hu
  exact hp.symm.subset (List.mem_range.2 hu)

theorem nodup_getElem?_inj {α : Type} {l : List α} (h : l.Nodup) {i j : Nat} {a : α} (hi : l[i]? = some a)
    (hj : l[j]? = some a) : i = j := by
  have h1 : i < l.length := by
    by_contra hc; rw [List.getElem?_eq_none (by omega)] at hi; cases hi
  exact (List.getElem?_inj h1 h).1 (hi.trans hj.symm)

/-- The result of a complete contraction is what `finish_contraction` needs. -/
theorem BInv.fpre {es : List Edge} {ls : List Lvl} {st : BState pq} (h : BInv P n R es ls st) (hlen : ls.length = n) :
    FPre P (edgesOf es) n st.fg ∧
    ∀ {s t w : Nat}, s < n → t < n → Wk (edgesOf es) s t w → w < P.umax → UpDown st.fg.FE st.fg.BE s t w := by
  obtain ⟨g₀, hfi, hch⟩ := h.start
  have hlv : ∀ (j : Nat) l, ls[j]? = some l → LvlOk P n (edgesOf es) (ls.take j) l := by
    intro j l hl
    have := hch.levels [] hfi.wf hfi.allOrigin (by simp) j l hl
    simpa using this
  have hltn : ∀ l ∈ ls, l.node < n := by
    intro l hl
    obtain ⟨j, hj⟩ := List.getElem?_of_mem hl
    exact (hlv j l hj).lt
  have hall' := all_nodes h.nodup hltn hlen
  have hall : ∀ u < n, ∃ (j : Nat) (l : Lvl), ls[j]? = some l ∧ l.node = u := by
    intro u hu
    obtain ⟨l, hl, e⟩ := List.mem_map.1 (hall' u hu)
    obtain ⟨j, hj⟩ := List.getElem?_of_mem hl
    exact ⟨j, l, hj, e⟩
  have hrc := h.rc
  have hrk : ∀ (j : Nat) l x, ls[j]? = some l → x < n → x ≠ l.node → x ∉ (ls.take j).map Lvl.node →
      st.fg.rk l.node < st.fg.rk x := by
    intro j l x hl hx hne hnot
    obtain ⟨j', l', hl', rfl⟩ := hall x hx
    rw [hrc.rk_eq hl, hrc.rk_eq hl']
    by_contra hc
    have hjj : j' ≠ j := by
      intro e; subst e; rw [hl] at hl'; cases hl'; exact hne rfl
    have : l' ∈ ls.take j := by
      refine List.mem_of_getElem? (i := j') ?_
      rw [List.getElem?_take_of_lt (by omega)]; exact hl'
    exact hnot (List.mem_map.2 ⟨l', this, rfl⟩)
  have hlow : ∀ (j : Nat) l l', ls[j]? = some l → l' ∈ ls.take j → st.fg.rk l'.node < st.fg.rk l.node := by
    intro j l l' hl hl'
    obtain ⟨j', hj'⟩ := List.getElem?_of_mem hl'
    have hlt : j' < j := by
      have := Recorded.j_lt hj'
      simp at this; omega
    rw [List.getElem?_take_of_lt hlt] at hj'
    rw [hrc.rk_eq hl, hrc.rk_eq hj']; exact hlt
  have hcent : ∀ (j : Nat) l u x w c, ls[j]? = some l → st.fg.rk l.node ≤ st.fg.rk u → st.fg.rk l.node ≤ st.fg.rk x →
      Origin P (edgesOf es) (ls.take j) u x w c → Centered P (edgesOf es) n st.fg u x w c := by
    intro j l u x w c hl hu hx ho
    rcases ho with ho | ⟨l', hl', rfl, a, ha, b, hb, rfl, rfl, e⟩
    · exact Or.inl ho
    · have hlo := hlow j l l' hl hl'
      have hm : l' ∈ ls := List.mem_of_mem_take hl'
      exact Or.inr ⟨hltn _ hm, by omega, by omega, _, _, hrc.BE_of hm ha, hrc.FE_of hm hb, e⟩
  refine ⟨⟨hrc.shape hlen hall, ?_, ?_, ?_, ?_⟩, ?_⟩
  · intro u hu id ed id' ed' h1 h2 he
    obtain ⟨j, l, hl, rfl⟩ := hall u hu
    obtain ⟨k, a, g1, g2, rfl⟩ := (hrc.outAt_iff hl).1 h1
    obtain ⟨k', a', g1', g2', rfl⟩ := (hrc.outAt_iff hl).1 h2
    simp only at he
    have : k = k' := nodup_getElem?_inj (hlv j l hl).nodupOut (i := k) (j := k') (a := a.adj) (by simp [g1]) (by simp [g1', he])
    omega
  · intro u hu id ed id' ed' h1 h2 he
    obtain ⟨j, l, hl, rfl⟩ := hall u hu
    obtain ⟨k, a, g1, g2, rfl⟩ := (hrc.inAt_iff hl).1 h1
    obtain ⟨k', a', g1', g2', rfl⟩ := (hrc.inAt_iff hl).1 h2
    simp only at he
    have : k = k' := nodup_getElem?_inj (hlv j l hl).nodupIn (i := k) (j := k') (a := a.adj) (by simp [g1]) (by simp [g1', he])
    omega
  · intro u hu id ed h1
    obtain ⟨j, l, hl, rfl⟩ := hall u hu
    obtain ⟨k, a, g1, g2, rfl⟩ := (hrc.outAt_iff hl).1 h1
    have hm := List.mem_of_getElem? g1
    obtain ⟨q1, q2, q3⟩ := (hlv j l hl).outs_adj a hm
    have hr := hrk j l a.adj hl q1 q2 q3
    exact ⟨rfl, q1, hr, rfl, hcent j l _ _ _ _ hl (Nat.le_refl _) (Nat.le_of_lt hr) ((hlv j l hl).outs_origin a hm)⟩
  · intro u hu id ed h1
    obtain ⟨j, l, hl, rfl⟩ := hall u hu
    obtain ⟨k, a, g1, g2, rfl⟩ := (hrc.inAt_iff hl).1 h1
    have hm := List.mem_of_getElem? g1
    obtain ⟨q1, q2, q3⟩ := (hlv j l hl).ins_adj a hm
    have hr := hrk j l a.adj hl q1 q2 q3
    exact ⟨rfl, q1, hr, rfl, hcent j l _ _ _ _ hl (Nat.le_of_lt hr) (Nat.le_refl _) ((hlv j l hl).ins_origin a hm)⟩
  · intro s t w hs ht k hw
    refine hch.upDown hfi.wf (hch.empty hfi.wf hall') _ _ ?_ ?_ (k.mono (fun _ _ _ e => hfi.rel_iff.2 e)) hw
    · intro l hl a ha; exact hrc.FE_of hl ha
    · intro l hl a ha; exact hrc.BE_of hl ha

/-! ### The two contraction loops -/

theorem BInv.start_of {ig : InputGraph} (hn : ig.numNodes < P.umax) {g : PreparationGraph}
    (hg : FromInput P ig.numNodes ig.edges g) :
    BInv P ig.numNodes R ig.edges [] (⟨g, WitnessSearch.new P pq ig.numNodes, FastGraph.empty ig.numNodes⟩ : BState pq) :=
  ⟨⟨g, hg, .nil _⟩, hg.wf, WitnessSearch.Base.new P pq _, Recorded.empty hn, by simp⟩

/-- The fast graph is what was recorded during some complete contraction (up to the replaced edge ids). -/
def BuiltFrom (P : Plat) (n : Nat) (R : StepRel) (es : List Edge) (fg : FastGraph) : Prop :=
  ∃ (pq : PQ) (ls : List Lvl) (st : BState pq), BInv P n R es ls st ∧ ls.length = n ∧ SameCore st.fg fg

/-- `run_contraction_with_order` for an order that is a permutation of the nodes: rank of the `j`-th node is `j`. -/
theorem runContractionWithOrder_ok (hP : P.checked = true) {ig : InputGraph} (h : FrozenOk ig)
    {order : List Nat} (ho : order.Perm (List.range ig.numNodes)) (ms : Nat) (hR : StepsOk pq P ig.numNodes ms R) :
    Tri (runContractionWithOrder P pq ig ig.numNodes order ms) (fun fg => FGood P (edgesOf ig.edges) ig.numNodes fg ∧
      BuiltFrom P ig.numNodes R ig.edges fg ∧ ∀ (j : Nat) v, order[j]? = some v → fg.ranks[v]? = some j) := by
  unfold runContractionWithOrder FastGraph.new
  by_cases hn : ig.numNodes < P.umax
  swap
  · rw [if_neg hn]; trivial
  rw [if_pos hn]
  simp only [bind_okM]
  obtain ⟨g, e, hg⟩ := fromInputGraph_ok (P := P) h
  rw [e]
  simp only [bind_okM]
  have hlen : order.length = ig.numNodes := by simpa using ho.length_eq
  have hnd : order.Nodup := ho.nodup_iff.2 List.nodup_range
  have hlt : ∀ v ∈ order, v < ig.numNodes := fun v hv => List.mem_range.1 (ho.subset hv)
  have hloop : Tri (forM (orderStep P ig.numNodes ms) (⟨g, WitnessSearch.new P pq ig.numNodes,
      FastGraph.empty ig.numNodes⟩ : BState pq) order.zipIdx)
      (fun st => ∃ ls, BInv P ig.numNodes R ig.edges ls st ∧ ls.map Lvl.node = order) := by
    refine Tri.mono (Tri_forM (fun pre (st : BState pq) => ∃ ls, BInv P ig.numNodes R ig.edges ls st ∧
      ls.map Lvl.node = pre.map Prod.fst) ⟨[], BInv.start_of hn hg, rfl⟩ ?_) ?_
    · rintro pre ⟨v, r⟩ post st hl ⟨ls, hI, hls⟩
      have hlen' : ls.length = pre.length := by
        have := congrArg List.length hls; simpa using this
      have hget : order.zipIdx[pre.length]? = some (v, r) := by rw [hl]; simp
      rw [List.getElem?_zipIdx] at hget
      simp only [Option.map_eq_some_iff, Prod.mk.injEq] at hget
      obtain ⟨v', hv', rfl, hr⟩ := hget
      have hr' : r = ls.length := by omega
      subst hr'
      have hvn : v' < ig.numNodes := hlt _ (List.mem_of_getElem? hv')
      have hpre : pre.map Prod.fst = order.take pre.length := by
        have := congrArg (fun l => (l.take pre.length).map Prod.fst) hl
        simp only [List.take_left] at this
        rw [← this, List.map_take]
        simp
      have hnew : v' ∉ ls.map Lvl.node := by
        rw [hls, hpre]
        intro hm
        obtain ⟨k, hk⟩ := List.getElem?_of_mem hm
        have hkl : k < pre.length := by
          by_contra hc
          rw [List.getElem?_eq_none (by simp; omega)] at hk
          cases hk
        rw [List.getElem?_take_of_lt hkl] at hk
        have := nodup_getElem?_inj hnd hk hv'
        omega
      have hltlen : ls.length < ig.numNodes := by
        have := List.getElem?_eq_some_iff.1 hv'
        obtain ⟨h1, _⟩ := this
        omega
      unfold orderStep
      simp only
      rw [if_neg (by omega)]
      refine Tri.mono (recordAndContract_ok hP hI hvn hnew hltlen hR) ?_
      intro st' hI'
      exact ⟨_, hI', by simp [hls]⟩
    · rintro st ⟨ls, hI, hls⟩
      exact ⟨ls, hI, by simpa using hls⟩
  refine Tri.bind hloop ?_
  rintro st ⟨ls, hI, hls⟩
  have hll : ls.length = ig.numNodes := by
    have := congrArg List.length hls; simp at this; omega
  obtain ⟨h1, h2⟩ := hI.fpre hll
  refine Tri.mono (finishContraction_ok h1 h2) ?_
  rintro fg ⟨h3, h4⟩
  refine ⟨h3, ⟨_, _, _, hI, hll, h4⟩, ?_⟩
  intro j v hv
  rw [← hls] at hv
  simp only [List.getElem?_map, Option.map_eq_some_iff] at hv
  obtain ⟨l, hl, rfl⟩ := hv
  rw [h4.ranks]
  exact hI.rc.rk j l hl

/-- Invariant of the loop of `run_contraction`. -/
structure QInv {nq : NodeQueue} (P : Plat) (n : Nat) (R : StepRel) (es : List Edge) (ls : List Lvl) (st : QState pq nq) : Prop where
  b : BInv P n R es ls st.b
  lv : st.levels.length = n
  perm : (nq.keys st.queue ++ ls.map Lvl.node).Perm (List.range n)

variable {nq : NodeQueue}

theorem mem_btreeInsert {k x : Nat} {l : List Nat} : x ∈ btreeInsert k l ↔ x = k ∨ x ∈ l := by
  induction l with
  | nil => simp [btreeInsert]
  | cons y ys ih =>
    unfold btreeInsert
    split
    · simp
    · split
      · rename_i h1 h2
        simp at h2
        subst h2
        simp
      · simp [ih]
        tauto

theorem mem_foldl_btree {l : List Arc} {x : Nat} : ∀ {s : List Nat},
    x ∈ l.foldl (fun s a => btreeInsert a.adj s) s ↔ x ∈ s ∨ ∃ a ∈ l, a.adj = x := by
  induction l with
  | nil => simp
  | cons b bs ih =>
    intro s
    simp only [List.foldl_cons, ih, mem_btreeInsert]
    simp only [List.mem_cons, exists_eq_or_imp]
    constructor
    · rintro ((rfl | h) | h)
      · exact Or.inr (Or.inl rfl)
      · exact Or.inl h
      · exact Or.inr (Or.inr h)
    · rintro (h | rfl | h)
      · exact Or.inl (Or.inr h)
      · exact Or.inl (Or.inl rfl)
      · exact Or.inr h

theorem mem_neighborSet {outs ins : List Arc} {x : Nat} :
    x ∈ neighborSet outs ins ↔ (∃ a ∈ outs, a.adj = x) ∨ ∃ a ∈ ins, a.adj = x := by
  unfold neighborSet
  rw [mem_foldl_btree, mem_foldl_btree]
  simp

theorem BInv.of_ws {es : List Edge} {ls : List Lvl} {st : BState pq} (h : BInv P n R es ls st) {pg : PreparationGraph}
    {ws : WitnessSearch pq} (hpg : pg = st.pg) (hws : ws.Base n) : BInv P n R es ls { st with pg := pg, ws := ws } := by
  subst hpg
  exact ⟨h.start, h.wf, hws, h.rc, h.nodup⟩

theorem initialPriority_ok (hP : P.checked = true) {es : List Edge} {params : Params} {st : QState pq nq} {i : Nat}
    (hi : i < n) (h : BInv P n R es [] st.b) (hl : st.levels.length = n) (hk : (nq.keys st.queue).Perm (List.range i)) :
    Tri (initialPriority P params st i) (fun st' => BInv P n R es [] st'.b ∧ st'.levels.length = n ∧
      (nq.keys st'.queue).Perm (List.range (i + 1))) := by
  unfold initialPriority
  refine Tri.bind (calcRelevance_ok hP (Nat.le_of_lt h.rc.n_lt) h.wf hi h.ws) ?_
  rintro ⟨pg, ws, p⟩ ⟨h1, h2⟩
  simp only [Tri_ok]
  refine ⟨h.of_ws h1 h2, hl, ?_⟩
  have hnot : i ∉ nq.keys st.queue := by
    intro hm
    have := List.mem_range.1 (hk.subset hm)
    omega
  refine (nq.keys_push i p st.queue hnot).trans ?_
  rw [List.range_succ]
  exact (List.Perm.cons i hk).trans (List.perm_append_singleton i _).symm

theorem updateNeighbor_ok (hP : P.checked = true) {es : List Edge} {ls : List Lvl} {params : Params} {st : QState pq nq}
    {node v : Nat} (hnode : node < n) (hv : v < n) (h : QInv P n R es ls st) :
    Tri (updateNeighbor P params node st v) (QInv P n R es ls) := by
  unfold updateNeighbor
  rw [idx_ok (by rw [h.lv]; exact hv), idx_ok (by rw [h.lv]; exact hnode)]
  simp only [bind_okM]
  refine Tri.bind (Tri_addW hP _ _) ?_
  rintro lv1 -
  rw [setIdx_ok (by rw [h.lv]; exact hv)]
  simp only [bind_okM]
  rw [idx_ok (by rw [List.length_set, h.lv]; exact hv)]
  simp only [bind_okM]
  refine Tri.bind (calcRelevance_ok hP (Nat.le_of_lt h.b.rc.n_lt) h.b.wf hv h.b.ws) ?_
  rintro ⟨pg, ws, p⟩ ⟨h1, h2⟩
  simp only [Tri_ok]
  exact ⟨h.b.of_ws h1 h2, by simp [h.lv], ((nq.keys_change _ _ _).append_right _).trans h.perm⟩

theorem contractionLoop_ok (hP : P.checked = true) {es : List Edge} {params : Params}
    (hR : StepsOk pq P n params.maxSettledContraction R) :
    ∀ fuel (ls : List Lvl) (st : QState pq nq), QInv P n R es ls st → (nq.keys st.queue).length < fuel →
      Tri (contractionLoop P params fuel ls.length st) (fun st' => ∃ ls', ls'.length = n ∧ BInv P n R es ls' st'.b) := by
  intro fuel
  induction fuel with
  | zero => intro ls st _ h; omega
  | succ fuel ih =>
    intro ls st h hf
    have hlen := h.perm.length_eq
    simp only [List.length_append, List.length_map, List.length_range] at hlen
    unfold contractionLoop
    cases hp : nq.pop st.queue with
    | none =>
      simp only [Tri_ok]
      rw [(nq.pop_none _).1 hp] at hlen
      exact ⟨ls, by simpa using hlen, h.b⟩
    | some r =>
      obtain ⟨node, queue⟩ := r
      simp only
      have hk := nq.pop_some _ _ _ hp
      have hkl := hk.length_eq
      simp only [List.length_cons] at hkl
      have hnode : node < n := by
        apply List.mem_range.1
        apply h.perm.subset
        rw [List.mem_append]
        exact Or.inl (hk.symm.subset (List.mem_cons_self ..))
      have hnd : (nq.keys st.queue ++ ls.map Lvl.node).Nodup := h.perm.nodup_iff.2 List.nodup_range
      have hnew : node ∉ ls.map Lvl.node := by
        intro hm
        have := (List.nodup_append.1 hnd).2.2 node (hk.symm.subset (List.mem_cons_self ..)) node hm
        exact this rfl
      have hwf := h.b.wf
      rw [idx_outEdges (by rw [hwf.lenOut]; exact hnode), idx_inEdges (by rw [hwf.lenIn]; exact hnode)]
      simp only [bind_okM]
      refine Tri.bind (recordAndContract_ok hP h.b hnode hnew (by omega) hR) ?_
      intro b hb
      have hq : QInv P n R es (ls ++ [⟨node, st.b.pg.outs node, st.b.pg.ins node⟩])
          ({ st with b := b, queue := queue } : QState pq nq) := by
        refine ⟨hb, h.lv, ?_⟩
        refine List.Perm.trans ?_ h.perm
        simp only [List.map_append, List.map_cons, List.map_nil]
        refine List.Perm.trans ?_ (hk.symm.append_right _)
        rw [← List.append_assoc]
        exact List.perm_append_singleton _ _
      have hloop : Tri (forM (updateNeighbor P params node) ({ st with b := b, queue := queue } : QState pq nq)
          (neighborSet (st.b.pg.outs node) (st.b.pg.ins node)))
          (fun st' => QInv P n R es (ls ++ [⟨node, st.b.pg.outs node, st.b.pg.ins node⟩]) st') := by
        refine Tri_forM' (fun st' => QInv P n R es (ls ++ [⟨node, st.b.pg.outs node, st.b.pg.ins node⟩]) st') hq ?_
        intro st' v hv hI
        have hvn : v < n := by
          rcases mem_neighborSet.1 hv with ⟨a, ha, rfl⟩ | ⟨a, ha, rfl⟩
          · exact hwf.adj_lt ha
          · exact hwf.adj_lt_in ha
        exact updateNeighbor_ok hP hnode hvn hI
      refine Tri.bind hloop ?_
      intro st' hI
      have hlen' := hI.perm.length_eq
      simp only [List.length_append, List.length_map, List.length_range, List.length_cons, List.length_nil] at hlen'
      have := ih _ st' hI (by omega)
      simpa using this

/-- `run_contraction`. -/
theorem runContraction_ok (hP : P.checked = true) {ig : InputGraph} (h : FrozenOk ig) (params : Params)
    (hR : StepsOk pq P ig.numNodes params.maxSettledContraction R) :
    Tri (runContraction P pq nq ig ig.numNodes params) (fun fg => FGood P (edgesOf ig.edges) ig.numNodes fg ∧
      BuiltFrom P ig.numNodes R ig.edges fg) := by
  unfold runContraction FastGraph.new
  by_cases hn : ig.numNodes < P.umax
  swap
  · rw [if_neg hn]; trivial
  rw [if_pos hn]
  simp only [bind_okM]
  obtain ⟨g, e, hg⟩ := fromInputGraph_ok (P := P) h
  rw [e]
  simp only [bind_okM]
  have hinit : Tri (forM (initialPriority P params) (⟨⟨g, WitnessSearch.new P pq ig.numNodes,
      FastGraph.empty ig.numNodes⟩, List.replicate ig.numNodes 0, nq.empty⟩ : QState pq nq) (List.range ig.numNodes))
      (fun st => BInv P ig.numNodes R ig.edges [] st.b ∧ st.levels.length = ig.numNodes ∧
        (nq.keys st.queue).Perm (List.range ig.numNodes)) := by
    refine Tri_forM_range (fun i (st : QState pq nq) => BInv P ig.numNodes R ig.edges [] st.b ∧
      st.levels.length = ig.numNodes ∧ (nq.keys st.queue).Perm (List.range i))
      ⟨BInv.start_of hn hg, by simp, by simp [nq.keys_empty]⟩ ?_
    rintro i st hi ⟨h1, h2, h3⟩
    exact initialPriority_ok hP hi h1 h2 h3
  refine Tri.bind hinit ?_
  rintro st ⟨h1, h2, h3⟩
  have hq : QInv P ig.numNodes R ig.edges [] st := ⟨h1, h2, by simpa using h3⟩
  have hl := h3.length_eq
  simp only [List.length_range] at hl
  refine Tri.bind (contractionLoop_ok hP hR (ig.numNodes + 1) [] st hq (by omega)) ?_
  rintro st' ⟨ls', hlen, hb⟩
  obtain ⟨k1, k2⟩ := hb.fpre hlen
  refine Tri.mono (finishContraction_ok k1 k2) ?_
  rintro fg ⟨h3, h4⟩
  exact ⟨h3, _, _, _, hb, hlen, h4⟩

end FP
