import Verif.Proofs.Needed
import Verif.Proofs.Order
/-! # Contraction without any witness search -/
namespace FP
open Spec PreparationGraph

variable {pq : PQ} {P : Plat} {n : Nat} {β : Type}

/-- `handle_shortcuts` calls its handler only for sums below `WEIGHT_MAX`. -/
theorem handleShortcuts_lt (hP : P.checked = true) (hn : n ≤ P.umax) {g : PreparationGraph} {v : Nat} (hv : v < n)
    {handle : PreparationGraph → β → Shortcut → M (PreparationGraph × β)} {ws : WitnessSearch pq} {acc : β} {ms : Nat}
    (G : PreparationGraph → Prop) (hG0 : G g)
    (hG : ∀ gc, G gc → WF n gc ∧ gc.outs v = g.outs v ∧ gc.ins v = g.ins v ∧ Grow v g gc)
    (hhandle : ∀ gc acc a b, G gc → a ∈ g.ins v → b ∈ g.outs v → a.adj ≠ b.adj → a.weight + b.weight < P.umax →
      Tri (handle gc acc ⟨a.adj, b.adj, v, a.weight + b.weight⟩) (fun r => G r.1 ∧ Grow v gc r.1))
    (hws : ws.Base n) :
    Tri (handleShortcuts P g ws v handle acc ms) (fun st => G st.graph ∧ st.ws.Base n) := by
  have hidxI : ∀ gc, G gc → idx gc.inEdges v = .ok (g.ins v) := by
    intro gc h
    obtain ⟨wf, _, hi, _⟩ := hG gc h
    rw [idx_inEdges (by rw [wf.lenIn]; exact hv), hi]
  have hidxO : ∀ gc, G gc → idx gc.outEdges v = .ok (g.outs v) := by
    intro gc h
    obtain ⟨wf, ho, _⟩ := hG gc h
    rw [idx_outEdges (by rw [wf.lenOut]; exact hv), ho]
  have hwf := (hG g hG0).1
  unfold handleShortcuts
  rw [hidxI g hG0]
  simp only [bind_okM]
  refine Tri_forM_range (fun _ (st : HSState pq β) => G st.graph ∧ st.ws.Base n) ⟨hG0, hws⟩ ?_
  rintro i st hi ⟨hGst, hbase⟩
  unfold handleIn
  rw [hidxI _ hGst]
  simp only [bind_okM]
  have hai : (g.ins v)[i]? = some (g.ins v)[i] := by simp [hi]
  generalize (g.ins v)[i] = a at hai
  have ha : a ∈ g.ins v := List.mem_of_getElem? hai
  have halt : a.adj < n := hwf.adj_lt_in ha
  have hav : a.adj ≠ v := hwf.noLoop_in ha
  have haP : a.adj ≠ P.umax := by omega
  rw [idx_some hai]
  simp only [bind_okM]
  obtain ⟨ws', e, hinv, _⟩ := WitnessSearch.init_ok hbase halt haP hav st.graph
  have hci := WitnessSearch.init_CInv (g0 := g) (E := fun _ _ _ => True) hbase halt e haP hav
  rw [e]
  simp only [bind_okM]
  rw [hidxO _ hGst]
  simp only [bind_okM]
  refine Tri.mono (Tri_forM_range (fun _ (st : HSState pq β) => G st.graph ∧
    WitnessSearch.Inv n st.graph a.adj v st.ws ∧ WitnessSearch.CInv P (fun _ _ _ => True) g a.adj v st.ws)
    ⟨hGst, hinv, hci⟩ ?_) ?_
  · rintro j st hj ⟨hGst, hinv, hci⟩
    unfold handlePair
    rw [hidxI _ hGst]
    simp only [bind_okM]
    rw [idx_some hai]
    simp only [bind_okM]
    rw [hidxO _ hGst]
    simp only [bind_okM]
    have hbj : (g.outs v)[j]? = some (g.outs v)[j] := by simp [hj]
    generalize (g.outs v)[j] = b at hbj
    have hb : b ∈ g.outs v := List.mem_of_getElem? hbj
    rw [idx_some hbj]
    simp only [bind_okM]
    refine Tri.bind (Tri_addW hP _ _) ?_
    rintro w ⟨rfl, hw⟩
    obtain ⟨hwfs, _, _, hgr⟩ := hG _ hGst
    refine Tri.bind ((WitnessSearch.findMaxWeight_ok hP hwfs.lax hinv haP (hwf.adj_lt hb) (hwf.noLoop _ _ hb)).and
      (WitnessSearch.findMaxWeight_complete hP hwfs hgr (fun _ _ _ _ => trivial) hinv hci haP (hwf.adj_lt hb)
        (hwf.noLoop _ _ hb))) ?_
    rintro ⟨ws2, mw⟩ ⟨⟨hinv2, hsame, _⟩, _, hci2, ⟨hmx, _⟩, _⟩
    simp only at hinv2 hsame hci2 hmx ⊢
    by_cases hmw : mw ≤ a.weight + b.weight
    · rw [if_pos hmw]
      exact ⟨hGst, hinv2, hci2⟩
    · rw [if_neg hmw]
      have hne : a.adj ≠ b.adj := by
        intro e
        have := hsame e.symm
        omega
      refine Tri.bind (hhandle st.graph st.acc a b hGst ha hb hne (by omega)) ?_
      rintro ⟨g2, acc2⟩ ⟨hG2, hgrow⟩
      exact ⟨hG2, hinv2.mono hgrow, hci2⟩
  · rintro st ⟨h1, h2, _⟩
    exact ⟨h1, h2.toBase⟩

/-- Where the edges of the graph come from; the new ones are lighter than `WEIGHT_MAX`. -/
structure LtG (P : Plat) (n : Nat) (g : PreparationGraph) (v : Nat) (gc : PreparationGraph) : Prop extends ExtG P n g v gc where
  lt : ∀ u, ∀ e ∈ gc.outs u, e ∈ g.outs u ∨ (∃ a ∈ g.ins v, ∃ b ∈ g.outs v,
    a.adj = u ∧ b.adj = e.adj ∧ e.weight = a.weight + b.weight ∧ e.weight < P.umax)

theorem contractNode_lt (hP : P.checked = true) (hn : n ≤ P.umax) {g : PreparationGraph} (hg : WF n g) {v : Nat}
    (hv : v < n) {ws : WitnessSearch pq} (hws : ws.Base n) {ms : Nat} :
    Tri (contractNode P g ws v ms) (fun r => ∀ u, ∀ e ∈ r.1.outs u, u ≠ v ∧ e.adj ≠ v ∧ (e ∈ g.outs u ∨
      (∃ a ∈ g.ins v, ∃ b ∈ g.outs v, a.adj = u ∧ b.adj = e.adj ∧ e.weight = a.weight + b.weight ∧ e.weight < P.umax))) := by
  unfold contractNode
  refine Tri.bind (handleShortcuts_lt hP hn hv (LtG P n g v)
    ⟨ExtG.refl hg, fun _ _ he => Or.inl he⟩ (fun gc h => ⟨h.wf, h.outs_v, h.ins_v, h.grow⟩) ?_ hws) ?_
  · intro gc acc a b h ha hb hne hw
    obtain ⟨g', e, h1, h2, _⟩ := h.toExtG.add hg ha hb hne (Nat.le_of_lt hw) acc
    rw [e]
    refine ⟨⟨h1, ?_⟩, h2⟩
    obtain ⟨g2, e2, sp⟩ := addOrReduceEdge_ok (w := a.weight + b.weight) (c := v) h.wf (hg.adj_lt_in ha) (hg.adj_lt hb) hne
    have hgg : g2 = g' := by
      unfold addShortcut at e
      rw [e2] at e
      injection e with e
      exact congrArg Prod.fst e
    subst hgg
    intro u x hx
    by_cases hu : u = a.adj
    · subst hu
      rcases sp.back x hx with k | k
      · exact h.lt _ x k
      · subst k
        exact Or.inr ⟨a, ha, b, hb, rfl, rfl, rfl, hw⟩
    · rw [sp.outs_ne u hu] at hx
      exact h.lt u x hx
  · rintro st ⟨h, _⟩
    obtain ⟨g', e, _, ho, _⟩ := disconnect_ok h.wf hv
    rw [e]
    simp only [bind_okM, Tri_ok]
    intro u x hx
    rw [ho] at hx
    split at hx
    · simp at hx
    · rename_i huv
      have := List.mem_filter.1 hx
      exact ⟨huv, by simpa using this.2, h.lt u x this.1⟩

namespace WitnessSearch

/-- With a budget of 0 the search finds nothing. -/
theorem findMaxWeight_zero {g : PreparationGraph} (hg : WF n g) {ws : WitnessSearch pq} {s v : Nat} (h : Inv n g s v ws)
    (hl : ∀ x, x ≠ s → ws.look x = none) {t wl : Nat} (hsP : s ≠ P.umax) (ht : t < n) (htv : t ≠ v) :
    ws.findMaxWeight P g t wl 0 = .ok (ws, if t = s then 0 else P.umax) := by
  unfold findMaxWeight
  rw [assertM_of (by simpa [hg.num] using h.num.symm), assertM_of (by simpa [Plat.INVALID_NODE, h.start] using hsP),
    assertM_of (by simpa [h.start, h.avoid] using ⟨h.ne, htv⟩)]
  simp only [bind_okM, h.start]
  by_cases hts : t = s
  · rw [if_pos (by simpa using hts), if_pos hts]
    rfl
  rw [if_neg (by simpa using hts), if_neg hts]
  rw [h.tab.isValid_none ht (hl t hts)]
  simp only [bind_okM, Bool.false_eq_true, if_false]
  have hloop : findLoop P g t wl 0 (ws.fuelFor g) ws = .ok ws := by
    unfold fuelFor findLoop
    cases pq.pop ws.heap with
    | none => rfl
    | some r => simp
  rw [hloop]
  simp only [bind_okM]
  rw [getCurrentWeight_ok h.toBase ht, wt_none (hl t hts)]
  rfl

end WitnessSearch

/-- With a budget of 0 the handler is called for every pair whose sum is below `WEIGHT_MAX`. -/
theorem handleShortcuts_zero (hP : P.checked = true) (hn : n ≤ P.umax) {g : PreparationGraph} {v : Nat} (hv : v < n)
    {handle : PreparationGraph → β → Shortcut → M (PreparationGraph × β)} {ws : WitnessSearch pq} {acc : β}
    (G : PreparationGraph → Prop) (hG0 : G g)
    (hG : ∀ gc, G gc → WF n gc ∧ gc.outs v = g.outs v ∧ gc.ins v = g.ins v)
    (hhandle : ∀ gc acc a b, G gc → a ∈ g.ins v → b ∈ g.outs v → a.adj ≠ b.adj → a.weight + b.weight < P.umax →
      Tri (handle gc acc ⟨a.adj, b.adj, v, a.weight + b.weight⟩)
        (fun r => G r.1 ∧ Grow v gc r.1 ∧ ∃ w, w ≤ a.weight + b.weight ∧ r.1.relNo v a.adj b.adj w))
    (hws : ws.Base n) :
    Tri (handleShortcuts P g ws v handle acc 0) (fun st => G st.graph ∧ st.ws.Base n ∧
      ∀ a ∈ g.ins v, ∀ b ∈ g.outs v, a.adj ≠ b.adj → a.weight + b.weight < P.umax →
        ∃ w, w ≤ a.weight + b.weight ∧ st.graph.relNo v a.adj b.adj w) := by
  have hidxI : ∀ gc, G gc → idx gc.inEdges v = .ok (g.ins v) := by
    intro gc h
    obtain ⟨wf, _, hi⟩ := hG gc h
    rw [idx_inEdges (by rw [wf.lenIn]; exact hv), hi]
  have hidxO : ∀ gc, G gc → idx gc.outEdges v = .ok (g.outs v) := by
    intro gc h
    obtain ⟨wf, ho, _⟩ := hG gc h
    rw [idx_outEdges (by rw [wf.lenOut]; exact hv), ho]
  have hwf := (hG g hG0).1
  let D : PreparationGraph → Arc → Arc → Prop := fun gc a b => a.adj ≠ b.adj → a.weight + b.weight < P.umax →
    ∃ w, w ≤ a.weight + b.weight ∧ gc.relNo v a.adj b.adj w
  have hmono : ∀ gc gc' a b, Grow v gc gc' → D gc a b → D gc' a b := by
    intro gc gc' a b hgr h h1 h2
    obtain ⟨w, h3, h4⟩ := h h1 h2
    obtain ⟨w', h5, h6⟩ := hgr _ _ _ h4
    exact ⟨w', by omega, h6⟩
  unfold handleShortcuts
  rw [hidxI g hG0]
  simp only [bind_okM]
  refine Tri.mono (Q := fun st => G st.graph ∧ st.ws.Base n ∧ ∀ i < (g.ins v).length, ∀ a, (g.ins v)[i]? = some a →
      ∀ b ∈ g.outs v, D st.graph a b) ?_ ?_
  · refine Tri_forM_range (fun i (st : HSState pq β) => G st.graph ∧ st.ws.Base n ∧ ∀ i' < i, ∀ a,
      (g.ins v)[i']? = some a → ∀ b ∈ g.outs v, D st.graph a b) ⟨hG0, hws, by intro i' h; omega⟩ ?_
    rintro i st hi ⟨hGst, hbase, hdone⟩
    unfold handleIn
    rw [hidxI _ hGst]
    simp only [bind_okM]
    have hai : (g.ins v)[i]? = some (g.ins v)[i] := by simp [hi]
    generalize (g.ins v)[i] = a at hai
    have ha : a ∈ g.ins v := List.mem_of_getElem? hai
    have halt : a.adj < n := hwf.adj_lt_in ha
    have hav : a.adj ≠ v := hwf.noLoop_in ha
    have haP : a.adj ≠ P.umax := by omega
    rw [idx_some hai]
    simp only [bind_okM]
    obtain ⟨ws', e, hinv, _⟩ := WitnessSearch.init_ok hbase halt haP hav st.graph
    have hlk := fun x hx => (WitnessSearch.init_look hbase halt e haP hav x).trans (if_neg hx)
    rw [e]
    simp only [bind_okM]
    rw [hidxO _ hGst]
    simp only [bind_okM]
    refine Tri.mono (Tri_forM_range (fun j (st : HSState pq β) => G st.graph ∧
      WitnessSearch.Inv n st.graph a.adj v st.ws ∧ (∀ x, x ≠ a.adj → st.ws.look x = none) ∧
      (∀ i' < i, ∀ a, (g.ins v)[i']? = some a → ∀ b ∈ g.outs v, D st.graph a b) ∧
      ∀ j' < j, ∀ b, (g.outs v)[j']? = some b → D st.graph a b)
      ⟨hGst, hinv, hlk, hdone, by intro j' h; omega⟩ ?_) ?_
    · rintro j st hj ⟨hGst, hinv, hlk, hdone, hdonej⟩
      unfold handlePair
      rw [hidxI _ hGst]
      simp only [bind_okM]
      rw [idx_some hai]
      simp only [bind_okM]
      rw [hidxO _ hGst]
      simp only [bind_okM]
      have hbj : (g.outs v)[j]? = some (g.outs v)[j] := by simp [hj]
      generalize (g.outs v)[j] = b at hbj
      have hb : b ∈ g.outs v := List.mem_of_getElem? hbj
      rw [idx_some hbj]
      simp only [bind_okM]
      refine Tri.bind (Tri_addW hP _ _) ?_
      rintro w ⟨rfl, hw⟩
      have hwfs := (hG _ hGst).1
      rw [WitnessSearch.findMaxWeight_zero hwfs hinv hlk haP (hwf.adj_lt hb) (hwf.noLoop _ _ hb)]
      simp only [bind_okM]
      have hstep : ∀ g2, Grow v st.graph g2 → D g2 a b →
          ∀ j' < j + 1, ∀ b, (g.outs v)[j']? = some b → D g2 a b := by
        intro g2 hg2 hd j' hj' b' hb'
        by_cases hjj : j' = j
        · subst hjj
          rw [hbj] at hb'
          cases hb'
          exact hd
        · exact hmono _ _ _ _ hg2 (hdonej j' (by omega) b' hb')
      by_cases hmw : (if b.adj = a.adj then 0 else P.umax) ≤ a.weight + b.weight
      · rw [if_pos hmw]
        refine ⟨hGst, hinv, hlk, hdone, hstep _ (Grow.refl _) ?_⟩
        intro h1 h2
        rw [if_neg (fun h => h1 h.symm)] at hmw
        omega
      · rw [if_neg hmw]
        have hne : a.adj ≠ b.adj := by
          intro e
          rw [if_pos e.symm] at hmw
          omega
        rw [if_neg hne.symm] at hmw
        refine Tri.bind (hhandle st.graph st.acc a b hGst ha hb hne (by omega)) ?_
        rintro ⟨g2, acc2⟩ ⟨hG2, hgrow, hD⟩
        simp only [Tri_ok] at hG2 hgrow hD ⊢
        refine ⟨hG2, hinv.mono hgrow, hlk, ?_, hstep _ hgrow (fun _ _ => hD)⟩
        intro i' hi' a' ha' b' hb'
        exact hmono _ _ _ _ hgrow (hdone i' hi' a' ha' b' hb')
    · rintro st ⟨h1, h2, _, h3, h4⟩
      refine ⟨h1, h2.toBase, ?_⟩
      intro i' hi' a' ha' b' hb'
      by_cases hii : i' = i
      · subst hii
        rw [hai] at ha'
        cases ha'
        obtain ⟨j', hj', e⟩ := List.getElem_of_mem hb'
        exact h4 j' hj' b' (by simp [hj', e])
      · exact h3 i' (by omega) a' ha' b' hb'
  · rintro st ⟨h1, h2, h3⟩
    refine ⟨h1, h2, ?_⟩
    intro a ha b hb
    obtain ⟨i, hi, e⟩ := List.getElem_of_mem ha
    exact h3 i hi a (by simp [hi, e]) b hb

theorem contractNode_zero (hP : P.checked = true) (hn : n ≤ P.umax) {g : PreparationGraph} (hg : WF n g) {v : Nat}
    (hv : v < n) {ws : WitnessSearch pq} (hws : ws.Base n) :
    Tri (contractNode P g ws v 0) (fun r => (∀ x y w, g.relNo v x y w → ∃ w', w' ≤ w ∧ r.1.rel x y w') ∧
      ∀ a ∈ g.ins v, ∀ b ∈ g.outs v, a.adj ≠ b.adj → a.weight + b.weight < P.umax →
        ∃ w, w ≤ a.weight + b.weight ∧ r.1.rel a.adj b.adj w) := by
  unfold contractNode
  refine Tri.bind (handleShortcuts_zero hP hn hv (ExtG P n g v) (ExtG.refl hg) (fun gc h => ⟨h.wf, h.outs_v, h.ins_v⟩) ?_ hws) ?_
  · intro gc acc a b h ha hb hne hw
    obtain ⟨g', e, h1, h2, _⟩ := h.add hg ha hb hne (Nat.le_of_lt hw) acc
    rw [e]
    refine ⟨h1, h2, ?_⟩
    obtain ⟨g2, e2, sp⟩ := addOrReduceEdge_ok (w := a.weight + b.weight) (c := v) h.wf (hg.adj_lt_in ha) (hg.adj_lt hb) hne
    have hgg : g2 = g' := by
      unfold addShortcut at e
      rw [e2] at e
      injection e with e
      exact congrArg Prod.fst e
    subst hgg
    obtain ⟨e', he', had, hwe⟩ := sp.have_
    refine ⟨e'.weight, hwe, ⟨e'.center, ?_⟩, hg.noLoop_in ha, hg.noLoop _ _ hb⟩
    rw [← had]; exact he'
  · rintro st ⟨h, _, hD⟩
    obtain ⟨g', e, _, ho, _⟩ := disconnect_ok h.wf hv
    rw [e]
    simp only [bind_okM, Tri_ok]
    have hrel : ∀ u x w, st.graph.relNo v u x w → g'.rel u x w := by
      rintro u x w ⟨⟨c, hc⟩, hu, hx⟩
      refine ⟨c, ?_⟩
      rw [ho, if_neg hu]
      exact List.mem_filter.2 ⟨hc, by simpa using hx⟩
    constructor
    · intro x y w hxy
      obtain ⟨w', h1, h2⟩ := h.grow _ _ _ hxy
      exact ⟨w', h1, hrel _ _ _ h2⟩
    · intro a ha b hb h1 h2
      obtain ⟨w, h3, h4⟩ := hD a ha b hb h1 h2
      exact ⟨w, h3, hrel _ _ _ h4⟩

/-- Every edge of `g` has one in `g₀` that is at most as heavy. -/
def Under (g g₀ : PreparationGraph) : Prop := ∀ x y w, g.rel x y w → ∃ w', w' ≤ w ∧ g₀.rel x y w'

/-- Contracting a node with any budget gives at most the edges that contracting it without searching gives. -/
theorem Under.contract (hP : P.checked = true) (hn : n ≤ P.umax) {pq₀ : PQ} {g g₀ : PreparationGraph} (hg : WF n g) (hg₀ : WF n g₀)
    (h : Under g g₀) {v : Nat} (hv : v < n) {ws : WitnessSearch pq} {ws₀ : WitnessSearch pq₀} (hws : ws.Base n) (hws₀ : ws₀.Base n)
    {ms : Nat} {r : PreparationGraph × WitnessSearch pq} {r₀ : PreparationGraph × WitnessSearch pq₀}
    (e : contractNode P g ws v ms = .ok r) (e₀ : contractNode P g₀ ws₀ v 0 = .ok r₀) : Under r.1 r₀.1 := by
  have k := (contractNode_lt hP hn hg hv hws).of_ok e
  obtain ⟨k1, k2⟩ := (contractNode_zero hP hn hg₀ hv hws₀).of_ok e₀
  rintro x y w ⟨c, hc⟩
  obtain ⟨hx, hy, hc | ⟨a, ha, b, hb, hax, hby, hw, hlt⟩⟩ := k x _ hc
  · obtain ⟨w', h1, h2⟩ := h x y w ⟨c, hc⟩
    obtain ⟨w'', h3, h4⟩ := k1 x y w' ⟨h2, hx, hy⟩
    exact ⟨w'', by omega, h4⟩
  · simp only at hby hw hlt hy
    obtain ⟨aw, ac⟩ : ∃ p : Nat × Nat, a = ⟨x, p.1, p.2⟩ := ⟨(a.weight, a.center), by cases a; simp at hax; simp [hax]⟩
    subst ac
    obtain ⟨bw, bc⟩ : ∃ p : Nat × Nat, b = ⟨y, p.1, p.2⟩ := ⟨(b.weight, b.center), by cases b; simp at hby; simp [hby]⟩
    subst bc
    obtain ⟨a', h1, c1, h2⟩ := h x v aw.1 ⟨_, (hg.mirror _ _ _ _).2 ha⟩
    obtain ⟨b', h3, c3, h4⟩ := h v y bw.1 ⟨_, hb⟩
    simp only at hw
    by_cases hxy : x = y
    · exfalso
      have := (contractNode_ok hP hn hg hv hws).of_ok e
      exact this.1.wf.noLoop _ _ hc (by simpa using hxy.symm)
    · obtain ⟨w'', h5, h6⟩ := k2 _ ((hg₀.mirror _ _ _ _).1 h2) _ h4 hxy (by simp only; omega)
      simp only at h5 h6
      exact ⟨w'', by omega, h6⟩

/-- The graphs that are left during two contractions in the same order, the second one without searches. -/
theorem remaining_under (hP : P.checked = true) {ig : InputGraph} (hF : FrozenOk ig) (hn : ig.numNodes ≤ P.umax) {pq₀ : PQ} {ms : Nat}
    (done : List Nat) : (∀ v ∈ done, v < ig.numNodes) → ∀ {g g₀ : PreparationGraph}, remaining P pq ig ms done = .ok g →
      remaining P pq₀ ig 0 done = .ok g₀ → WF ig.numNodes g ∧ WF ig.numNodes g₀ ∧ Under g g₀ := by
  induction hl : done.length generalizing done with
  | zero =>
    intro _ g g₀ h h₀
    cases List.length_eq_zero_iff.1 hl
    obtain ⟨gi, e, hgi⟩ := fromInputGraph_ok (P := P) hF
    unfold remaining at h h₀
    rw [e] at h h₀
    simp only [bind_okM, forM_nil] at h h₀
    cases h
    cases h₀
    exact ⟨hgi.wf, hgi.wf, fun _ _ w hw => ⟨w, Nat.le_refl _, hw⟩⟩
  | succ k ih =>
    intro hlt g g₀ h h₀
    obtain ⟨d, v, rfl⟩ : ∃ d v, done = d ++ [v] := by
      rcases List.eq_nil_or_concat done with rfl | ⟨d, v, rfl⟩
      · simp at hl
      · exact ⟨d, v, by rw [List.concat_eq_append]⟩
    have hpre : ∀ (pq : PQ) (ms : Nat) (g : PreparationGraph), remaining P pq ig ms (d ++ [v]) = .ok g →
        ∃ g', remaining P pq ig ms d = .ok g' := by
      intro pq ms g h
      unfold remaining at h ⊢
      obtain ⟨gi, e, h⟩ := bind_eq_ok.1 h
      rw [e]
      simp only [bind_okM]
      rw [forM_append] at h
      obtain ⟨g', e', _⟩ := bind_eq_ok.1 h
      exact ⟨g', e'⟩
    obtain ⟨g1, hg1⟩ := hpre _ _ _ h
    obtain ⟨g2, hg2⟩ := hpre _ _ _ h₀
    rw [remaining_snoc hg1] at h
    rw [remaining_snoc hg2] at h₀
    obtain ⟨r, er, hr⟩ := bind_eq_ok.1 h
    obtain ⟨r₀, er₀, hr₀⟩ := bind_eq_ok.1 h₀
    injection hr with hr
    injection hr₀ with hr₀
    subst hr
    subst hr₀
    obtain ⟨w1, w2, hu⟩ := ih d (by simpa using hl) (fun x hx => hlt x (by simp [hx])) hg1 hg2
    have hv : v < ig.numNodes := hlt v (by simp)
    exact ⟨((contractNode_ok hP hn w1 hv (WitnessSearch.Base.new P pq _)).of_ok er).1.wf,
      ((contractNode_ok hP hn w2 hv (WitnessSearch.Base.new P pq₀ _)).of_ok er₀).1.wf,
      hu.contract hP hn w1 w2 hv (WitnessSearch.Base.new P pq _) (WitnessSearch.Base.new P pq₀ _) er er₀⟩

end FP
