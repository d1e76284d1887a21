import Verif.Model.NodeContractor
import Verif.Proofs.WitnessSearch
/-! # Contracting one node -/
namespace FP
open Spec PreparationGraph

variable {pq : PQ} {P : Plat} {n : Nat} {β : Type}

/-- Every edge away from `v` is kept or becomes lighter. -/
def Grow (v : Nat) (g g' : PreparationGraph) : Prop :=
  ∀ a b w, g.relNo v a b w → ∃ w', w' ≤ w ∧ g'.relNo v a b w'

theorem Grow.refl {v : Nat} (g : PreparationGraph) : Grow v g g := fun _ _ w h => ⟨w, Nat.le_refl _, h⟩

theorem Grow.trans {v : Nat} {g g' g'' : PreparationGraph} (h : Grow v g g') (h' : Grow v g' g'') : Grow v g g'' := by
  intro a b w e
  obtain ⟨w', h1, e1⟩ := h a b w e
  obtain ⟨w'', h2, e2⟩ := h' a b w' e1
  exact ⟨w'', by omega, e2⟩

theorem Grow.walk {v : Nat} {g g' : PreparationGraph} (h : Grow v g g') {s t w : Nat} (k : Wk (g.relNo v) s t w) :
    ∃ w', w' ≤ w ∧ Wk (g'.relNo v) s t w' :=
  k.bind_le (fun a b w e => by
    obtain ⟨w', h', e'⟩ := h a b w e
    exact ⟨w', h', Wk.single e'⟩)

/-- `handle_shortcuts` for an arbitrary handler. `G` is the graph invariant, `D g a b w` what is known about a finished
pair of neighbours. -/
theorem handleShortcuts_ok (hP : P.checked = true) (hn : n ≤ P.umax) {g : PreparationGraph} {v : Nat} (hv : v < n)
    {handle : PreparationGraph → β → Shortcut → M (PreparationGraph × β)} {ws : WitnessSearch pq} {acc : β} {ms : Nat}
    (G : PreparationGraph → Prop) (D : PreparationGraph → Nat → Nat → Nat → Prop)
    (hG0 : G g)
    (hG : ∀ gc, G gc → WF n gc ∧ gc.outs v = g.outs v ∧ gc.ins v = g.ins v)
    (hhandle : ∀ gc acc a b, G gc → a ∈ g.ins v → b ∈ g.outs v → a.adj ≠ b.adj → a.weight + b.weight ≤ P.umax →
      Tri (handle gc acc ⟨a.adj, b.adj, v, a.weight + b.weight⟩)
        (fun r => G r.1 ∧ Grow v gc r.1 ∧ D r.1 a.adj b.adj (a.weight + b.weight)))
    (hwit : ∀ gc a b w, G gc → (w < P.umax → ∃ w', w' ≤ w ∧ Wk (gc.relNo v) a b w') → D gc a b w)
    (hmono : ∀ gc gc' a b w, Grow v gc gc' → D gc a b w → D gc' a b w)
    (hws : ws.Base n) :
    Tri (handleShortcuts P g ws v handle acc ms) (fun st => G st.graph ∧ st.ws.Base n ∧
      ∀ a ∈ g.ins v, ∀ b ∈ g.outs v, a.adj ≠ b.adj → D st.graph a.adj b.adj (a.weight + b.weight)) := by
  have hidxI : ∀ gc, G gc → idx gc.inEdges v = .ok (g.ins v) := by
    intro gc h
    obtain ⟨wf, _, hi⟩ := hG gc h
    rw [idx_inEdges (by rw [wf.lenIn]; exact hv), hi]
  have hidxO : ∀ gc, G gc → idx gc.outEdges v = .ok (g.outs v) := by
    intro gc h
    obtain ⟨wf, ho, _⟩ := hG gc h
    rw [idx_outEdges (by rw [wf.lenOut]; exact hv), ho]
  have hwf := (hG g hG0).1
  unfold handleShortcuts
  rw [hidxI g hG0]
  simp only [bind_okM]
  refine Tri.mono (Q := fun st => G st.graph ∧ st.ws.Base n ∧ ∀ i < (g.ins v).length, ∀ a, (g.ins v)[i]? = some a →
      ∀ b ∈ g.outs v, a.adj ≠ b.adj → D st.graph a.adj b.adj (a.weight + b.weight)) ?_ ?_
  · refine Tri_forM_range (fun i (st : HSState pq β) => G st.graph ∧ st.ws.Base n ∧ ∀ i' < i, ∀ a,
      (g.ins v)[i']? = some a → ∀ b ∈ g.outs v, a.adj ≠ b.adj → D st.graph a.adj b.adj (a.weight + b.weight))
      ⟨hG0, hws, by intro i' h; omega⟩ ?_
    rintro i st hi ⟨hGst, hbase, hdone⟩
    unfold handleIn
    rw [hidxI _ hGst]
    simp only [bind_okM]
    have hai : (g.ins v)[i]? = some (g.ins v)[i] := by simp [hi]
    generalize (g.ins v)[i] = a at hai
    have ha : a ∈ g.ins v := List.mem_of_getElem? hai
    have halt : a.adj < n := hwf.adj_lt_in ha
    have hav : a.adj ≠ v := hwf.noLoop_in ha
    have haP : a.adj ≠ P.umax := by omega
    rw [idx_some hai]
    simp only [bind_okM]
    obtain ⟨ws', e, hinv, _⟩ := WitnessSearch.init_ok hbase halt haP hav st.graph
    rw [e]
    simp only [bind_okM]
    rw [hidxO _ hGst]
    simp only [bind_okM]
    refine Tri.mono (Tri_forM_range (fun j (st : HSState pq β) => G st.graph ∧
      WitnessSearch.Inv n st.graph a.adj v st.ws ∧
      (∀ i' < i, ∀ a, (g.ins v)[i']? = some a → ∀ b ∈ g.outs v, a.adj ≠ b.adj →
        D st.graph a.adj b.adj (a.weight + b.weight)) ∧
      ∀ j' < j, ∀ b, (g.outs v)[j']? = some b → a.adj ≠ b.adj → D st.graph a.adj b.adj (a.weight + b.weight))
      ⟨hGst, hinv, hdone, by intro j' h; omega⟩ ?_) ?_
    · rintro j st hj ⟨hGst, hinv, hdone, hdonej⟩
      unfold handlePair
      rw [hidxI _ hGst]
      simp only [bind_okM]
      rw [idx_some hai]
      simp only [bind_okM]
      rw [hidxO _ hGst]
      simp only [bind_okM]
      have hbj : (g.outs v)[j]? = some (g.outs v)[j] := by simp [hj]
      generalize (g.outs v)[j] = b at hbj
      have hb : b ∈ g.outs v := List.mem_of_getElem? hbj
      rw [idx_some hbj]
      simp only [bind_okM]
      refine Tri.bind (Tri_addW hP _ _) ?_
      rintro w ⟨rfl, hw⟩
      have hwfs := (hG _ hGst).1
      refine Tri.bind (WitnessSearch.findMaxWeight_ok hP hwfs.lax hinv haP (hwf.adj_lt hb) (hwf.noLoop _ _ hb)) ?_
      rintro ⟨ws2, mw⟩ ⟨hinv2, hsame, hwitness⟩
      simp only at hinv2 hsame hwitness ⊢
      have hstep : ∀ g2, Grow v st.graph g2 → D g2 a.adj b.adj (a.weight + b.weight) →
          ∀ j' < j + 1, ∀ b, (g.outs v)[j']? = some b → a.adj ≠ b.adj → D g2 a.adj b.adj (a.weight + b.weight) := by
        intro g2 hg2 hd j' hj' b' hb' hne
        by_cases hjj : j' = j
        · subst hjj
          rw [hbj] at hb'
          cases hb'
          exact hd
        · exact hmono _ _ _ _ _ hg2 (hdonej j' (by omega) b' hb' hne)
      by_cases hmw : mw ≤ a.weight + b.weight
      · rw [if_pos hmw]
        refine ⟨hGst, hinv2, hdone, hstep _ (Grow.refl _) ?_⟩
        refine hwit _ _ _ _ hGst ?_
        intro hlt
        obtain ⟨w', h1, h2⟩ := hwitness hmw hlt
        exact ⟨w', by omega, h2⟩
      · rw [if_neg hmw]
        have hne : a.adj ≠ b.adj := by
          intro e
          have := hsame e.symm
          omega
        refine Tri.bind (hhandle st.graph st.acc a b hGst ha hb hne hw) ?_
        rintro ⟨g2, acc2⟩ ⟨hG2, hgrow, hD⟩
        simp only [Tri_ok] at hG2 hgrow hD ⊢
        refine ⟨hG2, hinv2.mono hgrow, ?_, hstep _ hgrow hD⟩
        intro i' hi' a' ha' b' hb' hne'
        exact hmono _ _ _ _ _ hgrow (hdone i' hi' a' ha' b' hb' hne')
    · rintro st ⟨h1, h2, h3, h4⟩
      refine ⟨h1, h2.toBase, ?_⟩
      intro i' hi' a' ha' b' hb' hne'
      by_cases hii : i' = i
      · subst hii
        rw [hai] at ha'
        cases ha'
        obtain ⟨j', hj', e⟩ := List.getElem_of_mem hb'
        exact h4 j' hj' b' (by simp [hj', e]) hne'
      · exact h3 i' (by omega) a' ha' b' hb' hne'
  · rintro st ⟨h1, h2, h3⟩
    refine ⟨h1, h2, ?_⟩
    intro a ha b hb hne
    obtain ⟨i, hi, e⟩ := List.getElem_of_mem ha
    exact h3 i hi a (by simp [hi, e]) b hb hne

/-- `calc_relevance` leaves the graph as it is. -/
theorem calcRelevance_ok (hP : P.checked = true) (hn : n ≤ P.umax) {g : PreparationGraph} (hg : WF n g) {v : Nat}
    (hv : v < n) {ws : WitnessSearch pq} (hws : ws.Base n) {relevance : Nat → Int → Nat → Nat} {level ms : Nat} :
    Tri (calcRelevance P relevance g ws v level ms) (fun r => r.1 = g ∧ r.2.1.Base n) := by
  unfold calcRelevance
  refine Tri.bind (handleShortcuts_ok hP hn hv (fun gc => gc = g) (fun _ _ _ _ => True) rfl ?_ ?_ ?_ ?_ hws) ?_
  · rintro gc rfl; exact ⟨hg, rfl, rfl⟩
  · rintro gc acc a b rfl _ _ _ _
    unfold countShortcut
    rw [hP]
    split
    · exact ⟨rfl, Grow.refl _, trivial⟩
    · rw [if_pos rfl]
      exact trivial
  · intros; trivial
  · intros; trivial
  · rintro st ⟨h1, h2, _⟩
    rw [h1, idx_outEdges (by rw [hg.lenOut]; exact hv), idx_inEdges (by rw [hg.lenIn]; exact hv)]
    exact ⟨rfl, h2⟩

/-- What contracting `v` does to the graph. -/
structure Contracts (P : Plat) (n : Nat) (g : PreparationGraph) (v : Nat) (g' : PreparationGraph) : Prop where
  wf : WF n g'
  outs_nil : g'.outs v = []
  ins_nil : g'.ins v = []
  keep : ∀ u x w, g.relNo v u x w → ∃ w', w' ≤ w ∧ g'.rel u x w'
  bypass : ∀ a ∈ g.ins v, ∀ b ∈ g.outs v, a.adj ≠ b.adj → a.weight + b.weight < P.umax →
    ∃ w, w ≤ a.weight + b.weight ∧ Wk g'.rel a.adj b.adj w
  back : ∀ u, ∀ e ∈ g'.outs u, e ∈ g.outs u ∨ (e.center = v ∧ ∃ a ∈ g.ins v, ∃ b ∈ g.outs v,
    a.adj = u ∧ b.adj = e.adj ∧ e.weight = a.weight + b.weight)
  bnd : ∀ u, ∀ e ∈ g'.outs u, e ∈ g.outs u ∨ e.weight ≤ P.umax

/-- Invariant of the graph while the shortcuts of `v` are being added. -/
structure ExtG (P : Plat) (n : Nat) (g : PreparationGraph) (v : Nat) (gc : PreparationGraph) : Prop where
  wf : WF n gc
  outs_v : gc.outs v = g.outs v
  ins_v : gc.ins v = g.ins v
  grow : Grow v g gc
  back : ∀ u, ∀ e ∈ gc.outs u, e ∈ g.outs u ∨ (e.center = v ∧ ∃ a ∈ g.ins v, ∃ b ∈ g.outs v,
    a.adj = u ∧ b.adj = e.adj ∧ e.weight = a.weight + b.weight)
  bnd : ∀ u, ∀ e ∈ gc.outs u, e ∈ g.outs u ∨ e.weight ≤ P.umax

/-- Adding one shortcut keeps the invariant. -/
theorem ExtG.add {g gc : PreparationGraph} {v : Nat} (hg : WF n g) (h : ExtG P n g v gc) {a b : Arc} (ha : a ∈ g.ins v)
    (hb : b ∈ g.outs v) (hne : a.adj ≠ b.adj) (hw : a.weight + b.weight ≤ P.umax) (u₀ : Unit) :
    ∃ g', addShortcut gc u₀ ⟨a.adj, b.adj, v, a.weight + b.weight⟩ = .ok (g', ()) ∧ ExtG P n g v g' ∧ Grow v gc g' ∧
      ∃ w', w' ≤ a.weight + b.weight ∧ Wk (g'.relNo v) a.adj b.adj w' := by
  unfold addShortcut
  have hau : a.adj < n := hg.adj_lt_in ha
  have hbu : b.adj < n := hg.adj_lt hb
  have hav : a.adj ≠ v := hg.noLoop_in ha
  have hbv : b.adj ≠ v := hg.noLoop _ _ hb
  obtain ⟨g', e, sp⟩ := addOrReduceEdge_ok (w := a.weight + b.weight) (c := v) h.wf hau hbu hne
  simp only
  rw [e]
  simp only [bind_okM]
  have hgrow : Grow v gc g' := by
    rintro x y w ⟨⟨c, hc⟩, hx, hy⟩
    by_cases hxa : x = a.adj
    · subst hxa
      rcases sp.keep _ hc with hk | ⟨h1, h2⟩
      · exact ⟨w, Nat.le_refl _, ⟨c, hk⟩, hx, hy⟩
      · simp only at h1 h2
        subst h1
        obtain ⟨e', he', had, hwe⟩ := sp.have_
        refine ⟨e'.weight, by omega, ⟨e'.center, ?_⟩, hx, hy⟩
        rw [← had]; exact he'
    · exact ⟨w, Nat.le_refl _, ⟨c, by rw [sp.outs_ne x hxa]; exact hc⟩, hx, hy⟩
  refine ⟨g', rfl, ⟨sp.wf, by rw [sp.outs_ne v hav.symm]; exact h.outs_v, by rw [sp.ins_ne v hbv.symm]; exact h.ins_v,
    h.grow.trans hgrow, ?_, ?_⟩, hgrow, ?_⟩
  · intro u e he
    by_cases hu : u = a.adj
    · subst hu
      rcases sp.back e he with h1 | h1
      · exact h.back _ e h1
      · subst h1
        exact Or.inr ⟨rfl, a, ha, b, hb, rfl, rfl, rfl⟩
    · rw [sp.outs_ne u hu] at he
      exact h.back u e he
  · intro u e he
    by_cases hu : u = a.adj
    · subst hu
      rcases sp.back e he with h1 | h1
      · exact h.bnd _ e h1
      · subst h1
        exact Or.inr hw
    · rw [sp.outs_ne u hu] at he
      exact h.bnd u e he
  · obtain ⟨e', he', had, hwe⟩ := sp.have_
    refine ⟨e'.weight, hwe, Wk.single ⟨⟨e'.center, ?_⟩, hav, hbv⟩⟩
    rw [← had]; exact he'

theorem ExtG.refl {g : PreparationGraph} {v : Nat} (hg : WF n g) : ExtG P n g v g :=
  ⟨hg, rfl, rfl, Grow.refl _, fun _ _ he => Or.inl he, fun _ _ he => Or.inl he⟩

theorem contractNode_ok (hP : P.checked = true) (hn : n ≤ P.umax) {g : PreparationGraph} (hg : WF n g) {v : Nat}
    (hv : v < n) {ws : WitnessSearch pq} (hws : ws.Base n) {ms : Nat} :
    Tri (contractNode P g ws v ms) (fun r => Contracts P n g v r.1 ∧ r.2.Base n) := by
  unfold contractNode
  refine Tri.bind (handleShortcuts_ok hP hn hv (ExtG P n g v)
    (fun gc a b w => w < P.umax → ∃ w', w' ≤ w ∧ Wk (gc.relNo v) a b w') (ExtG.refl hg) ?_ ?_ ?_ ?_ hws) ?_
  · intro gc h; exact ⟨h.wf, h.outs_v, h.ins_v⟩
  · intro gc acc a b h ha hb hne hw
    obtain ⟨g', e, h1, h2, h3⟩ := h.add hg ha hb hne hw acc
    rw [e]
    exact ⟨h1, h2, fun _ => h3⟩
  · intro gc a b w _ h; exact h
  · intro gc gc' a b w hgrow h hw
    obtain ⟨w', h1, h2⟩ := h hw
    obtain ⟨w'', h3, h4⟩ := hgrow.walk h2
    exact ⟨w'', by omega, h4⟩
  · rintro st ⟨hext, hbase, hdone⟩
    obtain ⟨g', e, wf', ho, hi⟩ := disconnect_ok hext.wf hv
    rw [e]
    simp only [bind_okM, Tri_ok]
    have hrel : ∀ u x w, st.graph.relNo v u x w → g'.rel u x w := by
      rintro u x w ⟨⟨c, hc⟩, hu, hx⟩
      refine ⟨c, ?_⟩
      rw [ho, if_neg hu]
      exact List.mem_filter.2 ⟨hc, by simpa using hx⟩
    refine ⟨⟨wf', by rw [ho]; simp, by rw [hi]; simp, ?_, ?_, ?_, ?_⟩, hbase⟩
    · intro u x w h
      obtain ⟨w', h1, h2⟩ := hext.grow u x w h
      exact ⟨w', h1, hrel _ _ _ h2⟩
    · intro a ha b hb hne hw
      obtain ⟨w', h1, h2⟩ := hdone a ha b hb hne hw
      exact ⟨w', h1, h2.mono hrel⟩
    · intro u e he
      rw [ho] at he
      split at he
      · simp at he
      · exact hext.back u e (List.mem_filter.1 he).1
    · intro u e he
      rw [ho] at he
      split at he
      · simp at he
      · exact hext.bnd u e (List.mem_filter.1 he).1

end FP
