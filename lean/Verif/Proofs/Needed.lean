import Verif.Proofs.WitnessLimit
import Verif.Proofs.Contractor
/-! # With a large enough budget only necessary shortcuts are added -/
namespace FP
open Spec PreparationGraph

variable {pq : PQ} {P : Plat} {n : Nat} {α β : Type}

/-- `handle_shortcuts` calls its handler only if there is no walk around `v` in the graph at the start. -/
theorem handleShortcuts_need (hP : P.checked = true) (hn : n ≤ P.umax) {g : PreparationGraph} {v : Nat} (hv : v < n)
    {handle : PreparationGraph → β → Shortcut → M (PreparationGraph × β)} {ws : WitnessSearch pq} {acc : β} {ms : Nat}
    (hms : n < ms) (G : PreparationGraph → Prop) (hG0 : G g)
    (hG : ∀ gc, G gc → WF n gc ∧ gc.outs v = g.outs v ∧ gc.ins v = g.ins v ∧ Grow v g gc)
    (hhandle : ∀ gc acc a b, G gc → a ∈ g.ins v → b ∈ g.outs v → a.adj ≠ b.adj → a.weight + b.weight < P.umax →
      (∀ w, Wk (g.relNo v) a.adj b.adj w → a.weight + b.weight < w) →
      Tri (handle gc acc ⟨a.adj, b.adj, v, a.weight + b.weight⟩) (fun r => G r.1 ∧ Grow v gc r.1))
    (hws : ws.Base n) :
    Tri (handleShortcuts P g ws v handle acc ms) (fun st => G st.graph ∧ st.ws.Base n) := by
  have hidxI : ∀ gc, G gc → idx gc.inEdges v = .ok (g.ins v) := by
    intro gc h
    obtain ⟨wf, _, hi, _⟩ := hG gc h
    rw [idx_inEdges (by rw [wf.lenIn]; exact hv), hi]
  have hidxO : ∀ gc, G gc → idx gc.outEdges v = .ok (g.outs v) := by
    intro gc h
    obtain ⟨wf, ho, _⟩ := hG gc h
    rw [idx_outEdges (by rw [wf.lenOut]; exact hv), ho]
  have hwf := (hG g hG0).1
  unfold handleShortcuts
  rw [hidxI g hG0]
  simp only [bind_okM]
  refine Tri_forM_range (fun _ (st : HSState pq β) => G st.graph ∧ st.ws.Base n) ⟨hG0, hws⟩ ?_
  rintro i st hi ⟨hGst, hbase⟩
  unfold handleIn
  rw [hidxI _ hGst]
  simp only [bind_okM]
  have hai : (g.ins v)[i]? = some (g.ins v)[i] := by simp [hi]
  generalize (g.ins v)[i] = a at hai
  have ha : a ∈ g.ins v := List.mem_of_getElem? hai
  have halt : a.adj < n := hwf.adj_lt_in ha
  have hav : a.adj ≠ v := hwf.noLoop_in ha
  have haP : a.adj ≠ P.umax := by omega
  rw [idx_some hai]
  simp only [bind_okM]
  obtain ⟨ws', e, hinv, _⟩ := WitnessSearch.init_ok hbase halt haP hav st.graph
  have hci := WitnessSearch.init_CInv (g0 := g) (E := fun _ _ _ => True) hbase halt e haP hav
  have hsi := (WitnessSearch.init_count hbase e).1
  rw [e]
  simp only [bind_okM]
  rw [hidxO _ hGst]
  simp only [bind_okM]
  refine Tri.mono (Tri_forM_range (fun _ (st : HSState pq β) => G st.graph ∧
    WitnessSearch.Inv n st.graph a.adj v st.ws ∧ WitnessSearch.CInv P (fun _ _ _ => True) g a.adj v st.ws ∧
    WitnessSearch.SInv n st.ws) ⟨hGst, hinv, hci, hsi⟩ ?_) ?_
  · rintro j st hj ⟨hGst, hinv, hci, hsi⟩
    unfold handlePair
    rw [hidxI _ hGst]
    simp only [bind_okM]
    rw [idx_some hai]
    simp only [bind_okM]
    rw [hidxO _ hGst]
    simp only [bind_okM]
    have hbj : (g.outs v)[j]? = some (g.outs v)[j] := by simp [hj]
    generalize (g.outs v)[j] = b at hbj
    have hb : b ∈ g.outs v := List.mem_of_getElem? hbj
    rw [idx_some hbj]
    simp only [bind_okM]
    refine Tri.bind (Tri_addW hP _ _) ?_
    rintro w ⟨rfl, hw⟩
    obtain ⟨hwfs, _, _, hgr⟩ := hG _ hGst
    refine Tri.bind (((WitnessSearch.findMaxWeight_ok hP hwfs.lax hinv haP (hwf.adj_lt hb) (hwf.noLoop _ _ hb)).and
      (WitnessSearch.findMaxWeight_complete hP hwfs hgr (fun _ _ _ _ => trivial) hinv hci haP (hwf.adj_lt hb)
        (hwf.noLoop _ _ hb))).with_ok (fun r er => (WitnessSearch.findMaxWeight_count hP hsi er).1)) ?_
    rintro ⟨ws2, mw⟩ ⟨⟨⟨hinv2, hsame, _⟩, _, hci2, ⟨hmx, _⟩, hno⟩, hsi2⟩
    simp only at hinv2 hsame hci2 hno hsi2 hmx ⊢
    by_cases hmw : mw ≤ a.weight + b.weight
    · rw [if_pos hmw]
      exact ⟨hGst, hinv2, hci2, hsi2⟩
    · rw [if_neg hmw]
      have hne : a.adj ≠ b.adj := by
        intro e
        have := hsame e.symm
        omega
      have hcnt : ws2.settledNodes < ms := by
        rw [← hsi2.cnt]
        have : WitnessSearch.cntB n ws2 ≤ (List.range n).length := List.countP_le_length
        rw [List.length_range] at this
        omega
      refine Tri.bind (hhandle st.graph st.acc a b hGst ha hb hne (by omega) (hno hcnt (by omega))) ?_
      rintro ⟨g2, acc2⟩ ⟨hG2, hgrow⟩
      exact ⟨hG2, hinv2.mono hgrow, hci2, hsi2⟩
  · rintro st ⟨h1, h2, _⟩
    exact ⟨h1, h2.toBase⟩

/-- Where the edges of the graph come from, and that the new ones are necessary. -/
structure NeedG (P : Plat) (n : Nat) (g : PreparationGraph) (v : Nat) (gc : PreparationGraph) : Prop extends ExtG P n g v gc where
  need : ∀ u, ∀ e ∈ gc.outs u, e ∈ g.outs u ∨ (e.center = v ∧ ∃ a ∈ g.ins v, ∃ b ∈ g.outs v,
    a.adj = u ∧ b.adj = e.adj ∧ e.weight = a.weight + b.weight ∧ (∀ w, Wk (g.relNo v) u e.adj w → e.weight < w) ∧
    e.weight < P.umax)

theorem contractNode_need (hP : P.checked = true) (hn : n ≤ P.umax) {g : PreparationGraph} (hg : WF n g) {v : Nat}
    (hv : v < n) {ws : WitnessSearch pq} (hws : ws.Base n) {ms : Nat} (hms : n < ms) :
    Tri (contractNode P g ws v ms) (fun r => ∀ u, ∀ e ∈ r.1.outs u, e ∈ g.outs u ∨ (e.center = v ∧ ∃ a ∈ g.ins v,
      ∃ b ∈ g.outs v, a.adj = u ∧ b.adj = e.adj ∧ e.weight = a.weight + b.weight ∧
      (∀ w, Wk (g.relNo v) u e.adj w → e.weight < w) ∧ e.weight < P.umax)) := by
  unfold contractNode
  refine Tri.bind (handleShortcuts_need hP hn hv hms (NeedG P n g v)
    ⟨ExtG.refl hg, fun _ _ he => Or.inl he⟩ (fun gc h => ⟨h.wf, h.outs_v, h.ins_v, h.grow⟩) ?_ hws) ?_
  · intro gc acc a b h ha hb hne hw hno
    obtain ⟨g', e, h1, h2, _⟩ := h.toExtG.add hg ha hb hne (Nat.le_of_lt hw) acc
    rw [e]
    refine ⟨⟨h1, ?_⟩, h2⟩
    obtain ⟨g2, e2, sp⟩ := addOrReduceEdge_ok (w := a.weight + b.weight) (c := v) h.wf (hg.adj_lt_in ha) (hg.adj_lt hb) hne
    have hgg : g2 = g' := by
      unfold addShortcut at e
      rw [e2] at e
      injection e with e
      exact congrArg Prod.fst e
    subst hgg
    intro u x hx
    by_cases hu : u = a.adj
    · subst hu
      rcases sp.back x hx with k | k
      · exact h.need _ x k
      · subst k
        exact Or.inr ⟨rfl, a, ha, b, hb, rfl, rfl, rfl, hno, hw⟩
    · rw [sp.outs_ne u hu] at hx
      exact h.need u x hx
  · rintro st ⟨h, _⟩
    obtain ⟨g', e, _, ho, _⟩ := disconnect_ok h.wf hv
    rw [e]
    simp only [bind_okM, Tri_ok]
    intro u x hx
    rw [ho] at hx
    split at hx
    · simp at hx
    · exact h.need u x (List.mem_filter.1 hx).1

end FP
