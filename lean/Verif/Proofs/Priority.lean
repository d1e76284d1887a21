import Verif.SpecPriority
import Verif.Proofs.Hub
import Verif.Proofs.WitnessCalls
import Verif.Proofs.Needed
/-! # What `calc_relevance` counts -/
namespace FP
open PreparationGraph Spec

variable {P : Plat} {n : Nat} {pq : PQ} {nq : NodeQueue}

/-- Number of pairs with a property. -/
def cntPairs (p : Arc → Arc → Bool) (l : List Arc) (m : List Arc) : Nat := (l.map (fun a => m.countP (p a))).sum

theorem cntPairs_append {p : Arc → Arc → Bool} {l l' m : List Arc} :
    cntPairs p (l ++ l') m = cntPairs p l m + cntPairs p l' m := by
  simp [cntPairs]

/-- A shortcut from `a.adj` to `b.adj` is necessary. -/
def Need (P : Plat) (g : PreparationGraph) (v : Nat) (a b : Arc) : Prop :=
  a.adj ≠ b.adj ∧ a.weight + b.weight < P.umax ∧ ∀ w, Wk (g.relNo v) a.adj b.adj w → a.weight + b.weight < w

theorem handleShortcuts_pairs (hP : P.checked = true) (hn : n ≤ P.umax) {g : PreparationGraph} (hwf : WF n g) {v : Nat}
    (hv : v < n) {ws : WitnessSearch pq} {ms : Nat} (hws : ws.Base n) {lo hi : Arc → Arc → Bool}
    (hlo : ∀ a ∈ g.ins v, ∀ b ∈ g.outs v, lo a b = true → Need P g v a b)
    (hhi : ∀ a ∈ g.ins v, ∀ b ∈ g.outs v, a.adj ≠ b.adj → a.weight + b.weight < P.umax → (n < ms → Need P g v a b) →
      hi a b = true) :
    Tri (handleShortcuts P g ws v (countShortcut P) 0 ms) (fun st => st.graph = g ∧ st.ws.Base n ∧
      (cntPairs lo (g.ins v) (g.outs v) : Int) ≤ st.acc ∧ st.acc ≤ (cntPairs hi (g.ins v) (g.outs v) : Int)) := by
  have hidxI : idx g.inEdges v = .ok (g.ins v) := by rw [idx_inEdges (by rw [hwf.lenIn]; exact hv)]
  have hidxO : idx g.outEdges v = .ok (g.outs v) := by rw [idx_outEdges (by rw [hwf.lenOut]; exact hv)]
  unfold handleShortcuts
  rw [hidxI]
  simp only [bind_okM]
  refine Tri.mono (Tri_forM_range (fun i (st : HSState pq Int) => st.graph = g ∧ st.ws.Base n ∧
    (cntPairs lo ((g.ins v).take i) (g.outs v) : Int) ≤ st.acc ∧
    st.acc ≤ (cntPairs hi ((g.ins v).take i) (g.outs v) : Int)) ⟨rfl, hws, by simp [cntPairs], by simp [cntPairs]⟩ ?_)
    (fun st h => by rwa [List.take_length] at h)
  rintro i ⟨gc, ws, acc⟩ hil ⟨hg, hbase, hacc, hle⟩
  simp only at hg hbase hacc hle
  subst hg
  unfold handleIn
  simp only
  rw [hidxI]
  simp only [bind_okM]
  have hai : (gc.ins v)[i]? = some (gc.ins v)[i] := by simp [hil]
  have htake : (gc.ins v).take (i + 1) = (gc.ins v).take i ++ [(gc.ins v)[i]] := by
    rw [List.take_add_one, hai]; rfl
  rw [htake]
  generalize (gc.ins v)[i] = a at hai
  have ha : a ∈ gc.ins v := List.mem_of_getElem? hai
  have halt : a.adj < n := hwf.adj_lt_in ha
  have haP : a.adj ≠ P.umax := by omega
  rw [idx_some hai]
  simp only [bind_okM]
  obtain ⟨ws', e, hinv, _⟩ := WitnessSearch.init_ok hbase halt haP (hwf.noLoop_in ha) gc
  have hci := WitnessSearch.init_CInv (g0 := gc) (E := fun _ _ _ => True) hbase halt e haP (hwf.noLoop_in ha)
  have hsi := (WitnessSearch.init_count hbase e).1
  rw [e]
  simp only [bind_okM]
  rw [hidxO]
  simp only [bind_okM]
  refine Tri.mono (Tri_forM_range (fun j (st : HSState pq Int) => st.graph = gc ∧
    WitnessSearch.Inv n gc a.adj v st.ws ∧ WitnessSearch.CInv P (fun _ _ _ => True) gc a.adj v st.ws ∧
    WitnessSearch.SInv n st.ws ∧
    (cntPairs lo ((gc.ins v).take i) (gc.outs v) + ((gc.outs v).take j).countP (lo a) : Nat) ≤ st.acc ∧
    st.acc ≤ (cntPairs hi ((gc.ins v).take i) (gc.outs v) + ((gc.outs v).take j).countP (hi a) : Nat))
    ⟨rfl, hinv, hci, hsi, by simpa using hacc, by simpa using hle⟩ ?_) ?_
  · rintro j ⟨g', ws2, acc⟩ hj ⟨hg, hinv, hci, hsi, hacc, hle⟩
    simp only at hg hinv hci hsi hacc hle
    subst hg
    unfold handlePair
    simp only
    rw [hidxI]
    simp only [bind_okM]
    rw [idx_some hai]
    simp only [bind_okM]
    rw [hidxO]
    simp only [bind_okM]
    have hbj : (g'.outs v)[j]? = some (g'.outs v)[j] := by simp [hj]
    have htake : (g'.outs v).take (j + 1) = (g'.outs v).take j ++ [(g'.outs v)[j]] := by
      rw [List.take_add_one, hbj]; rfl
    rw [htake]
    generalize (g'.outs v)[j] = b at hbj
    have hb : b ∈ g'.outs v := List.mem_of_getElem? hbj
    rw [idx_some hbj]
    simp only [bind_okM]
    refine Tri.bind (Tri_addW hP _ _) ?_
    rintro w ⟨rfl, hw⟩
    refine Tri.bind (((WitnessSearch.findMaxWeight_ok hP hwf.lax hinv haP (hwf.adj_lt hb) (hwf.noLoop _ _ hb)).and
      (WitnessSearch.findMaxWeight_complete hP hwf (ExtG.refl (P := P) hwf).grow (fun _ _ _ _ => trivial) hinv hci haP (hwf.adj_lt hb)
        (hwf.noLoop _ _ hb))).with_ok (fun r er => (WitnessSearch.findMaxWeight_count hP hsi er).1)) ?_
    rintro ⟨ws3, mw⟩ ⟨⟨⟨hinv2, hsame, hwit⟩, _, hci2, ⟨hmx, _⟩, hno⟩, hsi2⟩
    simp only at hinv2 hsame hwit hci2 hno hsi2 hmx ⊢
    simp only [List.countP_append, List.countP_singleton]
    by_cases hmw : mw ≤ a.weight + b.weight
    · rw [if_pos hmw]
      refine ⟨rfl, hinv2, hci2, hsi2, ?_, ?_⟩
      · rw [if_neg]
        · simpa using hacc
        · intro hl
          obtain ⟨_, h2, h3⟩ := hlo a ha b hb hl
          obtain ⟨w, h4, h5⟩ := hwit hmw h2
          have := h3 w h5
          omega
      · refine Int.le_trans hle ?_
        push_cast
        split <;> omega
    · rw [if_neg hmw]
      have hne : a.adj ≠ b.adj := by
        intro e
        have := hsame e.symm
        omega
      have hcnt : n < ms → ws3.settledNodes < ms := by
        intro hms
        rw [← hsi2.cnt]
        have : WitnessSearch.cntB n ws3 ≤ (List.range n).length := List.countP_le_length
        rw [List.length_range] at this
        omega
      rw [if_pos (c := hi a b = true) (hhi a ha b hb hne (by omega) (fun hms => ⟨hne, by omega, hno (hcnt hms) (by omega)⟩))]
      unfold countShortcut
      rw [hP]
      by_cases hlt : acc < (I32_MAX : Int)
      · rw [if_pos hlt]
        refine ⟨rfl, hinv2, hci2, hsi2, ?_, ?_⟩
        · simp only
          push_cast at hacc ⊢
          split <;> omega
        · simp only
          push_cast at hle ⊢
          omega
      · rw [if_neg hlt]
        exact trivial
  · rintro st ⟨h1, h2, _, _, h3, h4⟩
    rw [List.take_length] at h3 h4
    refine ⟨h1, h2.toBase, ?_, ?_⟩
    · rw [cntPairs_append]
      simpa [cntPairs] using h3
    · rw [cntPairs_append]
      simpa [cntPairs] using h4

/-- Counting pairs of arcs is counting pairs of nodes. -/
theorem cntPairs_ncard {p : Arc → Arc → Bool} {l m : List Arc} (hl : (l.map Arc.adj).Nodup) (hm : (m.map Arc.adj).Nodup) :
    cntPairs p l m = {ab : Nat × Nat | ∃ a ∈ l, ∃ b ∈ m, a.adj = ab.1 ∧ b.adj = ab.2 ∧ p a b = true}.ncard := by
  classical
  have h1 : cntPairs p l m = ((l.flatMap (fun a => m.map (fun b => (a, b)))).filter (fun x => p x.1 x.2)).length := by
    rw [← List.countP_eq_length_filter]
    induction l with
    | nil => simp [cntPairs]
    | cons a l ih =>
      have := ih (List.nodup_cons.1 hl).2
      rw [List.flatMap_cons, List.countP_append, ← this]
      simp [cntPairs, List.countP_map, Function.comp_def]
  generalize hL : (l.flatMap (fun a => m.map (fun b => (a, b)))).filter (fun x => p x.1 x.2) = L at h1
  have hmem : ∀ x, x ∈ L ↔ x.1 ∈ l ∧ x.2 ∈ m ∧ p x.1 x.2 = true := by
    rintro ⟨a, b⟩
    rw [← hL]
    simp only [List.mem_filter, List.mem_flatMap, List.mem_map, Prod.mk.injEq]
    constructor
    · rintro ⟨⟨a', ha', b', hb', rfl, rfl⟩, h⟩
      exact ⟨ha', hb', h⟩
    · rintro ⟨h1, h2, h3⟩
      exact ⟨⟨a, h1, b, h2, rfl, rfl⟩, h3⟩
  have hnd : L.Nodup := by
    rw [← hL]
    refine List.Nodup.filter _ ?_
    rw [List.nodup_flatMap]
    refine ⟨fun a _ => (List.Nodup.of_map _ hm).map (fun b b' h => (Prod.mk.inj h).2), ?_⟩
    refine (List.Nodup.of_map _ hl).imp ?_
    intro a a' hne x hx hx'
    obtain ⟨b, _, rfl⟩ := List.mem_map.1 hx
    obtain ⟨b', _, h⟩ := List.mem_map.1 hx'
    exact hne (Prod.mk.inj h).1.symm
  have hnd2 : (L.map (fun x => (x.1.adj, x.2.adj))).Nodup := by
    refine hnd.map_on ?_
    rintro ⟨a, b⟩ h ⟨a', b'⟩ h' e
    obtain ⟨k1, k2, _⟩ := (hmem _).1 h
    obtain ⟨k1', k2', _⟩ := (hmem _).1 h'
    simp only [Prod.mk.injEq] at e
    exact Prod.ext (List.inj_on_of_nodup_map hl k1 k1' e.1) (List.inj_on_of_nodup_map hm k2 k2' e.2)
  have hset : {ab : Nat × Nat | ∃ a ∈ l, ∃ b ∈ m, a.adj = ab.1 ∧ b.adj = ab.2 ∧ p a b = true} =
      ((L.map (fun x => (x.1.adj, x.2.adj))).toFinset : Set (Nat × Nat)) := by
    ext ⟨u, x⟩
    simp only [Set.mem_ofPred_eq, List.coe_toFinset, List.mem_map, Prod.mk.injEq]
    constructor
    · rintro ⟨a, ha, b, hb, h1, h2, h3⟩
      exact ⟨(a, b), (hmem _).2 ⟨ha, hb, h3⟩, h1, h2⟩
    · rintro ⟨⟨a, b⟩, h, h1, h2⟩
      obtain ⟨k1, k2, k3⟩ := (hmem _).1 h
      exact ⟨a, k1, b, k2, h1, h2, k3⟩
  rw [hset, Set.ncard_coe_finset, List.toFinset_card_of_nodup hnd2, List.length_map, h1]

theorem length_ncard {l : List Arc} (hl : (l.map Arc.adj).Nodup) {S : Set Nat} (hS : ∀ u, u ∈ S ↔ ∃ a ∈ l, a.adj = u) :
    l.length = S.ncard := by
  classical
  have : S = ((l.map Arc.adj).toFinset : Set Nat) := by
    ext u
    rw [hS]
    simp
  rw [this, Set.ncard_coe_finset, List.toFinset_card_of_nodup hl, List.length_map]

theorem prepEdges_out {g : PreparationGraph} {u v w : Nat} : prepEdges g u v w ↔ ∃ c, (⟨v, w, c⟩ : Arc) ∈ g.outs u := by
  unfold prepEdges
  constructor
  · rintro ⟨l, c, h1, h2⟩
    exact ⟨c, mem_outs_iff.2 ⟨l, h1, h2⟩⟩
  · rintro ⟨c, h⟩
    obtain ⟨l, h1, h2⟩ := mem_outs_iff.1 h
    exact ⟨l, c, h1, h2⟩

theorem prepEdges_in {g : PreparationGraph} (hwf : WF n g) {u v w : Nat} :
    prepEdges g u v w ↔ ∃ c, (⟨u, w, c⟩ : Arc) ∈ g.ins v := by
  rw [prepEdges_out]
  exact exists_congr (fun c => hwf.mirror _ _ _ _)

theorem length_degree {g : PreparationGraph} (hwf : WF n g) (v : Nat) :
    (g.outs v).length + (g.ins v).length = degree (prepEdges g) v := by
  unfold degree
  congr 1
  · refine length_ncard (hwf.nodupOut v) (fun u => ?_)
    simp only [Set.mem_ofPred_eq, prepEdges_out]
    constructor
    · rintro ⟨w, c, h⟩; exact ⟨_, h, rfl⟩
    · rintro ⟨⟨u, w, c⟩, h, rfl⟩; exact ⟨w, c, h⟩
  · refine length_ncard (hwf.nodupIn v) (fun u => ?_)
    simp only [Set.mem_ofPred_eq, prepEdges_in hwf]
    constructor
    · rintro ⟨w, c, h⟩; exact ⟨_, h, rfl⟩
    · rintro ⟨⟨u, w, c⟩, h, rfl⟩; exact ⟨w, c, h⟩

theorem needed_eq {g : PreparationGraph} (hwf : WF n g) (v : Nat) :
    neededPairs P.umax (prepEdges g) v = {ab : Nat × Nat | ∃ a ∈ g.ins v, ∃ b ∈ g.outs v, a.adj = ab.1 ∧ b.adj = ab.2 ∧
      Need P g v a b} := by
  ext ⟨u, x⟩
  simp only [neededPairs, Set.mem_ofPred_eq, Need, avoiding_eq, hasWalk_iff]
  constructor
  · rintro ⟨hne, p, q, h1, h2, h3, h4⟩
    obtain ⟨c, h1⟩ := (prepEdges_in hwf).1 h1
    obtain ⟨d, h2⟩ := prepEdges_out.1 h2
    exact ⟨_, h1, _, h2, rfl, rfl, hne, h3, h4⟩
  · rintro ⟨⟨_, p, c⟩, h1, ⟨_, q, d⟩, h2, rfl, rfl, hne, h3, h4⟩
    exact ⟨hne, p, q, (prepEdges_in hwf).2 ⟨c, h1⟩, prepEdges_out.2 ⟨d, h2⟩, h3, h4⟩

theorem through_eq {g : PreparationGraph} (hwf : WF n g) (v : Nat) :
    throughPairs P.umax (prepEdges g) v = {ab : Nat × Nat | ∃ a ∈ g.ins v, ∃ b ∈ g.outs v, a.adj = ab.1 ∧ b.adj = ab.2 ∧
      (a.adj ≠ b.adj ∧ a.weight + b.weight < P.umax)} := by
  ext ⟨u, x⟩
  simp only [throughPairs, Set.mem_ofPred_eq]
  constructor
  · rintro ⟨hne, p, q, h1, h2, h3⟩
    obtain ⟨c, h1⟩ := (prepEdges_in hwf).1 h1
    obtain ⟨d, h2⟩ := prepEdges_out.1 h2
    exact ⟨_, h1, _, h2, rfl, rfl, hne, h3⟩
  · rintro ⟨⟨_, p, c⟩, h1, ⟨_, q, d⟩, h2, rfl, rfl, hne, h3⟩
    exact ⟨hne, p, q, (prepEdges_in hwf).2 ⟨c, h1⟩, prepEdges_out.2 ⟨d, h2⟩, h3⟩

/-- The value of `calc_relevance`. -/
theorem calcRelevance_value (hP : P.checked = true) (hn : n ≤ P.umax) {g : PreparationGraph} (hwf : WF n g) {v : Nat}
    (hv : v < n) {ws : WitnessSearch pq} {ms level : Nat} {rel : Nat → Int → Nat → Nat} (hws : ws.Base n) :
    Tri (calcRelevance P rel g ws v level ms) (fun r => r.1 = g ∧ r.2.1.Base n ∧ ∃ count : Nat,
      r.2.2 = rel level count (degree (prepEdges g) v) ∧ (neededPairs P.umax (prepEdges g) v).ncard ≤ count ∧
      count ≤ (throughPairs P.umax (prepEdges g) v).ncard ∧
      (n < ms → count = (neededPairs P.umax (prepEdges g) v).ncard)) := by
  classical
  unfold calcRelevance
  refine Tri.bind (handleShortcuts_pairs hP hn hwf hv hws (lo := fun a b => decide (Need P g v a b))
    (hi := fun a b => decide ((a.adj ≠ b.adj ∧ a.weight + b.weight < P.umax) ∧ (n < ms → Need P g v a b)))
    (fun a _ b _ h => of_decide_eq_true h) (fun a _ b _ h1 h2 h3 => decide_eq_true ⟨⟨h1, h2⟩, h3⟩)) ?_
  rintro st ⟨rfl, h2, h3, h4⟩
  rw [idx_outEdges (by rw [hwf.lenOut]; exact hv), idx_inEdges (by rw [hwf.lenIn]; exact hv)]
  simp only [bind_okM, Tri_ok]
  rw [length_degree hwf]
  rw [cntPairs_ncard (hwf.nodupIn v) (hwf.nodupOut v)] at h3 h4
  simp only [decide_eq_true_eq] at h3 h4
  rw [← needed_eq (P := P) hwf] at h3
  obtain ⟨c, hc⟩ := Int.eq_ofNat_of_zero_le (Int.le_trans (Int.natCast_nonneg _) h3)
  rw [hc] at h3 h4 ⊢
  refine ⟨trivial, h2, c, rfl, by exact_mod_cast h3, ?_, ?_⟩
  · refine Nat.le_trans (by exact_mod_cast h4) ?_
    rw [through_eq (P := P) hwf]
    refine Set.ncard_le_ncard ?_ ?_
    · rintro x ⟨a, ha, b, hb, e1, e2, h, _⟩
      exact ⟨a, ha, b, hb, e1, e2, h⟩
    · refine Set.Finite.subset (((st.graph.ins v).map Arc.adj).toFinset ×ˢ ((st.graph.outs v).map Arc.adj).toFinset).finite_toSet ?_
      rintro ⟨u, x⟩ ⟨a, ha, b, hb, rfl, rfl, _⟩
      simp only [Finset.coe_product, Set.mem_prod, List.coe_toFinset, Set.mem_ofPred_eq, List.mem_map]
      exact ⟨⟨a, ha, rfl⟩, ⟨b, hb, rfl⟩⟩
  · intro hms
    refine Nat.le_antisymm (Nat.le_trans (by exact_mod_cast h4) (Nat.le_of_eq ?_)) (by exact_mod_cast h3)
    rw [needed_eq (P := P) hwf]
    congr 1
    ext x
    simp only [Set.mem_ofPred_eq]
    constructor
    · rintro ⟨a, ha, b, hb, e1, e2, _, h⟩
      exact ⟨a, ha, b, hb, e1, e2, h hms⟩
    · rintro ⟨a, ha, b, hb, e1, e2, h⟩
      exact ⟨a, ha, b, hb, e1, e2, ⟨h.1, h.2.1⟩, fun _ => h⟩

/-- Graphs with the same lightest edges have the same walks up to heavier ones, hence need the same shortcuts. -/
theorem needed_congr {E F : EdgeRel} (h1 : ∀ u v w, F u v w → E u v w) (h2 : ∀ u v w, E u v w → ∃ w' ≤ w, F u v w') (umax v : Nat) :
    neededPairs umax F v = neededPairs umax E v ∧ degree F v = degree E v := by
  have hex : ∀ u v, (∃ w, F u v w) ↔ ∃ w, E u v w := fun u v =>
    ⟨fun ⟨w, h⟩ => ⟨w, h1 _ _ _ h⟩, fun ⟨w, h⟩ => let ⟨w', _, h'⟩ := h2 _ _ _ h; ⟨w', h'⟩⟩
  have hw1 : ∀ a b w, HasWalk (avoiding F v) a b w → HasWalk (avoiding E v) a b w := by
    intro a b w h
    rw [hasWalk_iff] at h ⊢
    exact h.mono (fun _ _ _ h => ⟨h1 _ _ _ h.1, h.2⟩)
  have hw2 : ∀ a b w, HasWalk (avoiding E v) a b w → ∃ w' ≤ w, HasWalk (avoiding F v) a b w' := by
    intro a b w h
    simp only [hasWalk_iff] at h ⊢
    induction h with
    | nil => exact ⟨0, Nat.le_refl _, .nil _⟩
    | cons h _ ih =>
      obtain ⟨w1, k1, k2⟩ := h2 _ _ _ h.1
      obtain ⟨w2, k3, k4⟩ := ih
      exact ⟨w1 + w2, by omega, .cons ⟨k2, h.2⟩ k4⟩
  refine ⟨?_, by simp only [degree, hex]⟩
  ext ⟨a, b⟩
  simp only [neededPairs, Set.mem_ofPred_eq]
  refine and_congr_right (fun _ => ?_)
  constructor
  · rintro ⟨x, y, k1, k2, k3, k4⟩
    refine ⟨x, y, h1 _ _ _ k1, h1 _ _ _ k2, k3, fun w hw => ?_⟩
    obtain ⟨w', hle, hw'⟩ := hw2 _ _ _ hw
    have := k4 w' hw'
    omega
  · rintro ⟨x, y, k1, k2, k3, k4⟩
    obtain ⟨x', l1, k1'⟩ := h2 _ _ _ k1
    obtain ⟨y', l2, k2'⟩ := h2 _ _ _ k2
    refine ⟨x', y', k1', k2', by omega, fun w hw => ?_⟩
    have := k4 w (hw1 _ _ _ hw)
    omega

theorem FromInput.prepEdges {es : List Edge} {g : PreparationGraph} (h : FromInput P n es g) : Spec.prepEdges g = edgesOf es := by
  funext u v w
  apply propext
  rw [prepEdges_out]
  constructor
  · rintro ⟨c, hc⟩
    exact ((h.mem _ _).1 hc).2
  · intro hm
    exact ⟨P.umax, (h.mem _ _).2 ⟨rfl, hm⟩⟩

/-- The first contracted node has least priority. -/
theorem first_contracted (hP : P.checked = true) {ig : InputGraph} (h : FrozenOk ig) {prio : nq.σ → Nat → Nat}
    (ho : Ordered nq prio) {params : Params} (hms : ig.numNodes < params.maxSettledInitialRelevance) {fg : FastGraph}
    (hp : buildWithParams P pq nq ig params = .ok fg) {v : Nat} (hv : v < ig.numNodes) (hr : fg.ranks[v]? = some 0) :
    ∀ u < ig.numNodes,
      params.relevance 0 (neededPairs P.umax (edgesOf ig.edges) v).ncard (degree (edgesOf ig.edges) v) ≤
      params.relevance 0 (neededPairs P.umax (edgesOf ig.edges) u).ncard (degree (edgesOf ig.edges) u) := by
  obtain ⟨nodes, pg0, fg0, st, _, hperm, _, hpg, hfg, hinit, hpops, hrank⟩ := prepare_pops hp
  obtain ⟨pg, e, hfi⟩ := fromInputGraph_ok (P := P) h
  rw [hpg] at e
  cases e
  have hn : ig.numNodes ≤ P.umax := by
    unfold FastGraph.new at hfg
    by_cases hc : ig.numNodes < P.umax
    · exact Nat.le_of_lt hc
    · rw [if_neg hc] at hfg; cases hfg
  have hI := forM_inv (f := initialPriority P params)
    (I := fun pre (s : QState pq nq) => pre.Nodup → (∀ u ∈ pre, u < ig.numNodes) → s.b.pg = pg0 ∧ s.b.ws.Base ig.numNodes ∧
      (nq.keys s.queue).Perm pre ∧ ∀ u ∈ pre, prio s.queue u = params.relevance 0
        (neededPairs P.umax (Spec.prepEdges pg0) u).ncard (degree (Spec.prepEdges pg0) u)) (by
      intro pre i s s' hI hrun hnd hlt
      have hnd' := List.nodup_append.1 hnd
      obtain ⟨i1, i2, i3, i4⟩ := hI hnd'.1 (fun u hu => hlt u (List.mem_append_left _ hu))
      unfold initialPriority at hrun
      obtain ⟨⟨pg, ws, p⟩, hc, hrun⟩ := bind_eq_ok.1 hrun
      rw [i1] at hc
      obtain ⟨k1, k2, c, k3, _, _, k4⟩ := (calcRelevance_value hP hn hfi.wf (hlt i (by simp)) i2).of_ok hc
      simp only at k1 k2 k3
      injection hrun with hrun
      subst hrun
      have hnot : i ∉ nq.keys s.queue := by
        intro hm
        exact hnd'.2.2 i (i3.mem_iff.1 hm) i (by simp) rfl
      refine ⟨k1, k2, ?_, ?_⟩
      · exact (nq.keys_push i p s.queue hnot).trans ((i3.cons i).trans (List.perm_append_singleton i pre).symm)
      · intro u hu
        rcases List.mem_append.1 hu with hu | hu
        · simp only
          rw [ho.push_other i p s.queue u hnot (i3.mem_iff.2 hu)]
          exact i4 u hu
        · simp at hu
          subst hu
          simp only
          rw [ho.push_self u p s.queue hnot, k3, k4 hms])
    (List.range ig.numNodes) [] _ _ (fun _ _ => ⟨rfl, WitnessSearch.Base.new P pq _, by simp [nq.keys_empty], by simp⟩) hinit
  obtain ⟨_, _, i3, i4⟩ := hI (by simpa using List.nodup_range) (by simp)
  simp only [List.nil_append] at i3 i4
  rw [hfi.prepEdges] at i4
  have hfirst : nodes[0]? = some v := by
    have hvm : v ∈ nodes := hperm.mem_iff.2 (List.mem_range.2 hv)
    obtain ⟨j, hj⟩ := List.getElem?_of_mem hvm
    have := hrank j v hj
    rw [hr] at this
    cases this
    exact hj
  obtain ⟨k, q, hpop, rfl⟩ : ∃ k q, nq.pop st.queue = some (k, q) ∧ k = v := by
    cases hpops with
    | nil _ => cases hfirst
    | cons hpop _ _ _ _ _ => exact ⟨_, _, hpop, by simpa using hfirst⟩
  intro u hu
  have := ho.pop_least _ _ _ (i3.nodup_iff.2 List.nodup_range) hpop u (i3.mem_iff.2 (List.mem_range.2 hu))
  rw [i4 k (List.mem_range.2 hv), i4 u (List.mem_range.2 hu)] at this
  exact this

theorem lookup_mem {q : List (Nat × Nat)} {k p : Nat} (hnd : (q.map Prod.fst).Nodup) (h : (k, p) ∈ q) : q.lookup k = some p := by
  induction q with
  | nil => simp at h
  | cons x q ih =>
    obtain ⟨a, b⟩ := x
    rw [List.map_cons, List.nodup_cons] at hnd
    rw [List.lookup_cons]
    rcases List.mem_cons.1 h with h' | h'
    · cases h'; simp
    · have hak : k ≠ a := by
        rintro rfl
        exact hnd.1 (List.mem_map.2 ⟨(k, p), h', rfl⟩)
      have : (k == a) = false := by simpa using hak
      rw [this]
      exact ih hnd.2 h'

/-- The list queue is ordered. -/
theorem listQueue_ordered : Ordered listQueue (fun q k => ((q : List (Nat × Nat)).lookup k).getD 0) := by
  have hfil : ∀ (q : List (Nat × Nat)) k, k ∉ q.map Prod.fst → q.filter (fun x => x.1 != k) = q := by
    intro q k h
    rw [List.filter_eq_self]
    rintro ⟨a, b⟩ hab
    have : a ≠ k := by rintro rfl; exact h (List.mem_map.2 ⟨_, hab, rfl⟩)
    simpa using this
  constructor
  · intro k p (q : List (Nat × Nat)) hk
    show (((k, p) :: q.filter (fun x => x.1 != k)).lookup k).getD 0 = p
    rw [List.lookup_cons]; simp
  · intro k p (q : List (Nat × Nat)) k' (hk : k ∉ q.map Prod.fst) (hk' : k' ∈ q.map Prod.fst)
    show (((k, p) :: q.filter (fun x => x.1 != k)).lookup k').getD 0 = (List.lookup k' q).getD 0
    rw [hfil q k hk, List.lookup_cons]
    have : (k' == k) = false := by simpa using fun e : k' = k => hk (e ▸ hk')
    rw [this]
  · intro (q : List (Nat × Nat)) k (q' : List (Nat × Nat)) (hnd : (q.map Prod.fst).Nodup) hpop k' (hk' : k' ∈ q.map Prod.fst)
    obtain ⟨⟨m, r⟩, h1, h2⟩ := Option.map_eq_some_iff.1 hpop
    cases h2
    obtain ⟨⟨k'', p⟩, hm, rfl⟩ := List.mem_map.1 hk'
    have hm1 : m ∈ q := (ListQueue.popMin_some h1).mem_iff.2 (List.mem_cons_self ..)
    have hle := ListQueue.popMin_least h1 _ hm
    simp only
    rw [lookup_mem hnd hm1, lookup_mem hnd hm]
    exact hle
  · intro (q : List (Nat × Nat)) k (q' : List (Nat × Nat)) (hnd : (q.map Prod.fst).Nodup) hpop k' (hk' : k' ∈ q'.map Prod.fst)
    obtain ⟨⟨m, r⟩, h1, h2⟩ := Option.map_eq_some_iff.1 hpop
    cases h2
    obtain ⟨⟨k'', p⟩, hm, rfl⟩ := List.mem_map.1 hk'
    have hperm := ListQueue.popMin_some h1
    have hnd' : ((m :: r).map Prod.fst).Nodup := ((hperm.map Prod.fst).nodup_iff).1 hnd
    show (List.lookup k'' r).getD 0 = (List.lookup k'' q).getD 0
    rw [lookup_mem (List.nodup_cons.1 hnd').2 hm, lookup_mem hnd (hperm.mem_iff.2 (List.mem_cons_of_mem _ hm))]
  · intro k p (q : List (Nat × Nat)) (hnd : (q.map Prod.fst).Nodup) (hk : k ∈ q.map Prod.fst)
    obtain ⟨⟨k', p'⟩, hm, rfl⟩ := List.mem_map.1 hk
    have hmem : (k', p) ∈ q.map (fun x => if x.1 == k' then (k', p) else x) :=
      List.mem_map.2 ⟨(k', p'), hm, by simp⟩
    show (List.lookup k' (q.map (fun x => if x.1 == k' then (k', p) else x))).getD 0 = p
    have hnd' : ((q.map (fun x => if x.1 == k' then (k', p) else x)).map Prod.fst).Nodup := ((listQueue.keys_change k' p q).nodup_iff).2 hnd
    rw [lookup_mem hnd' hmem]
    rfl
  · intro k p (q : List (Nat × Nat)) k' (hnd : (q.map Prod.fst).Nodup) (hk : k' ∈ q.map Prod.fst) hne
    obtain ⟨⟨k'', p'⟩, hm, rfl⟩ := List.mem_map.1 hk
    have hmem : (k'', p') ∈ q.map (fun x => if x.1 == k then (k, p) else x) :=
      List.mem_map.2 ⟨(k'', p'), hm, if_neg (by simpa using hne)⟩
    show (List.lookup k'' (q.map (fun x => if x.1 == k then (k, p) else x))).getD 0 = (List.lookup k'' q).getD 0
    have hnd' : ((q.map (fun x => if x.1 == k then (k, p) else x)).map Prod.fst).Nodup := ((listQueue.keys_change k p q).nodup_iff).2 hnd
    rw [lookup_mem hnd' hmem, lookup_mem hnd hm]

end FP
