import Verif.Proofs.Assemble
/-! # Preparation without arithmetic overflow

`Tri` allows overflow and capacity panics; this file shows that with small weights they do not happen. -/
namespace FP
open Spec PreparationGraph

variable {pq : PQ} {P : Plat} {n : Nat} {α β σ : Type} {R : StepRel}

/-- `m` does not stop with a resource panic. -/
def NoRes (m : M α) : Prop := ∀ e, m = .error e → ¬ e.Res

theorem NoRes.ok (a : α) : NoRes (.ok a : M α) := by intro e h; cases h

theorem NoRes.bind {m : M α} {f : α → M β} (h : NoRes m) (hf : ∀ a, m = .ok a → NoRes (f a)) : NoRes (m >>= f) := by
  cases m with
  | ok a => exact hf a rfl
  | error e =>
    intro e' he
    have : e = e' := by injection he
    subst this
    exact h e rfl

theorem NoRes.ite {c : Prop} [Decidable c] {a b : M α} (ha : c → NoRes a) (hb : ¬ c → NoRes b) :
    NoRes (if c then a else b) := by
  by_cases h : c
  · rw [if_pos h]; exact ha h
  · rw [if_neg h]; exact hb h

/-- A triple without resource panics is a total triple. -/
theorem Tri.total {m : M α} {Q : α → Prop} (h : Tri m Q) (hn : NoRes m) : ∃ a, m = .ok a ∧ Q a := by
  cases m with
  | ok a => exact ⟨a, rfl, h⟩
  | error e => exact absurd h (hn e rfl)

theorem NoRes.of_ok {m : M α} {a : α} (h : m = .ok a) : NoRes m := by subst h; exact NoRes.ok a

theorem NoRes.addW {a b : Nat} (h : a + b ≤ P.umax) : NoRes (addW P a b) := NoRes.of_ok (addW_ok h)

theorem NoRes.idx (l : List α) (i : Nat) : NoRes (idx l i) := by
  intro e h
  unfold FP.idx at h
  cases hl : l[i]? with
  | none => rw [hl] at h; injection h with h; subst h; exact id
  | some a => rw [hl] at h; cases h

theorem NoRes.setIdx (l : List α) (i : Nat) (a : α) : NoRes (setIdx l i a) := by
  unfold FP.setIdx
  exact NoRes.ite (fun _ => NoRes.ok _) (fun _ e h => by injection h with h; subst h; exact id)

theorem NoRes.modIdx (l : List α) (i : Nat) (f : α → α) : NoRes (modIdx l i f) := by
  intro e h
  unfold FP.modIdx at h
  cases hl : l[i]? with
  | none => rw [hl] at h; injection h with h; subst h; exact id
  | some a => rw [hl] at h; cases h

theorem NoRes.assertM (c : Bool) : NoRes (assertM c) := by
  cases c
  · intro e h; injection h with h; subst h; exact id
  · exact NoRes.ok _

theorem NoRes.debugAssertM (c : Bool) : NoRes (debugAssertM P c) := by
  unfold FP.debugAssertM
  exact NoRes.ite (fun _ e h => by injection h with h; subst h; exact id) (fun _ => NoRes.ok _)

theorem NoRes.fuel : NoRes (.error .outOfFuel : M α) := by intro e h; injection h with h; subst h; exact id
theorem NoRes.assertErr : NoRes (.error .assertion : M α) := by intro e h; injection h with h; subst h; exact id

/-- Loop rule without invariant. -/
theorem NoRes.forM {f : σ → α → M σ} {l : List α} (hf : ∀ s, ∀ a ∈ l, NoRes (f s a)) (s : σ) : NoRes (forM f s l) := by
  induction l generalizing s with
  | nil => exact NoRes.ok s
  | cons a as ih =>
    exact NoRes.bind (hf s a (List.mem_cons_self ..)) (fun s' _ => ih (fun s a ha => hf s a (List.mem_cons_of_mem _ ha)) s')

/-! ### Witness search -/

theorem noRes_isValid (f : ValidFlags) (x : Nat) : NoRes (f.isValid x) := by
  unfold ValidFlags.isValid
  exact NoRes.bind (NoRes.idx _ _) (fun _ _ => NoRes.ok _)

theorem noRes_setValid (f : ValidFlags) (x : Nat) : NoRes (f.setValid x) := by
  unfold ValidFlags.setValid
  exact NoRes.bind (NoRes.setIdx _ _ _) (fun _ _ => NoRes.ok _)

namespace WitnessSearch
variable {g : PreparationGraph} {A L : Nat}

theorem noRes_updateNode (ws : WitnessSearch pq) (x w : Nat) : NoRes (ws.updateNode x w) := by
  unfold updateNode
  exact NoRes.bind (noRes_setValid _ _) (fun _ _ => NoRes.bind (NoRes.setIdx _ _ _) (fun _ _ => NoRes.ok _))

theorem noRes_getCurrentWeight (ws : WitnessSearch pq) (x : Nat) : NoRes (ws.getCurrentWeight P x) := by
  unfold getCurrentWeight
  exact NoRes.bind (noRes_isValid _ _) (fun _ _ => NoRes.ite (fun _ => NoRes.bind (NoRes.idx _ _) (fun _ _ => NoRes.ok _))
    (fun _ => NoRes.ok _))

theorem noRes_isSettled (ws : WitnessSearch pq) (x : Nat) : NoRes (ws.isSettled x) := by
  unfold isSettled
  exact NoRes.bind (noRes_isValid _ _) (fun _ _ => NoRes.ite (fun _ => NoRes.bind (NoRes.idx _ _) (fun _ _ => NoRes.ok _))
    (fun _ => NoRes.ok _))

theorem noRes_relaxArc {curr : HeapItem} {target wl : Nat} (st : WitnessSearch pq × Bool) {a : Arc}
    (h : curr.weight + a.weight ≤ P.umax) : NoRes (relaxArc P curr target wl st a) := by
  unfold relaxArc
  exact NoRes.ite (fun _ => NoRes.ok _) (fun _ => NoRes.bind (NoRes.addW h) (fun _ _ =>
    NoRes.bind (noRes_getCurrentWeight _ _) (fun _ _ => NoRes.ite (fun _ => NoRes.bind (noRes_updateNode _ _ _)
      (fun _ _ => NoRes.ok _)) (fun _ => NoRes.ok _))))

/-- The search only expands labels within the limit, so no addition exceeds limit plus largest arc weight. -/
theorem noRes_findLoop (hA : ∀ u, ∀ a ∈ g.outs u, a.weight ≤ A) {target wl sl : Nat} (hL : wl + A ≤ P.umax) :
    ∀ fuel (ws : WitnessSearch pq), NoRes (findLoop P g target wl sl fuel ws) := by
  intro fuel
  induction fuel with
  | zero => intro ws; exact NoRes.fuel
  | succ fuel ih =>
    intro ws
    unfold findLoop
    cases hp : pq.pop ws.heap with
    | none => exact NoRes.ok _
    | some r =>
      obtain ⟨curr, heap'⟩ := r
      simp only
      refine NoRes.ite (fun _ => NoRes.ok _) (fun _ => NoRes.ite (fun _ => NoRes.ok _) (fun hcw => ?_))
      refine NoRes.bind (noRes_isSettled _ _) (fun _ _ => NoRes.ite (fun _ => ih _) (fun _ => ?_))
      refine NoRes.bind (NoRes.idx _ _) (fun outs ho => NoRes.bind (NoRes.forM ?_ _) (fun r _ => ?_))
      · intro s a ha
        refine noRes_relaxArc s ?_
        have : a ∈ g.outs curr.nodeId := by
          unfold PreparationGraph.outs
          rw [idx_eq_ok.1 ho]
          exact ha
        have := hA _ _ this
        omega
      · obtain ⟨ws1, found⟩ := r
        exact NoRes.bind (NoRes.modIdx _ _ _) (fun _ _ => NoRes.ite (fun _ => NoRes.ok _) (fun _ => ih _))

theorem noRes_findMaxWeight (hA : ∀ u, ∀ a ∈ g.outs u, a.weight ≤ A) {target wl sl : Nat} (hL : wl + A ≤ P.umax)
    (ws : WitnessSearch pq) : NoRes (ws.findMaxWeight P g target wl sl) := by
  unfold findMaxWeight
  refine NoRes.bind (NoRes.assertM _) (fun _ _ => NoRes.bind (NoRes.assertM _) (fun _ _ => NoRes.bind (NoRes.assertM _)
    (fun _ _ => NoRes.ite (fun _ => NoRes.ok _) (fun _ => NoRes.bind (noRes_isValid _ _) (fun v _ => NoRes.bind ?_ ?_)))))
  · exact NoRes.ite (fun _ => NoRes.bind (NoRes.idx _ _) (fun _ _ => NoRes.ok _)) (fun _ => NoRes.ok _)
  · intro early _
    cases early with
    | some w => exact NoRes.ok _
    | none => exact NoRes.bind (noRes_findLoop hA hL _ _) (fun _ _ => NoRes.bind (noRes_getCurrentWeight _ _)
        (fun _ _ => NoRes.ok _))

end WitnessSearch

/-! ### Contracting one node -/

theorem length_le_of_nodup {arcs : List Arc} (h : (arcs.map Arc.adj).Nodup) (hlt : ∀ a ∈ arcs, a.adj < n) :
    arcs.length ≤ n := by
  have hs : (arcs.map Arc.adj).Subperm (List.range n) := by
    refine List.subperm_of_subset h ?_
    intro x hx
    obtain ⟨a, ha, rfl⟩ := List.mem_map.1 hx
    exact List.mem_range.2 (hlt a ha)
  simpa using hs.length_le

/-- `handle_shortcuts` returns when the arcs at `v` weigh at most `A` and all arcs ever present at most `2 A`. -/
theorem handleShortcuts_total (hP : P.checked = true) (hn : n ≤ P.umax) {g : PreparationGraph} {v A : Nat} (hv : v < n)
    {handle : PreparationGraph → β → Shortcut → M (PreparationGraph × β)} {ws : WitnessSearch pq} {acc : β} {ms : Nat}
    (G : PreparationGraph → Prop) (hG0 : G g)
    (hG : ∀ gc, G gc → WF n gc ∧ gc.outs v = g.outs v ∧ gc.ins v = g.ins v)
    (B : Nat → β → Prop) (hB0 : B 0 acc) (hB : ∀ k acc, B k acc → B (k + 1) acc)
    (hhandle : ∀ gc acc a b, G gc → a ∈ g.ins v → b ∈ g.outs v → a.adj ≠ b.adj → a.weight + b.weight ≤ P.umax →
      ∀ k < (g.ins v).length * (g.outs v).length, B k acc →
      ∃ r, handle gc acc ⟨a.adj, b.adj, v, a.weight + b.weight⟩ = .ok r ∧ G r.1 ∧ Grow v gc r.1 ∧ B (k + 1) r.2)
    (hws : ws.Base n) (hAo : ∀ a ∈ g.outs v, a.weight ≤ A) (hAi : ∀ a ∈ g.ins v, a.weight ≤ A)
    (hAll : ∀ gc, G gc → ∀ u, ∀ a ∈ gc.outs u, a.weight ≤ 2 * A) (hA : 4 * A ≤ P.umax) :
    ∃ st, handleShortcuts P g ws v handle acc ms = .ok st := by
  have hidxI : ∀ gc, G gc → idx gc.inEdges v = .ok (g.ins v) := by
    intro gc h
    obtain ⟨wf, _, hi⟩ := hG gc h
    rw [idx_inEdges (by rw [wf.lenIn]; exact hv), hi]
  have hidxO : ∀ gc, G gc → idx gc.outEdges v = .ok (g.outs v) := by
    intro gc h
    obtain ⟨wf, ho, _⟩ := hG gc h
    rw [idx_outEdges (by rw [wf.lenOut]; exact hv), ho]
  have hwf := (hG g hG0).1
  unfold handleShortcuts
  rw [hidxI g hG0]
  simp only [bind_okM]
  have hout := forM_ok_of (f := handleIn P v handle ms) (l := List.range (g.ins v).length)
    (fun pre (st : HSState pq β) => G st.graph ∧ st.ws.Base n ∧ B (pre.length * (g.outs v).length) st.acc)
    (s := ⟨g, ws, acc⟩) ⟨hG0, hws, by simpa using hB0⟩ ?_
  · obtain ⟨st, e, _⟩ := hout; exact ⟨st, e⟩
  rintro pre i post st hl ⟨hGst, hbase, hBst⟩
  have hpi : pre.length = i ∧ i < (g.ins v).length := by
    have h0 : (List.range (g.ins v).length)[pre.length]? = some i := by rw [hl]; simp
    obtain ⟨h5, h6⟩ := List.getElem?_eq_some_iff.1 h0
    simp at h5 h6
    omega
  obtain ⟨hpi, hi⟩ := hpi
  rw [hpi] at hBst
  unfold handleIn
  rw [hidxI _ hGst]
  simp only [bind_okM]
  have hai : (g.ins v)[i]? = some (g.ins v)[i] := by simp [hi]
  generalize (g.ins v)[i] = a at hai
  have ha : a ∈ g.ins v := List.mem_of_getElem? hai
  have halt : a.adj < n := hwf.adj_lt_in ha
  have hav : a.adj ≠ v := hwf.noLoop_in ha
  have haP : a.adj ≠ P.umax := by omega
  rw [idx_some hai]
  simp only [bind_okM]
  obtain ⟨ws', e, hinv, _⟩ := WitnessSearch.init_ok hbase halt haP hav st.graph
  rw [e]
  simp only [bind_okM]
  rw [hidxO _ hGst]
  simp only [bind_okM]
  have hin := forM_ok_of (f := handlePair P v handle ms a.adj i) (l := List.range (g.outs v).length)
    (fun pre (st : HSState pq β) => G st.graph ∧ WitnessSearch.Inv n st.graph a.adj v st.ws ∧
      B (i * (g.outs v).length + pre.length) st.acc)
    (s := { st with ws := ws' }) ⟨hGst, hinv, by simpa using hBst⟩ ?_
  · obtain ⟨st', e', h1, h2, h3⟩ := hin
    refine ⟨st', e', h1, h2.toBase, ?_⟩
    rw [List.length_append, List.length_singleton, hpi, Nat.succ_mul]
    rw [List.length_range] at h3
    exact h3
  clear hBst
  rintro pre' j post st hl ⟨hGst, hinv, hBst⟩
  have hpj : pre'.length = j ∧ j < (g.outs v).length := by
    have h0 : (List.range (g.outs v).length)[pre'.length]? = some j := by rw [hl]; simp
    obtain ⟨h5, h6⟩ := List.getElem?_eq_some_iff.1 h0
    simp at h5 h6
    omega
  obtain ⟨hpj, hj⟩ := hpj
  rw [hpj] at hBst
  have hcount : i * (g.outs v).length + j < (g.ins v).length * (g.outs v).length := by
    have := Nat.mul_le_mul_right (g.outs v).length (show i + 1 ≤ (g.ins v).length by omega)
    rw [Nat.succ_mul] at this
    omega
  have hlen' : (pre' ++ [j]).length = j + 1 := by simp [hpj]
  unfold handlePair
  rw [hidxI _ hGst]
  simp only [bind_okM]
  rw [idx_some hai]
  simp only [bind_okM]
  rw [hidxO _ hGst]
  simp only [bind_okM]
  have hbj : (g.outs v)[j]? = some (g.outs v)[j] := by simp [hj]
  generalize (g.outs v)[j] = b at hbj
  have hb : b ∈ g.outs v := List.mem_of_getElem? hbj
  rw [idx_some hbj]
  simp only [bind_okM]
  have hwa := hAi a ha
  have hwb := hAo b hb
  have hsum : a.weight + b.weight ≤ P.umax := by omega
  rw [addW_ok hsum]
  simp only [bind_okM]
  have hwfs := (hG _ hGst).1
  obtain ⟨⟨ws2, mw⟩, e2, hinv2, hsame, _⟩ := (WitnessSearch.findMaxWeight_ok (sl := ms) (wl := a.weight + b.weight) hP
    hwfs.lax hinv haP (hwf.adj_lt hb) (hwf.noLoop _ _ hb)).total
    (WitnessSearch.noRes_findMaxWeight (A := 2 * A) (hAll _ hGst) (by omega) _)
  rw [e2]
  simp only [bind_okM]
  simp only at hinv2 hsame
  by_cases hmw : mw ≤ a.weight + b.weight
  · rw [if_pos hmw]
    refine ⟨_, rfl, hGst, hinv2, ?_⟩
    rw [hlen']
    exact hB _ _ hBst
  · rw [if_neg hmw]
    have hne : a.adj ≠ b.adj := by
      intro e
      have := hsame e.symm
      omega
    obtain ⟨⟨g2, acc2⟩, e3, hG2, hgrow, hB2⟩ := hhandle st.graph st.acc a b hGst ha hb hne hsum _ hcount hBst
    rw [e3]
    refine ⟨_, rfl, hG2, hinv2.mono hgrow, ?_⟩
    rw [hlen']
    exact hB2

variable {g : PreparationGraph} {A v : Nat}

theorem PreparationGraph.WF.ins_le (hg : WF n g) (hA : ∀ u, ∀ a ∈ g.outs u, a.weight ≤ A) (u : Nat) : ∀ a ∈ g.ins u, a.weight ≤ A :=
  fun a ha => hA a.adj ⟨u, a.weight, a.center⟩ (hg.mirror_in ha)

theorem calcRelevance_total (hP : P.checked = true) (hn : n ≤ P.umax) (hg : WF n g) (hv : v < n)
    {ws : WitnessSearch pq} (hws : ws.Base n) {relevance : Nat → Int → Nat → Nat} {level ms : Nat}
    (hA : ∀ u, ∀ a ∈ g.outs u, a.weight ≤ A) (hA4 : 4 * A ≤ P.umax) (hcnt : n * n ≤ I32_MAX) :
    ∃ r, calcRelevance P relevance g ws v level ms = .ok r ∧ r.1 = g ∧ r.2.1.Base n := by
  refine (calcRelevance_ok hP hn hg hv hws).total ?_
  unfold calcRelevance
  have hmul : (g.ins v).length * (g.outs v).length ≤ n * n :=
    Nat.mul_le_mul (length_le_of_nodup (hg.nodupIn v) (fun a ha => hg.adj_lt_in ha))
      (length_le_of_nodup (hg.nodupOut v) (fun a ha => hg.adj_lt ha))
  obtain ⟨st, e⟩ := handleShortcuts_total (handle := countShortcut P) (acc := 0) (ms := ms) hP hn hv (fun gc => gc = g) rfl
    (by rintro gc rfl; exact ⟨hg, rfl, rfl⟩) (fun k (acc : Int) => acc ≤ k) (by simp)
    (by intro k acc h; push_cast; omega) (by
      rintro gc acc a b rfl _ _ _ _ k hk hle
      have : acc < (I32_MAX : Int) := by omega
      unfold countShortcut
      rw [if_pos this]
      exact ⟨_, rfl, rfl, Grow.refl _, by push_cast; omega⟩) hws
    (hA v) (hg.ins_le hA v)
    (by rintro gc rfl u a ha; have := hA u a ha; omega) hA4
  rw [e]
  simp only [bind_okM]
  exact NoRes.bind (NoRes.idx _ _) (fun _ _ => NoRes.bind (NoRes.idx _ _) (fun _ _ => NoRes.ok _))

theorem contractNode_total (hP : P.checked = true) (hn : n ≤ P.umax) (hg : WF n g) (hv : v < n)
    {ws : WitnessSearch pq} (hws : ws.Base n) {ms : Nat}
    (hA : ∀ u, ∀ a ∈ g.outs u, a.weight ≤ A) (hA4 : 4 * A ≤ P.umax) :
    ∃ r, contractNode P g ws v ms = .ok r ∧ Contracts P n g v r.1 ∧ r.2.Base n := by
  refine (contractNode_ok hP hn hg hv hws).total ?_
  have hi := hg.ins_le hA v
  obtain ⟨st, e⟩ := handleShortcuts_total (handle := addShortcut) (acc := ()) (ms := ms) hP hn hv (ExtG P n g v)
    (ExtG.refl hg) (fun gc h => ⟨h.wf, h.outs_v, h.ins_v⟩) (fun _ _ => True) trivial (fun _ _ _ => trivial)
    (fun gc acc a b h ha hb hne hw _ _ _ => by
      obtain ⟨g', e, h1, h2, _⟩ := h.add hg ha hb hne hw acc
      exact ⟨_, e, h1, h2, trivial⟩) hws
    (hA v) hi
    (fun gc h u a ha => by
      rcases h.back u a ha with h1 | ⟨_, x, hx, y, hy, _, _, h4⟩
      · have := hA u a h1; omega
      · have := hi x hx; have := hA v y hy; omega) hA4
  unfold contractNode
  rw [e]
  simp only [bind_okM]
  refine NoRes.bind ?_ (fun _ _ => NoRes.ok _)
  unfold disconnect
  refine NoRes.bind (NoRes.idx _ _) (fun _ _ => NoRes.bind (NoRes.forM ?_ _) (fun _ _ => NoRes.bind (NoRes.idx _ _)
    (fun _ _ => NoRes.bind (NoRes.forM ?_ _) (fun _ _ => NoRes.bind (NoRes.setIdx _ _ _) (fun _ _ => NoRes.bind
    (NoRes.setIdx _ _ _) (fun _ _ => NoRes.ok _))))))
  · intro s a _
    unfold removeInEdge removeEdgeWithAdjNode
    exact NoRes.bind (NoRes.idx _ _) (fun _ _ => NoRes.bind (NoRes.bind (NoRes.assertM _) (fun _ _ => NoRes.ok _))
      (fun _ _ => NoRes.ok _))
  · intro s a _
    unfold removeOutEdge removeEdgeWithAdjNode
    exact NoRes.bind (NoRes.idx _ _) (fun _ _ => NoRes.bind (NoRes.bind (NoRes.assertM _) (fun _ _ => NoRes.ok _))
      (fun _ _ => NoRes.ok _))

/-- Contracting a node at most doubles the largest arc weight. -/
theorem Contracts.le_double {g' : PreparationGraph} (hg : WF n g) (h : Contracts P n g v g')
    (hA : ∀ u, ∀ a ∈ g.outs u, a.weight ≤ A) : ∀ u, ∀ a ∈ g'.outs u, a.weight ≤ 2 * A := by
  intro u a ha
  rcases h.back u a ha with h1 | ⟨_, x, hx, y, hy, _, _, h4⟩
  · have := hA u a h1; omega
  · have := hg.ins_le hA v x hx; have := hA v y hy; omega

/-- After `k` contractions arcs weigh at most `2 ^ k` times the largest input weight. -/
theorem Chain.arc_le {g g' : PreparationGraph} {ls : List Lvl} (h : Chain P n R g ls g') (hg : WF n g) {W : Nat}
    (hW : ∀ u, ∀ a ∈ g.outs u, a.weight ≤ W) : ∀ u, ∀ a ∈ g'.outs u, a.weight ≤ 2 ^ ls.length * W := by
  induction h generalizing W with
  | nil g => simpa using hW
  | @cons g g₁ g₂ v ls hv hc hch ih =>
    intro u a ha
    have := ih hc.wf (hc.le_double hg hW) u a ha
    rw [List.length_cons, Nat.pow_succ, Nat.mul_assoc]
    exact this

/-- Arcs stay representable. -/
theorem Chain.arc_fits {g g' : PreparationGraph} {ls : List Lvl} (h : Chain P n R g ls g')
    (hW : ∀ u, ∀ a ∈ g.outs u, a.weight ≤ P.umax) (hg : WF n g) : (∀ u, ∀ a ∈ g'.outs u, a.weight ≤ P.umax) ∧
      (∀ l ∈ ls, ∀ a ∈ l.outs, a.weight ≤ P.umax) ∧ ∀ l ∈ ls, ∀ a ∈ l.ins, a.weight ≤ P.umax := by
  induction h with
  | nil g => exact ⟨hW, by simp, by simp⟩
  | @cons g g₁ g₂ v ls hv hc hch ih =>
    have h1 := ih (fun u a ha => by
      rcases hc.bnd u a ha with h | h
      · exact hW u a h
      · exact h) hc.wf
    refine ⟨h1.1, ?_, ?_⟩
    · intro l hl a ha
      rcases List.mem_cons.1 hl with rfl | hl
      · exact hW v a ha
      · exact h1.2.1 l hl a ha
    · intro l hl a ha
      rcases List.mem_cons.1 hl with rfl | hl
      · exact hg.ins_le hW v a ha
      · exact h1.2.2 l hl a ha

/-! ### Capacity -/

theorem pushArcs_total (node : Nat) (arcs : List Arc) (es : List FastGraphEdge)
    (hes : es.length + arcs.length ≤ P.umax) : ∃ es', pushArcs P node es arcs = .ok es' := by
  induction arcs generalizing es with
  | nil => exact ⟨es, rfl⟩
  | cons a as ih =>
    simp only [List.length_cons] at hes
    unfold pushArcs FP.forM
    rw [show vecPush P es (⟨node, a.adj, a.weight, a.center, P.INVALID_EDGE⟩ : FastGraphEdge)
      = .ok (es ++ [⟨node, a.adj, a.weight, a.center, P.INVALID_EDGE⟩]) from if_pos (by omega)]
    simp only [bind_okM]
    exact ih _ (by simp; omega)

theorem sum_le_mul {l : List Nat} {k : Nat} (h : ∀ x ∈ l, x ≤ k) : l.sum ≤ l.length * k := by
  induction l with
  | nil => simp
  | cons a as ih =>
    simp only [List.sum_cons, List.length_cons, Nat.succ_mul]
    have := h a (List.mem_cons_self ..)
    have := ih (fun x hx => h x (List.mem_cons_of_mem _ hx))
    omega

/-- Every recorded node has fewer than `n` edges in each direction. -/
theorem BInv.edge_count {es : List Edge} {ls : List Lvl} {st : BState pq} (h : BInv P n R es ls st) :
    st.fg.edgesFwd.length ≤ ls.length * n ∧ st.fg.edgesBwd.length ≤ ls.length * n := by
  obtain ⟨g₀, hfi, hch⟩ := h.start
  have hlv : ∀ l ∈ ls, l.outs.length ≤ n ∧ l.ins.length ≤ n := by
    intro l hl
    obtain ⟨j, hj⟩ := List.getElem?_of_mem hl
    have := hch.levels [] hfi.wf hfi.allOrigin (by simp) j l hj
    exact ⟨length_le_of_nodup this.nodupOut (fun a ha => (this.outs_adj a ha).1),
      length_le_of_nodup this.nodupIn (fun a ha => (this.ins_adj a ha).1)⟩
  rw [h.rc.ef, h.rc.eb, List.length_flatten, List.length_flatten]
  constructor
  · have := sum_le_mul (l := (blocksF P ls).map List.length) (k := n) (by
      intro x hx
      obtain ⟨b, hb, rfl⟩ := List.mem_map.1 hx
      obtain ⟨l, hl, rfl⟩ := List.mem_map.1 hb
      simpa [mkEdges] using (hlv l hl).1)
    simpa [blocksF] using this
  · have := sum_le_mul (l := (blocksB P ls).map List.length) (k := n) (by
      intro x hx
      obtain ⟨b, hb, rfl⟩ := List.mem_map.1 hx
      obtain ⟨l, hl, rfl⟩ := List.mem_map.1 hb
      simpa [mkEdges] using (hlv l hl).2)
    simpa [blocksB] using this

/-- Arc weights after the contractions `ls`. -/
theorem BInv.arc_le {es : List Edge} {ls : List Lvl} {st : BState pq} (h : BInv P n R es ls st) {W : Nat}
    (hW : ∀ e ∈ es, e.weight ≤ W) : ∀ u, ∀ a ∈ st.pg.outs u, a.weight ≤ 2 ^ ls.length * W := by
  obtain ⟨g₀, hfi, hch⟩ := h.start
  exact hch.arc_le hfi.wf (fun u a ha => hW _ ((hfi.mem u a).1 ha).2)

/-- Sizes that keep the preparation of a graph with `n` nodes and edge weights up to `W` from overflowing. -/
structure PrepFits (P : Plat) (n W : Nat) : Prop where
  weights : 2 ^ (n + 2) * W ≤ P.umax
  edges : n * n < P.umax

theorem PrepFits.n_lt {W : Nat} (h : PrepFits P n W) : n < P.umax := by
  have := h.edges
  have : n ≤ n * n := by
    rcases Nat.eq_zero_or_pos n with rfl | hp
    · simp
    · exact Nat.le_mul_of_pos_left n hp
  omega

theorem PrepFits.four {W : Nat} (h : PrepFits P n W) {k : Nat} (hk : k ≤ n) : 4 * (2 ^ k * W) ≤ P.umax := by
  refine Nat.le_trans ?_ h.weights
  rw [← Nat.mul_assoc]
  refine Nat.mul_le_mul_right W ?_
  have : 2 ^ (n + 2) = 4 * 2 ^ n := by rw [Nat.pow_add]; omega
  rw [this]
  exact Nat.mul_le_mul_left 4 (Nat.pow_le_pow_right (by omega) hk)

/-- A bound on the arc weights during the preparation that keeps it from overflowing. -/
structure Bounded (pq : PQ) (P : Plat) (n : Nat) (R : StepRel) (es : List Edge) : Prop where
  edges : n * n < P.umax
  arcs : ∀ {ls : List Lvl} {st : BState pq}, BInv P n R es ls st → ls.length ≤ n →
    ∃ A, (∀ u, ∀ a ∈ st.pg.outs u, a.weight ≤ A) ∧ 4 * A ≤ P.umax

theorem Bounded.n_lt {es : List Edge} (h : Bounded pq P n R es) : n < P.umax := by
  have := h.edges
  have : n ≤ n * n := by
    rcases Nat.eq_zero_or_pos n with rfl | hp
    · simp
    · exact Nat.le_mul_of_pos_left n hp
  omega

theorem PrepFits.bounded {W : Nat} (h : PrepFits P n W) {es : List Edge} (hW : ∀ e ∈ es, e.weight ≤ W) :
    Bounded pq P n R es :=
  ⟨h.edges, fun hI hl => ⟨_, hI.arc_le hW, h.four hl⟩⟩

theorem recordAndContract_total (hP : P.checked = true) {es : List Edge} {ls : List Lvl} {st : BState pq}
    (h : BInv P n R es ls st) {node ms : Nat} (hnode : node < n) (hnew : node ∉ ls.map Lvl.node) (hlen : ls.length < n)
    (hR : StepsOk pq P n ms R) (hB : Bounded pq P n R es) :
    ∃ st', recordAndContract P ms st ls.length node = .ok st' ∧
      BInv P n R es (ls ++ [⟨node, st.pg.outs node, st.pg.ins node⟩]) st' := by
  refine (recordAndContract_ok hP h hnode hnew hlen hR).total ?_
  have hwf := h.wf
  obtain ⟨hcF, hcB⟩ := h.edge_count
  have h1 := length_le_of_nodup (hwf.nodupOut node) (fun a ha => hwf.adj_lt ha)
  have h2 := length_le_of_nodup (hwf.nodupIn node) (fun a ha => hwf.adj_lt_in ha)
  have hmul : ls.length * n + n ≤ n * n := by
    have := Nat.mul_le_mul_right n (show ls.length + 1 ≤ n from hlen)
    rw [Nat.succ_mul] at this
    exact this
  have hed := hB.edges
  unfold recordAndContract
  refine NoRes.bind ?_ (fun fg _ => ?_)
  · unfold recordNode
    rw [idx_outEdges (by rw [hwf.lenOut]; exact hnode)]
    simp only [bind_okM]
    obtain ⟨ef, e⟩ := pushArcs_total (P := P) node (st.pg.outs node) st.fg.edgesFwd (by omega)
    rw [e]
    simp only [bind_okM]
    refine NoRes.bind (NoRes.setIdx _ _ _) (fun _ _ => ?_)
    rw [idx_inEdges (by rw [hwf.lenIn]; exact hnode)]
    simp only [bind_okM]
    obtain ⟨eb, e⟩ := pushArcs_total (P := P) node (st.pg.ins node) st.fg.edgesBwd (by omega)
    rw [e]
    simp only [bind_okM]
    exact NoRes.bind (NoRes.setIdx _ _ _) (fun _ _ => NoRes.bind (NoRes.setIdx _ _ _) (fun _ _ => NoRes.ok _))
  · obtain ⟨A, hA, hA4⟩ := hB.arcs h (by omega)
    obtain ⟨r, e, _⟩ := contractNode_total (ms := ms) hP (Nat.le_of_lt h.rc.n_lt) hwf hnode h.ws hA hA4
    rw [e]
    exact NoRes.ok _

/-! ### `finish_contraction` -/

theorem noRes_findEdgeId (es : List FastGraphEdge) (adj : Nat) : ∀ l, NoRes (findEdgeId es adj l) := by
  intro l
  induction l with
  | nil => exact NoRes.assertErr
  | cons a as ih => exact NoRes.bind (NoRes.idx _ _) (fun _ _ => NoRes.ite (fun _ => NoRes.ok _) (fun _ => ih))

theorem noRes_bounds (fg : FastGraph) (u : Nat) : NoRes (fg.beginOutEdges u) ∧ NoRes (fg.endOutEdges u) ∧
    NoRes (fg.beginInEdges u) ∧ NoRes (fg.endInEdges u) :=
  ⟨NoRes.bind (NoRes.idx _ _) (fun _ _ => NoRes.idx _ _), NoRes.bind (NoRes.idx _ _) (fun _ _ => NoRes.idx _ _),
   NoRes.bind (NoRes.idx _ _) (fun _ _ => NoRes.idx _ _), NoRes.bind (NoRes.idx _ _) (fun _ _ => NoRes.idx _ _)⟩

theorem noRes_getOutEdgeId (fg : FastGraph) (u x : Nat) : NoRes (getOutEdgeId fg u x) :=
  NoRes.bind (noRes_bounds fg u).1 (fun _ _ => NoRes.bind (noRes_bounds fg u).2.1 (fun _ _ => noRes_findEdgeId _ _ _))

theorem noRes_getInEdgeId (fg : FastGraph) (u x : Nat) : NoRes (getInEdgeId fg u x) :=
  NoRes.bind (noRes_bounds fg u).2.2.1 (fun _ _ => NoRes.bind (noRes_bounds fg u).2.2.2
    (fun _ _ => noRes_findEdgeId _ _ _))

theorem noRes_finishContraction (n : Nat) (fg : FastGraph) : NoRes (finishContraction P n fg) := by
  unfold finishContraction
  refine NoRes.bind (NoRes.forM (fun s i _ => ?_) _) (fun fg _ => NoRes.forM (fun s i _ => ?_) _)
  · unfold finishFwdNode
    refine NoRes.bind (noRes_bounds s i).1 (fun _ _ => NoRes.bind (noRes_bounds s i).2.1 (fun _ _ =>
      NoRes.forM (fun s k _ => ?_) _))
    unfold finishFwdEdge
    exact NoRes.bind (NoRes.idx _ _) (fun _ _ => NoRes.ite
      (fun _ => NoRes.bind (NoRes.debugAssertM _) (fun _ _ => NoRes.ok _))
      (fun _ => NoRes.bind (noRes_getInEdgeId _ _ _) (fun _ _ => NoRes.bind (noRes_getOutEdgeId _ _ _)
        (fun _ _ => NoRes.ok _))))
  · unfold finishBwdNode
    refine NoRes.bind (noRes_bounds s i).2.2.1 (fun _ _ => NoRes.bind (noRes_bounds s i).2.2.2 (fun _ _ =>
      NoRes.forM (fun s k _ => ?_) _))
    unfold finishBwdEdge
    exact NoRes.bind (NoRes.idx _ _) (fun _ _ => NoRes.ite
      (fun _ => NoRes.bind (NoRes.debugAssertM _) (fun _ _ => NoRes.ok _))
      (fun _ => NoRes.bind (noRes_getInEdgeId _ _ _) (fun _ _ => NoRes.bind (noRes_getOutEdgeId _ _ _)
        (fun _ _ => NoRes.ok _))))

/-! ### The two loops -/

theorem runContractionWithOrder_total (hP : P.checked = true) {ig : InputGraph} (h : FrozenOk ig)
    {order : List Nat} (ho : order.Perm (List.range ig.numNodes)) (ms : Nat)
    (hR : StepsOk pq P ig.numNodes ms R) (hB : Bounded pq P ig.numNodes R ig.edges) :
    ∃ fg, runContractionWithOrder P pq ig ig.numNodes order ms = .ok fg := by
  have hn := hB.n_lt
  have hmain := runContractionWithOrder_ok (pq := pq) hP h ho ms hR
  suffices hs : NoRes (runContractionWithOrder P pq ig ig.numNodes order ms) by
    obtain ⟨fg, e, _⟩ := hmain.total hs
    exact ⟨fg, e⟩
  clear hmain
  unfold runContractionWithOrder FastGraph.new
  rw [if_pos hn]
  simp only [bind_okM]
  obtain ⟨g, e, hg⟩ := fromInputGraph_ok (P := P) h
  rw [e]
  simp only [bind_okM]
  have hnd : order.Nodup := ho.nodup_iff.2 List.nodup_range
  have hlen : order.length = ig.numNodes := by simpa using ho.length_eq
  have hlt : ∀ v ∈ order, v < ig.numNodes := fun v hv => List.mem_range.1 (ho.subset hv)
  have hloop : ∃ st, forM (orderStep P ig.numNodes ms) (⟨g, WitnessSearch.new P pq ig.numNodes,
      FastGraph.empty ig.numNodes⟩ : BState pq) order.zipIdx = .ok st ∧
      (∃ ls, BInv P ig.numNodes R ig.edges ls st ∧ ls.map Lvl.node = order.zipIdx.map Prod.fst) := by
    refine forM_ok_of (fun pre (st : BState pq) => ∃ ls, BInv P ig.numNodes R ig.edges ls st ∧
      ls.map Lvl.node = pre.map Prod.fst) ⟨[], BInv.start_of hn hg, rfl⟩ ?_
    rintro pre ⟨v, r⟩ post st hl ⟨ls, hI, hls⟩
    have hlen' : ls.length = pre.length := by
      have := congrArg List.length hls; simpa using this
    have hget : order.zipIdx[pre.length]? = some (v, r) := by rw [hl]; simp
    rw [List.getElem?_zipIdx] at hget
    simp only [Option.map_eq_some_iff, Prod.mk.injEq] at hget
    obtain ⟨v', hv', rfl, hr⟩ := hget
    have hr' : r = ls.length := by omega
    subst hr'
    have hvn : v' < ig.numNodes := hlt _ (List.mem_of_getElem? hv')
    have hall : order = pre.map Prod.fst ++ v' :: post.map Prod.fst := by
      have := congrArg (List.map Prod.fst) hl
      simpa using this
    have hnew : v' ∉ ls.map Lvl.node := by
      rw [hls]
      intro hm
      rw [hall] at hnd
      exact (List.nodup_append.1 hnd).2.2 v' hm v' (List.mem_cons_self ..) rfl
    have hltlen : ls.length < ig.numNodes := by
      have := congrArg List.length hall
      simp at this
      omega
    unfold orderStep
    simp only
    rw [if_neg (by omega)]
    obtain ⟨st', e', hI'⟩ := recordAndContract_total (ms := ms) hP hI hvn hnew hltlen hR hB
    exact ⟨st', e', _, hI', by simp [hls]⟩
  obtain ⟨st, e, _⟩ := hloop
  rw [e]
  exact noRes_finishContraction _ _

variable {nq : NodeQueue}

/-- Levels never exceed the number of contracted nodes. -/
theorem updateNeighbor_total (hP : P.checked = true) {es : List Edge} {ls : List Lvl} {params : Params}
    {st : QState pq nq} {node v k lv : Nat} (hv : v < n) (hne : v ≠ node) (h : QInv P n R es ls st)
    (hl : ls.length ≤ n) (hB : Bounded pq P n R es) (hlv : st.levels[node]? = some lv)
    (hk : lv ≤ k) (hkn : k < n) (hall : ∀ x ∈ st.levels, x ≤ k + 1)
    (hcnt : n * n ≤ I32_MAX) :
    ∃ st', updateNeighbor P params node st v = .ok st' ∧ QInv P n R es ls st' ∧ st'.levels[node]? = some lv ∧
      ∀ x ∈ st'.levels, x ≤ k + 1 := by
  have hnode : node < n := by
    rw [← h.lv]; exact (List.getElem?_eq_some_iff.1 hlv).1
  have hn := hB.n_lt
  have hQ := updateNeighbor_ok (params := params) hP hnode hv h
  have hvl : v < st.levels.length := by rw [h.lv]; exact hv
  suffices hs : ∃ st', updateNeighbor P params node st v = .ok st' ∧ st'.levels[node]? = some lv ∧
      ∀ x ∈ st'.levels, x ≤ k + 1 by
    obtain ⟨st', e, h1, h2⟩ := hs
    exact ⟨st', e, hQ.of_ok e, h1, h2⟩
  unfold updateNeighbor
  rw [idx_ok hvl, idx_some hlv]
  simp only [bind_okM]
  rw [addW_ok (by omega : lv + 1 ≤ P.umax)]
  simp only [bind_okM]
  rw [setIdx_ok hvl]
  simp only [bind_okM]
  rw [idx_ok (by rw [List.length_set]; exact hvl)]
  simp only [bind_okM]
  obtain ⟨A, hA, hA4⟩ := hB.arcs h.b hl
  obtain ⟨⟨pg, ws, p⟩, e, _⟩ := calcRelevance_total (relevance := params.relevance)
    (level := (st.levels.set v (max (st.levels[v]'hvl) (lv + 1)))[v]'(by rw [List.length_set]; exact hvl))
    (ms := params.maxSettledNeighborRelevance) hP (Nat.le_of_lt hn) h.b.wf hv h.b.ws hA hA4 hcnt
  rw [e]
  refine ⟨_, rfl, ?_, ?_⟩
  · simp only
    rw [List.getElem?_set_ne hne]
    exact hlv
  · intro x hx
    simp only at hx
    rcases List.mem_or_eq_of_mem_set hx with hx | rfl
    · exact hall x hx
    · have := hall _ (List.getElem_mem hvl)
      omega

theorem contractionLoop_total (hP : P.checked = true) {es : List Edge} {params : Params}
    (hR : StepsOk pq P n params.maxSettledContraction R) (hB : Bounded pq P n R es) (hcnt : n * n ≤ I32_MAX) :
    ∀ fuel (ls : List Lvl) (st : QState pq nq), QInv P n R es ls st → (nq.keys st.queue).length < fuel →
      (∀ x ∈ st.levels, x ≤ ls.length) → ∃ st', contractionLoop P params fuel ls.length st = .ok st' := by
  intro fuel
  induction fuel with
  | zero => intro ls st _ h; omega
  | succ fuel ih =>
    intro ls st h hf hlev
    have hlen := h.perm.length_eq
    simp only [List.length_append, List.length_map, List.length_range] at hlen
    unfold contractionLoop
    cases hp : nq.pop st.queue with
    | none => exact ⟨st, rfl⟩
    | some r =>
      obtain ⟨node, queue⟩ := r
      simp only
      have hk := nq.pop_some _ _ _ hp
      have hkl := hk.length_eq
      simp only [List.length_cons] at hkl
      have hnode : node < n := by
        apply List.mem_range.1
        apply h.perm.subset
        rw [List.mem_append]
        exact Or.inl (hk.symm.subset (List.mem_cons_self ..))
      have hnd : (nq.keys st.queue ++ ls.map Lvl.node).Nodup := h.perm.nodup_iff.2 List.nodup_range
      have hnew : node ∉ ls.map Lvl.node := by
        intro hm
        have := (List.nodup_append.1 hnd).2.2 node (hk.symm.subset (List.mem_cons_self ..)) node hm
        exact this rfl
      have hwf := h.b.wf
      rw [idx_outEdges (by rw [hwf.lenOut]; exact hnode), idx_inEdges (by rw [hwf.lenIn]; exact hnode)]
      simp only [bind_okM]
      obtain ⟨b, eb, hb⟩ := recordAndContract_total (ms := params.maxSettledContraction) hP h.b hnode hnew (by omega) hR hB
      rw [eb]
      simp only [bind_okM]
      have hq : QInv P n R es (ls ++ [⟨node, st.b.pg.outs node, st.b.pg.ins node⟩])
          ({ st with b := b, queue := queue } : QState pq nq) := by
        refine ⟨hb, h.lv, ?_⟩
        refine List.Perm.trans ?_ h.perm
        simp only [List.map_append, List.map_cons, List.map_nil]
        refine List.Perm.trans ?_ (hk.symm.append_right _)
        rw [← List.append_assoc]
        exact List.perm_append_singleton _ _
      have hnl : node < st.levels.length := by rw [h.lv]; exact hnode
      have hloop : ∃ st', forM (updateNeighbor P params node) ({ st with b := b, queue := queue } : QState pq nq)
          (neighborSet (st.b.pg.outs node) (st.b.pg.ins node)) = .ok st' ∧
          QInv P n R es (ls ++ [⟨node, st.b.pg.outs node, st.b.pg.ins node⟩]) st' ∧
            st'.levels[node]? = some st.levels[node] ∧ ∀ x ∈ st'.levels, x ≤ ls.length + 1 := by
        refine forM_ok_of (fun _ (st' : QState pq nq) =>
          QInv P n R es (ls ++ [⟨node, st.b.pg.outs node, st.b.pg.ins node⟩]) st' ∧
            st'.levels[node]? = some st.levels[node] ∧ ∀ x ∈ st'.levels, x ≤ ls.length + 1)
          (s := ({ st with b := b, queue := queue } : QState pq nq))
          ⟨hq, by simp [hnl], fun x hx => Nat.le_succ_of_le (hlev x hx)⟩ ?_
        rintro pre v post st' hl ⟨hI, h1, h2⟩
        have hv : v ∈ neighborSet (st.b.pg.outs node) (st.b.pg.ins node) := by rw [hl]; simp
        have hvn : v < n ∧ v ≠ node := by
          rcases mem_neighborSet.1 hv with ⟨a, ha, rfl⟩ | ⟨a, ha, rfl⟩
          · exact ⟨hwf.adj_lt ha, hwf.noLoop _ _ ha⟩
          · exact ⟨hwf.adj_lt_in ha, hwf.noLoop_in ha⟩
        exact updateNeighbor_total hP hvn.1 hvn.2 hI (by simp; omega) hB h1 (hlev _ (List.getElem_mem hnl)) (by omega) h2 hcnt
      obtain ⟨st', e', hI, _, h2⟩ := hloop
      rw [e']
      simp only [bind_okM]
      have hlen' := hI.perm.length_eq
      simp only [List.length_append, List.length_map, List.length_range, List.length_cons, List.length_nil] at hlen'
      have := ih _ st' hI (by omega) (by simpa using h2)
      simpa using this

theorem runContraction_total (hP : P.checked = true) {ig : InputGraph} (h : FrozenOk ig) (params : Params)
    (hR : StepsOk pq P ig.numNodes params.maxSettledContraction R) (hB : Bounded pq P ig.numNodes R ig.edges)
    (hcnt : ig.numNodes * ig.numNodes ≤ I32_MAX) :
    ∃ fg, runContraction P pq nq ig ig.numNodes params = .ok fg := by
  have hn := hB.n_lt
  have hmain := runContraction_ok (pq := pq) (nq := nq) hP h params hR
  suffices hs : NoRes (runContraction P pq nq ig ig.numNodes params) by
    obtain ⟨fg, e, _⟩ := hmain.total hs
    exact ⟨fg, e⟩
  clear hmain
  unfold runContraction FastGraph.new
  rw [if_pos hn]
  simp only [bind_okM]
  obtain ⟨g, e, hg⟩ := fromInputGraph_ok (P := P) h
  rw [e]
  simp only [bind_okM]
  have hinit : ∃ st, forM (initialPriority P params) (⟨⟨g, WitnessSearch.new P pq ig.numNodes,
      FastGraph.empty ig.numNodes⟩, List.replicate ig.numNodes 0, nq.empty⟩ : QState pq nq) (List.range ig.numNodes) = .ok st ∧
      (BInv P ig.numNodes R ig.edges [] st.b ∧ st.levels.length = ig.numNodes ∧
        (nq.keys st.queue).Perm (List.range (List.range ig.numNodes).length) ∧ ∀ x ∈ st.levels, x = 0) := by
    refine forM_ok_of (fun pre (st : QState pq nq) => BInv P ig.numNodes R ig.edges [] st.b ∧
      st.levels.length = ig.numNodes ∧ (nq.keys st.queue).Perm (List.range pre.length) ∧ ∀ x ∈ st.levels, x = 0)
      ⟨BInv.start_of hn hg, by simp, by simp [nq.keys_empty], by simp⟩ ?_
    rintro pre i post st hl ⟨h1, h2, h3, h4⟩
    have hi : i = pre.length ∧ i < ig.numNodes := by
      have h0 : (List.range ig.numNodes)[pre.length]? = some i := by rw [hl]; simp
      obtain ⟨h5, h6⟩ := List.getElem?_eq_some_iff.1 h0
      simp at h5 h6
      omega
    obtain ⟨hi1, hi2⟩ := hi
    have hok := initialPriority_ok (params := params) hP hi2 h1 h2 (hi1 ▸ h3)
    have hex : ∃ st', initialPriority P params st i = .ok st' ∧ st'.levels = st.levels := by
      unfold initialPriority
      obtain ⟨A, hA, hA4⟩ := hB.arcs h1 (Nat.zero_le _)
      obtain ⟨⟨pg, ws, p⟩, e, _⟩ := calcRelevance_total (relevance := params.relevance) (level := 0)
        (ms := params.maxSettledInitialRelevance) hP (Nat.le_of_lt hn) h1.wf hi2 h1.ws hA
        hA4 hcnt
      rw [e]
      exact ⟨_, rfl, rfl⟩
    obtain ⟨st', e', hlv⟩ := hex
    obtain ⟨k1, k2, k3⟩ := hok.of_ok e'
    refine ⟨st', e', k1, k2, ?_, by rw [hlv]; exact h4⟩
    rw [List.length_append, List.length_singleton, ← hi1]
    exact k3
  obtain ⟨st, e, h1, h2, h3, h4⟩ := hinit
  rw [e]
  simp only [bind_okM]
  rw [List.length_range] at h3
  have hq : QInv P ig.numNodes R ig.edges [] st := ⟨h1, h2, by simpa using h3⟩
  have hl := h3.length_eq
  simp only [List.length_range] at hl
  obtain ⟨st', e'⟩ := contractionLoop_total (params := params) hP hR hB hcnt (ig.numNodes + 1) [] st hq (by omega)
    (fun x hx => by rw [h4 x hx]; exact Nat.le_refl _)
  rw [show ([] : List Lvl).length = 0 from rfl] at e'
  rw [e']
  exact noRes_finishContraction _ _

end FP
