import Verif.Proofs.Needed
import Verif.Proofs.Reorder
import Verif.Proofs.Recorded
import Verif.Proofs.Assemble
/-! # With a large enough budget the contraction is a function of the graph -/
namespace FP
open Spec PreparationGraph

variable {pq pq₁ pq₂ : PQ} {nq : NodeQueue} {P : Plat} {n : Nat} {α α' β γ δ σ σ' : Type}

/-- If the first run returns, so does the second, with a related value. -/
def Sim (R : α → α' → Prop) (m : M α) (m' : M α') : Prop := ∀ a, m = .ok a → ∃ a', m' = .ok a' ∧ R a a'

theorem Sim.bind {R : α → α' → Prop} {S : γ → δ → Prop} {m : M α} {m' : M α'} {f : α → M γ} {f' : α' → M δ}
    (h : Sim R m m') (hf : ∀ a a', R a a' → Sim S (f a) (f' a')) : Sim S (m >>= f) (m' >>= f') := by
  intro b hb
  obtain ⟨a, ha, hb⟩ := bind_eq_ok.1 hb
  obtain ⟨a', ha', hR⟩ := h a ha
  obtain ⟨b', hb', hS⟩ := hf a a' hR b hb
  exact ⟨b', bind_eq_ok.2 ⟨a', ha', hb'⟩, hS⟩

theorem Sim.bind_same {S : γ → δ → Prop} {m : M α} {f : α → M γ} {f' : α → M δ}
    (hf : ∀ a, m = .ok a → Sim S (f a) (f' a)) : Sim S (m >>= f) (m >>= f') :=
  Sim.bind (R := fun a a' => a = a' ∧ m = .ok a) (fun a ha => ⟨a, ha, rfl, ha⟩) (fun a a' h => by
    obtain ⟨rfl, h⟩ := h
    exact hf a h)

theorem Sim.forM {R : σ → σ' → Prop} {f : σ → γ → M σ} {f' : σ' → γ → M σ'} {l : List γ}
    (hf : ∀ s s', ∀ a ∈ l, R s s' → Sim R (f s a) (f' s' a)) {s : σ} {s' : σ'} (h : R s s') :
    Sim R (forM f s l) (forM f' s' l) := by
  induction l generalizing s s' with
  | nil =>
    intro a ha
    cases ha
    exact ⟨s', rfl, h⟩
  | cons x xs ih =>
    rw [forM_cons, forM_cons]
    exact Sim.bind (hf s s' x (by simp) h) (fun s1 s1' h1 => ih (fun s s' a ha => hf s s' a (by simp [ha])) h1)

theorem Sim.ok {R : α → α' → Prop} {a : α} {a' : α'} (h : R a a') : Sim R (.ok a) (.ok a') := by
  intro b hb
  cases hb
  exact ⟨a', rfl, h⟩

/-- There is a way around `v` that is not longer than `w`, or `w` is too large to be stored. -/
def Around (P : Plat) (g : PreparationGraph) (v s t w : Nat) : Prop := P.umax ≤ w ∨ ∃ w' ≤ w, Wk (g.relNo v) s t w'

open Classical in
/-- `handlePair` with the search replaced by what it finds in the graph `gi` before the loop. -/
noncomputable def exactPair (P : Plat) (gi : PreparationGraph) (v : Nat)
    (handle : PreparationGraph → β → Shortcut → M (PreparationGraph × β)) (i : Nat) (st : PreparationGraph × β) (j : Nat) :
    M (PreparationGraph × β) := do
  let insN ← idx st.1.inEdges v
  let ia ← idx insN i
  let outsN ← idx st.1.outEdges v
  let oa ← idx outsN j
  let weight ← addW P ia.weight oa.weight
  if Around P gi v ia.adj oa.adj weight then .ok st
  else handle st.1 st.2 ⟨ia.adj, oa.adj, v, weight⟩

/-- `handleIn` without a search -/
noncomputable def exactIn (P : Plat) (v : Nat) (handle : PreparationGraph → β → Shortcut → M (PreparationGraph × β))
    (st : PreparationGraph × β) (i : Nat) : M (PreparationGraph × β) := do
  let insN ← idx st.1.inEdges v
  let _ ← idx insN i
  let outsN ← idx st.1.outEdges v
  forM (exactPair P st.1 v handle i) st (List.range outsN.length)

/-- `handleShortcuts` without a search -/
noncomputable def exactAll (P : Plat) (graph : PreparationGraph) (v : Nat)
    (handle : PreparationGraph → β → Shortcut → M (PreparationGraph × β)) (acc : β) : M (PreparationGraph × β) := do
  let insN ← idx graph.inEdges v
  forM (exactIn P v handle) (graph, acc) (List.range insN.length)

/-- With a budget above the number of nodes the search has no influence besides telling which ways around exist. -/
theorem handleShortcuts_exact (hP : P.checked = true) (hn : n ≤ P.umax) {g : PreparationGraph} {v : Nat} (hv : v < n)
    {handle : PreparationGraph → β → Shortcut → M (PreparationGraph × β)} {ws : WitnessSearch pq} {acc : β} {ms : Nat}
    (hms : n < ms) (G : PreparationGraph → Prop) (hG0 : G g)
    (hG : ∀ gc, G gc → WF n gc ∧ gc.outs v = g.outs v ∧ gc.ins v = g.ins v)
    (hhandle : ∀ gc acc a b r, G gc → a ∈ g.ins v → b ∈ g.outs v → a.adj ≠ b.adj → a.weight + b.weight < P.umax →
      handle gc acc ⟨a.adj, b.adj, v, a.weight + b.weight⟩ = .ok r →
      G r.1 ∧ Grow v gc r.1 ∧ ∀ u, u ≠ a.adj → r.1.outs u = gc.outs u)
    (hws : ws.Base n) :
    Sim (fun (st : HSState pq β) r => st.graph = r.1 ∧ st.acc = r.2 ∧ G st.graph ∧ st.ws.Base n)
      (handleShortcuts P g ws v handle acc ms) (exactAll P g v handle acc) := by
  have hidxI : ∀ gc, G gc → idx gc.inEdges v = .ok (g.ins v) := by
    intro gc h
    obtain ⟨wf, _, hi⟩ := hG gc h
    rw [idx_inEdges (by rw [wf.lenIn]; exact hv), hi]
  have hidxO : ∀ gc, G gc → idx gc.outEdges v = .ok (g.outs v) := by
    intro gc h
    obtain ⟨wf, ho, _⟩ := hG gc h
    rw [idx_outEdges (by rw [wf.lenOut]; exact hv), ho]
  have hwf := (hG g hG0).1
  unfold handleShortcuts exactAll
  rw [hidxI g hG0]
  simp only [bind_okM]
  refine Sim.forM ?_ ⟨rfl, rfl, hG0, hws⟩
  rintro ⟨gi, ws0, acc0⟩ ⟨g', acc'⟩ i hi ⟨h1, h2, hGst, hbase⟩
  simp only at h1 h2 hGst hbase
  subst h1 h2
  rw [List.mem_range] at hi
  unfold handleIn exactIn
  simp only
  rw [hidxI _ hGst, hidxO _ hGst]
  simp only [bind_okM]
  have hai : (g.ins v)[i]? = some (g.ins v)[i] := by simp [hi]
  generalize (g.ins v)[i] = a at hai
  have ha : a ∈ g.ins v := List.mem_of_getElem? hai
  have halt : a.adj < n := hwf.adj_lt_in ha
  have hav : a.adj ≠ v := hwf.noLoop_in ha
  have haP : a.adj ≠ P.umax := by omega
  rw [idx_some hai]
  simp only [bind_okM]
  obtain ⟨ws', e, hinv, _⟩ := WitnessSearch.init_ok hbase halt haP hav gi
  have hci := WitnessSearch.init_CInv (g0 := gi) (E := gi.relNo v) hbase halt e haP hav
  have hsi := (WitnessSearch.init_count hbase e).1
  rw [e]
  simp only [bind_okM]
  intro st1 hrun
  obtain ⟨r, hr, k1, k2, k3, k4⟩ := Sim.forM (R := fun (st : HSState pq β) r => st.graph = r.1 ∧ st.acc = r.2 ∧ G st.graph ∧
    WitnessSearch.Inv n st.graph a.adj v st.ws ∧ WitnessSearch.CInv P (gi.relNo v) gi a.adj v st.ws ∧
    WitnessSearch.SInv n st.ws ∧ Grow v gi st.graph ∧ (∀ u, u ≠ a.adj → st.graph.outs u = gi.outs u) ∧
    (st.graph = gi ∨ st.ws.settledB a.adj = true))
    (f := handlePair P v handle ms a.adj i) (f' := exactPair P gi v handle i)
    (s := (⟨gi, ws', acc0⟩ : HSState pq β)) (s' := (gi, acc0)) (l := List.range (g.outs v).length) (by
      rintro st ⟨g', acc'⟩ j hj ⟨rfl, rfl, hGst, hinv, hci, hsi, hgr, hoff, hfirst⟩
      rw [List.mem_range] at hj
      unfold handlePair exactPair
      simp only
      rw [hidxI _ hGst, hidxO _ hGst]
      simp only [bind_okM]
      rw [idx_some hai]
      have hbj : (g.outs v)[j]? = some (g.outs v)[j] := by simp [hj]
      generalize (g.outs v)[j] = b at hbj
      have hb : b ∈ g.outs v := List.mem_of_getElem? hbj
      rw [idx_some hbj]
      simp only [bind_okM]
      refine Sim.bind_same (fun w hw => ?_)
      obtain ⟨rfl, hw⟩ := (Tri_addW hP _ _).of_ok hw
      obtain ⟨hwfs, _, _⟩ := hG _ hGst
      intro st2 hst2
      obtain ⟨⟨ws2, mw⟩, hf, hst2⟩ := bind_eq_ok.1 hst2
      have hE : ∀ x y w, st.ws.settledB x = false → st.graph.relNo v x y w → gi.relNo v x y w := by
        rintro x y w hx ⟨⟨c, hc⟩, h1, h2⟩
        rcases hfirst with h | h
        · rw [← h]; exact ⟨⟨c, hc⟩, h1, h2⟩
        · have hxa : x ≠ a.adj := by
            rintro rfl
            rw [h] at hx
            cases hx
          rw [hoff x hxa] at hc
          exact ⟨⟨c, hc⟩, h1, h2⟩
      obtain ⟨hinv2, hci2, hmono, ⟨hmx, hwk⟩, hno⟩ := (WitnessSearch.findMaxWeight_exact hP hwfs hgr hE hinv hci haP (hwf.adj_lt hb)
        (hwf.noLoop _ _ hb)).of_ok hf
      obtain ⟨_, hsame, _⟩ := (WitnessSearch.findMaxWeight_ok hP hwfs.lax hinv haP (hwf.adj_lt hb) (hwf.noLoop _ _ hb)).of_ok hf
      have hsi2 := (WitnessSearch.findMaxWeight_count hP hsi hf).1
      simp only at hinv2 hci2 hmono hmx hwk hno hsame hsi2 hst2
      have hcnt : ws2.settledNodes < ms := by
        rw [← hsi2.cnt]
        have : WitnessSearch.cntB n ws2 ≤ (List.range n).length := List.countP_le_length
        rw [List.length_range] at this
        omega
      have hiff : mw ≤ a.weight + b.weight ↔ Around P gi v a.adj b.adj (a.weight + b.weight) := by
        constructor
        · intro h
          rcases hwk with h1 | h1
          · exact Or.inl (by omega)
          · exact Or.inr ⟨mw, h, h1⟩
        · rintro (h | ⟨w', h1, h2⟩)
          · omega
          · by_contra hc
            have := (hno hcnt (by omega)).1 w' h2
            omega
      by_cases hmw : mw ≤ a.weight + b.weight
      · rw [if_pos hmw] at hst2
        rw [if_pos (hiff.1 hmw)]
        cases hst2
        refine ⟨_, rfl, rfl, rfl, hGst, hinv2, hci2, hsi2, hgr, hoff, ?_⟩
        rcases hfirst with h | h
        · exact Or.inl h
        · exact Or.inr (hmono _ h)
      · rw [if_neg hmw] at hst2
        rw [if_neg (fun h => hmw (hiff.2 h))]
        obtain ⟨⟨g2, acc2⟩, hh, hst2⟩ := bind_eq_ok.1 hst2
        cases hst2
        have hne : a.adj ≠ b.adj := by
          intro e
          have := hsame e.symm
          omega
        obtain ⟨j1, j2, j3⟩ := hhandle _ _ a b _ hGst ha hb hne (by omega) hh
        exact ⟨_, hh, rfl, rfl, j1, hinv2.mono j2, hci2, hsi2, hgr.trans j2, fun u hu => (j3 u hu).trans (hoff u hu),
          Or.inr ((hno hcnt (by omega)).2 (by omega))⟩)
    ⟨rfl, rfl, hGst, hinv, hci, hsi, Grow.refl _, fun _ _ => rfl, Or.inl rfl⟩ st1 hrun
  exact ⟨r, hr, k1, k2, k3, k4.1.toBase⟩

/-- The contraction of a node as a function of the graph alone. -/
noncomputable def exactContract (P : Plat) (g : PreparationGraph) (v : Nat) : M PreparationGraph := do
  let r ← exactAll P g v addShortcut ()
  r.1.disconnect v

theorem contractNode_exact (hP : P.checked = true) (hn : n ≤ P.umax) {g : PreparationGraph} (hg : WF n g) {v : Nat} (hv : v < n)
    {ws : WitnessSearch pq} (hws : ws.Base n) {ms : Nat} (hms : n < ms) {g' : PreparationGraph} {ws' : WitnessSearch pq}
    (h : contractNode P g ws v ms = .ok (g', ws')) : exactContract P g v = .ok g' := by
  unfold contractNode at h
  obtain ⟨st, h1, h⟩ := bind_eq_ok.1 h
  obtain ⟨g2, h2, h⟩ := bind_eq_ok.1 h
  cases h
  obtain ⟨r, hr, e, _⟩ := handleShortcuts_exact hP hn hv hms (ExtG P n g v) (ExtG.refl hg)
    (fun gc h => ⟨h.wf, h.outs_v, h.ins_v⟩) (by
      intro gc acc a b r h ha hb hne hw hrun
      obtain ⟨g', e, k1, k2, _⟩ := h.add hg ha hb hne (Nat.le_of_lt hw) acc
      rw [e] at hrun
      cases hrun
      refine ⟨k1, k2, fun u hu => ?_⟩
      obtain ⟨g2, e2, sp⟩ := addOrReduceEdge_ok (w := a.weight + b.weight) (c := v) h.wf (hg.adj_lt_in ha) (hg.adj_lt hb) hne
      have hgg : g2 = g' := by
        unfold addShortcut at e
        rw [e2] at e
        injection e with e
        exact congrArg Prod.fst e
      subst hgg
      exact sp.outs_ne u hu) hws st h1
  unfold exactContract
  rw [hr]
  simp only [bind_okM]
  rw [← e]
  exact h2

theorem contractNode_unique (hP : P.checked = true) (hn : n ≤ P.umax) {g : PreparationGraph} (hg : WF n g) {v : Nat} (hv : v < n)
    {w₁ : WitnessSearch pq₁} {w₂ : WitnessSearch pq₂} (h₁ : w₁.Base n) (h₂ : w₂.Base n) {m₁ m₂ : Nat} (hm₁ : n < m₁) (hm₂ : n < m₂)
    {r₁ : PreparationGraph × WitnessSearch pq₁} {r₂ : PreparationGraph × WitnessSearch pq₂}
    (e₁ : contractNode P g w₁ v m₁ = .ok r₁) (e₂ : contractNode P g w₂ v m₂ = .ok r₂) : r₁.1 = r₂.1 := by
  have k1 := contractNode_exact hP hn hg hv h₁ hm₁ (g' := r₁.1) (ws' := r₁.2) e₁
  have k2 := contractNode_exact hP hn hg hv h₂ hm₂ (g' := r₂.1) (ws' := r₂.2) e₂
  rw [k1] at k2
  injection k2

theorem calcRelevance_exact (hP : P.checked = true) (hn : n ≤ P.umax) {g : PreparationGraph} (hg : WF n g) {v : Nat} (hv : v < n)
    {ws : WitnessSearch pq} (hws : ws.Base n) {ms : Nat} (hms : n < ms) {rel : Nat → Int → Nat → Nat} {level : Nat}
    {r : PreparationGraph × WitnessSearch pq × Nat} (h : calcRelevance P rel g ws v level ms = .ok r) :
    ∃ k, exactAll P g v (countShortcut P) 0 = .ok (g, k) ∧ r.2.2 = rel level k ((g.outs v).length + (g.ins v).length) := by
  unfold calcRelevance at h
  obtain ⟨st, h1, h⟩ := bind_eq_ok.1 h
  obtain ⟨⟨g', k⟩, hr, e1, e2, e3, _⟩ := handleShortcuts_exact hP hn hv hms (fun gc => gc = g) rfl
    (fun gc h => by subst h; exact ⟨hg, rfl, rfl⟩) (by
      rintro gc acc a b r rfl _ _ _ _ hrun
      have := countShortcut_graph hrun
      exact ⟨this, by rw [this]; exact Grow.refl _, fun u _ => by rw [this]⟩) hws st h1
  simp only at e1 e2
  subst e1 e2
  rw [e3] at h hr
  rw [idx_outEdges (by rw [hg.lenOut]; exact hv), idx_inEdges (by rw [hg.lenIn]; exact hv)] at h
  cases h
  exact ⟨_, hr, rfl⟩

theorem calcRelevance_unique (hP : P.checked = true) (hn : n ≤ P.umax) {g : PreparationGraph} (hg : WF n g) {v : Nat} (hv : v < n)
    {w₁ : WitnessSearch pq₁} {w₂ : WitnessSearch pq₂} (h₁ : w₁.Base n) (h₂ : w₂.Base n) {m₁ m₂ : Nat} (hm₁ : n < m₁) (hm₂ : n < m₂)
    {rel : Nat → Int → Nat → Nat} {level : Nat} {r₁ : PreparationGraph × WitnessSearch pq₁ × Nat}
    {r₂ : PreparationGraph × WitnessSearch pq₂ × Nat} (e₁ : calcRelevance P rel g w₁ v level m₁ = .ok r₁)
    (e₂ : calcRelevance P rel g w₂ v level m₂ = .ok r₂) : r₁.2.2 = r₂.2.2 := by
  obtain ⟨k, a1, a2⟩ := calcRelevance_exact hP hn hg hv h₁ hm₁ e₁
  obtain ⟨k', b1, b2⟩ := calcRelevance_exact hP hn hg hv h₂ hm₂ e₂
  rw [a1] at b1
  cases b1
  rw [a2, b2]

/-! ### Two runs of the preparation -/

/-- If both runs return, the values are related. -/
def Both (R : α → α' → Prop) (m : M α) (m' : M α') : Prop := ∀ a a', m = .ok a → m' = .ok a' → R a a'

theorem Both.bind {R : α → α' → Prop} {S : γ → δ → Prop} {m : M α} {m' : M α'} {f : α → M γ} {f' : α' → M δ}
    (h : Both R m m') (hf : ∀ a a', R a a' → Both S (f a) (f' a')) : Both S (m >>= f) (m' >>= f') := by
  intro b b' hb hb'
  obtain ⟨a, ha, hb⟩ := bind_eq_ok.1 hb
  obtain ⟨a', ha', hb'⟩ := bind_eq_ok.1 hb'
  exact hf a a' (h a a' ha ha') b b' hb hb'

theorem Both.bind_same {S : γ → δ → Prop} {m : M α} {f : α → M γ} {f' : α → M δ}
    (hf : ∀ a, m = .ok a → Both S (f a) (f' a)) : Both S (m >>= f) (m >>= f') := by
  intro b b' hb hb'
  obtain ⟨a, ha, hb⟩ := bind_eq_ok.1 hb
  obtain ⟨a', ha', hb'⟩ := bind_eq_ok.1 hb'
  rw [ha] at ha'
  cases ha'
  exact hf a ha b b' hb hb'

theorem Both.forM {R : σ → σ' → Prop} {f : σ → γ → M σ} {f' : σ' → γ → M σ'} {l : List γ}
    (hf : ∀ s s', ∀ a ∈ l, R s s' → Both R (f s a) (f' s' a)) {s : σ} {s' : σ'} (h : R s s') :
    Both R (forM f s l) (forM f' s' l) := by
  induction l generalizing s s' with
  | nil =>
    intro a a' ha ha'
    cases ha
    cases ha'
    exact h
  | cons x xs ih =>
    rw [forM_cons, forM_cons]
    exact Both.bind (hf s s' x (by simp) h) (fun s1 s1' h1 => ih (fun s s' a ha => hf s s' a (by simp [ha])) h1)

theorem Both.forM_pre {R : List γ → σ → σ' → Prop} {f : σ → γ → M σ} {f' : σ' → γ → M σ'} : ∀ (l pre : List γ),
    (∀ pre' a post s s', pre ++ l = pre' ++ a :: post → R pre' s s' → Both (R (pre' ++ [a])) (f s a) (f' s' a)) →
    ∀ {s : σ} {s' : σ'}, R pre s s' → Both (R (pre ++ l)) (FP.forM f s l) (FP.forM f' s' l)
  | [], pre, _, s, s', h => by
    rw [List.append_nil]
    intro a a' ha ha'
    cases ha
    cases ha'
    exact h
  | x :: xs, pre, hf, s, s', h => by
    rw [forM_cons, forM_cons]
    refine Both.bind (hf pre x xs s s' rfl h) (fun s1 s1' h1 => ?_)
    have := Both.forM_pre xs (pre ++ [x]) (fun pre' a post t t' hl => hf pre' a post t t' (by rw [← hl]; simp)) h1
    simpa using this

theorem Both.ok {R : α → α' → Prop} {a : α} {a' : α'} (h : R a a') : Both R (.ok a) (.ok a') := by
  intro b b' hb hb'
  cases hb
  cases hb'
  exact h

theorem Both.eq {m m' : M α} (h : Both Eq m m') {a a' : α} (e : m = .ok a) (e' : m' = .ok a') : a = a' := h a a' e e'

/-- Builder states that agree on everything but the search. -/
structure BSame (n : Nat) (b₁ : BState pq₁) (b₂ : BState pq₂) : Prop where
  pg : b₁.pg = b₂.pg
  fg : b₁.fg = b₂.fg
  wf : WF n b₁.pg
  w₁ : b₁.ws.Base n
  w₂ : b₂.ws.Base n

theorem recordAndContract_same (hP : P.checked = true) (hn : n ≤ P.umax) {b₁ : BState pq₁} {b₂ : BState pq₂} (h : BSame n b₁ b₂)
    {m₁ m₂ : Nat} (hm₁ : n < m₁) (hm₂ : n < m₂) {rank v : Nat} (hv : v < n) :
    Both (BSame n) (recordAndContract P m₁ b₁ rank v) (recordAndContract P m₂ b₂ rank v) := by
  unfold recordAndContract
  rw [← h.pg, ← h.fg]
  refine Both.bind_same (fun fg _ => Both.bind (R := fun r₁ r₂ => r₁.1 = r₂.1 ∧ WF n r₁.1 ∧ r₁.2.Base n ∧ r₂.2.Base n) ?_ ?_)
  · intro r₁ r₂ e₁ e₂
    obtain ⟨k1, k2⟩ := (contractNode_ok hP hn h.wf hv h.w₁).of_ok e₁
    obtain ⟨_, k3⟩ := (contractNode_ok hP hn h.wf hv h.w₂).of_ok e₂
    exact ⟨contractNode_unique hP hn h.wf hv h.w₁ h.w₂ hm₁ hm₂ e₁ e₂, k1.wf, k2, k3⟩
  · rintro ⟨g1, w1⟩ ⟨g2, w2⟩ ⟨k1, k2, k3, k4⟩
    exact Both.ok ⟨k1, rfl, k2, k3, k4⟩

theorem runContractionWithOrder_same (hP : P.checked = true) {ig : InputGraph} (h : FrozenOk ig)
    {order : List Nat} {m₁ m₂ : Nat} (hm₁ : ig.numNodes < m₁) (hm₂ : ig.numNodes < m₂) :
    Both Eq (runContractionWithOrder P pq₁ ig ig.numNodes order m₁) (runContractionWithOrder P pq₂ ig ig.numNodes order m₂) := by
  unfold runContractionWithOrder
  refine Both.bind_same (fun fg hfg => Both.bind_same (fun pg hpg => ?_))
  have hn : ig.numNodes ≤ P.umax := by
    unfold FastGraph.new at hfg
    by_cases hc : ig.numNodes < P.umax
    · exact Nat.le_of_lt hc
    · rw [if_neg hc] at hfg; cases hfg
  obtain ⟨g, e, hg⟩ := fromInputGraph_ok (P := P) h
  rw [hpg] at e
  cases e
  refine Both.bind (R := BSame ig.numNodes) (Both.forM ?_ ⟨rfl, rfl, hg.wf, WitnessSearch.Base.new P pq₁ _, WitnessSearch.Base.new P pq₂ _⟩) ?_
  · rintro b₁ b₂ ⟨node, rank⟩ _ hb
    unfold orderStep
    simp only
    by_cases hlt : node ≥ ig.numNodes
    · rw [if_pos hlt, if_pos hlt]
      intro a a' ha
      cases ha
    · rw [if_neg hlt, if_neg hlt]
      exact recordAndContract_same hP hn hb hm₁ hm₂ (by omega)
  · intro b₁ b₂ hb
    rw [hb.fg]
    intro a a' ha ha'
    rw [ha] at ha'
    cases ha'
    rfl

/-- States of the priority driven contraction that agree on everything but the search. -/
structure QSame (n : Nat) (s₁ : QState pq₁ nq) (s₂ : QState pq₂ nq) : Prop where
  b : BSame n s₁.b s₂.b
  levels : s₁.levels = s₂.levels
  queue : s₁.queue = s₂.queue

theorem relevance_same (hP : P.checked = true) (hn : n ≤ P.umax) {b₁ : BState pq₁} {b₂ : BState pq₂} (h : BSame n b₁ b₂)
    {m₁ m₂ : Nat} (hm₁ : n < m₁) (hm₂ : n < m₂) {v level : Nat} (hv : v < n) (rel : Nat → Int → Nat → Nat) :
    Both (fun r₁ r₂ => r₁.1 = b₁.pg ∧ r₂.1 = b₂.pg ∧ r₁.2.1.Base n ∧ r₂.2.1.Base n ∧ r₁.2.2 = r₂.2.2)
      (calcRelevance P rel b₁.pg b₁.ws v level m₁) (calcRelevance P rel b₂.pg b₂.ws v level m₂) := by
  rintro ⟨g1, w1, p1⟩ ⟨g2, w2, p2⟩ e₁ e₂
  obtain ⟨i1, i2⟩ := calcRelevance_same h.w₁ e₁
  obtain ⟨j1, j2⟩ := calcRelevance_same h.w₂ e₂
  refine ⟨i1, j1, i2, j2, ?_⟩
  rw [← h.pg] at e₂
  exact calcRelevance_unique hP hn h.wf hv h.w₁ h.w₂ hm₁ hm₂ e₁ e₂

/-- The same parameters up to budgets, all above `n`. -/
structure WideParams (n : Nat) (p₁ p₂ : Params) : Prop where
  rel : p₁.relevance = p₂.relevance
  i₁ : n < p₁.maxSettledInitialRelevance
  i₂ : n < p₂.maxSettledInitialRelevance
  n₁ : n < p₁.maxSettledNeighborRelevance
  n₂ : n < p₂.maxSettledNeighborRelevance
  c₁ : n < p₁.maxSettledContraction
  c₂ : n < p₂.maxSettledContraction

theorem updateNeighbor_both (hP : P.checked = true) (hn : n ≤ P.umax) {p₁ p₂ : Params} (hp : WideParams n p₁ p₂)
    {s₁ : QState pq₁ nq} {s₂ : QState pq₂ nq} (h : QSame n s₁ s₂) {node k : Nat} (hk : k < n) :
    Both (QSame n) (updateNeighbor P p₁ node s₁ k) (updateNeighbor P p₂ node s₂ k) := by
  unfold updateNeighbor
  rw [← h.levels]
  refine Both.bind_same (fun ln _ => Both.bind_same (fun lv _ => Both.bind_same (fun lv1 _ => Both.bind_same (fun levels _ =>
    Both.bind_same (fun l _ => ?_)))))
  rw [← hp.rel]
  refine Both.bind (relevance_same hP hn h.b hp.n₁ hp.n₂ hk p₁.relevance) ?_
  rintro ⟨g1, w1, r1⟩ ⟨g2, w2, r2⟩ ⟨k1, k2, k3, k4, k5⟩
  simp only at k1 k2 k3 k4 k5
  subst k1 k2 k5
  refine Both.ok ⟨⟨h.b.pg, h.b.fg, h.b.wf, k3, k4⟩, rfl, ?_⟩
  simp only
  rw [h.queue]

theorem mem_neighborSet_lt {g : PreparationGraph} (hg : WF n g) {v x : Nat} (hv : v < n) {outs ins : List Arc} (ho : idx g.outEdges v = .ok outs)
    (hi : idx g.inEdges v = .ok ins) (hx : x ∈ neighborSet outs ins) : x < n := by
  rw [idx_outEdges (by rw [hg.lenOut]; exact hv)] at ho
  rw [idx_inEdges (by rw [hg.lenIn]; exact hv)] at hi
  cases ho
  cases hi
  rcases mem_neighborSet.1 hx with ⟨a, ha, rfl⟩ | ⟨a, ha, rfl⟩
  · exact hg.adj_lt ha
  · exact hg.adj_lt_in ha

theorem contractionLoop_both (hP : P.checked = true) (hn : n ≤ P.umax) {p₁ p₂ : Params} (hp : WideParams n p₁ p₂) :
    ∀ (fuel rank : Nat) (s₁ : QState pq₁ nq) (s₂ : QState pq₂ nq), QSame n s₁ s₂ → (∀ k ∈ nq.keys s₁.queue, k < n) →
      Both (QSame n) (contractionLoop P p₁ fuel rank s₁) (contractionLoop P p₂ fuel rank s₂)
  | 0, _, _, _, _, _ => by
    intro a a' ha
    cases ha
  | fuel + 1, rank, s₁, s₂, h, hkeys => by
    unfold contractionLoop
    rw [← h.queue]
    cases hpop : nq.pop s₁.queue with
    | none => exact Both.ok h
    | some r =>
      obtain ⟨node, queue⟩ := r
      simp only
      have hpm := nq.pop_some _ _ _ hpop
      have hnode : node < n := hkeys node (hpm.mem_iff.2 (by simp))
      have hq : ∀ k ∈ nq.keys queue, k < n := fun k hk => hkeys k (hpm.mem_iff.2 (List.mem_cons_of_mem _ hk))
      rw [← h.b.pg]
      refine Both.bind_same (fun outs ho => Both.bind_same (fun ins hi => Both.bind
        (recordAndContract_same hP hn h.b hp.c₁ hp.c₂ hnode) (fun b₁ b₂ hb => ?_)))
      refine Both.bind (R := fun t₁ t₂ => QSame n t₁ t₂ ∧ ∀ k ∈ nq.keys t₁.queue, k < n) (Both.forM ?_ ⟨⟨hb, h.levels, rfl⟩, hq⟩) ?_
      · rintro t₁ t₂ k hk ⟨ht, htk⟩
        have hkn := mem_neighborSet_lt h.b.wf hnode ho hi hk
        intro a a' ha ha'
        refine ⟨updateNeighbor_both hP hn hp ht hkn a a' ha ha', ?_⟩
        obtain ⟨_, _, _, hperm⟩ := updateNeighbor_same ht.b.w₁ ha
        exact fun k hk => htk k (hperm.mem_iff.1 hk)
      · rintro t₁ t₂ ⟨ht, htk⟩
        exact contractionLoop_both hP hn hp fuel (rank + 1) t₁ t₂ ht htk

theorem runContraction_same (hP : P.checked = true) {ig : InputGraph} (h : FrozenOk ig)
    {p₁ p₂ : Params} (hp : WideParams ig.numNodes p₁ p₂) :
    Both Eq (runContraction P pq₁ nq ig ig.numNodes p₁) (runContraction P pq₂ nq ig ig.numNodes p₂) := by
  unfold runContraction
  refine Both.bind_same (fun fg hfg => Both.bind_same (fun pg hpg => ?_))
  have hn : ig.numNodes ≤ P.umax := by
    unfold FastGraph.new at hfg
    by_cases hc : ig.numNodes < P.umax
    · exact Nat.le_of_lt hc
    · rw [if_neg hc] at hfg; cases hfg
  obtain ⟨g, e, hg⟩ := fromInputGraph_ok (P := P) h
  rw [hpg] at e
  cases e
  refine Both.bind (R := fun t₁ t₂ => QSame ig.numNodes t₁ t₂ ∧ (nq.keys t₁.queue).Perm (List.range ig.numNodes)) ?_ ?_
  · refine Both.forM_pre (R := fun pre t₁ t₂ => QSame ig.numNodes t₁ t₂ ∧ (nq.keys t₁.queue).Perm pre) (List.range ig.numNodes) []
      ?_ ⟨⟨⟨rfl, rfl, hg.wf, WitnessSearch.Base.new P pq₁ _, WitnessSearch.Base.new P pq₂ _⟩, rfl, rfl⟩, by rw [nq.keys_empty]⟩
    rintro pre k post t₁ t₂ hl ⟨ht, htk⟩
    rw [List.nil_append] at hl
    have hk : k < ig.numNodes := List.mem_range.1 (by rw [hl]; simp)
    have hnew : k ∉ nq.keys t₁.queue := by
      rw [htk.mem_iff]
      have := List.nodup_range (n := ig.numNodes)
      rw [hl] at this
      exact fun hm => (List.nodup_append.1 this).2.2 k hm k (by simp) rfl
    unfold initialPriority
    rw [← hp.rel]
    refine Both.bind (relevance_same hP hn ht.b hp.i₁ hp.i₂ hk p₁.relevance) ?_
    rintro ⟨g1, w1, r1⟩ ⟨g2, w2, r2⟩ ⟨k1, k2, k3, k4, k5⟩
    simp only at k1 k2 k3 k4 k5
    subst k1 k2 k5
    refine Both.ok ⟨⟨⟨ht.b.pg, ht.b.fg, ht.b.wf, k3, k4⟩, ht.levels, ?_⟩, ?_⟩
    · simp only
      rw [ht.queue]
    · exact (nq.keys_push _ _ _ hnew).trans ((htk.cons k).trans (List.perm_append_singleton k pre).symm)
  · rintro t₁ t₂ ⟨ht, htk⟩
    refine Both.bind (contractionLoop_both hP hn hp _ _ _ _ ht (fun k hk => List.mem_range.1 (htk.mem_iff.1 hk))) ?_
    intro b₁ b₂ hb
    rw [hb.b.fg]
    intro a a' ha ha'
    rw [ha] at ha'
    cases ha'
    rfl

end FP
