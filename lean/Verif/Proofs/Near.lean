import Verif.Proofs.ZeroBudget
import Verif.Proofs.WitnessLimit
import Verif.Proofs.Budget
/-! # Searches that use up their budget in a small neighbourhood

When the nodes closest to the start are known and there are as many of them as the search may settle, the answer of the search
depends on their arcs only. -/
namespace FP
open Spec PreparationGraph

variable {pq : PQ} {P : Plat} {n : Nat}

theorem length_le_countP {p : Nat → Bool} {L : List Nat} (hnd : L.Nodup) (h : ∀ x ∈ L, x < n ∧ p x = true) :
    L.length ≤ (List.range n).countP p := by
  rw [List.countP_eq_length_filter]
  exact (List.subperm_of_subset hnd (fun x hx => List.mem_filter.2 ⟨List.mem_range.2 (h x hx).1, (h x hx).2⟩)).length_le

theorem countP_le_length {p : Nat → Bool} {L : List Nat} (h : ∀ x < n, p x = true → x ∈ L) :
    (List.range n).countP p ≤ L.length := by
  rw [List.countP_eq_length_filter]
  refine (List.subperm_of_subset (List.Nodup.filter _ List.nodup_range) (fun x hx => ?_)).length_le
  obtain ⟨h1, h2⟩ := List.mem_filter.1 hx
  exact h x (List.mem_range.1 h1) h2

/-- The `k` nodes closest to `s`: `s`, nodes `Es` without arcs, and `y` at distance `r`; every other arc of `s` weighs more
than `r`. -/
structure Near (E : EdgeRel) (n k s y r : Nat) (Es : List Nat) : Prop where
  nd : (s :: y :: Es).Nodup
  len : Es.length + 2 = k
  lt : ∀ u ∈ s :: y :: Es, u < n
  arcE : ∀ u ∈ Es, ∃ w, w ≤ r ∧ E s u w
  arcY : E s y r
  only : ∀ u w, E s u w → u ∈ Es ∨ (u = y ∧ w = r) ∨ r < w
  dead : ∀ u ∈ Es, ∀ q w, ¬ E u q w
  pos : ∀ q w, E y q w → 0 < w

theorem Near.walk {E : EdgeRel} {k s y r : Nat} {Es : List Nat} (h : Near E n k s y r Es) {q w : Nat} (hw : Wk E s q w) :
    q = s ∨ q ∈ Es ∨ (q = y ∧ r ≤ w) ∨ r < w := by
  have key : ∀ p q w, Wk E p q w → ∀ w₀, (p = s ∨ p ∈ Es ∨ (p = y ∧ r ≤ w₀) ∨ r < w₀) →
      (q = s ∨ q ∈ Es ∨ (q = y ∧ r ≤ w₀ + w) ∨ r < w₀ + w) := by
    intro p q w hw
    induction hw with
    | nil => intro w₀ h0; simpa using h0
    | cons e _ ih =>
      rename_i a b _
      intro w₀ h0
      rw [← Nat.add_assoc]
      apply ih
      rcases h0 with k1 | k1 | ⟨k1, k2⟩ | k1
      · subst k1
        rcases h.only _ _ e with k1 | ⟨k1, k2⟩ | k1
        · exact Or.inr (Or.inl k1)
        · exact Or.inr (Or.inr (Or.inl ⟨k1, by omega⟩))
        · exact Or.inr (Or.inr (Or.inr (by omega)))
      · exact absurd e (h.dead _ k1 _ _)
      · subst k1
        have := h.pos _ _ e
        exact Or.inr (Or.inr (Or.inr (by omega)))
      · exact Or.inr (Or.inr (Or.inr (by omega)))
  simpa using key s q w hw 0 (Or.inl rfl)

namespace WitnessSearch
variable {ws : WitnessSearch pq} {g g0 : PreparationGraph} {s v : Nat} {E : EdgeRel}

theorem settledB_look {x : Nat} (h : ws.settledB x = true) : ∃ d, ws.look x = some d ∧ d.settled = true := by
  unfold settledB at h
  cases hl : ws.look x with
  | none => rw [hl] at h; cases h
  | some d => rw [hl] at h; exact ⟨d, rfl, h⟩

/-- Once a node is settled, so is every node with a label below that of it. -/
theorem CInv.below (h : CInv P E g0 s v ws) (hi : Inv n g s v ws) {u x : Nat} (hu : ws.settledB u = true)
    (hx : ws.wt P x < ws.wt P u) : ws.settledB x = true := by
  obtain ⟨du, hl, hs⟩ := settledB_look hu
  rw [wt_some hl] at hx
  have := h.fit _ _ hl
  cases hlx : ws.look x with
  | none => rw [wt_none hlx] at hx; omega
  | some d =>
    rw [settledB_some hlx]
    by_contra hc
    obtain ⟨it, k1, _, k3⟩ := h.opn x d hlx (by simpa using hc)
    have := hi.settled _ _ hl hs it k1
    rw [wt_some hlx] at hx
    omega

/-- With positive weights the start is settled first. -/
theorem CInv.start_first (h : CInv P E g0 s v ws) (hi : Inv n g s v ws) (hpos : ∀ a b w, E a b w → 0 < w) {u : Nat}
    (hu : ws.settledB u = true) : ws.settledB s = true := by
  by_cases hus : u = s
  · rw [← hus]; exact hu
  · obtain ⟨du, hl, hs⟩ := settledB_look hu
    refine h.below hi hu ?_
    rw [h.root, wt_some hl]
    rcases h.par _ _ hl with k | ⟨p, w, _, k2, k3⟩
    · exact absurd k hus
    · have := hpos _ _ _ k2
      omega

variable {k y r : Nat} {Es : List Nat}

theorem CInv.near_sub (h : CInv P E g0 s v ws) (hi : Inv n g s v ws) (hE : ∀ a b w, E a b w → g0.relNo v a b w)
    (hN : Near E n k s y r Es) (hs : SInv n ws) (hk : ws.settledNodes ≤ k) {u : Nat}
    (hu : ws.settledB u = true) : u ∈ s :: y :: Es := by
  by_contra hc
  simp only [List.mem_cons, not_or] at hc
  obtain ⟨d, hl, hd⟩ := settledB_look hu
  have hru : r < ws.wt P u := by
    rw [wt_some hl]
    rcases hN.walk (h.ex _ _ hl) with k1 | k1 | ⟨k1, _⟩ | k1
    · exact absurd k1 hc.1
    · exact absurd k1 hc.2.2
    · exact absurd k1 hc.2.1
    · exact k1
  have hss : ws.settledB s = true := h.below hi hu (by rw [h.root]; omega)
  have hall : ∀ x ∈ s :: y :: Es, x < n ∧ ws.settledB x = true := by
    intro x hx
    refine ⟨hN.lt x hx, ?_⟩
    rcases List.mem_cons.1 hx with rfl | hx
    · exact hss
    · obtain ⟨w, k1, k2⟩ : ∃ w, w ≤ r ∧ E s x w := by
        rcases List.mem_cons.1 hx with rfl | hx
        · exact ⟨r, Nat.le_refl _, hN.arcY⟩
        · exact hN.arcE x hx
      have := h.done s x w hss (hE _ _ _ k2)
      rw [h.root] at this
      exact h.below hi hu (by omega)
  have hun : u < n := hi.tab.look_lt hl
  have := length_le_countP (n := n) (p := ws.settledB) (L := u :: s :: y :: Es)
    (List.nodup_cons.2 ⟨by simp only [List.mem_cons, not_or]; exact hc, hN.nd⟩)
    (by
      intro x hx
      rcases List.mem_cons.1 hx with rfl | hx
      · exact ⟨hun, hu⟩
      · exact hall x hx)
  have hc := hs.cnt
  unfold cntB at hc
  have := hN.len
  simp only [List.length_cons] at *
  omega

/-- What the search answers. -/
theorem CInv.near_iff (h : CInv P E g0 s v ws) (hi : Inv n g s v ws) (hE : ∀ a b w, E a b w → g0.relNo v a b w)
    (hN : Near E n k s y r Es) (hs : SInv n ws) (hk : ws.settledNodes ≤ k) {t wl : Nat} (hts : t ≠ s)
    (hwl : wl < P.umax) (hno : ws.settledNodes < k → wl < ws.wt P t → ∀ w, Wk E s t w → wl < w) :
    ws.wt P t ≤ wl ↔ (∃ w, w ≤ wl ∧ E s t w) ∨ ∃ w, E y t w ∧ r + w ≤ wl := by
  have hsub := fun u hu => h.near_sub hi hE hN hs hk (u := u) hu
  constructor
  · intro hw
    cases hl : ws.look t with
    | none => rw [wt_none hl] at hw; omega
    | some d =>
      rw [wt_some hl] at hw
      rcases h.par _ _ hl with k1 | ⟨u, w, k1, k2, k3⟩
      · exact absurd k1 hts
      · rcases List.mem_cons.1 (hsub u k1) with rfl | hu
        · rw [h.root] at k3
          exact Or.inl ⟨w, by omega, k2⟩
        · rcases List.mem_cons.1 hu with rfl | hu
          · obtain ⟨du, hlu, _⟩ := settledB_look k1
            have hnd := hN.nd
            simp only [List.nodup_cons, List.mem_cons, not_or] at hnd
            have : r ≤ ws.wt P u := by
              rw [wt_some hlu]
              rcases hN.walk (h.ex _ _ hlu) with j | j | ⟨_, j⟩ | j
              · exact absurd j.symm hnd.1.1
              · exact absurd j hnd.2.1
              · exact j
              · omega
            exact Or.inr ⟨w, k2, by omega⟩
          · exact absurd k2 (hN.dead u hu _ _)
  · intro hor
    by_contra hc
    have hfull : ∀ x ∈ s :: y :: Es, ws.settledB x = true := by
      intro x hx
      by_contra hxs
      have hlt : ws.settledNodes < k := by
        rw [← hs.cnt]
        have := countP_le_length (n := n) (p := ws.settledB) (L := (s :: y :: Es).erase x) (by
          intro z _ hz
          refine (List.mem_erase_of_ne ?_).2 (hsub z hz)
          rintro rfl
          exact hxs hz)
        rw [List.length_erase_of_mem hx] at this
        have := hN.len
        unfold cntB
        simp only [List.length_cons] at *
        omega
      have hbad := hno hlt (by omega)
      rcases hor with ⟨w, k1, k2⟩ | ⟨w, k1, k2⟩
      · have := hbad w (Wk.single k2)
        omega
      · have := hbad _ ((Wk.single hN.arcY).snoc k1)
        omega
    have hs1 := hfull s (by simp)
    have hy1 := hfull y (by simp)
    rcases hor with ⟨w, k1, k2⟩ | ⟨w, k1, k2⟩
    · have := h.done _ _ _ hs1 (hE _ _ _ k2)
      rw [h.root] at this
      omega
    · have h1 := h.done _ _ _ hy1 (hE _ _ _ k1)
      have h2 := h.done _ _ _ hs1 (hE _ _ _ hN.arcY)
      rw [h.root] at h2
      omega

/-- A direct arc is found. -/
theorem CInv.direct (h : CInv P E g0 s v ws) (hi : Inv n g s v ws) (hE : ∀ a b w, E a b w → g0.relNo v a b w)
    (hpos : ∀ a b w, E a b w → 0 < w) (hs : SInv n ws) (hk : 0 < k) {t wl : Nat}
    (hno : ws.settledNodes < k → wl < ws.wt P t → ∀ w, Wk E s t w → wl < w)
    {w : Nat} (hw : w ≤ wl) (ha : E s t w) : ws.wt P t ≤ wl := by
  by_contra hc
  by_cases hlt : ws.settledNodes < k
  · have := hno hlt (by omega) w (Wk.single ha)
    omega
  · obtain ⟨u, hu⟩ : ∃ u, ws.settledB u = true := by
      have hcnt := hs.cnt
      unfold cntB at hcnt
      obtain ⟨u, _, hu⟩ := List.countP_pos_iff.1 (show 0 < (List.range n).countP ws.settledB by omega)
      exact ⟨u, hu⟩
    have := h.done _ _ _ (h.start_first hi hpos hu) (hE _ _ _ ha)
    rw [h.root] at this
    omega

/-- The start is settled after an unsuccessful search. -/
theorem CInv.start_after (h : CInv P E g0 s v ws) (hi : Inv n g s v ws) (hpos : ∀ a b w, E a b w → 0 < w) (hs : SInv n ws)
    (hk : 0 < k) (hno : ws.settledNodes < k → ws.settledB s = true) : ws.settledB s = true := by
  by_cases hlt : ws.settledNodes < k
  · exact hno hlt
  · obtain ⟨u, hu⟩ : ∃ u, ws.settledB u = true := by
      have hcnt := hs.cnt
      unfold cntB at hcnt
      obtain ⟨u, _, hu⟩ := List.countP_pos_iff.1 (show 0 < (List.range n).countP ws.settledB by omega)
      exact ⟨u, hu⟩
    exact h.start_first hi hpos hu

/-- `find_max_weight` returns the label of the target. -/
theorem findMaxWeight_value (hP : P.checked = true) (hs : SInv n ws) {target wl sl : Nat} {r : WitnessSearch pq × Nat}
    (e : ws.findMaxWeight P g target wl sl = .ok r) (hts : target ≠ ws.startNode) (ht : target < n) : r.2 = r.1.wt P target := by
  have hb := (findMaxWeight_count hP hs e).1.toBase
  unfold findMaxWeight at e
  obtain ⟨_, _, e⟩ := bind_eq_ok.1 e
  obtain ⟨_, _, e⟩ := bind_eq_ok.1 e
  obtain ⟨_, _, e⟩ := bind_eq_ok.1 e
  rw [if_neg (by simpa using hts)] at e
  have hrest : (findLoop P g target wl sl (ws.fuelFor g) ws >>= fun ws => do
        let w ← ws.getCurrentWeight P target
        .ok (ws, w)) = .ok r → r.2 = r.1.wt P target := by
    intro e
    obtain ⟨ws', _, e⟩ := bind_eq_ok.1 e
    obtain ⟨w, e1, e⟩ := bind_eq_ok.1 e
    cases e
    rw [getCurrentWeight_ok hb ht] at e1
    injection e1 with e1
    exact e1.symm
  cases hl : ws.look target with
  | none =>
    rw [hs.tab.isValid_none ht hl] at e
    exact hrest (by simpa using e)
  | some d =>
    rw [hs.tab.isValid_some hl] at e
    simp only [bind_okM, if_true] at e
    rw [idx_of_look hl] at e
    simp only [bind_okM] at e
    by_cases hd : (d.settled || decide (d.weight ≤ wl)) = true
    · rw [if_pos hd] at e
      cases e
      simp only
      rw [wt_some hl]
    · rw [if_neg hd] at e
      exact hrest e

end WitnessSearch

theorem Near.congr {E E' : EdgeRel} {k s y r : Nat} {Es : List Nat} (h : Near E n k s y r Es)
    (hE : ∀ u ∈ s :: y :: Es, ∀ q w, E u q w ↔ E' u q w) : Near E' n k s y r Es := by
  refine ⟨h.nd, h.len, h.lt, ?_, ?_, ?_, ?_, ?_⟩
  · intro u hu
    obtain ⟨w, h1, h2⟩ := h.arcE u hu
    exact ⟨w, h1, (hE s (by simp) _ _).1 h2⟩
  · exact (hE s (by simp) _ _).1 h.arcY
  · exact fun u w hu => h.only u w ((hE s (by simp) _ _).2 hu)
  · exact fun u hu q w hq => h.dead u hu q w ((hE u (by simp [hu]) _ _).2 hq)
  · exact fun q w hq => h.pos q w ((hE y (by simp) _ _).2 hq)

theorem index_eq {l : List Arc} (h : (l.map Arc.adj).Nodup) {i j : Nat} {a b : Arc} (ha : l[i]? = some a) (hb : l[j]? = some b)
    (e : a.adj = b.adj) : i = j := by
  have h1 : (l.map Arc.adj)[i]? = some a.adj := by simp [ha]
  have h2 : (l.map Arc.adj)[j]? = some b.adj := by simp [hb]
  rw [← e] at h2
  obtain ⟨h3, _⟩ := List.getElem?_eq_some_iff.1 h1
  exact List.getElem?_inj h3 h |>.1 (h1.trans h2.symm)

/-- The weight of the way from `x` to `y` through `v`. -/
def Thru (g : PreparationGraph) (v x y w : Nat) : Prop := ∃ wa wb, g.rel x v wa ∧ g.rel v y wb ∧ w = wa + wb

/-- The shortcuts from `a` that a contraction of `v` makes are told by a predicate `Made`: either every out-node has a direct arc
that is light enough, or the search from `a` stays among the `k` closest nodes. -/
def Answers (n : Nat) (g : PreparationGraph) (v k : Nat) (Made : Nat → Nat → Prop) (a wa : Nat) : Prop :=
  (∀ b wb, g.rel v b wb → b ≠ a → (∃ w, w ≤ wa + wb ∧ g.relNo v a b w) ∧ ¬ Made a b) ∨
  ∃ y r Es, Near (g.relNo v) n k a y r Es ∧ (∀ u ∈ y :: Es, ∀ b, ¬ Made u b) ∧
    ∀ b wb, g.rel v b wb → b ≠ a →
      (Made a b ↔ ¬ ((∃ w, w ≤ wa + wb ∧ g.relNo v a b w) ∨ ∃ w, g.relNo v y b w ∧ r + w ≤ wa + wb))

/-- The graph while a node is being contracted; `S` are the pairs that have been treated. -/
structure MadeG (P : Plat) (n : Nat) (g : PreparationGraph) (v : Nat) (Made S : Nat → Nat → Prop) (gc : PreparationGraph) : Prop
    extends ExtG P n g v gc where
  rel_iff : ∀ x y w, gc.rel x y w ↔ g.rel x y w ∨ (Made x y ∧ S x y ∧ Thru g v x y w)

section
variable {g gc : PreparationGraph} {v k : Nat} {Made S S' : Nat → Nat → Prop}

theorem rel_of_ins (hg : WF n g) {a : Arc} (ha : a ∈ g.ins v) : g.rel a.adj v a.weight := ⟨a.center, hg.mirror_in ha⟩
theorem rel_of_outs {b : Arc} (hb : b ∈ g.outs v) : g.rel v b.adj b.weight := ⟨b.center, hb⟩

theorem rel_unique (hg : WF n g) {x y w w' : Nat} (h : g.rel x y w) (h' : g.rel x y w') : w = w' := by
  obtain ⟨c, h⟩ := h
  obtain ⟨c', h'⟩ := h'
  have := eq_of_adj (hg.nodupOut x) h h' rfl
  injection this

theorem thru_eq (hg : WF n g) {a b : Arc} (ha : a ∈ g.ins v) (hb : b ∈ g.outs v) {w : Nat} :
    Thru g v a.adj b.adj w ↔ w = a.weight + b.weight := by
  constructor
  · rintro ⟨wa, wb, h1, h2, rfl⟩
    rw [rel_unique hg h1 (rel_of_ins hg ha), rel_unique hg h2 (rel_of_outs hb)]
  · rintro rfl
    exact ⟨_, _, rel_of_ins hg ha, rel_of_outs hb, rfl⟩

/-- A pair for which nothing is made. -/
theorem MadeG.skip (h : MadeG P n g v Made S gc) {a b : Nat} (hn : ¬ Made a b)
    (hS : ∀ x y, S' x y ↔ S x y ∨ (x = a ∧ y = b)) : MadeG P n g v Made S' gc := by
  refine ⟨h.toExtG, ?_⟩
  intro x y w
  rw [h.rel_iff]
  constructor
  · rintro (k1 | ⟨k1, k2, k3⟩)
    · exact Or.inl k1
    · exact Or.inr ⟨k1, (hS x y).2 (Or.inl k2), k3⟩
  · rintro (k1 | ⟨k1, k2, k3⟩)
    · exact Or.inl k1
    · rcases (hS x y).1 k2 with k4 | ⟨rfl, rfl⟩
      · exact Or.inr ⟨k1, k4, k3⟩
      · exact absurd k1 hn

/-- A pair for which a shortcut is made. -/
theorem MadeG.make (h : MadeG P n g v Made S gc) (hg : WF n g) {a b : Arc} (ha : a ∈ g.ins v) (hb : b ∈ g.outs v)
    (hne : a.adj ≠ b.adj) (hw : a.weight + b.weight ≤ P.umax) (hm : Made a.adj b.adj) (hno : ∀ w, ¬ g.rel a.adj b.adj w)
    (hnS : ¬ S a.adj b.adj) (hS : ∀ x y, S' x y ↔ S x y ∨ (x = a.adj ∧ y = b.adj)) :
    ∃ g', addShortcut gc () ⟨a.adj, b.adj, v, a.weight + b.weight⟩ = .ok (g', ()) ∧ MadeG P n g v Made S' g' ∧ Grow v gc g' ∧
      ∀ u, u ≠ a.adj → g'.outs u = gc.outs u := by
  obtain ⟨g', e, h1, h2, _⟩ := h.toExtG.add hg ha hb hne hw ()
  obtain ⟨g2, e2, sp⟩ := addOrReduceEdge_ok (w := a.weight + b.weight) (c := v) h.wf (hg.adj_lt_in ha) (hg.adj_lt hb) hne
  have hgg : g2 = g' := by
    unfold addShortcut at e
    rw [e2] at e
    injection e with e
    exact congrArg Prod.fst e
  subst hgg
  refine ⟨g2, e, ⟨h1, ?_⟩, h2, sp.outs_ne⟩
  have hold : ∀ w, ¬ gc.rel a.adj b.adj w := by
    intro w hc
    rcases (h.rel_iff _ _ _).1 hc with k1 | ⟨_, k2, _⟩
    · exact hno w k1
    · exact hnS k2
  have hrel : ∀ x y w, g2.rel x y w ↔ gc.rel x y w ∨ (x = a.adj ∧ y = b.adj ∧ w = a.weight + b.weight) := by
    intro x y w
    by_cases hx : x = a.adj
    · subst hx
      constructor
      · rintro ⟨c, hc⟩
        rcases sp.back _ hc with k1 | k1
        · exact Or.inl ⟨c, k1⟩
        · injection k1 with k1 k2
          exact Or.inr ⟨rfl, k1, k2⟩
      · rintro (⟨c, hc⟩ | ⟨_, rfl, rfl⟩)
        · rcases sp.keep _ hc with k1 | ⟨k1, _⟩
          · exact ⟨c, k1⟩
          · simp only at k1
            subst k1
            exact absurd ⟨c, hc⟩ (hold w)
        · obtain ⟨e', k1, k2, _⟩ := sp.have_
          rcases sp.back _ k1 with k4 | k4
          · exact absurd ⟨e'.center, by rw [← k2]; exact k4⟩ (hold e'.weight)
          · subst k4
            exact ⟨v, k1⟩
    · unfold rel
      rw [sp.outs_ne x hx]
      simp [hx]
  intro x y w
  rw [hrel, h.rel_iff]
  constructor
  · rintro ((k1 | ⟨k1, k2, k3⟩) | ⟨rfl, rfl, k3⟩)
    · exact Or.inl k1
    · exact Or.inr ⟨k1, (hS x y).2 (Or.inl k2), k3⟩
    · exact Or.inr ⟨hm, (hS _ _).2 (Or.inr ⟨rfl, rfl⟩), (thru_eq hg ha hb).2 k3⟩
  · rintro (k1 | ⟨k1, k2, k3⟩)
    · exact Or.inl (Or.inl k1)
    · rcases (hS x y).1 k2 with k4 | ⟨rfl, rfl⟩
      · exact Or.inl (Or.inr ⟨k1, k4, k3⟩)
      · exact Or.inr ⟨rfl, rfl, (thru_eq hg ha hb).1 k3⟩

theorem handleShortcuts_made (hP : P.checked = true) (hn : n ≤ P.umax) (hg : WF n g) (hv : v < n) (hk : 0 < k)
    (hpos : ∀ x y w, g.rel x y w → 0 < w)
    (hirr : ∀ x y, Made x y → x ≠ y ∧ ∀ w, ¬ g.rel x y w)
    (hsum : ∀ a ∈ g.ins v, ∀ b ∈ g.outs v, a.weight + b.weight < P.umax)
    (hans : ∀ a ∈ g.ins v, Answers n g v k Made a.adj a.weight) {ws : WitnessSearch pq} (hws : ws.Base n) :
    Tri (handleShortcuts P g ws v addShortcut () k) (fun st => MadeG P n g v Made (fun _ _ => True) st.graph ∧ st.ws.Base n) := by
  have hidxI : ∀ gc S, MadeG P n g v Made S gc → idx gc.inEdges v = .ok (g.ins v) := by
    intro gc S h
    rw [idx_inEdges (by rw [h.wf.lenIn]; exact hv), h.ins_v]
  have hidxO : ∀ gc S, MadeG P n g v Made S gc → idx gc.outEdges v = .ok (g.outs v) := by
    intro gc S h
    rw [idx_outEdges (by rw [h.wf.lenOut]; exact hv), h.outs_v]
  have hG0 : MadeG P n g v Made (fun _ _ => False) g := ⟨ExtG.refl hg, fun x y w => by simp⟩
  let So : Nat → Nat → Nat → Prop := fun i x _ => ∃ i' < i, ∃ a', (g.ins v)[i']? = some a' ∧ a'.adj = x
  unfold handleShortcuts
  rw [hidxI g _ hG0]
  simp only [bind_okM]
  refine Tri.mono (Tri_forM_range (fun i (st : HSState pq Unit) => MadeG P n g v Made (So i) st.graph ∧ st.ws.Base n)
    ⟨⟨ExtG.refl hg, fun x y w => by simp [So]⟩, hws⟩ ?_) ?_
  · rintro i ⟨gi, ws0, acc0⟩ hi ⟨hGst, hbase⟩
    simp only at hGst hbase
    unfold handleIn
    simp only
    rw [hidxI _ _ hGst]
    simp only [bind_okM]
    have hai : (g.ins v)[i]? = some (g.ins v)[i] := by simp [hi]
    generalize (g.ins v)[i] = a at hai
    have ha : a ∈ g.ins v := List.mem_of_getElem? hai
    have halt : a.adj < n := hg.adj_lt_in ha
    have hav : a.adj ≠ v := hg.noLoop_in ha
    have haP : a.adj ≠ P.umax := by omega
    rw [idx_some hai]
    simp only [bind_okM]
    obtain ⟨ws', e, hinv, _⟩ := WitnessSearch.init_ok hbase halt haP hav gi
    have hci := WitnessSearch.init_CInv (g0 := gi) (E := gi.relNo v) hbase halt e haP hav
    obtain ⟨hsi, hs0⟩ := WitnessSearch.init_count hbase e
    rw [e]
    simp only [bind_okM]
    rw [hidxO _ _ hGst]
    simp only [bind_okM]
    -- arcs of nodes without new shortcuts
    have hsame : ∀ u, (u = a.adj ∨ ∀ b, ¬ Made u b) → ∀ q w, g.relNo v u q w ↔ gi.relNo v u q w := by
      intro u hu q w
      unfold relNo
      rw [hGst.rel_iff]
      refine ⟨fun ⟨h1, h2⟩ => ⟨Or.inl h1, h2⟩, ?_⟩
      rintro ⟨h1 | ⟨h1, h3, _⟩, h2⟩
      · exact ⟨h1, h2⟩
      · exfalso
        rcases hu with rfl | hu
        · obtain ⟨i', hi', a', h4, h5⟩ := h3
          have := index_eq (hg.nodupIn v) hai h4 h5.symm
          omega
        · exact hu q h1
    have hposi : ∀ x y w, gi.relNo v x y w → 0 < w := by
      rintro x y w ⟨h1, _⟩
      rcases (hGst.rel_iff _ _ _).1 h1 with h1 | ⟨_, _, wa, wb, h2, h3, rfl⟩
      · exact hpos _ _ _ h1
      · have := hpos _ _ _ h2
        omega
    let Si : Nat → Nat → Nat → Prop := fun j x y => So i x y ∨ (x = a.adj ∧ ∃ j' < j, ∃ b', (g.outs v)[j']? = some b' ∧ b'.adj = y)
    refine Tri.mono (Tri_forM_range (fun j (st : HSState pq Unit) => MadeG P n g v Made (Si j) st.graph ∧
      WitnessSearch.Inv n st.graph a.adj v st.ws ∧ WitnessSearch.CInv P (gi.relNo v) gi a.adj v st.ws ∧
      WitnessSearch.SInv n st.ws ∧ st.ws.settledNodes ≤ k ∧ Grow v gi st.graph ∧
      (∀ u, u ≠ a.adj → st.graph.outs u = gi.outs u) ∧ (st.graph = gi ∨ st.ws.settledB a.adj = true))
      ⟨⟨hGst.toExtG, fun x y w => by simpa [Si] using hGst.rel_iff x y w⟩, hinv, hci, hsi, by simp only; omega, Grow.refl _,
        fun _ _ => rfl, Or.inl rfl⟩ ?_) ?_
    · rintro j ⟨gc, wsc, acc⟩ hj ⟨hGc, hinv, hci, hsi, hsk, hgr, hoff, hfirst⟩
      simp only at hGc hinv hci hsi hsk hgr hoff hfirst
      unfold handlePair
      simp only
      rw [hidxI _ _ hGc, hidxO _ _ hGc]
      simp only [bind_okM]
      rw [idx_some hai]
      have hbj : (g.outs v)[j]? = some (g.outs v)[j] := by simp [hj]
      generalize (g.outs v)[j] = b at hbj
      have hb : b ∈ g.outs v := List.mem_of_getElem? hbj
      rw [idx_some hbj]
      simp only [bind_okM]
      refine Tri.bind (Tri_addW hP _ _) ?_
      rintro w ⟨rfl, hw⟩
      have hwl := hsum a ha b hb
      have hE : ∀ x y w, wsc.settledB x = false → gc.relNo v x y w → gi.relNo v x y w := by
        rintro x y w hx ⟨⟨c, hc⟩, h1, h2⟩
        rcases hfirst with h | h
        · rw [← h]; exact ⟨⟨c, hc⟩, h1, h2⟩
        · have hxa : x ≠ a.adj := by
            rintro rfl
            rw [h] at hx
            cases hx
          rw [hoff x hxa] at hc
          exact ⟨⟨c, hc⟩, h1, h2⟩
      have hblt := hg.adj_lt hb
      have hbv := hg.noLoop _ _ hb
      have hfind := WitnessSearch.findMaxWeight_exact (target := b.adj) (wl := a.weight + b.weight) (sl := k) hP hGc.wf hgr hE
        hinv hci haP hblt hbv
      have hfind2 := WitnessSearch.findMaxWeight_ok (target := b.adj) (wl := a.weight + b.weight) (sl := k) hP hGc.wf.lax
        hinv haP hblt hbv
      refine Tri.bind (Q := fun r => wsc.findMaxWeight P gc b.adj (a.weight + b.weight) k = .ok r) ?_ ?_
      · cases hf : wsc.findMaxWeight P gc b.adj (a.weight + b.weight) k with
        | ok r => exact rfl
        | error er => rw [hf] at hfind; exact hfind
      rintro ⟨ws2, mw⟩ hf
      obtain ⟨hinv2, hci2, hmono, ⟨hmx, hwk⟩, hno⟩ := hfind.of_ok hf
      obtain ⟨_, hsm, _⟩ := hfind2.of_ok hf
      obtain ⟨hsi2, hsk2⟩ := WitnessSearch.findMaxWeight_count hP hsi hf
      simp only at hinv2 hci2 hmono hmx hwk hno hsm hsi2 hsk2 ⊢
      have hsk2' : ws2.settledNodes ≤ k := by omega
      have hSi : ∀ x y, Si (j + 1) x y ↔ Si j x y ∨ (x = a.adj ∧ y = b.adj) := by
        intro x y
        constructor
        · rintro (h | ⟨h1, j', hj', b', h2, h3⟩)
          · exact Or.inl (Or.inl h)
          · by_cases hjj : j' = j
            · subst hjj
              rw [hbj] at h2
              cases h2
              exact Or.inr ⟨h1, h3.symm⟩
            · exact Or.inl (Or.inr ⟨h1, j', by omega, b', h2, h3⟩)
        · rintro ((h | ⟨h1, j', hj', b', h2, h3⟩) | ⟨h1, h2⟩)
          · exact Or.inl h
          · exact Or.inr ⟨h1, j', by omega, b', h2, h3⟩
          · exact Or.inr ⟨h1, j, by omega, b, hbj, h2.symm⟩
      have hiff : b.adj ≠ a.adj → (Made a.adj b.adj ↔ ¬ mw ≤ a.weight + b.weight) := by
        intro hba
        have hval : mw = ws2.wt P b.adj := WitnessSearch.findMaxWeight_value hP hsi hf (by rw [hinv.start]; exact hba) hblt
        have hno' : ws2.settledNodes < k → a.weight + b.weight < ws2.wt P b.adj →
            ∀ w, Wk (gi.relNo v) a.adj b.adj w → a.weight + b.weight < w := by
          intro h1 h2
          exact (hno h1 (by rw [hval]; exact h2)).1
        rw [hval]
        rcases hans a ha with hd | ⟨y, r, Es, hN, hnm, hm⟩
        · obtain ⟨⟨w, h1, h2⟩, h3⟩ := hd b.adj b.weight (rel_of_outs hb) hba
          have := hci2.direct hinv2 (fun _ _ _ h => h) hposi hsi2 hk hno' h1 ((hsame _ (Or.inl rfl) _ _).1 h2)
          exact ⟨fun h => absurd h h3, fun h => absurd this h⟩
        · have hN' : Near (gi.relNo v) n k a.adj y r Es := hN.congr (by
            intro u hu
            rcases List.mem_cons.1 hu with h | h
            · exact hsame u (Or.inl h)
            · exact hsame u (Or.inr (hnm u h)))
          rw [hm b.adj b.weight (rel_of_outs hb) hba, hci2.near_iff hinv2 (fun _ _ _ h => h) hN' hsi2 hsk2' hba hwl hno']
          have e1 : ∀ w, g.relNo v a.adj b.adj w ↔ gi.relNo v a.adj b.adj w := hsame _ (Or.inl rfl) _
          have e2 : ∀ w, g.relNo v y b.adj w ↔ gi.relNo v y b.adj w := hsame _ (Or.inr (hnm y (by simp))) _
          simp only [e1, e2]
      by_cases hmw : mw ≤ a.weight + b.weight
      · rw [if_pos hmw]
        simp only [Tri_ok]
        refine ⟨hGc.skip (a := a.adj) (b := b.adj) ?_ hSi, hinv2, hci2, hsi2, hsk2', hgr, hoff, hfirst.imp id (hmono _)⟩
        intro hM
        exact (hiff (hirr _ _ hM).1.symm).1 hM hmw
      · rw [if_neg hmw]
        have hne : a.adj ≠ b.adj := by
          intro e
          have := hsm e.symm
          omega
        have hM := (hiff hne.symm).2 hmw
        obtain ⟨g2, e2, h1, h2, h3⟩ := hGc.make hg ha hb hne (by omega) hM (hirr _ _ hM).2 (by
          rintro (⟨i', hi', a', h4, h5⟩ | ⟨_, j', hj', b', h4, h5⟩)
          · have := index_eq (hg.nodupIn v) hai h4 h5.symm
            omega
          · have := index_eq (hg.nodupOut v) hbj h4 h5.symm
            omega) hSi
        rw [e2]
        simp only [bind_okM, Tri_ok]
        refine ⟨h1, hinv2.mono h2, hci2, hsi2, hsk2', hgr.trans h2, fun u hu => (h3 u hu).trans (hoff u hu), Or.inr ?_⟩
        exact hci2.start_after hinv2 hposi hsi2 hk (fun h4 => (hno h4 (by omega)).2 (by omega))
    · rintro st ⟨h1, h2, _⟩
      refine ⟨⟨h1.toExtG, ?_⟩, h2.toBase⟩
      intro x y w
      rw [h1.rel_iff]
      refine or_congr Iff.rfl ⟨?_, ?_⟩
      · rintro ⟨k1, k2, k3⟩
        refine ⟨k1, ?_, k3⟩
        rcases k2 with ⟨i', hi', h4⟩ | ⟨k2, _⟩
        · exact ⟨i', by omega, h4⟩
        · exact ⟨i, by omega, a, hai, k2.symm⟩
      · rintro ⟨k1, ⟨i', hi', a', h4, h5⟩, k3⟩
        refine ⟨k1, ?_, k3⟩
        by_cases hii : i' = i
        · subst hii
          rw [hai] at h4
          cases h4
          obtain ⟨_, wb, _, ⟨c, hc⟩, _⟩ := k3
          obtain ⟨j', hj', e⟩ := List.getElem_of_mem hc
          exact Or.inr ⟨h5.symm, j', hj', _, by rw [List.getElem?_eq_getElem hj', e], rfl⟩
        · exact Or.inl ⟨i', by omega, a', h4, h5⟩
  · rintro st ⟨h1, h2⟩
    refine ⟨⟨h1.toExtG, ?_⟩, h2⟩
    intro x y w
    rw [h1.rel_iff]
    refine or_congr Iff.rfl ⟨fun ⟨k1, _, k3⟩ => ⟨k1, trivial, k3⟩, ?_⟩
    rintro ⟨k1, _, k3⟩
    refine ⟨k1, ?_, k3⟩
    obtain ⟨wa, _, ⟨c, hc⟩, _⟩ := k3
    obtain ⟨i', hi', e⟩ := List.getElem_of_mem ((hg.mirror _ _ _ _).1 hc)
    exact ⟨i', hi', _, by rw [List.getElem?_eq_getElem hi', e], rfl⟩

/-- The remaining graph after the contraction of `v`. -/
theorem contractNode_made (hP : P.checked = true) (hn : n ≤ P.umax) (hg : WF n g) (hv : v < n) (hk : 0 < k)
    (hpos : ∀ x y w, g.rel x y w → 0 < w)
    (hirr : ∀ x y, Made x y → x ≠ y ∧ ∀ w, ¬ g.rel x y w)
    (hsum : ∀ wa wb a b, g.rel a v wa → g.rel v b wb → wa + wb < P.umax)
    (hans : ∀ a wa, g.rel a v wa → Answers n g v k Made a wa) {ws : WitnessSearch pq} (hws : ws.Base n) :
    Tri (contractNode P g ws v k) (fun r => ∀ x y w, r.1.rel x y w ↔
      x ≠ v ∧ y ≠ v ∧ (g.rel x y w ∨ (Made x y ∧ Thru g v x y w))) := by
  unfold contractNode
  refine Tri.bind (handleShortcuts_made hP hn hg hv hk hpos hirr
    (fun a ha b hb => hsum _ _ _ _ (rel_of_ins hg ha) (rel_of_outs hb)) (fun a ha => hans _ _ (rel_of_ins hg ha)) hws) ?_
  rintro st ⟨h, _⟩
  obtain ⟨g', e, _, ho, _⟩ := disconnect_ok h.wf hv
  rw [e]
  simp only [bind_okM, Tri_ok]
  intro x y w
  have : st.graph.rel x y w ↔ (g.rel x y w ∨ (Made x y ∧ Thru g v x y w)) := by
    rw [h.rel_iff]
    simp
  rw [← this]
  unfold rel
  rw [ho]
  split
  · rename_i hx
    simp [hx]
  · rename_i hx
    constructor
    · rintro ⟨c, hc⟩
      have := List.mem_filter.1 hc
      exact ⟨hx, by simpa using this.2, c, this.1⟩
    · rintro ⟨_, h1, c, hc⟩
      exact ⟨c, List.mem_filter.2 ⟨hc, by simpa using h1⟩⟩

/-- A contraction that returns has computed the sums of all pairs. -/
theorem contractNode_sums (hP : P.checked = true) (hn : n ≤ P.umax) (hg : WF n g) (hv : v < n) {ws : WitnessSearch pq}
    (hws : ws.Base n) : Tri (contractNode P g ws v k) (fun _ => ∀ a b wa wb, g.rel a v wa → g.rel v b wb → wa + wb ≤ P.umax) := by
  have hidxI : ∀ gc, ExtG P n g v gc → idx gc.inEdges v = .ok (g.ins v) := by
    intro gc h
    rw [idx_inEdges (by rw [h.wf.lenIn]; exact hv), h.ins_v]
  have hidxO : ∀ gc, ExtG P n g v gc → idx gc.outEdges v = .ok (g.outs v) := by
    intro gc h
    rw [idx_outEdges (by rw [h.wf.lenOut]; exact hv), h.outs_v]
  unfold contractNode handleShortcuts
  rw [hidxI g (ExtG.refl hg)]
  simp only [bind_okM]
  refine Tri.bind (Tri_forM_range (fun i (st : HSState pq Unit) => ExtG P n g v st.graph ∧ st.ws.Base n ∧
    ∀ i' < i, ∀ a, (g.ins v)[i']? = some a → ∀ b ∈ g.outs v, a.weight + b.weight ≤ P.umax)
    ⟨ExtG.refl hg, hws, by intro i' h; omega⟩ ?_) ?_
  · rintro i ⟨gi, ws0, acc0⟩ hi ⟨hGst, hbase, hdone⟩
    simp only at hGst hbase hdone
    unfold handleIn
    simp only
    rw [hidxI _ hGst]
    simp only [bind_okM]
    have hai : (g.ins v)[i]? = some (g.ins v)[i] := by simp [hi]
    generalize (g.ins v)[i] = a at hai
    have ha : a ∈ g.ins v := List.mem_of_getElem? hai
    have halt : a.adj < n := hg.adj_lt_in ha
    have hav : a.adj ≠ v := hg.noLoop_in ha
    have haP : a.adj ≠ P.umax := by omega
    rw [idx_some hai]
    simp only [bind_okM]
    obtain ⟨ws', e, hinv, _⟩ := WitnessSearch.init_ok hbase halt haP hav gi
    rw [e]
    simp only [bind_okM]
    rw [hidxO _ hGst]
    simp only [bind_okM]
    refine Tri.mono (Tri_forM_range (fun j (st : HSState pq Unit) => ExtG P n g v st.graph ∧
      WitnessSearch.Inv n st.graph a.adj v st.ws ∧ ∀ j' < j, ∀ b, (g.outs v)[j']? = some b → a.weight + b.weight ≤ P.umax)
      ⟨hGst, hinv, by intro j' h; omega⟩ ?_) ?_
    · rintro j ⟨gc, wsc, acc⟩ hj ⟨hGc, hinv, hdj⟩
      simp only at hGc hinv hdj
      unfold handlePair
      simp only
      rw [hidxI _ hGc, hidxO _ hGc]
      simp only [bind_okM]
      rw [idx_some hai]
      have hbj : (g.outs v)[j]? = some (g.outs v)[j] := by simp [hj]
      generalize (g.outs v)[j] = b at hbj
      have hb : b ∈ g.outs v := List.mem_of_getElem? hbj
      rw [idx_some hbj]
      simp only [bind_okM]
      refine Tri.bind (Tri_addW hP _ _) ?_
      rintro w ⟨rfl, hw⟩
      refine Tri.bind (WitnessSearch.findMaxWeight_ok hP hGc.wf.lax hinv haP (hg.adj_lt hb) (hg.noLoop _ _ hb)) ?_
      rintro ⟨ws2, mw⟩ ⟨hinv2, hsame, _⟩
      simp only at hinv2 hsame ⊢
      have hdj' : ∀ j' < j + 1, ∀ b, (g.outs v)[j']? = some b → a.weight + b.weight ≤ P.umax := by
        intro j' hj' b' hb'
        by_cases hjj : j' = j
        · subst hjj
          rw [hbj] at hb'
          cases hb'
          omega
        · exact hdj j' (by omega) b' hb'
      by_cases hmw : mw ≤ a.weight + b.weight
      · rw [if_pos hmw]
        exact ⟨hGc, hinv2, hdj'⟩
      · rw [if_neg hmw]
        have hne : a.adj ≠ b.adj := by
          intro e
          have := hsame e.symm
          omega
        obtain ⟨g', e', h1, h2, _⟩ := hGc.add hg ha hb hne (by omega) acc
        rw [e']
        simp only [bind_okM, Tri_ok]
        exact ⟨h1, hinv2.mono h2, hdj'⟩
    · rintro st ⟨h1, h2, h3⟩
      refine ⟨h1, h2.toBase, ?_⟩
      intro i' hi' a' ha' b hb
      by_cases hii : i' = i
      · subst hii
        rw [hai] at ha'
        cases ha'
        obtain ⟨j, hj, e⟩ := List.getElem_of_mem hb
        exact h3 j hj b (by simp [hj, e])
      · exact hdone i' (by omega) a' ha' b hb
  · rintro st ⟨h, _, hd⟩
    obtain ⟨g', e, _⟩ := disconnect_ok h.wf hv
    rw [e]
    simp only [bind_okM, Tri_ok]
    rintro a b wa wb ⟨c, hc⟩ ⟨c', hc'⟩
    obtain ⟨i, hi, e⟩ := List.getElem_of_mem ((hg.mirror _ _ _ _).1 hc)
    have := hd i hi _ (List.getElem?_eq_getElem hi) _ hc'
    rw [e] at this
    exact this

end
end FP
