import Verif.Model.PreparationGraph
import Verif.Proofs.Logic
import Verif.Proofs.Walk
import Mathlib.Data.List.Nodup
/-! # Preparation graph: well-formedness and effect of its operations -/
namespace FP
namespace PreparationGraph
open Spec

/-- out-arcs of a node (empty when out of range) -/
def outs (g : PreparationGraph) (u : Nat) : List Arc := (g.outEdges[u]?).getD []
/-- in-arcs of a node (empty when out of range) -/
def ins (g : PreparationGraph) (u : Nat) : List Arc := (g.inEdges[u]?).getD []

/-- Well-formed preparation graph on `n` nodes. -/
structure WF (n : Nat) (g : PreparationGraph) : Prop where
  num : g.numNodes = n
  lenOut : g.outEdges.length = n
  lenIn : g.inEdges.length = n
  mirror : ∀ u v w c, (⟨v, w, c⟩ : Arc) ∈ g.outs u ↔ (⟨u, w, c⟩ : Arc) ∈ g.ins v
  nodupOut : ∀ u, ((g.outs u).map Arc.adj).Nodup
  nodupIn : ∀ u, ((g.ins u).map Arc.adj).Nodup
  noLoop : ∀ u a, a ∈ g.outs u → a.adj ≠ u

variable {n : Nat} {g : PreparationGraph}

theorem idx_outEdges {u : Nat} (h : u < g.outEdges.length) : idx g.outEdges u = .ok (g.outs u) := by
  rw [idx_ok h]; simp [outs, h]

theorem idx_inEdges {u : Nat} (h : u < g.inEdges.length) : idx g.inEdges u = .ok (g.ins u) := by
  rw [idx_ok h]; simp [ins, h]

theorem getElem?_outEdges {u : Nat} (h : u < g.outEdges.length) : g.outEdges[u]? = some (g.outs u) := by
  simp [outs, h]

theorem getElem?_inEdges {u : Nat} (h : u < g.inEdges.length) : g.inEdges[u]? = some (g.ins u) := by
  simp [ins, h]

theorem lt_of_mem_outs {u : Nat} {a : Arc} (h : a ∈ g.outs u) : u < g.outEdges.length := by
  by_contra hc
  simp [outs, List.getElem?_eq_none (Nat.le_of_not_lt hc)] at h

theorem lt_of_mem_ins {u : Nat} {a : Arc} (h : a ∈ g.ins u) : u < g.inEdges.length := by
  by_contra hc
  simp [ins, List.getElem?_eq_none (Nat.le_of_not_lt hc)] at h

theorem WF.src_lt (h : WF n g) {u : Nat} {a : Arc} (ha : a ∈ g.outs u) : u < n := by
  rw [← h.lenOut]; exact lt_of_mem_outs ha

theorem WF.mirror_out (h : WF n g) {u : Nat} {a : Arc} (ha : a ∈ g.outs u) :
    (⟨u, a.weight, a.center⟩ : Arc) ∈ g.ins a.adj := (h.mirror u a.adj a.weight a.center).1 ha

theorem WF.mirror_in (h : WF n g) {u : Nat} {a : Arc} (ha : a ∈ g.ins u) :
    (⟨u, a.weight, a.center⟩ : Arc) ∈ g.outs a.adj := (h.mirror a.adj u a.weight a.center).2 ha

theorem WF.adj_lt (h : WF n g) {u : Nat} {a : Arc} (ha : a ∈ g.outs u) : a.adj < n := by
  rw [← h.lenIn]; exact lt_of_mem_ins (h.mirror_out ha)

theorem WF.adj_lt_in (h : WF n g) {u : Nat} {a : Arc} (ha : a ∈ g.ins u) : a.adj < n :=
  h.src_lt (h.mirror_in ha)

/-- Arcs lead to nodes. Loops, parallel arcs and arcs known to one end only are possible. -/
structure Lax (n : Nat) (g : PreparationGraph) : Prop where
  num : g.numNodes = n
  lenOut : g.outEdges.length = n
  lenIn : g.inEdges.length = n
  adj_lt : ∀ {u : Nat} {a : Arc}, a ∈ g.outs u → a.adj < n
  adj_lt_in : ∀ {u : Nat} {a : Arc}, a ∈ g.ins u → a.adj < n

theorem WF.lax (h : WF n g) : Lax n g := ⟨h.num, h.lenOut, h.lenIn, h.adj_lt, h.adj_lt_in⟩

theorem WF.noLoop_in (h : WF n g) {u : Nat} {a : Arc} (ha : a ∈ g.ins u) : a.adj ≠ u := by
  have := h.noLoop _ _ (h.mirror_in ha)
  exact fun e => this e.symm

theorem eq_of_adj {l : List Arc} (h : (l.map Arc.adj).Nodup) {a b : Arc} (ha : a ∈ l) (hb : b ∈ l)
    (e : a.adj = b.adj) : a = b :=
  List.inj_on_of_nodup_map h ha hb e

/-- The edges of the preparation graph as a relation. -/
def rel (g : PreparationGraph) : EdgeRel := fun u v w => ∃ c, (⟨v, w, c⟩ : Arc) ∈ g.outs u

/-- The edges of the preparation graph not touching `x`. -/
def relNo (g : PreparationGraph) (x : Nat) : EdgeRel := fun u v w => g.rel u v w ∧ u ≠ x ∧ v ≠ x

theorem outs_new (n u : Nat) : (new n).outs u = [] := by
  simp only [outs, new, List.getElem?_replicate]; split <;> rfl

theorem ins_new (n u : Nat) : (new n).ins u = [] := by
  simp only [ins, new, List.getElem?_replicate]; split <;> rfl

theorem WF_new (n : Nat) : WF n (new n) := by
  refine ⟨rfl, by simp [new], by simp [new], ?_, ?_, ?_, ?_⟩ <;> simp [outs_new, ins_new]

/-- Effect of `add_edge_or_shortcut` for a new pair of distinct nodes. -/
theorem addEdgeOrShortcut_ok (h : WF n g) {u v w c : Nat} (hu : u < n) (hv : v < n) (huv : u ≠ v)
    (hnew : ∀ a ∈ g.outs u, a.adj ≠ v) :
    ∃ g', addEdgeOrShortcut g u v w c = .ok g' ∧ WF n g' ∧
      (∀ x, g'.outs x = if x = u then g.outs u ++ [⟨v, w, c⟩] else g.outs x) ∧
      (∀ x, g'.ins x = if x = v then g.ins v ++ [⟨u, w, c⟩] else g.ins x) := by
  have hu' : u < g.outEdges.length := h.lenOut ▸ hu
  have hv' : v < g.inEdges.length := h.lenIn ▸ hv
  refine ⟨{ g with outEdges := g.outEdges.set u (g.outs u ++ [⟨v, w, c⟩]),
                   inEdges := g.inEdges.set v (g.ins v ++ [⟨u, w, c⟩]) }, ?_, ?_⟩
  · unfold addEdgeOrShortcut
    rw [assertM_of (by simp [h.num, hv]), modIdx_ok (getElem?_outEdges hu'), modIdx_ok (getElem?_inEdges hv')]
    rfl
  have ho : ∀ x, outs { g with outEdges := g.outEdges.set u (g.outs u ++ [⟨v, w, c⟩]),
                               inEdges := g.inEdges.set v (g.ins v ++ [⟨u, w, c⟩]) } x
      = if x = u then g.outs u ++ [⟨v, w, c⟩] else g.outs x := by
    intro x
    simp only [outs]
    rw [getElem?_set' hu']
    by_cases hx : u = x
    · simp [hx]
    · simp [hx, Ne.symm hx]
  have hi : ∀ x, ins { g with outEdges := g.outEdges.set u (g.outs u ++ [⟨v, w, c⟩]),
                              inEdges := g.inEdges.set v (g.ins v ++ [⟨u, w, c⟩]) } x
      = if x = v then g.ins v ++ [⟨u, w, c⟩] else g.ins x := by
    intro x
    simp only [ins]
    rw [getElem?_set' hv']
    by_cases hx : v = x
    · simp [hx]
    · simp [hx, Ne.symm hx]
  refine ⟨⟨h.num, by simp [h.lenOut], by simp [h.lenIn], ?_, ?_, ?_, ?_⟩, ho, hi⟩
  · intro a b w' c'
    rw [ho, hi]
    have := h.mirror a b w' c'
    by_cases ha : a = u <;> by_cases hb : b = v
    · subst ha hb; simp [this]
    · subst ha; simp [hb, this]
    · subst hb; simp [ha, this]
    · simp [ha, hb, this]
  · intro x
    rw [ho]
    split
    · rw [List.map_append, List.nodup_append]
      refine ⟨h.nodupOut u, by simp, ?_⟩
      intro p hp q hq
      simp at hq
      subst hq
      obtain ⟨a, ha, rfl⟩ := List.mem_map.1 hp
      exact hnew a ha
    · exact h.nodupOut x
  · intro x
    rw [hi]
    split
    · rw [List.map_append, List.nodup_append]
      refine ⟨h.nodupIn v, by simp, ?_⟩
      intro p hp q hq
      simp at hq
      subst hq
      obtain ⟨a, ha, rfl⟩ := List.mem_map.1 hp
      intro e
      have := h.mirror_in ha
      rw [e] at this
      exact hnew _ this rfl
    · exact h.nodupIn x
  · intro x a ha
    rw [ho] at ha
    split at ha
    · rename_i hx
      subst hx
      rcases List.mem_append.1 ha with h' | h'
      · exact h.noLoop _ _ h'
      · simp at h'; subst h'; exact huv.symm
    · exact h.noLoop _ _ ha

/-- Effect of `add_or_reduce_edge`, as far as the proofs need it. -/
structure AddSpec (n : Nat) (g g' : PreparationGraph) (u v w c : Nat) : Prop where
  wf : WF n g'
  outs_ne : ∀ x, x ≠ u → g'.outs x = g.outs x
  ins_ne : ∀ x, x ≠ v → g'.ins x = g.ins x
  back : ∀ a ∈ g'.outs u, a ∈ g.outs u ∨ a = ⟨v, w, c⟩
  keep : ∀ a ∈ g.outs u, a ∈ g'.outs u ∨ (a.adj = v ∧ w < a.weight)
  have_ : ∃ a ∈ g'.outs u, a.adj = v ∧ a.weight ≤ w

theorem mem_updFirst {p : Arc → Bool} {f : Arc → Arc} {l : List Arc} {a : Arc} (h : a ∈ updFirst p f l) :
    a ∈ l ∨ ∃ b ∈ l, p b = true ∧ a = f b := by
  induction l with
  | nil => simp [updFirst] at h
  | cons x xs ih =>
    simp only [updFirst] at h
    split at h
    · rename_i hx
      rcases List.mem_cons.1 h with h' | h'
      · exact Or.inr ⟨x, by simp, hx, h'⟩
      · exact Or.inl (by simp [h'])
    · rcases List.mem_cons.1 h with h' | h'
      · exact Or.inl (by simp [h'])
      · rcases ih h' with h'' | ⟨b, hb, hp, e⟩
        · exact Or.inl (by simp [h''])
        · exact Or.inr ⟨b, by simp [hb], hp, e⟩

/-- When `p` selects by the (unique) adjacent node, `updFirst` is a `map`. -/
theorem updFirst_eq_map {f : Arc → Arc} {l : List Arc} {v : Nat} (hn : (l.map Arc.adj).Nodup) :
    updFirst (fun a => a.adj == v) f l = l.map (fun a => if a.adj == v then f a else a) := by
  induction l with
  | nil => rfl
  | cons x xs ih =>
    simp only [List.map_cons, List.nodup_cons] at hn
    simp only [updFirst, List.map_cons]
    split
    · rename_i hx
      congr 1
      have hx' : x.adj = v := by simpa using hx
      symm
      calc xs.map (fun a => if a.adj == v then f a else a) = xs.map id := by
            apply List.map_congr_left
            intro a ha
            have : a.adj ≠ v := fun e => hn.1 (List.mem_map.2 ⟨a, ha, by rw [e, hx']⟩)
            simp [this]
        _ = xs := by simp
    · rw [ih hn.2]

theorem addOrReduceEdge_ok (h : WF n g) {u v w c : Nat} (hu : u < n) (hv : v < n) (huv : u ≠ v) :
    ∃ g', addOrReduceEdge g u v w c = .ok g' ∧ AddSpec n g g' u v w c := by
  have hu' : u < g.outEdges.length := h.lenOut ▸ hu
  have hv' : v < g.inEdges.length := h.lenIn ▸ hv
  unfold addOrReduceEdge reduceEdge
  rw [idx_outEdges hu']
  simp only [bind_okM]
  cases hf : (g.outs u).find? (fun a => a.adj == v) with
  | none =>
    simp only [bind_okM]
    have hnew : ∀ a ∈ g.outs u, a.adj ≠ v := by
      intro a ha e
      have := List.find?_eq_none.1 hf a ha
      simp [e] at this
    obtain ⟨g', e, wf, ho, hi⟩ := addEdgeOrShortcut_ok (w := w) (c := c) h hu hv huv hnew
    refine ⟨g', by simpa using e, wf, ?_, ?_, ?_, ?_, ?_⟩
    · intro x hx; rw [ho]; simp [hx]
    · intro x hx; rw [hi]; simp [hx]
    · intro a ha; rw [ho] at ha; simpa using ha
    · intro a ha; rw [ho]; simp [ha]
    · rw [ho]; exact ⟨⟨v, w, c⟩, by simp, rfl, Nat.le_refl _⟩
  | some o =>
    have ho_mem : o ∈ g.outs u := List.mem_of_find?_eq_some hf
    have ho_adj : o.adj = v := by simpa using List.find?_some hf
    simp only
    by_cases hw : o.weight ≤ w
    · simp only [hw, if_true, bind_okM]
      exact ⟨g, by simp, h, fun _ _ => rfl, fun _ _ => rfl, fun a ha => Or.inl ha, fun a ha => Or.inl ha,
        o, ho_mem, ho_adj, hw⟩
    · simp only [hw, if_false]
      rw [idx_inEdges hv']
      simp only [bind_okM]
      have hmir := h.mirror_out ho_mem
      rw [ho_adj] at hmir
      have hany : (g.ins v).any (fun a => a.adj == u) = true := by
        rw [List.any_eq_true]; exact ⟨_, hmir, by simp⟩
      simp only [hany, if_true, bind_okM]
      refine ⟨_, rfl, ?_⟩
      rw [updFirst_eq_map (h.nodupOut u)]
      generalize hg' : ({ g with
          outEdges := g.outEdges.set u ((g.outs u).map
            (fun a => if a.adj == v then { a with weight := w, center := c } else a))
          inEdges := g.inEdges.set v ((g.ins v).map
            (fun a => if a.adj == u then { a with weight := w, center := c } else a)) } : PreparationGraph) = g'
      have ho : ∀ x, g'.outs x = if x = u then
          (g.outs u).map (fun a => if a.adj == v then { a with weight := w, center := c } else a) else g.outs x := by
        intro x
        subst hg'
        simp only [outs]
        rw [getElem?_set' hu']
        by_cases hx : u = x
        · simp [hx]
        · simp [hx, Ne.symm hx]
      have hi : ∀ x, g'.ins x = if x = v then
          (g.ins v).map (fun a => if a.adj == u then { a with weight := w, center := c } else a) else g.ins x := by
        intro x
        subst hg'
        simp only [ins]
        rw [getElem?_set' hv']
        by_cases hx : v = x
        · simp [hx]
        · simp [hx, Ne.symm hx]
      have hmemo : ∀ a, a ∈ g'.outs u ↔ (a = ⟨v, w, c⟩ ∨ (a ∈ g.outs u ∧ a.adj ≠ v)) := by
        intro a
        rw [ho]
        simp only [if_true, List.mem_map]
        constructor
        · rintro ⟨b, hb, rfl⟩
          by_cases hbv : b.adj = v
          · left; simp [hbv]
          · right; simp [hbv, hb]
        · rintro (rfl | ⟨ha, hne⟩)
          · exact ⟨o, ho_mem, by simp [ho_adj]⟩
          · exact ⟨a, ha, by simp [hne]⟩
      have hmemi : ∀ a, a ∈ g'.ins v ↔ (a = ⟨u, w, c⟩ ∨ (a ∈ g.ins v ∧ a.adj ≠ u)) := by
        intro a
        rw [hi]
        simp only [if_true, List.mem_map]
        constructor
        · rintro ⟨b, hb, rfl⟩
          by_cases hbv : b.adj = u
          · left; simp [hbv]
          · right; simp [hbv, hb]
        · rintro (rfl | ⟨ha, hne⟩)
          · exact ⟨_, hmir, by simp⟩
          · exact ⟨a, ha, by simp [hne]⟩
      have hmapadj : ∀ (l : List Arc) (y : Nat),
          (l.map (fun a => if a.adj == y then { a with weight := w, center := c } else a)).map Arc.adj
            = l.map Arc.adj := by
        intro l y
        rw [List.map_map]
        apply List.map_congr_left
        intro a _
        simp only [Function.comp]
        split <;> rfl
      refine ⟨⟨by subst hg'; exact h.num, by subst hg'; simp [h.lenOut], by subst hg'; simp [h.lenIn],
        ?_, ?_, ?_, ?_⟩, ?_, ?_, ?_, ?_, ?_⟩
      · intro a b w' c'
        by_cases ha : a = u <;> by_cases hb : b = v
        · subst ha hb
          rw [hmemo, hmemi]
          simp
        · subst ha
          rw [hmemo, hi, if_neg hb, ← h.mirror]
          simp [hb]
        · subst hb
          rw [hmemi, ho, if_neg ha, h.mirror]
          simp [ha]
        · rw [ho, hi, if_neg ha, if_neg hb, h.mirror]
      · intro x
        rw [ho]
        split
        · rw [hmapadj]; exact h.nodupOut u
        · exact h.nodupOut x
      · intro x
        rw [hi]
        split
        · rw [hmapadj]; exact h.nodupIn v
        · exact h.nodupIn x
      · intro x a ha
        by_cases hx : x = u
        · subst hx
          rcases (hmemo a).1 ha with rfl | ⟨ha', _⟩
          · exact huv.symm
          · exact h.noLoop _ _ ha'
        · rw [ho, if_neg hx] at ha
          exact h.noLoop _ _ ha
      · intro x hx; rw [ho, if_neg hx]
      · intro x hx; rw [hi, if_neg hx]
      · intro a ha
        rcases (hmemo a).1 ha with rfl | ⟨ha', _⟩
        · exact Or.inr rfl
        · exact Or.inl ha'
      · intro a ha
        by_cases hav : a.adj = v
        · right
          have := eq_of_adj (h.nodupOut u) ha ho_mem (by rw [hav, ho_adj])
          subst this
          exact ⟨hav, by omega⟩
        · left; exact (hmemo a).2 (Or.inr ⟨ha, hav⟩)
      · exact ⟨_, (hmemo _).2 (Or.inl rfl), rfl, Nat.le_refl _⟩

/-! ### disconnect -/

theorem length_filter_adj {l : List Arc} {v : Nat} (hn : (l.map Arc.adj).Nodup) (he : ∃ a ∈ l, a.adj = v) :
    (l.filter (fun e => e.adj != v)).length + 1 = l.length := by
  induction l with
  | nil => obtain ⟨a, ha, _⟩ := he; simp at ha
  | cons x xs ih =>
    simp only [List.map_cons, List.nodup_cons] at hn
    by_cases hx : x.adj = v
    · have : xs.filter (fun e => e.adj != v) = xs := by
        rw [List.filter_eq_self]
        intro a ha
        have : a.adj ≠ v := fun e => hn.1 (List.mem_map.2 ⟨a, ha, by rw [e, hx]⟩)
        simp [this]
      simp [hx, this]
    · obtain ⟨a, ha, hav⟩ := he
      rcases List.mem_cons.1 ha with rfl | ha'
      · exact absurd hav hx
      · have := ih hn.2 ⟨a, ha', hav⟩
        simp [hx, this]

theorem removeEdge_ok {l : List Arc} {v : Nat} (hn : (l.map Arc.adj).Nodup) (he : ∃ a ∈ l, a.adj = v) :
    removeEdgeWithAdjNode l v = .ok (l.filter (fun e => e.adj != v)) := by
  simp only [removeEdgeWithAdjNode]
  rw [assertM_of (by simpa using length_filter_adj hn he)]
  rfl

/-- `disconnect` removes exactly the arcs touching `v`. -/
theorem disconnect_ok (h : WF n g) {v : Nat} (hv : v < n) :
    ∃ g', disconnect g v = .ok g' ∧ WF n g' ∧
      (∀ x, g'.outs x = if x = v then [] else (g.outs x).filter (fun a => a.adj != v)) ∧
      (∀ x, g'.ins x = if x = v then [] else (g.ins x).filter (fun a => a.adj != v)) := by
  have hv1 : v < g.outEdges.length := h.lenOut ▸ hv
  have hv2 : v < g.inEdges.length := h.lenIn ▸ hv
  -- first loop
  obtain ⟨g₁, e₁, n₁, hl₁, ho₁, hi₁⟩ :
      ∃ g₁, forM (fun g (a : Arc) => removeInEdge g a.adj v) g (g.outs v) = .ok g₁ ∧ g₁.numNodes = n ∧
        g₁.inEdges.length = n ∧ g₁.outEdges = g.outEdges ∧
        ∀ x, g₁.ins x = if x ∈ (g.outs v).map Arc.adj then (g.ins x).filter (fun a => a.adj != v) else g.ins x := by
    refine forM_ok_of (fun pre (g₁ : PreparationGraph) => g₁.numNodes = n ∧ g₁.inEdges.length = n ∧ g₁.outEdges = g.outEdges ∧
      ∀ x, g₁.ins x = if x ∈ pre.map Arc.adj then (g.ins x).filter (fun a => a.adj != v) else g.ins x)
      ⟨h.num, h.lenIn, rfl, by simp⟩ ?_
    rintro pre a post g₁ hl ⟨hn, hlen, ho, hi⟩
    have ha : a ∈ g.outs v := by rw [hl]; simp
    have hlt : a.adj < g₁.inEdges.length := by rw [hlen]; exact h.adj_lt ha
    have hnotin : a.adj ∉ pre.map Arc.adj := by
      have := h.nodupOut v
      rw [hl] at this
      simp only [List.map_append, List.map_cons, List.nodup_append, List.mem_cons] at this
      intro hm
      exact this.2.2 _ hm _ (Or.inl rfl) rfl
    have hia : g₁.ins a.adj = g.ins a.adj := by rw [hi, if_neg hnotin]
    have hrem := removeEdge_ok (v := v) (h.nodupIn a.adj) ⟨_, h.mirror_out ha, rfl⟩
    refine ⟨{ g₁ with inEdges := g₁.inEdges.set a.adj ((g.ins a.adj).filter (fun e => e.adj != v)) }, ?_, hn,
      by simp [hlen], ho, ?_⟩
    · unfold removeInEdge
      rw [idx_inEdges hlt, hia]
      simp only [bind_okM]
      rw [hrem]
      rfl
    · intro x
      have : ins { g₁ with inEdges := g₁.inEdges.set a.adj ((g.ins a.adj).filter (fun e => e.adj != v)) } x
          = if a.adj = x then (g.ins a.adj).filter (fun e => e.adj != v) else g₁.ins x := by
        simp only [ins]
        rw [getElem?_set' hlt]
        split <;> rfl
      rw [this]
      by_cases hx : a.adj = x
      · subst hx; simp
      · rw [if_neg hx, hi]
        simp [Ne.symm hx]
  have hi₁' : ∀ x, g₁.ins x = (g.ins x).filter (fun a => a.adj != v) := by
    intro x
    rw [hi₁]
    split
    · rfl
    · rename_i hx
      symm
      rw [List.filter_eq_self]
      intro a ha
      have hm := h.mirror_in ha
      have : a.adj ≠ v := by
        intro e
        rw [e] at hm
        exact hx (List.mem_map.2 ⟨_, hm, rfl⟩)
      simp [this]
  have hinv : g₁.ins v = g.ins v := by
    rw [hi₁', List.filter_eq_self]
    intro a ha
    simpa using h.noLoop_in ha
  have hout₁ : ∀ x, g₁.outs x = g.outs x := by intro x; simp [outs, ho₁]
  -- second loop
  obtain ⟨g₂, e₂, n₂, hl₂, hi₂, ho₂⟩ :
      ∃ g₂, forM (fun g (a : Arc) => removeOutEdge g a.adj v) g₁ (g₁.ins v) = .ok g₂ ∧ g₂.numNodes = n ∧
        g₂.outEdges.length = n ∧ g₂.inEdges = g₁.inEdges ∧
        ∀ x, g₂.outs x = if x ∈ (g.ins v).map Arc.adj then (g.outs x).filter (fun a => a.adj != v) else g.outs x := by
    rw [hinv]
    refine forM_ok_of (fun pre (g₂ : PreparationGraph) => g₂.numNodes = n ∧ g₂.outEdges.length = n ∧ g₂.inEdges = g₁.inEdges ∧
      ∀ x, g₂.outs x = if x ∈ pre.map Arc.adj then (g.outs x).filter (fun a => a.adj != v) else g.outs x)
      ⟨n₁, by rw [ho₁]; exact h.lenOut, rfl, by simp [hout₁]⟩ ?_
    rintro pre a post g₂ hl ⟨hn, hlen, ho, hi⟩
    have ha : a ∈ g.ins v := by rw [hl]; simp
    have hlt : a.adj < g₂.outEdges.length := by rw [hlen]; exact h.adj_lt_in ha
    have hnotin : a.adj ∉ pre.map Arc.adj := by
      have := h.nodupIn v
      rw [hl] at this
      simp only [List.map_append, List.map_cons, List.nodup_append, List.mem_cons] at this
      intro hm
      exact this.2.2 _ hm _ (Or.inl rfl) rfl
    have hia : g₂.outs a.adj = g.outs a.adj := by rw [hi, if_neg hnotin]
    have hrem := removeEdge_ok (v := v) (h.nodupOut a.adj) ⟨_, h.mirror_in ha, rfl⟩
    refine ⟨{ g₂ with outEdges := g₂.outEdges.set a.adj ((g.outs a.adj).filter (fun e => e.adj != v)) }, ?_, hn,
      by simp [hlen], ho, ?_⟩
    · unfold removeOutEdge
      rw [idx_outEdges hlt, hia]
      simp only [bind_okM]
      rw [hrem]
      rfl
    · intro x
      have : outs { g₂ with outEdges := g₂.outEdges.set a.adj ((g.outs a.adj).filter (fun e => e.adj != v)) } x
          = if a.adj = x then (g.outs a.adj).filter (fun e => e.adj != v) else g₂.outs x := by
        simp only [outs]
        rw [getElem?_set' hlt]
        split <;> rfl
      rw [this]
      by_cases hx : a.adj = x
      · subst hx; simp
      · rw [if_neg hx, hi]
        simp [Ne.symm hx]
  have ho₂' : ∀ x, g₂.outs x = (g.outs x).filter (fun a => a.adj != v) := by
    intro x
    rw [ho₂]
    split
    · rfl
    · rename_i hx
      symm
      rw [List.filter_eq_self]
      intro a ha
      have hm := h.mirror_out ha
      have : a.adj ≠ v := by
        intro e
        rw [e] at hm
        exact hx (List.mem_map.2 ⟨_, hm, rfl⟩)
      simp [this]
  have hv3 : v < g₂.inEdges.length := by rw [hi₂, hl₁]; exact hv
  have hv4 : v < g₂.outEdges.length := by rw [hl₂]; exact hv
  have hres : disconnect g v = .ok { g₂ with inEdges := g₂.inEdges.set v [], outEdges := g₂.outEdges.set v [] } := by
    unfold disconnect
    rw [idx_outEdges hv1]
    simp only [bind_okM]
    rw [e₁]
    simp only [bind_okM]
    rw [idx_inEdges (by rw [hl₁]; exact hv)]
    simp only [bind_okM]
    rw [e₂]
    simp only [bind_okM]
    rw [setIdx_ok hv3, setIdx_ok hv4]
    rfl
  refine ⟨_, hres, ?_⟩
  generalize hg' : ({ g₂ with inEdges := g₂.inEdges.set v [], outEdges := g₂.outEdges.set v [] } : PreparationGraph)
    = g'
  have hO : ∀ x, g'.outs x = if x = v then [] else (g.outs x).filter (fun a => a.adj != v) := by
    intro x
    subst hg'
    rw [← ho₂']
    simp only [outs]
    rw [getElem?_set' hv4]
    by_cases hx : v = x
    · simp [hx]
    · simp [hx, Ne.symm hx]
  have hI : ∀ x, g'.ins x = if x = v then [] else (g.ins x).filter (fun a => a.adj != v) := by
    intro x
    subst hg'
    have : (g.ins x).filter (fun a => a.adj != v) = g₂.ins x := by
      rw [← hi₁']; simp [ins, hi₂]
    rw [this]
    simp only [ins]
    rw [getElem?_set' hv3]
    by_cases hx : v = x
    · simp [hx]
    · simp [hx, Ne.symm hx]
  refine ⟨⟨by subst hg'; exact n₂, by subst hg'; simp [hl₂], by subst hg'; simp [hi₂, hl₁], ?_, ?_, ?_, ?_⟩, hO, hI⟩
  · intro a b w c
    rw [hO, hI]
    by_cases ha : a = v <;> by_cases hb : b = v
    · simp [ha, hb]
    · subst ha; simp [hb]
    · subst hb; simp [ha]
    · simp [ha, hb, h.mirror a b w c]
  · intro x
    rw [hO]
    split
    · simp
    · exact ((List.filter_sublist).map Arc.adj).nodup (h.nodupOut x)
  · intro x
    rw [hI]
    split
    · simp
    · exact ((List.filter_sublist).map Arc.adj).nodup (h.nodupIn x)
  · intro x a ha
    rw [hO] at ha
    split at ha
    · simp at ha
    · exact h.noLoop _ _ (List.mem_filter.1 ha).1

end PreparationGraph
end FP
