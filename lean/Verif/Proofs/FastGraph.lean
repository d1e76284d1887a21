import Verif.Proofs.Recorded
/-! # Well-formed fast graphs -/
namespace FP
open Spec

namespace FastGraph
/-- rank of a node -/
def rk (g : FastGraph) (u : Nat) : Nat := (g.ranks[u]?).getD 0
/-- first out-edge id -/
def bo (g : FastGraph) (u : Nat) : Nat := (g.firstEdgeIdsFwd[g.rk u]?).getD 0
/-- end of the out-edge ids -/
def eo (g : FastGraph) (u : Nat) : Nat := (g.firstEdgeIdsFwd[g.rk u + 1]?).getD 0
/-- first in-edge id -/
def bi (g : FastGraph) (u : Nat) : Nat := (g.firstEdgeIdsBwd[g.rk u]?).getD 0
/-- end of the in-edge ids -/
def ei (g : FastGraph) (u : Nat) : Nat := (g.firstEdgeIdsBwd[g.rk u + 1]?).getD 0

/-- `id` is an out-edge id of `u`, holding `ed` -/
def OutAt (g : FastGraph) (u id : Nat) (ed : FastGraphEdge) : Prop :=
  g.bo u ≤ id ∧ id < g.eo u ∧ g.edgesFwd[id]? = some ed
/-- `id` is an in-edge id of `u`, holding `ed` -/
def InAt (g : FastGraph) (u id : Nat) (ed : FastGraphEdge) : Prop :=
  g.bi u ≤ id ∧ id < g.ei u ∧ g.edgesBwd[id]? = some ed

/-- upward edges out of `u` -/
def FE (g : FastGraph) : EdgeRel := fun u x w => ∃ id ed, g.OutAt u id ed ∧ ed.adjNode = x ∧ ed.weight = w
/-- upward edges into `u` -/
def BE (g : FastGraph) : EdgeRel := fun u x w => ∃ id ed, g.InAt u id ed ∧ ed.adjNode = x ∧ ed.weight = w

end FastGraph

/-- Offsets array of one direction. -/
structure FirstOk (n : Nat) (first : List Nat) (m : Nat) : Prop where
  len : first.length = n + 1
  mono : ∀ j < n, (first[j]?).getD 0 ≤ (first[j + 1]?).getD 0
  zero : (first[0]?).getD 0 = 0
  last : (first[n]?).getD 0 = m

/-- Ranks and offsets are as they should be. -/
structure Shape (P : Plat) (n : Nat) (fg : FastGraph) : Prop where
  num : fg.numNodes = n
  n_lt : n < P.umax
  lenR : fg.ranks.length = n
  rk_lt : ∀ u < n, fg.rk u < n
  rk_inj : ∀ u < n, ∀ v < n, fg.rk u = fg.rk v → u = v
  firstF : FirstOk n fg.firstEdgeIdsFwd fg.edgesFwd.length
  firstB : FirstOk n fg.firstEdgeIdsBwd fg.edgesBwd.length
  capF : fg.edgesFwd.length ≤ P.umax
  capB : fg.edgesBwd.length ≤ P.umax

variable {P : Plat} {n : Nat} {fg : FastGraph}

theorem FirstOk.le {first : List Nat} {m : Nat} (h : FirstOk n first m) {i j : Nat} (hij : i ≤ j) (hj : j ≤ n) :
    (first[i]?).getD 0 ≤ (first[j]?).getD 0 := by
  induction j with
  | zero => have : i = 0 := by omega
            subst this; exact Nat.le_refl _
  | succ j ih =>
    rcases Nat.lt_or_ge i (j + 1) with h' | h'
    · have := ih (by omega) (by omega)
      have := h.mono j (by omega)
      omega
    · have : i = j + 1 := by omega
      subst this; exact Nat.le_refl _

theorem idx_getD {l : List Nat} {i : Nat} (h : i < l.length) : idx l i = .ok ((l[i]?).getD 0) := by
  rw [idx_ok h]; simp [h]

namespace Shape

theorem idx_ranks (h : Shape P n fg) {u : Nat} (hu : u < n) : idx fg.ranks u = .ok (fg.rk u) :=
  idx_getD (by rw [h.lenR]; exact hu)

theorem beginOut (h : Shape P n fg) {u : Nat} (hu : u < n) : fg.beginOutEdges u = .ok (fg.bo u) := by
  unfold FastGraph.beginOutEdges
  rw [h.idx_ranks hu]
  exact idx_getD (by rw [h.firstF.len]; have := h.rk_lt u hu; omega)

theorem endOut (h : Shape P n fg) {u : Nat} (hu : u < n) : fg.endOutEdges u = .ok (fg.eo u) := by
  unfold FastGraph.endOutEdges
  rw [h.idx_ranks hu]
  exact idx_getD (by rw [h.firstF.len]; have := h.rk_lt u hu; omega)

theorem beginIn (h : Shape P n fg) {u : Nat} (hu : u < n) : fg.beginInEdges u = .ok (fg.bi u) := by
  unfold FastGraph.beginInEdges
  rw [h.idx_ranks hu]
  exact idx_getD (by rw [h.firstB.len]; have := h.rk_lt u hu; omega)

theorem endIn (h : Shape P n fg) {u : Nat} (hu : u < n) : fg.endInEdges u = .ok (fg.ei u) := by
  unfold FastGraph.endInEdges
  rw [h.idx_ranks hu]
  exact idx_getD (by rw [h.firstB.len]; have := h.rk_lt u hu; omega)

theorem bo_le (h : Shape P n fg) {u : Nat} (hu : u < n) : fg.bo u ≤ fg.eo u := h.firstF.mono _ (h.rk_lt u hu)
theorem bi_le (h : Shape P n fg) {u : Nat} (hu : u < n) : fg.bi u ≤ fg.ei u := h.firstB.mono _ (h.rk_lt u hu)

theorem eo_le (h : Shape P n fg) {u : Nat} (hu : u < n) : fg.eo u ≤ fg.edgesFwd.length := by
  have := h.firstF.le (i := fg.rk u + 1) (j := n) (h.rk_lt u hu) (Nat.le_refl _)
  rw [h.firstF.last] at this
  exact this

theorem ei_le (h : Shape P n fg) {u : Nat} (hu : u < n) : fg.ei u ≤ fg.edgesBwd.length := by
  have := h.firstB.le (i := fg.rk u + 1) (j := n) (h.rk_lt u hu) (Nat.le_refl _)
  rw [h.firstB.last] at this
  exact this

theorem outAt (h : Shape P n fg) {u id : Nat} (hu : u < n) (h1 : fg.bo u ≤ id) (h2 : id < fg.eo u) :
    ∃ ed, fg.OutAt u id ed := by
  have : id < fg.edgesFwd.length := by have := h.eo_le hu; omega
  exact ⟨fg.edgesFwd[id], h1, h2, by simp [this]⟩

theorem inAt (h : Shape P n fg) {u id : Nat} (hu : u < n) (h1 : fg.bi u ≤ id) (h2 : id < fg.ei u) :
    ∃ ed, fg.InAt u id ed := by
  have : id < fg.edgesBwd.length := by have := h.ei_le hu; omega
  exact ⟨fg.edgesBwd[id], h1, h2, by simp [this]⟩

end Shape

/-- `rin`/`rout` are what an edge `u → x` of weight `w` must hold: both invalid for an input edge, otherwise the ids of
the two replaced edges at a lower node. -/
def Resolved (P : Plat) (E : EdgeRel) (n : Nat) (fg : FastGraph) (u x w rin rout : Nat) : Prop :=
  (rin = P.umax ∧ rout = P.umax ∧ E u x w) ∨
  (rin ≠ P.umax ∧ rout ≠ P.umax ∧ ∃ c < n, fg.rk c < fg.rk u ∧ fg.rk c < fg.rk x ∧ ∃ e₁ e₂,
    fg.InAt c rin e₁ ∧ e₁.adjNode = u ∧ fg.OutAt c rout e₂ ∧ e₂.adjNode = x ∧ w = e₁.weight + e₂.weight)

/-- A fast graph all of whose edges stand for walks over the edges `E` on the nodes `0..n`. -/
structure FSound (P : Plat) (E : EdgeRel) (n : Nat) (fg : FastGraph) : Prop extends Shape P n fg where
  fwd : ∀ u < n, ∀ id ed, fg.OutAt u id ed → ed.baseNode = u ∧ ed.adjNode < n ∧ fg.rk u < fg.rk ed.adjNode ∧
    Resolved P E n fg u ed.adjNode ed.weight ed.replacedInEdge ed.replacedOutEdge
  bwd : ∀ u < n, ∀ id ed, fg.InAt u id ed → ed.baseNode = u ∧ ed.adjNode < n ∧ fg.rk u < fg.rk ed.adjNode ∧
    Resolved P E n fg ed.adjNode u ed.weight ed.replacedInEdge ed.replacedOutEdge

/-- A correct fast graph for the edge relation `E` on the nodes `0..n`. -/
structure FGood (P : Plat) (E : EdgeRel) (n : Nat) (fg : FastGraph) : Prop extends FSound P E n fg where
  onceF : ∀ u < n, ∀ id ed id' ed', fg.OutAt u id ed → fg.OutAt u id' ed' → ed.adjNode = ed'.adjNode → id = id'
  onceB : ∀ u < n, ∀ id ed id' ed', fg.InAt u id ed → fg.InAt u id' ed' → ed.adjNode = ed'.adjNode → id = id'
  complete : ∀ {s t w : Nat}, s < n → t < n → Wk E s t w → w < P.umax → UpDown fg.FE fg.BE s t w

/-! ### Before `finish_contraction` -/

/-- `c` is a possible center for an edge `u → x` of weight `w`, or marks an input edge. -/
def Centered (P : Plat) (E : EdgeRel) (n : Nat) (fg : FastGraph) (u x w c : Nat) : Prop :=
  (c = P.umax ∧ E u x w) ∨
  (c < n ∧ fg.rk c < fg.rk u ∧ fg.rk c < fg.rk x ∧ ∃ a b, fg.BE c u a ∧ fg.FE c x b ∧ w = a + b)

/-- The fast graph as it is passed to `finish_contraction`. -/
structure FPre (P : Plat) (E : EdgeRel) (n : Nat) (fg : FastGraph) : Prop extends Shape P n fg where
  uniqF : ∀ u < n, ∀ id ed id' ed', fg.OutAt u id ed → fg.OutAt u id' ed' → ed.adjNode = ed'.adjNode → id = id'
  uniqB : ∀ u < n, ∀ id ed id' ed', fg.InAt u id ed → fg.InAt u id' ed' → ed.adjNode = ed'.adjNode → id = id'
  fwd : ∀ u < n, ∀ id ed, fg.OutAt u id ed → ed.baseNode = u ∧ ed.adjNode < n ∧ fg.rk u < fg.rk ed.adjNode ∧
    ed.replacedOutEdge = P.umax ∧ Centered P E n fg u ed.adjNode ed.weight ed.replacedInEdge
  bwd : ∀ u < n, ∀ id ed, fg.InAt u id ed → ed.baseNode = u ∧ ed.adjNode < n ∧ fg.rk u < fg.rk ed.adjNode ∧
    ed.replacedOutEdge = P.umax ∧ Centered P E n fg ed.adjNode u ed.weight ed.replacedInEdge

/-- part of an edge that `finish_contraction` does not touch -/
def FastGraphEdge.core (e : FastGraphEdge) : Nat × Nat × Nat := (e.baseNode, e.adjNode, e.weight)

/-- Same graph up to the replaced edges. -/
structure SameCore (fg fg' : FastGraph) : Prop where
  num : fg'.numNodes = fg.numNodes
  ranks : fg'.ranks = fg.ranks
  ff : fg'.firstEdgeIdsFwd = fg.firstEdgeIdsFwd
  fb : fg'.firstEdgeIdsBwd = fg.firstEdgeIdsBwd
  ef : fg'.edgesFwd.map FastGraphEdge.core = fg.edgesFwd.map FastGraphEdge.core
  eb : fg'.edgesBwd.map FastGraphEdge.core = fg.edgesBwd.map FastGraphEdge.core

theorem SameCore.refl (fg : FastGraph) : SameCore fg fg := ⟨rfl, rfl, rfl, rfl, rfl, rfl⟩

theorem SameCore.symm {fg fg' : FastGraph} (h : SameCore fg fg') : SameCore fg' fg :=
  ⟨h.num.symm, h.ranks.symm, h.ff.symm, h.fb.symm, h.ef.symm, h.eb.symm⟩

theorem SameCore.trans {a b c : FastGraph} (h : SameCore a b) (h' : SameCore b c) : SameCore a c :=
  ⟨h'.num.trans h.num, h'.ranks.trans h.ranks, h'.ff.trans h.ff, h'.fb.trans h.fb, h'.ef.trans h.ef, h'.eb.trans h.eb⟩

section
variable {fg' : FastGraph}

theorem SameCore.rk (h : SameCore fg fg') (u : Nat) : fg'.rk u = fg.rk u := by
  unfold FastGraph.rk; rw [h.ranks]
theorem SameCore.bo (h : SameCore fg fg') (u : Nat) : fg'.bo u = fg.bo u := by
  unfold FastGraph.bo; rw [h.rk, h.ff]
theorem SameCore.eo (h : SameCore fg fg') (u : Nat) : fg'.eo u = fg.eo u := by
  unfold FastGraph.eo; rw [h.rk, h.ff]
theorem SameCore.bi (h : SameCore fg fg') (u : Nat) : fg'.bi u = fg.bi u := by
  unfold FastGraph.bi; rw [h.rk, h.fb]
theorem SameCore.ei (h : SameCore fg fg') (u : Nat) : fg'.ei u = fg.ei u := by
  unfold FastGraph.ei; rw [h.rk, h.fb]

theorem core_getElem? {es es' : List FastGraphEdge} (h : es'.map FastGraphEdge.core = es.map FastGraphEdge.core)
    {i : Nat} {ed : FastGraphEdge} (he : es[i]? = some ed) : ∃ ed', es'[i]? = some ed' ∧ ed'.core = ed.core := by
  have := congrArg (fun l => l[i]?) h
  simp only [List.getElem?_map, he, Option.map_some] at this
  cases h' : es'[i]? with
  | none => rw [h'] at this; simp at this
  | some ed' => rw [h'] at this; simp at this; exact ⟨ed', rfl, this⟩

theorem FastGraphEdge.core_eq {a b : FastGraphEdge} (h : a.core = b.core) :
    a.baseNode = b.baseNode ∧ a.adjNode = b.adjNode ∧ a.weight = b.weight := by
  simpa [FastGraphEdge.core] using h

theorem SameCore.outAt (h : SameCore fg fg') {u id : Nat} {ed : FastGraphEdge} (ho : fg.OutAt u id ed) :
    ∃ ed', fg'.OutAt u id ed' ∧ ed'.core = ed.core := by
  obtain ⟨h1, h2, h3⟩ := ho
  obtain ⟨ed', h4, h5⟩ := core_getElem? h.ef h3
  exact ⟨ed', ⟨by rw [h.bo]; exact h1, by rw [h.eo]; exact h2, h4⟩, h5⟩

theorem SameCore.inAt (h : SameCore fg fg') {u id : Nat} {ed : FastGraphEdge} (ho : fg.InAt u id ed) :
    ∃ ed', fg'.InAt u id ed' ∧ ed'.core = ed.core := by
  obtain ⟨h1, h2, h3⟩ := ho
  obtain ⟨ed', h4, h5⟩ := core_getElem? h.eb h3
  exact ⟨ed', ⟨by rw [h.bi]; exact h1, by rw [h.ei]; exact h2, h4⟩, h5⟩

theorem SameCore.FE (h : SameCore fg fg') {u x w : Nat} (ho : fg.FE u x w) : fg'.FE u x w := by
  obtain ⟨id, ed, h1, h2, h3⟩ := ho
  obtain ⟨ed', h4, h5⟩ := h.outAt h1
  obtain ⟨_, h6, h7⟩ := FastGraphEdge.core_eq h5
  exact ⟨id, ed', h4, h6.trans h2, h7.trans h3⟩

theorem SameCore.BE (h : SameCore fg fg') {u x w : Nat} (ho : fg.BE u x w) : fg'.BE u x w := by
  obtain ⟨id, ed, h1, h2, h3⟩ := ho
  obtain ⟨ed', h4, h5⟩ := h.inAt h1
  obtain ⟨_, h6, h7⟩ := FastGraphEdge.core_eq h5
  exact ⟨id, ed', h4, h6.trans h2, h7.trans h3⟩

theorem SameCore.shape (h : SameCore fg fg') (hs : Shape P n fg) : Shape P n fg' := by
  have l1 : fg'.edgesFwd.length = fg.edgesFwd.length := by simpa using congrArg List.length h.ef
  have l2 : fg'.edgesBwd.length = fg.edgesBwd.length := by simpa using congrArg List.length h.eb
  refine ⟨h.num.trans hs.num, hs.n_lt, by rw [h.ranks]; exact hs.lenR, ?_, ?_, ?_, ?_, by rw [l1]; exact hs.capF,
    by rw [l2]; exact hs.capB⟩
  · intro u hu; rw [h.rk]; exact hs.rk_lt u hu
  · intro u hu v hv; rw [h.rk, h.rk]; exact hs.rk_inj u hu v hv
  · rw [h.ff, l1]; exact hs.firstF
  · rw [h.fb, l2]; exact hs.firstB

theorem SameCore.resolved (h : SameCore fg fg') {E : EdgeRel} {u x w i o : Nat} (hr : Resolved P E n fg u x w i o) :
    Resolved P E n fg' u x w i o := by
  rcases hr with hr | ⟨h1, h2, c, hc, r1, r2, e₁, e₂, ha, hb, hc', hd, he⟩
  · exact Or.inl hr
  · obtain ⟨e₁', g1, g2⟩ := h.inAt ha
    obtain ⟨e₂', g3, g4⟩ := h.outAt hc'
    obtain ⟨_, g5, g6⟩ := FastGraphEdge.core_eq g2
    obtain ⟨_, g7, g8⟩ := FastGraphEdge.core_eq g4
    exact Or.inr ⟨h1, h2, c, hc, by rw [h.rk, h.rk]; exact r1, by rw [h.rk, h.rk]; exact r2, e₁', e₂', g1, g5.trans hb, g3,
      g7.trans hd, by rw [g6, g8]; exact he⟩
end

/-! ### Looking up edge ids -/

theorem findEdgeId_ok {es : List FastGraphEdge} {adj b e : Nat} (hlen : e ≤ es.length)
    (hex : ∃ id ed, b ≤ id ∧ id < e ∧ es[id]? = some ed ∧ ed.adjNode = adj) :
    ∃ id ed, findEdgeId es adj (rangeFrom b e) = .ok id ∧ b ≤ id ∧ id < e ∧ es[id]? = some ed ∧ ed.adjNode = adj := by
  unfold rangeFrom
  obtain ⟨id, ed, h1, h2, h3, h4⟩ := hex
  generalize hk : e - b = k
  induction k generalizing b with
  | zero => omega
  | succ k ih =>
    rw [List.range'_succ]
    unfold findEdgeId
    have hb : b < es.length := by omega
    rw [idx_ok hb]
    simp only [bind_okM]
    by_cases hbe : es[b].adjNode = adj
    · rw [if_pos (by simpa using hbe)]
      exact ⟨b, es[b], rfl, Nat.le_refl _, by omega, by simp [hb], hbe⟩
    · rw [if_neg (by simpa using hbe)]
      have hne : b ≠ id := by
        intro e'
        subst e'
        rw [List.getElem?_eq_getElem hb] at h3
        cases h3
        exact hbe h4
      obtain ⟨i, ed', g1, g2, g3⟩ := ih (b := b + 1) (by omega) (by omega)
      exact ⟨i, ed', g1, by omega, g3⟩

theorem getOutEdgeId_ok (h : Shape P n fg) {c x w : Nat} (hc : c < n) (he : fg.FE c x w) :
    ∃ id ed, getOutEdgeId fg c x = .ok id ∧ fg.OutAt c id ed ∧ ed.adjNode = x := by
  unfold getOutEdgeId
  rw [h.beginOut hc, h.endOut hc]
  simp only [bind_okM]
  obtain ⟨id, ed, ⟨h1, h2, h3⟩, h4, _⟩ := he
  obtain ⟨i, ed', g1, g2, g3, g4, g5⟩ := findEdgeId_ok (h.eo_le hc) ⟨id, ed, h1, h2, h3, h4⟩
  exact ⟨i, ed', g1, ⟨g2, g3, g4⟩, g5⟩

theorem getInEdgeId_ok (h : Shape P n fg) {c x w : Nat} (hc : c < n) (he : fg.BE c x w) :
    ∃ id ed, getInEdgeId fg c x = .ok id ∧ fg.InAt c id ed ∧ ed.adjNode = x := by
  unfold getInEdgeId
  rw [h.beginIn hc, h.endIn hc]
  simp only [bind_okM]
  obtain ⟨id, ed, ⟨h1, h2, h3⟩, h4, _⟩ := he
  obtain ⟨i, ed', g1, g2, g3, g4, g5⟩ := findEdgeId_ok (h.ei_le hc) ⟨id, ed, h1, h2, h3, h4⟩
  exact ⟨i, ed', g1, ⟨g2, g3, g4⟩, g5⟩

/-- Both lookups for a centered edge, on any graph with the same core. -/
theorem resolve_ok {E : EdgeRel} {fg' : FastGraph} (h : FPre P E n fg) (hs : SameCore fg fg') {u x w c : Nat}
    (hc : Centered P E n fg u x w c) (hne : c ≠ P.umax) :
    ∃ i o, getInEdgeId fg' c u = .ok i ∧ getOutEdgeId fg' c x = .ok o ∧ Resolved P E n fg u x w i o := by
  rcases hc with ⟨hc, _⟩ | ⟨hc, r1, r2, a, b, hb, hf, hw⟩
  · exact absurd hc hne
  have hsh := hs.shape h.toShape
  obtain ⟨i, e₁, g1, g2, g3⟩ := getInEdgeId_ok hsh hc (hs.BE hb)
  obtain ⟨o, e₂, g4, g5, g6⟩ := getOutEdgeId_ok hsh hc (hs.FE hf)
  refine ⟨i, o, g1, g4, Or.inr ⟨?_, ?_, c, hc, r1, r2, ?_⟩⟩
  · have h1 := g2.2.1; have h2 := hsh.ei_le hc; have h3 := hsh.capB; omega
  · have h1 := g5.2.1; have h2 := hsh.eo_le hc; have h3 := hsh.capF; omega
  · obtain ⟨e₁', k1, k2⟩ := hs.symm.inAt g2
    obtain ⟨e₂', k3, k4⟩ := hs.symm.outAt g5
    obtain ⟨_, k5, _⟩ := FastGraphEdge.core_eq k2
    obtain ⟨_, k7, _⟩ := FastGraphEdge.core_eq k4
    refine ⟨e₁', e₂', k1, k5.trans g3, k3, k7.trans g6, ?_⟩
    obtain ⟨ib, eb, m1, m2, m3⟩ := hb
    obtain ⟨ib', eb', m4, m5, m6⟩ := hf
    have q1 := h.uniqB c hc _ _ _ _ k1 m1 ((k5.trans g3).trans m2.symm)
    have q2 := h.uniqF c hc _ _ _ _ k3 m4 ((k7.trans g6).trans m5.symm)
    subst q1 q2
    have r1 := k1.2.2.symm.trans m1.2.2
    have r2 := k3.2.2.symm.trans m4.2.2
    cases r1
    cases r2
    rw [m3, m6]; exact hw

end FP
