import Verif.Proofs.Contractor
import Verif.Proofs.Recorded
import Verif.Proofs.Api
/-!
# Preparing graphs that are not well-formed

`InputGraph` can be deserialised, so it may hold loops, parallel edges and node ids out of range. Here the preparation is followed on
such graphs: it always ends in a panic, and it ends.
-/
namespace FP
open Spec PreparationGraph

variable {α β σ : Type} {P : Plat} {pq : PQ} {nq : NodeQueue} {n : Nat}

/-- `m` returns a value satisfying `Q`, or panics, and not by a debug assertion. It does not run forever. -/
def TriN (m : M α) (Q : α → Prop) : Prop :=
  match m with
  | .ok a => Q a
  | .error e => e ≠ .outOfFuel ∧ e ≠ .debugAssertion

@[simp] theorem TriN_ok (a : α) (Q : α → Prop) : TriN (.ok a) Q ↔ Q a := Iff.rfl
@[simp] theorem TriN_error (e : Panic) (Q : α → Prop) : TriN (.error e : M α) Q ↔ e ≠ .outOfFuel ∧ e ≠ .debugAssertion := Iff.rfl

theorem TriN.mono {m : M α} {Q R : α → Prop} (h : TriN m Q) (hQR : ∀ a, Q a → R a) : TriN m R := by
  cases m with
  | ok a => exact hQR a h
  | error e => exact h

theorem TriN.bind {m : M α} {f : α → M β} {Q : α → Prop} {R : β → Prop}
    (h : TriN m Q) (hf : ∀ a, Q a → TriN (f a) R) : TriN (m >>= f) R := by
  cases m with
  | ok a => exact hf a h
  | error e => exact h

theorem Tri.toN {m : M α} {Q : α → Prop} (h : Tri m Q) : TriN m Q := by
  cases m with
  | ok a => exact h
  | error e =>
    show e ≠ .outOfFuel ∧ e ≠ .debugAssertion
    constructor <;> (rintro rfl; exact h)

theorem TriN.of_ok {m : M α} {Q : α → Prop} {a : α} (h : TriN m Q) (e : m = .ok a) : Q a := by
  subst e; exact h

theorem TriN_forM {f : σ → α → M σ} {l : List α} (I : List α → σ → Prop) {s : σ} (h0 : I [] s)
    (hs : ∀ pre a post s, l = pre ++ a :: post → I pre s → TriN (f s a) (I (pre ++ [a]))) :
    TriN (forM f s l) (I l) := by
  suffices ∀ post pre s, l = pre ++ post → I pre s → TriN (forM f s post) (I l) from this l [] s rfl h0
  intro post
  induction post with
  | nil => intro pre s hl hI; simp at hl; subst hl; exact hI
  | cons a as ih =>
    intro pre s hl hI
    refine TriN.bind (hs pre a as s hl hI) ?_
    intro s' hs'
    exact ih (pre ++ [a]) s' (by simp [hl]) hs'

theorem TriN_forM_range {f : σ → Nat → M σ} {k : Nat} (I : Nat → σ → Prop) {s : σ} (h0 : I 0 s)
    (hs : ∀ i s, i < k → I i s → TriN (f s i) (I (i + 1))) : TriN (forM f s (List.range k)) (I k) := by
  have := TriN_forM (f := f) (l := List.range k) (fun pre s => I pre.length s) h0 (by
    intro pre a post s hl hI
    have hlen : pre.length + (post.length + 1) = k := by
      have := congrArg List.length hl
      simpa using this.symm
    have ha : a = pre.length := by
      have h1 : (List.range k)[pre.length]? = some a := by rw [hl]; simp
      rw [List.getElem?_range (by omega)] at h1
      exact (Option.some.inj h1).symm
    subst ha
    have := hs pre.length s (by omega) hI
    simpa using this)
  simpa using this

theorem TriN_idx (l : List α) (i : Nat) : TriN (idx l i) (fun a => l[i]? = some a) := by
  unfold idx
  cases h : l[i]? <;> simp

theorem TriN_setIdx (l : List α) (i : Nat) (a : α) : TriN (setIdx l i a) (fun l' => i < l.length ∧ l' = l.set i a) := by
  unfold setIdx
  split <;> simp_all

theorem TriN_modIdx (l : List α) (i : Nat) (f : α → α) :
    TriN (modIdx l i f) (fun l' => ∃ a, l[i]? = some a ∧ l' = l.set i (f a)) := by
  unfold modIdx
  cases h : l[i]? <;> simp

theorem TriN_assertM (c : Bool) : TriN (assertM c) (fun _ => c = true) := by
  cases c <;> simp

theorem TriN_addW (P : Plat) (a b : Nat) : TriN (addW P a b) (fun _ => True) := by
  unfold addW
  repeat' split
  all_goals simp

theorem TriN_vecPush (P : Plat) (l : List α) (a : α) : TriN (vecPush P l a) (fun _ => True) := by
  unfold vecPush
  split <;> simp

/-! ### Building the preparation graph -/

/-- Arcs to `y` in a list. -/
def cnt (y : Nat) (l : List Arc) : Nat := l.countP (fun a => a.adj == y)

theorem cnt_pos {y : Nat} {l : List Arc} : 0 < cnt y l ↔ ∃ a ∈ l, a.adj = y := by
  unfold cnt
  rw [List.countP_pos_iff]
  simp

theorem cnt_map {y : Nat} {l : List Arc} : cnt y l = (l.map Arc.adj).count y := by
  unfold cnt
  rw [List.count, List.countP_map]
  rfl

theorem addEdgeOrShortcut_eq_ok {g g' : PreparationGraph} {u v w c : Nat} (h : addEdgeOrShortcut g u v w c = .ok g') :
    v < g.numNodes ∧ u < g.outEdges.length ∧ v < g.inEdges.length ∧
      g' = { g with outEdges := g.outEdges.set u (g.outs u ++ [⟨v, w, c⟩]),
                    inEdges := g.inEdges.set v (g.ins v ++ [⟨u, w, c⟩]) } := by
  unfold addEdgeOrShortcut at h
  obtain ⟨_, h1, h⟩ := bind_eq_ok.1 h
  obtain ⟨o, h2, h⟩ := bind_eq_ok.1 h
  obtain ⟨i, h3, h⟩ := bind_eq_ok.1 h
  obtain ⟨o', k2, rfl⟩ := modIdx_eq_ok.1 h2
  obtain ⟨i', k3, rfl⟩ := modIdx_eq_ok.1 h3
  injection h with h
  refine ⟨by simpa using assertM_eq_ok.1 h1, (List.getElem?_eq_some_iff.1 k2).1, (List.getElem?_eq_some_iff.1 k3).1, ?_⟩
  rw [← h]
  simp [outs, ins, k2, k3]

theorem TriN_addEdgeOrShortcut (g : PreparationGraph) (u v w c : Nat) :
    TriN (addEdgeOrShortcut g u v w c) (fun g' => v < g.numNodes ∧ u < g.outEdges.length ∧ v < g.inEdges.length ∧
      g' = { g with outEdges := g.outEdges.set u (g.outs u ++ [⟨v, w, c⟩]),
                    inEdges := g.inEdges.set v (g.ins v ++ [⟨u, w, c⟩]) }) := by
  cases h : addEdgeOrShortcut g u v w c with
  | ok g' => exact addEdgeOrShortcut_eq_ok h
  | error e =>
    have : TriN (addEdgeOrShortcut g u v w c) (fun _ => True) := by
      unfold addEdgeOrShortcut
      refine TriN.bind (TriN_assertM _) (fun _ _ => TriN.bind (TriN_modIdx _ _ _) (fun _ _ => TriN.bind (TriN_modIdx _ _ _)
        (fun _ _ => trivial)))
    rw [h] at this
    exact this

theorem outs_setOut {g : PreparationGraph} {u : Nat} (hu : u < g.outEdges.length) (l : List Arc) (i : List (List Arc)) (x : Nat) :
    outs { g with outEdges := g.outEdges.set u l, inEdges := i } x = if x = u then l else g.outs x := by
  simp only [outs]
  rw [getElem?_set' hu]
  by_cases hx : u = x
  · simp [hx]
  · simp [hx, Ne.symm hx]

theorem ins_setIn {g : PreparationGraph} {u : Nat} (hu : u < g.inEdges.length) (l : List Arc) (o : List (List Arc)) (x : Nat) :
    ins { g with outEdges := o, inEdges := g.inEdges.set u l } x = if x = u then l else g.ins x := by
  simp only [ins]
  rw [getElem?_set' hu]
  by_cases hx : u = x
  · simp [hx]
  · simp [hx, Ne.symm hx]

/-- What `from_input_graph` makes of any edge list. -/
structure Loaded (n : Nat) (es : List Edge) (g : PreparationGraph) : Prop where
  lax : Lax n g
  lt : ∀ e ∈ es, e.src < n ∧ e.dst < n
  out : ∀ u v, cnt v (g.outs u) = es.countP (fun e => e.src == u && e.dst == v)
  inn : ∀ u v, cnt u (g.ins v) = es.countP (fun e => e.src == u && e.dst == v)

theorem Lax_new (n : Nat) : Lax n (new n) := (WF_new n).lax

theorem fromInputGraph_loaded (ig : InputGraph) :
    TriN (fromInputGraph P ig) (fun g => ig.frozen = true ∧ Loaded ig.numNodes ig.edges g) := by
  unfold fromInputGraph InputGraph.getNumNodes InputGraph.getEdges InputGraph.checkFrozen
  cases hf : ig.frozen with
  | false => simp
  | true =>
    simp only [assertM_true, bind_okM]
    refine (TriN_forM (fun pre g => Loaded ig.numNodes pre g) ⟨Lax_new _, by simp, by simp [outs_new, cnt], by simp [ins_new, cnt]⟩ ?_).mono
      (fun _ h => ⟨trivial, h⟩)
    rintro pre e post g hl h
    unfold addEdge
    refine (TriN_addEdgeOrShortcut g e.src e.dst e.weight P.INVALID_NODE).mono ?_
    rintro g' ⟨h1, h2, h3, rfl⟩
    have hd : e.dst < ig.numNodes := h.lax.num ▸ h1
    have hs : e.src < ig.numNodes := h.lax.lenOut ▸ h2
    refine ⟨⟨h.lax.num, by simp [h.lax.lenOut], by simp [h.lax.lenIn], ?_, ?_⟩, ?_, ?_, ?_⟩
    · intro u a ha
      rw [outs_setOut h2] at ha
      split at ha
      · rcases List.mem_append.1 ha with ha | ha
        · exact h.lax.adj_lt ha
        · simp at ha; subst ha; exact hd
      · exact h.lax.adj_lt ha
    · intro u a ha
      rw [ins_setIn h3] at ha
      split at ha
      · rcases List.mem_append.1 ha with ha | ha
        · exact h.lax.adj_lt_in ha
        · simp at ha; subst ha; exact hs
      · exact h.lax.adj_lt_in ha
    · intro e' he'
      rcases List.mem_append.1 he' with he' | he'
      · exact h.lt e' he'
      · simp at he'; subst he'; exact ⟨hs, hd⟩
    · intro u v
      rw [outs_setOut h2, List.countP_append, ← h.out]
      split
      · rename_i hu
        subst hu
        simp [cnt, List.countP_append, List.countP_cons]
      · rename_i hu
        simp [cnt, Ne.symm hu]
    · intro u v
      rw [ins_setIn h3, List.countP_append, ← h.inn]
      split
      · rename_i hu
        subst hu
        simp [cnt, List.countP_append, List.countP_cons]
      · rename_i hu
        simp [cnt, Ne.symm hu]

/-! ### Contracting a node -/

/-- The arcs of `x` become lighter or stay, keep their order, and new ones come last. -/
structure LaxAdd (n : Nat) (u v : Nat) (g g' : PreparationGraph) : Prop where
  lax : Lax n g'
  outs_ne : ∀ x, x ≠ u → g'.outs x = g.outs x
  ins_ne : ∀ x, x ≠ v → g'.ins x = g.ins x
  outs_pre : (g.outs u).map Arc.adj <+: (g'.outs u).map Arc.adj
  ins_pre : (g.ins v).map Arc.adj <+: (g'.ins v).map Arc.adj
  keep : ∀ a ∈ g.outs u, ∃ a' ∈ g'.outs u, a'.adj = a.adj ∧ a'.weight ≤ a.weight

theorem LaxAdd.refl {u v : Nat} {g : PreparationGraph} (h : Lax n g) : LaxAdd n u v g g :=
  ⟨h, fun _ _ => rfl, fun _ _ => rfl, List.prefix_refl _, List.prefix_refl _, fun a ha => ⟨a, ha, rfl, Nat.le_refl _⟩⟩

theorem map_adj_updFirst {p : Arc → Bool} {f : Arc → Arc} (hf : ∀ a, (f a).adj = a.adj) (l : List Arc) :
    (updFirst p f l).map Arc.adj = l.map Arc.adj := by
  induction l with
  | nil => rfl
  | cons x xs ih =>
    simp only [updFirst]
    split
    · simp [hf]
    · simp [ih]

/-- Arcs other than the first to `v` are untouched, and this one is the one `find?` returns. -/
theorem keep_updFirst {f : Arc → Arc} {v : Nat} {o : Arc} {l : List Arc} (hf : l.find? (fun a => a.adj == v) = some o)
    {a : Arc} (ha : a ∈ l) : a ∈ updFirst (fun a => a.adj == v) f l ∨ (a = o ∧ f o ∈ updFirst (fun a => a.adj == v) f l) := by
  induction l with
  | nil => simp at ha
  | cons x xs ih =>
    simp only [updFirst]
    rw [List.find?_cons] at hf
    split
    · rename_i hx
      rw [hx] at hf
      injection hf with hf
      subst hf
      rcases List.mem_cons.1 ha with rfl | ha
      · exact Or.inr ⟨rfl, by simp⟩
      · exact Or.inl (by simp [ha])
    · rename_i hx
      rw [Bool.not_eq_true] at hx
      rw [hx] at hf
      rcases List.mem_cons.1 ha with rfl | ha
      · exact Or.inl (by simp)
      · rcases ih hf ha with h | ⟨h1, h2⟩
        · exact Or.inl (by simp [h])
        · exact Or.inr ⟨h1, by simp [h2]⟩

theorem lt_of_prefix_adj {m : Nat} {l l' : List Arc} (h : l'.map Arc.adj = l.map Arc.adj) (hl : ∀ a ∈ l, a.adj < m) :
    ∀ a ∈ l', a.adj < m := by
  intro a ha
  have : a.adj ∈ l.map Arc.adj := h ▸ List.mem_map_of_mem ha
  obtain ⟨b, hb, e⟩ := List.mem_map.1 this
  exact e ▸ hl b hb

theorem addOrReduceEdge_lax {g : PreparationGraph} (h : Lax n g) {u v w c : Nat} :
    TriN (addOrReduceEdge g u v w c) (LaxAdd n u v g) := by
  unfold addOrReduceEdge reduceEdge
  by_cases hu' : u < g.outEdges.length
  swap
  · have : idx g.outEdges u = .error .index := by simp [idx, List.getElem?_eq_none (Nat.le_of_not_lt hu')]
    rw [this]
    simp
  rw [idx_outEdges hu']
  simp only [bind_okM]
  cases hf : (g.outs u).find? (fun a => a.adj == v) with
  | none =>
    simp only [bind_okM, Bool.false_eq_true, if_false]
    refine (TriN_addEdgeOrShortcut g u v w c).mono ?_
    rintro g' ⟨h1, h2, h3, rfl⟩
    refine ⟨⟨h.num, by simp [h.lenOut], by simp [h.lenIn], ?_, ?_⟩, ?_, ?_, ?_, ?_, ?_⟩
    · intro x a ha
      rw [outs_setOut h2] at ha
      split at ha
      · rcases List.mem_append.1 ha with ha | ha
        · exact h.adj_lt ha
        · simp at ha; subst ha; exact h.num ▸ h1
      · exact h.adj_lt ha
    · intro x a ha
      rw [ins_setIn h3] at ha
      split at ha
      · rcases List.mem_append.1 ha with ha | ha
        · exact h.adj_lt_in ha
        · simp at ha; subst ha; exact h.lenOut ▸ h2
      · exact h.adj_lt_in ha
    · intro x hx; rw [outs_setOut h2, if_neg hx]
    · intro x hx; rw [ins_setIn h3, if_neg hx]
    · rw [outs_setOut h2, if_pos rfl, List.map_append]; exact List.prefix_append _ _
    · rw [ins_setIn h3, if_pos rfl, List.map_append]; exact List.prefix_append _ _
    · intro a ha
      refine ⟨a, ?_, rfl, Nat.le_refl _⟩
      rw [outs_setOut h2, if_pos rfl]
      exact List.mem_append_left _ ha
  | some o =>
    simp only
    by_cases hw : o.weight ≤ w
    · simp only [hw, if_true, bind_okM, TriN_ok]
      exact LaxAdd.refl h
    · simp only [hw, if_false]
      by_cases hv' : v < g.inEdges.length
      swap
      · have : idx g.inEdges v = .error .index := by simp [idx, List.getElem?_eq_none (Nat.le_of_not_lt hv')]
        rw [this]
        simp
      rw [idx_inEdges hv']
      simp only [bind_okM]
      by_cases hany : (g.ins v).any (fun a => a.adj == u) = true
      swap
      · simp only [hany]
        exact LaxAdd.refl h
      simp only [hany, if_true, bind_okM, TriN_ok]
      have ho := outs_setOut hu' (updFirst (fun a => a.adj == v) (fun a => { a with weight := w, center := c }) (g.outs u))
        (g.inEdges.set v ((g.ins v).map (fun a => if a.adj == u then { a with weight := w, center := c } else a)))
      have hi := ins_setIn hv' ((g.ins v).map (fun a => if a.adj == u then { a with weight := w, center := c } else a))
        (g.outEdges.set u (updFirst (fun a => a.adj == v) (fun a => { a with weight := w, center := c }) (g.outs u)))
      have mo := map_adj_updFirst (p := fun a => a.adj == v) (f := fun a => ({ a with weight := w, center := c } : Arc))
        (fun _ => rfl) (g.outs u)
      have mi : ((g.ins v).map (fun a => if a.adj == u then ({ a with weight := w, center := c } : Arc) else a)).map Arc.adj =
          (g.ins v).map Arc.adj := by
        rw [List.map_map]
        apply List.map_congr_left
        intro a _
        simp only [Function.comp]
        split <;> rfl
      refine ⟨⟨h.num, by simp [h.lenOut], by simp [h.lenIn], ?_, ?_⟩, ?_, ?_, ?_, ?_, ?_⟩
      · intro x a ha
        rw [ho] at ha
        split at ha
        · exact lt_of_prefix_adj mo (fun b hb => h.adj_lt hb) a ha
        · exact h.adj_lt ha
      · intro x a ha
        rw [hi] at ha
        split at ha
        · exact lt_of_prefix_adj mi (fun b hb => h.adj_lt_in hb) a ha
        · exact h.adj_lt_in ha
      · intro x hx; rw [ho, if_neg hx]
      · intro x hx; rw [hi, if_neg hx]
      · rw [ho, if_pos rfl, mo]; exact List.prefix_refl _
      · rw [hi, if_pos rfl, mi]; exact List.prefix_refl _
      · intro a ha
        rw [ho, if_pos rfl]
        rcases keep_updFirst (f := fun a => ({ a with weight := w, center := c } : Arc)) hf ha with h' | ⟨rfl, h'⟩
        · exact ⟨a, h', rfl, Nat.le_refl _⟩
        · exact ⟨_, h', rfl, by simp only; omega⟩

theorem LaxAdd.grow {u v x : Nat} {g g' : PreparationGraph} (h : LaxAdd n u v g g') : Grow x g g' := by
  rintro a b w ⟨⟨c, hc⟩, ha, hb⟩
  by_cases hau : a = u
  · subst hau
    obtain ⟨a', h1, h2, h3⟩ := h.keep _ hc
    refine ⟨a'.weight, h3, ⟨a'.center, ?_⟩, ha, hb⟩
    have h2 : a'.adj = b := h2
    rw [← h2]
    exact h1
  · exact ⟨w, Nat.le_refl _, ⟨c, by rw [h.outs_ne a hau]; exact hc⟩, ha, hb⟩

/-- Nothing disappears while the shortcuts of node `v` are handled, and the arcs of `v` do not change. -/
structure LaxKeep (n v : Nat) (g g' : PreparationGraph) : Prop where
  lax : Lax n g'
  outs : g'.outs v = g.outs v
  ins : g'.ins v = g.ins v
  outs_cnt : ∀ x y, cnt y (g.outs x) ≤ cnt y (g'.outs x)
  ins_cnt : ∀ x y, cnt y (g.ins x) ≤ cnt y (g'.ins x)

theorem LaxKeep.refl {v : Nat} {g : PreparationGraph} (h : Lax n g) : LaxKeep n v g g :=
  ⟨h, rfl, rfl, fun _ _ => Nat.le_refl _, fun _ _ => Nat.le_refl _⟩

theorem LaxKeep.add {v s t : Nat} {g g' g'' : PreparationGraph} (h : LaxKeep n v g g') (h' : LaxAdd n s t g' g'')
    (hs : s ≠ v) (ht : t ≠ v) : LaxKeep n v g g'' := by
  refine ⟨h'.lax, (h'.outs_ne v hs.symm).trans h.outs, (h'.ins_ne v ht.symm).trans h.ins, fun x y => ?_, fun x y => ?_⟩
  · refine (h.outs_cnt x y).trans ?_
    by_cases hx : x = s
    · subst hx
      rw [cnt_map, cnt_map]
      exact h'.outs_pre.sublist.count_le y
    · rw [h'.outs_ne x hx]
  · refine (h.ins_cnt x y).trans ?_
    by_cases hx : x = t
    · subst hx
      rw [cnt_map, cnt_map]
      exact h'.ins_pre.sublist.count_le y
    · rw [h'.ins_ne x hx]

theorem findMaxWeight_avoid {ws : WitnessSearch pq} {g : PreparationGraph} {target wl sl : Nat} (h : target = ws.avoidNode) :
    TriN (ws.findMaxWeight P g target wl sl) (fun _ => False) := by
  unfold WitnessSearch.findMaxWeight
  refine TriN.bind (TriN_assertM _) (fun _ _ => TriN.bind (TriN_assertM _) (fun _ _ => TriN.bind (TriN_assertM _) ?_))
  intro _ h3
  simp [h] at h3

theorem init_self {ws : WitnessSearch pq} {s : Nat} : TriN (ws.init P s s) (fun _ => False) := by
  unfold WitnessSearch.init
  refine TriN.bind (TriN_assertM _) (fun _ _ => TriN.bind (TriN_assertM _) ?_)
  intro _ h
  simp at h

/-- Handlers that only add arcs between the ends of the shortcut. -/
def LaxHandler (n : Nat) (handle : PreparationGraph → β → Shortcut → M (PreparationGraph × β)) : Prop :=
  ∀ g acc s, Lax n g → TriN (handle g acc s) (fun r => LaxAdd n s.src s.dst g r.1)

theorem addShortcut_lax : LaxHandler n addShortcut := by
  intro g acc s h
  unfold addShortcut
  exact TriN.bind (addOrReduceEdge_lax h) (fun _ h' => h')

theorem countShortcut_lax : LaxHandler n (countShortcut P) := by
  intro g acc s h
  unfold countShortcut
  repeat' split
  · exact LaxAdd.refl h
  · simp
  · exact LaxAdd.refl h

theorem handleShortcuts_lax (hP : P.checked = true) (hn : n ≤ P.umax) {g : PreparationGraph} (hg : Lax n g) {v : Nat}
    {handle : PreparationGraph → β → Shortcut → M (PreparationGraph × β)} (hh : LaxHandler n handle)
    {ws : WitnessSearch pq} {acc : β} {ms : Nat} (hws : ws.Base n) :
    TriN (handleShortcuts P g ws v handle acc ms) (fun st => LaxKeep n v g st.graph ∧ st.ws.Base n ∧
      ∀ a ∈ g.ins v, a.adj ≠ v) := by
  unfold handleShortcuts
  refine TriN.bind (TriN_idx _ _) ?_
  intro insN hI
  have hv : v < n := hg.lenIn ▸ (List.getElem?_eq_some_iff.1 hI).1
  rw [getElem?_inEdges (hg.lenIn ▸ hv)] at hI
  injection hI with hI
  subst hI
  have hidxI : ∀ gc, LaxKeep n v g gc → idx gc.inEdges v = .ok (g.ins v) := by
    intro gc h
    rw [idx_inEdges (by rw [h.lax.lenIn]; exact hv), h.ins]
  have hidxO : ∀ gc, LaxKeep n v g gc → idx gc.outEdges v = .ok (g.outs v) := by
    intro gc h
    rw [idx_outEdges (by rw [h.lax.lenOut]; exact hv), h.outs]
  refine (TriN_forM_range (fun i (st : HSState pq β) => LaxKeep n v g st.graph ∧ st.ws.Base n ∧
    ∀ i' < i, ∀ a, (g.ins v)[i']? = some a → a.adj ≠ v) ⟨LaxKeep.refl hg, hws, by intro i' h; omega⟩ ?_).mono ?_
  swap
  · rintro st ⟨h1, h2, h3⟩
    refine ⟨h1, h2, fun a ha => ?_⟩
    obtain ⟨i, hi⟩ := List.mem_iff_getElem?.1 ha
    exact h3 i (List.getElem?_eq_some_iff.1 hi).1 a hi
  rintro i st hi ⟨hk, hbase, hdone⟩
  unfold handleIn
  rw [hidxI _ hk]
  simp only [bind_okM]
  have hai : (g.ins v)[i]? = some (g.ins v)[i] := by simp [hi]
  generalize (g.ins v)[i] = a at hai
  have ha : a ∈ g.ins v := List.mem_of_getElem? hai
  have halt : a.adj < n := hg.adj_lt_in ha
  have haP : a.adj ≠ P.umax := by omega
  rw [idx_some hai]
  simp only [bind_okM]
  by_cases hav : a.adj = v
  · rw [hav]
    exact TriN.bind init_self (fun _ h => h.elim)
  obtain ⟨ws', e, hinv, _⟩ := WitnessSearch.init_ok hbase halt haP hav st.graph
  rw [e]
  simp only [bind_okM]
  rw [hidxO _ hk]
  simp only [bind_okM]
  refine (TriN_forM_range (s := { st with ws := ws' }) (fun _ (st : HSState pq β) => LaxKeep n v g st.graph ∧ WitnessSearch.Inv n st.graph a.adj v st.ws)
    ⟨hk, hinv⟩ ?_).mono ?_
  swap
  · rintro st' ⟨h1, h2⟩
    refine ⟨h1, h2.toBase, fun i' hi' b hb => ?_⟩
    by_cases hii : i' = i
    · subst hii
      rw [hai] at hb
      injection hb with hb
      exact hb ▸ hav
    · exact hdone i' (by omega) b hb
  rintro j st' hj ⟨hk', hinv'⟩
  unfold handlePair
  rw [hidxI _ hk']
  simp only [bind_okM]
  rw [idx_some hai]
  simp only [bind_okM]
  rw [hidxO _ hk']
  simp only [bind_okM]
  have hbj : (g.outs v)[j]? = some (g.outs v)[j] := by simp [hj]
  generalize (g.outs v)[j] = b at hbj
  have hb : b ∈ g.outs v := List.mem_of_getElem? hbj
  rw [idx_some hbj]
  simp only [bind_okM]
  refine TriN.bind (TriN_addW _ _ _) (fun w _ => ?_)
  by_cases hbv : b.adj = v
  · exact TriN.bind (findMaxWeight_avoid (by rw [hbv, hinv'.avoid])) (fun _ h => h.elim)
  refine TriN.bind (WitnessSearch.findMaxWeight_ok hP hk'.lax hinv' haP (hg.adj_lt hb) hbv).toN ?_
  rintro ⟨ws2, mw⟩ ⟨hinv2, _⟩
  simp only
  split
  · exact ⟨hk', hinv2⟩
  · refine TriN.bind (hh st'.graph st'.acc ⟨a.adj, b.adj, v, w⟩ hk'.lax) ?_
    rintro ⟨g2, acc2⟩ h2
    exact ⟨hk'.add h2 hav hbv, hinv2.mono h2.grow⟩

/-! ### Disconnecting a node -/

theorem length_filter_cnt (l : List Arc) (y : Nat) : (l.filter (fun e => e.adj != y)).length + cnt y l = l.length := by
  have := List.length_eq_countP_add_countP (fun a : Arc => a.adj == y) (l := l)
  have h2 : (l.filter (fun e => e.adj != y)).length = l.countP (fun a => ¬ (a.adj == y) = true) := by
    rw [List.countP_eq_length_filter]
    congr 1
    apply List.filter_congr
    intro a _
    by_cases ha : a.adj = y <;> simp [ha]
  unfold cnt
  omega

theorem cnt_filter_ne {l : List Arc} {v y : Nat} (h : y ≠ v) : cnt y (l.filter (fun e => e.adj != v)) = cnt y l := by
  unfold cnt
  rw [List.countP_filter]
  apply List.countP_congr
  intro a _
  simp only [Bool.and_eq_true, beq_iff_eq, bne_iff_ne, ne_eq, and_iff_left_iff_imp]
  rintro rfl
  exact h

theorem removeEdge_cnt (l : List Arc) (v : Nat) :
    TriN (removeEdgeWithAdjNode l v) (fun l' => l' = l.filter (fun e => e.adj != v) ∧ cnt v l = 1) := by
  simp only [removeEdgeWithAdjNode]
  refine TriN.bind (TriN_assertM _) (fun _ h => ⟨rfl, ?_⟩)
  have := length_filter_cnt l v
  simp only [beq_iff_eq] at h
  omega

/-- What a successful `disconnect` says about the arcs of the node, and what it leaves alone. -/
theorem disconnect_lax {g : PreparationGraph} (h : Lax n g) (v : Nat) :
    TriN (disconnect g v) (fun g' => Lax n g' ∧
      (∀ a ∈ g.outs v, cnt v (g.ins a.adj) ≤ 1) ∧ (∀ a ∈ g.ins v, a.adj ≠ v → cnt v (g.outs a.adj) ≤ 1) ∧
      (∀ x y, x ≠ v → y ≠ v → cnt y (g'.outs x) = cnt y (g.outs x) ∧ cnt y (g'.ins x) = cnt y (g.ins x))) := by
  unfold disconnect
  refine TriN.bind (TriN_idx _ _) ?_
  intro os hO
  have hv : v < n := h.lenOut ▸ (List.getElem?_eq_some_iff.1 hO).1
  rw [getElem?_outEdges (h.lenOut ▸ hv)] at hO
  injection hO with hO
  subst hO
  -- first loop
  refine TriN.bind (TriN_forM (fun pre (g₁ : PreparationGraph) => g₁.numNodes = n ∧ g₁.inEdges.length = n ∧
    g₁.outEdges = g.outEdges ∧ (∀ x, x ∉ pre.map Arc.adj → g₁.ins x = g.ins x) ∧
    (∀ x, ∀ a ∈ g₁.ins x, a ∈ g.ins x) ∧ (∀ x y, y ≠ v → cnt y (g₁.ins x) = cnt y (g.ins x)) ∧
    ∀ a ∈ pre, cnt v (g.ins a.adj) ≤ 1) ⟨h.num, h.lenIn, rfl, fun _ _ => rfl, fun _ _ ha => ha, fun _ _ _ => rfl, by simp⟩ ?_) ?_
  · rintro pre a post g₁ hl ⟨i1, i2, i3, i4, i5, i6, i7⟩
    have ha : a ∈ g.outs v := by rw [hl]; simp
    have halt : a.adj < g₁.inEdges.length := by rw [i2]; exact h.adj_lt ha
    unfold removeInEdge
    rw [idx_inEdges halt]
    simp only [bind_okM]
    refine TriN.bind (removeEdge_cnt _ _) ?_
    rintro l ⟨rfl, hc⟩
    have hi := ins_setIn halt ((g₁.ins a.adj).filter (fun e => e.adj != v)) g₁.outEdges
    refine ⟨i1, by simp [i2], i3, ?_, ?_, ?_, ?_⟩
    · intro x hx
      simp only [List.map_append, List.map_cons, List.map_nil, List.mem_append, List.mem_singleton, not_or] at hx
      rw [hi, if_neg hx.2]
      exact i4 x hx.1
    · intro x b hb
      rw [hi] at hb
      split at hb
      · rename_i hx
        subst hx
        exact i5 _ b (List.mem_filter.1 hb).1
      · exact i5 x b hb
    · intro x y hy
      rw [hi]
      split
      · rename_i hx
        subst hx
        rw [cnt_filter_ne hy]
        exact i6 _ y hy
      · exact i6 x y hy
    · intro b hb
      rcases List.mem_append.1 hb with hb | hb
      · exact i7 b hb
      · simp only [List.mem_singleton] at hb
        subst hb
        by_cases hp : b.adj ∈ pre.map Arc.adj
        · obtain ⟨b', hb', e⟩ := List.mem_map.1 hp
          exact e ▸ i7 b' hb'
        · rw [← i4 _ hp, hc]
  rintro g₁ ⟨i1, i2, i3, -, i5, i6, i7⟩
  have ho1 : ∀ x, g₁.outs x = g.outs x := fun x => by simp [outs, i3]
  rw [idx_inEdges (by rw [i2]; exact hv)]
  simp only [bind_okM]
  -- second loop
  refine TriN.bind (TriN_forM (fun pre (g₂ : PreparationGraph) => g₂.numNodes = n ∧ g₂.outEdges.length = n ∧
    g₂.inEdges = g₁.inEdges ∧ (∀ x, x ∉ pre.map Arc.adj → g₂.outs x = g.outs x) ∧
    (∀ x, ∀ a ∈ g₂.outs x, a ∈ g.outs x) ∧ (∀ x y, y ≠ v → cnt y (g₂.outs x) = cnt y (g.outs x)) ∧
    ∀ a ∈ pre, cnt v (g.outs a.adj) ≤ 1)
    ⟨i1, by rw [i3]; exact h.lenOut, rfl, fun _ _ => ho1 _, fun x a ha => ho1 x ▸ ha, fun x y _ => by rw [ho1], by simp⟩ ?_) ?_
  · rintro pre a post g₂ hl ⟨j1, j2, j3, j4, j5, j6, j7⟩
    have ha : a ∈ g₁.ins v := by rw [hl]; simp
    have halt : a.adj < g₂.outEdges.length := by rw [j2]; exact h.adj_lt_in (i5 _ _ ha)
    unfold removeOutEdge
    rw [idx_outEdges halt]
    simp only [bind_okM]
    refine TriN.bind (removeEdge_cnt _ _) ?_
    rintro l ⟨rfl, hc⟩
    have hi := outs_setOut halt ((g₂.outs a.adj).filter (fun e => e.adj != v)) g₂.inEdges
    refine ⟨j1, by simp [j2], j3, ?_, ?_, ?_, ?_⟩
    · intro x hx
      simp only [List.map_append, List.map_cons, List.map_nil, List.mem_append, List.mem_singleton, not_or] at hx
      rw [hi, if_neg hx.2]
      exact j4 x hx.1
    · intro x b hb
      rw [hi] at hb
      split at hb
      · rename_i hx
        subst hx
        exact j5 _ b (List.mem_filter.1 hb).1
      · exact j5 x b hb
    · intro x y hy
      rw [hi]
      split
      · rename_i hx
        subst hx
        rw [cnt_filter_ne hy]
        exact j6 _ y hy
      · exact j6 x y hy
    · intro b hb
      rcases List.mem_append.1 hb with hb | hb
      · exact j7 b hb
      · simp only [List.mem_singleton] at hb
        subst hb
        by_cases hp : b.adj ∈ pre.map Arc.adj
        · obtain ⟨b', hb', e⟩ := List.mem_map.1 hp
          exact e ▸ j7 b' hb'
        · rw [← j4 _ hp, hc]
  rintro g₂ ⟨j1, j2, j3, -, j5, j6, j7⟩
  have hi2 : ∀ x, g₂.ins x = g₁.ins x := fun x => by simp [ins, j3]
  have hv3 : v < g₂.inEdges.length := by rw [j3, i2]; exact hv
  have hv4 : v < g₂.outEdges.length := by rw [j2]; exact hv
  rw [setIdx_ok hv3, setIdx_ok hv4]
  simp only [bind_okM, TriN_ok]
  have hO : ∀ x, outs { g₂ with inEdges := g₂.inEdges.set v [], outEdges := g₂.outEdges.set v [] } x
      = if x = v then [] else g₂.outs x := outs_setOut hv4 _ _
  have hI : ∀ x, ins { g₂ with inEdges := g₂.inEdges.set v [], outEdges := g₂.outEdges.set v [] } x
      = if x = v then [] else g₂.ins x := ins_setIn hv3 _ _
  refine ⟨⟨j1, by simp [j2], by simp [j3, i2], ?_, ?_⟩, i7, ?_, ?_⟩
  · intro u a ha
    rw [hO] at ha
    split at ha
    · simp at ha
    · exact h.adj_lt (j5 _ _ ha)
  · intro u a ha
    rw [hI] at ha
    split at ha
    · simp at ha
    · rw [hi2] at ha
      exact h.adj_lt_in (i5 _ _ ha)
  · intro a ha hav
    have h1 : 0 < cnt a.adj (g₁.ins v) := by
      rw [i6 v a.adj hav]
      exact cnt_pos.2 ⟨a, ha, rfl⟩
    obtain ⟨b, hb, e⟩ := cnt_pos.1 h1
    exact e ▸ j7 b hb
  · intro x y hx hy
    rw [hO, if_neg hx, hI, if_neg hx, hi2]
    exact ⟨j6 x y hy, i6 x y hy⟩

/-- What makes every preparation fail: a loop at `u = v`, or parallel arcs from `u` to `v`. -/
def Bad (u v : Nat) (g : PreparationGraph) : Prop :=
  (u = v ∧ 0 < cnt u (g.ins v)) ∨ (u ≠ v ∧ 2 ≤ cnt v (g.outs u) ∧ 2 ≤ cnt u (g.ins v))

/-- Contracting an end of a bad arc panics, contracting another node keeps it. -/
theorem contractNode_bad (hP : P.checked = true) (hn : n ≤ P.umax) {g : PreparationGraph} (hg : Lax n g) {ws : WitnessSearch pq}
    (hws : ws.Base n) {node ms u v : Nat} (hb : Bad u v g) :
    TriN (contractNode P g ws node ms) (fun r => node ≠ u ∧ node ≠ v ∧ Lax n r.1 ∧ r.2.Base n ∧ Bad u v r.1) := by
  unfold contractNode
  refine TriN.bind (handleShortcuts_lax hP hn hg addShortcut_lax hws) ?_
  rintro st ⟨hk, hbase, hloop⟩
  refine TriN.bind (disconnect_lax hk.lax node) ?_
  rintro g' ⟨hl, h1, h2, h3⟩
  rw [hk.outs] at h1
  rw [hk.ins] at h2
  have hne : node ≠ u ∧ node ≠ v := by
    rcases hb with ⟨rfl, hb⟩ | ⟨huv, hb1, hb2⟩
    · have : node ≠ u := by
        rintro rfl
        obtain ⟨a, ha, e⟩ := cnt_pos.1 hb
        exact hloop a ha e
      exact ⟨this, this⟩
    · constructor
      · rintro rfl
        obtain ⟨a, ha, e⟩ := cnt_pos.1 (show 0 < cnt v (g.outs node) by omega)
        have k1 := h1 a ha
        rw [e] at k1
        have k2 := hk.ins_cnt v node
        omega
      · rintro rfl
        obtain ⟨a, ha, e⟩ := cnt_pos.1 (show 0 < cnt u (g.ins node) by omega)
        have k1 := h2 a ha (by rw [e]; exact huv)
        rw [e] at k1
        have k2 := hk.outs_cnt u node
        omega
  refine ⟨hne.1, hne.2, hl, hbase, ?_⟩
  obtain ⟨k1, _⟩ := h3 u v hne.1.symm hne.2.symm
  obtain ⟨_, k2⟩ := h3 v u hne.2.symm hne.1.symm
  have k3 := hk.outs_cnt u v
  have k4 := hk.ins_cnt v u
  rcases hb with ⟨e, hb⟩ | ⟨huv, hb1, hb2⟩
  · exact Or.inl ⟨e, by show 0 < cnt u (g'.ins v); omega⟩
  · exact Or.inr ⟨huv, by show 2 ≤ cnt v (g'.outs u); omega, by show 2 ≤ cnt u (g'.ins v); omega⟩

theorem calcRelevance_bad (hP : P.checked = true) (hn : n ≤ P.umax) {rel : Nat → Int → Nat → Nat} {g : PreparationGraph}
    (hg : Lax n g) {ws : WitnessSearch pq} (hws : ws.Base n) {node level ms u v : Nat} (hb : Bad u v g) :
    TriN (calcRelevance P rel g ws node level ms) (fun r => Lax n r.1 ∧ r.2.1.Base n ∧ Bad u v r.1) := by
  unfold calcRelevance
  refine TriN.bind (handleShortcuts_lax hP hn hg countShortcut_lax hws) ?_
  rintro st ⟨hk, hbase, _⟩
  refine TriN.bind (TriN_idx _ _) (fun _ _ => TriN.bind (TriN_idx _ _) (fun _ _ => ⟨hk.lax, hbase, ?_⟩))
  have k3 := hk.outs_cnt u v
  have k4 := hk.ins_cnt v u
  rcases hb with ⟨e, hb⟩ | ⟨huv, hb1, hb2⟩
  · exact Or.inl ⟨e, by show 0 < cnt u (st.graph.ins v); omega⟩
  · exact Or.inr ⟨huv, by show 2 ≤ cnt v (st.graph.outs u); omega, by show 2 ≤ cnt u (st.graph.ins v); omega⟩

theorem recordNode_ends (fg : FastGraph) (pg : PreparationGraph) (rank node : Nat) :
    TriN (recordNode P fg pg rank node) (fun _ => True) := by
  have hpush : ∀ (es : List FastGraphEdge) (as : List Arc), TriN (pushArcs P node es as) (fun _ => True) := by
    intro es as
    unfold pushArcs
    exact TriN_forM (fun _ _ => True) trivial (fun _ _ _ _ _ _ => TriN_vecPush _ _ _)
  unfold recordNode
  exact TriN.bind (TriN_idx _ _) (fun _ _ => TriN.bind (hpush _ _) (fun _ _ => TriN.bind (TriN_setIdx _ _ _) (fun _ _ =>
    TriN.bind (TriN_idx _ _) (fun _ _ => TriN.bind (hpush _ _) (fun _ _ => TriN.bind (TriN_setIdx _ _ _) (fun _ _ =>
    TriN.bind (TriN_setIdx _ _ _) (fun _ _ => trivial)))))))

/-- Invariant of the contraction loops. -/
structure BadInv (n u v : Nat) (st : BState pq) : Prop where
  lax : Lax n st.pg
  ws : st.ws.Base n
  bad : Bad u v st.pg

theorem recordAndContract_bad (hP : P.checked = true) (hn : n ≤ P.umax) {st : BState pq} {rank node ms u v : Nat}
    (h : BadInv n u v st) : TriN (recordAndContract P ms st rank node) (fun st' => node ≠ u ∧ BadInv n u v st') := by
  unfold recordAndContract
  refine TriN.bind (recordNode_ends _ _ _ _) (fun fg _ => ?_)
  refine TriN.bind (contractNode_bad hP hn h.lax h.ws h.bad) ?_
  rintro ⟨pg, ws⟩ ⟨h1, _, h2, h3, h4⟩
  exact ⟨h1, h2, h3, h4⟩

theorem runContractionWithOrder_bad (hP : P.checked = true) {ig : InputGraph} {order : List Nat} {ms u v : Nat}
    (hbad : ∀ g, Loaded ig.numNodes ig.edges g → Bad u v g) (hu : u ∈ order) :
    TriN (runContractionWithOrder P pq ig ig.numNodes order ms) (fun _ => False) := by
  unfold runContractionWithOrder FastGraph.new
  by_cases hn : ig.numNodes < P.umax
  swap
  · rw [if_neg hn]
    simp
  rw [if_pos hn]
  simp only [bind_okM]
  refine TriN.bind (fromInputGraph_loaded ig) ?_
  rintro g ⟨_, hg⟩
  refine TriN.bind (TriN_forM (fun pre st => BadInv ig.numNodes u v st ∧ ∀ x ∈ pre, x.1 ≠ u)
    ⟨⟨hg.lax, WitnessSearch.Base.new _ _ _, hbad g hg⟩, by simp⟩ ?_) ?_
  · rintro pre ⟨node, rank⟩ post st hl ⟨h1, h2⟩
    unfold orderStep
    simp only
    split
    · simp
    · refine (recordAndContract_bad hP (Nat.le_of_lt hn) h1).mono ?_
      rintro st' ⟨k1, k2⟩
      refine ⟨k2, fun x hx => ?_⟩
      rcases List.mem_append.1 hx with hx | hx
      · exact h2 x hx
      · simp only [List.mem_singleton] at hx
        subst hx
        exact k1
  · rintro st ⟨_, h⟩
    obtain ⟨i, hi⟩ := List.mem_iff_getElem?.1 hu
    exact (h (u, i) (List.mem_zipIdx_iff_getElem?.2 hi) rfl).elim

theorem contractionLoop_bad (hP : P.checked = true) (hn : n ≤ P.umax) {params : Params} {u v : Nat} :
    ∀ fuel rank (st : QState pq nq), BadInv n u v st.b → u ∈ nq.keys st.queue → (nq.keys st.queue).length < fuel →
      TriN (contractionLoop P params fuel rank st) (fun _ => False) := by
  intro fuel
  induction fuel with
  | zero => intro rank st _ _ h; omega
  | succ fuel ih =>
    intro rank st h hu hf
    unfold contractionLoop
    cases hp : nq.pop st.queue with
    | none =>
      rw [(nq.pop_none _).1 hp] at hu
      simp at hu
    | some r =>
      obtain ⟨node, queue⟩ := r
      simp only
      have hk := nq.pop_some _ _ _ hp
      have hkl := hk.length_eq
      simp only [List.length_cons] at hkl
      refine TriN.bind (TriN_idx _ _) (fun os _ => TriN.bind (TriN_idx _ _) (fun is _ => ?_))
      refine TriN.bind (recordAndContract_bad hP hn h) ?_
      rintro b ⟨hne, hb⟩
      have hu' : u ∈ nq.keys queue := by
        rcases List.mem_cons.1 (hk.subset hu) with e | h'
        · exact absurd e.symm hne
        · exact h'
      refine TriN.bind (TriN_forM (s := ({ st with b := b, queue := queue } : QState pq nq)) (fun _ (st' : QState pq nq) =>
        BadInv n u v st'.b ∧ (nq.keys st'.queue).Perm (nq.keys queue)) ⟨hb, List.Perm.refl _⟩ ?_) ?_
      · rintro pre nb post st' _ ⟨h1, h2⟩
        unfold updateNeighbor
        refine TriN.bind (TriN_idx _ _) (fun _ _ => TriN.bind (TriN_idx _ _) (fun _ _ => TriN.bind (TriN_addW _ _ _) (fun _ _ =>
          TriN.bind (TriN_setIdx _ _ _) (fun _ _ => TriN.bind (TriN_idx _ _) (fun _ _ =>
          TriN.bind (calcRelevance_bad hP hn h1.lax h1.ws h1.bad) ?_)))))
        rintro ⟨pg, ws, p⟩ ⟨k1, k2, k3⟩
        exact ⟨⟨k1, k2, k3⟩, (nq.keys_change _ _ _).trans h2⟩
      · rintro st' ⟨h1, h2⟩
        exact ih _ st' h1 (h2.symm.subset hu') (by rw [h2.length_eq]; omega)

theorem runContraction_bad (hP : P.checked = true) {ig : InputGraph} {params : Params} {u v : Nat}
    (hbad : ∀ g, Loaded ig.numNodes ig.edges g → Bad u v g) (hu : u < ig.numNodes) :
    TriN (runContraction P pq nq ig ig.numNodes params) (fun _ => False) := by
  unfold runContraction FastGraph.new
  by_cases hn : ig.numNodes < P.umax
  swap
  · rw [if_neg hn]
    simp
  rw [if_pos hn]
  simp only [bind_okM]
  refine TriN.bind (fromInputGraph_loaded ig) ?_
  rintro g ⟨_, hg⟩
  refine TriN.bind (TriN_forM_range (fun i (st : QState pq nq) => BadInv ig.numNodes u v st.b ∧
    (nq.keys st.queue).Perm (List.range i)) ⟨⟨hg.lax, WitnessSearch.Base.new _ _ _, hbad g hg⟩, by simp [nq.keys_empty]⟩ ?_) ?_
  · rintro i st hi ⟨h, hk⟩
    unfold initialPriority
    refine TriN.bind (calcRelevance_bad hP (Nat.le_of_lt hn) h.lax h.ws h.bad) ?_
    rintro ⟨pg, ws, p⟩ ⟨k1, k2, k3⟩
    refine ⟨⟨k1, k2, k3⟩, ?_⟩
    have hnot : i ∉ nq.keys st.queue := by
      intro hm
      have := List.mem_range.1 (hk.subset hm)
      omega
    refine (nq.keys_push i p st.queue hnot).trans ?_
    rw [List.range_succ]
    exact (List.Perm.cons i hk).trans (List.perm_append_singleton i _).symm
  · rintro st ⟨h, hk⟩
    refine TriN.bind (contractionLoop_bad hP (Nat.le_of_lt hn) _ _ st h (hk.symm.subset (List.mem_range.2 hu))
      (by rw [hk.length_eq]; simp)) (fun _ h => h.elim)

/-- A frozen graph that cannot be prepared has an id out of range, a loop or parallel edges. -/
theorem not_frozenOk {ig : InputGraph} (hf : ig.frozen = true) (h : ¬ FrozenOk ig) :
    (∃ e ∈ ig.edges, ¬ (e.src < ig.numNodes ∧ e.dst < ig.numNodes)) ∨
    (∃ u v, u < ig.numNodes ∧ ∀ g, Loaded ig.numNodes ig.edges g → Bad u v g) := by
  by_cases hlt : ∀ e ∈ ig.edges, e.src < ig.numNodes ∧ e.dst < ig.numNodes
  swap
  · left
    simp only [not_forall] at hlt
    obtain ⟨e, he, h⟩ := hlt
    exact ⟨e, he, h⟩
  right
  by_cases hne : ∀ e ∈ ig.edges, e.src ≠ e.dst
  swap
  · simp only [not_forall, not_not] at hne
    obtain ⟨e, he, h⟩ := hne
    refine ⟨e.src, e.dst, (hlt e he).1, fun g hg => Or.inl ⟨h, ?_⟩⟩
    rw [hg.inn, List.countP_pos_iff]
    exact ⟨e, he, by simp⟩
  have hu : ¬ (ig.edges.map (fun e => (e.src, e.dst))).Nodup := fun hu => h ⟨hf, hne, hlt, hu⟩
  rw [List.nodup_iff_count_le_one] at hu
  simp only [not_forall, not_le] at hu
  obtain ⟨⟨u, v⟩, huv⟩ := hu
  have hc : 2 ≤ ig.edges.countP (fun e => e.src == u && e.dst == v) := by
    rw [List.count, List.countP_map] at huv
    exact huv
  obtain ⟨e, he, h1⟩ := List.countP_pos_iff.1 (show 0 < _ from Nat.lt_of_lt_of_le Nat.zero_lt_two hc)
  simp only [Bool.and_eq_true, beq_iff_eq] at h1
  have := hlt e he
  refine ⟨u, v, h1.1 ▸ this.1, fun g hg => Or.inr ⟨?_, ?_, ?_⟩⟩
  · rintro rfl
    exact hne e he (h1.1.trans h1.2.symm)
  · rw [hg.out]; exact hc
  · rw [hg.inn]; exact hc

theorem runContraction_malformed (hP : P.checked = true) {ig : InputGraph} (hf : ig.frozen = true) (h : ¬ FrozenOk ig) (params : Params) :
    TriN (runContraction P pq nq ig ig.numNodes params) (fun _ => False) := by
  rcases not_frozenOk hf h with ⟨e, he, hlt⟩ | ⟨u, v, hu, hb⟩
  · unfold runContraction FastGraph.new
    split
    · simp only [bind_okM]
      exact TriN.bind (fromInputGraph_loaded ig) (fun g hg => absurd (hg.2.lt e he) hlt)
    · simp
  · exact runContraction_bad hP hb hu

theorem runContractionWithOrder_malformed (hP : P.checked = true) {ig : InputGraph} (hf : ig.frozen = true) (h : ¬ FrozenOk ig)
    {order : List Nat} (ho : order.Perm (List.range ig.numNodes)) (ms : Nat) :
    TriN (runContractionWithOrder P pq ig ig.numNodes order ms) (fun _ => False) := by
  rcases not_frozenOk hf h with ⟨e, he, hlt⟩ | ⟨u, v, hu, hb⟩
  · unfold runContractionWithOrder FastGraph.new
    split
    · simp only [bind_okM]
      exact TriN.bind (fromInputGraph_loaded ig) (fun g hg => absurd (hg.2.lt e he) hlt)
    · simp
  · exact runContractionWithOrder_bad hP hb (ho.symm.subset (List.mem_range.2 hu))

end FP
