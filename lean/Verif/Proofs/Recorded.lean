import Verif.Model.Builder
import Verif.Proofs.Hierarchy
import Verif.Proofs.Csr
/-! # The fast graph while nodes are being recorded -/
namespace FP
open Spec PreparationGraph

variable {pq : PQ} {P : Plat} {n : Nat}

/-- The edges pushed for one level. -/
def mkEdges (P : Plat) (node : Nat) (arcs : List Arc) : List FastGraphEdge :=
  arcs.map (fun a => ⟨node, a.adj, a.weight, a.center, P.umax⟩)

/-- blocks of forward edges -/
def blocksF (P : Plat) (ls : List Lvl) : List (List FastGraphEdge) := ls.map (fun l => mkEdges P l.node l.outs)
/-- blocks of backward edges -/
def blocksB (P : Plat) (ls : List Lvl) : List (List FastGraphEdge) := ls.map (fun l => mkEdges P l.node l.ins)

/-- The fast graph holds exactly the levels `ls`. -/
structure Recorded (P : Plat) (n : Nat) (ls : List Lvl) (fg : FastGraph) : Prop where
  num : fg.numNodes = n
  n_lt : n < P.umax
  lenR : fg.ranks.length = n
  lenF : fg.firstEdgeIdsFwd.length = n + 1
  lenB : fg.firstEdgeIdsBwd.length = n + 1
  ef : fg.edgesFwd = (blocksF P ls).flatten
  eb : fg.edgesBwd = (blocksB P ls).flatten
  ff : ∀ j ≤ ls.length, fg.firstEdgeIdsFwd[j]? = some (off (blocksF P ls) j)
  fb : ∀ j ≤ ls.length, fg.firstEdgeIdsBwd[j]? = some (off (blocksB P ls) j)
  rk : ∀ (j : Nat) l, ls[j]? = some l → fg.ranks[l.node]? = some j
  capF : fg.edgesFwd.length ≤ P.umax
  capB : fg.edgesBwd.length ≤ P.umax

theorem Recorded.empty (h : n < P.umax) : Recorded P n [] (FastGraph.empty n) := by
  refine ⟨rfl, h, by simp [FastGraph.empty], by simp [FastGraph.empty], by simp [FastGraph.empty], rfl, rfl,
    ?_, ?_, by simp, by simp [FastGraph.empty], by simp [FastGraph.empty]⟩
  all_goals
    intro j hj
    simp at hj
    subst hj
    simp [FastGraph.empty, off]

theorem pushArcs_ok (node : Nat) (arcs : List Arc) (es : List FastGraphEdge) (hes : es.length ≤ P.umax) :
    Tri (pushArcs P node es arcs) (fun es' => es' = es ++ mkEdges P node arcs ∧ es'.length ≤ P.umax) := by
  unfold pushArcs
  refine Tri_forM (fun pre es' => es' = es ++ mkEdges P node pre ∧ es'.length ≤ P.umax) ⟨by simp [mkEdges], hes⟩ ?_
  rintro pre a post es' hl ⟨rfl, hle⟩
  refine Tri.mono (Tri_vecPush _ _) ?_
  rintro es'' ⟨rfl, hlt⟩
  refine ⟨by simp [mkEdges, Plat.INVALID_EDGE], ?_⟩
  simp only [List.length_append, List.length_singleton] at hlt ⊢
  omega

theorem recordNode_ok {fg : FastGraph} {ls : List Lvl} {pg : PreparationGraph} (h : Recorded P n ls fg) (hg : WF n pg)
    {node : Nat} (hnode : node < n) (hnew : node ∉ ls.map Lvl.node) (hlen : ls.length < n) :
    Tri (recordNode P fg pg ls.length node) (Recorded P n (ls ++ [⟨node, pg.outs node, pg.ins node⟩])) := by
  unfold recordNode
  rw [idx_outEdges (by rw [hg.lenOut]; exact hnode)]
  simp only [bind_okM]
  refine Tri.bind (pushArcs_ok node _ _ h.capF) ?_
  rintro ef ⟨hef, hefc⟩
  rw [setIdx_ok (by rw [h.lenF]; omega)]
  simp only [bind_okM]
  rw [idx_inEdges (by rw [hg.lenIn]; exact hnode)]
  simp only [bind_okM]
  refine Tri.bind (pushArcs_ok node _ _ h.capB) ?_
  rintro eb ⟨heb, hebc⟩
  rw [setIdx_ok (by rw [h.lenB]; omega)]
  simp only [bind_okM]
  rw [setIdx_ok (by rw [h.lenR]; exact hnode)]
  simp only [bind_okM, Tri_ok]
  have hF : ef = (blocksF P (ls ++ [⟨node, pg.outs node, pg.ins node⟩])).flatten := by
    rw [hef, h.ef]; simp [blocksF]
  have hB : eb = (blocksB P (ls ++ [⟨node, pg.outs node, pg.ins node⟩])).flatten := by
    rw [heb, h.eb]; simp [blocksB]
  refine ⟨h.num, h.n_lt, by simp [h.lenR], by simp [h.lenF], by simp [h.lenB], hF, hB, ?_, ?_, ?_, hefc, hebc⟩
  · intro j hj
    rw [getElem?_set' (by rw [h.lenF]; omega)]
    by_cases hjl : ls.length + 1 = j
    · rw [if_pos hjl, ← hjl, hF]
      have := off_length (blocksF P (ls ++ [⟨node, pg.outs node, pg.ins node⟩]))
      rw [← this]
      simp [blocksF]
    · rw [if_neg hjl]
      simp at hj
      rw [h.ff j (by omega)]
      congr 1
      simp only [blocksF, List.map_append]
      rw [off_append_left (by simp; omega)]
  · intro j hj
    rw [getElem?_set' (by rw [h.lenB]; omega)]
    by_cases hjl : ls.length + 1 = j
    · rw [if_pos hjl, ← hjl, hB]
      have := off_length (blocksB P (ls ++ [⟨node, pg.outs node, pg.ins node⟩]))
      rw [← this]
      simp [blocksB]
    · rw [if_neg hjl]
      simp at hj
      rw [h.fb j (by omega)]
      congr 1
      simp only [blocksB, List.map_append]
      rw [off_append_left (by simp; omega)]
  · intro j l hl
    rw [getElem?_set' (by rw [h.lenR]; exact hnode)]
    by_cases hj : j < ls.length
    · rw [List.getElem?_append_left hj] at hl
      have : node ≠ l.node := by
        intro e
        exact hnew (List.mem_map.2 ⟨l, List.mem_of_getElem? hl, e.symm⟩)
      rw [if_neg this]
      exact h.rk j l hl
    · rw [List.getElem?_append_right (by omega)] at hl
      have hj' : j - ls.length = 0 := by
        by_contra hc
        rw [List.getElem?_eq_none (by simp; omega)] at hl
        cases hl
      rw [hj'] at hl
      simp at hl
      subst hl
      have : ls.length = j := by omega
      simp [this]

/-- Input edges of the preparation graph. -/
structure FromInput (P : Plat) (n : Nat) (es : List Edge) (g : PreparationGraph) : Prop where
  wf : WF n g
  mem : ∀ u a, a ∈ g.outs u ↔ a.center = P.umax ∧ (⟨u, a.adj, a.weight⟩ : Edge) ∈ es
  run : forM (fun g e => addEdge P g e.src e.dst e.weight) (new n) es = .ok g

/-- What the preparation needs of a frozen graph. `freeze` guarantees it for every graph built with the API. -/
structure FrozenOk (ig : InputGraph) : Prop where
  frozen : ig.frozen = true
  ne : ∀ e ∈ ig.edges, e.src ≠ e.dst
  lt : ∀ e ∈ ig.edges, e.src < ig.numNodes ∧ e.dst < ig.numNodes
  uniq : (ig.edges.map (fun e => (e.src, e.dst))).Nodup

theorem fromInputGraph_ok {ig : InputGraph} (h : FrozenOk ig) :
    ∃ g, fromInputGraph P ig = .ok g ∧ FromInput P ig.numNodes ig.edges g := by
  unfold fromInputGraph InputGraph.getNumNodes InputGraph.getEdges InputGraph.checkFrozen
  rw [h.frozen]
  simp only [assertM_true, bind_okM]
  refine forM_ok_of (fun pre (g : PreparationGraph) => FromInput P ig.numNodes pre g) ⟨WF_new _, by simp [outs_new], rfl⟩ ?_
  rintro pre e post g hl hI
  have he : e ∈ ig.edges := by rw [hl]; simp
  have hu := h.uniq
  rw [hl] at hu
  simp only [List.map_append, List.map_cons, List.nodup_append, List.mem_cons] at hu
  have hnew : ∀ a ∈ g.outs e.src, a.adj ≠ e.dst := by
    intro a ha hc
    have := (hI.mem _ _).1 ha
    refine hu.2.2 (e.src, e.dst) (List.mem_map.2 ⟨_, this.2, by simp [hc]⟩) _ (Or.inl rfl) rfl
  obtain ⟨g', e', wf, ho, _⟩ := addEdgeOrShortcut_ok (w := e.weight) (c := P.INVALID_NODE) hI.wf (h.lt e he).1 (h.lt e he).2
    (h.ne e he) hnew
  refine ⟨g', e', wf, ?_, by rw [forM_append, hI.run]; simp only [bind_okM, forM_cons, forM_nil]; rw [show addEdge P g e.src e.dst e.weight = .ok g' from e']; rfl⟩
  intro u a
  rw [ho]
  by_cases hue : u = e.src
  · subst hue
    rw [if_pos rfl]
    simp only [List.mem_append, List.mem_singleton, hI.mem]
    constructor
    · rintro (⟨h1, h2⟩ | rfl)
      · exact ⟨h1, Or.inl h2⟩
      · exact ⟨rfl, Or.inr rfl⟩
    · rintro ⟨h1, h2 | h2⟩
      · exact Or.inl ⟨h1, h2⟩
      · right
        cases a
        cases e
        simp_all [Plat.INVALID_NODE]
  · rw [if_neg hue, hI.mem]
    simp only [List.mem_append, List.mem_singleton]
    constructor
    · rintro ⟨h1, h2⟩; exact ⟨h1, Or.inl h2⟩
    · rintro ⟨h1, h2 | h2⟩
      · exact ⟨h1, h2⟩
      · exact absurd (congrArg Edge.src h2) hue

theorem FromInput.rel_iff {es : List Edge} {g : PreparationGraph} (h : FromInput P n es g) {u v w : Nat} :
    g.rel u v w ↔ edgesOf es u v w := by
  constructor
  · rintro ⟨c, hc⟩; exact ((h.mem _ _).1 hc).2
  · intro he; exact ⟨P.umax, (h.mem _ _).2 ⟨rfl, he⟩⟩

theorem FromInput.allOrigin {es : List Edge} {g : PreparationGraph} (h : FromInput P n es g) :
    AllOrigin P (edgesOf es) [] g := by
  intro u e he
  obtain ⟨h1, h2⟩ := (h.mem _ _).1 he
  exact Or.inl ⟨h1, h2⟩

/-- Invariant of both contraction loops. -/
structure BInv (P : Plat) (n : Nat) (R : StepRel) (es : List Edge) (ls : List Lvl) (st : BState pq) : Prop where
  start : ∃ g₀, FromInput P n es g₀ ∧ Chain P n R g₀ ls st.pg
  wf : WF n st.pg
  ws : st.ws.Base n
  rc : Recorded P n ls st.fg
  nodup : (ls.map Lvl.node).Nodup

/-- Every contraction with the budget `ms` satisfies `R`. -/
def StepsOk (pq : PQ) (P : Plat) (n ms : Nat) (R : StepRel) : Prop := n ≤ P.umax → ∀ (g : PreparationGraph) (ws : WitnessSearch pq) v r,
  WF n g → ws.Base n → v < n → contractNode P g ws v ms = .ok r → R g v r.1

theorem stepsOk_any (pq : PQ) (P : Plat) (n ms : Nat) : StepsOk pq P n ms anyStep := fun _ _ _ _ _ _ _ _ _ => trivial

theorem recordAndContract_ok (hP : P.checked = true) {es : List Edge} {ls : List Lvl} {st : BState pq}
    (h : BInv P n R es ls st) {node ms : Nat} (hnode : node < n) (hnew : node ∉ ls.map Lvl.node) (hlen : ls.length < n)
    (hR : StepsOk pq P n ms R) :
    Tri (recordAndContract P ms st ls.length node)
      (BInv P n R es (ls ++ [⟨node, st.pg.outs node, st.pg.ins node⟩])) := by
  unfold recordAndContract
  refine Tri.bind (recordNode_ok h.rc h.wf hnode hnew hlen) ?_
  intro fg hfg
  refine Tri.bind ((contractNode_ok hP (Nat.le_of_lt h.rc.n_lt) h.wf hnode h.ws).with_ok
    (fun r er => hR (Nat.le_of_lt h.rc.n_lt) _ _ _ _ h.wf h.ws hnode er)) ?_
  rintro ⟨pg, ws⟩ ⟨⟨hc, hws⟩, hr⟩
  simp only [Tri_ok]
  obtain ⟨g₀, hfi, hch⟩ := h.start
  refine ⟨⟨g₀, hfi, hch.snoc ⟨hnode, hr⟩ hc⟩, hc.wf, hws, hfg, ?_⟩
  rw [List.map_append, List.nodup_append]
  refine ⟨h.nodup, by simp, ?_⟩
  intro a ha b hb
  simp at hb
  subst hb
  intro e
  exact hnew (e ▸ ha)

end FP
