import Verif.Proofs.Assemble
import Verif.Proofs.Extract
import Verif.Proofs.InputGraph
import Verif.Proofs.Reuse
import Verif.Proofs.Reorder
import Verif.Proofs.Paths
import Verif.Proofs.Errs
/-! # From the API calls to the invariants -/
namespace FP
open Spec PathCalculator

variable {P : Plat} {pq : PQ} {nq : NodeQueue} {R : StepRel}

theorem getNumNodes_frozen {ig : InputGraph} (h : ig.frozen = true) : ig.getNumNodes = .ok ig.numNodes := by
  unfold InputGraph.getNumNodes InputGraph.checkFrozen
  rw [h]; rfl

theorem buildWithParams_built (hP : P.checked = true) {ig : InputGraph} (h : FrozenOk ig) (params : Params)
    (hR : StepsOk pq P ig.numNodes params.maxSettledContraction R) :
    Tri (buildWithParams P pq nq ig params) (fun fg => FGood P (edgesOf ig.edges) ig.numNodes fg ∧
      BuiltFrom P ig.numNodes R ig.edges fg) := by
  unfold buildWithParams
  rw [getNumNodes_frozen h.frozen]
  exact runContraction_ok hP h params hR

theorem buildWithParams_ok (hP : P.checked = true) {ig : InputGraph} (h : FrozenOk ig) (params : Params) :
    Tri (buildWithParams P pq nq ig params) (FGood P (edgesOf ig.edges) ig.numNodes) :=
  (buildWithParams_built hP h params (stepsOk_any _ _ _ _)).mono (fun _ h => h.1)

theorem buildWithOrder_built (hP : P.checked = true) {ig : InputGraph} (h : FrozenOk ig)
    {order : List Nat} (ho : order.Perm (List.range ig.numNodes)) (ms : Nat) (hR : StepsOk pq P ig.numNodes ms R) :
    Tri (buildWithOrderWithParams P pq ig order ms) (fun r => ∃ fg, r = .ok fg ∧
      FGood P (edgesOf ig.edges) ig.numNodes fg ∧ BuiltFrom P ig.numNodes R ig.edges fg ∧
      ∀ (j : Nat) v, order[j]? = some v → fg.ranks[v]? = some j) := by
  unfold buildWithOrderWithParams
  rw [getNumNodes_frozen h.frozen]
  simp only [bind_okM]
  have hlen : order.length = ig.numNodes := by simpa using ho.length_eq
  rw [if_neg (by simp [hlen])]
  refine Tri.bind (runContractionWithOrder_ok hP h ho ms hR) (fun fg hfg => ?_)
  exact ⟨fg, rfl, hfg⟩

theorem buildWithOrder_ok (hP : P.checked = true) {ig : InputGraph} (h : FrozenOk ig)
    {order : List Nat} (ho : order.Perm (List.range ig.numNodes)) (ms : Nat) :
    Tri (buildWithOrderWithParams P pq ig order ms) (fun r => ∃ fg, r = .ok fg ∧
      FGood P (edgesOf ig.edges) ig.numNodes fg ∧ ∀ (j : Nat) v, order[j]? = some v → fg.ranks[v]? = some j) :=
  (buildWithOrder_built hP h ho ms (stepsOk_any _ _ _ _)).mono (fun _ ⟨fg, e, h1, _, h3⟩ => ⟨fg, e, h1, h3⟩)

theorem Prepared.built (hP : P.checked = true) {ig : InputGraph} {fg : FastGraph} (hF : FrozenOk ig)
    (h : Prepared P ig fg) : BuiltFrom P ig.numNodes anyStep ig.edges fg := by
  cases h with
  | default pq nq rel h => exact ((buildWithParams_built hP hF _ (stepsOk_any _ _ _ _)).of_ok h).2
  | params pq nq params h => exact ((buildWithParams_built hP hF _ (stepsOk_any _ _ _ _)).of_ok h).2
  | order pq order perm h =>
    obtain ⟨fg', e, _, hg, _⟩ := (buildWithOrder_built hP hF perm _ (stepsOk_any _ _ _ _)).of_ok h
    cases e; exact hg
  | orderParams pq order ms perm h =>
    obtain ⟨fg', e, _, hg, _⟩ := (buildWithOrder_built hP hF perm _ (stepsOk_any _ _ _ _)).of_ok h
    cases e; exact hg

theorem Prepared.good (hP : P.checked = true) {ig : InputGraph} {fg : FastGraph} (hF : FrozenOk ig)
    (h : Prepared P ig fg) : FGood P (edgesOf ig.edges) ig.numNodes fg := by
  cases h with
  | default pq nq rel h => exact (buildWithParams_ok hP hF _).of_ok h
  | params pq nq params h => exact (buildWithParams_ok hP hF _).of_ok h
  | order pq order perm h =>
    obtain ⟨fg', e, hg, _⟩ := (buildWithOrder_ok hP hF perm _).of_ok h
    cases e; exact hg
  | orderParams pq order ms perm h =>
    obtain ⟨fg', e, hg, _⟩ := (buildWithOrder_ok hP hF perm _).of_ok h
    cases e; exact hg

/-! ### Queries -/

theorem assertM_eq_ok {c : Bool} {u : Unit} : assertM c = .ok u ↔ c = true := by
  cases c <;> simp [assertM]

/-- The argument checks as a proposition. -/
structure ArgsOk (n : Nat) (g : FastGraph) (starts ends : List (Nat × Nat)) : Prop where
  num : g.numNodes = n
  s : starts ≠ []
  e : ends ≠ []
  sl : ∀ x ∈ starts, x.1 < n
  el : ∀ x ∈ ends, x.1 < n

theorem checkArgs_iff {c : PathCalculator pq} {g : FastGraph} {starts ends : List (Nat × Nat)} :
    checkArgs c g starts ends = .ok () ↔ ArgsOk c.numNodes g starts ends := by
  constructor
  · intro h
    unfold checkArgs at h
    obtain ⟨_, h1, h⟩ := bind_eq_ok.1 h
    obtain ⟨_, h2, h⟩ := bind_eq_ok.1 h
    obtain ⟨_, h3, h⟩ := bind_eq_ok.1 h
    obtain ⟨_, h4, h5⟩ := bind_eq_ok.1 h
    rw [assertM_eq_ok] at h1 h2 h3 h4 h5
    exact ⟨by simpa [FastGraph.getNumNodes] using h1, by simpa using h2, by simpa using h3,
      by simpa using h4, by simpa using h5⟩
  · intro h
    exact checkArgs_ok h.num h.s h.e h.sl h.el

theorem checkArgs_err {c : PathCalculator pq} {g : FastGraph} {starts ends : List (Nat × Nat)}
    (h : ¬ ArgsOk c.numNodes g starts ends) : checkArgs c g starts ends = .error .assertion := by
  have hall : checkArgs c g starts ends = .ok () ∨ checkArgs c g starts ends = .error .assertion := by
    have step : ∀ (c : Bool) (m : M Unit), (m = .ok () ∨ m = .error .assertion) →
        ((assertM c >>= fun _ => m) = .ok () ∨ (assertM c >>= fun _ => m) = .error .assertion) := by
      intro c m hm
      cases c
      · exact Or.inr rfl
      · exact hm
    have last : ∀ c, assertM c = .ok () ∨ assertM c = .error .assertion := by
      intro c; cases c
      · exact Or.inr rfl
      · exact Or.inl rfl
    unfold checkArgs
    exact step _ _ (step _ _ (step _ _ (step _ _ (last _))))
  rcases hall with h' | h'
  · exact absurd (checkArgs_iff.1 h') h
  · exact h'

theorem calcPathMulti_args {c : PathCalculator pq} {g : FastGraph} {starts ends : List (Nat × Nat)}
    {r : PathCalculator pq × Option ShortestPath} (h : c.calcPathMulti P g starts ends = .ok r) :
    ArgsOk c.numNodes g starts ends := by
  unfold PathCalculator.calcPathMulti at h
  obtain ⟨⟨⟩, h1, _⟩ := bind_eq_ok.1 h
  exact checkArgs_iff.1 h1

theorem calcPathMulti_inv {g : FastGraph} {S T : List (Nat × Nat)} {r : Option ShortestPath}
    (h : calcPathMulti P pq g S T = .ok r) :
    ∃ c, (PathCalculator.new P pq g.numNodes).calcPathMulti P g S T = .ok (c, r) := by
  unfold FP.calcPathMulti at h
  obtain ⟨⟨c, r'⟩, h1, h2⟩ := bind_eq_ok.1 h
  injection h2 with h2
  subst h2
  exact ⟨c, h1⟩

theorem calcPath_eq_multi (P : Plat) (pq : PQ) (g : FastGraph) (s t : Nat) :
    calcPath P pq g s t = calcPathMulti P pq g [(s, 0)] [(t, 0)] := rfl

/-- A single query is a multi query. -/
theorem query_single {fg : FastGraph} {s t : Nat} {r : Option ShortestPath} (h : calcPath P pq fg s t = .ok r) :
    calcPathMulti P pq fg [(s, 0)] [(t, 0)] = .ok r := by
  rw [← calcPath_eq_multi]; exact h

/-- The result of a query on a good graph. -/
theorem query_good (hP : P.checked = true) {E : EdgeRel} {n : Nat} {fg : FastGraph} (hg : FGood P E n fg)
    {S T : List (Nat × Nat)} {r : Option ShortestPath} (h : calcPathMulti P pq fg S T = .ok r) :
    ArgsOk n fg S T ∧ Answer P E S T r := by
  obtain ⟨c, hc⟩ := calcPathMulti_inv h
  have ha := calcPathMulti_args hc
  have hn : (PathCalculator.new P pq fg.numNodes).numNodes = n := hg.num
  rw [hn] at ha
  have hco : CalcOk n (PathCalculator.new P pq fg.numNodes) := by rw [hg.num]; exact CalcOk.new P pq n
  exact ⟨ha, ((calcPathMulti_ok hP hg hco ha.s ha.e ha.sl ha.el).of_ok hc).2⟩

theorem Spec.HasRoute.mono {E F : EdgeRel} (hEF : ∀ u v w, E u v w → F u v w) {S T : List (Nat × Nat)} {w : Nat}
    (h : HasRoute E S T w) : HasRoute F S T w := by
  obtain ⟨s, ws, t, wt, x, h1, h2, ⟨L, hL, k1, k2⟩, h4⟩ := h
  exact ⟨s, ws, t, wt, x, h1, h2, ⟨L, hL.mono hEF, k1, k2⟩, h4⟩

theorem GInv.route_le {acc : List Edge} {g : InputGraph} (h : GInv acc g) {S T : List (Nat × Nat)} {w : Nat}
    (hr : HasRoute (edgesOf acc) S T w) : ∃ w' ≤ w, HasRoute (edgesOf g.edges) S T w' := by
  obtain ⟨s, ws, t, wt, x, h1, h2, h3, rfl⟩ := hr
  obtain ⟨x', hx, hk⟩ := h.walk_le (hasWalk_iff.1 h3)
  exact ⟨ws + x' + wt, by omega, s, ws, t, wt, x', h1, h2, hasWalk_iff.2 hk, rfl⟩

theorem GInv.answer {acc : List Edge} {g : InputGraph} (h : GInv acc g) {S T : List (Nat × Nat)}
    {r : Option ShortestPath} (ha : Answer P (edgesOf g.edges) S T r) : Answer P (edgesOf acc) S T r := by
  cases r with
  | none =>
    intro total ht
    obtain ⟨w', hw, hr⟩ := h.route_le ht
    have := ha w' hr
    omega
  | some p =>
    obtain ⟨h1, ⟨ws, wt, w, k1, k2, k3, k4, k5, k6⟩, h3⟩ := ha
    refine ⟨h1, ⟨ws, wt, w, k1, k2, k3.mono (fun _ _ _ he => h.sub _ he), k4, k5, k6⟩, ?_⟩
    intro total ht
    obtain ⟨w', hw, hr⟩ := h.route_le ht
    have := h3 w' hr
    omega

/-- What a returning query says about the graph the client described. -/
theorem query_answer (hP : P.checked = true) {ops : List Op} {ig : InputGraph} {fg : FastGraph}
    (hc : Client P ops ig fg)
    {S T : List (Nat × Nat)} {r : Option ShortestPath} (h : calcPathMulti P pq fg S T = .ok r) :
    ArgsOk ig.numNodes fg S T ∧ Answer P (edgesOf ig.edges) S T r ∧ Answer P (edgesOf (accepted ops)) S T r := by
  have hi := buildGraph_inv (Or.inl hP) hc.built
  obtain ⟨h1, h2⟩ := query_good hP (hc.prepared.good hP (hi.frozenOk hc.frozen)) h
  exact ⟨h1, h2, hi.answer h2⟩

theorem hasRoute_single {E : EdgeRel} {s t w : Nat} : HasRoute E [(s, 0)] [(t, 0)] w ↔ HasWalk E s t w := by
  constructor
  · rintro ⟨s', ws, t', wt, x, h1, h2, h3, rfl⟩
    simp at h1 h2
    obtain ⟨rfl, rfl⟩ := h1
    obtain ⟨rfl, rfl⟩ := h2
    simpa using h3
  · intro h
    exact ⟨s, 0, t, 0, w, by simp, by simp, h, by omega⟩

/-- The single pair case spelled out. -/
theorem Answer.single {E : EdgeRel} {s t : Nat} {r : Option ShortestPath} (h : Answer P E [(s, 0)] [(t, 0)] r) :
    (r = none → ∀ w, HasWalk E s t w → P.umax ≤ w) ∧
    ∀ p, r = some p → p.weight < P.umax ∧ p.source = s ∧ p.target = t ∧ IsWalk E p.nodes p.weight ∧
      p.nodes.head? = some s ∧ p.nodes.getLast? = some t ∧ IsDist E s t p.weight := by
  constructor
  · rintro rfl w hw
    exact h w (hasRoute_single.2 hw)
  · rintro p rfl
    obtain ⟨h1, ⟨ws, wt, w, k1, k2, k3, k4, k5, k6⟩, h3⟩ := h
    simp at k1 k2
    obtain ⟨e1, rfl⟩ := k1
    obtain ⟨e2, rfl⟩ := k2
    rw [e1] at k4
    rw [e2] at k5
    have hw : p.weight = w := by omega
    rw [hw] at h3 ⊢
    exact ⟨by omega, e1, e2, k3, k4, k5, ⟨p.nodes, k3, k4, k5⟩, fun w' hw' => h3 w' (hasRoute_single.2 hw')⟩

theorem Answer.found_iff {E : EdgeRel} {S T : List (Nat × Nat)} {r : Option ShortestPath} (h : Answer P E S T r) :
    r = none ↔ ∀ total, HasRoute E S T total → P.umax ≤ total := by
  constructor
  · rintro rfl; exact h
  · intro hn
    cases r with
    | none => rfl
    | some p =>
      obtain ⟨h1, ⟨ws, wt, w, k1, k2, k3, k4, k5, k6⟩, _⟩ := h
      have := hn p.weight ⟨_, ws, _, wt, w, k1, k2, ⟨p.nodes, k3, k4, k5⟩, k6⟩
      omega

theorem Answer.route {E : EdgeRel} {S T : List (Nat × Nat)} {p : ShortestPath} (h : Answer P E S T (some p)) :
    HasRoute E S T p.weight := by
  obtain ⟨_, ⟨ws, wt, w, k1, k2, k3, k4, k5, k6⟩, _⟩ := h
  exact ⟨_, ws, _, wt, w, k1, k2, ⟨p.nodes, k3, k4, k5⟩, k6⟩

/-- Answers to two queries with the same routes up to weight have the same weight. -/
theorem Answer.weight_le {E F : EdgeRel} {S T S' T' : List (Nat × Nat)} {r r' : Option ShortestPath}
    (h : Answer P E S T r) (h' : Answer P F S' T' r')
    (hr : ∀ w < P.umax, HasRoute E S T w → ∃ w' ≤ w, HasRoute F S' T' w') {p : ShortestPath} (hp : r = some p) :
    ∃ p', r' = some p' ∧ p'.weight ≤ p.weight := by
  subst hp
  obtain ⟨w', hw', hr'⟩ := hr _ h.1 h.route
  cases r' with
  | none => have := h' w' hr'; have := h.1; omega
  | some p' => exact ⟨p', rfl, (h'.2.2 w' hr').trans hw'⟩

theorem Answer.weight_eq {E F : EdgeRel} {S T S' T' : List (Nat × Nat)} {r r' : Option ShortestPath}
    (h : Answer P E S T r) (h' : Answer P F S' T' r')
    (hr : ∀ w < P.umax, HasRoute E S T w → ∃ w' ≤ w, HasRoute F S' T' w')
    (hr' : ∀ w < P.umax, HasRoute F S' T' w → ∃ w' ≤ w, HasRoute E S T w') : r.map (·.weight) = r'.map (·.weight) := by
  cases r with
  | none =>
    cases r' with
    | none => rfl
    | some p' =>
      obtain ⟨p, hp, _⟩ := h'.weight_le h hr' rfl
      cases hp
  | some p =>
    obtain ⟨p', rfl, hle⟩ := h.weight_le h' hr rfl
    obtain ⟨p'', hp, hle'⟩ := h'.weight_le h hr' rfl
    cases hp
    simp only [Option.map_some, Option.some.injEq]
    omega

/-! ### Node order -/

theorem Shape.ordering {n : Nat} {fg : FastGraph} (h : Shape P n fg) : ∃ nodes, fg.getNodeOrdering = .ok nodes ∧
    nodes.Perm (List.range n) ∧ ∀ (j v : Nat), nodes[j]? = some v ↔ fg.ranks[v]? = some j := by
  classical
  have hsurj : ∀ j < n, ∃ v < n, fg.rk v = j := by
    intro j hj
    by_contra hc
    have hinj : ((List.range n).map fg.rk).Nodup := by
      refine List.Nodup.map_on ?_ List.nodup_range
      intro a ha b hb hab
      exact h.rk_inj a (List.mem_range.1 ha) b (List.mem_range.1 hb) hab
    have hsub : ((List.range n).map fg.rk) ⊆ (List.range n).erase j := by
      intro x hx
      obtain ⟨v, hv, rfl⟩ := List.mem_map.1 hx
      have hv' := List.mem_range.1 hv
      rw [List.Nodup.mem_erase_iff List.nodup_range]
      exact ⟨fun e => hc ⟨v, hv', e⟩, List.mem_range.2 (h.rk_lt v hv')⟩
    have hle := (List.subperm_of_subset hinj hsub).length_le
    rw [List.length_erase_of_mem (List.mem_range.2 hj)] at hle
    simp at hle
    omega
  have hrk : ∀ v < n, fg.ranks[v]? = some (fg.rk v) := by
    intro v hv
    have : v < fg.ranks.length := by rw [h.lenR]; exact hv
    simp [FastGraph.rk, this]
  have hrk' : ∀ v j, fg.ranks[v]? = some j → v < n ∧ fg.rk v = j := by
    intro v j hv
    have : v < fg.ranks.length := (List.getElem?_eq_some_iff.1 hv).1
    refine ⟨by rw [h.lenR] at this; exact this, by simp [FastGraph.rk, hv]⟩
  let inv : Nat → Nat := fun j => if hj : j < n then Classical.choose (hsurj j hj) else 0
  have hinv : ∀ j < n, inv j < n ∧ fg.rk (inv j) = j := by
    intro j hj
    have := Classical.choose_spec (hsurj j hj)
    simp only [inv, hj, dif_pos]; exact this
  have hinv' : ∀ v < n, inv (fg.rk v) = v := by
    intro v hv
    have := hinv (fg.rk v) (h.rk_lt v hv)
    exact h.rk_inj _ this.1 _ hv this.2
  have hnd : ((List.range n).map inv).Nodup := by
    refine List.Nodup.map_on ?_ List.nodup_range
    intro a ha b hb hab
    have h1 := hinv a (List.mem_range.1 ha)
    have h2 := hinv b (List.mem_range.1 hb)
    rw [← h1.2, ← h2.2, hab]
  have hp : ((List.range n).map inv).Perm (List.range n) := by
    refine (List.perm_ext_iff_of_nodup hnd List.nodup_range).2 ?_
    intro v
    rw [List.mem_map]
    constructor
    · rintro ⟨j, hj, rfl⟩
      exact List.mem_range.2 (hinv j (List.mem_range.1 hj)).1
    · intro hv
      have hv' := List.mem_range.1 hv
      exact ⟨fg.rk v, List.mem_range.2 (h.rk_lt v hv'), hinv' v hv'⟩
  have hget : ∀ (j v : Nat), ((List.range n).map inv)[j]? = some v ↔ fg.ranks[v]? = some j := by
    intro j v
    constructor
    · intro hj
      have hjn : j < n := by
        have := (List.getElem?_eq_some_iff.1 hj).1
        simpa using this
      rw [List.getElem?_map, List.getElem?_range hjn] at hj
      simp at hj
      subst hj
      rw [hrk _ (hinv j hjn).1, (hinv j hjn).2]
    · intro hv
      obtain ⟨hvn, hvr⟩ := hrk' v j hv
      subst hvr
      rw [List.getElem?_map, List.getElem?_range (h.rk_lt v hvn)]
      simp [hinv' v hvn]
  refine ⟨(List.range n).map inv, ?_, hp, hget⟩
  have hlen : ((List.range n).map inv).length = n := by simp
  exact getNodeOrdering_eq (by rw [hlen]; exact h.lenR) (by rw [hlen]; exact hp) (fun j v hj => (hget j v).1 hj)

/-! ### Stored edges stand for walks -/

theorem FGood.realise {E : EdgeRel} {n : Nat} {fg : FastGraph} (h : FGood P E n fg) : ∀ (k : Nat),
    (∀ u < n, fg.rk u = k → ∀ id ed, fg.OutAt u id ed → Wk E u ed.adjNode ed.weight) ∧
    (∀ u < n, fg.rk u = k → ∀ id ed, fg.InAt u id ed → Wk E ed.adjNode u ed.weight) := by
  intro k
  induction k using Nat.strongRecOn with
  | _ k ih =>
    have res : ∀ u x w rin rout, (fg.rk u = k ∨ fg.rk x = k) → Resolved P E n fg u x w rin rout → Wk E u x w := by
      intro u x w rin rout huk hr
      rcases hr with ⟨_, _, he⟩ | ⟨_, _, c, hc, h1, h2, e1, e2, k1, k2, k3, k4, k5⟩
      · exact Wk.single he
      · have hck : fg.rk c < k := by rcases huk with huk | huk <;> omega
        obtain ⟨i1, i2⟩ := ih (fg.rk c) hck
        have a1 := i2 c hc rfl _ _ k1
        have a2 := i1 c hc rfl _ _ k3
        rw [k2] at a1
        rw [k4] at a2
        rw [k5]
        exact a1.append a2
    constructor
    · intro u hu huk id ed hed
      obtain ⟨_, _, _, hr⟩ := h.fwd u hu id ed hed
      exact res _ _ _ _ _ (Or.inl huk) hr
    · intro u hu huk id ed hed
      obtain ⟨_, _, _, hr⟩ := h.bwd u hu id ed hed
      exact res _ _ _ _ _ (Or.inr huk) hr

theorem Client.inv (hP : P.checked = true) {ops : List Op} {ig : InputGraph} {fg : FastGraph} (hc : Client P ops ig fg) :
    GInv (accepted ops) ig := buildGraph_inv (Or.inl hP) hc.built

theorem Client.good (hP : P.checked = true) {ops : List Op} {ig : InputGraph} {fg : FastGraph} (hc : Client P ops ig fg) :
    FGood P (edgesOf ig.edges) ig.numNodes fg := hc.prepared.good hP ((hc.inv hP).frozenOk hc.frozen)

/-- A calculator made for the node count of the graph and used for arbitrary earlier queries. -/
theorem reused_total (hP : P.checked = true) {ops : List Op} {ig : InputGraph} {fg : FastGraph} (hc : Client P ops ig fg)
    {c : PathCalculator pq} (hco : CalcOk ig.numNodes c) {S T : List (Nat × Nat)} (ha : ArgsOk ig.numNodes fg S T) :
    (∃ r, c.calcPathMulti P fg S T = .ok r) ∨ c.calcPathMulti P fg S T = .error .overflow := by
  have h := calcPathMulti_ok hP (hc.good hP) hco ha.s ha.e ha.sl ha.el
  cases hr : c.calcPathMulti P fg S T with
  | ok r => exact Or.inl ⟨r, rfl⟩
  | error e =>
    rw [hr] at h
    have hq := (qerr_calcPathMulti P c fg S T).1
    rw [hr] at hq
    cases e with
    | overflow => exact Or.inr rfl
    | capacity => exact absurd rfl hq
    | index => exact h.elim
    | assertion => exact h.elim
    | debugAssertion => exact h.elim
    | outOfFuel => exact h.elim

/-! ### Reused calculators -/

theorem runRequests_base {n : Nat} {c c' : PathCalculator pq} (hc : CalcOk n c) {qs : List Request}
    (h : runRequests P c qs = .ok c') : CalcOk n c' := by
  refine forM_inv (I := fun _ (c : PathCalculator pq) => CalcOk n c) ?_ qs [] c c' hc h
  intro _ q s s' hs hrun
  obtain ⟨⟨c1, r1⟩, h1, h2⟩ := bind_eq_ok.1 hrun
  injection h2 with h2
  subst h2
  have := RelM.self (RelM.mono (calcPathMulti_rel (P := P) hs.num hs.num hs.f hs.b hs.f hs.b q.graph q.sources q.targets)
    (fun r₁ _ h => (show r₁.1.numNodes = n ∧ r₁.1.fwd.Base n ∧ r₁.1.bwd.Base n from h.2))) h1
  exact ⟨this.1, this.2.1, this.2.2⟩

end FP
