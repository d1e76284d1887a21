import Verif.Props.Nearest
set_option autoImplicit false
/-! # Trips with stops -/
namespace FP.Props
open Spec

/-- A trip from an entry of `S` that stops at one node of each list, in their order, and ends at the last stop `v`: `w` is the start
weight plus the weights of the walks between the stops. -/
inductive TripTo (E : EdgeRel) : List (Nat × Nat) → List (List Nat) → Nat → Nat → Prop
  | here {S : List (Nat × Nat)} {v w : Nat} : (v, w) ∈ S → TripTo E S [] v w
  | stop {S : List (Nat × Nat)} {V : List Nat} {Vs : List (List Nat)} {x a y b v w : Nat} : (x, a) ∈ S → y ∈ V → HasWalk E x y b →
      TripTo E [(y, a + b)] Vs v w → TripTo E S (V :: Vs) v w

/-- One query (lib.rs:92-99) for every possible stop. The stops that can be reached, with their weights, are the sources of the next
stage. -/
def stage (P : Plat) (pq : PQ) (fg : FastGraph) (S : List (Nat × Nat)) : List Nat → M (List (Nat × Nat))
  | [] => .ok []
  | v :: vs => do
    let r ← calcPathMulti P pq fg S [(v, 0)]
    let R ← stage P pq fg S vs
    .ok (match r with
      | none => R
      | some p => (v, p.weight) :: R)

/-- What a client does who plans a trip with stops: the stages one after the other. Without sources there is no query, the library
would panic (path_calculator.rs:78-79). -/
def trip (P : Plat) (pq : PQ) (fg : FastGraph) : List (Nat × Nat) → List (List Nat) → M (List (Nat × Nat))
  | S, [] => .ok S
  | S, V :: Vs => if S = [] then .ok [] else do
    let R ← stage P pq fg S V
    trip P pq fg R Vs

theorem stage_spec {P : Plat} (hP : P.checked = true) {ops : List Op} {ig : InputGraph} {fg : FastGraph}
    (hc : Client P ops ig fg) (pq : PQ) {S : List (Nat × Nat)} : ∀ {V : List Nat} {R : List (Nat × Nat)}, stage P pq fg S V = .ok R →
    (∀ v w, (v, w) ∈ R → v ∈ V ∧ w < P.umax ∧ HasRoute (edgesOf (accepted ops)) S [(v, 0)] w ∧
      ∀ w', HasRoute (edgesOf (accepted ops)) S [(v, 0)] w' → w ≤ w') ∧
    ∀ v ∈ V, ∀ w < P.umax, HasRoute (edgesOf (accepted ops)) S [(v, 0)] w → ∃ w' ≤ w, (v, w') ∈ R
  | [], R, h => by
    simp only [stage] at h
    injection h with h
    subst h
    simp
  | x :: xs, R, h => by
    simp only [stage] at h
    obtain ⟨r, h1, h2⟩ := bind_eq_ok.1 h
    obtain ⟨R', h3, h4⟩ := bind_eq_ok.1 h2
    injection h4 with h4
    obtain ⟨i1, i2⟩ := stage_spec hP hc pq h3
    have a := (query_answer hP hc h1).2.2
    cases r with
    | none =>
      simp only at h4
      subst h4
      refine ⟨fun v w hm => ⟨List.mem_cons_of_mem _ (i1 v w hm).1, (i1 v w hm).2⟩, fun v hv w hw hr => ?_⟩
      rcases List.mem_cons.1 hv with rfl | hv
      · have := a w hr; omega
      · exact i2 v hv w hw hr
    | some p =>
      simp only at h4
      subst h4
      obtain ⟨hlt, ⟨ws, wt, w₀, k1, k2, k3, k4, k5, k6⟩, hmin⟩ := a
      refine ⟨fun v w hm => ?_, fun v hv w hw hr => ?_⟩
      · rcases List.mem_cons.1 hm with e | hm
        · injection e with e1 e2
          subst e1 e2
          exact ⟨List.mem_cons_self, hlt, ⟨p.source, ws, p.target, wt, w₀, k1, k2, ⟨p.nodes, k3, k4, k5⟩, k6⟩, hmin⟩
        · exact ⟨List.mem_cons_of_mem _ (i1 v w hm).1, (i1 v w hm).2⟩
      · rcases List.mem_cons.1 hv with rfl | hv
        · exact ⟨p.weight, hmin w hr, List.mem_cons_self⟩
        · obtain ⟨w', h5, h6⟩ := i2 v hv w hw hr
          exact ⟨w', h5, List.mem_cons_of_mem _ h6⟩

/-- A trip costs at least its start weight. -/
theorem TripTo.start_le {E : EdgeRel} {S : List (Nat × Nat)} {Vs : List (List Nat)} {v w : Nat} (h : TripTo E S Vs v w) :
    ∃ x a, (x, a) ∈ S ∧ a ≤ w := by
  induction h with
  | here h => exact ⟨_, _, h, Nat.le_refl _⟩
  | stop hx _ _ _ ih =>
    obtain ⟨_, _, h1, h2⟩ := ih
    simp only [List.mem_singleton, Prod.mk.injEq] at h1
    obtain ⟨rfl, rfl⟩ := h1
    exact ⟨_, _, hx, by omega⟩

/-- Smaller start weights give trips that weigh no more. -/
theorem TripTo.lighter {E : EdgeRel} {S : List (Nat × Nat)} {Vs : List (List Nat)} {v w : Nat} (h : TripTo E S Vs v w) :
    ∀ {S' : List (Nat × Nat)}, (∀ x a, (x, a) ∈ S → a ≤ w → ∃ a' ≤ a, (x, a') ∈ S') → ∃ w' ≤ w, TripTo E S' Vs v w' := by
  induction h with
  | here hm =>
    intro S' hS
    obtain ⟨a', h1, h2⟩ := hS _ _ hm (Nat.le_refl _)
    exact ⟨a', h1, .here h2⟩
  | @stop S V Vs x a y b v w hx hy hw ht ih =>
    intro S' hS
    obtain ⟨y', c, h1, h2⟩ := ht.start_le
    simp only [List.mem_singleton, Prod.mk.injEq] at h1
    obtain ⟨_, rfl⟩ := h1
    obtain ⟨a', h3, h4⟩ := hS x a hx (by omega)
    obtain ⟨w', h5, h6⟩ := ih (S' := [(y, a' + b)]) (fun x' c hm _ => by
      simp only [List.mem_singleton, Prod.mk.injEq] at hm
      exact ⟨a' + b, by omega, by simp [hm.1]⟩)
    exact ⟨w', h5, .stop h4 hy hw h6⟩

/-- **C115** Stage by stage the best trips are found: every entry of the result is the weight of a trip to that stop and no trip to
it is lighter; every stop that a trip lighter than `usize::MAX` reaches has an entry. -/
theorem C115_trip {P : Plat} (hP : P.checked = true) {ops : List Op} {ig : InputGraph} {fg : FastGraph}
    (hc : Client P ops ig fg) (pq : PQ) : ∀ (stops : List (List Nat)) {S R : List (Nat × Nat)}, stops ≠ [] →
    trip P pq fg S stops = .ok R →
    (∀ v w, (v, w) ∈ R → w < P.umax ∧ TripTo (edgesOf (accepted ops)) S stops v w ∧
      ∀ w', TripTo (edgesOf (accepted ops)) S stops v w' → w ≤ w') ∧
    ∀ v w, w < P.umax → TripTo (edgesOf (accepted ops)) S stops v w → ∃ w', (v, w') ∈ R
  | [], _, _, hne, _ => absurd rfl hne
  | V :: Vs, S, R, _, h => by
    simp only [trip] at h
    by_cases hS : S = []
    · rw [if_pos hS] at h
      injection h with h
      subst h hS
      refine ⟨by simp, fun v w _ ht => ?_⟩
      obtain ⟨_, _, h1, _⟩ := ht.start_le
      cases h1
    rw [if_neg hS] at h
    obtain ⟨R₁, h1, h2⟩ := bind_eq_ok.1 h
    obtain ⟨i1, i2⟩ := stage_spec hP hc pq h1
    have hin : ∀ {v w}, TripTo (edgesOf (accepted ops)) R₁ Vs v w → TripTo (edgesOf (accepted ops)) S (V :: Vs) v w := by
      intro v w ht
      have key : ∀ {y c}, (y, c) ∈ R₁ → TripTo (edgesOf (accepted ops)) [(y, c)] Vs v w →
          TripTo (edgesOf (accepted ops)) S (V :: Vs) v w := by
        intro y c hm ht
        obtain ⟨k1, _, ⟨s, ws, t, wt, d, m1, m2, m3, rfl⟩, _⟩ := i1 y c hm
        simp only [List.mem_singleton, Prod.mk.injEq] at m2
        obtain ⟨rfl, rfl⟩ := m2
        exact .stop m1 k1 m3 (by simpa using ht)
      cases ht with
      | here hm => exact key hm (.here (by simp))
      | stop hx hy hw ht => exact key hx (.stop (by simp) hy hw ht)
    have hout : ∀ {v w}, w < P.umax → TripTo (edgesOf (accepted ops)) S (V :: Vs) v w →
        ∃ w' ≤ w, TripTo (edgesOf (accepted ops)) R₁ Vs v w' := by
      intro v w hw ht
      cases ht with
      | @stop _ _ _ x a y b _ _ hx hy hwalk ht =>
        refine ht.lighter (fun x' c hm hc => ?_)
        simp only [List.mem_singleton, Prod.mk.injEq] at hm
        obtain ⟨rfl, rfl⟩ := hm
        exact i2 x' hy _ (by omega) ⟨x, a, x', 0, b, hx, by simp, hwalk, by omega⟩
    by_cases hVs : Vs = []
    · subst hVs
      simp only [trip] at h2
      injection h2 with h2
      subst h2
      refine ⟨fun v w hm => ⟨(i1 v w hm).2.1, hin (.here hm), fun w' ht => ?_⟩, fun v w hw ht => ?_⟩
      · cases ht with
        | @stop _ _ _ x a y b _ _ hx hy hwalk ht =>
          cases ht with
          | here hm' =>
            simp only [List.mem_singleton, Prod.mk.injEq] at hm'
            obtain ⟨rfl, rfl⟩ := hm'
            exact (i1 _ _ hm).2.2.2 _ ⟨x, a, v, 0, b, hx, by simp, hwalk, by omega⟩
      · obtain ⟨w', _, ht'⟩ := hout hw ht
        cases ht' with
        | here hm => exact ⟨_, hm⟩
    · obtain ⟨j1, j2⟩ := C115_trip hP hc pq Vs hVs h2
      refine ⟨fun v w hm => ⟨(j1 v w hm).1, hin (j1 v w hm).2.1, fun w' ht => ?_⟩, fun v w hw ht => ?_⟩
      · by_cases hw' : w' < P.umax
        · obtain ⟨w'', h3, h4⟩ := hout hw' ht
          have := (j1 v w hm).2.2 w'' h4
          omega
        · have := (j1 v w hm).1
          omega
      · obtain ⟨w', h3, h4⟩ := hout hw ht
        exact j2 v w' (by omega) h4

/-- **C115** A last query to a target gives the lightest trip to it: `none` only if no trip is lighter than `usize::MAX`. -/
theorem C115_target {P : Plat} (hP : P.checked = true) {ops : List Op} {ig : InputGraph} {fg : FastGraph}
    (hc : Client P ops ig fg) (pq : PQ) {stops : List (List Nat)} {S R : List (Nat × Nat)} {t : Nat} {r : Option ShortestPath}
    (hne : stops ≠ []) (h : trip P pq fg S stops = .ok R) (hq : calcPathMulti P pq fg R [(t, 0)] = .ok r) :
    match r with
    | none => ∀ v a b, TripTo (edgesOf (accepted ops)) S stops v a → HasWalk (edgesOf (accepted ops)) v t b → P.umax ≤ a + b
    | some p => p.target = t ∧ p.weight < P.umax ∧
      (∃ a b, TripTo (edgesOf (accepted ops)) S stops p.source a ∧ IsWalk (edgesOf (accepted ops)) p.nodes b ∧
        p.nodes.head? = some p.source ∧ p.nodes.getLast? = some t ∧ p.weight = a + b) ∧
      ∀ v a b, TripTo (edgesOf (accepted ops)) S stops v a → HasWalk (edgesOf (accepted ops)) v t b → p.weight ≤ a + b := by
  obtain ⟨c1, c2⟩ := C115_trip hP hc pq stops hne h
  have key : ∀ {v a b}, a < P.umax → TripTo (edgesOf (accepted ops)) S stops v a → HasWalk (edgesOf (accepted ops)) v t b →
      ∃ w ≤ a + b, HasRoute (edgesOf (accepted ops)) R [(t, 0)] w := fun {v a b} ha ht hw => by
    obtain ⟨a', hm⟩ := c2 v a ha ht
    exact ⟨a' + b, by have := (c1 v a' hm).2.2 a ht; omega, v, a', t, 0, b, hm, by simp, hw, by omega⟩
  have a := (query_answer hP hc hq).2.2
  cases r with
  | none =>
    intro v a' b ht hw
    by_cases ha : a' < P.umax
    · obtain ⟨w, h1, h2⟩ := key ha ht hw
      exact Nat.le_trans (a w h2) h1
    · omega
  | some p =>
    obtain ⟨hlt, ⟨ws, wt, w₀, k1, k2, k3, k4, k5, k6⟩, hmin⟩ := a
    simp only [List.mem_singleton, Prod.mk.injEq] at k2
    obtain ⟨e, rfl⟩ := k2
    refine ⟨e, hlt, ⟨ws, w₀, (c1 _ _ k1).2.1, k3, k4, e ▸ k5, by omega⟩, fun v a' b ht hw => ?_⟩
    by_cases ha : a' < P.umax
    · obtain ⟨w, h1, h2⟩ := key ha ht hw
      exact Nat.le_trans (hmin w h2) h1
    · omega

/-- A single query with valid arguments returns or overflows. -/
theorem multi_total {P : Plat} (hP : P.checked = true) {ops : List Op} {ig : InputGraph} {fg : FastGraph} (hc : Client P ops ig fg)
    (pq : PQ) {S T : List (Nat × Nat)} (hS : S ≠ []) (hT : T ≠ []) (hSn : ∀ x ∈ S, x.1 < ig.numNodes) (hTn : ∀ x ∈ T, x.1 < ig.numNodes) :
    (∃ r, calcPathMulti P pq fg S T = .ok r) ∨ calcPathMulti P pq fg S T = .error .overflow := by
  unfold calcPathMulti
  rw [show fg.getNumNodes = ig.numNodes from (hc.good hP).num]
  rcases C16_valid_arguments hP hc pq [] rfl hS hT hSn hTn with ⟨⟨c, r⟩, h⟩ | h
  · exact .inl ⟨r, by rw [h]; rfl⟩
  · exact .inr (by rw [h]; rfl)

theorem stage_total {P : Plat} (hP : P.checked = true) {ops : List Op} {ig : InputGraph} {fg : FastGraph} (hc : Client P ops ig fg)
    (pq : PQ) {S : List (Nat × Nat)} (hS : S ≠ []) (hSn : ∀ x ∈ S, x.1 < ig.numNodes) : ∀ (V : List Nat), (∀ v ∈ V, v < ig.numNodes) →
    (∃ R, stage P pq fg S V = .ok R) ∨ stage P pq fg S V = .error .overflow
  | [], _ => .inl ⟨[], rfl⟩
  | v :: vs, hV => by
    simp only [stage]
    rcases multi_total hP hc pq hS (T := [(v, 0)]) (by simp) hSn (by simpa using hV v (by simp)) with ⟨r, h⟩ | h
    · rw [h]
      rcases stage_total hP hc pq hS hSn vs (fun x hx => hV x (List.mem_cons_of_mem _ hx)) with ⟨R, h'⟩ | h'
      · exact .inl ⟨_, by rw [h']; rfl⟩
      · exact .inr (by rw [h']; rfl)
    · exact .inr (by rw [h]; rfl)

/-- **C115** With existing nodes, planning a trip returns a result or panics with an arithmetic overflow. -/
theorem C115_ends {P : Plat} (hP : P.checked = true) {ops : List Op} {ig : InputGraph} {fg : FastGraph}
    (hc : Client P ops ig fg) (pq : PQ) : ∀ (stops : List (List Nat)) (S : List (Nat × Nat)), (∀ x ∈ S, x.1 < ig.numNodes) →
    (∀ V ∈ stops, ∀ v ∈ V, v < ig.numNodes) →
    (∃ R, trip P pq fg S stops = .ok R) ∨ trip P pq fg S stops = .error .overflow
  | [], S, _, _ => .inl ⟨S, rfl⟩
  | V :: Vs, S, hS, hV => by
    simp only [trip]
    by_cases hne : S = []
    · rw [if_pos hne]; exact .inl ⟨_, rfl⟩
    rw [if_neg hne]
    rcases stage_total hP hc pq hne hS V (hV V (by simp)) with ⟨R, h⟩ | h
    · rw [h]
      exact C115_ends hP hc pq Vs R (fun x hx => hV V (by simp) _ ((stage_spec hP hc pq h).1 x.1 x.2 hx).1)
        (fun W hW => hV W (List.mem_cons_of_mem _ hW))
    · exact .inr (by rw [h]; rfl)

/-- From node 0 over 2 or 4 and then 1 or 3. -/
example : trip debug64 binaryHeap Ex.fg [(0, 0)] [[2, 4], [1, 3]] = .ok [(1, 15), (3, 8)] := rfl
/-- The last leg goes to node 2. -/
example : ∃ p, calcPathMulti debug64 binaryHeap Ex.fg [(1, 15), (3, 8)] [(2, 0)] = .ok (some p) ∧ p.weight = 9 ∧ p.source = 3 :=
  ⟨_, rfl, rfl, rfl⟩
/-- Going to node 3 by way of 2 or 4 cannot weigh less than 8. -/
example (w : Nat) (h : TripTo (edgesOf (accepted Ex.ops)) [(0, 0)] [[2, 4], [1, 3]] 3 w) : 8 ≤ w :=
  ((C115_trip rfl exampleClient binaryHeap _ (by simp) (R := [(1, 15), (3, 8)]) rfl).1 3 8 (by simp)).2.2 w h

/-- Node 0 cannot be reached from the others: no entry, no query after that. -/
example : trip debug64 binaryHeap Ex.fg [(1, 0)] [[0], [2, 3]] = .ok [] := rfl
example : (∃ R, trip debug64 binaryHeap Ex.fg [(0, 7), (2, 1)] [[1, 3], [], [4]] = .ok R) ∨
    trip debug64 binaryHeap Ex.fg [(0, 7), (2, 1)] [[1, 3], [], [4]] = .error .overflow :=
  C115_ends rfl exampleClient binaryHeap _ _ (by decide) (by decide)

end FP.Props
