import Verif.Proofs.WitnessCalls
/-! # Witness search: the number of settled nodes -/
namespace FP
namespace WitnessSearch
variable {pq : PQ} {P : Plat} {n : Nat} {ws : WitnessSearch pq}

/-- number of settled nodes -/
def cntB (n : Nat) (ws : WitnessSearch pq) : Nat := (List.range n).countP ws.settledB

/-- What is needed to count, whatever the graphs. -/
structure SInv (n : Nat) (ws : WitnessSearch pq) : Prop extends Base n ws where
  items : ∀ it ∈ pq.items ws.heap, ∃ d, ws.look it.nodeId = some d ∧ d.weight ≤ it.weight
  settled : ∀ x d, ws.look x = some d → d.settled = true → ∀ it ∈ pq.items ws.heap, d.weight ≤ it.weight
  cnt : cntB n ws = ws.settledNodes

/-- Invariant of the relaxation loop. -/
structure RSInv (n : Nat) (curr : HeapItem) (ws₀ ws : WitnessSearch pq) : Prop extends Base n ws where
  items : ∀ it ∈ pq.items ws.heap, curr.weight ≤ it.weight ∧ ∃ d, ws.look it.nodeId = some d ∧ d.weight ≤ it.weight
  settled : ∀ x d, ws.look x = some d → d.settled = true → d.weight ≤ curr.weight
  cur : ∃ d, ws.look curr.nodeId = some d ∧ d.weight ≤ curr.weight ∧ d.settled = false
  same : ∀ x, ws.settledB x = ws₀.settledB x
  num' : ws.settledNodes = ws₀.settledNodes

theorem updateNode_lt (hb : Base n ws) {x w : Nat} {ws' : WitnessSearch pq} (e : ws.updateNode x w = .ok ws') : x < n := by
  by_contra hlt
  unfold updateNode at e
  rw [hb.tab.setValid_ge hlt] at e
  cases e

theorem isValid_ge (hb : Base n ws) {x : Nat} (hx : ¬ x < n) : ws.validFlags.isValid x = .error .index := by
  unfold ValidFlags.isValid idx
  rw [show ws.validFlags.validFlags[x]? = none by simp [hb.tab.flags.len]; omega]
  rfl

theorem addW_eq (hP : P.checked = true) {a b c : Nat} (e : addW P a b = .ok c) : c = a + b := ((Tri_addW hP a b).of_ok e).1

theorem relaxArc_count (hP : P.checked = true) {curr : HeapItem} {ws₀ : WitnessSearch pq} {target wl : Nat} {found : Bool}
    (h : RSInv n curr ws₀ ws) {a : Arc} {st : WitnessSearch pq × Bool}
    (e : relaxArc P curr target wl (ws, found) a = .ok st) : RSInv n curr ws₀ st.1 := by
  unfold relaxArc at e
  simp only at e
  by_cases hav : (a.adj == ws.avoidNode) = true
  · rw [if_pos hav] at e
    injection e with e
    subst e
    exact h
  rw [if_neg hav] at e
  obtain ⟨w, e1, e⟩ := bind_eq_ok.1 e
  have := addW_eq hP e1
  subst this
  obtain ⟨cw, e2, e⟩ := bind_eq_ok.1 e
  by_cases hlt : curr.weight + a.weight < cw
  · rw [if_pos hlt] at e
    obtain ⟨ws', e3, e⟩ := bind_eq_ok.1 e
    injection e with e
    subst e
    have hadj := updateNode_lt h.toBase e3
    rw [getCurrentWeight_ok h.toBase hadj] at e2
    injection e2 with e2
    subst e2
    obtain ⟨ws'', e4, b', hh, _, _, hcnt, hl⟩ := updateNode_ok h.toBase hadj (curr.weight + a.weight)
    rw [e4] at e3
    injection e3 with e3
    subst e3
    obtain ⟨dc, hc1, hc2, hc3⟩ := h.cur
    have hnc : a.adj ≠ curr.nodeId := by
      intro hc
      have : ws.wt P a.adj = dc.weight := by unfold wt; rw [hc, hc1]
      omega
    have hL : ∀ y, ({ ws'' with heap := pq.push ⟨curr.weight + a.weight, a.adj⟩ ws''.heap } : WitnessSearch pq).look y
        = if y = a.adj then some ⟨false, curr.weight + a.weight⟩ else ws.look y := hl
    refine ⟨⟨b'.num, b'.tab⟩, ?_, ?_, ?_, ?_, hcnt.trans h.num'⟩
    · intro it hit
      rw [PQ.mem_push, hh] at hit
      rcases hit with rfl | hit
      · exact ⟨by simp only; omega, ⟨false, curr.weight + a.weight⟩, by rw [hL]; simp, Nat.le_refl _⟩
      · obtain ⟨h1, d, h2, h3⟩ := h.items it hit
        refine ⟨h1, ?_⟩
        rw [hL]
        split
        · rename_i hia
          refine ⟨_, rfl, ?_⟩
          simp only
          have : ws.wt P a.adj = d.weight := by unfold wt; rw [← hia, h2]
          omega
        · exact ⟨d, h2, h3⟩
    · intro x d hx hd
      rw [hL] at hx
      split at hx
      · cases hx; cases hd
      · exact h.settled x d hx hd
    · refine ⟨dc, ?_, hc2, hc3⟩
      rw [hL, if_neg (Ne.symm hnc)]; exact hc1
    · intro x
      rw [← h.same x]
      unfold settledB
      rw [hL]
      by_cases hxa : x = a.adj
      · subst hxa
        rw [if_pos rfl]
        cases hlk : ws.look a.adj with
        | none => rfl
        | some d =>
          have h2 : ws.wt P a.adj = d.weight := by unfold wt; rw [hlk]
          cases hd : d.settled with
          | false => exact hd.symm
          | true =>
            have h1 := h.settled _ _ hlk hd
            omega
      · rw [if_neg hxa]
  · rw [if_neg hlt] at e
    injection e with e
    subst e
    exact h

theorem countP_insert {p q : Nat → Bool} {c : Nat} (hc : p c = false) (hq : ∀ x, q x = (p x || x == c)) :
    ∀ l : List Nat, l.Nodup → l.countP q = l.countP p + if c ∈ l then 1 else 0 := by
  intro l
  induction l with
  | nil => intro _; simp
  | cons a l ih =>
    intro hn
    obtain ⟨h1, h2⟩ := List.nodup_cons.1 hn
    rw [List.countP_cons, List.countP_cons, ih h2, hq a]
    by_cases hac : a = c
    · subst hac
      simp [hc, h1]
    · have hca : ¬ c = a := fun h => hac h.symm
      have hb : (a == c) = false := by simpa using hac
      simp only [List.mem_cons, hca, false_or, hb, Bool.or_false]
      omega

theorem findLoop_count (hP : P.checked = true) {g : PreparationGraph} {target wl sl : Nat} :
    ∀ fuel {ws ws' : WitnessSearch pq}, SInv n ws → findLoop P g target wl sl fuel ws = .ok ws' →
      SInv n ws' ∧ ws'.settledNodes ≤ max ws.settledNodes sl := by
  intro fuel
  induction fuel with
  | zero => intro ws ws' _ e; cases e
  | succ fuel ih =>
    intro ws ws' h e
    unfold findLoop at e
    cases hp : pq.pop ws.heap with
    | none =>
      rw [hp] at e
      injection e with e
      subst e
      exact ⟨h, by omega⟩
    | some r =>
      obtain ⟨curr, heap'⟩ := r
      rw [hp] at e
      simp only at e
      by_cases h1 : ws.settledNodes ≥ sl
      · rw [if_pos h1] at e
        injection e with e
        subst e
        exact ⟨h, by omega⟩
      rw [if_neg h1] at e
      by_cases h2 : curr.weight > wl
      · rw [if_pos h2] at e
        injection e with e
        subst e
        exact ⟨h, by omega⟩
      rw [if_neg h2] at e
      have hcurr : curr ∈ pq.items ws.heap := (PQ.pop_mem hp).2 (Or.inl rfl)
      obtain ⟨dc, hc1, hc2⟩ := h.items curr hcurr
      have hcn : curr.nodeId < n := h.tab.look_lt hc1
      have hbase : Base n ({ ws with heap := heap' } : WitnessSearch pq) := ⟨h.num, h.tab⟩
      have hsb : ∀ x, settledB ({ ws with heap := heap' } : WitnessSearch pq) x = ws.settledB x := fun _ => rfl
      rw [isSettled_ok hbase hcn, hsb] at e
      simp only [bind_okM] at e
      have hsub : ∀ it ∈ pq.items heap', it ∈ pq.items ws.heap := fun it hit => (PQ.pop_mem hp).2 (Or.inr hit)
      by_cases hset : ws.settledB curr.nodeId = true
      · rw [if_pos hset] at e
        refine ih (ws := { ws with heap := heap' }) ⟨hbase, ?_, ?_, h.cnt⟩ e
        · intro it hit; exact h.items it (hsub it hit)
        · intro x d hx hd it hit; exact h.settled x d hx hd it (hsub it hit)
      · rw [if_neg hset] at e
        obtain ⟨outs, _, e⟩ := bind_eq_ok.1 e
        obtain ⟨⟨ws1, found⟩, er, e⟩ := bind_eq_ok.1 e
        have hset' : dc.settled = false := by
          unfold settledB at hset
          rw [hc1] at hset
          simpa using hset
        have h0 : RSInv n curr ws ({ ws with heap := heap' } : WitnessSearch pq) := by
          refine ⟨hbase, ?_, ?_, ?_, fun _ => rfl, rfl⟩
          · intro it hit
            exact ⟨PQ.pop_min hp (hsub it hit), h.items it (hsub it hit)⟩
          · intro x d hx hd
            exact h.settled x d hx hd curr hcurr
          · exact ⟨dc, hc1, hc2, hset'⟩
        have hr : RSInv n curr ws ws1 :=
          forM_inv (f := relaxArc P curr target wl) (I := fun _ (st : WitnessSearch pq × Bool) => RSInv n curr ws st.1)
            (by
              rintro pre a ⟨s1, f1⟩ s2 hI he
              exact relaxArc_count hP hI he) outs [] _ (ws1, found) h0 er
        obtain ⟨d1, hd1, hd2, hd3⟩ := hr.cur
        obtain ⟨em, tabm, lm⟩ := hr.tab.modify hd1 (fun d => { d with settled := true })
        simp only at e
        rw [em] at e
        simp only [bind_okM] at e
        generalize hws2 : ({ ws1 with data := ws1.data.set curr.nodeId { d1 with settled := true },
                                      settledNodes := ws1.settledNodes + 1 } : WitnessSearch pq) = ws2 at e
        have hL : ∀ y, ws2.look y = if y = curr.nodeId then some { d1 with settled := true } else ws1.look y := by
          subst hws2; exact lm
        have hheap : ws2.heap = ws1.heap := by subst hws2; rfl
        have hnum : ws2.settledNodes = ws.settledNodes + 1 := by subst hws2; exact congrArg (· + 1) hr.num'
        have hI : SInv n ws2 := by
          refine ⟨⟨by subst hws2; exact hr.num, by subst hws2; exact tabm⟩, ?_, ?_, ?_⟩
          · intro it hit
            rw [hheap] at hit
            obtain ⟨_, d, hx1, hx2⟩ := hr.items it hit
            rw [hL]
            split
            · rename_i hxc
              rw [hxc, hd1] at hx1
              cases hx1
              exact ⟨_, rfl, hx2⟩
            · exact ⟨d, hx1, hx2⟩
          · intro x d hx hd it hit
            rw [hheap] at hit
            have hge := (hr.items it hit).1
            rw [hL] at hx
            split at hx
            · cases hx; simp only; omega
            · have := hr.settled x d hx hd
              omega
          · have hq : ∀ x, ws2.settledB x = (ws.settledB x || x == curr.nodeId) := by
              intro x
              rw [← hr.same x]
              unfold settledB
              rw [hL]
              by_cases hx : x = curr.nodeId
              · simp [hx]
              · have : (x == curr.nodeId) = false := by simpa using hx
                rw [if_neg hx, this, Bool.or_false]
            rw [hnum, ← h.cnt]
            unfold cntB
            rw [countP_insert (by simpa using hset) hq _ List.nodup_range, if_pos (by simpa using hcn)]
        by_cases hf : (found || curr.nodeId == target) = true
        · rw [if_pos hf] at e
          injection e with e
          subst e
          exact ⟨hI, by omega⟩
        · rw [if_neg hf] at e
          obtain ⟨k1, k2⟩ := ih hI e
          exact ⟨k1, by omega⟩

theorem findMaxWeight_count (hP : P.checked = true) {g : PreparationGraph} {target wl sl : Nat} {r : WitnessSearch pq × Nat}
    (h : SInv n ws) (e : ws.findMaxWeight P g target wl sl = .ok r) :
    SInv n r.1 ∧ r.1.settledNodes ≤ max ws.settledNodes sl := by
  unfold findMaxWeight at e
  obtain ⟨_, _, e⟩ := bind_eq_ok.1 e
  obtain ⟨_, _, e⟩ := bind_eq_ok.1 e
  obtain ⟨_, _, e⟩ := bind_eq_ok.1 e
  by_cases ht : (target == ws.startNode) = true
  · rw [if_pos ht] at e
    injection e with e
    subst e
    exact ⟨h, by simp only; omega⟩
  rw [if_neg ht] at e
  obtain ⟨valid, _, e⟩ := bind_eq_ok.1 e
  obtain ⟨early, _, e⟩ := bind_eq_ok.1 e
  cases early with
  | some w =>
    injection e with e
    subst e
    exact ⟨h, by simp only; omega⟩
  | none =>
    obtain ⟨ws', e1, e⟩ := bind_eq_ok.1 e
    obtain ⟨w, _, e⟩ := bind_eq_ok.1 e
    injection e with e
    subst e
    exact findLoop_count hP _ h e1

theorem init_count {s v : Nat} {ws' : WitnessSearch pq} (h : Base n ws) (e : ws.init P s v = .ok ws') :
    SInv n ws' ∧ ws'.settledNodes = 0 := by
  obtain ⟨hs, hsP, hne⟩ := init_args h e
  obtain ⟨ws1, e1, hi, h0⟩ := init_ok h hs hsP hne (⟨[], [], 0⟩ : PreparationGraph)
  obtain ⟨ok, hl⟩ := h.tab.invalidate
  have hb : Base n ({ ws with startNode := s, avoidNode := v, heap := pq.empty,
                              validFlags := ws.validFlags.invalidateAll } : WitnessSearch pq) := ⟨h.num, ok⟩
  obtain ⟨ws2, e2, _, _, _, _, _, hl'⟩ := updateNode_ok hb hs 0
  rw [e1] at e
  injection e with e
  subst e
  refine ⟨⟨hi.toBase, hi.items, hi.settled, ?_⟩, h0⟩
  rw [h0]
  unfold init at e1
  rw [assertM_of (by simpa [Plat.INVALID_NODE] using hsP), assertM_of (by simpa using hne)] at e1
  simp only [bind_okM] at e1
  rw [e2] at e1
  simp only [bind_okM] at e1
  injection e1 with e1
  subst e1
  unfold cntB
  rw [List.countP_eq_zero]
  intro x _
  have hx : look ({ ws2 with heap := pq.push ⟨0, s⟩ ws2.heap, settledNodes := 0 } : WitnessSearch pq) x
      = if x = s then some ⟨false, 0⟩ else none := by
    have := hl' x
    rw [show look ({ ws with startNode := s, avoidNode := v, heap := pq.empty,
                             validFlags := ws.validFlags.invalidateAll } : WitnessSearch pq) x = none from hl x] at this
    exact this
  unfold settledB
  rw [hx]
  by_cases hxs : x = s
  · rw [if_pos hxs]; simp
  · rw [if_neg hxs]; simp

/-- Searches after `init` with limits of at most `K`. -/
theorem runFinds_count (hP : P.checked = true) {K : Nat} {calls : List WitnessCall}
    (hc : ∀ c ∈ calls, ∃ g t wl sl, c = .find g t wl sl ∧ sl ≤ K) : ∀ {ws ws' : WitnessSearch pq}, SInv n ws →
    ws.settledNodes ≤ K → runWitness P ws calls = .ok ws' → SInv n ws' ∧ ws'.settledNodes ≤ K := by
  induction calls with
  | nil =>
    intro ws ws' h hk e
    injection e with e
    subst e
    exact ⟨h, hk⟩
  | cons c cs ih =>
    intro ws ws' h hk e
    unfold runWitness at e
    rw [forM_cons] at e
    obtain ⟨ws1, e1, e2⟩ := bind_eq_ok.1 e
    obtain ⟨g, t, wl, sl, rfl, hsl⟩ := hc c (by simp)
    obtain ⟨r, e3, e4⟩ := bind_eq_ok.1 e1
    injection e4 with e4
    subst e4
    obtain ⟨k1, k2⟩ := findMaxWeight_count hP h e3
    exact ih (fun c hcc => hc c (by simp [hcc])) k1 (by omega) e2

end WitnessSearch
end FP
