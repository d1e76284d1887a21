import Verif.Proofs.WitnessLimit
import Verif.Proofs.SearchLog
import Verif.Proofs.Contractor
import Verif.SpecWork
/-! # Heap operations of witness searches -/
namespace FP
open Spec WitnessSearch

variable {pq : PQ} {P : Plat} {n : Nat}

/-! ### The log changes nothing -/

theorem unlogW_updateNode (ws : WitnessSearch (logged pq)) (x w : Nat) :
    (unlogWitness ws).updateNode x w = mapM unlogWitness (ws.updateNode x w) := by
  unfold WitnessSearch.updateNode
  show (ws.validFlags.setValid x >>= _) = mapM unlogWitness (ws.validFlags.setValid x >>= _)
  cases ws.validFlags.setValid x with
  | error e => rfl
  | ok f =>
    simp only [bind_okM]
    show (setIdx ws.data x _ >>= _) = mapM unlogWitness (setIdx ws.data x _ >>= _)
    cases setIdx ws.data x ⟨false, w⟩ <;> rfl

theorem unlogW_init (ws : WitnessSearch (logged pq)) (s v : Nat) :
    (unlogWitness ws).init P s v = mapM unlogWitness (ws.init P s v) := by
  unfold WitnessSearch.init
  cases assertM (s != P.INVALID_NODE) with
  | error e => rfl
  | ok u =>
    simp only [bind_okM]
    cases assertM (s != v) with
    | error e => rfl
    | ok u =>
      simp only [bind_okM]
      generalize hws : ({ ws with startNode := s, avoidNode := v, heap := (logged pq).empty,
                                  validFlags := ws.validFlags.invalidateAll } : WitnessSearch (logged pq)) = ws1
      have h : ({ unlogWitness ws with startNode := s, avoidNode := v, heap := pq.empty,
                                       validFlags := (unlogWitness ws).validFlags.invalidateAll } : WitnessSearch pq) =
          unlogWitness ws1 := by subst hws; rfl
      rw [h, unlogW_updateNode]
      cases ws1.updateNode s 0 <;> rfl

/-- Forget the log of the state of the loop over the arcs. -/
def unlogF (st : WitnessSearch (logged pq) × Bool) : WitnessSearch pq × Bool := (unlogWitness st.1, st.2)

theorem unlogW_relaxArc (curr : HeapItem) (t wl : Nat) (st : WitnessSearch (logged pq) × Bool) (a : Arc) :
    relaxArc P curr t wl (unlogF st) a = mapM unlogF (relaxArc P curr t wl st a) := by
  obtain ⟨ws, found⟩ := st
  unfold relaxArc unlogF
  simp only
  show (if a.adj == ws.avoidNode then _ else _) = mapM _ (if a.adj == ws.avoidNode then _ else _)
  by_cases h : (a.adj == ws.avoidNode) = true
  · rw [if_pos h, if_pos h]; rfl
  · rw [if_neg h, if_neg h]
    cases addW P curr.weight a.weight with
    | error e => rfl
    | ok w =>
      simp only [bind_okM]
      show (ws.getCurrentWeight P a.adj >>= _) = mapM _ (ws.getCurrentWeight P a.adj >>= _)
      cases ws.getCurrentWeight P a.adj with
      | error e => rfl
      | ok cw =>
        simp only [bind_okM]
        by_cases hlt : w < cw
        · rw [if_pos hlt, if_pos hlt, unlogW_updateNode]
          cases ws.updateNode a.adj w <;> rfl
        · rw [if_neg hlt, if_neg hlt]; rfl

theorem unlogW_relaxAll (curr : HeapItem) (t wl : Nat) : ∀ (l : List Arc) (st : WitnessSearch (logged pq) × Bool),
    forM (relaxArc P curr t wl) (unlogF st) l = mapM unlogF (forM (relaxArc P curr t wl) st l) := by
  intro l
  induction l with
  | nil => intro s; rfl
  | cons a l ih =>
    intro s
    rw [forM_cons, forM_cons, unlogW_relaxArc]
    cases relaxArc P curr t wl s a with
    | error e => rfl
    | ok s' => simp only [mapM_ok, bind_okM]; exact ih s'

theorem unlogW_findLoop {g : PreparationGraph} {t wl sl : Nat} : ∀ fuel (ws : WitnessSearch (logged pq)),
    findLoop P g t wl sl fuel (unlogWitness ws) = mapM unlogWitness (findLoop P g t wl sl fuel ws) := by
  intro fuel
  induction fuel with
  | zero => intro ws; rfl
  | succ fuel ih =>
    intro ws
    unfold findLoop
    cases hp : pq.pop ws.heap.1 with
    | none =>
      have h1 : (logged pq).pop ws.heap = none := by show Option.map _ (pq.pop _) = none; rw [hp]; rfl
      have h2 : pq.pop (unlogWitness ws).heap = none := hp
      rw [h1, h2]; rfl
    | some r =>
      obtain ⟨curr, heap'⟩ := r
      have h1 : (logged pq).pop ws.heap = some (curr, (heap', ws.heap.2.1, curr :: ws.heap.2.2)) := by
        show Option.map _ (pq.pop _) = _; rw [hp]; rfl
      have h2 : pq.pop (unlogWitness ws).heap = some (curr, heap') := hp
      rw [h1, h2]
      simp only
      by_cases c1 : ws.settledNodes ≥ sl
      · rw [if_pos (show (unlogWitness ws).settledNodes ≥ sl from c1), if_pos c1]; rfl
      rw [if_neg (show ¬ (unlogWitness ws).settledNodes ≥ sl from c1), if_neg c1]
      by_cases c2 : curr.weight > wl
      · rw [if_pos c2, if_pos c2]; rfl
      rw [if_neg c2, if_neg c2]
      generalize hws : ({ ws with heap := (heap', ws.heap.2.1, curr :: ws.heap.2.2) } : WitnessSearch (logged pq)) = ws1
      have hws' : ({ unlogWitness ws with heap := heap' } : WitnessSearch pq) = unlogWitness ws1 := by subst hws; rfl
      rw [hws']
      show (ws1.isSettled curr.nodeId >>= _) = mapM unlogWitness (ws1.isSettled curr.nodeId >>= _)
      cases ws1.isSettled curr.nodeId with
      | error e => rfl
      | ok b =>
        cases b with
        | true => simp only [bind_okM, if_true]; exact ih ws1
        | false =>
          simp only [bind_okM, Bool.false_eq_true, if_false]
          cases idx g.outEdges curr.nodeId with
          | error e => rfl
          | ok outs =>
            simp only [bind_okM]
            have h4 := unlogW_relaxAll (P := P) curr t wl outs (ws1, false)
            have h5 : unlogF (ws1, false) = (unlogWitness ws1, false) := rfl
            rw [h5] at h4
            rw [h4]
            cases forM (relaxArc P curr t wl) (ws1, false) outs with
            | error e => rfl
            | ok r =>
              obtain ⟨ws2, found⟩ := r
              simp only [mapM_ok, bind_okM, unlogF]
              show (modIdx ws2.data curr.nodeId _ >>= _) = mapM unlogWitness (modIdx ws2.data curr.nodeId _ >>= _)
              cases modIdx ws2.data curr.nodeId (fun d => { d with settled := true }) with
              | error e => rfl
              | ok data =>
                simp only [bind_okM]
                by_cases hf : (found || curr.nodeId == t) = true
                · rw [if_pos hf, if_pos hf]; rfl
                · rw [if_neg hf, if_neg hf]
                  exact ih { ws2 with data := data, settledNodes := ws2.settledNodes + 1 }

theorem unlogW_find {g : PreparationGraph} {t wl sl : Nat} (ws : WitnessSearch (logged pq)) :
    (unlogWitness ws).findMaxWeight P g t wl sl = mapM (fun r => (unlogWitness r.1, r.2)) (ws.findMaxWeight P g t wl sl) := by
  unfold findMaxWeight
  have e1 : (unlogWitness ws).numNodes = ws.numNodes := rfl
  have e2 : (unlogWitness ws).startNode = ws.startNode := rfl
  have e3 : (unlogWitness ws).avoidNode = ws.avoidNode := rfl
  have e4 : (unlogWitness ws).validFlags = ws.validFlags := rfl
  have e5 : (unlogWitness ws).data = ws.data := rfl
  have e6 : (unlogWitness ws).fuelFor g = ws.fuelFor g := rfl
  rw [e1, e2, e3, e4, e5, e6]
  cases assertM (g.numNodes == ws.numNodes) with
  | error e => rfl
  | ok u =>
    simp only [bind_okM]
    cases assertM (ws.startNode != P.INVALID_NODE) with
    | error e => rfl
    | ok u =>
      simp only [bind_okM]
      cases assertM (ws.startNode != ws.avoidNode && t != ws.avoidNode) with
      | error e => rfl
      | ok u =>
        simp only [bind_okM]
        by_cases ht : (t == ws.startNode) = true
        · rw [if_pos ht, if_pos ht]; rfl
        · rw [if_neg ht, if_neg ht]
          cases ws.validFlags.isValid t with
          | error e => rfl
          | ok valid =>
            simp only [bind_okM]
            generalize (if valid then do
                let d ← idx ws.data t
                .ok (if d.settled || decide (d.weight ≤ wl) then some d.weight else none)
              else .ok none : M (Option Nat)) = early
            cases early with
            | error e => rfl
            | ok o =>
              cases o with
              | some w => rfl
              | none =>
                simp only [bind_okM]
                rw [unlogW_findLoop]
                cases findLoop P g t wl sl (ws.fuelFor g) ws with
                | error e => rfl
                | ok ws1 =>
                  simp only [mapM_ok, bind_okM]
                  show (ws1.getCurrentWeight P t >>= _) = mapM _ (ws1.getCurrentWeight P t >>= _)
                  cases ws1.getCurrentWeight P t <;> rfl

theorem unlogW_run : ∀ (calls : List WitnessCall) (ws : WitnessSearch (logged pq)),
    runWitness P (unlogWitness ws) calls = mapM unlogWitness (runWitness P ws calls) := by
  intro calls
  induction calls with
  | nil => intro ws; rfl
  | cons c calls ih =>
    intro ws
    unfold runWitness
    rw [forM_cons, forM_cons]
    have hc : c.run P (unlogWitness ws) = mapM unlogWitness (c.run P ws) := by
      cases c with
      | init s v => exact unlogW_init ws s v
      | find g t wl sl =>
        unfold WitnessCall.run
        simp only
        rw [unlogW_find]
        cases ws.findMaxWeight P g t wl sl <;> rfl
    rw [hc]
    cases c.run P ws with
    | error e => rfl
    | ok ws1 => simp only [mapM_ok, bind_okM]; exact ih ws1

/-! ### What is in the log -/

/-- Invariant of the log of a session. -/
structure SLog (n : Nat) (deg : Nat → Nat) (ws : WitnessSearch (logged pq)) : Prop extends WitnessSearch.SInv n ws where
  count : ws.heap.2.1.length ≤ 1 + (((List.range n).filter ws.settledB).map deg).sum
  all : ws.heap.2.1.Perm (ws.heap.2.2 ++ pq.items ws.heap.1)
  sorted : ws.heap.2.2.Pairwise (fun a b => b.weight ≤ a.weight)
  front : ∀ a ∈ ws.heap.2.2, ∀ it ∈ pq.items ws.heap.1, a.weight ≤ it.weight
  lab : ∀ a ∈ ws.heap.2.1, ∃ d, ws.look a.nodeId = some d ∧ d.weight ≤ a.weight
  decr : ws.heap.2.1.Pairwise (fun a b => a.nodeId = b.nodeId → a.weight < b.weight)

/-- The part of the log that relaxing an arc changes. -/
structure RWLog (curr : HeapItem) (q : pq.σ × List HeapItem × List HeapItem) (ws : WitnessSearch (logged pq)) (k : Nat) : Prop where
  r : RLog curr q ws.heap k
  lab : ∀ a ∈ ws.heap.2.1, ∃ d, ws.look a.nodeId = some d ∧ d.weight ≤ a.weight
  decr : ws.heap.2.1.Pairwise (fun a b => a.nodeId = b.nodeId → a.weight < b.weight)

theorem relaxArc_log (hP : P.checked = true) {curr : HeapItem} {q : pq.σ × List HeapItem × List HeapItem} {t wl k : Nat} {found : Bool}
    {ws : WitnessSearch (logged pq)} (hb : ws.Base n) (h : RWLog curr q ws k) {a : Arc} {st : WitnessSearch (logged pq) × Bool}
    (e : relaxArc P curr t wl (ws, found) a = .ok st) : RWLog curr q st.1 (k + 1) := by
  have hskip : RWLog curr q ws (k + 1) := ⟨⟨by have := h.r.count; omega, h.r.pops, h.r.all, h.r.new⟩, h.lab, h.decr⟩
  unfold relaxArc at e
  simp only at e
  by_cases hav : (a.adj == ws.avoidNode) = true
  · rw [if_pos hav] at e
    cases e
    exact hskip
  rw [if_neg hav] at e
  obtain ⟨w, e1, e⟩ := bind_eq_ok.1 e
  have := addW_eq hP e1
  subst this
  obtain ⟨cw, e2, e⟩ := bind_eq_ok.1 e
  by_cases hlt : curr.weight + a.weight < cw
  · rw [if_pos hlt] at e
    obtain ⟨ws', e3, e⟩ := bind_eq_ok.1 e
    cases e
    have hadj := updateNode_lt hb e3
    rw [getCurrentWeight_ok hb hadj] at e2
    cases e2
    obtain ⟨ws'', e4, b', hh, _, _, hcnt, hl⟩ := updateNode_ok hb hadj (curr.weight + a.weight)
    rw [e4] at e3
    cases e3
    have hL : ∀ y, ({ ws' with heap := (logged pq).push ⟨curr.weight + a.weight, a.adj⟩ ws'.heap } : WitnessSearch (logged pq)).look y
        = if y = a.adj then some ⟨false, curr.weight + a.weight⟩ else ws.look y := hl
    have hp : ({ ws' with heap := (logged pq).push ⟨curr.weight + a.weight, a.adj⟩ ws'.heap } : WitnessSearch (logged pq)).heap
        = (pq.push ⟨curr.weight + a.weight, a.adj⟩ ws.heap.1, ⟨curr.weight + a.weight, a.adj⟩ :: ws.heap.2.1, ws.heap.2.2) := by
      rw [hh]; rfl
    have hwt : ∀ d, ws.look a.adj = some d → curr.weight + a.weight < d.weight := by
      intro d hd
      have : ws.wt P a.adj = d.weight := by unfold wt; rw [hd]
      omega
    show RWLog curr q ({ ws' with heap := (logged pq).push ⟨curr.weight + a.weight, a.adj⟩ ws'.heap } : WitnessSearch (logged pq)) (k + 1)
    generalize ({ ws' with heap := (logged pq).push ⟨curr.weight + a.weight, a.adj⟩ ws'.heap } : WitnessSearch (logged pq)) = w3 at hL hp
    refine ⟨?_, ?_, ?_⟩
    · rw [hp]
      refine ⟨?_, h.r.pops, fun h' => perm_push (h.r.all h'), ?_⟩
      · have := h.r.count
        simp only [List.length_cons]
        omega
      · intro it hit
        rcases PQ.mem_push.1 hit with rfl | hit
        · right; simp only; omega
        · exact h.r.new it hit
    · rw [hp]
      intro b hb'
      rcases List.mem_cons.1 hb' with rfl | hb'
      · exact ⟨_, by rw [hL, if_pos rfl], Nat.le_refl _⟩
      · obtain ⟨d, k1, k2⟩ := h.lab b hb'
        rw [hL]
        by_cases hba : b.nodeId = a.adj
        · rw [if_pos hba]
          rw [hba] at k1
          have := hwt d k1
          exact ⟨_, rfl, by simp only; omega⟩
        · rw [if_neg hba]; exact ⟨d, k1, k2⟩
    · rw [hp]
      refine List.pairwise_cons.2 ⟨?_, h.decr⟩
      intro b hb' hba
      obtain ⟨d, k1, k2⟩ := h.lab b hb'
      simp only at hba ⊢
      rw [← hba] at k1
      have := hwt d k1
      omega
  · rw [if_neg hlt] at e
    cases e
    exact hskip

theorem sum_insert {p q : Nat → Bool} {c : Nat} {deg : Nat → Nat} (hc : p c = false) (hq : ∀ x, q x = (p x || x == c)) :
    ∀ l : List Nat, l.Nodup → c ∈ l → ((l.filter q).map deg).sum = ((l.filter p).map deg).sum + deg c := by
  intro l
  induction l with
  | nil => intro _ h; cases h
  | cons a l ih =>
    intro hn hm
    obtain ⟨h1, h2⟩ := List.nodup_cons.1 hn
    by_cases hac : a = c
    · subst hac
      have hfl : l.filter q = l.filter p := by
        refine List.filter_congr ?_
        intro x hx
        have hne : x ≠ a := fun h => h1 (h ▸ hx)
        rw [hq x, show (x == a) = false by simpa using hne, Bool.or_false]
      rw [List.filter_cons_of_pos (by rw [hq a]; simp), List.filter_cons_of_neg (by simp [hc]), hfl, List.map_cons, List.sum_cons]
      omega
    · have hml : c ∈ l := by
        rcases List.mem_cons.1 hm with h | h
        · exact absurd h.symm hac
        · exact h
      have hqa : q a = p a := by rw [hq a, show (a == c) = false by simpa using hac, Bool.or_false]
      have := ih h2 hml
      cases hpa : p a with
      | true =>
        rw [List.filter_cons_of_pos (by rw [hqa]; exact hpa), List.filter_cons_of_pos hpa]
        simp only [List.map_cons, List.sum_cons]
        omega
      | false =>
        rw [List.filter_cons_of_neg (by rw [hqa, hpa]; simp), List.filter_cons_of_neg (by rw [hpa]; simp)]
        exact this

theorem findLoop_log (hP : P.checked = true) {g : PreparationGraph} {deg : Nat → Nat}
    (hdeg : ∀ (x : Nat) l, g.outEdges[x]? = some l → l.length ≤ deg x) {target wl sl : Nat} :
    ∀ fuel {ws ws' : WitnessSearch (logged pq)}, SLog n deg ws → findLoop P g target wl sl fuel ws = .ok ws' → SLog n deg ws' := by
  intro fuel
  induction fuel with
  | zero => intro ws ws' _ e; cases e
  | succ fuel ih =>
    intro ws ws' h e
    have e0 := e
    unfold findLoop at e
    cases hp : (logged pq).pop ws.heap with
    | none =>
      rw [hp] at e
      cases e
      exact h
    | some r =>
      obtain ⟨curr, heap'⟩ := r
      rw [hp] at e
      simp only at e
      by_cases h1 : ws.settledNodes ≥ sl
      · rw [if_pos h1] at e
        cases e
        exact h
      rw [if_neg h1] at e
      by_cases h2 : curr.weight > wl
      · rw [if_pos h2] at e
        cases e
        exact h
      rw [if_neg h2] at e
      have hcurr : curr ∈ (logged pq).items ws.heap := (PQ.pop_mem hp).2 (Or.inl rfl)
      obtain ⟨dc, hc1, hc2⟩ := h.items curr hcurr
      have hcn : curr.nodeId < n := h.tab.look_lt hc1
      have hbase : Base n ({ ws with heap := heap' } : WitnessSearch (logged pq)) := ⟨h.num, h.tab⟩
      have hsb : ∀ x, settledB ({ ws with heap := heap' } : WitnessSearch (logged pq)) x = ws.settledB x := fun _ => rfl
      have hsub : ∀ it ∈ (logged pq).items heap', it ∈ (logged pq).items ws.heap := fun it hit => (PQ.pop_mem hp).2 (Or.inr hit)
      obtain ⟨q, hq1, hq2⟩ := logged_pop hp
      have hmem : curr ∈ pq.items ws.heap.1 := (PQ.pop_mem hq1).2 (Or.inl rfl)
      have h' : SLog n deg ({ ws with heap := heap' } : WitnessSearch (logged pq)) := by
        refine ⟨⟨hbase, fun it hit => h.items it (hsub it hit), fun x d hx hd it hit => h.settled x d hx hd it (hsub it hit), h.cnt⟩,
          ?_, ?_, ?_, ?_, ?_, ?_⟩
        · rw [hq2]; exact h.count
        · rw [hq2]
          refine h.all.trans ?_
          refine ((pq.pop_some _ _ _ hq1).1.append_left _).trans ?_
          exact List.perm_middle
        · rw [hq2]
          exact List.pairwise_cons.2 ⟨fun b hb => h.front b hb curr hmem, h.sorted⟩
        · rw [hq2]
          intro a ha it hit
          have hit' : it ∈ pq.items ws.heap.1 := (PQ.pop_mem hq1).2 (Or.inr hit)
          rcases List.mem_cons.1 ha with rfl | ha
          · exact PQ.pop_min hq1 hit'
          · exact h.front a ha it hit'
        · rw [hq2]; exact h.lab
        · rw [hq2]; exact h.decr
      have hpw : ∀ a ∈ heap'.2.2, a.weight ≤ curr.weight := by
        rw [hq2]
        intro a ha
        rcases List.mem_cons.1 ha with rfl | ha
        · exact Nat.le_refl _
        · exact h.front a ha curr hmem
      rw [isSettled_ok hbase hcn, hsb] at e
      simp only [bind_okM] at e
      by_cases hset : ws.settledB curr.nodeId = true
      · rw [if_pos hset] at e
        exact ih h' e
      · rw [if_neg hset] at e
        obtain ⟨outs, eo, e⟩ := bind_eq_ok.1 e
        obtain ⟨⟨ws1, found⟩, er, e⟩ := bind_eq_ok.1 e
        have hset' : dc.settled = false := by
          unfold settledB at hset
          rw [hc1] at hset
          simpa using hset
        have h0 : RSInv n curr ws ({ ws with heap := heap' } : WitnessSearch (logged pq)) := by
          refine ⟨hbase, ?_, ?_, ?_, fun _ => rfl, rfl⟩
          · intro it hit
            exact ⟨PQ.pop_min hp (hsub it hit), h.items it (hsub it hit)⟩
          · intro x d hx hd
            exact h.settled x d hx hd curr hcurr
          · exact ⟨dc, hc1, hc2, hset'⟩
        have hr0 : RWLog curr heap' ({ ws with heap := heap' } : WitnessSearch (logged pq)) 0 :=
          ⟨⟨by simp only; omega, rfl, id, fun it hit => Or.inl hit⟩, h'.lab, h'.decr⟩
        obtain ⟨hr, hl⟩ : RSInv n curr ws ws1 ∧ RWLog curr heap' ws1 outs.length :=
          forM_inv (f := relaxArc P curr target wl)
            (I := fun pre (st : WitnessSearch (logged pq) × Bool) => RSInv n curr ws st.1 ∧ RWLog curr heap' st.1 pre.length)
            (by
              rintro pre a ⟨s1, f1⟩ s2 ⟨hI, hJ⟩ he
              refine ⟨relaxArc_count hP hI he, ?_⟩
              rw [List.length_append]
              exact relaxArc_log hP hI.toBase hJ he) outs [] _ (ws1, found) ⟨h0, hr0⟩ er
        have hdo : outs.length ≤ deg curr.nodeId := hdeg _ _ (idx_eq_ok.1 eo)
        obtain ⟨d1, hd1, hd2, hd3⟩ := hr.cur
        obtain ⟨em, tabm, lm⟩ := hr.tab.modify hd1 (fun d => { d with settled := true })
        simp only at e
        rw [em] at e
        simp only [bind_okM] at e
        generalize hws2 : ({ ws1 with data := ws1.data.set curr.nodeId { d1 with settled := true },
                                      settledNodes := ws1.settledNodes + 1 } : WitnessSearch (logged pq)) = ws2 at e
        have hL : ∀ y, ws2.look y = if y = curr.nodeId then some { d1 with settled := true } else ws1.look y := by
          subst hws2; exact lm
        have hheap : ws2.heap = ws1.heap := by subst hws2; rfl
        have hnum : ws2.settledNodes = ws.settledNodes + 1 := by subst hws2; exact congrArg (· + 1) hr.num'
        have hq : ∀ x, ws2.settledB x = (ws.settledB x || x == curr.nodeId) := by
          intro x
          rw [← hr.same x]
          unfold settledB
          rw [hL]
          by_cases hx : x = curr.nodeId
          · simp [hx]
          · have : (x == curr.nodeId) = false := by simpa using hx
            rw [if_neg hx, this, Bool.or_false]
        have hI : WitnessSearch.SInv n ws2 := by
          refine ⟨⟨by subst hws2; exact hr.num, by subst hws2; exact tabm⟩, ?_, ?_, ?_⟩
          · intro it hit
            rw [hheap] at hit
            obtain ⟨_, d, hx1, hx2⟩ := hr.items it hit
            rw [hL]
            split
            · rename_i hxc
              rw [hxc, hd1] at hx1
              cases hx1
              exact ⟨_, rfl, hx2⟩
            · exact ⟨d, hx1, hx2⟩
          · intro x d hx hd it hit
            rw [hheap] at hit
            have hge := (hr.items it hit).1
            rw [hL] at hx
            split at hx
            · cases hx; simp only; omega
            · have := hr.settled x d hx hd
              omega
          · rw [hnum, ← h.cnt]
            unfold cntB
            rw [countP_insert (by simpa using hset) hq _ List.nodup_range, if_pos (by simpa using hcn)]
        have hS : SLog n deg ws2 := by
          refine ⟨hI, ?_, ?_, ?_, ?_, ?_, ?_⟩
          · rw [hheap, sum_insert (deg := deg) (by simpa using hset) hq _ List.nodup_range (by simpa using hcn)]
            have k1 := hl.r.count
            have k2 := h'.count
            simp only at k2
            have k3 : (List.range n).filter (settledB ({ ws with heap := heap' } : WitnessSearch (logged pq))) =
              (List.range n).filter ws.settledB := rfl
            rw [k3] at k2
            omega
          · rw [hheap]; exact hl.r.all h'.all
          · rw [hheap, hl.r.pops]; exact h'.sorted
          · rw [hheap]
            intro a ha it hit
            rw [hl.r.pops] at ha
            rcases hl.r.new it hit with h3 | h3
            · exact h'.front a ha it h3
            · exact Nat.le_trans (hpw a ha) h3
          · rw [hheap]
            intro a ha
            obtain ⟨d, k1, k2⟩ := hl.lab a ha
            rw [hL]
            by_cases hac : a.nodeId = curr.nodeId
            · rw [if_pos hac]
              rw [hac, hd1] at k1
              cases k1
              exact ⟨_, rfl, k2⟩
            · rw [if_neg hac]; exact ⟨d, k1, k2⟩
          · rw [hheap]; exact hl.decr
        by_cases hf : (found || curr.nodeId == target) = true
        · rw [if_pos hf] at e
          cases e
          exact hS
        · rw [if_neg hf] at e
          exact ih hS e

theorem findMaxWeight_log (hP : P.checked = true) {g : PreparationGraph} {deg : Nat → Nat}
    (hdeg : ∀ (x : Nat) l, g.outEdges[x]? = some l → l.length ≤ deg x) {target wl sl : Nat} {ws : WitnessSearch (logged pq)}
    {r : WitnessSearch (logged pq) × Nat} (h : SLog n deg ws) (e : ws.findMaxWeight P g target wl sl = .ok r) : SLog n deg r.1 := by
  unfold findMaxWeight at e
  obtain ⟨_, _, e⟩ := bind_eq_ok.1 e
  obtain ⟨_, _, e⟩ := bind_eq_ok.1 e
  obtain ⟨_, _, e⟩ := bind_eq_ok.1 e
  by_cases ht : (target == ws.startNode) = true
  · rw [if_pos ht] at e
    cases e
    exact h
  rw [if_neg ht] at e
  obtain ⟨valid, _, e⟩ := bind_eq_ok.1 e
  obtain ⟨early, _, e⟩ := bind_eq_ok.1 e
  cases early with
  | some w => cases e; exact h
  | none =>
    obtain ⟨ws', e1, e⟩ := bind_eq_ok.1 e
    obtain ⟨w, _, e⟩ := bind_eq_ok.1 e
    cases e
    exact findLoop_log hP hdeg _ h e1

theorem init_log {deg : Nat → Nat} {s v : Nat} {ws ws' : WitnessSearch (logged pq)} (h : Base n ws) (e : ws.init P s v = .ok ws') :
    SLog n deg ws' := by
  have hS := (init_count h e).1
  have hh : ws'.heap = (pq.push ⟨0, s⟩ pq.empty, [⟨0, s⟩], []) := by
    unfold WitnessSearch.init at e
    obtain ⟨_, _, e⟩ := bind_eq_ok.1 e
    obtain ⟨_, _, e⟩ := bind_eq_ok.1 e
    obtain ⟨w2, e1, e⟩ := bind_eq_ok.1 e
    cases e
    unfold WitnessSearch.updateNode at e1
    obtain ⟨_, _, e1⟩ := bind_eq_ok.1 e1
    obtain ⟨_, _, e1⟩ := bind_eq_ok.1 e1
    cases e1
    rfl
  refine ⟨hS, ?_, ?_, ?_, ?_, ?_, ?_⟩
  · rw [hh]; simp
  · rw [hh]
    simp only [List.nil_append]
    have := pq.items_push ⟨0, s⟩ pq.empty
    rw [pq.items_empty] at this
    exact this.symm
  · rw [hh]; exact List.Pairwise.nil
  · rw [hh]; intro a ha; cases ha
  · intro a ha
    refine hS.items a ?_
    rw [hh] at ha ⊢
    rw [List.mem_singleton.1 ha]
    exact PQ.mem_push.2 (Or.inl rfl)
  · rw [hh]; exact List.pairwise_singleton _ _

theorem runFinds_log (hP : P.checked = true) {deg : Nat → Nat} {calls : List WitnessCall}
    (hc : ∀ c ∈ calls, ∃ g t wl sl, c = .find g t wl sl ∧ ∀ (x : Nat) l, g.outEdges[x]? = some l → l.length ≤ deg x) :
    ∀ {ws ws' : WitnessSearch (logged pq)}, SLog n deg ws → runWitness P ws calls = .ok ws' → SLog n deg ws' := by
  induction calls with
  | nil =>
    intro ws ws' h e
    cases e
    exact h
  | cons c cs ih =>
    intro ws ws' h e
    unfold runWitness at e
    rw [forM_cons] at e
    obtain ⟨ws1, e1, e2⟩ := bind_eq_ok.1 e
    obtain ⟨g, t, wl, sl, rfl, hd⟩ := hc c (by simp)
    obtain ⟨r, e3, e4⟩ := bind_eq_ok.1 e1
    cases e4
    exact ih (fun c hcc => hc c (by simp [hcc])) (findMaxWeight_log hP hd h e3) e2

end FP
