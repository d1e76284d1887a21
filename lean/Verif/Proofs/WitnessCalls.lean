import Verif.Proofs.WitnessComplete
import Verif.Proofs.Reorder
import Verif.Proofs.Api
import Verif.Model.WitnessHistory
import Verif.SpecPrep
/-! # Sequences of witness searches -/
namespace FP
open Spec WitnessSearch

variable {pq : PQ} {P : Plat} {n : Nat}

theorem prepEdges_iff {g : PreparationGraph} {u v w : Nat} : prepEdges g u v w ↔ g.rel u v w := by
  unfold prepEdges PreparationGraph.rel PreparationGraph.outs
  constructor
  · rintro ⟨l, c, h1, h2⟩
    exact ⟨c, by rw [h1]; exact h2⟩
  · rintro ⟨c, h⟩
    cases hl : g.outEdges[u]? with
    | none => rw [hl] at h; cases h
    | some l => rw [hl] at h; exact ⟨l, c, rfl, h⟩

theorem avoiding_iff {g : PreparationGraph} {x u v w : Nat} : avoiding (prepEdges g) x u v w ↔ g.relNo x u v w := by
  unfold avoiding PreparationGraph.relNo
  rw [prepEdges_iff]

theorem avoiding_eq {g : PreparationGraph} {x : Nat} : avoiding (prepEdges g) x = g.relNo x := by
  funext u v w
  exact propext avoiding_iff

theorem mem_outs_iff {g : PreparationGraph} {u : Nat} {a : Arc} : a ∈ g.outs u ↔ ∃ l, g.outEdges[u]? = some l ∧ a ∈ l := by
  unfold PreparationGraph.outs
  cases hl : g.outEdges[u]? with
  | none => simp
  | some l => simp

theorem mem_ins_iff {g : PreparationGraph} {u : Nat} {a : Arc} : a ∈ g.ins u ↔ ∃ l, g.inEdges[u]? = some l ∧ a ∈ l := by
  unfold PreparationGraph.ins
  cases hl : g.inEdges[u]? with
  | none => simp
  | some l => simp

theorem prepOk_iff {g : PreparationGraph} : PrepOk n g ↔ PreparationGraph.WF n g := by
  constructor
  · intro h
    refine ⟨h.num, h.outLen, h.inLen, ?_, ?_, ?_, ?_⟩
    · intro u v w c
      rw [mem_outs_iff, mem_ins_iff]
      exact h.mirror u v w c
    · intro u
      unfold PreparationGraph.outs
      cases hl : g.outEdges[u]? with
      | none => simp
      | some l => exact (h.out u l hl).1
    · intro u
      unfold PreparationGraph.ins
      cases hl : g.inEdges[u]? with
      | none => simp
      | some l => exact h.inn u l hl
    · intro u a ha e
      obtain ⟨l, hl, hm⟩ := mem_outs_iff.1 ha
      exact (h.out u l hl).2 (List.mem_map.2 ⟨a, hm, e⟩)
  · intro h
    refine ⟨h.num, h.lenOut, h.lenIn, ?_, ?_, ?_⟩
    · intro u v w c
      rw [← mem_outs_iff, ← mem_ins_iff]
      exact h.mirror u v w c
    · intro u l hl
      have : g.outs u = l := by unfold PreparationGraph.outs; rw [hl]; rfl
      rw [← this]
      refine ⟨h.nodupOut u, ?_⟩
      intro hm
      obtain ⟨a, ha, e⟩ := List.mem_map.1 hm
      exact h.noLoop u a ha e
    · intro u l hl
      have : g.ins u = l := by unfold PreparationGraph.ins; rw [hl]; rfl
      rw [← this]
      exact h.nodupIn u

theorem WRel.new (P : Plat) (pq : PQ) (n : Nat) : WRel n (WitnessSearch.new P pq n) (WitnessSearch.new P pq n) :=
  ⟨Base.new P pq n, Base.new P pq n, fun _ => rfl, rfl, rfl, rfl, rfl, fun it hit => by
    have : pq.items (WitnessSearch.new P pq n).heap = [] := pq.items_empty
    rw [this] at hit; cases hit⟩

/-- Any sequence of calls leaves a usable object. -/
theorem runWitness_self {calls : List WitnessCall} : ∀ {ws ws' : WitnessSearch pq}, WRel n ws ws →
    runWitness P ws calls = .ok ws' → WRel n ws' ws' := by
  induction calls with
  | nil => intro ws ws' h e; injection e with e; subst e; exact h
  | cons c cs ih =>
    intro ws ws' h e
    unfold runWitness at e
    rw [forM_cons] at e
    obtain ⟨ws1, e1, e2⟩ := bind_eq_ok.1 e
    refine ih ?_ e2
    cases c with
    | init s v => exact RelM.self (init_rel h.b₁ h.b₁ s v) e1
    | find g t wl sl =>
      obtain ⟨r, e3, e4⟩ := bind_eq_ok.1 e1
      injection e4 with e4
      subst e4
      exact (RelM.self (findMaxWeight_rel h g t wl sl) e3).1

/-- Hypotheses hidden in a returning `init`. -/
theorem init_args {ws ws' : WitnessSearch pq} {s v : Nat} (hb : ws.Base n) (e : ws.init P s v = .ok ws') :
    s < n ∧ s ≠ P.umax ∧ s ≠ v := by
  unfold WitnessSearch.init at e
  obtain ⟨_, e1, e⟩ := bind_eq_ok.1 e
  obtain ⟨_, e2, e⟩ := bind_eq_ok.1 e
  obtain ⟨ws1, e3, e⟩ := bind_eq_ok.1 e
  refine ⟨?_, by simpa [Plat.INVALID_NODE] using assertM_eq_ok.1 e1, by simpa using assertM_eq_ok.1 e2⟩
  by_contra hlt
  unfold WitnessSearch.updateNode at e3
  obtain ⟨ok, _⟩ := hb.tab.invalidate
  have := ok.setValid_ge hlt
  rw [show ValidFlags.setValid _ s = _ from this] at e3
  cases e3

/-- Hypotheses hidden in a returning `find_max_weight`. -/
theorem find_args {g : PreparationGraph} {ws : WitnessSearch pq} {s v t wl sl : Nat} {r : WitnessSearch pq × Nat}
    (h : Inv n g s v ws) (hs : s < n) (e : ws.findMaxWeight P g t wl sl = .ok r) : t < n ∧ t ≠ v := by
  unfold WitnessSearch.findMaxWeight at e
  obtain ⟨_, e1, e⟩ := bind_eq_ok.1 e
  obtain ⟨_, e2, e⟩ := bind_eq_ok.1 e
  obtain ⟨_, e3, e⟩ := bind_eq_ok.1 e
  have h3 := assertM_eq_ok.1 e3
  rw [h.avoid] at h3
  simp only [Bool.and_eq_true, bne_iff_ne] at h3
  refine ⟨?_, h3.2⟩
  by_cases hts : t = ws.startNode
  · rw [hts, h.start]; exact hs
  · rw [if_neg (by simpa using hts)] at e
    obtain ⟨b, e4, _⟩ := bind_eq_ok.1 e
    by_contra hlt
    have hlen : ws.validFlags.validFlags.length = n := h.tab.flags.len
    unfold ValidFlags.isValid idx at e4
    rw [List.getElem?_eq_none (by omega)] at e4
    cases e4

/-- A sequence of searches after one `init`, on graphs that only improve. -/
theorem runFinds_ok (hP : P.checked = true) {E : EdgeRel} {g0 : PreparationGraph} {s v : Nat} (hs : s < n)
    (hsP : s ≠ P.umax) : ∀ {calls : List (PreparationGraph × Nat × Nat × Nat)} {gp : PreparationGraph} {ws ws' : WitnessSearch pq},
    Inv n gp s v ws → CInv P E g0 s v ws →
    (∀ c ∈ calls, PrepOk n c.1 ∧ Improves v g0 c.1 ∧ ∀ a b w, c.1.relNo v a b w → E a b w) →
    (gp :: calls.map (·.1)).Pairwise (Improves v) →
    runWitness P ws (calls.map (fun c => .find c.1 c.2.1 c.2.2.1 c.2.2.2)) = .ok ws' →
    ∃ gl, gl ∈ gp :: calls.map (·.1) ∧ Inv n gl s v ws' ∧ CInv P E g0 s v ws'
  | [], gp, ws, ws', h, hc, _, _, e => by
    injection e with e; subst e
    exact ⟨gp, by simp, h, hc⟩
  | (g, t, wl, sl) :: calls, gp, ws, ws', h, hc, hall, hpw, e => by
    unfold runWitness at e
    rw [List.map_cons, forM_cons] at e
    obtain ⟨ws1, e1, e2⟩ := bind_eq_ok.1 e
    obtain ⟨r, e3, e4⟩ := bind_eq_ok.1 e1
    injection e4 with e4
    subst e4
    obtain ⟨k1, k2, k3⟩ := hall _ List.mem_cons_self
    rw [List.map_cons] at hpw
    have himp : Improves v gp g := (List.pairwise_cons.1 hpw).1 g (by simp)
    have h' : Inv n g s v ws := h.mono (fun a b w hab => by
      obtain ⟨w', k, k'⟩ := himp a b w (avoiding_iff.2 hab)
      exact ⟨w', k, avoiding_iff.1 k'⟩)
    obtain ⟨ht, htv⟩ := find_args h' hs e3
    have hr := (findMaxWeight_complete hP (prepOk_iff.1 k1) (fun a b w hab => by
      obtain ⟨w', k, k'⟩ := k2 a b w (avoiding_iff.2 hab)
      exact ⟨w', k, avoiding_iff.1 k'⟩) k3 h' hc (wl := wl) (sl := sl) hsP ht htv).of_ok e3
    obtain ⟨gl, m1, m2, m3⟩ := runFinds_ok hP hs hsP hr.1 hr.2.1 (fun c hc => hall c (List.mem_cons_of_mem _ hc))
      (List.pairwise_cons.1 hpw).2 e2
    exact ⟨gl, List.mem_cons_of_mem _ (by rw [List.map_cons]; exact m1), m2, m3⟩

end FP
