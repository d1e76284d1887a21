import Verif.Model.Bincode
import Verif.Spec32
import Verif.Proofs.Logic
/-! # Binary format: reading is the inverse of writing -/
namespace FP

variable {α β γ : Type}

/-- `dec` reads exactly what `enc` writes, for the values satisfying `S`. -/
structure Codec (S : α → Prop) (enc : α → List UInt8) (dec : Rd α) : Prop where
  rt : ∀ a, S a → ∀ rest, dec.run (enc a ++ rest) = .ok (a, rest)
  canon : ∀ bs a rest, dec.run bs = .ok (a, rest) → bs = enc a ++ rest ∧ S a

theorem rd_bind {d : Rd α} {f : α → Rd β} {bs : List UInt8} {b : β} {rest : List UInt8} :
    (d >>= f).run bs = .ok (b, rest) ↔ ∃ a r, d.run bs = .ok (a, r) ∧ (f a).run r = .ok (b, rest) := by
  rw [StateT.run_bind]
  cases h : d.run bs with
  | error e => constructor
               · intro h; cases h
               · rintro ⟨a, r, h, _⟩; cases h
  | ok p =>
    obtain ⟨a, r⟩ := p
    constructor
    · intro h; exact ⟨a, r, rfl, h⟩
    · rintro ⟨a', r', h, h2⟩
      cases h
      exact h2

theorem rd_bind_ok {d : Rd α} {f : α → Rd β} {bs : List UInt8} {a : α} {r : List UInt8} (h : d.run bs = .ok (a, r)) :
    (d >>= f).run bs = (f a).run r := by
  rw [StateT.run_bind, h]; rfl

theorem Codec.seq {S : α → Prop} {T : β → Prop} {e₁ : α → List UInt8} {e₂ : β → List UInt8} {d₁ : Rd α} {d₂ : Rd β}
    (h₁ : Codec S e₁ d₁) (h₂ : Codec T e₂ d₂) :
    Codec (fun p : α × β => S p.1 ∧ T p.2) (fun p => e₁ p.1 ++ e₂ p.2) (do let a ← d₁; let b ← d₂; pure (a, b)) := by
  constructor
  · rintro ⟨a, b⟩ ⟨ha, hb⟩ rest
    simp only [List.append_assoc]
    rw [rd_bind_ok (h₁.rt a ha _), rd_bind_ok (h₂.rt b hb _)]
    rfl
  · intro bs p rest h
    obtain ⟨a, r, h1, h⟩ := rd_bind.1 h
    obtain ⟨b, r', h2, h⟩ := rd_bind.1 h
    rw [StateT.run_pure] at h
    cases h
    obtain ⟨rfl, sa⟩ := h₁.canon _ _ _ h1
    obtain ⟨rfl, sb⟩ := h₂.canon _ _ _ h2
    exact ⟨by simp, sa, sb⟩

theorem Codec.map {S : α → Prop} {e : α → List UInt8} {d : Rd α} (h : Codec S e d) {f : α → β} {g : β → α}
    (hfg : ∀ b, f (g b) = b) (hgf : ∀ a, g (f a) = a) {S' : β → Prop} (hS : ∀ b, S' b ↔ S (g b)) {e' : β → List UInt8}
    (he : ∀ b, e' b = e (g b)) {d' : Rd β} (hd : d' = d >>= fun a => pure (f a)) : Codec S' e' d' := by
  subst hd
  constructor
  · intro b hb rest
    rw [he, rd_bind_ok (h.rt _ ((hS b).1 hb) _), hfg]
    rfl
  · intro bs b rest hr
    obtain ⟨a, r, h1, h2⟩ := rd_bind.1 hr
    rw [StateT.run_pure] at h2
    cases h2
    obtain ⟨rfl, sa⟩ := h.canon _ _ _ h1
    exact ⟨by rw [he, hgf], by rw [hS, hgf]; exact sa⟩

theorem readLe_succ (k : Nat) (b : UInt8) (bs : List UInt8) :
    (readLe (k + 1)).run (b :: bs) = ((readLe k).run bs).map (fun p => (b.toNat + 256 * p.1, p.2)) := by
  have h0 : (readLe (k + 1)).run (b :: bs) = (readLe k >>= fun n => (pure (b.toNat + 256 * n) : Rd Nat)).run bs := rfl
  rw [h0]
  cases h : (readLe k).run bs with
  | error e => rw [StateT.run_bind, h]; rfl
  | ok p => rw [rd_bind_ok h]; rfl

theorem readLe_nil (k : Nat) : (readLe (k + 1)).run [] = .error .eof := rfl

theorem codecLe (k : Nat) : Codec (fun n => n < 256 ^ k) (leBytes k) (readLe k) := by
  induction k with
  | zero =>
    constructor
    · intro a ha rest
      have : a = 0 := by simpa using ha
      subst this
      rfl
    · intro bs a rest h
      unfold readLe at h
      rw [StateT.run_pure] at h
      cases h
      exact ⟨rfl, by simp⟩
  | succ k ih =>
    constructor
    · intro a ha rest
      unfold leBytes
      rw [List.cons_append, readLe_succ, ih.rt (a / 256) (by rw [Nat.pow_succ] at ha; omega)]
      have : (UInt8.ofNat (a % 256)).toNat = a % 256 := by simp
      simp only [Except.map, this]
      rw [Nat.mod_add_div]
    · intro bs a rest h
      cases bs with
      | nil => rw [readLe_nil] at h; cases h
      | cons b bs =>
        rw [readLe_succ] at h
        cases h1 : (readLe k).run bs with
        | error e => rw [h1] at h; cases h
        | ok p =>
          obtain ⟨n, r⟩ := p
          rw [h1] at h
          cases h
          obtain ⟨rfl, hn⟩ := ih.canon _ _ _ h1
          have hb : b.toNat < 256 := b.toNat_lt
          have e1 : (b.toNat + 256 * n) % 256 = b.toNat := by omega
          have e2 : (b.toNat + 256 * n) / 256 = n := by omega
          refine ⟨?_, ?_⟩
          · simp only [leBytes, e1, e2]
            simp
          · rw [Nat.pow_succ]; omega

theorem codecU32 : Codec (fun n => n ≤ U32_MAX) encU32 decU32 := by
  have h := codecLe 4
  exact ⟨fun a ha rest => h.rt a (by unfold U32_MAX at ha; omega) rest, fun bs a rest e => by
    obtain ⟨h1, h2⟩ := h.canon bs a rest e
    exact ⟨h1, by unfold U32_MAX; omega⟩⟩

theorem codecUsize {P : Plat} (hP : P.umax < 2 ^ 64) : Codec (fun n => n ≤ P.umax) encUsize (decUsize P) := by
  have h := codecLe 8
  constructor
  · intro a ha rest
    unfold decUsize encUsize
    rw [rd_bind_ok (h.rt a (by omega) rest), if_pos ha]
    rfl
  · intro bs a rest e
    unfold decUsize at e
    obtain ⟨n, r, h1, h2⟩ := rd_bind.1 e
    by_cases hn : n ≤ P.umax
    · rw [if_pos hn, StateT.run_pure] at h2
      cases h2
      exact ⟨(h.canon _ _ _ h1).1, hn⟩
    · rw [if_neg hn] at h2
      cases h2

theorem codecList {S : α → Prop} {enc : α → List UInt8} {dec : Rd α} (h : Codec S enc dec) :
    ∀ k, Codec (fun l : List α => l.length = k ∧ ∀ a ∈ l, S a) (fun l => l.flatMap enc) (decList dec k) := by
  intro k
  induction k with
  | zero =>
    constructor
    · rintro l ⟨hl, _⟩ rest
      have : l = [] := List.length_eq_zero_iff.1 hl
      subst this
      rfl
    · intro bs l rest e
      unfold decList at e
      rw [StateT.run_pure] at e
      cases e
      exact ⟨rfl, rfl, by simp⟩
  | succ k ih =>
    constructor
    · rintro l ⟨hl, hS⟩ rest
      cases l with
      | nil => simp at hl
      | cons a l =>
        unfold decList
        simp only [List.flatMap_cons, List.append_assoc]
        rw [rd_bind_ok (h.rt a (hS a (by simp)) _),
          rd_bind_ok (ih.rt l ⟨by simpa using hl, fun x hx => hS x (by simp [hx])⟩ _)]
        rfl
    · intro bs l rest e
      unfold decList at e
      obtain ⟨a, r, h1, e⟩ := rd_bind.1 e
      obtain ⟨as, r', h2, e⟩ := rd_bind.1 e
      rw [StateT.run_pure] at e
      cases e
      obtain ⟨rfl, sa⟩ := h.canon _ _ _ h1
      obtain ⟨rfl, hl, hs⟩ := ih.canon _ _ _ h2
      refine ⟨by simp, by simp [hl], ?_⟩
      intro x hx
      rcases List.mem_cons.1 hx with rfl | hx
      · exact sa
      · exact hs x hx

theorem codecVec {P : Plat} (hP : P.umax < 2 ^ 64) {S : α → Prop} {enc : α → List UInt8} {dec : Rd α} (h : Codec S enc dec) :
    Codec (fun l : List α => l.length ≤ P.umax ∧ ∀ a ∈ l, S a) (encVec enc) (decVec P dec) := by
  constructor
  · rintro l ⟨hl, hS⟩ rest
    unfold decVec encVec
    have h1 := (codecUsize hP).rt l.length hl (l.flatMap enc ++ rest)
    rw [List.append_assoc, rd_bind_ok h1]
    exact (codecList h l.length).rt l ⟨rfl, hS⟩ rest
  · intro bs l rest e
    unfold decVec at e
    obtain ⟨k, r, h1, e⟩ := rd_bind.1 e
    obtain ⟨e1, sk⟩ := (codecUsize hP).canon bs k r h1
    obtain ⟨e2, hl, hs⟩ := (codecList h k).canon r l rest e
    rw [e2] at e1
    rw [← hl] at e1 sk
    refine ⟨?_, sk, hs⟩
    rw [e1]
    exact (List.append_assoc _ _ _).symm

/-- What every number of an edge satisfies. -/
theorem codecEdge {P : Plat} (hP : P.umax < 2 ^ 64) :
    Codec (fun e : FastGraphEdge => ∀ v ∈ e.values, v ≤ P.umax) encEdge (decEdge P) := by
  have u := codecUsize hP
  refine (u.seq (u.seq (u.seq (u.seq u)))).map (f := fun p => ⟨p.1, p.2.1, p.2.2.1, p.2.2.2.1, p.2.2.2.2⟩)
    (g := fun e => (e.baseNode, e.adjNode, e.weight, e.replacedInEdge, e.replacedOutEdge)) (fun _ => rfl) (fun _ => rfl) ?_ ?_ ?_
  · intro e
    simp [FastGraphEdge.values]
  · intro e
    simp [encEdge]
  · unfold decEdge
    simp

theorem codecEdge32 : Codec (fun e : FastGraphEdge32 => ∀ v ∈ e.vals, v ≤ U32_MAX) encEdge32 decEdge32 := by
  have u := codecU32
  refine (u.seq (u.seq (u.seq (u.seq u)))).map (f := fun p => ⟨p.1, p.2.1, p.2.2.1, p.2.2.2.1, p.2.2.2.2⟩)
    (g := fun e => (e.baseNode, e.adjNode, e.weight, e.replacedInEdge, e.replacedOutEdge)) (fun _ => rfl) (fun _ => rfl) ?_ ?_ ?_
  · intro e
    simp [FastGraphEdge32.vals]
  · intro e
    simp [encEdge32]
  · unfold decEdge32
    simp

theorem codecGraph {P : Plat} (hP : P.umax < 2 ^ 64) :
    Codec (fun g : FastGraph => LenFit P g ∧ ∀ v ∈ g.values, v ≤ P.umax) encGraph (decGraph P) := by
  have u := codecUsize hP
  have vu := codecVec hP u
  have ve := codecVec hP (codecEdge hP)
  refine (u.seq (vu.seq (ve.seq (vu.seq (ve.seq vu))))).map (f := fun p => ⟨p.1, p.2.1, p.2.2.1, p.2.2.2.1, p.2.2.2.2.1, p.2.2.2.2.2⟩)
    (g := fun e => (e.numNodes, e.ranks, e.edgesFwd, e.firstEdgeIdsFwd, e.edgesBwd, e.firstEdgeIdsBwd)) (fun _ => rfl)
    (fun _ => rfl) ?_ ?_ ?_
  · intro g
    unfold LenFit
    constructor
    · rintro ⟨⟨l1, l2, l3, l4, l5⟩, h⟩
      have h' : ∀ v, v = g.numNodes ∨ v ∈ g.ranks ∨ (∃ e ∈ g.edgesFwd, v ∈ e.values) ∨ v ∈ g.firstEdgeIdsFwd ∨
          (∃ e ∈ g.edgesBwd, v ∈ e.values) ∨ v ∈ g.firstEdgeIdsBwd → v ≤ P.umax := by
        intro v hv
        apply h
        simp only [FastGraph.values, List.mem_cons, List.mem_append, List.mem_flatMap]
        rcases hv with h | h | h | h | h | h
        · exact Or.inl h
        · exact Or.inr (Or.inl (Or.inl (Or.inl (Or.inl h))))
        · exact Or.inr (Or.inl (Or.inl (Or.inl (Or.inr h))))
        · exact Or.inr (Or.inl (Or.inl (Or.inr h)))
        · exact Or.inr (Or.inl (Or.inr h))
        · exact Or.inr (Or.inr h)
      exact ⟨h' _ (Or.inl rfl), ⟨l1, fun a ha => h' a (Or.inr (Or.inl ha))⟩, ⟨l2, fun e he v hv => h' v (Or.inr (Or.inr (Or.inl ⟨e, he, hv⟩)))⟩,
        ⟨l3, fun a ha => h' a (Or.inr (Or.inr (Or.inr (Or.inl ha))))⟩, ⟨l4, fun e he v hv => h' v (Or.inr (Or.inr (Or.inr (Or.inr (Or.inl ⟨e, he, hv⟩)))))⟩,
        ⟨l5, fun a ha => h' a (Or.inr (Or.inr (Or.inr (Or.inr (Or.inr ha)))))⟩⟩
    · rintro ⟨h0, ⟨l1, h1⟩, ⟨l2, h2⟩, ⟨l3, h3⟩, ⟨l4, h4⟩, ⟨l5, h5⟩⟩
      refine ⟨⟨l1, l2, l3, l4, l5⟩, ?_⟩
      intro v hv
      simp only [FastGraph.values, List.mem_cons, List.mem_append, List.mem_flatMap] at hv
      rcases hv with rfl | ((((hv | ⟨e, he, hv⟩) | hv) | ⟨e, he, hv⟩) | hv)
      · exact h0
      · exact h1 v hv
      · exact h2 e he v hv
      · exact h3 v hv
      · exact h4 e he v hv
      · exact h5 v hv
  · intro g
    simp [encGraph]
  · unfold decGraph
    simp

theorem codecGraph32 {P : Plat} (hP : P.umax < 2 ^ 64) : Codec (Fit32 P) encGraph32 (decGraph32 P) := by
  have u := codecU32
  have vu := codecVec hP u
  have ve := codecVec hP codecEdge32
  refine (u.seq (vu.seq (ve.seq (vu.seq (ve.seq vu))))).map (β := FastGraph32)
    (f := fun p => ⟨p.1, p.2.1, p.2.2.1, p.2.2.2.1, p.2.2.2.2.1, p.2.2.2.2.2⟩)
    (g := fun e => (e.numNodes, e.ranks, e.edgesFwd, e.firstEdgeIdsFwd, e.edgesBwd, e.firstEdgeIdsBwd)) (fun _ => rfl)
    (fun _ => rfl) (fun g => Iff.rfl) ?_ ?_
  · intro g
    simp [encGraph32]
  · unfold decGraph32
    simp

/-- A file that is cut off is not accepted. -/
theorem Codec.cut {S : α → Prop} {enc : α → List UInt8} {dec : Rd α} (h : Codec S enc dec) {a : α} (ha : S a)
    {pre post : List UInt8} (e : enc a = pre ++ post) (hp : post ≠ []) : ∃ err, dec.run pre = .error err := by
  cases hd : dec.run pre with
  | error err => exact ⟨err, rfl⟩
  | ok p =>
    obtain ⟨a', r⟩ := p
    obtain ⟨h1, h2⟩ := h.canon _ _ _ hd
    have h3 := h.rt a ha []
    rw [List.append_nil, e, h1, List.append_assoc, h.rt a' h2] at h3
    have : r ++ post = [] := congrArg Prod.snd (Except.ok.inj h3)
    exact absurd (List.append_eq_nil_iff.1 this).2 hp

theorem length_leBytes (k n : Nat) : (leBytes k n).length = k := by
  induction k generalizing n with
  | zero => rfl
  | succ k ih => simp [leBytes, ih]

/-! ### Input graphs -/

theorem codecBool : Codec (fun _ => True) encBool decBool := by
  have h := codecLe 1
  constructor
  · intro b _ rest
    cases b <;> rfl
  · intro bs b rest e
    unfold decBool at e
    obtain ⟨n, r, h1, h2⟩ := rd_bind.1 e
    obtain ⟨rfl, _⟩ := h.canon _ _ _ h1
    by_cases h0 : n = 0
    · rw [if_pos h0, StateT.run_pure] at h2
      cases h2; subst h0; exact ⟨rfl, trivial⟩
    · rw [if_neg h0] at h2
      by_cases hn : n = 1
      · rw [if_pos hn, StateT.run_pure] at h2
        cases h2; subst hn; exact ⟨rfl, trivial⟩
      · rw [if_neg hn] at h2; cases h2

theorem codecInputEdge {P : Plat} (hP : P.umax < 2 ^ 64) :
    Codec (fun e : Edge => e.src ≤ P.umax ∧ e.dst ≤ P.umax ∧ e.weight ≤ P.umax) encInputEdge (decInputEdge P) := by
  have u := codecUsize hP
  refine (u.seq (u.seq u)).map (f := fun p => (⟨p.1, p.2.1, p.2.2⟩ : Edge)) (g := fun e => (e.src, e.dst, e.weight)) (fun _ => rfl)
    (fun _ => rfl) (fun _ => Iff.rfl) ?_ ?_
  · intro e
    simp [encInputEdge]
  · unfold decInputEdge
    simp

theorem codecInput {P : Plat} (hP : P.umax < 2 ^ 64) :
    Codec (fun g : InputGraph => (g.edges.length ≤ P.umax ∧ ∀ e ∈ g.edges, e.src ≤ P.umax ∧ e.dst ≤ P.umax ∧ e.weight ≤ P.umax) ∧
      g.numNodes ≤ P.umax ∧ True) encInput (decInput P) := by
  refine ((codecVec hP (codecInputEdge hP)).seq ((codecUsize hP).seq codecBool)).map (f := fun p => (⟨p.1, p.2.1, p.2.2⟩ : InputGraph))
    (g := fun e => (e.edges, e.numNodes, e.frozen)) (fun _ => rfl) (fun _ => rfl) (fun _ => Iff.rfl) ?_ ?_
  · intro e
    simp [encInput]
  · unfold decInput
    simp

end FP
