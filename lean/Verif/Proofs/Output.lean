import Verif.Model.Output
import Verif.Proofs.TextIO
/-! # The printed form of an input graph -/
namespace FP
open Spec TextIO

/-- The line is the statement that adds the edge. -/
def Spec.IsCall (line : List Char) (e : Edge) : Prop :=
  ∃ s d w, IsDecimal s e.src ∧ IsDecimal d e.dst ∧ IsDecimal w e.weight ∧
    line = "g.add_edge(".toList ++ s ++ ", ".toList ++ d ++ ", ".toList ++ w ++ ");".toList

theorem outputString_isCall (e : Edge) : IsCall e.outputString e :=
  ⟨_, _, _, showNat_decimal _, showNat_decimal _, showNat_decimal _, rfl⟩

/-- Digits followed by something else can be split in one way only. -/
theorem digits_unique {c : Char} (hc : ¬ ('0' ≤ c ∧ c ≤ '9')) : ∀ {a b r r' : List Char},
    (∀ x ∈ a, '0' ≤ x ∧ x ≤ '9') → (∀ x ∈ b, '0' ≤ x ∧ x ≤ '9') → a ++ c :: r = b ++ c :: r' → a = b ∧ r = r'
  | [], [], _, _, _, _, h => by
    injection h with _ h
    exact ⟨rfl, h⟩
  | [], y :: b, _, _, _, hb, h => by
    injection h with h _
    exact absurd (hb y (by simp)) (h ▸ hc)
  | x :: a, [], _, _, ha, _, h => by
    injection h with h _
    exact absurd (ha x (by simp)) (h ▸ hc)
  | x :: a, y :: b, _, _, ha, hb, h => by
    injection h with h1 h2
    obtain ⟨h3, h4⟩ := digits_unique hc (fun z hz => ha z (by simp [hz])) (fun z hz => hb z (by simp [hz])) h2
    exact ⟨by rw [h1, h3], h4⟩

theorem IsDecimal.value_unique {ds : List Char} {v v' : Nat} (h : IsDecimal ds v) (h' : IsDecimal ds v') : v = v' :=
  h.2.2.trans h'.2.2.symm

theorem IsCall.unique {l : List Char} {e e' : Edge} (h : IsCall l e) (h' : IsCall l e') : e = e' := by
  obtain ⟨s, d, w, h1, h2, h3, rfl⟩ := h
  obtain ⟨s', d', w', k1, k2, k3, hl⟩ := h'
  simp only [List.append_assoc] at hl
  have hl := List.append_cancel_left hl
  have comma : ", ".toList = [',', ' '] := rfl
  have close : ");".toList = [')', ';'] := rfl
  rw [comma, close] at hl
  obtain ⟨es, hm⟩ := digits_unique (c := ',') (by decide) h1.2.1 k1.2.1 hl
  have hl2 : d ++ ([',', ' '] ++ (w ++ [')', ';'])) = d' ++ ([',', ' '] ++ (w' ++ [')', ';'])) := by
    injection hm
  obtain ⟨ed, hm2⟩ := digits_unique (c := ',') (by decide) h2.2.1 k2.2.1 hl2
  have hl3 : w ++ [')', ';'] = w' ++ [')', ';'] := by
    injection hm2
  obtain ⟨ew, _⟩ := digits_unique (c := ')') (by decide) h3.2.1 k3.2.1 hl3
  subst es ed ew
  cases e; cases e'
  simp only [Edge.mk.injEq]
  exact ⟨IsDecimal.value_unique h1 k1, IsDecimal.value_unique h2 k2, IsDecimal.value_unique h3 k3⟩

theorem outputString_plain (e : Edge) : '\n' ∉ e.outputString ∧ e.outputString.getLast? ≠ some '\r' := by
  constructor
  · intro h
    unfold Edge.outputString at h
    have hd : ∀ n, '\n' ∉ showNat n := by
      intro n hn
      have := (showNat_decimal n).2.1 _ hn
      revert this
      decide
    simp only [List.mem_append] at h
    rcases h with (((((h | h) | h) | h) | h) | h) | h
    · revert h; decide
    · exact hd _ h
    · revert h; decide
    · exact hd _ h
    · revert h; decide
    · exact hd _ h
    · revert h; decide
  · unfold Edge.outputString
    have close : ");".toList = [')', ';'] := rfl
    rw [List.getLast?_append, close]
    simp

theorem outputString_ne (e : Edge) : e.outputString ≠ [] := by
  unfold Edge.outputString
  have : ");".toList = [')', ';'] := rfl
  rw [this]
  simp

theorem isLines_join : ∀ {es : List Edge}, es ≠ [] →
    IsLines (joinLines (es.map Edge.outputString) ++ ['\n']) (es.map Edge.outputString)
  | [], h => absurd rfl h
  | [e], _ => .unix (outputString_plain e).1 (outputString_plain e).2 .nil
  | e :: e' :: es, _ => by
    have ih := isLines_join (es := e' :: es) (by simp)
    show IsLines (e.outputString ++ '\n' :: joinLines ((e' :: es).map Edge.outputString) ++ ['\n']) _
    rw [List.append_assoc]
    exact .unix (outputString_plain e).1 (outputString_plain e).2 ih

theorem isLines_output {g : InputGraph} (h : g.edges ≠ []) : IsLines g.outputString (g.edges.map Edge.outputString) :=
  isLines_join h

theorem forall₂_calls (es : List Edge) : List.Forall₂ IsCall (es.map Edge.outputString) es := by
  induction es with
  | nil => exact .nil
  | cons e es ih => exact .cons (outputString_isCall e) ih

theorem forall₂_calls_unique {ls : List (List Char)} {es es' : List Edge} (h : List.Forall₂ IsCall ls es)
    (h' : List.Forall₂ IsCall ls es') : es = es' := by
  induction h generalizing es' with
  | nil => cases h'; rfl
  | cons h1 _ ih =>
    cases h' with
    | cons k1 k2 => rw [IsCall.unique h1 k1, ih k2]

variable {P : Plat}

/-- Adding valid edges appends them. -/
theorem runs_append {es : List Edge} (hv : ∀ e ∈ es, e.src ≠ e.dst ∧ 1 ≤ e.weight)
    (hn : ∀ e ∈ es, max e.src e.dst + 1 ≤ P.umax) : ∀ (es₀ : List Edge) (n : Nat),
    forM (fun g (op : Op) => op.run P g) ⟨es₀, n, false⟩ (es.map arcOp) = .ok ⟨es₀ ++ es, max n (nodeCount es), false⟩ := by
  induction es with
  | nil => intro es₀ n; simp [nodeCount]
  | cons e es ih =>
    intro es₀ n
    have h1 : (arcOp e).run P ⟨es₀, n, false⟩ = .ok ⟨es₀ ++ [e], max n (max e.src e.dst + 1), false⟩ := by
      refine arcRun_iff.2 ⟨rfl, Or.inr ⟨hv e (by simp), max e.src e.dst + 1, ?_, rfl⟩⟩
      unfold addW
      rw [if_pos (hn e (by simp))]
    rw [List.map_cons, forM_cons, h1, bind_okM, ih (fun x hx => hv x (by simp [hx])) (fun x hx => hn x (by simp [hx]))]
    have hc : nodeCount (e :: es) = max (nodeCount es) (max e.src e.dst + 1) := rfl
    rw [hc, List.append_assoc, List.singleton_append]
    congr 2
    omega

/-- Adding the edges of any graph to a new one gives the same graph, thawed. -/
theorem rebuild_thawed {acc : List Edge} {g : InputGraph} (h : GInv acc g) (hn : g.numNodes ≤ P.umax) :
    buildGraph P (g.edges.map arcOp) = .ok g.thaw := by
  have hlt : ∀ e ∈ g.edges, e.src < g.numNodes ∧ e.dst < g.numNodes := fun e he => by
    rw [h.num]; exact nodeCount_gt e (h.sub e he)
  have := runs_append (P := P) (es := g.edges) (fun e he => h.valid e (h.sub e he))
    (fun e he => by have := hlt e he; omega) [] 0
  refine this.trans ?_
  have hc : nodeCount g.edges = g.numNodes := by
    refine Nat.le_antisymm (nodeCount_le hlt) ?_
    rw [h.num]
    refine nodeCount_le (fun a ha => ?_)
    obtain ⟨e, he, hs, _⟩ := h.cov a ha
    have := nodeCount_gt e he
    rw [← hs.1, ← hs.2]
    exact this
  rw [hc, Nat.zero_max]
  rfl

end FP
