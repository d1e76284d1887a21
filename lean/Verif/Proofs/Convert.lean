import Verif.Spec32
import Verif.Proofs.Api
/-!
# The 32-bit representation

`FastGraph32::new` on a platform with more than 32 bits, followed by `convert_to_usize` on any platform with at least 32
bits.
-/
namespace FP
open Spec

/-! ### `mapE` -/

theorem mapE_ok {α β : Type} {f : α → M β} {g : α → β} : ∀ {l : List α}, (∀ a ∈ l, f a = .ok (g a)) →
    mapE f l = .ok (l.map g)
  | [], _ => rfl
  | a :: as, h => by
    unfold mapE
    rw [h a List.mem_cons_self]
    simp only [bind_okM]
    rw [mapE_ok (fun x hx => h x (List.mem_cons_of_mem _ hx))]
    rfl

/-- `mapE` fails exactly when some element fails, if there is only one way to fail. -/
theorem mapE_err {α β : Type} {f : α → M β} {e : Panic} : ∀ {l : List α}, (∀ a ∈ l, (∃ b, f a = .ok b) ∨ f a = .error e) →
    (∃ a ∈ l, f a = .error e) → mapE f l = .error e
  | [], _, ⟨a, ha, _⟩ => by simp at ha
  | a :: as, h, ⟨x, hx, hxe⟩ => by
    unfold mapE
    rcases h a List.mem_cons_self with ⟨b, hb⟩ | he
    · rw [hb]
      simp only [bind_okM]
      have : mapE f as = .error e := by
        refine mapE_err (fun y hy => h y (List.mem_cons_of_mem _ hy)) ⟨x, ?_, hxe⟩
        rcases List.mem_cons.1 hx with rfl | hx
        · rw [hb] at hxe; cases hxe
        · exact hx
      rw [this]; rfl
    · rw [he]; rfl

theorem mapE_cases {α β : Type} {f : α → M β} {e : Panic} : ∀ {l : List α}, (∀ a ∈ l, (∃ b, f a = .ok b) ∨ f a = .error e) →
    (∃ r, mapE f l = .ok r) ∨ mapE f l = .error e
  | [], _ => Or.inl ⟨[], rfl⟩
  | a :: as, h => by
    unfold mapE
    rcases h a List.mem_cons_self with ⟨b, hb⟩ | he
    · rw [hb]
      simp only [bind_okM]
      rcases mapE_cases (fun y hy => h y (List.mem_cons_of_mem _ hy)) with ⟨r, hr⟩ | hr
      · rw [hr]; exact Or.inl ⟨_, rfl⟩
      · rw [hr]; exact Or.inr rfl
    · rw [he]; exact Or.inr rfl

/-! ### One number -/

/-- What becomes of a number: the mark `usize::MAX` becomes `u32::MAX`. -/
def toU32 (P : Plat) (v : Nat) : Nat := if v = P.umax then U32_MAX else v

variable {P : Plat}

theorem usizeToU32_ok (hP : U32_MAX < P.umax) (fuel : Nat) {v : Nat} (h : v ≤ U32_MAX ∨ v = P.umax) :
    usizeToU32 P (fuel + 2) v = .ok (toU32 P v) := by
  unfold usizeToU32 toU32
  by_cases hv : v = P.umax
  · rw [if_pos (by simp [hv]), if_pos hv]
    unfold usizeToU32
    rw [Nat.mod_eq_of_lt (by omega), if_neg (by simp; omega), if_pos (Nat.le_refl _)]
  · rw [if_neg (by simpa using hv), if_neg hv, if_pos (by omega)]

theorem usizeToU32_err (fuel : Nat) {v : Nat} (h : ¬ (v ≤ U32_MAX ∨ v = P.umax)) :
    usizeToU32 P (fuel + 2) v = .error .assertion := by
  unfold usizeToU32
  rw [if_neg (by simp; omega), if_neg (by omega)]

theorem usizeToU32_cases (hP : U32_MAX < P.umax) (fuel v : Nat) :
    (∃ b, usizeToU32 P (fuel + 2) v = .ok b) ∨ usizeToU32 P (fuel + 2) v = .error .assertion := by
  by_cases h : v ≤ U32_MAX ∨ v = P.umax
  · exact Or.inl ⟨_, usizeToU32_ok hP fuel h⟩
  · exact Or.inr (usizeToU32_err fuel h)

/-- Without room for larger numbers the mark is sent to itself for ever. -/
theorem usizeToU32_loops (hm : U32_MAX % (P.umax + 1) = P.umax) :
    ∀ fuel, usizeToU32 P fuel P.umax = .error .outOfFuel
  | 0 => rfl
  | fuel + 1 => by
    unfold usizeToU32
    rw [if_pos (by simp), hm]
    exact usizeToU32_loops hm fuel

/-! ### Whole graphs -/

def toU32Edge (P : Plat) (e : FastGraphEdge) : FastGraphEdge32 :=
  ⟨toU32 P e.baseNode, toU32 P e.adjNode, toU32 P e.weight, toU32 P e.replacedInEdge, toU32 P e.replacedOutEdge⟩

def toU32Graph (P : Plat) (g : FastGraph) : FastGraph32 :=
  ⟨toU32 P g.numNodes, g.ranks.map (toU32 P), g.edgesFwd.map (toU32Edge P), g.firstEdgeIdsFwd.map (toU32 P),
    g.edgesBwd.map (toU32Edge P), g.firstEdgeIdsBwd.map (toU32 P)⟩

theorem usizeToU32Edge_ok (hP : U32_MAX < P.umax) (fuel : Nat) {e : FastGraphEdge}
    (h : ∀ v ∈ e.values, v ≤ U32_MAX ∨ v = P.umax) : usizeToU32Edge P (fuel + 2) e = .ok (toU32Edge P e) := by
  unfold usizeToU32Edge
  rw [usizeToU32_ok hP fuel (h _ (by simp [FastGraphEdge.values])), usizeToU32_ok hP fuel (h _ (by simp [FastGraphEdge.values])),
    usizeToU32_ok hP fuel (h _ (by simp [FastGraphEdge.values])), usizeToU32_ok hP fuel (h _ (by simp [FastGraphEdge.values])),
    usizeToU32_ok hP fuel (h _ (by simp [FastGraphEdge.values]))]
  rfl

theorem new32_ok (hP : U32_MAX < P.umax) (fuel : Nat) {g : FastGraph} (h : Fits P g) :
    FastGraph32.new P (fuel + 2) g = .ok (toU32Graph P g) := by
  unfold Fits FastGraph.values at h
  simp only [List.mem_cons, List.mem_append, List.mem_flatMap] at h
  unfold FastGraph32.new usizeToU32Vec usizeToU32Edges FastGraph.getNumNodes
  rw [usizeToU32_ok hP fuel (h _ (Or.inl rfl)),
    mapE_ok (g := toU32 P) (fun a ha => usizeToU32_ok hP fuel (h a (by tauto))),
    mapE_ok (g := toU32Edge P) (fun a ha => usizeToU32Edge_ok hP fuel (fun v hv => h v (by
      refine Or.inr (Or.inl (Or.inl (Or.inl (Or.inr ⟨a, ha, hv⟩))))))),
    mapE_ok (g := toU32 P) (fun a ha => usizeToU32_ok hP fuel (h a (by tauto))),
    mapE_ok (g := toU32Edge P) (fun a ha => usizeToU32Edge_ok hP fuel (fun v hv => h v (by
      refine Or.inr (Or.inl (Or.inr ⟨a, ha, hv⟩))))),
    mapE_ok (g := toU32 P) (fun a ha => usizeToU32_ok hP fuel (h a (by tauto)))]
  rfl

/-- A chain of steps that succeed or fail with `e`. -/
theorem bind_cases {α β : Type} {m : M α} {f : α → M β} {e : Panic} (hm : (∃ a, m = .ok a) ∨ m = .error e)
    (hf : ∀ a, m = .ok a → (∃ b, f a = .ok b) ∨ f a = .error e) : (∃ b, (m >>= f) = .ok b) ∨ (m >>= f) = .error e := by
  rcases hm with ⟨a, ha⟩ | ha
  · rw [ha]; exact hf a ha
  · rw [ha]; exact Or.inr rfl

theorem usizeToU32Edge_cases (hP : U32_MAX < P.umax) (fuel : Nat) (e : FastGraphEdge) :
    (∃ b, usizeToU32Edge P (fuel + 2) e = .ok b) ∨ usizeToU32Edge P (fuel + 2) e = .error .assertion := by
  unfold usizeToU32Edge
  refine bind_cases (usizeToU32_cases hP fuel _) (fun _ _ => ?_)
  refine bind_cases (usizeToU32_cases hP fuel _) (fun _ _ => ?_)
  refine bind_cases (usizeToU32_cases hP fuel _) (fun _ _ => ?_)
  refine bind_cases (usizeToU32_cases hP fuel _) (fun _ _ => ?_)
  exact bind_cases (usizeToU32_cases hP fuel _) (fun _ _ => Or.inl ⟨_, rfl⟩)

theorem new32_cases (hP : U32_MAX < P.umax) (fuel : Nat) (g : FastGraph) :
    (∃ b, FastGraph32.new P (fuel + 2) g = .ok b) ∨ FastGraph32.new P (fuel + 2) g = .error .assertion := by
  unfold FastGraph32.new
  refine bind_cases (usizeToU32_cases hP fuel _) (fun _ _ => ?_)
  refine bind_cases (mapE_cases (fun a _ => usizeToU32_cases hP fuel a)) (fun _ _ => ?_)
  refine bind_cases (mapE_cases (fun a _ => usizeToU32Edge_cases hP fuel a)) (fun _ _ => ?_)
  refine bind_cases (mapE_cases (fun a _ => usizeToU32_cases hP fuel a)) (fun _ _ => ?_)
  refine bind_cases (mapE_cases (fun a _ => usizeToU32Edge_cases hP fuel a)) (fun _ _ => ?_)
  exact bind_cases (mapE_cases (fun a _ => usizeToU32_cases hP fuel a)) (fun _ _ => Or.inl ⟨_, rfl⟩)

theorem mapE_all_ok {α β : Type} {f : α → M β} : ∀ {l : List α} {r : List β}, mapE f l = .ok r → ∀ a ∈ l, ∃ b, f a = .ok b
  | [], _, _, a, ha => by simp at ha
  | x :: xs, r, h, a, ha => by
    unfold mapE at h
    obtain ⟨b, hb, h⟩ := bind_eq_ok.1 h
    obtain ⟨bs, hbs, _⟩ := bind_eq_ok.1 h
    rcases List.mem_cons.1 ha with rfl | ha
    · exact ⟨b, hb⟩
    · exact mapE_all_ok hbs a ha

theorem usizeToU32_fits {fuel v b : Nat} (h : usizeToU32 P (fuel + 2) v = .ok b) :
    v ≤ U32_MAX ∨ v = P.umax := by
  by_contra hc
  rw [usizeToU32_err fuel hc] at h
  cases h

theorem usizeToU32Edge_fits {fuel : Nat} {e : FastGraphEdge} {b : FastGraphEdge32}
    (h : usizeToU32Edge P (fuel + 2) e = .ok b) : ∀ v ∈ e.values, v ≤ U32_MAX ∨ v = P.umax := by
  unfold usizeToU32Edge at h
  obtain ⟨_, h1, h⟩ := bind_eq_ok.1 h
  obtain ⟨_, h2, h⟩ := bind_eq_ok.1 h
  obtain ⟨_, h3, h⟩ := bind_eq_ok.1 h
  obtain ⟨_, h4, h⟩ := bind_eq_ok.1 h
  obtain ⟨_, h5, _⟩ := bind_eq_ok.1 h
  intro v hv
  simp only [FastGraphEdge.values, List.mem_cons, List.not_mem_nil, or_false] at hv
  rcases hv with rfl | rfl | rfl | rfl | rfl
  · exact usizeToU32_fits h1
  · exact usizeToU32_fits h2
  · exact usizeToU32_fits h3
  · exact usizeToU32_fits h4
  · exact usizeToU32_fits h5

theorem new32_fits {fuel : Nat} {g : FastGraph} {g32 : FastGraph32}
    (h : FastGraph32.new P (fuel + 2) g = .ok g32) : Fits P g := by
  unfold FastGraph32.new at h
  obtain ⟨_, h1, h⟩ := bind_eq_ok.1 h
  obtain ⟨_, h2, h⟩ := bind_eq_ok.1 h
  obtain ⟨_, h3, h⟩ := bind_eq_ok.1 h
  obtain ⟨_, h4, h⟩ := bind_eq_ok.1 h
  obtain ⟨_, h5, h⟩ := bind_eq_ok.1 h
  obtain ⟨_, h6, _⟩ := bind_eq_ok.1 h
  have vec : ∀ {l r : List Nat}, usizeToU32Vec P (fuel + 2) l = .ok r → ∀ v ∈ l, v ≤ U32_MAX ∨ v = P.umax := by
    intro l r hl v hv
    obtain ⟨b, hb⟩ := mapE_all_ok hl v hv
    exact usizeToU32_fits hb
  have edges : ∀ {l : List FastGraphEdge} {r}, usizeToU32Edges P (fuel + 2) l = .ok r →
      ∀ v, (∃ e ∈ l, v ∈ e.values) → v ≤ U32_MAX ∨ v = P.umax := by
    rintro l r hl v ⟨e, he, hv⟩
    obtain ⟨b, hb⟩ := mapE_all_ok hl e he
    exact usizeToU32Edge_fits hb v hv
  intro v hv
  unfold FastGraph.values at hv
  simp only [List.mem_cons, List.mem_append, List.mem_flatMap] at hv
  rcases hv with rfl | (((hv | hv) | hv) | hv) | hv
  · exact usizeToU32_fits h1
  · exact vec h2 v hv
  · exact edges h3 v hv
  · exact vec h4 v hv
  · exact edges h5 v hv
  · exact vec h6 v hv

/-! ### Back again, possibly on another platform -/

/-- What becomes of a number that is below `u32::MAX`, or the mark: the mark of the other platform. -/
def moveV (P P' : Plat) (v : Nat) : Nat := if v = P.umax then P'.umax else v

def moveEdge (P P' : Plat) (e : FastGraphEdge) : FastGraphEdge :=
  ⟨moveV P P' e.baseNode, moveV P P' e.adjNode, moveV P P' e.weight, moveV P P' e.replacedInEdge,
    moveV P P' e.replacedOutEdge⟩

def moveGraph (P P' : Plat) (g : FastGraph) : FastGraph :=
  ⟨g.numNodes, g.ranks.map (moveV P P'), g.edgesFwd.map (moveEdge P P'), g.firstEdgeIdsFwd.map (moveV P P'),
    g.edgesBwd.map (moveEdge P P'), g.firstEdgeIdsBwd.map (moveV P P')⟩

theorem FitsStrictly.fits {g : FastGraph} (h : FitsStrictly P g) : Fits P g := by
  intro v hv
  rcases h.vals v hv with h | h
  · exact Or.inl (Nat.le_of_lt h)
  · exact Or.inr h

theorem back_move {P' : Plat} (hP' : U32_MAX ≤ P'.umax) {v : Nat} (h : v < U32_MAX ∨ v = P.umax)
    (hP : U32_MAX < P.umax) : u32ToUsize P' (toU32 P v) = moveV P P' v := by
  unfold u32ToUsize toU32 moveV u32AsUsize
  by_cases hv : v = P.umax
  · rw [if_pos hv, if_pos hv]; simp
  · rw [if_neg hv, if_neg hv, if_neg (by simp; omega), Nat.mod_eq_of_lt (by omega)]

theorem back_moveEdge {P' : Plat} (hP' : U32_MAX ≤ P'.umax) (hP : U32_MAX < P.umax) {e : FastGraphEdge}
    (h : ∀ v ∈ e.values, v < U32_MAX ∨ v = P.umax) : u32ToUsizeEdge P' (toU32Edge P e) = moveEdge P P' e := by
  unfold u32ToUsizeEdge toU32Edge moveEdge
  simp only
  rw [back_move hP' (h _ (by simp [FastGraphEdge.values])) hP, back_move hP' (h _ (by simp [FastGraphEdge.values])) hP,
    back_move hP' (h _ (by simp [FastGraphEdge.values])) hP, back_move hP' (h _ (by simp [FastGraphEdge.values])) hP,
    back_move hP' (h _ (by simp [FastGraphEdge.values])) hP]

theorem convert_ok {P' : Plat} (hP' : U32_MAX ≤ P'.umax) (hP : U32_MAX < P.umax) {g : FastGraph}
    (h : FitsStrictly P g) : (toU32Graph P g).convertToUsize P' = .ok (moveGraph P P' g) := by
  have hv := h.vals
  unfold FastGraph.values at hv
  simp only [List.mem_cons, List.mem_append, List.mem_flatMap] at hv
  have hn : u32AsUsize P' (toU32 P g.numNodes) = g.numNodes := by
    unfold u32AsUsize toU32
    have := h.num
    rw [if_neg (by omega), Nat.mod_eq_of_lt (by omega)]
  unfold FastGraph32.convertToUsize FastGraph.new
  rw [show (toU32Graph P g).numNodes = toU32 P g.numNodes from rfl, hn, if_pos (by have := h.num; omega)]
  simp only [bind_okM, FastGraph.empty, toU32Graph, moveGraph, List.map_map]
  congr 1
  congr 1
  · exact List.map_congr_left (fun v hm => back_move hP' (hv v (by tauto)) hP)
  · exact List.map_congr_left (fun e hm => back_moveEdge hP' hP (fun v hm' => hv v
      (Or.inr (Or.inl (Or.inl (Or.inl (Or.inr ⟨e, hm, hm'⟩)))))))
  · exact List.map_congr_left (fun v hm => back_move hP' (hv v (by tauto)) hP)
  · exact List.map_congr_left (fun e hm => back_moveEdge hP' hP (fun v hm' => hv v
      (Or.inr (Or.inl (Or.inr ⟨e, hm, hm'⟩)))))
  · exact List.map_congr_left (fun v hm => back_move hP' (hv v (by tauto)) hP)

theorem moveV_self {v : Nat} {P' : Plat} (hu : P'.umax = P.umax) : moveV P P' v = v := by
  unfold moveV
  by_cases h : v = P.umax
  · rw [if_pos h, hu, h]
  · rw [if_neg h]

theorem moveGraph_self {P' : Plat} (hu : P'.umax = P.umax) (g : FastGraph) : moveGraph P P' g = g := by
  have hv : moveV P P' = id := by funext v; exact moveV_self hu
  have he : moveEdge P P' = id := by funext e; cases e; simp [moveEdge, hv]
  unfold moveGraph
  rw [hv, he]
  simp

/-! ### What exactly changes on the same platform -/

/-- What becomes of a number that fits or is the mark: `u32::MAX` becomes the mark. -/
def roundV (P : Plat) (v : Nat) : Nat := if v = U32_MAX then P.umax else v

def roundEdge (P : Plat) (e : FastGraphEdge) : FastGraphEdge :=
  ⟨roundV P e.baseNode, roundV P e.adjNode, roundV P e.weight, roundV P e.replacedInEdge, roundV P e.replacedOutEdge⟩

def roundGraph (P : Plat) (g : FastGraph) : FastGraph :=
  ⟨if g.numNodes = P.umax then U32_MAX else g.numNodes, g.ranks.map (roundV P), g.edgesFwd.map (roundEdge P),
    g.firstEdgeIdsFwd.map (roundV P), g.edgesBwd.map (roundEdge P), g.firstEdgeIdsBwd.map (roundV P)⟩

theorem back_round (hP : U32_MAX < P.umax) {v : Nat} (h : v ≤ U32_MAX ∨ v = P.umax) :
    u32ToUsize P (toU32 P v) = roundV P v := by
  unfold u32ToUsize toU32 roundV u32AsUsize
  by_cases hv : v = P.umax
  · rw [if_pos hv, if_pos (by simp), if_neg (by omega), hv]
  · rw [if_neg hv]
    by_cases h2 : v = U32_MAX
    · rw [if_pos (by simp [h2]), if_pos h2]
    · rw [if_neg (by simpa using h2), if_neg h2, Nat.mod_eq_of_lt (by omega)]

theorem back_roundEdge (hP : U32_MAX < P.umax) {e : FastGraphEdge} (h : ∀ v ∈ e.values, v ≤ U32_MAX ∨ v = P.umax) :
    u32ToUsizeEdge P (toU32Edge P e) = roundEdge P e := by
  unfold u32ToUsizeEdge toU32Edge roundEdge
  simp only
  rw [back_round hP (h _ (by simp [FastGraphEdge.values])), back_round hP (h _ (by simp [FastGraphEdge.values])),
    back_round hP (h _ (by simp [FastGraphEdge.values])), back_round hP (h _ (by simp [FastGraphEdge.values])),
    back_round hP (h _ (by simp [FastGraphEdge.values]))]

theorem convert_round (hP : U32_MAX < P.umax) {g : FastGraph} (h : Fits P g) :
    (toU32Graph P g).convertToUsize P = .ok (roundGraph P g) := by
  have hv := h
  unfold Fits FastGraph.values at hv
  simp only [List.mem_cons, List.mem_append, List.mem_flatMap] at hv
  have hn : u32AsUsize P (toU32 P g.numNodes) = (if g.numNodes = P.umax then U32_MAX else g.numNodes) := by
    unfold u32AsUsize toU32
    have := hv g.numNodes (Or.inl rfl)
    by_cases hc : g.numNodes = P.umax
    · simp only [if_pos hc]
      exact Nat.mod_eq_of_lt (by omega)
    · simp only [if_neg hc]
      exact Nat.mod_eq_of_lt (by omega)
  have hlt : (if g.numNodes = P.umax then U32_MAX else g.numNodes) < P.umax := by
    have := hv g.numNodes (Or.inl rfl)
    split <;> omega
  unfold FastGraph32.convertToUsize FastGraph.new
  rw [show (toU32Graph P g).numNodes = toU32 P g.numNodes from rfl, hn, if_pos (by omega)]
  simp only [bind_okM, FastGraph.empty, toU32Graph, roundGraph, List.map_map]
  congr 1
  congr 1
  · exact List.map_congr_left (fun v hm => back_round hP (hv v (by tauto)))
  · exact List.map_congr_left (fun e hm => back_roundEdge hP (fun v hm' => hv v
      (Or.inr (Or.inl (Or.inl (Or.inl (Or.inr ⟨e, hm, hm'⟩)))))))
  · exact List.map_congr_left (fun v hm => back_round hP (hv v (by tauto)))
  · exact List.map_congr_left (fun e hm => back_roundEdge hP (fun v hm' => hv v
      (Or.inr (Or.inl (Or.inr ⟨e, hm, hm'⟩)))))
  · exact List.map_congr_left (fun v hm => back_round hP (hv v (by tauto)))

theorem roundV_eq (hP : U32_MAX < P.umax) {v : Nat} : roundV P v = v ↔ v ≠ U32_MAX := by
  unfold roundV
  split <;> omega

theorem roundEdge_eq (hP : U32_MAX < P.umax) {e : FastGraphEdge} : roundEdge P e = e ↔ ∀ v ∈ e.values, v ≠ U32_MAX := by
  cases e
  simp [roundEdge, FastGraphEdge.values, roundV_eq hP]

theorem map_eq_self {α : Type} {f : α → α} {l : List α} : l.map f = l ↔ ∀ a ∈ l, f a = a := by
  induction l with
  | nil => simp
  | cons a l ih => simp [ih]

theorem roundGraph_eq (hP : U32_MAX < P.umax) {g : FastGraph} :
    roundGraph P g = g ↔ g.numNodes ≠ P.umax ∧ ∀ v ∈ g.values.tail, v ≠ U32_MAX := by
  cases g with
  | mk nn rk ef ff eb fb =>
  have hn : (if nn = P.umax then U32_MAX else nn) = nn ↔ nn ≠ P.umax := by split <;> omega
  simp only [roundGraph, FastGraph.mk.injEq, map_eq_self, hn, roundV_eq hP, roundEdge_eq hP, FastGraph.values, List.tail_cons,
    List.mem_append, List.mem_flatMap]
  constructor
  · rintro ⟨h1, h2, h3, h4, h5, h6⟩
    refine ⟨h1, ?_⟩
    rintro v ((((hv | ⟨e, he, hv⟩) | hv) | ⟨e, he, hv⟩) | hv)
    · exact h2 v hv
    · exact h3 e he v hv
    · exact h4 v hv
    · exact h5 e he v hv
    · exact h6 v hv
  · rintro ⟨h1, h2⟩
    exact ⟨h1, fun v hv => h2 v (by tauto), fun e he v hv => h2 v (Or.inl (Or.inl (Or.inl (Or.inr ⟨e, he, hv⟩)))),
      fun v hv => h2 v (by tauto), fun e he v hv => h2 v (Or.inl (Or.inr ⟨e, he, hv⟩)), fun v hv => h2 v (by tauto)⟩

/-! ### Prepared graphs on another platform -/

theorem FirstOk.mem_le {n m : Nat} {first : List Nat} (h : FirstOk n first m) {v : Nat} (hv : v ∈ first) : v ≤ m := by
  obtain ⟨j, hj⟩ := List.mem_iff_getElem?.1 hv
  have hjl := (List.getElem?_eq_some_iff.1 hj).1
  rw [h.len] at hjl
  have := h.le (i := j) (j := n) (by omega) (Nat.le_refl _)
  rw [h.last, hj] at this
  exact this

/-- Every stored edge is an edge of some node. -/
theorem Shape.out_id_cover {n : Nat} {fg : FastGraph} (h : Shape P n fg) {id : Nat} (hl : id < fg.edgesFwd.length) :
    ∃ u < n, fg.bo u ≤ id ∧ id < fg.eo u := by
  have key : ∀ k ≤ n, id < (fg.firstEdgeIdsFwd[k]?).getD 0 →
      ∃ j < k, (fg.firstEdgeIdsFwd[j]?).getD 0 ≤ id ∧ id < (fg.firstEdgeIdsFwd[j + 1]?).getD 0 := by
    intro k
    induction k with
    | zero => intro _ h0; rw [h.firstF.zero] at h0; omega
    | succ k ih =>
      intro hk hlt
      by_cases hc : id < (fg.firstEdgeIdsFwd[k]?).getD 0
      · obtain ⟨j, hj, h1⟩ := ih (by omega) hc
        exact ⟨j, by omega, h1⟩
      · exact ⟨k, by omega, by omega, hlt⟩
  obtain ⟨j, hj, h1, h2⟩ := key n (Nat.le_refl _) (by rw [h.firstF.last]; exact hl)
  obtain ⟨u, hu, rfl⟩ := List.mem_map.1 (h.perm_rk.mem_iff.2 (List.mem_range.2 hj))
  exact ⟨u, List.mem_range.1 hu, h1, h2⟩

theorem Shape.out_cover {n : Nat} {fg : FastGraph} (h : Shape P n fg) {ed : FastGraphEdge} (hed : ed ∈ fg.edgesFwd) :
    ∃ u < n, ∃ id, fg.OutAt u id ed := by
  obtain ⟨id, hid⟩ := List.mem_iff_getElem?.1 hed
  obtain ⟨u, hu, h1, h2⟩ := h.out_id_cover (List.getElem?_eq_some_iff.1 hid).1
  exact ⟨u, hu, id, h1, h2, hid⟩

theorem Shape.in_cover {n : Nat} {fg : FastGraph} (h : Shape P n fg) {ed : FastGraphEdge} (hed : ed ∈ fg.edgesBwd) :
    ∃ u < n, ∃ id, fg.InAt u id ed := h.flip.out_cover hed

theorem Resolved.ids {E : EdgeRel} {n : Nat} {fg : FastGraph} {u x w rin rout : Nat} (h : Resolved P E n fg u x w rin rout) :
    (rin = P.umax ∨ rin < fg.edgesBwd.length) ∧ (rout = P.umax ∨ rout < fg.edgesFwd.length) := by
  rcases h with ⟨h1, h2, _⟩ | ⟨_, _, c, _, _, _, e₁, e₂, k1, _, k2, _, _⟩
  · exact ⟨Or.inl h1, Or.inl h2⟩
  · exact ⟨Or.inr (List.getElem?_eq_some_iff.1 k1.2.2).1, Or.inr (List.getElem?_eq_some_iff.1 k2.2.2).1⟩

/-- A small prepared graph fits. -/
theorem FGood.fitsStrictly {E : EdgeRel} {n : Nat} {fg : FastGraph} (h : FGood P E n fg) (hs : Small fg) :
    FitsStrictly P fg := by
  have hn := hs.num
  rw [h.num] at hn
  refine ⟨?_, hs.num⟩
  intro v hv
  unfold FastGraph.values at hv
  simp only [List.mem_cons, List.mem_append, List.mem_flatMap] at hv
  rcases hv with rfl | (((hv | ⟨e, he, hv⟩) | hv) | ⟨e, he, hv⟩) | hv
  · exact Or.inl hs.num
  · obtain ⟨j, hj⟩ := List.mem_iff_getElem?.1 hv
    have hjl := (List.getElem?_eq_some_iff.1 hj).1
    rw [h.lenR] at hjl
    have := h.rk_lt j hjl
    unfold FastGraph.rk at this
    rw [hj] at this
    simp only [Option.getD_some] at this
    exact Or.inl (by omega)
  · obtain ⟨u, hu, id, hat⟩ := h.toShape.out_cover he
    obtain ⟨h1, h2, _, h4⟩ := h.fwd u hu id e hat
    have h5 := h4.ids
    have h6 := hs.wf e he
    have := hs.out; have := hs.inn
    simp only [FastGraphEdge.values, List.mem_cons, List.not_mem_nil, or_false] at hv
    rcases hv with rfl | rfl | rfl | rfl | rfl <;> omega
  · have := h.firstF.mem_le hv
    have := hs.out
    exact Or.inl (by omega)
  · obtain ⟨u, hu, id, hat⟩ := h.toShape.in_cover he
    obtain ⟨h1, h2, _, h4⟩ := h.bwd u hu id e hat
    have h5 := h4.ids
    have h6 := hs.wb e he
    have := hs.out; have := hs.inn
    simp only [FastGraphEdge.values, List.mem_cons, List.not_mem_nil, or_false] at hv
    rcases hv with rfl | rfl | rfl | rfl | rfl <;> omega
  · have := h.firstB.mem_le hv
    have := hs.inn
    exact Or.inl (by omega)

/-- In a prepared graph with fewer than `u32::MAX` edges only weights can be equal to `u32::MAX`. -/
theorem FGood.only_weights {E : EdgeRel} {n : Nat} {fg : FastGraph} (hP : U32_MAX < P.umax) (h : FGood P E n fg)
    (hf : Fits P fg) (ho : fg.edgesFwd.length < U32_MAX) (hi : fg.edgesBwd.length < U32_MAX) :
    (∀ v ∈ fg.values.tail, v ≠ U32_MAX) ↔ ∀ e ∈ fg.edgesFwd ++ fg.edgesBwd, e.weight ≠ U32_MAX := by
  have hn : n ≤ U32_MAX := by
    have := hf fg.numNodes (by simp [FastGraph.values])
    have := h.n_lt
    rw [h.num] at *
    omega
  unfold FastGraph.values
  simp only [List.tail_cons, List.mem_append, List.mem_flatMap]
  constructor
  · rintro hv e (he | he)
    · exact hv _ (Or.inl (Or.inl (Or.inl (Or.inr ⟨e, he, by simp [FastGraphEdge.values]⟩))))
    · exact hv _ (Or.inl (Or.inr ⟨e, he, by simp [FastGraphEdge.values]⟩))
  · rintro hw v ((((hv | ⟨e, he, hv⟩) | hv) | ⟨e, he, hv⟩) | hv)
    · obtain ⟨j, hj⟩ := List.mem_iff_getElem?.1 hv
      have hjl := (List.getElem?_eq_some_iff.1 hj).1
      rw [h.lenR] at hjl
      have := h.rk_lt j hjl
      unfold FastGraph.rk at this
      rw [hj] at this
      simp only [Option.getD_some] at this
      omega
    · obtain ⟨u, hu, id, hat⟩ := h.toShape.out_cover he
      obtain ⟨h1, h2, _, h4⟩ := h.fwd u hu id e hat
      have h5 := h4.ids
      have h6 := hw e (Or.inl he)
      simp only [FastGraphEdge.values, List.mem_cons, List.not_mem_nil, or_false] at hv
      rcases hv with rfl | rfl | rfl | rfl | rfl <;> omega
    · have := h.firstF.mem_le hv
      omega
    · obtain ⟨u, hu, id, hat⟩ := h.toShape.in_cover he
      obtain ⟨h1, h2, _, h4⟩ := h.bwd u hu id e hat
      have h5 := h4.ids
      have h6 := hw e (Or.inr he)
      simp only [FastGraphEdge.values, List.mem_cons, List.not_mem_nil, or_false] at hv
      rcases hv with rfl | rfl | rfl | rfl | rfl <;> omega
    · have := h.firstB.mem_le hv
      omega

/-- Only the marks in the replaced edges change. -/
def moveIds (P P' : Plat) (e : FastGraphEdge) : FastGraphEdge :=
  { e with replacedInEdge := moveV P P' e.replacedInEdge, replacedOutEdge := moveV P P' e.replacedOutEdge }

theorem map_moveV {P' : Plat} {l : List Nat} (h : ∀ v ∈ l, v ≠ P.umax) : l.map (moveV P P') = l := by
  have : l.map (moveV P P') = l.map id := List.map_congr_left (fun v hv => by simp [moveV, h v hv])
  rw [this, List.map_id]

theorem FGood.move_eq {P' : Plat} {E : EdgeRel} {n : Nat} {fg : FastGraph} (hP : U32_MAX < P.umax) (h : FGood P E n fg)
    (hs : Small fg) : moveGraph P P' fg =
      { fg with edgesFwd := fg.edgesFwd.map (moveIds P P'), edgesBwd := fg.edgesBwd.map (moveIds P P') } := by
  have hnlt := h.n_lt
  have hrk : ∀ v ∈ fg.ranks, v ≠ P.umax := by
    intro v hv
    obtain ⟨j, hj⟩ := List.mem_iff_getElem?.1 hv
    have hjl := (List.getElem?_eq_some_iff.1 hj).1
    rw [h.lenR] at hjl
    have := h.rk_lt j hjl
    unfold FastGraph.rk at this
    rw [hj] at this
    simp only [Option.getD_some] at this
    omega
  have hf : ∀ v ∈ fg.firstEdgeIdsFwd, v ≠ P.umax := by
    intro v hv
    have := h.firstF.mem_le hv
    have := hs.out; omega
  have hb : ∀ v ∈ fg.firstEdgeIdsBwd, v ≠ P.umax := by
    intro v hv
    have := h.firstB.mem_le hv
    have := hs.inn; omega
  have hef : fg.edgesFwd.map (moveEdge P P') = fg.edgesFwd.map (moveIds P P') := by
    refine List.map_congr_left ?_
    intro e he
    obtain ⟨u, hu, id, hat⟩ := h.toShape.out_cover he
    obtain ⟨h1, h2, _, _⟩ := h.fwd u hu id e hat
    have h6 := hs.wf e he
    unfold moveEdge moveIds
    rw [show moveV P P' e.baseNode = e.baseNode from if_neg (by omega),
      show moveV P P' e.adjNode = e.adjNode from if_neg (by omega),
      show moveV P P' e.weight = e.weight from if_neg (by omega)]
  have heb : fg.edgesBwd.map (moveEdge P P') = fg.edgesBwd.map (moveIds P P') := by
    refine List.map_congr_left ?_
    intro e he
    obtain ⟨u, hu, id, hat⟩ := h.toShape.in_cover he
    obtain ⟨h1, h2, _, _⟩ := h.bwd u hu id e hat
    have h6 := hs.wb e he
    unfold moveEdge moveIds
    rw [show moveV P P' e.baseNode = e.baseNode from if_neg (by omega),
      show moveV P P' e.adjNode = e.adjNode from if_neg (by omega),
      show moveV P P' e.weight = e.weight from if_neg (by omega)]
  unfold moveGraph
  rw [map_moveV hrk, map_moveV hf, map_moveV hb, hef, heb]

/-- A small prepared graph is still good after the transfer to another platform. -/
theorem FGood.move {P' : Plat} {E : EdgeRel} {n : Nat} {fg : FastGraph} (hP : U32_MAX < P.umax)
    (hP' : U32_MAX ≤ P'.umax) (hle : P'.umax ≤ P.umax) (h : FGood P E n fg) (hs : Small fg) : FGood P' E n (moveGraph P P' fg) := by
  rw [h.move_eq hP hs]
  have hn := hs.num
  rw [h.num] at hn
  have hout := hs.out
  have hinn := hs.inn
  generalize hfg : ({ fg with edgesFwd := fg.edgesFwd.map (moveIds P P'), edgesBwd := fg.edgesBwd.map (moveIds P P') } :
    FastGraph) = fg'
  have rk' : ∀ u, fg'.rk u = fg.rk u := by intro u; subst hfg; rfl
  have oat : ∀ u id ed, fg'.OutAt u id ed ↔ ∃ e, fg.OutAt u id e ∧ ed = moveIds P P' e := by
    intro u id ed
    subst hfg
    unfold FastGraph.OutAt
    simp only [FastGraph.bo, FastGraph.eo, FastGraph.rk, List.getElem?_map, Option.map_eq_some_iff]
    constructor
    · rintro ⟨h1, h2, e, h3, rfl⟩; exact ⟨e, ⟨h1, h2, h3⟩, rfl⟩
    · rintro ⟨e, ⟨h1, h2, h3⟩, rfl⟩; exact ⟨h1, h2, e, h3, rfl⟩
  have iat : ∀ u id ed, fg'.InAt u id ed ↔ ∃ e, fg.InAt u id e ∧ ed = moveIds P P' e := by
    intro u id ed
    subst hfg
    unfold FastGraph.InAt
    simp only [FastGraph.bi, FastGraph.ei, FastGraph.rk, List.getElem?_map, Option.map_eq_some_iff]
    constructor
    · rintro ⟨h1, h2, e, h3, rfl⟩; exact ⟨e, ⟨h1, h2, h3⟩, rfl⟩
    · rintro ⟨e, ⟨h1, h2, h3⟩, rfl⟩; exact ⟨h1, h2, e, h3, rfl⟩
  have fe : fg'.FE = fg.FE := by
    funext u x w
    unfold FastGraph.FE
    simp only [oat, eq_iff_iff]
    constructor
    · rintro ⟨id, ed, ⟨e, h1, rfl⟩, h2, h3⟩; exact ⟨id, e, h1, h2, h3⟩
    · rintro ⟨id, e, h1, h2, h3⟩; exact ⟨id, _, ⟨e, h1, rfl⟩, h2, h3⟩
  have be : fg'.BE = fg.BE := by
    funext u x w
    unfold FastGraph.BE
    simp only [iat, eq_iff_iff]
    constructor
    · rintro ⟨id, ed, ⟨e, h1, rfl⟩, h2, h3⟩; exact ⟨id, e, h1, h2, h3⟩
    · rintro ⟨id, e, h1, h2, h3⟩; exact ⟨id, _, ⟨e, h1, rfl⟩, h2, h3⟩
  have res : ∀ {u x w rin rout}, Resolved P E n fg u x w rin rout →
      Resolved P' E n fg' u x w (moveV P P' rin) (moveV P P' rout) := by
    intro u x w rin rout hr
    rcases hr with ⟨rfl, rfl, he⟩ | ⟨n1, n2, c, hc, r1, r2, e₁, e₂, k1, k2, k3, k4, k5⟩
    · exact Or.inl ⟨if_pos rfl, if_pos rfl, he⟩
    · have l1 := (List.getElem?_eq_some_iff.1 k1.2.2).1
      have l2 := (List.getElem?_eq_some_iff.1 k3.2.2).1
      rw [show moveV P P' rin = rin from if_neg n1, show moveV P P' rout = rout from if_neg n2]
      exact Or.inr ⟨by omega, by omega, c, hc, by rw [rk', rk']; exact r1, by rw [rk', rk']; exact r2, _, _,
        (iat c rin _).2 ⟨e₁, k1, rfl⟩, k2, (oat c rout _).2 ⟨e₂, k3, rfl⟩, k4, k5⟩
  have shape : Shape P' n fg' := by
    subst hfg
    exact ⟨h.num, by omega, h.lenR, h.rk_lt, h.rk_inj, by simpa using h.firstF, by simpa using h.firstB,
      by simp; omega, by simp; omega⟩
  refine { toShape := shape, fwd := ?_, bwd := ?_, onceF := ?_, onceB := ?_, complete := ?_ }
  · intro u hu id ed hat
    obtain ⟨e, h1, rfl⟩ := (oat u id ed).1 hat
    obtain ⟨k1, k2, k3, k4⟩ := h.fwd u hu id e h1
    exact ⟨k1, k2, by rw [rk', rk']; exact k3, res k4⟩
  · intro u hu id ed hat
    obtain ⟨e, h1, rfl⟩ := (iat u id ed).1 hat
    obtain ⟨k1, k2, k3, k4⟩ := h.bwd u hu id e h1
    exact ⟨k1, k2, by rw [rk', rk']; exact k3, res k4⟩
  · intro u hu id ed id' ed' hat hat' he
    obtain ⟨e, h1, rfl⟩ := (oat u id ed).1 hat
    obtain ⟨e', h2, rfl⟩ := (oat u id' ed').1 hat'
    exact h.onceF u hu id e id' e' h1 h2 he
  · intro u hu id ed id' ed' hat hat' he
    obtain ⟨e, h1, rfl⟩ := (iat u id ed).1 hat
    obtain ⟨e', h2, rfl⟩ := (iat u id' ed').1 hat'
    exact h.onceB u hu id e id' e' h1 h2 he
  · intro s t w hs' ht hw hlt
    rw [fe, be]
    exact h.complete hs' ht hw (by omega)

/-! ### Platforms with 32-bit words -/

theorem new32_each {fuel : Nat} {g : FastGraph} {e : Panic}
    (h : ∀ v ∈ g.values, (∃ b, usizeToU32 P fuel v = .ok b) ∨ usizeToU32 P fuel v = .error e) :
    (∃ b, FastGraph32.new P fuel g = .ok b) ∨ FastGraph32.new P fuel g = .error e := by
  unfold FastGraph.values at h
  simp only [List.mem_cons, List.mem_append, List.mem_flatMap] at h
  have he : ∀ ed : FastGraphEdge, (∀ v ∈ ed.values, (∃ b, usizeToU32 P fuel v = .ok b) ∨ usizeToU32 P fuel v = .error e) →
      (∃ b, usizeToU32Edge P fuel ed = .ok b) ∨ usizeToU32Edge P fuel ed = .error e := by
    intro ed hed
    unfold usizeToU32Edge
    refine bind_cases (hed _ (by simp [FastGraphEdge.values])) (fun _ _ => ?_)
    refine bind_cases (hed _ (by simp [FastGraphEdge.values])) (fun _ _ => ?_)
    refine bind_cases (hed _ (by simp [FastGraphEdge.values])) (fun _ _ => ?_)
    refine bind_cases (hed _ (by simp [FastGraphEdge.values])) (fun _ _ => ?_)
    exact bind_cases (hed _ (by simp [FastGraphEdge.values])) (fun _ _ => Or.inl ⟨_, rfl⟩)
  unfold FastGraph32.new
  refine bind_cases (h _ (Or.inl rfl)) (fun _ _ => ?_)
  refine bind_cases (mapE_cases (fun a ha => h a (by tauto))) (fun _ _ => ?_)
  refine bind_cases (mapE_cases (fun a ha => he a (fun v hv => h v (by
      refine Or.inr (Or.inl (Or.inl (Or.inl (Or.inr ⟨a, ha, hv⟩)))))))) (fun _ _ => ?_)
  refine bind_cases (mapE_cases (fun a ha => h a (by tauto))) (fun _ _ => ?_)
  refine bind_cases (mapE_cases (fun a ha => he a (fun v hv => h v (by
      refine Or.inr (Or.inl (Or.inr ⟨a, ha, hv⟩)))))) (fun _ _ => ?_)
  exact bind_cases (mapE_cases (fun a ha => h a (by tauto))) (fun _ _ => Or.inl ⟨_, rfl⟩)

theorem new32_edges_ok {fuel : Nat} {g : FastGraph} {g32 : FastGraph32} (h : FastGraph32.new P fuel g = .ok g32) :
    ∀ ed ∈ g.edgesFwd ++ g.edgesBwd, ∃ b, usizeToU32 P fuel ed.replacedInEdge = .ok b := by
  unfold FastGraph32.new at h
  obtain ⟨_, _, h⟩ := bind_eq_ok.1 h
  obtain ⟨_, _, h⟩ := bind_eq_ok.1 h
  obtain ⟨_, h3, h⟩ := bind_eq_ok.1 h
  obtain ⟨_, _, h⟩ := bind_eq_ok.1 h
  obtain ⟨_, h5, h⟩ := bind_eq_ok.1 h
  have key : ∀ {l r}, usizeToU32Edges P fuel l = .ok r → ∀ ed ∈ l, ∃ b, usizeToU32 P fuel ed.replacedInEdge = .ok b := by
    intro l r hl ed hed
    obtain ⟨b, hb⟩ := mapE_all_ok hl ed hed
    unfold usizeToU32Edge at hb
    obtain ⟨_, _, hb⟩ := bind_eq_ok.1 hb
    obtain ⟨_, _, hb⟩ := bind_eq_ok.1 hb
    obtain ⟨_, _, hb⟩ := bind_eq_ok.1 hb
    obtain ⟨_, k, _⟩ := bind_eq_ok.1 hb
    exact ⟨_, k⟩
  intro ed hed
  rcases List.mem_append.1 hed with hed | hed
  · exact key h3 ed hed
  · exact key h5 ed hed

theorem Wk.first {F : EdgeRel} {s t w : Nat} (h : Wk F s t w) (hne : s ≠ t) : ∃ x a, F s x a := by
  cases h with
  | nil => exact absurd rfl hne
  | cons h _ => exact ⟨_, _, h⟩

/-- A prepared graph with an edge holds at least one mark. -/
theorem FGood.mark {E : EdgeRel} {n : Nat} {fg : FastGraph} (h : FGood P E n fg) {u v w : Nat} (he : E u v w) (hu : u < n)
    (hv : v < n) (hne : u ≠ v) (hw : w < P.umax) : ∃ ed ∈ fg.edgesFwd ++ fg.edgesBwd, ed.replacedInEdge = P.umax := by
  have down : ∀ r, ∀ c < n, fg.rk c = r → (∀ id ed, fg.InAt c id ed → ∃ ed ∈ fg.edgesFwd ++ fg.edgesBwd, ed.replacedInEdge = P.umax) := by
    intro r
    induction r using Nat.strongRecOn with
    | ind r ih =>
      intro c hc hr id ed hat
      obtain ⟨_, hadj, _, hres⟩ := h.bwd c hc id ed hat
      rcases hres with ⟨h1, _, _⟩ | ⟨_, _, c', hc', _, r2, e₁, e₂, k1, _⟩
      · exact ⟨ed, List.mem_append_right _ (List.mem_of_getElem? hat.2.2), h1⟩
      · exact ih (fg.rk c') (by omega) c' hc' rfl _ _ k1
  obtain ⟨m, wf, wb, h1, h2, _⟩ := h.complete hu hv (Wk.cons he (.nil _)) (by omega)
  have hcase : (∃ x a, fg.FE u x a) ∨ (∃ x a, fg.BE v x a) := by
    by_cases hm : u = m
    · exact Or.inr (h2.first (by omega))
    · exact Or.inl (h1.first hm)
  rcases hcase with ⟨x, a, id, ed, hat, _⟩ | ⟨x, a, id, ed, hat, _⟩
  · obtain ⟨_, hadj, _, hres⟩ := h.fwd u hu id ed hat
    rcases hres with ⟨h1, _, _⟩ | ⟨_, _, c', hc', _, r2, e₁, e₂, k1, _⟩
    · exact ⟨ed, List.mem_append_left _ (List.mem_of_getElem? hat.2.2), h1⟩
    · exact down _ c' hc' rfl _ _ k1
  · exact down _ v hv rfl _ _ hat

/-- On a platform with 32-bit words the conversion of a graph holding a mark never ends. -/
theorem new32_loops {g : FastGraph} (h32 : P.umax = U32_MAX) (hmark : ∃ ed ∈ g.edgesFwd ++ g.edgesBwd, ed.replacedInEdge = P.umax)
    (hvals : ∀ v ∈ g.values, v ≤ P.umax) (fuel : Nat) : FastGraph32.new P fuel g = .error .outOfFuel := by
  have hm : U32_MAX % (P.umax + 1) = P.umax := by rw [h32]; exact Nat.mod_eq_of_lt (by omega)
  rcases new32_each (P := P) (fuel := fuel) (g := g) (e := .outOfFuel) (fun v hv => by
    by_cases hvm : v = P.umax
    · subst hvm; exact Or.inr (usizeToU32_loops hm fuel)
    · cases fuel with
      | zero => exact Or.inr rfl
      | succ fuel =>
        unfold usizeToU32
        have := hvals v hv
        rw [if_neg (by simpa using hvm), if_pos (by omega)]
        exact Or.inl ⟨_, rfl⟩) with ⟨b, hb⟩ | hb
  · obtain ⟨ed, hed, he⟩ := hmark
    obtain ⟨b', hb'⟩ := new32_edges_ok hb ed hed
    rw [he, usizeToU32_loops hm fuel] at hb'
    cases hb'
  · exact hb

end FP
