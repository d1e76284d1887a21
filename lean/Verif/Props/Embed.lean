import Verif.Model.Embed
import Verif.Props.Disk
set_option autoImplicit false
/-! # Prepared graphs inside a client's own struct -/
namespace FP.Props
open Spec

variable {δ : Type}

/-- The field `f`, written on platform `P`, can be read on platform `P'` as a field of kind `k`. -/
def Loadable (P P' : Plat) : Field δ → FieldKind δ → Prop
  | .graph g, .graph => LenFit P' g ∧ ∀ v ∈ g.values, v ≤ P'.umax
  | .graph32 g, .graph32 => Small g ∧ ∃ ops ig, Client P ops ig g
  | .data enc d, .data dec => ∀ rest, dec.run (enc d ++ rest) = .ok (d, rest)
  | _, _ => False

/-- The value `v` is what is expected of the field `f`: the same value, and for `serialize_32` the graph that comes out of a file of
its own (see C60). -/
def Expected (P P' : Plat) : Field δ → FieldValue δ → Prop
  | .graph g, .graph g' => g' = g
  | .graph32 g, .graph g' => (P'.umax = P.umax → g' = g) ∧
      ∃ file, saveToDisk32 P 2 g = .ok file ∧ loadFromDisk32 P' file = .ok (.ok g')
  | .data _ d, .data d' => d' = d
  | _, _ => False

theorem field_moves {P P' : Plat} (hP : P.checked = true) (h64 : U32_MAX < P.umax) (h32 : U32_MAX ≤ P'.umax)
    (h64' : P'.umax < 2 ^ 64) {f : Field δ} {k : FieldKind δ} (h : Loadable P P' f k) :
    ∃ bytes v, writeField P f = .ok bytes ∧ Expected P P' f v ∧ ∀ rest, readField P' (bytes ++ rest) k = .ok (.ok (v, rest)) := by
  cases f with
  | graph g =>
    cases k with
    | graph =>
      refine ⟨encGraph g, .graph g, rfl, rfl, fun rest => ?_⟩
      unfold readField
      simp only
      rw [(codecGraph h64').rt g h rest]
    | graph32 => exact h.elim
    | data dec => exact h.elim
  | graph32 g =>
    cases k with
    | graph => exact h.elim
    | data dec => exact h.elim
    | graph32 =>
      obtain ⟨hs, ops, ig, hc⟩ := h
      have hg := hc.good hP
      have hf := hg.fitsStrictly hs
      have hnew := new32_ok h64 0 hf.fits
      have hcv := convert_ok h32 h64 hf
      have hn := hs.num
      have hout := hs.out
      have hinn := hs.inn
      rw [hg.num] at hn
      have hl : LenFit P' g :=
        ⟨by rw [hg.lenR]; omega, by omega, by rw [hg.firstF.len]; omega, by omega, by rw [hg.firstB.len]; omega⟩
      have hfit : Fit32 P' (toU32Graph P g) := toU32Graph_fit hf.fits hl
      refine ⟨encGraph32 (toU32Graph P g), .graph (moveGraph P P' g), ?_, ⟨fun hu => moveGraph_self hu g, encGraph32 (toU32Graph P g), ?_, ?_⟩,
        fun rest => ?_⟩
      · show serialize32 P 2 g = _
        unfold serialize32
        rw [hnew]
        rfl
      · unfold saveToDisk32
        rw [hnew]
        rfl
      · have := (codecGraph32 h64').rt _ hfit []
        rw [List.append_nil] at this
        unfold loadFromDisk32
        rw [this]
        simp only [hcv, bind_okM]
      · unfold readField deserialize32
        simp only
        rw [(codecGraph32 h64').rt _ hfit rest]
        simp only [hcv, bind_okM]
  | data enc d =>
    cases k with
    | graph => exact h.elim
    | graph32 => exact h.elim
    | data dec =>
      refine ⟨enc d, .data d, rfl, rfl, fun rest => ?_⟩
      unfold readField
      simp only
      rw [h rest]

/-- **C129** A struct with any number of prepared graphs, with and without `serialize_32`, among other fields: saving it succeeds, and
reading it returns for every field what is expected and leaves the bytes behind the struct alone. -/
theorem C129_fields {P P' : Plat} (hP : P.checked = true) (h64 : U32_MAX < P.umax) (h32 : U32_MAX ≤ P'.umax)
    (h64' : P'.umax < 2 ^ 64) {fields : List (Field δ)} {kinds : List (FieldKind δ)}
    (h : List.Forall₂ (Loadable P P') fields kinds) :
    ∃ bytes values, writeFields P fields = .ok bytes ∧ List.Forall₂ (Expected P P') fields values ∧
      ∀ rest, readFields P' kinds (bytes ++ rest) = .ok (.ok (values, rest)) := by
  induction h with
  | nil => exact ⟨[], [], rfl, .nil, fun rest => rfl⟩
  | @cons f k fs ks h1 _ ih =>
    obtain ⟨a, v, a1, a2, a3⟩ := field_moves hP h64 h32 h64' h1
    obtain ⟨b, vs, b1, b2, b3⟩ := ih
    refine ⟨a ++ b, v :: vs, ?_, .cons a2 b2, fun rest => ?_⟩
    · simp only [writeFields, a1, b1, bind_okM]
    · simp only [readFields, List.append_assoc, a3, b3, bind_okM]

/-- A client's own field is not taken for complete when it was cut off. -/
def RejectsCut : Field δ → FieldKind δ → Prop
  | .data enc d, .data dec => ∀ j < (enc d).length, ∃ e, dec.run ((enc d).take j) = .error e
  | _, _ => True

theorem field_cut {P P' : Plat} (hP : P.checked = true) (h64 : U32_MAX < P.umax) (h32 : U32_MAX ≤ P'.umax)
    (h64' : P'.umax < 2 ^ 64) {f : Field δ} {k : FieldKind δ} (h : Loadable P P' f k) (hr : RejectsCut f k) {bytes : List UInt8}
    (hw : writeField P f = .ok bytes) {j : Nat} (hj : j < bytes.length) : ∃ e, readField P' (bytes.take j) k = .ok (.error e) := by
  cases f with
  | graph g =>
    cases k with
    | graph =>
      cases hw
      obtain ⟨e, he⟩ := C59_cut_off_rejected h64' h.1 h.2 hj
      refine ⟨e, ?_⟩
      unfold loadFromDisk saveToDisk at he
      unfold readField
      simp only
      cases hd : (decGraph P').run ((encGraph g).take j) with
      | error e' => rw [hd] at he; cases he; rfl
      | ok p => rw [hd] at he; cases he
    | graph32 => exact h.elim
    | data dec => exact h.elim
  | graph32 g =>
    cases k with
    | graph => exact h.elim
    | data dec => exact h.elim
    | graph32 =>
      obtain ⟨hs, ops, ig, hc⟩ := h
      obtain ⟨file, fg', k1, _, _, _, _, k2⟩ := C60_saved_32 hP h64 h32 h64' hc hs
      have : file = bytes := by
        have : saveToDisk32 P 2 g = .ok bytes := hw
        rw [k1] at this
        cases this; rfl
      subst this
      obtain ⟨e, he⟩ := k2 j hj
      refine ⟨e, ?_⟩
      unfold loadFromDisk32 at he
      unfold readField deserialize32
      simp only
      cases hd : (decGraph32 P').run (file.take j) with
      | error e' => rw [hd] at he; cases he; rfl
      | ok p =>
        rw [hd] at he
        obtain ⟨_, _, he⟩ := bind_eq_ok.1 he
        cases he
  | data enc d =>
    cases k with
    | graph => exact h.elim
    | graph32 => exact h.elim
    | data dec =>
      cases hw
      obtain ⟨e, he⟩ := hr j hj
      refine ⟨e, ?_⟩
      unfold readField
      simp only
      rw [he]

/-- **C129** If the struct was cut off anywhere, reading it is an error and no panic, provided that the client's own fields are not
taken for complete when they were cut off. -/
theorem C129_cut_off {P P' : Plat} (hP : P.checked = true) (h64 : U32_MAX < P.umax) (h32 : U32_MAX ≤ P'.umax)
    (h64' : P'.umax < 2 ^ 64) {fields : List (Field δ)} {kinds : List (FieldKind δ)}
    (h : List.Forall₂ (fun f k => Loadable P P' f k ∧ RejectsCut f k) fields kinds) {bytes : List UInt8}
    (hw : writeFields P fields = .ok bytes) {j : Nat} (hj : j < bytes.length) :
    ∃ e, readFields P' kinds (bytes.take j) = .ok (.error e) := by
  induction h generalizing bytes j with
  | nil => cases hw; simp at hj
  | @cons f k fs ks h1 _ ih =>
    obtain ⟨a, ha, hw⟩ := bind_eq_ok.1 hw
    obtain ⟨b, hb, hw⟩ := bind_eq_ok.1 hw
    cases hw
    by_cases hja : j < a.length
    · obtain ⟨e, he⟩ := field_cut hP h64 h32 h64' h1.1 h1.2 ha hja
      refine ⟨e, ?_⟩
      rw [List.take_append_of_le_length (Nat.le_of_lt hja)]
      simp only [readFields, he, bind_okM]
    · obtain ⟨a', v, a1, _, a3⟩ := field_moves hP h64 h32 h64' h1.1
      rw [ha] at a1
      cases a1
      rw [List.length_append] at hj
      obtain ⟨e, he⟩ := ih hb (j := j - a.length) (by omega)
      refine ⟨e, ?_⟩
      rw [List.take_append, List.take_of_length_le (by omega)]
      simp only [readFields, a3, he, bind_okM]

/-- **C129** On a reading platform that is not larger, queries on a graph that was in a struct are correct. -/
theorem C129_queries {P P' : Plat} (hP : P.checked = true) (hP' : P'.checked = true) (h64 : U32_MAX < P.umax)
    (h32 : U32_MAX ≤ P'.umax) (h64' : P'.umax < 2 ^ 64) (hle : P'.umax ≤ P.umax) {ops : List Op} {ig : InputGraph} {fg g' : FastGraph}
    (hc : Client P ops ig fg) (hs : Small fg) (he : Expected P P' (.graph32 fg : Field δ) (.graph g')) (pq : PQ) (s t : Nat)
    {r : Option ShortestPath} (hq : calcPath P' pq g' s t = .ok r) :
    (r = none ↔ ¬ ∃ w < P'.umax, HasWalk (edgesOf (accepted ops)) s t w) ∧
      ∀ p, r = some p → IsDist (edgesOf (accepted ops)) s t p.weight ∧ p.nodes.head? = some s ∧ p.nodes.getLast? = some t ∧
        IsWalk (edgesOf ig.edges) p.nodes p.weight := by
  obtain ⟨_, file, e1, e2⟩ := he
  obtain ⟨file', fg', k1, k2, _, k3, _⟩ := C60_saved_32 hP h64 h32 h64' hc hs
  rw [e1] at k1
  injection k1 with k1
  subst k1
  have := k2 []
  rw [List.append_nil, e2] at this
  injection this with this
  injection this with this
  subst this
  exact k3 hP' hle pq s t r hq

/-- a concrete case: a version number, a graph in 32 bits, a graph as it is and another number; read on 64 bits, with bytes behind -/
example : ∃ bytes values, writeFields debug64 [.data encU32 7, .graph32 Ex.fg, .graph Ex.fgo, .data encU32 (2 ^ 31)] = .ok bytes ∧
    List.Forall₂ (Expected debug64 release64) [.data encU32 7, .graph32 Ex.fg, .graph Ex.fgo, .data encU32 (2 ^ 31)] values ∧
    ∀ rest, readFields release64 [.data decU32, .graph32, .graph, .data decU32] (bytes ++ rest) = .ok (.ok (values, rest)) :=
  C129_fields rfl (by decide) (by decide) (by decide)
    (.cons (fun rest => codecU32.rt 7 (by decide) rest)
      (.cons ⟨example_small, _, _, exampleClient⟩
        (.cons ⟨by unfold LenFit; decide, by decide⟩ (.cons (fun rest => codecU32.rt (2 ^ 31) (by decide) rest) .nil))))

/-- a concrete case: on 32 bits the graph of the struct answers -/
example : ∃ bytes g', writeFields debug64 [.graph32 Ex.fg, .data encU32 7] = .ok bytes ∧
    readFields debug32 [.graph32, .data decU32] bytes = .ok (.ok ([.graph g', .data 7], [])) ∧
    calcPath debug32 binaryHeap g' 0 4 = .ok (some Ex.path) := ⟨_, _, rfl, rfl, rfl⟩

/-- a concrete case: the struct without its last byte -/
example {bytes : List UInt8} (hw : writeFields debug64 [.data encU32 7, .graph32 Ex.fg] = .ok bytes) :
    ∃ e, readFields debug32 [.data decU32, .graph32] (bytes.take (bytes.length - 1)) = .ok (.error e) := by
  have hb : bytes ≠ [] := by
    rintro rfl
    cases hw
  refine C129_cut_off (P := debug64) (P' := debug32) (fields := [.data encU32 7, .graph32 Ex.fg]) (kinds := [.data decU32, .graph32]) rfl
    (by decide) (by decide) (by decide) (.cons ⟨fun rest => codecU32.rt 7 (by decide) rest, ?_⟩ (.cons ⟨⟨example_small, _, _, exampleClient⟩, trivial⟩ .nil)) hw ?_
  · intro j hj
    have : j < 4 := hj
    match j, this with
    | 0, _ => exact ⟨_, rfl⟩
    | 1, _ => exact ⟨_, rfl⟩
    | 2, _ => exact ⟨_, rfl⟩
    | 3, _ => exact ⟨_, rfl⟩
  · have := List.length_pos_of_ne_nil hb
    omega

/-- The order of the fields matters: with the first two exchanged the example is not readable. -/
example : ∃ bytes e, writeFields debug64 [.graph32 Ex.fg, .data encU32 7] = .ok bytes ∧
    readFields debug32 [.data decU32, .graph32] bytes = .ok (.error e) := ⟨_, _, rfl, rfl⟩

end FP.Props
