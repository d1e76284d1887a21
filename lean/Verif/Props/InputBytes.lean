import Verif.Proofs.Bincode
import Verif.Props.Bounds
/-!
# Storing input graphs in binary form

`InputGraph` derives serde's traits, so a client can store it (or a larger value that contains it) with bincode.
-/
set_option autoImplicit false
namespace FP
namespace Props
open Spec

/-- The numbers of the graph are `usize` values of the platform, the list is not longer than `usize::MAX`. -/
def InputFits (P : Plat) (g : InputGraph) : Prop :=
  g.edges.length ≤ P.umax ∧ g.numNodes ≤ P.umax ∧ ∀ e ∈ g.edges, e.src ≤ P.umax ∧ e.dst ≤ P.umax ∧ e.weight ≤ P.umax

theorem loadInput_ok {P : Plat} {file : List UInt8} {g : InputGraph} :
    loadInput P file = .ok g ↔ ∃ rest, (decInput P).run file = .ok (g, rest) := by
  unfold loadInput
  cases h : (decInput P).run file with
  | error e => exact ⟨(by intro h'; cases h'), (by rintro ⟨_, h'⟩; cases h')⟩
  | ok p =>
    obtain ⟨g', r⟩ := p
    constructor
    · intro h'
      injection h' with h'
      exact ⟨r, by rw [← h']⟩
    · rintro ⟨r', h'⟩
      injection h' with h'
      injection h' with h' _
      rw [← h']
      rfl

/-- **C81** What is written is read back, frozen or not; bytes after it do not matter. -/
theorem C81_load_saved {P : Plat} (hP : P.umax < 2 ^ 64) {g : InputGraph} (h : InputFits P g) (rest : List UInt8) :
    loadInput P (encInput g ++ rest) = .ok g :=
  loadInput_ok.2 ⟨rest, (codecInput hP).rt g ⟨⟨h.1, h.2.2⟩, h.2.1, trivial⟩ rest⟩

/-- **C81** Every accepted file begins with the bytes of the graph that is returned, and this graph fits the platform. -/
theorem C81_accepted_is_saved {P : Plat} (hP : P.umax < 2 ^ 64) {file : List UInt8} {g : InputGraph} (h : loadInput P file = .ok g) :
    (∃ rest, file = encInput g ++ rest) ∧ InputFits P g := by
  obtain ⟨rest, h⟩ := loadInput_ok.1 h
  obtain ⟨e, ⟨h1, h2⟩, h3, _⟩ := (codecInput hP).canon _ _ _ h
  exact ⟨⟨rest, e⟩, h1, h3, h2⟩

/-- **C81** A platform reads the file of another one exactly if the graph fits, and then reads nothing but this graph. -/
theorem C81_load_iff_fits {P P' : Plat} (hP : P.umax < 2 ^ 64) (hP' : P'.umax < 2 ^ 64) {g : InputGraph} (hg : InputFits P g)
    (rest : List UInt8) (g' : InputGraph) : loadInput P' (encInput g ++ rest) = .ok g' ↔ g' = g ∧ InputFits P' g := by
  constructor
  · intro h
    obtain ⟨⟨rest', e⟩, hf⟩ := C81_accepted_is_saved hP' h
    have h64 : debug64.umax < 2 ^ 64 := by decide
    have up : ∀ {Q : Plat} {x : InputGraph}, Q.umax < 2 ^ 64 → InputFits Q x → InputFits debug64 x := by
      intro Q x hQ hx
      have hle : Q.umax ≤ debug64.umax := Nat.le_of_lt_succ hQ
      exact ⟨le_trans hx.1 hle, le_trans hx.2.1 hle, fun e he =>
        ⟨le_trans (hx.2.2 e he).1 hle, le_trans (hx.2.2 e he).2.1 hle, le_trans (hx.2.2 e he).2.2 hle⟩⟩
    have r1 := C81_load_saved h64 (up hP hg) rest
    have r2 := C81_load_saved h64 (up hP' hf) rest'
    rw [e, r2] at r1
    injection r1 with r1
    subst r1
    exact ⟨rfl, hf⟩
  · rintro ⟨rfl, hf⟩
    exact C81_load_saved hP' hf rest

/-- **C81** A file that was cut off is rejected. -/
theorem C81_cut_off_rejected {P : Plat} (hP : P.umax < 2 ^ 64) {g : InputGraph} (h : InputFits P g) {k : Nat}
    (hk : k < (encInput g).length) : ∃ e, loadInput P ((encInput g).take k) = .error e := by
  obtain ⟨e, he⟩ := (codecInput hP).cut (a := g) ⟨⟨h.1, h.2.2⟩, h.2.1, trivial⟩ (pre := (encInput g).take k)
    (post := (encInput g).drop k) (List.take_append_drop k _).symm (by
      intro h
      have := congrArg List.length h
      rw [List.length_drop, List.length_nil] at this
      omega)
  refine ⟨e, ?_⟩
  unfold loadInput
  rw [he]
  rfl

theorem run_fits {P P' : Plat} (hP : P.checked = true) {g g' : InputGraph} {op : Op} (h : op.run P g = .ok g') :
    g.numNodes ≤ g'.numNodes ∧ (g'.numNodes ≤ P'.umax → op.run P' g = .ok g') := by
  have key : ∀ {s d w : Nat} {b : Bool} {r : InputGraph × Nat}, g.doAddEdge P s d w b = .ok r →
      g.numNodes ≤ r.1.numNodes ∧ (r.1.numNodes ≤ P'.umax → g.doAddEdge P' s d w b = .ok r) := by
    intro s d w b r h
    unfold InputGraph.doAddEdge at h ⊢
    by_cases h1 : g.frozen = true
    · rw [if_pos h1] at h; cases h
    · rw [if_neg h1] at h ⊢
      by_cases h2 : (s == d) = true
      · rw [if_pos h2] at h ⊢; cases h; exact ⟨le_refl _, fun _ => rfl⟩
      · rw [if_neg h2] at h ⊢
        by_cases h3 : w < 1
        · rw [if_pos h3] at h ⊢; cases h; exact ⟨le_refl _, fun _ => rfl⟩
        · rw [if_neg h3] at h ⊢
          obtain ⟨m, e, h⟩ := bind_eq_ok.1 h
          obtain ⟨rfl, _⟩ := (Tri_addW hP _ _).of_ok e
          injection h with h
          subst h
          refine ⟨Nat.le_max_left _ _, fun hle => ?_⟩
          have hle : max g.numNodes (max s d + 1) ≤ P'.umax := hle
          rw [addW_ok (by omega)]
          rfl
  cases op with
  | addEdge s d w =>
    obtain ⟨r, e, h⟩ := bind_eq_ok.1 h
    cases h
    obtain ⟨h1, h2⟩ := key e
    refine ⟨h1, fun hle => ?_⟩
    show (g.doAddEdge P' s d w false >>= _) = _
    rw [h2 hle]; rfl
  | addEdgeBidir s d w =>
    obtain ⟨r, e, h⟩ := bind_eq_ok.1 h
    cases h
    obtain ⟨h1, h2⟩ := key e
    refine ⟨h1, fun hle => ?_⟩
    show (g.doAddEdge P' s d w true >>= _) = _
    rw [h2 hle]; rfl
  | freeze =>
    refine ⟨?_, fun _ => h⟩
    have h : g.freeze = .ok g' := h
    unfold InputGraph.freeze at h
    split at h
    · cases h
    · cases h; exact le_refl _
  | thaw =>
    have h : (.ok g.thaw : M InputGraph) = .ok g' := h
    cases h
    exact ⟨le_refl _, fun _ => rfl⟩

/-- **C81** Storing a graph and loading it, on the same or on another platform, is as if it had been built where it is loaded: if it is
accepted, the same calls give the same graph there. So whatever is proved about clients holds for the loaded graph. -/
theorem C81_client {P P' : Plat} (hP : P.umax < 2 ^ 64) (hP' : P'.umax < 2 ^ 64) {ops : List Op} {ig ig' : InputGraph}
    (hb : buildGraph P.debug ops = .ok ig) (hlen : ig.edges.length ≤ P.umax) (hW : ∀ e ∈ accepted ops, e.weight ≤ P.umax)
    (rest : List UInt8) (hl : loadInput P' (encInput ig ++ rest) = .ok ig') : ig' = ig ∧ buildGraph P'.debug ops = .ok ig := by
  have hi := buildGraph_inv (P := P.debug) (Or.inl rfl) hb
  have hn : ig.numNodes ≤ P.umax := buildGraph_num_le (P := P.debug) hb
  have hfit : InputFits P ig := by
    refine ⟨hlen, hn, fun e he => ?_⟩
    have := nodeCount_gt e (hi.sub e he)
    rw [← hi.num] at this
    exact ⟨by omega, by omega, hW e (hi.sub e he)⟩
  obtain ⟨rfl, hf⟩ := (C81_load_iff_fits hP hP' hfit rest ig').1 hl
  refine ⟨rfl, ?_⟩
  suffices ∀ (ops : List Op) (g : InputGraph), forM (fun g (op : Op) => op.run P.debug g) g ops = .ok ig' →
      g.numNodes ≤ ig'.numNodes ∧ forM (fun g (op : Op) => op.run P'.debug g) g ops = .ok ig' from (this ops _ hb).2
  intro ops
  induction ops with
  | nil => intro g h; cases h; exact ⟨le_refl _, rfl⟩
  | cons op ops ih =>
    intro g h
    obtain ⟨g1, e, h⟩ := bind_eq_ok.1 h
    obtain ⟨h1, h2⟩ := ih g1 h
    obtain ⟨h3, h4⟩ := run_fits (P' := P'.debug) rfl e
    refine ⟨le_trans h3 h1, ?_⟩
    show (op.run P'.debug g >>= _) = _
    rw [h4 (le_trans h1 hf.2.1)]
    exact h2

/-- **C81** The length of the file. -/
theorem C81_length (g : InputGraph) : (encInput g).length = 24 * g.edges.length + 17 := by
  have h : ∀ l : List Edge, (l.flatMap encInputEdge).length = 24 * l.length := by
    intro l
    induction l with
    | nil => rfl
    | cons e l ih =>
      rw [List.flatMap_cons, List.length_append, ih]
      simp only [encInputEdge, encUsize, List.length_append, length_leBytes, List.length_cons]
      omega
  simp only [encInput, encVec, encUsize, encBool, List.length_append, length_leBytes, h, List.length_singleton]
  omega

example : loadInput debug32 (encInput Ex.ig ++ [7]) = .ok Ex.ig := C81_load_saved (by decide) (by unfold InputFits; decide) _
example : ∀ k < 185, ∃ e, loadInput debug64 ((encInput Ex.ig).take k) = .error e := fun _ hk =>
  C81_cut_off_rejected (by decide) (by unfold InputFits; decide) (by rw [C81_length]; exact hk)
example : buildGraph debug32 Ex.ops = .ok Ex.ig :=
  (C81_client (P := release64) (P' := debug32) (by decide) (by decide) (ops := Ex.ops) rfl (by decide) (by decide) []
    (C81_load_saved (by decide) (by unfold InputFits; decide) _)).2
-- an unfrozen graph, byte by byte
example : encInput ⟨[⟨1, 258, 3⟩], 259, false⟩ = [1, 0, 0, 0, 0, 0, 0, 0, 1, 0, 0, 0, 0, 0, 0, 0, 2, 1, 0, 0, 0, 0, 0, 0,
    3, 0, 0, 0, 0, 0, 0, 0, 3, 1, 0, 0, 0, 0, 0, 0, 0] := by decide
-- a weight that is too large for 32 bits, and a byte that is no `bool`
example : loadInput debug32 (encInput ⟨[⟨0, 1, 4294967296⟩], 2, true⟩) = .error .tooLarge := by decide
example : loadInput debug64 (List.replicate 16 0 ++ [2]) = .error .badBool := by decide
example : loadInput debug64 (List.replicate 16 0 ++ [1]) = .ok ⟨[], 0, true⟩ := by decide

end Props
end FP
