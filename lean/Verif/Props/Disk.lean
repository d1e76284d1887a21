import Verif.Proofs.Disk
import Verif.Props.Bounds
import Verif.Props.Convert
/-!
# Saving and loading prepared graphs

`saveToDisk g` are the bytes of the file written by `save_to_disk`, `saveToDisk32 P depth g` those written by
`save_to_disk32` on platform `P`. A graph "fits" a platform if its numbers are at most `usize::MAX` and its vectors at most
that long; graphs in the memory of a program always fit, the theorems on clients prove it. `P.umax < 2 ^ 64` says that the
platform has at most 64 bits.
-/
set_option autoImplicit false
namespace FP
namespace Props
open Spec

/-! ### C59 -/

theorem loadFromDisk_ok {P : Plat} {file : List UInt8} {g : FastGraph} :
    loadFromDisk P file = .ok g ↔ ∃ rest, (decGraph P).run file = .ok (g, rest) := by
  unfold loadFromDisk
  cases h : (decGraph P).run file with
  | error e => exact ⟨(by intro h'; cases h'), (by rintro ⟨_, h'⟩; cases h')⟩
  | ok p =>
    obtain ⟨g', r⟩ := p
    constructor
    · intro h'
      injection h' with h'
      exact ⟨r, by rw [← h']⟩
    · rintro ⟨r', h'⟩
      injection h' with h'
      injection h' with h' _
      rw [← h']
      rfl

/-- **C59** What is written is read back, on any platform the graph fits; bytes after it do not matter. -/
theorem C59_load_saved {P : Plat} (hP : P.umax < 2 ^ 64) {g : FastGraph} (hl : LenFit P g) (hv : ∀ v ∈ g.values, v ≤ P.umax)
    (rest : List UInt8) : loadFromDisk P (saveToDisk g ++ rest) = .ok g :=
  loadFromDisk_ok.2 ⟨rest, (codecGraph hP).rt g ⟨hl, hv⟩ rest⟩

/-- **C59** A platform reads the file of a graph exactly if the graph fits, and then reads nothing but this graph. -/
theorem C59_load_iff_fits {P : Plat} (hP : P.umax < 2 ^ 64) {g : FastGraph} (hl : LenFit debug64 g)
    (hv : ∀ v ∈ g.values, v < 2 ^ 64) (rest : List UInt8) (g' : FastGraph) :
    loadFromDisk P (saveToDisk g ++ rest) = .ok g' ↔ g' = g ∧ LenFit P g ∧ ∀ v ∈ g.values, v ≤ P.umax := by
  have h64 : debug64.umax < 2 ^ 64 := by decide
  have hv' : ∀ v ∈ g.values, v ≤ debug64.umax := fun v h => Nat.le_of_lt_succ (hv v h)
  constructor
  · intro h
    obtain ⟨rest', h⟩ := loadFromDisk_ok.1 h
    obtain ⟨e, l, v⟩ := (codecGraph hP).canon _ _ _ h
    have r1 := (codecGraph h64).rt g ⟨hl, hv'⟩ rest
    have hle : P.umax ≤ debug64.umax := Nat.le_of_lt_succ hP
    have r2 := (codecGraph h64).rt g' ⟨⟨l.1.trans hle, l.2.1.trans hle, l.2.2.1.trans hle, l.2.2.2.1.trans hle,
      l.2.2.2.2.trans hle⟩, fun x hx => (v x hx).trans hle⟩ rest'
    unfold saveToDisk at e
    rw [← e, r1] at r2
    injection r2 with r2
    injection r2 with r2 _
    subst r2
    exact ⟨rfl, l, v⟩
  · rintro ⟨e, l, v⟩
    rw [e]
    exact C59_load_saved hP l v rest

/-- **C59** Whatever is accepted is a file written by `save_to_disk`, up to bytes at the end. -/
theorem C59_accepted_is_saved {P : Plat} (hP : P.umax < 2 ^ 64) {file : List UInt8} {g : FastGraph}
    (h : loadFromDisk P file = .ok g) : ∃ rest, file = saveToDisk g ++ rest := by
  obtain ⟨rest, h⟩ := loadFromDisk_ok.1 h
  exact ⟨rest, ((codecGraph hP).canon _ _ _ h).1⟩

/-- **C59** A file that was cut off is rejected. -/
theorem C59_cut_off_rejected {P : Plat} (hP : P.umax < 2 ^ 64) {g : FastGraph} (hl : LenFit P g)
    (hv : ∀ v ∈ g.values, v ≤ P.umax) {k : Nat} (hk : k < (saveToDisk g).length) :
    ∃ e, loadFromDisk P ((saveToDisk g).take k) = .error e := by
  obtain ⟨e, he⟩ := (codecGraph hP).cut (a := g) ⟨hl, hv⟩ (pre := (saveToDisk g).take k) (post := (saveToDisk g).drop k)
    (List.take_append_drop k _).symm (by
      intro h
      have := congrArg List.length h
      rw [List.length_drop, List.length_nil] at this
      omega)
  refine ⟨e, ?_⟩
  unfold loadFromDisk
  rw [he]
  rfl

/-- **C59** Clients: the graph every client prepares fits, so it is read back unchanged. (`hW`: weights are `usize`.) -/
theorem C59_client {P : Plat} (hP : P.umax < 2 ^ 64) {ops : List Op} {ig : InputGraph} {fg : FastGraph}
    (hc : Client P.debug ops ig fg) (hW : ∀ e ∈ accepted ops, e.weight ≤ P.umax) (rest : List UInt8) :
    loadFromDisk P (saveToDisk fg ++ rest) = .ok fg := by
  have hF := (hc.inv rfl).frozenOk hc.frozen
  obtain ⟨f1, f2⟩ := (hc.prepared.built rfl hF).fits (weights_le (P := P.debug) rfl hc.built hW)
  obtain ⟨l, v⟩ := (hc.good rfl).words f1 f2
  exact C59_load_saved hP l v rest

/-- **C59** The length of the file of a client's graph. -/
theorem C59_length {P : Plat} (hP : P.checked = true) {ops : List Op} {ig : InputGraph} {fg : FastGraph} (hc : Client P ops ig fg) :
    (saveToDisk fg).length = 24 * ig.numNodes + 40 * (fg.getNumOutEdges + fg.getNumInEdges) + 64 := by
  have hg := hc.good hP
  have h1 : ∀ l : List Nat, (l.flatMap encUsize).length = 8 * l.length := by
    intro l
    induction l with
    | nil => rfl
    | cons e l ih =>
      rw [List.flatMap_cons, List.length_append, ih]
      simp only [encUsize, length_leBytes, List.length_cons]
      omega
  have h2 : ∀ l : List FastGraphEdge, (l.flatMap encEdge).length = 40 * l.length := by
    intro l
    induction l with
    | nil => rfl
    | cons e l ih =>
      rw [List.flatMap_cons, List.length_append, ih]
      simp only [encEdge, encUsize, List.length_append, length_leBytes, List.length_cons]
      omega
  have k1 := hg.lenR
  have k2 := hg.firstF.len
  have k3 := hg.firstB.len
  simp only [saveToDisk, encGraph, encVec, List.length_append, h1, h2, encUsize, length_leBytes, FastGraph.getNumOutEdges,
    FastGraph.getNumInEdges]
  omega

-- five nodes, eight stored edges
example : (saveToDisk Ex.fg).length = 504 := C59_length (P := debug64) rfl exampleClient

/-- **C59** A smaller platform rejects the file of every client with an edge lighter than `usize::MAX`. -/
theorem C59_smaller_platform_rejects {P P' : Plat} (hP : P.umax < 2 ^ 64) (hlt : P'.umax < P.umax) {ops : List Op}
    {ig : InputGraph} {fg : FastGraph} (hc : Client P.debug ops ig fg) (hW : ∀ e ∈ accepted ops, e.weight ≤ P.umax)
    {e : Edge} (he : e ∈ ig.edges) (hw : e.weight < P.umax) (rest : List UInt8) :
    ∃ err, loadFromDisk P' (saveToDisk fg ++ rest) = .error err := by
  have hF := (hc.inv rfl).frozenOk hc.frozen
  obtain ⟨f1, f2⟩ := (hc.prepared.built rfl hF).fits (weights_le (P := P.debug) rfl hc.built hW)
  obtain ⟨l, v⟩ := (hc.good rfl).words f1 f2
  have hle : P.debug.umax ≤ debug64.umax := Nat.le_of_lt_succ hP
  cases h : loadFromDisk P' (saveToDisk fg ++ rest) with
  | error err => exact ⟨err, rfl⟩
  | ok g' =>
    obtain ⟨_, _, h'⟩ := (C59_load_iff_fits (Nat.lt_trans hlt hP) ⟨l.1.trans hle, l.2.1.trans hle, l.2.2.1.trans hle,
      l.2.2.2.1.trans hle, l.2.2.2.2.trans hle⟩ (fun x hx => Nat.lt_of_le_of_lt (v x hx) hP) rest g').1 h
    have hr := hF.lt e he
    obtain ⟨ed, hed, hm⟩ := (hc.good rfl).mark (u := e.src) (v := e.dst) (w := e.weight) he hr.1 hr.2 (hF.ne e he) hw
    have : P.debug.umax ∈ fg.values := by
      unfold FastGraph.values
      simp only [List.mem_cons, List.mem_append, List.mem_flatMap]
      have hin : P.debug.umax ∈ ed.values := by
        rw [← hm]
        simp [FastGraphEdge.values]
      rcases List.mem_append.1 hed with h | h
      · exact Or.inr (Or.inl (Or.inl (Or.inl (Or.inr ⟨ed, h, hin⟩))))
      · exact Or.inr (Or.inl (Or.inr ⟨ed, h, hin⟩))
    have := h' _ this
    exact absurd hlt (Nat.not_lt.2 this)

example (rest : List UInt8) : loadFromDisk release64 (saveToDisk Ex.fg ++ rest) = .ok Ex.fg :=
  C59_client (P := release64) (by decide) exampleClient (by decide) rest
example : ∃ err, loadFromDisk debug32 (saveToDisk Ex.fg) = .error err := by
  have := C59_smaller_platform_rejects (P := debug64) (P' := debug32) (by decide) (by decide) exampleClient (by decide)
    (e := ⟨0, 1, 3⟩) (by decide) (by decide) []
  rwa [List.append_nil] at this
example : ∃ err, loadFromDisk debug64 ((saveToDisk Ex.fg).take 100) = .error err :=
  C59_cut_off_rejected (by decide) (by unfold LenFit; decide) (by decide) (by decide +kernel)

/-- **C59, a larger platform** accepts the file of a 32-bit platform but can not use it: the marks of edges that are not
shortcuts are taken for edge ids, and the query panics. (`save_to_disk32`, lib.rs:661-664, does not help: it does not return
on a 32-bit platform, see C30.) -/
theorem C59_larger_platform_panics : ∃ (ops : List Op) (ig : InputGraph) (fg : FastGraph) (p : ShortestPath),
    Client debug32 ops ig fg ∧ calcPath debug32 binaryHeap fg 0 1 = .ok (some p) ∧
    loadFromDisk debug64 (saveToDisk fg) = .ok fg ∧ calcPath debug64 binaryHeap fg 0 1 = .error .index := by
  refine ⟨[.addEdge 0 1 5, .freeze], _, _, _, ⟨rfl, rfl, .order binaryHeap [0, 1] (by decide) rfl⟩, rfl, ?_, rfl⟩
  have := C59_load_saved (P := debug64) (by decide)
    (g := ⟨2, [0, 1], [⟨0, 1, 5, 4294967295, 4294967295⟩], [0, 1, 1], [], [0, 0, 0]⟩) (by unfold LenFit; decide) (by decide) []
  rw [List.append_nil] at this
  exact this

/-! ### C60 -/

/-- **C60** A client's graph with fewer than `u32::MAX` nodes and edges and weights below `u32::MAX`, saved with
`save_to_disk32` on a platform with more than 32 bits, is loaded with `load_from_disk32` on any platform with 32 to 64 bits.
If the two platforms agree in their `usize` it is unchanged; if the reading one is smaller its queries are correct. The
file has half the size of that of `save_to_disk`, up to 20 bytes, and any shorter part of it is rejected. -/
theorem C60_saved_32 {P P' : Plat} (hP : P.checked = true) (h64 : U32_MAX < P.umax) (h32 : U32_MAX ≤ P'.umax)
    (h64' : P'.umax < 2 ^ 64) {ops : List Op} {ig : InputGraph} {fg : FastGraph} (hc : Client P ops ig fg) (hs : Small fg) :
    ∃ file fg', saveToDisk32 P 2 fg = .ok file ∧
      (∀ rest, loadFromDisk32 P' (file ++ rest) = .ok (.ok fg')) ∧
      (P'.umax = P.umax → fg' = fg) ∧
      (P'.checked = true → P'.umax ≤ P.umax → ∀ (pq : PQ) (s t : Nat) (r : Option ShortestPath), calcPath P' pq fg' s t = .ok r →
        (r = none ↔ ¬ ∃ w < P'.umax, HasWalk (edgesOf (accepted ops)) s t w) ∧
        ∀ p, r = some p → IsDist (edgesOf (accepted ops)) s t p.weight ∧ p.nodes.head? = some s ∧
          p.nodes.getLast? = some t ∧ IsWalk (edgesOf ig.edges) p.nodes p.weight) ∧
      2 * file.length = (saveToDisk fg).length + 40 ∧
      ∀ k < file.length, ∃ e, loadFromDisk32 P' (file.take k) = .ok (.error e) := by
  have hg := hc.good hP
  have hf := hg.fitsStrictly hs
  have hnew := new32_ok h64 0 hf.fits
  have hcv := convert_ok h32 h64 hf
  have hn := hs.num
  have hout := hs.out
  have hinn := hs.inn
  rw [hg.num] at hn
  have hl : LenFit P' fg := ⟨by rw [hg.lenR]; omega, by omega, by rw [hg.firstF.len]; omega, by omega, by rw [hg.firstB.len]; omega⟩
  have hfit : Fit32 P' (toU32Graph P fg) := toU32Graph_fit hf.fits hl
  refine ⟨encGraph32 (toU32Graph P fg), moveGraph P P' fg, ?_, ?_, ?_, ?_, ?_, ?_⟩
  · unfold saveToDisk32
    rw [hnew]
    rfl
  · intro rest
    unfold loadFromDisk32
    rw [(codecGraph32 h64').rt _ hfit rest]
    simp only [hcv, bind_okM]
  · intro hu
    exact moveGraph_self hu fg
  · intro hP' hle pq s t r hq
    obtain ⟨g32, fg', e1, e2, h⟩ := C49_read_on_smaller_platform hP hP' h64 h32 hle hc hs
    rw [hnew] at e1
    injection e1 with e1
    rw [← e1, hcv] at e2
    injection e2 with e2
    rw [e2] at hq
    exact h pq s t r hq
  · unfold saveToDisk
    rw [length_encGraph, length_encGraph32]
    simp only [toU32Graph, List.length_map]
    omega
  · intro k hk
    obtain ⟨e, he⟩ := (codecGraph32 h64').cut hfit (pre := (encGraph32 (toU32Graph P fg)).take k)
      (post := (encGraph32 (toU32Graph P fg)).drop k) (List.take_append_drop k _).symm (by
        intro h
        have := congrArg List.length h
        rw [List.length_drop, List.length_nil] at this
        omega)
    refine ⟨e, ?_⟩
    unfold loadFromDisk32
    rw [he]

example : ∃ file fg', saveToDisk32 debug64 2 Ex.fg = .ok file ∧ loadFromDisk32 debug32 file = .ok (.ok fg') ∧
    loadFromDisk32 debug64 file = .ok (.ok Ex.fg) ∧ calcPath debug32 binaryHeap fg' 0 4 = .ok (some Ex.path) :=
  ⟨_, _, rfl, rfl, rfl, rfl⟩
example : ∃ file, saveToDisk32 debug64 2 Ex.fg = .ok file ∧ ∀ rest, loadFromDisk32 release64 (file ++ rest) = .ok (.ok Ex.fg) := by
  obtain ⟨file, fg', h1, h2, h3, _⟩ := C60_saved_32 (P := debug64) (P' := release64) rfl (by decide) (by decide) (by decide)
    exampleClient example_small
  rw [h3 rfl] at h2
  exact ⟨file, h1, h2⟩

/-- **C60** Saving panics exactly when some number of the graph neither fits into 32 bits nor is `usize::MAX`. -/
theorem C60_save_rejects_exactly {P : Plat} (h64 : U32_MAX < P.umax) (g : FastGraph) :
    saveToDisk32 P 2 g = .error .assertion ↔ ∃ v ∈ g.values, U32_MAX < v ∧ v ≠ P.umax := by
  rw [← (C28_rejects_exactly h64 g).1]
  unfold saveToDisk32
  cases h : FastGraph32.new P 2 g with
  | error e =>
    constructor
    · intro h'
      replace h' : (Except.error e : M (List UInt8)) = .error .assertion := h'
      injection h' with h'
      rw [h']
    · intro h'
      injection h' with h'
      rw [h']
      rfl
  | ok g32 => exact ⟨(by intro h'; cases h'), (by intro h'; cases h')⟩

/-! ### C61 -/

/-- **C61** Reading the 32-bit representation, exactly: on platforms with at least 32 bits, `u32::MAX` becomes
`usize::MAX`, every other number (and the node count) stays as it is; there is a panic only if the node count itself is
`usize::MAX`, which needs a 32-bit platform. -/
theorem C61_convert_exact {P : Plat} (h32 : U32_MAX ≤ P.umax) {g : FastGraph32} (hg : Fit32 P g) :
    let back : Nat → Nat := fun v => if v = U32_MAX then P.umax else v
    let backEdge : FastGraphEdge32 → FastGraphEdge := fun e =>
      ⟨back e.baseNode, back e.adjNode, back e.weight, back e.replacedInEdge, back e.replacedOutEdge⟩
    (g.numNodes < P.umax → g.convertToUsize P = .ok ⟨g.numNodes, g.ranks.map back, g.edgesFwd.map backEdge,
      g.firstEdgeIdsFwd.map back, g.edgesBwd.map backEdge, g.firstEdgeIdsBwd.map back⟩) ∧
    (g.numNodes = P.umax → g.convertToUsize P = .error .capacity) := by
  intro back backEdge
  obtain ⟨h0, ⟨_, h1⟩, ⟨_, h2⟩, ⟨_, h3⟩, ⟨_, h4⟩, ⟨_, h5⟩⟩ := hg
  have hb : ∀ v ≤ U32_MAX, u32ToUsize P v = back v := by
    intro v hv
    simp only [back]
    unfold u32ToUsize u32AsUsize
    by_cases e : v = U32_MAX
    · rw [if_pos e, if_pos (by rw [e]; rfl)]
    · rw [if_neg e, if_neg (by simpa using e), Nat.mod_eq_of_lt (by omega)]
  have he : ∀ e : FastGraphEdge32, (∀ v ∈ e.vals, v ≤ U32_MAX) → u32ToUsizeEdge P e = backEdge e := by
    intro e h
    simp only [FastGraphEdge32.vals, List.mem_cons, List.not_mem_nil, or_false, forall_eq_or_imp, forall_eq] at h
    obtain ⟨a1, a2, a3, a4, a5⟩ := h
    simp only [backEdge]
    unfold u32ToUsizeEdge
    rw [hb _ a1, hb _ a2, hb _ a3, hb _ a4, hb _ a5]
  have hn : u32AsUsize P g.numNodes = g.numNodes := by
    unfold u32AsUsize
    rw [Nat.mod_eq_of_lt (by omega)]
  unfold FastGraph32.convertToUsize FastGraph.new
  rw [hn]
  constructor
  · intro hlt
    rw [if_pos hlt]
    simp only [bind_okM]
    rw [List.map_congr_left (fun a ha => hb a (h1 a ha)), List.map_congr_left (fun a ha => he a (h2 a ha)),
      List.map_congr_left (fun a ha => hb a (h3 a ha)), List.map_congr_left (fun a ha => he a (h4 a ha)),
      List.map_congr_left (fun a ha => hb a (h5 a ha))]
    rfl
  · intro heq
    rw [if_neg (by omega)]
    rfl

example : FastGraph32.convertToUsize debug32 ⟨4294967295, [], [], [], [], []⟩ = .error .capacity :=
  (C61_convert_exact (P := debug32) (by decide) (by unfold Fit32; decide)).2 rfl
example : ∃ g, FastGraph32.convertToUsize debug64 ⟨4294967295, [4294967295, 7], [], [], [], []⟩ = .ok g ∧
    g.ranks = [18446744073709551615, 7] :=
  ⟨_, (C61_convert_exact (P := debug64) (by decide) (by unfold Fit32; decide)).1 (by decide), by decide⟩

/-- **C61** On a platform with 16 bits `as usize` keeps the lower 16 bits of a number, so a graph that is too large is read as another
graph without an error. -/
theorem C61_narrow {P : Plat} (h16 : P.umax = 2 ^ 16 - 1) (g : FastGraph32) :
    let back : Nat → Nat := fun v => if v = U32_MAX then P.umax else v % 2 ^ 16
    let backEdge : FastGraphEdge32 → FastGraphEdge := fun e =>
      ⟨back e.baseNode, back e.adjNode, back e.weight, back e.replacedInEdge, back e.replacedOutEdge⟩
    (g.numNodes % 2 ^ 16 < P.umax → g.convertToUsize P = .ok ⟨g.numNodes % 2 ^ 16, g.ranks.map back, g.edgesFwd.map backEdge,
      g.firstEdgeIdsFwd.map back, g.edgesBwd.map backEdge, g.firstEdgeIdsBwd.map back⟩) ∧
    (g.numNodes % 2 ^ 16 = P.umax → g.convertToUsize P = .error .capacity) := by
  intro back backEdge
  have hn : ∀ v, u32AsUsize P v = v % 2 ^ 16 := by
    intro v
    unfold u32AsUsize
    rw [show P.umax + 1 = 2 ^ 16 by omega]
  have hb : u32ToUsize P = back := by
    funext v
    simp only [back]
    unfold u32ToUsize
    by_cases e : v = U32_MAX
    · rw [if_pos e, if_pos (by rw [e]; rfl)]
    · rw [if_neg e, if_neg (by simpa using e), hn]
  have he : u32ToUsizeEdge P = backEdge := by
    funext e
    simp only [backEdge]
    unfold u32ToUsizeEdge
    rw [hb]
  unfold FastGraph32.convertToUsize FastGraph.new
  rw [hn, hb, he]
  constructor
  · intro hlt
    rw [if_pos hlt]
    rfl
  · intro h
    rw [if_neg (by omega)]
    rfl

/-- 65541 nodes become 5. -/
example : ∃ g, FastGraph32.convertToUsize ⟨65535, true⟩ ⟨65541, [65537, 4294967295], [], [], [], []⟩ = .ok g ∧ g.numNodes = 5 ∧
    g.ranks = [1, 65535] :=
  ⟨_, (C61_narrow (P := ⟨65535, true⟩) rfl _).1 (by decide), by decide, by decide⟩

end Props
end FP
