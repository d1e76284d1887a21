import Verif.Proofs.DiskWriter
import Verif.Props.Disk
import Verif.Props.Writing
/-!
# Saving prepared graphs to a disk that may fail

`saveGraph env disk g` and `saveGraph32 P depth env disk g` are `save_to_disk` and `save_to_disk32`: what is found under the name of the file
afterwards and how the call ended. `disk` is what was there before, `env` says for every write whether it fails and how many bytes it takes.
`loadGraph`, `loadGraph32` are `load_from_disk` and `load_from_disk32`.
-/
set_option autoImplicit false
namespace FP
namespace Props
open Spec Writer TextBytes DiskWriter

/-- **C75** If `save_to_disk` returns `Ok` the file is complete, whatever the disk did in between. -/
theorem C75_ok_complete {env : Env} {disk disk' : Disk} {g : FastGraph} (h : saveGraph env disk g = (disk', .ok)) :
    disk' = some (saveToDisk g) := by
  rw [← graphPieces_flatten]
  exact (createAndWrite_ok h).2

/-- **C75** If it returns an error, either the file could not be created and is what it was before, or some bytes at the end are missing
– at least one. -/
theorem C75_err {env : Env} {disk disk' : Disk} {g : FastGraph} (h : saveGraph env disk g = (disk', .err)) :
    (env.create = false ∧ disk' = disk) ∨
    (env.create = true ∧ ∃ k < (saveToDisk g).length, disk' = some ((saveToDisk g).take k)) := by
  rcases createAndWrite_err h with h1 | ⟨h1, bytes, rest, h2, h3, h4⟩
  · exact Or.inl h1
  · rw [graphPieces_flatten] at h4
    refine Or.inr ⟨h1, bytes.length, ?_, ?_⟩
    · rw [← h4, List.length_append]
      have := List.length_pos_iff.2 h3
      omega
    · rw [h2, ← h4, List.take_left]

/-- **C75** There is no other outcome, and on a disk that takes at least one byte with every write it is `Ok`. -/
theorem C75_outcomes {env : Env} {disk : Disk} {g : FastGraph} :
    ((saveGraph env disk g).2 = .ok ∨ (saveGraph env disk g).2 = .err) ∧
    (env.create = true → (∀ i n, ∃ k, env.write i n = some (k + 1)) → (saveGraph env disk g).2 = .ok) := by
  refine ⟨createAndWrite_saved _ _ _, fun hc hgood => ?_⟩
  unfold saveGraph
  rw [createAndWrite_good ⟨hc, hgood⟩]

/-- **C75** `load_from_disk` returns a graph exactly if the file exists, starts with what `save_to_disk` writes for this graph, and all
numbers fit into the `usize` of the platform: a file that does not exist is an error. -/
theorem C75_load_exactly {P : Plat} (hP : P.umax < 2 ^ 64) {disk : Disk} {g : FastGraph} :
    loadGraph P disk = .ok g ↔
      ∃ rest, disk = some (saveToDisk g ++ rest) ∧ LenFit P g ∧ ∀ v ∈ g.values, v ≤ P.umax := by
  unfold loadGraph
  cases disk with
  | none => exact ⟨fun h => (by cases h), fun ⟨_, h, _⟩ => (by cases h)⟩
  | some bytes =>
    constructor
    · intro h
      cases h' : loadFromDisk P bytes with
      | error e => simp only [h'] at h; cases h
      | ok g' =>
        simp only [h'] at h
        injection h with h
        subst h
        obtain ⟨rest, h''⟩ := loadFromDisk_ok.1 h'
        obtain ⟨e, l, v⟩ := (codecGraph hP).canon _ _ _ h''
        exact ⟨rest, congrArg some e, l, v⟩
    · rintro ⟨rest, h, l, v⟩
      injection h with h
      subst h
      simp only [C59_load_saved hP l v rest]

example : loadGraph debug64 none = .error .io := rfl
example : loadGraph debug64 (some (saveToDisk Ex.fg ++ [1, 2])) = .ok Ex.fg :=
  (C75_load_exactly (by decide)).2 ⟨[1, 2], rfl, by unfold LenFit; decide, by decide⟩

/-- **C75** What a client finds when loading: after `Ok` the graph that was saved; after an error with a file that was created nothing is
loaded – never a wrong graph. -/
theorem C75_client {P : Plat} (hP : P.umax < 2 ^ 64) {ops : List Op} {ig : InputGraph} {fg : FastGraph}
    (hc : Client P.debug ops ig fg) (hW : ∀ e ∈ accepted ops, e.weight ≤ P.umax) (env : Env) (disk : Disk) :
    ((saveGraph env disk fg).2 = .ok → loadGraph P (saveGraph env disk fg).1 = .ok fg) ∧
    ((saveGraph env disk fg).2 = .err → env.create = true → ∃ e, loadGraph P (saveGraph env disk fg).1 = .error (.content e)) ∧
    (env.create = false → saveGraph env disk fg = (disk, .err)) := by
  refine ⟨fun h => ?_, fun h hcr => ?_, fun h => ?_⟩
  · rw [C75_ok_complete (Prod.ext rfl h : saveGraph env disk fg = ((saveGraph env disk fg).1, .ok))]
    have := C59_client hP hc hW []
    rw [List.append_nil] at this
    unfold loadGraph
    simp only [this]
  · rcases C75_err (Prod.ext rfl h : saveGraph env disk fg = ((saveGraph env disk fg).1, .err)) with ⟨h1, _⟩ | ⟨_, k, hk, h1⟩
    · rw [hcr] at h1; cases h1
    · rw [h1]
      have hF := (hc.inv rfl).frozenOk hc.frozen
      obtain ⟨f1, f2⟩ := (hc.prepared.built rfl hF).fits (weights_le (P := P.debug) rfl hc.built hW)
      obtain ⟨l, v⟩ := (hc.good rfl).words f1 f2
      obtain ⟨e, he⟩ := C59_cut_off_rejected hP l v hk
      refine ⟨e, ?_⟩
      unfold loadGraph
      simp only [he]
  · unfold saveGraph createAndWrite
    rw [h]
    rfl

-- a disk that takes three bytes at a time, one that takes eleven bytes in all
example : (saveGraph slowDisk (some [1, 2]) Ex.fg).2 = .ok ∧
    loadGraph debug64 (saveGraph slowDisk (some [1, 2]) Ex.fg).1 = .ok Ex.fg :=
  have h := (C75_outcomes (env := slowDisk) (disk := some [1, 2]) (g := Ex.fg)).2 rfl (fun _ _ => ⟨2, rfl⟩)
  ⟨h, (C75_client (P := debug64) (by decide) exampleClient (by decide) slowDisk (some [1, 2])).1 h⟩
example : saveGraph ⟨true, fun i _ => if i < 2 then some 8 else if i = 2 then some 3 else none⟩ none Ex.fg =
    (some [5, 0, 0, 0, 0, 0, 0, 0, 5, 0, 0, 0, 0, 0, 0, 0, 0, 0, 0], .err) := rfl
example : ∃ e, loadGraph debug64 (saveGraph brokenDisk none Ex.fg).1 = .error (.content e) :=
  (C75_client (P := debug64) (by decide) exampleClient (by decide) brokenDisk none).2.1 rfl rfl

/-- **C75** `save_to_disk32`: after `Ok` the file is complete; after an error it is as before or some bytes are missing; if the conversion
panics the file is as before. -/
theorem C75_save_32 {P : Plat} {depth : Nat} {env : Env} {disk : Disk} {g : FastGraph} :
    (∀ p, saveToDisk32 P depth g = .error p → saveGraph32 P depth env disk g = (disk, .panic p)) ∧
    (∀ file, saveToDisk32 P depth g = .ok file →
      (∀ disk', saveGraph32 P depth env disk g = (disk', .ok) → disk' = some file) ∧
      (∀ disk', saveGraph32 P depth env disk g = (disk', .err) → (env.create = false ∧ disk' = disk) ∨
        (env.create = true ∧ ∃ k < file.length, disk' = some (file.take k))) ∧
      ((saveGraph32 P depth env disk g).2 = .ok ∨ (saveGraph32 P depth env disk g).2 = .err) ∧
      (env.create = true → (∀ i n, ∃ k, env.write i n = some (k + 1)) → (saveGraph32 P depth env disk g).2 = .ok)) := by
  unfold saveToDisk32 saveGraph32
  cases h : FastGraph32.new P depth g with
  | error p =>
    refine ⟨fun q hq => ?_, fun file hf => (by cases hf)⟩
    replace hq : (Except.error p : M (List UInt8)) = .error q := hq
    injection hq with hq
    subst hq
    rfl
  | ok g32 =>
    refine ⟨fun q hq => (by cases hq), fun file hf => ?_⟩
    replace hf : (Except.ok (encGraph32 g32) : M (List UInt8)) = .ok file := hf
    injection hf with hf
    subst hf
    simp only
    refine ⟨fun disk' hd => ?_, fun disk' hd => ?_, createAndWrite_saved _ _ _, fun hc hgood => ?_⟩
    · rw [← graphPieces32_flatten]
      exact (createAndWrite_ok hd).2
    · rcases createAndWrite_err hd with h1 | ⟨h1, bytes, rest, h2, h3, h4⟩
      · exact Or.inl h1
      · rw [graphPieces32_flatten] at h4
        refine Or.inr ⟨h1, bytes.length, ?_, ?_⟩
        · rw [← h4, List.length_append]
          have := List.length_pos_iff.2 h3
          omega
        · rw [h2, ← h4, List.take_left]
    · rw [createAndWrite_good ⟨hc, hgood⟩]

/-- **C75** Clients with graphs as in C60: after `Ok` of `save_to_disk32` the graph can be loaded with `load_from_disk32` on any platform
with 32 to 64 bits and is unchanged if the platforms agree in their `usize`; after an error with a file that was created the file is
refused. -/
theorem C75_client_32 {P P' : Plat} (hP : P.checked = true) (h64 : U32_MAX < P.umax) (h32 : U32_MAX ≤ P'.umax)
    (h64' : P'.umax < 2 ^ 64) {ops : List Op} {ig : InputGraph} {fg : FastGraph} (hc : Client P ops ig fg) (hs : Small fg)
    (env : Env) (disk : Disk) :
    ((saveGraph32 P 2 env disk fg).2 = .ok → ∃ fg', loadGraph32 P' (saveGraph32 P 2 env disk fg).1 = .ok (.ok fg') ∧
      (P'.umax = P.umax → fg' = fg)) ∧
    ((saveGraph32 P 2 env disk fg).2 = .err → env.create = true →
      ∃ e, loadGraph32 P' (saveGraph32 P 2 env disk fg).1 = .ok (.error (.content e))) := by
  obtain ⟨file, fg', h1, h2, h3, _, _, h4⟩ := C60_saved_32 (P' := P') hP h64 h32 h64' hc hs
  obtain ⟨k1, k2, _, _⟩ := (C75_save_32 (env := env) (disk := disk)).2 file h1
  refine ⟨fun h => ⟨fg', ?_, h3⟩, fun h hcr => ?_⟩
  · rw [k1 (saveGraph32 P 2 env disk fg).1 (Prod.ext rfl h)]
    have := h2 []
    rw [List.append_nil] at this
    unfold loadGraph32
    simp only [this, bind_okM]
  · rcases k2 (saveGraph32 P 2 env disk fg).1 (Prod.ext rfl h) with ⟨h5, _⟩ | ⟨_, k, hk, h5⟩
    · rw [hcr] at h5; cases h5
    · obtain ⟨e, he⟩ := h4 k hk
      refine ⟨e, ?_⟩
      rw [h5]
      unfold loadGraph32
      simp only [he, bind_okM]

example : ∃ fg', loadGraph32 debug32 (saveGraph32 debug64 2 slowDisk none Ex.fg).1 = .ok (.ok fg') ∧
    (debug32.umax = debug64.umax → fg' = Ex.fg) :=
  (C75_client_32 (P := debug64) (P' := debug32) rfl (by decide) (by decide) (by decide) exampleClient example_small slowDisk none).1
    (((C75_save_32 (P := debug64) (depth := 2) (env := slowDisk) (disk := none) (g := Ex.fg)).2 _ rfl).2.2.2 rfl (fun _ _ => ⟨2, rfl⟩))
-- a weight of 2 ^ 40 does not fit; the old file stays
example : saveGraph32 debug64 2 slowDisk (some [7]) ⟨2, [0, 1], [⟨0, 1, 1099511627776, Ex.inv, Ex.inv⟩], [0, 1, 1], [], [0, 0, 0]⟩ =
    (some [7], .panic .assertion) := rfl

end Props
end FP
