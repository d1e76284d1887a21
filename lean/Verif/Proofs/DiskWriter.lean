import Verif.Model.DiskWriter
import Verif.Proofs.Writer
/-! # Writing graphs to a disk that may fail -/
namespace FP
namespace DiskWriter
open Writer TextBytes

theorem vecPieces_flatten {α : Type} {pieces : α → List (List UInt8)} {enc : α → List UInt8} (h : ∀ a, (pieces a).flatten = enc a)
    (l : List α) : (vecPieces pieces l).flatten = encVec enc l := by
  unfold vecPieces encVec
  rw [List.flatten_cons]
  congr 1
  induction l with
  | nil => rfl
  | cons a l ih => rw [List.flatMap_cons, List.flatten_append, ih, h, List.flatMap_cons]

theorem edgePieces_flatten (e : FastGraphEdge) : (edgePieces e).flatten = encEdge e := by
  simp [edgePieces, encEdge]

theorem edgePieces32_flatten (e : FastGraphEdge32) : (edgePieces32 e).flatten = encEdge32 e := by
  simp [edgePieces32, encEdge32]

theorem graphPieces_flatten (g : FastGraph) : (graphPieces g).flatten = saveToDisk g := by
  unfold graphPieces saveToDisk encGraph
  simp only [List.flatten_cons, List.flatten_append, vecPieces_flatten edgePieces_flatten,
    vecPieces_flatten (enc := encUsize) (fun n => by simp : ∀ n, [encUsize n].flatten = encUsize n), List.append_assoc]

theorem graphPieces32_flatten (g : FastGraph32) : (graphPieces32 g).flatten = encGraph32 g := by
  unfold graphPieces32 encGraph32
  simp only [List.flatten_cons, List.flatten_append, vecPieces_flatten edgePieces32_flatten,
    vecPieces_flatten (enc := encU32) (fun n => by simp : ∀ n, [encU32 n].flatten = encU32 n), List.append_assoc]

/-- A loop that reports failure leaves something over. -/
theorem writeLoop_rest {α : Type} (env : Env) : ∀ (fuel : Nat) (f : FileOf α) (data : List α),
    (writeLoop env fuel f data).2.2 = false → (writeLoop env fuel f data).2.1 ≠ []
  | 0, f, data, h => by cases h
  | fuel + 1, f, data, h => by
    unfold writeLoop at h ⊢
    by_cases he : data.isEmpty = true
    · rw [if_pos he] at h; cases h
    · rw [if_neg he] at h ⊢
      have hne : data ≠ [] := by simpa using he
      split at h
      · exact hne
      · exact hne
      · exact writeLoop_rest env fuel _ _ h

/-- After success everything is in the file; after a failure a proper beginning. -/
theorem writePieces_spec (env : Env) : ∀ (ps : List (List UInt8)) (f : FileOf UInt8),
    ((writePieces env f ps).2 = true → (writePieces env f ps).1.bytes = f.bytes ++ ps.flatten) ∧
    ((writePieces env f ps).2 = false → ∃ rest, rest ≠ [] ∧ (writePieces env f ps).1.bytes ++ rest = f.bytes ++ ps.flatten) ∧
    (Env.Good env → (writePieces env f ps).2 = true)
  | [], f => by
    unfold writePieces
    exact ⟨fun _ => by simp, fun h => (by cases h), fun _ => rfl⟩
  | p :: ps, f => by
    obtain ⟨i1, i2, _, i4⟩ := writeAllRaw_spec env f p
    have i5 := writeLoop_rest env p.length f p
    unfold writePieces
    change (writeAllRaw env f p).2.2 = false → (writeAllRaw env f p).2.1 ≠ [] at i5
    rcases hr : writeAllRaw env f p with ⟨f', rest, ok⟩
    rw [hr] at i1 i2 i4 i5
    cases ok with
    | true =>
      simp only at i1 i2 ⊢
      have hrest := i2 trivial
      subst hrest
      rw [List.append_nil] at i1
      obtain ⟨k1, k2, k3⟩ := writePieces_spec env ps f'
      rw [i1, List.append_assoc] at k1 k2
      rw [List.flatten_cons]
      exact ⟨k1, k2, k3⟩
    | false =>
      simp only at i1 i5 ⊢
      refine ⟨fun h => (by cases h), fun _ => ⟨rest ++ ps.flatten, by simp [i5 trivial], ?_⟩, i4⟩
      rw [← List.append_assoc, i1, List.flatten_cons, List.append_assoc]

theorem createAndWrite_ok {env : Env} {disk disk' : Disk} {ps : List (List UInt8)}
    (h : createAndWrite env disk ps = (disk', .ok)) : env.create = true ∧ disk' = some ps.flatten := by
  unfold createAndWrite at h
  split at h
  · rename_i hc
    obtain ⟨k1, _, _⟩ := writePieces_spec env ps ⟨0, []⟩
    split at h
    · rename_i f hw
      rw [hw] at k1
      injection h with h _
      refine ⟨hc, ?_⟩
      rw [← h, k1 rfl]
      simp
    · injection h with _ h; cases h
  · injection h with _ h; cases h

theorem createAndWrite_err {env : Env} {disk disk' : Disk} {ps : List (List UInt8)}
    (h : createAndWrite env disk ps = (disk', .err)) : (env.create = false ∧ disk' = disk) ∨
      (env.create = true ∧ ∃ bytes rest, disk' = some bytes ∧ rest ≠ [] ∧ bytes ++ rest = ps.flatten) := by
  unfold createAndWrite at h
  split at h
  · rename_i hc
    obtain ⟨_, k1, _⟩ := writePieces_spec env ps ⟨0, []⟩
    split at h
    · injection h with _ h; cases h
    · rename_i f hw
      rw [hw] at k1
      obtain ⟨rest, h1, h2⟩ := k1 rfl
      injection h with h _
      exact Or.inr ⟨hc, f.bytes, rest, h.symm, h1, h2⟩
  · rename_i hc
    injection h with h _
    exact Or.inl ⟨by simpa using hc, h.symm⟩

theorem createAndWrite_good {env : Env} (hg : Env.Good env) (disk : Disk) (ps : List (List UInt8)) :
    createAndWrite env disk ps = (some ps.flatten, .ok) := by
  obtain ⟨k1, _, k2⟩ := writePieces_spec env ps ⟨0, []⟩
  unfold createAndWrite
  rw [if_pos hg.1]
  rcases hr : writePieces env ⟨0, []⟩ ps with ⟨f, ok⟩
  rw [hr] at k1 k2
  have : ok = true := k2 hg
  subst this
  simp only at k1 ⊢
  rw [k1 trivial]
  simp

theorem createAndWrite_saved (env : Env) (disk : Disk) (ps : List (List UInt8)) :
    (createAndWrite env disk ps).2 = .ok ∨ (createAndWrite env disk ps).2 = .err := by
  unfold createAndWrite
  split
  · split
    · exact Or.inl rfl
    · exact Or.inr rfl
  · exact Or.inr rfl

end DiskWriter
end FP
