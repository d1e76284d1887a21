import Verif.Model.Writer
import Verif.Proofs.TextIO
/-! # The buffered writer -/
namespace FP
open Writer TextIO

/-- No write fails and every write takes something. -/
def Env.Good (env : Env) : Prop := env.create = true ∧ ∀ i n, ∃ k, env.write i n = some (k + 1)

theorem writeLoop_spec {α : Type} (env : Env) : ∀ (fuel : Nat) (f : FileOf α) (data : List α), data.length ≤ fuel →
    (writeLoop env fuel f data).1.bytes ++ (writeLoop env fuel f data).2.1 = f.bytes ++ data ∧
    ((writeLoop env fuel f data).2.2 = true → (writeLoop env fuel f data).2.1 = []) ∧
    (writeLoop env fuel f data).2.1.length ≤ data.length ∧
    (Env.Good env → (writeLoop env fuel f data).2.2 = true)
  | 0, f, data, h => by
    have : data = [] := List.eq_nil_of_length_eq_zero (by omega)
    subst this
    exact ⟨rfl, fun _ => rfl, Nat.le_refl _, fun _ => rfl⟩
  | fuel + 1, f, data, h => by
    unfold writeLoop
    by_cases he : data.isEmpty = true
    · rw [if_pos he]
      have : data = [] := by simpa using he
      subst this
      exact ⟨rfl, fun _ => rfl, Nat.le_refl _, fun _ => rfl⟩
    rw [if_neg he]
    have hpos : 0 < data.length := by
      rw [List.length_pos_iff]; simpa using he
    unfold rawWrite
    cases hw : env.write f.calls data.length with
    | none =>
      refine ⟨rfl, fun h => (by cases h), Nat.le_refl _, ?_⟩
      intro hg
      obtain ⟨k, hk⟩ := hg.2 f.calls data.length
      rw [hw] at hk; cases hk
    | some k =>
      simp only
      cases hk : min k data.length with
      | zero =>
        simp only
        refine ⟨by simp, fun h => (by cases h), Nat.le_refl _, ?_⟩
        intro hg
        obtain ⟨k', hk'⟩ := hg.2 f.calls data.length
        rw [hw] at hk'
        injection hk' with hk'
        omega
      | succ j =>
        simp only
        obtain ⟨i1, i2, i3, i4⟩ := writeLoop_spec env fuel ⟨f.calls + 1, f.bytes ++ data.take (j + 1)⟩ (data.drop (j + 1))
          (by rw [List.length_drop]; omega)
        refine ⟨?_, i2, Nat.le_trans i3 (by rw [List.length_drop]; omega), i4⟩
        rw [i1]
        simp only
        rw [List.append_assoc, List.take_append_drop]

theorem writeAllRaw_spec {α : Type} (env : Env) (f : FileOf α) (data : List α) :
    (writeAllRaw env f data).1.bytes ++ (writeAllRaw env f data).2.1 = f.bytes ++ data ∧
    ((writeAllRaw env f data).2.2 = true → (writeAllRaw env f data).2.1 = []) ∧
    (writeAllRaw env f data).2.1.length ≤ data.length ∧
    (Env.Good env → (writeAllRaw env f data).2.2 = true) := writeLoop_spec env _ f data (Nat.le_refl _)

/-- What is in the file and the buffer is what was written so far. -/
structure WInv (cap : Nat) (done : List Char) (w : BufWriter) : Prop where
  all : w.file.bytes ++ w.buf = done
  len : w.buf.length ≤ cap

theorem flushBuf_spec {cap : Nat} {env : Env} {done : List Char} {w : BufWriter} (h : WInv cap done w) :
    WInv cap done (flushBuf env w).1 ∧ ((flushBuf env w).2 = true → (flushBuf env w).1.buf = []) ∧
      (Env.Good env → (flushBuf env w).2 = true) := by
  obtain ⟨i1, i2, i3, i4⟩ := writeAllRaw_spec env w.file w.buf
  unfold flushBuf
  exact ⟨⟨i1.trans h.all, Nat.le_trans i3 h.len⟩, i2, i4⟩

theorem writeAll_spec {cap : Nat} {env : Env} {done data : List Char} {w : BufWriter} (h : WInv cap done w) :
    ((writeAll cap env w data).2 = true → WInv cap (done ++ data) (writeAll cap env w data).1) ∧
    (∃ d, WInv cap d (writeAll cap env w data).1 ∧ d <+: done ++ data) ∧
    (Env.Good env → (writeAll cap env w data).2 = true) := by
  have copy : ∀ {w : BufWriter}, WInv cap done w → w.buf.length + data.length ≤ cap →
      WInv cap (done ++ data) { w with buf := w.buf ++ data } := by
    intro w h hl
    refine ⟨?_, by simpa using hl⟩
    show w.file.bytes ++ (w.buf ++ data) = _
    rw [← List.append_assoc, h.all]
  unfold writeAll
  by_cases h1 : data.length < cap - w.buf.length
  · rw [if_pos h1]
    have := copy h (by omega)
    exact ⟨fun _ => this, ⟨_, this, List.prefix_rfl⟩, fun _ => rfl⟩
  rw [if_neg h1]
  have second : ∀ {w : BufWriter} {ok : Bool}, WInv cap done w → (ok = true → w.buf = [] ∨ w.buf.length + data.length ≤ cap ∧ ¬ (cap ≤ data.length ∧ w.buf ≠ [])) →
      (Env.Good env → ok = true) →
      let r := (match (w, ok) with
        | (w, false) => (w, false)
        | (w, true) =>
          if cap ≤ data.length then
            let (f, _, ok) := writeAllRaw env w.file data
            (({ w with file := f } : BufWriter), ok)
          else (({ w with buf := w.buf ++ data } : BufWriter), true))
      (r.2 = true → WInv cap (done ++ data) r.1) ∧ (∃ d, WInv cap d r.1 ∧ d <+: done ++ data) ∧ (Env.Good env → r.2 = true) := by
    intro w ok hw hb hg
    cases ok with
    | false => exact ⟨fun h => (by cases h), ⟨done, hw, List.prefix_append _ _⟩, hg⟩
    | true =>
      simp only
      by_cases h2 : cap ≤ data.length
      · rw [if_pos h2]
        have hnil : w.buf = [] := by
          rcases hb rfl with hb | ⟨_, hb⟩
          · exact hb
          · by_contra hc; exact hb ⟨h2, hc⟩
        obtain ⟨i1, i2, i3, i4⟩ := writeAllRaw_spec env w.file data
        have hall : w.file.bytes = done := by have := hw.all; rw [hnil, List.append_nil] at this; exact this
        rw [hall] at i1
        refine ⟨?_, ⟨(writeAllRaw env w.file data).1.bytes, ⟨by simp [hnil], by simp [hnil]⟩, ⟨_, i1⟩⟩, i4⟩
        intro hok
        refine ⟨?_, by simp [hnil]⟩
        rw [i2 hok, List.append_nil] at i1
        simp only [hnil, List.append_nil]
        exact i1
      · rw [if_neg h2]
        have := copy hw (by
          rcases hb rfl with hb | ⟨hb, _⟩
          · rw [hb]; simp; omega
          · exact hb)
        exact ⟨fun _ => this, ⟨_, this, List.prefix_rfl⟩, fun _ => rfl⟩
  by_cases h2 : cap - w.buf.length < data.length
  · rw [if_pos h2]
    obtain ⟨f1, f2, f3⟩ := flushBuf_spec (env := env) h
    exact second (w := (flushBuf env w).1) (ok := (flushBuf env w).2) f1 (fun hok => Or.inl (f2 hok)) f3
  · rw [if_neg h2]
    have hl := h.len
    refine second (w := w) (ok := true) h (fun _ => ?_) (fun _ => rfl)
    by_cases hn : w.buf = []
    · exact Or.inl hn
    · have : 0 < w.buf.length := List.length_pos_iff.2 hn
      refine Or.inr ⟨by omega, ?_⟩
      rintro ⟨h3, _⟩
      omega

theorem writeChunks_spec {cap : Nat} {env : Env} : ∀ {chunks : List (List Char)} {done : List Char} {w : BufWriter},
    WInv cap done w →
    ((writeChunks cap env w chunks).2 = true → WInv cap (done ++ chunks.flatten) (writeChunks cap env w chunks).1) ∧
    (∃ d, WInv cap d (writeChunks cap env w chunks).1 ∧ d <+: done ++ chunks.flatten) ∧
    (Env.Good env → (writeChunks cap env w chunks).2 = true)
  | [], done, w, h => by
    unfold writeChunks
    rw [List.flatten_nil, List.append_nil]
    exact ⟨fun _ => h, ⟨done, h, List.prefix_rfl⟩, fun _ => rfl⟩
  | c :: cs, done, w, h => by
    obtain ⟨i1, ⟨d, i2, i2'⟩, i3⟩ := writeAll_spec (env := env) (data := c) h
    unfold writeChunks
    cases hr : writeAll cap env w c with
    | mk w' ok =>
      rw [hr] at i1 i2 i3
      cases ok with
      | false =>
        refine ⟨fun h => (by cases h), ⟨d, i2, i2'.trans ?_⟩, i3⟩
        rw [List.flatten_cons, ← List.append_assoc]
        exact List.prefix_append _ _
      | true =>
        simp only
        obtain ⟨k1, k2, k3⟩ := writeChunks_spec (cap := cap) (env := env) (chunks := cs) (i1 rfl)
        rw [List.append_assoc, ← List.flatten_cons] at k1 k2
        exact ⟨k1, k2, k3⟩

theorem saveChunks_spec (env : Env) (chunks : List (List Char)) :
    (saveChunks env chunks).1.bytes <+: chunks.flatten ∧
    ((saveChunks env chunks).2 = true → chunks.flatten.length ≤ (saveChunks env chunks).1.bytes.length + CAPACITY) ∧
    (Env.Good env → (saveChunks env chunks).2 = true ∧ (saveChunks env chunks).1.bytes = chunks.flatten) := by
  unfold saveChunks
  cases hc : env.create with
  | false =>
    rw [if_neg (by simp)]
    refine ⟨List.nil_prefix, fun h => (by cases h), ?_⟩
    intro hg
    rw [hg.1] at hc; cases hc
  | true =>
    rw [if_pos rfl]
    have h0 : WInv CAPACITY [] ⟨⟨0, []⟩, []⟩ := ⟨rfl, by simp⟩
    obtain ⟨k1, ⟨d, k2, k2'⟩, k3⟩ := writeChunks_spec (cap := CAPACITY) (env := env) (chunks := chunks) h0
    rw [List.nil_append] at k1 k2'
    simp only
    unfold dropWriter
    refine ⟨?_, ?_, ?_⟩
    · obtain ⟨f1, _⟩ := flushBuf_spec (env := env) k2
      exact (List.IsPrefix.trans ⟨_, f1.all⟩ k2')
    · intro hok
      obtain ⟨f1, _⟩ := flushBuf_spec (env := env) (k1 hok)
      have h1 := congrArg List.length f1.all
      have h2 := f1.len
      rw [List.length_append] at h1
      omega
    · intro hg
      refine ⟨k3 hg, ?_⟩
      obtain ⟨f1, f2, f3⟩ := flushBuf_spec (env := env) (k1 (k3 hg))
      have := f1.all
      rw [f2 (f3 hg), List.append_nil] at this
      exact this

/-- Texts that fit into the buffer are never refused. -/
theorem writeChunks_small (env : Env) (cap : Nat) : ∀ (chunks : List (List Char)) (w : BufWriter),
    w.buf.length + chunks.flatten.length < cap → (writeChunks cap env w chunks) = (⟨w.file, w.buf ++ chunks.flatten⟩, true)
  | [], w, _ => by unfold writeChunks; simp
  | c :: cs, w, h => by
    rw [List.flatten_cons, List.length_append] at h
    have h1 : writeAll cap env w c = ({ w with buf := w.buf ++ c }, true) := by
      unfold writeAll
      rw [if_pos (by omega)]
    unfold writeChunks
    rw [h1]
    simp only
    rw [writeChunks_small env cap cs _ (by simp only [List.length_append]; omega)]
    simp

theorem saveChunks_small {env : Env} (hc : env.create = true) {chunks : List (List Char)} (h : chunks.flatten.length < CAPACITY) :
    (saveChunks env chunks).2 = true := by
  unfold saveChunks
  rw [hc, if_pos rfl, writeChunks_small env CAPACITY chunks _ (by simpa using h)]

theorem arcChunks_flatten (s d w : Nat) : (arcChunks s d w).flatten = arcLine s d w := by
  simp [arcChunks, arcLine]

theorem problemChunks_flatten (n m : Nat) : (problemChunks n m).flatten = problemLine n m := by
  simp [problemChunks, problemLine]

/-- `to_file` hands over exactly the text of `toText`. -/
theorem toFile_chunks {env : Env} {g : InputGraph} {r : File × Bool} (h : toFile env g = .ok r) :
    ∃ chunks txt, toText g = .ok txt ∧ chunks.flatten = txt ∧ r = saveChunks env chunks := by
  unfold toFile at h
  obtain ⟨es, h1, h2⟩ := bind_eq_ok.1 h
  injection h2 with h2
  refine ⟨_, es.flatMap (fun e => arcLine e.src e.dst e.weight), ?_, ?_, h2.symm⟩
  · unfold toText; rw [h1]; rfl
  · clear h1 h2
    induction es with
    | nil => rfl
    | cons e es ih => rw [List.flatMap_cons, List.flatten_append, ih, arcChunks_flatten, List.flatMap_cons]

theorem writeChunks_append (cap : Nat) (env : Env) : ∀ (a b : List (List Char)) (w : BufWriter),
    writeChunks cap env w (a ++ b) = match writeChunks cap env w a with
      | (w, false) => (w, false)
      | (w, true) => writeChunks cap env w b
  | [], b, w => rfl
  | c :: a, b, w => by
    rw [List.cons_append]
    simp only [writeChunks]
    cases writeAll cap env w c with
    | mk w' ok =>
      cases ok with
      | false => rfl
      | true => exact writeChunks_append cap env a b w'

/-- The pieces of the text up to the first edge whose ids cannot be increased, and what happens there. -/
def arcsUpTo (P : Plat) : List Edge → List (List Char) × Saved
  | [] => ([], .ok)
  | e :: es =>
    match dimacsArc P e with
    | .error p => ([], .panic p)
    | .ok chunks => (chunks ++ (arcsUpTo P es).1, (arcsUpTo P es).2)

theorem writeArcs_eq (P : Plat) (env : Env) : ∀ (es : List Edge) (w : BufWriter),
    writeArcs P env w es = ((writeChunks CAPACITY env w (arcsUpTo P es).1).1,
      if (writeChunks CAPACITY env w (arcsUpTo P es).1).2 then (arcsUpTo P es).2 else .err)
  | [], w => by simp [writeArcs, arcsUpTo, writeChunks]
  | e :: es, w => by
    unfold writeArcs arcsUpTo
    cases dimacsArc P e with
    | error p => simp [writeChunks]
    | ok chunks =>
      simp only
      rw [writeChunks_append]
      cases writeChunks CAPACITY env w chunks with
      | mk w' ok =>
        cases ok with
        | false => rfl
        | true => exact writeArcs_eq P env es w'

/-- `to_dimacs_file` of a frozen graph: the pieces up to the first edge whose ids cannot be increased are written. -/
theorem dimacsRun_eq {P : Plat} {env : Env} {g : InputGraph} (hc : env.create = true) (hf : g.frozen = true) :
    let chunks := problemChunks g.numNodes g.edges.length ++ (arcsUpTo P g.edges).1
    dimacsRun P env g = ((saveChunks env chunks).1, if (saveChunks env chunks).2 then (arcsUpTo P g.edges).2 else .err) := by
  simp only
  have e1 : g.getNumNodes = .ok g.numNodes := by unfold InputGraph.getNumNodes InputGraph.checkFrozen; rw [hf]; rfl
  have e2 : g.getNumEdges = .ok g.edges.length := by unfold InputGraph.getNumEdges InputGraph.checkFrozen; rw [hf]; rfl
  have e3 : g.getEdges = .ok g.edges := by unfold InputGraph.getEdges InputGraph.checkFrozen; rw [hf]; rfl
  unfold dimacsRun writeDimacs saveChunks
  rw [e1, e2, e3, hc, writeChunks_append]
  simp only [if_true, bind_okM]
  cases writeChunks CAPACITY env ⟨⟨0, []⟩, []⟩ (problemChunks g.numNodes g.edges.length) with
  | mk w ok =>
    cases ok with
    | false => rfl
    | true =>
      simp only [writeArcs_eq]

theorem dimacsRun_not_frozen {P : Plat} {env : Env} {g : InputGraph} (hf : g.frozen = false) :
    dimacsRun P env g = (⟨0, []⟩, .panic .assertion) := by
  unfold dimacsRun writeDimacs InputGraph.getNumNodes InputGraph.checkFrozen
  rw [hf]
  rfl

theorem arcsUpTo_text {P : Plat} : ∀ (es : List Edge) (t : List Char) {txt : List Char},
    forM (fun txt (e : Edge) => do
        let src ← addW P e.src 1
        let dst ← addW P e.dst 1
        .ok (txt ++ arcLine src dst e.weight)) t es = .ok txt ↔
      (arcsUpTo P es).2 = .ok ∧ txt = t ++ (arcsUpTo P es).1.flatten := by
  intro es
  induction es with
  | nil =>
    intro t txt
    unfold arcsUpTo
    constructor
    · intro h; cases h; simp
    · rintro ⟨_, rfl⟩; simp [forM]
  | cons e es ih =>
    intro t txt
    rw [forM_cons]
    unfold arcsUpTo dimacsArc
    cases addW P e.src 1 with
    | error p => exact ⟨fun h => (by cases h), fun h => (by cases h.1)⟩
    | ok s =>
      cases addW P e.dst 1 with
      | error p => exact ⟨fun h => (by cases h), fun h => (by cases h.1)⟩
      | ok d =>
        simp only [bind_okM]
        rw [ih, List.flatten_append, arcChunks_flatten, List.append_assoc]

theorem toDimacsText_iff {P : Plat} {g : InputGraph} {txt : List Char} : toDimacsText P g = .ok txt ↔
    g.frozen = true ∧ (arcsUpTo P g.edges).2 = .ok ∧
      txt = (problemChunks g.numNodes g.edges.length ++ (arcsUpTo P g.edges).1).flatten := by
  unfold toDimacsText InputGraph.getNumNodes InputGraph.getNumEdges InputGraph.getEdges InputGraph.checkFrozen
  cases g.frozen with
  | false => exact ⟨fun h => (by cases h), fun h => (by cases h.1)⟩
  | true =>
    simp only [show assertM true = (.ok () : M Unit) from rfl, bind_okM, true_and]
    rw [arcsUpTo_text, List.flatten_append, problemChunks_flatten]

/-- If the text of the graph exists it is what is handed over. -/
theorem toDimacsFile_of_text {P : Plat} {env : Env} {g : InputGraph} {txt : List Char} (h : toDimacsText P g = .ok txt) :
    ∃ chunks, chunks.flatten = txt ∧ toDimacsFile P env g = .ok (saveChunks env chunks) ∧
      (env.create = true → dimacsRun P env g = ((saveChunks env chunks).1, if (saveChunks env chunks).2 then .ok else .err)) := by
  obtain ⟨h1, h2, h3⟩ := toDimacsText_iff.1 h
  refine ⟨_, h3.symm, ?_⟩
  unfold toDimacsFile
  cases hc : env.create with
  | false =>
    rw [if_neg (by simp)]
    unfold saveChunks
    rw [hc, if_neg (by simp)]
    exact ⟨rfl, fun h => (by cases h)⟩
  | true =>
    rw [if_pos rfl, dimacsRun_eq hc h1, h2]
    refine ⟨?_, fun _ => rfl⟩
    cases saveChunks env _ with
    | mk f ok => cases ok <;> rfl

theorem toDimacsFile_chunks {P : Plat} {env : Env} {g : InputGraph} {txt : List Char} {r : File × Bool}
    (ht : toDimacsText P g = .ok txt) (h : toDimacsFile P env g = .ok r) :
    ∃ chunks, chunks.flatten = txt ∧ r = saveChunks env chunks := by
  obtain ⟨chunks, h1, h2, _⟩ := toDimacsFile_of_text (env := env) ht
  rw [h2] at h
  cases h
  exact ⟨chunks, h1, rfl⟩

/-- After `Ok(())` all edges were handed over. -/
theorem toDimacsFile_ok {P : Plat} {env : Env} {g : InputGraph} {f : File} (h : toDimacsFile P env g = .ok (f, true)) :
    ∃ txt, toDimacsText P g = .ok txt := by
  unfold toDimacsFile at h
  cases hc : env.create with
  | false => rw [hc, if_neg (by simp)] at h; cases h
  | true =>
    rw [hc, if_pos rfl] at h
    cases hf : g.frozen with
    | false => rw [dimacsRun_not_frozen hf] at h; cases h
    | true =>
      rw [dimacsRun_eq hc hf] at h
      refine ⟨_, toDimacsText_iff.2 ⟨hf, ?_, rfl⟩⟩
      cases ha : (arcsUpTo P g.edges).2 with
      | ok => rfl
      | err => rw [ha] at h; simp at h
      | panic p =>
        rw [ha] at h
        cases hs : (saveChunks env (problemChunks g.numNodes g.edges.length ++ (arcsUpTo P g.edges).1)).2 <;>
          rw [hs] at h <;> simp at h

/-- Which edges are written, in a build with overflow checks. -/
theorem arcsUpTo_good {P : Plat} (hP : P.checked = true) : ∀ es : List Edge,
    let good := es.takeWhile (fun e => e.src < P.umax ∧ e.dst < P.umax)
    (arcsUpTo P es).1.flatten = good.flatMap (fun e => arcLine (e.src + 1) (e.dst + 1) e.weight) ∧
      (good = es → (arcsUpTo P es).2 = .ok) ∧ (good ≠ es → (arcsUpTo P es).2 = .panic .overflow)
  | [] => by simp [arcsUpTo]
  | e :: es => by
    obtain ⟨h1, h2, h3⟩ := arcsUpTo_good hP es
    simp only at h1 h2 h3 ⊢
    unfold arcsUpTo dimacsArc addW
    by_cases hs : e.src + 1 ≤ P.umax
    swap
    · rw [if_neg hs, hP, List.takeWhile_cons_of_neg (by simp; omega)]
      simp
    by_cases hd : e.dst + 1 ≤ P.umax
    swap
    · rw [if_pos hs, if_neg hd, hP, List.takeWhile_cons_of_neg (by simp; omega)]
      simp
    rw [if_pos hs, if_pos hd, List.takeWhile_cons_of_pos (by simp; omega)]
    simp only [bind_okM, List.flatten_append, arcChunks_flatten, List.flatMap_cons, h1, List.cons.injEq, true_and, ne_eq]
    exact ⟨h2, h3⟩

end FP
