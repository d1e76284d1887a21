import Verif.Model.Unwind
import Verif.Proofs.Api
/-! # Panics keep the calculator usable -/
namespace FP
open PathCalculator

namespace U
variable {σ α β : Type}

/-- Forget the state of a run that panicked. -/
def out (m : U σ α) (s : σ) : M (α × σ) :=
  match m s with
  | (.ok a, s') => .ok (a, s')
  | (.error e, _) => .error e

theorem out_ok {m : U σ α} {s s' : σ} {a : α} (h : m s = (.ok a, s')) : out m s = .ok (a, s') := by
  unfold out
  rw [h]

theorem out_err {m : U σ α} {s s' : σ} {e : Panic} (h : m s = (.error e, s')) : out m s = .error e := by
  unfold out
  rw [h]

theorem bind_run_ok {m : U σ α} {k : α → U σ β} {s s' : σ} {a : α} (h : m s = (.ok a, s')) :
    (m >>= k) s = k a s' := by
  show (match m s with
    | (.ok a, s') => k a s'
    | (.error e, s') => (.error e, s') : Except Panic β × σ) = _
  rw [h]

theorem bind_run_err {m : U σ α} {k : α → U σ β} {s s' : σ} {e : Panic} (h : m s = (.error e, s')) :
    (m >>= k) s = (.error e, s') := by
  show (match m s with
    | (.ok a, s') => k a s'
    | (.error e, s') => (.error e, s') : Except Panic β × σ) = _
  rw [h]

theorem out_pure (a : α) (s : σ) : out (pure a : U σ α) s = .ok (a, s) := rfl

theorem out_bind (m : U σ α) (k : α → U σ β) (s : σ) : out (m >>= k) s = out m s >>= fun r => out (k r.1) r.2 := by
  show out (fun s => match m s with
    | (.ok a, s') => k a s'
    | (.error e, s') => (.error e, s')) s = _
  unfold out
  simp only
  rcases m s with ⟨_ | _, _⟩ <;> rfl

theorem out_read (f : σ → M α) (s : σ) : out (read f) s = f s >>= fun a => .ok (a, s) := by
  show (match (f s, s) with
    | (.ok a, s') => (.ok (a, s') : M (α × σ))
    | (.error e, _) => .error e) = _
  cases f s <;> rfl

theorem out_lift (f : M α) (s : σ) : out (lift f : U σ α) s = f >>= fun a => .ok (a, s) := by
  cases f <;> rfl

theorem out_write (f : σ → σ) (s : σ) : out (write f) s = .ok ((), f s) := rfl

theorem tryWrite_ok {f : σ → M σ} {s s' : σ} (h : f s = .ok s') : tryWrite f s = (.ok (), s') := by
  show (match f s with
    | .ok s' => (.ok (), s')
    | .error e => (.error e, s) : Except Panic Unit × σ) = _
  rw [h]

theorem tryWrite_err {f : σ → M σ} {s : σ} {e : Panic} (h : f s = .error e) : tryWrite f s = (.error e, s) := by
  show (match f s with
    | .ok s' => (.ok (), s')
    | .error e => (.error e, s) : Except Panic Unit × σ) = _
  rw [h]

theorem out_tryWrite (f : σ → M σ) (s : σ) : out (tryWrite f) s = f s >>= fun s' => .ok ((), s') := by
  cases h : f s with
  | error e => exact out_err (tryWrite_err h)
  | ok s' => exact out_ok (tryWrite_ok h)

theorem out_each {f : β → U σ Unit} {g : σ → β → M σ} (h : ∀ b s, out (f b) s = g s b >>= fun s' => .ok ((), s')) :
    ∀ (l : List β) (s : σ), out (each f l) s = forM g s l >>= fun s' => .ok ((), s')
  | [], _ => rfl
  | b :: r, s => by
    unfold each
    rw [out_bind, h, forM_cons]
    cases g s b with
    | error e => rfl
    | ok s' => simpa using out_each h r s'

theorem out_congr {m m' : U σ α} {s : σ} (h : m s = m' s) : out m s = out m' s := by
  unfold out
  rw [h]

theorem out_fst (m : U σ α) (s : σ) : (m s).1 = (out m s).map Prod.fst := by
  unfold out
  rcases m s with ⟨_ | _, _⟩ <;> rfl

theorem out_snd {m : U σ α} {s s' : σ} {a : α} (h : out m s = .ok (a, s')) : m s = (.ok a, s') := by
  unfold out at h
  revert h
  rcases m s with ⟨_ | _, _⟩ <;> intro h
  · cases h
  · injection h with h
    cases h
    rfl

/-- The state stays within `I`, whether the run panics or not. -/
def Keeps (I : σ → Prop) (m : U σ α) : Prop := ∀ s, I s → I (m s).2

variable {I : σ → Prop}

theorem Keeps.pure (a : α) : Keeps I (Pure.pure a : U σ α) := fun _ h => h

theorem Keeps.bind {m : U σ α} {k : α → U σ β} (hm : Keeps I m) (hk : ∀ a, Keeps I (k a)) : Keeps I (m >>= k) := by
  intro s hs
  have h1 := hm s hs
  show I (match m s with
    | (.ok a, s') => k a s'
    | (.error e, s') => (.error e, s')).2
  revert h1
  rcases m s with ⟨e | a, s'⟩ <;> intro h1
  · exact h1
  · exact hk a s' h1

theorem Keeps.read (f : σ → M α) : Keeps I (read f) := fun _ h => h
theorem Keeps.lift (f : M α) : Keeps I (lift f : U σ α) := fun _ h => h
theorem Keeps.write {f : σ → σ} (hf : ∀ s, I s → I (f s)) : Keeps I (write f) := hf

theorem Keeps.tryWrite {f : σ → M σ} (hf : ∀ s s', I s → f s = .ok s' → I s') : Keeps I (tryWrite f) := by
  intro s hs
  unfold U.tryWrite
  cases h : f s with
  | error e => exact hs
  | ok s' => exact hf s s' hs h

theorem Keeps.each {f : β → U σ Unit} (hf : ∀ b, Keeps I (f b)) : ∀ l : List β, Keeps I (each f l)
  | [] => fun _ h => h
  | b :: r => Keeps.bind (hf b) (fun _ => Keeps.each hf r)

theorem Keeps.ite {c : Prop} [Decidable c] {m₁ m₂ : U σ α} (h₁ : Keeps I m₁) (h₂ : Keeps I m₂) :
    Keeps I (if c then m₁ else m₂) := by
  split <;> assumption

theorem out_ite {c : Prop} [Decidable c] (m₁ m₂ : U σ α) (s : σ) :
    out (if c then m₁ else m₂) s = if c then out m₁ s else out m₂ s := by
  split <;> rfl

end U
open U

variable {pq : PQ} {P : Plat} {n : Nat}

theorem modIdx_modIdx {α : Type} (l : List α) (i : Nat) (f g : α → α) :
    (modIdx l i f >>= fun l => modIdx l i g) = modIdx l i (g ∘ f) := by
  unfold modIdx
  cases h : l[i]? with
  | none => rfl
  | some a =>
    have hlt := (List.getElem?_eq_some_iff.1 h).1
    simp [hlt]

theorem modIdx_const {α : Type} (l : List α) (i : Nat) (a : α) : modIdx l i (fun _ => a) = setIdx l i a := by
  unfold modIdx setIdx
  by_cases h : i < l.length
  · simp [h]
  · simp [h]

theorem out_updateNodeU (x w p i : Nat) (s : Side pq) :
    out (Side.updateNodeU x w p i) s = s.updateNode x w p i >>= fun s' => .ok ((), s') := by
  unfold Side.updateNodeU Side.updateNode
  simp only [out_bind, out_tryWrite]
  cases s.flags.setValid x with
  | error e => rfl
  | ok f =>
    rw [← modIdx_const]
    unfold modIdx
    simp only [bind_okM]
    cases h : s.data[x]? with
    | none => rfl
    | some d =>
      have hlt := (List.getElem?_eq_some_iff.1 h).1
      simp [hlt]

theorem out_addRootU (x : Nat × Nat) (s : Side pq) :
    out (Side.addRootU P x) s = s.addRoot P x >>= fun s' => .ok ((), s') := by
  unfold Side.addRootU Side.addRoot
  simp only [out_bind, out_read, out_ite, out_updateNodeU, out_write, out_pure]
  cases s.getWeight P x.1 with
  | error e => rfl
  | ok w =>
    simp only [bind_okM]
    split
    · cases s.updateNode x.1 x.2 x.1 P.INVALID_EDGE <;> rfl
    · rfl

theorem out_relaxEdgeU (es : List FastGraphEdge) (curr : HeapItem) (e : Nat) (s : Side pq) :
    out (Side.relaxEdgeU P es curr e) s = s.relaxEdge P es curr e >>= fun s' => .ok ((), s') := by
  unfold Side.relaxEdgeU Side.relaxEdge
  simp only [out_bind, out_read, out_lift, out_ite, out_updateNodeU, out_write, out_pure]
  cases idx es e with
  | error e => rfl
  | ok ed =>
    simp only [bind_okM]
    cases addW P curr.weight ed.weight with
    | error e => rfl
    | ok weight =>
      simp only [bind_okM]
      cases s.getWeight P ed.adjNode with
      | error e => rfl
      | ok w =>
        simp only [bind_okM]
        split
        · cases s.updateNode ed.adjNode weight curr.nodeId e <;> rfl
        · rfl

theorem out_onFwd {α : Type} (m : U (Side pq) α) (c : PathCalculator pq) :
    out (onFwd m) c = out m c.fwd >>= fun r => .ok (r.1, { c with fwd := r.2 }) := by
  cases h : m c.fwd with
  | mk r s =>
    have e : onFwd m c = (r, { c with fwd := s }) := by
      show ((m c.fwd).1, _) = _
      rw [h]
    cases r with
    | error x => rw [out_err e, out_err h]; rfl
    | ok a => rw [out_ok e, out_ok h]; rfl

theorem out_onBwd {α : Type} (m : U (Side pq) α) (c : PathCalculator pq) :
    out (onBwd m) c = out m c.bwd >>= fun r => .ok (r.1, { c with bwd := r.2 }) := by
  cases h : m c.bwd with
  | mk r s =>
    have e : onBwd m c = (r, { c with bwd := s }) := by
      show ((m c.bwd).1, _) = _
      rw [h]
    cases r with
    | error x => rw [out_err e, out_err h]; rfl
    | ok a => rw [out_ok e, out_ok h]; rfl

/-- the result of the loops in the form of `U.out` -/
def qsOut (c : PathCalculator pq) (st : QS pq) : (Nat × Nat) × PathCalculator pq :=
  ((st.best, st.meet), { c with fwd := st.fwd, bwd := st.bwd })

theorem out_innerFwdU (g : FastGraph) : ∀ (fuel best meet : Nat) (c : PathCalculator pq),
    out (innerFwdU P g fuel best meet) c = innerFwd P g fuel ⟨c.fwd, c.bwd, best, meet⟩ >>= fun st => .ok (qsOut c st)
  | 0, _, _, _ => rfl
  | fuel + 1, best, meet, c => by
    unfold innerFwd
    cases hp : pq.pop c.fwd.heap with
    | none =>
      have : innerFwdU P g (fuel + 1) best meet c = (.ok (best, meet), c) := by
        unfold innerFwdU; simp only [hp]
      unfold out
      rw [this]; rfl
    | some r =>
      obtain ⟨curr, heap'⟩ := r
      unfold out
      rw [innerFwdU]
      simp only [hp]
      rw [← out]
      simp only [out_bind, out_write, out_read, out_lift, out_ite, out_pure, out_onFwd, out_tryWrite,
        out_each (out_relaxEdgeU _ _), out_innerFwdU g fuel, bind_okM]
      cases Side.isSettled ({ c.fwd with heap := heap' } : Side pq) curr.nodeId with
      | error e => rfl
      | ok b =>
        cases b with
        | true => rfl
        | false =>
          simp only [bind_okM, Bool.false_eq_true, if_false]
          split
          · rfl
          · cases isStallableFwd P g ({ c.fwd with heap := heap' } : Side pq) curr with
            | error e => rfl
            | ok b =>
              cases b with
              | true => rfl
              | false =>
                simp only [bind_okM, Bool.false_eq_true, if_false]
                cases g.beginOutEdges curr.nodeId with
                | error e => rfl
                | ok b =>
                  cases g.endOutEdges curr.nodeId with
                  | error e => rfl
                  | ok e =>
                    simp only [bind_okM]
                    cases forM (Side.relaxEdge P g.edgesFwd curr) ({ c.fwd with heap := heap' } : Side pq)
                        (rangeFrom b e) with
                    | error e => rfl
                    | ok s =>
                      simp only [bind_okM]
                      cases modIdx s.data curr.nodeId (fun d => { d with settled := true }) with
                      | error e => rfl
                      | ok data =>
                        simp only [bind_okM]
                        cases c.bwd.flags.isValid curr.nodeId with
                        | error e => rfl
                        | ok b =>
                          cases b with
                          | false => rfl
                          | true =>
                            simp only [bind_okM, if_true]
                            cases c.bwd.getWeight P curr.nodeId with
                            | error e => rfl
                            | ok wb =>
                              simp only [bind_okM]
                              cases addW P curr.weight wb with
                              | error e => rfl
                              | ok w =>
                                simp only [bind_okM]
                                split <;> rfl

theorem out_innerBwdU (g : FastGraph) : ∀ (fuel best meet : Nat) (c : PathCalculator pq),
    out (innerBwdU P g fuel best meet) c = innerBwd P g fuel ⟨c.fwd, c.bwd, best, meet⟩ >>= fun st => .ok (qsOut c st)
  | 0, _, _, _ => rfl
  | fuel + 1, best, meet, c => by
    unfold innerBwd
    cases hp : pq.pop c.bwd.heap with
    | none =>
      have : innerBwdU P g (fuel + 1) best meet c = (.ok (best, meet), c) := by
        unfold innerBwdU; simp only [hp]
      unfold out
      rw [this]; rfl
    | some r =>
      obtain ⟨curr, heap'⟩ := r
      unfold out
      rw [innerBwdU]
      simp only [hp]
      rw [← out]
      simp only [out_bind, out_write, out_read, out_lift, out_ite, out_pure, out_onBwd, out_tryWrite,
        out_each (out_relaxEdgeU _ _), out_innerBwdU g fuel, bind_okM]
      cases Side.isSettled ({ c.bwd with heap := heap' } : Side pq) curr.nodeId with
      | error e => rfl
      | ok b =>
        cases b with
        | true => rfl
        | false =>
          simp only [bind_okM, Bool.false_eq_true, if_false]
          split
          · rfl
          · cases isStallableBwd P g ({ c.bwd with heap := heap' } : Side pq) curr with
            | error e => rfl
            | ok b =>
              cases b with
              | true => rfl
              | false =>
                simp only [bind_okM, Bool.false_eq_true, if_false]
                cases g.beginInEdges curr.nodeId with
                | error e => rfl
                | ok b =>
                  cases g.endInEdges curr.nodeId with
                  | error e => rfl
                  | ok e =>
                    simp only [bind_okM]
                    cases forM (Side.relaxEdge P g.edgesBwd curr) ({ c.bwd with heap := heap' } : Side pq)
                        (rangeFrom b e) with
                    | error e => rfl
                    | ok s =>
                      simp only [bind_okM]
                      cases modIdx s.data curr.nodeId (fun d => { d with settled := true }) with
                      | error e => rfl
                      | ok data =>
                        simp only [bind_okM]
                        cases c.fwd.flags.isValid curr.nodeId with
                        | error e => rfl
                        | ok b =>
                          cases b with
                          | false => rfl
                          | true =>
                            simp only [bind_okM, if_true]
                            cases c.fwd.getWeight P curr.nodeId with
                            | error e => rfl
                            | ok wb =>
                              simp only [bind_okM]
                              cases addW P curr.weight wb with
                              | error e => rfl
                              | ok w =>
                                simp only [bind_okM]
                                split <;> rfl

theorem out_mainLoopU (g : FastGraph) : ∀ (fuel best meet : Nat) (c : PathCalculator pq),
    out (mainLoopU P g fuel best meet) c = mainLoop P g fuel ⟨c.fwd, c.bwd, best, meet⟩ >>= fun st => .ok (qsOut c st)
  | 0, _, _, _ => rfl
  | fuel + 1, best, meet, c => by
    unfold mainLoop
    by_cases he : (pq.isEmpty c.fwd.heap && pq.isEmpty c.bwd.heap) = true
    · have : mainLoopU P g (fuel + 1) best meet c = (.ok (best, meet), c) := by
        unfold mainLoopU; simp only [he, if_true]
      unfold out
      rw [this]
      simp only [he, if_true]; rfl
    · rw [out_congr (m' := (do
          let size ← U.read (fun c => .ok (pq.items c.fwd.heap).length)
          let (best, meet) ← innerFwdU P g (size + 1) best meet
          let size ← U.read (fun c => .ok (pq.items c.bwd.heap).length)
          let (best, meet) ← innerBwdU P g (size + 1) best meet
          mainLoopU P g fuel best meet : U (PathCalculator pq) (Nat × Nat)))
          (by rw [mainLoopU]; exact if_neg he), if_neg he]
      simp only [out_bind, out_read, out_innerFwdU, out_innerBwdU, out_mainLoopU g fuel, bind_okM]
      cases innerFwd P g ((pq.items c.fwd.heap).length + 1) ⟨c.fwd, c.bwd, best, meet⟩ with
      | error e => rfl
      | ok st =>
        simp only [bind_okM]
        show (innerBwd P g ((pq.items st.bwd.heap).length + 1) st >>= _) >>= _ = _
        cases innerBwd P g ((pq.items st.bwd.heap).length + 1) st with
        | error e => rfl
        | ok st' => rfl

/-- A run that keeps the state after a panic gives the same result as the run of `Verif.Model.PathCalculator`. -/
theorem out_calcPathMultiU (g : FastGraph) (starts ends : List (Nat × Nat)) (c : PathCalculator pq) :
    out (calcPathMultiU P g starts ends) c =
      c.calcPathMulti P g starts ends >>= fun r => .ok (r.2, r.1) := by
  unfold calcPathMultiU PathCalculator.calcPathMulti
  simp only [out_bind, out_write, out_read, out_lift, out_ite, out_pure, out_onFwd, out_onBwd, 
    out_each out_addRootU, out_mainLoopU, bind_okM]
  cases checkArgs c g starts ends with
  | error e => rfl
  | ok _ =>
    simp only [bind_okM]
    cases initialMeeting P starts ends with
    | error e => rfl
    | ok bm =>
      simp only [bind_okM]
      show (((forM (Side.addRoot P) c.fwd.clear starts >>= _) >>= _) >>= _) = _
      cases forM (Side.addRoot P) c.fwd.clear starts with
      | error e => rfl
      | ok fwd =>
        simp only [bind_okM]
        show (((forM (Side.addRoot P) c.bwd.clear ends >>= _) >>= _) >>= _) = _
        cases forM (Side.addRoot P) c.bwd.clear ends with
        | error e => rfl
        | ok bwd =>
          simp only [bind_okM]
          cases mainLoop P g (mainFuel g starts ends) ⟨fwd, bwd, bm.1, bm.2⟩ with
          | error e => rfl
          | ok st =>
            simp only [bind_okM, qsOut]
            split
            · rfl
            · cases assertM (decide (st.best < P.WEIGHT_MAX)) with
              | error e => rfl
              | ok _ =>
                simp only [bind_okM]
                cases extractNodes P g st.fwd st.bwd st.meet with
                | error e => rfl
                | ok nodes =>
                  simp only [bind_okM]
                  cases assertM (!nodes.isEmpty) with
                  | error e => rfl
                  | ok _ =>
                    simp only [bind_okM]
                    cases idx nodes 0 with
                    | error e => rfl
                    | ok first =>
                      simp only [bind_okM]
                      cases idx nodes (nodes.length - 1) with
                      | error e => rfl
                      | ok last => rfl

/-! ### What a panic leaves behind -/

theorem modIdx_length {α : Type} {l l' : List α} {i : Nat} {f : α → α} (h : modIdx l i f = .ok l') :
    l'.length = l.length := by
  unfold modIdx at h
  split at h
  · injection h with h; subst h; simp
  · cases h

theorem keeps_setValid (x : Nat) : Keeps (Side.Base (pq := pq) n) (tryWrite (fun s => do
    let f ← s.flags.setValid x
    .ok { s with flags := f })) := by
  refine Keeps.tryWrite (fun s s' hs h => ?_)
  obtain ⟨f, h1, h2⟩ := bind_eq_ok.1 h
  injection h2 with h2
  subst h2
  have hx : x < n := by
    by_contra hc
    unfold ValidFlags.setValid setIdx at h1
    rw [if_neg (by rw [hs.flags.len]; exact hc)] at h1
    cases h1
  obtain ⟨f', e, ok, _⟩ := ValidFlags.setValid_ok hs.flags hx
  rw [h1] at e
  injection e with e
  subst e
  exact ⟨hs.len, ok⟩

theorem keeps_modData (x : Nat) (u : PData → PData) : Keeps (Side.Base (pq := pq) n) (tryWrite (fun s => do
    let d ← modIdx s.data x u
    .ok { s with data := d })) := by
  refine Keeps.tryWrite (fun s s' hs h => ?_)
  obtain ⟨d, h1, h2⟩ := bind_eq_ok.1 h
  injection h2 with h2
  subst h2
  exact ⟨by show d.length = n; rw [modIdx_length h1]; exact hs.len, hs.flags⟩

theorem keeps_updateNodeU (x w p i : Nat) : Keeps (Side.Base (pq := pq) n) (Side.updateNodeU x w p i) :=
  (keeps_setValid x).bind (fun _ => (keeps_modData x _).bind (fun _ => (keeps_modData x _).bind (fun _ =>
    (keeps_modData x _).bind (fun _ => keeps_modData x _))))

theorem keeps_addRootU (x : Nat × Nat) : Keeps (Side.Base (pq := pq) n) (Side.addRootU P x) :=
  (Keeps.read _).bind (fun _ => Keeps.ite ((keeps_updateNodeU _ _ _ _).bind (fun _ => Keeps.write (fun _ h => h)))
    (Keeps.pure ()))

theorem keeps_relaxEdgeU (es : List FastGraphEdge) (curr : HeapItem) (e : Nat) :
    Keeps (Side.Base (pq := pq) n) (Side.relaxEdgeU P es curr e) :=
  (Keeps.lift _).bind (fun _ => (Keeps.lift _).bind (fun _ => (Keeps.read _).bind (fun _ =>
    Keeps.ite ((keeps_updateNodeU _ _ _ _).bind (fun _ => Keeps.write (fun _ h => h))) (Keeps.pure ()))))

theorem keeps_onFwd {α : Type} {m : U (Side pq) α} (h : Keeps (Side.Base n) m) : Keeps (CalcOk n) (onFwd m) :=
  fun c hc => ⟨hc.num, h c.fwd hc.f, hc.b⟩

theorem keeps_onBwd {α : Type} {m : U (Side pq) α} (h : Keeps (Side.Base n) m) : Keeps (CalcOk n) (onBwd m) :=
  fun c hc => ⟨hc.num, hc.f, h c.bwd hc.b⟩

theorem keeps_innerFwdU (g : FastGraph) : ∀ (fuel best meet : Nat),
    Keeps (CalcOk (pq := pq) n) (innerFwdU P g fuel best meet)
  | 0, _, _ => Keeps.lift _
  | fuel + 1, best, meet => by
    intro c hc
    unfold innerFwdU
    split
    · exact hc
    · refine (?_ : Keeps (CalcOk n) _) c hc
      refine (Keeps.write (fun c hc => ⟨hc.num, hc.f, hc.b⟩)).bind (fun _ => (Keeps.read _).bind (fun _ => ?_))
      refine Keeps.ite (keeps_innerFwdU g fuel best meet) (Keeps.ite (Keeps.pure _) ((Keeps.read _).bind (fun _ => ?_)))
      refine Keeps.ite (keeps_innerFwdU g fuel best meet) ((Keeps.lift _).bind (fun _ => (Keeps.lift _).bind (fun _ => ?_)))
      refine (keeps_onFwd (Keeps.each (keeps_relaxEdgeU _ _) _)).bind (fun _ => (keeps_onFwd (keeps_modData _ _)).bind
        (fun _ => (Keeps.read _).bind (fun _ => ?_)))
      refine Keeps.ite ((Keeps.read _).bind (fun _ => (Keeps.lift _).bind (fun _ => ?_))) (Keeps.pure _)
      exact Keeps.ite (Keeps.pure _) (Keeps.pure _)

theorem keeps_innerBwdU (g : FastGraph) : ∀ (fuel best meet : Nat),
    Keeps (CalcOk (pq := pq) n) (innerBwdU P g fuel best meet)
  | 0, _, _ => Keeps.lift _
  | fuel + 1, best, meet => by
    intro c hc
    unfold innerBwdU
    split
    · exact hc
    · refine (?_ : Keeps (CalcOk n) _) c hc
      refine (Keeps.write (fun c hc => ⟨hc.num, hc.f, hc.b⟩)).bind (fun _ => (Keeps.read _).bind (fun _ => ?_))
      refine Keeps.ite (keeps_innerBwdU g fuel best meet) (Keeps.ite (Keeps.pure _) ((Keeps.read _).bind (fun _ => ?_)))
      refine Keeps.ite (keeps_innerBwdU g fuel best meet) ((Keeps.lift _).bind (fun _ => (Keeps.lift _).bind (fun _ => ?_)))
      refine (keeps_onBwd (Keeps.each (keeps_relaxEdgeU _ _) _)).bind (fun _ => (keeps_onBwd (keeps_modData _ _)).bind
        (fun _ => (Keeps.read _).bind (fun _ => ?_)))
      refine Keeps.ite ((Keeps.read _).bind (fun _ => (Keeps.lift _).bind (fun _ => ?_))) (Keeps.pure _)
      exact Keeps.ite (Keeps.pure _) (Keeps.pure _)

theorem keeps_mainLoopU (g : FastGraph) : ∀ (fuel best meet : Nat),
    Keeps (CalcOk (pq := pq) n) (mainLoopU P g fuel best meet)
  | 0, _, _ => Keeps.lift _
  | fuel + 1, best, meet => by
    intro c hc
    unfold mainLoopU
    split
    · exact hc
    · exact ((Keeps.read _).bind (fun _ => (keeps_innerFwdU g _ best meet).bind (fun r => (Keeps.read _).bind (fun _ =>
        (keeps_innerBwdU g _ r.1 r.2).bind (fun r => keeps_mainLoopU g fuel r.1 r.2)))) : Keeps (CalcOk n) _) c hc

theorem keeps_calcPathMultiU (g : FastGraph) (starts ends : List (Nat × Nat)) :
    Keeps (CalcOk (pq := pq) n) (calcPathMultiU P g starts ends) := by
  refine (Keeps.read _).bind (fun _ => (Keeps.write (fun c hc => ⟨hc.num, hc.f, hc.b⟩)).bind (fun _ =>
    (Keeps.write (fun c hc => ⟨hc.num, hc.f, hc.b⟩)).bind (fun _ =>
    (Keeps.write (fun c hc => ⟨hc.num, ⟨hc.f.len, (ValidFlags.invalidateAll_ok hc.f.flags).1⟩, hc.b⟩)).bind (fun _ =>
    (Keeps.write (fun c hc => ⟨hc.num, hc.f, ⟨hc.b.len, (ValidFlags.invalidateAll_ok hc.b.flags).1⟩⟩)).bind (fun _ =>
    (Keeps.lift _).bind (fun r => (keeps_onFwd (Keeps.each keeps_addRootU _)).bind (fun _ =>
    (keeps_onBwd (Keeps.each keeps_addRootU _)).bind (fun _ => (keeps_mainLoopU g _ r.1 r.2).bind (fun r => ?_)))))))))
  exact Keeps.ite (Keeps.pure _) ((Keeps.lift _).bind (fun _ => (Keeps.read _).bind (fun _ => (Keeps.lift _).bind
    (fun _ => (Keeps.lift _).bind (fun _ => (Keeps.lift _).bind (fun _ => Keeps.pure _))))))

theorem runRequestsU_ok : ∀ (qs : List Request) (c : PathCalculator pq), CalcOk n c → CalcOk n (runRequestsU P c qs)
  | [], _, h => h
  | q :: qs, c, h => runRequestsU_ok qs _ (keeps_calcPathMultiU q.graph q.sources q.targets c h)

theorem doAddEdgeU_cases (P : Plat) (g : InputGraph) (s d w : Nat) (b : Bool) :
    (∃ g' k, InputGraph.doAddEdge P g s d w b = .ok (g', k) ∧ InputGraph.doAddEdgeU P s d w b g = (.ok k, g')) ∨
    (∃ e, InputGraph.doAddEdge P g s d w b = .error e ∧ InputGraph.doAddEdgeU P s d w b g = (.error e, g)) := by
  unfold InputGraph.doAddEdge InputGraph.doAddEdgeU
  by_cases h1 : g.frozen = true
  · exact Or.inr ⟨.assertion, by rw [if_pos h1], by
      show (if g.frozen = true then _ else _ : U InputGraph Nat) g = _
      rw [if_pos h1]; rfl⟩
  · by_cases h2 : (s == d) = true
    · exact Or.inl ⟨g, 0, by rw [if_neg h1, if_pos h2], by
        show (if g.frozen = true then _ else _ : U InputGraph Nat) g = _
        rw [if_neg h1, if_pos h2]; rfl⟩
    · by_cases h3 : w < 1
      · exact Or.inl ⟨g, 0, by rw [if_neg h1, if_neg h2, if_pos h3], by
          show (if g.frozen = true then _ else _ : U InputGraph Nat) g = _
          rw [if_neg h1, if_neg h2, if_pos h3]; rfl⟩
      · cases h4 : addW P (max s d) 1 with
        | error e =>
          refine Or.inr ⟨e, by rw [if_neg h1, if_neg h2, if_neg h3]; rfl, ?_⟩
          show (if g.frozen = true then _ else _ : U InputGraph Nat) g = _
          rw [if_neg h1, if_neg h2, if_neg h3]
          exact U.bind_run_err rfl
        | ok m =>
          refine Or.inl ⟨_, _, by rw [if_neg h1, if_neg h2, if_neg h3]; rfl, ?_⟩
          show (if g.frozen = true then _ else _ : U InputGraph Nat) g = _
          rw [if_neg h1, if_neg h2, if_neg h3]
          cases b <;> rfl

end FP
