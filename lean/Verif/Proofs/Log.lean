import Verif.SpecLog
import Verif.Proofs.Unwind
import Verif.Proofs.Reorder
import Verif.Proofs.InputGraph
/-! # What is logged -/
namespace FP
open Spec

/-- `m` ends in `r` and adds the messages `l`. -/
def Says {α : Type} (m : Logs α) (r : M α) (l : List Msg) : Prop := ∀ log, m log = (r, log ++ l)

section
variable {α β σ : Type}

theorem says_pure (a : α) : Says (pure a) (.ok a) [] := fun log => by
  show (Except.ok a, log) = _
  simp

theorem says_lift (m : M α) : Says (U.lift m) m [] := fun log => by
  show (m, log) = _
  simp

theorem says_say (x : Msg) : Says (say x) (.ok ()) [x] := fun _ => rfl

theorem Says.bind_ok {m : Logs α} {k : α → Logs β} {a : α} {r : M β} {l l' : List Msg} (h : Says m (.ok a) l)
    (h' : Says (k a) r l') : Says (m >>= k) r (l ++ l') := fun log => by
  rw [U.bind_run_ok (h log), h', List.append_assoc]

theorem Says.bind_error {m : Logs α} {k : α → Logs β} {e : Panic} {l : List Msg} (h : Says m (.error e) l) :
    Says (m >>= k) (.error e) l := fun log => U.bind_run_err (h log)

theorem lift_ok_bind (a : α) (k : α → Logs β) : (U.lift (.ok a) >>= k) = k a := rfl

/-- A part without messages. -/
theorem Says.bind_lift {m : M α} {k : α → Logs β} {k' : α → M β} {l : List Msg} (he : ∀ e, m = .error e → l = [])
    (h : ∀ a, m = .ok a → Says (k a) (k' a) l) : Says (U.lift m >>= k) (m >>= k') l := by
  cases hm : m with
  | error e =>
    rw [he e hm]
    exact (says_lift _).bind_error
  | ok a => exact (says_lift (Except.ok a : M α)).bind_ok (h a hm)

theorem Says.unique {m : Logs α} {r r' : M α} {l l' : List Msg} (h : Says m r l) (h' : Says m r' l') : r = r' ∧ l = l' := by
  have := (h []).symm.trans (h' [])
  simpa using this

theorem forL_append (f : σ → α → Logs σ) (s : σ) (l₁ l₂ : List α) :
    forL f s (l₁ ++ l₂) = (forL f s l₁ >>= fun s => forL f s l₂) := by
  induction l₁ generalizing s with
  | nil => rfl
  | cons a r ih =>
    funext log
    show (f s a >>= fun s => forL f s (r ++ l₂)) log = ((f s a >>= fun s => forL f s r) >>= fun s => forL f s l₂) log
    rcases h : f s a log with ⟨_ | s', log'⟩
    · rw [U.bind_run_err h, U.bind_run_err (U.bind_run_err h)]
    · rw [U.bind_run_ok h, ih]
      rcases h' : forL f s' r log' with ⟨_ | s'', log''⟩
      · rw [U.bind_run_err h', U.bind_run_err ((U.bind_run_ok h).trans h')]
      · rw [U.bind_run_ok h', U.bind_run_ok ((U.bind_run_ok h).trans h')]

/-- Loops: `I` holds of the elements done, the state and the messages; `J` of the messages in any case. -/
theorem says_forL {f : σ → α → Logs σ} {f' : σ → α → M σ} {as : List α} (I : List α → σ → List Msg → Prop)
    (J : List Msg → Prop) (hJ : ∀ pre s l, I pre s l → J l)
    (hs : ∀ pre a post s l, as = pre ++ a :: post → I pre s l → ∃ m, Says (f s a) (f' s a) m ∧
      (∀ s', f' s a = .ok s' → I (pre ++ [a]) s' (l ++ m)) ∧ ∀ e, f' s a = .error e → J (l ++ m)) :
    ∀ (post pre : List α) (s : σ) (l : List Msg), as = pre ++ post → I pre s l →
      ∃ m, Says (forL f s post) (forM f' s post) m ∧ (∀ s', forM f' s post = .ok s' → I as s' (l ++ m)) ∧ J (l ++ m) := by
  intro post
  induction post with
  | nil =>
    intro pre s l he hI
    refine ⟨[], says_pure _, ?_, by simpa using hJ _ _ _ hI⟩
    rintro s' h
    cases h
    rw [he]
    simpa using hI
  | cons a r ih =>
    intro pre s l he hI
    obtain ⟨m, h1, h2, h3⟩ := hs pre a r s l he hI
    cases hf : f' s a with
    | error e =>
      rw [hf] at h1
      refine ⟨m, ?_, ?_, h3 e hf⟩
      · show Says (f s a >>= fun s => forL f s r) (f' s a >>= fun s => forM f' s r) m
        rw [hf]
        exact h1.bind_error
      · intro s' h
        rw [forM_cons, hf] at h
        cases h
    | ok s₁ =>
      rw [hf] at h1
      obtain ⟨m', k1, k2, k3⟩ := ih (pre ++ [a]) s₁ (l ++ m) (by simpa using he) (h2 s₁ hf)
      refine ⟨m ++ m', ?_, ?_, by simpa [List.append_assoc] using k3⟩
      · show Says (f s a >>= fun s => forL f s r) (f' s a >>= fun s => forM f' s r) _
        rw [hf]
        exact h1.bind_ok k1
      · intro s' h
        rw [forM_cons, hf] at h
        simpa [List.append_assoc] using k2 s' h

end

/-! ## Input graphs -/

/-- The message about a call that adds nothing. -/
def addMsgs (g : InputGraph) (s d w : Nat) : List Msg :=
  if g.frozen then [] else if s = d then [.loopEdge s d w] else if w = 0 then [.zeroWeight s d w] else []

theorem length_dedupFrom_le (same : Edge → Edge → Bool) (l : List Edge) (b : Edge) :
    (InputGraph.dedupFrom same b l).length ≤ l.length := by
  induction l generalizing b with
  | nil => simp [InputGraph.dedupFrom]
  | cons a r ih =>
    unfold InputGraph.dedupFrom
    split
    · exact Nat.le_succ_of_le (ih b)
    · simpa using ih a

theorem length_dedup_le (l : List Edge) :
    (InputGraph.removeDuplicateEdges (InputGraph.sortEdges l)).length ≤ l.length := by
  rw [← (sortEdges_perm l).length_eq]
  cases InputGraph.sortEdges l with
  | nil => simp [InputGraph.removeDuplicateEdges, InputGraph.dedupBy]
  | cons b r => simpa [InputGraph.removeDuplicateEdges, InputGraph.dedupBy] using length_dedupFrom_le _ r b

/-- The messages of one call. -/
def opMsgs (g : InputGraph) : Op → List Msg
  | .addEdge s d w => addMsgs g s d w
  | .addEdgeBidir s d w => addMsgs g s d w
  | .freeze => if g.frozen then [] else
      if g.edges.length = (InputGraph.removeDuplicateEdges (InputGraph.sortEdges g.edges)).length then []
      else [.duplicates (g.edges.length - (InputGraph.removeDuplicateEdges (InputGraph.sortEdges g.edges)).length)]
  | .thaw => []

theorem says_doAddEdge (P : Plat) (g : InputGraph) (s d w : Nat) (b : Bool) :
    Says (g.doAddEdgeL P s d w b) (g.doAddEdge P s d w b) (addMsgs g s d w) := by
  unfold InputGraph.doAddEdgeL InputGraph.doAddEdge addMsgs
  by_cases h1 : g.frozen
  · simp only [h1, if_true]
    exact says_lift _
  by_cases h2 : s = d
  · simp only [h1, h2, beq_self_eq_true, if_true, if_false, Bool.false_eq_true]
    exact (says_say _).bind_ok (says_pure _)
  by_cases h3 : w = 0
  · simp only [h1, beq_iff_eq, h2, h3, if_true, if_false, Bool.false_eq_true, Nat.lt_add_one]
    exact (says_say _).bind_ok (says_pure _)
  · simp only [h1, beq_iff_eq, h2, h3, if_false, Bool.false_eq_true, show ¬ w < 1 by omega]
    exact Says.bind_lift (fun _ _ => rfl) (fun _ _ => says_pure _)

theorem says_op (P : Plat) (g : InputGraph) (op : Op) : Says (op.runL P g) (op.run P g) (opMsgs g op) := by
  have hadd : ∀ s d w b, Says (do let (g, _) ← g.doAddEdgeL P s d w b; pure g)
      (do let (g, _) ← g.doAddEdge P s d w b; .ok g) (addMsgs g s d w) := by
    intro s d w b
    have h := says_doAddEdge P g s d w b
    cases hr : g.doAddEdge P s d w b with
    | error e =>
      rw [hr] at h
      exact h.bind_error
    | ok r =>
      rw [hr] at h
      have := h.bind_ok (k := fun r => pure r.1) (says_pure r.1)
      simpa using this
  cases op with
  | addEdge s d w => exact hadd s d w false
  | addEdgeBidir s d w => exact hadd s d w true
  | thaw => exact says_pure _
  | freeze =>
    show Says g.freezeL g.freeze _
    unfold InputGraph.freezeL InputGraph.freeze opMsgs
    by_cases h1 : g.frozen
    · simp only [h1, if_true]
      exact says_lift _
    · simp only [h1, if_false, Bool.false_eq_true]
      have hl : (InputGraph.sortEdges g.edges).length = g.edges.length := (sortEdges_perm _).length_eq
      rw [← hl]
      by_cases h2 : (InputGraph.sortEdges g.edges).length =
          (InputGraph.removeDuplicateEdges (InputGraph.sortEdges g.edges)).length
      · rw [if_pos h2, if_neg (by simpa using h2)]
        exact (says_pure _).bind_ok (says_pure _)
      · rw [if_neg h2, if_pos (by simpa using h2)]
        exact (says_say _).bind_ok (says_pure _)

theorem opMsgs_skips (g : InputGraph) (op : Op) (P : Plat) {g' : InputGraph} (h : op.run P g = .ok g') :
    (opMsgs g op).filter Msg.skips = (skipped op).toList := by
  have hadd : ∀ s d w b r, g.doAddEdge P s d w b = .ok r → (addMsgs g s d w).filter Msg.skips =
      (if s = d then some (Msg.loopEdge s d w) else if w = 0 then some (.zeroWeight s d w) else none).toList := by
    intro s d w b r hr
    unfold InputGraph.doAddEdge at hr
    by_cases h1 : g.frozen
    · simp [h1] at hr
    unfold addMsgs
    rw [if_neg h1]
    split
    · rfl
    · split
      · rfl
      · rfl
  cases op with
  | addEdge s d w =>
    obtain ⟨r, hr, _⟩ := bind_eq_ok.1 h
    exact hadd s d w false r hr
  | addEdgeBidir s d w =>
    obtain ⟨r, hr, _⟩ := bind_eq_ok.1 h
    exact hadd s d w true r hr
  | thaw => rfl
  | freeze =>
    simp only [opMsgs]
    split
    · rfl
    · split <;> rfl

theorem opMsgs_kind (g : InputGraph) (op : Op) : ∀ m ∈ opMsgs g op, m.skips = true ∨ ∃ c, 0 < c ∧ m = .duplicates c := by
  have hadd : ∀ s d w, ∀ m ∈ addMsgs g s d w, m.skips = true := by
    intro s d w m hm
    unfold addMsgs at hm
    split at hm
    · cases hm
    · split at hm
      · rw [List.mem_singleton] at hm; subst hm; rfl
      · split at hm
        · rw [List.mem_singleton] at hm; subst hm; rfl
        · cases hm
  cases op with
  | addEdge s d w => exact fun m hm => Or.inl (hadd s d w m hm)
  | addEdgeBidir s d w => exact fun m hm => Or.inl (hadd s d w m hm)
  | thaw => intro m hm; cases hm
  | freeze =>
    intro m hm
    simp only [opMsgs] at hm
    split at hm
    · cases hm
    · split at hm
      · cases hm
      · rename_i h
        rw [List.mem_singleton] at hm
        have := length_dedup_le g.edges
        exact Or.inr ⟨_, by omega, hm⟩

theorem opMsgs_balance (g : InputGraph) (op : Op) (P : Plat) {g' : InputGraph} (h : op.run P g = .ok g') :
    g'.edges.length + ((opMsgs g op).map Msg.dropped).sum = g.edges.length + op.edges.length := by
  have hadd : ∀ s d w, ((addMsgs g s d w).map Msg.dropped).sum = 0 := by
    intro s d w
    unfold addMsgs
    split
    · rfl
    · split
      · rfl
      · split <;> rfl
  cases op with
  | addEdge s d w =>
    obtain ⟨r, hr, h2⟩ := bind_eq_ok.1 h
    injection h2 with h2
    subst h2
    show _ + ((addMsgs g s d w).map Msg.dropped).sum = _
    rw [hadd]
    simp only [InputGraph.addEdge, InputGraph.doAddEdge] at hr
    by_cases h1 : g.frozen
    · simp [h1] at hr
    by_cases h3 : s = d
    · simp [h1, h3] at hr
      subst hr
      simp [Op.edges, h3]
    by_cases h4 : w = 0
    · simp [h1, h3, h4] at hr
      subst hr
      simp [Op.edges, h4]
    · simp only [h1, beq_iff_eq, h3, if_false, Bool.false_eq_true, show ¬ w < 1 by omega] at hr
      obtain ⟨m, _, hr⟩ := bind_eq_ok.1 hr
      injection hr with hr
      subst hr
      simp [Op.edges, h3, show 1 ≤ w by omega]
  | addEdgeBidir s d w =>
    obtain ⟨r, hr, h2⟩ := bind_eq_ok.1 h
    injection h2 with h2
    subst h2
    show _ + ((addMsgs g s d w).map Msg.dropped).sum = _
    rw [hadd]
    simp only [InputGraph.addEdgeBidir, InputGraph.doAddEdge] at hr
    by_cases h1 : g.frozen
    · simp [h1] at hr
    by_cases h3 : s = d
    · simp [h1, h3] at hr
      subst hr
      simp [Op.edges, h3]
    by_cases h4 : w = 0
    · simp [h1, h3, h4] at hr
      subst hr
      simp [Op.edges, h4]
    · simp only [h1, beq_iff_eq, h3, if_false, Bool.false_eq_true, show ¬ w < 1 by omega] at hr
      obtain ⟨m, _, hr⟩ := bind_eq_ok.1 hr
      injection hr with hr
      subst hr
      simp [Op.edges, h3, show 1 ≤ w by omega]
  | thaw =>
    injection h with h
    subst h
    rfl
  | freeze =>
    have h' : g.freeze = .ok g' := h
    unfold InputGraph.freeze at h'
    by_cases h1 : g.frozen
    · simp [h1] at h'
    · rw [if_neg h1] at h'
      injection h' with h'
      subst h'
      have := length_dedup_le g.edges
      simp only [opMsgs]
      rw [if_neg h1]
      split
      · rename_i h2
        simp [Op.edges, ← h2]
      · simp [Op.edges, Msg.dropped]
        omega

/-- What holds after the calls `ops`. -/
structure GLog (ops : List Op) (g : InputGraph) (l : List Msg) : Prop where
  skips : l.filter Msg.skips = ops.filterMap skipped
  kind : ∀ m ∈ l, m.skips = true ∨ ∃ c, 0 < c ∧ m = .duplicates c
  balance : g.edges.length + (l.map Msg.dropped).sum = (accepted ops).length
  adds : (∀ op ∈ ops, op ≠ .freeze) → l = ops.filterMap skipped

theorem buildGraphL_says (P : Plat) (ops : List Op) : ∃ l, Says (buildGraphL P ops) (buildGraph P ops) l ∧
    ∀ g, buildGraph P ops = .ok g → GLog ops g l := by
  obtain ⟨l, h1, h2, _⟩ := says_forL (f := fun g (op : Op) => op.runL P g) (f' := fun g (op : Op) => op.run P g) (as := ops)
    GLog (fun _ => True) (fun _ _ _ _ => trivial) (by
      rintro pre op post g l he ⟨h1, h2, h3, h4⟩
      refine ⟨opMsgs g op, says_op P g op, ?_, fun _ _ => trivial⟩
      intro g' hg'
      refine ⟨?_, ?_, ?_, ?_⟩
      · rw [List.filter_append, h1, opMsgs_skips g op P hg', List.filterMap_append]
        cases hs : skipped op <;> simp [hs]
      · intro m hm
        rcases List.mem_append.1 hm with h | h
        · exact h2 m h
        · exact opMsgs_kind g op m h
      · have := opMsgs_balance g op P hg'
        simp only [List.map_append, List.sum_append, accepted, List.flatMap_append, List.length_append] at h3 ⊢
        simp only [List.flatMap_cons, List.flatMap_nil, List.append_nil]
        omega
      · intro hno
        have hk : (opMsgs g op).filter Msg.skips = opMsgs g op := by
          rw [List.filter_eq_self]
          intro m hm
          cases op with
          | freeze => exact absurd rfl (hno .freeze (by simp))
          | thaw => cases hm
          | addEdge s d w =>
            rcases opMsgs_kind g _ m hm with h | ⟨c, _, rfl⟩
            · exact h
            · exfalso
              simp only [opMsgs, addMsgs] at hm
              split at hm
              · cases hm
              · split at hm
                · simp at hm
                · split at hm <;> simp at hm
          | addEdgeBidir s d w =>
            rcases opMsgs_kind g _ m hm with h | ⟨c, _, rfl⟩
            · exact h
            · exfalso
              simp only [opMsgs, addMsgs] at hm
              split at hm
              · cases hm
              · split at hm
                · simp at hm
                · split at hm <;> simp at hm
        rw [h4 (fun o ho => hno o (by simp [ho])), ← hk, opMsgs_skips g op P hg', List.filterMap_append]
        cases hs : skipped op <;> simp [hs])
    ops [] InputGraph.new [] rfl ⟨rfl, by simp, rfl, by simp⟩
  exact ⟨l, h1, fun g hg => h2 g hg⟩

/-! ## Preparation -/

variable {P : Plat} {n : Nat} {pq : PQ} {nq : NodeQueue}

theorem recordNode_first {fg fg' : FastGraph} {pg : PreparationGraph} {rank node : Nat}
    (h : recordNode P fg pg rank node = .ok fg') :
    (fg'.firstEdgeIdsFwd = fg.firstEdgeIdsFwd.set (rank + 1) fg'.edgesFwd.length ∧ rank + 1 < fg.firstEdgeIdsFwd.length) ∧
    fg'.firstEdgeIdsBwd = fg.firstEdgeIdsBwd.set (rank + 1) fg'.edgesBwd.length ∧ rank + 1 < fg.firstEdgeIdsBwd.length := by
  unfold recordNode at h
  obtain ⟨outs, _, h⟩ := bind_eq_ok.1 h
  obtain ⟨ef, _, h⟩ := bind_eq_ok.1 h
  obtain ⟨ff, h1, h⟩ := bind_eq_ok.1 h
  obtain ⟨ins, _, h⟩ := bind_eq_ok.1 h
  obtain ⟨eb, _, h⟩ := bind_eq_ok.1 h
  obtain ⟨fb, h2, h⟩ := bind_eq_ok.1 h
  obtain ⟨rk, _, h⟩ := bind_eq_ok.1 h
  injection h with h
  subst h
  obtain ⟨k1, rfl⟩ := setIdx_eq_ok.1 h1
  obtain ⟨k2, rfl⟩ := setIdx_eq_ok.1 h2
  exact ⟨⟨rfl, k1⟩, rfl, k2⟩

theorem recordAndContract_first {ms : Nat} {st st' : BState pq} {rank node : Nat}
    (h : recordAndContract P ms st rank node = .ok st') :
    (st'.fg.firstEdgeIdsFwd = st.fg.firstEdgeIdsFwd.set (rank + 1) st'.fg.edgesFwd.length ∧
      rank + 1 < st.fg.firstEdgeIdsFwd.length) ∧
    st'.fg.firstEdgeIdsBwd = st.fg.firstEdgeIdsBwd.set (rank + 1) st'.fg.edgesBwd.length ∧
      rank + 1 < st.fg.firstEdgeIdsBwd.length := by
  unfold recordAndContract at h
  obtain ⟨fg, h1, h⟩ := bind_eq_ok.1 h
  obtain ⟨⟨pg, ws⟩, _, h⟩ := bind_eq_ok.1 h
  injection h with h
  subst h
  exact recordNode_first h1

/-- The messages about the first `k` nodes. -/
structure PLog (n k : Nat) (fg : FastGraph) (l : List Msg) : Prop where
  len : l.length = k
  fits : k = 0 ∨ k < fg.firstEdgeIdsFwd.length
  lenF : fg.firstEdgeIdsFwd.length = n + 1
  get : ∀ j < k, ∃ a b, fg.firstEdgeIdsFwd[j + 1]? = some a ∧ fg.firstEdgeIdsBwd[j + 1]? = some b ∧
    l[j]? = some (.contracted (j + 1) n a b)

/-- The messages when something went wrong, perhaps. -/
def PAny (n : Nat) (l : List Msg) : Prop :=
  l.length ≤ n ∧ ∀ j < l.length, ∃ a b, l[j]? = some (.contracted (j + 1) n a b)

theorem PLog.any {k : Nat} {fg : FastGraph} {l : List Msg} (h : PLog n k fg l) : PAny n l := by
  refine ⟨?_, ?_⟩
  · have := h.lenF
    rcases h.fits with h' | h' <;> have := h.len <;> omega
  · intro j hj
    rw [h.len] at hj
    obtain ⟨a, b, _, _, h3⟩ := h.get j hj
    exact ⟨a, b, h3⟩

theorem PLog.step {k ms node : Nat} {st st' : BState pq} {l : List Msg} (h : PLog n k st.fg l)
    (hr : recordAndContract P ms st k node = .ok st') :
    PLog n (k + 1) st'.fg (l ++ [.contracted (k + 1) n st'.fg.getNumOutEdges st'.fg.getNumInEdges]) := by
  obtain ⟨⟨h1, h2⟩, h3, h4⟩ := recordAndContract_first hr
  refine ⟨by simp [h.len], Or.inr (by rw [h1, List.length_set]; exact h2), by rw [h1, List.length_set]; exact h.lenF, ?_⟩
  intro j hj
  by_cases hjk : j = k
  · subst hjk
    refine ⟨st'.fg.edgesFwd.length, st'.fg.edgesBwd.length, ?_, ?_, ?_⟩
    · rw [h1, List.getElem?_set_self h2]
    · rw [h3, List.getElem?_set_self h4]
    · rw [List.getElem?_append_right (by rw [h.len]), h.len]
      simp [FastGraph.getNumOutEdges, FastGraph.getNumInEdges]
  · obtain ⟨a, b, k1, k2, k3⟩ := h.get j (by omega)
    refine ⟨a, b, ?_, ?_, ?_⟩
    · rw [h1, List.getElem?_set_ne (by omega)]; exact k1
    · rw [h3, List.getElem?_set_ne (by omega)]; exact k2
    · rw [List.getElem?_append_left (by rw [h.len]; omega)]; exact k3

theorem orderStepL_says {ms : Nat} {st : BState pq} {node k : Nat} {l : List Msg} (h : PLog n k st.fg l) :
    ∃ m, Says (orderStepL P n ms st (node, k)) (orderStep P n ms st (node, k)) m ∧
      (∀ st', orderStep P n ms st (node, k) = .ok st' → PLog n (k + 1) st'.fg (l ++ m)) ∧
      ∀ e, orderStep P n ms st (node, k) = .error e → PAny n (l ++ m) := by
  by_cases hn : node ≥ n
  · refine ⟨[], ?_, ?_, ?_⟩
    · unfold orderStepL orderStep
      simp only [hn, if_true]
      exact says_lift _
    · intro st' hs
      unfold orderStep at hs
      simp [hn] at hs
    · intro e _
      simpa using h.any
  · have e1 : orderStep P n ms st (node, k) = recordAndContract P ms st k node := by
      unfold orderStep
      simp only [hn, if_false]
    have e2 : orderStepL P n ms st (node, k) = (do
        let st ← U.lift (recordAndContract P ms st k node)
        say (.contracted (k + 1) n st.fg.getNumOutEdges st.fg.getNumInEdges)
        pure st) := by
      unfold orderStepL
      simp only [hn, if_false]
    rw [e1, e2]
    cases hr : recordAndContract P ms st k node with
    | error e =>
      exact ⟨[], (says_lift _).bind_error, fun _ hs => (by cases hs), fun _ _ => by simpa using h.any⟩
    | ok st' =>
      refine ⟨_, (says_lift _).bind_ok ((says_say _).bind_ok (says_pure _)), ?_, fun _ hs => (by cases hs)⟩
      intro st'' hs
      cases hs
      exact h.step hr

theorem forM_keep {σ α β : Type} {f : σ → α → M σ} {p : σ → β} (hf : ∀ s a s', f s a = .ok s' → p s' = p s) :
    ∀ (l : List α) (s s' : σ), forM f s l = .ok s' → p s' = p s := by
  intro l
  induction l with
  | nil => intro s s' h; cases h; rfl
  | cons a r ih =>
    intro s s' h
    rw [forM_cons] at h
    obtain ⟨s₁, h1, h2⟩ := bind_eq_ok.1 h
    rw [ih _ _ h2, hf _ _ _ h1]

theorem finishContraction_first {fg fg' : FastGraph} (h : finishContraction P n fg = .ok fg') :
    (fg'.firstEdgeIdsFwd, fg'.firstEdgeIdsBwd) = (fg.firstEdgeIdsFwd, fg.firstEdgeIdsBwd) := by
  unfold finishContraction at h
  obtain ⟨g, h1, h2⟩ := bind_eq_ok.1 h
  rw [forM_keep (p := fun g : FastGraph => (g.firstEdgeIdsFwd, g.firstEdgeIdsBwd)) ?_ _ _ _ h2,
    forM_keep (p := fun g : FastGraph => (g.firstEdgeIdsFwd, g.firstEdgeIdsBwd)) ?_ _ _ _ h1]
  · intro s i s' hs
    unfold finishFwdNode at hs
    obtain ⟨b, _, hs⟩ := bind_eq_ok.1 hs
    obtain ⟨e, _, hs⟩ := bind_eq_ok.1 hs
    refine forM_keep (p := fun g : FastGraph => (g.firstEdgeIdsFwd, g.firstEdgeIdsBwd)) ?_ _ _ _ hs
    intro s a s' hs
    unfold finishFwdEdge at hs
    obtain ⟨ed, _, hs⟩ := bind_eq_ok.1 hs
    simp only at hs
    split at hs
    · obtain ⟨_, _, hs⟩ := bind_eq_ok.1 hs
      injection hs with hs
      subst hs
      rfl
    · obtain ⟨_, _, hs⟩ := bind_eq_ok.1 hs
      obtain ⟨_, _, hs⟩ := bind_eq_ok.1 hs
      injection hs with hs
      subst hs
      rfl
  · intro s i s' hs
    unfold finishBwdNode at hs
    obtain ⟨b, _, hs⟩ := bind_eq_ok.1 hs
    obtain ⟨e, _, hs⟩ := bind_eq_ok.1 hs
    refine forM_keep (p := fun g : FastGraph => (g.firstEdgeIdsFwd, g.firstEdgeIdsBwd)) ?_ _ _ _ hs
    intro s a s' hs
    unfold finishBwdEdge at hs
    obtain ⟨ed, _, hs⟩ := bind_eq_ok.1 hs
    simp only at hs
    split at hs
    · obtain ⟨_, _, hs⟩ := bind_eq_ok.1 hs
      injection hs with hs
      subst hs
      rfl
    · obtain ⟨_, _, hs⟩ := bind_eq_ok.1 hs
      obtain ⟨_, _, hs⟩ := bind_eq_ok.1 hs
      injection hs with hs
      subst hs
      rfl

theorem PLog.finish {k : Nat} {fg fg' : FastGraph} {l : List Msg} (h : PLog n k fg l)
    (hf : finishContraction P n fg = .ok fg') : PLog n k fg' l := by
  have := finishContraction_first hf
  injection this with h1 h2
  obtain ⟨a, b, c, d⟩ := h
  rw [← h1, ← h2] at d
  rw [← h1] at b c
  exact ⟨a, b, c, d⟩

theorem PLog.new {fg : FastGraph} (h : FastGraph.new P n = .ok fg) : PLog n 0 fg [] := by
  unfold FastGraph.new at h
  split at h
  · injection h with h
    subst h
    exact ⟨rfl, Or.inl rfl, by simp [FastGraph.empty], by omega⟩
  · cases h

theorem runContractionWithOrderL_says (P : Plat) (pq : PQ) (ig : InputGraph) (n : Nat) (order : List Nat) (ms : Nat) :
    ∃ l, Says (runContractionWithOrderL P pq ig n order ms) (runContractionWithOrder P pq ig n order ms) l ∧
      (∀ fg, runContractionWithOrder P pq ig n order ms = .ok fg → PLog n order.length fg l) ∧ PAny n l := by
  have hnil : PAny n [] := ⟨by simp, by simp⟩
  unfold runContractionWithOrderL runContractionWithOrder
  cases h1 : FastGraph.new P n with
  | error e => exact ⟨[], (says_lift _).bind_error, fun _ h => (by cases h), hnil⟩
  | ok fg =>
    simp only [bind_okM, lift_ok_bind]
    cases h2 : PreparationGraph.fromInputGraph P ig with
    | error e => exact ⟨[], (says_lift _).bind_error, fun _ h => (by cases h), hnil⟩
    | ok pg =>
      simp only [bind_okM, lift_ok_bind]
      obtain ⟨m, k1, k2, k3⟩ := says_forL (f := orderStepL P n ms) (f' := orderStep P n ms) (as := order.zipIdx)
        (fun pre st l => PLog n pre.length st.fg l) (PAny n) (fun _ _ _ h => h.any) (by
          rintro pre ⟨node, k⟩ post st l he h
          have hk : k = pre.length := by
            have h3 : (order.zipIdx)[pre.length]? = some (node, k) := by rw [he]; simp
            rw [List.getElem?_zipIdx] at h3
            obtain ⟨v, _, hv⟩ := Option.map_eq_some_iff.1 h3
            injection hv with _ hv
            omega
          subst hk
          obtain ⟨m, a, b, c⟩ := orderStepL_says (P := P) (ms := ms) (node := node) h
          exact ⟨m, a, fun s' hs => by simpa using b s' hs, c⟩)
        order.zipIdx [] (⟨pg, WitnessSearch.new P pq n, fg⟩ : BState pq) [] rfl (PLog.new h1)
      simp only [List.nil_append] at k2 k3
      cases h3 : forM (orderStep P n ms) (⟨pg, WitnessSearch.new P pq n, fg⟩ : BState pq) order.zipIdx with
      | error e =>
        rw [h3] at k1
        exact ⟨m, k1.bind_error, fun _ h => (by cases h), k3⟩
      | ok st =>
        rw [h3] at k1
        refine ⟨m ++ [], k1.bind_ok (says_lift _), ?_,
          by simpa using k3⟩
        intro fg' hfg
        have := (k2 st h3).finish hfg
        simpa using this

theorem updateNeighbor_fg {params : Params} {node : Nat} {st st' : QState pq nq} {v : Nat}
    (h : updateNeighbor P params node st v = .ok st') :
    st'.b.fg = st.b.fg ∧ (nq.keys st'.queue).length = (nq.keys st.queue).length := by
  unfold updateNeighbor at h
  obtain ⟨_, _, h⟩ := bind_eq_ok.1 h
  obtain ⟨_, _, h⟩ := bind_eq_ok.1 h
  obtain ⟨_, _, h⟩ := bind_eq_ok.1 h
  obtain ⟨_, _, h⟩ := bind_eq_ok.1 h
  obtain ⟨_, _, h⟩ := bind_eq_ok.1 h
  obtain ⟨_, _, h⟩ := bind_eq_ok.1 h
  injection h with h
  subst h
  exact ⟨rfl, (nq.keys_change _ _ _).length_eq⟩

theorem initialPriority_fg {params : Params} {st st' : QState pq nq} {v : Nat}
    (h : initialPriority P params st v = .ok st') (hv : v ∉ nq.keys st.queue) :
    st'.b.fg = st.b.fg ∧ (nq.keys st'.queue).Perm (v :: nq.keys st.queue) := by
  unfold initialPriority at h
  obtain ⟨_, _, h⟩ := bind_eq_ok.1 h
  injection h with h
  subst h
  exact ⟨rfl, nq.keys_push _ _ _ hv⟩

theorem contractionLoopL_says {params : Params} : ∀ (fuel k : Nat) (st : QState pq nq) (l : List Msg), PLog n k st.b.fg l →
    ∃ m, Says (contractionLoopL P n params fuel k st) (contractionLoop P params fuel k st) m ∧
      (∀ st', contractionLoop P params fuel k st = .ok st' →
        PLog n (k + (nq.keys st.queue).length) st'.b.fg (l ++ m)) ∧ PAny n (l ++ m) := by
  intro fuel
  induction fuel with
  | zero => intro k st l h; exact ⟨[], says_lift _, fun _ h => (by cases h), by simpa using h.any⟩
  | succ fuel ih =>
    intro k st l h
    unfold contractionLoopL contractionLoop
    cases hp : nq.pop st.queue with
    | none =>
      refine ⟨[], says_pure _, ?_, by simpa using h.any⟩
      intro st' hs
      cases hs
      rw [(nq.pop_none _).1 hp]
      simpa using h
    | some r =>
      obtain ⟨node, queue⟩ := r
      simp only
      have hk := (nq.pop_some _ _ _ hp).length_eq
      simp only [List.length_cons] at hk
      cases h1 : idx st.b.pg.outEdges node with
      | error e => exact ⟨[], (says_lift _).bind_error, fun _ h => (by cases h), by simpa using h.any⟩
      | ok outs =>
        simp only [bind_okM, lift_ok_bind]
        cases h2 : idx st.b.pg.inEdges node with
        | error e => exact ⟨[], (says_lift _).bind_error, fun _ h => (by cases h), by simpa using h.any⟩
        | ok ins =>
          simp only [bind_okM, lift_ok_bind]
          cases h3 : recordAndContract P params.maxSettledContraction st.b k node with
          | error e =>
            exact ⟨[], (says_lift _).bind_error,
              fun _ h => (by cases h), by simpa using h.any⟩
          | ok b =>
            simp only [bind_okM, lift_ok_bind]
            cases h4 : forM (updateNeighbor P params node) ({ st with b := b, queue := queue } : QState pq nq)
                (neighborSet outs ins) with
            | error e =>
              exact ⟨[], (says_lift _).bind_error, fun _ h => (by cases h), by simpa using h.any⟩
            | ok st₁ =>
              simp only [bind_okM, lift_ok_bind]
              have h5 := forM_keep (p := fun s : QState pq nq => (s.b.fg, (nq.keys s.queue).length))
                (fun s a s' hs => by
                  obtain ⟨k1, k2⟩ := updateNeighbor_fg hs
                  simp only [k1, k2]) _ _ _ h4
              simp only [Prod.mk.injEq] at h5
              have h6 := h.step h3
              rw [← h5.1] at h6
              obtain ⟨m, a, b', c⟩ := ih (k + 1) st₁ _ h6
              refine ⟨[.contracted (k + 1) n st₁.b.fg.getNumOutEdges st₁.b.fg.getNumInEdges] ++ m,
                (says_say _).bind_ok a, ?_, ?_⟩
              · intro st' hs
                have := b' st' hs
                rw [List.append_assoc] at this
                rw [hk, ← h5.2, show k + ((nq.keys st₁.queue).length + 1) = k + 1 + (nq.keys st₁.queue).length by omega]
                exact this
              · rw [← List.append_assoc]
                exact c

theorem runContractionL_says (P : Plat) (pq : PQ) (nq : NodeQueue) (ig : InputGraph) (n : Nat) (params : Params) :
    ∃ l, Says (runContractionL P pq nq ig n params) (runContraction P pq nq ig n params) l ∧
      (∀ fg, runContraction P pq nq ig n params = .ok fg → PLog n n fg l) ∧ PAny n l := by
  have hnil : PAny n [] := ⟨by simp, by simp⟩
  unfold runContractionL runContraction
  cases h1 : FastGraph.new P n with
  | error e => exact ⟨[], (says_lift _).bind_error, fun _ h => (by cases h), hnil⟩
  | ok fg =>
    simp only [bind_okM, lift_ok_bind]
    cases h2 : PreparationGraph.fromInputGraph P ig with
    | error e => exact ⟨[], (says_lift _).bind_error, fun _ h => (by cases h), hnil⟩
    | ok pg =>
      simp only [bind_okM, lift_ok_bind]
      cases h3 : forM (initialPriority P params) (⟨⟨pg, WitnessSearch.new P pq n, fg⟩, List.replicate n 0, nq.empty⟩ : QState pq nq)
          (List.range n) with
      | error e => exact ⟨[], (says_lift _).bind_error,
          fun _ h => (by cases h), hnil⟩
      | ok st =>
        simp only [bind_okM, lift_ok_bind]
        have h4 : st.b.fg = fg ∧ (nq.keys st.queue).Perm (List.range n) := by
          have := forM_inv (f := initialPriority P params) (I := fun pre (s : QState pq nq) => pre.Nodup → s.b.fg = fg ∧
            (nq.keys s.queue).Perm pre) (by
              intro pre a s s' hI hs hnd
              obtain ⟨k1, k2⟩ := hI (List.nodup_append.1 hnd).1
              have hnot : a ∉ nq.keys s.queue := by
                intro hm
                exact (List.nodup_append.1 hnd).2.2 a (k2.subset hm) a (by simp) rfl
              obtain ⟨k3, k4⟩ := initialPriority_fg hs hnot
              exact ⟨k3.trans k1, k4.trans ((k2.cons a).trans (List.perm_append_singleton a _).symm)⟩)
            (List.range n) [] _ st (fun _ => ⟨rfl, by simp [nq.keys_empty]⟩) h3
          simpa using this (by simpa using List.nodup_range)
        have hlog : PLog n 0 st.b.fg [] := by rw [h4.1]; exact PLog.new h1
        obtain ⟨m, a, b, c⟩ := contractionLoopL_says (P := P) (params := params) (n + 1) 0 st [] hlog
        simp only [List.nil_append] at b c
        have hl := h4.2.length_eq
        simp only [List.length_range] at hl
        rw [hl, Nat.zero_add] at b
        cases h5 : contractionLoop P params (n + 1) 0 st with
        | error e =>
          rw [h5] at a
          exact ⟨m, a.bind_error, fun _ h => (by cases h), c⟩
        | ok st' =>
          rw [h5] at a
          refine ⟨m ++ [], a.bind_ok (says_lift _), ?_, by simpa using c⟩
          intro fg' hfg
          have := (b st' h5).finish hfg
          simpa using this

theorem opMsgs_failed (g : InputGraph) (op : Op) (P : Plat) {e : Panic} (h : op.run P g = .error e) : opMsgs g op = [] := by
  have hadd : ∀ s d w b, g.doAddEdge P s d w b = .error e → addMsgs g s d w = [] := by
    intro s d w b hr
    unfold InputGraph.doAddEdge at hr
    unfold addMsgs
    by_cases h1 : g.frozen
    · rw [if_pos h1]
    · rw [if_neg h1] at hr ⊢
      by_cases h2 : s = d
      · simp [h2] at hr
      · by_cases h3 : w = 0
        · simp [h2, h3] at hr
        · rw [if_neg h2, if_neg h3]
  cases op with
  | addEdge s d w =>
    have h' : (g.doAddEdge P s d w false >>= fun r => (.ok r.1 : M InputGraph)) = .error e := h
    cases hr : g.doAddEdge P s d w false with
    | error e' => rw [hr] at h'; cases h'; exact hadd s d w false hr
    | ok r => rw [hr] at h'; cases h'
  | addEdgeBidir s d w =>
    have h' : (g.doAddEdge P s d w true >>= fun r => (.ok r.1 : M InputGraph)) = .error e := h
    cases hr : g.doAddEdge P s d w true with
    | error e' => rw [hr] at h'; cases h'; exact hadd s d w true hr
    | ok r => rw [hr] at h'; cases h'
  | thaw => rfl
  | freeze =>
    have h' : g.freeze = .error e := h
    unfold InputGraph.freeze at h'
    simp only [opMsgs]
    split
    · rfl
    · rename_i h1
      rw [if_neg h1] at h'
      cases h'

theorem prepareWithParamsL_says (P : Plat) (pq : PQ) (nq : NodeQueue) (ig : InputGraph) (params : Params) :
    ∃ l, Says (prepareWithParamsL P pq nq ig params) (prepareWithParams P pq nq ig params) l ∧
      (∀ fg, prepareWithParams P pq nq ig params = .ok fg → PLog ig.numNodes ig.numNodes fg l) ∧ PAny ig.numNodes l := by
  unfold prepareWithParamsL prepareWithParams buildWithParams InputGraph.getNumNodes InputGraph.checkFrozen
  by_cases hf : ig.frozen
  · simp only [hf, assertM, if_true, bind_okM, lift_ok_bind]
    exact runContractionL_says P pq nq ig ig.numNodes params
  · simp only [hf, assertM, if_false, Bool.false_eq_true]
    exact ⟨[], (says_lift _).bind_error, fun _ h => (by cases h), by simp, by simp⟩

theorem prepareWithOrderWithParamsL_says (P : Plat) (pq : PQ) (ig : InputGraph) (order : List Nat) (ms : Nat) :
    ∃ l, Says (prepareWithOrderWithParamsL P pq ig order ms) (prepareWithOrderWithParams P pq ig order ms) l ∧
      (∀ fg, prepareWithOrderWithParams P pq ig order ms = .ok (.ok fg) → PLog ig.numNodes ig.numNodes fg l) ∧
      PAny ig.numNodes l := by
  unfold prepareWithOrderWithParamsL prepareWithOrderWithParams buildWithOrderWithParams InputGraph.getNumNodes
    InputGraph.checkFrozen
  by_cases hf : ig.frozen
  · simp only [hf, assertM, if_true, bind_okM, lift_ok_bind]
    by_cases ho : ig.numNodes = order.length
    · simp only [ho, bne_self_eq_false, if_false, Bool.false_eq_true]
      obtain ⟨l, h1, h2, h3⟩ := runContractionWithOrderL_says P pq ig order.length order ms
      cases hr : runContractionWithOrder P pq ig order.length order ms with
      | error e =>
        rw [hr] at h1
        exact ⟨l, h1.bind_error, fun _ h => (by cases h), h3⟩
      | ok fg =>
        rw [hr] at h1
        refine ⟨l ++ [], h1.bind_ok (says_pure _), ?_, by simpa using h3⟩
        intro fg' h
        cases h
        simpa using h2 fg hr
    · have : (ig.numNodes != order.length) = true := by simpa using ho
      simp only [this, if_true]
      exact ⟨[], says_pure _, fun _ h => (by cases h), by simp, by simp⟩
  · simp only [hf, assertM, if_false, Bool.false_eq_true]
    exact ⟨[], (says_lift _).bind_error, fun _ h => (by cases h), by simp, by simp⟩

theorem countP_prefix {α : Type} {p : α → Bool} : ∀ {l : List α} {a : Nat}, a ≤ l.length →
    (∀ i x, l[i]? = some x → (p x = true ↔ i < a)) → l.countP p = a := by
  intro l
  induction l with
  | nil => intro a ha _; simp at ha; simp [ha]
  | cons x r ih =>
    intro a ha h
    have h0 := h 0 x rfl
    cases a with
    | zero =>
      have hx : ¬ p x = true := by rw [h0]; omega
      rw [List.countP_cons_of_neg hx]
      exact ih (Nat.zero_le _) (fun i y hy => by
        have := h (i + 1) y hy
        constructor
        · intro hp; have := this.1 hp; omega
        · omega)
    | succ a =>
      have hx : p x = true := by rw [h0]; omega
      rw [List.countP_cons_of_pos hx]
      rw [ih (by simpa using ha) (fun i y hy => by
        have := h (i + 1) y hy
        rw [this]
        omega)]

end FP
