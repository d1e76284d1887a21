import Verif.Model.DiskReader
import Verif.Proofs.TextBytes
import Verif.Proofs.Logic
/-! # Reading on a disk that may fail -/
namespace FP
namespace DiskReader
open TextIO TextBytes DiskWriter

theorem cutLine_some : ∀ {bs l x : List UInt8}, cutLine bs = some (l, x) → bs = l ++ x ∧ l ≠ []
  | [], l, x, h => by cases h
  | b :: bs, l, x, h => by
    unfold cutLine at h
    split at h
    · cases h; exact ⟨rfl, by simp⟩
    · rw [Option.map_eq_some_iff] at h
      obtain ⟨⟨l', x'⟩, h1, h2⟩ := h
      cases h2
      obtain ⟨h3, _⟩ := cutLine_some h1
      exact ⟨by rw [h3]; rfl, by simp⟩

theorem cutLine_append : ∀ {a b : List UInt8}, cutLine a = none → cutLine (a ++ b) = (cutLine b).map (fun x => (a ++ x.1, x.2))
  | [], b, _ => by simp
  | c :: a, b, h => by
    unfold cutLine at h
    split at h
    · cases h
    · next hc =>
      rw [Option.map_eq_none_iff] at h
      rw [List.cons_append]
      conv => lhs; unfold cutLine
      rw [if_neg hc, cutLine_append h]
      cases cutLine b <;> simp

theorem cutLine_append_some : ∀ {a b l x : List UInt8}, cutLine a = some (l, x) → cutLine (a ++ b) = some (l, x ++ b)
  | [], b, l, x, h => by cases h
  | c :: a, b, l, x, h => by
    unfold cutLine at h
    rw [List.cons_append]
    unfold cutLine
    split at h
    · next hc => cases h; rw [if_pos hc]
    · next hc =>
      rw [if_neg hc]
      rw [Option.map_eq_some_iff] at h
      obtain ⟨⟨l', x'⟩, h1, h2⟩ := h
      cases h2
      rw [cutLine_append_some h1]
      rfl

theorem rawLinesFrom_cut : ∀ (bs acc : List UInt8), rawLinesFrom acc bs =
    match cutLine bs with
    | some (l, x) => (acc.reverse ++ l) :: rawLinesFrom [] x
    | none => if (acc.reverse ++ bs).isEmpty then [] else [acc.reverse ++ bs]
  | [], acc => by
    unfold rawLinesFrom cutLine
    simp
  | b :: bs, acc => by
    show (if b = 10 then (b :: acc).reverse :: rawLinesFrom [] bs else rawLinesFrom (b :: acc) bs) = _
    rw [show cutLine (b :: bs) = if b = 10 then some ([b], bs) else (cutLine bs).map (fun x => (b :: x.1, x.2)) from rfl]
    by_cases hb : b = 10
    · rw [if_pos hb, if_pos hb, List.reverse_cons]
    · rw [if_neg hb, if_neg hb, rawLinesFrom_cut bs (b :: acc)]
      cases h : cutLine bs with
      | none => simp
      | some lx => simp only [Option.map_some, List.reverse_cons, List.append_assoc, List.singleton_append]

theorem rawLines_cut {bs l x : List UInt8} (h : cutLine bs = some (l, x)) : rawLines bs = l :: rawLines x := by
  unfold rawLines
  rw [rawLinesFrom_cut, h]
  rfl

theorem rawLines_last {bs : List UInt8} (h : cutLine bs = none) : rawLines bs = if bs.isEmpty then [] else [bs] := by
  unfold rawLines
  rw [rawLinesFrom_cut, h]
  rfl

/-- what a reader has still to deliver -/
def BufReader.left (r : BufReader) : List UInt8 := r.buf ++ r.file.rest

/-- the next line of some bytes, without what follows -/
def nextLine (bs : List UInt8) : List UInt8 × List UInt8 := (cutLine bs).getD (bs, [])

theorem nextLine_append {bs : List UInt8} : (nextLine bs).1 ++ (nextLine bs).2 = bs := by
  unfold nextLine
  cases h : cutLine bs with
  | none => simp
  | some lx => exact (cutLine_some (x := lx.2) (l := lx.1) h).1.symm

theorem nextLine_nil {bs : List UInt8} (h : (nextLine bs).1 = []) : bs = [] := by
  unfold nextLine at h
  cases h' : cutLine bs with
  | none => rw [h'] at h; exact h
  | some lx => rw [h'] at h; exact absurd h (cutLine_some (x := lx.2) (l := lx.1) h').2

/-- one `read` for a positive number of bytes -/
theorem read_cases (f : OpenFile) {n : Nat} (hn : 0 < n) :
    (∃ f' bs, f.read n = (f', .bytes bs) ∧ f.rest = bs ++ f'.rest ∧ (∃ pre, f.answers = pre ++ f'.answers) ∧ bs.length ≤ n ∧
      (bs = [] → f.rest = [])) ∨
    (∃ f', f.read n = (f', .interrupted) ∧ f'.rest = f.rest ∧ f.answers = .interrupted :: f'.answers) ∨
    (∃ f', f.read n = (f', .error) ∧ ReadAnswer.error ∈ f.answers) := by
  obtain ⟨rest, answers⟩ := f
  unfold OpenFile.read
  match answers with
  | [] =>
    refine Or.inl ⟨_, _, rfl, by simp, ⟨[], rfl⟩, by simp; omega, ?_⟩
    intro h
    rw [List.take_eq_nil_iff] at h
    rcases h with h | h
    · omega
    · exact h
  | .bytes k :: as =>
    refine Or.inl ⟨_, _, rfl, by simp, ⟨[.bytes k], rfl⟩, by simp; omega, ?_⟩
    intro h
    rw [List.take_eq_nil_iff] at h
    rcases h with h | h
    · omega
    · exact h
  | .interrupted :: as => exact Or.inr (Or.inl ⟨_, rfl, rfl, rfl⟩)
  | .error :: as => exact Or.inr (Or.inr ⟨_, rfl, by simp⟩)

theorem fillBuf_cases (r : BufReader) :
    (∃ r' bs, r.fillBuf = (r', .bytes bs) ∧ r'.buf = bs ∧ r'.left = r.left ∧ (∃ pre, r.file.answers = pre ++ r'.file.answers) ∧
      (bs = [] → r.left = [])) ∨
    (∃ r', r.fillBuf = (r', .interrupted) ∧ r'.left = r.left ∧ r.file.answers = .interrupted :: r'.file.answers) ∨
    (∃ r', r.fillBuf = (r', .error) ∧ ReadAnswer.error ∈ r.file.answers) := by
  unfold BufReader.fillBuf
  split
  · next hb =>
    have hb : r.buf = [] := by simpa using hb
    rcases read_cases r.file (n := BUFFER) (by decide) with ⟨f', bs, e, h1, h2, _, h3⟩ | ⟨f', e, h1, h2⟩ | ⟨f', e, h1⟩
    · rw [e]
      exact Or.inl ⟨_, _, rfl, rfl, by simp [BufReader.left, hb, h1], h2, fun h => by simp [BufReader.left, hb, h3 h]⟩
    · rw [e]
      exact Or.inr (Or.inl ⟨_, rfl, by simp [BufReader.left, hb, h1], h2⟩)
    · rw [e]
      exact Or.inr (Or.inr ⟨_, rfl, h1⟩)
  · next hb =>
    refine Or.inl ⟨r, r.buf, rfl, rfl, rfl, ⟨[], rfl⟩, ?_⟩
    intro h
    rw [h] at hb
    exact absurd rfl hb

/-- `read_until` delivers the next line, or there was an error. -/
theorem readUntil_cases : ∀ (fuel : Nat) (r : BufReader) (line : List UInt8), r.left.length + r.file.answers.length + 1 ≤ fuel →
    (r.readUntil fuel line = none ∧ ReadAnswer.error ∈ r.file.answers) ∨
    ∃ r', r.readUntil fuel line = some (line ++ (nextLine r.left).1, r') ∧ r'.left = (nextLine r.left).2 ∧
      ∃ pre, r.file.answers = pre ++ r'.file.answers
  | 0, r, line, h => by omega
  | fuel + 1, r, line, h => by
    unfold BufReader.readUntil
    rcases fillBuf_cases r with ⟨r', bs, e, hb, hl, ⟨pre, hp⟩, hn⟩ | ⟨r', e, hl, hp⟩ | ⟨r', e, hp⟩
    · rw [e]
      dsimp only
      have hlen := congrArg List.length hp
      rw [List.length_append] at hlen
      cases hc : cutLine bs with
      | some lx =>
        right
        have h1 : r.left = bs ++ r'.file.rest := by rw [← hl, BufReader.left, hb]
        have h2 : nextLine r.left = (lx.1, lx.2 ++ r'.file.rest) := by
          unfold nextLine
          rw [h1, cutLine_append_some (l := lx.1) (x := lx.2) hc]
          rfl
        exact ⟨{ r' with buf := lx.2 }, by rw [h2], by rw [h2]; rfl, pre, hp⟩
      | none =>
        dsimp only
        split
        · next he =>
          have he : bs = [] := by simpa using he
          right
          have h0 := hn he
          refine ⟨r', ?_, ?_, pre, hp⟩
          · rw [h0]; simp [nextLine, cutLine]
          · rw [hl, h0]; rfl
        · next he =>
          have he : bs ≠ [] := by simpa using he
          have h1 : r.left = bs ++ r'.file.rest := by rw [← hl, BufReader.left, hb]
          have hpos : 0 < bs.length := List.length_pos_iff.2 he
          have hl2 := congrArg List.length h1
          rw [List.length_append] at hl2
          have hl3 : (({ r' with buf := [] } : BufReader)).left = r'.file.rest := rfl
          have h3 : nextLine r.left = (bs ++ (nextLine r'.file.rest).1, (nextLine r'.file.rest).2) := by
            unfold nextLine
            rw [h1, cutLine_append hc]
            cases cutLine r'.file.rest with
            | none => simp
            | some lx => simp
          rcases readUntil_cases fuel { r' with buf := [] } (line ++ bs) (by rw [hl3]; show _ + r'.file.answers.length + 1 ≤ _; omega) with
            ⟨e', he'⟩ | ⟨r'', e', hl', pre', hp'⟩
          · left
            refine ⟨e', ?_⟩
            rw [hp]
            exact List.mem_append_right _ he'
          · right
            refine ⟨r'', ?_, ?_, pre ++ pre', ?_⟩
            · rw [e', hl3, h3, List.append_assoc]
            · rw [hl', hl3, h3]
            · rw [hp]
              show _ ++ r'.file.answers = _
              have hp' : r'.file.answers = pre' ++ r''.file.answers := hp'
              rw [hp', List.append_assoc]
    · rw [e]
      dsimp only
      have hlen : r.file.answers.length = r'.file.answers.length + 1 := by rw [hp]; rfl
      rcases readUntil_cases fuel r' line (by rw [hl]; omega) with ⟨e', he'⟩ | ⟨r'', e', hl', pre', hp'⟩
      · exact Or.inl ⟨e', by rw [hp]; exact List.mem_cons_of_mem _ he'⟩
      · refine Or.inr ⟨r'', ?_, ?_, .interrupted :: pre', ?_⟩
        · rw [e', hl]
        · rw [hl', hl]
        · rw [hp, hp']; rfl
    · rw [e]
      exact Or.inl ⟨rfl, hp⟩

/-- The loop over the lines does what it does on a disk without errors, or panics because of an error. -/
theorem eachLine_cases {σ : Type} (f : σ → List Char → M σ) : ∀ (fuel : Nat) (r : BufReader) (st : σ), r.left.length < fuel →
    eachLine f fuel r st = forM (withLine f) st (rawLines r.left) ∨
    ((∃ p, eachLine f fuel r st = .error p) ∧ ReadAnswer.error ∈ r.file.answers)
  | 0, r, st, h => by omega
  | fuel + 1, r, st, h => by
    unfold eachLine
    have hf : r.left.length + r.file.answers.length + 1 ≤ r.fuel := by
      unfold BufReader.fuel BufReader.left
      rw [List.length_append]
      omega
    rcases readUntil_cases r.fuel r [] hf with ⟨e, he⟩ | ⟨r', e, hl, pre, hp⟩
    · rw [e]
      exact Or.inr ⟨⟨_, rfl⟩, he⟩
    · rw [e]
      have e1 : (unwrap (some ([] ++ (nextLine r.left).1, r')) : M _) = .ok ((nextLine r.left).1, r') := rfl
      rw [e1]
      simp only [bind_okM]
      split
      · next hn =>
        have hn : (nextLine r.left).1 = [] := by simpa using hn
        rw [nextLine_nil hn]
        exact Or.inl rfl
      · next hn =>
        have hn : (nextLine r.left).1 ≠ [] := by simpa using hn
        have hd : r.left.length = (nextLine r.left).1.length + (nextLine r.left).2.length := by
          rw [← List.length_append, nextLine_append]
        have hpos : 0 < (nextLine r.left).1.length := List.length_pos_iff.2 hn
        have hr : rawLines r.left = (nextLine r.left).1 :: rawLines (nextLine r.left).2 := by
          cases hc : cutLine r.left with
          | some lx =>
            rw [rawLines_cut (l := lx.1) (x := lx.2) hc]
            unfold nextLine; rw [hc]; rfl
          | none =>
            rw [rawLines_last hc]
            unfold nextLine at hn ⊢
            rw [hc] at hn ⊢
            rw [if_neg (by simpa using hn)]
            rfl
        rw [hr]
        unfold forM
        cases hw : withLine f st (nextLine r.left).1 with
        | error p => exact Or.inl rfl
        | ok st' =>
          simp only [bind_okM]
          rcases eachLine_cases f fuel r' st' (by rw [hl]; omega) with e' | ⟨e', he'⟩
          · rw [e', hl]; exact Or.inl rfl
          · exact Or.inr ⟨e', by rw [hp]; exact List.mem_append_right _ he'⟩

/-- the number of bytes an answer allows -/
def ReadAnswer.size (n : Nat) : ReadAnswer → Nat
  | .bytes k => min (k + 1) n
  | _ => 0

/-- An error is waiting that will be met before the end of the file is seen. -/
def Doomed (f : OpenFile) : Prop :=
  ∃ pre post, f.answers = pre ++ .error :: post ∧ (pre.map (ReadAnswer.size BUFFER)).sum ≤ f.rest.length

theorem fillBuf_doomed {r : BufReader} (h : Doomed r.file) :
    (∃ r', r.fillBuf = (r', .error)) ∨ ∃ r' x, r.fillBuf = (r', x) ∧ Doomed r'.file ∧ x ≠ .bytes [] ∧
      ∀ bs, x = .bytes bs → r'.buf = bs := by
  unfold BufReader.fillBuf
  split
  · obtain ⟨pre, post, h1, h2⟩ := h
    unfold OpenFile.read
    rw [h1]
    match pre, h2 with
    | [], _ => exact Or.inl ⟨_, rfl⟩
    | .error :: pre, h2 => exact Or.inl ⟨_, rfl⟩
    | .interrupted :: pre, h2 =>
      refine Or.inr ⟨_, _, rfl, ⟨pre, post, rfl, ?_⟩, by simp, by simp⟩
      simpa [ReadAnswer.size] using h2
    | .bytes k :: pre, h2 =>
      have hB : 0 < BUFFER := by decide
      simp only [List.map_cons, List.sum_cons] at h2
      have hs : ReadAnswer.size BUFFER (.bytes k) = min (k + 1) BUFFER := rfl
      rw [hs] at h2
      refine Or.inr ⟨_, _, rfl, ⟨pre, post, rfl, ?_⟩, ?_, ?_⟩
      · show _ ≤ (r.file.rest.drop (min (k + 1) BUFFER)).length
        rw [List.length_drop]
        omega
      · intro he
        injection he with he
        have := congrArg List.length he
        rw [List.length_take, List.length_nil] at this
        omega
      · intro bs he
        injection he
  · next hb =>
    refine Or.inr ⟨_, _, rfl, h, ?_, fun bs he => by injection he⟩
    intro he
    injection he with he
    rw [he] at hb
    exact absurd rfl hb

theorem readUntil_doomed : ∀ (fuel : Nat) (r : BufReader) (line : List UInt8), Doomed r.file →
    r.readUntil fuel line = none ∨ ∃ l r', r.readUntil fuel line = some (l, r') ∧ l ≠ [] ∧ Doomed r'.file
  | 0, r, line, _ => Or.inl rfl
  | fuel + 1, r, line, h => by
    unfold BufReader.readUntil
    rcases fillBuf_doomed h with ⟨r', e⟩ | ⟨r', x, e, hd, hx, hb⟩
    · rw [e]; exact Or.inl rfl
    · rw [e]
      match x, hx, hb with
      | .error, _, _ => exact Or.inl rfl
      | .interrupted, _, _ => exact readUntil_doomed fuel r' line hd
      | .bytes bs, hx, hb =>
        dsimp only
        cases hc : cutLine bs with
        | some lx =>
          refine Or.inr ⟨_, _, rfl, ?_, hd⟩
          have := (cutLine_some (l := lx.1) (x := lx.2) hc).2
          simp [this]
        | none =>
          dsimp only
          split
          · next he =>
            have he : bs = [] := by simpa using he
            exact absurd (by rw [he]) hx
          · exact readUntil_doomed fuel _ _ hd

theorem eachLine_doomed {σ : Type} (f : σ → List Char → M σ) : ∀ (fuel : Nat) (r : BufReader) (st : σ), Doomed r.file →
    ∃ p, eachLine f fuel r st = .error p
  | 0, r, st, _ => ⟨_, rfl⟩
  | fuel + 1, r, st, h => by
    unfold eachLine
    rcases readUntil_doomed r.fuel r [] h with e | ⟨l, r', e, hn, hd⟩
    · rw [e]; exact ⟨_, rfl⟩
    · rw [e]
      rw [show (unwrap (some (l, r')) : M _) = .ok (l, r') from rfl]
      simp only [bind_okM]
      rw [if_neg (by simpa using hn)]
      cases withLine f st l with
      | error p => exact ⟨p, rfl⟩
      | ok st' => exact eachLine_doomed f fuel r' st' hd

/-! ### Numbers -/

/-- the number of bytes an answer can yield at most -/
def ReadAnswer.most : ReadAnswer → Nat
  | .bytes k => k + 1
  | _ => 0

/-- Successful reads lead from `f` to `f'`. -/
def Used (f f' : OpenFile) : Prop :=
  ∃ pre, f.answers = pre ++ f'.answers ∧ ReadAnswer.error ∉ pre ∧
    (f'.answers = [] ∨ f.rest.length ≤ f'.rest.length + (pre.map ReadAnswer.most).sum)

theorem Used.refl (f : OpenFile) : Used f f := ⟨[], rfl, by simp, Or.inr (by simp)⟩

theorem Used.trans {f f' f'' : OpenFile} (h : Used f f') (h' : Used f' f'') : Used f f'' := by
  obtain ⟨pre, h1, h2, h3⟩ := h
  obtain ⟨pre', h1', h2', h3'⟩ := h'
  refine ⟨pre ++ pre', by rw [h1, h1', List.append_assoc], ?_, ?_⟩
  · rw [List.mem_append]; rintro (h | h)
    · exact h2 h
    · exact h2' h
  · rcases h3' with h3' | h3'
    · exact Or.inl h3'
    · rcases h3 with h3 | h3
      · rw [h3] at h1'
        exact Or.inl (List.append_eq_nil_iff.1 h1'.symm).2
      · right
        rw [List.map_append, List.sum_append]
        omega

theorem Used.mem {f f' : OpenFile} (h : Used f f') (he : ReadAnswer.error ∈ f'.answers) : ReadAnswer.error ∈ f.answers := by
  obtain ⟨pre, h1, _⟩ := h
  rw [h1]
  exact List.mem_append_right _ he

theorem Used.length {f f' : OpenFile} (h : Used f f') : f'.answers.length ≤ f.answers.length := by
  obtain ⟨pre, h1, _⟩ := h
  rw [h1, List.length_append]
  omega

theorem read_used (f : OpenFile) {n : Nat} {f' : OpenFile} {x : Got} (h : f.read n = (f', x)) (hx : x ≠ .error) : Used f f' := by
  obtain ⟨rest, answers⟩ := f
  unfold OpenFile.read at h
  match answers with
  | [] => cases h; exact ⟨[], rfl, by simp, Or.inl rfl⟩
  | .bytes k :: as =>
    cases h
    refine ⟨[.bytes k], rfl, by simp, Or.inr ?_⟩
    simp only [List.length_drop, ReadAnswer.most, List.map_cons, List.map_nil, List.sum_cons, List.sum_nil]
    omega
  | .interrupted :: as => cases h; exact ⟨[.interrupted], rfl, by simp, Or.inr (by simp)⟩
  | .error :: as => cases h; exact absurd rfl hx

/-- A reader of an open file does what a reader of bytes does, or fails because of an error. -/
def Sim {α : Type} (m : Rd α) (d : FP.Rd α) : Prop := ∀ f : OpenFile,
  (m f = .error .io ∧ ReadAnswer.error ∈ f.answers) ∨
  (∃ e, m f = .error (.content e) ∧ d f.rest = .error e) ∨
  ∃ a f', m f = .ok (a, f') ∧ d f.rest = .ok (a, f'.rest) ∧ Used f f'

theorem Sim.pure {α : Type} (a : α) : Sim (Pure.pure a : Rd α) (Pure.pure a : FP.Rd α) :=
  fun f => Or.inr (Or.inr ⟨a, f, rfl, rfl, .refl f⟩)

theorem Sim.throw {α : Type} (e : LoadError) : Sim (MonadExcept.throw (OpenError.content e) : Rd α) (MonadExcept.throw e : FP.Rd α) :=
  fun _ => Or.inr (Or.inl ⟨e, rfl, rfl⟩)

theorem Sim.bind {α β : Type} {m : Rd α} {d : FP.Rd α} {k : α → Rd β} {k' : α → FP.Rd β} (h : Sim m d) (hk : ∀ a, Sim (k a) (k' a)) :
    Sim (m >>= k) (d >>= k') := by
  intro f
  show _ ∨ _ ∨ _
  have hm : (m >>= k) f = (m f).bind (fun x => k x.1 x.2) := rfl
  have hd : (d >>= k') f.rest = (d f.rest).bind (fun x => k' x.1 x.2) := rfl
  rw [hm, hd]
  rcases h f with ⟨e, he⟩ | ⟨er, e, e'⟩ | ⟨a, f', e, e', hp⟩
  · rw [e]; exact Or.inl ⟨rfl, he⟩
  · rw [e, e']; exact Or.inr (Or.inl ⟨er, rfl, rfl⟩)
  · rw [e, e']
    rcases hk a f' with ⟨e2, he⟩ | ⟨er, e2, e2'⟩ | ⟨b, f'', e2, e2', hp'⟩
    · exact Or.inl ⟨e2, hp.mem he⟩
    · exact Or.inr (Or.inl ⟨er, e2, e2'⟩)
    · exact Or.inr (Or.inr ⟨b, f'', e2, e2', hp.trans hp'⟩)

theorem readLe_value : ∀ (bs rest : List UInt8), FP.readLe bs.length (bs ++ rest) = .ok (leValue bs, rest)
  | [], rest => rfl
  | b :: bs, rest => by
    show FP.readLe (bs.length + 1) (b :: (bs ++ rest)) = _
    have : FP.readLe (bs.length + 1) (b :: (bs ++ rest)) = (FP.readLe bs.length (bs ++ rest)).bind
        (fun x => .ok (b.toNat + 256 * x.1, x.2)) := rfl
    rw [this, readLe_value bs rest]
    rfl

theorem readLe_short : ∀ (k : Nat) (bs : List UInt8), bs.length < k → FP.readLe k bs = .error .eof
  | 0, bs, h => by omega
  | k + 1, [], _ => rfl
  | k + 1, b :: bs, h => by
    have : FP.readLe (k + 1) (b :: bs) = (FP.readLe k bs).bind (fun x => .ok (b.toNat + 256 * x.1, x.2)) := rfl
    rw [this, readLe_short k bs (by simpa using h)]
    rfl

theorem readExact_zero (fuel : Nat) (got : List UInt8) (f : OpenFile) : readExact (fuel + 1) 0 got f = .ok (got, f) := rfl

theorem readExact_succ (fuel : Nat) {n : Nat} (hn : n ≠ 0) (got : List UInt8) (f : OpenFile) : readExact (fuel + 1) n got f =
    match f.read n with
    | (_, .bytes []) => .error (.content .eof)
    | (f, .bytes (b :: bs)) => readExact fuel (n - (bs.length + 1)) (got ++ b :: bs) f
    | (f, .interrupted) => readExact fuel n got f
    | (_, .error) => .error .io := by
  conv => lhs; unfold readExact
  rw [if_neg hn]
  show (match f.read n with
    | (f, r) => (do
      set f
      match r with
      | .bytes [] => throw (OpenError.content .eof)
      | .bytes bs => readExact fuel (n - bs.length) (got ++ bs)
      | .interrupted => readExact fuel n got
      | .error => throw OpenError.io : Rd (List UInt8))) f = _
  generalize f.read n = x
  match x with
  | (f', .bytes []) => rfl
  | (f', .bytes (b :: bs)) => rfl
  | (f', .interrupted) => rfl
  | (f', .error) => rfl

/-- `read_exact` gets the next bytes, meets the end of the file, or an error. -/
theorem readExact_cases : ∀ (fuel n : Nat) (got : List UInt8) (f : OpenFile), n + f.answers.length < fuel →
    (readExact fuel n got f = .error .io ∧ ReadAnswer.error ∈ f.answers) ∨
    (readExact fuel n got f = .error (.content .eof) ∧ f.rest.length < n) ∨
    ∃ f', readExact fuel n got f = .ok (got ++ f.rest.take n, f') ∧ n ≤ f.rest.length ∧ f'.rest = f.rest.drop n ∧ Used f f'
  | 0, n, got, f, h => by omega
  | fuel + 1, n, got, f, h => by
    by_cases hn : n = 0
    · subst hn
      exact Or.inr (Or.inr ⟨f, by rw [readExact_zero]; simp, by omega, by simp, .refl f⟩)
    · rw [readExact_succ fuel hn]
      rcases read_cases f (n := n) (by omega) with ⟨f', bs, e, h1, ⟨pre, h2⟩, h4, h3⟩ | ⟨f', e, h1, h2⟩ | ⟨f', e, h1⟩
      · rw [e]
        have hu := read_used f e (by simp)
        have hlen := hu.length
        match bs, h1, h4, h3 with
        | [], h1, h4, h3 =>
          refine Or.inr (Or.inl ⟨rfl, ?_⟩)
          rw [h3 rfl]
          simp only [List.length_nil]
          omega
        | b :: bs, h1, h4, h3 =>
          simp only [List.length_cons] at h4
          have hl := congrArg List.length h1
          simp only [List.length_append, List.length_cons] at hl
          show (readExact fuel (n - (bs.length + 1)) (got ++ b :: bs) f' = _ ∧ _) ∨ _
          rcases readExact_cases fuel (n - (bs.length + 1)) (got ++ b :: bs) f' (by omega) with
            ⟨e', he'⟩ | ⟨e', he'⟩ | ⟨f'', e', he', hr, hp'⟩
          · exact Or.inl ⟨e', hu.mem he'⟩
          · exact Or.inr (Or.inl ⟨e', by omega⟩)
          · refine Or.inr (Or.inr ⟨f'', ?_, by omega, ?_, hu.trans hp'⟩)
            · show readExact fuel (n - (bs.length + 1)) (got ++ b :: bs) f' = _
              rw [e', h1, List.take_append]
              rw [List.take_of_length_le (l := b :: bs) (by simpa using h4)]
              simp
            · rw [hr, h1, List.drop_append]
              rw [List.drop_of_length_le (l := b :: bs) (by simpa using h4)]
              simp
      · rw [e]
        have hlen : f.answers.length = f'.answers.length + 1 := by rw [h2]; rfl
        show (readExact fuel n got f' = _ ∧ _) ∨ _
        rcases readExact_cases fuel n got f' (by omega) with ⟨e', he'⟩ | ⟨e', he'⟩ | ⟨f'', e', he', hr, hp'⟩
        · exact Or.inl ⟨e', by rw [h2]; exact List.mem_cons_of_mem _ he'⟩
        · exact Or.inr (Or.inl ⟨e', by rw [← h1]; exact he'⟩)
        · exact Or.inr (Or.inr ⟨f'', by rw [← h1]; exact e', by rw [← h1]; exact he', by rw [← h1]; exact hr,
            (read_used f e (by simp)).trans hp'⟩)
      · rw [e]
        exact Or.inl ⟨rfl, h1⟩

theorem sim_readLe (k : Nat) : Sim (readLe k) (FP.readLe k) := by
  intro f
  have hs : readLe k f = (readExact (k + f.answers.length + 1) k [] f).bind (fun x => .ok (leValue x.1, x.2)) := rfl
  rw [hs]
  rcases readExact_cases (k + f.answers.length + 1) k [] f (by omega) with ⟨e', he'⟩ | ⟨e', he'⟩ | ⟨f'', e', he', hr, hp⟩
  · rw [e']; exact Or.inl ⟨rfl, he'⟩
  · rw [e']; exact Or.inr (Or.inl ⟨.eof, rfl, readLe_short k _ he'⟩)
  · rw [e']
    refine Or.inr (Or.inr ⟨_, f'', rfl, ?_, hp⟩)
    have := readLe_value (f.rest.take k) (f.rest.drop k)
    rw [List.length_take, Nat.min_eq_left he', List.take_append_drop] at this
    rw [this, hr]
    rfl

theorem sim_decUsize (P : Plat) : Sim (decUsize P) (FP.decUsize P) := by
  refine (sim_readLe 8).bind (fun n => ?_)
  split
  · exact Sim.pure n
  · exact Sim.throw .tooLarge

theorem sim_decU32 : Sim decU32 FP.decU32 := sim_readLe 4

theorem sim_decList {α : Type} {m : Rd α} {d : FP.Rd α} (h : Sim m d) : ∀ k, Sim (decList m k) (FP.decList d k)
  | 0 => Sim.pure []
  | k + 1 => h.bind (fun a => (sim_decList h k).bind (fun as => Sim.pure (a :: as)))

theorem sim_decVec {α : Type} (P : Plat) {m : Rd α} {d : FP.Rd α} (h : Sim m d) : Sim (decVec P m) (FP.decVec P d) :=
  (sim_decUsize P).bind (fun k => sim_decList h k)

theorem sim_decEdge (P : Plat) : Sim (decEdge P) (FP.decEdge P) :=
  (sim_decUsize P).bind fun _ => (sim_decUsize P).bind fun _ => (sim_decUsize P).bind fun _ => (sim_decUsize P).bind fun _ =>
    (sim_decUsize P).bind fun _ => Sim.pure _

theorem sim_decEdge32 : Sim decEdge32 FP.decEdge32 :=
  sim_decU32.bind fun _ => sim_decU32.bind fun _ => sim_decU32.bind fun _ => sim_decU32.bind fun _ => sim_decU32.bind fun _ => Sim.pure _

theorem sim_decGraph (P : Plat) : Sim (decGraph P) (FP.decGraph P) :=
  (sim_decUsize P).bind fun _ => (sim_decVec P (sim_decUsize P)).bind fun _ => (sim_decVec P (sim_decEdge P)).bind fun _ =>
    (sim_decVec P (sim_decUsize P)).bind fun _ => (sim_decVec P (sim_decEdge P)).bind fun _ =>
      (sim_decVec P (sim_decUsize P)).bind fun _ => Sim.pure _

theorem sim_decGraph32 (P : Plat) : Sim (decGraph32 P) (FP.decGraph32 P) :=
  sim_decU32.bind fun _ => (sim_decVec P sim_decU32).bind fun _ => (sim_decVec P sim_decEdge32).bind fun _ =>
    (sim_decVec P sim_decU32).bind fun _ => (sim_decVec P sim_decEdge32).bind fun _ =>
      (sim_decVec P sim_decU32).bind fun _ => Sim.pure _

end DiskReader
end FP
