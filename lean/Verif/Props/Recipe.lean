import Verif.Props.Preparation
set_option autoImplicit false
/-! # Preparing another graph with the node order of an earlier one (README, lines 99-108) -/
namespace FP.Props
open Spec

/-- **C111** The order of any prepared graph can be used for any other graph. If the numbers of nodes differ the answer is `Err`.
Otherwise the result is a prepared graph of the other graph – to which all claims about clients apply – with the same order again,
unless an overflow or a full vector is reported. -/
theorem C111_another_graph {P : Plat} (hP : P.checked = true) {ops ops' : List Op} {ig ig' : InputGraph} {fg : FastGraph}
    (hc : Client P ops ig fg) {order : List Nat} (ho : getNodeOrdering fg = .ok order) (hb : buildGraph P ops' = .ok ig')
    (hf : ig'.frozen = true) (pq : PQ) :
    (ig'.numNodes ≠ ig.numNodes → ∃ msg, prepareWithOrder P pq ig' order = .ok (.error msg)) ∧
    (ig'.numNodes = ig.numNodes →
      (∃ fg', prepareWithOrder P pq ig' order = .ok (.ok fg') ∧ Client P ops' ig' fg' ∧ getNodeOrdering fg' = .ok order) ∨
      prepareWithOrder P pq ig' order = .error .overflow ∨ prepareWithOrder P pq ig' order = .error .capacity) := by
  obtain ⟨nodes, h1, h2, -, -⟩ := C13_ordering_is_permutation hP hc
  rw [ho] at h1
  injection h1 with h1
  subst h1
  constructor
  · intro hn
    refine (C11_err_iff_wrong_length_default P pq hf order).2 ?_
    rw [h2.length_eq, List.length_range]
    exact fun h => hn h.symm
  · intro hn
    rw [← hn] at h2
    rcases C10_any_permutation_accepted hP hb hf pq h2 paramsWithOrderDefault with ⟨fg', h⟩ | h
    · exact Or.inl ⟨fg', h, ⟨hb, hf, .orderParams pq order _ h2 h⟩, C13_order_is_kept hP hb hf h2 h⟩
    · exact Or.inr h

/-- **C111** When only weights change (no edge gets weight 0, every edge keeps its ends) the number of nodes stays the same: the order can
be used again. -/
theorem C111_other_weights {P : Plat} (hP : P.checked = true) {ops ops' : List Op} {ig ig' : InputGraph}
    (hb : buildGraph P ops = .ok ig) (hb' : buildGraph P ops' = .ok ig')
    (hsame : ∀ u v, (∃ w, (⟨u, v, w⟩ : Edge) ∈ accepted ops') ↔ ∃ w, (⟨u, v, w⟩ : Edge) ∈ accepted ops) :
    ig'.numNodes = ig.numNodes := by
  rw [(buildGraph_inv (Or.inl hP) hb).num, (buildGraph_inv (Or.inl hP) hb').num]
  have key : ∀ {es es' : List Edge}, (∀ u v, (∃ w, (⟨u, v, w⟩ : Edge) ∈ es') → ∃ w, (⟨u, v, w⟩ : Edge) ∈ es) →
      nodeCount es' ≤ nodeCount es := by
    intro es es' h
    have up : ∀ {l : List Edge} {e : Edge}, e ∈ l → max e.src e.dst + 1 ≤ nodeCount l := by
      intro l
      induction l with
      | nil => intro e he; cases he
      | cons x xs ih =>
        intro e he
        have hx : nodeCount (x :: xs) = max (nodeCount xs) (max x.src x.dst + 1) := rfl
        rcases List.mem_cons.1 he with rfl | he
        · omega
        · have := ih he; omega
    have le : ∀ {l : List Edge} {n : Nat}, (∀ e ∈ l, max e.src e.dst + 1 ≤ n) → nodeCount l ≤ n := by
      intro l n
      induction l with
      | nil => intro _; exact Nat.zero_le _
      | cons x xs ih =>
        intro hl
        have hx : nodeCount (x :: xs) = max (nodeCount xs) (max x.src x.dst + 1) := rfl
        have a := ih (fun e he => hl e (List.mem_cons_of_mem _ he))
        have b := hl x (by simp)
        omega
    refine le (fun e he => ?_)
    obtain ⟨w, hw⟩ := h e.src e.dst ⟨e.weight, he⟩
    have := up hw; exact this
  exact Nat.le_antisymm (key fun u v => (hsame u v).1) (key fun u v => (hsame u v).2)

/-- the example with other weights -/
def Ex.heavierOps : List Op :=
  [.addEdge 0 1 30, .addEdge 1 2 4, .addEdge 0 2 9, .addEdgeBidir 2 3 10, .addEdge 3 4 5, .addEdge 4 1 2, .freeze]

theorem Ex.heavier_num {ig' : InputGraph} (hb' : buildGraph debug64 Ex.heavierOps = .ok ig') : ig'.numNodes = Ex.ig.numNodes := by
  refine C111_other_weights (P := debug64) (ops := Ex.ops) rfl exampleClient.built hb' (fun u v => ?_)
  have h1 : accepted Ex.heavierOps = [⟨0, 1, 30⟩, ⟨1, 2, 4⟩, ⟨0, 2, 9⟩, ⟨2, 3, 10⟩, ⟨3, 2, 10⟩, ⟨3, 4, 5⟩, ⟨4, 1, 2⟩] := rfl
  have h2 : accepted Ex.ops = [⟨0, 1, 3⟩, ⟨1, 2, 4⟩, ⟨0, 2, 9⟩, ⟨2, 3, 1⟩, ⟨3, 2, 1⟩, ⟨3, 4, 5⟩, ⟨4, 1, 2⟩, ⟨0, 1, 8⟩] := rfl
  rw [h1, h2]
  simp only [List.mem_cons, List.not_mem_nil, or_false, Edge.mk.injEq]
  constructor
  · rintro ⟨w, (⟨rfl, rfl, _⟩ | ⟨rfl, rfl, _⟩ | ⟨rfl, rfl, _⟩ | ⟨rfl, rfl, _⟩ | ⟨rfl, rfl, _⟩ | ⟨rfl, rfl, _⟩ | ⟨rfl, rfl, _⟩)⟩ <;> simp
  · rintro ⟨w, (⟨rfl, rfl, _⟩ | ⟨rfl, rfl, _⟩ | ⟨rfl, rfl, _⟩ | ⟨rfl, rfl, _⟩ | ⟨rfl, rfl, _⟩ | ⟨rfl, rfl, _⟩ | ⟨rfl, rfl, _⟩ | ⟨rfl, rfl, _⟩)⟩ <;> simp

/-- The order of the example serves for the changed weights. -/
example : ∃ ig' fg', buildGraph debug64 Ex.heavierOps = .ok ig' ∧
    prepareWithOrder debug64 binaryHeap ig' [0, 4, 1, 3, 2] = .ok (.ok fg') ∧ Client debug64 Ex.heavierOps ig' fg' ∧
    calcPath debug64 binaryHeap fg' 0 4 = .ok (some ⟨0, 4, 24, [0, 2, 3, 4]⟩) := by
  have ho : getNodeOrdering Ex.fg = .ok [0, 4, 1, 3, 2] := rfl
  have h := (C111_another_graph (P := debug64) rfl exampleClient ho (ops' := Ex.heavierOps)
    (ig' := ⟨[⟨0, 1, 30⟩, ⟨0, 2, 9⟩, ⟨1, 2, 4⟩, ⟨2, 3, 10⟩, ⟨3, 2, 10⟩, ⟨3, 4, 5⟩, ⟨4, 1, 2⟩], 5, true⟩) rfl rfl binaryHeap).2
    (Ex.heavier_num rfl)
  rcases h with ⟨fg', h1, h2, h3⟩ | h | h
  · refine ⟨_, fg', rfl, h1, h2, ?_⟩
    have h4 : ∀ {r}, prepareWithOrder debug64 binaryHeap ⟨[⟨0, 1, 30⟩, ⟨0, 2, 9⟩, ⟨1, 2, 4⟩, ⟨2, 3, 10⟩, ⟨3, 2, 10⟩, ⟨3, 4, 5⟩, ⟨4, 1, 2⟩], 5, true⟩
        [0, 4, 1, 3, 2] = .ok (.ok r) → calcPath debug64 binaryHeap r 0 4 = .ok (some ⟨0, 4, 24, [0, 2, 3, 4]⟩) := by
      intro r hr
      injection (show (Except.ok (.ok _) : M (Except String FastGraph)) = .ok (.ok r) from hr) with hr
      injection hr with hr
      subst hr
      rfl
    exact h4 h1
  · cases h
  · cases h

end FP.Props
