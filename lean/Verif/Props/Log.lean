import Mathlib.Data.Finset.Card
import Verif.Proofs.Log
import Verif.Props.Preparation
/-! # C103: what is logged -/
set_option autoImplicit false
namespace FP
namespace Props
open Spec

/-- **C103** Logging changes no result. -/
theorem C103_same_results (P : Plat) (log : List Msg) :
    (∀ ops, (buildGraphL P ops log).1 = buildGraph P ops) ∧
    (∀ pq nq ig params, (prepareWithParamsL P pq nq ig params log).1 = prepareWithParams P pq nq ig params) ∧
    ∀ pq ig order maxSettled, (prepareWithOrderWithParamsL P pq ig order maxSettled log).1 =
      prepareWithOrderWithParams P pq ig order maxSettled := by
  refine ⟨fun ops => ?_, fun pq nq ig params => ?_, fun pq ig order ms => ?_⟩
  · obtain ⟨l, h, _⟩ := buildGraphL_says P ops
    rw [h log]
  · obtain ⟨l, h, _⟩ := prepareWithParamsL_says P pq nq ig params
    rw [h log]
  · obtain ⟨l, h, _⟩ := prepareWithOrderWithParamsL_says P pq ig order ms
    rw [h log]

/-- **C103** Every call of `add_edge` or `add_edge_bidir` that adds nothing is reported, in the order of the calls, and no
other call is reported as one. -/
theorem C103_skipped_edges_reported {P : Plat} {ops : List Op} {g : InputGraph} {l : List Msg}
    (h : buildGraphL P ops [] = (.ok g, l)) : l.filter Msg.skips = ops.filterMap skipped := by
  obtain ⟨l', h1, h2⟩ := buildGraphL_says P ops
  rw [h1 []] at h
  injection h with h h'
  rw [List.nil_append] at h'
  subst h'
  exact (h2 g h).skips

/-- **C103** Nothing is lost silently: the edges of the graph and the edges reported as dropped are as many as the edges that
were accepted. All other messages say that at least one edge was dropped. -/
theorem C103_nothing_lost {P : Plat} {ops : List Op} {g : InputGraph} {l : List Msg}
    (h : buildGraphL P ops [] = (.ok g, l)) :
    g.edges.length + (l.map Msg.dropped).sum = (accepted ops).length ∧
      ∀ m ∈ l, m.skips = true ∨ ∃ c, 0 < c ∧ m = .duplicates c := by
  obtain ⟨l', h1, h2⟩ := buildGraphL_says P ops
  rw [h1 []] at h
  injection h with h h'
  rw [List.nil_append] at h'
  subst h'
  exact ⟨(h2 g h).balance, (h2 g h).kind⟩

/-- **C103** A graph that is frozen once: `freeze` reports the number of accepted edges minus the number of pairs of nodes they
connect, or nothing if this is zero. -/
theorem C103_duplicates_reported {P : Plat} {calls : List Op} (hc : ∀ op ∈ calls, op ≠ .freeze) {g : InputGraph} {l : List Msg}
    (h : buildGraphL P (calls ++ [.freeze]) [] = (.ok g, l))
    (hnw : P.checked = true ∨ nodeCount (accepted calls) ≤ P.umax) :
    ∃ k, k + ((accepted calls).map (fun e => (e.src, e.dst))).toFinset.card = (accepted calls).length ∧
      l = calls.filterMap skipped ++ if k = 0 then [] else [.duplicates k] := by
  obtain ⟨l₁, h1, h2⟩ := buildGraphL_says P calls
  obtain ⟨l₂, h3, h4⟩ := buildGraphL_says P (calls ++ [.freeze])
  rw [h3 []] at h
  injection h with hg h'
  rw [List.nil_append] at h'
  subst h'
  have hacc : accepted (calls ++ [.freeze]) = accepted calls := by simp [accepted, Op.edges]
  have hb := h4 g hg
  have hg' := hg
  unfold buildGraph at hg'
  rw [forM_append] at hg'
  obtain ⟨g₁, e1, e2⟩ := bind_eq_ok.1 hg'
  obtain ⟨g₂, e2, e3⟩ := bind_eq_ok.1 e2
  cases e3
  have e2'' : Op.run P g₁ .freeze = .ok g := e2
  have e2' : g₁.freeze = .ok g := e2
  have hfr : g.frozen = true := by
    unfold InputGraph.freeze at e2'
    split at e2'
    · cases e2'
    · cases e2'; rfl
  have hinv := buildGraph_inv (ops := calls ++ [.freeze]) (by rw [hacc]; exact hnw) hg
  have hs := hinv.sorted hfr
  have hm := hinv.mem_iff hfr
  have hcard : ((accepted calls).map (fun e => (e.src, e.dst))).toFinset.card = g.edges.length := by
    have hnd : (g.edges.map (fun e => (e.src, e.dst))).Nodup := by
      rw [List.Nodup, List.pairwise_map]
      refine hs.imp ?_
      rintro a b hab heq
      injection heq with k1 k2
      unfold PLt at hab
      omega
    rw [← List.length_map (f := fun e : Edge => (e.src, e.dst)), ← List.toFinset_card_of_nodup hnd]
    congr 1
    ext ⟨u, v⟩
    simp only [List.mem_toFinset, List.mem_map, Prod.mk.injEq]
    constructor
    · rintro ⟨e, he, rfl, rfl⟩
      obtain ⟨w, hw⟩ := exists_minEdge he
      exact ⟨_, (hm e.src e.dst w).2 (by rw [hacc]; exact hw), rfl, rfl⟩
    · rintro ⟨⟨s, d, w⟩, he, rfl, rfl⟩
      have := (hm s d w).1 he
      rw [hacc] at this
      exact ⟨_, this.1, rfl, rfl⟩
  have hl : l₂ = l₁ ++ opMsgs g₁ .freeze := by
    have a1 : Says (buildGraphL P (calls ++ [.freeze])) (.ok g) (l₁ ++ opMsgs g₁ .freeze) := by
      have hb1 := h1
      rw [show buildGraph P calls = .ok g₁ from e1] at hb1
      have := says_op P g₁ .freeze
      rw [e2''] at this
      intro log
      have k1 := hb1 log
      unfold buildGraphL at k1 ⊢
      rw [forL_append, U.bind_run_ok k1]
      have k2 := (this.bind_ok (k := fun s => forL (fun g (op : Op) => op.runL P g) s []) (says_pure g)) (log ++ l₁)
      rw [List.append_nil, List.append_assoc] at k2
      exact k2
    exact (h3.unique (by rw [hg] at *; exact a1)).2
  have hl1 := (h2 g₁ e1).adds hc
  have hbal := hb.balance
  rw [hacc] at hbal
  refine ⟨(accepted calls).length - g.edges.length, by rw [hcard]; omega, ?_⟩
  have hb1 := (h2 g₁ e1).balance
  have hz : (l₁.map Msg.dropped).sum = 0 := by
    rw [hl1]
    refine List.sum_eq_zero ?_
    intro x hx
    obtain ⟨m, hm', rfl⟩ := List.mem_map.1 hx
    obtain ⟨op, _, hop⟩ := List.mem_filterMap.1 hm'
    cases op <;> simp only [skipped] at hop
    · split at hop
      · cases hop; rfl
      · split at hop
        · cases hop; rfl
        · cases hop
    · split at hop
      · cases hop; rfl
      · split at hop
        · cases hop; rfl
        · cases hop
    · cases hop
    · cases hop
  rw [hl, hl1]
  congr 1
  unfold InputGraph.freeze at e2'
  split at e2'
  · cases e2'
  · rename_i hfz
    injection e2' with e2'
    subst e2'
    simp only [opMsgs]
    rw [if_neg hfz]
    have := length_dedup_le g₁.edges
    by_cases hq : g₁.edges.length = (InputGraph.removeDuplicateEdges (InputGraph.sortEdges g₁.edges)).length
    · rw [if_pos hq, if_pos (by omega)]
    · rw [if_neg hq, if_neg (by omega)]
      congr 2
      omega

/-- The calls of the example: a loop and an edge of weight zero are skipped, the second edge from 0 to 1 is dropped. -/
example : buildGraphL debug64 Ex.ops [] = (.ok Ex.ig, [.loopEdge 2 2 7, .zeroWeight 1 3 0, .duplicates 1]) := rfl
example : (Ex.ops.filterMap skipped) = [.loopEdge 2 2 7, .zeroWeight 1 3 0] := rfl
example : 7 + 1 = (accepted Ex.ops).length := (C103_nothing_lost (P := debug64) (ops := Ex.ops) rfl).1

/-- Without freezing nothing is dropped, and freezing a second time reports only what was added since. -/
example : (buildGraphL debug64 [.addEdge 0 1 2, .addEdge 0 1 1] []).2 = [] := rfl
example : (buildGraphL debug64 [.addEdge 0 1 2, .addEdge 0 1 1, .freeze, .thaw, .addEdge 0 1 7, .addEdge 0 1 6, .freeze] []).2 =
    [.duplicates 1, .duplicates 2] := rfl

/-- **C103** A call that panics says nothing. -/
theorem C103_panics_are_silent {P : Plat} {g : InputGraph} {op : Op} {log l : List Msg} {e : Panic}
    (h : op.runL P g log = (.error e, l)) : l = log := by
  rw [says_op P g op log] at h
  injection h with h h'
  rw [opMsgs_failed g op P h, List.append_nil] at h'
  exact h'.symm

example : Op.runL debug64 Ex.ig (.addEdge 1 1 0) [] = (.error .assertion, []) := rfl

theorem storedUpTo_eq {P : Plat} {n : Nat} {fg : FastGraph} (hs : Shape P n fg) {es : List FastGraphEdge} {first : List Nat}
    (hf : FirstOk n first es.length)
    (hed : ∀ v < n, ∀ id ed, (first[fg.rk v]?).getD 0 ≤ id → id < (first[fg.rk v + 1]?).getD 0 → es[id]? = some ed →
      ed.baseNode = v) {k a : Nat} (hk : k < n) (ha : first[k + 1]? = some a) : storedUpTo fg.ranks es k = a := by
  have ha' : (first[k + 1]?).getD 0 = a := by rw [ha]; rfl
  refine countP_prefix ?_ ?_
  · rw [← ha', ← hf.last]
    exact hf.le (by omega) (Nat.le_refl _)
  · intro id ed hid
    have hlt : id < es.length := (List.getElem?_eq_some_iff.1 hid).1
    obtain ⟨j, hj, h1, h2⟩ := range_cover hf hlt
    obtain ⟨v, hv, rfl⟩ := rank_surj hs hj
    rw [hed v hv id ed h1 h2 hid, rank_get hs hv]
    simp only [Option.any_some, decide_eq_true_eq]
    constructor
    · intro hr
      have := hf.le (i := fg.rk v + 1) (j := k + 1) (by omega) (by omega)
      omega
    · intro hr
      by_contra hn
      have := hf.le (i := k + 1) (j := fg.rk v) (by omega) (by omega)
      omega

theorem progress_of {P : Plat} {E : EdgeRel} {n : Nat} {fg : FastGraph} (hg : FGood P E n fg) {l : List Msg}
    (h : PLog n n fg l) : l = (List.range n).map (fun k => .contracted (k + 1) n (storedUpTo fg.ranks fg.edgesFwd k)
      (storedUpTo fg.ranks fg.edgesBwd k)) := by
  refine List.ext_getElem? ?_
  intro k
  by_cases hk : k < n
  · obtain ⟨a, b, h1, h2, h3⟩ := h.get k hk
    rw [h3, List.getElem?_map, List.getElem?_range hk]
    simp only [Option.map_some]
    rw [storedUpTo_eq hg.toShape hg.firstF (fun v hv id ed k1 k2 k3 => (hg.fwd v hv id ed ⟨k1, k2, k3⟩).1) hk h1,
      storedUpTo_eq hg.toShape hg.firstB (fun v hv id ed k1 k2 k3 => (hg.bwd v hv id ed ⟨k1, k2, k3⟩).1) hk h2]
  · rw [List.getElem?_eq_none (by rw [h.len]; omega), List.getElem?_eq_none (by simp; omega)]

/-- **C103** The progress of `prepare`: one message for every node, numbered from one, with the numbers of out- and in-edges
stored for this node and those before it. -/
theorem C103_progress {P : Plat} (hP : P.checked = true) {ops : List Op} {ig : InputGraph} (hb : buildGraph P ops = .ok ig)
    (hf : ig.frozen = true) {pq : PQ} {nq : NodeQueue} {params : Params} {fg : FastGraph} {l : List Msg}
    (h : prepareWithParamsL P pq nq ig params [] = (.ok fg, l)) :
    l = (List.range ig.numNodes).map (fun k => .contracted (k + 1) ig.numNodes (storedUpTo fg.ranks fg.edgesFwd k)
      (storedUpTo fg.ranks fg.edgesBwd k)) := by
  obtain ⟨l', h1, h2, _⟩ := prepareWithParamsL_says P pq nq ig params
  rw [h1 []] at h
  injection h with h h'
  rw [List.nil_append] at h'
  subst h'
  exact progress_of ((⟨hb, hf, .params pq nq params h⟩ : Client P ops ig fg).good hP) (h2 fg h)

/-- **C103** The same for a given order. -/
theorem C103_progress_order {P : Plat} (hP : P.checked = true) {ops : List Op} {ig : InputGraph} (hb : buildGraph P ops = .ok ig)
    (hf : ig.frozen = true) {pq : PQ} {order : List Nat} (ho : order.Perm (List.range ig.numNodes)) {maxSettled : Nat} {fg : FastGraph} {l : List Msg}
    (h : prepareWithOrderWithParamsL P pq ig order maxSettled [] = (.ok (.ok fg), l)) :
    l = (List.range ig.numNodes).map (fun k => .contracted (k + 1) ig.numNodes (storedUpTo fg.ranks fg.edgesFwd k)
      (storedUpTo fg.ranks fg.edgesBwd k)) := by
  obtain ⟨l', h1, h2, _⟩ := prepareWithOrderWithParamsL_says P pq ig order maxSettled
  rw [h1 []] at h
  injection h with h h'
  rw [List.nil_append] at h'
  subst h'
  exact progress_of ((⟨hb, hf, .orderParams pq order maxSettled ho h⟩ : Client P ops ig fg).good hP) (h2 fg h)

example : prepareWithOrderWithParamsL debug64 binaryHeap Ex.ig Ex.order 100 [] = (.ok (.ok Ex.fgo),
    [.contracted 1 5 1 3, .contracted 2 5 2 5, .contracted 3 5 3 7, .contracted 4 5 3 8, .contracted 5 5 3 8]) := by
  have h1 := ((C103_same_results debug64 []).2.2 binaryHeap Ex.ig Ex.order 100).trans Ex.preparedOrder
  generalize h : prepareWithOrderWithParamsL debug64 binaryHeap Ex.ig Ex.order 100 [] = x at h1 ⊢
  obtain ⟨r, l⟩ := x
  subst h1
  rw [C103_progress_order rfl Ex.built rfl Ex.perm h]
  rfl

/-- **C103** Also when a preparation panics, or is given a wrong order, the messages count from one without gaps up to at most
the number of nodes. -/
theorem C103_interrupted {P : Plat} {ig : InputGraph} {l : List Msg}
    (h : (∃ pq nq params r, prepareWithParamsL P pq nq ig params [] = (r, l)) ∨
      ∃ pq order maxSettled r, prepareWithOrderWithParamsL P pq ig order maxSettled [] = (r, l)) :
    l.length ≤ ig.numNodes ∧ ∀ k < l.length, ∃ a b, l[k]? = some (.contracted (k + 1) ig.numNodes a b) := by
  rcases h with ⟨pq, nq, params, r, h⟩ | ⟨pq, order, ms, r, h⟩
  · obtain ⟨l', h1, _, h3⟩ := prepareWithParamsL_says P pq nq ig params
    rw [h1 []] at h
    injection h with h h'
    rw [List.nil_append] at h'
    subst h'
    exact h3
  · obtain ⟨l', h1, _, h3⟩ := prepareWithOrderWithParamsL_says P pq ig order ms
    rw [h1 []] at h
    injection h with h h'
    rw [List.nil_append] at h'
    subst h'
    exact h3

/-- Contracting the third of five nodes overflows: two messages. -/
def igOver : InputGraph := { edges := [⟨0, 1, 1⟩, ⟨2, 3, Ex.inv⟩, ⟨3, 4, Ex.inv⟩], numNodes := 5, frozen := true }
example : buildGraph debug64 [.addEdge 0 1 1, .addEdge 2 3 Ex.inv, .addEdge 3 4 Ex.inv, .freeze] = .ok igOver := rfl
example : prepareWithOrderWithParams debug64 binaryHeap igOver [0, 1, 3, 2, 4] 100 = .error .overflow := rfl
example : (prepareWithOrderWithParamsL debug64 binaryHeap igOver [0, 1, 3, 2, 4] 100 []).2 =
    [.contracted 1 5 1 0, .contracted 2 5 1 0] := by decide +kernel

end Props
end FP
