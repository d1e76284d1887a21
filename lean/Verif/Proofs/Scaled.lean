import Verif.Proofs.Comparisons
import Verif.Proofs.Lockstep
import Verif.SpecScale
set_option autoImplicit false
/-! # Preparation of a graph whose weights are scaled: helper lemmas for C133 -/
namespace FP

section Back
variable {α α' β β' σ σ' γ γ' : Type}

/-- If the second run returns, the first one does, and the results are related. -/
def Back (R : α → α' → Prop) (m : M α) (m' : M α') : Prop := ∀ b, m' = .ok b → ∃ a, m = .ok a ∧ R a b

theorem Back.ok {R : α → α' → Prop} {a : α} {b : α'} (h : R a b) : Back R (.ok a) (.ok b) := by
  intro c hc; cases hc; exact ⟨a, rfl, h⟩

theorem Back.error {R : α → α' → Prop} {m : M α} {e : Panic} : Back R m (.error e) := fun b h => by cases h

theorem Back.of_eq {m m' : M α} (h : m = m') : Back Eq m m' := by
  subst h
  exact fun b hb => ⟨b, hb, rfl⟩

theorem Back.bind {R : α → α' → Prop} {S : β → β' → Prop} {m : M α} {m' : M α'} {f : α → M β} {f' : α' → M β'}
    (h : Back R m m') (hf : ∀ a b, R a b → Back S (f a) (f' b)) : Back S (m >>= f) (m' >>= f') := by
  intro c hc
  obtain ⟨b, h1, h2⟩ := bind_eq_ok.1 hc
  obtain ⟨a, h3, h4⟩ := h b h1
  obtain ⟨d, h5, h6⟩ := hf a b h4 c h2
  exact ⟨d, by rw [h3, bind_okM]; exact h5, h6⟩

theorem Back.forM_map {R : σ → σ' → Prop} {f : σ → γ → M σ} {f' : σ' → γ' → M σ'} (g : γ → γ')
    (hf : ∀ s s' a, R s s' → Back R (f s a) (f' s' (g a))) : ∀ (l : List γ) (s : σ) (s' : σ'), R s s' →
    Back R (forM f s l) (forM f' s' (l.map g)) := by
  intro l
  induction l with
  | nil => intro s s' h; exact Back.ok h
  | cons a l ih =>
    intro s s' h
    rw [List.map_cons, forM_cons, forM_cons]
    exact Back.bind (hf s s' a h) (fun s s' h => ih s s' h)

theorem Back.forM {R : σ → σ' → Prop} {f : σ → γ → M σ} {f' : σ' → γ → M σ'} (hf : ∀ s s' a, R s s' → Back R (f s a) (f' s' a))
    (l : List γ) (s : σ) (s' : σ') (h : R s s') : Back R (forM f s l) (forM f' s' l) := by
  have := Back.forM_map (f := f) (f' := f') id hf l s s' h
  rwa [List.map_id] at this

theorem Back.idx_map (g : α → α') (l : List α) (i : Nat) : Back (fun a b => b = g a) (idx l i) (idx (l.map g) i) := by
  intro b hb
  rw [idx_eq_ok, List.getElem?_map, Option.map_eq_some_iff] at hb
  obtain ⟨a, h1, rfl⟩ := hb
  exact ⟨a, idx_some h1, rfl⟩

theorem Back.setIdx_map (g : α → α') (l : List α) (i : Nat) (a : α) :
    Back (fun x y => y = x.map g) (setIdx l i a) (setIdx (l.map g) i (g a)) := by
  intro b hb
  obtain ⟨h1, rfl⟩ := setIdx_eq_ok.1 hb
  rw [List.length_map] at h1
  exact ⟨_, setIdx_ok h1, List.map_set.symm⟩

theorem Back.modIdx_map (g : α → α') {f : α → α} {f' : α' → α'} (hf : ∀ a, f' (g a) = g (f a)) (l : List α) (i : Nat) :
    Back (fun x y => y = x.map g) (modIdx l i f) (modIdx (l.map g) i f') := by
  intro b hb
  obtain ⟨a', h1, rfl⟩ := modIdx_eq_ok.1 hb
  rw [List.getElem?_map, Option.map_eq_some_iff] at h1
  obtain ⟨a, h1, rfl⟩ := h1
  exact ⟨_, modIdx_ok h1, by simp only [hf, List.map_set]⟩

end Back

/-! ### Scaled objects -/

/-- The arc with `k` times the weight. -/
def Arc.scale (k : Nat) (a : Arc) : Arc := { a with weight := k * a.weight }
/-- The preparation graph with `k` times the weights. -/
def PreparationGraph.scale (k : Nat) (g : PreparationGraph) : PreparationGraph :=
  { g with outEdges := g.outEdges.map (List.map (Arc.scale k)), inEdges := g.inEdges.map (List.map (Arc.scale k)) }

variable {P : Plat} {k : Nat}

/-- The relation between the results of the original and the scaled run. -/
abbrev Sc {α : Type} (f : α → α) : α → α → Prop := fun a b => b = f a

/-! ### Preparation graph -/
namespace PreparationGraph

theorem addEdgeOrShortcut_scale (g : PreparationGraph) (src dst w c : Nat) :
    Back (Sc (scale k)) (addEdgeOrShortcut g src dst w c) (addEdgeOrShortcut (g.scale k) src dst (k * w) c) := by
  unfold addEdgeOrShortcut
  refine Back.bind (Back.of_eq rfl) ?_
  rintro _ _ rfl
  refine Back.bind (Back.modIdx_map (List.map (Arc.scale k)) (f := fun l => l ++ [⟨dst, w, c⟩])
    (f' := fun l => l ++ [⟨dst, k * w, c⟩]) (fun l => by simp [Arc.scale]) _ _) ?_
  rintro out _ rfl
  refine Back.bind (Back.modIdx_map (List.map (Arc.scale k)) (f := fun l => l ++ [⟨src, w, c⟩])
    (f' := fun l => l ++ [⟨src, k * w, c⟩]) (fun l => by simp [Arc.scale]) _ _) ?_
  rintro inn _ rfl
  exact Back.ok rfl

theorem fromInputGraph_scale (ig : InputGraph) : Back (Sc (scale k)) (fromInputGraph P ig) (fromInputGraph P (ig.scale k)) := by
  unfold fromInputGraph
  refine Back.bind (R := Eq) (Back.of_eq rfl) ?_
  rintro n _ rfl
  refine Back.bind (R := fun a b => b = a.map (fun e => { e with weight := k * e.weight })) ?_ ?_
  · unfold InputGraph.getEdges
    refine Back.bind (R := Eq) (Back.of_eq rfl) ?_
    rintro _ _ rfl
    exact Back.ok rfl
  · rintro es _ rfl
    refine Back.forM_map _ (R := Sc (scale k)) ?_ es _ _ ?_
    · rintro g _ e rfl
      exact addEdgeOrShortcut_scale g _ _ _ _
    · show PreparationGraph.new n = (PreparationGraph.new n).scale k
      simp [PreparationGraph.new, scale]

theorem updFirst_scale (dst w c : Nat) : ∀ l : List Arc,
    updFirst (fun a => a.adj == dst) (fun a => { a with weight := k * w, center := c }) (l.map (Arc.scale k)) =
      (updFirst (fun a => a.adj == dst) (fun a => { a with weight := w, center := c }) l).map (Arc.scale k)
  | [] => rfl
  | a :: l => by
    simp only [List.map_cons, updFirst, updFirst_scale dst w c l]
    by_cases h : (a.adj == dst) = true
    · rw [if_pos h, if_pos (show ((Arc.scale k a).adj == dst) = true from h)]; rfl
    · rw [if_neg h, if_neg (show ¬ ((Arc.scale k a).adj == dst) = true from h)]; rfl

theorem reduceEdge_scale (hk : 1 ≤ k) (g : PreparationGraph) (src dst w c : Nat) :
    Back (fun r r' => r'.1 = r.1.scale k ∧ r'.2 = r.2) (reduceEdge g src dst w c) (reduceEdge (g.scale k) src dst (k * w) c) := by
  unfold reduceEdge
  refine Back.bind (Back.idx_map (List.map (Arc.scale k)) _ _) ?_
  rintro outs _ rfl
  have hfind : (outs.map (Arc.scale k)).find? (fun a => a.adj == dst) = (outs.find? (fun a => a.adj == dst)).map (Arc.scale k) := by
    rw [List.find?_map]; rfl
  rw [hfind]
  cases outs.find? (fun a => a.adj == dst) with
  | none => exact Back.ok ⟨rfl, rfl⟩
  | some o =>
    simp only [Option.map_some]
    have hle : (Arc.scale k o).weight ≤ k * w ↔ o.weight ≤ w := Nat.mul_le_mul_left_iff hk
    by_cases h : o.weight ≤ w
    · rw [if_pos h, if_pos (hle.2 h)]
      exact Back.ok ⟨rfl, rfl⟩
    · rw [if_neg h, if_neg (fun h' => h (hle.1 h'))]
      refine Back.bind (Back.idx_map (List.map (Arc.scale k)) _ _) ?_
      rintro ins _ rfl
      have hany : (ins.map (Arc.scale k)).any (fun a => a.adj == src) = ins.any (fun a => a.adj == src) := by
        rw [List.any_map]; rfl
      rw [hany]
      split
      · refine Back.ok ⟨?_, rfl⟩
        simp only [scale, updFirst_scale, List.map_set, List.map_map, mk.injEq, and_true, true_and]
        congr 1
        apply List.map_congr_left
        intro a _
        by_cases h : (a.adj == src) = true
        · simp only [Function.comp]
          rw [if_pos h, if_pos (show ((Arc.scale k a).adj == src) = true from h)]; rfl
        · simp only [Function.comp]
          rw [if_neg h, if_neg (show ¬ ((Arc.scale k a).adj == src) = true from h)]
      · exact Back.ok ⟨rfl, rfl⟩

theorem addOrReduceEdge_scale (hk : 1 ≤ k) (g : PreparationGraph) (src dst w c : Nat) :
    Back (Sc (scale k)) (addOrReduceEdge g src dst w c) (addOrReduceEdge (g.scale k) src dst (k * w) c) := by
  unfold addOrReduceEdge
  refine Back.bind (reduceEdge_scale hk _ _ _ _ _) ?_
  rintro ⟨g1, b⟩ ⟨g2, b2⟩ ⟨h1, h2⟩
  simp only at h1 h2
  subst h1 h2
  cases b2
  · exact addEdgeOrShortcut_scale _ _ _ _ _
  · exact Back.ok rfl

theorem removeEdgeWithAdjNode_scale (l : List Arc) (adj : Nat) :
    Back (Sc (List.map (Arc.scale k))) (removeEdgeWithAdjNode l adj) (removeEdgeWithAdjNode (l.map (Arc.scale k)) adj) := by
  unfold removeEdgeWithAdjNode
  have : (l.map (Arc.scale k)).filter (fun e => e.adj != adj) = (l.filter (fun e => e.adj != adj)).map (Arc.scale k) := by
    rw [List.filter_map]; rfl
  simp only [this, List.length_map]
  refine Back.bind (R := Eq) (Back.of_eq rfl) ?_
  rintro _ _ rfl
  exact Back.ok rfl

theorem removeOutEdge_scale (g : PreparationGraph) (node adj : Nat) :
    Back (Sc (scale k)) (removeOutEdge g node adj) (removeOutEdge (g.scale k) node adj) := by
  unfold removeOutEdge
  refine Back.bind (Back.idx_map (List.map (Arc.scale k)) _ _) ?_
  rintro l _ rfl
  refine Back.bind (removeEdgeWithAdjNode_scale _ _) ?_
  rintro l _ rfl
  exact Back.ok (by simp [Sc, scale, List.map_set])

theorem removeInEdge_scale (g : PreparationGraph) (node adj : Nat) :
    Back (Sc (scale k)) (removeInEdge g node adj) (removeInEdge (g.scale k) node adj) := by
  unfold removeInEdge
  refine Back.bind (Back.idx_map (List.map (Arc.scale k)) _ _) ?_
  rintro l _ rfl
  refine Back.bind (removeEdgeWithAdjNode_scale _ _) ?_
  rintro l _ rfl
  exact Back.ok (by simp [Sc, scale, List.map_set])

theorem disconnect_scale (g : PreparationGraph) (node : Nat) :
    Back (Sc (scale k)) (disconnect g node) (disconnect (g.scale k) node) := by
  unfold disconnect
  refine Back.bind (Back.idx_map (List.map (Arc.scale k)) _ _) ?_
  rintro outs _ rfl
  refine Back.bind (Back.forM_map (Arc.scale k) (R := Sc (scale k)) ?_ outs _ _ rfl) ?_
  · rintro g _ a rfl; exact removeInEdge_scale g _ _
  rintro g _ rfl
  refine Back.bind (Back.idx_map (List.map (Arc.scale k)) _ _) ?_
  rintro ins _ rfl
  refine Back.bind (Back.forM_map (Arc.scale k) (R := Sc (scale k)) ?_ ins _ _ rfl) ?_
  · rintro g _ a rfl; exact removeOutEdge_scale g _ _
  rintro g _ rfl
  refine Back.bind (Back.setIdx_map (List.map (Arc.scale k)) _ _ []) ?_
  rintro inn _ rfl
  refine Back.bind (Back.setIdx_map (List.map (Arc.scale k)) _ _ []) ?_
  rintro out _ rfl
  exact Back.ok rfl

end PreparationGraph
end FP
