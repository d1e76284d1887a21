import Verif.Proofs.Heavy
import Verif.Proofs.TextIO
/-! # Preparation of the graphs of `SpecHeavy` -/
namespace FP
open Spec PreparationGraph
open Spec.Heavy

namespace HeavyP
variable {pq : PQ} {P : Plat} {m k : Nat}

theorem mem_roles {a : Role} : a ∈ roles m k ↔ a.Ok m k := by
  cases a <;> simp [roles, Role.Ok]
  all_goals omega

theorem mem_edges {p q w : Nat} : (⟨p, q, w⟩ : Edge) ∈ edges m k ↔ Rel m k (weight m 0 0 2 (top m)) p q w := by
  unfold edges Rel
  simp only [List.mem_flatMap, List.mem_filterMap, Option.map_eq_some_iff, Edge.mk.injEq, mem_roles]
  constructor
  · rintro ⟨a, ha, b, hb, w', h1, h2, h3, rfl⟩
    exact ⟨a, b, ha, hb, h2, h3, h1⟩
  · rintro ⟨a, b, ha, hb, h1, h2, h3⟩
    exact ⟨a, ha, b, hb, w, h3, h1, h2, rfl⟩

theorem weight_irrefl {c h b A : Nat} {u : Role} {w : Nat} (e : weight m c h b A u u = some w) : False := by
  cases u <;> simp [weight] at e

theorem weight_le_top {u v : Role} {w : Nat} (hu : u.Ok m k) (e : weight m 0 0 2 (top m) u v = some w) : w ≤ top m := by
  cases u <;> cases v <;> simp [weight, top, Role.Ok] at * <;> omega

theorem edges_valid : ∀ e ∈ edges m k, e.src ≠ e.dst ∧ 1 ≤ e.weight := by
  rintro ⟨p, q, w⟩ h
  obtain ⟨a, b, ha, hb, rfl, rfl, h'⟩ := mem_edges.1 h
  have ht : 0 < top m := by unfold top; omega
  refine ⟨fun e => ?_, weight_pos ht h'⟩
  cases id_inj ha hb e
  exact weight_irrefl h'

theorem edges_le : ∀ e ∈ edges m k, e.weight ≤ top m := by
  rintro ⟨p, q, w⟩ h
  obtain ⟨a, b, ha, _, _, _, h⟩ := mem_edges.1 h
  exact weight_le_top ha h

theorem edges_lt (hk : 2 ≤ k) : ∀ e ∈ edges m k, e.src < 3 * m + k + 2 ∧ e.dst < 3 * m + k + 2 := by
  rintro ⟨p, q, w⟩ h
  obtain ⟨a, b, ha, hb, rfl, rfl, _⟩ := mem_edges.1 h
  exact ⟨id_lt ha hk, id_lt hb hk⟩

theorem nodeCount_edges (hk : 2 ≤ k) (hm : 3 ≤ m) : nodeCount (edges m k) = 3 * m + k + 2 := by
  apply Nat.le_antisymm (nodeCount_le (edges_lt hk))
  by_cases h2 : k = 2
  · subst h2
    have h : (⟨(Role.g (m - 1)).id m, Role.z.id m, 3⟩ : Edge) ∈ edges m 2 := by
      refine mem_edges.2 ⟨.g (m - 1), .z, by simp only [Role.Ok]; omega, by simp only [Role.Ok], rfl, rfl, ?_⟩
      simp only [weight]
      rw [if_pos (by omega)]
    have := (nodeCount_gt _ h).1
    simp only [Role.id] at this
    omega
  · have h : (⟨Role.s.id m, (Role.e (k - 3)).id m, 1⟩ : Edge) ∈ edges m k :=
      mem_edges.2 ⟨.s, .e (k - 3), by simp only [Role.Ok], by simp only [Role.Ok]; omega, rfl, rfl, rfl⟩
    have := (nodeCount_gt _ h).2
    simp only [Role.id] at this
    omega

/-- Building the graph. -/
theorem build (hk : 2 ≤ k) (hn : 3 * m + k + 2 ≤ P.umax) :
    ∃ ig, buildGraph P (addAll (edges m k)) = .ok ig ∧ ig.frozen = true := by
  obtain ⟨g1, h1, h2⟩ := runs_ok (P := P) (es := edges m k)
    (fun e he => by have := edges_lt hk e he; omega) (g := InputGraph.new) rfl
  have h3 : ∃ g2, g1.freeze = .ok g2 ∧ g2.frozen = true := by
    unfold InputGraph.freeze
    rw [if_neg (by simp [h2])]
    exact ⟨_, rfl, rfl⟩
  obtain ⟨g2, h3, h4⟩ := h3
  exact ⟨g2, by rw [build_addAll, h1]; exact h3, h4⟩

theorem addAll_frozen {es : List Edge} {ig : InputGraph} (hb : buildGraph P (addAll es) = .ok ig) : ig.frozen = true := by
  rw [build_addAll] at hb
  obtain ⟨g, _, hb⟩ := bind_eq_ok.1 hb
  unfold InputGraph.freeze at hb
  split at hb
  · cases hb
  · cases hb
    rfl

section
variable {ig : InputGraph} (hP : P.checked = true) (hb : buildGraph P (addAll (edges m k)) = .ok ig)
include hP hb

theorem built_inv : GInv (edges m k) ig := by
  have := buildGraph_inv (Or.inl hP) hb
  rwa [accepted_addAll edges_valid] at this

theorem built_edges {p q w : Nat} : (⟨p, q, w⟩ : Edge) ∈ ig.edges ↔ Rel m k (weight m 0 0 2 (top m)) p q w := by
  rw [(built_inv hP hb).mem_iff (addAll_frozen hb)]
  unfold IsMinEdge
  rw [mem_edges]
  refine ⟨fun h => h.1, fun h => ⟨h, fun w' h' => ?_⟩⟩
  obtain ⟨a, b, ha, hb, rfl, rfl, h⟩ := h
  rw [mem_edges, Rel_iff ha hb, h] at h'
  injection h' with h'
  omega

theorem built_num (hk : 2 ≤ k) (hm : 3 ≤ m) : ig.numNodes = 3 * m + k + 2 := by
  rw [(built_inv hP hb).num, nodeCount_edges hk hm]

end

theorem first_ok (hm : 2 ≤ m) : ∀ a ∈ first m, a.Ok m k := by
  intro a ha
  unfold first at ha
  simp only [List.mem_append, List.mem_flatMap, List.mem_range, List.mem_cons, List.not_mem_nil, or_false] at ha
  rcases ha with ⟨j, hj, rfl | rfl | rfl⟩ | rfl | rfl <;> simp only [Role.Ok] <;> omega

theorem first_nodup (hm : 2 ≤ m) : (first m).Nodup := by
  unfold first
  refine List.nodup_append.2 ⟨?_, ?_, ?_⟩
  · refine List.nodup_flatMap.2 ⟨fun j _ => by simp, ?_⟩
    refine List.Pairwise.imp ?_ (List.nodup_range (n := m - 2))
    intro i j hij
    simp only [Function.onFun]
    rw [List.disjoint_left]
    intro a ha hb
    simp only [List.mem_cons, List.not_mem_nil, or_false] at ha hb
    rcases ha with rfl | rfl | rfl <;> rcases hb with hb | hb | hb <;> cases hb <;> exact hij rfl
  · simp only [List.nodup_cons, List.mem_singleton, Role.x.injEq, List.not_mem_nil, not_false_iff, List.nodup_nil, and_true]
    omega
  · intro a ha b hb e
    subst e
    simp only [List.mem_flatMap, List.mem_range, List.mem_cons, List.not_mem_nil, or_false] at ha hb
    obtain ⟨j, hj, rfl | rfl | rfl⟩ := ha <;> rcases hb with hb | hb <;> cases hb <;> omega

theorem order_perm (hm : 2 ≤ m) (hk : 2 ≤ k) : (order m k).Perm (List.range (3 * m + k + 2)) := by
  unfold order
  have hnd : ((first m).map (Role.id m)).Nodup := by
    refine List.Nodup.map_on ?_ (first_nodup hm)
    intro a ha b hb h
    exact id_inj (k := k) (first_ok hm a ha) (first_ok hm b hb) h
  refine (List.perm_ext_iff_of_nodup ?_ List.nodup_range).2 ?_
  · refine List.nodup_append.2 ⟨hnd, List.nodup_range.filter _, ?_⟩
    intro a ha b hb e
    subst e
    have := (List.mem_filter.1 hb).2
    simp only [decide_eq_true_eq] at this
    exact this ha
  · intro v
    rw [List.mem_append, List.mem_filter, List.mem_range]
    constructor
    · rintro (h | h)
      · obtain ⟨a, ha, rfl⟩ := List.mem_map.1 h
        exact id_lt (first_ok hm a ha) hk
      · exact h.1
    · intro h
      by_cases hv : v ∈ (first m).map (Role.id m)
      · exact Or.inl hv
      · exact Or.inr ⟨h, by simpa using hv⟩

/-- A prefix of a contraction. -/
theorem remaining_last {ig : InputGraph} {ms : Nat} {d : List Nat} {v : Nat} {g : PreparationGraph}
    (h : remaining P pq ig ms (d ++ [v]) = .ok g) : ∃ g', remaining P pq ig ms d = .ok g' ∧
      ∃ r, contractNode P g' (WitnessSearch.new P pq ig.numNodes) v ms = .ok r ∧ g = r.1 := by
  have hpre : ∃ g', remaining P pq ig ms d = .ok g' := by
    unfold remaining at h ⊢
    obtain ⟨gi, e, h⟩ := bind_eq_ok.1 h
    rw [e]
    simp only [bind_okM]
    rw [forM_append] at h
    obtain ⟨g', e', _⟩ := bind_eq_ok.1 h
    exact ⟨g', e'⟩
  obtain ⟨g', hg'⟩ := hpre
  refine ⟨g', hg', ?_⟩
  rw [remaining_snoc hg'] at h
  obtain ⟨r, er, hr⟩ := bind_eq_ok.1 h
  injection hr with hr
  exact ⟨r, er, hr.symm⟩

/-- The nodes contracted in the first `j` rounds. -/
def rounds (m j : Nat) : List Nat := ((List.range j).flatMap (fun j => [Role.x j, .y j, .g (j + 2)])).map (Role.id m)

theorem rounds_succ (j : Nat) : rounds m (j + 1) =
    ((rounds m j ++ [(Role.x j).id m]) ++ [(Role.y j).id m]) ++ [(Role.g (j + 2)).id m] := by
  unfold rounds
  rw [List.range_succ]
  simp

variable {ig : InputGraph} (hP : P.checked = true) (hodd : P.umax % 2 = 1) (hk : 2 ≤ k) (hm : 3 ≤ m)
  (hn : 3 * m + k + 2 ≤ P.umax) (hb : buildGraph P (addAll (edges m k)) = .ok ig)
include hP hk hm hb

theorem stage_zero {g : PreparationGraph} (h : remaining P pq ig k [] = .ok g) : Stage m k 0 0 2 (top m) g := by
  obtain ⟨gi, e, hgi⟩ := fromInputGraph_ok (P := P) ((built_inv hP hb).frozenOk (addAll_frozen hb))
  unfold remaining at h
  rw [e] at h
  simp only [bind_okM, forM_nil] at h
  cases h
  rw [built_num hP hb hk hm] at hgi
  refine ⟨hgi.wf, fun p q w => ?_⟩
  rw [hgi.rel_iff]
  exact built_edges hP hb

include hodd hn

theorem stage (j : Nat) : j + 2 ≤ m → ∀ g, remaining P pq ig k (rounds m j) = .ok g → Stage m k j j (j + 2) (2 ^ j * top m) g := by
  have hnum := built_num hP hb hk hm
  have hws : (WitnessSearch.new P pq ig.numNodes).Base (3 * m + k + 2) := by rw [hnum]; exact WitnessSearch.Base.new P pq _
  induction j with
  | zero =>
    intro _ g h
    rw [Nat.pow_zero, Nat.one_mul]
    exact stage_zero hP hk hm hb h
  | succ j ih =>
    intro hj g h
    rw [rounds_succ] at h
    obtain ⟨g3, h3, r3, e3, rfl⟩ := remaining_last h
    obtain ⟨g2, h2, r2, e2, rfl⟩ := remaining_last h3
    obtain ⟨g1, h1, r1, e1, rfl⟩ := remaining_last h2
    have hA : 8 * m + 20 ≤ 2 ^ j * top m := by
      have : 1 ≤ 2 ^ j := Nat.one_le_two_pow
      calc 8 * m + 20 = 1 * top m := by unfold top; omega
        _ ≤ _ := Nat.mul_le_mul_right _ this
    obtain ⟨h4, h5⟩ := (ih (by omega) _ h1).x_step hP hodd hk hn hws (by omega) hA e1
    have h6 : 2 * (2 ^ j * top m) = 2 ^ (j + 1) * top m := by rw [Nat.pow_succ, Nat.mul_comm (2 ^ j) 2, Nat.mul_assoc]
    rw [h6] at h4 h5
    have h7 : 2 ^ (j + 1) * top m < P.umax := by omega
    have hA' : 8 * m + 20 ≤ 2 ^ (j + 1) * top m := by omega
    exact (h5.y_step hP hk hn hws (by omega) hA' h7 e2).g_step hP hk hn hws (by omega) hA' h7 e3

/-- The last doubling. -/
theorem stage_last {g : PreparationGraph} (h : remaining P pq ig k (rounds m (m - 2) ++ [(Role.x (m - 2)).id m]) = .ok g) :
    2 ^ (m - 1) * top m ≤ P.umax ∧ Stage m k (m - 1) (m - 2) m (2 ^ (m - 1) * top m) g := by
  have hnum := built_num hP hb hk hm
  have hws : (WitnessSearch.new P pq ig.numNodes).Base (3 * m + k + 2) := by rw [hnum]; exact WitnessSearch.Base.new P pq _
  obtain ⟨g1, h1, r1, e1, rfl⟩ := remaining_last h
  obtain ⟨l, rfl⟩ : ∃ l, m = l + 2 := ⟨m - 2, by omega⟩
  simp only [Nat.add_sub_cancel] at *
  have hA : 8 * (l + 2) + 20 ≤ 2 ^ l * top (l + 2) := by
    have : 1 ≤ 2 ^ l := Nat.one_le_two_pow
    calc 8 * (l + 2) + 20 = 1 * top (l + 2) := by unfold top; omega
      _ ≤ _ := Nat.mul_le_mul_right _ this
  obtain ⟨h4, h5⟩ := (stage hP hodd hk hm hn hb l (by omega) _ h1).x_step hP hodd hk hn hws (by omega) hA e1
  have h6 : 2 * (2 ^ l * top (l + 2)) = 2 ^ (l + 1) * top (l + 2) := by rw [Nat.pow_succ, Nat.mul_comm (2 ^ l) 2, Nat.mul_assoc]
  rw [h6] at h4 h5
  exact ⟨h4, h5⟩

/-- What a preparation that returns has stored. -/
theorem stored {fg : FastGraph} (hp : prepareWithOrderWithParams P pq ig (order m k) k = .ok (.ok fg)) :
    2 ^ (m - 1) * top m ≤ P.umax ∧ ∃ e ∈ fg.edgesBwd, e.weight = 2 ^ (m - 1) * top m := by
  have hF := (built_inv hP hb).frozenOk (addAll_frozen hb)
  have hnum := built_num hP hb hk hm
  have hperm : (order m k).Perm (List.range ig.numNodes) := by rw [hnum]; exact order_perm (by omega) hk
  obtain ⟨fg', e, hgood, hB, hr⟩ := (buildWithOrder_built hP hF hperm _ (stepsOk_fresh pq P _ _)).of_ok hp
  cases e
  have hlen : (order m k).length = ig.numNodes := by simpa using hperm.length_eq
  have hord : fg.getNodeOrdering = .ok (order m k) :=
    getNodeOrdering_eq (by rw [hgood.toShape.lenR, hlen]) (by rw [hlen]; exact hperm) hr
  have he : order m k = (rounds m (m - 2) ++ [(Role.x (m - 2)).id m]) ++ (Role.x (m - 1)).id m ::
      (List.range (3 * m + k + 2)).filter (fun v => v ∉ (first m).map (Role.id m)) := by
    unfold order first rounds
    simp
  obtain ⟨g, h1, h2, _, _, _, _, h5⟩ := stored_edges hF hB hord he
  obtain ⟨h6, h7⟩ := stage_last hP hodd hk hm hn hb h1
  refine ⟨h6, ?_⟩
  have hx : (Role.x (m - 1)).Ok m k := by simp only [Role.Ok]; omega
  obtain ⟨c, hc⟩ := (h7.rel (Role.s.id m) ((Role.x (m - 1)).id m) (2 ^ (m - 1) * top m)).2
    ((Rel_iff (a := .s) (b := .x (m - 1)) (by simp only [Role.Ok]) hx).2 (by simp [weight]))
  have hin := (h2.mirror _ _ _ _).1 hc
  unfold storedIn at h5
  obtain ⟨b, _, h5⟩ := bind_eq_ok.1 h5
  obtain ⟨e, _, h5⟩ := bind_eq_ok.1 h5
  injection h5 with h5
  have hm' := List.mem_map_of_mem (f := fun a : Arc => ((Role.x (m - 1)).id m, a.adj, a.weight)) hin
  rw [← h5] at hm'
  obtain ⟨d, hd, hde⟩ := List.mem_map.1 hm'
  refine ⟨d, List.mem_of_mem_drop (List.mem_of_mem_take hd), ?_⟩
  injection hde with _ hde
  injection hde

end HeavyP
end FP
