import Verif.Model.Edges
import Verif.Spec.Mesh
import Verif.Lemmas.Unique
import Mathlib.Algebra.Group.Nat.Even
import Mathlib.Tactic.Ring
/-! Facts about the model of `oceanmesh/edges.py`. -/
namespace OM
open Spec

/-- Number of occurrences of the sorted pair `(u,v)` among the three edges of one face. -/
theorem count_face_edges (f : Tri) (hf : Nondegenerate f) (u v : Nat) (huv : u < v) :
    ([(f.a, f.b), (f.a, f.c), (f.b, f.c)].map sortPair).count (u, v) =
      if HasEdge f u v then 1 else 0 := by
  obtain ⟨h1, h2, h3⟩ := hf
  by_cases h : HasEdge f u v
  · rw [if_pos h]
    unfold HasEdge HasVertex at h
    simp only [List.map_cons, List.map_nil, List.count_cons, List.count_nil, sortPair, beq_iff_eq, Prod.mk.injEq]
    split_ifs <;> omega
  · rw [if_neg h]
    unfold HasEdge HasVertex at h
    simp only [List.map_cons, List.map_nil, List.count_cons, List.count_nil, sortPair, beq_iff_eq, Prod.mk.injEq]
    split_ifs <;> omega

theorem count_edges (t : List Tri) (ht : ∀ f ∈ t, Nondegenerate f) (u v : Nat) (huv : u < v) :
    ((getEdges t).map sortPair).count (u, v) = edgeMultiplicity t u v := by
  induction t with
  | nil => simp [getEdges, edgeMultiplicity]
  | cons f t ih =>
    have ih := ih (fun g hg => ht g (List.mem_cons_of_mem _ hg))
    have h1 := count_face_edges f (ht f (by simp)) u v huv
    have h2 : (getEdges (f :: t)).map sortPair =
        [(f.a, f.b), (f.a, f.c), (f.b, f.c)].map sortPair ++ (getEdges t).map sortPair := rfl
    rw [h2, List.count_append, h1, ih]
    unfold edgeMultiplicity
    by_cases h : HasEdge f u v
    · simp [h]; omega
    · simp [h]

theorem sortPair_mem_lt (t : List Tri) (ht : ∀ f ∈ t, Nondegenerate f) (e : Nat × Nat)
    (he : e ∈ (getEdges t).map sortPair) : e.1 < e.2 := by
  induction t with
  | nil => simp [getEdges] at he
  | cons f t ih =>
    obtain ⟨h1, h2, h3⟩ := ht f (by simp)
    simp only [getEdges, List.map_cons, List.mem_cons] at he
    rcases he with he | he | he | he
    · subst he; simp [sortPair]; omega
    · subst he; simp [sortPair]; omega
    · subst he; simp [sortPair]; omega
    · exact ih (fun g hg => ht g (List.mem_cons_of_mem _ hg)) he

theorem mem_boundary_iff_count (o : RowOrder (Nat × Nat)) (t : List Tri) (e : Nat × Nat) :
    e ∈ getBoundaryEdges o t ↔ ((getEdges t).map sortPair).count e = 1 := by
  unfold getBoundaryEdges
  rw [List.mem_map]
  constructor
  · rintro ⟨⟨a, n⟩, h, rfl⟩
    rw [List.mem_filter, beq_iff_eq] at h
    obtain ⟨h, hn⟩ := h
    simp only at hn ⊢
    rw [((mem_uniqueCounts o _ _ _).1 h).2, hn]
  · intro h
    exact ⟨(e, 1), List.mem_filter.2 ⟨(mem_uniqueCounts o _ _ _).2 ⟨by decide, h⟩, by simp⟩, rfl⟩

theorem mem_boundary_iff (o : RowOrder (Nat × Nat)) (t : List Tri) (ht : ∀ f ∈ t, Nondegenerate f)
    (u v : Nat) : (u, v) ∈ getBoundaryEdges o t ↔ u < v ∧ IsBoundaryEdge t u v := by
  rw [mem_boundary_iff_count]
  constructor
  · intro h
    have hm : (u, v) ∈ (getEdges t).map sortPair := List.count_pos_iff.1 (by omega)
    have hlt := sortPair_mem_lt t ht _ hm
    exact ⟨hlt, by rw [IsBoundaryEdge, ← count_edges t ht u v hlt]; exact h⟩
  · rintro ⟨hlt, h⟩
    rw [count_edges t ht u v hlt]; exact h

theorem boundary_nodup (o : RowOrder (Nat × Nat)) (t : List Tri) : (getBoundaryEdges o t).Nodup := by
  unfold getBoundaryEdges
  exact (uniqueCounts_nodup o _).sublist (List.filter_sublist.map _)

theorem edgeMultiplicity_symm (t : List Tri) (u v : Nat) : edgeMultiplicity t u v = edgeMultiplicity t v u := by
  unfold edgeMultiplicity
  congr 1
  apply List.filter_congr
  intro f _
  rw [decide_eq_decide]
  unfold HasEdge
  constructor <;> (rintro ⟨h1, h2, h3⟩; exact ⟨h1.symm, h3, h2⟩)

/-- Every face contributes an even number of edge ends at a vertex. -/
theorem even_edges_at (t : List Tri) (ht : ∀ f ∈ t, Nondegenerate f) (v : Nat) :
    Even (((getEdges t).map sortPair).countP fun e => decide (e.1 = v ∨ e.2 = v)) := by
  induction t with
  | nil => simp [getEdges]
  | cons f t ih =>
    have ih := ih (fun g hg => ht g (List.mem_cons_of_mem _ hg))
    obtain ⟨h1, h2, h3⟩ := ht f (by simp)
    have h2 : (getEdges (f :: t)).map sortPair =
        [(f.a, f.b), (f.a, f.c), (f.b, f.c)].map sortPair ++ (getEdges t).map sortPair := rfl
    rw [h2, List.countP_append]
    apply Even.add _ ih
    rw [Nat.even_iff]
    simp only [List.map_cons, List.map_nil, List.countP_cons, List.countP_nil, sortPair, decide_eq_true_eq]
    split_ifs <;> omega

theorem sum_one_two (r : List (Nat × Nat)) (w : (Nat × Nat) → Nat) (hw : ∀ e ∈ r, w e = 1 ∨ w e = 2) :
    ((r.filter fun e => w e == 1).length) % 2 = (r.map w).sum % 2 := by
  induction r with
  | nil => simp
  | cons e r ih =>
    have ih := ih (fun x hx => hw x (List.mem_cons_of_mem _ hx))
    rcases hw e (by simp) with h | h
    · simp [h]; omega
    · simp [h]; omega

theorem sum_one_two' {α : Type} (r : List (α × Nat)) (hw : ∀ e ∈ r, e.2 = 1 ∨ e.2 = 2) :
    ((r.filter fun e => e.2 == 1).length) % 2 = (r.map Prod.snd).sum % 2 := by
  induction r with
  | nil => simp
  | cons e r ih =>
    have ih := ih (fun x hx => hw x (List.mem_cons_of_mem _ hx))
    rcases hw e (by simp) with h | h
    · simp [h]; omega
    · simp [h]; omega

theorem boundary_degree_even (o : RowOrder (Nat × Nat)) (t : List Tri) (ht : ∀ f ∈ t, Nondegenerate f)
    (hc : Conforming t) (v : Nat) : Even (degree (getBoundaryEdges o t) v) := by
  have hev := even_edges_at t ht v
  rw [← sum_uniqueCounts o] at hev
  have hw : ∀ e ∈ (uniqueCounts o ((getEdges t).map sortPair)).filter
      (fun x => decide (x.1.1 = v ∨ x.1.2 = v)), e.2 = 1 ∨ e.2 = 2 := by
    rintro ⟨e, n⟩ he
    have hm := (mem_uniqueCounts o _ _ _).1 (List.mem_filter.1 he).1
    have hlt := sortPair_mem_lt t ht e (List.count_pos_iff.1 (hm.2 ▸ hm.1))
    have h2 : n ≤ 2 := by
      rw [← hm.2]
      exact (count_edges t ht e.1 e.2 hlt).trans_le (hc _ _)
    simp only; omega
  have h := sum_one_two' _ hw
  rw [Nat.even_iff] at hev ⊢
  rw [hev] at h
  rw [← h]
  unfold degree getBoundaryEdges
  rw [List.filter_map, List.length_map, List.filter_filter, List.filter_filter]
  congr 2
  apply List.filter_congr
  intro x _
  simp [Bool.and_comm]

/-! ### The winding loop -/

theorem otherEnd_spec {e : Nat × Nat} {v w : Nat} (hv : e.1 = v ∨ e.2 = v) (h : otherEnd e v = some w) :
    e = (v, w) ∨ e = (w, v) := by
  unfold otherEnd at h
  split at h
  · rename_i h1
    simp at h; subst h
    right; apply Prod.ext <;> simp; tauto
  · rename_i h1
    split at h
    · simp at h; subst h
      left; apply Prod.ext <;> simp; tauto
    · simp at h

theorem otherEnd_isSome {e : Nat × Nat} (v : Nat) (he : e.1 ≠ e.2) : ∃ w, otherEnd e v = some w := by
  unfold otherEnd
  split
  · exact ⟨_, rfl⟩
  · rw [if_pos (by omega)]; exact ⟨_, rfl⟩

/-- The loop does not raise on edges with two different ends, uses each of the remaining edges at most once, is a
walk, and stops only when no remaining edge touches its end. -/
theorem windLoop_spec (fuel : Nat) (rem : List (Nat × Nat)) (hfuel : rem.length < fuel)
    (hne : ∀ e ∈ rem, e.1 ≠ e.2) (v : Nat) :
    ∃ res w, windLoop fuel rem v = some res ∧ IsWalk v res w ∧ res.Subperm rem ∧
      (∀ e ∈ rem, e.1 = w ∨ e.2 = w → res.count e = rem.count e) := by
  induction fuel generalizing rem v with
  | zero => omega
  | succ fuel ih =>
    rw [windLoop]
    split
    · rename_i h
      refine ⟨[], v, rfl, IsWalk.nil v, List.nil_subperm, ?_⟩
      intro e he hv
      rw [List.find?_eq_none] at h
      have := h e he
      simp at this
      tauto
    · rename_i e h
      have hm := List.mem_of_find?_eq_some h
      have hv : e.1 = v ∨ e.2 = v := by simpa using List.find?_some h
      obtain ⟨w, hw⟩ := otherEnd_isSome v (hne e hm)
      rw [hw]
      have hlen : (rem.erase e).length < fuel := by
        have := List.length_pos_of_mem hm
        rw [List.length_erase_of_mem hm]
        omega
      obtain ⟨res, u, h1, h2, h3, h4⟩ := ih (rem.erase e) hlen
        (fun x hx => hne x (List.mem_of_mem_erase hx)) w
      refine ⟨e :: res, u, by simp [h1], IsWalk.cons (otherEnd_spec hv hw) h2, ?_, ?_⟩
      · have := (List.perm_cons_erase hm).symm
        exact ((List.subperm_cons e).2 h3).trans this.subperm
      · intro x hx hxu
        by_cases hxe : x = e
        · subst hxe
          rw [List.count_cons_self]
          by_cases hx2 : x ∈ rem.erase x
          · rw [h4 x hx2 hxu, List.count_erase_self]
            have := List.count_pos_iff.2 hx; omega
          · have h5 : (rem.erase x).count x = 0 := List.count_eq_zero.2 hx2
            have h6 : res.count x = 0 := by
              have := h3.count_le x; omega
            rw [h6]
            rw [List.count_erase_self] at h5
            have := List.count_pos_iff.2 hx; omega
        · rw [List.count_cons_of_ne (Ne.symm hxe)]
          have hx2 : x ∈ rem.erase e := (List.mem_erase_of_ne hxe).2 hx
          rw [h4 x hx2 hxu, List.count_erase_of_ne hxe]

/-- In a walk without loop edges the degree of a vertex is odd exactly at the two ends, if they differ. -/
theorem walk_degree_parity {u w : Nat} {es : List (Nat × Nat)} (h : IsWalk u es w) (hne : ∀ e ∈ es, e.1 ≠ e.2)
    (v : Nat) : (degree es v + (if v = u then 1 else 0) + (if v = w then 1 else 0)) % 2 = 0 := by
  induction h with
  | nil x => unfold degree; by_cases hv : v = x <;> simp [hv]
  | @cons u x w e es he _ ih =>
    have ih := ih (fun y hy => hne y (List.mem_cons_of_mem _ hy))
    have hne' := hne e (by simp)
    have hd : degree (e :: es) v = (if e.1 = v ∨ e.2 = v then 1 else 0) + degree es v := by
      unfold degree
      by_cases hx : e.1 = v ∨ e.2 = v
      · simp [hx]; omega
      · simp [hx]
    rw [hd]
    rcases he with he | he <;> subst he <;> simp only at hne' ⊢ <;> split_ifs at ih ⊢ <;> omega

theorem degree_perm {l m : List (Nat × Nat)} (h : l.Perm m) (v : Nat) : degree l v = degree m v :=
  (h.filter _).length_eq

end OM
