import Verif.Model.Basic
import Mathlib.Data.List.Sort
import Mathlib.Algebra.BigOperators.Group.List.Basic
/-! Facts about the list model of `np.unique`. -/
namespace OM
variable {α : Type} [DecidableEq α]

omit [DecidableEq α] in
theorem insertBy_perm (le : α → α → Bool) (x : α) (l : List α) : (insertBy le x l).Perm (x :: l) := by
  induction l with
  | nil => simp [insertBy]
  | cons y l ih =>
    simp only [insertBy]
    split
    · exact List.Perm.refl _
    · exact (ih.cons y).trans (List.Perm.swap x y l)

omit [DecidableEq α] in
theorem sortBy_perm (le : α → α → Bool) (l : List α) : (sortBy le l).Perm l := by
  induction l with
  | nil => simp [sortBy]
  | cons x l ih => exact (insertBy_perm le x _).trans (ih.cons x)

omit [DecidableEq α] in
theorem sortBy_sorted (le : α → α → Bool) (total : ∀ a b, (le a b || le b a) = true)
    (trans : ∀ a b c, le a b = true → le b c = true → le a c = true) (l : List α) :
    (sortBy le l).Pairwise (fun a b => le a b = true) := by
  induction l with
  | nil => simp [sortBy]
  | cons x l ih =>
    rw [sortBy]
    generalize sortBy le l = m at ih
    induction m with
    | nil => simp [insertBy]
    | cons y m ihm =>
      have h := List.pairwise_cons.1 ih
      simp only [insertBy]
      split
      · rename_i hxy
        refine List.pairwise_cons.2 ⟨?_, ih⟩
        intro z hz
        rcases List.mem_cons.1 hz with rfl | hz
        · exact hxy
        · exact trans _ _ _ hxy (h.1 z hz)
      · rename_i hxy
        refine List.pairwise_cons.2 ⟨?_, ihm h.2⟩
        intro z hz
        rcases List.mem_cons.1 ((insertBy_perm le x m).mem_iff.1 hz) with rfl | hz
        · have := total y z
          simp only [hxy, Bool.or_false] at this ⊢
          simpa [hxy] using this
        · exact h.1 z hz

omit [DecidableEq α] in
theorem RowOrder.sorted (o : RowOrder α) (l : List α) :
    (sortBy o.le l).Pairwise (fun a b => o.le a b = true) := sortBy_sorted o.le o.total o.trans l

theorem runs_head {x : α} {l : List α} : ∃ n r, runs (x :: l) = (x, n) :: r := by
  simp only [runs]
  split
  · exact ⟨_, _, rfl⟩
  · rename_i y n r h
    split
    · rename_i hxy; subst hxy; exact ⟨_, _, rfl⟩
    · exact ⟨_, _, rfl⟩

theorem mem_runs_keys (l : List α) (a : α) : a ∈ (runs l).map Prod.fst ↔ a ∈ l := by
  induction l with
  | nil => simp [runs]
  | cons x l ih =>
    simp only [runs]
    split
    · rename_i h
      rw [h] at ih
      simp at ih
      simp [ih]
    · rename_i y n r h
      rw [h] at ih
      simp only [List.map_cons, List.mem_cons] at ih
      split
      · rename_i hxy; subst hxy
        simp only [List.map_cons, List.mem_cons]
        rw [← ih]; tauto
      · simp only [List.map_cons, List.mem_cons]
        rw [← ih]

/-- Counting with a predicate on the data is summing the counts of the keys that satisfy it. -/
theorem sum_runs (l : List α) (P : α → Bool) :
    (((runs l).filter fun x => P x.1).map Prod.snd).sum = l.countP P := by
  induction l with
  | nil => simp [runs]
  | cons x l ih =>
    simp only [runs]
    split
    · rename_i h
      rw [h] at ih
      simp at ih
      by_cases hx : P x <;> simp [hx, ← ih]
    · rename_i y n r h
      rw [h] at ih
      split
      · rename_i hxy; subst hxy
        by_cases hx : P x
        · simp [hx] at ih
          simp [hx, ← ih]; omega
        · simp [hx] at ih
          simp [hx, ← ih]
      · by_cases hx : P x
        · simp [hx, ← ih]; omega
        · simp [hx, ← ih]

/-- In a list sorted by an order the keys of `runs` are pairwise different. -/
theorem runs_keys_nodup (o : RowOrder α) (l : List α)
    (hs : l.Pairwise (fun a b => o.le a b = true)) : ((runs l).map Prod.fst).Nodup := by
  induction l with
  | nil => simp [runs]
  | cons x l ih =>
    have hs' := List.pairwise_cons.1 hs
    have ih := ih hs'.2
    have hk := mem_runs_keys l
    cases l with
    | nil => simp [runs]
    | cons z l =>
      obtain ⟨n, r, h⟩ := runs_head (x := z) (l := l)
      rw [runs, h]
      rw [h] at ih hk
      simp only
      split
      · rename_i hxz; subst hxz
        simpa using ih
      · rename_i hxz
        rw [List.map_cons, List.nodup_cons]
        refine ⟨?_, ih⟩
        intro hmem
        have hmem : x ∈ z :: l := (hk x).1 hmem
        have h1 : o.le x z = true := hs'.1 z (by simp)
        have h2 : o.le z x = true := by
          rcases List.mem_cons.1 hmem with h | h
          · exact absurd h hxz
          · exact (List.pairwise_cons.1 hs'.2).1 x h
        exact hxz (o.antisymm _ _ h1 h2)

theorem nodup_filter_key {r : List (α × Nat)} (hn : (r.map Prod.fst).Nodup) {a : α} {n : Nat}
    (hm : (a, n) ∈ r) : r.filter (fun x => decide (x.1 = a)) = [(a, n)] := by
  induction r with
  | nil => simp at hm
  | cons x r ih =>
    rw [List.map_cons, List.nodup_cons] at hn
    rcases List.mem_cons.1 hm with h | h
    · subst h
      simp only [decide_true, List.filter_cons_of_pos]
      congr 1
      rw [List.filter_eq_nil_iff]
      intro y hy
      have : y.1 ≠ a := fun hya => hn.1 (List.mem_map.2 ⟨y, hy, hya⟩)
      simpa using this
    · have : x.1 ≠ a := fun hxa => hn.1 (by rw [hxa]; exact List.mem_map_of_mem (f := Prod.fst) h)
      rw [List.filter_cons_of_neg (by simpa using this)]
      exact ih hn.2 h

theorem mem_uniqueCounts [BEq α] [LawfulBEq α] (o : RowOrder α) (l : List α) (a : α) (n : Nat) :
    (a, n) ∈ uniqueCounts o l ↔ 0 < n ∧ l.count a = n := by
  have hs := o.sorted l
  have hp := sortBy_perm o.le l
  have hnd := runs_keys_nodup o _ hs
  have key : ∀ m, (a, m) ∈ runs (sortBy o.le l) → l.count a = m := by
    intro m hm
    have h1 := sum_runs (sortBy o.le l) (fun x => decide (x = a))
    rw [nodup_filter_key hnd hm] at h1
    simp at h1
    rw [h1]
    rw [hp.symm.count_eq a, List.count]
    exact List.countP_congr (fun x _ => by simp)
  have hmk := mem_runs_keys (sortBy o.le l) a
  unfold uniqueCounts
  constructor
  · intro hm
    have hc := key n hm
    refine ⟨?_, hc⟩
    have : a ∈ l := by
      rw [← hp.mem_iff, ← hmk]; exact List.mem_map_of_mem (f := Prod.fst) hm
    rw [← hc]; exact List.count_pos_iff.2 this
  · rintro ⟨hn, hc⟩
    have : a ∈ l := List.count_pos_iff.1 (by omega)
    rw [← hp.mem_iff, ← hmk] at this
    obtain ⟨⟨b, m⟩, hbm, hb⟩ := List.mem_map.1 this
    simp only at hb; subst hb
    rw [key m hbm] at hc
    exact hc ▸ hbm

theorem uniqueCounts_nodup (o : RowOrder α) (l : List α) :
    ((uniqueCounts o l).map Prod.fst).Nodup := runs_keys_nodup o _ (o.sorted l)

theorem mem_unique (o : RowOrder α) (l : List α) (a : α) : a ∈ unique o l ↔ a ∈ l := by
  unfold unique uniqueCounts
  rw [mem_runs_keys, (sortBy_perm o.le l).mem_iff]

theorem unique_nodup (o : RowOrder α) (l : List α) : (unique o l).Nodup := uniqueCounts_nodup o l

theorem sum_uniqueCounts (o : RowOrder α) (l : List α) (P : α → Bool) :
    (((uniqueCounts o l).filter fun x => P x.1).map Prod.snd).sum = l.countP P := by
  unfold uniqueCounts
  rw [sum_runs, (sortBy_perm o.le l).countP_eq]

theorem unique_length_le (o : RowOrder α) (l : List α) : (unique o l).length ≤ l.length :=
  (List.subperm_of_subset (unique_nodup o l) fun a ha => (mem_unique o l a).1 ha).length_le

/-- `runs` keeps the order of a sorted list. -/
theorem runs_keys_sublist (l : List α) : ((runs l).map Prod.fst).Sublist l := by
  induction l with
  | nil => simp [runs]
  | cons x l ih =>
    simp only [runs]
    split
    · simp
    · rename_i y n r h
      rw [h] at ih
      split
      · exact ih.cons _
      · exact ih.cons_cons _

theorem unique_sorted (o : RowOrder α) (l : List α) :
    (unique o l).Pairwise (fun a b => o.le a b = true) :=
  (o.sorted l).sublist (runs_keys_sublist _)

end OM
