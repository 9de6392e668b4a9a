import Verif.Props.FixMesh3D
import Verif.Lemmas.FixMeshFl
/-!
# `fix_mesh` of its own result, for tetrahedra (C158)
-/
set_option linter.unusedSectionVars false
namespace OM
open Spec
section
variable {α β : Type} [DecidableEq β]

theorem merge_sorted_gen {key : α → β} {o : RowOrder β} {p : List α} (hn : (p.map key).Nodup) (hs : (p.map key).Pairwise fun a b => o.le a b = true) :
    gather p (uniqueIndex o (p.map key)) = some p ∧ uniqueInverse o (p.map key) = List.range p.length := by
  have e := unique_eq_self o hn hs
  unfold uniqueIndex uniqueInverse
  rw [e, map_idxOf_self hn, List.length_map]
  exact ⟨gather_range p, rfl⟩
end

theorem idxOf_range {n v : Nat} (h : v < n) : (List.range n).idxOf v = v := by
  have := (List.nodup_range (n := n)).idxOf_getElem v (by simpa using h)
  rwa [List.getElem_range] at this

theorem gather_range_row {n : Nat} {f : List Nat} (h : ∀ v ∈ f, v < n) : gather (List.range n) f = some f := by
  induction f with
  | nil => rfl
  | cons v f ih => simp only [gather, List.getElem?_range (h v List.mem_cons_self), ih fun w hw => h w (List.mem_cons_of_mem _ hw)]

theorem gatherRows_range {n : Nat} {t : List (List Nat)} (h : ∀ f ∈ t, ∀ v ∈ f, v < n) : gatherRows (List.range n) t = some t := by
  induction t with
  | nil => rfl
  | cons f t ih => simp only [gatherRows, gather_range_row (h f List.mem_cons_self), ih fun g hg => h g (List.mem_cons_of_mem _ hg)]

theorem sortBy_of_perm {f g : List Nat} (h : f.Perm g) : sortBy natOrder.le f = sortBy natOrder.le g :=
  sortBy_ext (((sortBy_perm _ f).trans h).trans (sortBy_perm _ g).symm)

theorem sortBy_of_sorted {f : List Nat} (h : f.Pairwise (· ≤ ·)) : sortBy natOrder.le f = f :=
  (sortBy_perm _ f).eq_of_pairwise (fun a b _ _ => natOrder.antisymm a b) (sortBy_sorted _ natOrder.total natOrder.trans f) (h.imp fun h => by simpa [natOrder] using h)

theorem unique_range {l : List Nat} {n : Nat} (h1 : ∀ v ∈ l, v < n) (h2 : ∀ v < n, v ∈ l) : unique natOrder l = List.range n := by
  have e : unique natOrder l = unique natOrder (List.range n) := unique_congr _ fun a => ⟨fun h => List.mem_range.2 (h1 a h), fun h => h2 a (List.mem_range.1 h)⟩
  rw [e]
  refine unique_eq_self _ List.nodup_range ?_
  exact List.pairwise_lt_range.imp fun h => by simpa [natOrder] using h.le

section
variable {K : Type} [Field K] [LinearOrder K] [IsStrictOrderedRing K]

/-- Sorting the rows undoes the flip of sorted rows. -/
theorem sort_flipTets {p : List (K × K × K)} {t t' : List (List Nat)} (hs : ∀ f ∈ t, sortBy natOrder.le f = f) (h : flipTets p t = some t') : t'.map (sortBy natOrder.le) = t := by
  have hf := flipTets_forall₂ h
  clear h
  induction hf with
  | nil => rfl
  | cons h1 _ ih =>
    rw [List.map_cons, ih fun f hf => hs f (List.mem_cons_of_mem _ hf), sortBy_of_perm (flipTet_facts h1).1, hs _ List.mem_cons_self]

theorem flipTets_perm {p : List (K × K × K)} {t s t' s' : List (List Nat)} (h : t.Perm s) (ht : flipTets p t = some t') (hs : flipTets p s = some s') : t'.Perm s' := by
  have e : ∀ {t t' : List (List Nat)}, flipTets p t = some t' → t.map (flipTet p) = t'.map some := by
    intro t t' h
    have hf := flipTets_forall₂ h
    clear h
    induction hf with
    | nil => rfl
    | cons h1 _ ih => rw [List.map_cons, List.map_cons, h1, ih]
  have := h.map (flipTet p)
  rw [e ht, e hs] at this
  have h2 := this.filterMap id
  simpa [List.filterMap_map] using h2

/-- `fix_mesh` of points in the order of their snapped positions, which are all different, and in use if unused points are deleted. -/
theorem again3 {rnd : K → Int} {oP : RowOrder (Row3 K)} {oT : RowOrder (List Nat)} {p : List (K × K × K)} {t t' : List (List Nat)} {ptol snap : K} {du : Bool}
    (hs : snapSize3 p ptol = some snap) (hn : (p.map (snapRow3 rnd snap)).Nodup) (ho : (p.map (snapRow3 rnd snap)).Pairwise fun a b => oP.le a b = true)
    (hv : ValidTets p.length t) (hu : du = true → ∀ v < p.length, ∃ g ∈ t, v ∈ g) (hf : flipTets p (unique oT (t.map (sortBy natOrder.le))) = some t') :
    fixMesh3 rnd oP oT p t ptol du = some (p, t') := by
  obtain ⟨hg, hi⟩ := merge_sorted_gen hn ho
  have hm : gatherRows (uniqueInverse oP (p.map (snapRow3 rnd snap))) t = some t := by
    rw [hi]; exact gatherRows_range fun f hf => (hv f hf).2
  have hv2 : ∀ f ∈ unique oT (t.map (sortBy natOrder.le)), ∀ v ∈ f, v < p.length := by
    intro f hf v hfv
    obtain ⟨g, hg, rfl⟩ := List.mem_map.1 ((mem_unique _ _ _).1 hf)
    exact (hv g hg).2 v ((sortBy_perm _ g).mem_iff.1 hfv)
  unfold fixMesh3
  simp only [Option.bind_eq_bind, hs, hg, hm, Option.bind_some]
  cases du with
  | false => simp only [Bool.false_eq_true, if_false, hf, Option.bind_some]; rfl
  | true =>
    have hr : unique natOrder (unique oT (t.map (sortBy natOrder.le))).flatten = List.range p.length := by
      refine unique_range (fun v hvm => ?_) fun v hvl => ?_
      · obtain ⟨f, hf, hfv⟩ := List.mem_flatten.1 hvm
        exact hv2 f hf v hfv
      · obtain ⟨g, hg, hgv⟩ := hu rfl v hvl
        exact List.mem_flatten.2 ⟨_, (mem_unique _ _ _).2 (List.mem_map_of_mem hg), (sortBy_perm _ g).mem_iff.2 hgv⟩
    have hre : ((unique oT (t.map (sortBy natOrder.le))).map fun f => f.map (List.range p.length).idxOf) = unique oT (t.map (sortBy natOrder.le)) := by
      conv_rhs => rw [← List.map_id (unique oT (t.map (sortBy natOrder.le)))]
      refine List.map_congr_left fun f hf => ?_
      conv_rhs => rw [id, ← List.map_id f]
      exact List.map_congr_left fun v hvf => idxOf_range (hv2 f hf v hvf)
    simp only [if_true, hr, gather_range, hre, hf, Option.bind_some]
    rfl

theorem snapSize3_same {p q : List (K × K × K)} {ptol e snap : K} (he : IsExtent3 p e) (he' : IsExtent3 q e) (h : snapSize3 p ptol = some snap) : snapSize3 q ptol = some snap := by
  cases q with
  | nil =>
    have := he'.2 (e - 1) (fun q hq => by cases hq)
    linarith
  | cons a l =>
    obtain ⟨s, hs⟩ : ∃ s, snapSize3 (a :: l) ptol = some s := ⟨_, rfl⟩
    rw [hs, snapSize3_eq he' hs, snapSize3_eq he h]

/-- The points of the result are in the order of their snapped positions, its rows are the flipped sorted rows, and without `delete_unused` these are in the order of
`unique_rows`. -/
theorem fixMesh3_order {rnd : K → Int} {oP : RowOrder (Row3 K)} {oT : RowOrder (List Nat)} {p : List (K × K × K)} {t : List (List Nat)} {ptol snap : K} {du : Bool}
    {R : List (K × K × K) × List (List Nat)} (hs : snapSize3 p ptol = some snap) (h : fixMesh3 rnd oP oT p t ptol du = some R) :
    (R.1.map (snapRow3 rnd snap)).Pairwise (fun a b => oP.le a b = true) ∧ flipTets R.1 (R.2.map (sortBy natOrder.le)) = some R.2 ∧
      (du = false → unique oT (R.2.map (sortBy natOrder.le)) = R.2.map (sortBy natOrder.le)) := by
  unfold fixMesh3 at h
  simp only [Option.bind_eq_bind, Option.bind_eq_some_iff] at h
  obtain ⟨snap', h1, p1, h2, t1, h3, h4⟩ := h
  obtain rfl : snap = snap' := Option.some.inj (hs.symm.trans h1)
  have hk : (p1.map (snapRow3 rnd snap)).Pairwise fun a b => oP.le a b = true := by
    rw [merged_keys_gen h2]; exact unique_sorted _ _
  have hsrt : ∀ f ∈ unique oT (t1.map (sortBy natOrder.le)), f.Pairwise (· ≤ ·) := by
    intro f hf
    obtain ⟨g, -, rfl⟩ := List.mem_map.1 ((mem_unique _ _ _).1 hf)
    exact (sortBy_sorted _ natOrder.total natOrder.trans g).imp fun h => by simpa [natOrder] using h
  split at h4
  · rename_i hd
    simp only [Option.bind_eq_some_iff] at h4
    obtain ⟨p2, h5, t4, h6, h7⟩ := h4
    cases h7
    have e := sort_flipTets (fun f hf => ?_) h6
    · refine ⟨?_, by rw [e]; exact h6, fun h' => by rw [hd] at h'; cases h'⟩
      rw [List.pairwise_map] at hk ⊢
      exact gather_pairwise h5 hk (unique_lt _)
    · obtain ⟨g, hg, rfl⟩ := List.mem_map.1 hf
      refine sortBy_of_sorted ?_
      rw [List.pairwise_map]
      refine (hsrt g hg).imp_of_mem fun {a b} ha hb hab => ?_
      have hx := unique_lt (unique oT (t1.map (sortBy natOrder.le))).flatten
      have hma := (mem_unique natOrder _ a).2 (List.mem_flatten.2 ⟨g, hg, ha⟩)
      have hmb := (mem_unique natOrder _ b).2 (List.mem_flatten.2 ⟨g, hg, hb⟩)
      by_contra hc
      have := List.pairwise_iff_getElem.1 hx _ _ (idxOf_lt hmb) (idxOf_lt hma) (not_le.1 hc)
      simp only [List.getElem_idxOf] at this
      omega
  · rename_i hd
    simp only [Option.bind_eq_some_iff] at h4
    obtain ⟨t4, h6, h7⟩ := h4
    cases h7
    have e := sort_flipTets (fun f hf => sortBy_of_sorted (hsrt f hf)) h6
    exact ⟨hk, by rw [e]; exact h6, fun _ => by rw [e]; exact unique_eq_self _ (unique_nodup _ _) (unique_sorted _ _)⟩

/-- **C158** (1): without `delete_unused`, if the extent of the points did not change, a second call returns exactly the same. -/
theorem C158_repeat_partial {rnd : K → Int} {oP : RowOrder (Row3 K)} {oT : RowOrder (List Nat)} {p : List (K × K × K)} {t : List (List Nat)} {ptol e : K}
    {R : List (K × K × K) × List (List Nat)} (he : IsExtent3 p e) (he' : IsExtent3 R.1 e) (h : fixMesh3 rnd oP oT p t ptol false = some R) :
    fixMesh3 rnd oP oT R.1 R.2 ptol false = some R := by
  obtain ⟨snap, hs, hf, -⟩ := fixMesh3_facts h
  obtain ⟨h1, h2, h3⟩ := fixMesh3_order hs h
  exact again3 (snapSize3_same he he' hs) hf.keysNodup h1 hf.valid (fun h => by cases h) (by rw [h3 rfl]; exact h2)

/-- **C158** (2): with `delete_unused`, if the extent of the points did not change, a second call returns the same points and the same rows, maybe in another order, and from then
on nothing changes. -/
theorem C158_repeat_delete_unused_partial {rnd : K → Int} {oP : RowOrder (Row3 K)} {oT : RowOrder (List Nat)} {p : List (K × K × K)} {t : List (List Nat)} {ptol e : K}
    {R : List (K × K × K) × List (List Nat)} (he : IsExtent3 p e) (he' : IsExtent3 R.1 e) (h : fixMesh3 rnd oP oT p t ptol true = some R) :
    ∃ t', fixMesh3 rnd oP oT R.1 R.2 ptol true = some (R.1, t') ∧ t'.Perm R.2 ∧ fixMesh3 rnd oP oT R.1 t' ptol true = some (R.1, t') := by
  obtain ⟨snap, hs, hf, hu⟩ := fixMesh3_facts h
  obtain ⟨h1, h2, -⟩ := fixMesh3_order hs h
  have hs' := snapSize3_same he he' hs
  have hv2 : ValidTets R.1.length (unique oT (R.2.map (sortBy natOrder.le))) := by
    intro f hm
    obtain ⟨g, hg, rfl⟩ := List.mem_map.1 ((mem_unique _ _ _).1 hm)
    exact ⟨(sortBy_perm _ g).length_eq.trans (hf.valid g hg).1, fun v hv => (hf.valid g hg).2 v ((sortBy_perm _ g).mem_iff.1 hv)⟩
  obtain ⟨t', ht'⟩ := flipTets_isSome hv2
  have hnd : (R.2.map (sortBy natOrder.le)).Nodup := by
    rw [List.Nodup, List.pairwise_map]
    exact hf.distinct.imp fun hne he => hne ((sortBy_perm natOrder.le _).symm.trans (by rw [he]; exact sortBy_perm _ _))
  have hP := flipTets_perm ((List.perm_ext_iff_of_nodup (unique_nodup oT _) hnd).2 fun a => mem_unique _ _ a) ht' h2
  refine ⟨t', again3 hs' hf.keysNodup h1 hf.valid hu ht', hP, ?_⟩
  have hsrt : t'.map (sortBy natOrder.le) = unique oT (R.2.map (sortBy natOrder.le)) := by
    refine sort_flipTets (fun f hm => ?_) ht'
    obtain ⟨g, -, rfl⟩ := List.mem_map.1 ((mem_unique _ _ _).1 hm)
    exact sortBy_of_perm (sortBy_perm _ g)
  refine again3 hs' hf.keysNodup h1 (fun f hm => hf.valid f (hP.mem_iff.1 hm)) (fun _ v hv => ?_) ?_
  · obtain ⟨g, hg, hgv⟩ := hu rfl v hv
    exact ⟨g, hP.mem_iff.2 hg, hgv⟩
  · rw [hsrt, unique_eq_self _ (unique_nodup _ _) (unique_sorted _ _)]
    exact ht'
end

/-! ## Examples -/

/-- The two tetrahedra of C155: the extent is kept without `delete_unused`. -/
example : ∃ R, fixMesh3 rndQ pt3Order listOrder tetP tetT (1 / 100) false = some R ∧ IsExtent3 tetP 2 ∧ IsExtent3 R.1 2 ∧ R.2 = [[1, 0, 2, 3], [2, 1, 3, 4]] := by
  refine ⟨([(0, 0, 0), (0, 0, 1), (0, 1, 0), (1, 0, 0), (1, 1, 1), (2, 2, 2)], [[1, 0, 2, 3], [2, 1, 3, 4]]), by decide +kernel, tetP_extent, ⟨?_, fun e' h => ?_⟩, rfl⟩
  · unfold Within3
    decide +kernel
  · have := (h (2, 2, 2) (by decide) (0, 0, 0) (by decide)).1
    norm_num at this
    exact this

/-- With `delete_unused` and without the unused point. -/
example : ∃ R, fixMesh3 rndQ pt3Order listOrder (tetP.take 6) tetT (1 / 100) true = some R ∧ IsExtent3 (tetP.take 6) 1 ∧ IsExtent3 R.1 1 ∧ R.2.length = 2 := by
  refine ⟨([(0, 0, 0), (0, 0, 1), (0, 1, 0), (1, 0, 0), (1, 1, 1)], [[1, 0, 2, 3], [2, 1, 3, 4]]), by decide +kernel, ⟨?_, fun e' h => ?_⟩, ⟨?_, fun e' h => ?_⟩, rfl⟩
  · unfold Within3
    decide +kernel
  · have := (h (1, 0, 0) (by decide) (0, 0, 0) (by decide)).1
    norm_num at this
    exact this
  · unfold Within3
    decide +kernel
  · have := (h (1, 0, 0) (by decide) (0, 0, 0) (by decide)).1
    norm_num at this
    exact this

/-- **C158** fails in general: the first call drops an unused point far away, the second has a finer lattice, which merges two points the first kept, and removes a tetrahedron. -/
theorem C158_not_idempotent : ∃ (p : List (ℚ × ℚ × ℚ)) (t : List (List Nat)) (R R' : List (ℚ × ℚ × ℚ) × List (List Nat)),
    fixMesh3 rndQ pt3Order listOrder p t (1 / 10) true = some R ∧ fixMesh3 rndQ pt3Order listOrder R.1 R.2 (1 / 10) true = some R' ∧
      R.2.length = 2 ∧ R'.2.length = 1 := by
  refine ⟨[(0, 0, 0), (3, 0, 0), (0, 3, 0), (14 / 10, 1, 3), (16 / 10, 1, 3), (10, 10, 10)], [[0, 1, 2, 3], [0, 1, 2, 4]],
    ([(0, 0, 0), (0, 3, 0), (14 / 10, 1, 3), (16 / 10, 1, 3), (3, 0, 0)], [[0, 1, 2, 4], [0, 1, 3, 4]]), ([(0, 0, 0), (0, 3, 0), (14 / 10, 1, 3), (3, 0, 0)], [[0, 1, 2, 3]]), ?_, ?_, rfl, rfl⟩ <;>
    decide +kernel

end OM
