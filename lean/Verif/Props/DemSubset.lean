import Verif.Props.Dem
/-!
# C85: subset of a NetCDF file; C86: the box of a DEM
-/
namespace OM
open Spec
set_option linter.unusedSectionVars false
section
variable {K C : Type} [Field K] [LinearOrder K]

/-! ## Index ranges -/

/-- **C85**: the index range begins and ends with a coordinate between the limits and leaves out none of them. -/
theorem C85_range {n : Nat} {axis : Fin n → K} {lo hi : K} {a b : Fin n} (h : overlapRange axis lo hi = some (a, b)) :
    (lo ≤ axis a ∧ axis a ≤ hi) ∧ (lo ≤ axis b ∧ axis b ≤ hi) ∧ a ≤ b ∧ ∀ i, lo ≤ axis i → axis i ≤ hi → a ≤ i ∧ i ≤ b := by
  unfold overlapRange at h
  dsimp only at h
  generalize hl : ((List.finRange n).filter fun i => decide (lo ≤ axis i) && decide (axis i ≤ hi)) = l at h
  have hmem : ∀ i, i ∈ l ↔ lo ≤ axis i ∧ axis i ≤ hi := by
    intro i; rw [← hl]; simp [List.mem_filter]
  have hp : l.Pairwise (· < ·) := by
    rw [← hl]; exact (List.pairwise_lt_finRange n).sublist List.filter_sublist
  rcases ha : l.head? with _ | a'
  · simp [ha] at h
  rcases hb : l.getLast? with _ | b'
  · simp [hb] at h
  simp only [ha, hb, Option.some.injEq, Prod.mk.injEq] at h
  obtain ⟨rfl, rfl⟩ := h
  obtain ⟨l1, hl1⟩ := List.head?_eq_some_iff.1 ha
  obtain ⟨l2, hl2⟩ := List.getLast?_eq_some_iff.1 hb
  have hmin : ∀ i ∈ l, a' ≤ i := by
    intro i hi'
    rw [hl1] at hi' hp
    rcases List.mem_cons.1 hi' with rfl | hi'
    · exact le_refl _
    · exact le_of_lt ((List.pairwise_cons.1 hp).1 i hi')
  have hmax : ∀ i ∈ l, i ≤ b' := by
    intro i hi'
    rw [hl2] at hi' hp
    rcases List.mem_append.1 hi' with hi' | hi'
    · exact le_of_lt ((List.pairwise_append.1 hp).2.2 i hi' b' (by simp))
    · rw [List.mem_singleton.1 hi']
  have ha' : a' ∈ l := List.mem_of_mem_head? ha
  have hb' : b' ∈ l := List.mem_of_getLast? hb
  exact ⟨(hmem _).1 ha', (hmem _).1 hb', hmin _ hb', fun i h1 h2 => ⟨hmin _ ((hmem _).2 ⟨h1, h2⟩), hmax _ ((hmem _).2 ⟨h1, h2⟩)⟩⟩

/-- **C85**: there is no index range exactly if no coordinate lies between the limits. -/
theorem C85_no_range {n : Nat} (axis : Fin n → K) (lo hi : K) : overlapRange axis lo hi = none ↔ ∀ i, ¬(lo ≤ axis i ∧ axis i ≤ hi) := by
  unfold overlapRange
  dsimp only
  generalize hl : ((List.finRange n).filter fun i => decide (lo ≤ axis i) && decide (axis i ≤ hi)) = l
  have hmem : ∀ i, i ∈ l ↔ lo ≤ axis i ∧ axis i ≤ hi := by
    intro i; rw [← hl]; simp [List.mem_filter]
  rcases l with _ | ⟨x, l⟩
  · simp only [List.head?_nil, true_iff]
    intro i hi'
    exact absurd ((hmem i).2 hi') (by simp)
  · constructor
    · intro h
      exfalso
      have : (x :: l).getLast? = some ((x :: l).getLast (by simp)) := List.getLast?_eq_some_getLast (by simp)
      simp [this] at h
    · intro h
      exact absurd ((hmem x).1 (by simp)) (h x)

/-- **C85**: on an axis that goes up or down the range holds exactly the coordinates between the limits. -/
theorem C85_monotone {n : Nat} {axis : Fin n → K} {lo hi : K} {a b : Fin n} (hax : Monotone axis ∨ Antitone axis)
    (h : overlapRange axis lo hi = some (a, b)) (i : Fin n) : (a ≤ i ∧ i ≤ b) ↔ (lo ≤ axis i ∧ axis i ≤ hi) := by
  obtain ⟨ha, hb, hab, hall⟩ := C85_range h
  refine ⟨?_, fun hi' => hall i hi'.1 hi'.2⟩
  rintro ⟨h1, h2⟩
  rcases hax with hm | hm
  · exact ⟨ha.1.trans (hm h1), (hm h2).trans hb.2⟩
  · exact ⟨hb.1.trans (hm h2), (hm h1).trans ha.2⟩

/-- An axis from north to south. -/
def demYs : Fin 5 → ℚ := fun i => 40 - 2 * i.val

theorem demYs_antitone : Antitone demYs := by
  intro i j hij
  have : ((i.val : Nat) : ℚ) ≤ j.val := Nat.cast_le.2 hij
  simp only [demYs]; linarith

theorem demYs_range : overlapRange demYs 33 38 = some (1, 3) := by decide +kernel

example := C85_range demYs_range
example := C85_monotone (Or.inr demYs_antitone) demYs_range
example : overlapRange demYs 35 (71 / 2) = none := (C85_no_range _ _ _).2 (by decide +kernel)

/-! ## Spacing -/

theorem axis_median_const [IsStrictOrderedRing K] {l : List K} {c : K} (h : l ≠ []) (hc : ∀ x ∈ l, x = c) : median l = some c := by
  obtain ⟨m, hm⟩ := median_isSome h
  obtain ⟨s, a, b, h1, -, h3, h4, rfl⟩ := median_isMedian hm
  have ha := hc a (h1.mem_iff.1 (List.mem_of_getElem? h3))
  have hb := hc b (h1.mem_iff.1 (List.mem_of_getElem? h4))
  rw [hm, ha, hb, add_self_div_two]

theorem medianSpacing_uniform [IsStrictOrderedRing K] {n : Nat} {axis : Fin n → K} {x0 s : K} (hn : 2 ≤ n) (h : ∀ i, axis i = x0 + (i.val : K) * s) :
    medianSpacing axis = some |s| := by
  apply axis_median_const
  · simp only [axisSteps, ne_eq, List.map_eq_nil_iff]
    intro h0
    have : (List.finRange (n - 1)).length = 0 := by rw [h0]; rfl
    rw [List.length_finRange] at this
    omega
  · intro x hx
    simp only [axisSteps, List.mem_map] at hx
    obtain ⟨i, -, rfl⟩ := hx
    rw [h, h]
    congr 1
    push_cast; ring

theorem medianSpacing_short {n : Nat} (axis : Fin n → K) (hn : n ≤ 1) : medianSpacing axis = none := by
  have : axisSteps axis = [] := by
    have h0 : n - 1 = 0 := by omega
    simp only [axisSteps, List.map_eq_nil_iff]
    rw [← List.length_eq_zero_iff, List.length_finRange, h0]
  rw [medianSpacing, this]; rfl

theorem axis_foldl_min_le (l : List K) (x : K) : l.foldl min x ≤ x ∧ ∀ y ∈ l, l.foldl min x ≤ y := by
  induction l generalizing x with
  | nil => simp
  | cons z l ih =>
    simp only [List.foldl_cons]
    obtain ⟨h1, h2⟩ := ih (min x z)
    refine ⟨h1.trans (min_le_left _ _), ?_⟩
    intro y hy
    rcases List.mem_cons.1 hy with rfl | hy
    · exact h1.trans (min_le_right _ _)
    · exact h2 y hy

theorem axis_foldl_min_mem (l : List K) (x : K) : l.foldl min x = x ∨ l.foldl min x ∈ l := by
  induction l generalizing x with
  | nil => simp
  | cons z l ih =>
    simp only [List.foldl_cons]
    rcases ih (min x z) with h | h
    · rcases min_choice x z with hc | hc
      · left; rw [h, hc]
      · right; rw [h, hc]; simp
    · right; exact List.mem_cons_of_mem _ h

theorem axis_foldl_max_le (l : List K) (x : K) : x ≤ l.foldl max x ∧ ∀ y ∈ l, y ≤ l.foldl max x := by
  induction l generalizing x with
  | nil => simp
  | cons z l ih =>
    simp only [List.foldl_cons]
    obtain ⟨h1, h2⟩ := ih (max x z)
    refine ⟨(le_max_left _ _).trans h1, ?_⟩
    intro y hy
    rcases List.mem_cons.1 hy with rfl | hy
    · exact (le_max_right _ _).trans h1
    · exact h2 y hy

theorem axis_foldl_max_mem (l : List K) (x : K) : l.foldl max x = x ∨ l.foldl max x ∈ l := by
  induction l generalizing x with
  | nil => simp
  | cons z l ih =>
    simp only [List.foldl_cons]
    rcases ih (max x z) with h | h
    · rcases max_choice x z with hc | hc
      · left; rw [h, hc]
      · right; rw [h, hc]; simp
    · right; exact List.mem_cons_of_mem _ h

theorem axisRange_spec {n : Nat} {axis : Fin n → K} {lo hi : K} (h : axisRange axis = some (lo, hi)) :
    (∀ i, lo ≤ axis i ∧ axis i ≤ hi) ∧ (∃ i, axis i = lo) ∧ ∃ i, axis i = hi := by
  unfold axisRange at h
  have hmem : ∀ i, axis i ∈ (List.finRange n).map axis := fun i => List.mem_map.2 ⟨i, List.mem_finRange i, rfl⟩
  have hmem' : ∀ x ∈ (List.finRange n).map axis, ∃ i, axis i = x := by
    intro x hx
    obtain ⟨i, -, rfl⟩ := List.mem_map.1 hx
    exact ⟨i, rfl⟩
  rcases hl : (List.finRange n).map axis with _ | ⟨x, l⟩
  · simp [hl] at h
  rw [hl] at h hmem hmem'
  simp only [Option.some.injEq, Prod.mk.injEq] at h
  obtain ⟨rfl, rfl⟩ := h
  refine ⟨fun i => ?_, ?_, ?_⟩
  · rcases List.mem_cons.1 (hmem i) with hi' | hi'
    · rw [hi']; exact ⟨(axis_foldl_min_le l x).1, (axis_foldl_max_le l x).1⟩
    · exact ⟨(axis_foldl_min_le l x).2 _ hi', (axis_foldl_max_le l x).2 _ hi'⟩
  · apply hmem'
    rcases axis_foldl_min_mem l x with h | h
    · rw [h]; simp
    · exact List.mem_cons_of_mem _ h
  · apply hmem'
    rcases axis_foldl_max_mem l x with h | h
    · rw [h]; simp
    · exact List.mem_cons_of_mem _ h

theorem axisRange_up [IsStrictOrderedRing K] {n : Nat} {axis : Fin n → K} {x0 s lo hi : K} (hs : 0 < s) (h : ∀ i, axis i = x0 + (i.val : K) * s)
    (hr : axisRange axis = some (lo, hi)) : lo = x0 ∧ hi = x0 + ((n : K) - 1) * s := by
  obtain ⟨h1, ⟨i, hi'⟩, ⟨j, hj⟩⟩ := axisRange_spec hr
  have hn : 0 < n := by have := i.isLt; omega
  have h0 := (h1 ⟨0, hn⟩).1
  have hl := (h1 ⟨n - 1, by omega⟩).2
  rw [h] at h0 hl hi' hj
  have hcast : ((n - 1 : Nat) : K) = (n : K) - 1 := by rw [Nat.cast_sub hn]; simp
  simp only [Nat.cast_zero, zero_mul, add_zero, hcast] at h0 hl
  constructor
  · have : (0 : K) ≤ (i.val : K) * s := mul_nonneg (Nat.cast_nonneg _) hs.le
    exact le_antisymm h0 (by rw [← hi']; linarith)
  · have hj' : (j.val : K) ≤ (n : K) - 1 := by
      rw [← hcast]; exact Nat.cast_le.2 (by have := j.isLt; omega)
    have := mul_le_mul_of_nonneg_right hj' hs.le
    exact le_antisymm (by rw [← hj]; linarith) hl

theorem axisRange_down [IsStrictOrderedRing K] {n : Nat} {axis : Fin n → K} {x0 s lo hi : K} (hs : s < 0) (h : ∀ i, axis i = x0 + (i.val : K) * s)
    (hr : axisRange axis = some (lo, hi)) : hi = x0 ∧ lo = x0 + ((n : K) - 1) * s := by
  obtain ⟨h1, ⟨i, hi'⟩, ⟨j, hj⟩⟩ := axisRange_spec hr
  have hn : 0 < n := by have := i.isLt; omega
  have h0 := (h1 ⟨0, hn⟩).2
  have hl := (h1 ⟨n - 1, by omega⟩).1
  rw [h] at h0 hl hi' hj
  have hcast : ((n - 1 : Nat) : K) = (n : K) - 1 := by rw [Nat.cast_sub hn]; simp
  simp only [Nat.cast_zero, zero_mul, add_zero, hcast] at h0 hl
  constructor
  · have : (j.val : K) * s ≤ 0 := mul_nonpos_of_nonneg_of_nonpos (Nat.cast_nonneg _) hs.le
    exact le_antisymm (by rw [← hj]; linarith) h0
  · have hj' : (i.val : K) ≤ (n : K) - 1 := by
      rw [← hcast]; exact Nat.cast_le.2 (by have := i.isLt; omega)
    have := mul_le_mul_of_nonpos_right hj' hs.le
    exact le_antisymm hl (by rw [← hi']; linarith)

/-- The value of a data array at an index of the x axis and one of the y axis. -/
def XrArray.at (d : XrArray K) (i : Fin d.nx) (j : Fin d.ny) : Option K :=
  match d.data with
  | .inl f => f i j
  | .inr f => f j i

theorem toBand_at (d : XrArray K) (i : Fin d.nx) (j : Fin d.ny) : d.toBand.data i j = d.at i j := by
  unfold XrArray.toBand XrArray.at
  rcases d.data with f | f <;> rfl

theorem isel_at (d : XrArray K) (rx : Fin d.nx × Fin d.nx) (ry : Fin d.ny × Fin d.ny) (i : Fin (d.isel rx ry).nx) (j : Fin (d.isel rx ry).ny)
    (hi : rx.1.val + i.val < d.nx) (hj : ry.1.val + j.val < d.ny) :
    (d.isel rx ry).at i j = d.at ⟨rx.1.val + i.val, hi⟩ ⟨ry.1.val + j.val, hj⟩ := by
  unfold XrArray.isel XrArray.at
  rcases d.data with f | f <;> rfl

theorem xrSubset_spec {d : XrArray K} {b bo : Box K} {dx dy : K} {B : Band K} (h : xrSubset d b = some (some (bo, dx, dy, B))) :
    ∃ (rx : Fin d.nx × Fin d.nx) (ry : Fin d.ny × Fin d.ny), overlapRange d.xs b.xmin b.xmax = some rx ∧ overlapRange d.ys b.ymin b.ymax = some ry ∧
      medianSpacing (d.isel rx ry).xs = some dx ∧ medianSpacing (d.isel rx ry).ys = some dy ∧ 0 < dx ∧ 0 < dy ∧
      axisRange (d.isel rx ry).xs = some (bo.xmin, bo.xmax) ∧ axisRange (d.isel rx ry).ys = some (bo.ymin, bo.ymax) ∧ B = (d.isel rx ry).toBand := by
  unfold xrSubset at h
  rcases hx : axisRange d.xs with _ | x
  · simp [hx] at h
  rcases hy : axisRange d.ys with _ | y
  · simp [hx, hy] at h
  simp only [hx, hy] at h
  by_cases ho : max b.xmin x.1 < min b.xmax x.2 ∧ max b.ymin y.1 < min b.ymax y.2
  swap
  · rw [if_neg ho] at h; simp at h
  rw [if_pos ho] at h
  rcases hrx : overlapRange d.xs b.xmin b.xmax with _ | rx
  · simp [hrx] at h
  rcases hry : overlapRange d.ys b.ymin b.ymax with _ | ry
  · simp [hrx, hry] at h
  simp only [hrx, hry] at h
  unfold subsetToOutputs at h
  rcases hdx : medianSpacing (d.isel rx ry).xs with _ | dx'
  · simp [hdx] at h
  rcases hdy : medianSpacing (d.isel rx ry).ys with _ | dy'
  · simp [hdx, hdy] at h
  simp only [hdx, hdy] at h
  by_cases hp : 0 < dx' ∧ 0 < dy'
  swap
  · rw [if_neg hp] at h; simp at h
  rw [if_pos hp] at h
  rcases hx' : axisRange (d.isel rx ry).xs with _ | x'
  · simp [hx'] at h
  rcases hy' : axisRange (d.isel rx ry).ys with _ | y'
  · simp [hx', hy'] at h
  simp only [hx', hy', Option.some.injEq, Prod.mk.injEq] at h
  obtain ⟨rfl, rfl, rfl, rfl⟩ := h
  exact ⟨rx, ry, rfl, rfl, hdx, hdy, hp.1, hp.2, hx', hy', rfl⟩

/-- The DEM the constructor builds from the subset of a NetCDF file (the reader puts spacings and box into the transform). -/
def subsetRead (bo : Box K) (dx dy : K) (B : Band K) (crs : C) (nodata : Option K) : DemRead K C :=
  ⟨bo, crs, ⟨dx, 0, bo.xmin, 0, -dy, bo.ymax⟩, nodata, B⟩

variable [FloorRing K]

/-- **C85** (north-up files). If the x axis of the file goes up and the y axis goes down, both evenly, then every node of the DEM made from the subset
sits exactly on a pair of file coordinates inside the requested box, and holds the value the file has there (no-data turned into NaN); and every
pair of file coordinates inside the box has its node. -/
theorem C85_nodes_partial [IsStrictOrderedRing K] {d : XrArray K} {b bo : Box K} {dx dy : K} {B : Band K} {crs : C} {nodata : Option K} {e : Bool} {g : Grid K C}
    {x0 sx y0 sy : K} (hsx : 0 < sx) (hsy : sy < 0) (hxs : ∀ i, d.xs i = x0 + (i.val : K) * sx) (hys : ∀ i, d.ys i = y0 + (i.val : K) * sy)
    (h : xrSubset d b = some (some (bo, dx, dy, B))) (hg : mkDem (subsetRead bo dx dy B crs nodata) e = some g)
    (hnc : ¬(|bo.xmin| = 180 ∧ |bo.xmax| = 180)) :
    (∀ (i : Fin g.nx) (j : Fin g.ny), ∃ (k : Fin d.nx) (l : Fin d.ny), (g.xAt i, g.yAt j) = (d.xs k, d.ys l) ∧ InBox b (d.xs k, d.ys l) ∧
      Measured nodata (d.at k l) (g.vals i j)) ∧
    ∀ (k : Fin d.nx) (l : Fin d.ny), InBox b (d.xs k, d.ys l) → ∃ (i : Fin g.nx) (j : Fin g.ny), (g.xAt i, g.yAt j) = (d.xs k, d.ys l) := by
  obtain ⟨rx, ry, hrx, hry, hdx, hdy, hdx0, hdy0, hbx, hby, rfl⟩ := xrSubset_spec h
  obtain ⟨-, -, -, -, rfl⟩ := mkDem_eq hg
  have hxm : Monotone d.xs := by
    intro i j hij
    have : ((i.val : Nat) : K) ≤ j.val := Nat.cast_le.2 hij
    rw [hxs, hxs]
    have := mul_le_mul_of_nonneg_right this hsx.le
    linarith
  have hym : Antitone d.ys := by
    intro i j hij
    have : ((i.val : Nat) : K) ≤ j.val := Nat.cast_le.2 hij
    rw [hys, hys]
    have := mul_le_mul_of_nonpos_right this hsy.le
    linarith
  have hxr := C85_monotone (Or.inl hxm) hrx
  have hyr := C85_monotone (Or.inr hym) hry
  have hxab := (C85_range hrx).2.2.1
  have hyab := (C85_range hry).2.2.1
  obtain ⟨xa, xb⟩ := rx
  obtain ⟨ya, yb⟩ := ry
  dsimp only at hxr hyr hxab hyab
  have hnx : (d.isel (xa, xb) (ya, yb)).nx = xb.val + 1 - xa.val := rfl
  have hny : (d.isel (xa, xb) (ya, yb)).ny = yb.val + 1 - ya.val := rfl
  have hx' : ∀ i : Fin (xb.val + 1 - xa.val), sliceAxis (xa, xb) d.xs i = (x0 + (xa.val : K) * sx) + (i.val : K) * sx := by
    intro i
    simp only [sliceAxis, hxs]
    push_cast; ring
  have hy' : ∀ i : Fin (yb.val + 1 - ya.val), sliceAxis (ya, yb) d.ys i = (y0 + (ya.val : K) * sy) + (i.val : K) * sy := by
    intro i
    simp only [sliceAxis, hys]
    push_cast; ring
  have hx2 : 2 ≤ xb.val + 1 - xa.val := by
    by_contra hlt
    have := medianSpacing_short (sliceAxis (xa, xb) d.xs) (by simp only; omega)
    rw [show medianSpacing (sliceAxis (xa, xb) d.xs) = some dx from hdx] at this
    simp at this
  have hy2 : 2 ≤ yb.val + 1 - ya.val := by
    by_contra hlt
    have := medianSpacing_short (sliceAxis (ya, yb) d.ys) (by simp only; omega)
    rw [show medianSpacing (sliceAxis (ya, yb) d.ys) = some dy from hdy] at this
    simp at this
  have edx : dx = sx := by
    have := (hdx.symm.trans (medianSpacing_uniform hx2 hx'))
    rw [Option.some.injEq] at this
    rw [this, abs_of_pos hsx]
  have edy : dy = -sy := by
    have := (hdy.symm.trans (medianSpacing_uniform hy2 hy'))
    rw [Option.some.injEq] at this
    rw [this, abs_of_neg hsy]
  obtain ⟨ebx, -⟩ := axisRange_up hsx hx' hbx
  obtain ⟨-, eby⟩ := axisRange_down hsy hy' hby
  have hycast : (((yb.val + 1 - ya.val : Nat)) : K) = (yb.val : K) + 1 - ya.val := by
    rw [Nat.cast_sub (by have : ya.val ≤ yb.val := hyab; omega)]; push_cast; ring
  rw [hycast] at eby
  -- node positions
  have posx : ∀ i : Fin (xb.val + 1 - xa.val), bo.xmin + (i.val : K) * dx = d.xs ⟨xa.val + i.val, by omega⟩ := by
    intro i
    rw [hxs, ebx, edx]; push_cast; ring
  have posy : ∀ j : Fin (yb.val + 1 - ya.val), bo.ymin + (j.val : K) * |(|(-dy)|)| = d.ys ⟨ya.val + (j.rev).val, by omega⟩ := by
    intro j
    rw [hys, eby, abs_abs, edy, neg_neg, abs_of_neg hsy]
    have : (((j.rev).val : Nat) : K) = (yb.val : K) + 1 - ya.val - ((j.val : K) + 1) := by
      rw [Fin.val_rev, Nat.cast_sub (by omega), hycast]; push_cast; ring
    push_cast
    rw [this]; ring
  constructor
  · intro (i : Fin (xb.val + 1 - xa.val)) (j : Fin (yb.val + 1 - ya.val))
    refine ⟨⟨xa.val + i.val, by omega⟩, ⟨ya.val + (j.rev).val, by omega⟩, Prod.ext (posx i) (posy j), ?_, ?_⟩
    · have h1 := (hxr ⟨xa.val + i.val, by omega⟩).1 ⟨Fin.mk_le_mk.2 (by simp), Fin.mk_le_mk.2 (by have := i.isLt; omega)⟩
      have h2 := (hyr ⟨ya.val + (j.rev).val, by omega⟩).1 ⟨Fin.mk_le_mk.2 (by simp), Fin.mk_le_mk.2 (by have := j.rev.isLt; omega)⟩
      exact ⟨h1.1, h1.2, h2.1, h2.2⟩
    · have hv := clean_measured (d.isel (xa, xb) (ya, yb)).toBand nodata i j.rev rfl
      have hat : (d.isel (xa, xb) (ya, yb)).toBand.data i j.rev = d.at ⟨xa.val + i.val, by omega⟩ ⟨ya.val + (j.rev).val, by omega⟩ :=
        (toBand_at (d.isel (xa, xb) (ya, yb)) i j.rev).trans (isel_at d (xa, xb) (ya, yb) i j.rev (by simp only; omega) (by simp only; omega))
      rw [hat] at hv
      have : cyclicVals bo (subsetRead bo dx dy (d.isel (xa, xb) (ya, yb)).toBand crs nodata).stored.data =
          (subsetRead bo dx dy (d.isel (xa, xb) (ya, yb)).toBand crs nodata).stored.data := cyclicVals_of_not hnc _
      show Measured nodata _ (cyclicVals bo (subsetRead bo dx dy (d.isel (xa, xb) (ya, yb)).toBand crs nodata).stored.data i j)
      rw [this]
      exact hv
  · intro k l hin
    obtain ⟨h1, h2, h3, h4⟩ := hin
    have hk := (hxr k).2 ⟨h1, h2⟩
    have hl := (hyr l).2 ⟨h3, h4⟩
    have hk1 : xa.val ≤ k.val := hk.1
    have hk2 : k.val ≤ xb.val := hk.2
    have hl1 : ya.val ≤ l.val := hl.1
    have hl2 : l.val ≤ yb.val := hl.2
    let i : Fin (xb.val + 1 - xa.val) := ⟨k.val - xa.val, by omega⟩
    let j : Fin (yb.val + 1 - ya.val) := Fin.rev ⟨l.val - ya.val, by omega⟩
    refine ⟨i, j, Prod.ext ((posx i).trans ?_) ((posy j).trans ?_)⟩
    · congr 1; ext; show xa.val + (k.val - xa.val) = k.val; omega
    · congr 1; ext
      show ya.val + (j.rev).val = l.val
      simp only [j, Fin.rev_rev]; omega

/-- A NetCDF array with four longitudes and `n` latitudes `y0 + i sy`; the value is `10 i + j` at longitude `i` and latitude `j`. -/
def xrDemo (y0 sy : ℚ) : XrArray ℚ := ⟨4, 3, fun i => 5 + i.val, fun j => y0 + j.val * sy, .inr fun j i => some (10 * i.val + j.val)⟩

example : (xrSubset (xrDemo 24 (-2)) ⟨6, 9, 21, 30⟩).map (·.map fun x => (x.1, x.2.1, x.2.2.1)) = some (some (⟨6, 8, 22, 24⟩, 1, 2)) := by decide +kernel

example : ∃ (bo : Box ℚ) (dx dy : ℚ) (B : Band ℚ) (g : Grid ℚ Nat), xrSubset (xrDemo 24 (-2)) ⟨6, 9, 21, 30⟩ = some (some (bo, dx, dy, B)) ∧
    mkDem (subsetRead bo dx dy B 4326 none) false = some g ∧ ∀ (i : Fin g.nx) (j : Fin g.ny), ∃ (k : Fin 4) (l : Fin 3),
      (g.xAt i, g.yAt j) = ((xrDemo 24 (-2)).xs k, (xrDemo 24 (-2)).ys l) := by
  obtain ⟨⟨bo, dx, dy, B⟩, hx⟩ : ∃ x, xrSubset (xrDemo 24 (-2)) ⟨6, 9, 21, 30⟩ = some (some x) := by
    have : (xrSubset (xrDemo 24 (-2)) ⟨6, 9, 21, 30⟩).any Option.isSome = true := by decide +kernel
    rcases h : xrSubset (xrDemo 24 (-2)) ⟨6, 9, 21, 30⟩ with _ | _ | x
    · simp [h] at this
    · simp [h] at this
    · exact ⟨x, rfl⟩
  have hb : bo = ⟨6, 8, 22, 24⟩ ∧ dx = 1 ∧ dy = 2 := by
    have : (xrSubset (xrDemo 24 (-2)) ⟨6, 9, 21, 30⟩).map (·.map fun x => (x.1, x.2.1, x.2.2.1)) = some (some (⟨6, 8, 22, 24⟩, 1, 2)) := by decide +kernel
    rw [hx] at this
    simpa using this
  obtain ⟨rfl, rfl, rfl⟩ := hb
  obtain ⟨g, hg⟩ := Option.isSome_iff_exists.1 ((C76_accepts (subsetRead ⟨6, 8, 22, 24⟩ 1 2 B 4326 none : DemRead ℚ Nat) false).2
    ⟨by norm_num [subsetRead], by norm_num [subsetRead], by norm_num [subsetRead], by norm_num [subsetRead]⟩)
  refine ⟨_, _, _, B, g, hx, hg, fun i j => ?_⟩
  obtain ⟨k, l, h1, -, -⟩ := (C85_nodes_partial (x0 := 5) (sx := 1) (y0 := 24) (sy := -2) (by norm_num) (by norm_num) (fun i => by simp [xrDemo])
    (fun i => by simp [xrDemo]) hx hg (by norm_num)).1 i j
  exact ⟨k, l, h1⟩

/-- **C85, disagreement**: for a file with latitudes from south to north the DEM is upside down: the file has `10` at `(6, 20)` and `11` at `(6, 22)`, the
DEM the other way round. -/
theorem C85_south_up_flipped : ∃ (bo : Box ℚ) (dx dy : ℚ) (B : Band ℚ) (g : Grid ℚ Nat), xrSubset (xrDemo 20 2) ⟨6, 9, 19, 23⟩ = some (some (bo, dx, dy, B)) ∧
    mkDem (subsetRead bo dx dy B 4326 none) false = some g ∧ (xrDemo 20 2).xs (1 : Fin 4) = 6 ∧ (xrDemo 20 2).ys (0 : Fin 3) = 20 ∧ (xrDemo 20 2).ys (1 : Fin 3) = 22 ∧
    (xrDemo 20 2).at (1 : Fin 4) (0 : Fin 3) = some 10 ∧ (xrDemo 20 2).at (1 : Fin 4) (1 : Fin 3) = some 11 ∧ g.evalAt (6, 20) = some (some 11) ∧ g.evalAt (6, 22) = some (some 10) := by
  have hs : (xrSubset (xrDemo 20 2) ⟨6, 9, 19, 23⟩).any Option.isSome = true := by decide +kernel
  have hv : (xrSubset (xrDemo 20 2) ⟨6, 9, 19, 23⟩).all (·.all fun x => decide ((mkDem (subsetRead x.1 x.2.1 x.2.2.1 x.2.2.2 4326 none) false).map
      (fun g : Grid ℚ Nat => (g.evalAt (6, 20), g.evalAt (6, 22))) = some (some (some 11), some (some 10)))) = true := by decide +kernel
  rcases h : xrSubset (xrDemo 20 2) ⟨6, 9, 19, 23⟩ with _ | _ | ⟨bo, dx, dy, B⟩
  · simp [h] at hs
  · simp [h] at hs
  simp only [h, Option.all_some, decide_eq_true_eq] at hv
  obtain ⟨g, hg, hv⟩ := Option.map_eq_some_iff.1 hv
  simp only [Prod.mk.injEq] at hv
  exact ⟨bo, dx, dy, B, g, rfl, hg, by decide +kernel, by decide +kernel, by decide +kernel, by decide +kernel, by decide +kernel, hv.1, hv.2⟩

/-! ## The choice of the array -/

/-- **C85**: the first variable with at least two dimensions is taken, nothing if there is none. -/
theorem C85_first_raster {N α : Type} (vars : List (N × NdArray N α)) :
    (∀ d, pickRaster vars = some d → 2 ≤ d.dims.length ∧ ∃ l1 n l2, vars = l1 ++ (n, d) :: l2 ∧ ∀ v ∈ l1, v.2.dims.length < 2) ∧
    (pickRaster vars = none ↔ ∀ v ∈ vars, v.2.dims.length < 2) := by
  unfold pickRaster
  constructor
  · intro d h
    obtain ⟨v, hv, rfl⟩ := Option.map_eq_some_iff.1 h
    obtain ⟨h1, l1, l2, h2, h3⟩ := List.find?_eq_some_iff_append.1 hv
    refine ⟨by simpa using h1, l1, v.1, l2, h2, fun w hw => ?_⟩
    have := h3 w hw
    simpa using this
  · rw [Option.map_eq_none_iff, List.find?_eq_none]
    simp

example : (pickRaster [("crs", ⟨[], fun _ => 0⟩), ("z", ⟨["t", "y", "x"], fun _ => 1⟩)] : Option (NdArray String Nat)).map (·.dims) = some ["t", "y", "x"] := by decide

/-- **C85**: of an array with more than two dimensions the slice with index 0 along all but the last two is used. -/
theorem C85_reduce {N α : Type} (dims : List N) (val : List Nat → α) (hd : 2 ≤ dims.length) :
    (reduceTo2d dims val).dims = dims.drop (dims.length - 2) ∧
    ∀ i j, (reduceTo2d dims val).val [i, j] = val (List.replicate (dims.length - 2) 0 ++ [i, j]) := by
  induction dims generalizing val with
  | nil => simp at hd
  | cons a dims ih =>
    match dims with
    | [] => simp at hd
    | [b] => simp [reduceTo2d]
    | b :: c :: l =>
      have := ih (fun i => val (0 :: i)) (by simp)
      simp only [reduceTo2d]
      refine ⟨by rw [this.1]; simp, fun i j => ?_⟩
      rw [this.2]
      simp [List.replicate_succ]

example : (reduceTo2d ["t", "z", "y", "x"] fun i : List Nat => i).val [3, 4] = [0, 0, 3, 4] := (C85_reduce ["t", "z", "y", "x"] _ (by simp)).2 3 4

/-- **C85**: the name of an axis is the first candidate among the coordinates of array or file. -/
theorem C85_coord_name {N : Type} [DecidableEq N] (ds da cand : List N) :
    (∀ c, pickCoordName ds da cand = some c → (c ∈ da ∨ c ∈ ds) ∧ ∃ l1 l2, cand = l1 ++ c :: l2 ∧ ∀ x ∈ l1, x ∉ da ∧ x ∉ ds) ∧
    (pickCoordName ds da cand = none ↔ ∀ c ∈ cand, c ∉ da ∧ c ∉ ds) := by
  unfold pickCoordName
  constructor
  · intro c h
    obtain ⟨h1, l1, l2, h2, h3⟩ := List.find?_eq_some_iff_append.1 h
    refine ⟨by simpa using h1, l1, l2, h2, fun x hx => ?_⟩
    have := h3 x hx
    simpa using this
  · rw [List.find?_eq_none]
    simp

example : pickCoordName ["lon"] ["lat", "longitude"] ["x", "lon", "longitude"] = some "lon" := by decide

/-! ## The box -/

/-- **C86**: a DEM read for a region that overlaps the raster has a box inside the raster and inside the region (as transformed into the coordinates of
the raster), and it is the largest such box. -/
theorem C86_window_box [DecidableEq C] {tr : C → C → K × K → Option (K × K)} {fb : Box K → Option (Option (Box K × K × K × Band K))} {src : RasterSrc K C}
    {r rs : Box K} {rcrs crs : C} {d : DemRead K C} (hr : transformBboxToSrc tr r src.crs (some rcrs) = some rs)
    (ho : ∃ q : K × K, (rs.xmin < q.1 ∧ q.1 < rs.xmax ∧ rs.ymin < q.2 ∧ q.2 < rs.ymax) ∧
      src.bounds.xmin < q.1 ∧ q.1 < src.bounds.xmax ∧ src.bounds.ymin < q.2 ∧ q.2 < src.bounds.ymax)
    (h : readDem tr fb src (some (r, rcrs)) crs = some d) :
    (∀ q, InBox d.box q ↔ InBox rs q ∧ InBox src.bounds q) ∧ d.transform = src.transform := by
  unfold readDem at h
  obtain ⟨x, hx, rfl⟩ := Option.map_eq_some_iff.1 h
  unfold regionRead at hx
  simp only [hr] at hx
  obtain ⟨q, ⟨h1, h2, h3, h4⟩, h5, h6, h7, h8⟩ := ho
  rw [if_pos ⟨(max_lt h1 h5).trans (lt_min h2 h6), (max_lt h3 h7).trans (lt_min h4 h8)⟩] at hx
  obtain ⟨B, -, rfl⟩ := Option.map_eq_some_iff.1 hx
  refine ⟨fun q => ?_, rfl⟩
  simp only [InBox, clipBox, max_le_iff, le_min_iff]
  tauto

example : ∃ d, readDem (fun _ _ q => some q) (fun _ => none) (demSrc ⟨5, 8, 20, 24⟩) (some (⟨4, 9, 18, 22⟩, 4326)) 4326 = some d ∧
    ∀ q, InBox d.box q ↔ InBox (⟨4, 9, 18, 22⟩ : Box ℚ) q ∧ InBox ⟨5, 8, 20, 24⟩ q := by
  obtain ⟨d, -, hd, -⟩ := C76_window_keeps_nodata
  refine ⟨d, hd, (C86_window_box (rs := ⟨4, 9, 18, 22⟩) (by simp [transformBboxToSrc, demSrc]) ⟨(6, 21), ?_⟩ hd).1⟩
  norm_num [demSrc]

/-- **C86**: the box transformed into another system is ordered and holds the images of the two corners. -/
theorem C86_transformed_corners [DecidableEq C] {tr : C → C → K × K → Option (K × K)} {r rs : Box K} {s c : C} {p q : K × K} (hsc : s ≠ c)
    (h : transformBboxToSrc tr r (some s) (some c) = some rs) (hp : tr c s (r.xmin, r.ymin) = some p) (hq : tr c s (r.xmax, r.ymax) = some q) :
    InBox rs p ∧ InBox rs q ∧ ∀ b, InBox b p → InBox b q → ∀ z, InBox rs z → InBox b z := by
  simp only [transformBboxToSrc, if_neg hsc, hp, hq, Option.some.injEq] at h
  subst h
  refine ⟨⟨min_le_left _ _, le_max_left _ _, min_le_left _ _, le_max_left _ _⟩, ⟨min_le_right _ _, le_max_right _ _, min_le_right _ _, le_max_right _ _⟩, ?_⟩
  rintro b ⟨h1, h2, h3, h4⟩ ⟨h5, h6, h7, h8⟩ z ⟨h9, h10, h11, h12⟩
  exact ⟨(le_min h1 h5).trans h9, h10.trans (max_le h2 h6), (le_min h3 h7).trans h11, h12.trans (max_le h4 h8)⟩

/-- The rotation by a right angle and a half (scaled): the other two corners of a box leave the box around the images of two. -/
def rot45 : Nat → Nat → ℚ × ℚ → Option (ℚ × ℚ) := fun _ _ q => some (q.1 - q.2, q.1 + q.2)

example : InBox (⟨0, 0, 0, 2⟩ : Box ℚ) (0, 2) := (C86_transformed_corners (tr := rot45) (r := ⟨0, 1, 0, 1⟩) (s := 1) (c := 2) (p := (0, 0)) (q := (0, 2)) (by decide)
  (by simp only [transformBboxToSrc, rot45]; norm_num) (by norm_num [rot45]) (by norm_num [rot45])).2.1

/-- **C86, disagreement**: the transformed box need not hold the image of the region: of the unit square turned by 45 degrees only the images of two opposite corners
are enclosed, and the box has no width. -/
theorem C86_region_cut_off : ∃ rs : Box ℚ, transformBboxToSrc rot45 ⟨0, 1, 0, 1⟩ (some 1) (some 2) = some rs ∧
    ∃ q p, InBox (⟨0, 1, 0, 1⟩ : Box ℚ) q ∧ rot45 2 1 q = some p ∧ ¬ InBox rs p := by
  refine ⟨⟨0, 0, 0, 2⟩, by simp only [transformBboxToSrc, rot45]; norm_num, (1, 0), (1, 1), by norm_num [InBox], by norm_num [rot45], by norm_num [InBox]⟩

/-- **C86**: a raster whose transform is the identity (bounds `0 … cols` and, upside down, `rows … 0`) never counts as overlapping a region: it is always
stretched over it. -/
theorem C86_identity_stretched [DecidableEq C] [IsStrictOrderedRing K] {tr : C → C → K × K → Option (K × K)} {fb : Box K → Option (Option (Box K × K × K × Band K))} {src : RasterSrc K C}
    {r rs : Box K} {rcrs : C} (hr : transformBboxToSrc tr r src.crs (some rcrs) = some rs) (ht : src.transform = ⟨1, 0, 0, 0, 1, 0⟩)
    (hb : src.bounds = ⟨0, src.full.cols, src.full.rows, 0⟩) : regionRead tr fb src r rcrs = syntheticRead src r := by
  have ht : src.transform = Affine.identity := ht
  unfold regionRead
  simp only [hr, ht, or_true, if_true]
  rw [if_neg]
  rintro ⟨-, h⟩
  simp only [clipBox, hb] at h
  have h1 : ((src.full.rows : Nat) : K) < 0 := (le_max_right _ _).trans_lt (h.trans_le (min_le_right _ _))
  exact absurd h1 (not_lt.2 (Nat.cast_nonneg _))

/-- A raster without georeference. -/
def plainSrc : RasterSrc ℚ Nat := ⟨none, none, ⟨0, 3, 2, 0⟩, ⟨1, 0, 0, 0, 1, 0⟩, (demSrc ⟨0, 3, 0, 2⟩).full, fun _ => none⟩

example : regionRead (fun _ _ q => some q) (fun _ => none) plainSrc ⟨10, 14, 50, 53⟩ 4326 = syntheticRead plainSrc ⟨10, 14, 50, 53⟩ :=
  C86_identity_stretched (rs := ⟨10, 14, 50, 53⟩) rfl rfl (by norm_num [plainSrc, demSrc])

/-- **C86**: the nodes of a stretched raster reach exactly from the lower left to the upper right corner of the region. -/
theorem C86_synthetic_corners [IsStrictOrderedRing K] {src : RasterSrc K C} {r : Box K} {x : Box K × Affine K × Band K} {crs : C} {nodata : Option K} {e : Bool} {g : Grid K C}
    (h : syntheticRead src r = some x) (hg : mkDem ⟨x.1, crs, x.2.1, nodata, x.2.2⟩ e = some g) (hy : r.ymin ≤ r.ymax) (hn : 0 < g.nx ∧ 0 < g.ny) :
    g.nx = src.full.cols ∧ g.ny = src.full.rows ∧ (g.xAt 0, g.yAt 0) = (r.xmin, r.ymin) ∧ (g.xAt (g.nx - 1), g.yAt (g.ny - 1)) = (r.xmax, r.ymax) := by
  unfold syntheticRead at h
  by_cases h1 : src.full.cols = 1 ∨ src.full.rows = 1
  · rw [if_pos h1] at h; simp at h
  rw [if_neg h1] at h
  simp only [Option.some.injEq] at h
  subst h
  obtain ⟨hc1, hr1⟩ := not_or.1 h1
  obtain ⟨-, he, -, -, rfl⟩ := mkDem_eq hg
  have hc : 1 ≤ src.full.cols := hn.1
  have hr : 1 ≤ src.full.rows := hn.2
  have hc' : ((src.full.cols : Nat) : K) - 1 ≠ 0 := sub_ne_zero.2 (by exact_mod_cast hc1)
  have hr' : ((src.full.rows : Nat) : K) - 1 ≠ 0 := sub_ne_zero.2 (by exact_mod_cast hr1)
  have hr0 : (0 : K) ≤ (src.full.rows : K) - 1 := sub_nonneg.2 (by exact_mod_cast hr)
  refine ⟨rfl, rfl, ?_, ?_⟩
  · simp [Grid.xAt, Grid.yAt]
  · refine Prod.ext ?_ ?_
    · show r.xmin + ((src.full.cols - 1 : Nat) : K) * ((r.xmax - r.xmin) / ((src.full.cols : K) - 1)) = r.xmax
      rw [Nat.cast_sub hc, Nat.cast_one, mul_div_cancel₀ _ hc']; ring
    · show r.ymin + ((src.full.rows - 1 : Nat) : K) * |(|(-((r.ymax - r.ymin) / ((src.full.rows : K) - 1)))|)| = r.ymax
      rw [abs_abs, abs_neg, abs_of_nonneg (div_nonneg (sub_nonneg.2 hy) hr0), Nat.cast_sub hr, Nat.cast_one, mul_div_cancel₀ _ hr']; ring

example : ∃ (x : Box ℚ × Affine ℚ × Band ℚ) (g : Grid ℚ Nat), syntheticRead plainSrc ⟨10, 14, 50, 53⟩ = some x ∧ mkDem ⟨x.1, 4326, x.2.1, none, x.2.2⟩ true = some g ∧
    (g.xAt (g.nx - 1), g.yAt (g.ny - 1)) = (14, 53) := by
  obtain ⟨x, hx⟩ : ∃ x, syntheticRead plainSrc ⟨10, 14, 50, 53⟩ = some x := Option.isSome_iff_exists.1 (by decide +kernel)
  have hk : (syntheticRead plainSrc ⟨10, 14, 50, 53⟩).all (fun x => decide ((mkDem (⟨x.1, 4326, x.2.1, none, x.2.2⟩ : DemRead ℚ Nat) true).map (fun g => (g.nx, g.ny)) = some (3, 2))) = true := by
    decide +kernel
  simp only [hx, Option.all_some, decide_eq_true_eq] at hk
  obtain ⟨g, hg, hn⟩ := Option.map_eq_some_iff.1 hk
  simp only [Prod.mk.injEq] at hn
  exact ⟨x, g, hx, hg, (C86_synthetic_corners hx hg (by norm_num) ⟨by omega, by omega⟩).2.2.2⟩

/-- **C86**: the coordinate system of a DEM is that of the raster, unless the raster has none or no georeference; then it is that of the region. -/
theorem C86_crs [DecidableEq C] {tr : C → C → K × K → Option (K × K)} {fb : Box K → Option (Option (Box K × K × K × Band K))} {src : RasterSrc K C}
    {region : Option (Box K × C)} {crs : C} {d : DemRead K C} (h : readDem tr fb src region crs = some d) :
    (∀ c, src.crs = some c → src.transform ≠ ⟨1, 0, 0, 0, 1, 0⟩ → d.crs = c) ∧
    (src.crs = none ∨ src.transform = ⟨1, 0, 0, 0, 1, 0⟩ → d.crs = (region.map Prod.snd).getD crs) := by
  have hd : d.crs = demCrs src ((region.map Prod.snd).getD crs) := by
    rcases region with _ | ⟨r, rc⟩
    · simp only [readDem, Option.some.injEq] at h
      subst h; rfl
    · simp only [readDem] at h
      obtain ⟨x, -, rfl⟩ := Option.map_eq_some_iff.1 h
      rfl
  rw [hd]
  generalize (region.map Prod.snd).getD crs = r
  constructor
  · intro c hc ht
    have ht : src.transform ≠ Affine.identity := ht
    simp only [demCrs, hc]
    by_cases hcr : c = r
    · simp [hcr]
    · simp [hcr, ht]
  · rintro (hc | ht)
    · simp [demCrs, hc]
    · have ht : src.transform = Affine.identity := ht
      unfold demCrs
      rcases src.crs with _ | c <;> simp [ht]

example : ∀ d, readDem (fun _ _ q => some q) (fun _ => none) (demSrc ⟨5, 8, 20, 24⟩) none 3857 = some d → d.crs = 4326 :=
  fun _ h => (C86_crs h).1 4326 rfl (by decide +kernel)

end
end OM
