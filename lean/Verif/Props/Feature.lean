import Verif.Model.Feature
import Verif.Props.GridExact
import Verif.Props.SizingInput
import Verif.Props.Sdf
/-!
# C111: feature sizes from a shoreline
-/
set_option linter.unusedSectionVars false

namespace OM

namespace Spec
variable {K : Type} [Field K] [LinearOrder K]

/-- A value raised to the minimum and then lowered to the maximum, if there are any. -/
def putBetween (mn mx : Option K) (v : K) : K :=
  let a := match mn with | none => v | some a => max a v
  match mx with | none => a | some b => min b a

/-- A distance of the plane: the triangle inequality, and the usual distance along the axes. -/
structure PlaneDistance (dist : K × K → K × K → K) : Prop where
  triangle : ∀ p q s, dist p s ≤ dist p q + dist q s
  along_x : ∀ x x' y, dist (x, y) (x', y) = |x - x'|
  along_y : ∀ x y y', dist (x, y) (x, y') = |y - y'|

/-- Values at neighbouring nodes differ at most by `s`. -/
def StepsBy {n m : Nat} (s : K) (d : Fin n → Fin m → K) : Prop :=
  (∀ (i i' : Fin n) (j : Fin m), i'.val = i.val + 1 → |d i' j - d i j| ≤ s) ∧
    ∀ (i : Fin n) (j j' : Fin m), j'.val = j.val + 1 → |d i j' - d i j| ≤ s

end Spec

open Spec

section
variable {K C : Type} [Field K] [LinearOrder K] [IsStrictOrderedRing K]

theorem clip_between (mn mx : Option K) (v : K) : clipAbove mx (clipBelow mn (some v)) = some (putBetween mn mx v) := by
  have above : ∀ (mx : Option K) (u : K), clipAbove mx (some u) = some (match mx with | none => u | some b => min b u) := by
    intro mx u
    cases mx with
    | none => rfl
    | some b =>
      by_cases h : b < u
      · simp [clipAbove, h, h.le]
      · simp [clipAbove, h, not_lt.1 h]
  have below : clipBelow mn (some v) = some (match mn with | none => v | some a => max a v) := by
    cases mn with
    | none => rfl
    | some a =>
      by_cases h : v < a
      · simp [clipBelow, h, h.le]
      · simp [clipBelow, h, not_lt.1 h]
  rw [below, above]
  rfl

theorem putBetween_lipschitz (mn mx : Option K) (u v : K) : |putBetween mn mx u - putBetween mn mx v| ≤ |u - v| := by
  have hmax : ∀ a : K, |max a u - max a v| ≤ |u - v| := fun a => abs_max_sub_max_le_max a u a v |>.trans (by simp)
  have hmin : ∀ b x y : K, |min b x - min b y| ≤ |x - y| := fun b x y => abs_min_sub_min_le_max b x b y |>.trans (by simp)
  unfold putBetween
  cases mn <;> cases mx
  · simp
  · exact hmin _ _ _
  · exact hmax _
  · exact (hmin _ _ _).trans (hmax _)

/-- **C111**: the nodes handed to `medial_axis` as inside are those with a value at most zero, and those with NaN. -/
theorem C111_region (v : Option K) : readsTrue (insideFlag v) = true ↔ v = none ∨ ∃ x, v = some x ∧ x ≤ 0 := by
  cases v with
  | none => simp [readsTrue, insideFlag]
  | some x =>
    by_cases h : 0 < x
    · simp [readsTrue, insideFlag, h, not_le.2 h]
    · simp [readsTrue, insideFlag, h, not_lt.1 h]

variable [FloorRing K]

theorem nodeValues_some {f : K × K → Option (Option K)} {g : Grid K C} {phi : Fin g.nx → Fin g.ny → Option K} :
    nodeValues f g = some phi ↔ ∀ (i : Fin g.nx) (j : Fin g.ny), f (g.xAt i, g.yAt j) = some (phi i j) := by
  unfold nodeValues
  split
  · rename_i h
    simp only [Option.some.injEq]
    constructor
    · rintro rfl i j
      simp
    · intro h'
      funext i j
      simp [h' i j]
  · rename_i h
    simp only [reduceCtorEq, false_iff]
    intro h'
    exact h fun i j => by rw [h' i j]; rfl

theorem nodeValues_none {f : K × K → Option (Option K)} {g : Grid K C} :
    nodeValues f g = none ↔ ∃ (i : Fin g.nx) (j : Fin g.ny), f (g.xAt i, g.yAt j) = none := by
  unfold nodeValues
  split
  · rename_i h
    simp only [reduceCtorEq, false_iff]
    rintro ⟨i, j, hij⟩
    have := h i j
    rw [hij] at this
    simp at this
  · rename_i h
    simp only [true_iff]
    push Not at h
    obtain ⟨i, j, hij⟩ := h
    exact ⟨i, j, by simpa using hij⟩

/-- **C111**: the points on the medial axis are the nodes that `medial_axis` marks. -/
theorem C111_medial {g : Grid K C} {skel : Fin g.nx → Fin g.ny → Bool} {p : K × K} :
    p ∈ medialPoints g skel ↔ ∃ (i : Fin g.nx) (j : Fin g.ny), skel i j = true ∧ p = (g.xAt i, g.yAt j) := by
  unfold medialPoints
  rw [List.mem_flatMap]
  constructor
  · rintro ⟨i, -, h⟩
    obtain ⟨j, hj, e⟩ := List.mem_map.1 h
    exact ⟨i, j, (List.mem_filter.1 hj).2, e.symm⟩
  · rintro ⟨i, j, h, e⟩
    exact ⟨i, List.mem_finRange i, List.mem_map.2 ⟨j, List.mem_filter.2 ⟨List.mem_finRange j, h⟩, e.symm⟩⟩

/-- **C111**: the marked nodes are those that the tree gives for the points of the shoreline; NaN rows mark nothing. -/
theorem C111_marks {tree : List (K × K) → K × K → Nat} {g : Grid K C} {inner mainland : List (Option (K × K))} (i : Fin g.nx) (j : Fin g.ny) :
    shoreMarks tree g inner mainland i j = true ↔ ∃ p, some p ∈ inner ++ mainland ∧ nearNode tree g p = (i.val, j.val) := by
  unfold shoreMarks gridIndices
  rw [List.any_eq_true]
  constructor
  · rintro ⟨k, hk, e⟩
    obtain ⟨p, hp, rfl⟩ := List.mem_map.1 hk
    obtain ⟨o, ho, e'⟩ := List.mem_filterMap.1 hp
    simp only [id] at e'
    subst e'
    exact ⟨p, ho, of_decide_eq_true e⟩
  · rintro ⟨p, hp, e⟩
    exact ⟨_, List.mem_map.2 ⟨p, List.mem_filterMap.2 ⟨_, hp, rfl⟩, rfl⟩, decide_eq_true e⟩

/-- **C111**, widths: the width at a node is its distance to the nearest medial node plus the size of the answer of the distance solver; the medial
axis is that of the nodes where the signed distance is at most zero or NaN, the solver gets the nodes next to the shoreline. -/
theorem C111_width {medial : (n m : Nat) → (Fin n → Fin m → Bool) → Fin n → Fin m → Bool} {near : List (K × K) → K × K → K}
    {tree : List (K × K) → K × K → Nat} {fmm : (n m : Nat) → K → K → (Fin n → Fin m → Bool) → Option (Fin n → Fin m → K)}
    {sdf : K × K → Option (Option K)} {inner mainland : List (Option (K × K))} {g : Grid K C} {W : Fin g.nx → Fin g.ny → K} :
    shoreWidth medial near tree fmm sdf inner mainland g = some W ↔
      ∃ (inside marks : Fin g.nx → Fin g.ny → Bool) (pts : List (K × K)) (d : Fin g.nx → Fin g.ny → K),
        (∀ (i : Fin g.nx) (j : Fin g.ny), (sdf (g.xAt i, g.yAt j)).isSome) ∧
        (∀ (i : Fin g.nx) (j : Fin g.ny), inside i j = true ↔ sdf (g.xAt i, g.yAt j) = some none ∨ ∃ x, sdf (g.xAt i, g.yAt j) = some (some x) ∧ x ≤ 0) ∧
        (∀ (i : Fin g.nx) (j : Fin g.ny), marks i j = true ↔ ∃ p, some p ∈ inner ++ mainland ∧ nearNode tree g p = (i.val, j.val)) ∧
        pts = medialPoints g (medial g.nx g.ny inside) ∧ pts ≠ [] ∧ fmm g.nx g.ny g.dx g.dy marks = some d ∧
        ∀ (i : Fin g.nx) (j : Fin g.ny), W i j = near pts (g.xAt i, g.yAt j) + |d i j| := by
  unfold shoreWidth
  constructor
  · intro h
    split at h
    · simp at h
    · rename_i phi hphi
      rw [nodeValues_some] at hphi
      simp only at h
      split at h
      · simp at h
      · rename_i d hd
        split at h
        · simp at h
        · rename_i hne
          simp only [Option.some.injEq] at h
          refine ⟨_, _, _, d, fun i j => by rw [hphi i j]; rfl, fun i j => ?_, fun i j => C111_marks i j, rfl, by simpa using hne, hd, ?_⟩
          · rw [C111_region, hphi i j]
            simp
          · intro i j
            rw [← h]
            simp only [abs_abs]
  · rintro ⟨inside, marks, pts, d, h1, h2, h3, h4, h5, h6, h7⟩
    obtain ⟨phi, hphi⟩ : ∃ phi, nodeValues sdf g = some phi := by
      cases hn : nodeValues sdf g with
      | some phi => exact ⟨phi, rfl⟩
      | none =>
        obtain ⟨i, j, hij⟩ := nodeValues_none.1 hn
        have := h1 i j
        rw [hij] at this
        simp at this
    have hphi' := nodeValues_some.1 hphi
    have e1 : (fun i j => readsTrue (insideFlag (phi i j))) = inside := by
      funext i j
      rw [Bool.eq_iff_iff, C111_region, h2, hphi' i j]
      simp
    have e2 : shoreMarks tree g inner mainland = marks := by
      funext i j
      rw [Bool.eq_iff_iff, h3]
      exact C111_marks i j
    rw [hphi]
    simp only
    rw [e2, h6, e1, ← h4]
    simp only
    rw [if_neg (by simpa using h5)]
    simp only [Option.some.injEq]
    funext i j
    rw [h7, abs_abs]

theorem fine_size {L h : K} (hL : 0 ≤ L) (hh : 0 < h) (i : Nat) (hi : i < (⌊L / h⌋ + 1).toNat) : 2 * i < (⌊L / (h / 2)⌋ + 1).toNat := by
  have h0 : 0 ≤ ⌊L / h⌋ := Int.floor_nonneg.2 (div_nonneg hL hh.le)
  have h1 : 2 * ⌊L / h⌋ ≤ ⌊L / (h / 2)⌋ := by
    rw [Int.le_floor]
    push_cast
    have := Int.floor_le (L / h)
    have e : L / (h / 2) = 2 * (L / h) := by field_simp
    rw [e]
    linarith
  omega

/-- **C111**, result: the function raises iff the divisor or the minimum size is not positive, the box has no area, or the widths cannot be
computed. Otherwise the result is a grid of the box with the spacing `h0`, which is recorded as the minimum size, and with an interpolant that
extrapolates. The nodes of the grid are every other node of a lattice with half the spacing, and the value at a node is the width there, times two and
divided by `r`, put between the limits. For a box around the globe the first and last meridian are exchanged on both lattices. -/
theorem C111_exact (width : (g : Grid K C) → Option (Fin g.nx → Fin g.ny → K)) (box : Box K) (h0 r : K) (mn mx : Option K) (crs : C) :
    ∃ fine : Grid K C, fine.box = box ∧ fine.dx = h0 / 2 ∧ fine.dy = h0 / 2 ∧ fine.nx = (⌊(box.xmax - box.xmin) / (h0 / 2)⌋ + 1).toNat ∧
      fine.ny = (⌊(box.ymax - box.ymin) / (h0 / 2)⌋ + 1).natAbs ∧
      (featureFrom width box h0 r mn mx crs = none ↔ r ≤ 0 ∨ h0 ≤ 0 ∨ box.xmax ≤ box.xmin ∨ box.ymax ≤ box.ymin ∨ width fine = none) ∧
      ∀ g, featureFrom width box h0 r mn mx crs = some g → ∃ W, width fine = some W ∧ g.box = box ∧ g.dx = h0 ∧ g.dy = h0 ∧
        g.nx = (⌊(box.xmax - box.xmin) / h0⌋ + 1).toNat ∧ g.ny = (⌊(box.ymax - box.ymin) / h0⌋ + 1).natAbs ∧ g.crs = crs ∧
        g.hmin = some h0 ∧ g.extrapolate = true ∧ g.interp = some true ∧
        ∀ (i : Fin g.nx) (j : Fin g.ny), ∃ (k : Fin fine.nx) (l : Fin fine.ny), k.val = 2 * (rowAfter box i).val ∧ l.val = 2 * j.val ∧
          g.vals i j = some (putBetween mn mx (2 * W (rowAfter box k) l / r)) := by
  refine ⟨⟨box, h0 / 2, h0 / 2, (⌊(box.xmax - box.xmin) / (h0 / 2)⌋ + 1).toNat, (⌊(box.ymax - box.ymin) / (h0 / 2)⌋ + 1).natAbs,
    fun _ _ => some 0, some h0, true, crs, none⟩, rfl, rfl, rfl, rfl, rfl, ?_⟩
  unfold featureFrom
  by_cases hr : 0 < r
  swap
  · rw [if_neg hr]
    simp [not_lt.1 hr]
  rw [if_pos hr]
  by_cases hc : 0 < h0 ∧ box.xmin ≤ box.xmax ∧ box.ymin ≤ box.ymax
  swap
  · have : mkGrid box h0 none crs (some h0) (.scalar (some 0)) true = none := by
      unfold mkGrid gridChecks
      rw [if_neg]
      simp only [Option.getD_none, Bool.not_eq_true', Bool.or_eq_false_iff, decide_eq_false_iff_not, not_lt, not_le]
      tauto
    rw [this]
    simp only [reduceCtorEq, false_implies, implies_true, and_true, true_iff]
    by_contra hcon
    push Not at hcon
    exact hc ⟨hcon.2.1, hcon.2.2.1.le, hcon.2.2.2.1.le⟩
  obtain ⟨hh, hx, hy⟩ := hc
  have e1 : mkGrid box (h0 / 2) none crs (some h0) (.scalar (some 0)) true = some (⟨box, h0 / 2, h0 / 2, (⌊(box.xmax - box.xmin) / (h0 / 2)⌋ + 1).toNat, (⌊(box.ymax - box.ymin) / (h0 / 2)⌋ + 1).natAbs,
    fun _ _ => some 0, some h0, true, crs, none⟩ : Grid K C) := by
    unfold mkGrid gridChecks
    rw [if_pos]
    · rfl
    · simp only [Option.getD_none, Bool.not_eq_true', Bool.or_eq_false_iff, decide_eq_false_iff_not, not_lt, not_le]
      exact ⟨⟨⟨hx, hy⟩, by linarith⟩, by linarith⟩
  have e2 : mkGrid box h0 none crs (some h0) (.scalar (some 0)) true = some (⟨box, h0, h0, (⌊(box.xmax - box.xmin) / h0⌋ + 1).toNat, (⌊(box.ymax - box.ymin) / h0⌋ + 1).natAbs,
    fun _ _ => some 0, some h0, true, crs, none⟩ : Grid K C) := by
    unfold mkGrid gridChecks
    rw [if_pos]
    · rfl
    · simp only [Option.getD_none, Bool.not_eq_true', Bool.or_eq_false_iff, decide_eq_false_iff_not, not_lt, not_le]
      exact ⟨⟨⟨hx, hy⟩, hh⟩, hh⟩
  rw [e1, e2]
  simp only
  cases hW : width (⟨box, h0 / 2, h0 / 2, (⌊(box.xmax - box.xmin) / (h0 / 2)⌋ + 1).toNat, (⌊(box.ymax - box.ymin) / (h0 / 2)⌋ + 1).natAbs,
    fun _ _ => some 0, some h0, true, crs, none⟩ : Grid K C) with
  | none => simp
  | some W =>
    simp only
    set F : Grid K C := Grid.buildInterpolant ⟨box, h0 / 2, h0 / 2, (⌊(box.xmax - box.xmin) / (h0 / 2)⌋ + 1).toNat, (⌊(box.ymax - box.ymin) / (h0 / 2)⌋ + 1).natAbs,
      fun i j => some (2 * W i j / r), some h0, true, crs, none⟩ with hF
    set T : Grid K C := ⟨box, h0, h0, (⌊(box.xmax - box.xmin) / h0⌋ + 1).toNat, (⌊(box.ymax - box.ymin) / h0⌋ + 1).natAbs,
      fun _ _ => some 0, some h0, true, crs, none⟩ with hT
    have hfx : 0 ≤ ⌊(box.xmax - box.xmin) / (h0 / 2)⌋ := Int.floor_nonneg.2 (div_nonneg (by linarith) (by linarith))
    have hfy : 0 ≤ ⌊(box.ymax - box.ymin) / (h0 / 2)⌋ := Int.floor_nonneg.2 (div_nonneg (by linarith) (by linarith))
    have hcy : 0 ≤ ⌊(box.ymax - box.ymin) / h0⌋ := Int.floor_nonneg.2 (div_nonneg (by linarith) hh.le)
    have hh2 : 0 < h0 / 2 := by linarith
    obtain ⟨hnone, hsome⟩ := C33_exact F T hh2 hh2 (by show 0 < (_ : Int).toNat; omega) (by show 0 < (_ : Int).natAbs; omega)
    constructor
    · rw [Option.map_eq_none_iff, hnone]
      simp only [BoxesMeet, hF, hT, Grid.buildInterpolant, reduceCtorEq, or_false, not_le.2 hr, not_le.2 hh, false_or]
      rw [← not_lt, ← not_lt]
      tauto
    · intro g hg
      obtain ⟨t, ht, hg⟩ := Option.map_eq_some_iff.1 hg
      by_cases hm : BoxesMeet F.box T.box
      swap
      · rw [hnone.2 hm] at ht; simp at ht
      obtain ⟨w, hw, hval⟩ := hsome hm
      rw [ht] at hw
      have hw := Option.some.inj hw
      subst hw
      subst hg
      refine ⟨W, rfl, rfl, rfl, rfl, rfl, rfl, rfl, rfl, rfl, rfl, fun i j => ?_⟩
      simp only [Grid.buildInterpolant] at i j ⊢
      rw [cyclicVals_rowAfter]
      show ∃ (k : Fin F.nx) (l : Fin F.ny), k.val = 2 * (rowAfter box i).val ∧ l.val = 2 * j.val ∧ clipAbove mx (clipBelow mn (w (rowAfter box i) j)) = _
      obtain ⟨k, l, hk, hl, hyes, -⟩ := hval (rowAfter box i) j
      have hk2 : 2 * (rowAfter box i).val < (⌊(box.xmax - box.xmin) / (h0 / 2)⌋ + 1).toNat :=
        fine_size (by linarith) hh _ (rowAfter box i).isLt
      have hl2 : 2 * j.val < (⌊(box.ymax - box.ymin) / (h0 / 2)⌋ + 1).toNat := by
        refine fine_size (by linarith) hh _ ?_
        have : j.val < (⌊(box.ymax - box.ymin) / h0⌋ + 1).natAbs := j.isLt
        omega
      have hk' : k.val = 2 * (rowAfter box i).val := by
        refine cell_unique hh2 hk ⟨hk2, Or.inr ?_, Or.inr ?_⟩ <;>
        · simp only [hF, hT, Grid.buildInterpolant, nodeAt, Grid.xAt]
          push_cast
          linarith
      have hl' : l.val = 2 * j.val := by
        refine cell_unique hh2 hl ⟨by show _ < (_ : Int).natAbs; omega, Or.inr ?_, Or.inr ?_⟩ <;>
        · simp only [hF, hT, Grid.buildInterpolant, nodeAt, Grid.yAt, abs_of_pos hh]
          push_cast
          linarith
      refine ⟨k, l, hk', hl', ?_⟩
      rw [hyes (Or.inl rfl)]
      have e := cyclicVals_rowAfter box (fun i j => some (2 * W i j / r)) k l
      refine (congrArg (fun v => clipAbove mx (clipBelow mn v)) e).trans ?_
      exact clip_between _ _ _

/-- **C111**, rate: if the distance to the medial nodes is measured by a distance of the plane and the answers of the solver at neighbouring nodes differ
at most by the spacing, then sizes at neighbouring nodes differ at most by `4 h0 / r` (boxes that do not reach around the globe). -/
theorem C111_rate_partial {medial : (n m : Nat) → (Fin n → Fin m → Bool) → Fin n → Fin m → Bool} {near : List (K × K) → K × K → K}
    {tree : List (K × K) → K × K → Nat} {fmm : (n m : Nat) → K → K → (Fin n → Fin m → Bool) → Option (Fin n → Fin m → K)}
    {sdf : K × K → Option (Option K)} {inner mainland : List (Option (K × K))} {box : Box K} {h0 r : K} {mn mx : Option K} {crs : C} {g : Grid K C}
    (h : featureSizingShore medial near tree fmm sdf inner mainland box h0 r mn mx crs = some g)
    {dist : K × K → K × K → K} (hdist : PlaneDistance dist)
    (hnear : ∀ l, l ≠ [] → ∀ p, (∃ v ∈ l, near l p = dist p v) ∧ ∀ v ∈ l, near l p ≤ dist p v)
    (hfmm : ∀ n m s marks d, 0 ≤ s → fmm n m s s marks = some d → StepsBy s d) (hbox : ¬ (|box.xmin| = 180 ∧ |box.xmax| = 180)) :
    ∃ w, (∀ i j, g.vals i j = some (w i j)) ∧ StepsBy (4 * h0 / r) w := by
  unfold featureSizingShore at h
  obtain ⟨f, hfb, hfdx, hfdy, -, -, hnone, hsome⟩ := C111_exact (shoreWidth medial near tree fmm sdf inner mainland) box h0 r mn mx crs
  obtain ⟨W, hW, -, -, -, -, -, -, -, -, -, hv⟩ := hsome g h
  have hpos : 0 < r ∧ 0 < h0 := by
    have := mt hnone.2 (by rw [h]; simp)
    push Not at this
    exact ⟨this.1, this.2.1⟩
  obtain ⟨hr, hh⟩ := hpos
  obtain ⟨inside, marks, pts, d, -, -, -, -, hne, hd, hWv⟩ := C111_width.1 hW
  rw [hfdx, hfdy] at hd
  have hd := hfmm _ _ _ _ _ (by linarith) hd
  have hlip : ∀ p q, |near pts p - near pts q| ≤ max (dist p q) (dist q p) := by
    intro p q
    obtain ⟨⟨v, hv, hpv⟩, hp⟩ := hnear pts hne p
    obtain ⟨⟨u, hu, hqu⟩, hq⟩ := hnear pts hne q
    have t1 := (hp u hu).trans (hdist.triangle p q u)
    have t2 := (hq v hv).trans (hdist.triangle q p v)
    rw [abs_le]
    constructor
    · have := le_max_right (dist p q) (dist q p); linarith
    · have := le_max_left (dist p q) (dist q p); linarith
  have hWx : ∀ (i i' : Fin f.nx) (j : Fin f.ny), i'.val = i.val + 1 → |W i' j - W i j| ≤ h0 := by
    intro i i' j hi
    have a := hlip (f.xAt i', f.yAt j) (f.xAt i, f.yAt j)
    rw [hdist.along_x, hdist.along_x, abs_sub_comm (f.xAt i), max_self] at a
    have e : f.xAt i' - f.xAt i = h0 / 2 := by
      simp only [Grid.xAt, hfdx, hi]; push_cast; ring
    rw [e, abs_of_pos (show 0 < h0 / 2 by linarith)] at a
    have b := (abs_abs_sub_abs_le (d i' j) (d i j)).trans (hd.1 i i' j hi)
    have a := abs_le.1 a
    have b := abs_le.1 b
    rw [hWv, hWv, abs_le]
    constructor <;> linarith [a.1, a.2, b.1, b.2]
  have hWy : ∀ (i : Fin f.nx) (j j' : Fin f.ny), j'.val = j.val + 1 → |W i j' - W i j| ≤ h0 := by
    intro i j j' hi
    have a := hlip (f.xAt i, f.yAt j') (f.xAt i, f.yAt j)
    rw [hdist.along_y, hdist.along_y, abs_sub_comm (f.yAt j), max_self] at a
    have e : f.yAt j' - f.yAt j = h0 / 2 := by
      simp only [Grid.yAt, hfdy, hi, abs_of_pos (show 0 < h0 / 2 by linarith)]; push_cast; ring
    rw [e, abs_of_pos (show 0 < h0 / 2 by linarith)] at a
    have b := (abs_abs_sub_abs_le (d i j') (d i j)).trans (hd.2 i j j' hi)
    have a := abs_le.1 a
    have b := abs_le.1 b
    rw [hWv, hWv, abs_le]
    constructor <;> linarith [a.1, a.2, b.1, b.2]
  have hrow : ∀ {n : Nat} (i : Fin n), rowAfter box i = i := fun i => by unfold rowAfter; rw [if_neg hbox]
  have hw : ∀ i j, ∃ x, g.vals i j = some x := fun i j => by
    obtain ⟨k, l, -, -, e⟩ := hv i j
    exact ⟨_, e⟩
  choose w hw using hw
  have fin : ∀ {x y u v : K}, x = putBetween mn mx (2 * u / r) → y = putBetween mn mx (2 * v / r) → |u - v| ≤ 2 * h0 → |x - y| ≤ 4 * h0 / r := by
    intro x y u v hx hy huv
    rw [hx, hy]
    refine (putBetween_lipschitz _ _ _ _).trans ?_
    rw [← sub_div, ← mul_sub, abs_div, abs_mul, abs_of_pos hr, abs_of_pos (by norm_num : (0 : K) < 2)]
    exact div_le_div_of_nonneg_right (by linarith) hr.le
  refine ⟨w, hw, fun i i' j hi => ?_, fun i j j' hj => ?_⟩
  · obtain ⟨k, l, hk, hl, e⟩ := hv i j
    obtain ⟨k', l', hk', hl', e'⟩ := hv i' j
    rw [hw, Option.some.injEq, hrow] at e e'
    rw [hrow] at hk hk'
    have : l = l' := Fin.ext (by omega)
    subst this
    have hmid : k.val + 1 < f.nx := by have := k'.isLt; omega
    refine fin e' e ?_
    have a1 := hWx k ⟨k.val + 1, hmid⟩ l rfl
    have a2 := hWx ⟨k.val + 1, hmid⟩ k' l (by show k'.val = k.val + 1 + 1; omega)
    have := abs_sub_le (W k' l) (W ⟨k.val + 1, hmid⟩ l) (W k l)
    linarith
  · obtain ⟨k, l, hk, hl, e⟩ := hv i j
    obtain ⟨k', l', hk', hl', e'⟩ := hv i j'
    rw [hw, Option.some.injEq, hrow] at e e'
    rw [hrow] at hk hk'
    have : k = k' := Fin.ext (by omega)
    subst this
    have hmid : l.val + 1 < f.ny := by have := l'.isLt; omega
    refine fin e' e ?_
    have a1 := hWy k l ⟨l.val + 1, hmid⟩ rfl
    have a2 := hWy k ⟨l.val + 1, hmid⟩ l' (by show l'.val = l.val + 1 + 1; omega)
    have := abs_sub_le (W k l') (W k ⟨l.val + 1, hmid⟩) (W k l)
    linarith

/-- **C111** fails without shoreline points: the distance solver raises for a field without marked nodes, and nothing catches that (other than in
`distance_sizing_function`). -/
theorem C111_no_shoreline (medial : (n m : Nat) → (Fin n → Fin m → Bool) → Fin n → Fin m → Bool) (near : List (K × K) → K × K → K)
    (tree : List (K × K) → K × K → Nat) {fmm : (n m : Nat) → K → K → (Fin n → Fin m → Bool) → Option (Fin n → Fin m → K)}
    (sdf : K × K → Option (Option K)) {inner mainland : List (Option (K × K))} (box : Box K) (h0 r : K) (mn mx : Option K) (crs : C)
    (hfmm : ∀ n m dx dy, fmm n m dx dy (fun _ _ => false) = none) (hp : ∀ p ∈ inner ++ mainland, p = none) :
    featureSizingShore medial near tree fmm sdf inner mainland box h0 r mn mx crs = none := by
  obtain ⟨f, -, -, -, -, -, hnone, -⟩ := C111_exact (shoreWidth medial near tree fmm sdf inner mainland) box h0 r mn mx crs
  refine hnone.2 (Or.inr (Or.inr (Or.inr (Or.inr ?_))))
  cases hW : shoreWidth medial near tree fmm sdf inner mainland f with
  | none => rfl
  | some W =>
    obtain ⟨_, marks, _, d, -, -, hm, -, -, hd, -⟩ := C111_width.1 hW
    have : marks = fun _ _ => false := by
      funext i j
      rw [Bool.eq_false_iff]
      intro hc
      obtain ⟨p, hp', -⟩ := (hm i j).1 hc
      exact absurd (hp _ hp') (by simp)
    rw [this, hfmm] at hd
    simp at hd

/-- The two models of the function agree. -/
theorem featureSizing_from (dMA dis : (g : Grid K C) → Fin g.nx → Fin g.ny → K) (box : Box K) (h0 r : K) (mn mx : Option K) (crs : C) :
    featureSizing dMA dis box h0 r mn mx crs = featureFrom (fun g => some fun i j => dMA g i j + |(|dis g i j|)|) box h0 r mn mx crs := by
  unfold featureSizing featureFrom
  congr 1

end

/-! ## Examples -/

/-- A medial axis: the middle node of every row of three nodes, if it is inside. -/
def medialEx (n m : Nat) (inside : Fin n → Fin m → Bool) : Fin n → Fin m → Bool := fun i j => inside i j && decide (i.val = 2)
/-- The smallest distance to a list of points, in the sum of the coordinate differences. -/
def nearEx : List (ℚ × ℚ) → ℚ × ℚ → ℚ
  | [], _ => 0
  | v :: l, p => l.foldl (fun a u => min a (|p.1 - u.1| + |p.2 - u.2|)) (|p.1 - v.1| + |p.2 - v.2|)
/-- The position of a nearest point. -/
def treeEx (l : List (ℚ × ℚ)) (p : ℚ × ℚ) : Nat :=
  (l.findIdx fun v => l.all fun u => decide ((p.1 - v.1) ^ 2 + (p.2 - v.2) ^ 2 ≤ (p.1 - u.1) ^ 2 + (p.2 - u.2) ^ 2))
/-- A distance solver that raises without marked nodes and otherwise gives half a spacing at marked nodes and more next to them. -/
def fmmEx (n m : Nat) (dx _dy : ℚ) (marks : Fin n → Fin m → Bool) : Option (Fin n → Fin m → ℚ) :=
  if (List.finRange n).any fun i => (List.finRange m).any fun j => marks i j then
    some fun i j => if marks i j then -dx / 2 else dx / 2
  else none
/-- A channel of width 4 along the second axis: the signed distance. -/
def channelEx (p : ℚ × ℚ) : Option (Option ℚ) := some (some (|p.1 - 2| - 2))
/-- Both banks of the channel, with a NaN row. -/
def bankEx : List (Option (ℚ × ℚ)) := [some (0, 0), some (0, 2), none, some (4, 0), some (4, 2), none]

/-- The size along the channel: the medial nodes are at 1, the widths are read at every other node of the lattice of spacing one. -/
example : (featureSizingShore medialEx nearEx treeEx fmmEx channelEx bankEx [] ⟨0, 4, 0, 2⟩ 1 2 none (some 3) (0 : Nat)).map
    (fun g => (g.nx, g.ny, (List.finRange g.nx).map fun i => (List.finRange g.ny).map fun j => g.vals i j)) =
    some (5, 3, [[some (5 / 4), some (5 / 4), some (5 / 4)], [some (1 / 4), some (1 / 4), some (1 / 4)], [some (5 / 4), some (5 / 4), some (5 / 4)],
      [some (9 / 4), some (9 / 4), some (9 / 4)], [some 3, some 3, some 3]]) := by decide +kernel

example : featureSizingShore medialEx nearEx treeEx fmmEx channelEx [none] [] ⟨0, 4, 0, 2⟩ 1 2 none (some 3) (0 : Nat) = none := by decide +kernel

/-- The hypotheses of `C111_rate_partial` hold for this case. -/
example : PlaneDistance (fun p q : ℚ × ℚ => |p.1 - q.1| + |p.2 - q.2|) ∧ (∀ n m s marks d, 0 ≤ s → fmmEx n m s s marks = some d → StepsBy s d) := by
  refine ⟨⟨fun p q s => ?_, fun x x' y => by simp, fun x y y' => by simp⟩, fun n m s marks d hs h => ?_⟩
  · have a := abs_sub_le p.1 q.1 s.1
    have b := abs_sub_le p.2 q.2 s.2
    linarith
  · unfold fmmEx at h
    split at h
    · have h := Option.some.inj h
      subst h
      have key : ∀ a b : Bool, |(if a then -s / 2 else s / 2) - (if b then -s / 2 else s / 2)| ≤ s := by
        intro a b
        rw [abs_le]
        cases a <;> cases b <;> simp only [if_true, Bool.false_eq_true, if_false] <;> constructor <;> linarith
      exact ⟨fun i i' j _ => key _ _, fun i j j' _ => key _ _⟩
    · simp at h
example : readsTrue (insideFlag (none : Option ℚ)) = true ∧ readsTrue (insideFlag (some (0 : ℚ))) = true ∧
    readsTrue (insideFlag (some (1 / 2 : ℚ))) = false := by decide +kernel
end OM
