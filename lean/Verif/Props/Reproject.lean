import Verif.Props.GridExact
/-!
# Properties of the reprojection of a grid (C123)
-/
namespace OM
open Spec
set_option linter.unusedSectionVars false

section
variable {K C : Type} [Field K] [LinearOrder K] [IsStrictOrderedRing K] [FloorRing K] [DecidableEq C]

theorem reprojectTo_other {tr : C → C → K × K → K × K} {g target r : Grid K C} (hcrs : g.crs ≠ target.crs)
    (h : g.reprojectTo tr target = some r) : ∃ e, g.interp = some e ∧ r = Grid.buildInterpolant { target with
      vals := fun i j => g.evalWith e (tr target.crs g.crs (target.xAt i, target.yAt j))
      hmin := g.hmin, extrapolate := true, interp := none } := by
  unfold Grid.reprojectTo at h
  rw [if_neg hcrs] at h
  obtain ⟨e, he, hr⟩ := Option.map_eq_some_iff.1 h
  exact ⟨e, he, hr.symm⟩

/-- **C123**, when it raises: between different systems exactly if the source has no interpolant, in the same system exactly if the boxes
have no common interior. -/
theorem C123_raises_iff (tr : C → C → K × K → K × K) (g target : Grid K C) :
    g.reprojectTo tr target = none ↔ (g.crs = target.crs ∧ ¬ BoxesMeet g.box target.box) ∨ (g.crs ≠ target.crs ∧ ∀ q, g.evalAt q = none) := by
  unfold Grid.reprojectTo
  by_cases h : g.crs = target.crs
  · rw [if_pos h]
    have : g.interpolateTo target = none ↔ ¬ BoxesMeet g.box target.box := by
      unfold Grid.interpolateTo BoxesMeet
      by_cases ho : g.overlaps target = true
      · rw [if_pos ho]
        simp only [Grid.overlaps, Bool.and_eq_true, decide_eq_true_eq] at ho
        simp only [reduceCtorEq, false_iff, not_not]
        exact ⟨ho.1.1.1, ho.1.1.2, ho.1.2, ho.2⟩
      · rw [if_neg ho]
        simp only [Grid.overlaps, Bool.and_eq_true, decide_eq_true_eq] at ho
        simp only [true_iff]
        exact fun h => ho ⟨⟨⟨h.1, h.2.1⟩, h.2.2.1⟩, h.2.2.2⟩
    rw [this]
    simp [h]
  · rw [if_neg h]
    simp only [h, false_and, false_or, ne_eq, not_false_eq_true, true_and, Grid.evalAt, Option.map_eq_none_iff]
    exact ⟨fun h _ => h, fun h => h (0, 0)⟩

/-- **C123**, same system: the result is that of `interpolate_to`. -/
theorem C123_same_system (tr : C → C → K × K → K × K) (g target : Grid K C) (h : g.crs = target.crs) :
    g.reprojectTo tr target = g.interpolateTo target := by
  unfold Grid.reprojectTo
  rw [if_pos h]

/-- **C123**, lattice: the result has the box, the spacings, the shape and the coordinate system of the target. -/
theorem C123_lattice {tr : C → C → K × K → K × K} {g target r : Grid K C} (h : g.reprojectTo tr target = some r) :
    r.box = target.box ∧ r.dx = target.dx ∧ r.dy = target.dy ∧ r.nx = target.nx ∧ r.ny = target.ny ∧ r.crs = target.crs ∧
      r.createVectors = target.createVectors := by
  by_cases hc : g.crs = target.crs
  · rw [C123_same_system tr g target hc] at h
    unfold Grid.interpolateTo at h
    split at h
    · rw [← Option.some.inj h]
      exact ⟨rfl, rfl, rfl, rfl, rfl, rfl, rfl⟩
    · simp at h
  · obtain ⟨e, -, rfl⟩ := reprojectTo_other hc h
    exact ⟨rfl, rfl, rfl, rfl, rfl, rfl, rfl⟩

/-- **C123**, values: for a target that does not reach around the globe the value at every node is what the source gives at the place of
the node in the system of the source. -/
theorem C123_values_partial {tr : C → C → K × K → K × K} {g target : Grid K C} (hcrs : g.crs ≠ target.crs)
    (hbox : ¬ (|target.box.xmin| = 180 ∧ |target.box.xmax| = 180)) (hb : g.interp.isSome) :
    ∃ w, g.reprojectTo tr target = some { target with vals := w, hmin := g.hmin, extrapolate := true, interp := some true } ∧
      ∀ i j, g.evalAt (tr target.crs g.crs (nodeAt target.box.xmin target.dx i.val, nodeAt target.box.ymin |target.dy| j.val)) =
        some (w i j) := by
  obtain ⟨e, he⟩ := Option.isSome_iff_exists.1 hb
  refine ⟨fun i j => g.evalWith e (tr target.crs g.crs (target.xAt i, target.yAt j)), ?_, fun i j => ?_⟩
  · unfold Grid.reprojectTo
    rw [if_neg hcrs, he]
    have : cyclicBox target.box = false := by
      simp only [cyclicBox, Bool.and_eq_false_iff, decide_eq_false_iff_not]
      by_contra hh
      rw [not_or, not_not, not_not] at hh
      exact hbox hh
    simp [Grid.buildInterpolant, cyclicVals, this]
  · simp only [Grid.evalAt, he, Option.map_some]
    rfl

/-- **C123**, targets around the globe: the first row gets the values of the last one and the other way round. -/
theorem C123_globe_rows {tr : C → C → K × K → K × K} {g target : Grid K C} (hcrs : g.crs ≠ target.crs)
    (hbox : |target.box.xmin| = 180 ∧ |target.box.xmax| = 180) (hb : g.interp.isSome) :
    ∃ w, g.reprojectTo tr target = some { target with vals := w, hmin := g.hmin, extrapolate := true, interp := some true } ∧
      ∀ (i k : Fin target.nx) (j : Fin target.ny), (i.val = 0 ∧ k.val + 1 = target.nx ∨ k.val = 0 ∧ i.val + 1 = target.nx ∨
          (0 < i.val ∧ i.val + 1 < target.nx ∧ k = i)) →
        g.evalAt (tr target.crs g.crs (nodeAt target.box.xmin target.dx k.val, nodeAt target.box.ymin |target.dy| j.val)) =
          some (w i j) := by
  obtain ⟨e, he⟩ := Option.isSome_iff_exists.1 hb
  refine ⟨fun i j => g.evalWith e (tr target.crs g.crs (target.xAt (swapIndex i), target.yAt j)), ?_, fun i k j hik => ?_⟩
  · unfold Grid.reprojectTo
    rw [if_neg hcrs, he]
    have : cyclicBox target.box = true := by simp [cyclicBox, hbox.1, hbox.2]
    simp [Grid.buildInterpolant, cyclicVals, this]
  · have : swapIndex i = k := by
      unfold swapIndex
      apply Fin.ext
      split
      · simp only; omega
      · split
        · simp only; omega
        · rcases hik with h | h | h
          · omega
          · omega
          · rw [h.2.2]
    simp only [Grid.evalAt, he, Option.map_some, this]
    rfl

/-- **C123**, bounds: if every node of the target lies, in the system of the source, in the lattice of the source, next to numbers between
`lo` and `hi`, all sizes of the result are numbers between `lo` and `hi`. -/
theorem C123_bounds_partial {tr : C → C → K × K → K × K} {src target r : Grid K C} (hcrs : src.crs ≠ target.crs)
    (hbox : ¬ (|target.box.xmin| = 180 ∧ |target.box.xmax| = 180)) (hdx : 0 < src.dx) (hdy : 0 < src.dy)
    (hr : src.buildInterpolant.reprojectTo tr target = some r) (lo hi : K)
    (hq : ∀ (i : Fin target.nx) (j : Fin target.ny), InLattice src.box.xmin src.dx src.nx src.box.ymin |src.dy| src.ny
      (tr target.crs src.crs (nodeAt target.box.xmin target.dx i.val, nodeAt target.box.ymin |target.dy| j.val)))
    (hv : ∀ i j, ∃ w, src.buildInterpolant.vals i j = some w ∧ lo ≤ w ∧ w ≤ hi) :
    ∀ i j, ∃ v, r.vals i j = some v ∧ lo ≤ v ∧ v ≤ hi := by
  obtain ⟨w, hw, hwv⟩ := C123_values_partial (g := src.buildInterpolant) (tr := tr) (target := target) hcrs hbox rfl
  rw [hr] at hw
  have hw := Option.some.inj hw
  subst hw
  intro i j
  have h1 := hwv i j
  obtain ⟨v, hv1, hv2⟩ := C31_eval_between_partial src _ hdx hdy (hq i j) (fun i j _ _ => by
    obtain ⟨w, hw, -⟩ := hv i j
    exact Option.isSome_iff_exists.2 ⟨w, hw⟩)
  refine ⟨v, ?_, hv2 lo hi fun i j u _ _ hu => ?_⟩
  · have h2 : src.buildInterpolant.evalAt (tr target.crs src.buildInterpolant.crs
      (nodeAt target.box.xmin target.dx i.val, nodeAt target.box.ymin |target.dy| j.val)) = some (some v) := hv1
    rw [h2] at h1
    exact (Option.some.inj h1).symm
  · obtain ⟨w', hw', hl⟩ := hv i j
    rw [hu] at hw'
    rw [Option.some.inj hw']
    exact hl

/-- **C123**, form: a source that samples a plane and extrapolates gives at every target node the value of the plane at the place of the
node in the system of the source. -/
theorem C123_plane_partial {tr : C → C → K × K → K × K} {src target r : Grid K C} (hcrs : src.crs ≠ target.crs)
    (hbox : ¬ (|target.box.xmin| = 180 ∧ |target.box.xmax| = 180)) (hdx : 0 < src.dx) (hdy : 0 < src.dy) (hn : 2 ≤ src.nx) (hm : 2 ≤ src.ny)
    (he : src.extrapolate = true) (hr : src.buildInterpolant.reprojectTo tr target = some r) (a b c : K)
    (hv : ∀ i j, src.buildInterpolant.vals i j = some (a + b * nodeAt src.box.xmin src.dx i + c * nodeAt src.box.ymin src.dy j))
    (i : Fin target.nx) (j : Fin target.ny) (i' : Fin r.nx) (j' : Fin r.ny) (hi : i'.val = i.val) (hj : j'.val = j.val) :
    r.vals i' j' = some (a +
      b * (tr target.crs src.crs (nodeAt target.box.xmin target.dx i.val, nodeAt target.box.ymin |target.dy| j.val)).1 +
      c * (tr target.crs src.crs (nodeAt target.box.xmin target.dx i.val, nodeAt target.box.ymin |target.dy| j.val)).2) := by
  obtain ⟨w, hw, hwv⟩ := C123_values_partial (g := src.buildInterpolant) (tr := tr) (target := target) hcrs hbox rfl
  rw [hr] at hw
  have hw := Option.some.inj hw
  subst hw
  have hi : i' = i := Fin.ext hi
  have hj : j' = j := Fin.ext hj
  subst hi hj
  have h1 := hwv i' j'
  have h2 := C31_eval_plane src (tr target.crs src.buildInterpolant.crs
      (nodeAt target.box.xmin target.dx i'.val, nodeAt target.box.ymin |target.dy| j'.val)) a b c hdx hdy hn hm hv (Or.inl he)
  rw [h2] at h1
  exact (Option.some.inj h1).symm

/-- **C123** fails outside of the source: a target node whose place is outside the lattice of a source that does not extrapolate gets the size
999999, whatever size the target had there (with equal systems the size of the target is kept, C33). -/
theorem C123_outside_poisoned {tr : C → C → K × K → K × K} {src target r : Grid K C} (hcrs : src.crs ≠ target.crs)
    (hbox : ¬ (|target.box.xmin| = 180 ∧ |target.box.xmax| = 180)) (hn : 0 < src.nx) (hm : 0 < src.ny) (he : src.extrapolate = false)
    (hr : src.buildInterpolant.reprojectTo tr target = some r) (i : Fin target.nx) (j : Fin target.ny)
    (hq : ¬ InLattice src.box.xmin src.dx src.nx src.box.ymin |src.dy| src.ny
      (tr target.crs src.crs (nodeAt target.box.xmin target.dx i.val, nodeAt target.box.ymin |target.dy| j.val)))
    (i' : Fin r.nx) (j' : Fin r.ny) (hi : i'.val = i.val) (hj : j'.val = j.val) : r.vals i' j' = some 999999 := by
  obtain ⟨w, hw, hwv⟩ := C123_values_partial (g := src.buildInterpolant) (tr := tr) (target := target) hcrs hbox rfl
  rw [hr] at hw
  have hw := Option.some.inj hw
  subst hw
  have hi : i' = i := Fin.ext hi
  have hj : j' = j := Fin.ext hj
  subst hi hj
  have h1 := hwv i' j'
  have h2 := C31_eval_outside src _ hn hm he hq
  have h3 : src.buildInterpolant.evalAt (tr target.crs src.buildInterpolant.crs
      (nodeAt target.box.xmin target.dx i'.val, nodeAt target.box.ymin |target.dy| j'.val)) = some (some 999999) := h2
  rw [h3] at h1
  exact (Option.some.inj h1).symm

/-- **C123**, the smallest size and the interpolant depend on whether the systems are equal: the result keeps `hmin` of the target and cannot be
evaluated if they are, it has `hmin` of the source and can be evaluated if they are not. -/
theorem C123_attributes {tr : C → C → K × K → K × K} {g target r : Grid K C} (h : g.reprojectTo tr target = some r) (q : K × K) :
    (g.crs = target.crs → r.hmin = target.hmin ∧ r.extrapolate = false ∧ r.evalAt q = none) ∧
    (g.crs ≠ target.crs → r.hmin = g.hmin ∧ r.extrapolate = true ∧ (r.evalAt q).isSome) := by
  constructor
  · intro hc
    rw [C123_same_system tr g target hc] at h
    unfold Grid.interpolateTo at h
    split at h
    · rw [← Option.some.inj h]
      exact ⟨rfl, rfl, rfl⟩
    · simp at h
  · intro hc
    obtain ⟨e, -, rfl⟩ := reprojectTo_other hc h
    exact ⟨rfl, rfl, rfl⟩

end

/-- A grid with three by two nodes in system 0 that is reprojected in the concrete cases. -/
def reprojectSource : Grid ℚ Nat := ⟨⟨0, 2, 0, 1⟩, 1, 1, 3, 2, fun i j => some (1 + (i : ℚ) + 10 * j), some 1, false, 0, none⟩

/-- A target in system 1. -/
def reprojectTarget : Grid ℚ Nat := ⟨⟨0, 3 / 2, 0, 1 / 2⟩, 3 / 4, 1 / 2, 3, 2, fun _ _ => some 77, some 5, false, 1, none⟩

/-- A change of coordinates. -/
def shiftX (c d : Nat) (p : ℚ × ℚ) : ℚ × ℚ := (p.1 + ((d : ℚ) - c) * (-1 / 2), p.2)

/-- A larger shift, out of the source. -/
def farX (c d : Nat) (p : ℚ × ℚ) : ℚ × ℚ := (p.1 + ((c : ℚ) - d), p.2)

example : (reprojectSource.buildInterpolant.reprojectTo shiftX reprojectTarget).map (fun r => (allVals r.vals, r.hmin, r.evalAt (3 / 8, 0))) =
    some ([some (3 / 2), some (13 / 2), some (9 / 4), some (29 / 4), some 3, some 8], some 1, some (some (15 / 8))) := by decide +kernel
example : reprojectSource.reprojectTo shiftX reprojectTarget = none := rfl
example : ∀ (i : Fin reprojectTarget.nx) (j : Fin reprojectTarget.ny),
    InLattice reprojectSource.box.xmin reprojectSource.dx reprojectSource.nx reprojectSource.box.ymin |reprojectSource.dy| reprojectSource.ny
      (shiftX reprojectTarget.crs reprojectSource.crs
        (nodeAt reprojectTarget.box.xmin reprojectTarget.dx i.val, nodeAt reprojectTarget.box.ymin |reprojectTarget.dy| j.val)) := by
  simp only [InLattice, OnAxis]
  decide +kernel
example : ∀ i j, ∃ w, reprojectSource.buildInterpolant.vals i j = some w ∧ 1 ≤ w ∧ w ≤ 13 := by
  intro i j
  refine ⟨1 + (i : ℚ) + 10 * j, ?_, ?_⟩ <;> revert i j <;> decide +kernel
example : ∀ i j, ({ reprojectSource with extrapolate := true } : Grid ℚ Nat).buildInterpolant.vals i j =
    some (1 + 1 * nodeAt 0 1 i.val + 10 * nodeAt 0 1 j.val) := by decide +kernel
example : (({ reprojectSource with extrapolate := true } : Grid ℚ Nat).buildInterpolant.reprojectTo farX reprojectTarget).map
    (fun r => allVals r.vals) = some [some 2, some 7, some (11 / 4), some (31 / 4), some (7 / 2), some (17 / 2)] := by decide +kernel
example : (reprojectSource.buildInterpolant.reprojectTo farX { reprojectTarget with box := ⟨-180, 180, 0, 1⟩, dx := 180 }).map
    (fun r => (r.nx, allVals r.vals)) = some (3, [some 999999, some 999999, some 2, some 7, some 999999, some 999999]) := by decide +kernel
example : (reprojectSource.reprojectTo shiftX { reprojectTarget with crs := 0 }).map (fun r => (allVals r.vals, r.hmin, r.evalAt (0, 0))) =
    some ([some 1, some 1, some 2, some 2, some 2, some 2], some 5, none) := by decide +kernel

/-- **C123** fails, sizes blown up: one target node outside of the source makes the sizes between this node and its neighbours inside of the
source far larger than all sizes of both grids. -/
theorem C123_blend_with_fill : ∃ r, reprojectSource.buildInterpolant.reprojectTo farX reprojectTarget = some r ∧
    r.evalAt (9 / 8, 0) = some (some (4000007 / 8)) ∧ ∀ i j, ∀ w, reprojectSource.vals i j = some w → w ≤ 13 := by
  refine ⟨_, rfl, by decide +kernel, by decide +kernel⟩

/-- **C123** fails, method: between equal systems the nearest size is taken, between different ones the bilinear one, even if the coordinates of
both systems are the same. -/
theorem C123_method_differs :
    (reprojectSource.buildInterpolant.reprojectTo (fun _ _ p => p) reprojectTarget).map (fun r => allVals r.vals) ≠
    (reprojectSource.buildInterpolant.reprojectTo (fun _ _ p => p) { reprojectTarget with crs := 0 }).map (fun r => allVals r.vals) := by
  decide +kernel

end OM
