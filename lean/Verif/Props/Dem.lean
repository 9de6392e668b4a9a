import Verif.Model.Dem
import Verif.Spec.Dem
import Verif.Spec.Box
import Verif.Props.Grid
import Verif.Props.Forces
import Mathlib.Data.Rat.Floor
/-!
# C76: the value grid of a DEM
-/
namespace OM
open Spec
set_option linter.unusedSectionVars false
section
variable {K C : Type} [Field K] [LinearOrder K]

theorem clean_measured (b : Band K) (nodata : Option K) (i : Fin b.rows) (j : Fin b.cols) (h : b.mask i j = false) :
    Measured nodata (b.data i j) ((b.clean nodata).data i j) := by
  simp only [Band.clean, h, Bool.not_false, Bool.true_and]
  rcases hv : b.data i j with _ | x
  · left
    cases nodata <;> simp
  · right
    refine ⟨x, rfl, ?_⟩
    rcases nodata with _ | y
    · right; simp
    · by_cases hxy : y = x
      · left; simp [hxy]
      · right
        have : ¬ x = y := fun h => hxy h.symm
        simp [hxy, this]

variable [FloorRing K]

/-- Shape, positions and values of the grid that `DEM.__init__` builds, for a box that does not reach around the globe. -/
theorem mkDem_eq [IsStrictOrderedRing K] {d : DemRead K C} {e : Bool} {g : Grid K C} (h : mkDem d e = some g) :
    0 < d.transform.a ∧ d.transform.e ≠ 0 ∧ d.box.xmin ≤ d.box.xmax ∧ d.box.ymin ≤ d.box.ymax ∧
    g = ⟨d.box, d.transform.a, |d.transform.e|, d.stored.rows, d.stored.cols, cyclicVals d.box d.stored.data, none, e, d.crs, some e⟩ := by
  unfold mkDem mkGrid at h
  simp only [Option.getD_some] at h
  by_cases hc : gridChecks d.box d.transform.a |d.transform.e| = true
  · rw [if_pos hc] at h
    simp only [Option.map_some, Option.some.injEq] at h
    simp only [gridChecks, Bool.not_eq_true', Bool.or_eq_false_iff, decide_eq_false_iff_not, not_lt, not_le] at hc
    obtain ⟨⟨⟨h1, h2⟩, h3⟩, h4⟩ := hc
    exact ⟨h3, abs_pos.1 h4, h1, h2, h.symm⟩
  · rw [if_neg hc] at h
    simp at h

theorem cyclicVals_of_not {n m : Nat} {b : Box K} (h : ¬(|b.xmin| = 180 ∧ |b.xmax| = 180)) (v : Fin n → Fin m → Option K) : cyclicVals b v = v := by
  unfold cyclicVals cyclicBox
  rw [if_neg]
  simpa using h

/-- **C76** (whole raster). A DEM read without a region, whose box does not reach around the globe, has one node for every cell: the node for
row `r` (from the north) and column `c` has first index `c` (west to east) and second index `rows - 1 - r` (south to north), sits at the
south-west corner of its cell, and holds the file value, with no-data cells turned into NaN. -/
theorem C76_whole_raster [DecidableEq C] [IsStrictOrderedRing K] {tr : C → C → K × K → Option (K × K)}
    {fb : Box K → Option (Option (Box K × K × K × Band K))} {src : RasterSrc K C} {crs : C} {d : DemRead K C} {e : Bool} {g : Grid K C}
    (hm : ∀ r c, src.full.mask r c = false) (hcov : CoversBox src.bounds src.full.rows src.full.cols src.transform.a |src.transform.e|)
    (hg : ¬(|src.bounds.xmin| = 180 ∧ |src.bounds.xmax| = 180))
    (h : readDem tr fb src none crs = some d) (h2 : mkDem d e = some g) :
    g.nx = src.full.cols ∧ g.ny = src.full.rows ∧
    ∀ (r : Fin src.full.rows) (c : Fin src.full.cols), ∃ (i : Fin g.nx) (j : Fin g.ny), i.val = c.val ∧ j.val + r.val + 1 = src.full.rows ∧
      (g.xAt i, g.yAt j) = cellSouthWest src.bounds src.transform.a |src.transform.e| r c ∧ Measured src.nodata (src.full.data r c) (g.vals i j) := by
  simp only [readDem, Option.some.injEq] at h
  subst h
  obtain ⟨-, -, -, -, rfl⟩ := mkDem_eq h2
  refine ⟨rfl, rfl, fun r c => ⟨c, r.rev, rfl, ?_, ?_, ?_⟩⟩
  · show (r.rev).val + r.val + 1 = _
    rw [Fin.val_rev]; omega
  · obtain ⟨hx, hy⟩ := hcov
    have hr : (((r.rev).val : Nat) : K) = (src.full.rows : K) - ((r.val : K) + 1) := by
      rw [Fin.val_rev, Nat.cast_sub (by omega)]; push_cast; ring
    refine Prod.ext rfl ?_
    show src.bounds.ymin + ((r.rev).val : K) * |(|src.transform.e|)| = src.bounds.ymax - ((r.val : K) + 1) * |src.transform.e|
    rw [abs_abs, hr]
    linear_combination -hy
  · simp only [cyclicVals_of_not hg]
    have := clean_measured src.full.transpose src.nodata c r (hm r c)
    simpa [DemRead.stored, Band.fliplr, Band.clean, Band.transpose, Fin.rev_rev] using this

/-- The file of the examples: two rows and three columns of cells `1 × 2`, no-data value `-9`. -/
def demSrc (bounds : Box ℚ) : RasterSrc ℚ Nat where
  nodata := some (-9)
  crs := some 4326
  bounds := bounds
  transform := ⟨1, 0, bounds.xmin, 0, -2, bounds.ymax⟩
  full := ⟨2, 3, fun r c => if r.val = 1 ∧ c.val = 2 then some (-9) else some (10 * r.val + c.val), fun _ _ => false⟩
  window := fun b => if b.ymax - b.ymin = 2 then
      some ⟨1, 3, fun _ c => if c.val = 2 then some (-9) else some (10 + c.val), fun _ c => decide (c.val = 2)⟩ else none

/-- The DEM of the example file. -/
def demWhole : DemRead ℚ Nat := ⟨⟨5, 8, 20, 24⟩, 4326, ⟨1, 0, 5, 0, -2, 24⟩, some (-9), (demSrc ⟨5, 8, 20, 24⟩).full.transpose⟩

/-- The values of a grid as a list of columns. -/
def gridCols (g : Grid ℚ Nat) : List (List (Option ℚ)) := (List.finRange g.nx).map fun i => (List.finRange g.ny).map fun j => g.vals i j

example : (mkDem demWhole false).map gridCols = some [[some 10, some 0], [some 11, some 1], [none, some 2]] := by decide +kernel

example : ∃ g, mkDem demWhole false = some g ∧ g.nx = 3 ∧ g.ny = 2 := by
  obtain ⟨g, hg⟩ : ∃ g, mkDem demWhole false = some g := Option.isSome_iff_exists.1 (by decide +kernel)
  have h := C76_whole_raster (tr := fun _ _ q => some q) (fb := fun _ => none) (src := demSrc ⟨5, 8, 20, 24⟩) (crs := 4326) (d := demWhole)
    (fun _ _ => rfl) (by constructor <;> norm_num [demSrc]) (by norm_num [demSrc]) (by rfl) hg
  exact ⟨g, hg, h.1, h.2.1⟩

/-- **C76, disagreement**: nodes sit half a cell west and south of the middle of the cell they describe. -/
theorem C76_half_cell [IsStrictOrderedRing K] (b : Box K) (dx dy : K) (r c : Nat) :
    cellMiddle b dx dy r c = ((cellSouthWest b dx dy r c).1 + dx / 2, (cellSouthWest b dx dy r c).2 + dy / 2) := by
  simp only [cellMiddle, cellSouthWest]
  refine Prod.ext ?_ ?_ <;> simp <;> ring

example : ∃ (g : Grid ℚ Nat) (i : Fin g.nx) (j : Fin g.ny), mkDem demWhole false = some g ∧ i.val = 0 ∧ j.val = 1 ∧ (g.xAt i, g.yAt j) = (5, 22) ∧
    cellMiddle ⟨5, 8, 20, 24⟩ 1 2 0 0 = ((11 / 2, 23) : ℚ × ℚ) :=
  ⟨_, (0 : Fin 3), (1 : Fin 2), rfl, rfl, rfl, by simp [Grid.xAt, Grid.yAt, Grid.buildInterpolant, demWhole]; norm_num, by norm_num [cellMiddle]⟩

/-- **C76, disagreement**: for a raster around the globe the first and the last column change places. -/
theorem C76_global_columns [IsStrictOrderedRing K] {d : DemRead K C} {e : Bool} {g : Grid K C} (h : mkDem d e = some g)
    (hg : |d.box.xmin| = 180 ∧ |d.box.xmax| = 180) :
    g.nx = d.array.rows ∧ g.ny = d.array.cols ∧
    ∀ (i k : Fin g.nx) (j : Fin g.ny) (hk : k.val < d.array.rows) (hj : j.val < d.array.cols),
      (i.val = 0 ∧ k.val + 1 = g.nx ∨ i.val + 1 = g.nx ∧ k.val = 0 ∨ i.val ≠ 0 ∧ i.val + 1 ≠ g.nx ∧ k = i) →
      g.vals i j = (d.array.clean d.nodata).data ⟨k.val, hk⟩ (Fin.rev ⟨j.val, hj⟩) := by
  obtain ⟨-, -, -, -, rfl⟩ := mkDem_eq h
  refine ⟨rfl, rfl, fun (i k : Fin d.array.rows) (j : Fin d.array.cols) hk hj hik => ?_⟩
  change i.val = 0 ∧ k.val + 1 = d.array.rows ∨ i.val + 1 = d.array.rows ∧ k.val = 0 ∨ i.val ≠ 0 ∧ i.val + 1 ≠ d.array.rows ∧ k = i at hik
  have hc : cyclicBox d.box = true := by simpa [cyclicBox] using hg
  have hs : swapIndex i = k := by
    have := i.isLt
    unfold swapIndex
    rcases hik with ⟨h1, h2⟩ | ⟨h1, h2⟩ | ⟨h1, h2, rfl⟩
    · rw [if_pos h1]; ext; simp only; omega
    · by_cases h0 : i.val = 0
      · rw [if_pos h0]; ext; simp only; omega
      · rw [if_neg h0, if_pos (by omega)]; ext; simp only; omega
    · rw [if_neg h1, if_neg (by omega)]
  have : cyclicVals d.box d.stored.data i j = d.stored.data (swapIndex i) j := by simp only [cyclicVals, hc, if_true]
  exact this.trans (by rw [show (swapIndex (n := d.stored.rows) i) = k from hs]; rfl)

/-- A raster of three columns around the globe: the values `0 1 2` from west to east are stored as `2 1 0`. -/
example : (mkDem (⟨⟨-180, 180, -90, 90⟩, 4326, ⟨120, 0, -180, 0, -180, 90⟩, none, ⟨3, 1, fun i _ => some (i.val : ℚ), fun _ _ => false⟩⟩ : DemRead ℚ Nat)
    false).map gridCols = some [[some 2], [some 1], [some 0]] := by decide +kernel

/-- **C76** (any reader). For a box that does not reach around the globe the stored grid has the shape of the array the reader returned, in the
second direction reversed; unmasked values are kept, no-data turned into NaN. -/
theorem C76_stored [IsStrictOrderedRing K] {d : DemRead K C} {e : Bool} {g : Grid K C} (h : mkDem d e = some g)
    (hg : ¬(|d.box.xmin| = 180 ∧ |d.box.xmax| = 180)) :
    g.nx = d.array.rows ∧ g.ny = d.array.cols ∧ g.box = d.box ∧ g.dx = d.transform.a ∧ g.dy = |d.transform.e| ∧ g.crs = d.crs ∧
    ∀ (a : Fin d.array.rows) (b : Fin d.array.cols), ∃ (i : Fin g.nx) (j : Fin g.ny), i.val = a.val ∧ j.val + b.val + 1 = d.array.cols ∧
      (d.array.mask a b = false → Measured d.nodata (d.array.data a b) (g.vals i j)) ∧
      (d.array.mask a b = true → g.vals i j = d.array.data a b) := by
  obtain ⟨-, -, -, -, rfl⟩ := mkDem_eq h
  refine ⟨rfl, rfl, rfl, rfl, rfl, rfl, fun a b => ⟨a, b.rev, rfl, ?_, ?_, ?_⟩⟩
  · show (b.rev).val + b.val + 1 = _
    rw [Fin.val_rev]; omega
  · intro hm
    simp only [cyclicVals_of_not hg]
    have := clean_measured d.array d.nodata a b hm
    simpa [DemRead.stored, Band.fliplr, Band.clean, Fin.rev_rev] using this
  · intro hm
    simp only [cyclicVals_of_not hg]
    simp [DemRead.stored, Band.fliplr, Band.clean, Fin.rev_rev, hm]

example : ∃ g, mkDem demWhole false = some g ∧ g.nx = 3 := by
  obtain ⟨g, hg⟩ : ∃ g, mkDem demWhole false = some g := Option.isSome_iff_exists.1 (by decide +kernel)
  exact ⟨g, hg, (C76_stored hg (by norm_num [demWhole])).1⟩

/-- **C76, disagreement**: a band read through a window is a masked array, and the comparison with the no-data value is false under the mask. A
cell with the no-data value keeps it as data, so the interpolant sees `-9` there. -/
theorem C76_window_keeps_nodata : ∃ (d : DemRead ℚ Nat) (g : Grid ℚ Nat), readDem (fun _ _ q => some q) (fun _ => none) (demSrc ⟨5, 8, 20, 24⟩)
      (some (⟨4, 9, 18, 22⟩, 4326)) 4326 = some d ∧ mkDem d false = some g ∧ g.evalAt (7, 20) = some (some (-9)) ∧ d.nodata = some (-9) := by
  refine ⟨⟨⟨5, 8, 20, 22⟩, 4326, ⟨1, 0, 5, 0, -2, 24⟩, some (-9), Band.transpose
    ⟨1, 3, fun _ c => if c.val = 2 then some (-9) else some (10 + c.val), fun _ c => decide (c.val = 2)⟩⟩, _, ?_, rfl, ?_, rfl⟩
  · have h1 : clipBox (⟨4, 9, 18, 22⟩ : Box ℚ) ⟨5, 8, 20, 24⟩ = ⟨5, 8, 20, 22⟩ := by decide +kernel
    simp only [readDem, regionRead, transformBboxToSrc, demSrc, if_true, h1]
    norm_num [demCrs]
  · decide +kernel

/-- **C76**: `flip` twice restores the grid. -/
theorem C76_flip_twice [IsStrictOrderedRing K] {d : DemRead K C} {e : Bool} {g : Grid K C} (h : mkDem d e = some g) : demFlip (demFlip g) = g := by
  obtain ⟨-, -, -, -, rfl⟩ := mkDem_eq h
  simp only [demFlip, Grid.buildInterpolant, Grid.mk.injEq, true_and, heq_eq_eq, and_true]
  by_cases hc : cyclicBox d.box = true
  · funext i j
    simp [cyclicVals, hc, swapIndex_swap]
  · funext i j
    simp [cyclicVals, hc]

example : ∃ g, mkDem demWhole false = some g ∧ demFlip (demFlip g) = g := by
  obtain ⟨g, hg⟩ : ∃ g, mkDem demWhole false = some g := Option.isSome_iff_exists.1 (by decide +kernel)
  exact ⟨g, hg, C76_flip_twice hg⟩

/-- **C76**: `flip` negates every value, unless the box reaches around the globe. -/
theorem C76_flip {g : Grid K C} (hg : ¬(|g.box.xmin| = 180 ∧ |g.box.xmax| = 180)) :
    (demFlip g).box = g.box ∧ (demFlip g).dx = g.dx ∧ (demFlip g).dy = g.dy ∧ (demFlip g).nx = g.nx ∧ (demFlip g).ny = g.ny ∧
    (∀ (i : Fin g.nx) (j : Fin g.ny), (demFlip g).vals i j = (g.vals i j).map fun x => -x) := by
  refine ⟨rfl, rfl, rfl, rfl, rfl, fun i j => ?_⟩
  simp only [demFlip, Grid.buildInterpolant]
  rw [cyclicVals_of_not hg]

example : (mkDem demWhole false).map (fun g => gridCols (demFlip g)) = some [[some (-10), some 0], [some (-11), some (-1)], [none, some (-2)]] := by decide +kernel

/-- **C76**: a DEM is built exactly if the cells have a positive width (from west to east), a non-zero height and the box is ordered. -/
theorem C76_accepts [IsStrictOrderedRing K] (d : DemRead K C) (e : Bool) :
    (mkDem d e).isSome ↔ 0 < d.transform.a ∧ d.transform.e ≠ 0 ∧ d.box.xmin ≤ d.box.xmax ∧ d.box.ymin ≤ d.box.ymax := by
  constructor
  · intro h
    obtain ⟨g, hg⟩ := Option.isSome_iff_exists.1 h
    obtain ⟨h1, h2, h3, h4, -⟩ := mkDem_eq hg
    exact ⟨h1, h2, h3, h4⟩
  · rintro ⟨h1, h2, h3, h4⟩
    have hc : gridChecks d.box d.transform.a |d.transform.e| = true := by
      simp [gridChecks, h1, h2, h3, h4]
    simp [mkDem, mkGrid, hc]

example : (mkDem demWhole true).isSome := (C76_accepts demWhole true).2 ⟨by norm_num [demWhole], by norm_num [demWhole], by norm_num [demWhole], by norm_num [demWhole]⟩

end
end OM
