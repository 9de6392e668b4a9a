import Verif.Model.Region
import Verif.Model.GradLimit
import Mathlib.Algebra.Order.Floor.Ring
/-!
# Model of `oceanmesh/grid.py`

A value `none` of a grid node is NaN. The masks of masked arrays are left out: interpolation and `np.minimum.reduce` use the data
under the mask. The interpolator of scipy (`RegularGridInterpolator`) is modelled for the two methods used, `linear` and
`nearest`, with its rule for points on or outside the lattice. Query points are numbers, never NaN.
-/
namespace OM

/-- A `Grid` (`oceanmesh/grid.py:90-148`). The first index of `vals` is the x direction. `interp` is the state of the attribute
`eval` (`oceanmesh/grid.py:146,525`): `none` = not built yet, `some e` = built while `extrapolate` was `e`. The interpolator keeps
a reference to the value array, so it sees later changes made in place. The corner `x0y0` (`oceanmesh/grid.py:140`) is always
`(bbox[0], bbox[2])` and left out. -/
structure Grid (K C : Type) where
  box : Box K
  dx : K
  dy : K
  nx : Nat
  ny : Nat
  vals : Fin nx → Fin ny → Option K
  hmin : Option K
  extrapolate : Bool
  crs : C
  interp : Option Bool

/-- What `Grid` gets as values: nothing, a scalar, or a two-dimensional array (`oceanmesh/grid.py:174-181`). -/
inductive GridData (K : Type) where
  | missing
  | scalar (v : Option K)
  | array (nx ny : Nat) (vals : Fin nx → Fin ny → Option K)

section
variable {K C : Type} [Field K] [LinearOrder K] [FloorRing K]

/-- The checks of box and spacings (`oceanmesh/grid.py:136-142,154-168` and `oceanmesh/region.py:189-199`); `false` = `ValueError`. -/
def gridChecks (b : Box K) (dx dy : K) : Bool :=
  !(decide (b.xmax < b.xmin) || decide (b.ymax < b.ymin) || decide (dx ≤ 0) || decide (dy ≤ 0))

/-- `Grid.__init__` with the setter of `values` (`oceanmesh/grid.py:126-148,174-181`). `none` = exception: a check fails, or the
values are missing (`None` has no attribute `shape`). The box is a tuple of four numbers. -/
def mkGrid (b : Box K) (dx : K) (dy : Option K) (crs : C) (hmin : Option K) (data : GridData K) (extrapolate : Bool) :
    Option (Grid K C) :=
  let dy := dy.getD dx
  if gridChecks b dx dy then
    match data with
    | .missing => none
    | .scalar v =>
      some ⟨b, dx, dy, (⌊(b.xmax - b.xmin) / dx⌋ + 1).toNat, (⌊(b.ymax - b.ymin) / dy⌋ + 1).natAbs, fun _ _ => v, hmin,
        extrapolate, crs, none⟩
    | .array nx ny vals => some ⟨b, dx, dy, nx, ny, vals, hmin, extrapolate, crs, none⟩
  else none

/-- The x coordinate of column `i` (`oceanmesh/grid.py:205`). -/
def Grid.xAt (g : Grid K C) (i : Nat) : K := g.box.xmin + (i : K) * g.dx

/-- The y coordinate of row `j` (`oceanmesh/grid.py:206`). -/
def Grid.yAt (g : Grid K C) (j : Nat) : K := g.box.ymin + (j : K) * |g.dy|

/-- `create_vectors` (`oceanmesh/grid.py:190-208`). -/
def Grid.createVectors (g : Grid K C) : List K × List K := ((List.range g.nx).map g.xAt, (List.range g.ny).map g.yAt)

/-! ## the interpolator -/

/-- The cell of a point along one axis with nodes `x0 + i * d` (scipy, called in `oceanmesh/grid.py:296-304,514-523`): the last cell is
closed, points outside belong to the first or last cell, an axis with one node has distance zero. The result is lower node, upper
node and normalised distance; `none` for an axis without nodes (an exception in scipy). -/
def axisCell (x0 d : K) : (n : Nat) → (x : K) → Option (Fin n × Fin n × K)
  | 0, _ => none
  | 1, _ => some (0, 0, 0)
  | n + 2, x =>
    let i := min ⌊(x - x0) / d⌋.toNat n
    some (⟨i, by omega⟩, ⟨i + 1, by omega⟩, (x - (x0 + (i : K) * d)) / d)

/-- Is the coordinate outside the nodes of an axis (scipy, called in `oceanmesh/grid.py:296-304,514-523`)? -/
def axisOutside (x0 d : K) (n : Nat) (x : K) : Bool := decide (x < x0) || decide (x0 + ((n - 1 : Nat) : K) * d < x)

/-- Is the point outside the node lattice of the grid (scipy, called in `oceanmesh/grid.py:296-304,514-523`)? -/
def Grid.outside (g : Grid K C) (q : K × K) : Bool :=
  axisOutside g.box.xmin g.dx g.nx q.1 || axisOutside g.box.ymin |g.dy| g.ny q.2

/-- Bilinear interpolation (scipy method `linear`, `oceanmesh/grid.py:514-523`). NaN at any of the four corners gives NaN, whatever
its weight. -/
def Grid.linearAt (g : Grid K C) (q : K × K) : Option K :=
  match axisCell g.box.xmin g.dx g.nx q.1, axisCell g.box.ymin |g.dy| g.ny q.2 with
  | some (i0, i1, s), some (j0, j1, t) =>
    match g.vals i0 j0, g.vals i0 j1, g.vals i1 j0, g.vals i1 j1 with
    | some v00, some v01, some v10, some v11 =>
      some (v00 * (1 - s) * (1 - t) + v01 * (1 - s) * t + v10 * s * (1 - t) + v11 * s * t)
    | _, _, _, _ => none
  | _, _ => none

/-- Pick the nearer of two nodes (scipy method `nearest`, `oceanmesh/grid.py:296-304`): the lower one at equal distance. -/
def nearerNode {n : Nat} (c : Fin n × Fin n × K) : Fin n := if c.2.2 ≤ 1 / 2 then c.1 else c.2.1

/-- Nearest-node interpolation (scipy method `nearest`, `oceanmesh/grid.py:296-304`). -/
def Grid.nearestAt (g : Grid K C) (q : K × K) : Option K :=
  match axisCell g.box.xmin g.dx g.nx q.1, axisCell g.box.ymin |g.dy| g.ny q.2 with
  | some c, some d => g.vals (nearerNode c) (nearerNode d)
  | _, _ => none

/-! ## build_interpolant -/

/-- The index after exchanging the first and the last row (`oceanmesh/grid.py:511-512`). -/
def swapIndex {n : Nat} (i : Fin n) : Fin n :=
  if i.val = 0 then ⟨n - 1, by have := i.isLt; omega⟩ else if i.val = n - 1 then ⟨0, by have := i.isLt; omega⟩ else i

/-- Does the box reach around the globe (`oceanmesh/grid.py:511`)? -/
def cyclicBox (b : Box K) : Bool := decide (|b.xmin| = 180) && decide (|b.xmax| = 180)

/-- The values after the cyclic fix (`oceanmesh/grid.py:511-512`). -/
def cyclicVals {n m : Nat} (b : Box K) (vals : Fin n → Fin m → Option K) : Fin n → Fin m → Option K :=
  if cyclicBox b then fun i j => vals (swapIndex i) j else vals

/-- `build_interpolant` (`oceanmesh/grid.py:494-526`): the values are changed in place. -/
def Grid.buildInterpolant (g : Grid K C) : Grid K C :=
  { g with vals := cyclicVals g.box g.vals, interp := some g.extrapolate }

/-- The interpolator built while `extrapolate` was `e` (`oceanmesh/grid.py:505-523`). -/
def Grid.evalWith (g : Grid K C) (e : Bool) (q : K × K) : Option K := if !e && g.outside q then some 999999 else g.linearAt q

/-- `grid.eval` at a point (`oceanmesh/grid.py:502-525`): `none` = exception because no interpolant was built, `some none` = NaN. -/
def Grid.evalAt (g : Grid K C) (q : K × K) : Option (Option K) := g.interp.map fun e => g.evalWith e q

/-! ## interpolate_to -/

/-- The value `interpolate_to` gets from the source grid at a target node (`oceanmesh/grid.py:289-304`). -/
def Grid.sourceValue (g : Grid K C) (q : K × K) : Option K := if !g.extrapolate && g.outside q then some (-999) else g.nearestAt q

/-- The value at a target node: the old one where the source gave the fill value (`oceanmesh/grid.py:289-306`). -/
def Grid.mergedValue (g g2 : Grid K C) (i : Fin g2.nx) (j : Fin g2.ny) : Option K :=
  let v := g.sourceValue (g2.xAt i, g2.yAt j)
  if !g.extrapolate && decide (v = some (-999)) then g2.vals i j else v

/-- Do the boxes overlap (`oceanmesh/grid.py:284-288`)? -/
def Grid.overlaps (g g2 : Grid K C) : Bool :=
  decide (g.box.xmin < g2.box.xmax) && decide (g2.box.xmin < g.box.xmax) && decide (g.box.ymin < g2.box.ymax) &&
    decide (g2.box.ymin < g.box.ymax)

/-- `interpolate_to` with method `nearest` (`oceanmesh/grid.py:263-314`); `none` = `AssertionError`. -/
def Grid.interpolateTo (g g2 : Grid K C) : Option (Grid K C) :=
  if g.overlaps g2 then some { g2 with vals := g.mergedValue g2, extrapolate := false, interp := none } else none

/-- `reproject_to` (`oceanmesh/grid.py:316-349`); `tr c d` transforms a point from system `c` to system `d`, `none` = exception. -/
def Grid.reprojectTo [DecidableEq C] (tr : C → C → K × K → K × K) (g target : Grid K C) : Option (Grid K C) :=
  if g.crs = target.crs then g.interpolateTo target
  else g.interp.map fun e => Grid.buildInterpolant { target with
    vals := fun i j => g.evalWith e (tr target.crs g.crs (target.xAt i, target.yAt j))
    hmin := g.hmin
    extrapolate := true
    interp := none }

/-! ## compute_minimum -/

/-- `np.minimum` of two values: NaN if one of them is NaN (`oceanmesh/grid.py:64`). -/
def optMin (a b : Option K) : Option K :=
  match a, b with
  | some x, some y => some (min x y)
  | _, _ => none

/-- All values of an array (`oceanmesh/grid.py:66-71`). -/
def allVals {n m : Nat} (vals : Fin n → Fin m → Option K) : List (Option K) :=
  (List.finRange n).flatMap fun i => (List.finRange m).map fun j => vals i j

/-- All results or the first exception, as when the source collects the aligned values in a loop (`oceanmesh/grid.py:36-58`). -/
def collectAll {A : Type} : List (Option A) → Option (List A)
  | [] => some []
  | none :: _ => none
  | some a :: l => (collectAll l).map (a :: ·)

/-- The values of one grid aligned with the base grid (`oceanmesh/grid.py:36-58`); `tr c d` transforms a point from system `c` to
system `d`, `none` = exception. -/
def alignedVals [DecidableEq C] (tr : C → C → K × K → K × K) (base other : Grid K C) :
    Option (Fin base.nx → Fin base.ny → Option K) :=
  if other.crs = base.crs then if other.overlaps base then some (other.mergedValue base) else none
  else other.interp.map fun e =>
    cyclicVals base.box fun i j => other.evalWith e (tr base.crs other.crs (base.xAt i, base.yAt j))

/-- Pointwise minimum over value arrays of one shape, `np.minimum.reduce` (`oceanmesh/grid.py:60-64`). -/
def minReduce {n m : Nat} : (Fin n → Fin m → Option K) → List (Fin n → Fin m → Option K) → Fin n → Fin m → Option K
  | v, [] => v
  | v, w :: l => minReduce (fun i j => optMin (v i j) (w i j)) l

/-- `compute_minimum` (`oceanmesh/grid.py:15-88`); `none` = exception. -/
def computeMinimum [DecidableEq C] (tr : C → C → K × K → K × K) : List (Grid K C) → Option (Grid K C)
  | [] => none
  | base :: others =>
    match collectAll (others.map (alignedVals tr base)) with
    | none => none
    | some arrs =>
      let vals := minReduce base.vals arrs
      match minElement ((allVals vals).filterMap fun v => v.filter fun x => decide (0 < x)) with
      | none => none
      | some h =>
        some (Grid.buildInterpolant { base with vals := vals, hmin := some h, extrapolate := true, interp := none })

end
end OM
