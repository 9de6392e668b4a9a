import Verif.Model.Grid
import Verif.Model.Generator
/-!
# Model of the class `DEM` and of its readers (`oceanmesh/geodata.py`)

The files themselves are parameters: what `rasterio` and `xarray` return. A value `none` is NaN. Coordinates and boxes are numbers. A
masked array is its data together with its mask; the comparison `==` of numpy is false under a mask, and the interpolators see the
data. Reading a coordinate system from a string is left out.
-/
namespace OM

/-- A band as `src.read(1)` returns it (`oceanmesh/geodata.py:284,316,354`): rows from the first line of the file on; `mask` is
false everywhere unless the band was read with `masked=True`. -/
structure Band (K : Type) where
  rows : Nat
  cols : Nat
  data : Fin rows → Fin cols → Option K
  mask : Fin rows → Fin cols → Bool

/-- `np.transpose(topobathy, (1, 0))` (`oceanmesh/geodata.py:285,324,355`): the first index is the column of the file. -/
def Band.transpose {K : Type} (b : Band K) : Band K := ⟨b.cols, b.rows, fun i j => b.data j i, fun i j => b.mask j i⟩

/-- `np.fliplr` (`oceanmesh/geodata.py:1253`): the second index is reversed. -/
def Band.fliplr {K : Type} (b : Band K) : Band K := ⟨b.rows, b.cols, fun i j => b.data i j.rev, fun i j => b.mask i j.rev⟩

/-- The affine transform of a raster (`oceanmesh/geodata.py:311,320-322,332-334,1249-1252`). -/
structure Affine (K : Type) where
  a : K
  b : K
  c : K
  d : K
  e : K
  f : K
deriving DecidableEq

section
variable {K C : Type} [Field K] [LinearOrder K]

/-- `Affine.identity` (`oceanmesh/geodata.py:311`). -/
def Affine.identity : Affine K := ⟨1, 0, 0, 0, 1, 0⟩

/-- `topobathy[topobathy == nodata_value] = np.nan` (`oceanmesh/geodata.py:1241-1242`); no-data value `none` = `None` or NaN, which equal
nothing. -/
def Band.clean (b : Band K) (nodata : Option K) : Band K :=
  { b with data := fun i j => if !b.mask i j && nodata.isSome && decide (b.data i j = nodata) then none else b.data i j }

/-- `_transform_bbox_to_src` (`oceanmesh/geodata.py:41-50`): two corners are transformed from `dst` to `src`; `none` = exception. -/
def transformBboxToSrc [DecidableEq C] (tr : C → C → K × K → Option (K × K)) (b : Box K) (src dst : Option C) : Option (Box K) :=
  match src, dst with
  | some s, some d =>
    if s = d then some b
    else
      match tr d s (b.xmin, b.ymin), tr d s (b.xmax, b.ymax) with
      | some p, some q => some ⟨min p.1 q.1, max p.1 q.1, min p.2 q.2, max p.2 q.2⟩
      | _, _ => none
  | _, _ => some b

/-! ## Subset of a NetCDF file -/

/-- A two-dimensional data array with the coordinates of both axes (`oceanmesh/geodata.py:195-200,245-248`): the array has either the x axis
or the y axis first. -/
structure XrArray (K : Type) where
  nx : Nat
  ny : Nat
  xs : Fin nx → K
  ys : Fin ny → K
  data : (Fin nx → Fin ny → Option K) ⊕ (Fin ny → Fin nx → Option K)

/-- `_xr_find_overlap_index_range` (`oceanmesh/geodata.py:173-185`): both branches of the source ask the same; the first and the last
index with a coordinate between `lo` and `hi`. -/
def overlapRange {n : Nat} (axis : Fin n → K) (lo hi : K) : Option (Fin n × Fin n) :=
  let idx := (List.finRange n).filter fun i => decide (lo ≤ axis i) && decide (axis i ≤ hi)
  match idx.head?, idx.getLast? with
  | some a, some b => some (a, b)
  | _, _ => none

/-- The distances of neighbouring coordinates (`oceanmesh/geodata.py:192`). -/
def axisSteps {n : Nat} (axis : Fin n → K) : List K :=
  (List.finRange (n - 1)).map fun i => |axis ⟨i.val + 1, by omega⟩ - axis ⟨i.val, by omega⟩|

/-- `_xr_median_spacing` (`oceanmesh/geodata.py:188-192`); `none` = NaN. -/
def medianSpacing {n : Nat} (axis : Fin n → K) : Option K := median (axisSteps axis)

/-- Smallest and largest coordinate (`oceanmesh/geodata.py:209-214,252-253`); `none`: `nanmin` of nothing raises. -/
def axisRange {n : Nat} (axis : Fin n → K) : Option (K × K) :=
  match (List.finRange n).map axis with
  | [] => none
  | x :: l => some (l.foldl min x, l.foldl max x)

/-- The part of an axis from index `r.1` to index `r.2` (`oceanmesh/geodata.py:266`). -/
def sliceAxis {α : Type} {n : Nat} (r : Fin n × Fin n) (f : Fin n → α) : Fin (r.2.val + 1 - r.1.val) → α := fun i => f ⟨r.1.val + i.val, by omega⟩

/-- `da.isel` with two slices (`oceanmesh/geodata.py:266`). -/
def XrArray.isel (d : XrArray K) (rx : Fin d.nx × Fin d.nx) (ry : Fin d.ny × Fin d.ny) : XrArray K :=
  { nx := rx.2.val + 1 - rx.1.val
    ny := ry.2.val + 1 - ry.1.val
    xs := sliceAxis rx d.xs
    ys := sliceAxis ry d.ys
    data := match d.data with
      | .inl f => .inl (sliceAxis rx fun i => sliceAxis ry fun j => f i j)
      | .inr f => .inr (sliceAxis ry fun j => sliceAxis rx fun i => f j i) }

/-- The array with the x axis first (`oceanmesh/geodata.py:196-200`): an array with the y axis first is transposed once, the other one twice. -/
def XrArray.toBand (d : XrArray K) : Band K :=
  ⟨d.nx, d.ny, match d.data with | .inl f => f | .inr f => fun i j => f j i, fun _ _ => false⟩

/-- `_xr_subset_to_outputs` (`oceanmesh/geodata.py:195-215`): box, spacings and array. The outer `none` is an exception, the inner one the
result `None`. -/
def subsetToOutputs (d : XrArray K) : Option (Option (Box K × K × K × Band K)) :=
  match medianSpacing d.xs, medianSpacing d.ys with
  | some dx, some dy =>
    if 0 < dx ∧ 0 < dy then
      match axisRange d.xs, axisRange d.ys with
      | some x, some y => some (some (⟨x.1, x.2, y.1, y.2⟩, dx, dy, d.toBand))
      | _, _ => none
    else some none
  | _, _ => some none

/-- `_try_subset_netcdf_with_xarray` from the two-dimensional array on (`oceanmesh/geodata.py:245-267`). -/
def xrSubset (d : XrArray K) (b : Box K) : Option (Option (Box K × K × K × Band K)) :=
  match axisRange d.xs, axisRange d.ys with
  | some x, some y =>
    if max b.xmin x.1 < min b.xmax x.2 ∧ max b.ymin y.1 < min b.ymax y.2 then
      match overlapRange d.xs b.xmin b.xmax, overlapRange d.ys b.ymin b.ymax with
      | some rx, some ry => subsetToOutputs (d.isel rx ry)
      | _, _ => some none
    else some none
  | _, _ => none

/-! ## Choosing the array of a NetCDF file -/

/-- A labelled array (`oceanmesh/geodata.py:151-161`): the names of its dimensions and its value at an index. -/
structure NdArray (N α : Type) where
  dims : List N
  val : List Nat → α

/-- `_xr_pick_first_raster_data_array` (`oceanmesh/geodata.py:151-155`). -/
def pickRaster {N α : Type} (vars : List (N × NdArray N α)) : Option (NdArray N α) :=
  (vars.find? fun v => decide (2 ≤ v.2.dims.length)).map Prod.snd

/-- `_xr_reduce_to_2d` (`oceanmesh/geodata.py:158-161`): index 0 along the first dimension while there are more than two. -/
def reduceTo2d {N α : Type} : (dims : List N) → (List Nat → α) → NdArray N α
  | _ :: b :: c :: l, val => reduceTo2d (b :: c :: l) fun i => val (0 :: i)
  | dims, val => ⟨dims, val⟩

/-- `_xr_pick_coord_name` (`oceanmesh/geodata.py:164-170`). -/
def pickCoordName {N : Type} [DecidableEq N] (dsCoords daCoords candidates : List N) : Option N :=
  candidates.find? fun c => decide (c ∈ daCoords) || decide (c ∈ dsCoords)

/-! ## Reading -/

/-- What an open raster tells (`oceanmesh/geodata.py:273-277,297-303,346-355`). `window b` is the band read through
`from_bounds(*b)` with `masked=True`, `none` = exception. -/
structure RasterSrc (K C : Type) where
  nodata : Option K
  crs : Option C
  bounds : Box K
  transform : Affine K
  full : Band K
  window : Box K → Option (Band K)

/-- What `_read_dem_array_and_meta` returns (`oceanmesh/geodata.py:373`): the array has the x axis first. -/
structure DemRead (K C : Type) where
  box : Box K
  crs : C
  transform : Affine K
  nodata : Option K
  array : Band K

/-- The box to read: intersection with the raster (`oceanmesh/geodata.py:305-308`). -/
def clipBox (r b : Box K) : Box K := ⟨max r.xmin b.xmin, min r.xmax b.xmax, max r.ymin b.ymin, min r.ymax b.ymax⟩

/-- The coordinate system of the result (`oceanmesh/geodata.py:358-371`). -/
def demCrs [DecidableEq C] (src : RasterSrc K C) (crs : C) : C :=
  match src.crs with
  | none => crs
  | some c => if c ≠ crs ∧ src.transform ≠ Affine.identity then c else crs

/-- The synthetic georeference (`oceanmesh/geodata.py:311-324`); `none`: one row or column, division by zero. -/
def syntheticRead (src : RasterSrc K C) (r : Box K) : Option (Box K × Affine K × Band K) :=
  if src.full.cols = 1 ∨ src.full.rows = 1 then none
  else
    let dx := (r.xmax - r.xmin) / ((src.full.cols : K) - 1)
    let dy := (r.ymax - r.ymin) / ((src.full.rows : K) - 1)
    some (r, ⟨dx, 0, r.xmin, 0, -dy, r.ymax⟩, src.full.transpose)

/-- The branch with a region (`oceanmesh/geodata.py:287-356`); `fallback` is `_try_subset_netcdf_with_xarray` for NetCDF files, and
returns `some none` for all others. -/
def regionRead [DecidableEq C] (tr : C → C → K × K → Option (K × K)) (fallback : Box K → Option (Option (Box K × K × K × Band K)))
    (src : RasterSrc K C) (r : Box K) (rcrs : C) : Option (Box K × Affine K × Band K) :=
  match transformBboxToSrc tr r src.crs (some rcrs) with
  | none => none
  | some rs =>
    let c := clipBox rs src.bounds
    if c.xmin < c.xmax ∧ c.ymin < c.ymax then (src.window c).map fun b => (c, src.transform, b.transpose)
    else if src.crs.isNone ∨ src.transform = Affine.identity then syntheticRead src r
    else
      match fallback rs with
      | some (some (bo, dx, dy, b)) => some (bo, ⟨dx, 0, bo.xmin, 0, -dy, bo.ymax⟩, b)
      | _ => none

/-- `_read_dem_array_and_meta` (`oceanmesh/geodata.py:270-373`) with the region of `_prepare_region_bbox_and_crs`
(`oceanmesh/geodata.py:53-71`): its coordinate system replaces `crs`. `none` = exception. -/
def readDem [DecidableEq C] (tr : C → C → K × K → Option (K × K)) (fallback : Box K → Option (Option (Box K × K × K × Band K)))
    (src : RasterSrc K C) (region : Option (Box K × C)) (crs : C) : Option (DemRead K C) :=
  match region with
  | none => some ⟨src.bounds, demCrs src crs, src.transform, src.nodata, src.full.transpose⟩
  | some (r, rcrs) =>
    (regionRead tr fallback src r rcrs).map fun x => ⟨x.1, demCrs src rcrs, x.2.1, src.nodata, x.2.2⟩

/-! ## The class -/

/-- The array a `DEM` stores (`oceanmesh/geodata.py:1241-1253`), with its mask. -/
def DemRead.stored (d : DemRead K C) : Band K := (d.array.clean d.nodata).fliplr

variable [FloorRing K]

/-- `DEM.__init__` after reading (`oceanmesh/geodata.py:1246-1256`): a grid with the data of the stored array; `none` = `ValueError`. -/
def mkDem (d : DemRead K C) (extrapolate : Bool) : Option (Grid K C) :=
  (mkGrid d.box d.transform.a (some |d.transform.e|) d.crs none (.array d.stored.rows d.stored.cols d.stored.data) extrapolate).map
    Grid.buildInterpolant

/-- `DEM.flip` (`oceanmesh/geodata.py:1258-1262`). -/
def demFlip (g : Grid K C) : Grid K C := Grid.buildInterpolant { g with vals := fun i j => (g.vals i j).map fun x => -x }

end
end OM
