import Verif.Model.Region
import Verif.Model.FixMesh
import Mathlib.Algebra.Order.Floor.Ring
/-!
# Model of the pure helper functions of `oceanmesh/geodata.py`

Rows of a polygon array are `some (x, y)` or `none` (a NaN row). A result `none` of type `Option` stands for an exception where
the comment says so. Membership tests (`path.contains_points`) and geometry engines are parameters.
-/
namespace OM

section
variable {K : Type} [Field K] [LinearOrder K]

/-! ## boxes -/

/-- `_is_overlapping` (`oceanmesh/geodata.py:865-869`). -/
def isOverlapping (b1 b2 : Box K) : Bool :=
  decide (b1.xmin < b2.xmax) && decide (b2.xmin < b1.xmax) && decide (b1.ymin < b2.ymax) && decide (b2.ymin < b1.ymax)

/-- `_bbox_overlaps_bounds` (`oceanmesh/geodata.py:32-38`); `bounds` as a box with left = `xmin`, right = `xmax`, bottom = `ymin`,
top = `ymax`. -/
def bboxOverlapsBounds (b bounds : Box K) : Bool :=
  decide (max b.xmin bounds.xmin < min b.xmax bounds.xmax) && decide (max b.ymin bounds.ymin < min b.ymax bounds.ymax)

/-- What `rasterio.open` tells about a subdataset (`oceanmesh/geodata.py:105-110`); `bounds = none` if they are not finite,
`crs = none` if missing. -/
structure SubInfo (K C : Type) where
  width : Nat
  height : Nat
  bounds : Option (Box K)
  crs : Option C

/-- The box of the region in the coordinates of the subdataset (`oceanmesh/geodata.py:116-124`); `tr` is
`_transform_bbox_to_src`, `none` if it raises. -/
def bboxInSub {C : Type} [DecidableEq C] (tr : C → C → Box K → Option (Box K)) (d : Box K × C) (crs : Option C) : Option (Box K) :=
  match crs with
  | none => some d.1
  | some c => if c = d.2 then some d.1 else tr c d.2 d.1

/-- One pass of the loop over the subdatasets (`oceanmesh/geodata.py:105-134`). The state is `(best, best_area)`; `none` instead of
information about the subdataset means that opening it raised. -/
def pickStep {C S : Type} [DecidableEq C] (tr : C → C → Box K → Option (Box K)) (desired : Option (Box K × C))
    (st : Option S × K) (sd : S × Option (SubInfo K C)) : Option S × K :=
  match sd.2 with
  | none => st
  | some info =>
    if info.width ≤ 1 ∨ info.height ≤ 1 then st
    else
      match info.bounds with
      | none => st
      | some b =>
        let area := (b.xmax - b.xmin) * (b.ymax - b.ymin)
        let upd : Option S × K := if st.2 < area then (some sd.1, area) else st
        match desired with
        | none => upd
        | some d =>
          match bboxInSub tr d info.crs with
          | none => upd
          | some bb => if bboxOverlapsBounds bb b then upd else upd

/-- `_pick_netcdf_open_target` for a NetCDF container that could be opened (`oceanmesh/geodata.py:74-136`): the subdataset to open,
`none` = the container itself. -/
def pickNetcdf {C S : Type} [DecidableEq C] (tr : C → C → Box K → Option (Box K)) (desired : Option (Box K × C))
    (subs : List (S × Option (SubInfo K C))) : Option S :=
  (subs.foldl (pickStep tr desired) (none, -1)).1

/-- `_infer_crs_from_coordinates` (`oceanmesh/geodata.py:376-419`); `true` also if the argument is not four values. -/
def inferGeographic : List K → Bool
  | [xmin, xmax, ymin, ymax] =>
    if [xmin, xmax, ymin, ymax].any (fun v => decide (360 < |v|)) then false
    else if [xmin, xmax].all (fun v => decide (-180 ≤ v) && decide (v ≤ 180)) &&
        [ymin, ymax].all (fun v => decide (-90 ≤ v) && decide (v ≤ 90)) then true
    else if [xmin, xmax, ymin, ymax].any (fun v => decide (180 < |v|) && decide (|v| ≤ 360)) then false
    else true
  | _ => true

/-! ## polygon arrays -/

end

/-- The maximal runs of rows that are not NaN, with the rows `cur` already collected: `np.ma.clump_unmasked`
(`oceanmesh/geodata.py:471`). -/
def clumps {α : Type} : List α → List (Option α) → List (List α)
  | [], [] => []
  | c :: cur, [] => [c :: cur]
  | [], none :: l => clumps [] l
  | c :: cur, none :: l => (c :: cur) :: clumps [] l
  | cur, some q :: l => clumps (cur ++ [q]) l

/-- `_convert_to_list` (`oceanmesh/geodata.py:468-472`). Rows with NaN in the second column only are not modelled. -/
def convertToList {α : Type} (arr : List (Option α)) : List (List (Option α)) :=
  (clumps [] (none :: arr)).map fun r => r.map some ++ [none]

/-- `_convert_to_array` (`oceanmesh/geodata.py:463-465`); `none` = `ValueError` of `np.concatenate` for an empty list. -/
def convertToArray {α : Type} (lst : List (List (Option α))) : Option (List (Option α)) :=
  if lst = [] then none else some lst.flatten

section
variable {K : Type} [Field K] [LinearOrder K]

/-- `0.75 * a + 0.25 * b` (`oceanmesh/geodata.py:649`). -/
def cut (a b : K × K) : K × K := (a.1 * (3 / 4) + b.1 * (1 / 4), a.2 * (3 / 4) + b.2 * (1 / 4))

/-- One refinement from point `c` on, with the point before it (`oceanmesh/geodata.py:643-649`): entry `2k` of `R` is point `k-1`, entry
`2k+1` is point `k+1`, the first and last entry are the end points themselves. -/
def chaikinFrom (prev : K × K) : List (K × K) → List (K × K)
  | [] => []
  | [c] => [cut c prev, cut c c]
  | c :: d :: l => cut c prev :: cut c d :: chaikinFrom c (d :: l)

/-- `_chaikins_corner_cutting` (`oceanmesh/geodata.py:637-652`); `none` = `IndexError` for an empty array. -/
def chaikin : Nat → List (K × K) → Option (List (K × K))
  | 0, l => some l
  | _ + 1, [] => none
  | n + 1, c :: l => chaikin n (chaikinFrom c (c :: l))

/-- All results, or `none` if one is missing: a loop over features in which an exception ends the call
(`oceanmesh/geodata.py:663-670,689-752,819-842`). -/
def collect {α β : Type} (f : α → Option β) : List α → Option (List β)
  | [] => some []
  | x :: l =>
    match f x, collect f l with
    | some y, some r => some (y :: r)
    | _, _ => none

/-- `_smooth_shoreline` (`oceanmesh/geodata.py:655-670`). -/
def smoothShoreline (n : Nat) (polys : List (Option (K × K))) : Option (List (Option (K × K))) :=
  (collect (fun f => (chaikin n f).map fun r => r.map some ++ [none]) (clumps [] (none :: polys))).bind convertToArray

/-- The number of points to insert between rows `a` and `b` (`oceanmesh/geodata.py:512-517`); zero outside the box and next to NaN
rows. Positive `maxdiff` only. -/
def segExtra [FloorRing K] (maxdiff : K) (a b : Option (K × K)) (insideB : Bool) : Nat :=
  if insideB = false then 0
  else
    match a, b with
    | some a, some b => (⌈max |b.2 - a.2| |b.1 - a.1| / maxdiff⌉ - 1).toNat
    | _, _ => 0

/-- `nin` (`oceanmesh/geodata.py:512-517`): for each segment with the mask of its end point. -/
def segExtras [FloorRing K] (maxdiff : K) : List (Option (K × K)) → List Bool → List Nat
  | a :: b :: l, _ :: ib :: ins => segExtra maxdiff a b ib :: segExtras maxdiff (b :: l) (ib :: ins)
  | _, _ => []

/-- Column `k` of `_create_ranges(a, b, N)` (`oceanmesh/geodata.py:489-498`). -/
def rangePoint (a b : K × K) (N k : Nat) : K × K :=
  (1 / ((N : K) - 1) * (b.1 - a.1) * (k : K) + a.1, 1 / ((N : K) - 1) * (b.2 - a.2) * (k : K) + a.2)

/-- `buf[n : n + len(rows)] = rows`; `none` = error if the slice is shorter than the rows (`oceanmesh/geodata.py:530-542`). -/
def writeAt {α : Type} (buf : List α) (n : Nat) (rows : List α) : Option (List α) :=
  if n + rows.length ≤ buf.length then some (buf.take n ++ rows ++ buf.drop (n + rows.length)) else none

/-- The rows written for segment `a`–`b` (`oceanmesh/geodata.py:529-543`). -/
def segRows (a b : Option (K × K)) (ni : Nat) : List (Option (K × K)) :=
  if ni = 0 then [a]
  else
    match a, b with
    | some a, some b => (List.range (ni + 1)).map fun k => some (rangePoint a b (ni + 2) k)
    | _, _ => (List.range (ni + 1)).map fun _ => none

/-- The loop that fills the buffers from position `n` (`oceanmesh/geodata.py:526-543`). -/
def fillLoop : List (Option (K × K)) → Nat → List (Option (K × K)) → List Nat → Option (List (Option (K × K)))
  | buf, n, a :: b :: l, ni :: nin =>
    match writeAt buf n (segRows a b ni) with
    | none => none
    | some buf' => fillLoop buf' (n + ni + 1) (b :: l) nin
  | buf, _, _, _ => some buf

/-- `_densify` (`oceanmesh/geodata.py:501-550`) with the mask `inside` given; buffers start as NaN; `none` = an exception. -/
def densify [FloorRing K] (maxdiff : K) (poly : List (Option (K × K))) (inside : List Bool) : Option (List (Option (K × K))) :=
  let nin := segExtras maxdiff poly inside
  if nin.sum = 0 then some poly
  else
    match fillLoop (List.replicate (nin.sum + poly.length) none) 0 poly nin with
    | none => none
    | some buf =>
      match poly.getLast? with
      | none => none
      | some r => writeAt buf (buf.length - 1) [r]

/-- `np.roll(y, 1)` (`oceanmesh/geodata.py:555`). -/
def roll {α : Type} (l : List α) : List α :=
  match l.getLast? with
  | none => []
  | some x => x :: l.dropLast

/-- `np.dot` of two vectors of the same length (`oceanmesh/geodata.py:555`). -/
def dot (x y : List K) : K := (List.zipWith (· * ·) x y).sum

/-- `_poly_area` (`oceanmesh/geodata.py:553-555`); `none` = `ValueError` for vectors of different lengths. -/
def polyArea (x y : List K) : Option K :=
  if x.length = y.length then some (1 / 2 * |dot x (roll y) - dot y (roll x)|) else none

end

/-- The indices of the points kept by `_nth_simplify` for one feature, from position `j` (`oceanmesh/geodata.py:820-837`).
`inside` is the mask of all points but the last. The first argument is fuel; `none` = fuel exhausted. -/
def simplifyLoop (inside : List Bool) : Nat → Nat → List Nat → Option (List Nat)
  | 0, _, _ => none
  | fuel + 1, j, line =>
    match inside[j]? with
    | none => some line
    | some true => simplifyLoop inside fuel (j + 1) (line ++ [j])
    | some false =>
      let bd := min (j + 50) (inside.length - 1)
      let exte := min 50 (bd - j)
      if ((inside.drop j).take (bd - j)).all (fun b => !b) then
        simplifyLoop inside fuel (j + exte + 1) (line ++ [j, j + exte])
      else simplifyLoop inside fuel (j + 1) (line ++ [j])

/-- `_nth_simplify` for one feature without its NaN row (`oceanmesh/geodata.py:820-839`); `mask` answers `path.contains_points`. -/
def simplifyFeature {α : Type} (mask : α → Bool) (pts : List α) : Option (List α) :=
  (simplifyLoop (pts.dropLast.map mask) (pts.length + 1) 0 []).bind (gather pts)

/-- `_nth_simplify` (`oceanmesh/geodata.py:811-842`). -/
def nthSimplify {α : Type} (mask : α → Bool) (polys : List (Option α)) : Option (List (Option α)) :=
  (collect (fun f => (simplifyFeature mask f).map fun r => r.map some ++ [none]) (clumps [] (none :: polys))).bind convertToArray

section
variable {K : Type} [Field K] [LinearOrder K]

/-- `np.linalg.det` of the rows `(1, x, y)` of three points (`oceanmesh/geodata.py:855-856`). -/
def det3 (a b c : K × K) : K := (b.1 - a.1) * (c.2 - a.2) - (c.1 - a.1) * (b.2 - a.2)

/-- `np.isclose(d, 0.0)` with the default tolerance (`oceanmesh/geodata.py:853,859`). -/
def closeToZero (d : K) : Bool := decide (|d| ≤ 1 / 100000000)

/-- The loop of `_is_path_ccw` (`oceanmesh/geodata.py:852-857`); it needs more than three remaining points. -/
def ccwLoop : K → List (K × K) → K
  | d, a :: b :: c :: e :: l => if closeToZero d then ccwLoop (det3 a b c) (b :: c :: e :: l) else d
  | d, _ => d

/-- `_is_path_ccw` (`oceanmesh/geodata.py:845-862`); `none` = `RuntimeError`. -/
def isPathCcw (p : List (K × K)) : Option Bool :=
  if closeToZero (ccwLoop 0 p) then none else some (decide (0 < ccwLoop 0 p))

end

/-- `remove_dup` on a vector (`oceanmesh/geodata.py:872-876`): entries followed by a different one, and the last; `none` =
`IndexError`. -/
def removeDup1 {α : Type} [DecidableEq α] : List α → Option (List α)
  | [] => none
  | x :: l => some ((((x :: l).zip l).filter fun y => decide (y.1 ≠ y.2)).map Prod.fst ++ [(x :: l).getLast (List.cons_ne_nil x l)])

/-- `remove_dup` on an array with two columns (`oceanmesh/geodata.py:872-876`): `np.diff` works along the last axis, so row `(x, y)` is
kept if `y - x` is not zero; the last row is appended; `none` = `IndexError`. -/
def removeDup2 {α : Type} [DecidableEq α] : List (α × α) → Option (List (α × α))
  | [] => none
  | x :: l => some (((x :: l).filter fun q => decide (q.1 ≠ q.2)) ++ [(x :: l).getLast (List.cons_ne_nil x l)])

/-! ## classification -/

/-- The geometry engine used by `_classify_shoreline` (shapely polygons `G` made from features `P`; `oceanmesh/geodata.py:568-634`). -/
structure ShapeEngine (P G K : Type) where
  polygon : P → G
  contains : G → G → Bool
  overlaps : G → G → Bool
  difference : G → G → G
  area : G → K

/-- State of the loop of `_classify_shoreline`: domain, islands, mainland (`oceanmesh/geodata.py:601-618`). -/
structure ShoreState (P G : Type) where
  dom : G
  inner : List P
  mainland : List P

/-- One feature in `_classify_shoreline` (`oceanmesh/geodata.py:602-618`); `areaMin` is `minimum_area_mult * h0**2`, `E.area` is the area
in longitude and latitude if `stereo`. -/
def classifyStep {P G K : Type} [LinearOrder K] (E : ShapeEngine P G K) (areaMin : K) (stereo : Bool) (st : ShoreState P G) (p : P) :
    ShoreState P G :=
  if E.contains st.dom (E.polygon p) then
    if areaMin ≤ E.area (E.polygon p) then { st with inner := st.inner ++ [p] } else st
  else if E.overlaps (E.polygon p) st.dom then
    if stereo then { st with dom := E.polygon p }
    else { st with dom := E.difference st.dom (E.polygon p), mainland := st.mainland ++ [p] }
  else st

/-- The loop of `_classify_shoreline` (`oceanmesh/geodata.py:601-618`). -/
def classifyShoreline {P G K : Type} [LinearOrder K] (E : ShapeEngine P G K) (areaMin : K) (stereo : Bool) (dom : G) (ps : List P) :
    ShoreState P G :=
  ps.foldl (classifyStep E areaMin stereo) ⟨dom, [], []⟩

end OM
