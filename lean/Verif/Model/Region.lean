import Mathlib.Algebra.Order.Field.Basic
import Mathlib.Analysis.SpecialFunctions.Complex.Arg
import Mathlib.Analysis.SpecialFunctions.Trigonometric.Inverse
/-!
# Model of `oceanmesh/region.py`

NaN is not modelled here.
-/
namespace OM

/-- A bounding box `(xmin, xmax, ymin, ymax)` (`oceanmesh/region.py:30,50-51`). -/
structure Box (K : Type) where
  xmin : K
  xmax : K
  ymin : K
  ymax : K
deriving DecidableEq

section
variable {K : Type} [Field K] [LinearOrder K]

/-- `is_global_bbox` (`oceanmesh/region.py:24-35`). -/
def isGlobalBbox (b : Box K) : Bool :=
  (decide (300 ≤ b.xmax - b.xmin) || (decide (b.xmin ≤ -180) && decide (180 ≤ b.xmax))) &&
    (decide (150 ≤ b.ymax - b.ymin) || (decide (b.ymin ≤ -89) && decide (89 ≤ b.ymax)))

/-- `bbox_contains` (`oceanmesh/region.py:38-54`). -/
def bboxContains (outer inner : Box K) : Bool :=
  if isGlobalBbox outer then true
  else if isGlobalBbox inner && !isGlobalBbox outer then false
  else decide (outer.xmin ≤ inner.xmin) && decide (inner.xmax ≤ outer.xmax) && decide (outer.ymin ≤ inner.ymin) &&
    decide (inner.ymax ≤ outer.ymax)

/-- What a `Region` accepts as extent: a tuple of numbers or a polygon (`oceanmesh/region.py:189-199`). -/
inductive Extent (K : Type) where
  | tuple (vals : List K)
  | polygon (pts : List (K × K))
deriving DecidableEq

/-- The `bbox` setter (`oceanmesh/region.py:189-199`); `none` = `ValueError`. -/
def checkExtent : Extent K → Option (Extent K)
  | .tuple (a :: b :: c :: d :: l) => if b < a then none else if d < c then none else some (.tuple (a :: b :: c :: d :: l))
  | .tuple _ => none
  | .polygon pts => some (.polygon pts)

/-- A `Region` (`oceanmesh/region.py:164-167`). `C` is the type of coordinate reference systems. -/
structure Region (K C : Type) where
  bbox : Extent K
  crs : C
deriving DecidableEq

/-- `Region.__init__` (`oceanmesh/region.py:165-167`); parsing the CRS is not modelled. -/
def mkRegion {C : Type} (e : Extent K) (crs : C) : Option (Region K C) := (checkExtent e).map fun b => ⟨b, crs⟩

/-- `Region.total_bounds` (`oceanmesh/region.py:177-187`): the tuple itself (any number of values), or the extreme coordinates of the polygon;
`none` = `ValueError` of `min` for a polygon without points. -/
def totalBounds {C : Type} (r : Region K C) : Option (List K) :=
  match r.bbox with
  | .tuple vals => some vals
  | .polygon [] => none
  | .polygon (p :: l) =>
    some [(l.map Prod.fst).foldl min p.1, (l.map Prod.fst).foldl max p.1, (l.map Prod.snd).foldl min p.2, (l.map Prod.snd).foldl max p.2]

/-- Transform all points, `none` if the transformer raises (`oceanmesh/region.py:213-217`). -/
def transformAll (f : K × K → Option (K × K)) : List (K × K) → Option (List (K × K))
  | [] => some []
  | q :: l =>
    match f q, transformAll f l with
    | some q', some l' => some (q' :: l')
    | _, _ => none

/-- The new extent computed by `transform_to` (`oceanmesh/region.py:206-217`): of a tuple the two corners
`(xmin, ymin)` and `(xmax, ymax)` are transformed; unpacking fails unless there are four values. -/
def transformExtent (f : K × K → Option (K × K)) : Extent K → Option (Extent K)
  | .tuple [a, b, c, d] =>
    match f (a, c), f (b, d) with
    | some (a', c'), some (b', d') => checkExtent (.tuple [a', b', c', d'])
    | _, _ => none
  | .tuple _ => none
  | .polygon pts => (transformAll f pts).map .polygon

/-- `Region.transform_to` (`oceanmesh/region.py:201-219`): the object after the call and whether the call raised. `tr` are the
coordinate transformers, equality of CRS is equality of `C`. -/
def transformTo {C : Type} [DecidableEq C] (tr : C → C → K × K → Option (K × K)) (dst : C) (r : Region K C) : Region K C × Bool :=
  if r.crs = dst then (r, false)
  else
    match transformExtent (tr r.crs dst) r.bbox with
    | none => (r, true)
    | some b => (⟨b, dst⟩, false)

end

/-! ## Stereographic projection (over ℝ) -/

noncomputable section

/-- `stereo_to_3d` (`oceanmesh/region.py:107-119`). -/
def stereoTo3d (R u v : ℝ) : ℝ × ℝ × ℝ :=
  let rp2 := u ^ 2 + v ^ 2
  (-2 * R * u / (1 + rp2), -2 * R * v / (1 + rp2), R * (1 - rp2) / (1 + rp2))

/-- The last part of `to_lat_lon` for one point (`oceanmesh/region.py:126-138`). `arctan2(y, x)` is the argument of the complex number
`x + y i`; `rmax` is the maximum of `rad` over the whole array, used where `rad` is zero. Longitude first. -/
def lonLatOf3d (rmax : ℝ) (q : ℝ × ℝ × ℝ) : ℝ × ℝ :=
  let rad := Real.sqrt (q.1 ^ 2 + q.2.1 ^ 2 + q.2.2 ^ 2)
  let rad := if rad = 0 then rmax else rad
  (Complex.arg ⟨q.1, q.2.1⟩ * 180 / Real.pi, Real.arcsin (q.2.2 / rad) * 180 / Real.pi)

/-- `to_lat_lon` without `z` for one point (`oceanmesh/region.py:122-138`). -/
def toLatLon (R rmax u v : ℝ) : ℝ × ℝ := lonLatOf3d rmax (stereoTo3d R u v)

/-- `to_3d` (`oceanmesh/region.py:141-149`). -/
def to3d (R lon lat : ℝ) : ℝ × ℝ × ℝ :=
  (Real.cos (lat / 180 * Real.pi) * Real.cos (lon / 180 * Real.pi) * R,
    Real.cos (lat / 180 * Real.pi) * Real.sin (lon / 180 * Real.pi) * R, Real.sin (lat / 180 * Real.pi) * R)

/-- `to_stereo` (`oceanmesh/region.py:152-161`). -/
def toStereo (R lon lat : ℝ) : ℝ × ℝ :=
  let k := to3d R lon lat
  (-k.1 / (R + k.2.2), -k.2.1 / (R + k.2.2))

end

end OM
