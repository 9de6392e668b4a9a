import Verif.Model.Grid
/-!
# Model of `oceanmesh/signed_distance_function.py`

Domains are evaluated point by point (the source evaluates whole arrays, all operations are elementwise). A value of an evaluation is
`none` for an exception, `some none` for NaN.
-/
namespace OM

/-- A `Domain` (`oceanmesh/signed_distance_function.py:118-131`). `func` is the evaluation; `covering` may be missing (`None`). -/
structure Domain (K P C : Type) where
  box : Box K
  func : P → Option (Option K)
  covering : Option (P → Option (Option K))
  crs : Option C
  stereo : Bool

section
variable {K P C : Type} [Field K] [LinearOrder K]

/-- The function of `create_bbox` at a point of numbers (`oceanmesh/signed_distance_function.py:50-58`). -/
def bboxDistance (b : Box K) (p : K × K) : K :=
  -min (min (min (-b.ymin + p.2) (b.ymax - p.2)) (-b.xmin + p.1)) (b.xmax - p.1)

/-- `create_bbox` (`oceanmesh/signed_distance_function.py:43-62`). -/
def createBbox (b : Box K) : Domain K (K × K) C := ⟨b, fun p => some (some (bboxDistance b p)), none, none, false⟩

/-- The minimum of a list of numbers that is not empty (`oceanmesh/signed_distance_function.py:135-140`). -/
def listMin (x : K) (l : List K) : K := l.foldl min x

/-- The maximum of a list of numbers that is not empty (`oceanmesh/signed_distance_function.py:135-140`). -/
def listMax (x : K) (l : List K) : K := l.foldl max x

/-- `_compute_bbox` (`oceanmesh/signed_distance_function.py:134-141`); `none` = `ValueError` for an empty list. -/
def computeBbox : List (Domain K P C) → Option (Box K)
  | [] => none
  | d :: l => some ⟨listMin d.box.xmin (l.map (·.box.xmin)), listMax d.box.xmax (l.map (·.box.xmax)),
      listMin d.box.ymin (l.map (·.box.ymin)), listMax d.box.ymax (l.map (·.box.ymax))⟩

/-- The first coordinate system that is not missing (`oceanmesh/signed_distance_function.py:150-151,163-164,176-177`). -/
def firstCrs (l : List (Domain K P C)) : Option C := (l.filterMap (·.crs)).head?

/-- NaN-propagating maximum, `np.maximum` (`oceanmesh/signed_distance_function.py:170,182`). -/
def optMax (a b : Option K) : Option K :=
  match a, b with
  | some x, some y => some (max x y)
  | _, _ => none

/-- `np.minimum.reduce` and `np.maximum.reduce` of evaluations (`oceanmesh/signed_distance_function.py:157,170,182-184`): an exception if one
evaluation raises or there is none. -/
def reduceEvals (op : Option K → Option K → Option K) (l : List (Option (Option K))) : Option (Option K) :=
  match collectAll l with
  | none => none
  | some [] => none
  | some (v :: vs) => some (vs.foldl op v)

/-- A domain built from others (`oceanmesh/signed_distance_function.py:146-184`). -/
def combine (ev : P → Option (Option K)) (l : List (Domain K P C)) : Option (Domain K P C) :=
  (computeBbox l).map fun b => ⟨b, ev, none, firstCrs l, l.any (·.stereo)⟩

/-- `Union` (`oceanmesh/signed_distance_function.py:146-157`). -/
def unionDomain (l : List (Domain K P C)) : Option (Domain K P C) :=
  combine (fun p => reduceEvals optMin (l.map fun d => d.func p)) l

/-- `Intersection` (`oceanmesh/signed_distance_function.py:160-170`). -/
def intersectionDomain (l : List (Domain K P C)) : Option (Domain K P C) :=
  combine (fun p => reduceEvals optMax (l.map fun d => d.func p)) l

/-- The evaluations of `Difference` (`oceanmesh/signed_distance_function.py:182-184`): all but the first with changed sign. -/
def differenceEvals (p : P) : List (Domain K P C) → List (Option (Option K))
  | [] => []
  | d :: l => d.func p :: l.map fun e => (e.func p).map fun v => v.map fun x => -x

/-- `Difference` (`oceanmesh/signed_distance_function.py:173-184`). -/
def differenceDomain (l : List (Domain K P C)) : Option (Domain K P C) :=
  combine (fun p => reduceEvals optMax (differenceEvals p l)) l

/-! ## signed_distance_function -/

/-- A coordinate pair of a query point: `none` = NaN or infinite (`oceanmesh/signed_distance_function.py:219-222`). -/
abbrev QueryPoint (K : Type) := Option K × Option K

/-- The function `func` of `signed_distance_function` at one point (`oceanmesh/signed_distance_function.py:218-246`). `inBox` and `inShore`
are the answers of `inpoly2` for the bounding polygon and for all polygons, `near` the distance to the nearest vertex that the KD-tree
gives. -/
def sdfAt (inBox inShore : K × K → Bool) (near : K × K → K) (invert : Bool) (q : QueryPoint K) : K :=
  let r : Bool × K :=
    match q with
    | (some x, some y) => (inShore (x, y) && inBox (x, y), near (x, y))
    | _ => (false, 1000000000000)
  let dist := (if r.1 then -1 else 1) * r.2
  if invert then dist * -1 else dist

/-- The function `func_covering` (`oceanmesh/signed_distance_function.py:253-270`), `near2` is the distance to the nearest vertex of the
bounding polygon. -/
def coveringAt (inBox : K × K → Bool) (near2 : K × K → K) (q : QueryPoint K) : K :=
  let r : Bool × K :=
    match q with
    | (some x, some y) => (inBox (x, y), near2 (x, y))
    | _ => (false, 1000000000000)
  (if r.1 then -1 else 1) * r.2

/-- `signed_distance_function` (`oceanmesh/signed_distance_function.py:187-275`), as far as it does not depend on shapely objects: the
polygons enter by the answers of `inpoly2` and the distances. -/
def signedDistance (box : Box K) (inBox inShore : K × K → Bool) (near near2 : K × K → K) (crs : Option C) (stereo invert : Bool) :
    Domain K (QueryPoint K) C :=
  ⟨box, fun q => some (some (sdfAt inBox inShore near invert q)), some fun q => some (some (coveringAt inBox near2 q)), crs, stereo⟩

/-- The covering of a domain as a domain of its own (`oceanmesh/signed_distance_function.py:315-323`); without covering every evaluation
raises (`None` is not callable). -/
def coverDomain (d : Domain K P C) : Domain K P C := ⟨d.box, d.covering.getD fun _ => none, none, d.crs, d.stereo⟩

/-- The nests of a list of domains (`oceanmesh/signed_distance_function.py:311-324`). -/
def nests : List (Domain K P C) → Option (List (Domain K P C))
  | [] => some []
  | d :: l =>
    match differenceDomain (d :: l.map coverDomain), nests l with
    | some n, some r => some (n :: r)
    | _, _ => none

/-- `multiscale_signed_distance_function` (`oceanmesh/signed_distance_function.py:287-328`); `none` = exception. -/
def multiscaleSdf (l : List (Domain K P C)) : Option (Domain K P C × List (Domain K P C)) :=
  if 1 < l.length then
    match nests l with
    | none => none
    | some ns => (unionDomain ns).map fun u => (u, ns)
  else none

end
end OM
