import Verif.Model.Inpoly
import Verif.Model.Edges
/-!
# Model of `signed_distance_function` for the polygon arrays of a shoreline

The two functions of the returned domain for whole arrays of points (`oceanmesh/signed_distance_function.py:187-275`).
-/
namespace OM

section
variable {K : Type} [Field K] [LinearOrder K]

/-- The parts that are not computed here: configuration and libraries of `inpoly2`, its tolerance, and the distance to the nearest of some points that a
KD-tree gives (`oceanmesh/signed_distance_function.py:210-212,231-238,249-251`). -/
structure SdfTools (K : Type) where
  cfg : PolyConfig
  shapely : PolyEngine K
  mpl : PolyEngine K
  ftol : K
  near : List (K × K) → K × K → K

/-- `np.nan_to_num` of a row of a polygon array (`oceanmesh/signed_distance_function.py:215,235`): NaN rows become the origin. -/
def nanToNum : Option (K × K) → K × K
  | some p => p
  | none => (0, 0)

/-- `a[finite_mask] = values` for an array `a` filled with `d` (`oceanmesh/signed_distance_function.py:225-227,233,236,239`); `none`: the numbers of values
and of finite points differ. -/
def putFinite {A : Type} (d : A) : List (QueryPoint K) → List A → Option (List A)
  | [], [] => some []
  | [], _ :: _ => none
  | q :: l, vs =>
    match finitePoint q, vs with
    | none, vs => (putFinite d l vs).map fun r => d :: r
    | some _, v :: vs => (putFinite d l vs).map fun r => v :: r
    | some _, [] => none

/-- `inpoly2(x_f, np.nan_to_num(poly), e)` for the finite points, written into the array of all points
(`oceanmesh/signed_distance_function.py:232-236,263-264`). -/
def insideMask (T : SdfTools K) (poly : List (Option (K × K))) (e : List (Int × Int)) (x : List (QueryPoint K)) : Option (List Bool) :=
  (inpoly2 T.cfg T.shapely T.mpl T.ftol ((x.filterMap finitePoint).map fun p => (some p.1, some p.2)) (poly.map nanToNum) (some e)).bind fun r =>
    putFinite false x (r.map Prod.fst)

/-- The distances of the finite points to the vertices of a polygon array, `1.0e12` for the others (`oceanmesh/signed_distance_function.py:210-212,225,238-239`). -/
def distances (T : SdfTools K) (poly : List (Option (K × K))) (x : List (QueryPoint K)) : Option (List K) :=
  putFinite 1000000000000 x ((x.filterMap finitePoint).map (T.near (poly.filterMap id)))

/-- `((-1) ** cond) * d` (`oceanmesh/signed_distance_function.py:243,269`). -/
def signFlip (c : Bool) (d : K) : K := (if c then -1 else 1) * d

/-- `func` up to the signs (`oceanmesh/signed_distance_function.py:220-239`): `in_boubox`, `in_shoreline` and `d`. -/
def domainParts (T : SdfTools K) (boubox : List (Option (K × K))) (eBox : List (Int × Int)) (poly : List (Option (K × K))) (e : List (Int × Int))
    (x : List (QueryPoint K)) : Option (List Bool × List Bool × List K) :=
  if x.filterMap finitePoint = [] then some (x.map fun _ => false, x.map fun _ => false, x.map fun _ => 1000000000000)
  else
    match insideMask T boubox eBox x, insideMask T poly e x, distances T poly x with
    | some ib, some ish, some d => some (ib, ish, d)
    | _, _, _ => none

/-- The function `func` (`oceanmesh/signed_distance_function.py:218-246`). -/
def domainFunc (T : SdfTools K) (boubox : List (Option (K × K))) (eBox : List (Int × Int)) (poly : List (Option (K × K))) (e : List (Int × Int)) (invert : Bool)
    (x : List (QueryPoint K)) : Option (List K) :=
  (domainParts T boubox eBox poly e x).map fun r =>
    let cond := List.zipWith (fun a b => a && b) r.2.1 r.1
    let dist := List.zipWith signFlip cond r.2.2
    if invert then dist.map fun v => v * -1 else dist

/-- The function `func_covering` (`oceanmesh/signed_distance_function.py:253-270`). -/
def coveringFunc (T : SdfTools K) (boubox : List (Option (K × K))) (eBox : List (Int × Int)) (x : List (QueryPoint K)) : Option (List K) :=
  if x.filterMap finitePoint = [] then some (List.zipWith signFlip (x.map fun _ => false) (x.map fun _ => 1000000000000))
  else
    match insideMask T boubox eBox x, distances T boubox x with
    | some ib, some d => some (List.zipWith signFlip ib d)
    | _, _ => none

/-- The functions of the domain that `signed_distance_function` returns for a shoreline with the arrays `inner` and `boubox`
(`oceanmesh/signed_distance_function.py:208-275`); `none`: an exception. -/
def signedDistanceFunction (T : SdfTools K) (inner boubox : List (Option (K × K))) (invert : Bool) :
    Option ((List (QueryPoint K) → Option (List K)) × (List (QueryPoint K) → Option (List K))) := do
  let poly := inner ++ boubox
  let e ← getPolyEdges (poly.map Option.isNone)
  let eBox ← getPolyEdges (boubox.map Option.isNone)
  return (domainFunc T boubox eBox poly e invert, coveringFunc T boubox eBox)

end
end OM
