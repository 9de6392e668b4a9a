import Verif.Model.ShoreSdf
import Verif.Model.InpolyPyFl
import Verif.Model.InpolyFl
/-!
# Model of `signed_distance_function` with rounded arithmetic

The functions of `Model/ShoreSdf.lean` with the inside tests of `Model/InpolyFl.lean` and `Model/InpolyPyFl.lean`. All other operations (masks, signs) are exact;
the distances come from the KD-tree, which is a parameter, so that they can be rounded in any way.
-/
namespace OM

section
variable {K : Type} [Field K] [LinearOrder K]

/-- The answer function chosen for a number of points (`oceanmesh/geometry/point_in_polygon.py:144-174`). -/
def kernelForFl (rnd : K → K) (fused : Bool) (cfg : PolyConfig) (shapely mpl : PolyEngine K) (ftol : K) (node : List (K × K)) (es : List (Nat × Nat))
    (points : Nat) : Option (K × K → Bool × Bool) :=
  match segsOf node es with
  | none => none
  | some segs =>
    let ray := pyPointFl rnd ftol node.length segs
    if cfg.env = none ∧ cfg.compiled = true then some (cPointFl rnd fused ftol segs)
    else
      let m := selectMethod cfg points es.length
      if m = .shapely ∧ cfg.haveShapely = true then enginePoints shapely ray node es
      else if m = .matplotlib ∧ cfg.haveMpl = true then enginePoints mpl ray node es
      else some ray

/-- `inpoly2` (`oceanmesh/geometry/point_in_polygon.py:75-181`) with given edges, for arrays of the right shape; `none` = exception. -/
def inpoly2Fl (rnd : K → K) (fused : Bool) (cfg : PolyConfig) (shapely mpl : PolyEngine K) (ftol : K) (vert : List (QueryPoint K)) (node : List (K × K))
    (edge : List (Int × Int)) : Option (List (Bool × Bool)) :=
  let no := vert.map fun _ => (false, false)
  if node = [] then some no
  else
    match checkEdges node.length edge with
    | none => none
    | some e =>
      let n := (vert.filterMap finitePoint).length
      if n = 0 then some no
      else
        (kernelForFl rnd fused cfg shapely mpl ftol node e n).map fun ans =>
          vert.map fun v =>
            match finitePoint v with
            | some p => ans p
            | none => (false, false)

/-- `inpoly2(x_f, np.nan_to_num(poly), e)` for the finite points, written into the array of all points
(`oceanmesh/signed_distance_function.py:232-236,263-264`). -/
def insideMaskFl (rnd : K → K) (fused : Bool) (T : SdfTools K) (poly : List (Option (K × K))) (e : List (Int × Int)) (x : List (QueryPoint K)) :
    Option (List Bool) :=
  (inpoly2Fl rnd fused T.cfg T.shapely T.mpl T.ftol ((x.filterMap finitePoint).map fun p => (some p.1, some p.2)) (poly.map nanToNum) e).bind fun r =>
    putFinite false x (r.map Prod.fst)

/-- `func` up to the signs (`oceanmesh/signed_distance_function.py:220-239`): `in_boubox`, `in_shoreline` and `d`. -/
def domainPartsFl (rnd : K → K) (fused : Bool) (T : SdfTools K) (boubox : List (Option (K × K))) (eBox : List (Int × Int)) (poly : List (Option (K × K)))
    (e : List (Int × Int)) (x : List (QueryPoint K)) : Option (List Bool × List Bool × List K) :=
  if x.filterMap finitePoint = [] then some (x.map fun _ => false, x.map fun _ => false, x.map fun _ => 1000000000000)
  else
    match insideMaskFl rnd fused T boubox eBox x, insideMaskFl rnd fused T poly e x, distances T poly x with
    | some ib, some ish, some d => some (ib, ish, d)
    | _, _, _ => none

/-- The function `func` (`oceanmesh/signed_distance_function.py:218-246`); changes of sign are exact. -/
def domainFuncFl (rnd : K → K) (fused : Bool) (T : SdfTools K) (boubox : List (Option (K × K))) (eBox : List (Int × Int)) (poly : List (Option (K × K)))
    (e : List (Int × Int)) (invert : Bool) (x : List (QueryPoint K)) : Option (List K) :=
  (domainPartsFl rnd fused T boubox eBox poly e x).map fun r =>
    let cond := List.zipWith (fun a b => a && b) r.2.1 r.1
    let dist := List.zipWith signFlip cond r.2.2
    if invert then dist.map fun v => v * -1 else dist

/-- The function `func_covering` (`oceanmesh/signed_distance_function.py:253-270`). -/
def coveringFuncFl (rnd : K → K) (fused : Bool) (T : SdfTools K) (boubox : List (Option (K × K))) (eBox : List (Int × Int)) (x : List (QueryPoint K)) :
    Option (List K) :=
  if x.filterMap finitePoint = [] then some (List.zipWith signFlip (x.map fun _ => false) (x.map fun _ => 1000000000000))
  else
    match insideMaskFl rnd fused T boubox eBox x, distances T boubox x with
    | some ib, some d => some (List.zipWith signFlip ib d)
    | _, _ => none

/-- The functions of the domain that `signed_distance_function` returns for a shoreline with the arrays `inner` and `boubox`
(`oceanmesh/signed_distance_function.py:208-275`); `none`: an exception. -/
def signedDistanceFunctionFl (rnd : K → K) (fused : Bool) (T : SdfTools K) (inner boubox : List (Option (K × K))) (invert : Bool) :
    Option ((List (QueryPoint K) → Option (List K)) × (List (QueryPoint K) → Option (List K))) := do
  let poly := inner ++ boubox
  let e ← getPolyEdges (poly.map Option.isNone)
  let eBox ← getPolyEdges (boubox.map Option.isNone)
  return (domainFuncFl rnd fused T boubox eBox poly e invert, coveringFuncFl rnd fused T boubox eBox)

end
end OM
