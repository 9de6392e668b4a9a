import Verif.Model.Blend
/-!
# Model of `oceanmesh/edgefx.py`: bounds by elevation, gradation, distances, the finite-difference gradient

Sizing values are elements of a linearly ordered field, NaN is `none`.
-/
namespace OM

section
variable {K C : Type} [Field K] [LinearOrder K] [FloorRing K]

/-- `dem.eval` at all nodes of a grid (`oceanmesh/edgefx.py:56-57`); `none` = exception because no interpolant was built. -/
def Grid.evalNodes (dem g : Grid K C) : Option (Fin g.nx → Fin g.ny → Option K) :=
  dem.interp.map fun e i j => dem.evalWith e (g.xAt i, g.yAt j)

/-! ## enforce_mesh_size_bounds_elevation -/

/-- One bound at one node (`oceanmesh/edgefx.py:76-84`). Both index sets are computed before the first assignment; the assignment of
the minimum comes last. Comparisons with NaN are false. -/
def boundNode (minH maxH minZ maxZ : K) (z v : Option K) : Option K :=
  match z, v with
  | some z, some v =>
    if minZ < z ∧ z ≤ maxZ ∧ v < minH then some minH
    else if minZ < z ∧ z ≤ maxZ ∧ maxH ≤ v then some maxH
    else some v
  | _, v => v

/-- The loop over the bounds (`oceanmesh/edgefx.py:58-84`): the values afterwards and whether an `AssertionError` was raised. -/
def boundsLoop {n m : Nat} (elev : Fin n → Fin m → Option K) :
    List (List K) → (Fin n → Fin m → Option K) → (Fin n → Fin m → Option K) × Bool
  | [], vals => (vals, false)
  | [minH, maxH, minZ, maxZ] :: bounds, vals =>
    if minH < maxH then
      if minZ < maxZ then boundsLoop elev bounds fun i j => boundNode minH maxH minZ maxZ (elev i j) (vals i j) else (vals, true)
    else (vals, true)
  | _ :: _, vals => (vals, true)

/-- `enforce_mesh_size_bounds_elevation` (`oceanmesh/edgefx.py:36-88`). It changes the given grid: the result is the grid afterwards and
whether an exception was raised; without an exception that grid is also the returned value. -/
def enforceBounds (g dem : Grid K C) (bounds : List (List K)) : Grid K C × Bool :=
  match dem.evalNodes g with
  | none => (g, true)
  | some elev =>
    let r := boundsLoop elev bounds g.vals
    if r.2 then ({ g with vals := r.1 }, true) else (Grid.buildInterpolant { g with vals := r.1 }, false)

/-! ## enforce_mesh_gradation -/

/-- `values.flatten("F")` (`oceanmesh/edgefx.py:123`): column by column, that is the first index runs fastest. `none` if a value is NaN,
which the model of the limiter does not cover. -/
def flattenF {n m : Nat} (vals : Fin n → Fin m → Option K) : Option (List K) :=
  collectAll ((List.finRange m).flatMap fun j => (List.finRange n).map fun i => vals i j)

/-- `np.reshape(tmp, (n, m), "F")` (`oceanmesh/edgefx.py:125`); `none` = `ValueError`. -/
def reshapeF (n m : Nat) (l : List K) : Option (Fin n → Fin m → Option K) :=
  if h : l.length = n * m then some fun i j => some (l[i.val + n * j.val]'(by
    rw [h]
    have hi := i.isLt
    have hj := j.isLt
    calc i.val + n * j.val < n + n * j.val := by omega
      _ = n * (j.val + 1) := by ring
      _ ≤ n * m := Nat.mul_le_mul_left n hj))
  else none

/-- Flatten, limit, reshape (`oceanmesh/edgefx.py:120-125,162-164`); `sq2` and `sqEps` are the constants of the limiter. -/
def limitVals (sq2 sqEps elen gradation : K) {n m : Nat} (vals : Fin n → Fin m → Option K) :
    Option (Fin n → Fin m → Option K) :=
  match flattenF vals with
  | none => none
  | some f =>
    match gradientLimit sq2 sqEps n m 1 elen gradation 10000 f with
    | none => none
    | some out => reshapeF n m out

/-- The parameters of the stereographic correction: `np.pi`, `to_lat_lon` and `to_stereo` (`oceanmesh/edgefx.py:129,137,158`). -/
structure StereoMaps (K : Type) where
  pi : K
  toLatLon : K × K → K × K
  toStereo : K × K → K × K

/-- The correction near the pole (`oceanmesh/edgefx.py:126-164`), from the limited values `tmp`. `none` = exception (also an interpolant
that was not built) or NaN in a field to be limited. -/
def stereoFix (M : StereoMaps K) (sq2 sqEps gradation : K) (crs : C) (g : Grid K C) (tmp : Fin g.nx → Fin g.ny → Option K) :
    Option (Fin g.nx → Fin g.ny → Option K) :=
  let d := g.dx * 1 / 180 * M.pi / 2
  if d = 0 then none
  else
    let n := ⌈2 / d⌉.toNat
    match g.interp with
    | none => none
    | some e =>
      match limitVals sq2 sqEps d 10 (fun (i j : Fin n) => g.evalWith e (M.toLatLon (-1 + (i : K) * d, -1 + (j : K) * d))) with
      | none => none
      | some v =>
        match mkGrid ⟨-1, 1, -1, 1⟩ d none crs g.hmin (.array n n v) g.extrapolate with
        | none => none
        | some s =>
          limitVals sq2 sqEps g.dx gradation fun i j =>
            if 0 < g.yAt j then s.buildInterpolant.evalWith g.extrapolate (M.toStereo (g.xAt i, g.yAt j)) else tmp i j

/-- `enforce_mesh_gradation` (`oceanmesh/edgefx.py:91-175`); `none` = exception, or NaN in a field to be limited. The source works on a
copy of the values (`:120`), so the given grid is not changed. -/
def enforceGradation (M : StereoMaps K) (sq2 sqEps : K) (g : Grid K C) (gradation : K) (crs : C) (stereo : Bool) : Option (Grid K C) :=
  if gradation < 0 then none
  else if g.dx ≠ g.dy then none
  else
    match limitVals sq2 sqEps g.dx gradation g.vals with
    | none => none
    | some tmp =>
      match if stereo then stereoFix M sq2 sqEps gradation crs g tmp else some tmp with
      | none => none
      | some vals => (mkGrid g.box g.dx none crs g.hmin (.array g.nx g.ny vals) g.extrapolate).map Grid.buildInterpolant

/-! ## distance sizing -/

/-- Cap from above (`oceanmesh/edgefx.py:273-274,349-350,422-423`). -/
def capMax (mx : Option K) (v : K) : K :=
  match mx with
  | none => v
  | some x => if x < v then x else v

/-- The sizing from the points on the grid (`oceanmesh/edgefx.py:252-277,328-353,384-426`). `near g p` is the grid node the KD-tree
finds for a point, `fmm` is `skfmm.distance` on the field that is −1 at the marked nodes and 1 elsewhere, `none` = `ValueError`. The
mask of the shoreline version is left out. `none` = exception. -/
def distanceSizing (near : Grid K C → K × K → Nat × Nat)
    (fmm : (n m : Nat) → K → K → (Fin n → Fin m → Bool) → Option (Fin n → Fin m → K)) (box : Box K) (h0 coarsen rate : K)
    (mx : Option K) (crs : C) (points : List (K × K)) : Option (Grid K C) :=
  match mkGrid box (h0 * coarsen) none crs (some h0) (.scalar (some 0)) true with
  | none => none
  | some g =>
    let dis : Fin g.nx → Fin g.ny → K :=
      match fmm g.nx g.ny g.dx g.dy fun i j => points.any fun p => decide (near g p = (i.val, j.val)) with
      | some d => fun i j => |d i j|
      | none => fun _ _ => 999
    some (Grid.buildInterpolant { g with vals := fun i j => some (capMax mx (h0 + dis i j * rate)) })

/-- The positions along a line at which `_resample_line` takes points (`oceanmesh/edgefx.py:183-193`): `distance` grows by half the
minimum edge length while it is less than the length. Positive edge lengths only (otherwise the loop does not end). -/
def resamplePositions (len h : K) : List K := (List.range ⌈len / (h / 2)⌉.toNat).map fun (k : Nat) => (k : K) * (h / 2)

/-- `_resample_line` (`oceanmesh/edgefx.py:183-193`) with `at t` the point of the line at distance `t`; shapely rejects a line of a
single point (`none`). -/
def resampleLine {P : Type} (at_ : K → P) (len h : K) : Option (List P) :=
  let pts := (resamplePositions len h).map at_
  if pts.length = 1 then none else some pts

/-! ## the finite-difference gradient -/

/-- The difference quotient along one axis (`oceanmesh/edgefx.py:1043-1050`): one-sided at both ends, central inside. -/
def diffAxis {n : Nat} (f : Fin (n + 2) → K) (d : K) (i : Fin (n + 2)) : K :=
  if h0 : i.val = 0 then (f 1 - f 0) / d
  else if h1 : i.val = n + 1 then (f ⟨n + 1, by omega⟩ - f ⟨n, by omega⟩) / d
  else (f ⟨i.val + 1, by omega⟩ - f ⟨i.val - 1, by omega⟩) / (2 * d)

/-- `_earth_gradient` (`oceanmesh/edgefx.py:1032-1052`): `(Fy, Fx)`, the quotients along the first index with spacing `dy` and along
the second with spacing `dx`. `none` = `IndexError` for an axis with less than two nodes. Spacings other than zero. -/
def earthGradient : {n m : Nat} → (Fin n → Fin m → K) → K → K → Option ((Fin n → Fin m → K) × (Fin n → Fin m → K))
  | _ + 2, _ + 2, F, dx, dy => some (fun i j => diffAxis (fun k => F k j) dy i, fun i j => diffAxis (F i) dx j)
  | _, _, _, _, _ => none

end
end OM
