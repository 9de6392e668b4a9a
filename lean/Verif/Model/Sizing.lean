import Verif.Model.Edgefx
import Verif.Model.Filter
/-!
# Model of `oceanmesh/edgefx.py`: sizing from wavelengths, from the slope of the bottom, from feature widths

`np.sqrt` and `np.cos` are parameters, so that the model can be run on rationals; the theorems use the real functions. Divisors given by
the user (`wl`, `slope_parameter`) are not zero; numpy would give infinity.
-/
namespace OM

section
variable {K C : Type} [Field K] [LinearOrder K] [FloorRing K]

/-- Assign the minimum where the value is less, NaN stays (`oceanmesh/edgefx.py:558,599,854-855,936`). -/
def clipBelow (mn : Option K) (v : Option K) : Option K :=
  match mn, v with
  | some a, some v => if v < a then some a else some v
  | _, v => v

/-- Assign the maximum where the value is more, NaN stays (`oceanmesh/edgefx.py:559-560,600-601,856-857,940-941`). -/
def clipAbove (mx : Option K) (v : Option K) : Option K :=
  match mx, v with
  | some a, some v => if a < v then some a else some v
  | _, v => v

/-! ## wavelength_sizing_function -/

/-- Metres per degree from a mean latitude handed to the cosine (`oceanmesh/edgefx.py:913-918`). The source passes degrees. -/
def metresPerDegree (cos : K → K) (lat : K) : K :=
  11113292 / 100 - 55982 / 100 * cos (2 * lat) + 1175 / 1000 * cos (4 * lat) - 23 / 10000 * cos (6 * lat)

/-- The size at a node before limits (`oceanmesh/edgefx.py:924-930`). -/
def waveSize (sqrt : K → K) (period gravity wl scale z : K) : K :=
  period * sqrt (gravity * |if |z| < 1 then 1 else z|) / wl / scale

/-- `np.amin` of all values (`oceanmesh/edgefx.py:934`): NaN (`some none`) if there is one, `none` = `ValueError` for an empty array. -/
def gridMin {n m : Nat} (vals : Fin n → Fin m → Option K) : Option (Option K) :=
  match allVals vals with
  | [] => none
  | x :: xs => some (xs.foldl optMin x)

/-- `wavelength_sizing_function` (`oceanmesh/edgefx.py:866-944`); `geo` says whether the argument `crs` is one of the two names of EPSG 4326
the source compares with. `none` = exception. A NaN as `hmin` is `none`. -/
def wavelengthSizing (sqrt cos : K → K) (dem : Grid K C) (wl : K) (mn mx : Option K) (period gravity : K) (crs : C) (geo : Bool) :
    Option (Grid K C) :=
  match dem.evalNodes dem with
  | none => none
  | some z =>
    let scale := if geo then metresPerDegree cos ((dem.box.ymin + dem.box.ymax) / 2) else 1
    let raw : Fin dem.nx → Fin dem.ny → Option K := fun i j => (z i j).map (waveSize sqrt period gravity wl scale)
    match mn with
    | none =>
      match gridMin raw with
      | none => none
      | some h =>
        (mkGrid dem.box dem.dx (some dem.dy) crs h (.array dem.nx dem.ny fun i j => clipAbove mx (raw i j)) true).map
          Grid.buildInterpolant
    | some a =>
      (mkGrid dem.box dem.dx (some dem.dy) crs (some a)
        (.array dem.nx dem.ny fun i j => clipAbove mx (clipBelow (some a) (raw i j))) true).map Grid.buildInterpolant

/-! ## bathymetric_gradient_sizing_function -/

/-- The elevation with the cutoff applied (`oceanmesh/edgefx.py:486`). -/
def cutElevation (cutoff z : K) : K := if cutoff ≤ z then cutoff else z

/-- The size at a node from elevation and slope, before limits (`oceanmesh/edgefx.py:534-552`); `scale` is metres per degree of latitude or
1. `1e-10` keeps the divisor from zero. -/
def slopeSize (twoPi slopeParameter scale z slope : K) : K :=
  twoPi / slopeParameter * |min z (-1)| / (slope + 1 / 10000000000) / scale

/-- The slope at the nodes (`oceanmesh/edgefx.py:526-527,531-532`): the gradient gets the spacings in exchanged order, so that the first index has
spacing `dx`. -/
def slopeField (sqrt : K → K) {n m : Nat} (z : Fin n → Fin m → K) (dx dy : K) : Option (Fin n → Fin m → K) :=
  (earthGradient z dy dx).map fun G i j => sqrt (G.2 i j ^ 2 + G.1 i j ^ 2)

/-- The slope of the field that a filter gives (`oceanmesh/edgefx.py:523-532`): `filt` is the filter with its arguments (`some` field
unchanged for an unknown type that contains no "pass"). The Rossby filters are `rossbySlope` of `Verif.Model.Rossby`. -/
def filteredSlope (sqrt : K → K) (filt : (n m : Nat) → K → (Fin n → Fin m → K) → Option (Fin n → Fin m → K)) {n m : Nat} (dx dy : K)
    (z : Fin n → Fin m → K) : Option (Fin n → Fin m → K) :=
  match filt n m dy z with
  | none => none
  | some f => slopeField sqrt f dx dy

/-- The values on the lattice of the DEM (`oceanmesh/edgefx.py:479-560`): `slope` is the selected computation of the slope from the spacings
in metres and the elevations, `scale` the metres per degree of longitude and latitude, or ones. -/
def slopeValues (twoPi slopeParameter cutoff : K) (scale : K × K) {n m : Nat}
    (slope : K → K → (Fin n → Fin m → K) → Option (Fin n → Fin m → K)) (mn : K) (mx : Option K) (dx dy : K)
    (z : Fin n → Fin m → K) : Option (Fin n → Fin m → Option K) :=
  let cut : Fin n → Fin m → K := fun i j => cutElevation cutoff (z i j)
  (slope (dx * scale.1) (dy * scale.2) cut).map fun s i j =>
    clipAbove mx (clipBelow (some mn) (some (slopeSize twoPi slopeParameter scale.2 (cut i j) (s i j))))

/-- All values as numbers, or `none` if one is NaN (NaN elevations are not covered by the model of
`oceanmesh/edgefx.py:429-604`). -/
def numbersOf {n m : Nat} (vals : Fin n → Fin m → Option K) : Option (Fin n → Fin m → K) :=
  if h : ∀ i j, (vals i j).isSome then some fun i j => (vals i j).get (h i j) else none

/-- `bathymetric_gradient_sizing_function` (`oceanmesh/edgefx.py:429-604`). `none` = exception or a NaN elevation. -/
def bathyGradientSizing (twoPi : K) (dem : Grid K C) (slopeParameter cutoff : K) (scale : K × K)
    (slope : K → K → (Fin dem.nx → Fin dem.ny → K) → Option (Fin dem.nx → Fin dem.ny → K)) (mn mx : Option K) (coarsen : K) : Option (Grid K C) :=
  match dem.evalNodes dem with
  | none => none
  | some z =>
    if coarsen < 1 ∨ (⌊coarsen⌋ : K) ≠ coarsen then none
    else
      match numbersOf z with
      | none => none
      | some z =>
        let lo := mn.getD (max dem.dx dem.dy)
        match slopeValues twoPi slopeParameter cutoff scale slope lo mx dem.dx dem.dy z with
        | none => none
        | some vals =>
          match mkGrid dem.box dem.dx (some dem.dy) dem.crs (some lo) (.array dem.nx dem.ny vals) true with
          | none => none
          | some g =>
            if coarsen = 1 then some g.buildInterpolant
            else
              match mkGrid dem.box (dem.dx * coarsen) (some (dem.dy * coarsen)) dem.crs (some lo) (.scalar (some 0)) true with
              | none => none
              | some target =>
                (g.buildInterpolant.interpolateTo target).map fun r =>
                  Grid.buildInterpolant { r with
                    vals := fun i j => clipAbove mx (clipBelow (some lo) (r.vals i j))
                    hmin := some lo }

/-! ## feature_sizing_function -/

/-- `feature_sizing_function` (`oceanmesh/edgefx.py:752-863`). `dMA` is the distance of the nodes to the medial points, `dis` what
`skfmm.distance` gives for the shoreline points; both come from external code. `none` = exception. -/
def featureSizing (dMA dis : (g : Grid K C) → Fin g.nx → Fin g.ny → K) (box : Box K) (h0 r : K) (mn mx : Option K) (crs : C) :
    Option (Grid K C) :=
  if 0 < r then
    match mkGrid box (h0 / 2) none crs (some h0) (.scalar (some 0)) true, mkGrid box h0 none crs (some h0) (.scalar (some 0)) true with
    | some fine, some grid =>
      let fine : Grid K C := { fine with vals := fun i j => some (2 * (dMA fine i j + |(|dis fine i j|)|) / r) }
      (fine.buildInterpolant.interpolateTo grid).map fun g =>
        Grid.buildInterpolant { g with
          vals := fun i j => clipAbove mx (clipBelow mn (g.vals i j))
          hmin := some h0
          extrapolate := true }
    | _, _ => none
  else none
end
end OM
