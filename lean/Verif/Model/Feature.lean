import Verif.Model.Sizing
import Verif.Model.SizingInput
/-!
# Model of `feature_sizing_function` with the computation of the widths

`medial` is `skimage.morphology.medial_axis`, `near` the distance that a KD-tree gives, `tree` its index, `fmm` is `skfmm.distance`
(`none` = `ValueError`).
-/
namespace OM

section
variable {K C : Type} [Field K] [LinearOrder K] [FloorRing K]

/-- The three assignments to the array of signed distances (`oceanmesh/edgefx.py:809-812`), for one value; `none` is NaN. -/
def insideFlag (v : Option K) : Option K :=
  let v := v.map fun x => if 0 < x then 999 else x
  let v := v.map fun x => if x ≤ 0 then 1 else x
  v.map fun x => if x = 999 then 0 else x

/-- How `medial_axis` reads a value of its argument (`oceanmesh/edgefx.py:815`): as a truth value, NaN is true. -/
def readsTrue (v : Option K) : Bool := decide (v ≠ some 0)

/-- The values of a function at the nodes of a grid (`oceanmesh/edgefx.py:807-809,810-812`); `none` = exception. -/
def nodeValues (f : K × K → Option (Option K)) (g : Grid K C) : Option (Fin g.nx → Fin g.ny → Option K) :=
  if h : ∀ (i : Fin g.nx) (j : Fin g.ny), (f (g.xAt i, g.yAt j)).isSome then some fun i j => (f (g.xAt i, g.yAt j)).get (h i j) else none

/-- The nodes on the medial axis (`oceanmesh/edgefx.py:815-820`). -/
def medialPoints (g : Grid K C) (skel : Fin g.nx → Fin g.ny → Bool) : List (K × K) :=
  (List.finRange g.nx).flatMap fun i => ((List.finRange g.ny).filter fun j => skel i j).map fun (j : Fin g.ny) => (g.xAt i, g.yAt j)

/-- The nodes next to the points of the shoreline (`oceanmesh/edgefx.py:822-826`). -/
def shoreMarks (tree : List (K × K) → K × K → Nat) (g : Grid K C) (inner mainland : List (Option (K × K))) : Fin g.nx → Fin g.ny → Bool :=
  fun i j => (gridIndices tree g (inner ++ mainland)).any fun k => decide (k = (i.val, j.val))

/-- The widths on the fine lattice (`oceanmesh/edgefx.py:807-847`). `none` = exception. Simplification: without nodes on the medial axis the KD-tree
gives infinite distances; here that is `none` as well. -/
def shoreWidth (medial : (n m : Nat) → (Fin n → Fin m → Bool) → Fin n → Fin m → Bool) (near : List (K × K) → K × K → K)
    (tree : List (K × K) → K × K → Nat) (fmm : (n m : Nat) → K → K → (Fin n → Fin m → Bool) → Option (Fin n → Fin m → K))
    (sdf : K × K → Option (Option K)) (inner mainland : List (Option (K × K))) (g : Grid K C) : Option (Fin g.nx → Fin g.ny → K) :=
  match nodeValues sdf g with
  | none => none
  | some phi =>
    let pts := medialPoints g (medial g.nx g.ny fun i j => readsTrue (insideFlag (phi i j)))
    match fmm g.nx g.ny g.dx g.dy (shoreMarks tree g inner mainland) with
    | none => none
    | some d => if pts.isEmpty then none else some fun i j => near pts (g.xAt i, g.yAt j) + |(|d i j|)|

/-- `feature_sizing_function` from the widths on the fine lattice on (`oceanmesh/edgefx.py:790-806,848-863`). `none` = exception. -/
def featureFrom (width : (g : Grid K C) → Option (Fin g.nx → Fin g.ny → K)) (box : Box K) (h0 r : K) (mn mx : Option K) (crs : C) :
    Option (Grid K C) :=
  if 0 < r then
    match mkGrid box (h0 / 2) none crs (some h0) (.scalar (some 0)) true, mkGrid box h0 none crs (some h0) (.scalar (some 0)) true with
    | some fine, some grid =>
      match width fine with
      | none => none
      | some W =>
        let fine : Grid K C := { fine with vals := fun i j => some (2 * W i j / r) }
        (fine.buildInterpolant.interpolateTo grid).map fun g =>
          Grid.buildInterpolant { g with
            vals := fun i j => clipAbove mx (clipBelow mn (g.vals i j))
            hmin := some h0
            extrapolate := true }
    | _, _ => none
  else none

/-- `feature_sizing_function` (`oceanmesh/edgefx.py:752-863`) for a shoreline with arrays `inner` and `mainland` and a signed distance function. -/
def featureSizingShore (medial : (n m : Nat) → (Fin n → Fin m → Bool) → Fin n → Fin m → Bool) (near : List (K × K) → K × K → K)
    (tree : List (K × K) → K × K → Nat) (fmm : (n m : Nat) → K → K → (Fin n → Fin m → Bool) → Option (Fin n → Fin m → K))
    (sdf : K × K → Option (Option K)) (inner mainland : List (Option (K × K))) (box : Box K) (h0 r : K) (mn mx : Option K) (crs : C) :
    Option (Grid K C) :=
  featureFrom (shoreWidth medial near tree fmm sdf inner mainland) box h0 r mn mx crs
end
end OM
