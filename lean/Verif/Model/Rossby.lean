import Verif.Model.Sizing
import Verif.Model.Basic
import Mathlib.Analysis.SpecialFunctions.Log.Base
import Mathlib.Analysis.SpecialFunctions.Trigonometric.Basic
/-!
# Model of `oceanmesh/edgefx.py`: the slope by `rossby_radius_filter`, and the choice of the filter

The depths have no NaN (`numbersOf`). `np.concatenate(..., dtype=int)` of float arrays is a `TypeError` (numpy casts "same_kind" only):
the exponents `edges[i]` are floats, so `mult` is a float and so are the padded index ranges (`oceanmesh/edgefx.py:679-690,697-703`).
-/
namespace OM

section
variable {K : Type} [Field K] [LinearOrder K] [FloorRing K]

/-- The number of columns of a block (`oceanmesh/edgefx.py:649`). `none` for a grid without nodes or a box without height (division by
zero). -/
def rossbyDiv (nx ny : Nat) (height : K) : Option Nat :=
  if nx = 0 ∨ height ≤ 0 then none else some ⌈min (10000000 / (nx : K)) (10 * (ny : K) / height)⌉.toNat

/-- The blocks of columns, as ranges, from column `s` on (`oceanmesh/edgefx.py:652-656,745`). -/
def rossbyBlocks (ny div : Nat) : Nat → Nat → List (Nat × Nat)
  | 0, _ => []
  | k + 1, s => (s, min ny (s + div)) :: rossbyBlocks ny div k (min ny (s + div))

/-- The columns `s` to `e` of an array, `z[:, s:e]` (`oceanmesh/edgefx.py:661,666,672,732,735`). -/
def colSlice {A : Type} {n m : Nat} (z : Fin n → Fin m → A) (s e : Nat) : Fin n → Fin (min m e - s) → A :=
  fun i j => z i ⟨s + j.val, by have := j.isLt; omega⟩

/-- The mean difference of the first coordinate over the *rows* `s` to `e` (`oceanmesh/edgefx.py:662`: the rows are sliced with the range of
columns). `none` = NaN, for less than two rows. -/
def blockSpacing (xs : List K) (s e : Nat) : Option K :=
  let x := (xs.take e).drop s
  let d := List.zipWith (fun a b => b - a) x x.tail
  if d.length = 0 then none else some (d.sum / (d.length : K))

/-- The grid reaches around the globe (`oceanmesh/edgefx.py:691-693`). -/
def wrapsAround (xs : List K) : Bool :=
  (xs.any (fun x => decide (179 < x)) && xs.any (fun x => decide (x < -179))) ||
    (xs.any (fun x => decide (359 < x)) && xs.any (fun x => decide (x < 1)))

/-- The filtered depths of one level `k > 0` around the columns `s` to `e` (`oceanmesh/edgefx.py:689-735`): all rows, the columns with a margin
of half of `2 ^ k`, filtered by `filt2`. `none` = `TypeError` for a grid that reaches around the globe or to the north pole. With a NaN
resolution `gaussian_filter` leaves the field as it is. -/
def levelField (gauss : (n m : Nat) → K → K → (Fin n → Fin m → K) → Fin n → Fin m → K) (twoPi : K) {n m : Nat} (xs ys : List K) (dy : K)
    (z : Fin n → Fin m → K) (s e k : Nat) : Option ((w : Nat) × (Fin n → Fin w → K)) :=
  let yl := max 1 (s - 2 ^ (k - 1))
  let yu := min m (e + 2 ^ (k - 1))
  if wrapsAround xs || (ys.any (fun y => decide (89 < y)) && decide (yu = m)) then none
  else
    let wave := if k = 1 then dy * (201 / 100) else dy * 2 ^ k
    match blockSpacing xs s e with
    | none => some ⟨_, colSlice z (yl - 1) yu⟩
    | some d => (filt2 (gauss n (min m yu - (yl - 1))) twoPi (colSlice z (yl - 1) yu) (min d dy) (.scalar wave) "lowpass" (26 / 10)).map
        fun f => ⟨_, f⟩

/-- The slope of a block for one level (`oceanmesh/edgefx.py:687-740`). The filtered field is cleared outside the block and then replaced by
the depths (`oceanmesh/edgefx.py:727-732`). -/
def levelSlope (sqrt : K → K) (gauss : (n m : Nat) → K → K → (Fin n → Fin m → K) → Fin n → Fin m → K) (twoPi : K) {n m : Nat}
    (xs ys : List K) (dx dy : K) (z : Fin n → Fin m → K) (s e k : Nat) : Option (Fin n → Fin (min m e - s) → K) :=
  if 0 < k then
    match levelField gauss twoPi xs ys dy z s e k with
    | none => none
    | some _ => slopeField sqrt (colSlice z s e) dx dy
  else slopeField sqrt (colSlice z s e) dx dy

/-- Assign the slopes of one level after the other to the nodes of that level (`oceanmesh/edgefx.py:687-742`). -/
def levelLoop {n w : Nat} (slope : Nat → Option (Fin n → Fin w → K)) (level : Fin n → Fin w → Nat) :
    List Nat → (Fin n → Fin w → K) → Option (Fin n → Fin w → K)
  | [], bst => some bst
  | k :: l, bst =>
    match slope k with
    | none => none
    | some t => levelLoop slope level l fun i j => if level i j = k then t i j else bst i j

/-- The levels of a block, each once, ascending (`oceanmesh/edgefx.py:685`). -/
def blockLevels {n w : Nat} (level : Fin n → Fin w → Nat) : List Nat :=
  unique natOrder ((List.finRange n).flatMap fun i => (List.finRange w).map fun j => level i j)

/-- The slopes of all blocks (`oceanmesh/edgefx.py:655-745`), `none` in the array = NaN. -/
def blockLoop (sqrt : K → K) (gauss : (n m : Nat) → K → K → (Fin n → Fin m → K) → Fin n → Fin m → K) (twoPi : K) {n m : Nat}
    (xs ys : List K) (dx dy : K) (level : Fin n → Fin m → Nat) (z : Fin n → Fin m → K) :
    List (Nat × Nat) → (Fin n → Fin m → Option K) → Option (Fin n → Fin m → Option K)
  | [], bs => some bs
  | (s, e) :: l, bs =>
    match levelLoop (levelSlope sqrt gauss twoPi xs ys dx dy z s e) (colSlice level s e) (blockLevels (colSlice level s e))
        (fun _ _ => 0) with
    | none => none
    | some bst => blockLoop sqrt gauss twoPi xs ys dx dy level z l fun i j =>
        if h : s ≤ j.val ∧ j.val < e then some (bst i ⟨j.val - s, by have := j.isLt; omega⟩) else bs i j

/-- `rossby_radius_filter` (`oceanmesh/edgefx.py:607-749`) for given levels of the nodes (`rossbyLevel`); the time taken is left out.
The number of blocks is `ny / div` rounded up. -/
def rossbyRadiusFilter (sqrt : K → K) (gauss : (n m : Nat) → K → K → (Fin n → Fin m → K) → Fin n → Fin m → K) (twoPi : K) {n m : Nat}
    (height : K) (xs ys : List K) (level : Fin n → Fin m → Nat) (dx dy : K) (z : Fin n → Fin m → K) :
    Option (Fin n → Fin m → Option K) :=
  match rossbyDiv n m height with
  | none => none
  | some div => blockLoop sqrt gauss twoPi xs ys dx dy level z (rossbyBlocks m div ((m + div - 1) / div) 0) fun _ _ => none

/-- The branches of the choice of a filter (`oceanmesh/edgefx.py:506-532`). -/
inductive SlopeBranch
  | barotropic
  | baroclinic
  | filter
  | off
  deriving DecidableEq, Repr

/-- Which computation of the slope a type of filter selects (`oceanmesh/edgefx.py:506-532`). The `assert ValueError(...)` there always holds. -/
def slopeBranch (typeOfFilter : String) (quotient : K) : SlopeBranch :=
  if typeOfFilter = "barotropic" ∧ 0 < quotient then .barotropic
  else if typeOfFilter = "baroclinic" ∧ 0 < quotient then .baroclinic
  else if "pass".toList <:+: typeOfFilter.toList then .filter
  else .off
end

/-- The Rossby radius of deformation at a latitude in degrees and an elevation, at most ten thousand kilometres
(`oceanmesh/edgefx.py:663-681`). -/
noncomputable def rossbyRadius (barot : Bool) (lat z : ℝ) : ℝ :=
  let c := if barot then Real.sqrt (9807 / 1000 * max 1 (-z)) else 25 / 10000 * max 1 (-z) / Real.pi
  let r := if |lat| < 5 then Real.sqrt (c / (4 * (729 / 10000000) * Real.cos (lat * Real.pi / 180) / 6371000))
    else c / (2 * (729 / 10000000) * |Real.sin (lat * Real.pi / 180)|)
  if 10000000 < r then 10000000 else r

/-- The level of a node (`oceanmesh/edgefx.py:684`). -/
noncomputable def rossbyLevel (radius dy quotient : ℝ) : Nat :=
  min 10 ⌊Real.logb 2 (radius / dy / quotient)⌋.toNat

/-- The slope on the lattice of a DEM as the type of filter says (`oceanmesh/edgefx.py:506-532`). -/
noncomputable def chosenSlope {C : Type} (gauss : (n m : Nat) → ℝ → ℝ → (Fin n → Fin m → ℝ) → Fin n → Fin m → ℝ) (dem : Grid ℝ C)
    (typeOfFilter : String) (quotient : ℝ) (cutoffs : WaveArg ℝ) (dx dy : ℝ) (z : Fin dem.nx → Fin dem.ny → ℝ) :
    Option (Fin dem.nx → Fin dem.ny → ℝ) :=
  let rossby := fun barot => (rossbyRadiusFilter Real.sqrt gauss (2 * Real.pi) (dem.box.ymax - dem.box.ymin) dem.createVectors.1
    dem.createVectors.2 (fun i j => rossbyLevel (rossbyRadius barot (dem.yAt j) (z i j)) dy quotient) dx dy z).bind numbersOf
  match slopeBranch typeOfFilter quotient with
  | .barotropic => rossby true
  | .baroclinic => rossby false
  | .filter => filteredSlope Real.sqrt (fun n m d f => filt2 (gauss n m) (2 * Real.pi) f d cutoffs typeOfFilter (26 / 10)) dx dy z
  | .off => filteredSlope Real.sqrt (fun _ _ _ f => some f) dx dy z

end OM
