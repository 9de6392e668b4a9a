import Mathlib.Algebra.Order.Field.Basic
import Mathlib.Algebra.BigOperators.Group.List.Basic
/-!
# Model of `oceanmesh/idw.py`

The KD-tree query is a parameter: for every query point the list of (distance, index of the data point) of the neighbours, nearest
first. The power `dist**p` is a parameter `pw`, so that the model also computes over the rationals. A value `none` is NaN or an
exception (the comments say which). The statistics of weights (`oceanmesh/idw.py:101-103`) are modelled in `IdwState.lean`.
-/
namespace OM

section
variable {K : Type} [Field K] [LinearOrder K]

/-- The value of a neighbour, `self.z[ix]` (`oceanmesh/idw.py:91-100`); `none`: NaN, or an index out of range (the tree gives the
number of data points as index if there are fewer points than neighbours asked for: `IndexError`). -/
def neighbourValue (z : List (Option K)) (ix : Nat) : Option K := (z[ix]?).join

/-- The optional multiplier `weights[ix]` of a neighbour (`oceanmesh/idw.py:97-98`); `none` = `IndexError`. -/
def multiplier (wts : Option (List K)) (ix : Nat) : Option K :=
  match wts with
  | none => some 1
  | some w => w[ix]?

/-- Distances, optional multipliers and values of all neighbours (`oceanmesh/idw.py:95-100`); `none` if a value is NaN or an index
is out of range. -/
def neighbourData (wts : Option (List K)) (z : List (Option K)) : List (K × Nat) → Option (List (K × K × K))
  | [] => some []
  | (d, ix) :: l =>
    match neighbourValue z ix, multiplier wts ix, neighbourData wts z l with
    | some v, some m, some r => some ((d, m, v) :: r)
    | _, _, _ => none

/-- The weighted mean (`oceanmesh/idw.py:96-100`); `none` = NaN because the weights add up to zero. -/
def weightedMean (pw : K → K) (nb : List (K × K × K)) : Option K :=
  let W := (nb.map fun n => 1 / pw n.1 * n.2.1).sum
  if W = 0 then none else some (nb.map fun n => 1 / pw n.1 * n.2.1 / W * n.2.2).sum

/-- One pass of the loop of `Invdisttree.__call__` (`oceanmesh/idw.py:90-104`): the value at one query point with neighbours `nb`. -/
def idwValue (pw : K → K) (nnear : Nat) (wts : Option (List K)) (z : List (Option K)) (nb : List (K × Nat)) : Option K :=
  match nb with
  | [] => none
  | (d0, i0) :: l =>
    if nnear = 1 then neighbourValue z i0
    else if d0 < 1 / 10000000000 then neighbourValue z i0
    else
      match neighbourData wts z ((d0, i0) :: l) with
      | none => none
      | some r => weightedMean pw r

end
end OM
