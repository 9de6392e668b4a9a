import Mathlib.Algebra.Order.Floor.Ring
import Mathlib.Algebra.Field.Basic
/-!
# Model of the node lattice of `Grid` with rounded arithmetic (`oceanmesh/grid.py`)

The same as the node counts of `mkGrid` and the coordinates of `createVectors` in `Model/Grid.lean`, but every operation is rounded by a function
`rnd`. Floor division is the algorithm of CPython and numpy for doubles: the remainder (`fmod`) is exact, all other operations are rounded.
-/
namespace OM

section
variable {K : Type} [Field K] [LinearOrder K] [FloorRing K]

/-- `a // d` for floats with `0 ≤ a` and `0 < d` (as in `oceanmesh/grid.py:177-178`; other signs do not occur because the box and the spacings are
checked before). -/
def floorDivFl (rnd : K → K) (a d : K) : K :=
  let m := a - d * (⌊a / d⌋ : K)
  let q := rnd (rnd (a - m) / d)
  let f : K := (⌊q⌋ : K)
  if 1 / 2 < rnd (q - f) then rnd (f + 1) else f

/-- The number of nodes along one axis for scalar values (`oceanmesh/grid.py:177-178`); the absolute value of the second one changes nothing, as the
number is not negative. -/
def axisCountFl (rnd : K → K) (lo hi d : K) : Nat := (⌊floorDivFl rnd (rnd (hi - lo)) d⌋ + 1).toNat

/-- The coordinate of node `i` along one axis (`oceanmesh/grid.py:205-206`). -/
def axisNodeFl (rnd : K → K) (lo d : K) (i : Nat) : K := rnd (lo + rnd ((i : K) * d))

/-- The coordinates along one axis (`oceanmesh/grid.py:205-206`). -/
def axisNodesFl (rnd : K → K) (lo hi d : K) : List K := (List.range (axisCountFl rnd lo hi d)).map (axisNodeFl rnd lo d)

end
end OM
