import Mathlib.Analysis.SpecialFunctions.Trigonometric.Basic
/-!
# Models of `create_circle_coords` (`oceanmesh/geodata.py:422-445`), `create_circle` (`oceanmesh/signed_distance_function.py:28-40`) and `_poly_length`
(`oceanmesh/geodata.py:558-565`)
-/
namespace OM

/-- `np.arange(0, stop, step)` (`oceanmesh/geodata.py:436`): `⌈stop / step⌉` multiples of the step, none if that is not positive; `none` = `ZeroDivisionError`. Exact
arithmetic: with doubles the number of entries may differ by one. -/
noncomputable def arangeReal (stop step : ℝ) : Option (List ℝ) :=
  if step = 0 then none else some ((List.range ⌈stop / step⌉.toNat).map fun (i : Nat) => (i : ℝ) * step)

/-- `create_circle_coords` (`oceanmesh/geodata.py:422-445`). -/
noncomputable def createCircleCoords (radius : ℝ) (center : ℝ × ℝ) (arc : ℝ) : Option (List (ℝ × ℝ)) :=
  (arangeReal (360 + arc) arc).map fun as => as.map fun a =>
    (center.1 + radius * Real.cos (a * Real.pi / 180), center.2 + radius * Real.sin (a * Real.pi / 180))

/-- The loop of `create_circle` (`oceanmesh/signed_distance_function.py:34-38`), at most `n` rounds from the angle `t`. -/
noncomputable def circleLoop (center : ℝ × ℝ) (radius : ℝ) : Nat → ℝ → List (ℝ × ℝ)
  | 0, _ => []
  | n + 1, t =>
    if t < 2 * Real.pi then (radius * Real.cos t + center.1, radius * Real.sin t + center.2) :: circleLoop center radius n (t + 1 / 10) else []

/-- `create_circle` (`oceanmesh/signed_distance_function.py:28-40`). Angles are exact: the doubles nearest to `0.1 k` are as far from `2 π` as these. The
loop ends after 63 rounds (`C106_rounds`), the 100 rounds allowed here are enough. -/
noncomputable def createCircle (center : ℝ × ℝ) (radius : ℝ) : List (ℝ × ℝ) := circleLoop center radius 100 0

/-- `np.isclose(a, b)` with its default tolerances (`oceanmesh/geodata.py:560`). -/
def isCloseTo {K : Type} [Field K] [LinearOrder K] (a b : K) : Bool := |a - b| ≤ 1 / 10 ^ 8 + 1 / 10 ^ 5 * |b|

/-- `np.diff(c, axis=0)` and the sum of the lengths of its rows (`oceanmesh/geodata.py:565`). -/
noncomputable def pathLength : List (ℝ × ℝ) → ℝ
  | a :: b :: l => Real.sqrt ((b.1 - a.1) ^ 2 + (b.2 - a.2) ^ 2) + pathLength (b :: l)
  | _ => 0

/-- `_poly_length` (`oceanmesh/geodata.py:558-565`); `none` = `IndexError` (no rows). -/
noncomputable def polyLength (coords : List (ℝ × ℝ)) : Option ℝ :=
  match coords.head?, coords.getLast? with
  | some a, some z => some (pathLength (if isCloseTo a.1 z.1 ∧ isCloseTo a.2 z.2 then coords else coords ++ [a]))
  | _, _ => none

end OM
