import Verif.Model.Sdf
/-!
# Model of the rectangle and the circle of `oceanmesh/signed_distance_function.py` with rounded arithmetic
-/
namespace OM

section
variable {K : Type} [Field K] [LinearOrder K]

/-- The function of `create_bbox` at a point of numbers (`oceanmesh/signed_distance_function.py:50-58`), every difference rounded. -/
def bboxDistanceFl (rnd : K → K) (b : Box K) (p : K × K) : K :=
  -min (min (min (rnd (-b.ymin + p.2)) (rnd (b.ymax - p.2))) (rnd (-b.xmin + p.1))) (rnd (b.xmax - p.1))

/-- The angles of `create_circle` (`oceanmesh/signed_distance_function.py:31-38`), at most `n` rounds from the angle `t`: `step` is the double `0.1`, `twoPi`
the double `2 * math.pi`. -/
def circleAnglesFl (rnd : K → K) (step twoPi : K) : Nat → K → List K
  | 0, _ => []
  | n + 1, t => if t < twoPi then t :: circleAnglesFl rnd step twoPi n (rnd (t + step)) else []

/-- `create_circle` (`oceanmesh/signed_distance_function.py:28-40`) with `cos` and `sin` of the platform; the loop is cut off after `n` rounds. -/
def createCircleFl (rnd cos sin : K → K) (step twoPi : K) (n : Nat) (center : K × K) (radius : K) : List (K × K) :=
  (circleAnglesFl rnd step twoPi n 0).map fun t => (rnd (rnd (radius * cos t) + center.1), rnd (rnd (radius * sin t) + center.2))

end
end OM
