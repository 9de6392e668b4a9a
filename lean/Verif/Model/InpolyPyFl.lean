import Verif.Model.Inpoly
/-!
# Model of `_inpoly_raycasting` of `oceanmesh/geometry/point_in_polygon.py` with rounded arithmetic

The same program as `pyPoint` in `Model/Inpoly.lean`, but every sum, difference, product and quotient is rounded by a function `rnd`, in the
order in which Python evaluates the expressions. Comparisons, signs, minima and absolute values are exact. Python does not contract operations.
-/
namespace OM

section
variable {K : Type} [Field K] [LinearOrder K]

/-- The point is outside the vertical range of the edge (`oceanmesh/geometry/point_in_polygon.py:263-265,272-278`). -/
def pySkipFl (rnd : K → K) (ftol : K) (q : K × K) (s : Seg K) : Bool :=
  decide (q.2 < rnd (min s.1.2 s.2.2 - ftol)) || decide (rnd (max s.1.2 s.2.2 + ftol) < q.2)

/-- `seg_len2` (`oceanmesh/geometry/point_in_polygon.py:285-286,289`). -/
def pyLen2Fl (rnd : K → K) (s : Seg K) : K :=
  let vx := rnd (s.2.1 - s.1.1)
  let vy := rnd (s.2.2 - s.1.2)
  rnd (rnd (vx * vx) + rnd (vy * vy))

/-- `cross` (`oceanmesh/geometry/point_in_polygon.py:285-288,292`). -/
def pyCrossProdFl (rnd : K → K) (q : K × K) (s : Seg K) : K :=
  rnd (rnd (rnd (s.2.1 - s.1.1) * rnd (q.2 - s.1.2)) - rnd (rnd (s.2.2 - s.1.2) * rnd (q.1 - s.1.1)))

/-- `dot` (`oceanmesh/geometry/point_in_polygon.py:285-288,296`). -/
def pyDotFl (rnd : K → K) (q : K × K) (s : Seg K) : K :=
  rnd (rnd (rnd (s.2.1 - s.1.1) * rnd (q.1 - s.1.1)) + rnd (rnd (s.2.2 - s.1.2) * rnd (q.2 - s.1.2)))

/-- The point lies on the segment within the tolerance (`oceanmesh/geometry/point_in_polygon.py:285-300`). -/
def pyOnSegmentFl (rnd : K → K) (ftol : K) (q : K × K) (s : Seg K) : Bool :=
  let len2 := pyLen2Fl rnd s
  let cross := pyCrossProdFl rnd q s
  let dot := pyDotFl rnd q s
  decide (0 < len2) && decide (rnd (rnd (cross * cross) / len2) ≤ rnd (ftol * ftol)) && decide (-ftol ≤ dot) &&
    decide (dot ≤ rnd (len2 + ftol))

/-- `x_int` (`oceanmesh/geometry/point_in_polygon.py:310`). -/
def pyXintFl (rnd : K → K) (q : K × K) (s : Seg K) : K :=
  rnd (s.1.1 + rnd (rnd (rnd (q.2 - s.1.2) * rnd (s.2.1 - s.1.1)) / rnd (s.2.2 - s.1.2)))

/-- The edge counts as a crossing of the ray to the right (`oceanmesh/geometry/point_in_polygon.py:302-312`). -/
def pyCrossFl (rnd : K → K) (ftol : K) (q : K × K) (s : Seg K) : Bool :=
  !decide (|rnd (s.2.2 - s.1.2)| ≤ ftol) && (decide (q.2 < s.1.2) != decide (q.2 < s.2.2)) && decide (q.1 < pyXintFl rnd q s)

/-- The loop over the edges (`oceanmesh/geometry/point_in_polygon.py:268-312`); gives `on_boundary` and `crossings`. -/
def pyLoopFl (rnd : K → K) (ftol : K) (q : K × K) : List (Seg K) → Nat → Bool × Nat
  | [], c => (false, c)
  | s :: l, c =>
    if pySkipFl rnd ftol q s then pyLoopFl rnd ftol q l c
    else if pyOnSegmentFl rnd ftol q s then (true, c)
    else if pyCrossFl rnd ftol q s then pyLoopFl rnd ftol q l (c + 1)
    else pyLoopFl rnd ftol q l c

/-- `_inpoly_raycasting` at one point (`oceanmesh/geometry/point_in_polygon.py:213-320`): inside and boundary answer. `nodes` is the number of
vertices. -/
def pyPointFl (rnd : K → K) (ftol : K) (nodes : Nat) (segs : List (Seg K)) (q : K × K) : Bool × Bool :=
  match segs with
  | [] => (false, false)
  | s :: l =>
    if nodes < 3 then (false, false)
    else
      let b := segBox s l
      if rnd (b.xmin - ftol) ≤ q.1 ∧ q.1 ≤ rnd (b.xmax + ftol) ∧ rnd (b.ymin - ftol) ≤ q.2 ∧ q.2 ≤ rnd (b.ymax + ftol) then
        let r := pyLoopFl rnd ftol q (s :: l) 0
        if r.1 then (true, true) else (r.2 % 2 == 1, false)
      else (false, false)

end
end OM
