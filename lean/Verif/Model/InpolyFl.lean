import Verif.Model.Inpoly
/-!
# Model of `oceanmesh/geometry/point_in_polygon_.pyx` with rounded arithmetic

The same program as `cPoint` in `Model/Inpoly.lean`, but every sum, difference, product and quotient is rounded by a function `rnd`.
Comparisons, signs and absolute values are exact. `fused` tells whether the compiler contracts a sum with a product into one operation with a
single rounding (in a sum of two products the first one; which one it is makes no difference to the theorems' proofs).
-/
namespace OM

section
variable {K : Type} [Field K] [LinearOrder K]

/-- The value of `c + a * b`, as in `oceanmesh/geometry/point_in_polygon_.pyx:114,116-117,126`. -/
def mulAdd (rnd : K → K) (fused : Bool) (c a b : K) : K := rnd (c + if fused then a * b else rnd (a * b))

/-- The point is outside the vertical range of the edge (`oceanmesh/geometry/point_in_polygon_.pyx:69-79,98-100`). -/
def cSkipFl (rnd : K → K) (ftol : K) (q : K × K) (s : Seg K) : Bool :=
  let lo := if s.1.2 < s.2.2 then s.1.2 else s.2.2
  let hi := if s.1.2 < s.2.2 then s.2.2 else s.1.2
  decide (q.2 < rnd (lo - ftol)) || decide (rnd (hi + ftol) < q.2)

/-- The parameter `t` of the projection to the edge (`oceanmesh/geometry/point_in_polygon_.pyx:109-110,114`). -/
def cParamFl (rnd : K → K) (fused : Bool) (q : K × K) (s : Seg K) : K :=
  let dx := rnd (s.2.1 - s.1.1)
  let dy := rnd (s.2.2 - s.1.2)
  rnd (mulAdd rnd fused (rnd (rnd (q.2 - s.1.2) * dy)) (rnd (q.1 - s.1.1)) dx / mulAdd rnd fused (rnd (dy * dy)) dx dx)

/-- The distance of the point from the point of the edge with parameter `t` (`oceanmesh/geometry/point_in_polygon_.pyx:116-118`). -/
def cDistFl (rnd : K → K) (fused : Bool) (q : K × K) (s : Seg K) (t : K) : K :=
  let px := mulAdd rnd fused s.1.1 t (rnd (s.2.1 - s.1.1))
  let py := mulAdd rnd fused s.1.2 t (rnd (s.2.2 - s.1.2))
  rnd (|rnd (q.1 - px)| + |rnd (q.2 - py)|)

/-- The boundary test (`oceanmesh/geometry/point_in_polygon_.pyx:109-121`). -/
def cOnSegmentFl (rnd : K → K) (fused : Bool) (ftol : K) (q : K × K) (s : Seg K) : Bool :=
  if rnd (s.2.1 - s.1.1) ≠ 0 ∨ rnd (s.2.2 - s.1.2) ≠ 0 then
    let t := cParamFl rnd fused q s
    decide (0 ≤ t) && decide (t ≤ 1) && decide (cDistFl rnd fused q s t ≤ ftol)
  else false

/-- The abscissa `xints` (`oceanmesh/geometry/point_in_polygon_.pyx:126`). -/
def cXintFl (rnd : K → K) (fused : Bool) (q : K × K) (s : Seg K) : K :=
  let dx := rnd (s.2.1 - s.1.1)
  let dy := rnd (s.2.2 - s.1.2)
  mulAdd rnd fused s.1.1 (rnd (q.2 - s.1.2)) (rnd (dx / (if dy ≠ 0 then dy else 1 / 10000000000000000)))

/-- The crossing test (`oceanmesh/geometry/point_in_polygon_.pyx:123-128`). -/
def cCrossFl (rnd : K → K) (fused : Bool) (q : K × K) (s : Seg K) : Bool :=
  ((decide (s.1.2 ≤ q.2) && decide (q.2 < s.2.2)) || (decide (s.2.2 ≤ q.2) && decide (q.2 < s.1.2))) &&
    decide (q.1 < cXintFl rnd fused q s)

/-- The loop over the edges (`oceanmesh/geometry/point_in_polygon_.pyx:94-128`); gives `on_bnd` and `inside`. -/
def cLoopFl (rnd : K → K) (fused : Bool) (ftol : K) (q : K × K) : List (Seg K) → Bool → Bool × Bool
  | [], i => (false, i)
  | s :: l, i =>
    if cSkipFl rnd ftol q s then cLoopFl rnd fused ftol q l i
    else if cOnSegmentFl rnd fused ftol q s then (true, i)
    else if cCrossFl rnd fused q s then cLoopFl rnd fused ftol q l (!i)
    else cLoopFl rnd fused ftol q l i

/-- `inpoly2_fast` at one point with finite coordinates (`oceanmesh/geometry/point_in_polygon_.pyx:86-138`): inside and boundary answer. -/
def cPointFl (rnd : K → K) (fused : Bool) (ftol : K) (segs : List (Seg K)) (q : K × K) : Bool × Bool :=
  let r := cLoopFl rnd fused ftol q segs false
  if r.1 then (true, true) else (r.2, false)

end
end OM
