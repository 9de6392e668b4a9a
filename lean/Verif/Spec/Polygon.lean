import Mathlib.Algebra.Order.Field.Basic
import Mathlib.Algebra.Order.AbsoluteValue.Basic
/-!
# Segments, rings and triangles, independent of the kernels
-/
namespace OM.Spec

section
variable {K : Type} [Field K] [LinearOrder K]

/-- `q` is a point of the segment from `a` to `b`. -/
def OnClosedSegment (q a b : K × K) : Prop :=
  ∃ t : K, 0 ≤ t ∧ t ≤ 1 ∧ q.1 = a.1 + t * (b.1 - a.1) ∧ q.2 = a.2 + t * (b.2 - a.2)

/-- `q` is at most `d` away from a point of the segment `a b`, the distance being the sum of the distances along the axes. -/
def NearSegment (d : K) (q a b : K × K) : Prop := ∃ z : K × K, OnClosedSegment z a b ∧ |q.1 - z.1| + |q.2 - z.2| ≤ d

/-- `q` is a point of the open triangle `a b c`. -/
def InTriangle (q a b c : K × K) : Prop :=
  ∃ u v w : K, 0 < u ∧ 0 < v ∧ 0 < w ∧ u + v + w = 1 ∧ q.1 = u * a.1 + v * b.1 + w * c.1 ∧ q.2 = u * a.2 + v * b.2 + w * c.2

/-- The ray from `q` to the right meets the edge (the lower end belongs to the edge, the upper one does not). -/
def RayMeets (q : K × K) (s : (K × K) × (K × K)) : Prop :=
  ((s.1.2 ≤ q.2 ∧ q.2 < s.2.2) ∨ (s.2.2 ≤ q.2 ∧ q.2 < s.1.2)) ∧ q.1 < s.1.1 + (q.2 - s.1.2) * (s.2.1 - s.1.1) / (s.2.2 - s.1.2)

instance (q : K × K) (s : (K × K) × (K × K)) : Decidable (RayMeets q s) := by unfold RayMeets; infer_instance

/-- The height `y` is not level with the edge, or the edge is exactly flat, or its vertical extent is larger than `w`: a nearly but not exactly flat edge
is more than `e` above or at least `e` below `y`. -/
def LevelClear (w e y : K) (s : (K × K) × (K × K)) : Prop :=
  |s.2.2 - s.1.2| ≤ w → s.1.2 = s.2.2 ∨ y + e < min s.1.2 s.2.2 ∨ max s.1.2 s.2.2 + e ≤ y
end

section
variable {V : Type} [DecidableEq V]

/-- The number of edge ends at a vertex. -/
def endCount (es : List (V × V)) (v : V) : Nat := es.countP (·.1 = v) + es.countP (·.2 = v)

/-- Every vertex has an even number of edge ends, as in a collection of closed rings. -/
def EvenDegrees (es : List (V × V)) : Prop := ∀ v, Even (endCount es v)
end

end OM.Spec
