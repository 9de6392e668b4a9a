import Verif.Spec.Geometry
import Verif.Spec.Lattice
import Verif.Spec.Smooth
import Verif.Model.Generator
/-!
# Specification vocabulary for the mesh generator (C68–C72)
-/
namespace OM.Spec
variable {K : Type} [Field K] [LinearOrder K]

/-- A function on arrays works point by point: whenever it returns, the entries are the values of `f`. It may raise. -/
def Pointwise {α β : Type} (F : List α → Option (List β)) (f : α → β) : Prop := ∀ l r, F l = some r → r = l.map f

/-- The middle of the sorted numbers, or the mean of the two numbers in the middle. -/
def IsMedian (l : List K) (m : K) : Prop :=
  ∃ (s : List K) (a b : K), s.Perm l ∧ s.Pairwise (· ≤ ·) ∧ s[(l.length - 1) / 2]? = some a ∧ s[l.length / 2]? = some b ∧ m = (a + b) / 2

/-- Centre of gravity of a triangle. -/
def centroid (x y z : K × K) : K × K := ((x.1 + y.1 + z.1) / 3, (x.2 + y.2 + z.2) / 3)

/-- The centroid of the triangle lies inside by more than `g`. -/
def InsideBy (f : K × K → K) (g : K) (p : List (K × K)) (r : Tri) : Prop :=
  ∃ x y z, corners p r = [some x, some y, some z] ∧ f (centroid x y z) < -g

/-- `f` agrees with the affine function `n · x + c` at `q`. -/
def AffineAt (f : K × K → K) (n : K × K) (c : K) (q : K × K) : Prop := f q = n.1 * q.1 + n.2 * q.2 + c

/-- The size if it is finite and positive. -/
def usable : Float64 K → Option K
  | .fin x => if 0 < x then some x else none
  | _ => none

/-- The middle of two points. -/
def middle (x y : K × K) : K × K := ((x.1 + y.1) / 2, (x.2 + y.2) / 2)

/-- The coordinates of vertex `v` (used for valid indices only). -/
def vertexAt (p : List (K × K)) (v : Nat) : K × K := (p[v]?).getD (0, 0)

/-- `a - b` if the bar `e = (u, w)` starts at `v`, `b - a` if it ends there: the direction from the other end to `v`. -/
def awayFromOther (v : Nat) (e : Nat × Nat) (a b : K) : K := (if e.1 = v then a - b else 0) + (if e.2 = v then b - a else 0)

/-- `q` is a point of the lattice with step `h` that starts at the lower left corner of the box and ends less than one step behind its upper right
corner. -/
def IsLatticePoint (b : Box K) (h : K) (q : K × K) : Prop :=
  ∃ i j : Nat, q = (nodeAt b.xmin h i, nodeAt b.ymin h j) ∧ q.1 < b.xmax + h ∧ q.2 < b.ymax + h

/-- A size multiplied by a positive number. -/
def scaled (c : K) : Float64 K → Float64 K
  | .fin x => .fin (c * x)
  | x => x

end OM.Spec
