import Mathlib.Algebra.Order.Field.Basic
import Mathlib.Algebra.Order.Group.Abs
/-!
# Regular node lattices, stated without the model
-/
namespace OM.Spec
variable {K : Type} [Field K] [LinearOrder K]

/-- The coordinate of node `i` of an axis with first node `x0` and spacing `d`. -/
def nodeAt (x0 d : K) (i : Nat) : K := x0 + (i : K) * d

/-- The coordinate lies between the first and the last of `n` nodes. -/
def OnAxis (x0 d : K) (n : Nat) (x : K) : Prop := 0 < n ∧ x0 ≤ x ∧ x ≤ nodeAt x0 d (n - 1)

/-- The point lies inside the lattice of `n` times `m` nodes. -/
def InLattice (x0 dx : K) (n : Nat) (y0 dy : K) (m : Nat) (q : K × K) : Prop := OnAxis x0 dx n q.1 ∧ OnAxis y0 dy m q.2

/-- Node `i` is a nearest one of `n` nodes. -/
def NearestOnAxis (x0 d : K) (n : Nat) (x : K) (i : Nat) : Prop :=
  i < n ∧ ∀ k < n, |x - nodeAt x0 d i| ≤ |x - nodeAt x0 d k|

/-- The square of the distance of two points. -/
def sqDist (p q : K × K) : K := (p.1 - q.1) ^ 2 + (p.2 - q.2) ^ 2

/-- Node `(i, j)` is a nearest node of the lattice in the plane. -/
def NearestNode (x0 dx : K) (n : Nat) (y0 dy : K) (m : Nat) (q : K × K) (i j : Nat) : Prop :=
  i < n ∧ j < m ∧ ∀ k < n, ∀ l < m, sqDist q (nodeAt x0 dx i, nodeAt y0 dy j) ≤ sqDist q (nodeAt x0 dx k, nodeAt y0 dy l)

end OM.Spec
