import Verif.Spec.Mesh
import Mathlib.Algebra.Order.Field.Basic
import Mathlib.Data.Real.Basic
/-!
# Specification vocabulary for meshes with coordinates
-/
namespace OM.Spec
open OM
variable {K : Type} [Field K] [LinearOrder K]

/-- Every index of the table refers to a vertex. -/
def ValidMesh {α : Type} (p : List α) (t : List Tri) : Prop := ∀ f ∈ t, ∀ v, HasVertex f v → v < p.length

/-- The two rows have the same corners, possibly in another order. -/
def SameVertices (f g : Tri) : Prop := [f.a, f.b, f.c].Perm [g.a, g.b, g.c]

/-- Signed area of a triangle by the shoelace formula. -/
def signedArea (x y z : K × K) : K := (x.1 * (y.2 - z.2) + y.1 * (z.2 - x.2) + z.1 * (x.2 - y.2)) / 2

/-- The corner points of a row (`none` where an index is invalid). -/
def corners {α : Type} (p : List α) (f : Tri) : List (Option α) := [p[f.a]?, p[f.b]?, p[f.c]?]

/-- `rnd` rounds to a nearest integer (ties arbitrary). -/
def IsRounding (rnd : K → Int) : Prop := ∀ x, |(rnd x : K) - x| ≤ 1 / 2

/-- The extent of a point cloud: the largest difference of two coordinates on the same axis. -/
def IsExtent (p : List (K × K)) (e : K) : Prop :=
  (∃ q ∈ p, ∃ q' ∈ p, e = |q.1 - q'.1| ∨ e = |q.2 - q'.2|) ∧
    ∀ q ∈ p, ∀ q' ∈ p, |q.1 - q'.1| ≤ e ∧ |q.2 - q'.2| ≤ e

/-- The two points differ by at most `d` in each coordinate. -/
def Within (d : K) (q q' : K × K) : Prop := |q.1 - q'.1| ≤ d ∧ |q.2 - q'.2| ≤ d

/-- The point of the lattice with spacing `snap` to which a point is rounded. -/
def latticePoint (rnd : K → Int) (snap : K) (q : K × K) : K × K := (rnd (q.1 / snap) * snap, rnd (q.2 / snap) * snap)

/-- One of the coordinates of the common lattice point `l` is zero, approached from below by one point and not from
below by the other (numpy: `-0.0` and `0.0`). -/
def StraddleZero (l q q' : K × K) : Prop :=
  (l.1 = 0 ∧ (q.1 < 0 ↔ 0 ≤ q'.1)) ∨ (l.2 = 0 ∧ (q.2 < 0 ↔ 0 ≤ q'.2))

/-- The corners of row `f` of the mesh on `p` correspond one to one to the corners of row `g` of the mesh on `p'`, and
corresponding corners are related by `rel`. -/
def CornersMatch {α : Type} (rel : α → α → Prop) (p : List α) (f : Tri) (p' : List α) (g : Tri) : Prop :=
  ∃ x y z x' y' z', corners p f = [some x, some y, some z] ∧ (corners p' g).Perm [some x', some y', some z'] ∧
    rel x x' ∧ rel y y' ∧ rel z z'

/-- Three points on a line. -/
def Collinear (x y z : K × K) : Prop :=
  ∃ a b c : K, (a ≠ 0 ∨ b ≠ 0) ∧ a * x.1 + b * x.2 = c ∧ a * y.1 + b * y.2 = c ∧ a * z.1 + b * z.2 = c

/-- `A` gives the signed area of every triangle of the table (in particular all indices are valid). -/
def IsAreaOf (p : List (K × K)) (t : List Tri) (A : Tri → K) : Prop :=
  ∀ f ∈ t, ∃ x y z, corners p f = [some x, some y, some z] ∧ A f = signedArea x y z

open Classical in
/-- The total area (given by `A`) of the triangles connected with `f`. -/
noncomputable def componentArea (A : Tri → K) (t : List Tri) (f : Tri) : K :=
  ((t.filter fun g => decide (Connected t f g)).map A).sum

/-- Different points of the list differ by more than `d` in one of the coordinates. -/
def Separated (d : K) (p : List (K × K)) : Prop := ∀ q ∈ p, ∀ q' ∈ p, Within d q q' → q = q'

/-- `c` is the number of a row in `S`, and its quality is undefined (NaN) or not larger than that of any row in `S` (whose
qualities are then all defined). -/
def WorstAmong (qual : Tri → Option K) (t : List Tri) (S : Nat → Prop) (c : Nat) : Prop :=
  S c ∧ ∃ f, t[c]? = some f ∧ ∀ q, qual f = some q → ∀ c' g, S c' → t[c']? = some g → ∃ q', qual g = some q' ∧ q ≤ q'

end OM.Spec
