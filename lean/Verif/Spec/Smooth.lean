import Verif.Spec.Geometry
import Mathlib.Data.List.Forall2
/-!
# Vocabulary for the smoothing properties
-/
namespace OM.Spec

/-- The other two corners of every triangle containing `v` (with repetitions, triangle by triangle). -/
def otherCorners (t : List Tri) (v : Nat) : List Nat :=
  t.flatMap fun f => if HasVertex f v then [f.a, f.b, f.c].filter (fun w => decide (w ≠ v)) else []

/-- For every triangle and every one of its three positions that holds `v`, the vertices at the other two positions. For
triangles with three different corners these are the other corners; a triangle `(v, v, w)` counts `v` as its own neighbour. -/
def mates (t : List Tri) (v : Nat) : List Nat :=
  t.flatMap fun f => (if f.a = v then [f.b, f.c] else []) ++ (if f.b = v then [f.a, f.c] else []) ++
    (if f.c = v then [f.a, f.b] else [])

/-- How many of the sides of all triangles (three for each) have the ends `u` and `v`. -/
def sideCount (t : List Tri) (u v : Nat) : Nat :=
  ((t.flatMap fun f => [(f.a, f.b), (f.b, f.c), (f.c, f.a)]).filter
    fun e => decide ((e.1 = u ∧ e.2 = v) ∨ (e.1 = v ∧ e.2 = u))).length

/-- `R` holds `n` times in a row. -/
inductive Steps {α : Type} (R : α → α → Prop) : Nat → α → α → Prop
  | zero (x : α) : Steps R 0 x x
  | succ {n : Nat} {x y z : α} : R x y → Steps R n y z → Steps R (n + 1) x z

variable {K : Type} [Field K] [LinearOrder K]

/-- `q` is the mean of the points `qs`. -/
def IsMean (qs : List (K × K)) (q : K × K) : Prop :=
  qs ≠ [] ∧ q.1 * (qs.length : K) = (qs.map Prod.fst).sum ∧ q.2 * (qs.length : K) = (qs.map Prod.snd).sum

/-- Every vertex that is not fixed moves to the mean of its neighbours `nb v` (with repetitions); fixed vertices stay. -/
def MovesToMean (nb : Nat → List Nat) (fixed : Nat → Prop) (p p' : List (K × K)) : Prop :=
  p'.length = p.length ∧ ∀ (v : Nat) (q q' : K × K), p[v]? = some q → p'[v]? = some q' →
    (fixed v → q' = q) ∧
    (¬ fixed v → ∃ qs, List.Forall₂ (fun w x => p[w]? = some x) (nb v) qs ∧ IsMean qs q')

/-- Every vertex that is not fixed moves to the mean of the other corners of its triangles; fixed vertices stay. -/
def SmoothingStep (t : List Tri) (fixed : Nat → Prop) (p p' : List (K × K)) : Prop :=
  MovesToMean (otherCorners t) fixed p p'

/-- No edge has grown by the fraction `tol` of its new length. -/
def Settled (len : K × K → K × K → K) (tol : K) (t : List Tri) (p p' : List (K × K)) : Prop :=
  ∀ f ∈ t, ∀ e ∈ [(f.a, f.b), (f.a, f.c), (f.b, f.c)], ∀ x y x' y', p[e.1]? = some x → p[e.2]? = some y →
    p'[e.1]? = some x' → p'[e.2]? = some y' → (len x' y' - len x y) / len x' y' < tol

/-- `i` is the number of the first of the points nearest to `q`. -/
def IsNearest (p : List (K × K)) (q : K × K) (i : Nat) : Prop :=
  ∃ x, p[i]? = some x ∧ ∀ (j : Nat) (y : K × K), p[j]? = some y →
    (x.1 - q.1) ^ 2 + (x.2 - q.2) ^ 2 ≤ (y.1 - q.1) ^ 2 + (y.2 - q.2) ^ 2 ∧
    (j < i → (x.1 - q.1) ^ 2 + (x.2 - q.2) ^ 2 < (y.1 - q.1) ^ 2 + (y.2 - q.2) ^ 2)

end OM.Spec
