import Verif.Spec.GridNodes
import Mathlib.Order.Monotone.Basic
/-!
# Specification vocabulary for rounded arithmetic
-/
namespace OM.Spec
variable {K : Type} [Field K] [LinearOrder K]

/-- A rounding rule: it keeps the order, changes nothing that is already rounded, and keeps zero. -/
structure Rounding (rnd : K → K) : Prop where
  mono : Monotone rnd
  idem : ∀ x, rnd (rnd x) = rnd x
  zero : rnd 0 = 0

/-- The relative error of the rounding rule is at most `u`. -/
def RelError (rnd : K → K) (u : K) : Prop := ∀ x, |rnd x - x| ≤ u * |x|

/-- A number with 53 binary digits. -/
def IsDouble (x : K) : Prop := ∃ k e : Int, |k| ≤ 2 ^ 53 ∧ x = k * 2 ^ e

/-- `ForcedBy f … n v`: a grid path leads from some node to `n`, and `v` is obtained from the value at its start by applying `orth` at every
orthogonal and `diag` at every diagonal step. -/
inductive ForcedBy (f : List K) (d0 d1 d2 : Nat) (orth diag : K → K) : Nat → K → Prop
  | start {n : Nat} {x : K} : f[n]? = some x → ForcedBy f d0 d1 d2 orth diag n x
  | orth {n m : Nat} {v : K} : ForcedBy f d0 d1 d2 orth diag n v → Orthogonal d0 d1 d2 n m →
      ForcedBy f d0 d1 d2 orth diag m (orth v)
  | diag {n m : Nat} {v : K} : ForcedBy f d0 d1 d2 orth diag n v →
      MainDiagonal d0 d1 d2 n m ∨ AntiDiagonal d0 d1 d2 n m → ForcedBy f d0 d1 d2 orth diag m (diag v)

/-- Each of the two entries is at most `lim` of the other. -/
def EntriesBound (f : List K) (lim : K → K) (n m : Nat) : Prop := ∃ x y, f[n]? = some x ∧ f[m]? = some y ∧ x ≤ lim y ∧ y ≤ lim x

end OM.Spec
