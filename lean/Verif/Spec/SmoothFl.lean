import Verif.Spec.Smooth
import Verif.Spec.Rounding
/-!
# Vocabulary for smoothing in rounded arithmetic
-/
namespace OM.Spec
variable {K : Type} [Field K] [LinearOrder K]

/-- `x` is the mean of the numbers `xs` up to `n + 1` roundings of relative error `u`, `n` the number of numbers. -/
def NearMean (u : K) (xs : List K) (x : K) : Prop :=
  |x * (xs.length : K) - xs.sum| ≤ ((1 + u) ^ (xs.length + 1) - 1) * (xs.map fun y => |y|).sum

/-- Every vertex that is not fixed moves to the mean of its neighbours `nb v`, up to roundings; fixed vertices stay. -/
def MovesNearMean (u : K) (nb : Nat → List Nat) (fixed : Nat → Prop) (p p' : List (K × K)) : Prop :=
  p'.length = p.length ∧ ∀ (v : Nat) (q q' : K × K), p[v]? = some q → p'[v]? = some q' →
    (fixed v → q' = q) ∧
    (¬ fixed v → ∃ qs, List.Forall₂ (fun w x => p[w]? = some x) (nb v) qs ∧ qs ≠ [] ∧
      NearMean u (qs.map Prod.fst) q'.1 ∧ NearMean u (qs.map Prod.snd) q'.2)

/-- No edge has grown by the fraction `tol` of its new length, as far as the rounded numbers tell. -/
def SettledRounded (rnd : K → K) (len : K × K → K × K → K) (tol : K) (t : List Tri) (p p' : List (K × K)) : Prop :=
  ∀ f ∈ t, ∀ e ∈ [(f.a, f.b), (f.a, f.c), (f.b, f.c)], ∀ x y x' y', p[e.1]? = some x → p[e.2]? = some y →
    p'[e.1]? = some x' → p'[e.2]? = some y' → rnd (rnd (len x' y' - len x y) / len x' y') < tol

end OM.Spec
