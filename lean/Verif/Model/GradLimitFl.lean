import Verif.Model.GradLimit
import Verif.Model.Export
import Mathlib.Data.Int.Log
/-!
# Model of `oceanmesh/cpp/HamiltonJacobi.cpp` with rounded arithmetic

The same program as in `Model/GradLimit.lean`, but every sum and every product is rounded by a function `rnd`. Comparisons are exact.
`fused` tells whether the compiler contracts `x + len * dfdx` into one operation with a single rounding. `roundDouble` is the rounding of
binary64 numbers with exponents of any size (no overflow, no subnormal numbers).
-/
namespace OM

section
variable {K : Type} [Field K] [LinearOrder K]

/-- The expression `ffun_s[nod] + elenp * dfdx` (`oceanmesh/cpp/HamiltonJacobi.cpp:152,160`). -/
def stepFl (rnd : K → K) (fused : Bool) (dfdx len x : K) : K :=
  rnd (x + if fused then len * dfdx else rnd (len * dfdx))

/-- One comparison of node `n1` with its neighbour `n2` at distance `len` (`oceanmesh/cpp/HamiltonJacobi.cpp:149-165`). -/
def relaxFl (rnd : K → K) (fused : Bool) (dfdx ftol : K) (iter : Int) (S : LimState K) (n1 n2 : Nat) (len : K) : Option (LimState K) :=
  match S.f[n1]?, S.f[n2]? with
  | some a, some b =>
    if b < a then
      let fun1 := stepFl rnd fused dfdx len b
      if rnd (fun1 + ftol) < a then some ⟨S.f.set n1 fun1, S.act.set n1 iter⟩ else some S
    else
      let fun2 := stepFl rnd fused dfdx len a
      if rnd (fun2 + ftol) < b then some ⟨S.f.set n2 fun2, S.act.set n2 iter⟩ else some S
  | _, _ => none

/-- The loop over the eight neighbours of one node (`oceanmesh/cpp/HamiltonJacobi.cpp:135-166`). -/
def relaxAllFl (rnd : K → K) (fused : Bool) (elen elend dfdx ftol : K) (iter : Int) (n : Nat) :
    List (Nat × Bool) → LimState K → Option (LimState K)
  | [], S => some S
  | (m, diag) :: r, S =>
    match relaxFl rnd fused dfdx ftol iter S n m (if diag then elend else elen) with
    | none => none
    | some S' => relaxAllFl rnd fused elen elend dfdx ftol iter n r S'

/-- The loop over the active nodes of one sweep (`oceanmesh/cpp/HamiltonJacobi.cpp:95-167`). -/
def sweepFl (rnd : K → K) (fused : Bool) (d0 d1 : Nat) (elen elend dfdx ftol : K) (iter : Int) :
    List Nat → LimState K → Option (LimState K)
  | [], S => some S
  | n :: r, S =>
    match relaxAllFl rnd fused elen elend dfdx ftol iter n (neighbours d0 d1 n) S with
    | none => none
    | some S' => sweepFl rnd fused d0 d1 elen elend dfdx ftol iter r S'

/-- The outer loop (`oceanmesh/cpp/HamiltonJacobi.cpp:83-169`); the flag tells whether it was left through the convergence test. -/
def limitLoopFl (rnd : K → K) (fused : Bool) (d0 d1 : Nat) (elen elend dfdx ftol : K) :
    Nat → Nat → LimState K → Option (LimState K × Bool)
  | 0, _, S => some (S, false)
  | fuel + 1, iter, S =>
    match findIndices S.act ((iter : Int) - 1) with
    | [] => some (S, true)
    | a :: l =>
      match sweepFl rnd fused d0 d1 elen elend dfdx ftol (iter : Int) (a :: l) S with
      | none => none
      | some S' => limitLoopFl rnd fused d0 d1 elen elend dfdx ftol fuel (iter + 1) S'

/-- `c_gradient_limit(dims, elen, dfdx, imax, ffun)` with `dims = (d0, d1, d2)` (`oceanmesh/cpp/HamiltonJacobi.cpp:59-171`): the field and
whether the loop converged. The products `*min_element * sqrt(EPS)` and `elen * sqrt(2)` are rounded
(`oceanmesh/cpp/HamiltonJacobi.cpp:68-73`). -/
def gradientLimitFlRun (rnd : K → K) (fused : Bool) (sq2 sqEps : K) (d0 d1 d2 : Nat) (elen dfdx : K) (imax : Nat) (ffun : List K) :
    Option (List K × Bool) :=
  match minElement ffun with
  | none => none
  | some m =>
    match limitLoopFl rnd fused d0 d1 elen (rnd (elen * sq2)) dfdx (rnd (m * sqEps)) imax 0
        ⟨ffun, List.replicate (d0 * d1 * d2) (-1)⟩ with
    | none => none
    | some (S, c) => some (S.f, c)

variable [FloorRing K]

/-- Rounding to a number with 53 binary digits, ties to even: the result of the `double` operations in
`oceanmesh/cpp/HamiltonJacobi.cpp:59-171`. -/
def roundDouble (x : K) : K :=
  let u : K := 2 ^ (Int.log 2 |x| - 52)
  if x < 0 then -(roundEven (|x| / u) * u) else roundEven (|x| / u) * u

end
end OM
