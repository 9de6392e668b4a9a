import Mathlib.Algebra.Order.Field.Basic
/-!
# Model of `oceanmesh/cpp/HamiltonJacobi.cpp`

Values live in a linearly ordered field. The constants `std::sqrt(2.0)` and `std::sqrt(1e-9)` are parameters `sq2` and
`sqEps`. `none` as a result stands for an access outside an array.
-/
namespace OM

/-- `sub2ind` (`oceanmesh/cpp/HamiltonJacobi.cpp:28-30`); all indices 1-based, column major. -/
def sub2ind (row col zpos nrows ncols : Nat) : Nat := 1 + (zpos - 1) * ncols * nrows + (col - 1) * nrows + (row - 1)

/-- `ind2sub` (`oceanmesh/cpp/HamiltonJacobi.cpp:33-42`): `(i, j, k)`, 1-based. -/
def ind2sub (index nrows ncols : Nat) : Nat × Nat × Nat :=
  let nij := nrows * ncols
  let ij := (index - 1) % nij
  (1 + ij % nrows, 1 + ij / nrows, 1 + (index - 1) / nij)

/-- The state of the limiter: `ffun_s` and `aset` (`oceanmesh/cpp/HamiltonJacobi.cpp:66,76-78`). -/
structure LimState (K : Type) where
  f : List K
  act : List Int
deriving DecidableEq, Repr

/-- `findIndices` (`oceanmesh/cpp/HamiltonJacobi.cpp:48-56`), counted from `i`. -/
def findIndicesFrom (i : Nat) (v : Int) : List Int → List Nat
  | [] => []
  | a :: l => if a = v then i :: findIndicesFrom (i + 1) v l else findIndicesFrom (i + 1) v l

/-- `findIndices(A, value)` (`oceanmesh/cpp/HamiltonJacobi.cpp:48-56`). -/
def findIndices (l : List Int) (v : Int) : List Nat := findIndicesFrom 0 v l

/-- `npos[1..8]` as 0-based indices, each with `true` where the diagonal length is used
(`oceanmesh/cpp/HamiltonJacobi.cpp:97-147`). Entry 8 repeats entry 5, as in the source. -/
def neighbours (d0 d1 : Nat) (n : Nat) : List (Nat × Bool) :=
  let s := ind2sub (n + 1) d0 d1
  let i := s.1
  let j := s.2.1
  let k := s.2.2
  [(sub2ind i (min (j + 1) d1) k d0 d1 - 1, false),
   (sub2ind i (max (j - 1) 1) k d0 d1 - 1, false),
   (sub2ind (min (i + 1) d0) j k d0 d1 - 1, false),
   (sub2ind (max (i - 1) 1) j k d0 d1 - 1, false),
   (sub2ind (min (i + 1) d0) (min (j + 1) d1) k d0 d1 - 1, true),
   (sub2ind (max (i - 1) 1) (min (j + 1) d1) k d0 d1 - 1, true),
   (sub2ind (max (i - 1) 1) (max (j - 1) 1) k d0 d1 - 1, true),
   (sub2ind (min (i + 1) d0) (min (j + 1) d1) k d0 d1 - 1, true)]

section
variable {K : Type} [Field K] [LinearOrder K]

/-- One comparison of node `n1` with its neighbour `n2` at distance `len`
(`oceanmesh/cpp/HamiltonJacobi.cpp:149-165`). -/
def relax (dfdx ftol : K) (iter : Int) (S : LimState K) (n1 n2 : Nat) (len : K) : Option (LimState K) :=
  match S.f[n1]?, S.f[n2]? with
  | some a, some b =>
    if b < a then
      let fun1 := b + len * dfdx
      if fun1 + ftol < a then some ⟨S.f.set n1 fun1, S.act.set n1 iter⟩ else some S
    else
      let fun2 := a + len * dfdx
      if fun2 + ftol < b then some ⟨S.f.set n2 fun2, S.act.set n2 iter⟩ else some S
  | _, _ => none

/-- The loop over the eight neighbours of one node (`oceanmesh/cpp/HamiltonJacobi.cpp:135-166`). -/
def relaxAll (elen elend dfdx ftol : K) (iter : Int) (n : Nat) :
    List (Nat × Bool) → LimState K → Option (LimState K)
  | [], S => some S
  | (m, diag) :: r, S =>
    match relax dfdx ftol iter S n m (if diag then elend else elen) with
    | none => none
    | some S' => relaxAll elen elend dfdx ftol iter n r S'

/-- The loop over the active nodes of one sweep (`oceanmesh/cpp/HamiltonJacobi.cpp:95-167`). -/
def sweep (d0 d1 : Nat) (elen elend dfdx ftol : K) (iter : Int) : List Nat → LimState K → Option (LimState K)
  | [], S => some S
  | n :: r, S =>
    match relaxAll elen elend dfdx ftol iter n (neighbours d0 d1 n) S with
    | none => none
    | some S' => sweep d0 d1 elen elend dfdx ftol iter r S'

/-- The outer loop (`oceanmesh/cpp/HamiltonJacobi.cpp:83-169`); first argument: remaining iterations. The flag tells
whether the loop was left through the convergence test. -/
def limitLoop (d0 d1 : Nat) (elen elend dfdx ftol : K) : Nat → Nat → LimState K → Option (LimState K × Bool)
  | 0, _, S => some (S, false)
  | fuel + 1, iter, S =>
    match findIndices S.act ((iter : Int) - 1) with
    | [] => some (S, true)
    | a :: l =>
      match sweep d0 d1 elen elend dfdx ftol (iter : Int) (a :: l) S with
      | none => none
      | some S' => limitLoop d0 d1 elen elend dfdx ftol fuel (iter + 1) S'

/-- `*std::min_element(ffun.begin(), ffun.end())` (`oceanmesh/cpp/HamiltonJacobi.cpp:68`); `none`: empty vector. -/
def minElement : List K → Option K
  | [] => none
  | x :: l => some (l.foldl min x)

/-- `c_gradient_limit(dims, elen, dfdx, imax, ffun)` with `dims = (d0, d1, d2)`
(`oceanmesh/cpp/HamiltonJacobi.cpp:59-171`): the field and whether the loop converged (the flag is not returned by
the source). -/
def gradientLimitRun (sq2 sqEps : K) (d0 d1 d2 : Nat) (elen dfdx : K) (imax : Nat) (ffun : List K) :
    Option (List K × Bool) :=
  match minElement ffun with
  | none => none
  | some m =>
    match limitLoop d0 d1 elen (elen * sq2) dfdx (m * sqEps) imax 0 ⟨ffun, List.replicate (d0 * d1 * d2) (-1)⟩ with
    | none => none
    | some (S, c) => some (S.f, c)

/-- `gradient_limit` (`oceanmesh/cpp/HamiltonJacobi.cpp:174-201`). -/
def gradientLimit (sq2 sqEps : K) (d0 d1 d2 : Nat) (elen dfdx : K) (imax : Nat) (ffun : List K) : Option (List K) :=
  (gradientLimitRun sq2 sqEps d0 d1 d2 elen dfdx imax ffun).map Prod.fst

end
end OM
