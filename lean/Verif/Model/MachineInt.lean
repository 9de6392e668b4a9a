import Verif.Model.GradLimit
import Verif.Model.Delaunay
/-!
# Model of the compiled code with 32-bit integers

`Model/GradLimit.lean` and `Model/Delaunay.lean` compute with unbounded numbers. Here every operation on a C++ `int` is modelled on 32 bits: a sum, difference or product out of range is undefined
behaviour and a result `none`, as are accesses outside of arrays and exceptions. Conversions from wider integers wrap around (as compilers and numpy do). `std::size_t` has 64 bits and is not
exceeded by sizes of arrays in memory; it is unbounded here. Assertions are not compiled.
-/
namespace OM

/-- The value of a signed operation on `int`, `none` = overflow (`oceanmesh/cpp/HamiltonJacobi.cpp:28-42`). -/
def cint (z : Int) : Option Int := if -2147483648 ≤ z ∧ z ≤ 2147483647 then some z else none

/-- `a + b` (`oceanmesh/cpp/HamiltonJacobi.cpp:29`). -/
def cadd (a b : Int) : Option Int := cint (a + b)

/-- `a - b` (`oceanmesh/cpp/HamiltonJacobi.cpp:29`). -/
def csub (a b : Int) : Option Int := cint (a - b)

/-- `a * b` (`oceanmesh/cpp/HamiltonJacobi.cpp:29`). -/
def cmul (a b : Int) : Option Int := cint (a * b)

/-- `a / b`, rounded towards zero (`oceanmesh/cpp/HamiltonJacobi.cpp:36-37`). -/
def cdiv (a b : Int) : Option Int := if b = 0 then none else cint (Int.tdiv a b)

/-- `a % b`, with the sign of `a` (`oceanmesh/cpp/HamiltonJacobi.cpp:35,38`); undefined where the quotient is. -/
def cmod (a b : Int) : Option Int := if b = 0 then none else (cint (Int.tdiv a b)).map fun _ => Int.tmod a b

/-- Conversion to `int` (`oceanmesh/cpp/HamiltonJacobi.cpp:52,178`, `oceanmesh/cpp/fast_geometry.cpp:84`, `forcecast` of arrays `:70`). -/
def toInt (z : Int) : Int := (z + 2147483648) % 4294967296 - 2147483648

/-- `sub2ind` (`oceanmesh/cpp/HamiltonJacobi.cpp:28-30`). -/
def sub2indM (row col zpos nrows ncols : Int) : Option Int := do
  let a ← csub zpos 1
  let b ← cmul a ncols
  let c ← cmul b nrows
  let d ← cadd 1 c
  let e ← csub col 1
  let f ← cmul e nrows
  let g ← cadd d f
  let h ← csub row 1
  cadd g h

/-- `ind2sub` (`oceanmesh/cpp/HamiltonJacobi.cpp:33-42`). -/
def ind2subM (index nrows ncols : Int) : Option (Int × Int × Int) := do
  let nij ← cmul nrows ncols
  let z ← csub index 1
  let ij ← cmod z nij
  let q ← cdiv z nij
  let k ← cadd 1 q
  let q2 ← cdiv ij nrows
  let j ← cadd 1 q2
  let r ← cmod ij nrows
  let i ← cadd 1 r
  return (i, j, k)

/-- One entry of `npos`, 0-based (`oceanmesh/cpp/HamiltonJacobi.cpp:108-131`). -/
def posM (d0 d1 k i j : Int) : Option Int := do
  let s ← sub2indM i j k d0 d1
  csub s 1

/-- `npos[1..8]` (`oceanmesh/cpp/HamiltonJacobi.cpp:97-131`). -/
def neighboursM (d0 d1 n : Int) : Option (List (Int × Bool)) := do
  let inod ← cadd n 1
  let s ← ind2subM inod d0 d1
  let i := s.1
  let j := s.2.1
  let k := s.2.2
  let jr ← cadd j 1
  let jl ← csub j 1
  let it ← cadd i 1
  let ib ← csub i 1
  let p1 ← posM d0 d1 k i (min jr d1)
  let p2 ← posM d0 d1 k i (max jl 1)
  let p3 ← posM d0 d1 k (min it d0) j
  let p4 ← posM d0 d1 k (max ib 1) j
  let p5 ← posM d0 d1 k (min it d0) (min jr d1)
  let p6 ← posM d0 d1 k (max ib 1) (min jr d1)
  let p7 ← posM d0 d1 k (max ib 1) (max jl 1)
  let p8 ← posM d0 d1 k (min it d0) (min jr d1)
  return [(p1, false), (p2, false), (p3, false), (p4, false), (p5, true), (p6, true), (p7, true), (p8, true)]

/-- `findIndices` (`oceanmesh/cpp/HamiltonJacobi.cpp:48-56`) with the conversion of line 52. -/
def findIndicesM (l : List Int) (v : Int) : List Int := (findIndices l v).map fun (i : Nat) => toInt (i : Int)

section
variable {K : Type} [Field K] [LinearOrder K]

/-- Storing a value and marking the node (`oceanmesh/cpp/HamiltonJacobi.cpp:154-155,162-163`). -/
def storeM (S : LimState K) (n : Nat) (v : K) (iter : Int) : Option (LimState K) :=
  if n < S.f.length ∧ n < S.act.length then some ⟨S.f.set n v, S.act.set n iter⟩ else none

/-- One comparison (`oceanmesh/cpp/HamiltonJacobi.cpp:149-165`). -/
def relaxM (dfdx ftol : K) (iter : Int) (S : LimState K) (n1 n2 : Int) (len : K) : Option (LimState K) :=
  if n1 < 0 ∨ n2 < 0 then none
  else
    match S.f[n1.toNat]?, S.f[n2.toNat]? with
    | some a, some b =>
      if b < a then (if b + len * dfdx + ftol < a then storeM S n1.toNat (b + len * dfdx) iter else some S)
      else (if a + len * dfdx + ftol < b then storeM S n2.toNat (a + len * dfdx) iter else some S)
    | _, _ => none

/-- The loop over the eight neighbours (`oceanmesh/cpp/HamiltonJacobi.cpp:135-166`). -/
def relaxAllM (elen elend dfdx ftol : K) (iter n : Int) : List (Int × Bool) → LimState K → Option (LimState K)
  | [], S => some S
  | (m, diag) :: r, S =>
    match relaxM dfdx ftol iter S n m (if diag then elend else elen) with
    | none => none
    | some S' => relaxAllM elen elend dfdx ftol iter n r S'

/-- The loop over the active nodes (`oceanmesh/cpp/HamiltonJacobi.cpp:95-167`). -/
def sweepM (d0 d1 : Int) (elen elend dfdx ftol : K) (iter : Int) : List Int → LimState K → Option (LimState K)
  | [], S => some S
  | n :: r, S =>
    match neighboursM d0 d1 n with
    | none => none
    | some l =>
      match relaxAllM elen elend dfdx ftol iter n l S with
      | none => none
      | some S' => sweepM d0 d1 elen elend dfdx ftol iter r S'

/-- The outer loop (`oceanmesh/cpp/HamiltonJacobi.cpp:83-169`); first argument: remaining iterations. -/
def limitLoopM (d0 d1 : Int) (elen elend dfdx ftol : K) : Nat → Int → LimState K → Option (LimState K)
  | 0, _, S => some S
  | fuel + 1, iter, S =>
    match csub iter 1, cadd iter 1 with
    | some prev, some next =>
      match findIndicesM S.act prev with
      | [] => some S
      | a :: l =>
        match sweepM d0 d1 elen elend dfdx ftol iter (a :: l) S with
        | none => none
        | some S' => limitLoopM d0 d1 elen elend dfdx ftol fuel next S'
    | _, _ => none

/-- `c_gradient_limit` (`oceanmesh/cpp/HamiltonJacobi.cpp:59-171`); a vector of negative size is an exception. -/
def limitRunM (sq2 sqEps : K) (d0 d1 d2 : Int) (elen dfdx : K) (imax : Int) (ffun : List K) : Option (List K) := do
  let p ← cmul d0 d1
  let p ← cmul p d2
  if p < 0 then none
  else
    let m ← minElement ffun
    let S ← limitLoopM d0 d1 elen (elen * sq2) dfdx (m * sqEps) imax.toNat 0 ⟨ffun, List.replicate p.toNat (-1)⟩
    return S.f

/-- `gradient_limit` (`oceanmesh/cpp/HamiltonJacobi.cpp:174-201`): the conversions of the arguments. `imax` out of range is an exception of pybind11. -/
def gradientLimitM (sq2 sqEps : K) (dims : List Int) (elen dfdx : K) (imax : Int) (ffun : List K) : Option (List K) :=
  let num := toInt ffun.length
  if num < 0 then none
  else
    match dims.map toInt with
    | d0 :: d1 :: d2 :: _ =>
      match cint imax with
      | none => none
      | some imax => limitRunM sq2 sqEps d0 d1 d2 elen dfdx imax (ffun.take num.toNat)
    | _ => none

end

/-- The loop over the flat array (`oceanmesh/cpp/fast_geometry.cpp:77-81`). -/
def edgePairsM : List Int → Option (List (Int × Int))
  | [] => some []
  | [_] => none
  | a :: b :: l => (edgePairsM l).map ((min a b, max a b) :: ·)

/-- `operator<` of `std::array<int, 2>` as used by `std::sort`, as a comparison `≤` (`oceanmesh/cpp/fast_geometry.cpp:52`). -/
def arrayLe (a b : Int × Int) : Bool := decide (a.1 < b.1 ∨ (a.1 = b.1 ∧ a.2 ≤ b.2))

/-- The array that is returned (`oceanmesh/cpp/fast_geometry.cpp:84-96`): the size is converted to `int` and halved; a negative number of rows is an exception. -/
def takeRows (u : List (Int × Int)) : Option (List (Int × Int)) :=
  if Int.tdiv (toInt (2 * (u.length : Int))) 2 < 0 then none else some (u.take (Int.tdiv (toInt (2 * (u.length : Int))) 2).toNat)

/-- `unique_edges` (`oceanmesh/cpp/fast_geometry.cpp:69-97`); the numbers are converted by `forcecast`. -/
def uniqueEdgesM (edges : List Int) : Option (List (Int × Int)) := (edgePairsM (edges.map toInt)).bind fun tl => takeRows (stdUnique (sortBy arrayLe tl))

section
variable {K : Type}

/-- The numbers given to inserted points (`oceanmesh/cpp/delaunay_class.cpp:98-106`); `start` is an `int` that is counted up after each point. -/
def numberFromM (start : Int) : List (K × K) → Option (List ((K × K) × Int))
  | [] => some []
  | p :: l => do
    let next ← cadd start 1
    let r ← numberFromM next l
    return (p, start) :: r

/-- The places in the table of vertices (`oceanmesh/cpp/delaunay_class.cpp:249-259`): `i * 2`, `i * 2 + 1`, then `i += 1`. -/
def vertexPlaces (i : Int) : Nat → Option (List (Int × Int))
  | 0 => some []
  | n + 1 => do
    let a ← cmul i 2
    let b ← cadd a 1
    let next ← cadd i 1
    let r ← vertexPlaces next n
    return (a, b) :: r

/-- The places in the table of faces (`oceanmesh/cpp/delaunay_class.cpp:173-184`): `i * 3`, `i * 3 + 1`, `i * 3 + 2`, then `i += 1`. -/
def facePlaces (i : Int) : Nat → Option (List (Int × Int × Int))
  | 0 => some []
  | n + 1 => do
    let a ← cmul i 3
    let b ← cadd a 1
    let c ← cadd a 2
    let next ← cadd i 1
    let r ← facePlaces next n
    return (a, b, c) :: r

/-- The places in the table of neighbours (`oceanmesh/cpp/delaunay_class.cpp:210-225`): `i * 3` is an `int`, the sum with the `size_t` `j` is not. -/
def neighbourPlaces (i : Int) : Nat → Option (List (Int × Int × Int))
  | 0 => some []
  | n + 1 => do
    let a ← cmul i 3
    let next ← cadd i 1
    let r ← neighbourPlaces next n
    return (a, a + 1, a + 2) :: r

end
end OM
