import Verif.Model.Geodata
/-!
# Model of the smoothing, densifying and area functions of `oceanmesh/geodata.py` with rounded arithmetic

As in `Model/Geodata.lean`, with every operation rounded by `fl`.
-/
namespace OM

section
variable {K : Type} [Field K] [LinearOrder K]

/-- `L * 0.75 + R * 0.25` for one point (`oceanmesh/geodata.py:649`). -/
def cutFl (fl : K → K) (a b : K × K) : K × K :=
  (fl (fl (a.1 * (3 / 4)) + fl (b.1 * (1 / 4))), fl (fl (a.2 * (3 / 4)) + fl (b.2 * (1 / 4))))

/-- One refinement from point `c` on, with the point before it (`oceanmesh/geodata.py:643-649`), as in `chaikinFrom`. -/
def chaikinFromFl (fl : K → K) (prev : K × K) : List (K × K) → List (K × K)
  | [] => []
  | [c] => [cutFl fl c prev, cutFl fl c c]
  | c :: d :: l => cutFl fl c prev :: cutFl fl c d :: chaikinFromFl fl c (d :: l)

/-- `_chaikins_corner_cutting` (`oceanmesh/geodata.py:637-652`); `none` = `IndexError` for an empty array. -/
def chaikinFl (fl : K → K) : Nat → List (K × K) → Option (List (K × K))
  | 0, l => some l
  | _ + 1, [] => none
  | n + 1, c :: l => chaikinFl fl n (chaikinFromFl fl c (c :: l))

/-- `_smooth_shoreline` (`oceanmesh/geodata.py:655-670`). -/
def smoothShorelineFl (fl : K → K) (n : Nat) (polys : List (Option (K × K))) : Option (List (Option (K × K))) :=
  (collect (fun f => (chaikinFl fl n f).map fun r => r.map some ++ [none]) (clumps [] (none :: polys))).bind convertToArray

/-- The number of points to insert between rows `a` and `b` (`oceanmesh/geodata.py:512-517`), as in `segExtra`. The one that is subtracted
from the result of `np.ceil` is not rounded (it is exact below `2^53`). -/
def segExtraFl [FloorRing K] (fl : K → K) (maxdiff : K) (a b : Option (K × K)) (insideB : Bool) : Nat :=
  if insideB = false then 0
  else
    match a, b with
    | some a, some b => (⌈fl (max |fl (b.2 - a.2)| |fl (b.1 - a.1)| / maxdiff)⌉ - 1).toNat
    | _, _ => 0

/-- `nin` (`oceanmesh/geodata.py:512-517`): for each segment with the mask of its end point. -/
def segExtrasFl [FloorRing K] (fl : K → K) (maxdiff : K) : List (Option (K × K)) → List Bool → List Nat
  | a :: b :: l, _ :: ib :: ins => segExtraFl fl maxdiff a b ib :: segExtrasFl fl maxdiff (b :: l) (ib :: ins)
  | _, _ => []

/-- Column `k` of `_create_ranges(a, b, N)` (`oceanmesh/geodata.py:489-498`): `steps * k + start` with `steps = (1.0 / divisor) * (stop - start)`. -/
def rangePointFl (fl : K → K) (a b : K × K) (N k : Nat) : K × K :=
  (fl (fl (fl (fl (1 / ((N : K) - 1)) * fl (b.1 - a.1)) * (k : K)) + a.1), fl (fl (fl (fl (1 / ((N : K) - 1)) * fl (b.2 - a.2)) * (k : K)) + a.2))

/-- The rows written for segment `a`–`b` (`oceanmesh/geodata.py:529-543`). -/
def segRowsFl (fl : K → K) (a b : Option (K × K)) (ni : Nat) : List (Option (K × K)) :=
  if ni = 0 then [a]
  else
    match a, b with
    | some a, some b => (List.range (ni + 1)).map fun k => some (rangePointFl fl a b (ni + 2) k)
    | _, _ => (List.range (ni + 1)).map fun _ => none

/-- The loop that fills the buffers from position `n` (`oceanmesh/geodata.py:526-543`). -/
def fillLoopFl (fl : K → K) : List (Option (K × K)) → Nat → List (Option (K × K)) → List Nat → Option (List (Option (K × K)))
  | buf, n, a :: b :: l, ni :: nin =>
    match writeAt buf n (segRowsFl fl a b ni) with
    | none => none
    | some buf' => fillLoopFl fl buf' (n + ni + 1) (b :: l) nin
  | buf, _, _, _ => some buf

/-- `_densify` (`oceanmesh/geodata.py:501-550`) with the mask `inside` given, as in `densify`. -/
def densifyFl [FloorRing K] (fl : K → K) (maxdiff : K) (poly : List (Option (K × K))) (inside : List Bool) : Option (List (Option (K × K))) :=
  let nin := segExtrasFl fl maxdiff poly inside
  if nin.sum = 0 then some poly
  else
    match fillLoopFl fl (List.replicate (nin.sum + poly.length) none) 0 poly nin with
    | none => none
    | some buf =>
      match poly.getLast? with
      | none => none
      | some r => writeAt buf (buf.length - 1) [r]

/-- `_poly_area` (`oceanmesh/geodata.py:553-555`) with `np.dot` as a parameter; `none` = `ValueError` for vectors of different lengths. -/
def polyAreaFl (fl : K → K) (dot : List K → List K → K) (x y : List K) : Option K :=
  if x.length = y.length then some (fl (1 / 2 * |fl (dot x (roll y) - dot y (roll x))|)) else none

end
end OM
