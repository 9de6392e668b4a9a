import Verif.Model.Smooth
import Verif.Model.GradLimitFl
/-!
# `laplacian2` in rounded arithmetic (`oceanmesh/clean.py`)

Every sum and quotient of coordinates is rounded by `rnd`. The lengths of the edges (`oceanmesh/clean.py:468-471,477-480`) are
still a parameter, rounded or not. `coo_matrix` adds the products of its entries with the coordinates in the order of the
entries; the entries are ones, so the products are exact (trusted base).
-/
namespace OM

section
variable {K : Type} [Field K] [LinearOrder K]

/-- Row `v` of `S @ vertices` (`oceanmesh/clean.py:474`), added up in the order of the entries from `acc` on. -/
def rowSumFl (rnd : K → K) (p : List (K × K)) (v : Nat) : K × K → List (Nat × Nat) → Option (K × K)
  | acc, [] => some acc
  | acc, (i, j) :: es =>
    if i = v then
      match p[j]? with
      | some q => rowSumFl rnd p v (rnd (acc.1 + q.1), rnd (acc.2 + q.2)) es
      | none => none
    else rowSumFl rnd p v acc es

/-- `pnew = S @ vertices / W; pnew[bnd] = vertices[bnd]` (`oceanmesh/clean.py:474-475`) for the rows from `v` on. -/
def smoothRowsFl (rnd : K → K) (es : List (Nat × Nat)) (bnd : List Nat) (p : List (K × K)) :
    Nat → List (K × K) → Option (List (K × K))
  | _, [] => some []
  | v, q :: r =>
    match rowSumFl rnd p v (0, 0) es, smoothRowsFl rnd es bnd p (v + 1) r with
    | some s, some r' =>
      some ((if bnd.contains v then q else (rnd (s.1 / (rowWeight es v : K)), rnd (s.2 / (rowWeight es v : K)))) :: r')
    | _, _ => none

/-- The entries of `np.divide((Lnew - L), Lnew)` (`oceanmesh/clean.py:481`). -/
def edgeChangesFl (rnd : K → K) (len : K × K → K × K → K) (p p' : List (K × K)) : List (Nat × Nat) → Option (List K)
  | [] => some []
  | (i, j) :: es =>
    match p[i]?, p[j]?, p'[i]?, p'[j]?, edgeChangesFl rnd len p p' es with
    | some x, some y, some x', some y', some r => some (rnd (rnd (len x' y' - len x y) / len x' y') :: r)
    | _, _, _, _, _ => none

/-- The loop `oceanmesh/clean.py:473-485`; the first argument is the number of iterations left. -/
def smoothLoopFl (rnd : K → K) (len : K × K → K × K → K) (tol : K) (es edge : List (Nat × Nat)) (bnd : List Nat) :
    Nat → List (K × K) → Option (List (K × K))
  | 0, p => some p
  | n + 1, p =>
    match smoothRowsFl rnd es bnd p 0 p with
    | none => none
    | some p' =>
      match (edgeChangesFl rnd len p p' edge).bind maxElement with
      | none => none
      | some move => if move < tol then some p' else smoothLoopFl rnd len tol es edge bnd n p'

/-- `laplacian2` (`oceanmesh/clean.py:414-487`) in rounded arithmetic. `ifix` are the numbers found by `_closest_node`
(`oceanmesh/clean.py:456-459`), none for `pfix=None`; the exception for an empty list of fixed points is left out here. -/
def laplacian2Fl (rnd : K → K) (len : K × K → K × K → K) (oE : RowOrder (Nat × Nat)) (maxIter : Nat) (tol : K)
    (ifix : List Nat) (m : Mesh K) : Option (Mesh K) :=
  let es := smoothEntries m.t
  if es.all (fun e => decide (e.1 < m.p.length)) then
    match externalTopology oE m.p m.t with
    | some (be, _) =>
      if (List.range m.p.length).any (fun v => rowWeight es v == 0) then some m
      else
        (smoothLoopFl rnd len tol es (getEdges m.t) (unique natOrder (flatPairs be) ++ ifix) maxIter m.p).map
          fun p => ⟨p, m.t⟩
    | none => none
  else none

end

end OM
