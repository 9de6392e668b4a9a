import Verif.Model.Clean
/-!
# Model of `laplacian2` and `mesh_clean` (`oceanmesh/clean.py`)

Coordinates are elements of an ordered field. The square root is hidden in the parameter `len`, the length of an edge
already raised to `eps` (`oceanmesh/clean.py:468-471,477-480`).
-/
namespace OM

section
variable {K : Type} [Field K] [LinearOrder K]

/-- Row and column numbers of the ones put into the matrix `S` (`oceanmesh/clean.py:445-450`), face by face; equal entries
are summed by `coo_matrix`, so only the number of occurrences matters. -/
def smoothEntries : List Tri → List (Nat × Nat)
  | [] => []
  | f :: t => (f.a, f.b) :: (f.a, f.c) :: (f.b, f.a) :: (f.b, f.c) :: (f.c, f.a) :: (f.c, f.b) :: smoothEntries t

/-- `W = np.sum(S, 1)` at row `v` (`oceanmesh/clean.py:462`). -/
def rowWeight (es : List (Nat × Nat)) (v : Nat) : Nat := (es.filter fun e => e.1 == v).length

/-- Row `v` of `S @ vertices` (`oceanmesh/clean.py:474`). -/
def rowSum (p : List (K × K)) (v : Nat) : List (Nat × Nat) → Option (K × K)
  | [] => some (0, 0)
  | (i, j) :: es =>
    if i = v then
      match p[j]?, rowSum p v es with
      | some q, some s => some (q.1 + s.1, q.2 + s.2)
      | _, _ => none
    else rowSum p v es

/-- `pnew = S @ vertices / W; pnew[bnd] = vertices[bnd]` (`oceanmesh/clean.py:474-475`) for the rows from `v` on. It is only
evaluated when no row weight is zero (`oceanmesh/clean.py:463-466`). -/
def smoothRows (es : List (Nat × Nat)) (bnd : List Nat) (p : List (K × K)) : Nat → List (K × K) → Option (List (K × K))
  | _, [] => some []
  | v, q :: r =>
    match rowSum p v es, smoothRows es bnd p (v + 1) r with
    | some s, some r' =>
      some ((if bnd.contains v then q else (s.1 / (rowWeight es v : K), s.2 / (rowWeight es v : K))) :: r')
    | _, _ => none

/-- `_closest_node` (`oceanmesh/clean.py:435-439`): the first smallest squared distance; `none` for no vertices. -/
def closestNode (p : List (K × K)) (q : K × K) : Option Nat :=
  argmin (p.map fun x => some ((x.1 - q.1) * (x.1 - q.1) + (x.2 - q.2) * (x.2 - q.2)))

/-- The numbers `ifix` (`oceanmesh/clean.py:456-459`). -/
def closestNodes (p : List (K × K)) : List (K × K) → Option (List Nat)
  | [] => some []
  | q :: qs =>
    match closestNode p q, closestNodes p qs with
    | some i, some is => some (i :: is)
    | _, _ => none

/-- The fixed vertices for `pfix=None` and for a list of points (`oceanmesh/clean.py:455-460`). -/
def fixedNodes (p : List (K × K)) : Option (List (K × K)) → Option (List Nat)
  | none => some []
  | some qs => closestNodes p qs

/-- The entries of `np.divide((Lnew - L), Lnew)` (`oceanmesh/clean.py:468-472,477-481`). -/
def edgeChanges (len : K × K → K × K → K) (p p' : List (K × K)) : List (Nat × Nat) → Option (List K)
  | [] => some []
  | (i, j) :: es =>
    match p[i]?, p[j]?, p'[i]?, p'[j]?, edgeChanges len p p' es with
    | some x, some y, some x', some y', some r => some ((len x' y' - len x y) / len x' y' :: r)
    | _, _, _, _, _ => none

/-- `np.amax` (`oceanmesh/clean.py:481`); `none` is the `ValueError` for an empty array. -/
def maxElement : List K → Option K
  | [] => none
  | x :: l => some (l.foldl max x)

/-- The loop `oceanmesh/clean.py:473-485`; the first argument is the number of iterations left. (In the code `L` always
holds the lengths before the step.) -/
def smoothLoop (len : K × K → K × K → K) (tol : K) (es edge : List (Nat × Nat)) (bnd : List Nat) :
    Nat → List (K × K) → Option (List (K × K))
  | 0, p => some p
  | n + 1, p =>
    match smoothRows es bnd p 0 p with
    | none => none
    | some p' =>
      match (edgeChanges len p p' edge).bind maxElement with
      | none => none
      | some move => if move < tol then some p' else smoothLoop len tol es edge bnd n p'

/-- `laplacian2` (`oceanmesh/clean.py:414-487`). `pfix = none` is Python's `None`. `none` = an exception: an index out of
range (raised by `coo_matrix`), a fixed point given for a mesh without vertices, an empty `pfix` (the empty float array makes
`bnd` a float array, which is rejected as an index in line 475), no edges. -/
def laplacian2 (len : K × K → K × K → K) (oE : RowOrder (Nat × Nat)) (maxIter : Nat) (tol : K)
    (pfix : Option (List (K × K))) (m : Mesh K) : Option (Mesh K) :=
  let es := smoothEntries m.t
  if es.all (fun e => decide (e.1 < m.p.length)) then
    match externalTopology oE m.p m.t, fixedNodes m.p pfix with
    | some (be, _), some ifix =>
      if (List.range m.p.length).any (fun v => rowWeight es v == 0) then some m
      else if pfix = some [] ∧ maxIter ≠ 0 then none
      else
        (smoothLoop len tol es (getEdges m.t) (unique natOrder (flatPairs be) ++ ifix) maxIter m.p).map
          fun p => ⟨p, m.t⟩
    | _, _ => none
  else none

/-- The parameters of `mesh_clean` (`oceanmesh/clean.py:23-31`). -/
structure CleanParams (K : Type) where
  minQual : K
  minArea : K
  maxIter : Nat
  tol : K
  pfix : Option (List (K × K))

/-- `mesh_clean` (`oceanmesh/clean.py:61-71`). `rand`, `rand'` are the random numbers of the two calls of
`make_mesh_boundaries_traversable`. The outer `Option` is only for the fuel of the loops (never `none`, see
`C21_terminates`); `some none` = an exception. -/
def meshClean (E : Engine K) (len : K × K → K × K → K) (rand rand' : Nat → Nat → Nat → Nat) (a : CleanParams K)
    (m : Mesh K) : Option (Option (Mesh K)) :=
  match makeTraversable E rand a.minArea m with
  | none => none
  | some none => some none
  | some (some m1) =>
    match deleteBoundaryFaces E a.minQual m1 with
    | none => some none
    | some m2 =>
      match deleteOneFace E none m2 with
      | none => none
      | some none => some none
      | some (some m3) =>
        match laplacian2 len E.oE a.maxIter a.tol a.pfix m3 with
        | none => some none
        | some m4 =>
          match makeTraversable E rand' a.minArea m4 with
          | none => none
          | some none => some none
          | some (some m5) => some (refix E m5.p m5.t)

end

end OM
