import Verif.Model.Edges
import Verif.Model.FixMesh
/-!
# Model of `oceanmesh/clean.py`: adjacency tables, component search, deletion passes

`none` as a result stands for a raised exception. Random numbers, the outcome of unstable sorts and the quality
values are parameters.
-/
namespace OM

/-- A sorting routine for rows with a key: a permutation of the rows in ascending order of the keys, rows with equal
keys in any order. It models `argsort` on a key column followed by indexing (`oceanmesh/clean.py:74-78,148`). -/
structure KeySort (α β : Type) (le : α → α → Bool) where
  run : List (α × β) → List (α × β)
  perm : ∀ l, (run l).Perm l
  sorted : ∀ l, (run l).Pairwise fun x y => le x.1 y.1 = true

/-- The sorted sides of every face with the number of the face, counting from `i`: `e` and `trinum`
(`oceanmesh/clean.py:99-102`). -/
def sideRows : Nat → List Tri → List ((Nat × Nat) × Nat)
  | _, [] => []
  | i, f :: t =>
    ((f.sort.a, f.sort.b), i) :: ((f.sort.a, f.sort.c), i) :: ((f.sort.b, f.sort.c), i) :: sideRows (i + 1) t

/-- The face numbers of consecutive equal rows: `concatenate((trinum[k], trinum[k+1]))` with
`k = argwhere(~diff(e).any(axis=1))` (`oceanmesh/clean.py:106-107`). -/
def equalNeighbours : List ((Nat × Nat) × Nat) → List (Nat × Nat)
  | [] => []
  | [_] => []
  | x :: y :: l => if x.1 = y.1 then (x.2, y.2) :: equalNeighbours (y :: l) else equalNeighbours (y :: l)

/-- `argwhere(diff(keys)) + 1`, counting from `i`: the positions where the key changes
(`oceanmesh/clean.py:119,150-151`). -/
def changes : Nat → List Nat → List Nat
  | _, [] => []
  | _, [_] => []
  | i, x :: y :: l => if x = y then changes (i + 1) (y :: l) else (i + 1) :: changes (i + 1) (y :: l)

/-- Pointers to the blocks of equal keys: `0`, the changes and the length (`oceanmesh/clean.py:119-121,150-153`). -/
def blockPtrs (keys : List Nat) : List Nat := 0 :: (changes 0 keys ++ [keys.length])

/-- `arr[a:b]` (`oceanmesh/clean.py:283,337,506`). -/
def slice {α : Type} (l : List α) (a b : Nat) : List α := (l.take b).drop a

/-- `arr[ix[c]:ix[c+1]]`; `none` = `IndexError` (`oceanmesh/clean.py:283,337,506`). -/
def block {α : Type} (l : List α) (ix : List Nat) (c : Nat) : Option (List α) :=
  match ix[c]?, ix[c + 1]? with
  | some a, some b => some (slice l a b)
  | _, _ => none

/-- `_face_to_face` (`oceanmesh/clean.py:81-122`). The two `argsort`s of lines 108-109 only permute rows that are sorted
again in line 117; they are left out. -/
def faceToFace (srt : KeySort (Nat × Nat) Nat lexOrder.le) (t : List Tri) : List (Nat × Nat) × List Nat :=
  let pairs := equalNeighbours (srt.run (sideRows 0 t))
  let ftof := sortBy lexOrder.le
    (pairs ++ pairs.map (fun x => (x.2, x.1)) ++ (List.range t.length).map fun i => (i, i))
  (ftof, blockPtrs (ftof.map Prod.fst))

/-- The rows (corner, face number): `ve` before sorting (`oceanmesh/clean.py:145-148`). -/
def cornerRows : Nat → List Tri → List (Nat × Nat)
  | _, [] => []
  | i, f :: t => (f.a, i) :: (f.b, i) :: (f.c, i) :: cornerRows (i + 1) t

/-- `_vertex_to_face` (`oceanmesh/clean.py:125-157`). -/
def vertexToFace (srt : KeySort Nat Nat natOrder.le) (t : List Tri) : List Nat × List Nat :=
  let ve := srt.run (cornerRows 0 t)
  (ve.map Prod.snd, blockPtrs (ve.map Prod.fst))

/-- The inner loop over the neighbours of one face (`oceanmesh/clean.py:339-344`); the state is `nflag`, `visited` and
`searching`. -/
def visitNeighbours : List Nat → List Bool → List Nat → Bool → Option (List Bool × List Nat × Bool)
  | [], nflag, visited, searching => some (nflag, visited, searching)
  | n :: neis, nflag, visited, searching =>
    match nflag[n]? with
    | none => none
    | some true => visitNeighbours neis nflag visited searching
    | some false => visitNeighbours neis (nflag.set n true) (visited ++ [n]) true

/-- `for c in visited:` while the list grows (`oceanmesh/clean.py:332-344`), from position `i`. The first argument bounds
the number of steps (shown to be sufficient by `depthFirstSearch_spec`). -/
def dfsPass (adj : List (Nat × Nat) × List Nat) :
    Nat → Nat → List Bool → List Nat → Bool → Option (List Bool × List Nat × Bool)
  | 0, _, _, _, _ => none
  | fuel + 1, i, nflag, visited, searching =>
    match visited[i]? with
    | none => some (nflag, visited, searching)
    | some c =>
      match block adj.1 adj.2 c with
      | none => none
      | some rows =>
        match visitNeighbours (rows.map Prod.snd) (nflag.set c true) visited searching with
        | none => none
        | some (nflag', visited', searching') => dfsPass adj fuel (i + 1) nflag' visited' searching'

/-- `while searching:` (`oceanmesh/clean.py:331-344`). -/
def dfsLoop (adj : List (Nat × Nat) × List Nat) : Nat → List Bool → List Nat → Option (List Bool)
  | 0, _, _ => none
  | fuel + 1, nflag, visited =>
    match dfsPass adj (nflag.length + 1) 0 nflag visited false with
    | none => none
    | some (nflag', visited', searching) => if searching then dfsLoop adj fuel nflag' visited' else some nflag'

/-- `_depth_first_search` (`oceanmesh/clean.py:312-345`). `start` is the random face; `randint(0, 0)` raises, so there is
no result for an empty table. -/
def depthFirstSearch (srt : KeySort (Nat × Nat) Nat lexOrder.le) (start : Nat) (t : List Tri) : Option (List Bool) :=
  if start < t.length then dfsLoop (faceToFace srt t) (t.length + 2) (List.replicate t.length false) [start]
  else none

/-- `t1[nflag == 1, :]` for `b = true`, `np.delete(t1, nflag == 1, axis=0)` for `b = false`
(`oceanmesh/clean.py:246,257`). -/
def selectRows (b : Bool) : List Bool → List Tri → List Tri
  | x :: nflag, f :: t => if x = b then f :: selectRows b nflag t else selectRows b nflag t
  | _, _ => []

/-- `np.delete(faces, idx, 0)`, counting rows from `i` (`oceanmesh/clean.py:307,381,534`). -/
def deleteRowsFrom (idx : List Nat) : Nat → List Tri → List Tri
  | _, [] => []
  | i, f :: t => if i ∈ idx then deleteRowsFrom idx (i + 1) t else f :: deleteRowsFrom idx (i + 1) t

/-- `np.delete(faces, idx, 0)` (`oceanmesh/clean.py:307,381,534`). -/
def deleteRows (idx : List Nat) (t : List Tri) : List Tri := deleteRowsFrom idx 0 t

section
variable {K : Type} [Field K] [LinearOrder K]

/-- `np.sum(simp_vol(vertices, t))` (`oceanmesh/clean.py:238,247,263`). -/
def areaSum (p : List (K × K)) (t : List Tri) : Option K := (simpVol p t).map List.sum

/-- `(An / A) > min_disconnected_area` (`oceanmesh/clean.py:241,250`). The first comparison has `An = A`, and
`0/0 = NaN` compares as false. -/
def exceeds (an a thr : K) : Bool := decide (a ≠ 0 ∧ thr < an / a)

/-- The loop of `delete_exterior_faces` (`oceanmesh/clean.py:241-263`); `rand k n` is the result of the `k`-th call
`randint(0, n, 1)`. The first argument bounds the number of passes (sufficient by `exteriorLoop_fuel`). -/
def exteriorLoop (srt : KeySort (Nat × Nat) Nat lexOrder.le) (rand : Nat → Nat → Nat) (p : List (K × K))
    (a thr : K) : Nat → Nat → List Tri → List Tri → K → Option (List Tri)
  | 0, _, _, _, _ => none
  | fuel + 1, k, t1, acc, an =>
    if exceeds an a thr then
      match depthFirstSearch srt (rand k t1.length) t1 with
      | none => none
      | some nflag =>
        match areaSum p (selectRows true nflag t1), areaSum p (selectRows false nflag t1) with
        | some a2, some a1 =>
          exteriorLoop srt rand p a thr fuel (k + 1) (selectRows false nflag t1)
            (if exceeds a2 a thr then acc ++ selectRows true nflag t1 else acc) a1
        | _, _ => none
    else some acc

/-- `delete_exterior_faces` (`oceanmesh/clean.py:230-265`). -/
def deleteExteriorFaces (srt : KeySort (Nat × Nat) Nat lexOrder.le) (rand : Nat → Nat → Nat) (p : List (K × K))
    (t : List Tri) (thr : K) : Option (List Tri) :=
  match areaSum p t with
  | none => none
  | some a => exteriorLoop srt rand p a thr (t.length + 2) 0 t [] a

/-- The scan of `np.argmin` (`oceanmesh/clean.py:297,303`): smallest value so far, its position, current position. NaN
(`none`) wins. -/
def argminGo : Option K → Nat → Nat → List (Option K) → Nat
  | _, best, _, [] => best
  | none, best, _, _ :: _ => best
  | some _, _, i, none :: _ => i
  | some m, best, i, some x :: l =>
    if x < m then argminGo (some x) i (i + 1) l else argminGo (some m) best (i + 1) l

/-- `np.argmin` (`oceanmesh/clean.py:297,303`); `none`: an empty array raises. -/
def argmin : List (Option K) → Option Nat
  | [] => none
  | x :: l => some (argminGo x 0 1 l)

/-- The member of `cand` with the worst quality (`oceanmesh/clean.py:296-298,302-304`). `qual` is `simp_qual` of a row,
`none` = NaN. -/
def worstFace (qual : Tri → Option K) (t : List Tri) (cand : List Nat) : Option Nat := do
  let rows ← gather t cand
  let k ← argmin (rows.map qual)
  cand[k]?

/-- All three corners of face `c` occur in `etbv` (`oceanmesh/clean.py:286-289`). Face numbers come from the
vertex-to-face table, so they are always valid. -/
def onBoundary (etbv : List Nat) (t : List Tri) (c : Nat) : Bool :=
  match t[c]? with
  | none => false
  | some f => etbv.contains f.a && etbv.contains f.b && etbv.contains f.c

/-- The face chosen at one vertex from its faces `conn` (`oceanmesh/clean.py:282-304`). -/
def pickFace (qual : Tri → Option K) (etbv : List Nat) (t : List Tri) (conn : List Nat) : Option Nat :=
  match conn.filter (onBoundary etbv t) with
  | [] => worstFace qual t conn
  | [c] => some c
  | c :: c' :: r => worstFace qual t (c :: c' :: r)

/-- The loop over the over-connected vertices (`oceanmesh/clean.py:281-304`). -/
def interiorPicks (qual : Tri → Option K) (etbv : List Nat) (t : List Tri) (vtoc nne : List Nat) :
    List Nat → Option (List Nat)
  | [] => some []
  | v :: vs =>
    match block vtoc nne v with
    | none => none
    | some conn =>
      match pickFace qual etbv t conn, interiorPicks qual etbv t vtoc nne vs with
      | some c, some r => some (c :: r)
      | _, _ => none

/-- `boundary_edges.reshape(-1)` (`oceanmesh/clean.py:226,274`). -/
def flatPairs : List (Nat × Nat) → List Nat
  | [] => []
  | e :: es => e.1 :: e.2 :: flatPairs es

/-- `_external_topology` (`oceanmesh/clean.py:223-227`): boundary edges and boundary points; `none` = `IndexError`. -/
def externalTopology {α : Type} (oE : RowOrder (Nat × Nat)) (p : List α) (t : List Tri) :
    Option (List (Nat × Nat) × List α) :=
  (gather p (unique natOrder (flatPairs (getBoundaryEdges oE t)))).map fun v => (getBoundaryEdges oE t, v)

/-- `uebtv[count > 2]` (`oceanmesh/clean.py:276,282`). -/
def overConnected (etbv : List Nat) : List Nat :=
  ((uniqueCounts natOrder etbv).filter fun x => decide (2 < x.2)).map Prod.fst

/-- `delete_interior_faces` (`oceanmesh/clean.py:268-309`): remaining faces and `del_face_idx`. -/
def deleteInteriorFaces {α : Type} (oE : RowOrder (Nat × Nat)) (srtV : KeySort Nat Nat natOrder.le)
    (qual : Tri → Option K) (p : List α) (t : List Tri) : Option (List Tri × List Nat) := do
  let (bedges, _) ← externalTopology oE p t
  let etbv := flatPairs bedges
  let (vtoc, nne) := vertexToFace srtV t
  let idx ← interiorPicks qual etbv t vtoc nne (overConnected etbv)
  return (deleteRows idx t, idx)

/-- `get_boundary_entities` before `np.unique` (`oceanmesh/clean.py:503-507`). -/
def boundaryFaceLists (vtoe ptr : List Nat) : List Nat → Option (List Nat)
  | [] => some []
  | v :: vs =>
    match block vtoe ptr v, boundaryFaceLists vtoe ptr vs with
    | some l, some r => some (l ++ r)
    | _, _ => none

/-- `get_boundary_entities` (`oceanmesh/clean.py:490-509`). -/
def getBoundaryEntities {α : Type} (oE : RowOrder (Nat × Nat)) (srtV : KeySort Nat Nat natOrder.le) (p : List α)
    (t : List Tri) : Option (List Nat) := do
  let (bedges, _) ← externalTopology oE p t
  let (vtoe, ptr) := vertexToFace srtV t
  let bele ← boundaryFaceLists vtoe ptr (unique natOrder (flatPairs bedges))
  return unique natOrder bele

/-- `qual < min_qual` (`oceanmesh/clean.py:530-531`), false for NaN. -/
def belowQual (minQual : K) : Option K → Bool
  | none => false
  | some q => decide (q < minQual)

/-- The faces left by `delete_boundary_faces` before `fix_mesh` (`oceanmesh/clean.py:527-534`). -/
def deleteBoundaryRows {α : Type} (oE : RowOrder (Nat × Nat)) (srtV : KeySort Nat Nat natOrder.le)
    (qual : Tri → Option K) (minQual : K) (p : List α) (t : List Tri) : Option (List Tri) := do
  let bele ← getBoundaryEntities oE srtV p t
  let rows ← gather t bele
  let del := ((bele.zip rows).filter fun x => belowQual minQual (qual x.2)).map Prod.fst
  return deleteRows del t

/-- Everything the cleaning passes take from numpy and from `fix_mesh` defaults: byte orders, sorting routines, rounding,
the default tolerance of `fix_mesh`, and `simp_qual` for given vertices (`oceanmesh/clean.py:4-8`). -/
structure Engine (K : Type) where
  oE : RowOrder (Nat × Nat)
  oP : RowOrder (Row K)
  oT : RowOrder Tri
  srtE : KeySort (Nat × Nat) Nat lexOrder.le
  srtV : KeySort Nat Nat natOrder.le
  rnd : K → Int
  ptol : K
  qual : List (K × K) → Tri → Option K

/-- A mesh: vertices and faces, the two arrays passed around by the cleaning functions (`oceanmesh/clean.py:23-70`). -/
structure Mesh (K : Type) where
  p : List (K × K)
  t : List Tri
deriving DecidableEq, Repr

/-- `vertices, faces, _ = fix_mesh(vertices, faces, delete_unused=True)` (`oceanmesh/clean.py:213,216,382,535`). -/
def refix (E : Engine K) (p : List (K × K)) (t : List Tri) : Option (Mesh K) :=
  (fixMesh E.rnd E.oP E.oT p t E.ptol true).map fun R => ⟨R.p, R.t⟩

/-- One pass of the loop of `make_mesh_boundaries_traversable` (`oceanmesh/clean.py:212-216`). If no component is kept
`delete_exterior_faces` returns the one-dimensional `np.array([])`, on which `fix_mesh` raises (`none`). -/
def traversablePass (E : Engine K) (rand : Nat → Nat → Nat) (thr : K) (m : Mesh K) : Option (Mesh K) := do
  let t1 ← deleteExteriorFaces E.srtE rand m.p m.t thr
  if t1 = [] then none
  else
    let m1 ← refix E m.p t1
    let (t2, _) ← deleteInteriorFaces E.oE E.srtV (E.qual m1.p) m1.p m1.t
    refix E m1.p t2

/-- `while len(boundary_edges) > len(boundary_vertices)` (`oceanmesh/clean.py:207-220`); `rand k` are the random numbers of
the `k`-th pass. The first argument bounds the number of passes (sufficient by `traversableLoop_total`). The outer `Option`
distinguishes exhausted fuel (`none`) from an exception (`some none`). -/
def traversableLoop (E : Engine K) (rand : Nat → Nat → Nat → Nat) (thr : K) :
    Nat → Nat → Mesh K → Option (Option (Mesh K))
  | 0, _, _ => none
  | fuel + 1, k, m =>
    match externalTopology E.oE m.p m.t with
    | none => some none
    | some (be, bv) =>
      if bv.length < be.length then
        match traversablePass E (rand k) thr m with
        | none => some none
        | some m' => traversableLoop E rand thr fuel (k + 1) m'
      else some (some m)

/-- `make_mesh_boundaries_traversable` (`oceanmesh/clean.py:160-220`). -/
def makeTraversable (E : Engine K) (rand : Nat → Nat → Nat → Nat) (thr : K) (m : Mesh K) : Option (Option (Mesh K)) :=
  traversableLoop E rand thr (m.p.length + m.t.length + 1) 0 m

/-- `argwhere(np.diff(idx) == 2)` (`oceanmesh/clean.py:376-378`), counting from `i`. -/
def blocksOfTwo : Nat → List Nat → List Nat
  | i, a :: b :: l => if b = a + 2 then i :: blocksOfTwo (i + 1) (b :: l) else blocksOfTwo (i + 1) (b :: l)
  | _, _ => []

/-- The loop of `delete_faces_connected_to_one_face` (`oceanmesh/clean.py:373-389`). `left` is the number of iterations
still allowed (`none` = unlimited); fuel and options as in `traversableLoop`. -/
def oneFaceLoop (E : Engine K) : Nat → Option Nat → Mesh K → Option (Option (Mesh K))
  | 0, _, _ => none
  | fuel + 1, left, m =>
    if left = some 0 then some (some m)
    else
      match blocksOfTwo 0 (faceToFace E.srtE m.t).2 with
      | [] => some (some m)
      | d :: ds =>
        match refix E m.p (deleteRows (d :: ds) m.t) with
        | none => some none
        | some m' => oneFaceLoop E fuel (left.map (· - 1)) m'

/-- `delete_faces_connected_to_one_face` (`oceanmesh/clean.py:348-389`); `some none` for `max_iter = 0` is the failed
assertion. Negative limits are not represented. -/
def deleteOneFace (E : Engine K) (maxIter : Option Nat) (m : Mesh K) : Option (Option (Mesh K)) :=
  if maxIter = some 0 then some none else oneFaceLoop E (m.t.length + 1) maxIter m

/-- `delete_boundary_faces` (`oceanmesh/clean.py:512-536`). -/
def deleteBoundaryFaces (E : Engine K) (minQual : K) (m : Mesh K) : Option (Mesh K) := do
  let t ← deleteBoundaryRows E.oE E.srtV (E.qual m.p) minQual m.p m.t
  refix E m.p t

end

end OM
