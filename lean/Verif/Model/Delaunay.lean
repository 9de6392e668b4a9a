import Verif.Model.Basic
/-!
# Model of the compiled helpers of the mesh generator

`oceanmesh/cpp/fast_geometry.cpp` (`unique_edges`) and `oceanmesh/cpp/delaunay_class.cpp` (the wrapper of CGAL's Delaunay triangulation),
with `_get_bars` and `_get_topology` of `oceanmesh/mesh_generator.py`.
-/
namespace OM

/-- `std::unique` (`oceanmesh/cpp/fast_geometry.cpp:55`): of every run of equal elements one is kept. -/
def stdUnique {α : Type} [DecidableEq α] : List α → List α
  | [] => []
  | [x] => [x]
  | x :: y :: l => if x = y then stdUnique (y :: l) else x :: stdUnique (y :: l)

/-- The loop that takes the flat array two by two (`oceanmesh/cpp/fast_geometry.cpp:78-81`); each pair is stored with the smaller number first.
For an array of odd size the loop reads behind the end: `none`. The cast to 32-bit integers is not modelled. -/
def edgePairs : List Nat → Option (List (Nat × Nat))
  | [] => some []
  | [_] => none
  | a :: b :: l => (edgePairs l).map ((min a b, max a b) :: ·)

/-- `unique_edges` (`oceanmesh/cpp/fast_geometry.cpp:50-97`) on the flat array; `std::sort` of `std::array` is lexicographic. The rows of the
result. -/
def uniqueEdges (edges : List Nat) : Option (List (Nat × Nat)) :=
  (edgePairs edges).map fun tl => stdUnique (sortBy lexOrder.le tl)

/-- `_get_bars` (`oceanmesh/mesh_generator.py:935-938`); the two-dimensional array is passed row by row. -/
def getBars (t : List Tri) : Option (List (Nat × Nat)) :=
  uniqueEdges ((t.map (fun f => (f.a, f.b)) ++ t.map (fun f => (f.b, f.c)) ++ t.map (fun f => (f.c, f.a))).flatMap fun e => [e.1, e.2])

/-- A finite vertex of the triangulation (`Vb`, `oceanmesh/cpp/delaunay_class.cpp:29`): its handle (a pointer, modelled by a number), its point and
the number stored by the wrapper. -/
structure DVertex (K : Type) where
  handle : Nat
  point : K × K
  info : Nat
deriving DecidableEq

/-- A finite face (`Fb`, `oceanmesh/cpp/delaunay_class.cpp:30`): its handle, the handles of its three vertices, the handles of its three
neighbours (`none`: infinite face), and the stored number. -/
structure DFace where
  handle : Nat
  corners : Fin 3 → Nat
  neighbours : Fin 3 → Option Nat
  info : Nat

/-- A triangulation (`DT`, `oceanmesh/cpp/delaunay_class.cpp:32`): finite vertices and faces in the order of the iterators. -/
structure Triangulation (K : Type) where
  vertices : List (DVertex K)
  faces : List DFace

/-- The operations of CGAL used by the wrapper: insertion of a range of points with numbers (`oceanmesh/cpp/delaunay_class.cpp:107`),
removal of a vertex (`:119`) and moving a vertex (`:142`). They are parameters of the model. -/
structure Cgal (K : Type) where
  insert : Triangulation K → List ((K × K) × Nat) → Triangulation K
  remove : Triangulation K → Nat → Triangulation K
  move : Triangulation K → Nat → K × K → Triangulation K

variable {K : Type}

/-- Numbering of the points to insert (`oceanmesh/cpp/delaunay_class.cpp:100-106`). -/
def numberFrom (start : Nat) : List (K × K) → List ((K × K) × Nat)
  | [] => []
  | p :: l => (p, start) :: numberFrom (start + 1) l

/-- `insert` (`oceanmesh/cpp/delaunay_class.cpp:95-108`); a flat array of odd size loses its last number, here the points are given as pairs. -/
def dtInsert (E : Cgal K) (d : Triangulation K) (ps : List (K × K)) : Triangulation K :=
  E.insert d (numberFrom d.vertices.length ps)

/-- The loop of `remove` over the handles collected before (`oceanmesh/cpp/delaunay_class.cpp:118-120`). An index out of range or a handle that has
been removed before is undefined behaviour: `none`. -/
def removeLoop (E : Cgal K) (handles : List Nat) : List Nat → Triangulation K → Option (Triangulation K)
  | [], d => some d
  | i :: l, d => do
    let h ← handles[i]?
    if d.vertices.any (fun v => v.handle == h) then removeLoop E handles l (E.remove d h) else none

/-- `remove` (`oceanmesh/cpp/delaunay_class.cpp:110-122`); the copy that is returned is not modelled. -/
def dtRemove (E : Cgal K) (d : Triangulation K) (toRemove : List Nat) : Option (Triangulation K) :=
  removeLoop E (d.vertices.map (·.handle)) toRemove d

/-- The loop of `move` (`oceanmesh/cpp/delaunay_class.cpp:141-143`). -/
def moveLoop (E : Cgal K) (handles : List Nat) : List (Nat × (K × K)) → Triangulation K → Option (Triangulation K)
  | [], d => some d
  | (i, q) :: l, d => do
    let h ← handles[i]?
    if d.vertices.any (fun v => v.handle == h) then moveLoop E handles l (E.move d h q) else none

/-- `move` (`oceanmesh/cpp/delaunay_class.cpp:124-145`); the positions are read for each index, so fewer positions than indices is undefined behaviour
(`none`) and surplus positions are ignored. -/
def dtMove (E : Cgal K) (d : Triangulation K) (toMove : List Nat) (positions : List (K × K)) : Option (Triangulation K) :=
  if toMove.length ≤ positions.length then moveLoop E (d.vertices.map (·.handle)) (toMove.zip positions) d else none

/-- Setting the numbers of the vertices to their positions (`oceanmesh/cpp/delaunay_class.cpp:249-259`). -/
def renumberVertices (i : Nat) : List (DVertex K) → List (DVertex K)
  | [] => []
  | v :: l => { v with info := i } :: renumberVertices (i + 1) l

/-- `get_finite_vertices` (`oceanmesh/cpp/delaunay_class.cpp:244-275`): the points in order; the stored numbers are renewed. -/
def getFiniteVertices (d : Triangulation K) : List (K × K) × Triangulation K :=
  (d.vertices.map (·.point), { d with vertices := renumberVertices 0 d.vertices })

/-- Following a vertex handle and reading the number (`oceanmesh/cpp/delaunay_class.cpp:180-182`). -/
def infoOf (vs : List (DVertex K)) (h : Nat) : Option Nat := (vs.find? (fun v => v.handle == h)).map (·.info)

/-- Setting the numbers of the faces to their positions (`oceanmesh/cpp/delaunay_class.cpp:173-179`). -/
def renumberFaces (i : Nat) : List DFace → List DFace
  | [] => []
  | f :: l => { f with info := i } :: renumberFaces (i + 1) l

/-- One row of the face table (`oceanmesh/cpp/delaunay_class.cpp:180-182`). -/
def faceRow (vs : List (DVertex K)) (f : DFace) : Option Tri := do
  let a ← infoOf vs (f.corners 0)
  let b ← infoOf vs (f.corners 1)
  let c ← infoOf vs (f.corners 2)
  return ⟨a, b, c⟩

/-- `get_finite_cells` (`oceanmesh/cpp/delaunay_class.cpp:165-200`): `none` if a face refers to a vertex that does not exist. -/
def getFiniteCells (d : Triangulation K) : Option (List Tri × Triangulation K) := do
  let t ← d.faces.mapM (faceRow d.vertices)
  return (t, { d with faces := renumberFaces 0 d.faces })

/-- One entry of the neighbour table (`oceanmesh/cpp/delaunay_class.cpp:216-222`): -1 for an infinite face. -/
def neighbourEntry (fs : List DFace) : Option Nat → Option Int
  | none => some (-1)
  | some h => (fs.find? (fun g => g.handle == h)).map fun g => (g.info : Int)

/-- `get_finite_face_neighbors` (`oceanmesh/cpp/delaunay_class.cpp:202-241`). -/
def getFiniteFaceNeighbors (d : Triangulation K) : Option (List (Int × Int × Int)) :=
  d.faces.mapM fun f => do
    let a ← neighbourEntry d.faces (f.neighbours 0)
    let b ← neighbourEntry d.faces (f.neighbours 1)
    let c ← neighbourEntry d.faces (f.neighbours 2)
    return (a, b, c)

/-- `_get_topology` (`oceanmesh/mesh_generator.py:1129-1131`): the vertices are fetched before the cells. -/
def getTopology (d : Triangulation K) : Option (List (K × K) × List Tri × Triangulation K) := do
  let r := getFiniteVertices d
  let s ← getFiniteCells r.2
  return (r.1, s.1, s.2)

/-- A call of a method of the triangulation class (`oceanmesh/cpp/delaunay_class.cpp:91-275`). -/
inductive DtCall (K : Type) where
  | insert (ps : List (K × K))
  | remove (is : List Nat)
  | move (is : List Nat) (ps : List (K × K))
  | vertices
  | cells
  | neighbours

/-- The effect of one call on the triangulation (`oceanmesh/cpp/delaunay_class.cpp:91-275`). -/
def dtStep (E : Cgal K) (d : Triangulation K) : DtCall K → Option (Triangulation K)
  | .insert ps => some (dtInsert E d ps)
  | .remove is => dtRemove E d is
  | .move is ps => dtMove E d is ps
  | .vertices => some (getFiniteVertices d).2
  | .cells => (getFiniteCells d).map (·.2)
  | .neighbours => (getFiniteFaceNeighbors d).map fun _ => d

/-- A history of calls on a new triangulation (`oceanmesh/cpp/delaunay_class.cpp:93`). -/
def dtHistory (E : Cgal K) : List (DtCall K) → Option (Triangulation K) :=
  fun l => l.foldl (fun d c => d.bind fun d => dtStep E d c) (some ⟨[], []⟩)

end OM
