import Verif.Model.Clean
import Verif.Model.FixMeshFl
import Verif.Model.SmoothFl
/-!
# Model of the cleaning passes of `oceanmesh/clean.py` with rounded arithmetic

The passes of `Model/Clean.lean` and `mesh_clean` of `Model/Smooth.lean` with the areas of `Model/SimpVolFl.lean`, `fix_mesh` of
`Model/FixMeshFl.lean` and `laplacian2` of `Model/SmoothFl.lean`. The adjacency tables, the component search and the choice of the faces to delete
work on integers and on quality values (a parameter, rounded or not), and are those of `Model/Clean.lean`.
-/
namespace OM

section
variable {K : Type} [Field K] [LinearOrder K]

/-- What the passes take from numpy and from `fix_mesh` (see `Engine`), with the rounding `fl` of an arithmetic operation and the function `sum`
computed by `np.sum` (`oceanmesh/clean.py:4-8,238,247,263`). -/
structure EngineFl (K : Type) extends Engine K where
  fl : K → K
  sum : List K → K

/-- `simp_vol(p, t)` (`oceanmesh/fix_mesh.py:119-136`) in rounded arithmetic; `none` = `IndexError`. -/
def simpVolFl (fl : K → K) (p : List (K × K)) : List Tri → Option (List K)
  | [] => some []
  | f :: t =>
    match p[f.a]?, p[f.b]?, p[f.c]?, simpVolFl fl p t with
    | some x, some y, some z, some r => some (triVolFl fl x y z :: r)
    | _, _, _, _ => none

/-- `np.sum(simp_vol(vertices, t))` (`oceanmesh/clean.py:238,247,263`). -/
def areaSumFl (E : EngineFl K) (p : List (K × K)) (t : List Tri) : Option K := (simpVolFl E.fl p t).map E.sum

/-- `(An / A) > min_disconnected_area` (`oceanmesh/clean.py:241,250`). The first comparison has `An = A`, and
`0/0 = NaN` compares as false. -/
def exceedsFl (fl : K → K) (an a thr : K) : Bool := decide (a ≠ 0 ∧ thr < fl (an / a))

/-- The loop of `delete_exterior_faces` (`oceanmesh/clean.py:241-263`); see `exteriorLoop`. -/
def exteriorLoopFl (E : EngineFl K) (rand : Nat → Nat → Nat) (p : List (K × K))
    (a thr : K) : Nat → Nat → List Tri → List Tri → K → Option (List Tri)
  | 0, _, _, _, _ => none
  | fuel + 1, k, t1, acc, an =>
    if exceedsFl E.fl an a thr then
      match depthFirstSearch E.srtE (rand k t1.length) t1 with
      | none => none
      | some nflag =>
        match areaSumFl E p (selectRows true nflag t1), areaSumFl E p (selectRows false nflag t1) with
        | some a2, some a1 =>
          exteriorLoopFl E rand p a thr fuel (k + 1) (selectRows false nflag t1)
            (if exceedsFl E.fl a2 a thr then acc ++ selectRows true nflag t1 else acc) a1
        | _, _ => none
    else some acc

/-- `delete_exterior_faces` (`oceanmesh/clean.py:230-265`). -/
def deleteExteriorFacesFl (E : EngineFl K) (rand : Nat → Nat → Nat) (p : List (K × K))
    (t : List Tri) (thr : K) : Option (List Tri) :=
  match areaSumFl E p t with
  | none => none
  | some a => exteriorLoopFl E rand p a thr (t.length + 2) 0 t [] a

/-- `vertices, faces, _ = fix_mesh(vertices, faces, delete_unused=True)` (`oceanmesh/clean.py:213,216,382,535`). -/
def refixFl (E : EngineFl K) (p : List (K × K)) (t : List Tri) : Option (Mesh K) :=
  (fixMeshFl E.fl E.rnd E.oP E.oT p t E.ptol true).map fun R => ⟨R.p, R.t⟩

/-- One pass of the loop of `make_mesh_boundaries_traversable` (`oceanmesh/clean.py:212-216`); see `traversablePass`. -/
def traversablePassFl (E : EngineFl K) (rand : Nat → Nat → Nat) (thr : K) (m : Mesh K) : Option (Mesh K) := do
  let t1 ← deleteExteriorFacesFl E rand m.p m.t thr
  if t1 = [] then none
  else
    let m1 ← refixFl E m.p t1
    let (t2, _) ← deleteInteriorFaces E.oE E.srtV (E.qual m1.p) m1.p m1.t
    refixFl E m1.p t2

/-- `while len(boundary_edges) > len(boundary_vertices)` (`oceanmesh/clean.py:207-220`); see `traversableLoop`. -/
def traversableLoopFl (E : EngineFl K) (rand : Nat → Nat → Nat → Nat) (thr : K) :
    Nat → Nat → Mesh K → Option (Option (Mesh K))
  | 0, _, _ => none
  | fuel + 1, k, m =>
    match externalTopology E.oE m.p m.t with
    | none => some none
    | some (be, bv) =>
      if bv.length < be.length then
        match traversablePassFl E (rand k) thr m with
        | none => some none
        | some m' => traversableLoopFl E rand thr fuel (k + 1) m'
      else some (some m)

/-- `make_mesh_boundaries_traversable` (`oceanmesh/clean.py:160-220`). -/
def makeTraversableFl (E : EngineFl K) (rand : Nat → Nat → Nat → Nat) (thr : K) (m : Mesh K) : Option (Option (Mesh K)) :=
  traversableLoopFl E rand thr (m.p.length + m.t.length + 1) 0 m

/-- The loop of `delete_faces_connected_to_one_face` (`oceanmesh/clean.py:373-389`); see `oneFaceLoop`. -/
def oneFaceLoopFl (E : EngineFl K) : Nat → Option Nat → Mesh K → Option (Option (Mesh K))
  | 0, _, _ => none
  | fuel + 1, left, m =>
    if left = some 0 then some (some m)
    else
      match blocksOfTwo 0 (faceToFace E.srtE m.t).2 with
      | [] => some (some m)
      | d :: ds =>
        match refixFl E m.p (deleteRows (d :: ds) m.t) with
        | none => some none
        | some m' => oneFaceLoopFl E fuel (left.map (· - 1)) m'

/-- `delete_faces_connected_to_one_face` (`oceanmesh/clean.py:348-389`); see `deleteOneFace`. -/
def deleteOneFaceFl (E : EngineFl K) (maxIter : Option Nat) (m : Mesh K) : Option (Option (Mesh K)) :=
  if maxIter = some 0 then some none else oneFaceLoopFl E (m.t.length + 1) maxIter m

/-- `delete_boundary_faces` (`oceanmesh/clean.py:512-536`). -/
def deleteBoundaryFacesFl (E : EngineFl K) (minQual : K) (m : Mesh K) : Option (Mesh K) := do
  let t ← deleteBoundaryRows E.oE E.srtV (E.qual m.p) minQual m.p m.t
  refixFl E m.p t

/-- `mesh_clean` (`oceanmesh/clean.py:61-71`); see `meshClean`. `nodes` gives the numbers found by `_closest_node` for `pfix` in the mesh to be
smoothed (`oceanmesh/clean.py:456-459`; `none` = an exception, `some []` for `pfix=None`). -/
def meshCleanFl (E : EngineFl K) (len : K × K → K × K → K) (nodes : List (K × K) → Option (List Nat))
    (rand rand' : Nat → Nat → Nat → Nat) (a : CleanParams K) (m : Mesh K) : Option (Option (Mesh K)) :=
  match makeTraversableFl E rand a.minArea m with
  | none => none
  | some none => some none
  | some (some m1) =>
    match deleteBoundaryFacesFl E a.minQual m1 with
    | none => some none
    | some m2 =>
      match deleteOneFaceFl E none m2 with
      | none => none
      | some none => some none
      | some (some m3) =>
        match nodes m3.p with
        | none => some none
        | some ifix =>
          match laplacian2Fl E.fl len E.oE a.maxIter a.tol ifix m3 with
          | none => some none
          | some m4 =>
            match makeTraversableFl E rand' a.minArea m4 with
            | none => none
            | some none => some none
            | some (some m5) => some (refixFl E m5.p m5.t)

end

end OM
