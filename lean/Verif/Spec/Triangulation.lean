import Verif.Model.Delaunay
/-!
# What CGAL guarantees, and what a connectivity table means

Vocabulary for C75: well-formed triangulations, the contract of CGAL's operations, and tables that refer to the right points.
-/
namespace OM.Spec
variable {K : Type}

/-- Handles with their points. -/
def placed (d : Triangulation K) : List (Nat × (K × K)) := d.vertices.map fun v => (v.handle, v.point)

/-- A triangulation as CGAL keeps it: different handles, different points, faces refer to existing vertices and faces. -/
structure WellFormed (d : Triangulation K) : Prop where
  handles : (d.vertices.map (·.handle)).Nodup
  points : (d.vertices.map (·.point)).Nodup
  faceHandles : (d.faces.map (·.handle)).Nodup
  corners : ∀ f ∈ d.faces, ∀ j, f.corners j ∈ d.vertices.map (·.handle)
  neighbours : ∀ f ∈ d.faces, ∀ j h, f.neighbours j = some h → h ∈ d.faces.map (·.handle)

/-- The contract of CGAL's operations: insertion adds exactly the points that are missing, removal removes the vertex, moving gives the vertex
its new point or removes it if another vertex is already there (documentation of `CGAL::Delaunay_triangulation_2`). Faces, order and
stored numbers are left open. -/
structure CgalLaws (E : Cgal K) : Prop where
  insert_wf : ∀ d l, WellFormed d → WellFormed (E.insert d l)
  insert_points : ∀ d l, WellFormed d → ∀ q, q ∈ (E.insert d l).vertices.map (·.point) ↔ q ∈ d.vertices.map (·.point) ∨ q ∈ l.map Prod.fst
  remove_wf : ∀ d h, WellFormed d → h ∈ d.vertices.map (·.handle) → WellFormed (E.remove d h)
  remove_placed : ∀ d h, WellFormed d → h ∈ d.vertices.map (·.handle) →
    ∀ g q, (g, q) ∈ placed (E.remove d h) ↔ (g, q) ∈ placed d ∧ g ≠ h
  move_wf : ∀ d h q, WellFormed d → h ∈ d.vertices.map (·.handle) → WellFormed (E.move d h q)
  move_placed : ∀ d h q, WellFormed d → h ∈ d.vertices.map (·.handle) →
    ∀ g r, (g, r) ∈ placed (E.move d h q) ↔ ((g, r) ∈ placed d ∧ g ≠ h) ∨ (g = h ∧ r = q ∧ ∀ k, (k, q) ∈ placed d → k = h)

/-- The point of corner `j` of a face. -/
def IsCorner (d : Triangulation K) (f : DFace) (j : Fin 3) (q : K × K) : Prop := ∃ v ∈ d.vertices, v.handle = f.corners j ∧ v.point = q

/-- A connectivity table refers to the points of a list: row by row the indices are positions of the corner points. -/
def RefersTo (d : Triangulation K) (p : List (K × K)) (t : List Tri) : Prop :=
  t.length = d.faces.length ∧
    ∀ (i : Nat) (f : DFace) (r : Tri), d.faces[i]? = some f → t[i]? = some r → ∃ A B C : K × K, IsCorner d f 0 A ∧ IsCorner d f 1 B ∧ IsCorner d f 2 C ∧
      p[r.a]? = some A ∧ p[r.b]? = some B ∧ p[r.c]? = some C

/-- An entry of a neighbour table: -1 for no finite face, otherwise the position of the face. -/
def NeighbourIs (d : Triangulation K) (f : DFace) (j : Fin 3) (n : Int) : Prop :=
  match f.neighbours j with
  | none => n = -1
  | some h => ∃ k : Nat, n = k ∧ ∃ g, d.faces[k]? = some g ∧ g.handle = h

/-- Calls that only read. -/
def IsRead (c : DtCall K) : Prop := c = .vertices ∨ c = .cells ∨ c = .neighbours

end OM.Spec
