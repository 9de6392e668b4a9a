import Verif.Model.FixMesh3D
/-!
# Model of `simp_qual` for tetrahedra

The assertion of `simp_qual` lets points with three coordinates and rows of four numbers pass (`oceanmesh/fix_mesh.py:15`); the lengths are those of the first three corners.
-/
namespace OM

/-- Edge length in space (`oceanmesh/fix_mesh.py:17-18`). -/
noncomputable def edgeLength3 (p q : ℝ × ℝ × ℝ) : ℝ := Real.sqrt ((q.1 - p.1) ^ 2 + (q.2.1 - p.2.1) ^ 2 + (q.2.2 - p.2.2) ^ 2)

/-- `simp_qual` for one tetrahedron with corners `p q r s` (`oceanmesh/fix_mesh.py:6-31`): `a`, `b`, `c` are the lengths between the corners in the columns 0, 1, 2; the
column 3 is not read. -/
noncomputable def tetQual (p q r _s : ℝ × ℝ × ℝ) : Option ℝ := qualOfLengths (edgeLength3 p q) (edgeLength3 p r) (edgeLength3 q r)

end OM
