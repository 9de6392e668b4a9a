import Verif.Model.FixMesh
/-!
# Model of `simp_vol` and of the orientation step of `fix_mesh` with rounded arithmetic

The same as `triVol`, `flipTri` and `flipTris` in `Model/FixMesh.lean`, but every difference, product and quotient is rounded by a function `rnd`
(numpy evaluates the expression one array operation at a time, so nothing is fused).
-/
namespace OM

section
variable {K : Type} [Field K] [LinearOrder K]

/-- `simp_vol` for one triangle, `dim == 2` (`oceanmesh/fix_mesh.py:133-136`). -/
def triVolFl (rnd : K → K) (p q r : K × K) : K :=
  let d01 := (rnd (q.1 - p.1), rnd (q.2 - p.2))
  let d02 := (rnd (r.1 - p.1), rnd (r.2 - p.2))
  rnd (rnd (rnd (d01.1 * d02.2) - rnd (d01.2 * d02.1)) / 2)

/-- `t[flip, :2] = t[flip, 1::-1]` for one row (`oceanmesh/fix_mesh.py:71-72`); `none` = `IndexError`. -/
def flipTriFl (rnd : K → K) (p : List (K × K)) (f : Tri) : Option Tri :=
  match p[f.a]?, p[f.b]?, p[f.c]? with
  | some x, some y, some z => some (if triVolFl rnd x y z < 0 then ⟨f.b, f.a, f.c⟩ else f)
  | _, _, _ => none

/-- The flip for all rows (`oceanmesh/fix_mesh.py:71-72`). -/
def flipTrisFl (rnd : K → K) (p : List (K × K)) : List Tri → Option (List Tri)
  | [] => some []
  | f :: t =>
    match flipTriFl rnd p f, flipTrisFl rnd p t with
    | some f', some t' => some (f' :: t')
    | _, _ => none

end
end OM
