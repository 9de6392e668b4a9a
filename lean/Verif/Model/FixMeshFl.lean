import Verif.Model.MergeFl
import Verif.Model.SimpVolFl
/-!
# Model of `fix_mesh` with rounded arithmetic

`fixMesh` of `Model/FixMesh.lean` with the merging of `Model/MergeFl.lean` and the orientation step of `Model/SimpVolFl.lean`, in which every difference,
product and quotient is rounded by a function `rnd`. The other steps work on integers.
-/
namespace OM

variable {K : Type} [Field K] [LinearOrder K]

/-- `fix_mesh(p, t, ptol, dim=2, delete_unused)` (`oceanmesh/fix_mesh.py:34-74`). `rint` is `np.round`; `oP` and `oT` are the byte orders by
which `unique_rows` sorts point rows and triangle rows; `none` is a raised exception. -/
def fixMeshFl (rnd : K → K) (rint : K → Int) (oP : RowOrder (Row K)) (oT : RowOrder Tri)
    (p : List (K × K)) (t : List Tri) (ptol : K) (deleteUnused : Bool) : Option (FixResult K) :=
  match mergeFl rnd rint oP p ptol with
  | none => none
  | some (p1, jx) =>
    match mapTris (fun i => jx[i]?) t with
    | none => none
    | some t1 =>
      let t2 := unique oT (t1.map Tri.sort)
      if deleteUnused then
        let pix := unique natOrder (flatTris t2)
        let t3 := t2.map fun f => ⟨pix.idxOf f.a, pix.idxOf f.b, pix.idxOf f.c⟩
        match gather p1 pix with
        | none => none
        | some p2 =>
          match flipTrisFl rnd p2 t3 with
          | none => none
          | some t4 => some ⟨p2, t4, uniqueInverse natOrder (flatTris t2)⟩
      else
        match flipTrisFl rnd p1 t2 with
        | none => none
        | some t4 => some ⟨p1, t4, jx⟩

end OM
