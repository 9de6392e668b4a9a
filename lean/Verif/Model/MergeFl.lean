import Verif.Model.FixMesh
/-!
# Model of the merging of vertices in `fix_mesh` with rounded arithmetic

The same as `snapSize`, `snapRow` and the first lines of `fixMesh` in `Model/FixMesh.lean`, but every difference, product and quotient is rounded by a
function `rnd`. `rint` is `np.round`, which is exact: it gives an integer.
-/
namespace OM

section
variable {K : Type} [Field K] [LinearOrder K]

/-- `snap = (p.max(0) - p.min(0)).max() * ptol` (`oceanmesh/fix_mesh.py:54`); `none`: `max` of an empty array raises. -/
def snapSizeFl (rnd : K → K) (p : List (K × K)) (ptol : K) : Option K :=
  match p with
  | [] => none
  | q :: r => some (rnd (max (rnd (spread q.1 (r.map Prod.fst))) (rnd (spread q.2 (r.map Prod.snd))) * ptol))

/-- One coordinate of `np.round(p / snap) * snap` with the flag of negative zero (`oceanmesh/fix_mesh.py:55`). -/
def snapCoordFl (rnd : K → K) (rint : K → Int) (snap : K) (x : K) : K × Bool :=
  (rnd ((rint (rnd (x / snap)) : K) * snap), decide (rint (rnd (x / snap)) = 0 ∧ x / snap < 0))

/-- The row `np.round(q / snap) * snap` (`oceanmesh/fix_mesh.py:55`); NaN in every coordinate for `snap = 0`. -/
def snapRowFl (rnd : K → K) (rint : K → Int) (snap : K) (q : K × K) : Row K :=
  if snap = 0 then none else some (snapCoordFl rnd rint snap q.1, snapCoordFl rnd rint snap q.2)

/-- The merged vertices and the map of the vertices to them (`oceanmesh/fix_mesh.py:54-57`). -/
def mergeFl (rnd : K → K) (rint : K → Int) (o : RowOrder (Row K)) (p : List (K × K)) (ptol : K) : Option (List (K × K) × List Nat) :=
  match snapSizeFl rnd p ptol with
  | none => none
  | some snap =>
    let keys := p.map (snapRowFl rnd rint snap)
    match gather p (uniqueIndex o keys) with
    | some p1 => some (p1, uniqueInverse o keys)
    | none => none

end
end OM
