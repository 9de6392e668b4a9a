import Verif.Model.FixMesh
/-!
# Model of `oceanmesh/fix_mesh.py` for tetrahedra

The argument `dim` is not used by `fix_mesh`; `simp_vol` goes by the number of columns of `p`, here three. The rows of `t` are lists of four numbers.
-/
namespace OM
section
variable {K : Type} [Field K] [LinearOrder K]

/-- `simp_vol` for one tetrahedron, `dim == 3` (`oceanmesh/fix_mesh.py:137-141`): the product of `np.cross(d01, d02)` with `d03`, divided by six. -/
def tetVol (p q r s : K × K × K) : K :=
  let d01 := (q.1 - p.1, q.2.1 - p.2.1, q.2.2 - p.2.2)
  let d02 := (r.1 - p.1, r.2.1 - p.2.1, r.2.2 - p.2.2)
  let d03 := (s.1 - p.1, s.2.1 - p.2.1, s.2.2 - p.2.2)
  let c := (d01.2.1 * d02.2.2 - d01.2.2 * d02.2.1, d01.2.2 * d02.1 - d01.1 * d02.2.2, d01.1 * d02.2.1 - d01.2.1 * d02.1)
  (c.1 * d03.1 + c.2.1 * d03.2.1 + c.2.2 * d03.2.2) / 6

/-- `snap = (p.max(0) - p.min(0)).max() * ptol` for three columns (`oceanmesh/fix_mesh.py:54`); `none`: `max` of an empty array raises. -/
def snapSize3 (p : List (K × K × K)) (ptol : K) : Option K :=
  match p with
  | [] => none
  | q :: r => some (max (spread q.1 (r.map fun x => x.1)) (max (spread q.2.1 (r.map fun x => x.2.1)) (spread q.2.2 (r.map fun x => x.2.2))) * ptol)

/-- A row of snapped coordinates as `unique_rows` compares it (`oceanmesh/fix_mesh.py:55,93-100`), see `Row`. -/
abbrev Row3 (K : Type) : Type := Option ((K × Bool) × (K × Bool) × (K × Bool))

/-- The row `np.round(q / snap) * snap` (`oceanmesh/fix_mesh.py:55`), see `snapRow`. -/
def snapRow3 (rnd : K → Int) (snap : K) (q : K × K × K) : Row3 K :=
  if snap = 0 then none else some (snapCoord rnd snap q.1, snapCoord rnd snap q.2.1, snapCoord rnd snap q.2.2)

/-- `jx[t]` (`oceanmesh/fix_mesh.py:58`); `none` = `IndexError`. -/
def gatherRows (jx : List Nat) : List (List Nat) → Option (List (List Nat))
  | [] => some []
  | f :: t =>
    match gather jx f, gatherRows jx t with
    | some f', some t' => some (f' :: t')
    | _, _ => none

/-- `t[flip, :2] = t[flip, 1::-1]` for one row (`oceanmesh/fix_mesh.py:71-72`): the first two corners are exchanged where the volume is negative. -/
def flipTet (p : List (K × K × K)) : List Nat → Option (List Nat)
  | [a, b, c, d] =>
    match p[a]?, p[b]?, p[c]?, p[d]? with
    | some x, some y, some z, some w => some (if tetVol x y z w < 0 then [b, a, c, d] else [a, b, c, d])
    | _, _, _, _ => none
  | _ => none

/-- The flip for all rows (`oceanmesh/fix_mesh.py:71-72`). -/
def flipTets (p : List (K × K × K)) : List (List Nat) → Option (List (List Nat))
  | [] => some []
  | f :: t =>
    match flipTet p f, flipTets p t with
    | some f', some t' => some (f' :: t')
    | _, _ => none

/-- `fix_mesh(p, t, ptol, dim, delete_unused)` for points with three coordinates (`oceanmesh/fix_mesh.py:34-74`): the new points and the new rows. -/
def fixMesh3 (rnd : K → Int) (oP : RowOrder (Row3 K)) (oT : RowOrder (List Nat)) (p : List (K × K × K)) (t : List (List Nat)) (ptol : K) (deleteUnused : Bool) :
    Option (List (K × K × K) × List (List Nat)) := do
  let snap ← snapSize3 p ptol
  let keys := p.map (snapRow3 rnd snap)
  let p1 ← gather p (uniqueIndex oP keys)
  let t1 ← gatherRows (uniqueInverse oP keys) t
  let t2 := unique oT (t1.map (sortBy natOrder.le))
  if deleteUnused then
    let pix := unique natOrder t2.flatten
    let p2 ← gather p1 pix
    let t4 ← flipTets p2 (t2.map fun f => f.map pix.idxOf)
    return (p2, t4)
  else
    let t4 ← flipTets p1 t2
    return (p1, t4)

end
end OM
