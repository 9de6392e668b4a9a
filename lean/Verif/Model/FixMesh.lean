import Verif.Model.Basic
import Mathlib.Algebra.Order.Field.Basic
import Mathlib.Analysis.Real.Sqrt
/-!
# Model of `oceanmesh/fix_mesh.py` (dim = 2)

Coordinates live in an arbitrary linearly ordered field. `none` as a result stands for a raised exception.
-/
namespace OM

/-- `arr[ix]` with an integer index vector (`oceanmesh/fix_mesh.py:57-58,68`); `none` = `IndexError`. -/
def gather {α : Type} (l : List α) : List Nat → Option (List α)
  | [] => some []
  | i :: ix =>
    match l[i]?, gather l ix with
    | some x, some r => some (x :: r)
    | _, _ => none

/-- Apply a partial index map to the three corners of a row (`jx[t]`, `oceanmesh/fix_mesh.py:58`). -/
def Tri.mapM (g : Nat → Option Nat) (f : Tri) : Option Tri :=
  match g f.a, g f.b, g f.c with
  | some a, some b, some c => some ⟨a, b, c⟩
  | _, _, _ => none

/-- `Tri.mapM` for every row of a table; `none` as soon as one index is invalid (`oceanmesh/fix_mesh.py:58`). -/
def mapTris (g : Nat → Option Nat) : List Tri → Option (List Tri)
  | [] => some []
  | f :: t =>
    match f.mapM g, mapTris g t with
    | some f', some t' => some (f' :: t')
    | _, _ => none

/-- The corners of a row as a list (a row of the array `t`, `oceanmesh/fix_mesh.py:61`). -/
def Tri.toList (f : Tri) : List Nat := [f.a, f.b, f.c]

/-- `np.sort(t, axis=1)` of one row (`oceanmesh/fix_mesh.py:61`, `oceanmesh/clean.py:100`). -/
def Tri.sort (f : Tri) : Tri :=
  let lo := min f.a (min f.b f.c)
  let hi := max f.a (max f.b f.c)
  ⟨lo, max (min f.a f.b) (min (max f.a f.b) f.c), hi⟩

section
variable {K : Type} [Field K] [LinearOrder K]

/-- `simp_vol` for one triangle, `dim == 2` (`oceanmesh/fix_mesh.py:133-136`). -/
def triVol (p q r : K × K) : K :=
  let d01 := (q.1 - p.1, q.2 - p.2)
  let d02 := (r.1 - p.1, r.2 - p.2)
  (d01.1 * d02.2 - d01.2 * d02.1) / 2

/-- `simp_vol(p, t)` for one row of `t`; `none` = `IndexError` (`oceanmesh/fix_mesh.py:119-136`). -/
def faceVol (p : List (K × K)) (f : Tri) : Option K :=
  match p[f.a]?, p[f.b]?, p[f.c]? with
  | some x, some y, some z => some (triVol x y z)
  | _, _, _ => none

/-- `simp_vol(p, t)` (`oceanmesh/fix_mesh.py:119-136`). -/
def simpVol (p : List (K × K)) : List Tri → Option (List K)
  | [] => some []
  | f :: t =>
    match faceVol p f, simpVol p t with
    | some v, some r => some (v :: r)
    | _, _ => none

/-- `arr.max() - arr.min()` of a non-empty vector with first entry `x` (`oceanmesh/fix_mesh.py:54`). -/
def spread (x : K) (l : List K) : K := l.foldl max x - l.foldl min x

/-- `snap = (p.max(0) - p.min(0)).max() * ptol` (`oceanmesh/fix_mesh.py:54`); `none`: `max` of an empty array raises. -/
def snapSize (p : List (K × K)) (ptol : K) : Option K :=
  match p with
  | [] => none
  | q :: r => some (max (spread q.1 (r.map Prod.fst)) (spread q.2 (r.map Prod.snd)) * ptol)

/-- A row of snapped coordinates as `unique_rows` compares it, byte by byte: each coordinate with a flag telling
negative zero from zero, `none` = NaN in every coordinate (`oceanmesh/fix_mesh.py:55,93-100`). -/
abbrev Row (K : Type) : Type := Option ((K × Bool) × (K × Bool))

/-- One coordinate of `np.round(p / snap) * snap` (`oceanmesh/fix_mesh.py:55`). `rnd` is numpy's rounding to an
integer; a negative number rounded to zero gives `-0.0`, whose bytes differ from those of `0.0`, hence the flag.
(For `snap < 0` the product exchanges the two zeros, which does not matter for comparing rows. Inputs that are
themselves `-0.0` are not represented.) -/
def snapCoord (rnd : K → Int) (snap : K) (x : K) : K × Bool :=
  (rnd (x / snap) * snap, decide (rnd (x / snap) = 0 ∧ x / snap < 0))

/-- The row `np.round(q / snap) * snap` (`oceanmesh/fix_mesh.py:55`). For `snap = 0` the division gives infinities or
NaN and the product NaN in every coordinate: `none`. -/
def snapRow (rnd : K → Int) (snap : K) (q : K × K) : Row K :=
  if snap = 0 then none else some (snapCoord rnd snap q.1, snapCoord rnd snap q.2)

/-- `I` of `unique_rows(A, True, True)`: position of the first occurrence of each unique row
(`oceanmesh/fix_mesh.py:100`). -/
def uniqueIndex {α : Type} [DecidableEq α] (o : RowOrder α) (l : List α) : List Nat :=
  (unique o l).map fun k => l.idxOf k

/-- `J` of `unique_rows(A, True, True)`: position of each row among the unique rows (`oceanmesh/fix_mesh.py:100-102`). -/
def uniqueInverse {α : Type} [DecidableEq α] (o : RowOrder α) (l : List α) : List Nat :=
  l.map fun k => (unique o l).idxOf k

/-- `t[flip, :2] = t[flip, 1::-1]` for one row: exchange the first two corners where the signed volume is
negative (`oceanmesh/fix_mesh.py:71-72`). -/
def flipTri (p : List (K × K)) (f : Tri) : Option Tri :=
  match faceVol p f with
  | none => none
  | some v => some (if v < 0 then ⟨f.b, f.a, f.c⟩ else f)

/-- The flip for all rows (`oceanmesh/fix_mesh.py:71-72`). -/
def flipTris (p : List (K × K)) : List Tri → Option (List Tri)
  | [] => some []
  | f :: t =>
    match flipTri p f, flipTris p t with
    | some f', some t' => some (f' :: t')
    | _, _ => none

/-- All corners of a table, row by row (`t` flattened by `np.unique`, `oceanmesh/fix_mesh.py:66`). -/
def flatTris (t : List Tri) : List Nat := t.flatMap Tri.toList

/-- Result of `fix_mesh` (`oceanmesh/fix_mesh.py:74`). -/
structure FixResult (K : Type) where
  p : List (K × K)
  t : List Tri
  jx : List Nat
deriving DecidableEq, Repr

/-- `fix_mesh(p, t, ptol, dim=2, delete_unused)` (`oceanmesh/fix_mesh.py:34-74`). `oP` and `oT` are the byte orders by
which `unique_rows` sorts point rows and triangle rows. -/
def fixMesh (rnd : K → Int) (oP : RowOrder (Row K)) (oT : RowOrder Tri)
    (p : List (K × K)) (t : List Tri) (ptol : K) (deleteUnused : Bool) : Option (FixResult K) := do
  let snap ← snapSize p ptol
  let keys := p.map (snapRow rnd snap)
  let jx := uniqueInverse oP keys
  let p1 ← gather p (uniqueIndex oP keys)
  let t1 ← mapTris (fun i => jx[i]?) t
  let t2 := unique oT (t1.map Tri.sort)
  if deleteUnused then
    let pix := unique natOrder (flatTris t2)
    let t3 := t2.map fun f => ⟨pix.idxOf f.a, pix.idxOf f.b, pix.idxOf f.c⟩
    let p2 ← gather p1 pix
    let t4 ← flipTris p2 t3
    return ⟨p2, t4, uniqueInverse natOrder (flatTris t2)⟩
  else
    let t4 ← flipTris p1 t2
    return ⟨p1, t4, jx⟩

end

/-- `simp_qual` for one triangle given its three edge lengths (`oceanmesh/fix_mesh.py:27-31`). `none` is NaN or
infinity: the root of a negative number, or a zero length (`R = 0 / 0`). If the root is zero and no length is, then
`mult1` is zero and `R` is infinite, so the quotient `0 / inf` is zero. -/
noncomputable def qualOfLengths (a b c : ℝ) : Option ℝ :=
  let s := a + b + c
  let mult1num := (b + c - a) * (c + a - b) * (a + b - c)
  let under := s * (b + c - a) * (c + a - b) * (a + b - c)
  let denom1 := Real.sqrt under
  if under < 0 ∨ s = 0 ∨ a * b * c = 0 then none
  else if denom1 = 0 then some 0
  else
    let r := 0.5 * (mult1num / s)
    let R := a * b * c / denom1
    some (2 * r / R)

/-- Edge length (`oceanmesh/fix_mesh.py:17-18`). -/
noncomputable def edgeLength (p q : ℝ × ℝ) : ℝ := Real.sqrt ((q.1 - p.1) ^ 2 + (q.2 - p.2) ^ 2)

/-- `simp_qual` for one triangle with corners `p q r` (`oceanmesh/fix_mesh.py:6-31`). -/
noncomputable def triQual (p q r : ℝ × ℝ) : Option ℝ :=
  qualOfLengths (edgeLength p q) (edgeLength p r) (edgeLength q r)

end OM
