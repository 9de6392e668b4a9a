import Verif.Model.Basic
/-!
# Model of `oceanmesh/edges.py`
-/
namespace OM

/-- `get_edges` for `dim=2` (`oceanmesh/edges.py:75-95`): for each face the columns `[0,1],[0,2],[1,2]`. -/
def getEdges : List Tri → List (Nat × Nat)
  | [] => []
  | f :: t => (f.a, f.b) :: (f.a, f.c) :: (f.b, f.c) :: getEdges t

/-- `np.sort(edge)` of one row of two entries (`oceanmesh/edges.py:110`). -/
def sortPair (e : Nat × Nat) : Nat × Nat := (min e.1 e.2, max e.1 e.2)

/-- `get_boundary_edges` for `dim=2` (`oceanmesh/edges.py:98-113`): sorted edges occurring exactly once, in the
(unspecified) byte order `o` of `unique_row_view`. -/
def getBoundaryEdges (o : RowOrder (Nat × Nat)) (t : List Tri) : List (Nat × Nat) :=
  ((uniqueCounts o ((getEdges t).map sortPair)).filter fun x => x.2 == 1).map Prod.fst

/-- `tmp = [v for v in nextEdge if v != vNext]; tmp[0]` (`oceanmesh/edges.py:150-151`); `none` is the
`IndexError` for an edge `(v,v)`. -/
def otherEnd (e : Nat × Nat) (v : Nat) : Option Nat :=
  if e.1 ≠ v then some e.1 else if e.2 ≠ v then some e.2 else none

/-- The loop `oceanmesh/edges.py:140-151`. `rem` are the rows with `isVisited == 0` in row order; the first one
containing `v` is taken. (The rows of the boundary table are pairwise different, so marking a row as visited is
the same as erasing it from `rem`.) `none` models the `IndexError` of line 151. The first argument bounds the number
of passes; `windLoop_spec` shows that the number of rows plus one suffices, so `none` never stands for
exhausted fuel. -/
def windLoop : Nat → List (Nat × Nat) → Nat → Option (List (Nat × Nat))
  | 0, _, _ => none
  | fuel + 1, rem, v =>
    match rem.find? (fun e => e.1 == v || e.2 == v) with
    | none => some []
    | some e =>
      match otherEnd e v with
      | none => none
      | some w => (windLoop fuel (rem.erase e) w).map (e :: ·)

/-- The start row (`oceanmesh/edges.py:131-133`): row 0, or the first row containing `vFirst` if there is one.
`none` = empty boundary (`_bedges[choice, :]` raises, line 139). -/
def windStart (bedges : List (Nat × Nat)) (vFirst : Option Nat) : Option (Nat × Nat) :=
  match vFirst with
  | none => bedges.head?
  | some v =>
    match bedges.find? (fun e => e.1 == v || e.2 == v) with
    | some e => some e
    | none => bedges.head?

/-- `get_winded_boundary_edges` (`oceanmesh/edges.py:116-153`). `none` = an exception is raised. -/
def getWindedBoundaryEdges (o : RowOrder (Nat × Nat)) (t : List Tri) (vFirst : Option Nat) :
    Option (List (Nat × Nat)) :=
  let b := getBoundaryEdges o t
  match windStart b vFirst with
  | none => none
  | some e => (windLoop (b.length + 1) (b.erase e) e.2).map (e :: ·)

/-- Positions of the NaN rows of a polygon array, counted from `i` (`oceanmesh/edges.py:25`). Only the NaN
pattern of the array matters; `true` marks a NaN row. -/
def nanRows : Int → List Bool → List Int
  | _, [] => []
  | i, true :: l => i :: nanRows (i + 1) l
  | i, false :: l => nanRows (i + 1) l

/-- `np.arange(a, b)` for integers (empty if `b ≤ a`) (`oceanmesh/edges.py:32-33`). -/
def arange (a b : Int) : List Int := (List.range (b - a).toNat).map fun k : Nat => a + (k : Int)

/-- One pass of the loop `oceanmesh/edges.py:29-36` for the rows between two separators `lo` and `hi`. -/
def polySegmentEdges (lo hi : Int) : List (Int × Int) :=
  let s := lo + 1
  let e := hi - 1
  (arange s (e - 1)).zip (arange (s + 1) e) ++ [(e, s)]

/-- The loop over consecutive separators (`oceanmesh/edges.py:29-36`). -/
def polyEdgesLoop : Int → List Int → List (Int × Int)
  | _, [] => []
  | lo, hi :: r => polySegmentEdges lo hi ++ polyEdgesLoop hi r

/-- `get_poly_edges` (`oceanmesh/edges.py:8-37`). `none`: `np.concatenate` of an empty list raises when there is no
NaN row. -/
def getPolyEdges (isnan : List Bool) : Option (List (Int × Int)) :=
  match nanRows 0 isnan with
  | [] => none
  | ix => some (polyEdgesLoop (-1) ix)

end OM
