import Verif.Model.Grid
/-!
# Model of `Grid` objects that are changed after their construction (`oceanmesh/grid.py`, `oceanmesh/region.py`)

`Model/Grid.lean` has a grid as a value. Here a grid is an object with attributes, and the arrays of values are objects of their own: the attribute `values` and the interpolator refer to
an array by its place in a list (`heap`), so that changes in place are seen by everything that refers to the array. Arrays hold floating point numbers (an array of integers would be copied by
the interpolator). Points are transformed by a parameter. Boxes are tuples of four numbers.
-/
namespace OM

/-- A two-dimensional array of values, the first index is the x direction (`oceanmesh/grid.py:174-181`). -/
structure GridArray (K : Type) where
  nx : Nat
  ny : Nat
  vals : Fin nx → Fin ny → Option K

/-- The interpolator stored as `eval` (`oceanmesh/grid.py:504-525`): corner and spacings of the coordinate vectors at the time it was built, the array it refers to, and whether it extrapolates. -/
structure GridInterp (K : Type) where
  x0 : K
  y0 : K
  dx : K
  dy : K
  arr : Nat
  extrapolate : Bool

/-- The attributes of a `Grid` (`oceanmesh/grid.py:126-148`, `oceanmesh/region.py:164-175`); `values` is `none` after `None` was assigned. -/
structure GridObj (K C : Type) where
  box : Box K
  x0 : K
  y0 : K
  dx : K
  dy : K
  nx : Nat
  ny : Nat
  values : Option Nat
  eval : Option (GridInterp K)
  extrapolate : Bool
  hmin : Option K
  crs : C

/-- What is assigned to `values` (`oceanmesh/grid.py:174-181`): `None`, a scalar, a new array, or an array that exists. -/
inductive GridSource (K : Type) where
  | missing
  | scalar (v : Option K)
  | fresh (a : GridArray K)
  | ref (r : Nat)

/-- Assignments and calls (`oceanmesh/grid.py:150-181,494-526`, `oceanmesh/region.py:189-219`, `oceanmesh/geodata.py:1258-1262`); `write` assigns to one entry of `values`. -/
inductive GridOp (K C : Type) where
  | setDx (v : K)
  | setDy (v : K)
  | setBox (b : Box K)
  | setValues (d : GridSource K)
  | setExtrapolate (e : Bool)
  | setHmin (h : Option K)
  | transformTo (dst : C)
  | write (i j : Nat) (v : Option K)
  | build
  | flip

/-- The coordinate systems of pyproj (`oceanmesh/region.py:203-209`): equality and the transformation of a point. -/
structure Projections (K C : Type) where
  same : C → C → Bool
  transform : C → C → K × K → K × K

/-- What an assignment or call does: all arrays, the object, and whether an exception was raised (`oceanmesh/grid.py:150-181`). -/
structure GridResult (K C : Type) where
  heap : List (GridArray K)
  obj : GridObj K C
  raised : Bool

section
variable {K C : Type} [Field K] [LinearOrder K] [FloorRing K]

/-- The setter of `bbox` (`oceanmesh/region.py:189-199`). -/
def GridObj.setBox (h : List (GridArray K)) (s : GridObj K C) (b : Box K) : GridResult K C :=
  if b.xmax < b.xmin ∨ b.ymax < b.ymin then ⟨h, s, true⟩ else ⟨h, { s with box := b }, false⟩

/-- The setter of `values` (`oceanmesh/grid.py:174-181`). `None` is stored before its shape is asked for. -/
def GridObj.setValues (h : List (GridArray K)) (s : GridObj K C) : GridSource K → GridResult K C
  | .missing => ⟨h, { s with values := none }, true⟩
  | .scalar v =>
    let a : GridArray K := ⟨(⌊(s.box.xmax - s.box.xmin) / s.dx⌋ + 1).toNat, (⌊(s.box.ymax - s.box.ymin) / s.dy⌋ + 1).natAbs, fun _ _ => v⟩
    ⟨h ++ [a], { s with values := some h.length, nx := a.nx, ny := a.ny }, false⟩
  | .fresh a => ⟨h ++ [a], { s with values := some h.length, nx := a.nx, ny := a.ny }, false⟩
  | .ref r =>
    match h[r]? with
    | some a => ⟨h, { s with values := some r, nx := a.nx, ny := a.ny }, false⟩
    | none => ⟨h, s, true⟩

/-- `Region.transform_to` (`oceanmesh/region.py:201-219`). -/
def GridObj.transformTo (P : Projections K C) (h : List (GridArray K)) (s : GridObj K C) (dst : C) : GridResult K C :=
  if P.same s.crs dst then ⟨h, s, false⟩
  else
    let lo := P.transform s.crs dst (s.box.xmin, s.box.ymin)
    let hi := P.transform s.crs dst (s.box.xmax, s.box.ymax)
    let r := s.setBox h ⟨lo.1, hi.1, lo.2, hi.2⟩
    if r.raised then r else ⟨r.heap, { r.obj with crs := dst }, false⟩

/-- `grid.values[i, j] = v`, as in `oceanmesh/edgefx.py:935-940`: in place. -/
def GridObj.write (h : List (GridArray K)) (s : GridObj K C) (i j : Nat) (v : Option K) : GridResult K C :=
  match s.values with
  | none => ⟨h, s, true⟩
  | some r =>
    match h[r]? with
    | none => ⟨h, s, true⟩
    | some a =>
      if i < a.nx ∧ j < a.ny then ⟨h.set r ⟨a.nx, a.ny, fun i' j' => if i'.val = i ∧ j'.val = j then v else a.vals i' j'⟩, s, false⟩
      else ⟨h, s, true⟩

/-- `build_interpolant` (`oceanmesh/grid.py:494-526`): the values are changed in place if the box reaches around the globe. -/
def GridObj.build (h : List (GridArray K)) (s : GridObj K C) : GridResult K C :=
  match s.values with
  | none => ⟨h, s, true⟩
  | some r =>
    match h[r]? with
    | none => ⟨h, s, true⟩
    | some a =>
      if cyclicBox s.box = true ∧ a.nx = 0 then ⟨h, s, true⟩
      else ⟨h.set r ⟨a.nx, a.ny, cyclicVals s.box a.vals⟩, { s with eval := some ⟨s.x0, s.y0, s.dx, s.dy, r, s.extrapolate⟩ }, false⟩

/-- `DEM.flip` (`oceanmesh/geodata.py:1258-1262`). -/
def GridObj.flip (h : List (GridArray K)) (s : GridObj K C) : GridResult K C :=
  match s.values with
  | none => ⟨h, s, true⟩
  | some r =>
    match h[r]? with
    | none => ⟨h, s, true⟩
    | some a =>
      let r1 := s.setValues h (.fresh ⟨a.nx, a.ny, fun i j => (a.vals i j).map fun x => -x⟩)
      r1.obj.build r1.heap

/-- One assignment or call (`oceanmesh/grid.py:150-181,494-526`). -/
def GridObj.step (P : Projections K C) (h : List (GridArray K)) (s : GridObj K C) : GridOp K C → GridResult K C
  | .setDx v => if v ≤ 0 then ⟨h, s, true⟩ else ⟨h, { s with dx := v }, false⟩
  | .setDy v => if v ≤ 0 then ⟨h, s, true⟩ else ⟨h, { s with dy := v }, false⟩
  | .setBox b => s.setBox h b
  | .setValues d => s.setValues h d
  | .setExtrapolate e => ⟨h, { s with extrapolate := e }, false⟩
  | .setHmin m => ⟨h, { s with hmin := m }, false⟩
  | .transformTo dst => s.transformTo P h dst
  | .write i j v => s.write h i j v
  | .build => s.build h
  | .flip => s.flip h

/-- Several of them, each exception caught (`oceanmesh/grid.py:150-181,494-526`). -/
def GridObj.run (P : Projections K C) : List (GridOp K C) → List (GridArray K) → GridObj K C → List (GridArray K) × GridObj K C
  | [], h, s => (h, s)
  | op :: ops, h, s => GridObj.run P ops (s.step P h op).heap (s.step P h op).obj

/-- `Grid.__init__` (`oceanmesh/grid.py:126-148`); `none` = exception. -/
def GridObj.new (h : List (GridArray K)) (b : Box K) (dx : K) (dy : Option K) (crs : C) (hmin : Option K) (data : GridSource K) (extrapolate : Bool) : Option (List (GridArray K) × GridObj K C) :=
  let dy := dy.getD dx
  if gridChecks b dx dy then
    let r := GridObj.setValues h ⟨b, b.xmin, b.ymin, dx, dy, 0, 0, none, none, extrapolate, hmin, crs⟩ data
    if r.raised then none else some (r.heap, r.obj)
  else none

/-- The grid with given corner, spacings and array, to be evaluated by scipy's rule (`oceanmesh/grid.py:514-523`); the upper limits of the box are not used. -/
def latticeGrid (x0 y0 dx dy : K) (a : GridArray K) (e : Bool) : Grid K Unit := ⟨⟨x0, x0 + 1, y0, y0 + 1⟩, dx, dy, a.nx, a.ny, a.vals, none, e, (), none⟩

/-- `grid.eval` at a point (`oceanmesh/grid.py:514-525`): `none` = exception, `some none` = NaN. -/
def GridObj.evalAt (h : List (GridArray K)) (s : GridObj K C) (q : K × K) : Option (Option K) :=
  match s.eval with
  | none => none
  | some e =>
    match h[e.arr]? with
    | none => none
    | some a => some ((latticeGrid e.x0 e.y0 e.dx e.dy a e.extrapolate).evalWith e.extrapolate q)

/-- The array `grid.values` (`oceanmesh/grid.py:170-172`). -/
def GridObj.current (h : List (GridArray K)) (s : GridObj K C) : Option (GridArray K) := s.values.bind fun r => h[r]?

/-- Several grids and all arrays (`oceanmesh/grid.py:90-148`). -/
structure GridWorld (K C : Type) where
  heap : List (GridArray K)
  objs : List (GridObj K C)

/-- An assignment to or call of grid `k` (`oceanmesh/grid.py:150-181,494-526`). -/
def GridWorld.step (P : Projections K C) (w : GridWorld K C) (k : Nat) (op : GridOp K C) : GridWorld K C :=
  match w.objs[k]? with
  | none => w
  | some s => ⟨(s.step P w.heap op).heap, w.objs.set k (s.step P w.heap op).obj⟩

/-- Several of them (`oceanmesh/grid.py:150-181,494-526`). -/
def GridWorld.run (P : Projections K C) : List (Nat × GridOp K C) → GridWorld K C → GridWorld K C
  | [], w => w
  | (k, op) :: l, w => GridWorld.run P l (w.step P k op)

end
end OM
