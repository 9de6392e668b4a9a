import Verif.Model.Edgefx
/-!
# Model of `oceanmesh/edgefx.py` and `oceanmesh/grid.py`: the points given to the distance sizing functions

The KD-tree is a parameter: `tree nodes p` is the index it returns for the point `p`.
-/
namespace OM

section
variable {K C : Type} [Field K] [LinearOrder K] [FloorRing K]

/-- The nodes of a grid as the KD-tree gets them: `create_grid` and `ravel` (`oceanmesh/grid.py:210-227,255`), the second index runs
fastest. -/
def gridNodes (g : Grid K C) : List (K × K) :=
  (List.range g.nx).flatMap fun i => (List.range g.ny).map fun j => (g.xAt i, g.yAt j)

/-- The indices that `find_indices` gives for one point (`oceanmesh/grid.py:256-261`), with `k=1`. -/
def nearNode (tree : List (K × K) → K × K → Nat) (g : Grid K C) (p : K × K) : Nat × Nat :=
  let k := tree (gridNodes g) p
  (k / g.ny, k % g.ny)

/-- `find_indices` (`oceanmesh/grid.py:229-261`): rows that are NaN are dropped. -/
def gridIndices (tree : List (K × K) → K × K → Nat) (g : Grid K C) (points : List (Option (K × K))) : List (Nat × Nat) :=
  (points.filterMap id).map (nearNode tree g)

/-- What is read of a feature of a file: whether it has the expected type, the length of a line and its point at a given distance
(`oceanmesh/edgefx.py:230-248`). -/
structure LineFeature (K : Type) where
  isLine : Bool
  len : K
  at_ : K → K × K

/-- The points of all lines (`oceanmesh/edgefx.py:230-248`); `none` = exception. A file without lines, and a line of length zero, make
the concatenation fail. -/
def linePoints (h : K) : List (LineFeature K) → Option (List (K × K))
  | [] => some []
  | f :: l =>
    match resampleLine f.at_ f.len h, linePoints h l with
    | some (p :: r), some ps => some ((p :: r) ++ ps)
    | _, _ => none

/-- `distance_sizing_from_line_function` (`oceanmesh/edgefx.py:196-277`); `none` = exception. `sameCrs` says whether the coordinate system
of the file equals the given one. -/
def distanceSizingLines (tree : List (K × K) → K × K → Nat)
    (fmm : (n m : Nat) → K → K → (Fin n → Fin m → Bool) → Option (Fin n → Fin m → K)) (sameCrs : Bool) (lines : List (LineFeature K))
    (box : Box K) (h0 rate : K) (mx : Option K) (coarsen : K) (crs : C) : Option (Grid K C) :=
  if sameCrs && lines.all (fun f => f.isLine) && !lines.isEmpty then
    match linePoints h0 lines with
    | none => none
    | some pts => distanceSizing (nearNode tree) fmm box h0 coarsen rate mx crs pts
  else none

/-- `distance_sizing_from_point_function` (`oceanmesh/edgefx.py:280-353`); each feature with whether it is a point. A file without points
gives an array with one axis, which `find_indices` cannot slice. -/
def distanceSizingPoints (tree : List (K × K) → K × K → Nat)
    (fmm : (n m : Nat) → K → K → (Fin n → Fin m → Bool) → Option (Fin n → Fin m → K)) (sameCrs : Bool) (points : List (Bool × (K × K)))
    (box : Box K) (h0 rate : K) (mx : Option K) (coarsen : K) (crs : C) : Option (Grid K C) :=
  if sameCrs && points.all (fun f => f.1) && !points.isEmpty then
    distanceSizing (nearNode tree) fmm box h0 coarsen rate mx crs (points.map Prod.snd)
  else none

/-- Keep the rows whose flag is set, `points[in_boubox]` (`oceanmesh/edgefx.py:403,407`). -/
def keepRows {A : Type} : List A → List Bool → List A
  | a :: l, b :: m => if b then a :: keepRows l m else keepRows l m
  | _, _ => []

/-- The shoreline points that are marked (`oceanmesh/edgefx.py:395-412`): those inside the bounding polygon, all if the test raises.
`inpoly` is `inpoly2` with the bounding polygon, `none` = exception. -/
def shorePoints (inpoly : List (Option (K × K)) → Option (List Bool)) (inner mainland : List (Option (K × K))) : List (Option (K × K)) :=
  let pts := inner ++ mainland
  match inpoly pts with
  | none => pts
  | some m => keepRows pts m

/-- The mask of the sizing function of a shoreline (`oceanmesh/edgefx.py:399-412`): true everywhere, then false at the nodes that
`find_indices` gives for the nodes inside the bounding polygon. -/
def shoreMask (tree : List (K × K) → K × K → Nat) (inpoly : List (Option (K × K)) → Option (List Bool)) (g : Grid K C)
    (inner mainland : List (Option (K × K))) : Fin g.nx → Fin g.ny → Bool :=
  if (inner ++ mainland).isEmpty then fun _ _ => true
  else
    match inpoly (inner ++ mainland), inpoly ((gridNodes g).map some) with
    | some _, some m =>
      let inside := gridIndices tree g (keepRows ((gridNodes g).map some) m)
      fun i j => !(inside.any fun k => decide (k = (i.val, j.val)))
    | _, _ => fun _ _ => true

/-- `distance_sizing_function` (`oceanmesh/edgefx.py:356-426`) with the mask of the values. -/
def distanceSizingShore (tree : List (K × K) → K × K → Nat)
    (fmm : (n m : Nat) → K → K → (Fin n → Fin m → Bool) → Option (Fin n → Fin m → K))
    (inpoly : List (Option (K × K)) → Option (List Bool)) (inner mainland : List (Option (K × K))) (box : Box K) (h0 rate : K)
    (mx : Option K) (coarsen : K) (crs : C) : Option ((g : Grid K C) × (Fin g.nx → Fin g.ny → Bool)) :=
  (distanceSizing (nearNode tree) fmm box h0 coarsen rate mx crs ((shorePoints inpoly inner mainland).filterMap id)).map fun g =>
    ⟨g, shoreMask tree inpoly g inner mainland⟩

/-- The border of an array as `get_border` concatenates it (`oceanmesh/grid.py:183-188`), as indices: first row without the last column,
last column without the last row, last row backwards, first column backwards without the first and the last row. `none` = `IndexError`
for an array without rows or columns. (The method is declared static with a parameter `self`, so that it has to be called with two arguments.) -/
def borderIndices (n m : Nat) : Option (List (Nat × Nat)) :=
  if n = 0 ∨ m = 0 then none
  else some ((List.range (m - 1)).map (fun j => (0, j)) ++ (List.range (n - 1)).map (fun i => (i, m - 1)) ++
    (List.range m).reverse.map (fun j => (n - 1, j)) ++ ((List.range (n - 1)).drop 1).reverse.map (fun i => (i, 0)))

end
end OM
