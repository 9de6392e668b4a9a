import Verif.Model.Grid
import Verif.Model.Idw
/-!
# Model of `Grid.blend_into` and `multiscale_sizing_function`

The KD-tree query of the inverse-distance interpolation is a parameter `query pts q`: distances and indices of the neighbours of
`q` in `pts`. The exponent enters as a function `pw` (see `Verif.Model.Idw`).
-/
namespace OM

section
variable {K C : Type} [Field K] [LinearOrder K] [FloorRing K]

/-- `np.pad` with the constant -99999 (`oceanmesh/grid.py:370,382-384`). -/
def padVals {n m : Nat} (w : Nat) (vals : Fin n → Fin m → Option K) : Fin (n + 2 * w) → Fin (m + 2 * w) → Option K :=
  fun i j =>
    if h : (w ≤ i.val ∧ i.val < w + n) ∧ w ≤ j.val ∧ j.val < w + m then vals ⟨i - w, by omega⟩ ⟨j - w, by omega⟩
    else some (-99999)

/-- The padded grid (`oceanmesh/grid.py:381-400`). Its coordinate system is not used and kept. -/
def Grid.padded (g : Grid K C) (w : Nat) : Grid K C :=
  ⟨⟨g.box.xmin - g.dx * w, g.box.xmax + g.dx * w, g.box.ymin - g.dy * w, g.box.ymax + g.dy * w⟩, g.dx, g.dy, g.nx + 2 * w,
    g.ny + 2 * w, padVals w g.vals, none, g.extrapolate, g.crs, none⟩

/-- All nodes in the order of `flatten` (`oceanmesh/grid.py:405-407`). -/
def Grid.nodes (g : Grid K C) : List (Fin g.nx × Fin g.ny) :=
  (List.finRange g.nx).flatMap fun i => (List.finRange g.ny).map fun j => (i, j)

/-- The nodes whose value is not the padding mark (`oceanmesh/grid.py:409-411`). -/
def Grid.known (g : Grid K C) : List (Fin g.nx × Fin g.ny) := g.nodes.filter fun n => decide (g.vals n.1 n.2 ≠ some (-99999))

/-- The nodes that carry the padding mark (`oceanmesh/grid.py:410`). -/
def Grid.asked (g : Grid K C) : List (Fin g.nx × Fin g.ny) := g.nodes.filter fun n => decide (g.vals n.1 n.2 = some (-99999))

/-- The values after filling the padding by inverse-distance interpolation of the other nodes (`oceanmesh/grid.py:413-416`). -/
def Grid.filledVals (pw : K → K) (nnear : Nat) (query : List (K × K) → K × K → List (K × Nat)) (g : Grid K C)
    (i : Fin g.nx) (j : Fin g.ny) : Option K :=
  if g.vals i j = some (-99999) then
    idwValue pw nnear none (g.known.map fun n => g.vals n.1 n.2)
      (query (g.known.map fun n => (g.xAt n.1, g.yAt n.2)) (g.xAt i, g.yAt j))
  else g.vals i j

/-- `np.amin` of values that may be NaN (`oceanmesh/grid.py:417-419`): NaN if one of them is; `none` also for an empty array
(`ValueError`, not possible for a grid with nodes). -/
def amin (l : List (Option K)) : Option K := (collectAll l).bind minElement

/-- `blend_into` (`oceanmesh/grid.py:351-424`); `none` = exception. The tree query names an index out of range if there are fewer
known nodes than neighbours asked for, which raises. (It does not raise if the nearest node is closer than `1e-10`; nodes that
close together are not considered.) The padding width is a natural number, `np.pad` rejects others. -/
def Grid.blendInto (pw : K → K) (nnear : Nat) (query : List (K × K) → K × K → List (K × Nat)) (w : Nat) (g coarse : Grid K C) :
    Option (Grid K C) :=
  if coarse.box.xmin < g.box.xmin ∧ g.box.xmax < coarse.box.xmax ∧ coarse.box.ymin < g.box.ymin ∧
      g.box.ymax < coarse.box.ymax then
    match (g.padded w).interpolateTo coarse with
    | none => none
    | some c =>
      if c.asked = [] then some { c with hmin := amin (allVals c.vals) }
      else if c.known.length < nnear then none
      else some { c with
        vals := c.filledVals pw nnear query
        hmin := amin (c.asked.map fun n => c.filledVals pw nnear query n.1 n.2) }
  else some coarse

/-! ## multiscale_sizing_function -/

/-- Blend the finer grids into a coarse one, one after the other (`oceanmesh/edgefx.py:986-1003`). `width` gives the padding of a
grid in cells (`oceanmesh/edgefx.py:991-997`). -/
def blendAll (pw : K → K) (nnear : Nat) (query : List (K × K) → K × K → List (K × Nat)) (width : Grid K C → Nat)
    (coarse : Grid K C) : List (Grid K C) → Option (Grid K C)
  | [] => some coarse
  | f :: l =>
    match Grid.blendInto pw nnear query (width f) { f with extrapolate := false } coarse with
    | none => none
    | some c => blendAll pw nnear query width (Grid.buildInterpolant { c with extrapolate := true }) l

/-- The new list of grids (`oceanmesh/edgefx.py:981-1010`); `none` = exception (also for an empty list, where `list_of_grids[-1]`
fails). Finer grids lose the flag `extrapolate`, the finest gets it back. -/
def blendList (pw : K → K) (nnear : Nat) (query : List (K × K) → K × K → List (K × Nat)) (width : Grid K C → Nat) :
    List (Grid K C) → Option (List (Grid K C))
  | [] => none
  | [g] => some [{ g with extrapolate := true }]
  | g :: f :: l =>
    match blendAll pw nnear query width g (f :: l), blendList pw nnear query width (f :: l) with
    | some c, some r => some (c :: r)
    | _, _ => none

/-- The check of the spacings (`oceanmesh/edgefx.py:977-979`). -/
def descending : List (Grid K C) → Bool
  | g :: f :: l => decide (f.dx ≤ g.dx) && descending (f :: l)
  | _ => true

/-- The padding width in cells (`oceanmesh/edgefx.py:991-997`); `hasUnits`: does the coordinate system name units (otherwise degrees
are assumed)? A negative blend width is not considered. -/
def blendCells (blendWidth : K) (hasUnits : C → Bool) (g : Grid K C) : Nat :=
  ⌊blendWidth / (if hasUnits g.crs then g.dx else g.dx * 111000)⌋.toNat

/-- `multiscale_sizing_function` (`oceanmesh/edgefx.py:947-1029`): the list of grids the returned function works on; `none` =
exception. -/
def multiscaleGrids (pw : K → K) (nnear : Nat) (query : List (K × K) → K × K → List (K × Nat)) (blendWidth : K)
    (hasUnits : C → Bool) (grids : List (Grid K C)) : Option (List (Grid K C)) :=
  if descending grids then blendList pw nnear query (blendCells blendWidth hasUnits) grids else none

/-- One evaluation of the returned function at a point (`oceanmesh/edgefx.py:1014-1027`) from position `i` of the list on: the
changed grids and the value, `h` is the minimum so far. -/
def funcLoop (q : K × K) : Nat → Option K → List (Grid K C) → List (Grid K C) × Option K
  | _, h, [] => ([], h)
  | i, h, g :: l =>
    let g' := Grid.buildInterpolant { g with extrapolate := decide (i = 0) }
    let r := funcLoop q (i + 1) (optMin (g'.evalWith (decide (i = 0)) q) h) l
    (g' :: r.1, r.2)

/-- The returned function (`oceanmesh/edgefx.py:1014-1027`): new state of the grids and the value at a point. (For several points
the interpolants are built once per call and all points see the same grids.) -/
def multiscaleFunc (gs : List (Grid K C)) (q : K × K) : List (Grid K C) × Option K := funcLoop q 0 (some 999999) gs

end
end OM
