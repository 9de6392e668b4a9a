import Verif.Model.Region
/-!
# Specification vocabulary for rasters

A raster has its rows from north to south and its columns from west to east; `b` is the rectangle covered by all cells.
-/
namespace OM.Spec
section
variable {K : Type} [Field K] [LinearOrder K]

/-- `rows × cols` cells of size `dx × dy` cover the box. -/
def CoversBox (b : Box K) (rows cols : Nat) (dx dy : K) : Prop :=
  b.xmax - b.xmin = (cols : K) * dx ∧ b.ymax - b.ymin = (rows : K) * dy

/-- The south-west corner of the cell in row `r` and column `c`. -/
def cellSouthWest (b : Box K) (dx dy : K) (r c : Nat) : K × K := (b.xmin + (c : K) * dx, b.ymax - ((r : K) + 1) * dy)

/-- The middle of the cell in row `r` and column `c`. -/
def cellMiddle (b : Box K) (dx dy : K) (r c : Nat) : K × K := (b.xmin + ((c : K) + 1 / 2) * dx, b.ymax - ((r : K) + 1 / 2) * dy)

/-- `w` is what a file value `v` means (`none` = not a number): nothing for the no-data value, else itself. -/
def Measured (nodata v w : Option K) : Prop :=
  (v = none ∧ w = none) ∨ ∃ x, v = some x ∧ ((nodata = some x ∧ w = none) ∨ (nodata ≠ some x ∧ w = some x))

end
end OM.Spec
