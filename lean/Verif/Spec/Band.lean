import Mathlib.Order.Defs.LinearOrder
/-!
# Specification vocabulary for bands of elevations with limits of sizes
-/
namespace OM.Spec

/-- Sizes between `minH` and `maxH` are asked for where the elevation lies above `minZ` and not above `maxZ`. -/
structure Band (K : Type) where
  minH : K
  maxH : K
  minZ : K
  maxZ : K

variable {K : Type} [LinearOrder K]

/-- The band covers an elevation (the lower end does not belong to it). -/
def Band.Covers (b : Band K) (z : K) : Prop := b.minZ < z ∧ z ≤ b.maxZ

/-- A band with limits in order. -/
def Band.Valid (b : Band K) : Prop := b.minH < b.maxH ∧ b.minZ < b.maxZ

/-- The list of four numbers that describes a band. -/
def Band.numbers (b : Band K) : List K := [b.minH, b.maxH, b.minZ, b.maxZ]

/-- A size within the limits of a band. -/
def Band.Admits (b : Band K) (v : K) : Prop := b.minH ≤ v ∧ v ≤ b.maxH

end OM.Spec
