import Verif.Model.Validate
import Verif.Spec.Box
/-!
# Consistent multiscale inputs

Vocabulary for C66: what it means that a region fits into the box of the global domain and that reference systems agree.
-/
namespace OM.Spec
open OM
variable {K C P : Type} [Field K] [LinearOrder K]

/-- The box reaches (nearly) around the globe. -/
def GlobeLike (b : Box K) : Prop :=
  (300 ≤ b.xmax - b.xmin ∨ (b.xmin ≤ -180 ∧ 180 ≤ b.xmax)) ∧ (150 ≤ b.ymax - b.ymin ∨ (b.ymin ≤ -89 ∧ 89 ≤ b.ymax))

/-- The projected corners of a box lie in another box. -/
def CornersFit (proj : K × K → Option (K × K)) (gb db : Box K) : Prop :=
  ∀ x y, (x = db.xmin ∨ x = db.xmax) → (y = db.ymin ∨ y = db.ymax) → ∃ q, proj (x, y) = some q ∧ InBox gb q

/-- The reference system is geographic WGS84. -/
def IsWgs84 (E : CrsEngine C P) (c : C) : Prop := ∃ p, E.parse c = some p ∧ E.epsg p = some 4326

/-- Two reference systems agree. -/
def SameCrs (E : CrsEngine C P) (c c' : C) : Prop := ∃ p q, E.parse c = some p ∧ E.parse c' = some q ∧ E.same p q = true

end OM.Spec
