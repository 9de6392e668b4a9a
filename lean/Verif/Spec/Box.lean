import Verif.Model.Region
/-!
# Vocabulary on boxes
-/
namespace OM.Spec
open OM

section
variable {K : Type} [LinearOrder K]

/-- The point lies in the closed box. -/
def InBox (b : Box K) (q : K × K) : Prop := b.xmin ≤ q.1 ∧ q.1 ≤ b.xmax ∧ b.ymin ≤ q.2 ∧ q.2 ≤ b.ymax

/-- The point lies in the interior of the box. -/
def InsideBox (b : Box K) (q : K × K) : Prop := b.xmin < q.1 ∧ q.1 < b.xmax ∧ b.ymin < q.2 ∧ q.2 < b.ymax

/-- The box has points. -/
def ProperBox (b : Box K) : Prop := b.xmin ≤ b.xmax ∧ b.ymin ≤ b.ymax

end
end OM.Spec
