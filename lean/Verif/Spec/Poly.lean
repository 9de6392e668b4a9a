import Verif.Model.Basic
import Mathlib.Algebra.Order.Field.Basic
import Mathlib.Algebra.Order.Group.Abs
/-!
# Specification vocabulary for NaN-delimited polygon arrays
-/
namespace OM.Spec

/-- A polygon array from its features: the points of each feature followed by a NaN row (`none`). -/
def joinNaN {α : Type} : List (List α) → List (Option α)
  | [] => []
  | f :: fs => f.map some ++ none :: joinNaN fs

/-- The segments between consecutive points of a feature. -/
def segments {α : Type} (f : List α) : List (α × α) := f.zip f.tail

/-- The segment from the last point of a feature back to its first point. -/
def closing {α : Type} : List α → List (α × α)
  | [] => []
  | p :: f => [((p :: f).getLast (List.cons_ne_nil _ _), p)]

/-- The point in row `i` of a polygon array, if that row exists and is not NaN. -/
def pointAt {α : Type} (arr : List (Option α)) (i : Int) : Option α :=
  if 0 ≤ i then (arr[i.toNat]?).join else none

/-- The feature ends with its first point written twice: `p₀ p₁ … pₙ p₀ p₀`. -/
def ClosedTwice {α : Type} (f : List α) : Prop := ∃ p g, f = p :: g ++ [p, p]

section
variable {K : Type} [Field K] [LinearOrder K]

/-- `q` lies on the segment from `a` to `b`. -/
def OnSegment (a b q : K × K) : Prop :=
  ∃ s : K, 0 ≤ s ∧ s ≤ 1 ∧ q.1 = a.1 + s * (b.1 - a.1) ∧ q.2 = a.2 + s * (b.2 - a.2)

/-- A closed point list (first = last) whose edges meet only where consecutive edges share their end, including the last and the
first edge. -/
def SimpleClosed (p : List (K × K)) : Prop :=
  p.head? = p.getLast? ∧ 4 ≤ p.length ∧
    ∀ i j (e f : (K × K) × (K × K)), i < j → (segments p)[i]? = some e → (segments p)[j]? = some f →
      ∀ q, OnSegment e.1 e.2 q → OnSegment f.1 f.2 q →
        (j = i + 1 ∧ q = e.2) ∨ (i = 0 ∧ j + 2 = p.length ∧ q = e.1)

/-- Twice the signed area of a closed point list: positive if it runs counter-clockwise. -/
def twiceArea (p : List (K × K)) : K := ((segments p).map fun s => s.1.1 * s.2.2 - s.2.1 * s.1.2).sum

/-- Twice the signed area of a triangle. -/
def turn (a b c : K × K) : K := (b.1 - a.1) * (c.2 - a.2) - (c.1 - a.1) * (b.2 - a.2)

/-- `out` is the polygon array `poly` (with a mask per row) made denser: a segment whose end row is outside, or that touches a NaN row,
is kept; on any other segment points of the segment are inserted such that both coordinates change by at most `d` from point to point. -/
inductive Densified (d : K) : List (Option (K × K)) → List Bool → List (Option (K × K)) → Prop
  | last (r : Option (K × K)) (m : Bool) : Densified d [r] [m] [r]
  | keep (a b : Option (K × K)) (l : List (Option (K × K))) (m mb : Bool) (ms : List Bool) (out : List (Option (K × K)))
      (h : mb = false ∨ a = none ∨ b = none) (rest : Densified d (b :: l) (mb :: ms) out) :
      Densified d (a :: b :: l) (m :: mb :: ms) (a :: out)
  | split (a b : K × K) (mid : List (K × K)) (l : List (Option (K × K))) (m : Bool) (ms : List Bool) (out : List (Option (K × K)))
      (hstep : (a :: mid ++ [b]).IsChain fun p q => |q.1 - p.1| ≤ d ∧ |q.2 - p.2| ≤ d)
      (hon : ∀ q ∈ mid, OnSegment a b q) (rest : Densified d (some b :: l) (true :: ms) out) :
      Densified d (some a :: some b :: l) (m :: true :: ms) (some a :: mid.map some ++ out)

end

end OM.Spec
