import Verif.Spec.Generator
import Verif.Spec.Rounding
/-!
# Vocabulary for the mesh generator in rounded arithmetic (C125)
-/
namespace OM.Spec
variable {K : Type} [Field K] [LinearOrder K]

/-- All coordinates are rounded numbers. -/
def RoundedPoints (fl : K → K) (p : List (K × K)) : Prop := ∀ q ∈ p, fl q.1 = q.1 ∧ fl q.2 = q.2

/-- A way to compute sums of two squares that gives no negative number, and zero only for zeros. -/
def IsSquareSum (sq : K → K → K) : Prop := ∀ a b, 0 ≤ sq a b ∧ (sq a b = 0 ↔ a = 0 ∧ b = 0)

/-- The numbers added one after the other from zero on, each sum rounded. -/
def roundedSum (fl : K → K) (l : List K) : K := l.foldl (fun a x => fl (a + x)) 0

/-- The numbers of the bars with their sign at vertex `v`: as they are at the first end, negated at the second. -/
def signedAt (v : Nat) (l : List ((Nat × Nat) × K)) : List K :=
  l.flatMap fun x => (if x.1.1 = v then [x.2] else []) ++ (if x.1.2 = v then [-x.2] else [])

/-- The middle of the sorted numbers, or the rounded mean of the two numbers in the middle. -/
def IsRoundedMedian (fl : K → K) (l : List K) (m : K) : Prop :=
  ∃ (s : List K) (a b : K), s.Perm l ∧ s.Pairwise (· ≤ ·) ∧ s[(l.length - 1) / 2]? = some a ∧ s[l.length / 2]? = some b ∧
    ((l.length % 2 = 1 ∧ m = a) ∨ (l.length % 2 = 0 ∧ m = fl (fl (a + b) / 2)))

/-- The rounded middle of two points. -/
def roundedMiddle (fl : K → K) (x y : K × K) : K × K := (fl (fl (x.1 + y.1) / 2), fl (fl (x.2 + y.2) / 2))

/-- The rounded centre of gravity of a triangle. -/
def roundedCentroid (fl : K → K) (x y z : K × K) : K × K := (fl (fl (fl (x.1 + y.1) + z.1) / 3), fl (fl (fl (x.2 + y.2) + z.2) / 3))

/-- The computed length of a bar; bars of length zero get the length `eps`. -/
def IsRoundedLength (fl sqrt : K → K) (eps : K) (x y : K × K) (L : K) : Prop :=
  let d := sqrt (fl (fl (fl (x.1 - y.1) * fl (x.1 - y.1)) + fl (fl (x.2 - y.2) * fl (x.2 - y.2))))
  (d ≠ 0 → L = d) ∧ (d = 0 → L = eps)

/-- The size wanted at a point; in stereographic coordinates that of the point in degrees times the distortion there, rounded. -/
def roundedSizeAt (fl : K → K) (S : GenSetup K) (g : K × K → Float64 K) (q : K × K) : Float64 K :=
  match S.stereo with
  | none => g q
  | some (back, dist) => match (g (back q)).mul (dist (back q).2) with
    | .fin x => .fin (fl x)
    | x => x

/-- At the rounded middle of some side of a kept triangle the size is a positive number. -/
def HasRoundedBar (fl : K → K) (S : GenSetup K) (g : K × K → Float64 K) (r : GenIter K) : Prop :=
  ∃ f ∈ r.kept, ∃ (u v : Nat) (x y : K × K) (s : K), HasSide f u v ∧ r.points[u]? = some x ∧ r.points[v]? = some y ∧
    usable (roundedSizeAt fl S g (roundedMiddle fl x y)) = some s

end OM.Spec
