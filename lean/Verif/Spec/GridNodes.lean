import Mathlib.Algebra.Order.Field.Basic
/-!
# Specification vocabulary for structured grids stored column by column
-/
namespace OM.Spec

/-- Position of node `(i, j, k)` in a column-major array with `d0` rows and `d1` columns (all 0-based). -/
def nodeIndex (d0 d1 i j k : Nat) : Nat := i + d0 * (j + d1 * k)

/-- `n` and `m` are the positions of nodes `(i,j,k)` and `(i',j',k)` of the same layer, and `rel i j i' j'`. -/
def InLayer (rel : Nat → Nat → Nat → Nat → Prop) (d0 d1 d2 n m : Nat) : Prop :=
  ∃ i j i' j' k, i < d0 ∧ j < d1 ∧ i' < d0 ∧ j' < d1 ∧ k < d2 ∧
    n = nodeIndex d0 d1 i j k ∧ m = nodeIndex d0 d1 i' j' k ∧ rel i j i' j'

/-- Horizontal or vertical neighbours. -/
def Orthogonal : Nat → Nat → Nat → Nat → Nat → Prop :=
  InLayer fun i j i' j' => (i = i' ∧ (j' = j + 1 ∨ j = j' + 1)) ∨ (j = j' ∧ (i' = i + 1 ∨ i = i' + 1))

/-- Neighbours in direction (1,1). -/
def MainDiagonal : Nat → Nat → Nat → Nat → Nat → Prop :=
  InLayer fun i j i' j' => (i' = i + 1 ∧ j' = j + 1) ∨ (i = i' + 1 ∧ j = j' + 1)

/-- Neighbours in direction (1,-1). -/
def AntiDiagonal : Nat → Nat → Nat → Nat → Nat → Prop :=
  InLayer fun i j i' j' => (i' = i + 1 ∧ j = j' + 1) ∨ (i = i' + 1 ∧ j' = j + 1)

variable {K : Type} [Field K] [LinearOrder K]

/-- The two entries of the array differ by at most `d`. -/
def EntriesWithin (f : List K) (d : K) (n m : Nat) : Prop := ∃ x y, f[n]? = some x ∧ f[m]? = some y ∧ |x - y| ≤ d

/-- `Forced f … n v`: a grid path leads from some node to `n`, and `v` is the value at its start plus the gradation
times the length of the path (orthogonal steps `elen`, diagonal steps `elend`). -/
inductive Forced (f : List K) (d0 d1 d2 : Nat) (elen elend g : K) : Nat → K → Prop
  | start {n : Nat} {x : K} : f[n]? = some x → Forced f d0 d1 d2 elen elend g n x
  | orth {n m : Nat} {v : K} : Forced f d0 d1 d2 elen elend g n v → Orthogonal d0 d1 d2 n m →
      Forced f d0 d1 d2 elen elend g m (v + elen * g)
  | diag {n m : Nat} {v : K} : Forced f d0 d1 d2 elen elend g n v →
      MainDiagonal d0 d1 d2 n m ∨ AntiDiagonal d0 d1 d2 n m → Forced f d0 d1 d2 elen elend g m (v + elend * g)

/-- All eight neighbours respect the gradation `g`, up to `tol`. -/
def Graded (f : List K) (d0 d1 d2 : Nat) (elen elend g tol : K) : Prop :=
  (∀ n m, Orthogonal d0 d1 d2 n m → EntriesWithin f (elen * g + tol) n m) ∧
    ∀ n m, MainDiagonal d0 d1 d2 n m ∨ AntiDiagonal d0 d1 d2 n m → EntriesWithin f (elend * g + tol) n m

end OM.Spec
