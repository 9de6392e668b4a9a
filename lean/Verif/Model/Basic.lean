/-!
# Shared vocabulary of the models

Triangle rows, row orders and the list models of `np.unique`.
-/
namespace OM

/-- One row of a connectivity table (`numpy.ndarray[int x 3]`, e.g. `oceanmesh/edges.py:78-79`).
Indices are natural numbers: numpy's negative indices are not modelled. -/
structure Tri where
  a : Nat
  b : Nat
  c : Nat
deriving DecidableEq, Repr

/-- The order in which `np.unique` sorts rows that are viewed as raw bytes
(`oceanmesh/edges.py:67-70`, `oceanmesh/fix_mesh.py:99-100`).  The byte order depends on the
platform and the dtype, so the model takes an arbitrary total order. -/
structure RowOrder (α : Type) where
  le : α → α → Bool
  total : ∀ a b, (le a b || le b a) = true
  trans : ∀ a b c, le a b = true → le b c = true → le a c = true
  antisymm : ∀ a b, le a b = true → le b a = true → a = b

/-- Insert into a sorted list, before the first element that is not smaller; a step of `sortBy` (`oceanmesh/fix_mesh.py:61`). -/
def insertBy {α : Type} (le : α → α → Bool) (x : α) : List α → List α
  | [] => [x]
  | y :: l => if le x y then x :: y :: l else y :: insertBy le x l

/-- Stable sorting by a comparison (`np.sort`, and `argsort(kind="mergesort")` applied to pairs; the sorting done inside
`np.unique`; `oceanmesh/clean.py:77,100`, `oceanmesh/fix_mesh.py:61,66,100`, `oceanmesh/edges.py:110`). Only the sorted result is modelled, not numpy's algorithm. -/
def sortBy {α : Type} (le : α → α → Bool) : List α → List α
  | [] => []
  | x :: l => insertBy le x (sortBy le l)

/-- Run-length encoding of a list: the values and counts of `np.unique(..., return_counts=True)`
once the data are sorted (`oceanmesh/edges.py:70`, `oceanmesh/clean.py:276`). -/
def runs {α : Type} [DecidableEq α] : List α → List (α × Nat)
  | [] => []
  | x :: l =>
    match runs l with
    | [] => [(x, 1)]
    | (y, n) :: r => if x = y then (y, n + 1) :: r else (x, 1) :: (y, n) :: r

/-- `np.unique(data, return_counts=True)` for rows (`oceanmesh/edges.py:65-72` `unique_row_view`). -/
def uniqueCounts {α : Type} [DecidableEq α] (o : RowOrder α) (l : List α) : List (α × Nat) :=
  runs (sortBy o.le l)

/-- `np.unique(data)` : the distinct values in sorted order (`oceanmesh/fix_mesh.py:100`,
`oceanmesh/clean.py:226`). -/
def unique {α : Type} [DecidableEq α] (o : RowOrder α) (l : List α) : List α :=
  (uniqueCounts o l).map Prod.fst

/-- The usual order of the integers (`np.unique` of an integer vector, e.g. `oceanmesh/clean.py:226`). -/
def natOrder : RowOrder Nat where
  le a b := decide (a ≤ b)
  total a b := by simp [Nat.le_total]
  trans a b c := by simpa using Nat.le_trans
  antisymm a b := by simpa using Nat.le_antisymm

/-- Lexicographic order of pairs: one admissible row order for `np.unique` of rows (`oceanmesh/fix_mesh.py:100`), used in the examples. -/
def lexOrder : RowOrder (Nat × Nat) where
  le a b := decide (a.1 < b.1 ∨ (a.1 = b.1 ∧ a.2 ≤ b.2))
  total a b := by simp only [← Bool.decide_or, decide_eq_true_eq]; omega
  trans a b c := by simp only [decide_eq_true_eq]; omega
  antisymm a b := by
    simp only [decide_eq_true_eq]; intro h1 h2
    apply Prod.ext <;> omega

end OM
