import Verif.Model.FixMesh
import Mathlib.Data.Prod.Lex
import Mathlib.Order.WithBot
/-! Concrete row orders for the examples, and maxima/minima of lists. -/
namespace OM

/-- Lexicographic order of triangle rows (an admissible byte order). -/
def triOrder : RowOrder Tri where
  le f g := decide (f.a < g.a ∨ (f.a = g.a ∧ (f.b < g.b ∨ (f.b = g.b ∧ f.c ≤ g.c))))
  total f g := by simp only [← Bool.decide_or, decide_eq_true_eq]; omega
  trans f g h := by simp only [decide_eq_true_eq]; omega
  antisymm f g := by
    simp only [decide_eq_true_eq]; intro h1 h2
    have h1 : f.a = g.a ∧ f.b = g.b ∧ f.c = g.c := by omega
    cases f; cases g; simp_all

section
variable {K : Type} [LinearOrder K]

/-- The order of a linear order, as a row order. -/
def RowOrder.ofLinear : RowOrder K where
  le a b := decide (a ≤ b)
  total a b := by simpa using le_total a b
  trans a b c := by simpa using le_trans
  antisymm a b := by simpa using le_antisymm

/-- Lexicographic product of two row orders. -/
def RowOrder.prod {α β : Type} [DecidableEq α] (o : RowOrder α) (o' : RowOrder β) : RowOrder (α × β) where
  le x y := if x.1 = y.1 then o'.le x.2 y.2 else o.le x.1 y.1
  total x y := by
    by_cases h : x.1 = y.1
    · simpa [h] using o'.total x.2 y.2
    · simpa [h, Ne.symm h] using o.total x.1 y.1
  trans x y z := by
    by_cases h : x.1 = y.1
    · by_cases h' : y.1 = z.1
      · simpa [h, h'] using o'.trans x.2 y.2 z.2
      · rw [if_pos h, if_neg h', if_neg (h ▸ h')]
        intro _ h2; rw [h]; exact h2
    · by_cases h' : y.1 = z.1
      · rw [if_neg h, if_pos h', if_neg (h' ▸ h)]
        intro h1 _; rw [← h']; exact h1
      · rw [if_neg h, if_neg h']
        intro h1 h2
        by_cases h3 : x.1 = z.1
        · exact absurd (o.antisymm _ _ h1 (h3 ▸ h2)) h
        · rw [if_neg h3]; exact o.trans _ _ _ h1 h2
  antisymm x y := by
    by_cases h : x.1 = y.1
    · rw [if_pos h, if_pos h.symm]
      intro h1 h2
      exact Prod.ext h (o'.antisymm _ _ h1 h2)
    · rw [if_neg h, if_neg (Ne.symm h)]
      intro h1 h2
      exact absurd (o.antisymm _ _ h1 h2) h

/-- A row order extended by a smallest element. -/
def RowOrder.option {α : Type} (o : RowOrder α) : RowOrder (Option α) where
  le x y := match x, y with
    | none, _ => true
    | some _, none => false
    | some a, some b => o.le a b
  total x y := by
    rcases x with _ | a <;> rcases y with _ | b <;> simp
    simpa using o.total a b
  trans x y z := by
    rcases x with _ | a <;> rcases y with _ | b <;> rcases z with _ | c <;> simp
    exact o.trans a b c
  antisymm x y := by
    rcases x with _ | a <;> rcases y with _ | b <;> simp
    exact o.antisymm a b

/-- Lexicographic order of point rows, NaN rows first (an admissible byte order). -/
def ptOrder : RowOrder (Row K) :=
  let c : RowOrder (K × Bool) := .prod .ofLinear .ofLinear
  .option (.prod c c)

theorem foldl_max_mem (x : K) (l : List K) : l.foldl max x ∈ x :: l := by
  induction l generalizing x with
  | nil => simp
  | cons y l ih =>
    rw [List.foldl_cons]
    rcases List.mem_cons.1 (ih (max x y)) with h | h
    · rw [h]
      rcases max_choice x y with h | h <;> rw [h] <;> simp
    · exact List.mem_cons_of_mem _ (List.mem_cons_of_mem _ h)

theorem le_foldl_max (x : K) (l : List K) : ∀ y ∈ x :: l, y ≤ l.foldl max x := by
  induction l generalizing x with
  | nil => simp
  | cons z l ih =>
    rw [List.foldl_cons]
    have h0 := ih (max x z) (max x z) (by simp)
    intro y hy
    rcases List.mem_cons.1 hy with rfl | hy
    · exact (le_max_left _ _).trans h0
    · rcases List.mem_cons.1 hy with rfl | hy
      · exact (le_max_right _ _).trans h0
      · exact ih _ y (List.mem_cons_of_mem _ hy)

theorem foldl_min_mem (x : K) (l : List K) : l.foldl min x ∈ x :: l := by
  induction l generalizing x with
  | nil => simp
  | cons y l ih =>
    rw [List.foldl_cons]
    rcases List.mem_cons.1 (ih (min x y)) with h | h
    · rw [h]
      rcases min_choice x y with h | h <;> rw [h] <;> simp
    · exact List.mem_cons_of_mem _ (List.mem_cons_of_mem _ h)

theorem foldl_min_le (x : K) (l : List K) : ∀ y ∈ x :: l, l.foldl min x ≤ y := by
  induction l generalizing x with
  | nil => simp
  | cons z l ih =>
    rw [List.foldl_cons]
    have h0 := ih (min x z) (min x z) (by simp)
    intro y hy
    rcases List.mem_cons.1 hy with rfl | hy
    · exact h0.trans (min_le_left _ _)
    · rcases List.mem_cons.1 hy with rfl | hy
      · exact h0.trans (min_le_right _ _)
      · exact ih _ y (List.mem_cons_of_mem _ hy)

end
end OM
