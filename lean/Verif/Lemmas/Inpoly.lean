import Verif.Model.Inpoly
import Verif.Spec.Polygon
import Mathlib.Data.List.Count
import Mathlib.Algebra.BigOperators.Group.Finset.Basic
import Mathlib.Tactic.Linarith
import Mathlib.Tactic.Ring
import Mathlib.Tactic.FieldSimp
import Mathlib.Tactic.LinearCombination
/-!
# The loops of the point-in-polygon kernels
-/
namespace OM
open Spec
set_option linter.unusedSectionVars false

section
variable {K : Type} [Field K] [LinearOrder K] [IsStrictOrderedRing K]

/-- The edge makes the Python kernel report the boundary. -/
def pyHit (ftol : K) (q : K × K) (s : Seg K) : Bool := !pySkip ftol q s && pyOnSegment ftol q s
/-- The edge is counted by the Python kernel. -/
def pyCount (ftol : K) (q : K × K) (s : Seg K) : Bool := !pySkip ftol q s && pyCross ftol q s
/-- The edge makes the compiled kernel report the boundary. -/
def cHit (ftol : K) (q : K × K) (s : Seg K) : Bool := !cSkip ftol q s && cOnSegment ftol q s
/-- The edge is counted by the compiled kernel. -/
def cCount (ftol : K) (q : K × K) (s : Seg K) : Bool := !cSkip ftol q s && cCross q s

theorem pyLoop_eq (ftol : K) (q : K × K) (l : List (Seg K)) (c : Nat) :
    (pyLoop ftol q l c).1 = l.any (pyHit ftol q) ∧
      (l.any (pyHit ftol q) = false → (pyLoop ftol q l c).2 = c + l.countP (pyCount ftol q)) := by
  induction l generalizing c with
  | nil => simp [pyLoop]
  | cons s l ih =>
    rw [List.any_cons, List.countP_cons, pyLoop]
    by_cases h1 : pySkip ftol q s = true
    · have e1 : pyHit ftol q s = false := by simp [pyHit, h1]
      have e2 : pyCount ftol q s = false := by simp [pyCount, h1]
      rw [if_pos h1, e1, e2]
      simpa using ih c
    · rw [if_neg h1]
      rw [Bool.not_eq_true] at h1
      by_cases h2 : pyOnSegment ftol q s = true
      · have e1 : pyHit ftol q s = true := by simp [pyHit, h1, h2]
        rw [if_pos h2, e1]
        simp
      · rw [if_neg h2]
        rw [Bool.not_eq_true] at h2
        have e1 : pyHit ftol q s = false := by simp [pyHit, h2]
        have e2 : pyCount ftol q s = pyCross ftol q s := by simp [pyCount, h1]
        rw [e1, e2, Bool.false_or]
        by_cases h3 : pyCross ftol q s = true
        · obtain ⟨i1, i2⟩ := ih (c + 1)
          rw [if_pos h3, if_pos h3]
          refine ⟨i1, fun h => ?_⟩
          rw [i2 h]
          omega
        · rw [if_neg h3, if_neg h3]
          simpa using ih c

theorem cLoop_eq (ftol : K) (q : K × K) (l : List (Seg K)) (i : Bool) :
    (cLoop ftol q l i).1 = l.any (cHit ftol q) ∧
      (l.any (cHit ftol q) = false → (cLoop ftol q l i).2 = (i ^^ (l.countP (cCount ftol q) % 2 == 1))) := by
  induction l generalizing i with
  | nil => simp [cLoop]
  | cons s l ih =>
    rw [List.any_cons, List.countP_cons, cLoop]
    by_cases h1 : cSkip ftol q s = true
    · have e1 : cHit ftol q s = false := by simp [cHit, h1]
      have e2 : cCount ftol q s = false := by simp [cCount, h1]
      rw [if_pos h1, e1, e2]
      simpa using ih i
    · rw [if_neg h1]
      rw [Bool.not_eq_true] at h1
      by_cases h2 : cOnSegment ftol q s = true
      · have e1 : cHit ftol q s = true := by simp [cHit, h1, h2]
        rw [if_pos h2, e1]
        simp
      · rw [if_neg h2]
        rw [Bool.not_eq_true] at h2
        have e1 : cHit ftol q s = false := by simp [cHit, h2]
        have e2 : cCount ftol q s = cCross q s := by simp [cCount, h1]
        rw [e1, e2, Bool.false_or]
        by_cases h3 : cCross q s = true
        · obtain ⟨i1, i2⟩ := ih (!i)
          rw [if_pos h3, if_pos h3]
          refine ⟨i1, fun h => ?_⟩
          rw [i2 h]
          generalize l.countP (cCount ftol q) = n
          rcases Nat.mod_two_eq_zero_or_one n with h | h
          · have h' : (n + 1) % 2 = 1 := by omega
            rw [h, h']; cases i <;> rfl
          · have h' : (n + 1) % 2 = 0 := by omega
            rw [h, h']; cases i <;> rfl
        · rw [if_neg h3, if_neg h3]
          simpa using ih i

/-- The compiled kernel in closed form. -/
theorem cPoint_eq (ftol : K) (segs : List (Seg K)) (q : K × K) :
    cPoint ftol segs q = (segs.any (cHit ftol q) || segs.countP (cCount ftol q) % 2 == 1, segs.any (cHit ftol q)) := by
  obtain ⟨h1, h2⟩ := cLoop_eq ftol q segs false
  unfold cPoint
  simp only [h1]
  cases h : segs.any (cHit ftol q)
  · simp [h2 h]
  · simp

/-- The point is not in the box of the edges, enlarged by the tolerance. -/
def pyReject (ftol : K) (q : K × K) (segs : List (Seg K)) : Prop :=
  (∀ s ∈ segs, q.1 < s.1.1 - ftol ∧ q.1 < s.2.1 - ftol) ∨ (∀ s ∈ segs, s.1.1 + ftol < q.1 ∧ s.2.1 + ftol < q.1) ∨
    (∀ s ∈ segs, q.2 < s.1.2 - ftol ∧ q.2 < s.2.2 - ftol) ∨ (∀ s ∈ segs, s.1.2 + ftol < q.2 ∧ s.2.2 + ftol < q.2)

theorem lt_listMin (c x : K) (l : List K) : c < listMin x l ↔ c < x ∧ ∀ y ∈ l, c < y := by
  unfold listMin
  induction l generalizing x with
  | nil => simp
  | cons y l ih => simp [ih, and_assoc]

theorem listMax_lt (c x : K) (l : List K) : listMax x l < c ↔ x < c ∧ ∀ y ∈ l, y < c := by
  unfold listMax
  induction l generalizing x with
  | nil => simp
  | cons y l ih => simp [ih, and_assoc]

theorem segBox_reject (ftol : K) (q : K × K) (s : Seg K) (l : List (Seg K)) :
    ¬ ((segBox s l).xmin - ftol ≤ q.1 ∧ q.1 ≤ (segBox s l).xmax + ftol ∧ (segBox s l).ymin - ftol ≤ q.2 ∧
      q.2 ≤ (segBox s l).ymax + ftol) ↔ pyReject ftol q (s :: l) := by
  have e1 : ∀ (f g : Seg K → K) (x : K), ¬ (min (listMin (f s) (l.map f)) (listMin (g s) (l.map g)) - ftol ≤ x) ↔
      ∀ e ∈ s :: l, x < f e - ftol ∧ x < g e - ftol := by
    intro f g x
    rw [not_le, lt_sub_iff_add_lt, lt_min_iff, lt_listMin, lt_listMin]
    simp only [List.mem_map, forall_exists_index, and_imp, forall_apply_eq_imp_iff₂, List.mem_cons, forall_eq_or_imp, lt_sub_iff_add_lt]
    exact ⟨fun h => ⟨⟨h.1.1, h.2.1⟩, fun e he => ⟨h.1.2 e he, h.2.2 e he⟩⟩,
      fun h => ⟨⟨h.1.1, fun e he => (h.2 e he).1⟩, h.1.2, fun e he => (h.2 e he).2⟩⟩
  have e2 : ∀ (f g : Seg K → K) (x : K), ¬ (x ≤ max (listMax (f s) (l.map f)) (listMax (g s) (l.map g)) + ftol) ↔
      ∀ e ∈ s :: l, f e + ftol < x ∧ g e + ftol < x := by
    intro f g x
    rw [not_le, ← lt_sub_iff_add_lt, max_lt_iff, listMax_lt, listMax_lt]
    simp only [List.mem_map, forall_exists_index, and_imp, forall_apply_eq_imp_iff₂, List.mem_cons, forall_eq_or_imp, ← lt_sub_iff_add_lt]
    exact ⟨fun h => ⟨⟨h.1.1, h.2.1⟩, fun e he => ⟨h.1.2 e he, h.2.2 e he⟩⟩,
      fun h => ⟨⟨h.1.1, fun e he => (h.2 e he).1⟩, h.1.2, fun e he => (h.2 e he).2⟩⟩
  rw [not_and_or, not_and_or, not_and_or]
  exact or_congr (e1 (·.1.1) (·.2.1) q.1) (or_congr (e2 (·.1.1) (·.2.1) q.1) (or_congr (e1 (·.1.2) (·.2.2) q.2) (e2 (·.1.2) (·.2.2) q.2)))

open Classical in
/-- The Python kernel in closed form. -/
theorem pyPoint_eq (ftol : K) (n : Nat) (segs : List (Seg K)) (q : K × K) :
    pyPoint ftol n segs q = if segs = [] ∨ n < 3 ∨ pyReject ftol q segs then (false, false) else
      (segs.any (pyHit ftol q) || segs.countP (pyCount ftol q) % 2 == 1, segs.any (pyHit ftol q)) := by
  cases segs with
  | nil => simp [pyPoint]
  | cons s l =>
    by_cases hn : n < 3
    · simp [pyPoint, hn]
    · by_cases hr : pyReject ftol q (s :: l)
      · have := (segBox_reject ftol q s l).2 hr
        simp only [pyPoint, hn, if_false, this, hr, or_true, if_true]
      · have := not_not.1 (mt (segBox_reject ftol q s l).1 hr)
        simp only [pyPoint, hn, if_false, this, hr, or_false, false_or, reduceCtorEq, and_self, if_true]
        obtain ⟨h1, h2⟩ := pyLoop_eq ftol q (s :: l) 0
        rw [h1]
        cases h : (s :: l).any (pyHit ftol q)
        · rw [h2 h]; simp
        · simp

/-! ## One edge -/

/-- The half-open vertical span of the edge contains the height of the point and the edge is right of the point there. -/
def crossesRight (q : K × K) (s : Seg K) : Bool :=
  (decide (q.2 < s.1.2) != decide (q.2 < s.2.2)) &&
    decide (q.1 < s.1.1 + (q.2 - s.1.2) * (s.2.1 - s.1.1) / (s.2.2 - s.1.2))

theorem straddle_iff (q : K × K) (s : Seg K) :
    (decide (q.2 < s.1.2) != decide (q.2 < s.2.2)) = true ↔ (s.1.2 ≤ q.2 ∧ q.2 < s.2.2) ∨ (s.2.2 ≤ q.2 ∧ q.2 < s.1.2) := by
  by_cases h1 : q.2 < s.1.2 <;> by_cases h2 : q.2 < s.2.2 <;> simp [h1, h2] <;> simp_all

theorem cCross_eq (q : K × K) (s : Seg K) : cCross q s = crossesRight q s := by
  unfold cCross crossesRight
  have h := straddle_iff q s
  by_cases hs : (s.1.2 ≤ q.2 ∧ q.2 < s.2.2) ∨ (s.2.2 ≤ q.2 ∧ q.2 < s.1.2)
  · have hne : s.2.2 - s.1.2 ≠ 0 := by
      intro h0
      have : s.2.2 = s.1.2 := by linarith
      rcases hs with ⟨h1, h2⟩ | ⟨h1, h2⟩ <;> (rw [this] at *; exact absurd h1 (not_le.2 h2))
    rw [h.2 hs]
    have : ((decide (s.1.2 ≤ q.2) && decide (q.2 < s.2.2)) || (decide (s.2.2 ≤ q.2) && decide (q.2 < s.1.2))) = true := by
      simpa using hs
    rw [this]
    simp only [hne, ne_eq, not_false_eq_true, if_true, Bool.true_and]
    rw [mul_div_assoc]
  · have h1 : (decide (q.2 < s.1.2) != decide (q.2 < s.2.2)) = false := by
      rw [← Bool.not_eq_true, h]; exact hs
    have : ((decide (s.1.2 ≤ q.2) && decide (q.2 < s.2.2)) || (decide (s.2.2 ≤ q.2) && decide (q.2 < s.1.2))) = false := by
      rw [← Bool.not_eq_true]; simpa using hs
    rw [h1, this]
    simp

theorem cSkip_eq (ftol : K) (q : K × K) (s : Seg K) : cSkip ftol q s = pySkip ftol q s := by
  unfold cSkip pySkip
  by_cases h : s.1.2 < s.2.2
  · simp [h, min_eq_left h.le, max_eq_right h.le]
  · simp [h, min_eq_right (not_lt.1 h), max_eq_left (not_lt.1 h)]

theorem pySkip_of_straddle {ftol : K} (hf : 0 ≤ ftol) {q : K × K} {s : Seg K}
    (hs : (s.1.2 ≤ q.2 ∧ q.2 < s.2.2) ∨ (s.2.2 ≤ q.2 ∧ q.2 < s.1.2)) : pySkip ftol q s = false := by
  unfold pySkip
  have h1 : min s.1.2 s.2.2 ≤ q.2 := by
    rcases hs with h | h
    · exact (min_le_left _ _).trans h.1
    · exact (min_le_right _ _).trans h.1
  have h2 : q.2 ≤ max s.1.2 s.2.2 := by
    rcases hs with h | h
    · exact h.2.le.trans (le_max_right _ _)
    · exact h.2.le.trans (le_max_left _ _)
  simp only [Bool.or_eq_false_iff, decide_eq_false_iff_not, not_lt]
  exact ⟨by linarith, by linarith⟩

/-- For a tolerance that is not negative the compiled kernel counts exactly the edges to the right. -/
theorem cCount_eq {ftol : K} (hf : 0 ≤ ftol) (q : K × K) (s : Seg K) : cCount ftol q s = crossesRight q s := by
  unfold cCount
  rw [cCross_eq, cSkip_eq]
  by_cases hs : (s.1.2 ≤ q.2 ∧ q.2 < s.2.2) ∨ (s.2.2 ≤ q.2 ∧ q.2 < s.1.2)
  · simp [pySkip_of_straddle hf hs]
  · have : crossesRight q s = false := by
      unfold crossesRight
      have h1 : (decide (q.2 < s.1.2) != decide (q.2 < s.2.2)) = false := by
        rw [← Bool.not_eq_true, straddle_iff]; exact hs
      simp [h1]
    simp [this]

/-- A ray at this height does not meet a nearly flat edge. -/
theorem levelClear_not_straddle {w y : K} {s : Seg K} (h : LevelClear w 0 y s) (hd : |s.2.2 - s.1.2| ≤ w) :
    ¬ ((s.1.2 ≤ y ∧ y < s.2.2) ∨ (s.2.2 ≤ y ∧ y < s.1.2)) := by
  rcases h hd with h | h | h
  · rw [h]; rintro (⟨a, b⟩ | ⟨a, b⟩) <;> exact absurd b (not_lt.2 a)
  · rw [add_zero, lt_min_iff] at h
    rintro (⟨a, b⟩ | ⟨a, b⟩)
    · exact absurd h.1 (not_lt.2 a)
    · exact absurd h.2 (not_lt.2 a)
  · rw [add_zero, max_le_iff] at h
    rintro (⟨a, b⟩ | ⟨a, b⟩)
    · exact absurd b (not_lt.2 h.2)
    · exact absurd b (not_lt.2 h.1)

theorem levelClear_mono {w w' e e' y : K} {s : Seg K} (h : LevelClear w' e' y s) (hw : w ≤ w') (he : e ≤ e') : LevelClear w e y s := fun hd => by
  rcases h (hd.trans hw) with h | h | h
  · exact .inl h
  · exact .inr (.inl (by linarith))
  · exact .inr (.inr (by linarith))

/-- At a height that differs by at most `d`. -/
theorem levelClear_shift {w e d y y' : K} {s : Seg K} (h : LevelClear w (e + d) y s) (hd : |y' - y| ≤ d) : LevelClear w e y' s := fun hw => by
  rw [abs_le] at hd
  rcases h hw with h | h | h
  · exact .inl h
  · exact .inr (.inl (by linarith))
  · exact .inr (.inr (by linarith))

theorem pyCount_eq {ftol : K} (hf : 0 ≤ ftol) (q : K × K) (s : Seg K) (hn : LevelClear ftol 0 q.2 s) :
    pyCount ftol q s = crossesRight q s := by
  rw [← cCount_eq hf]
  unfold pyCount cCount
  rw [cCross_eq, cSkip_eq]
  congr 1
  unfold pyCross crossesRight
  by_cases hd : |s.2.2 - s.1.2| ≤ ftol
  · have h1 : (decide (q.2 < s.1.2) != decide (q.2 < s.2.2)) = false := by
      rw [← Bool.not_eq_true, straddle_iff]
      exact levelClear_not_straddle hn hd
    simp [h1]
  · simp [hd]

theorem LevelClear_zero (e y : K) (s : Seg K) : LevelClear 0 e y s := fun h => .inl (by
  have := abs_nonpos_iff.1 h
  linarith)

/-! ## The boundary test -/

theorem len2_nonneg (s : Seg K) : 0 ≤ (s.2.1 - s.1.1) * (s.2.1 - s.1.1) + (s.2.2 - s.1.2) * (s.2.2 - s.1.2) :=
  add_nonneg (mul_self_nonneg _) (mul_self_nonneg _)

theorem len2_pos_iff (s : Seg K) :
    0 < (s.2.1 - s.1.1) * (s.2.1 - s.1.1) + (s.2.2 - s.1.2) * (s.2.2 - s.1.2) ↔ s.2.1 - s.1.1 ≠ 0 ∨ s.2.2 - s.1.2 ≠ 0 := by
  constructor
  · intro h
    by_contra hc
    push Not at hc
    rw [hc.1, hc.2] at h
    simp at h
  · rintro (h | h)
    · have := mul_self_pos.2 h
      nlinarith [mul_self_nonneg (s.2.2 - s.1.2)]
    · have := mul_self_pos.2 h
      nlinarith [mul_self_nonneg (s.2.1 - s.1.1)]

theorem onSegment_range {q : K × K} {s : Seg K} (h : OnClosedSegment q s.1 s.2) : min s.1.2 s.2.2 ≤ q.2 ∧ q.2 ≤ max s.1.2 s.2.2 ∧
    min s.1.1 s.2.1 ≤ q.1 ∧ q.1 ≤ max s.1.1 s.2.1 := by
  obtain ⟨t, h0, h1, hx, hy⟩ := h
  have key : ∀ a b : K, min a b ≤ a + t * (b - a) ∧ a + t * (b - a) ≤ max a b := by
    intro a b
    rcases le_total a b with h | h
    · rw [min_eq_left h, max_eq_right h]
      have := mul_nonneg h0 (sub_nonneg.2 h)
      have := mul_nonneg (sub_nonneg.2 h1) (sub_nonneg.2 h)
      constructor <;> nlinarith
    · rw [min_eq_right h, max_eq_left h]
      have := mul_nonneg h0 (sub_nonneg.2 h)
      have := mul_nonneg (sub_nonneg.2 h1) (sub_nonneg.2 h)
      constructor <;> nlinarith
  rw [hx, hy]
  exact ⟨(key _ _).1, (key _ _).2, (key _ _).1, (key _ _).2⟩

theorem pySkip_of_onSegment {ftol : K} (hf : 0 ≤ ftol) {q : K × K} {s : Seg K} (h : OnClosedSegment q s.1 s.2) : pySkip ftol q s = false := by
  obtain ⟨h1, h2, -, -⟩ := onSegment_range h
  unfold pySkip
  simp only [Bool.or_eq_false_iff, decide_eq_false_iff_not, not_lt]
  exact ⟨by linarith, by linarith⟩

/-- Points of a segment are found by both boundary tests. -/
theorem pyHit_of_onSegment {ftol : K} (hf : 0 ≤ ftol) {q : K × K} {s : Seg K} (hne : s.1 ≠ s.2) (h : OnClosedSegment q s.1 s.2) :
    pyHit ftol q s = true ∧ cHit ftol q s = true := by
  have hsk := pySkip_of_onSegment hf h
  have hne' : s.2.1 - s.1.1 ≠ 0 ∨ s.2.2 - s.1.2 ≠ 0 := by
    by_contra hc
    push Not at hc
    exact hne (Prod.ext (by linarith [hc.1]) (by linarith [hc.2]))
  have hL := (len2_pos_iff s).2 hne'
  obtain ⟨t, h0, h1, hx, hy⟩ := h
  constructor
  · unfold pyHit pyOnSegment
    rw [hsk]
    have hcr : (s.2.1 - s.1.1) * (q.2 - s.1.2) - (s.2.2 - s.1.2) * (q.1 - s.1.1) = 0 := by rw [hx, hy]; ring
    have hdot : (s.2.1 - s.1.1) * (q.1 - s.1.1) + (s.2.2 - s.1.2) * (q.2 - s.1.2) =
        t * ((s.2.1 - s.1.1) * (s.2.1 - s.1.1) + (s.2.2 - s.1.2) * (s.2.2 - s.1.2)) := by rw [hx, hy]; ring
    simp only [hcr, hdot, hL, decide_true, mul_zero, zero_div, mul_self_nonneg, Bool.true_and, Bool.not_false]
    have a1 := mul_nonneg h0 hL.le
    have a2 := mul_nonneg (sub_nonneg.2 h1) hL.le
    simp only [Bool.and_eq_true, decide_eq_true_eq]
    constructor <;> nlinarith
  · unfold cHit cOnSegment
    rw [cSkip_eq, hsk]
    simp only [hne', if_true, Bool.not_false, Bool.true_and]
    have ht : ((q.1 - s.1.1) * (s.2.1 - s.1.1) + (q.2 - s.1.2) * (s.2.2 - s.1.2)) /
        ((s.2.1 - s.1.1) * (s.2.1 - s.1.1) + (s.2.2 - s.1.2) * (s.2.2 - s.1.2)) = t := by
      rw [div_eq_iff hL.ne', hx, hy]; ring
    rw [ht]
    simp only [hx, hy, sub_self, abs_zero, add_zero, Bool.and_eq_true, decide_eq_true_eq]
    exact ⟨⟨h0, h1⟩, hf⟩

/-- With tolerance zero both boundary tests find exactly the points of the segment. -/
theorem pyHit_zero (q : K × K) (s : Seg K) : pyHit 0 q s = true ↔ s.1 ≠ s.2 ∧ OnClosedSegment q s.1 s.2 := by
  constructor
  · intro h
    unfold pyHit pyOnSegment at h
    simp only [Bool.and_eq_true, decide_eq_true_eq, neg_zero, add_zero, mul_zero] at h
    obtain ⟨-, ⟨⟨hL, hc⟩, hd0⟩, hd1⟩ := h
    refine ⟨fun he => by rw [he] at hL; simp at hL, ?_⟩
    have hc0 : (s.2.1 - s.1.1) * (q.2 - s.1.2) - (s.2.2 - s.1.2) * (q.1 - s.1.1) = 0 := by
      have h1 := (div_nonpos_iff.1 hc)
      rcases h1 with ⟨-, h1⟩ | ⟨h1, -⟩
      · exact absurd hL (not_lt.2 h1)
      · exact mul_self_eq_zero.1 (le_antisymm h1 (mul_self_nonneg _))
    refine ⟨((s.2.1 - s.1.1) * (q.1 - s.1.1) + (s.2.2 - s.1.2) * (q.2 - s.1.2)) /
      ((s.2.1 - s.1.1) * (s.2.1 - s.1.1) + (s.2.2 - s.1.2) * (s.2.2 - s.1.2)), div_nonneg hd0 hL.le, (div_le_one hL).2 hd1, ?_, ?_⟩
    · rw [← sub_eq_iff_eq_add', div_mul_eq_mul_div, eq_div_iff hL.ne']
      linear_combination -(s.2.2 - s.1.2) * hc0
    · rw [← sub_eq_iff_eq_add', div_mul_eq_mul_div, eq_div_iff hL.ne']
      linear_combination (s.2.1 - s.1.1) * hc0
  · rintro ⟨hne, h⟩
    exact (pyHit_of_onSegment le_rfl hne h).1

theorem cHit_zero (q : K × K) (s : Seg K) : cHit 0 q s = true ↔ s.1 ≠ s.2 ∧ OnClosedSegment q s.1 s.2 := by
  constructor
  · intro h
    unfold cHit cOnSegment at h
    rw [Bool.and_eq_true] at h
    obtain ⟨-, h⟩ := h
    by_cases hne : s.2.1 - s.1.1 ≠ 0 ∨ s.2.2 - s.1.2 ≠ 0
    · simp only [hne, if_true] at h
      simp only [Bool.and_eq_true, decide_eq_true_eq] at h
      obtain ⟨⟨h0, h1⟩, hd⟩ := h
      refine ⟨fun he => by rw [he] at hne; simp at hne, _, h0, h1, ?_, ?_⟩
      · have := abs_nonneg (q.2 - (s.1.2 + ((q.1 - s.1.1) * (s.2.1 - s.1.1) + (q.2 - s.1.2) * (s.2.2 - s.1.2)) /
          ((s.2.1 - s.1.1) * (s.2.1 - s.1.1) + (s.2.2 - s.1.2) * (s.2.2 - s.1.2)) * (s.2.2 - s.1.2)))
        exact sub_eq_zero.1 (abs_nonpos_iff.1 (by linarith))
      · have := abs_nonneg (q.1 - (s.1.1 + ((q.1 - s.1.1) * (s.2.1 - s.1.1) + (q.2 - s.1.2) * (s.2.2 - s.1.2)) /
          ((s.2.1 - s.1.1) * (s.2.1 - s.1.1) + (s.2.2 - s.1.2) * (s.2.2 - s.1.2)) * (s.2.1 - s.1.1)))
        exact sub_eq_zero.1 (abs_nonpos_iff.1 (by linarith))
    · simp only [hne, if_false] at h
      simp at h
  · rintro ⟨hne, h⟩
    exact (pyHit_of_onSegment le_rfl hne h).2

/-! ## Reversed edges -/

theorem pySkip_swap (ftol : K) (q : K × K) (s : Seg K) : pySkip ftol q s.swap = pySkip ftol q s := by
  simp [pySkip, min_comm, max_comm]

theorem pyOnSegment_swap (ftol : K) (q : K × K) (s : Seg K) : pyOnSegment ftol q s.swap = pyOnSegment ftol q s := by
  unfold pyOnSegment
  simp only [Prod.fst_swap, Prod.snd_swap]
  have hL : (s.1.1 - s.2.1) * (s.1.1 - s.2.1) + (s.1.2 - s.2.2) * (s.1.2 - s.2.2) =
      (s.2.1 - s.1.1) * (s.2.1 - s.1.1) + (s.2.2 - s.1.2) * (s.2.2 - s.1.2) := by ring
  have hc : ((s.1.1 - s.2.1) * (q.2 - s.2.2) - (s.1.2 - s.2.2) * (q.1 - s.2.1)) *
      ((s.1.1 - s.2.1) * (q.2 - s.2.2) - (s.1.2 - s.2.2) * (q.1 - s.2.1)) =
      ((s.2.1 - s.1.1) * (q.2 - s.1.2) - (s.2.2 - s.1.2) * (q.1 - s.1.1)) *
      ((s.2.1 - s.1.1) * (q.2 - s.1.2) - (s.2.2 - s.1.2) * (q.1 - s.1.1)) := by ring
  have hd : (s.1.1 - s.2.1) * (q.1 - s.2.1) + (s.1.2 - s.2.2) * (q.2 - s.2.2) =
      ((s.2.1 - s.1.1) * (s.2.1 - s.1.1) + (s.2.2 - s.1.2) * (s.2.2 - s.1.2)) -
      ((s.2.1 - s.1.1) * (q.1 - s.1.1) + (s.2.2 - s.1.2) * (q.2 - s.1.2)) := by ring
  rw [Bool.eq_iff_iff]
  simp only [Bool.and_eq_true, decide_eq_true_eq]
  rw [hL, hc, hd]
  generalize (s.2.1 - s.1.1) * (s.2.1 - s.1.1) + (s.2.2 - s.1.2) * (s.2.2 - s.1.2) = L
  generalize (s.2.1 - s.1.1) * (q.1 - s.1.1) + (s.2.2 - s.1.2) * (q.2 - s.1.2) = d
  have e1 : (-ftol ≤ L - d) ↔ (d ≤ L + ftol) := by constructor <;> intro h <;> linarith
  have e2 : (L - d ≤ L + ftol) ↔ (-ftol ≤ d) := by constructor <;> intro h <;> linarith
  rw [e1, e2]
  tauto

theorem crossesRight_swap (q : K × K) (s : Seg K) : crossesRight q s.swap = crossesRight q s := by
  unfold crossesRight
  simp only [Prod.fst_swap, Prod.snd_swap]
  rw [bne_comm]
  by_cases hs : (decide (q.2 < s.1.2) != decide (q.2 < s.2.2)) = true
  · rw [hs]
    rw [straddle_iff] at hs
    have hne : s.2.2 - s.1.2 ≠ 0 := by
      intro h0
      have : s.2.2 = s.1.2 := by linarith
      rcases hs with ⟨h1, h2⟩ | ⟨h1, h2⟩ <;> (rw [this] at *; exact absurd h1 (not_le.2 h2))
    have hne' : s.1.2 - s.2.2 ≠ 0 := by intro h0; apply hne; linarith
    simp only [Bool.true_and]
    congr 2
    rw [← sub_eq_zero]
    field_simp
    ring
  · rw [Bool.not_eq_true] at hs
    rw [hs]
    simp

theorem pyCross_swap (ftol : K) (q : K × K) (s : Seg K) : pyCross ftol q s.swap = pyCross ftol q s := by
  have h := crossesRight_swap q s
  unfold crossesRight at h
  unfold pyCross
  rw [Bool.and_assoc, Bool.and_assoc, h]
  have : decide (|s.1.2 - s.2.2| ≤ ftol) = decide (|s.2.2 - s.1.2| ≤ ftol) := by
    rw [decide_eq_decide, abs_sub_comm]
  simp only [Prod.fst_swap, Prod.snd_swap, this]

theorem cOnSegment_swap (ftol : K) (q : K × K) (s : Seg K) : cOnSegment ftol q s.swap = cOnSegment ftol q s := by
  unfold cOnSegment
  simp only [Prod.fst_swap, Prod.snd_swap]
  by_cases h : s.2.1 - s.1.1 ≠ 0 ∨ s.2.2 - s.1.2 ≠ 0
  · have h' : s.1.1 - s.2.1 ≠ 0 ∨ s.1.2 - s.2.2 ≠ 0 := by
      rcases h with h | h
      · left; intro h0; apply h; linarith
      · right; intro h0; apply h; linarith
    simp only [h, h', if_true]
    rw [Bool.eq_iff_iff]
    simp only [Bool.and_eq_true, decide_eq_true_eq]
    have hL := ((len2_pos_iff s).2 h).ne'
    have hL' : (s.1.1 - s.2.1) * (s.1.1 - s.2.1) + (s.1.2 - s.2.2) * (s.1.2 - s.2.2) ≠ 0 := by
      intro h0; apply hL; linarith
    have ht : ((q.1 - s.2.1) * (s.1.1 - s.2.1) + (q.2 - s.2.2) * (s.1.2 - s.2.2)) /
        ((s.1.1 - s.2.1) * (s.1.1 - s.2.1) + (s.1.2 - s.2.2) * (s.1.2 - s.2.2)) =
      1 - ((q.1 - s.1.1) * (s.2.1 - s.1.1) + (q.2 - s.1.2) * (s.2.2 - s.1.2)) /
        ((s.2.1 - s.1.1) * (s.2.1 - s.1.1) + (s.2.2 - s.1.2) * (s.2.2 - s.1.2)) := by
      have e : (s.1.1 - s.2.1) * (s.1.1 - s.2.1) + (s.1.2 - s.2.2) * (s.1.2 - s.2.2) =
        (s.2.1 - s.1.1) * (s.2.1 - s.1.1) + (s.2.2 - s.1.2) * (s.2.2 - s.1.2) := by ring
      rw [e, one_sub_div hL, div_left_inj' hL]
      ring
    rw [ht]
    generalize ((q.1 - s.1.1) * (s.2.1 - s.1.1) + (q.2 - s.1.2) * (s.2.2 - s.1.2)) /
        ((s.2.1 - s.1.1) * (s.2.1 - s.1.1) + (s.2.2 - s.1.2) * (s.2.2 - s.1.2)) = t
    have e1 : (0 ≤ 1 - t) ↔ t ≤ 1 := sub_nonneg
    have e2 : (1 - t ≤ 1) ↔ 0 ≤ t := by constructor <;> intro h <;> linarith
    have : ∀ a b : K, b + (1 - t) * (a - b) = a + t * (b - a) := fun a b => by ring
    rw [this, this, e1, e2]
    tauto
  · have h' : ¬ (s.1.1 - s.2.1 ≠ 0 ∨ s.1.2 - s.2.2 ≠ 0) := by
      push Not at h ⊢
      exact ⟨by linarith [h.1], by linarith [h.2]⟩
    simp only [h, h', if_false]

theorem hits_swap (ftol : K) (q : K × K) (s : Seg K) : pyHit ftol q s.swap = pyHit ftol q s ∧ pyCount ftol q s.swap = pyCount ftol q s ∧
    cHit ftol q s.swap = cHit ftol q s ∧ cCount ftol q s.swap = cCount ftol q s := by
  simp only [pyHit, pyCount, cHit, cCount, cSkip_eq, cCross_eq, pySkip_swap, pyOnSegment_swap, pyCross_swap, cOnSegment_swap,
    crossesRight_swap, and_self]

/-! ## Parity -/

theorem even_sum_of_counts {V : Type} [DecidableEq V] (l : List V) (h : ∀ v, Even (l.count v)) (f : V → Bool) : Even (l.countP f) := by
  have : l.countP f = ∑ v ∈ l.toFinset, l.count v * (if f v then 1 else 0) := by
    have h1 := Finset.sum_list_map_count l (fun v => if f v then (1 : Nat) else 0)
    simp only [smul_eq_mul] at h1
    rw [← h1]
    clear h h1
    induction l with
    | nil => rfl
    | cons v l ih =>
      rw [List.countP_cons, List.map_cons, List.sum_cons, ← ih]
      omega
  rw [this]
  exact Finset.even_sum _ fun v _ => (h v).mul_right _

theorem even_straddle {V : Type} [DecidableEq V] (es : List (V × V)) (h : EvenDegrees es) (f : V → Bool) :
    Even (es.countP fun e => f e.1 != f e.2) := by
  have h1 := even_sum_of_counts (es.flatMap fun e => [e.1, e.2]) (fun v => by
    have : (es.flatMap fun e => [e.1, e.2]).count v = endCount es v := by
      unfold endCount
      clear h
      induction es with
      | nil => rfl
      | cons e es ih =>
        simp only [List.flatMap_cons, List.count_append, ih, List.countP_cons, List.count_cons, List.count_nil, decide_eq_true_eq, beq_iff_eq]
        omega
    rw [this]
    exact h v) f
  have h2 : (es.flatMap fun e => [e.1, e.2]).countP f =
      (es.countP fun e => f e.1 != f e.2) + 2 * es.countP fun e => f e.1 && f e.2 := by
    clear h h1
    induction es with
    | nil => rfl
    | cons e es ih =>
      simp only [List.flatMap_cons, List.countP_append, ih, List.countP_cons, List.countP_nil]
      cases f e.1 <;> cases f e.2 <;> simp <;> omega
  rw [h2] at h1
  exact (Nat.even_add.1 h1).2 (even_two_mul _)

theorem collectAll_length {A : Type} : ∀ {l : List (Option A)} {r : List A}, collectAll l = some r → l = r.map some := by
  intro l
  induction l with
  | nil => intro r h; simp [collectAll] at h; subst h; rfl
  | cons a l ih =>
    intro r h
    cases a with
    | none => simp [collectAll] at h
    | some a =>
      simp only [collectAll] at h
      obtain ⟨r', hr, rfl⟩ := Option.map_eq_some_iff.1 h
      simp [ih hr]

theorem even_straddle_segs {node : List (K × K)} {es : List (Nat × Nat)} {segs : List (Seg K)} (h : segsOf node es = some segs)
    (he : EvenDegrees es) (f : K × K → Bool) : Even (segs.countP fun s => f s.1 != f s.2) := by
  have hl := collectAll_length h
  let g : Nat → Bool := fun i => match node[i]? with | some p => f p | none => false
  have := even_straddle es he g
  suffices hs : (segs.countP fun s => f s.1 != f s.2) = es.countP fun e => g e.1 != g e.2 by rwa [hs]
  clear this he h
  induction es generalizing segs with
  | nil => cases segs <;> simp_all
  | cons e es ih =>
    cases segs with
    | nil => simp at hl
    | cons s segs =>
      simp only [List.map_cons, List.cons.injEq] at hl
      rw [List.countP_cons, List.countP_cons, ih hl.2]
      congr 1
      have h1 := hl.1
      cases hx : node[e.1]? with
      | none => simp [hx] at h1
      | some x =>
        cases hy : node[e.2]? with
        | none => simp [hx, hy] at h1
        | some y =>
          simp only [hx, hy, Option.some.injEq] at h1
          subst h1
          simp [g, hx, hy]

/-! ## Points outside the box -/

/-- The abscissa where a straddling edge meets the height of the point is between the abscissas of its ends. -/
theorem xint_between {q : K × K} {s : Seg K} (hs : (s.1.2 ≤ q.2 ∧ q.2 < s.2.2) ∨ (s.2.2 ≤ q.2 ∧ q.2 < s.1.2)) :
    min s.1.1 s.2.1 ≤ s.1.1 + (q.2 - s.1.2) * (s.2.1 - s.1.1) / (s.2.2 - s.1.2) ∧
      s.1.1 + (q.2 - s.1.2) * (s.2.1 - s.1.1) / (s.2.2 - s.1.2) ≤ max s.1.1 s.2.1 := by
  have hne : s.2.2 - s.1.2 ≠ 0 := by
    intro h0
    have : s.2.2 = s.1.2 := by linarith
    rcases hs with ⟨h1, h2⟩ | ⟨h1, h2⟩ <;> (rw [this] at *; exact absurd h1 (not_le.2 h2))
  have h : OnClosedSegment (s.1.1 + (q.2 - s.1.2) * (s.2.1 - s.1.1) / (s.2.2 - s.1.2), q.2) s.1 s.2 := by
    refine ⟨(q.2 - s.1.2) / (s.2.2 - s.1.2), ?_, ?_, ?_, ?_⟩
    · rcases hs with ⟨h1, h2⟩ | ⟨h1, h2⟩
      · exact div_nonneg (by linarith) (by linarith)
      · exact div_nonneg_of_nonpos (by linarith) (by linarith)
    · rcases hs with ⟨h1, h2⟩ | ⟨h1, h2⟩
      · rw [div_le_one (by linarith)]; linarith
      · rw [div_le_one_of_neg (by linarith)]; linarith
    · simp only; rw [div_mul_eq_mul_div]
    · simp only; rw [div_mul_cancel₀ _ hne]; ring
  obtain ⟨-, -, h3, h4⟩ := onSegment_range h
  exact ⟨h3, h4⟩

/-- Beyond the box of a closed polygon the number of edges to the right is even. -/
theorem even_of_reject {ftol : K} (hf : 0 ≤ ftol) {q : K × K} {segs : List (Seg K)}
    (he : ∀ f : K × K → Bool, Even (segs.countP fun s => f s.1 != f s.2)) (hr : pyReject ftol q segs) :
    Even (segs.countP (crossesRight q)) := by
  have hzero : (∀ s ∈ segs, crossesRight q s = false) → Even (segs.countP (crossesRight q)) := by
    intro h
    rw [List.countP_eq_zero.2 fun s hs => by rw [h s hs]; simp]
    exact Even.zero
  rcases hr with h | h | h | h
  · have : segs.countP (crossesRight q) = segs.countP fun s => decide (q.2 < s.1.2) != decide (q.2 < s.2.2) := by
      refine List.countP_congr fun s hs => ?_
      unfold crossesRight
      constructor
      · intro h; rw [Bool.and_eq_true] at h; exact h.1
      · intro h1
        rw [h1, Bool.true_and, decide_eq_true_eq]
        have h2 := (xint_between ((straddle_iff q s).1 h1)).1
        obtain ⟨h3, h4⟩ := h s hs
        have : q.1 < min s.1.1 s.2.1 := lt_min (by linarith) (by linarith)
        linarith
    rw [this]
    exact he fun p => decide (q.2 < p.2)
  · refine hzero fun s hs => ?_
    unfold crossesRight
    by_cases h1 : (decide (q.2 < s.1.2) != decide (q.2 < s.2.2)) = true
    · have h2 := (xint_between ((straddle_iff q s).1 h1)).2
      obtain ⟨h3, h4⟩ := h s hs
      have : max s.1.1 s.2.1 < q.1 := max_lt (by linarith) (by linarith)
      rw [h1, Bool.true_and, decide_eq_false_iff_not, not_lt]
      linarith
    · rw [Bool.not_eq_true] at h1
      rw [h1, Bool.false_and]
  · refine hzero fun s hs => ?_
    obtain ⟨h3, h4⟩ := h s hs
    have h3' : q.2 < s.1.2 := by linarith
    have h4' : q.2 < s.2.2 := by linarith
    simp [crossesRight, h3', h4']
  · refine hzero fun s hs => ?_
    obtain ⟨h3, h4⟩ := h s hs
    have h3' : ¬ q.2 < s.1.2 := by linarith
    have h4' : ¬ q.2 < s.2.2 := by linarith
    simp [crossesRight, h3', h4']

/-- Beyond the box the compiled kernel finds no boundary. -/
theorem cHit_of_reject {ftol : K} {q : K × K} {segs : List (Seg K)} (hr : pyReject ftol q segs) {s : Seg K} (hs : s ∈ segs) :
    cHit ftol q s = false := by
  by_contra hc
  rw [Bool.not_eq_false] at hc
  unfold cHit cOnSegment at hc
  rw [Bool.and_eq_true] at hc
  obtain ⟨-, h⟩ := hc
  by_cases hne : s.2.1 - s.1.1 ≠ 0 ∨ s.2.2 - s.1.2 ≠ 0
  · simp only [hne, if_true] at h
    simp only [Bool.and_eq_true, decide_eq_true_eq] at h
    obtain ⟨⟨h0, h1⟩, hd⟩ := h
    generalize ((q.1 - s.1.1) * (s.2.1 - s.1.1) + (q.2 - s.1.2) * (s.2.2 - s.1.2)) /
      ((s.2.1 - s.1.1) * (s.2.1 - s.1.1) + (s.2.2 - s.1.2) * (s.2.2 - s.1.2)) = t at *
    obtain ⟨r1, r2, r3, r4⟩ := onSegment_range (q := (s.1.1 + t * (s.2.1 - s.1.1), s.1.2 + t * (s.2.2 - s.1.2))) (s := s)
      ⟨t, h0, h1, rfl, rfl⟩
    simp only at r1 r2 r3 r4
    have a1 := abs_nonneg (q.1 - (s.1.1 + t * (s.2.1 - s.1.1)))
    have a2 := abs_nonneg (q.2 - (s.1.2 + t * (s.2.2 - s.1.2)))
    have b1 := le_abs_self (q.1 - (s.1.1 + t * (s.2.1 - s.1.1)))
    have b2 := le_abs_self (q.2 - (s.1.2 + t * (s.2.2 - s.1.2)))
    have c1 := neg_abs_le (q.1 - (s.1.1 + t * (s.2.1 - s.1.1)))
    have c2 := neg_abs_le (q.2 - (s.1.2 + t * (s.2.2 - s.1.2)))
    rcases hr with h | h | h | h
    · have : q.1 + ftol < min s.1.1 s.2.1 := lt_min (by linarith [(h s hs).1]) (by linarith [(h s hs).2])
      linarith
    · have : max s.1.1 s.2.1 < q.1 - ftol := max_lt (by linarith [(h s hs).1]) (by linarith [(h s hs).2])
      linarith
    · have : q.2 + ftol < min s.1.2 s.2.2 := lt_min (by linarith [(h s hs).1]) (by linarith [(h s hs).2])
      linarith
    · have : max s.1.2 s.2.2 < q.2 - ftol := max_lt (by linarith [(h s hs).1]) (by linarith [(h s hs).2])
      linarith
  · simp only [hne, if_false] at h
    simp at h

/-! ## Triangles -/

/-- Twice the signed area of `p u q`. -/
def sideOf (p u q : K × K) : K := (u.1 - p.1) * (q.2 - p.2) - (u.2 - p.2) * (q.1 - p.1)

theorem crossesRight_up {q p u : K × K} (h1 : p.2 ≤ q.2) (h2 : q.2 < u.2) : crossesRight q (p, u) = true ↔ 0 < sideOf p u q := by
  have hs : (decide (q.2 < p.2) != decide (q.2 < u.2)) = true := by simp [h2, not_lt.2 h1]
  have hd : 0 < u.2 - p.2 := by linarith
  unfold crossesRight sideOf
  rw [hs, Bool.true_and, decide_eq_true_eq, ← sub_lt_iff_lt_add', lt_div_iff₀ hd]
  constructor <;> intro h <;> nlinarith

theorem crossesRight_down {q p u : K × K} (h1 : u.2 ≤ q.2) (h2 : q.2 < p.2) : crossesRight q (p, u) = true ↔ sideOf p u q < 0 := by
  have hs : (decide (q.2 < p.2) != decide (q.2 < u.2)) = true := by simp [h2, not_lt.2 h1]
  have hd : u.2 - p.2 < 0 := by linarith
  unfold crossesRight sideOf
  rw [hs, Bool.true_and, decide_eq_true_eq, ← sub_lt_iff_lt_add', lt_div_iff_of_neg hd]
  constructor <;> intro h <;> nlinarith

theorem onSegment_of_side {q p u : K × K} (hs : (p.2 ≤ q.2 ∧ q.2 < u.2) ∨ (u.2 ≤ q.2 ∧ q.2 < p.2)) (h0 : sideOf p u q = 0) :
    OnClosedSegment q p u := by
  have hne : u.2 - p.2 ≠ 0 := by
    intro h0
    have : u.2 = p.2 := by linarith
    rcases hs with ⟨h1, h2⟩ | ⟨h1, h2⟩ <;> (rw [this] at *; exact absurd h1 (not_le.2 h2))
  refine ⟨(q.2 - p.2) / (u.2 - p.2), ?_, ?_, ?_, ?_⟩
  · rcases hs with ⟨h1, h2⟩ | ⟨h1, h2⟩
    · exact div_nonneg (by linarith) (by linarith)
    · exact div_nonneg_of_nonpos (by linarith) (by linarith)
  · rcases hs with ⟨h1, h2⟩ | ⟨h1, h2⟩
    · rw [div_le_one (by linarith)]; linarith
    · rw [div_le_one_of_neg (by linarith)]; linarith
  · unfold sideOf at h0
    rw [← sub_eq_iff_eq_add', div_mul_eq_mul_div, eq_div_iff hne]
    linarith
  · rw [div_mul_cancel₀ _ hne]; ring

/-- The triangle seen from a vertex `p` that is on its own side of the horizontal line through `q`. -/
theorem triangle_apex {q p u v : K × K} (hD : sideOf p u v ≠ 0)
    (hs : (p.2 ≤ q.2 ∧ q.2 < u.2 ∧ q.2 < v.2) ∨ (q.2 < p.2 ∧ u.2 ≤ q.2 ∧ v.2 ≤ q.2))
    (n1 : ¬ OnClosedSegment q p u) (n2 : ¬ OnClosedSegment q p v) (n3 : ¬ OnClosedSegment q u v) :
    (crossesRight q (p, u) != crossesRight q (p, v)) = true ↔ InTriangle q p u v := by
  have su : sideOf p u q ≠ 0 := fun h => n1 (onSegment_of_side (by rcases hs with h | h; exacts [.inl ⟨h.1, h.2.1⟩, .inr ⟨h.2.1, h.1⟩]) h)
  have sv : sideOf p v q ≠ 0 := fun h => n2 (onSegment_of_side (by rcases hs with h | h; exacts [.inl ⟨h.1, h.2.2⟩, .inr ⟨h.2.2, h.1⟩]) h)
  have e1 : (crossesRight q (p, u) != crossesRight q (p, v)) = true ↔ sideOf p u q * sideOf p v q < 0 := by
    have key : (crossesRight q (p, u) != crossesRight q (p, v)) = true ↔ ¬ (crossesRight q (p, u) = true ↔ crossesRight q (p, v) = true) := by
      cases crossesRight q (p, u) <;> cases crossesRight q (p, v) <;> simp
    rw [key, mul_neg_iff]
    rcases hs with ⟨h1, h2, h3⟩ | ⟨h1, h2, h3⟩
    · rw [crossesRight_up h1 h2, crossesRight_up h1 h3]
      rcases lt_or_gt_of_ne su with a | a <;> rcases lt_or_gt_of_ne sv with b | b <;> simp [a, b, a.le, b.le, not_lt.2]
    · rw [crossesRight_down h2 h1, crossesRight_down h3 h1]
      rcases lt_or_gt_of_ne su with a | a <;> rcases lt_or_gt_of_ne sv with b | b <;> simp [a, b, a.le, b.le, not_lt.2]
  rw [e1]
  constructor
  · intro hlt
    -- barycentric coordinates
    have hy : sideOf p u v * (q.2 - p.2) = -sideOf p v q * (u.2 - p.2) + sideOf p u q * (v.2 - p.2) := by unfold sideOf; ring
    have hx : sideOf p u v * (q.1 - p.1) = -sideOf p v q * (u.1 - p.1) + sideOf p u q * (v.1 - p.1) := by unfold sideOf; ring
    set D := sideOf p u v with hDdef
    set b := -sideOf p v q / D with hb
    set c := sideOf p u q / D with hc
    have bD : b * D = -sideOf p v q := div_mul_cancel₀ _ hD
    have cD : c * D = sideOf p u q := div_mul_cancel₀ _ hD
    have qy : q.2 - p.2 = b * (u.2 - p.2) + c * (v.2 - p.2) := by
      apply mul_left_cancel₀ hD; rw [hy, ← bD, ← cD]; ring
    have qx : q.1 - p.1 = b * (u.1 - p.1) + c * (v.1 - p.1) := by
      apply mul_left_cancel₀ hD; rw [hx, ← bD, ← cD]; ring
    have hbc : 0 < b * c := by
      have hDD : 0 < D * D := mul_self_pos.2 hD
      have : 0 < (b * c) * (D * D) := by
        have : (b * c) * (D * D) = -(sideOf p u q * sideOf p v q) := by rw [show b * c * (D * D) = (b * D) * (c * D) by ring, bD, cD]; ring
        rw [this]; linarith
      exact (mul_pos_iff_of_pos_right hDD).1 this
    have hpos : 0 < b ∧ 0 < c := by
      rcases mul_pos_iff.1 hbc with h | ⟨h1, h2⟩
      · exact h
      · exfalso
        rcases hs with ⟨a1, a2, a3⟩ | ⟨a1, a2, a3⟩
        · nlinarith [mul_pos (neg_pos.2 h1) (show 0 < u.2 - p.2 by linarith), mul_pos (neg_pos.2 h2) (show 0 < v.2 - p.2 by linarith)]
        · nlinarith [mul_pos (neg_pos.2 h1) (show 0 < p.2 - u.2 by linarith), mul_pos (neg_pos.2 h2) (show 0 < p.2 - v.2 by linarith)]
    have hbal : (1 - b - c) * (p.2 - q.2) + b * (u.2 - q.2) + c * (v.2 - q.2) = 0 := by linear_combination -qy
    have ha : 0 < 1 - b - c := by
      rcases hs with ⟨a1, a2, a3⟩ | ⟨a1, a2, a3⟩
      · by_contra hc'
        have h1 := mul_nonneg (neg_nonneg.2 (not_lt.1 hc')) (show 0 ≤ q.2 - p.2 by linarith)
        nlinarith [mul_pos hpos.1 (show 0 < u.2 - q.2 by linarith), mul_pos hpos.2 (show 0 < v.2 - q.2 by linarith)]
      · by_contra hc'
        have h1 := mul_nonneg (neg_nonneg.2 (not_lt.1 hc')) (show 0 ≤ p.2 - q.2 by linarith)
        have h2 := mul_nonneg hpos.1.le (show 0 ≤ q.2 - u.2 by linarith)
        have h3 := mul_nonneg hpos.2.le (show 0 ≤ q.2 - v.2 by linarith)
        have z1 : (1 - b - c) * (p.2 - q.2) = 0 := by nlinarith
        have z0 : 1 - b - c = 0 := by
          rcases mul_eq_zero.1 z1 with h | h
          · exact h
          · exfalso; linarith
        refine n3 ⟨c, hpos.2.le, by linarith [hpos.1], ?_, ?_⟩
        · have : b = 1 - c := by linarith
          rw [this] at qx; linarith
        · have : b = 1 - c := by linarith
          rw [this] at qy; linarith
    exact ⟨1 - b - c, b, c, ha, hpos.1, hpos.2, by ring, by linarith, by linarith⟩
  · rintro ⟨α, β, γ, h1, h2, h3, hsum, hx, hy⟩
    have eα : α = 1 - β - γ := by linarith
    have f1 : sideOf p u q = γ * sideOf p u v := by unfold sideOf; rw [hx, hy, eα]; ring
    have f2 : sideOf p v q = -(β * sideOf p u v) := by unfold sideOf; rw [hx, hy, eα]; ring
    rw [f1, f2]
    have := mul_pos (mul_pos h2 h3) (mul_self_pos.2 hD)
    nlinarith

theorem InTriangle_rotate {q a b c : K × K} : InTriangle q a b c ↔ InTriangle q b c a := by
  constructor
  · rintro ⟨u, v, w, h1, h2, h3, hs, hx, hy⟩
    exact ⟨v, w, u, h2, h3, h1, by linarith, by linarith, by linarith⟩
  · rintro ⟨u, v, w, h1, h2, h3, hs, hx, hy⟩
    exact ⟨w, u, v, h3, h1, h2, by linarith, by linarith, by linarith⟩

theorem OnSegment_symm {q a b : K × K} (h : OnClosedSegment q a b) : OnClosedSegment q b a := by
  obtain ⟨t, h0, h1, hx, hy⟩ := h
  exact ⟨1 - t, by linarith, by linarith, by rw [hx]; ring, by rw [hy]; ring⟩

/-- The parity rule for a triangle. -/
theorem triangle_parity {q a b c : K × K} (hD : sideOf a b c ≠ 0) (n1 : ¬ OnClosedSegment q a b) (n2 : ¬ OnClosedSegment q b c)
    (n3 : ¬ OnClosedSegment q c a) :
    ([(a, b), (b, c), (c, a)].countP (crossesRight q) % 2 = 1) ↔ InTriangle q a b c := by
  have hflat : ∀ x y : K × K, decide (q.2 < x.2) = decide (q.2 < y.2) → crossesRight q (x, y) = false := by
    intro x y h; unfold crossesRight; simp [h]
  have hsw : ∀ x y : K × K, crossesRight q (x, y) = crossesRight q (y, x) := fun x y => (crossesRight_swap q (x, y)).symm
  have hD2 : sideOf b c a ≠ 0 := by intro h; apply hD; unfold sideOf at *; linear_combination h
  have hD3 : sideOf c a b ≠ 0 := by intro h; apply hD; unfold sideOf at *; linear_combination h
  have n1' := fun h => n1 (OnSegment_symm h)
  have n2' := fun h => n2 (OnSegment_symm h)
  have n3' := fun h => n3 (OnSegment_symm h)
  have odd2 : ∀ x y : Bool, (((if x then 1 else 0) + if y then 1 else 0) % 2 = 1) ↔ ((x != y) = true) := by
    intro x y; cases x <;> cases y <;> simp
  -- apex a
  have A : ((a.2 ≤ q.2 ∧ q.2 < b.2 ∧ q.2 < c.2) ∨ (q.2 < a.2 ∧ b.2 ≤ q.2 ∧ c.2 ≤ q.2)) → decide (q.2 < b.2) = decide (q.2 < c.2) →
      (([(a, b), (b, c), (c, a)].countP (crossesRight q) % 2 = 1) ↔ InTriangle q a b c) := by
    intro h e
    rw [← triangle_apex hD h n1 n3' n2, hsw a c]
    simp only [List.countP_cons, List.countP_nil, hflat b c e, Bool.false_eq_true, if_false]
    rw [← odd2, show ∀ x y : Nat, 0 + y + 0 + x = x + y from fun x y => by omega]
  have B : ((b.2 ≤ q.2 ∧ q.2 < c.2 ∧ q.2 < a.2) ∨ (q.2 < b.2 ∧ c.2 ≤ q.2 ∧ a.2 ≤ q.2)) → decide (q.2 < c.2) = decide (q.2 < a.2) →
      (([(a, b), (b, c), (c, a)].countP (crossesRight q) % 2 = 1) ↔ InTriangle q a b c) := by
    intro h e
    rw [InTriangle_rotate, ← triangle_apex hD2 h n2 n1' n3, hsw b a]
    simp only [List.countP_cons, List.countP_nil, hflat c a e, Bool.false_eq_true, if_false]
    rw [← odd2, show ∀ x y : Nat, 0 + 0 + x + y = x + y from fun x y => by omega]
  have C : ((c.2 ≤ q.2 ∧ q.2 < a.2 ∧ q.2 < b.2) ∨ (q.2 < c.2 ∧ a.2 ≤ q.2 ∧ b.2 ≤ q.2)) → decide (q.2 < a.2) = decide (q.2 < b.2) →
      (([(a, b), (b, c), (c, a)].countP (crossesRight q) % 2 = 1) ↔ InTriangle q a b c) := by
    intro h e
    rw [InTriangle_rotate, InTriangle_rotate, ← triangle_apex hD3 h n3 n2' n1, hsw c b]
    simp only [List.countP_cons, List.countP_nil, hflat a b e, Bool.false_eq_true, if_false]
    rw [← odd2, show ∀ x y : Nat, 0 + x + y + 0 = x + y from fun x y => by omega]
  have Z : decide (q.2 < a.2) = decide (q.2 < b.2) → decide (q.2 < b.2) = decide (q.2 < c.2) →
      (([(a, b), (b, c), (c, a)].countP (crossesRight q) % 2 = 1) ↔ InTriangle q a b c) := by
    intro e1 e2
    have h0 : [(a, b), (b, c), (c, a)].countP (crossesRight q) = 0 := by
      simp [List.countP_cons, hflat a b e1, hflat b c e2, hflat c a (e2.symm.trans e1.symm)]
    rw [h0]
    simp only [Nat.zero_mod, zero_ne_one, false_iff]
    rintro ⟨u, v, w, h1, h2, h3, hs, hx, hy⟩
    have hbal : u * (a.2 - q.2) + v * (b.2 - q.2) + w * (c.2 - q.2) = 0 := by linear_combination -hy - q.2 * hs
    rw [decide_eq_decide] at e1 e2
    by_cases ha : q.2 < a.2
    · have hb := e1.1 ha
      have hc := e2.1 hb
      nlinarith [mul_pos h1 (sub_pos.2 ha), mul_pos h2 (sub_pos.2 hb), mul_pos h3 (sub_pos.2 hc)]
    · have hb := fun h => ha (e1.2 h)
      have hc := fun h => hb (e2.2 h)
      rw [not_lt] at ha
      have hb' := not_lt.1 hb
      have hc' := not_lt.1 hc
      have m1 := mul_nonneg h1.le (sub_nonneg.2 ha)
      have m2 := mul_nonneg h2.le (sub_nonneg.2 hb')
      have m3 := mul_nonneg h3.le (sub_nonneg.2 hc')
      have z1 : u * (q.2 - a.2) = 0 := by nlinarith
      have z2 : v * (q.2 - b.2) = 0 := by nlinarith
      have z3 : w * (q.2 - c.2) = 0 := by nlinarith
      have y1 := (mul_eq_zero.1 z1).resolve_left h1.ne'
      have y2 := (mul_eq_zero.1 z2).resolve_left h2.ne'
      have y3 := (mul_eq_zero.1 z3).resolve_left h3.ne'
      apply hD
      unfold sideOf
      rw [show b.2 - a.2 = 0 by linarith, show c.2 - a.2 = 0 by linarith]
      ring
  by_cases ha : q.2 < a.2 <;> by_cases hb : q.2 < b.2 <;> by_cases hc : q.2 < c.2
  · exact Z (by simp [ha, hb]) (by simp [hb, hc])
  · exact C (.inl ⟨not_lt.1 hc, ha, hb⟩) (by simp [ha, hb])
  · exact B (.inl ⟨not_lt.1 hb, hc, ha⟩) (by simp [ha, hc])
  · exact A (.inr ⟨ha, not_lt.1 hb, not_lt.1 hc⟩) (by simp [hb, hc])
  · exact A (.inl ⟨not_lt.1 ha, hb, hc⟩) (by simp [hb, hc])
  · exact B (.inr ⟨hb, not_lt.1 hc, not_lt.1 ha⟩) (by simp [ha, hc])
  · exact C (.inr ⟨hc, not_lt.1 ha, not_lt.1 hb⟩) (by simp [ha, hb])
  · exact Z (by simp [ha, hb]) (by simp [hb, hc])
end

end OM
