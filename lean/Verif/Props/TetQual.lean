import Verif.Model.TetQual
import Verif.Props.Quality
import Verif.Props.FixMesh3D
/-!
# The quality of tetrahedra (C157)
-/
set_option linter.unusedSectionVars false
namespace OM
open Spec

theorem edgeLength3_comm (p q : ℝ × ℝ × ℝ) : edgeLength3 p q = edgeLength3 q p := by
  unfold edgeLength3; congr 1; ring

theorem edgeLength3_flat (p q : ℝ × ℝ) (h : ℝ) : edgeLength3 (p.1, p.2, h) (q.1, q.2, h) = edgeLength p q := by
  unfold edgeLength3 edgeLength; congr 1; ring

/-- **C157** (1): the quality of a tetrahedron is the one of its first face: for three corners at one height it is that of the triangle, whatever the fourth corner. -/
theorem C157_first_face_partial (p q r : ℝ × ℝ) (h : ℝ) (s : ℝ × ℝ × ℝ) : tetQual (p.1, p.2, h) (q.1, q.2, h) (r.1, r.2, h) s = triQual p q r := by
  unfold tetQual triQual
  rw [edgeLength3_flat, edgeLength3_flat, edgeLength3_flat]

/-- **C157** (2): it is the same after a shift, a permutation of the axes or a mirror image, and with the first two corners exchanged as `fix_mesh` does for the orientation. -/
theorem C157_invariance_partial (p q r s d : ℝ × ℝ × ℝ) :
    tetQual (p.1 + d.1, p.2.1 + d.2.1, p.2.2 + d.2.2) (q.1 + d.1, q.2.1 + d.2.1, q.2.2 + d.2.2) (r.1 + d.1, r.2.1 + d.2.1, r.2.2 + d.2.2) (s.1 + d.1, s.2.1 + d.2.1, s.2.2 + d.2.2) =
        tetQual p q r s ∧
      tetQual (p.2.1, p.2.2, p.1) (q.2.1, q.2.2, q.1) (r.2.1, r.2.2, r.1) (s.2.1, s.2.2, s.1) = tetQual p q r s ∧
      tetQual (-p.1, p.2) (-q.1, q.2) (-r.1, r.2) (-s.1, s.2) = tetQual p q r s ∧
      tetQual q p r s = tetQual p q r s ∧ tetQual p r q s = tetQual p q r s := by
  have e1 : ∀ x y : ℝ × ℝ × ℝ, edgeLength3 (x.1 + d.1, x.2.1 + d.2.1, x.2.2 + d.2.2) (y.1 + d.1, y.2.1 + d.2.1, y.2.2 + d.2.2) = edgeLength3 x y := by
    intro x y; unfold edgeLength3; congr 1; ring
  have e2 : ∀ x y : ℝ × ℝ × ℝ, edgeLength3 (x.2.1, x.2.2, x.1) (y.2.1, y.2.2, y.1) = edgeLength3 x y := by
    intro x y; unfold edgeLength3; congr 1; ring
  have e3 : ∀ x y : ℝ × ℝ × ℝ, edgeLength3 (-x.1, x.2) (-y.1, y.2) = edgeLength3 x y := by
    intro x y; unfold edgeLength3; congr 1; ring
  unfold tetQual
  refine ⟨by rw [e1, e1, e1], by rw [e2, e2, e2], by rw [e3, e3, e3], ?_, ?_⟩
  · rw [edgeLength3_comm q p, (qualOfLengths_swap _ (edgeLength3 q r) _).2]
  · rw [edgeLength3_comm r q, (qualOfLengths_swap (edgeLength3 p r) _ _).1]

/-- **C157** (3): it is proportional to the size, so no bound and no best value holds for all tetrahedra. -/
theorem C157_scales {k : ℝ} (hk : 0 < k) (p q r s : ℝ × ℝ × ℝ) :
    tetQual (k * p.1, k * p.2.1, k * p.2.2) (k * q.1, k * q.2.1, k * q.2.2) (k * r.1, k * r.2.1, k * r.2.2) (k * s.1, k * s.2.1, k * s.2.2) = (tetQual p q r s).map (k * ·) := by
  have e : ∀ x y : ℝ × ℝ × ℝ, edgeLength3 (k * x.1, k * x.2.1, k * x.2.2) (k * y.1, k * y.2.1, k * y.2.2) = k * edgeLength3 x y := by
    intro x y
    unfold edgeLength3
    rw [show (k * y.1 - k * x.1) ^ 2 + (k * y.2.1 - k * x.2.1) ^ 2 + (k * y.2.2 - k * x.2.2) ^ 2 =
        k ^ 2 * ((y.1 - x.1) ^ 2 + (y.2.1 - x.2.1) ^ 2 + (y.2.2 - x.2.2) ^ 2) by ring, Real.sqrt_mul (sq_nonneg k), Real.sqrt_sq hk.le]
  unfold tetQual
  rw [e, e, e, qualOfLengths_scale hk]

/-- The cross product of the edges from the first to the second and the third corner. -/
def Spec.faceCross (p q r : ℝ × ℝ × ℝ) : ℝ × ℝ × ℝ :=
  ((q.2.1 - p.2.1) * (r.2.2 - p.2.2) - (q.2.2 - p.2.2) * (r.2.1 - p.2.1), (q.2.2 - p.2.2) * (r.1 - p.1) - (q.1 - p.1) * (r.2.2 - p.2.2),
    (q.1 - p.1) * (r.2.1 - p.2.1) - (q.2.1 - p.2.1) * (r.1 - p.1))

/-- Twice the area of the face. -/
noncomputable def Spec.faceArea2 (p q r : ℝ × ℝ × ℝ) : ℝ := Real.sqrt ((faceCross p q r).1 ^ 2 + (faceCross p q r).2.1 ^ 2 + (faceCross p q r).2.2 ^ 2)

theorem edgeLength3_sq (p q : ℝ × ℝ × ℝ) : edgeLength3 p q ^ 2 = (q.1 - p.1) ^ 2 + (q.2.1 - p.2.1) ^ 2 + (q.2.2 - p.2.2) ^ 2 := Real.sq_sqrt (by positivity)

theorem edgeLength3_eq_zero (p q : ℝ × ℝ × ℝ) : edgeLength3 p q = 0 ↔ p = q := by
  constructor
  · intro h
    have h2 := edgeLength3_sq p q
    rw [h] at h2
    have h1 := sq_nonneg (q.1 - p.1)
    have h3 := sq_nonneg (q.2.1 - p.2.1)
    have h4 := sq_nonneg (q.2.2 - p.2.2)
    have e1 : q.1 - p.1 = 0 := pow_eq_zero_iff two_ne_zero |>.1 (by linarith)
    have e2 : q.2.1 - p.2.1 = 0 := pow_eq_zero_iff two_ne_zero |>.1 (by linarith)
    have e3 : q.2.2 - p.2.2 = 0 := pow_eq_zero_iff two_ne_zero |>.1 (by linarith)
    exact Prod.ext (by linarith) (Prod.ext (by linarith) (by linarith))
  · rintro rfl
    simp [edgeLength3]

theorem heron3 (p q r : ℝ × ℝ × ℝ) : (edgeLength3 p q + edgeLength3 p r + edgeLength3 q r) * (edgeLength3 p r + edgeLength3 q r - edgeLength3 p q) *
    (edgeLength3 q r + edgeLength3 p q - edgeLength3 p r) * (edgeLength3 p q + edgeLength3 p r - edgeLength3 q r) = (2 * faceArea2 p q r) ^ 2 := by
  have e : ∀ a b c : ℝ, (a + b + c) * (b + c - a) * (c + a - b) * (a + b - c) = 2 * a ^ 2 * b ^ 2 + 2 * b ^ 2 * c ^ 2 + 2 * c ^ 2 * a ^ 2 - (a ^ 2) ^ 2 - (b ^ 2) ^ 2 - (c ^ 2) ^ 2 := by
    intro a b c; ring
  rw [e, edgeLength3_sq, edgeLength3_sq, edgeLength3_sq, mul_pow, faceArea2, Real.sq_sqrt (by positivity)]
  simp only [faceCross]
  ring

/-- **C157** (4): the quality is a number exactly if the first three corners are different. -/
theorem C157_defined (p q r s : ℝ × ℝ × ℝ) : (tetQual p q r s).isSome ↔ p ≠ q ∧ p ≠ r ∧ q ≠ r := by
  have h0 : ∀ x y, 0 ≤ edgeLength3 x y := fun _ _ => Real.sqrt_nonneg _
  unfold tetQual qualOfLengths
  simp only [heron3]
  have hz : ¬ (2 * faceArea2 p q r) ^ 2 < 0 := not_lt.2 (sq_nonneg _)
  by_cases h : p ≠ q ∧ p ≠ r ∧ q ≠ r
  · obtain ⟨h1, h2, h3⟩ := h
    have a1 : 0 < edgeLength3 p q := lt_of_le_of_ne (h0 _ _) fun e => h1 ((edgeLength3_eq_zero _ _).1 e.symm)
    have a2 : 0 < edgeLength3 p r := lt_of_le_of_ne (h0 _ _) fun e => h2 ((edgeLength3_eq_zero _ _).1 e.symm)
    have a3 : 0 < edgeLength3 q r := lt_of_le_of_ne (h0 _ _) fun e => h3 ((edgeLength3_eq_zero _ _).1 e.symm)
    rw [if_neg (by push Not; exact ⟨sq_nonneg _, by positivity, by positivity⟩)]
    refine ⟨fun _ => ⟨h1, h2, h3⟩, fun _ => ?_⟩
    split <;> rfl
  · rw [if_pos]
    · simp only [Option.isSome_none, Bool.false_eq_true, false_iff]
      exact h
    · refine Or.inr (Or.inr ?_)
      rw [mul_eq_zero, mul_eq_zero, edgeLength3_eq_zero, edgeLength3_eq_zero, edgeLength3_eq_zero]
      by_contra hn
      push Not at hn
      exact h ⟨hn.1.1, hn.1.2, hn.2⟩

/-- **C157** (5): what it is: eight times the cube of twice the area of the first face, divided by the square of its perimeter and the product of its edges; so it is never
negative and zero exactly if the first three corners lie on a line. -/
theorem C157_value {p q r : ℝ × ℝ × ℝ} (h1 : p ≠ q) (h2 : p ≠ r) (h3 : q ≠ r) (s : ℝ × ℝ × ℝ) :
    ∃ v, tetQual p q r s = some v ∧
      v * ((edgeLength3 p q + edgeLength3 p r + edgeLength3 q r) ^ 2 * (edgeLength3 p q * edgeLength3 p r * edgeLength3 q r)) = 8 * faceArea2 p q r ^ 3 ∧
      0 ≤ v ∧ (v = 0 ↔ faceCross p q r = 0) := by
  have h0 : ∀ x y, 0 ≤ edgeLength3 x y := fun _ _ => Real.sqrt_nonneg _
  have a1 : 0 < edgeLength3 p q := lt_of_le_of_ne (h0 _ _) fun e => h1 ((edgeLength3_eq_zero _ _).1 e.symm)
  have a2 : 0 < edgeLength3 p r := lt_of_le_of_ne (h0 _ _) fun e => h2 ((edgeLength3_eq_zero _ _).1 e.symm)
  have a3 : 0 < edgeLength3 q r := lt_of_le_of_ne (h0 _ _) fun e => h3 ((edgeLength3_eq_zero _ _).1 e.symm)
  have hA : 0 ≤ faceArea2 p q r := Real.sqrt_nonneg _
  have hA0 : faceArea2 p q r = 0 ↔ faceCross p q r = 0 := by
    have e : faceArea2 p q r = edgeLength3 (0, 0, 0) (faceCross p q r) := by unfold faceArea2 edgeLength3; simp only [sub_zero]
    rw [e, edgeLength3_eq_zero]
    exact eq_comm
  have hH := heron3 p q r
  obtain ⟨v, hv, hvv⟩ : ∃ v, tetQual p q r s = some v ∧
      v * ((edgeLength3 p q + edgeLength3 p r + edgeLength3 q r) ^ 2 * (edgeLength3 p q * edgeLength3 p r * edgeLength3 q r)) = 8 * faceArea2 p q r ^ 3 := by
    unfold tetQual qualOfLengths
    simp only [hH, Real.sqrt_sq (by positivity : 0 ≤ 2 * faceArea2 p q r)]
    rw [if_neg (by push Not; exact ⟨sq_nonneg _, by positivity, by positivity⟩)]
    split
    · rename_i hd
      have : faceArea2 p q r = 0 := by linarith
      exact ⟨0, rfl, by rw [this]; ring⟩
    · rename_i hd
      refine ⟨_, rfl, ?_⟩
      generalize edgeLength3 p q = a at *
      generalize edgeLength3 p r = b at *
      generalize edgeLength3 q r = c at *
      generalize faceArea2 p q r = A at *
      have hA' : A ≠ 0 := fun e => hd (by rw [e, mul_zero])
      have hs : a + b + c ≠ 0 := by positivity
      field_simp
      linear_combination 2 * hH
  have hden : 0 < (edgeLength3 p q + edgeLength3 p r + edgeLength3 q r) ^ 2 * (edgeLength3 p q * edgeLength3 p r * edgeLength3 q r) := by positivity
  refine ⟨v, hv, hvv, ?_, ?_⟩
  · by_contra hn
    have := mul_neg_of_neg_of_pos (not_le.1 hn) hden
    rw [hvv] at this
    exact absurd this (not_lt.2 (by positivity))
  · rw [← hA0]
    constructor
    · rintro rfl
      rw [zero_mul] at hvv
      have : faceArea2 p q r ^ 3 = 0 := by linarith
      exact pow_eq_zero_iff three_ne_zero |>.1 this
    · intro e
      rw [e] at hvv
      have : v * _ = 0 := hvv.trans (by ring)
      exact (mul_eq_zero.1 this).resolve_right hden.ne'

theorem qual_345 : qualOfLengths 3 4 5 = some (8 / 5) := by
  unfold qualOfLengths
  have h : Real.sqrt ((3 + 4 + 5) * (4 + 5 - 3) * (5 + 3 - 4) * (3 + 4 - 5)) = 24 := by
    rw [show ((3 : ℝ) + 4 + 5) * (4 + 5 - 3) * (5 + 3 - 4) * (3 + 4 - 5) = 24 ^ 2 by norm_num]
    exact Real.sqrt_sq (by norm_num)
  simp only [h]
  rw [if_neg (by norm_num), if_neg (by norm_num)]
  norm_num

theorem sqrt_of_sq {x y : ℝ} (hy : 0 ≤ y) (h : x = y ^ 2) : Real.sqrt x = y := by rw [h, Real.sqrt_sq hy]

theorem tetQual_345 (s : ℝ × ℝ × ℝ) : tetQual (0, 0, 0) (3, 0, 0) (0, 4, 0) s = some (8 / 5) := by
  have h1 : edgeLength3 (0, 0, 0) (3, 0, 0) = 3 := sqrt_of_sq (by norm_num) (by norm_num)
  have h2 : edgeLength3 (0, 0, 0) (0, 4, 0) = 4 := sqrt_of_sq (by norm_num) (by norm_num)
  have h3 : edgeLength3 (3, 0, 0) (0, 4, 0) = 5 := sqrt_of_sq (by norm_num) (by norm_num)
  unfold tetQual
  rw [h1, h2, h3, qual_345]

/-- **C157** fails: for every first face and every height of the fourth corner the quality is the same, so a tetrahedron without volume is as good as one with volume: here both
have the quality 1.6, and so has the one whose fourth corner is the first again. -/
theorem C157_flat : tetVol (0, 0, 0) (3, 0, 0) (0, 4, 0) ((1 : ℝ), 1, 0) = 0 ∧ tetQual (0, 0, 0) (3, 0, 0) (0, 4, 0) (1, 1, 0) = some (8 / 5) ∧
    tetVol (0, 0, 0) (3, 0, 0) (0, 4, 0) ((1 : ℝ), 1, 3) = 6 ∧ tetQual (0, 0, 0) (3, 0, 0) (0, 4, 0) (1, 1, 3) = some (8 / 5) ∧
    tetQual (0, 0, 0) (3, 0, 0) (0, 4, 0) (0, 0, 0) = some (8 / 5) := by
  refine ⟨by norm_num [tetVol], tetQual_345 _, by norm_num [tetVol], tetQual_345 _, tetQual_345 _⟩

/-- **C157** fails: the quality depends on the order of the corners, which `fix_mesh` changes because it sorts the numbers. -/
theorem C157_order : tetQual (0, 0, 0) (3, 0, 0) (0, 4, 0) (0, 0, 9 / 4) = some (8 / 5) ∧ tetQual (0, 0, 0) (3, 0, 0) (0, 0, 9 / 4) (0, 4, 0) = some (6 / 5) := by
  refine ⟨tetQual_345 _, ?_⟩
  have h1 : edgeLength3 (0, 0, 0) (3, 0, 0) = 3 / 4 * 4 := sqrt_of_sq (by norm_num) (by norm_num)
  have h2 : edgeLength3 (0, 0, 0) (0, 0, 9 / 4) = 3 / 4 * 3 := sqrt_of_sq (by norm_num) (by norm_num)
  have h3 : edgeLength3 (3, 0, 0) (0, 0, 9 / 4) = 3 / 4 * 5 := sqrt_of_sq (by norm_num) (by norm_num)
  unfold tetQual
  rw [h1, h2, h3, qualOfLengths_scale (by norm_num), (qualOfLengths_swap 4 3 5).1, qual_345]
  norm_num

/-! ## Example -/

example : (0 : ℝ) < 10 ∧ tetQual (10 * 0, 10 * 0, 10 * 0) (10 * 3, 10 * 0, 10 * 0) (10 * 0, 10 * 4, 10 * 0) (10 * 1, 10 * 1, 10 * 3) = some 16 := by
  refine ⟨by norm_num, ?_⟩
  rw [C157_scales (by norm_num : (0 : ℝ) < 10) (0, 0, 0) (3, 0, 0) (0, 4, 0) (1, 1, 3), tetQual_345]
  norm_num

-- Three different corners that lie on no line, and three on a line.
example : ((0, 0, 0) : ℝ × ℝ × ℝ) ≠ (3, 0, 0) ∧ ((0, 0, 0) : ℝ × ℝ × ℝ) ≠ (0, 4, 0) ∧ ((3, 0, 0) : ℝ × ℝ × ℝ) ≠ (0, 4, 0) ∧ faceCross (0, 0, 0) (3, 0, 0) (0, 4, 0) = (0, 0, 12) ∧
    faceCross (0, 0, 0) (1, 2, 3) (2, 4, 6) = 0 := by
  refine ⟨by simp, by simp, by simp, by norm_num [faceCross], by norm_num [faceCross]⟩

end OM
