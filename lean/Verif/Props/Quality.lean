import Verif.Model.FixMesh
import Mathlib.Tactic.FieldSimp
import Mathlib.Tactic.Ring
import Mathlib.Tactic.NormNum
import Mathlib.Tactic.Positivity
import Mathlib.Tactic.Linarith
/-!
# Property C11 (`simp_qual`, `oceanmesh/fix_mesh.py:6-31`)

The full claim — 1 for equilateral triangles, never above 1, independent of scale — is false: the code omits a square
root, so its value has the dimension of a length.
-/
namespace OM

theorem edgeLength_scale (k : ℝ) (p q : ℝ × ℝ) :
    edgeLength (k * p.1, k * p.2) (k * q.1, k * q.2) = |k| * edgeLength p q := by
  unfold edgeLength
  rw [show (k * q.1 - k * p.1) ^ 2 + (k * q.2 - k * p.2) ^ 2 = k ^ 2 * ((q.1 - p.1) ^ 2 + (q.2 - p.2) ^ 2) by ring,
    Real.sqrt_mul (sq_nonneg k), Real.sqrt_sq_eq_abs]

theorem qualOfLengths_scale {k : ℝ} (hk : 0 < k) (a b c : ℝ) :
    qualOfLengths (k * a) (k * b) (k * c) = (qualOfLengths a b c).map (k * ·) := by
  unfold qualOfLengths
  have hs : k * a + k * b + k * c = k * (a + b + c) := by ring
  have hu : (k * a + k * b + k * c) * (k * b + k * c - k * a) * (k * c + k * a - k * b) *
      (k * a + k * b - k * c) = (k ^ 2) ^ 2 * ((a + b + c) * (b + c - a) * (c + a - b) * (a + b - c)) := by ring
  have hd : Real.sqrt ((k ^ 2) ^ 2 * ((a + b + c) * (b + c - a) * (c + a - b) * (a + b - c))) =
      k ^ 2 * Real.sqrt ((a + b + c) * (b + c - a) * (c + a - b) * (a + b - c)) := by
    rw [Real.sqrt_mul (sq_nonneg _), Real.sqrt_sq (sq_nonneg k)]
  have hp : k * a * (k * b) * (k * c) = k ^ 3 * (a * b * c) := by ring
  have hm : (k * b + k * c - k * a) * (k * c + k * a - k * b) * (k * a + k * b - k * c) =
      k ^ 3 * ((b + c - a) * (c + a - b) * (a + b - c)) := by ring
  have hneg : ∀ u : ℝ, (k ^ 2) ^ 2 * u < 0 ↔ u < 0 := fun u =>
    ⟨fun h => by by_contra hu; exact absurd h (not_lt.2 (mul_nonneg (by positivity) (not_lt.1 hu))),
      fun h => mul_neg_of_pos_of_neg (by positivity) h⟩
  simp only [hu, hd, hm, hneg]
  simp only [hs, hp]
  generalize (a + b + c) * (b + c - a) * (c + a - b) * (a + b - c) = U
  generalize (b + c - a) * (c + a - b) * (a + b - c) = M
  generalize a * b * c = P
  generalize a + b + c = S
  by_cases h : U < 0 ∨ S = 0 ∨ P = 0
  · rw [if_pos h, if_pos (by simpa [hk.ne'] using h)]
    rfl
  · rw [if_neg h, if_neg (by simpa [hk.ne'] using h)]
    push Not at h
    obtain ⟨-, h1, h3⟩ := h
    by_cases h2 : Real.sqrt U = 0
    · rw [if_pos h2, if_pos (by rw [h2, mul_zero])]
      simp
    · rw [if_neg h2, if_neg (by simp [hk.ne', h2])]
      simp only [Option.map_some, Option.some.injEq]
      generalize Real.sqrt U = D at h2 ⊢
      field_simp

/-- **C11** counterexample (1): the quality of a triangle scaled by `k` is `k` times its quality, so it is not
scale-free. -/
theorem C11_quality_scales_linearly {k : ℝ} (hk : 0 < k) (p q r : ℝ × ℝ) :
    triQual (k * p.1, k * p.2) (k * q.1, k * q.2) (k * r.1, k * r.2) = (triQual p q r).map (k * ·) := by
  unfold triQual
  rw [edgeLength_scale, edgeLength_scale, edgeLength_scale, abs_of_pos hk, qualOfLengths_scale hk]

/-- **C11** counterexample (2): an equilateral triangle of side `s` has quality `s / √3`, not 1. -/
theorem C11_equilateral_quality {s : ℝ} (hs : 0 < s) {p q r : ℝ × ℝ} (h1 : edgeLength p q = s)
    (h2 : edgeLength p r = s) (h3 : edgeLength q r = s) : triQual p q r = some (s / Real.sqrt 3) := by
  unfold triQual
  rw [h1, h2, h3]
  have h3pos : 0 < Real.sqrt 3 := Real.sqrt_pos.2 (by norm_num)
  have hd : Real.sqrt ((s + s + s) * (s + s - s) * (s + s - s) * (s + s - s)) = Real.sqrt 3 * s ^ 2 := by
    rw [show (s + s + s) * (s + s - s) * (s + s - s) * (s + s - s) = 3 * (s ^ 2) ^ 2 by ring,
      Real.sqrt_mul (by norm_num), Real.sqrt_sq (sq_nonneg s)]
  have hu : 0 ≤ (s + s + s) * (s + s - s) * (s + s - s) * (s + s - s) := by
    rw [show s + s - s = s by ring]; positivity
  unfold qualOfLengths
  simp only [hd]
  rw [if_neg, if_neg (by positivity)]
  · simp only [Option.some.injEq]
    have : Real.sqrt 3 * Real.sqrt 3 = 3 := Real.mul_self_sqrt (by norm_num)
    field_simp
    nlinarith [this]
  · push Not
    exact ⟨hu, by positivity, by positivity⟩

/-- The equilateral triangle with side 2. -/
theorem equilateral_two : edgeLength (-1, 0) (1, 0) = 2 ∧ edgeLength (-1, 0) (0, Real.sqrt 3) = 2 ∧
    edgeLength (1, 0) (0, Real.sqrt 3) = 2 := by
  have h3 : Real.sqrt 3 ^ 2 = 3 := Real.sq_sqrt (by norm_num)
  have h4 : Real.sqrt 4 = 2 := by rw [show (4 : ℝ) = 2 ^ 2 by norm_num, Real.sqrt_sq (by norm_num)]
  refine ⟨?_, ?_, ?_⟩ <;> unfold edgeLength <;> simp only [sub_zero, h3] <;> norm_num [h4]

/-- **C11** counterexample (3): a concrete equilateral triangle whose quality is above 1. -/
theorem C11_quality_above_one : ∃ (p q r : ℝ × ℝ) (v : ℝ), edgeLength p q = edgeLength p r ∧
    edgeLength p q = edgeLength q r ∧ triQual p q r = some v ∧ 1 < v := by
  obtain ⟨h1, h2, h3⟩ := equilateral_two
  refine ⟨_, _, _, 2 / Real.sqrt 3, by rw [h1, h2], by rw [h1, h3], C11_equilateral_quality two_pos h1 h2 h3, ?_⟩
  rw [lt_div_iff₀ (Real.sqrt_pos.2 (by norm_num)), one_mul, Real.sqrt_lt' two_pos]
  norm_num

example : triQual (-1, 0) (1, 0) (0, Real.sqrt 3) = some (2 / Real.sqrt 3) :=
  C11_equilateral_quality two_pos equilateral_two.1 equilateral_two.2.1 equilateral_two.2.2

theorem edgeLength_comm (p q : ℝ × ℝ) : edgeLength p q = edgeLength q p := by
  unfold edgeLength; congr 1; ring

theorem qualOfLengths_swap (a b c : ℝ) : qualOfLengths a b c = qualOfLengths b a c ∧
    qualOfLengths a b c = qualOfLengths a c b := by
  unfold qualOfLengths
  dsimp only
  refine ⟨?_, ?_⟩
  · rw [show b + a + c = a + b + c by ring, show (a + c - b) * (c + b - a) * (b + a - c) =
      (b + c - a) * (c + a - b) * (a + b - c) by ring, show (a + b + c) * (a + c - b) * (c + b - a) * (b + a - c) =
      (a + b + c) * (b + c - a) * (c + a - b) * (a + b - c) by ring, show b * a * c = a * b * c by ring]
  · rw [show a + c + b = a + b + c by ring, show (c + b - a) * (b + a - c) * (a + c - b) =
      (b + c - a) * (c + a - b) * (a + b - c) by ring, show (a + b + c) * (c + b - a) * (b + a - c) * (a + c - b) =
      (a + b + c) * (b + c - a) * (c + a - b) * (a + b - c) by ring, show a * c * b = a * b * c by ring]

/-- **C11** What does hold: the value does not change when the triangle is moved or its corners are reordered.
Missing from the full claim: the bound 1, the value 1 and independence of scale, all refuted above. -/
theorem C11_quality_invariance_partial (p q r d : ℝ × ℝ) :
    triQual (p.1 + d.1, p.2 + d.2) (q.1 + d.1, q.2 + d.2) (r.1 + d.1, r.2 + d.2) = triQual p q r ∧
      triQual q p r = triQual p q r ∧ triQual p r q = triQual p q r := by
  refine ⟨?_, ?_, ?_⟩
  · have : ∀ x y : ℝ × ℝ, edgeLength (x.1 + d.1, x.2 + d.2) (y.1 + d.1, y.2 + d.2) = edgeLength x y := by
      intro x y; unfold edgeLength; congr 1; ring
    unfold triQual
    rw [this, this, this]
  · unfold triQual
    rw [edgeLength_comm q p, (qualOfLengths_swap _ (edgeLength q r) _).2]
  · unfold triQual
    rw [edgeLength_comm r q, (qualOfLengths_swap (edgeLength p r) _ _).1]

/-- **C11** For lengths satisfying the strict triangle inequalities the value is a positive number. -/
theorem C11_quality_positive_partial {a b c : ℝ} (h1 : a < b + c) (h2 : b < c + a) (h3 : c < a + b) :
    ∃ v, qualOfLengths a b c = some v ∧ 0 < v := by
  have ha : 0 < a := by linarith
  have hb : 0 < b := by linarith
  have hc : 0 < c := by linarith
  have x : 0 < b + c - a := by linarith
  have y : 0 < c + a - b := by linarith
  have z : 0 < a + b - c := by linarith
  have hd : 0 < Real.sqrt ((a + b + c) * (b + c - a) * (c + a - b) * (a + b - c)) := Real.sqrt_pos.2 (by positivity)
  unfold qualOfLengths
  simp only
  rw [if_neg, if_neg hd.ne']
  · exact ⟨_, rfl, by positivity⟩
  · push Not
    exact ⟨by positivity, by positivity, by positivity⟩

example : (3 : ℝ) < 4 + 5 ∧ (4 : ℝ) < 5 + 3 ∧ (5 : ℝ) < 3 + 4 := by norm_num

theorem edgeLength_sq (p q : ℝ × ℝ) : edgeLength p q ^ 2 = (q.1 - p.1) ^ 2 + (q.2 - p.2) ^ 2 :=
  Real.sq_sqrt (by positivity)

theorem edgeLength_eq_zero (p q : ℝ × ℝ) : edgeLength p q = 0 ↔ p = q := by
  unfold edgeLength
  rw [Real.sqrt_eq_zero (by positivity)]
  constructor
  · intro h
    have h1 : (q.1 - p.1) ^ 2 = 0 := by nlinarith [sq_nonneg (q.1 - p.1), sq_nonneg (q.2 - p.2)]
    have h2 : (q.2 - p.2) ^ 2 = 0 := by nlinarith [sq_nonneg (q.1 - p.1), sq_nonneg (q.2 - p.2)]
    have e1 := pow_eq_zero_iff (two_ne_zero) |>.1 h1
    have e2 := pow_eq_zero_iff (two_ne_zero) |>.1 h2
    exact Prod.ext (by linarith) (by linarith)
  · rintro rfl; simp

/-- Heron's formula: the number under the root of `simp_qual` is 16 times the square of the area. -/
theorem heron_under (p q r : ℝ × ℝ) :
    (edgeLength p q + edgeLength p r + edgeLength q r) * (edgeLength p r + edgeLength q r - edgeLength p q) *
      (edgeLength q r + edgeLength p q - edgeLength p r) * (edgeLength p q + edgeLength p r - edgeLength q r) =
      (4 * triVol p q r) ^ 2 := by
  have ha := edgeLength_sq p q
  have hb := edgeLength_sq p r
  have hc := edgeLength_sq q r
  generalize edgeLength p q = a at *
  generalize edgeLength p r = b at *
  generalize edgeLength q r = c at *
  have : (a + b + c) * (b + c - a) * (c + a - b) * (a + b - c) =
      2 * a ^ 2 * b ^ 2 + 2 * b ^ 2 * c ^ 2 + 2 * c ^ 2 * a ^ 2 - (a ^ 2) ^ 2 - (b ^ 2) ^ 2 - (c ^ 2) ^ 2 := by ring
  rw [this, ha, hb, hc]
  unfold triVol
  ring

/-- **C11** What `simp_qual` returns for any three points: NaN if two corners coincide, otherwise
`64 A³ / (s² a b c)` where `A` is the area, `s` the perimeter and `a b c` the three lengths. (In terms of the
inscribed radius `r = 2 A / s` and the circumscribed radius `R = a b c / (4 A)` this is `4 r² / R`, where the quality
measure would be `2 r / R`.) In particular a triangle of three different points on one line has quality 0. -/
theorem C11_exact (p q r : ℝ × ℝ) :
    triQual p q r = if p = q ∨ p = r ∨ q = r then none else
      some (64 * |triVol p q r| ^ 3 / ((edgeLength p q + edgeLength p r + edgeLength q r) ^ 2 *
        (edgeLength p q * edgeLength p r * edgeLength q r))) := by
  have hh := heron_under p q r
  have z1 := edgeLength_eq_zero p q
  have z2 := edgeLength_eq_zero p r
  have z3 := edgeLength_eq_zero q r
  have n1 : 0 ≤ edgeLength p q := Real.sqrt_nonneg _
  have n2 : 0 ≤ edgeLength p r := Real.sqrt_nonneg _
  have n3 : 0 ≤ edgeLength q r := Real.sqrt_nonneg _
  unfold triQual qualOfLengths
  simp only
  simp only [← z1, ← z2, ← z3]
  generalize edgeLength p q = a at *
  generalize edgeLength p r = b at *
  generalize edgeLength q r = c at *
  generalize triVol p q r = A at *
  have hroot : Real.sqrt ((a + b + c) * (b + c - a) * (c + a - b) * (a + b - c)) = 4 * |A| := by
    rw [hh, Real.sqrt_sq_eq_abs, abs_mul, abs_of_pos (show (0 : ℝ) < 4 by norm_num)]
  have hnn : ¬ (a + b + c) * (b + c - a) * (c + a - b) * (a + b - c) < 0 := by
    rw [hh]; exact not_lt.2 (sq_nonneg _)
  by_cases h : a = 0 ∨ b = 0 ∨ c = 0
  · rw [if_pos h, if_pos (by rcases h with h | h | h <;> simp [h])]
  · rw [if_neg h]
    push Not at h
    obtain ⟨ha, hb, hc⟩ := h
    have pa := lt_of_le_of_ne n1 (Ne.symm ha)
    have pb := lt_of_le_of_ne n2 (Ne.symm hb)
    have pc := lt_of_le_of_ne n3 (Ne.symm hc)
    have ps : 0 < a + b + c := by linarith
    rw [if_neg (by push Not; exact ⟨not_lt.1 hnn, ps.ne', by positivity⟩), hroot]
    by_cases hA : A = 0
    · simp [hA]
    · have hA' : 0 < |A| := abs_pos.2 hA
      rw [if_neg (by positivity)]
      have hm : (b + c - a) * (c + a - b) * (a + b - c) = 16 * |A| ^ 2 / (a + b + c) := by
        rw [eq_div_iff ps.ne', sq_abs]
        linarith [hh, show (a + b + c) * (b + c - a) * (c + a - b) * (a + b - c) =
          (b + c - a) * (c + a - b) * (a + b - c) * (a + b + c) by ring]
      rw [hm]
      congr 1
      field_simp
      ring

/-- Three different points on a line: quality 0. Two equal corners: NaN. A right triangle with legs 3 and 4:
`64 · 6³ / (12² · 60) = 8/5`. -/
example : triQual (0, 0) (1, 0) (2, 0) = some 0 ∧ triQual (0, 0) (0, 0) (2, 0) = none ∧
    triQual (0, 0) (3, 0) (0, 4) = some (8 / 5) := by
  have e1 : edgeLength (0, 0) (3, 0) = 3 := by
    unfold edgeLength; rw [Real.sqrt_eq_iff_mul_self_eq (by norm_num) (by norm_num)]; norm_num
  have e2 : edgeLength (0, 0) (0, 4) = 4 := by
    unfold edgeLength; rw [Real.sqrt_eq_iff_mul_self_eq (by norm_num) (by norm_num)]; norm_num
  have e3 : edgeLength (3, 0) (0, 4) = 5 := by
    unfold edgeLength; rw [Real.sqrt_eq_iff_mul_self_eq (by norm_num) (by norm_num)]; norm_num
  refine ⟨?_, ?_, ?_⟩ <;> rw [C11_exact]
  · simp [triVol]
  · simp
  · rw [e1, e2, e3, if_neg (by simp)]
    norm_num [triVol]

end OM
