import Verif.Lemmas.QualFl
import Verif.Props.CleanFl
import Verif.Props.GenerateFl
/-!
# C131: the quality of triangles in rounded arithmetic
-/
set_option linter.unusedSectionVars false
namespace OM
open Spec

/-- The length of the line between two points. -/
noncomputable def Spec.sideLength (p q : ℝ × ℝ) : ℝ := Real.sqrt ((q.1 - p.1) ^ 2 + (q.2 - p.2) ^ 2)

/-- No side is nearly as long as the other two together: the perimeter is at most `κ` times each of the three differences (3 for equilateral
triangles). -/
def Spec.Plump (κ : ℝ) (p q r : ℝ × ℝ) : Prop :=
  let a := sideLength p q
  let b := sideLength p r
  let c := sideLength q r
  a + b + c ≤ κ * (b + c - a) ∧ a + b + c ≤ κ * (c + a - b) ∧ a + b + c ≤ κ * (a + b - c)

/-- The number `4 r² / R` with `r = 2 A / s` and `R = a b c / (4 A)` (area `A`, perimeter `s`, sides `a b c`), see C11. -/
noncomputable def Spec.radiusQuality (p q r : ℝ × ℝ) : ℝ :=
  let a := sideLength p q
  let b := sideLength p r
  let c := sideLength q r
  64 * |signedArea p q r| ^ 3 / ((a + b + c) ^ 2 * (a * b * c))

/-- The root of a double, rounded. -/
noncomputable def rootFl (rnd : ℝ → ℝ) (x : ℝ) : ℝ := rnd (Real.sqrt x)

theorem plump_distinct {κ : ℝ} {p q r : ℝ × ℝ} (hne : p ≠ q) (h : Plump κ p q r) : p ≠ r ∧ q ≠ r := by
  obtain ⟨h1, h2, h3⟩ := h
  have n1 : 0 ≤ edgeLength p q := Real.sqrt_nonneg _
  have n2 : 0 ≤ edgeLength p r := Real.sqrt_nonneg _
  have n3 : 0 ≤ edgeLength q r := Real.sqrt_nonneg _
  have z1 : 0 < edgeLength p q := lt_of_le_of_ne n1 fun h => hne ((edgeLength_eq_zero p q).1 h.symm)
  have sym : ∀ x y, edgeLength x y = edgeLength y x := by
    intro x y; unfold edgeLength; congr 1; ring
  change edgeLength p q + edgeLength p r + edgeLength q r ≤ κ * (edgeLength p r + edgeLength q r - edgeLength p q) at h1
  change edgeLength p q + edgeLength p r + edgeLength q r ≤ κ * (edgeLength q r + edgeLength p q - edgeLength p r) at h2
  change edgeLength p q + edgeLength p r + edgeLength q r ≤ κ * (edgeLength p q + edgeLength p r - edgeLength q r) at h3
  constructor
  · rintro rfl
    have e : edgeLength p p = 0 := (edgeLength_eq_zero p p).2 rfl
    rw [e, sym q p] at h1
    simp at h1
    linarith
  · rintro rfl
    have e : edgeLength q q = 0 := (edgeLength_eq_zero q q).2 rfl
    rw [e] at h1
    simp at h1
    linarith

/-- The exact quality, in the form in which the program computes it. -/
theorem radiusQuality_eq {κ : ℝ} {p q r : ℝ × ℝ} (hne : p ≠ q) (h : Plump κ p q r) :
    2 * (1 / 2 * ((edgeLength p r + edgeLength q r - edgeLength p q) * (edgeLength q r + edgeLength p q - edgeLength p r) *
      (edgeLength p q + edgeLength p r - edgeLength q r) / (edgeLength p q + edgeLength p r + edgeLength q r))) /
      (edgeLength p q * edgeLength p r * edgeLength q r /
        Real.sqrt ((edgeLength p q + edgeLength p r + edgeLength q r) * (edgeLength p r + edgeLength q r - edgeLength p q) *
          (edgeLength q r + edgeLength p q - edgeLength p r) * (edgeLength p q + edgeLength p r - edgeLength q r))) = radiusQuality p q r := by
  obtain ⟨hpr, hqr⟩ := plump_distinct hne h
  have n1 : 0 ≤ edgeLength p q := Real.sqrt_nonneg _
  have n2 : 0 ≤ edgeLength p r := Real.sqrt_nonneg _
  have n3 : 0 ≤ edgeLength q r := Real.sqrt_nonneg _
  have z1 : 0 < edgeLength p q := lt_of_le_of_ne n1 fun h => hne ((edgeLength_eq_zero p q).1 h.symm)
  have z2 : 0 < edgeLength p r := lt_of_le_of_ne n2 fun h => hpr ((edgeLength_eq_zero p r).1 h.symm)
  have z3 : 0 < edgeLength q r := lt_of_le_of_ne n3 fun h => hqr ((edgeLength_eq_zero q r).1 h.symm)
  have hh := heron_under p q r
  change _ = 64 * |signedArea p q r| ^ 3 / ((edgeLength p q + edgeLength p r + edgeLength q r) ^ 2 *
    (edgeLength p q * edgeLength p r * edgeLength q r))
  rw [← triVol_eq_signedArea]
  generalize edgeLength p q = a at *
  generalize edgeLength p r = b at *
  generalize edgeLength q r = c at *
  generalize triVol p q r = A at *
  have hs : 0 < a + b + c := by linarith
  have hm : (b + c - a) * (c + a - b) * (a + b - c) = 16 * |A| ^ 2 / (a + b + c) := by
    rw [eq_div_iff hs.ne', sq_abs]
    linarith [hh, show (a + b + c) * (b + c - a) * (c + a - b) * (a + b - c) =
      (b + c - a) * (c + a - b) * (a + b - c) * (a + b + c) by ring]
  rw [hm, hh, Real.sqrt_sq_eq_abs, abs_mul, abs_of_pos (show (0 : ℝ) < 4 by norm_num)]
  field_simp
  ring

/-- **C131** (1) For triangles of different corners in which the perimeter is at most `κ` times each of the three differences of sides, `500 κ u ≤ 1`, the
computed quality is a number, positive, and wrong by at most a factor `1 ± 60 κ u`. Missing: thin triangles, see (7). -/
theorem C131_accuracy_partial {rnd : ℝ → ℝ} {u κ : ℝ} (hr : RelError rnd u) (h0 : 0 ≤ u) (hku : 500 * (κ * u) ≤ 1) {p q r : ℝ × ℝ} (hne : p ≠ q)
    (h : Plump κ p q r) :
    ∃ v, triQualFl rnd (rootFl rnd) p q r = some v ∧ 0 < v ∧ |v - radiusQuality p q r| ≤ 60 * (κ * u) * radiusQuality p q r := by
  obtain ⟨hpr, hqr⟩ := plump_distinct hne h
  have n1 : 0 ≤ edgeLength p q := Real.sqrt_nonneg _
  have n2 : 0 ≤ edgeLength p r := Real.sqrt_nonneg _
  have n3 : 0 ≤ edgeLength q r := Real.sqrt_nonneg _
  have z1 : 0 < edgeLength p q := lt_of_le_of_ne n1 fun h => hne ((edgeLength_eq_zero p q).1 h.symm)
  have z2 : 0 < edgeLength p r := lt_of_le_of_ne n2 fun h => hpr ((edgeLength_eq_zero p r).1 h.symm)
  have z3 : 0 < edgeLength q r := lt_of_le_of_ne n3 fun h => hqr ((edgeLength_eq_zero q r).1 h.symm)
  obtain ⟨h1, h2, h3⟩ := id h
  change edgeLength p q + edgeLength p r + edgeLength q r ≤ κ * (edgeLength p r + edgeLength q r - edgeLength p q) at h1
  change edgeLength p q + edgeLength p r + edgeLength q r ≤ κ * (edgeLength q r + edgeLength p q - edgeLength p r) at h2
  change edgeLength p q + edgeLength p r + edgeLength q r ≤ κ * (edgeLength p q + edgeLength p r - edgeLength q r) at h3
  have hκ : 3 ≤ κ := by
    have : 3 * (edgeLength p q + edgeLength p r + edgeLength q r) ≤ κ * (edgeLength p q + edgeLength p r + edgeLength q r) := by nlinarith
    exact le_of_mul_le_mul_right this (by linarith)
  have hu3 : 3 * u ≤ κ * u := mul_le_mul_of_nonneg_right hκ h0
  have hu1 : u < 1 := by linarith
  obtain ⟨f, hf, ef⟩ := edgeLengthFl_fac hr h0 hu1 p q
  obtain ⟨g, hg, eg⟩ := edgeLengthFl_fac hr h0 hu1 p r
  obtain ⟨k, hk, ek⟩ := edgeLengthFl_fac hr h0 hu1 q r
  obtain ⟨F, hF, eF⟩ := qualOfLengthsFl_fac hr h0 hku z1 z2 z3 hf hg hk h1 h2 h3
  rw [radiusQuality_eq hne h] at eF
  have hpos : 0 < radiusQuality p q r := by
    rw [← radiusQuality_eq hne h]
    have k1 : 0 < edgeLength p r + edgeLength q r - edgeLength p q := pos_of_mul_pos_right (lt_of_lt_of_le (by linarith) h1) (by linarith)
    have k2 : 0 < edgeLength q r + edgeLength p q - edgeLength p r := pos_of_mul_pos_right (lt_of_lt_of_le (by linarith) h2) (by linarith)
    have k3 : 0 < edgeLength p q + edgeLength p r - edgeLength q r := pos_of_mul_pos_right (lt_of_lt_of_le (by linarith) h3) (by linarith)
    positivity
  refine ⟨radiusQuality p q r * F, ?_, mul_pos hpos (hF.pos (by linarith)), ?_⟩
  · unfold triQualFl rootFl
    rw [ef, eg, ek, eF]
  · have e := hF.err (by linarith) (by push_cast; linarith) (by linarith)
    push_cast at e
    rw [show radiusQuality p q r * F - radiusQuality p q r = (F - 1) * radiusQuality p q r by ring, abs_mul, abs_of_pos hpos]
    exact mul_le_mul_of_nonneg_right (by nlinarith) hpos.le

/-- An equilateral-like triangle: legs 3 and 4. -/
theorem plump_345 : Plump 6 (0, 0) (3, 0) (0, 4) := by
  have e1 : sideLength (0, 0) (3, 0) = 3 := by
    unfold sideLength; rw [Real.sqrt_eq_iff_mul_self_eq (by norm_num) (by norm_num)]; norm_num
  have e2 : sideLength (0, 0) (0, 4) = 4 := by
    unfold sideLength; rw [Real.sqrt_eq_iff_mul_self_eq (by norm_num) (by norm_num)]; norm_num
  have e3 : sideLength (3, 0) (0, 4) = 5 := by
    unfold sideLength; rw [Real.sqrt_eq_iff_mul_self_eq (by norm_num) (by norm_num)]; norm_num
  simp only [Plump, e1, e2, e3]
  norm_num

example : ∃ v, triQualFl roundDouble (rootFl roundDouble) (0, 0) (3, 0) (0, 4) = some v ∧ 0 < v ∧
    |v - radiusQuality (0, 0) (3, 0) (0, 4)| ≤ 60 * (6 * (1 / 2 ^ 53)) * radiusQuality (0, 0) (3, 0) (0, 4) :=
  C131_accuracy_partial C113_roundDouble.2 (by positivity) (by norm_num) (by simp) plump_345

/-- **C131** (2) NaN is computed only for triangles with two equal corners and for slivers: one of the differences of sides is less than `500 u` times the
perimeter. -/
theorem C131_nan {rnd : ℝ → ℝ} {u : ℝ} (hr : RelError rnd u) (h0 : 0 < u) {p q r : ℝ × ℝ} (h : triQualFl rnd (rootFl rnd) p q r = none) :
    p = q ∨
      let a := sideLength p q
      let b := sideLength p r
      let c := sideLength q r
      b + c - a < 500 * u * (a + b + c) ∨ c + a - b < 500 * u * (a + b + c) ∨ a + b - c < 500 * u * (a + b + c) := by
  by_cases hne : p = q
  · exact .inl hne
  right
  by_contra hc
  simp only [not_or, not_lt] at hc
  have key : Plump (1 / (500 * u)) p q r := by
    have e : ∀ S D : ℝ, 500 * u * S ≤ D → S ≤ 1 / (500 * u) * D := by
      intro S D hS
      rw [one_div, ← div_eq_inv_mul, le_div_iff₀ (by positivity)]
      linarith
    exact ⟨e _ _ hc.1, e _ _ hc.2.1, e _ _ hc.2.2⟩
  obtain ⟨v, hv, -⟩ := C131_accuracy_partial hr h0.le (by field_simp; rfl) hne key
  rw [hv] at h
  cases h

section
variable {K : Type} [Field K] [LinearOrder K] [IsStrictOrderedRing K]

theorem rnd_pos_sign {rnd : K → K} (hR : Rounding rnd) {x : K} (h : 0 < rnd x) : 0 < x := by
  by_contra hc
  exact absurd h (not_lt.2 (rnd_nonpos hR (not_lt.1 hc)))

theorem rnd_neg_sign {rnd : K → K} (hR : Rounding rnd) {x : K} (h : rnd x < 0) : x < 0 := by
  by_contra hc
  exact absurd h (not_lt.2 (rnd_nonneg hR (not_lt.1 hc)))

/-- **C131** (3) For every rounding rule and all lengths, the computed quality is NaN or at least zero: the "signed mesh quality" of the documentation has no sign. -/
theorem C131_nonneg {rnd root : K → K} (hR : Rounding rnd) (hs : ∀ x, 0 ≤ root x) (hr0 : root 0 = 0) (p q r : K × K) {v : K}
    (h : triQualFl rnd root p q r = some v) : 0 ≤ v := by
  unfold triQualFl at h
  have ha : 0 ≤ edgeLengthFl rnd root p q := hs _
  have hb : 0 ≤ edgeLengthFl rnd root p r := hs _
  have hc : 0 ≤ edgeLengthFl rnd root q r := hs _
  generalize edgeLengthFl rnd root p q = a at *
  generalize edgeLengthFl rnd root p r = b at *
  generalize edgeLengthFl rnd root q r = c at *
  unfold qualOfLengthsFl at h
  simp only at h
  have hS : 0 ≤ rnd (rnd (a + b) + c) := rnd_nonneg hR (add_nonneg (rnd_nonneg hR (add_nonneg ha hb)) hc)
  have hA : 0 ≤ rnd (rnd (a * b) * c) := rnd_nonneg hR (mul_nonneg (rnd_nonneg hR (mul_nonneg ha hb)) hc)
  generalize rnd (rnd (a + b) + c) = s at *
  generalize rnd (rnd (b + c) - a) = x at *
  generalize rnd (rnd (c + a) - b) = y at *
  generalize rnd (rnd (a + b) - c) = z at *
  generalize rnd (rnd (a * b) * c) = abc at *
  split_ifs at h with h1 h2
  · simp only [Option.some.injEq] at h; exact h.le
  · push Not at h1
    simp only [Option.some.injEq] at h
    subst h
    have hs' : 0 < s := lt_of_le_of_ne hS (Ne.symm h1.2.1)
    refine rnd_nonneg hR (div_nonneg (rnd_nonneg hR (mul_nonneg zero_le_two (rnd_nonneg hR (mul_nonneg (by norm_num)
      (rnd_nonneg hR (div_nonneg (rnd_nonneg hR ?_) hS)))))) (rnd_nonneg hR (div_nonneg hA (hs _))))
    rcases h1.1.eq_or_lt with h3 | h3
    · rw [← h3, hr0] at h2
      exact absurd rfl h2
    · have h4 := rnd_pos_sign hR h3
      rcases lt_trichotomy z 0 with hz | hz | hz
      · have h5 : rnd (rnd (s * x) * y) < 0 := by nlinarith
        have h6 := rnd_neg_sign hR h5
        have h7 : x * y ≤ 0 := by
          rcases lt_trichotomy y 0 with hy | hy | hy
          · have h8 : 0 < rnd (s * x) := by nlinarith
            have := rnd_pos_sign hR h8
            have : 0 < x := by nlinarith
            nlinarith
          · rw [hy, mul_zero]
          · have h8 : rnd (s * x) < 0 := by nlinarith
            have := rnd_neg_sign hR h8
            have : x < 0 := by nlinarith
            nlinarith
        have := rnd_nonpos hR h7
        nlinarith
      · rw [hz, mul_zero]
      · have h5 : 0 < rnd (rnd (s * x) * y) := by nlinarith
        have h6 := rnd_pos_sign hR h5
        have h7 : 0 ≤ x * y := by
          rcases lt_trichotomy y 0 with hy | hy | hy
          · have h8 : rnd (s * x) < 0 := by nlinarith
            have := rnd_neg_sign hR h8
            have : x < 0 := by nlinarith
            nlinarith
          · rw [hy, mul_zero]
          · have h8 : 0 < rnd (s * x) := by nlinarith
            have := rnd_pos_sign hR h8
            have : 0 < x := by nlinarith
            nlinarith
        exact mul_nonneg (rnd_nonneg hR h7) hz.le

end
end OM
