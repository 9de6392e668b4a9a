import Verif.Model.Generator
import Verif.Model.Region
import Mathlib.Analysis.SpecialFunctions.Trigonometric.Deriv
import Mathlib.Analysis.SpecialFunctions.Trigonometric.Bounds
import Mathlib.Tactic.FieldSimp
import Mathlib.Tactic.Linarith
import Mathlib.Tactic.Ring
/-!
# C84: distortion factors of stereographic meshes
-/
namespace OM
open Real

theorem one_add_sin_ne {x : ℝ} (h : -(π / 2) < x) (h' : x < 3 * π / 2) : 0 < 1 + sin x := by
  have h1 := neg_one_le_sin x
  rcases h1.eq_or_lt with h0 | h0
  · have : cos (x + π / 2) = 1 := by rw [cos_add_pi_div_two, ← h0]; norm_num
    have hpos : 0 < x + π / 2 := by linarith
    have hlt : x + π / 2 < 2 * π := by linarith
    rw [cos_eq_one_iff_of_lt_of_lt (by linarith [pi_pos]) hlt] at this
    linarith
  · linarith

/-- Derivatives of the two coordinates of the projection along a meridian. -/
theorem toStereo_hasDeriv_lat {R : ℝ} (hR : 0 < R) {lon lat : ℝ} (h1 : -90 < lat) (h2 : lat ≤ 90) :
    HasDerivAt (fun x => (toStereo R lon x).1) (cos (lon / 180 * π) * (π / 180 / (1 + sin (lat / 180 * π)))) lat ∧
    HasDerivAt (fun x => (toStereo R lon x).2) (sin (lon / 180 * π) * (π / 180 / (1 + sin (lat / 180 * π)))) lat := by
  have hpos : 0 < 1 + sin (lat / 180 * π) := one_add_sin_ne (by nlinarith [pi_pos]) (by nlinarith [pi_pos])
  have hlin : HasDerivAt (fun x : ℝ => x / 180 * π) (π / 180) lat := by
    have := ((hasDerivAt_id lat).div_const 180).mul_const π
    exact this.congr_deriv (by ring)
  have hs := hlin.sin
  have hc := hlin.cos
  have key : ∀ c : ℝ, HasDerivAt (fun x => -(cos (x / 180 * π) * c * R) / (R + sin (x / 180 * π) * R)) (c * (π / 180 / (1 + sin (lat / 180 * π)))) lat := by
    intro c
    have hden : R + sin (lat / 180 * π) * R ≠ 0 := by
      have : R + sin (lat / 180 * π) * R = R * (1 + sin (lat / 180 * π)) := by ring
      rw [this]; positivity
    have := (((hc.mul_const c).mul_const R).neg).div ((hs.mul_const R).const_add R) hden
    refine this.congr_deriv ?_
    have hsc := sin_sq_add_cos_sq (lat / 180 * π)
    simp only [Pi.neg_apply]
    generalize sin (lat / 180 * π) = s at *
    generalize cos (lat / 180 * π) = w at *
    have hR' := hR.ne'
    have hp' := hpos.ne'
    have hw : w ^ 2 = 1 - s ^ 2 := by linarith
    have e : R + s * R = R * (1 + s) := by ring
    rw [e, div_eq_iff (pow_ne_zero 2 (mul_ne_zero hR' hp'))]
    have e2 : c * (π / 180 / (1 + s)) * (R * (1 + s)) ^ 2 = c * (π / 180) * R ^ 2 * (1 + s) := by field_simp
    rw [e2]
    have e3 : -(-s * (π / 180) * c * R) * (R * (1 + s)) - -(w * c * R) * (w * (π / 180) * R) = c * (π / 180) * R ^ 2 * (s * (1 + s) + w ^ 2) := by ring
    rw [e3, hw]
    ring
  exact ⟨key _, key _⟩

/-- Derivatives along a parallel. -/
theorem toStereo_hasDeriv_lon {R : ℝ} (hR : 0 < R) {lon lat : ℝ} (h1 : -90 < lat) (h2 : lat ≤ 90) :
    HasDerivAt (fun x => (toStereo R x lat).1) (sin (lon / 180 * π) * (cos (lat / 180 * π) * (π / 180 / (1 + sin (lat / 180 * π))))) lon ∧
    HasDerivAt (fun x => (toStereo R x lat).2) (-cos (lon / 180 * π) * (cos (lat / 180 * π) * (π / 180 / (1 + sin (lat / 180 * π))))) lon := by
  have hpos : 0 < 1 + sin (lat / 180 * π) := one_add_sin_ne (by nlinarith [pi_pos]) (by nlinarith [pi_pos])
  have hlin : HasDerivAt (fun x : ℝ => x / 180 * π) (π / 180) lon := by
    have := ((hasDerivAt_id lon).div_const 180).mul_const π
    exact this.congr_deriv (by ring)
  have e : R + sin (lat / 180 * π) * R = R * (1 + sin (lat / 180 * π)) := by ring
  have hR' := hR.ne'
  have hp' := hpos.ne'
  constructor
  · have := ((((hlin.cos.const_mul (cos (lat / 180 * π))).mul_const R).neg).div_const (R + sin (lat / 180 * π) * R))
    refine this.congr_deriv ?_
    rw [e]; field_simp
  · have := ((((hlin.sin.const_mul (cos (lat / 180 * π))).mul_const R).neg).div_const (R + sin (lat / 180 * π) * R))
    refine this.congr_deriv ?_
    rw [e]; field_simp

/-- **C84** (bars): away from the south pole the projection has the same scale in both directions: a step of one degree along the meridian and a step
of one degree of arc along the parallel (`1 / cos lat` degrees of longitude) have images of the same length, and the factor `_stereo_distortion_dist` is
twice this length. -/
theorem C84_bar_distortion {R : ℝ} (hR : 0 < R) {lon lat : ℝ} (h1 : -90 < lat) (h2 : lat ≤ 90) :
    ∃ u v u' v' : ℝ, HasDerivAt (fun x => (toStereo R lon x).1) u lat ∧ HasDerivAt (fun x => (toStereo R lon x).2) v lat ∧
      HasDerivAt (fun x => (toStereo R x lat).1) u' lon ∧ HasDerivAt (fun x => (toStereo R x lat).2) v' lon ∧
      0 < stereoDistortionDist lat ∧ stereoDistortionDist lat = 2 * sqrt (u ^ 2 + v ^ 2) ∧
      cos (lat / 180 * π) * stereoDistortionDist lat = 2 * sqrt (u' ^ 2 + v' ^ 2) ∧ u * u' + v * v' = 0 := by
  have hpos : 0 < 1 + sin (lat / 180 * π) := one_add_sin_ne (by nlinarith [pi_pos]) (by nlinarith [pi_pos])
  have hc : 0 ≤ cos (lat / 180 * π) := cos_nonneg_of_neg_pi_div_two_le_of_le (by nlinarith [pi_pos]) (by nlinarith [pi_pos])
  have hd : stereoDistortionDist lat = 2 * (π / 180 / (1 + sin (lat / 180 * π))) := by
    rw [stereoDistortionDist, show lat * π / 180 = lat / 180 * π by ring]
    ring
  have hk : 0 < π / 180 / (1 + sin (lat / 180 * π)) := by positivity
  obtain ⟨a1, a2⟩ := toStereo_hasDeriv_lat hR (lon := lon) h1 h2
  obtain ⟨b1, b2⟩ := toStereo_hasDeriv_lon hR (lon := lon) h1 h2
  refine ⟨_, _, _, _, a1, a2, b1, b2, by rw [hd]; positivity, ?_, ?_, by ring⟩
  · rw [hd]
    congr 1
    rw [show (cos (lon / 180 * π) * (π / 180 / (1 + sin (lat / 180 * π)))) ^ 2 + (sin (lon / 180 * π) * (π / 180 / (1 + sin (lat / 180 * π)))) ^ 2 =
      (sin (lon / 180 * π) ^ 2 + cos (lon / 180 * π) ^ 2) * (π / 180 / (1 + sin (lat / 180 * π))) ^ 2 by ring, sin_sq_add_cos_sq, one_mul, sqrt_sq hk.le]
  · rw [hd]
    rw [show (sin (lon / 180 * π) * (cos (lat / 180 * π) * (π / 180 / (1 + sin (lat / 180 * π))))) ^ 2 +
        (-cos (lon / 180 * π) * (cos (lat / 180 * π) * (π / 180 / (1 + sin (lat / 180 * π))))) ^ 2 =
      (sin (lon / 180 * π) ^ 2 + cos (lon / 180 * π) ^ 2) * (cos (lat / 180 * π) * (π / 180 / (1 + sin (lat / 180 * π)))) ^ 2 by ring, sin_sq_add_cos_sq,
      one_mul, sqrt_sq (mul_nonneg hc hk.le)]
    ring

example := C84_bar_distortion (R := 1) one_pos (lon := 30) (lat := 45) (by norm_num) (by norm_num)

/-- **C84** (disagreement): the factor for the initial points is not a multiple of the scale of the projection. From the equator to the north pole it
doubles, while the scale is halved. -/
theorem C84_initial_factor : stereoDistortion 0 = 1 ∧ stereoDistortion 90 = 2 ∧ stereoDistortionDist 90 = stereoDistortionDist 0 / 2 ∧
    ¬ ∃ c : ℝ, ∀ lat, -90 < lat → lat ≤ 90 → stereoDistortion lat = c * stereoDistortionDist lat := by
  have e1 : stereoDistortion 0 = 1 := by
    rw [stereoDistortion, show ((0 : ℝ) + 90) / 180 * π = π / 2 by ring, sin_pi_div_two]; norm_num
  have e2 : stereoDistortion 90 = 2 := by
    rw [stereoDistortion, show ((90 : ℝ) + 90) / 180 * π = π by ring, sin_pi]; norm_num
  have e3 : stereoDistortionDist 90 = stereoDistortionDist 0 / 2 := by
    rw [stereoDistortionDist, stereoDistortionDist, show (90 : ℝ) * π / 180 = π / 2 by ring, sin_pi_div_two]; simp; ring
  refine ⟨e1, e2, e3, ?_⟩
  rintro ⟨c, hc⟩
  have h0 := hc 0 (by norm_num) (by norm_num)
  have h90 := hc 90 (by norm_num) (by norm_num)
  rw [e1] at h0
  rw [e2, e3] at h90
  linarith

end OM
