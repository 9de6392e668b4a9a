import Verif.Model.QualFl
import Verif.Lemmas.Fac
import Verif.Lemmas.Double
import Verif.Props.Quality
import Mathlib.Data.Rat.Floor
import Mathlib.Tactic.LinearCombination
/-! Rounding errors of `simp_qual`. -/
set_option linter.unusedSectionVars false
namespace OM
open Spec

theorem log_cast (x : ℚ) : Int.log 2 (x : ℝ) = Int.log 2 x := by
  unfold Int.log
  have e1 : (1 ≤ (x : ℝ)) ↔ 1 ≤ x := by exact_mod_cast Iff.rfl
  have e2 : ⌊(x : ℝ)⌋₊ = ⌊x⌋₊ := by
    rw [← Int.floor_toNat, ← Int.floor_toNat, Rat.floor_cast]
  have e3 : ⌈(x : ℝ)⁻¹⌉₊ = ⌈x⁻¹⌉₊ := by
    rw [← Int.ceil_toNat, ← Int.ceil_toNat, ← Rat.cast_inv, Rat.ceil_cast]
  simp only [e1, e2, e3]

theorem roundEven_cast (x : ℚ) : roundEven (x : ℝ) = roundEven x := by
  unfold roundEven
  simp only [Rat.floor_cast]
  have e1 : ((x : ℝ) - (⌊x⌋ : ℝ) < 1 / 2) ↔ x - ⌊x⌋ < 1 / 2 := by
    rw [← Rat.cast_lt (K := ℝ)]; push_cast; exact Iff.rfl
  have e2 : (1 / 2 < (x : ℝ) - (⌊x⌋ : ℝ)) ↔ 1 / 2 < x - ⌊x⌋ := by
    rw [← Rat.cast_lt (K := ℝ)]; push_cast; exact Iff.rfl
  simp only [e1, e2]

/-- Rounding of a rational number does not depend on the field in which it is done. -/
theorem roundDouble_cast (x : ℚ) : roundDouble (x : ℝ) = ((roundDouble x : ℚ) : ℝ) := by
  unfold roundDouble
  have e1 : ((x : ℝ) < 0) ↔ x < 0 := by exact_mod_cast Iff.rfl
  have e3 : (|(x : ℝ)| / 2 ^ (Int.log 2 |x| - 52) : ℝ) = ((|x| / 2 ^ (Int.log 2 |x| - 52) : ℚ) : ℝ) := by push_cast; rfl
  have e4 : Int.log 2 |(x : ℝ)| = Int.log 2 |x| := by rw [← Rat.cast_abs, log_cast]
  simp only [e1, e4, e3, roundEven_cast]
  split_ifs <;> push_cast <;> rfl

/-- The rounded root of a number between two squares. -/
theorem roundDouble_sqrt {S lo hi L : ℚ} (h0 : 0 ≤ lo) (h1 : lo * lo ≤ S) (h2 : S ≤ hi * hi) (h3 : roundDouble lo = L) (h4 : roundDouble hi = L) (h5 : 0 ≤ hi) :
    roundDouble (Real.sqrt (S : ℝ)) = L := by
  have hS : (lo : ℝ) ≤ Real.sqrt S := Real.le_sqrt_of_sq_le (by rw [pow_two]; exact_mod_cast h1)
  have hS' : Real.sqrt S ≤ hi := by
    rw [Real.sqrt_le_left (by exact_mod_cast h5), pow_two]
    exact_mod_cast h2
  have a := roundDouble_monotone hS
  have b := roundDouble_monotone hS'
  rw [roundDouble_cast, h3] at a
  rw [roundDouble_cast, h4] at b
  exact le_antisymm b a

section
variable {K : Type} [Field K] [LinearOrder K] [IsStrictOrderedRing K]

theorem Fac.widen {u U : K} (h0 : 0 ≤ u) (hu : u < 1) {n : Nat} (hn : n * u ≤ U) {f : K} (h : Fac u n f) : Fac U 1 f := by
  have hb : 1 - n * u ≤ (1 - u) ^ n := by
    have := one_add_mul_le_pow (a := -u) (by linarith) n
    have e : (1 + -u) = 1 - u := by ring
    rw [e] at this
    linarith
  have hp := h.pos hu
  refine ⟨by rw [pow_one]; linarith [h.1], ?_⟩
  rw [pow_one]
  exact (mul_le_mul_of_nonneg_left (by linarith) hp.le).trans h.2

theorem fac_of_err {U f : K} (h0 : 0 ≤ U) (h1 : U ≤ 1) (h : |f - 1| ≤ U) : Fac U 1 f := by
  rw [abs_le] at h
  refine ⟨by rw [pow_one]; linarith [h.1], ?_⟩
  rw [pow_one]
  have := mul_le_mul_of_nonneg_right (show f ≤ 1 + U by linarith [h.2]) (show 0 ≤ 1 - U by linarith)
  nlinarith [mul_nonneg h0 h0]

/-- A difference of two numbers with rounding errors, neither of which is large in comparison to the difference. -/
theorem diff_fac {rnd : K → K} {u : K} (hr : RelError rnd u) (h0 : 0 ≤ u) {P Q f g κ : K} (hP : 0 ≤ P) (hQ : 0 ≤ Q) (hD : 0 < P - Q)
    (hk : P + Q ≤ κ * (P - Q)) (h3 : 3 ≤ κ) (hku : 500 * (κ * u) ≤ 1) (hf : Fac u 3 f) (hg : Fac u 4 g) :
    ∃ F, Fac (5 * (κ * u)) 1 F ∧ rnd (P * g - Q * f) = (P - Q) * F := by
  have hu3 : 3 * u ≤ κ * u := mul_le_mul_of_nonneg_right h3 h0
  have hu1 : u < 1 := by linarith
  have e1 := hf.err h0 (by push_cast; linarith) hu1
  have e2 := hg.err h0 (by push_cast; linarith) hu1
  push_cast at e1 e2
  obtain ⟨h, hh, eh⟩ := rnd_fac hr h0 hu1 (P * g - Q * f)
  have e3 := hh.err h0 (by push_cast; linarith) hu1
  push_cast at e3
  rw [eh]
  set G := (P * g - Q * f) / (P - Q) with hG
  have eG : P * g - Q * f = (P - Q) * G := by rw [hG, mul_div_cancel₀ _ hD.ne']
  have hG1 : |G - 1| ≤ 40 / 9 * (κ * u) := by
    rw [hG, div_sub_one hD.ne', abs_div, abs_of_pos hD, div_le_iff₀ hD]
    have e4 : |P * g - Q * f - (P - Q)| ≤ 40 / 9 * u * (P + Q) := by
      rw [abs_le] at e1 e2 ⊢
      have := mul_le_mul_of_nonneg_left e1.1 hQ
      have := mul_le_mul_of_nonneg_left e1.2 hQ
      have := mul_le_mul_of_nonneg_left e2.1 hP
      have := mul_le_mul_of_nonneg_left e2.2 hP
      have := mul_nonneg h0 hQ
      constructor <;> nlinarith
    have := mul_le_mul_of_nonneg_left hk h0
    nlinarith
  refine ⟨G * h, fac_of_err (by linarith) (by linarith) ?_, by rw [eG, mul_assoc]⟩
  rw [show G * h - 1 = (G - 1) * (h - 1) + (G - 1) + (h - 1) by ring]
  have e5 := abs_add_le ((G - 1) * (h - 1) + (G - 1)) (h - 1)
  have e6 := abs_add_le ((G - 1) * (h - 1)) (G - 1)
  rw [abs_mul] at e6
  have e7 : |G - 1| * |h - 1| ≤ 40 / 9 * (κ * u) * (1 / 100) :=
    mul_le_mul hG1 (by linarith) (abs_nonneg _) (by linarith)
  linarith

end

theorem Fac.root {u f : ℝ} (hu : u < 1) {n : Nat} (h : Fac u (2 * n) f) : Fac u n (Real.sqrt f) := by
  have hf := h.pos hu
  have hp : 0 < (1 - u) ^ n := pow_pos (by linarith) n
  have e : (1 - u) ^ (2 * n) = ((1 - u) ^ n) ^ 2 := by rw [mul_comm, pow_mul]
  refine ⟨Real.le_sqrt_of_sq_le (by rw [← e]; exact h.1), ?_⟩
  have : (Real.sqrt f * (1 - u) ^ n) ^ 2 ≤ 1 ^ 2 := by
    rw [mul_pow, Real.sq_sqrt hf.le, ← e, one_pow]; exact h.2
  exact le_of_sq_le_sq this zero_le_one

theorem edgeLengthFl_fac {rnd : ℝ → ℝ} {u : ℝ} (hr : RelError rnd u) (h0 : 0 ≤ u) (hu : u < 1) (p q : ℝ × ℝ) :
    ∃ f, Fac u 3 f ∧ edgeLengthFl rnd (fun x => rnd (Real.sqrt x)) p q = edgeLength p q * f := by
  obtain ⟨f1, g1, e1⟩ := rnd_fac hr h0 hu (q.1 - p.1)
  obtain ⟨f2, g2, e2⟩ := rnd_fac hr h0 hu (q.2 - p.2)
  obtain ⟨f3, g3, e3⟩ := rnd_fac hr h0 hu (rnd (q.1 - p.1) * rnd (q.1 - p.1))
  obtain ⟨f4, g4, e4⟩ := rnd_fac hr h0 hu (rnd (q.2 - p.2) * rnd (q.2 - p.2))
  obtain ⟨f5, g5, e5⟩ := rnd_fac hr h0 hu (rnd (rnd (q.1 - p.1) * rnd (q.1 - p.1)) + rnd (rnd (q.2 - p.2) * rnd (q.2 - p.2)))
  obtain ⟨F, hF, eF⟩ := Fac.sum h0 hu ((g1.mul hu g1).mul hu g3) ((g2.mul hu g2).mul hu g4) (sq_nonneg (q.1 - p.1)) (sq_nonneg (q.2 - p.2))
  have eS : rnd (rnd (rnd (q.1 - p.1) * rnd (q.1 - p.1)) + rnd (rnd (q.2 - p.2) * rnd (q.2 - p.2))) =
      ((q.1 - p.1) ^ 2 + (q.2 - p.2) ^ 2) * (F * f5) := by
    rw [e5, e3, e4, e1, e2]
    linear_combination f5 * eF
  obtain ⟨f6, g6, e6⟩ := rnd_fac hr h0 hu (Real.sqrt (((q.1 - p.1) ^ 2 + (q.2 - p.2) ^ 2) * (F * f5)))
  have h4 : Fac u (2 * 2) (F * f5) := hF.mul hu g5
  refine ⟨Real.sqrt (F * f5) * f6, (h4.root hu).mul hu g6, ?_⟩
  unfold edgeLengthFl edgeLength
  simp only
  rw [eS, e6, Real.sqrt_mul (by positivity)]
  ring

set_option maxHeartbeats 1000000 in
/-- The computed quality for three lengths with rounding errors, none of the differences being small. -/
theorem qualOfLengthsFl_fac {rnd : ℝ → ℝ} {u κ : ℝ} (hr : RelError rnd u) (h0 : 0 ≤ u) (hku : 500 * (κ * u) ≤ 1) {a b c f g h : ℝ} (ha : 0 < a)
    (hb : 0 < b) (hc : 0 < c) (hf : Fac u 3 f) (hg : Fac u 3 g) (hh : Fac u 3 h) (k1 : a + b + c ≤ κ * (b + c - a)) (k2 : a + b + c ≤ κ * (c + a - b))
    (k3 : a + b + c ≤ κ * (a + b - c)) :
    ∃ F, Fac (5 * (κ * u)) 10 F ∧ qualOfLengthsFl rnd (fun x => rnd (Real.sqrt x)) (a * f) (b * g) (c * h) =
      some (2 * (1 / 2 * ((b + c - a) * (c + a - b) * (a + b - c) / (a + b + c))) /
        (a * b * c / Real.sqrt ((a + b + c) * (b + c - a) * (c + a - b) * (a + b - c))) * F) := by
  have hs : 0 < a + b + c := by linarith
  have h3 : 3 ≤ κ := by
    have : 3 * (a + b + c) ≤ κ * (a + b + c) := by nlinarith
    exact le_of_mul_le_mul_right this hs
  have hκ : 0 < κ := by linarith
  have hx : 0 < b + c - a := pos_of_mul_pos_right (lt_of_lt_of_le hs k1) hκ.le
  have hy : 0 < c + a - b := pos_of_mul_pos_right (lt_of_lt_of_le hs k2) hκ.le
  have hz : 0 < a + b - c := pos_of_mul_pos_right (lt_of_lt_of_le hs k3) hκ.le
  have hu3 : 3 * u ≤ κ * u := mul_le_mul_of_nonneg_right h3 h0
  have hu1 : u < 1 := by linarith
  have hU1 : 5 * (κ * u) < 1 := by linarith
  -- the three sums of two lengths
  obtain ⟨g1, hg1, eg1⟩ := Fac.sum h0 hu1 hg hh hb.le hc.le
  obtain ⟨g2, hg2, eg2⟩ := Fac.sum h0 hu1 hh hf hc.le ha.le
  obtain ⟨g3, hg3, eg3⟩ := Fac.sum h0 hu1 hf hg ha.le hb.le
  obtain ⟨r1, hr1, er1⟩ := rnd_fac hr h0 hu1 ((b + c) * g1)
  obtain ⟨r2, hr2, er2⟩ := rnd_fac hr h0 hu1 ((c + a) * g2)
  obtain ⟨r3, hr3, er3⟩ := rnd_fac hr h0 hu1 ((a + b) * g3)
  obtain ⟨X, hX, eX⟩ := diff_fac hr h0 (P := b + c) (Q := a) (f := f) (g := g1 * r1) (by linarith) ha.le hx (by linarith) h3 hku hf (hg1.mul hu1 hr1)
  obtain ⟨Y, hY, eY⟩ := diff_fac hr h0 (P := c + a) (Q := b) (f := g) (g := g2 * r2) (by linarith) hb.le hy (by linarith) h3 hku hg (hg2.mul hu1 hr2)
  obtain ⟨Z, hZ, eZ⟩ := diff_fac hr h0 (P := a + b) (Q := c) (f := h) (g := g3 * r3) (by linarith) hc.le hz (by linarith) h3 hku hh (hg3.mul hu1 hr3)
  -- the perimeter
  obtain ⟨g4, hg4, eg4⟩ := Fac.sum h0 hu1 (hg3.mul hu1 hr3) (hh.mono h0 hu1 (by norm_num : 3 ≤ 3 + 1)) (add_nonneg ha.le hb.le) hc.le
  obtain ⟨r4, hr4, er4⟩ := rnd_fac hr h0 hu1 ((a + b + c) * g4)
  have hS : Fac (5 * (κ * u)) 1 (g4 * r4) := (hg4.mul hu1 hr4).widen h0 hu1 (by push_cast; linarith)
  have es : rnd (rnd (a * f + b * g) + c * h) = (a + b + c) * (g4 * r4) := by
    rw [eg3, er3, show (a + b) * g3 * r3 + c * h = (a + b) * (g3 * r3) + c * h by ring, eg4, er4]; ring
  have ex : rnd (rnd (b * g + c * h) - a * f) = (b + c - a) * X := by
    rw [eg1, er1, mul_assoc, eX]
  have ey : rnd (rnd (c * h + a * f) - b * g) = (c + a - b) * Y := by
    rw [eg2, er2, mul_assoc, eY]
  have ez : rnd (rnd (a * f + b * g) - c * h) = (a + b - c) * Z := by
    rw [eg3, er3, mul_assoc, eZ]
  unfold qualOfLengthsFl
  simp only
  rw [es, ex, ey, ez]
  generalize g4 * r4 = S at *
  clear eX eY eZ er1 er2 er3 er4 eg1 eg2 eg3 eg4 es ex ey ez hg1 hg2 hg3 hg4 hr1 hr2 hr3 hr4
  generalize a + b + c = s at *
  generalize b + c - a = x at *
  generalize c + a - b = y at *
  generalize a + b - c = z at *
  -- the product under the root
  obtain ⟨t1, ht1, et1⟩ := rnd_fac hr h0 hu1 (s * S * (x * X))
  obtain ⟨t2, ht2, et2⟩ := rnd_fac hr h0 hu1 (s * S * (x * X) * t1 * (y * Y))
  obtain ⟨t3, ht3, et3⟩ := rnd_fac hr h0 hu1 (s * S * (x * X) * t1 * (y * Y) * t2 * (z * Z))
  have eu : rnd (rnd (rnd (s * S * (x * X)) * (y * Y)) * (z * Z)) = s * x * y * z * ((S * X * Y * Z) * (t1 * t2 * t3)) := by
    rw [et1, et2, et3]; ring
  have hW : Fac (5 * (κ * u)) (2 * 2) (S * X * Y * Z) := ((hS.mul hU1 hX).mul hU1 hY).mul hU1 hZ
  have hT : Fac u (2 * 2) (t1 * t2 * t3) := ((ht1.mul hu1 ht2).mul hu1 ht3).mono h0 hu1 (by norm_num)
  have pW := hW.pos hU1
  have pT := hT.pos hu1
  have hprod : 0 < s * x * y * z := by positivity
  obtain ⟨t4, ht4, et4⟩ := rnd_fac hr h0 hu1 (Real.sqrt (s * x * y * z * ((S * X * Y * Z) * (t1 * t2 * t3))))
  have ed : rnd (Real.sqrt (s * x * y * z * ((S * X * Y * Z) * (t1 * t2 * t3)))) =
      Real.sqrt (s * x * y * z) * (Real.sqrt (S * X * Y * Z) * (Real.sqrt (t1 * t2 * t3) * t4)) := by
    rw [et4, Real.sqrt_mul hprod.le, Real.sqrt_mul pW.le]; ring
  have hD : Fac (5 * (κ * u)) (2 + 1) (Real.sqrt (S * X * Y * Z) * (Real.sqrt (t1 * t2 * t3) * t4)) :=
    (hW.root hU1).mul hU1 (((hT.root hu1).mul hu1 ht4).widen h0 hu1 (by push_cast; linarith))
  -- the product of the lengths
  obtain ⟨v1, hv1, ev1⟩ := rnd_fac hr h0 hu1 (a * f * (b * g))
  obtain ⟨v2, hv2, ev2⟩ := rnd_fac hr h0 hu1 (a * f * (b * g) * v1 * (c * h))
  have ea : rnd (rnd (a * f * (b * g)) * (c * h)) = a * b * c * (f * g * h * v1 * v2) := by rw [ev1, ev2]; ring
  have hA := (((hf.mul hu1 hg).mul hu1 hh).mul hu1 hv1).mul hu1 hv2
  have pA := hA.pos hu1
  have pS := hS.pos hU1
  have pD := hD.pos hU1
  have hroot : 0 < Real.sqrt (s * x * y * z) := Real.sqrt_pos.2 hprod
  rw [eu, ea]
  generalize f * g * h * v1 * v2 = A at *
  rw [if_neg (by push Not; exact ⟨by positivity, by positivity, by positivity⟩)]
  rw [ed]
  generalize Real.sqrt (S * X * Y * Z) * (Real.sqrt (t1 * t2 * t3) * t4) = D at *
  rw [if_neg (by positivity)]
  -- the radii
  obtain ⟨w1, hw1, ew1⟩ := rnd_fac hr h0 hu1 (x * X * (y * Y))
  obtain ⟨w2, hw2, ew2⟩ := rnd_fac hr h0 hu1 (x * X * (y * Y) * w1 * (z * Z))
  obtain ⟨w3, hw3, ew3⟩ := rnd_fac hr h0 hu1 (x * X * (y * Y) * w1 * (z * Z) * w2 / (s * S))
  obtain ⟨w4, hw4, ew4⟩ := rnd_fac hr h0 hu1 (1 / 2 * (x * X * (y * Y) * w1 * (z * Z) * w2 / (s * S) * w3))
  obtain ⟨w5, hw5, ew5⟩ := rnd_fac hr h0 hu1 (2 * (1 / 2 * (x * X * (y * Y) * w1 * (z * Z) * w2 / (s * S) * w3) * w4))
  obtain ⟨w6, hw6, ew6⟩ := rnd_fac hr h0 hu1 (a * b * c * A / (Real.sqrt (s * x * y * z) * D))
  rw [ew1, ew2, ew3, ew4, ew5, ew6]
  obtain ⟨w7, hw7, ew7⟩ := rnd_fac hr h0 hu1 (2 * (1 / 2 * (x * X * (y * Y) * w1 * (z * Z) * w2 / (s * S) * w3) * w4) * w5 /
    (a * b * c * A / (Real.sqrt (s * x * y * z) * D) * w6))
  rw [ew7]
  have hQ1 : Fac (5 * (κ * u)) 5 (X * Y * Z * S⁻¹ * (w1 * w2 * w3 * w4 * w5)) :=
    (((hX.mul hU1 hY).mul hU1 hZ).mul hU1 (hS.inv hU1)).mul hU1
      (((((hw1.mul hu1 hw2).mul hu1 hw3).mul hu1 hw4).mul hu1 hw5).widen h0 hu1 (by push_cast; linarith))
  have hQ2 : Fac (5 * (κ * u)) 4 (D⁻¹ * (A * w6)) :=
    (hD.inv hU1).mul hU1 ((hA.mul hu1 hw6).widen h0 hu1 (by push_cast; linarith))
  have hQ3 : Fac (5 * (κ * u)) 1 w7 := hw7.widen h0 hu1 (by push_cast; linarith)
  refine ⟨_, (hQ1.mul hU1 (hQ2.inv hU1)).mul hU1 hQ3, ?_⟩
  have pw6 := hw6.pos hu1
  congr 1
  field_simp

section
variable {K : Type} [Field K] [LinearOrder K] [IsStrictOrderedRing K]

theorem edgeLengthFl_symm {rnd : K → K} (hodd : ∀ x, rnd (-x) = -rnd x) (root : K → K) (p q : K × K) :
    edgeLengthFl rnd root p q = edgeLengthFl rnd root q p := by
  unfold edgeLengthFl
  simp only
  rw [← neg_sub p.1 q.1, ← neg_sub p.2 q.2, hodd, hodd, neg_mul_neg, neg_mul_neg]

/-- If one length is zero and the other two are the same number, one of the differences is zero. -/
theorem qualOfLengthsFl_zero {rnd : K → K} (hR : Rounding rnd) {b : K} (hb : rnd b = b) : rnd (rnd (b + 0) - b) = 0 ∧ rnd (rnd (0 + b) - b) = 0 := by
  rw [add_zero, zero_add, hb, sub_self, hR.zero]
  exact ⟨rfl, rfl⟩

theorem edgeLengthFl_self {rnd root : K → K} (hR : Rounding rnd) (hr0 : root 0 = 0) (p : K × K) : edgeLengthFl rnd root p p = 0 := by
  unfold edgeLengthFl
  simp only [sub_self, hR.zero, mul_zero, add_zero, hr0]

variable [FloorRing K]

theorem log_two_mul {x : K} (hx : 0 < x) : Int.log 2 (2 * x) = Int.log 2 x + 1 := by
  have h2 : (0 : K) < 2 * x := by linarith
  apply le_antisymm
  · have h := Int.zpow_log_le_self (b := 2) (R := K) (by norm_num) h2
    have e : ((2 : ℕ) : K) ^ (Int.log 2 (2 * x) - 1) ≤ x := by
      rw [zpow_sub₀ (by norm_num), zpow_one, div_le_iff₀ (by norm_num)]
      push_cast at h ⊢
      linarith
    have := (Int.zpow_le_iff_le_log (b := 2) (by norm_num) hx).1 e
    omega
  · rw [← Int.zpow_le_iff_le_log (b := 2) (by norm_num) h2]
    have h := Int.zpow_log_le_self (b := 2) (R := K) (by norm_num) hx
    rw [zpow_add₀ (by norm_num), zpow_one]
    push_cast at h ⊢
    linarith

theorem roundDouble_two_mul (x : K) : roundDouble (2 * x) = 2 * roundDouble x := by
  rcases eq_or_ne x 0 with rfl | hx
  · rw [mul_zero, roundDouble_zero, mul_zero]
  · unfold roundDouble
    have e1 : (2 * x < 0) ↔ x < 0 := by constructor <;> intro h <;> linarith
    have e2 : |2 * x| = 2 * |x| := by rw [abs_mul, abs_of_pos (by norm_num : (0 : K) < 2)]
    have e3 : Int.log 2 |2 * x| = Int.log 2 |x| + 1 := by rw [e2, log_two_mul (abs_pos.2 hx)]
    have e4 : (2 : K) ^ (Int.log 2 |x| + 1 - 52) = 2 * 2 ^ (Int.log 2 |x| - 52) := by
      rw [show Int.log 2 |x| + 1 - 52 = 1 + (Int.log 2 |x| - 52) by ring, zpow_add₀ (by norm_num), zpow_one]
    simp only [e1, e3, e4]
    rw [e2, mul_div_mul_left _ _ (by norm_num : (2 : K) ≠ 0)]
    split_ifs <;> ring

end

end OM
