import Verif.Model.InpolyFl
import Verif.Lemmas.Inpoly
import Verif.Lemmas.Fac
/-! The compiled point-in-polygon kernel in rounded arithmetic. -/
set_option linter.unusedSectionVars false
namespace OM
open Spec
section
variable {K : Type} [Field K] [LinearOrder K]

/-- The edge makes the compiled kernel report the boundary. -/
def cHitFl (rnd : K → K) (fused : Bool) (ftol : K) (q : K × K) (s : Seg K) : Bool := !cSkipFl rnd ftol q s && cOnSegmentFl rnd fused ftol q s
/-- The edge is counted by the compiled kernel. -/
def cCountFl (rnd : K → K) (fused : Bool) (ftol : K) (q : K × K) (s : Seg K) : Bool := !cSkipFl rnd ftol q s && cCrossFl rnd fused q s

theorem cLoopFl_eq (rnd : K → K) (fused : Bool) (ftol : K) (q : K × K) (l : List (Seg K)) (i : Bool) :
    (cLoopFl rnd fused ftol q l i).1 = l.any (cHitFl rnd fused ftol q) ∧
      (l.any (cHitFl rnd fused ftol q) = false →
        (cLoopFl rnd fused ftol q l i).2 = (i ^^ (l.countP (cCountFl rnd fused ftol q) % 2 == 1))) := by
  induction l generalizing i with
  | nil => simp [cLoopFl]
  | cons s l ih =>
    rw [List.any_cons, List.countP_cons, cLoopFl]
    by_cases h1 : cSkipFl rnd ftol q s = true
    · have e1 : cHitFl rnd fused ftol q s = false := by simp [cHitFl, h1]
      have e2 : cCountFl rnd fused ftol q s = false := by simp [cCountFl, h1]
      rw [if_pos h1, e1, e2]
      simpa using ih i
    · rw [if_neg h1]
      rw [Bool.not_eq_true] at h1
      by_cases h2 : cOnSegmentFl rnd fused ftol q s = true
      · have e1 : cHitFl rnd fused ftol q s = true := by simp [cHitFl, h1, h2]
        rw [if_pos h2, e1]
        simp
      · rw [if_neg h2]
        rw [Bool.not_eq_true] at h2
        have e1 : cHitFl rnd fused ftol q s = false := by simp [cHitFl, h2]
        have e2 : cCountFl rnd fused ftol q s = cCrossFl rnd fused q s := by simp [cCountFl, h1]
        rw [e1, e2, Bool.false_or]
        by_cases h3 : cCrossFl rnd fused q s = true
        · obtain ⟨i1, i2⟩ := ih (!i)
          rw [if_pos h3, if_pos h3]
          refine ⟨i1, fun h => ?_⟩
          rw [i2 h]
          generalize l.countP (cCountFl rnd fused ftol q) = n
          rcases Nat.mod_two_eq_zero_or_one n with h | h
          · have h' : (n + 1) % 2 = 1 := by omega
            rw [h, h']; cases i <;> rfl
          · have h' : (n + 1) % 2 = 0 := by omega
            rw [h, h']; cases i <;> rfl
        · rw [if_neg h3, if_neg h3]
          simpa using ih i

/-- The kernel in closed form. -/
theorem cPointFl_eq (rnd : K → K) (fused : Bool) (ftol : K) (segs : List (Seg K)) (q : K × K) :
    cPointFl rnd fused ftol segs q =
      (segs.any (cHitFl rnd fused ftol q) || segs.countP (cCountFl rnd fused ftol q) % 2 == 1, segs.any (cHitFl rnd fused ftol q)) := by
  obtain ⟨h1, h2⟩ := cLoopFl_eq rnd fused ftol q segs false
  unfold cPointFl
  simp only [h1]
  cases h : segs.any (cHitFl rnd fused ftol q)
  · simp [h2 h]
  · simp

end
section
variable {K : Type} [Field K] [LinearOrder K] [IsStrictOrderedRing K]
variable {rnd : K → K} {u : K}

theorem mulAdd_fac (hr : RelError rnd u) (h0 : 0 ≤ u) (hu : u < 1) (fused : Bool) (c a b : K) :
    ∃ f, Fac u 1 f ∧ mulAdd rnd fused c a b = rnd (c + a * b * f) := by
  unfold mulAdd
  cases fused
  · obtain ⟨f, hf, he⟩ := rnd_fac hr h0 hu (a * b)
    exact ⟨f, hf, by simp [he]⟩
  · exact ⟨1, fac_one h0 hu 1, by simp⟩

/-- The error of a rounded sum whose second summand has a relative error. -/
theorem rnd_sum_err (hr : RelError rnd u) {c R R' e : K} (h0 : 0 ≤ u) (h : |R' - R| ≤ e) : |rnd (c + R') - (c + R)| ≤ u * |c + R| + (1 + u) * e := by
  have h1 := hr (c + R')
  have h2 : |c + R'| ≤ |c + R| + e := by
    have := abs_add_le (c + R) (R' - R)
    rw [show c + R + (R' - R) = c + R' by ring] at this
    linarith
  have h3 : |rnd (c + R') - (c + R)| ≤ |rnd (c + R') - (c + R')| + |R' - R| := by
    have := abs_add_le (rnd (c + R') - (c + R')) (R' - R)
    rw [show rnd (c + R') - (c + R') + (R' - R) = rnd (c + R') - (c + R) by ring] at this
    exact this
  have h4 := mul_le_mul_of_nonneg_left h2 h0
  linarith

theorem mul_err {R f e : K} (h : |f - 1| ≤ e) : |R * f - R| ≤ |R| * e := by
  rw [show R * f - R = R * (f - 1) by ring, abs_mul]
  exact mul_le_mul_of_nonneg_left h (abs_nonneg R)

/-- The computed abscissa. -/
theorem cXintFl_err (hr : RelError rnd u) (h0 : 0 ≤ u) (hu : u ≤ 1 / 128) (fused : Bool) {q : K × K} {s : Seg K}
    (hs : (s.1.2 ≤ q.2 ∧ q.2 < s.2.2) ∨ (s.2.2 ≤ q.2 ∧ q.2 < s.1.2)) {M : K} (m1 : |s.1.1| ≤ M) (m2 : |s.2.1| ≤ M) :
    |cXintFl rnd fused q s - (s.1.1 + (q.2 - s.1.2) * (s.2.1 - s.1.1) / (s.2.2 - s.1.2))| ≤ 16 * u * M := by
  have hu1 : u < 1 := by linarith
  have hne : s.2.2 - s.1.2 ≠ 0 := by
    intro h0
    have : s.2.2 = s.1.2 := by linarith
    rcases hs with ⟨h1, h2⟩ | ⟨h1, h2⟩ <;> (rw [this] at *; exact absurd h1 (not_le.2 h2))
  have hb := xint_between hs
  set R := (q.2 - s.1.2) * (s.2.1 - s.1.1) / (s.2.2 - s.1.2) with hR
  have m1' := abs_le.1 m1
  have m2' := abs_le.1 m2
  have hX : |s.1.1 + R| ≤ M := by
    rw [abs_le]
    constructor
    · exact le_trans (le_min m1'.1 m2'.1) hb.1
    · exact le_trans hb.2 (max_le m1'.2 m2'.2)
  have hRM : |R| ≤ 2 * M := by
    have := abs_sub (s.1.1 + R) s.1.1
    rw [show s.1.1 + R - s.1.1 = R by ring] at this
    linarith
  obtain ⟨f1, g1, e1⟩ := rnd_fac hr h0 hu1 (q.2 - s.1.2)
  obtain ⟨f2, g2, e2⟩ := rnd_fac hr h0 hu1 (s.2.1 - s.1.1)
  obtain ⟨f3, g3, e3⟩ := rnd_fac hr h0 hu1 (s.2.2 - s.1.2)
  have hd : rnd (s.2.2 - s.1.2) ≠ 0 := by rw [e3]; exact mul_ne_zero hne (g3.pos hu1).ne'
  unfold cXintFl
  simp only
  rw [if_pos hd]
  obtain ⟨f4, g4, e4⟩ := rnd_fac hr h0 hu1 (rnd (s.2.1 - s.1.1) / rnd (s.2.2 - s.1.2))
  obtain ⟨f5, g5, e5⟩ := mulAdd_fac hr h0 hu1 fused s.1.1 (rnd (q.2 - s.1.2)) (rnd (rnd (s.2.1 - s.1.1) / rnd (s.2.2 - s.1.2)))
  rw [e5, e4, e1, e2, e3]
  have hF : Fac u 5 (f1 * f2 * f3⁻¹ * f4 * f5) := ((((g1.mul hu1 g2).mul hu1 (g3.inv hu1)).mul hu1 g4).mul hu1 g5)
  have hp : (q.2 - s.1.2) * f1 * ((s.2.1 - s.1.1) * f2 / ((s.2.2 - s.1.2) * f3) * f4) * f5 = R * (f1 * f2 * f3⁻¹ * f4 * f5) := by
    rw [hR]
    have := (g3.pos hu1).ne'
    field_simp
  rw [hp]
  have he : |f1 * f2 * f3⁻¹ * f4 * f5 - 1| ≤ 10 / 9 * (5 : Nat) * u := hF.err h0 (by push_cast; linarith) hu1
  have hM : 0 ≤ M := (abs_nonneg _).trans m1
  have h1 := mul_err (R := R) he
  have h2 := rnd_sum_err (c := s.1.1) hr h0 h1
  refine h2.trans ?_
  push_cast
  have hRu : |R| * (10 / 9 * 5 * u) ≤ 2 * M * (10 / 9 * 5 * u) := mul_le_mul_of_nonneg_right hRM (by positivity)
  have hXu := mul_le_mul_of_nonneg_left hX h0
  have h3 : (1 + u) * (|R| * (10 / 9 * 5 * u)) ≤ (1 + 1 / 128) * (2 * M * (10 / 9 * 5 * u)) :=
    mul_le_mul (by linarith) hRu (by positivity) (by norm_num)
  have huM : 0 ≤ u * M := mul_nonneg h0 hM
  nlinarith

theorem segPoint_abs {a b t M : K} (ha : |a| ≤ M) (hb : |b| ≤ M) (h0 : 0 ≤ t) (h1 : t ≤ 1) : |a + t * (b - a)| ≤ M := by
  rw [abs_le] at *
  have := mul_le_mul_of_nonneg_left hb.2 h0
  have := mul_le_mul_of_nonneg_left hb.1 h0
  have := mul_le_mul_of_nonneg_left ha.2 (sub_nonneg.2 h1)
  have := mul_le_mul_of_nonneg_left ha.1 (sub_nonneg.2 h1)
  constructor <;> nlinarith

/-- One coordinate of the computed projection. -/
theorem proj_err (hr : RelError rnd u) (h0 : 0 ≤ u) (hu : u ≤ 1 / 128) (fused : Bool) {a b t : K} (ht0 : 0 ≤ t) (ht1 : t ≤ 1) :
    |mulAdd rnd fused a t (rnd (b - a)) - (a + t * (b - a))| ≤ u * |a + t * (b - a)| + (1 + 1 / 128) * (20 / 9 * u * |b - a|) := by
  have hu1 : u < 1 := by linarith
  obtain ⟨f1, g1, e1⟩ := rnd_fac hr h0 hu1 (b - a)
  obtain ⟨f2, g2, e2⟩ := mulAdd_fac hr h0 hu1 fused a t (rnd (b - a))
  rw [e2, e1, show t * ((b - a) * f1) * f2 = t * (b - a) * (f1 * f2) by ring]
  have he : |f1 * f2 - 1| ≤ 10 / 9 * (2 : Nat) * u := (g1.mul hu1 g2).err h0 (by push_cast; linarith) hu1
  have h1 := mul_err (R := t * (b - a)) he
  have h2 := rnd_sum_err (c := a) hr h0 h1
  refine h2.trans ?_
  push_cast
  have h3 : |t * (b - a)| ≤ |b - a| := by
    rw [abs_mul, abs_of_nonneg ht0]
    have := mul_le_mul_of_nonneg_right ht1 (abs_nonneg (b - a))
    linarith
  have h4 : |t * (b - a)| * (10 / 9 * 2 * u) ≤ |b - a| * (10 / 9 * 2 * u) := mul_le_mul_of_nonneg_right h3 (by positivity)
  have h5 : (1 + u) * (|t * (b - a)| * (10 / 9 * 2 * u)) ≤ (1 + 1 / 128) * (|b - a| * (10 / 9 * 2 * u)) :=
    mul_le_mul (by linarith) h4 (by positivity) (by norm_num)
  linarith

/-- The computed distance is the distance from the computed projection with a relative error. -/
theorem dist_fac (hr : RelError rnd u) (h0 : 0 ≤ u) (hu : u < 1) (a b : K) :
    ∃ f, Fac u 2 f ∧ rnd (|rnd a| + |rnd b|) = (|a| + |b|) * f := by
  obtain ⟨f1, g1, e1⟩ := rnd_fac hr h0 hu a
  obtain ⟨f2, g2, e2⟩ := rnd_fac hr h0 hu b
  have h1 : |rnd a| = |a| * f1 := by rw [e1, abs_mul, abs_of_pos (g1.pos hu)]
  have h2 : |rnd b| = |b| * f2 := by rw [e2, abs_mul, abs_of_pos (g2.pos hu)]
  obtain ⟨r, hr', he⟩ := g1.sum h0 hu g2 (abs_nonneg a) (abs_nonneg b)
  obtain ⟨f3, g3, e3⟩ := rnd_fac hr h0 hu (|rnd a| + |rnd b|)
  exact ⟨r * f3, hr'.mul hu g3, by rw [e3, h1, h2, he]; ring⟩

/-- A reported boundary point is near the edge. -/
theorem near_of_cOnSegmentFl (hr : RelError rnd u) (h0 : 0 ≤ u) (hu : u ≤ 1 / 128) (fused : Bool) {ftol M : K} (hfM : ftol ≤ M)
    {q : K × K} {s : Seg K} (m1 : |s.1.1| ≤ M) (m2 : |s.2.1| ≤ M) (m3 : |s.1.2| ≤ M) (m4 : |s.2.2| ≤ M)
    (h : cOnSegmentFl rnd fused ftol q s = true) : NearSegment (ftol + 16 * u * M) q s.1 s.2 := by
  have hu1 : u < 1 := by linarith
  have hM : 0 ≤ M := (abs_nonneg _).trans m1
  unfold cOnSegmentFl at h
  by_cases hd : rnd (s.2.1 - s.1.1) ≠ 0 ∨ rnd (s.2.2 - s.1.2) ≠ 0
  · rw [if_pos hd] at h
    simp only [Bool.and_eq_true, decide_eq_true_eq] at h
    obtain ⟨⟨ht0, ht1⟩, hdist⟩ := h
    generalize cParamFl rnd fused q s = t at *
    refine ⟨(s.1.1 + t * (s.2.1 - s.1.1), s.1.2 + t * (s.2.2 - s.1.2)), ⟨t, ht0, ht1, rfl, rfl⟩, ?_⟩
    simp only
    unfold cDistFl at hdist
    simp only at hdist
    have p1 := proj_err hr h0 hu fused (a := s.1.1) (b := s.2.1) ht0 ht1
    have p2 := proj_err hr h0 hu fused (a := s.1.2) (b := s.2.2) ht0 ht1
    have b1 := segPoint_abs m1 m2 ht0 ht1
    have b2 := segPoint_abs m3 m4 ht0 ht1
    generalize mulAdd rnd fused s.1.1 t (rnd (s.2.1 - s.1.1)) = px at *
    generalize mulAdd rnd fused s.1.2 t (rnd (s.2.2 - s.1.2)) = py at *
    generalize s.1.1 + t * (s.2.1 - s.1.1) = zx at *
    generalize s.1.2 + t * (s.2.2 - s.1.2) = zy at *
    have d1 : |s.2.1 - s.1.1| ≤ 2 * M := by have := abs_sub s.2.1 s.1.1; linarith
    have d2 : |s.2.2 - s.1.2| ≤ 2 * M := by have := abs_sub s.2.2 s.1.2; linarith
    obtain ⟨f, hf, e⟩ := dist_fac hr h0 hu1 (q.1 - px) (q.2 - py)
    rw [e] at hdist
    have t1 : |q.1 - zx| ≤ |q.1 - px| + |px - zx| := abs_sub_le _ _ _
    have t2 : |q.2 - zy| ≤ |q.2 - py| + |py - zy| := abs_sub_le _ _ _
    have hS : 0 ≤ |q.1 - px| + |q.2 - py| := by positivity
    have hfe := (hf.inv hu1).err h0 (by push_cast; linarith) hu1
    push_cast at hfe
    have hle : |q.1 - px| + |q.2 - py| ≤ ftol * f⁻¹ := by
      rw [← div_eq_mul_inv, le_div_iff₀ (hf.pos hu1)]
      exact hdist
    have hft : 0 ≤ ftol := le_trans (mul_nonneg hS (hf.pos hu1).le) hdist
    have hle2 : ftol * f⁻¹ ≤ ftol * (1 + 10 / 9 * 2 * u) := mul_le_mul_of_nonneg_left (by have := (abs_le.1 hfe).2; linarith) hft
    have hfu : ftol * u ≤ M * u := mul_le_mul_of_nonneg_right hfM h0
    have q1 := mul_le_mul_of_nonneg_left b1 h0
    have q2 := mul_le_mul_of_nonneg_left b2 h0
    have q3 := mul_le_mul_of_nonneg_left d1 h0
    have q4 := mul_le_mul_of_nonneg_left d2 h0
    have huM : 0 ≤ u * M := mul_nonneg h0 hM
    nlinarith
  · rw [if_neg hd] at h
    exact absurd h (by simp)

theorem rnd_scaled (hr : Rounding rnd) {t x : K} (h0 : 0 ≤ t) (h1 : t ≤ 1) :
    0 ≤ rnd (t * x) * rnd x ∧ rnd (t * x) * rnd x ≤ rnd x * rnd x := by
  rcases le_total 0 x with hx | hx
  · have a : 0 ≤ rnd (t * x) := by rw [← hr.zero]; exact hr.mono (mul_nonneg h0 hx)
    have b : rnd (t * x) ≤ rnd x := hr.mono (by nlinarith)
    exact ⟨mul_nonneg a (a.trans b), mul_le_mul_of_nonneg_right b (a.trans b)⟩
  · have a : rnd (t * x) ≤ 0 := by conv_rhs => rw [← hr.zero]
                                   exact hr.mono (mul_nonpos_of_nonneg_of_nonpos h0 hx)
    have b : rnd x ≤ rnd (t * x) := hr.mono (by nlinarith)
    exact ⟨mul_nonneg_of_nonpos_of_nonpos a (b.trans a), mul_le_mul_of_nonpos_right b (b.trans a)⟩

theorem mulAdd_mono (hr : Rounding rnd) (fused : Bool) {c c' a b a' b' : K} (hc : c ≤ c') (h : a * b ≤ a' * b') :
    mulAdd rnd fused c a b ≤ mulAdd rnd fused c' a' b' := by
  unfold mulAdd
  cases fused
  · simp only [Bool.false_eq_true, if_false]
    exact hr.mono (add_le_add hc (hr.mono h))
  · simp only [if_true]
    exact hr.mono (add_le_add hc h)

theorem mulAdd_nonneg (hr : Rounding rnd) (fused : Bool) {c a b : K} (hc : 0 ≤ c) (h : 0 ≤ a * b) : 0 ≤ mulAdd rnd fused c a b := by
  have := mulAdd_mono hr fused (c := 0) (c' := c) (a := 0) (b := 0) (a' := a) (b' := b) hc (by simpa using h)
  have e : mulAdd rnd fused 0 0 0 = 0 := by unfold mulAdd; cases fused <;> simp [hr.zero]
  rwa [e] at this

/-- The denominator of the parameter. -/
theorem den_fac (hr : RelError rnd u) (h0 : 0 ≤ u) (hu : u < 1) (fused : Bool) {dx dy f2 f3 wx wy k : K} (hf2 : Fac u 1 f2) (hf3 : Fac u 1 f3)
    (hk : 0 ≤ k) {g2 g3 : K} (hg2 : Fac u 1 g2) (hg3 : Fac u 1 g3) (hwx : wx = k * dx * g2) (hwy : wy = k * dy * g3) :
    ∃ F, Fac u 4 F ∧ mulAdd rnd fused (rnd (wy * (dy * f3))) wx (dx * f2) = k * (dx * dx + dy * dy) * F := by
  obtain ⟨a, ha, ea⟩ := rnd_fac hr h0 hu (wy * (dy * f3))
  obtain ⟨b, hb, eb⟩ := mulAdd_fac hr h0 hu fused (rnd (wy * (dy * f3))) wx (dx * f2)
  rw [eb, ea, hwx, hwy]
  obtain ⟨r, hr', er⟩ := ((hg2.mul hu hf2).mul hu hb).sum h0 hu ((hg3.mul hu hf3).mul hu ha)
    (mul_nonneg hk (mul_self_nonneg dx)) (mul_nonneg hk (mul_self_nonneg dy))
  obtain ⟨c, hc, ec⟩ := rnd_fac hr h0 hu (k * dy * g3 * (dy * f3) * a + k * dx * g2 * (dx * f2) * b)
  refine ⟨r * c, hr'.mul hu hc, ?_⟩
  rw [ec, show k * dy * g3 * (dy * f3) * a + k * dx * g2 * (dx * f2) * b = k * (dx * dx) * (g2 * f2 * b) + k * (dy * dy) * (g3 * f3 * a) by ring, er]
  ring

/-- The computed parameter of a point on the edge. -/
theorem cParamFl_on (hR : Rounding rnd) (hone : rnd 1 = 1) (hr : RelError rnd u) (h0 : 0 ≤ u) (hu : u ≤ 1 / 128) (fused : Bool)
    {q : K × K} {s : Seg K} (hne : s.1 ≠ s.2) {t : K} (ht0 : 0 ≤ t) (ht1 : t ≤ 1)
    (hx : q.1 = s.1.1 + t * (s.2.1 - s.1.1)) (hy : q.2 = s.1.2 + t * (s.2.2 - s.1.2)) :
    0 ≤ cParamFl rnd fused q s ∧ cParamFl rnd fused q s ≤ 1 ∧ |cParamFl rnd fused q s - t| ≤ 10 * u * t := by
  have hu1 : u < 1 := by linarith
  have wx : q.1 - s.1.1 = t * (s.2.1 - s.1.1) := by rw [hx]; ring
  have wy : q.2 - s.1.2 = t * (s.2.2 - s.1.2) := by rw [hy]; ring
  have hL : 0 < (s.2.1 - s.1.1) * (s.2.1 - s.1.1) + (s.2.2 - s.1.2) * (s.2.2 - s.1.2) := (len2_pos_iff s).2 (by
    by_contra hc
    simp only [not_or, not_not] at hc
    exact hne (Prod.ext (by linarith [hc.1]) (by linarith [hc.2])))
  unfold cParamFl
  simp only
  rw [wx, wy]
  generalize s.2.1 - s.1.1 = dx at *
  generalize s.2.2 - s.1.2 = dy at *
  obtain ⟨f2, g2, e2⟩ := rnd_fac hr h0 hu1 dx
  obtain ⟨f3, g3, e3⟩ := rnd_fac hr h0 hu1 dy
  obtain ⟨f4, g4, e4⟩ := rnd_fac hr h0 hu1 (t * dx)
  obtain ⟨f5, g5, e5⟩ := rnd_fac hr h0 hu1 (t * dy)
  obtain ⟨F, hF, eF⟩ := den_fac hr h0 hu1 fused g2 g3 ht0 g4 g5 e4 e5
  obtain ⟨G, hG, eG⟩ := den_fac hr h0 hu1 fused (dx := dx) (dy := dy) (k := 1) (wx := dx * f2) (wy := dy * f3) g2 g3 zero_le_one g2 g3
    (by ring) (by ring)
  rw [← e2, ← e3] at eF eG
  have sx := rnd_scaled hR (x := dx) ht0 ht1
  have sy := rnd_scaled hR (x := dy) ht0 ht1
  have hn0 : 0 ≤ mulAdd rnd fused (rnd (rnd (t * dy) * rnd dy)) (rnd (t * dx)) (rnd dx) :=
    mulAdd_nonneg hR fused (by rw [← hR.zero]; exact hR.mono sy.1) sx.1
  have hnd : mulAdd rnd fused (rnd (rnd (t * dy) * rnd dy)) (rnd (t * dx)) (rnd dx) ≤ mulAdd rnd fused (rnd (rnd dy * rnd dy)) (rnd dx) (rnd dx) :=
    mulAdd_mono hR fused (hR.mono sy.2) sx.2
  have hGp := hG.pos hu1
  have hden : 0 < mulAdd rnd fused (rnd (rnd dy * rnd dy)) (rnd dx) (rnd dx) := by rw [eG]; positivity
  refine ⟨?_, ?_, ?_⟩
  · rw [← hR.zero]; exact hR.mono (div_nonneg hn0 hden.le)
  · conv_rhs => rw [← hone]
    exact hR.mono ((div_le_one hden).2 hnd)
  · obtain ⟨f6, g6, e6⟩ := rnd_fac hr h0 hu1 (mulAdd rnd fused (rnd (rnd (t * dy) * rnd dy)) (rnd (t * dx)) (rnd dx) /
      mulAdd rnd fused (rnd (rnd dy * rnd dy)) (rnd dx) (rnd dx))
    rw [e6, eF, eG]
    have hT : Fac u 9 (F * G⁻¹ * f6) := (hF.mul hu1 (hG.inv hu1)).mul hu1 g6
    have hTe := hT.err h0 (by push_cast; linarith) hu1
    push_cast at hTe
    have hq : t * (dx * dx + dy * dy) * F / (1 * (dx * dx + dy * dy) * G) * f6 = t * (F * G⁻¹ * f6) := by
      have h1 := hGp.ne'
      have h2 := hL.ne'
      rw [one_mul, mul_assoc t, mul_div_assoc, mul_div_mul_left _ _ h2, div_eq_mul_inv]
      ring
    rw [hq]
    have := mul_err (R := t) hTe
    rw [abs_of_nonneg ht0] at this
    linarith

/-- One coordinate of the projection of a point on the edge. -/
theorem proj_on (hr : RelError rnd u) (h0 : 0 ≤ u) (hu : u ≤ 1 / 128) (fused : Bool) {a b t T q : K} (ht1 : t ≤ 1) (hT0 : 0 ≤ T) (hT1 : T ≤ 1)
    (hT : |T - t| ≤ 10 * u * t) (hq : q = a + t * (b - a)) :
    |q - mulAdd rnd fused a T (rnd (b - a))| ≤ u * |q| + 25 / 2 * u * |b - a| := by
  have p := proj_err hr h0 hu fused (a := a) (b := b) hT0 hT1
  generalize mulAdd rnd fused a T (rnd (b - a)) = p' at *
  have hd : |a + T * (b - a) - q| ≤ 10 * u * |b - a| := by
    rw [hq, show a + T * (b - a) - (a + t * (b - a)) = (T - t) * (b - a) by ring, abs_mul]
    refine mul_le_mul_of_nonneg_right (hT.trans ?_) (abs_nonneg _)
    have := mul_le_mul_of_nonneg_left ht1 h0
    linarith
  have hz : |a + T * (b - a)| ≤ |q| + 10 * u * |b - a| := by
    have := abs_add_le (a + T * (b - a) - q) q
    rw [sub_add_cancel] at this
    linarith
  have h3 : |q - p'| ≤ |p' - (a + T * (b - a))| + |a + T * (b - a) - q| := by
    rw [abs_sub_comm q]
    exact abs_sub_le _ _ _
  have hz' := mul_le_mul_of_nonneg_left hz h0
  have hB : 0 ≤ u * |b - a| := by positivity
  have hBB : u * (u * |b - a|) ≤ 1 / 128 * (u * |b - a|) := mul_le_mul_of_nonneg_right hu hB
  nlinarith

/-- A point on the edge is recognised if the tolerance is large enough. -/
theorem cOnSegmentFl_on (hR : Rounding rnd) (hone : rnd 1 = 1) (hr : RelError rnd u) (h0 : 0 ≤ u) (hu : u ≤ 1 / 128) (fused : Bool) {ftol : K}
    {q : K × K} {s : Seg K} (hne : s.1 ≠ s.2) (hon : OnClosedSegment q s.1 s.2)
    (htol : u * (3 / 2 * (|q.1| + |q.2|) + 16 * (|s.2.1 - s.1.1| + |s.2.2 - s.1.2|)) ≤ ftol) : cOnSegmentFl rnd fused ftol q s = true := by
  have hu1 : u < 1 := by linarith
  obtain ⟨t, ht0, ht1, hx, hy⟩ := hon
  obtain ⟨hT0, hT1, hT⟩ := cParamFl_on hR hone hr h0 hu fused hne ht0 ht1 hx hy
  have hd : rnd (s.2.1 - s.1.1) ≠ 0 ∨ rnd (s.2.2 - s.1.2) ≠ 0 := by
    obtain ⟨f2, g2, e2⟩ := rnd_fac hr h0 hu1 (s.2.1 - s.1.1)
    obtain ⟨f3, g3, e3⟩ := rnd_fac hr h0 hu1 (s.2.2 - s.1.2)
    rw [e2, e3]
    by_contra hc
    simp only [not_or, not_not, mul_eq_zero, (g2.pos hu1).ne', (g3.pos hu1).ne', or_false] at hc
    exact hne (Prod.ext (by linarith [hc.1]) (by linarith [hc.2]))
  unfold cOnSegmentFl
  rw [if_pos hd]
  simp only [Bool.and_eq_true, decide_eq_true_eq]
  refine ⟨⟨hT0, hT1⟩, ?_⟩
  unfold cDistFl
  simp only
  have p1 := proj_on hr h0 hu fused ht1 hT0 hT1 hT hx
  have p2 := proj_on hr h0 hu fused ht1 hT0 hT1 hT hy
  obtain ⟨f, hf, e⟩ := dist_fac hr h0 hu1 (q.1 - mulAdd rnd fused s.1.1 (cParamFl rnd fused q s) (rnd (s.2.1 - s.1.1)))
    (q.2 - mulAdd rnd fused s.1.2 (cParamFl rnd fused q s) (rnd (s.2.2 - s.1.2)))
  rw [e]
  have hfe := hf.err h0 (by push_cast; linarith) hu1
  push_cast at hfe
  have hf2 : f ≤ 1 + 1 / 50 := by have := (abs_le.1 hfe).2; linarith
  have hS := mul_le_mul (add_le_add p1 p2) hf2 (hf.pos hu1).le (by positivity)
  refine hS.trans (le_trans ?_ htol)
  have a1 : 0 ≤ u * |q.1| := by positivity
  have a2 : 0 ≤ u * |q.2| := by positivity
  have a3 : 0 ≤ u * |s.2.1 - s.1.1| := by positivity
  have a4 : 0 ≤ u * |s.2.2 - s.1.2| := by positivity
  nlinarith

end
end OM
