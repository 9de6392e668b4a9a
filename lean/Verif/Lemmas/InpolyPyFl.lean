import Verif.Model.InpolyPyFl
import Verif.Lemmas.InpolyFl
/-! The Python point-in-polygon kernel in rounded arithmetic. -/
set_option linter.unusedSectionVars false
namespace OM
open Spec
section
variable {K : Type} [Field K] [LinearOrder K]

/-- The edge makes the Python kernel report the boundary. -/
def pyHitFl (rnd : K → K) (ftol : K) (q : K × K) (s : Seg K) : Bool := !pySkipFl rnd ftol q s && pyOnSegmentFl rnd ftol q s
/-- The edge is counted by the Python kernel. -/
def pyCountFl (rnd : K → K) (ftol : K) (q : K × K) (s : Seg K) : Bool := !pySkipFl rnd ftol q s && pyCrossFl rnd ftol q s

theorem pyLoopFl_eq (rnd : K → K) (ftol : K) (q : K × K) (l : List (Seg K)) (c : Nat) :
    (pyLoopFl rnd ftol q l c).1 = l.any (pyHitFl rnd ftol q) ∧
      (l.any (pyHitFl rnd ftol q) = false → (pyLoopFl rnd ftol q l c).2 = c + l.countP (pyCountFl rnd ftol q)) := by
  induction l generalizing c with
  | nil => simp [pyLoopFl]
  | cons s l ih =>
    rw [List.any_cons, List.countP_cons, pyLoopFl]
    by_cases h1 : pySkipFl rnd ftol q s = true
    · have e1 : pyHitFl rnd ftol q s = false := by simp [pyHitFl, h1]
      have e2 : pyCountFl rnd ftol q s = false := by simp [pyCountFl, h1]
      rw [if_pos h1, e1, e2]
      simpa using ih c
    · rw [if_neg h1]
      rw [Bool.not_eq_true] at h1
      by_cases h2 : pyOnSegmentFl rnd ftol q s = true
      · have e1 : pyHitFl rnd ftol q s = true := by simp [pyHitFl, h1, h2]
        rw [if_pos h2, e1]
        simp
      · rw [if_neg h2]
        rw [Bool.not_eq_true] at h2
        have e1 : pyHitFl rnd ftol q s = false := by simp [pyHitFl, h2]
        have e2 : pyCountFl rnd ftol q s = pyCrossFl rnd ftol q s := by simp [pyCountFl, h1]
        rw [e1, e2, Bool.false_or]
        by_cases h3 : pyCrossFl rnd ftol q s = true
        · obtain ⟨i1, i2⟩ := ih (c + 1)
          rw [if_pos h3, if_pos h3]
          refine ⟨i1, fun h => ?_⟩
          rw [i2 h]
          omega
        · rw [if_neg h3, if_neg h3]
          simpa using ih c

/-- The kernel, for at least three vertices and one edge. -/
theorem pyPointFl_cons (rnd : K → K) (ftol : K) {n : Nat} (hn : 3 ≤ n) (s : Seg K) (l : List (Seg K)) (q : K × K) :
    pyPointFl rnd ftol n (s :: l) q =
      if rnd ((segBox s l).xmin - ftol) ≤ q.1 ∧ q.1 ≤ rnd ((segBox s l).xmax + ftol) ∧ rnd ((segBox s l).ymin - ftol) ≤ q.2 ∧
          q.2 ≤ rnd ((segBox s l).ymax + ftol) then
        ((s :: l).any (pyHitFl rnd ftol q) || (s :: l).countP (pyCountFl rnd ftol q) % 2 == 1, (s :: l).any (pyHitFl rnd ftol q))
      else (false, false) := by
  obtain ⟨h1, h2⟩ := pyLoopFl_eq rnd ftol q (s :: l) 0
  unfold pyPointFl
  simp only [if_neg (Nat.not_lt.2 hn), h1]
  split_ifs with hb hh
  · rw [hh]; rfl
  · rw [Bool.not_eq_true] at hh
    rw [h2 hh, hh]
    simp
  · rfl

end
section
variable {K : Type} [Field K] [LinearOrder K] [IsStrictOrderedRing K]
variable {rnd : K → K} {u : K}

/-- The computed abscissa. -/
theorem pyXintFl_err (hr : RelError rnd u) (h0 : 0 ≤ u) (hu : u ≤ 1 / 128) {q : K × K} {s : Seg K}
    (hs : (s.1.2 ≤ q.2 ∧ q.2 < s.2.2) ∨ (s.2.2 ≤ q.2 ∧ q.2 < s.1.2)) {M : K} (m1 : |s.1.1| ≤ M) (m2 : |s.2.1| ≤ M) :
    |pyXintFl rnd q s - (s.1.1 + (q.2 - s.1.2) * (s.2.1 - s.1.1) / (s.2.2 - s.1.2))| ≤ 16 * u * M := by
  have hu1 : u < 1 := by linarith
  have hne : s.2.2 - s.1.2 ≠ 0 := by
    intro h0
    have : s.2.2 = s.1.2 := by linarith
    rcases hs with ⟨h1, h2⟩ | ⟨h1, h2⟩ <;> (rw [this] at *; exact absurd h1 (not_le.2 h2))
  have hb := xint_between hs
  set R := (q.2 - s.1.2) * (s.2.1 - s.1.1) / (s.2.2 - s.1.2) with hR
  have m1' := abs_le.1 m1
  have m2' := abs_le.1 m2
  have hX : |s.1.1 + R| ≤ M := by
    rw [abs_le]
    constructor
    · exact le_trans (le_min m1'.1 m2'.1) hb.1
    · exact le_trans hb.2 (max_le m1'.2 m2'.2)
  have hRM : |R| ≤ 2 * M := by
    have := abs_sub (s.1.1 + R) s.1.1
    rw [show s.1.1 + R - s.1.1 = R by ring] at this
    linarith
  obtain ⟨f1, g1, e1⟩ := rnd_fac hr h0 hu1 (q.2 - s.1.2)
  obtain ⟨f2, g2, e2⟩ := rnd_fac hr h0 hu1 (s.2.1 - s.1.1)
  obtain ⟨f3, g3, e3⟩ := rnd_fac hr h0 hu1 (s.2.2 - s.1.2)
  unfold pyXintFl
  obtain ⟨f4, g4, e4⟩ := rnd_fac hr h0 hu1 (rnd (q.2 - s.1.2) * rnd (s.2.1 - s.1.1))
  obtain ⟨f5, g5, e5⟩ := rnd_fac hr h0 hu1 (rnd (rnd (q.2 - s.1.2) * rnd (s.2.1 - s.1.1)) / rnd (s.2.2 - s.1.2))
  rw [e5, e4, e1, e2, e3]
  have hF : Fac u 5 (f1 * f2 * f3⁻¹ * f4 * f5) := ((((g1.mul hu1 g2).mul hu1 (g3.inv hu1)).mul hu1 g4).mul hu1 g5)
  have hp : (q.2 - s.1.2) * f1 * ((s.2.1 - s.1.1) * f2) * f4 / ((s.2.2 - s.1.2) * f3) * f5 = R * (f1 * f2 * f3⁻¹ * f4 * f5) := by
    rw [hR]
    have := (g3.pos hu1).ne'
    field_simp
  rw [hp]
  have he : |f1 * f2 * f3⁻¹ * f4 * f5 - 1| ≤ 10 / 9 * (5 : Nat) * u := hF.err h0 (by push_cast; linarith) hu1
  have hM : 0 ≤ M := (abs_nonneg _).trans m1
  have h1 := mul_err (R := R) he
  have h2 := rnd_sum_err (c := s.1.1) hr h0 h1
  refine h2.trans ?_
  push_cast
  have hRu : |R| * (10 / 9 * 5 * u) ≤ 2 * M * (10 / 9 * 5 * u) := mul_le_mul_of_nonneg_right hRM (by positivity)
  have hXu := mul_le_mul_of_nonneg_left hX h0
  have h3 : (1 + u) * (|R| * (10 / 9 * 5 * u)) ≤ (1 + 1 / 128) * (2 * M * (10 / 9 * 5 * u)) :=
    mul_le_mul (by linarith) hRu (by positivity) (by norm_num)
  have huM : 0 ≤ u * M := mul_nonneg h0 hM
  nlinarith

/-- The square of the sum of the sides of an edge. -/
theorem sides_sq (a b : K) : (|a| + |b|) * (|a| + |b|) ≤ 2 * (a * a + b * b) := by
  have h1 := abs_mul_abs_self a
  have h2 := abs_mul_abs_self b
  nlinarith [mul_self_nonneg (|a| - |b|)]

/-- Distance from a segment by way of the cross product and the scalar product. -/
theorem near_of_products {vx vy wx wy P Q : K} {q : K × K} {s : Seg K} (ex : s.2.1 - s.1.1 = vx) (ey : s.2.2 - s.1.2 = vy)
    (fx : q.1 - s.1.1 = wx) (fy : q.2 - s.1.2 = wy) (hL : 0 < vx * vx + vy * vy)
    (hc : |vx * wy - vy * wx| * (|vx| + |vy|) ≤ P * (vx * vx + vy * vy))
    (hd1 : -(vx * wx + vy * wy) * (|vx| + |vy|) ≤ Q * (vx * vx + vy * vy))
    (hd2 : (vx * wx + vy * wy - (vx * vx + vy * vy)) * (|vx| + |vy|) ≤ Q * (vx * vx + vy * vy)) (hQ : 0 ≤ Q) : NearSegment (P + Q) q s.1 s.2 := by
  set L := vx * vx + vy * vy with hLd
  set c := (vx * wy - vy * wx) / L with hcd
  set d := (vx * wx + vy * wy) / L with hdd
  have hcL : c * L = vx * wy - vy * wx := div_mul_cancel₀ _ hL.ne'
  have hdL : d * L = vx * wx + vy * wy := div_mul_cancel₀ _ hL.ne'
  have hwx : wx = d * vx - c * vy := by
    have : wx * L = (d * vx - c * vy) * L := by
      rw [show (d * vx - c * vy) * L = d * L * vx - c * L * vy by ring, hcL, hdL, hLd]; ring
    exact mul_right_cancel₀ hL.ne' this
  have hwy : wy = d * vy + c * vx := by
    have : wy * L = (d * vy + c * vx) * L := by
      rw [show (d * vy + c * vx) * L = d * L * vy + c * L * vx by ring, hcL, hdL, hLd]; ring
    exact mul_right_cancel₀ hL.ne' this
  have hS : 0 ≤ |vx| + |vy| := by positivity
  have hP : |c| * (|vx| + |vy|) ≤ P := by
    rw [← hcL, abs_mul, abs_of_pos hL] at hc
    nlinarith [mul_le_mul_iff_left₀ hL (b := |c| * (|vx| + |vy|)) (c := P)]
  have key : ∀ t : K, 0 ≤ t → t ≤ 1 → |d - t| * (|vx| + |vy|) ≤ Q → NearSegment (P + Q) q s.1 s.2 := by
    intro t t0 t1 ht
    refine ⟨(s.1.1 + t * (s.2.1 - s.1.1), s.1.2 + t * (s.2.2 - s.1.2)), ⟨t, t0, t1, rfl, rfl⟩, ?_⟩
    simp only
    rw [ex, ey, show q.1 - (s.1.1 + t * vx) = wx - t * vx by rw [← fx]; ring, show q.2 - (s.1.2 + t * vy) = wy - t * vy by rw [← fy]; ring, hwx, hwy,
      show d * vx - c * vy - t * vx = (d - t) * vx + -(c * vy) by ring, show d * vy + c * vx - t * vy = (d - t) * vy + c * vx by ring]
    have a1 := abs_add_le ((d - t) * vx) (-(c * vy))
    have a2 := abs_add_le ((d - t) * vy) (c * vx)
    rw [abs_neg, abs_mul, abs_mul] at a1
    rw [abs_mul, abs_mul] at a2
    nlinarith
  rcases lt_or_ge d 0 with h | h
  · refine key 0 le_rfl zero_le_one ?_
    rw [sub_zero, abs_of_neg h]
    rw [← hdL, show -(d * L) * (|vx| + |vy|) = -d * (|vx| + |vy|) * L by ring] at hd1
    exact le_of_mul_le_mul_right hd1 hL
  · rcases le_or_gt d 1 with h' | h'
    · exact key d h h' (by simpa using hQ)
    · refine key 1 zero_le_one le_rfl ?_
      rw [abs_of_pos (by linarith)]
      rw [← hdL, show (d * L - L) * (|vx| + |vy|) = (d - 1) * (|vx| + |vy|) * L by ring] at hd2
      exact le_of_mul_le_mul_right hd2 hL

/-- A sum of two products, each with relative errors. -/
theorem prod_sum_err {a b f g e : K} (hf : |f - 1| ≤ e) (hg : |g - 1| ≤ e) : |a * f + b * g - (a + b)| ≤ e * (|a| + |b|) := by
  rw [show a * f + b * g - (a + b) = a * (f - 1) + b * (g - 1) by ring]
  refine (abs_add_le _ _).trans ?_
  rw [abs_mul, abs_mul]
  have := mul_le_mul_of_nonneg_left hf (abs_nonneg a)
  have := mul_le_mul_of_nonneg_left hg (abs_nonneg b)
  linarith

/-- The computed squared length. -/
theorem pyLen2Fl_fac (hr : RelError rnd u) (h0 : 0 ≤ u) (hu : u < 1) (s : Seg K) : ∃ F, Fac u 4 F ∧
    pyLen2Fl rnd s = ((s.2.1 - s.1.1) * (s.2.1 - s.1.1) + (s.2.2 - s.1.2) * (s.2.2 - s.1.2)) * F := by
  unfold pyLen2Fl
  simp only
  generalize s.2.1 - s.1.1 = vx
  generalize s.2.2 - s.1.2 = vy
  obtain ⟨f1, g1, e1⟩ := rnd_fac hr h0 hu vx
  obtain ⟨f2, g2, e2⟩ := rnd_fac hr h0 hu vy
  obtain ⟨f3, g3, e3⟩ := rnd_fac hr h0 hu (rnd vx * rnd vx)
  obtain ⟨f4, g4, e4⟩ := rnd_fac hr h0 hu (rnd vy * rnd vy)
  obtain ⟨f5, g5, e5⟩ := rnd_fac hr h0 hu (rnd (rnd vx * rnd vx) + rnd (rnd vy * rnd vy))
  obtain ⟨r, hr', er⟩ := ((g1.mul hu g1).mul hu g3).sum h0 hu ((g2.mul hu g2).mul hu g4) (mul_self_nonneg vx) (mul_self_nonneg vy)
  refine ⟨r * f5, hr'.mul hu g5, ?_⟩
  rw [e5, e3, e4, e1, e2, show vx * f1 * (vx * f1) * f3 + vy * f2 * (vy * f2) * f4 = vx * vx * (f1 * f1 * f3) + vy * vy * (f2 * f2 * f4) by ring, er]
  ring

/-- The computed cross product and scalar product. -/
theorem pyProducts_fac (hr : RelError rnd u) (h0 : 0 ≤ u) (hu : u < 1) (q : K × K) (s : Seg K) :
    (∃ f g, Fac u 4 f ∧ Fac u 4 g ∧ pyCrossProdFl rnd q s =
      (s.2.1 - s.1.1) * (q.2 - s.1.2) * f - (s.2.2 - s.1.2) * (q.1 - s.1.1) * g) ∧
    (∃ f g, Fac u 4 f ∧ Fac u 4 g ∧ pyDotFl rnd q s =
      (s.2.1 - s.1.1) * (q.1 - s.1.1) * f + (s.2.2 - s.1.2) * (q.2 - s.1.2) * g) := by
  unfold pyCrossProdFl pyDotFl
  generalize s.2.1 - s.1.1 = vx
  generalize s.2.2 - s.1.2 = vy
  generalize q.1 - s.1.1 = wx
  generalize q.2 - s.1.2 = wy
  obtain ⟨f1, g1, e1⟩ := rnd_fac hr h0 hu vx
  obtain ⟨f2, g2, e2⟩ := rnd_fac hr h0 hu vy
  obtain ⟨f3, g3, e3⟩ := rnd_fac hr h0 hu wx
  obtain ⟨f4, g4, e4⟩ := rnd_fac hr h0 hu wy
  constructor
  · obtain ⟨f5, g5, e5⟩ := rnd_fac hr h0 hu (rnd vx * rnd wy)
    obtain ⟨f6, g6, e6⟩ := rnd_fac hr h0 hu (rnd vy * rnd wx)
    obtain ⟨f7, g7, e7⟩ := rnd_fac hr h0 hu (rnd (rnd vx * rnd wy) - rnd (rnd vy * rnd wx))
    refine ⟨f1 * f4 * f5 * f7, f2 * f3 * f6 * f7, ((g1.mul hu g4).mul hu g5).mul hu g7, ((g2.mul hu g3).mul hu g6).mul hu g7, ?_⟩
    rw [e7, e5, e6, e1, e2, e3, e4]; ring
  · obtain ⟨f5, g5, e5⟩ := rnd_fac hr h0 hu (rnd vx * rnd wx)
    obtain ⟨f6, g6, e6⟩ := rnd_fac hr h0 hu (rnd vy * rnd wy)
    obtain ⟨f7, g7, e7⟩ := rnd_fac hr h0 hu (rnd (rnd vx * rnd wx) + rnd (rnd vy * rnd wy))
    refine ⟨f1 * f3 * f5 * f7, f2 * f4 * f6 * f7, ((g1.mul hu g3).mul hu g5).mul hu g7, ((g2.mul hu g4).mul hu g6).mul hu g7, ?_⟩
    rw [e7, e5, e6, e1, e2, e3, e4]; ring

/-- The bound of the cross product of a point that passes the test of the distance from the line. -/
theorem cross_bound (hr : RelError rnd u) (h0 : 0 ≤ u) (hu : u ≤ 1 / 128) {ftol crossF len2F F L S : K} (hf : 0 ≤ ftol) (hF : Fac u 4 F) (hLp : 0 < L)
    (hS0 : 0 ≤ S) (hS2 : S * S ≤ 2 * L) (eF : len2F = L * F) (hc : rnd (rnd (crossF * crossF) / len2F) ≤ rnd (ftol * ftol)) :
    |crossF| * S ≤ 3 / 2 * ftol * L := by
  have hu1 : u < 1 := by linarith
  have hFp := hF.pos hu1
  obtain ⟨k1, p1, q1⟩ := rnd_fac hr h0 hu1 (crossF * crossF)
  obtain ⟨k2, p2, q2⟩ := rnd_fac hr h0 hu1 (rnd (crossF * crossF) / len2F)
  obtain ⟨k3, p3, q3⟩ := rnd_fac hr h0 hu1 (ftol * ftol)
  rw [q2, q1, q3, eF] at hc
  have hk1 := p1.pos hu1
  have hk2 := p2.pos hu1
  have hG := (((p3.mul hu1 hF).mul hu1 (p1.inv hu1)).mul hu1 (p2.inv hu1)).err h0 (by push_cast; linarith) hu1
  push_cast at hG
  have hsq : crossF * crossF ≤ ftol * ftol * L * (k3 * F * k1⁻¹ * k2⁻¹) := by
    rw [div_mul_eq_mul_div, div_le_iff₀ (by positivity)] at hc
    rw [show ftol * ftol * L * (k3 * F * k1⁻¹ * k2⁻¹) = ftol * ftol * k3 * (L * F) / (k1 * k2) by field_simp]
    rw [le_div_iff₀ (by positivity)]
    linarith
  have hsq2 : crossF * crossF ≤ ftol * ftol * L * (17 / 16) := by
    refine hsq.trans (mul_le_mul_of_nonneg_left ?_ (by positivity))
    have := (abs_le.1 hG).2
    linarith
  have hsq3 : (|crossF| * S) * (|crossF| * S) ≤ (3 / 2 * ftol * L) * (3 / 2 * ftol * L) := by
    have e1 : (|crossF| * S) * (|crossF| * S) = crossF * crossF * (S * S) := by
      rw [← abs_mul_abs_self crossF]; ring
    rw [e1]
    have e2 := mul_le_mul hsq2 hS2 (by positivity) (by positivity)
    have e3 : 0 ≤ ftol * ftol * L * L := by positivity
    linarith
  exact nonneg_le_nonneg_of_sq_le_sq (by positivity) hsq3

/-- A reported boundary point is near the edge; the part of the tolerance along the edge is divided by the length of the edge. -/
theorem near_of_pyOnSegmentFl (hr : RelError rnd u) (h0 : 0 ≤ u) (hu : u ≤ 1 / 128) {ftol M : K} (hf : 0 ≤ ftol)
    {q : K × K} {s : Seg K} (m1 : |s.1.1| ≤ M) (m2 : |s.2.1| ≤ M) (m3 : |s.1.2| ≤ M) (m4 : |s.2.2| ≤ M) (m5 : |q.1| ≤ M) (m6 : |q.2| ≤ M)
    (h : pyOnSegmentFl rnd ftol q s = true) :
    NearSegment (3 / 2 * ftol + 9 / 4 * ftol / (|s.2.1 - s.1.1| + |s.2.2 - s.1.2|) + 64 * u * M) q s.1 s.2 := by
  have hu1 : u < 1 := by linarith
  have hM : 0 ≤ M := (abs_nonneg _).trans m1
  have huM : 0 ≤ u * M := mul_nonneg h0 hM
  unfold pyOnSegmentFl at h
  simp only [Bool.and_eq_true, decide_eq_true_eq] at h
  obtain ⟨⟨⟨hL, hc⟩, hd1⟩, hd2⟩ := h
  obtain ⟨F, hF, eF⟩ := pyLen2Fl_fac hr h0 hu1 s
  obtain ⟨⟨f, g, gf, gg, eC⟩, f', g', gf', gg', eD⟩ := pyProducts_fac hr h0 hu1 q s
  have v1 : |s.2.1 - s.1.1| ≤ 2 * M := by have := abs_sub s.2.1 s.1.1; linarith
  have v2 : |s.2.2 - s.1.2| ≤ 2 * M := by have := abs_sub s.2.2 s.1.2; linarith
  have w1 : |q.1 - s.1.1| ≤ 2 * M := by have := abs_sub q.1 s.1.1; linarith
  have w2 : |q.2 - s.1.2| ≤ 2 * M := by have := abs_sub q.2 s.1.2; linarith
  generalize pyLen2Fl rnd s = len2F at *
  generalize pyCrossProdFl rnd q s = crossF at *
  generalize pyDotFl rnd q s = dotF at *
  obtain ⟨vx, ex⟩ : ∃ x, x = s.2.1 - s.1.1 := ⟨_, rfl⟩
  obtain ⟨vy, ey⟩ : ∃ x, x = s.2.2 - s.1.2 := ⟨_, rfl⟩
  obtain ⟨wx, fx⟩ : ∃ x, x = q.1 - s.1.1 := ⟨_, rfl⟩
  obtain ⟨wy, fy⟩ : ∃ x, x = q.2 - s.1.2 := ⟨_, rfl⟩
  rw [← ex, ← ey]
  rw [← ex, ← ey] at eF
  rw [← ex, ← ey, ← fx, ← fy] at eC eD
  rw [← ex] at v1
  rw [← ey] at v2
  rw [← fx] at w1
  rw [← fy] at w2
  have hFp := hF.pos hu1
  have hLp : 0 < vx * vx + vy * vy := by
    rw [eF] at hL
    exact (pos_iff_pos_of_mul_pos hL).2 hFp
  have hS2 := sides_sq vx vy
  have hS0 : 0 ≤ |vx| + |vy| := by positivity
  have hS : 0 < |vx| + |vy| := by
    rcases hS0.eq_or_lt with hz | hz
    · exfalso
      have a := abs_nonneg vx
      have b := abs_nonneg vy
      have h1 : vx = 0 := abs_eq_zero.1 (by linarith)
      have h2 : vy = 0 := abs_eq_zero.1 (by linarith)
      rw [h1, h2] at hLp
      simp at hLp
    · exact hz
  have hS4 : |vx| + |vy| ≤ 4 * M := by linarith
  -- products
  have a1 : |vx * wy| + |-(vy * wx)| ≤ (|vx| + |vy|) * (2 * M) := by
    rw [abs_neg, abs_mul, abs_mul]
    have := mul_le_mul_of_nonneg_left w2 (abs_nonneg vx)
    have := mul_le_mul_of_nonneg_left w1 (abs_nonneg vy)
    linarith
  have a2 : |vx * wx| + |vy * wy| ≤ (|vx| + |vy|) * (2 * M) := by
    rw [abs_mul, abs_mul]
    have := mul_le_mul_of_nonneg_left w1 (abs_nonneg vx)
    have := mul_le_mul_of_nonneg_left w2 (abs_nonneg vy)
    linarith
  have ee : ∀ {x : K}, Fac u 4 x → |x - 1| ≤ 40 / 9 * u := fun hx => by
    have := hx.err h0 (by push_cast; linarith) hu1
    push_cast at this
    linarith
  have c1 : |crossF - (vx * wy - vy * wx)| ≤ 40 / 9 * u * ((|vx| + |vy|) * (2 * M)) := by
    have := prod_sum_err (a := vx * wy) (b := -(vy * wx)) (ee gf) (ee gg)
    rw [eC, show vx * wy * f - vy * wx * g - (vx * wy - vy * wx) = vx * wy * f + -(vy * wx) * g - (vx * wy + -(vy * wx)) by ring]
    exact this.trans (mul_le_mul_of_nonneg_left a1 (by positivity))
  have c2 : |dotF - (vx * wx + vy * wy)| ≤ 40 / 9 * u * ((|vx| + |vy|) * (2 * M)) := by
    have := prod_sum_err (a := vx * wx) (b := vy * wy) (ee gf') (ee gg')
    rw [eD]
    exact this.trans (mul_le_mul_of_nonneg_left a2 (by positivity))
  set L := vx * vx + vy * vy with hLd
  set S := |vx| + |vy| with hSd
  -- across
  have hcr : |crossF| * S ≤ 3 / 2 * ftol * L := cross_bound hr h0 hu hf hF hLp hS0 hS2 eF hc
  have hP : |vx * wy - vy * wx| * S ≤ (3 / 2 * ftol + 18 * u * M) * L := by
    have t1 : |vx * wy - vy * wx| ≤ |crossF| + 40 / 9 * u * (S * (2 * M)) := by
      have := abs_sub_abs_le_abs_sub (vx * wy - vy * wx) crossF
      rw [abs_sub_comm (vx * wy - vy * wx) crossF] at this
      linarith
    have t2 := mul_le_mul_of_nonneg_right t1 hS0
    have t3 : u * M * (S * S) ≤ u * M * (2 * L) := mul_le_mul_of_nonneg_left hS2 huM
    have t4 : 0 ≤ u * M * L := by positivity
    linarith
  -- along
  have hfS : ftol * S ≤ 2 * ftol / S * L := by
    rw [div_mul_eq_mul_div, le_div_iff₀ hS]
    have := mul_le_mul_of_nonneg_left hS2 hf
    linarith
  have t3 : u * M * (S * S) ≤ u * M * (2 * L) := mul_le_mul_of_nonneg_left hS2 huM
  have t4 : 0 ≤ u * M * L := by positivity
  have t5 : 0 ≤ ftol / S * L := by positivity
  rw [show 2 * ftol / S * L = 2 * (ftol / S * L) by ring] at hfS
  have hQ1 : -(vx * wx + vy * wy) * S ≤ (9 / 4 * ftol / S + 46 * u * M) * L := by
    have t1 : -(vx * wx + vy * wy) ≤ ftol + 40 / 9 * u * (S * (2 * M)) := by
      have := (abs_le.1 c2).2
      linarith
    have t2 := mul_le_mul_of_nonneg_right t1 hS0
    rw [show (9 / 4 * ftol / S + 46 * u * M) * L = 9 / 4 * (ftol / S * L) + 46 * (u * M * L) by ring]
    linarith
  have hQ2 : (vx * wx + vy * wy - L) * S ≤ (9 / 4 * ftol / S + 46 * u * M) * L := by
    obtain ⟨k, p, e⟩ := rnd_fac hr h0 hu1 (len2F + ftol)
    rw [e, eF] at hd2
    have hk := p.err h0 (by push_cast; linarith) hu1
    have hFk := (hF.mul hu1 p).err h0 (by push_cast; linarith) hu1
    push_cast at hk hFk
    have k1 : ftol * k ≤ ftol * (9 / 8) := mul_le_mul_of_nonneg_left (by have := (abs_le.1 hk).2; linarith) hf
    have k2 : L * (F * k) ≤ L * (1 + 50 / 9 * u) := mul_le_mul_of_nonneg_left (by have := (abs_le.1 hFk).2; linarith) hLp.le
    have t1 : vx * wx + vy * wy - L ≤ L * (50 / 9 * u) + ftol * (9 / 8) + 40 / 9 * u * (S * (2 * M)) := by
      have := (abs_le.1 c2).1
      linarith
    have t2 := mul_le_mul_of_nonneg_right t1 hS0
    have t6 : L * u * S ≤ L * u * (4 * M) := mul_le_mul_of_nonneg_left hS4 (by positivity)
    rw [show (9 / 4 * ftol / S + 46 * u * M) * L = 9 / 4 * (ftol / S * L) + 46 * (u * M * L) by ring]
    linarith
  have := near_of_products (q := q) (s := s) ex.symm ey.symm fx.symm fy.symm hLp hP hQ1 hQ2 (by positivity)
  rwa [show 3 / 2 * ftol + 18 * u * M + (9 / 4 * ftol / S + 46 * u * M) = 3 / 2 * ftol + 9 / 4 * ftol / S + 64 * u * M by ring] at this

/-- A small cross product passes the test of the distance from the line. -/
theorem dist_small (hr : RelError rnd u) (h0 : 0 ≤ u) (hu : u ≤ 1 / 128) {ftol crossF len2F F L : K} (hF : Fac u 4 F) (hLp : 0 < L) (eF : len2F = L * F)
    (hcross : |crossF| ≤ 40 / 9 * u * L) (htol : (5 * u) ^ 2 * L ≤ ftol ^ 2) : rnd (rnd (crossF * crossF) / len2F) ≤ rnd (ftol * ftol) := by
  have hu1 : u < 1 := by linarith
  have hFp := hF.pos hu1
  obtain ⟨k1, p1, q1⟩ := rnd_fac hr h0 hu1 (crossF * crossF)
  obtain ⟨k2, p2, q2⟩ := rnd_fac hr h0 hu1 (rnd (crossF * crossF) / len2F)
  obtain ⟨k3, p3, q3⟩ := rnd_fac hr h0 hu1 (ftol * ftol)
  have hk1 := p1.pos hu1
  have hk2 := p2.pos hu1
  have hk3 := p3.pos hu1
  have hG := (((p1.mul hu1 p2).mul hu1 (hF.inv hu1)).mul hu1 (p3.inv hu1)).err h0 (by push_cast; linarith) hu1
  push_cast at hG
  have hsq : crossF * crossF ≤ (40 / 9 * u * L) * (40 / 9 * u * L) := by
    rw [← abs_mul_abs_self crossF]
    exact mul_self_le_mul_self (abs_nonneg _) hcross
  rw [q2, q1, q3, eF]
  have hfin : crossF * crossF * (k1 * k2 * F⁻¹ * k3⁻¹) ≤ ftol * ftol * L := by
    have hG2 : k1 * k2 * F⁻¹ * k3⁻¹ ≤ 17 / 16 := by have := (abs_le.1 hG).2; linarith
    have hGp : 0 ≤ k1 * k2 * F⁻¹ * k3⁻¹ := by positivity
    have h1 := mul_le_mul hsq hG2 hGp (by positivity)
    have h2 := mul_le_mul_of_nonneg_right htol hLp.le
    have h3 : 0 ≤ u * u * (L * L) := by positivity
    linarith
  rw [div_mul_eq_mul_div, div_le_iff₀ (by positivity)]
  have e : crossF * crossF * (k1 * k2 * F⁻¹ * k3⁻¹) * (F * k3) = crossF * crossF * k1 * k2 := by field_simp
  rw [← e, show ftol * ftol * k3 * (L * F) = ftol * ftol * L * (F * k3) by ring]
  exact mul_le_mul_of_nonneg_right hfin (by positivity)

/-- The computed cross product of a point of the edge. -/
theorem cross_small (h0 : 0 ≤ u) (hu : u ≤ 1 / 128) {f g t vx vy : K} (gf : Fac u 4 f) (gg : Fac u 4 g) (ht0 : 0 ≤ t) (ht1 : t ≤ 1) :
    |vx * (t * vy) * f - vy * (t * vx) * g| ≤ 40 / 9 * u * (vx * vx + vy * vy) := by
  have hu1 : u < 1 := by linarith
  have e1 := gf.err h0 (by push_cast; linarith) hu1
  have e2 := gg.err h0 (by push_cast; linarith) hu1
  push_cast at e1 e2
  have e3 : |f - g| ≤ 80 / 9 * u := by
    rw [abs_le] at *
    constructor <;> linarith
  rw [show vx * (t * vy) * f - vy * (t * vx) * g = t * (vx * vy) * (f - g) by ring, abs_mul, abs_mul, abs_of_nonneg ht0]
  have e4 : |vx * vy| ≤ (vx * vx + vy * vy) / 2 := by
    rw [abs_le]
    constructor <;> nlinarith [mul_self_nonneg (vx - vy), mul_self_nonneg (vx + vy)]
  have e5 : t * |vx * vy| ≤ (vx * vx + vy * vy) / 2 := by
    have := mul_le_mul ht1 e4 (abs_nonneg _) zero_le_one
    linarith
  have e6 : 0 ≤ (vx * vx + vy * vy) / 2 := (mul_nonneg ht0 (abs_nonneg _)).trans e5
  have := mul_le_mul e5 e3 (abs_nonneg _) e6
  linarith

/-- A point exactly on the edge is recognised if the tolerance is at least `5 u` times the length of the edge. -/
theorem pyOnSegmentFl_on (hR : Rounding rnd) (hr : RelError rnd u) (h0 : 0 ≤ u) (hu : u ≤ 1 / 128) {ftol : K} (hf : 0 ≤ ftol)
    {q : K × K} {s : Seg K} (hne : s.1 ≠ s.2) (hon : OnClosedSegment q s.1 s.2)
    (htol : (5 * u) ^ 2 * ((s.2.1 - s.1.1) ^ 2 + (s.2.2 - s.1.2) ^ 2) ≤ ftol ^ 2) : pyOnSegmentFl rnd ftol q s = true := by
  have hu1 : u < 1 := by linarith
  obtain ⟨t, ht0, ht1, hx, hy⟩ := hon
  have wx : q.1 - s.1.1 = t * (s.2.1 - s.1.1) := by rw [hx]; ring
  have wy : q.2 - s.1.2 = t * (s.2.2 - s.1.2) := by rw [hy]; ring
  have hLp : 0 < (s.2.1 - s.1.1) * (s.2.1 - s.1.1) + (s.2.2 - s.1.2) * (s.2.2 - s.1.2) := (len2_pos_iff s).2 (by
    by_contra hc
    simp only [not_or, not_not] at hc
    exact hne (Prod.ext (by linarith [hc.1]) (by linarith [hc.2])))
  obtain ⟨F, hF, eF⟩ := pyLen2Fl_fac hr h0 hu1 s
  obtain ⟨⟨f, g, gf, gg, eC⟩, -⟩ := pyProducts_fac hr h0 hu1 q s
  have hFp := hF.pos hu1
  have hdot : 0 ≤ pyDotFl rnd q s ∧ pyDotFl rnd q s ≤ pyLen2Fl rnd s := by
    unfold pyDotFl pyLen2Fl
    rw [wx, wy]
    have sx := rnd_scaled hR (x := s.2.1 - s.1.1) ht0 ht1
    have sy := rnd_scaled hR (x := s.2.2 - s.1.2) ht0 ht1
    rw [mul_comm (rnd (t * (s.2.1 - s.1.1)))] at sx
    rw [mul_comm (rnd (t * (s.2.2 - s.1.2)))] at sy
    have nn : ∀ {z : K}, 0 ≤ z → 0 ≤ rnd z := fun hz => by rw [← hR.zero]; exact hR.mono hz
    exact ⟨nn (add_nonneg (nn sx.1) (nn sy.1)), hR.mono (add_le_add (hR.mono sx.2) (hR.mono sy.2))⟩
  have hidem : rnd (pyLen2Fl rnd s) = pyLen2Fl rnd s := by
    unfold pyLen2Fl
    exact hR.idem _
  rw [wx, wy] at eC
  unfold pyOnSegmentFl
  simp only [Bool.and_eq_true, decide_eq_true_eq]
  refine ⟨⟨⟨by rw [eF]; positivity, ?_⟩, by linarith [hdot.1]⟩, ?_⟩
  · refine dist_small hr h0 hu hF hLp eF (by rw [eC]; exact cross_small h0 hu gf gg ht0 ht1) ?_
    rwa [sq (s.2.1 - s.1.1), sq (s.2.2 - s.1.2)] at htol
  · refine hdot.2.trans ?_
    conv_lhs => rw [← hidem]
    exact hR.mono (by linarith)

theorem pySkipFl_of_range (hR : Rounding rnd) {ftol : K} (hf : 0 ≤ ftol) {q : K × K} {s : Seg K} (hq : rnd q.2 = q.2)
    (hl : min s.1.2 s.2.2 ≤ q.2) (hu : q.2 ≤ max s.1.2 s.2.2) : pySkipFl rnd ftol q s = false := by
  unfold pySkipFl
  simp only [Bool.or_eq_false_iff, decide_eq_false_iff_not, not_lt]
  constructor
  · conv_rhs => rw [← hq]
    exact hR.mono (by linarith)
  · conv_lhs => rw [← hq]
    exact hR.mono (by linarith)

/-- The test of the box does not reject a point in the box. -/
theorem segBoxFl_reject (hR : Rounding rnd) {ftol : K} (hf : 0 ≤ ftol) {q : K × K} (h1 : rnd q.1 = q.1) (h2 : rnd q.2 = q.2) {s : Seg K} {l : List (Seg K)}
    (h : ¬ (rnd ((segBox s l).xmin - ftol) ≤ q.1 ∧ q.1 ≤ rnd ((segBox s l).xmax + ftol) ∧ rnd ((segBox s l).ymin - ftol) ≤ q.2 ∧
          q.2 ≤ rnd ((segBox s l).ymax + ftol))) : pyReject 0 q (s :: l) := by
  rw [← segBox_reject]
  rintro ⟨a, b, c, d⟩
  refine h ⟨?_, ?_, ?_, ?_⟩
  · conv_rhs => rw [← h1]
    exact hR.mono (by linarith)
  · conv_lhs => rw [← h1]
    exact hR.mono (by linarith)
  · conv_rhs => rw [← h2]
    exact hR.mono (by linarith)
  · conv_lhs => rw [← h2]
    exact hR.mono (by linarith)

end
end OM
