import Verif.Spec.Rounding
import Mathlib.Tactic.Linarith
import Mathlib.Tactic.Ring
import Mathlib.Tactic.Positivity
import Mathlib.Tactic.FieldSimp
import Mathlib.Algebra.Order.Ring.Pow
import Mathlib.Algebra.Order.Field.Basic
/-! Products of rounding factors. -/
set_option linter.unusedSectionVars false
namespace OM
open Spec
section
variable {K : Type} [Field K] [LinearOrder K] [IsStrictOrderedRing K]

/-- `f` is at most as far from one as a product of `n` rounding factors or their inverses. -/
def Fac (u : K) (n : Nat) (f : K) : Prop := (1 - u) ^ n ≤ f ∧ f * (1 - u) ^ n ≤ 1

theorem Fac.pos {u : K} (hu : u < 1) {n : Nat} {f : K} (h : Fac u n f) : 0 < f :=
  lt_of_lt_of_le (pow_pos (by linarith) n) h.1

theorem fac_one {u : K} (h0 : 0 ≤ u) (hu : u < 1) (n : Nat) : Fac u n 1 := by
  have : (1 - u) ^ n ≤ 1 := pow_le_one₀ (by linarith) (by linarith)
  exact ⟨this, by linarith⟩

theorem Fac.mul {u : K} (hu : u < 1) {n m : Nat} {f g : K} (h : Fac u n f) (h' : Fac u m g) : Fac u (n + m) (f * g) := by
  have a : 0 < (1 - u) ^ n := pow_pos (by linarith) n
  have b : 0 < (1 - u) ^ m := pow_pos (by linarith) m
  refine ⟨?_, ?_⟩
  · rw [pow_add]
    exact mul_le_mul h.1 h'.1 b.le (h.pos hu).le
  · have := mul_le_mul h.2 h'.2 (mul_nonneg (h'.pos hu).le b.le) zero_le_one
    calc f * g * (1 - u) ^ (n + m) = f * (1 - u) ^ n * (g * (1 - u) ^ m) := by ring
      _ ≤ 1 := by simpa using this

theorem Fac.inv {u : K} (hu : u < 1) {n : Nat} {f : K} (h : Fac u n f) : Fac u n f⁻¹ := by
  have hf := h.pos hu
  refine ⟨?_, ?_⟩
  · rw [le_inv_comm₀ (pow_pos (by linarith) n) hf, ← one_div, le_div_iff₀ (pow_pos (by linarith) n)]
    exact h.2
  · rw [inv_mul_le_iff₀ hf, mul_one]
    exact h.1

theorem Fac.mono {u : K} (h0 : 0 ≤ u) (hu : u < 1) {n m : Nat} (hnm : n ≤ m) {f : K} (h : Fac u n f) : Fac u m f := by
  have := h.mul hu (fac_one h0 hu (m - n))
  rw [mul_one, Nat.add_sub_cancel' hnm] at this
  exact this

theorem Fac.sum {u : K} (h0 : 0 ≤ u) (hu : u < 1) {n : Nat} {f g a b : K} (h : Fac u n f) (h' : Fac u n g) (ha : 0 ≤ a) (hb : 0 ≤ b) :
    ∃ r, Fac u n r ∧ a * f + b * g = (a + b) * r := by
  rcases (add_nonneg ha hb).eq_or_lt with h1 | h1
  · refine ⟨1, fac_one h0 hu n, ?_⟩
    have ha' : a = 0 := by linarith
    have hb' : b = 0 := by linarith
    rw [ha', hb']; ring
  · refine ⟨(a * f + b * g) / (a + b), ⟨?_, ?_⟩, (mul_div_cancel₀ _ h1.ne').symm⟩
    · rw [le_div_iff₀ h1]
      have := mul_le_mul_of_nonneg_left h.1 ha
      have := mul_le_mul_of_nonneg_left h'.1 hb
      linarith
    · rw [div_mul_eq_mul_div, div_le_one h1]
      have := mul_le_mul_of_nonneg_left h.2 ha
      have := mul_le_mul_of_nonneg_left h'.2 hb
      linarith

theorem Fac.err {u : K} (h0 : 0 ≤ u) {n : Nat} (hn : n * u ≤ 1 / 10) (hu : u < 1) {f : K} (h : Fac u n f) : |f - 1| ≤ 10 / 9 * n * u := by
  have hb : 1 - n * u ≤ (1 - u) ^ n := by
    have := one_add_mul_le_pow (a := -u) (by linarith) n
    have e : (1 + -u) = 1 - u := by ring
    rw [e] at this
    linarith
  have hp := h.pos hu
  have hnu : 0 ≤ (n : K) * u := mul_nonneg (Nat.cast_nonneg n) h0
  rw [abs_le]
  constructor
  · have := h.1
    nlinarith
  · have h1 : f * (1 - n * u) ≤ 1 := (mul_le_mul_of_nonneg_left hb hp.le).trans h.2
    have h2 : f ≤ 1 + 10 / 9 * (n * u) := by
      by_contra hc
      rw [not_le] at hc
      have h3 : 0 < 1 - n * u := by linarith
      have := mul_lt_mul_of_pos_right hc h3
      nlinarith
    linarith

theorem rnd_fac {rnd : K → K} {u : K} (hr : RelError rnd u) (h0 : 0 ≤ u) (hu : u < 1) (x : K) : ∃ f, Fac u 1 f ∧ rnd x = x * f := by
  have h := hr x
  rcases eq_or_ne x 0 with rfl | hx
  · refine ⟨1, fac_one h0 hu 1, ?_⟩
    simpa using h
  · refine ⟨rnd x / x, ?_, (mul_div_cancel₀ _ hx).symm⟩
    have h' : |rnd x / x - 1| ≤ u := by
      rw [div_sub_one hx, abs_div, div_le_iff₀ (abs_pos.2 hx)]
      exact h
    rw [abs_le] at h'
    refine ⟨by rw [pow_one]; linarith, ?_⟩
    rw [pow_one]
    nlinarith [mul_nonneg h0 h0, mul_le_mul_of_nonneg_right h'.2 (sub_nonneg.2 hu.le)]

theorem rnd_abs_le {rnd : K → K} {u : K} (hr : RelError rnd u) (x : K) : |rnd x| ≤ (1 + u) * |x| := by
  have h := hr x
  have : |rnd x| ≤ |rnd x - x| + |x| := by
    have := abs_add_le (rnd x - x) x
    simpa using this
  linarith

end
end OM
