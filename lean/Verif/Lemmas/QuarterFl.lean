import Verif.Lemmas.Double
import Mathlib.Tactic.Linarith
import Mathlib.Tactic.LinearCombination
/-! Three quarters plus one quarter of a number with 53 binary digits. -/
set_option linter.unusedSectionVars false
namespace OM
section
variable {K : Type} [Field K] [LinearOrder K] [IsStrictOrderedRing K] [FloorRing K]

theorem roundEven_unique {x : K} {n : Int} (h : |x - n| < 1 / 2) : roundEven x = n := by
  have h1 := roundEven_near x
  rw [abs_le] at h1
  rw [abs_lt] at h
  have h2 : (roundEven x : K) - n < 1 := by linarith
  have h3 : (-1 : K) < (roundEven x : K) - n := by linarith
  have h4 : roundEven x - n < 1 := by exact_mod_cast h2
  have h5 : -1 < roundEven x - n := by exact_mod_cast h3
  omega

theorem roundEven_half {x : K} {n : Int} (h : |x - n| ≤ 1 / 2) (hn : n % 2 = 0) : roundEven x = n := by
  rcases h.lt_or_eq with h | h
  · exact roundEven_unique h
  · rcases abs_choice (x - n) with e | e <;> rw [e] at h
    · have hf : ⌊x⌋ = n := by rw [Int.floor_eq_iff]; constructor <;> linarith
      unfold roundEven
      simp only [hf]
      rw [if_neg (by linarith), if_neg (by linarith), if_pos hn]
    · have hf : ⌊x⌋ = n - 1 := by rw [Int.floor_eq_iff]; push_cast; constructor <;> linarith
      unfold roundEven
      simp only [hf]
      push_cast
      rw [if_neg (by linarith), if_neg (by linarith), if_neg (by omega)]
      ring

theorem roundDouble_scaled {y : K} (h1 : 2 ^ 52 ≤ y) (h2 : y < 2 ^ 53) (e : Int) : roundDouble (y * 2 ^ e) = roundEven y * 2 ^ e := by
  have hu := two_zpow_pos (K := K) e
  have hy : 0 < y := lt_of_lt_of_le (by positivity) h1
  have hx : 0 < y * 2 ^ e := mul_pos hy hu
  have hlog : Int.log 2 (y * 2 ^ e) = e + 52 := by
    have hlo : (2 : K) ^ (e + 52) ≤ y * 2 ^ e := by
      rw [zpow_add₀ (by norm_num), mul_comm]
      exact mul_le_mul_of_nonneg_right (by exact_mod_cast h1) hu.le
    have hhi : y * 2 ^ e < (2 : K) ^ (e + 53) := by
      rw [zpow_add₀ (by norm_num), mul_comm]
      exact mul_lt_mul_of_pos_left (by exact_mod_cast h2) hu
    have l1 := (Int.zpow_le_iff_le_log (b := 2) (R := K) (by norm_num) hx (x := e + 52)).1 (by simpa using hlo)
    have l2 := (Int.lt_zpow_iff_log_lt (b := 2) (R := K) (by norm_num) hx (x := e + 53)).1 (by simpa using hhi)
    omega
  unfold roundDouble
  simp only
  rw [abs_of_pos hx, if_neg (not_lt.2 hx.le), hlog, show e + 52 - 52 = e by ring, mul_div_cancel_right₀ _ hu.ne']

/-- A positive number with 53 digits. -/
theorem double_form {x : K} (hx : 0 < x) (h : roundDouble x = x) : ∃ (k : Int) (e : Int), x = k * 2 ^ e ∧ 2 ^ 52 ≤ k ∧ k < 2 ^ 53 := by
  obtain ⟨k, hk, h1, h2, -⟩ := roundDouble_pos hx
  rw [h] at hk
  rcases h2.lt_or_eq with h2 | h2
  · exact ⟨k, _, hk, h1, h2⟩
  · refine ⟨2 ^ 52, Int.log 2 x - 52 + 1, ?_, le_rfl, by norm_num⟩
    generalize Int.log 2 x = l at hk ⊢
    rw [hk, h2, zpow_add₀ (by norm_num)]
    push_cast
    ring

theorem quarter_exact {x : K} (hx : 0 < x) (h : roundDouble x = x) : roundDouble (x * (1 / 4)) = x * (1 / 4) := by
  obtain ⟨k, e, rfl, h1, h2⟩ := double_form hx h
  have : (k : K) * 2 ^ e * (1 / 4) = k * 2 ^ (e - 2) := by
    rw [zpow_sub₀ (by norm_num)]
    norm_num
    ring
  rw [this, roundDouble_scaled (by exact_mod_cast h1) (by exact_mod_cast h2), roundEven_int]

theorem quarters_pos {x : K} (hx : 0 < x) (h : roundDouble x = x) : roundDouble (roundDouble (x * (3 / 4)) + roundDouble (x * (1 / 4))) = x := by
  rw [quarter_exact hx h]
  obtain ⟨k, e, rfl, h1, h2⟩ := double_form hx h
  have k1 : (2 : K) ^ 52 ≤ k := by exact_mod_cast h1
  have k2 : (k : K) ≤ 2 ^ 53 - 1 := by exact_mod_cast (show k ≤ 2 ^ 53 - 1 by omega)
  by_cases hA : 2 ^ 54 ≤ 3 * k
  · have hA' : (2 : K) ^ 54 ≤ 3 * k := by exact_mod_cast hA
    have e1 : (k : K) * 2 ^ e * (3 / 4) = (3 * k / 4) * 2 ^ e := by ring
    rw [e1, roundDouble_scaled (by linarith) (by linarith)]
    have e2 : (roundEven (3 * (k : K) / 4) : K) * 2 ^ e + k * 2 ^ e * (1 / 4) = (roundEven (3 * (k : K) / 4) + k / 4 : K) * 2 ^ e := by ring
    have near := roundEven_near (3 * (k : K) / 4)
    rw [e2]
    have near' := abs_le.1 near
    have hkbig : (2 : K) ^ 52 + 1 ≤ k := by linarith
    rw [roundDouble_scaled (by linarith) (by linarith)]
    congr 2
    obtain ⟨q, r, hr, hr0, hr4⟩ : ∃ q r : Int, k = 4 * q + r ∧ 0 ≤ r ∧ r < 4 := ⟨k / 4, k % 4, by omega, by omega, by omega⟩
    have hrc : (k : K) = 4 * q + r := by exact_mod_cast hr
    have hcase : r = 0 ∨ r = 1 ∨ r = 2 ∨ r = 3 := by omega
    rcases hcase with rfl | rfl | rfl | rfl
    · have : roundEven (3 * (k : K) / 4) = 3 * q := roundEven_unique (by rw [hrc]; push_cast; rw [show 3 * (4 * (q : K) + 0) / 4 - 3 * q = 0 by ring]; norm_num)
      rw [this]
      exact roundEven_unique (by push_cast at hrc ⊢; rw [hrc, show 3 * (q : K) + (4 * q + 0) / 4 - (4 * q + 0) = 0 by ring]; norm_num)
    · have : roundEven (3 * (k : K) / 4) = 3 * q + 1 :=
        roundEven_unique (by rw [hrc]; push_cast; rw [show 3 * (4 * (q : K) + 1) / 4 - (3 * q + 1) = -(1 / 4) by ring, abs_neg, abs_of_pos] <;> norm_num)
      rw [this]
      exact roundEven_unique (by push_cast at hrc ⊢; rw [hrc, show 3 * (q : K) + 1 + (4 * q + 1) / 4 - (4 * q + 1) = 1 / 4 by ring, abs_of_pos] <;> norm_num)
    · exact roundEven_half (by rw [show (roundEven (3 * (k : K) / 4) : K) + k / 4 - k = roundEven (3 * (k : K) / 4) - 3 * k / 4 by ring]; exact near) (by omega)
    · have : roundEven (3 * (k : K) / 4) = 3 * q + 2 :=
        roundEven_unique (by rw [hrc]; push_cast; rw [show 3 * (4 * (q : K) + 3) / 4 - (3 * q + 2) = 1 / 4 by ring, abs_of_pos] <;> norm_num)
      rw [this]
      exact roundEven_unique (by push_cast at hrc ⊢; rw [hrc, show 3 * (q : K) + 2 + (4 * q + 3) / 4 - (4 * q + 3) = -(1 / 4) by ring, abs_neg, abs_of_pos] <;> norm_num)
  · have hA' : 3 * (k : K) < 2 ^ 54 := by exact_mod_cast (show 3 * k < 2 ^ 54 by omega)
    have e1 : (k : K) * 2 ^ e * (3 / 4) = (3 * k / 2) * 2 ^ (e - 1) := by rw [zpow_sub₀ (by norm_num), zpow_one]; ring
    rw [e1, roundDouble_scaled (by linarith) (by linarith)]
    have e2 : (roundEven (3 * (k : K) / 2) : K) * 2 ^ (e - 1) + k * 2 ^ e * (1 / 4) = (roundEven (3 * (k : K) / 2) / 2 + k / 4 : K) * 2 ^ e := by
      rw [zpow_sub₀ (by norm_num), zpow_one]; ring
    have near := abs_le.1 (roundEven_near (3 * (k : K) / 2))
    rw [e2]
    rcases Int.emod_two_eq_zero_or_one k with hk | hk
    · obtain ⟨q, hq⟩ : ∃ q : Int, k = 2 * q := ⟨k / 2, by omega⟩
      have hqc : (k : K) = 2 * q := by exact_mod_cast hq
      have : roundEven (3 * (k : K) / 2) = 3 * q := roundEven_unique (by rw [hqc]; push_cast; rw [show 3 * (2 * (q : K)) / 2 - 3 * q = 0 by ring]; norm_num)
      have e3 : ((roundEven (3 * (k : K) / 2) : K) / 2 + k / 4) = k := by rw [this, hqc]; push_cast; ring
      rw [e3, roundDouble_scaled k1 (by linarith), roundEven_int]
    · have hbig : 2 ^ 52 + 1 ≤ k := by
        rcases h1.lt_or_eq with h | h
        · omega
        · exfalso; rw [← h] at hk; norm_num at hk
      have hbig' : (2 : K) ^ 52 + 1 ≤ k := by exact_mod_cast hbig
      rw [roundDouble_scaled (by linarith) (by linarith)]
      congr 2
      apply roundEven_unique
      rw [abs_lt]
      constructor <;> linarith

/-- Three quarters and one quarter of a double, rounded, add up to it. -/
theorem quarters_double {x : K} (h : roundDouble x = x) : roundDouble (roundDouble (x * (3 / 4)) + roundDouble (x * (1 / 4))) = x := by
  rcases lt_trichotomy x 0 with hx | rfl | hx
  · have := quarters_pos (x := -x) (by linarith) (by rw [roundDouble_neg, h])
    rw [neg_mul, neg_mul, roundDouble_neg, roundDouble_neg, ← neg_add, roundDouble_neg] at this
    exact neg_injective this
  · simp [roundDouble_zero]
  · exact quarters_pos hx h

end
end OM
