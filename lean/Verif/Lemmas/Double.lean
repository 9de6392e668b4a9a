import Verif.Model.GradLimitFl
import Verif.Lemmas.Text
import Mathlib.Tactic.Linarith
import Mathlib.Tactic.Ring
import Mathlib.Tactic.Positivity
import Mathlib.Tactic.NormNum
import Mathlib.Data.Set.Finite.Lattice
import Mathlib.Order.Interval.Set.Defs
import Mathlib.Order.Interval.Finset.Basic
import Mathlib.Data.Int.Interval
import Mathlib.Data.Set.Finite.Basic
import Mathlib.Data.Finite.Prod
/-! Rounding to 53 binary digits. -/
set_option linter.unusedSectionVars false
namespace OM
section
variable {K : Type} [Field K] [LinearOrder K] [IsStrictOrderedRing K] [FloorRing K]

theorem roundEven_bounds (x : K) : ⌊x⌋ ≤ roundEven x ∧ roundEven x ≤ ⌊x⌋ + 1 := by
  unfold roundEven
  dsimp only
  split
  · omega
  · split
    · omega
    · split <;> omega

theorem roundEven_mono {x y : K} (h : x ≤ y) : roundEven x ≤ roundEven y := by
  rcases (Int.floor_mono h).lt_or_eq with hf | hf
  · have h1 := (roundEven_bounds x).2
    have h2 := (roundEven_bounds y).1
    omega
  · unfold roundEven
    dsimp only
    rw [← hf]
    generalize ⌊x⌋ = n
    have h' : x - n ≤ y - n := by linarith
    split_ifs <;> first | omega | (exfalso; linarith)

theorem two_zpow_pos (e : Int) : (0 : K) < 2 ^ e := zpow_pos (by norm_num) e

theorem two52 (e : Int) : ((2 ^ 52 : Int) : K) * 2 ^ (e - 52) = 2 ^ e := by
  rw [show (((2 ^ 52 : Int)) : K) = 2 ^ (52 : Int) by norm_num, ← zpow_add₀ (by norm_num)]
  congr 1; ring

theorem two53 (e : Int) : ((2 ^ 53 : Int) : K) * 2 ^ (e - 52) = 2 ^ (e + 1) := by
  rw [show (((2 ^ 53 : Int)) : K) = 2 ^ (53 : Int) by norm_num, ← zpow_add₀ (by norm_num)]
  congr 1; ring

/-- The number of units in the last place of a positive number. -/
theorem roundDouble_pos {x : K} (hx : 0 < x) :
    ∃ k : Int, roundDouble x = k * 2 ^ (Int.log 2 x - 52) ∧ 2 ^ 52 ≤ k ∧ k ≤ 2 ^ 53 ∧
      |(k : K) - x / 2 ^ (Int.log 2 x - 52)| ≤ 1 / 2 := by
  have h1 : (2 : K) ^ Int.log 2 x ≤ x := by
    have := Int.zpow_log_le_self (b := 2) (R := K) (by norm_num) hx; simpa using this
  have h2 : x < (2 : K) ^ (Int.log 2 x + 1) := by
    have := Int.lt_zpow_succ_log_self (b := 2) (R := K) (by norm_num) x; simpa using this
  have hu := two_zpow_pos (K := K) (Int.log 2 x - 52)
  refine ⟨roundEven (x / 2 ^ (Int.log 2 x - 52)), ?_, ?_, ?_, roundEven_near _⟩
  · unfold roundDouble
    dsimp only
    rw [abs_of_pos hx, if_neg (not_lt.2 hx.le)]
  · have : ((2 ^ 52 : Int) : K) ≤ x / 2 ^ (Int.log 2 x - 52) := by
      rw [le_div_iff₀ hu]
      exact le_trans (le_of_eq (two52 _)) h1
    have h := roundEven_mono this
    rwa [roundEven_int] at h
  · have : x / 2 ^ (Int.log 2 x - 52) ≤ ((2 ^ 53 : Int) : K) := by
      rw [div_le_iff₀ hu]
      exact le_trans h2.le (le_of_eq (two53 _).symm)
    have h := roundEven_mono this
    rwa [roundEven_int] at h

theorem roundDouble_range {x : K} (hx : 0 < x) : (2 : K) ^ Int.log 2 x ≤ roundDouble x ∧ roundDouble x ≤ 2 ^ (Int.log 2 x + 1) := by
  obtain ⟨k, hk, h1, h2, -⟩ := roundDouble_pos hx
  have hu := two_zpow_pos (K := K) (Int.log 2 x - 52)
  rw [hk]
  constructor
  · calc (2 : K) ^ Int.log 2 x = ((2 ^ 52 : Int) : K) * 2 ^ (Int.log 2 x - 52) := (two52 _).symm
      _ ≤ _ := mul_le_mul_of_nonneg_right (by exact_mod_cast h1) hu.le
  · calc (k : K) * 2 ^ (Int.log 2 x - 52) ≤ ((2 ^ 53 : Int) : K) * 2 ^ (Int.log 2 x - 52) :=
          mul_le_mul_of_nonneg_right (by exact_mod_cast h2) hu.le
      _ = _ := two53 _

theorem roundDouble_zero : roundDouble (0 : K) = 0 := by
  unfold roundDouble
  have : roundEven (0 : K) = 0 := by simpa using roundEven_int (K := K) 0
  simp [this]

theorem roundDouble_neg (x : K) : roundDouble (-x) = -roundDouble x := by
  rcases lt_trichotomy x 0 with h | rfl | h
  · unfold roundDouble
    dsimp only
    rw [abs_neg, if_neg (by linarith), if_pos h, neg_neg]
  · simp [roundDouble_zero]
  · unfold roundDouble
    dsimp only
    rw [abs_neg, if_pos (by linarith), if_neg (by linarith)]

theorem roundDouble_pos_of_pos {x : K} (hx : 0 < x) : 0 < roundDouble x :=
  lt_of_lt_of_le (two_zpow_pos _) (roundDouble_range hx).1

theorem roundDouble_mono_pos {x y : K} (hx : 0 < x) (h : x ≤ y) : roundDouble x ≤ roundDouble y := by
  have hy := hx.trans_le h
  rcases (Int.log_mono_right (b := 2) hx h).lt_or_eq with hl | hl
  · refine (roundDouble_range hx).2.trans (le_trans ?_ (roundDouble_range hy).1)
    exact zpow_le_zpow_right₀ (by norm_num) (by omega)
  · unfold roundDouble
    dsimp only
    rw [abs_of_pos hx, abs_of_pos hy, if_neg (not_lt.2 hx.le), if_neg (not_lt.2 hy.le), hl]
    have hu := two_zpow_pos (K := K) (Int.log 2 y - 52)
    refine mul_le_mul_of_nonneg_right ?_ hu.le
    exact_mod_cast roundEven_mono (div_le_div_of_nonneg_right h hu.le)

theorem roundDouble_monotone : Monotone (roundDouble : K → K) := by
  intro x y h
  rcases lt_trichotomy x 0 with hx | rfl | hx
  · have hx' : 0 < roundDouble (-x) := roundDouble_pos_of_pos (by linarith)
    rw [roundDouble_neg] at hx'
    rcases lt_trichotomy y 0 with hy | rfl | hy
    · have := roundDouble_mono_pos (x := -y) (y := -x) (by linarith) (by linarith)
      rw [roundDouble_neg, roundDouble_neg] at this
      linarith
    · rw [roundDouble_zero]; linarith
    · have := roundDouble_pos_of_pos hy; linarith
  · rcases h.lt_or_eq with hy | rfl
    · rw [roundDouble_zero]; exact (roundDouble_pos_of_pos hy).le
    · exact le_rfl
  · exact roundDouble_mono_pos hx h

theorem roundDouble_of_form {k e : Int} (h1 : 2 ^ 52 ≤ k) (h2 : k ≤ 2 ^ 53) :
    roundDouble ((k : K) * 2 ^ (e - 52)) = k * 2 ^ (e - 52) := by
  have hu := two_zpow_pos (K := K) (e - 52)
  have hk0 : (0 : K) < k := by
    have : (0 : Int) < k := lt_of_lt_of_le (by norm_num) h1
    exact_mod_cast this
  have hx : 0 < (k : K) * 2 ^ (e - 52) := mul_pos hk0 hu
  have key : ∀ e' : Int, ∀ k' : Int, (k : K) * 2 ^ (e - 52) = k' * 2 ^ (e' - 52) → 2 ^ 52 ≤ k' → k' < 2 ^ 53 →
      roundDouble ((k : K) * 2 ^ (e - 52)) = k * 2 ^ (e - 52) := by
    intro e' k' he hk1 hk2
    have hu' := two_zpow_pos (K := K) (e' - 52)
    have hlog : Int.log 2 ((k : K) * 2 ^ (e - 52)) = e' := by
      have hlo : (2 : K) ^ e' ≤ k * 2 ^ (e - 52) := by
        rw [he]
        calc (2 : K) ^ e' = ((2 ^ 52 : Int) : K) * 2 ^ (e' - 52) := (two52 _).symm
          _ ≤ _ := mul_le_mul_of_nonneg_right (by exact_mod_cast hk1) hu'.le
      have hhi : (k : K) * 2 ^ (e - 52) < (2 : K) ^ (e' + 1) := by
        rw [he]
        calc (k' : K) * 2 ^ (e' - 52) < ((2 ^ 53 : Int) : K) * 2 ^ (e' - 52) :=
              mul_lt_mul_of_pos_right (by exact_mod_cast hk2) hu'
          _ = _ := two53 _
      have l1 := (Int.zpow_le_iff_le_log (b := 2) (R := K) (by norm_num) hx (x := e')).1 (by simpa using hlo)
      have l2 := (Int.lt_zpow_iff_log_lt (b := 2) (R := K) (by norm_num) hx (x := e' + 1)).1 (by simpa using hhi)
      omega
    unfold roundDouble
    dsimp only
    rw [abs_of_pos hx, if_neg (not_lt.2 hx.le), hlog, he, mul_div_cancel_right₀ _ hu'.ne', roundEven_int]
  rcases h2.lt_or_eq with h2 | h2
  · exact key e k rfl h1 h2
  · refine key (e + 1) (2 ^ 52) ?_ le_rfl (by norm_num)
    rw [h2, two53, two52]

theorem roundDouble_idem (x : K) : roundDouble (roundDouble x) = roundDouble x := by
  have pos : ∀ {y : K}, 0 < y → roundDouble (roundDouble y) = roundDouble y := by
    intro y hy
    obtain ⟨k, hk, h1, h2, -⟩ := roundDouble_pos hy
    rw [hk]; exact roundDouble_of_form h1 h2
  rcases lt_trichotomy x 0 with hx | rfl | hx
  · have := pos (y := -x) (by linarith)
    rw [roundDouble_neg, roundDouble_neg] at this
    exact neg_injective this
  · simp [roundDouble_zero]
  · exact pos hx

/-- The relative error of rounding is at most `2^(-53)`. -/
theorem roundDouble_error (x : K) : |roundDouble x - x| ≤ (1 / 2 ^ 53) * |x| := by
  have pos : ∀ {y : K}, 0 < y → |roundDouble y - y| ≤ (1 / 2 ^ 53) * |y| := by
    intro y hy
    obtain ⟨k, hk, -, -, h3⟩ := roundDouble_pos hy
    have hu := two_zpow_pos (K := K) (Int.log 2 y - 52)
    have hlo : (2 : K) ^ Int.log 2 y ≤ y := by
      have := Int.zpow_log_le_self (b := 2) (R := K) (by norm_num) hy; simpa using this
    rw [hk, abs_of_pos hy]
    have e : (k : K) * 2 ^ (Int.log 2 y - 52) - y = (k - y / 2 ^ (Int.log 2 y - 52)) * 2 ^ (Int.log 2 y - 52) := by
      field_simp
    rw [e, abs_mul, abs_of_pos hu]
    calc _ ≤ 1 / 2 * (2 : K) ^ (Int.log 2 y - 52) := mul_le_mul_of_nonneg_right h3 hu.le
      _ = 1 / 2 ^ 53 * 2 ^ Int.log 2 y := by
          rw [zpow_sub₀ (by norm_num)]
          norm_num
          ring
      _ ≤ _ := mul_le_mul_of_nonneg_left hlo (by positivity)
  rcases lt_trichotomy x 0 with hx | rfl | hx
  · have := pos (y := -x) (by linarith)
    rw [roundDouble_neg, abs_neg] at this
    rwa [show -roundDouble x - -x = -(roundDouble x - x) by ring, abs_neg] at this
  · simp [roundDouble_zero]
  · exact pos hx

/-- Between two positive numbers there are finitely many doubles. -/
theorem doubles_finite {lo hi : K} (hlo : 0 < lo) : {x : K | lo ≤ x ∧ x ≤ hi ∧ roundDouble x = x}.Finite := by
  refine Set.Finite.subset (((Set.finite_Icc ((2 : Int) ^ 52) (2 ^ 53)).prod
    (Set.finite_Icc (Int.log 2 lo) (Int.log 2 hi))).image (fun p : Int × Int => (p.1 : K) * 2 ^ (p.2 - 52))) ?_
  rintro x ⟨h1, h2, h3⟩
  have hx := hlo.trans_le h1
  obtain ⟨k, hk, hk1, hk2, -⟩ := roundDouble_pos hx
  refine ⟨(k, Int.log 2 x), ⟨⟨hk1, hk2⟩, Int.log_mono_right hlo h1, Int.log_mono_right hx h2⟩, ?_⟩
  rw [h3] at hk
  exact hk.symm

end
end OM
