import Verif.Model.GridFl
import Verif.Props.InpolyFl
import Mathlib.Tactic.Linarith
import Mathlib.Tactic.Positivity
import Mathlib.Tactic.NormNum
/-!
# C117: the node lattice of a grid in rounded arithmetic
-/
set_option linter.unusedSectionVars false
namespace OM
open Spec

section
variable {K : Type} [Field K] [LinearOrder K] [IsStrictOrderedRing K] [FloorRing K]

/-- Floor division of floats gives the floor of the quotient, as long as this is a rounded number and not huge. -/
theorem C117_floorDiv {rnd : K → K} {u : K} (hr : RelError rnd u) (h0 : 0 ≤ u) (hu : u ≤ 1 / 8) {a d : K} (ha : 0 ≤ a) (hd : 0 < d)
    (hn : rnd (⌊a / d⌋ : K) = ⌊a / d⌋) (hs : (⌊a / d⌋ : K) * (2 * u + u ^ 2) ≤ 1 / 4) : floorDivFl rnd a d = ⌊a / d⌋ := by
  have hz : (0 : ℤ) ≤ ⌊a / d⌋ := Int.floor_nonneg.2 (div_nonneg ha hd.le)
  unfold floorDivFl
  revert hn hs hz
  generalize ⌊a / d⌋ = n
  intro hn hs hz
  have hz' : (0 : K) ≤ n := by exact_mod_cast hz
  simp only [sub_sub_cancel]
  have e1 := hr (d * n)
  have e2 := hr (rnd (d * n) / d)
  rw [abs_of_nonneg (mul_nonneg hd.le hz')] at e1
  have e3 : |rnd (d * n) / d - n| ≤ u * n := by
    rw [show rnd (d * n) / d - n = (rnd (d * n) - d * n) / d by field_simp, abs_div, abs_of_pos hd, div_le_iff₀ hd]
    linarith
  have e4 : |rnd (d * n) / d| ≤ n + u * n := by
    have := abs_add_le (rnd (d * n) / d - n) n
    rw [sub_add_cancel, abs_of_nonneg hz'] at this
    linarith
  generalize rnd (d * n) / d = w at e2 e3 e4 ⊢
  have e5 : |rnd w - n| ≤ 1 / 4 := by
    have := abs_add_le (rnd w - w) (w - n)
    rw [sub_add_sub_cancel] at this
    have := mul_le_mul_of_nonneg_left e4 h0
    nlinarith
  generalize rnd w = q at e5 ⊢
  obtain ⟨l, r⟩ := abs_le.1 e5
  by_cases hq : (n : K) ≤ q
  · have hf : ⌊q⌋ = n := Int.floor_eq_iff.2 ⟨hq, by linarith⟩
    rw [hf, if_neg]
    have := hr (q - n)
    rw [abs_of_nonneg (sub_nonneg.2 hq)] at this
    have h2 := (abs_le.1 this).2
    have : u * (q - n) ≤ 1 / 8 * (1 / 4) := mul_le_mul hu r (sub_nonneg.2 hq) (by norm_num)
    intro h3
    linarith
  · rw [not_le] at hq
    have hf : ⌊q⌋ = n - 1 := Int.floor_eq_iff.2 ⟨by push_cast; linarith, by push_cast; linarith⟩
    have hp : 0 ≤ q - (n - 1) := by linarith
    rw [hf, if_pos]
    · push_cast; rw [sub_add_cancel]; exact hn
    · push_cast
      have := hr (q - (n - 1))
      rw [abs_of_nonneg hp] at this
      have h2 := (abs_le.1 this).1
      have : u * (q - (n - 1)) ≤ 1 / 8 * 1 := mul_le_mul hu (by linarith) hp (by norm_num)
      linarith

/-- The number of nodes along an axis. -/
theorem C117_count {rnd : K → K} {u : K} (hR : Rounding rnd) (hr : RelError rnd u) (h0 : 0 ≤ u) (hu : u ≤ 1 / 8) {lo hi d : K} (hlh : lo ≤ hi) (hd : 0 < d)
    (hn : rnd (⌊rnd (hi - lo) / d⌋ : K) = ⌊rnd (hi - lo) / d⌋) (hs : (⌊rnd (hi - lo) / d⌋ : K) * (2 * u + u ^ 2) ≤ 1 / 4) :
    (axisCountFl rnd lo hi d : Int) = ⌊rnd (hi - lo) / d⌋ + 1 := by
  have ha : 0 ≤ rnd (hi - lo) := by
    have := hR.mono (sub_nonneg.2 hlh)
    rwa [hR.zero] at this
  have hz : (0 : ℤ) ≤ ⌊rnd (hi - lo) / d⌋ := Int.floor_nonneg.2 (div_nonneg ha hd.le)
  unfold axisCountFl
  rw [C117_floorDiv hr h0 hu ha hd hn hs, Int.floor_intCast, Int.toNat_of_nonneg (by omega)]

/-- The first node is the corner of the box. -/
theorem C117_first {rnd : K → K} (hR : Rounding rnd) {lo : K} (hlo : rnd lo = lo) (d : K) : axisNodeFl rnd lo d 0 = lo := by
  simp [axisNodeFl, hR.zero, hlo]

/-- The nodes never descend. -/
theorem C117_ascending {rnd : K → K} (hR : Rounding rnd) (lo : K) {d : K} (hd : 0 ≤ d) : Monotone (axisNodeFl rnd lo d) := by
  intro i j hij
  have : (i : K) ≤ j := by exact_mod_cast hij
  exact hR.mono (by have := hR.mono (mul_le_mul_of_nonneg_right this hd); linarith)

/-- Every node is where it should be, up to four rounding errors. -/
theorem C117_node_error {rnd : K → K} {u M : K} (hr : RelError rnd u) (h0 : 0 ≤ u) (hu : u ≤ 1 / 8) {lo hi d : K} (hlo : |lo| ≤ M) (hhi : |hi| ≤ M)
    (hd : 0 ≤ d) {i : Nat} (hi' : (i : K) * d ≤ rnd (hi - lo)) : |axisNodeFl rnd lo d i - (lo + i * d)| ≤ 4 * u * M := by
  have hM : 0 ≤ M := (abs_nonneg _).trans hlo
  obtain ⟨l1, l2⟩ := abs_le.1 hlo
  obtain ⟨l3, l4⟩ := abs_le.1 hhi
  have hid : 0 ≤ (i : K) * d := mul_nonneg (Nat.cast_nonneg i) hd
  have e1 := hr (hi - lo)
  have e0 : |hi - lo| ≤ 2 * M := abs_le.2 ⟨by linarith, by linarith⟩
  have e1' : rnd (hi - lo) ≤ hi - lo + u * (2 * M) := by
    have := (abs_le.1 e1).2
    have := mul_le_mul_of_nonneg_left e0 h0
    linarith
  have e2 := hr ((i : K) * d)
  rw [abs_of_nonneg hid] at e2
  have hidM : (i : K) * d ≤ 2 * M + u * (2 * M) := by have := (abs_le.1 e0).2; linarith
  have e2' : |rnd ((i : K) * d) - i * d| ≤ u * (2 * M + u * (2 * M)) := e2.trans (mul_le_mul_of_nonneg_left hidM h0)
  have e3 := hr (lo + rnd ((i : K) * d))
  have huM : 0 ≤ u * M := mul_nonneg h0 hM
  have huuM : u * (u * M) ≤ 1 / 8 * (u * M) := mul_le_mul_of_nonneg_right hu huM
  have hs : |lo + i * d| ≤ M + u * (2 * M) := abs_le.2 ⟨by linarith, by linarith⟩
  have e4 : |lo + rnd ((i : K) * d)| ≤ M + u * (2 * M) + u * (2 * M + u * (2 * M)) := by
    have := abs_add_le (lo + (i : K) * d) (rnd ((i : K) * d) - i * d)
    rw [show lo + (i : K) * d + (rnd ((i : K) * d) - i * d) = lo + rnd ((i : K) * d) by ring] at this
    linarith
  have e5 := mul_le_mul_of_nonneg_left e4 h0
  have e6 := abs_add_le (rnd (lo + rnd ((i : K) * d)) - (lo + rnd ((i : K) * d))) (rnd ((i : K) * d) - i * d)
  rw [show rnd (lo + rnd ((i : K) * d)) - (lo + rnd ((i : K) * d)) + (rnd ((i : K) * d) - i * d) = rnd (lo + rnd ((i : K) * d)) - (lo + i * d) by ring] at e6
  unfold axisNodeFl
  have huuuM : u * (u * (u * M)) ≤ 1 / 8 * (u * (u * M)) := mul_le_mul_of_nonneg_right hu (mul_nonneg h0 huM)
  nlinarith

/-- **C117**, partial: the nodes ascend strictly if the spacing is more than eight rounding errors of the coordinates. -/
theorem C117_strict_partial {rnd : K → K} {u M : K} (hr : RelError rnd u) (h0 : 0 ≤ u) (hu : u ≤ 1 / 8) {lo hi d : K} (hlo : |lo| ≤ M) (hhi : |hi| ≤ M)
    (hd : 8 * u * M < d) {i j : Nat} (hij : i < j) (hj : (j : K) * d ≤ rnd (hi - lo)) : axisNodeFl rnd lo d i < axisNodeFl rnd lo d j := by
  have hM : 0 ≤ M := (abs_nonneg _).trans hlo
  have hd0 : 0 ≤ d := (mul_nonneg (mul_nonneg (by norm_num) h0) hM).trans hd.le
  have hij' : (i : K) + 1 ≤ j := by exact_mod_cast hij
  have hstep : (i : K) * d + d ≤ j * d := by nlinarith
  have e1 := C117_node_error hr h0 hu hlo hhi hd0 (i := i) (by linarith)
  have e2 := C117_node_error hr h0 hu hlo hhi hd0 hj
  have := (abs_le.1 e1).2
  have := (abs_le.1 e2).1
  linarith

/-- **C117**, partial: the last node is less than one spacing before the end of the box and not beyond it, up to rounding errors of the coordinates. -/
theorem C117_last_partial {rnd : K → K} {u M : K} (hr : RelError rnd u) (h0 : 0 ≤ u) (hu : u ≤ 1 / 8) {lo hi d : K} (hlo : |lo| ≤ M) (hhi : |hi| ≤ M)
    (hd : 0 < d) {n : Nat} (hn : (n : Int) = ⌊rnd (hi - lo) / d⌋) :
    hi - d - 6 * u * M < axisNodeFl rnd lo d n ∧ axisNodeFl rnd lo d n ≤ hi + 6 * u * M := by
  have hn' : (n : K) = (⌊rnd (hi - lo) / d⌋ : K) := by exact_mod_cast congrArg (Int.cast : ℤ → K) hn
  have h1 : (n : K) * d ≤ rnd (hi - lo) := by rw [hn', ← le_div_iff₀ hd]; exact Int.floor_le _
  have h2 : rnd (hi - lo) < (n + 1) * d := by rw [hn', ← div_lt_iff₀ hd]; exact Int.lt_floor_add_one _
  have e := abs_le.1 (C117_node_error hr h0 hu hlo hhi hd.le h1)
  obtain ⟨l1, l2⟩ := abs_le.1 hlo
  obtain ⟨l3, l4⟩ := abs_le.1 hhi
  have e0 : |hi - lo| ≤ 2 * M := abs_le.2 ⟨by linarith, by linarith⟩
  have e1 := abs_le.1 ((hr (hi - lo)).trans (mul_le_mul_of_nonneg_left e0 h0))
  constructor <;> linarith [e.1, e.2, e1.1, e1.2]

theorem roundDouble_natCast {n : Int} (h0 : 0 ≤ n) (h : n ≤ 2 ^ 53) : roundDouble (n : K) = n :=
  roundDouble_of_isDouble ⟨n, 0, by rwa [abs_of_nonneg h0], by simp⟩

/-- **C117** for doubles, partial: a box side with at most `2 ^ 49` steps has one node more than the whole number of steps that fit into the rounded
length of the side; the first node is the corner, the nodes do not descend, and the last node is less than one spacing before the end of the side and
not beyond it, up to `M / 2 ^ 50`; the nodes ascend strictly if the spacing is more than `M / 2 ^ 50`. -/
theorem C117_doubles_partial {lo hi d M : K} (hlo : IsDouble lo) (hM : |lo| ≤ M) (hM' : |hi| ≤ M) (hlh : lo ≤ hi) (hd : 0 < d)
    (hs : roundDouble (hi - lo) / d < 2 ^ 49) :
    ∃ n : Nat, (n : K) ≤ roundDouble (hi - lo) / d ∧ roundDouble (hi - lo) / d < n + 1 ∧
      axisCountFl roundDouble lo hi d = n + 1 ∧ axisNodeFl roundDouble lo d 0 = lo ∧ Monotone (axisNodeFl roundDouble lo d) ∧
      hi - d - M / 2 ^ 50 < axisNodeFl roundDouble lo d n ∧ axisNodeFl roundDouble lo d n ≤ hi + M / 2 ^ 50 ∧
      (M / 2 ^ 50 < d → ∀ i j : Nat, i < j → j ≤ n → axisNodeFl roundDouble lo d i < axisNodeFl roundDouble lo d j) := by
  obtain ⟨hR, hr⟩ := C113_roundDouble (K := K)
  have hM0 : 0 ≤ M := (abs_nonneg _).trans hM
  have ha : 0 ≤ roundDouble (hi - lo) := by
    have := hR.mono (sub_nonneg.2 hlh)
    rwa [hR.zero] at this
  have hz : (0 : ℤ) ≤ ⌊roundDouble (hi - lo) / d⌋ := Int.floor_nonneg.2 (div_nonneg ha hd.le)
  have hlt : ⌊roundDouble (hi - lo) / d⌋ < 2 ^ 49 := Int.floor_lt.2 (by exact_mod_cast hs)
  have hltK : (⌊roundDouble (hi - lo) / d⌋ : K) < 2 ^ 49 := by exact_mod_cast hlt
  have hu0 : (0 : K) ≤ 1 / 2 ^ 53 := by positivity
  have hc := C117_count hR hr hu0 (by norm_num) hlh hd (roundDouble_natCast hz (by omega)) (by nlinarith)
  have hcast : ((⌊roundDouble (hi - lo) / d⌋.toNat : Int)) = ⌊roundDouble (hi - lo) / d⌋ := Int.toNat_of_nonneg hz
  have hcastK : ((⌊roundDouble (hi - lo) / d⌋.toNat : Nat) : K) = (⌊roundDouble (hi - lo) / d⌋ : K) := by
    exact_mod_cast congrArg (Int.cast : ℤ → K) hcast
  have h8 : M / 2 ^ 50 = 8 * (1 / 2 ^ 53) * M := by ring
  have h6 : 6 * (1 / 2 ^ 53) * M ≤ M / 2 ^ 50 := by rw [h8]; nlinarith
  obtain ⟨l1, l2⟩ := C117_last_partial hr hu0 (by norm_num) hM hM' hd hcast
  refine ⟨⌊roundDouble (hi - lo) / d⌋.toNat, ?_, ?_, ?_, ?_, ?_, ?_, ?_, ?_⟩
  · rw [hcastK]; exact Int.floor_le _
  · rw [hcastK]; exact Int.lt_floor_add_one _
  · omega
  · exact C117_first hR (roundDouble_of_isDouble hlo) d
  · exact C117_ascending hR lo hd.le
  · linarith
  · linarith
  · intro hd' i j hij hj
    refine C117_strict_partial hr hu0 (by norm_num) hM hM' (by rw [← h8]; exact hd') hij ?_
    have hj' : (j : K) ≤ (⌊roundDouble (hi - lo) / d⌋.toNat : Nat) := by exact_mod_cast hj
    rw [hcastK] at hj'
    rw [← le_div_iff₀ hd]
    exact hj'.trans (Int.floor_le _)

end

/-! ## Examples -/

/-- The doubles next to `0`, `0.3` and `0.1` satisfy the hypotheses of `C117_doubles_partial`; there are three nodes, not four: the double next to
`0.3` is less than three times the one next to `0.1`. -/
example : IsDouble (0 : ℚ) ∧ |(0 : ℚ)| ≤ 1 ∧ |roundDouble (3 / 10 : ℚ)| ≤ 1 ∧ 0 < roundDouble (1 / 10 : ℚ) ∧
    roundDouble (roundDouble (3 / 10) - 0 : ℚ) / roundDouble (1 / 10) < 2 ^ 49 ∧
    axisNodesFl roundDouble 0 (roundDouble (3 / 10)) (roundDouble (1 / 10)) = [0, roundDouble (1 / 10), roundDouble (2 / 10 : ℚ)] := by
  refine ⟨⟨0, 0, by norm_num, by norm_num⟩, ?_⟩
  decide +kernel

/-- `C117_floorDiv` is applied to the doubles next to `0.7` and `0.1`: `0.7 // 0.1` is `6.0` in Python, too. -/
example : floorDivFl roundDouble (roundDouble (7 / 10 : ℚ)) (roundDouble (1 / 10)) = 6 := by
  have hf : ⌊(roundDouble (7 / 10 : ℚ)) / roundDouble (1 / 10)⌋ = 6 := by decide +kernel
  have h := C117_floorDiv (C113_roundDouble (K := ℚ)).2 (by norm_num) (by norm_num) (a := roundDouble (7 / 10)) (d := roundDouble (1 / 10))
    (by decide +kernel) (by decide +kernel) (by rw [hf]; decide +kernel) (by rw [hf]; norm_num)
  rw [h, hf]; norm_num

/-! ## What fails in doubles -/

/-- The last node lies beyond the end of the box: from the double next to `0.6` to the one next to `1.7` in one step of `1.1`. -/
theorem C117_overshoot : ∃ lo hi d : ℚ, IsDouble lo ∧ IsDouble hi ∧ IsDouble d ∧ lo ≤ hi ∧ 0 < d ∧ axisCountFl roundDouble lo hi d = 2 ∧
    hi < axisNodeFl roundDouble lo d 1 :=
  ⟨5404319552844595 / 2 ^ 53, 7656119366529843 / 2 ^ 52, 2476979795053773 / 2 ^ 51, ⟨5404319552844595, -53, by norm_num, by norm_num⟩,
    ⟨7656119366529843, -52, by norm_num, by norm_num⟩, ⟨2476979795053773, -51, by norm_num, by norm_num⟩, by norm_num, by norm_num,
    by decide +kernel, by decide +kernel⟩

/-- The last node is a whole spacing or more before the end of the box: from the double next to `0.9` to the one next to `1.9` in steps of `0.5`. -/
theorem C117_short : ∃ lo hi d : ℚ, IsDouble lo ∧ IsDouble hi ∧ IsDouble d ∧ lo ≤ hi ∧ 0 < d ∧ axisCountFl roundDouble lo hi d = 2 ∧
    axisNodeFl roundDouble lo d 1 + d ≤ hi :=
  ⟨8106479329266893 / 2 ^ 53, 4278419646001971 / 2 ^ 51, 1 / 2, ⟨8106479329266893, -53, by norm_num, by norm_num⟩,
    ⟨4278419646001971, -51, by norm_num, by norm_num⟩, ⟨1, -1, by norm_num, by norm_num⟩, by norm_num, by norm_num,
    by decide +kernel, by decide +kernel⟩

/-- Two nodes coincide if the spacing is too small for the coordinates. -/
theorem C117_stalls : ∃ lo hi d : ℚ, IsDouble lo ∧ IsDouble hi ∧ IsDouble d ∧ lo ≤ hi ∧ 0 < d ∧
    axisNodesFl roundDouble lo hi d = [lo, lo, hi] :=
  ⟨2 ^ 53, 2 ^ 53 + 2, 1, ⟨1, 53, by norm_num, by norm_num⟩, ⟨2 ^ 52 + 1, 1, by norm_num, by norm_num⟩, ⟨1, 0, by norm_num, by norm_num⟩,
    by norm_num, by norm_num, by decide +kernel⟩

end OM
