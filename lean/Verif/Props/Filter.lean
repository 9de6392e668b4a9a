import Verif.Model.Filter
import Mathlib.Algebra.Order.Ring.Rat
import Mathlib.Algebra.Module.Pi
import Mathlib.Tactic.Abel
import Mathlib.Tactic.Linarith
import Mathlib.Tactic.Ring
/-!
# C41: filters
-/
namespace OM
set_option linter.unusedSectionVars false

section
variable {K F : Type} [Field K] [LinearOrder K] [AddCommGroup F]

/-- The arguments `filt2` is meant to accept: a number for low-pass and high-pass, a pair for band-pass and band-stop. -/
def Spec.FilterArgs (name : String) (wl : WaveArg K) : Prop :=
  ((name = "lowpass" ∨ name = "highpass") ∧ ∃ w, wl = .scalar w) ∨
    ((name = "bandpass" ∨ name = "bandstop") ∧ ∃ a b, wl = .vector [a, b])

theorem lower_low : "lowpass".toLower = "lowpass" := by decide +kernel
theorem lower_high : "highpass".toLower = "highpass" := by decide +kernel
theorem lower_bandpass : "bandpass".toLower = "bandpass" := by decide +kernel
theorem lower_bandstop : "bandstop".toLower = "bandstop" := by decide +kernel

theorem filt2_low (gauss : K → K → F → F) (twoPi res w t : K) (Z : F) :
    filt2 gauss twoPi Z res (.scalar w) "lowpass" t = some (gauss (w / res / twoPi) t Z) := by simp [filt2, lower_low, lowPass]
theorem filt2_high (gauss : K → K → F → F) (twoPi res w t : K) (Z : F) :
    filt2 gauss twoPi Z res (.scalar w) "highpass" t = some (Z - gauss (w / res / twoPi) t Z) := by
  simp [filt2, lower_high, highPass]
theorem filt2_bandstop (gauss : K → K → F → F) (twoPi res a b t : K) (Z : F) :
    filt2 gauss twoPi Z res (.vector [a, b]) "bandstop" t =
      some (gauss (max a b / res / twoPi) (26 / 10) Z - (Z - gauss (min a b / res / twoPi) (26 / 10) Z)) := by
  simp [filt2, lower_bandstop, highPass, lowPass]

/-- **C41**, sum: the low-pass and the high-pass result for the same wavelength and truncation add up to the field. -/
theorem C41_adds_up (gauss : K → K → F → F) (twoPi res t : K) (wl : WaveArg K) (Z L H : F)
    (hl : filt2 gauss twoPi Z res wl "lowpass" t = some L) (hh : filt2 gauss twoPi Z res wl "highpass" t = some H) : L + H = Z := by
  cases wl with
  | scalar w =>
    rw [filt2_low] at hl
    rw [filt2_high] at hh
    rw [← Option.some.inj hl, ← Option.some.inj hh]
    abel
  | vector ws => exact absurd hl (by simp [filt2, lower_low])

/-- **C41**, arguments: after lowering the case of the name, exactly the four names with the fitting kind of wavelength are accepted. -/
theorem C41_accepted (gauss : K → K → F → F) (twoPi res t : K) (wl : WaveArg K) (name : String) (Z : F) :
    (filt2 gauss twoPi Z res wl name t).isSome ↔ Spec.FilterArgs name.toLower wl := by
  unfold filt2 Spec.FilterArgs
  split
  · rename_i h; simp [h]
  · rename_i h; simp [h]
  · rename_i h; simp [h]
  · rename_i h; simp [h]
  · rename_i h1 h2 h3 h4
    simp only [Option.isSome_none, Bool.false_eq_true, false_iff, not_or, not_and, not_exists]
    refine ⟨?_, ?_⟩
    · rintro (h | h) w rfl
      · exact h1 w h rfl
      · exact h2 w h rfl
    · rintro (h | h) a b rfl
      · exact h3 a b h rfl
      · exact h4 a b h rfl

/-- **C41**, band-pass: the result is the part of the field that the high-pass filter for the longer wavelength lets through, smoothed
for the shorter one; the given truncation plays no role. -/
theorem C41_bandpass (gauss : K → K → F → F) (twoPi res t a b : K) (Z : F) :
    ∃ H, filt2 gauss twoPi Z res (.scalar (max a b)) "highpass" (26 / 10) = some H ∧
      filt2 gauss twoPi Z res (.vector [a, b]) "bandpass" t = filt2 gauss twoPi H res (.scalar (min a b)) "lowpass" (26 / 10) :=
  ⟨_, filt2_high .., by simp [filt2, lower_bandpass, lower_low, highPass, lowPass]⟩

/-- **C41**, band-stop: the result together with the field is the sum of the two smoothed fields.
Missing: the field minus the band, which would be the smoothed field for the longer wavelength plus the high-pass part for the shorter one;
the source subtracts the latter (`C41_bandstop_negates_short_waves`). -/
theorem C41_bandstop_partial (gauss : K → K → F → F) (twoPi res t a b : K) (Z B L S : F)
    (hb : filt2 gauss twoPi Z res (.vector [a, b]) "bandstop" t = some B)
    (hl : filt2 gauss twoPi Z res (.scalar (max a b)) "lowpass" (26 / 10) = some L)
    (hs : filt2 gauss twoPi Z res (.scalar (min a b)) "lowpass" (26 / 10) = some S) : B + Z = L + S := by
  rw [filt2_bandstop] at hb
  rw [filt2_low] at hl hs
  rw [← Option.some.inj hb, ← Option.some.inj hl, ← Option.some.inj hs]
  abel

/-- **C41**, long waves: a field that both smoothers keep passes the band-stop filter unchanged. -/
theorem C41_bandstop_long_waves_partial (gauss : K → K → F → F) (twoPi res t a b : K) (Z : F)
    (hl : filt2 gauss twoPi Z res (.scalar (max a b)) "lowpass" (26 / 10) = some Z)
    (hs : filt2 gauss twoPi Z res (.scalar (min a b)) "lowpass" (26 / 10) = some Z) :
    filt2 gauss twoPi Z res (.vector [a, b]) "bandstop" t = some Z := by
  have := C41_bandstop_partial gauss twoPi res t a b Z _ Z Z (filt2_bandstop ..) hl hs
  rw [filt2_bandstop]
  exact congrArg some (by simpa using this)

/-- **C41** fails: a wave that both smoothers remove, that is a wave shorter than the stop band, comes out negated. -/
theorem C41_bandstop_negates_short_waves (gauss : K → K → F → F) (twoPi res t a b : K) (Z : F)
    (hl : filt2 gauss twoPi Z res (.scalar (max a b)) "lowpass" (26 / 10) = some 0)
    (hs : filt2 gauss twoPi Z res (.scalar (min a b)) "lowpass" (26 / 10) = some 0) :
    filt2 gauss twoPi Z res (.vector [a, b]) "bandstop" t = some (-Z) := by
  have := C41_bandstop_partial gauss twoPi res t a b Z _ 0 0 (filt2_bandstop ..) hl hs
  rw [filt2_bandstop]
  exact congrArg some (eq_neg_of_add_eq_zero_left (by simpa using this))

/-- **C41**: a field the smoother keeps, such as a constant one, is kept by low-pass and removed by high-pass. -/
theorem C41_kept_fields (gauss : K → K → F → F) (twoPi res t w : K) (Z : F) (h : gauss (w / res / twoPi) t Z = Z) :
    filt2 gauss twoPi Z res (.scalar w) "lowpass" t = some Z ∧ filt2 gauss twoPi Z res (.scalar w) "highpass" t = some 0 := by
  rw [filt2_low, filt2_high, h]
  simp
end

/-- A smoother for concrete runs on fields of two nodes: both nodes get the mean. -/
def meanSmoother : ℚ → ℚ → ℚ × ℚ → ℚ × ℚ := fun _ _ Z => ((Z.1 + Z.2) / 2, (Z.1 + Z.2) / 2)

-- It is linear and keeps constant fields.
example (s t a b : ℚ) (Z W : ℚ × ℚ) : meanSmoother s t (a • Z + b • W) = a • meanSmoother s t Z + b • meanSmoother s t W := by
  simp [meanSmoother]
  ring
example (s t c : ℚ) : meanSmoother s t (c, c) = (c, c) := by simp [meanSmoother]

/-- **C41** fails for a linear smoother that keeps constants: the wave (1, −1), which is shorter than the band, has no band-pass content
and is changed to (−1, 1) by the band-stop filter. -/
theorem C41_bandstop_wrong_sign :
    filt2 meanSmoother 6 ((1, -1) : ℚ × ℚ) 1 (.vector [4, 7]) "bandpass" (26 / 10) = some (0, 0) ∧
      filt2 meanSmoother 6 ((1, -1) : ℚ × ℚ) 1 (.vector [4, 7]) "bandstop" (26 / 10) = some (-1, 1) := by decide +kernel

-- Low-pass and high-pass of a field, names in any case, and rejected arguments.
example : filt2 meanSmoother 6 ((3, 5) : ℚ × ℚ) 1 (.scalar 4) "LowPass" 1 = some (4, 4) ∧
    filt2 meanSmoother 6 ((3, 5) : ℚ × ℚ) 1 (.scalar 4) "highpass" 1 = some (-1, 1) ∧
    filt2 meanSmoother 6 ((3, 5) : ℚ × ℚ) 1 (.scalar 4) "bandpass" 1 = none ∧
    filt2 meanSmoother 6 ((3, 5) : ℚ × ℚ) 1 (.vector [4, 7]) "lowpass" 1 = none ∧
    filt2 meanSmoother 6 ((3, 5) : ℚ × ℚ) 1 (.vector [4, 7, 9]) "bandstop" 1 = none ∧
    filt2 meanSmoother 6 ((3, 5) : ℚ × ℚ) 1 (.scalar 4) "gauss" 1 = none := by decide +kernel
-- The hypotheses of the two band-stop theorems are met.
example : filt2 meanSmoother 6 ((3, 3) : ℚ × ℚ) 1 (.scalar (max 4 7)) "lowpass" (26 / 10) = some (3, 3) ∧
    filt2 meanSmoother 6 ((3, -3) : ℚ × ℚ) 1 (.scalar (min 4 7)) "lowpass" (26 / 10) = some 0 := by decide +kernel
end OM
