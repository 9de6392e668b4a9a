import Verif.Model.SimpVolFl
import Verif.Lemmas.FixMesh
import Verif.Props.InpolyFl
/-!
# C115: areas and orientation in rounded arithmetic
-/
set_option linter.unusedSectionVars false
namespace OM
open Spec

/-- The two products whose difference is twice the signed area, in absolute value. -/
def Spec.areaScale {K : Type} [Field K] [LinearOrder K] (x y z : K × K) : K :=
  |(y.1 - x.1) * (z.2 - x.2)| + |(y.2 - x.2) * (z.1 - x.1)|

section
variable {K : Type} [Field K] [LinearOrder K] [IsStrictOrderedRing K]

theorem signedArea_products (x y z : K × K) :
    signedArea x y z = ((y.1 - x.1) * (z.2 - x.2) - (y.2 - x.2) * (z.1 - x.1)) / 2 := by
  unfold signedArea
  ring

theorem triVolFl_fac {rnd : K → K} {u : K} (hr : RelError rnd u) (h0 : 0 ≤ u) (hu : u < 1) (x y z : K × K) :
    ∃ f g r, Fac u 3 f ∧ Fac u 3 g ∧ Fac u 2 r ∧
      triVolFl rnd x y z = ((y.1 - x.1) * (z.2 - x.2) * f - (y.2 - x.2) * (z.1 - x.1) * g) / 2 * r := by
  obtain ⟨f1, g1, e1⟩ := rnd_fac hr h0 hu (y.1 - x.1)
  obtain ⟨f2, g2, e2⟩ := rnd_fac hr h0 hu (z.2 - x.2)
  obtain ⟨f3, g3, e3⟩ := rnd_fac hr h0 hu (y.2 - x.2)
  obtain ⟨f4, g4, e4⟩ := rnd_fac hr h0 hu (z.1 - x.1)
  obtain ⟨f5, g5, e5⟩ := rnd_fac hr h0 hu (rnd (y.1 - x.1) * rnd (z.2 - x.2))
  obtain ⟨f6, g6, e6⟩ := rnd_fac hr h0 hu (rnd (y.2 - x.2) * rnd (z.1 - x.1))
  obtain ⟨f7, g7, e7⟩ := rnd_fac hr h0 hu (rnd (rnd (y.1 - x.1) * rnd (z.2 - x.2)) - rnd (rnd (y.2 - x.2) * rnd (z.1 - x.1)))
  obtain ⟨f8, g8, e8⟩ := rnd_fac hr h0 hu (rnd (rnd (rnd (y.1 - x.1) * rnd (z.2 - x.2)) - rnd (rnd (y.2 - x.2) * rnd (z.1 - x.1))) / 2)
  refine ⟨f1 * f2 * f5, f3 * f4 * f6, f7 * f8, (g1.mul hu g2).mul hu g5, (g3.mul hu g4).mul hu g6, g7.mul hu g8, ?_⟩
  unfold triVolFl
  simp only
  rw [e8, e7, e5, e6, e1, e2, e3, e4]
  ring

theorem weighted_err {A B f g e : K} (hf : |f - 1| ≤ e) (hg : |g - 1| ≤ e) : |A * f - B * g - (A - B)| ≤ e * (|A| + |B|) := by
  have h1 := mul_err (R := A) hf
  have h2 := mul_err (R := B) hg
  rw [show A * f - B * g - (A - B) = (A * f - A) - (B * g - B) by ring]
  have := abs_sub (A * f - A) (B * g - B)
  linarith

/-- **C115**, error of the computed area: at most `3 u` times the sum of the sizes of the two products. -/
theorem C115_error {rnd : K → K} {u : K} (hr : RelError rnd u) (h0 : 0 ≤ u) (hu : u ≤ 1 / 128) (x y z : K × K) :
    |triVolFl rnd x y z - signedArea x y z| ≤ 3 * u * areaScale x y z := by
  have hu1 : u < 1 := by linarith
  obtain ⟨f, g, r, hf, hg, hr', e⟩ := triVolFl_fac hr h0 hu1 x y z
  rw [e, signedArea_products]
  unfold areaScale
  generalize (y.1 - x.1) * (z.2 - x.2) = A
  generalize (y.2 - x.2) * (z.1 - x.1) = B
  have h1 := (hf.mul hu1 hr').err h0 (by push_cast; linarith) hu1
  have h2 := (hg.mul hu1 hr').err h0 (by push_cast; linarith) hu1
  push_cast at h1 h2
  have h3 := weighted_err (A := A) (B := B) h1 h2
  rw [show (A * f - B * g) / 2 * r - (A - B) / 2 = (A * (f * r) - B * (g * r) - (A - B)) / 2 by ring, abs_div, abs_of_pos (by norm_num : (0 : K) < 2)]
  have hs : 0 ≤ u * (|A| + |B|) := by positivity
  rw [div_le_iff₀ (by norm_num)]
  nlinarith

/-- **C115**, sign: triangles whose area is more than `2 u` times that sum get the right sign. -/
theorem C115_sign {rnd : K → K} {u : K} (hr : RelError rnd u) (h0 : 0 ≤ u) (hu : u ≤ 1 / 128) {x y z : K × K}
    (hbig : 2 * u * areaScale x y z < |signedArea x y z|) :
    (triVolFl rnd x y z < 0 ↔ signedArea x y z < 0) ∧ (0 < triVolFl rnd x y z ↔ 0 < signedArea x y z) := by
  have hu1 : u < 1 := by linarith
  obtain ⟨f, g, r, hf, hg, hr', e⟩ := triVolFl_fac hr h0 hu1 x y z
  have hrp := hr'.pos hu1
  rw [signedArea_products] at hbig ⊢
  rw [e]
  unfold areaScale at hbig
  generalize (y.1 - x.1) * (z.2 - x.2) = A at *
  generalize (y.2 - x.2) * (z.1 - x.1) = B at *
  have h1 := hf.err h0 (by push_cast; linarith) hu1
  have h2 := hg.err h0 (by push_cast; linarith) hu1
  push_cast at h1 h2
  have h3 := weighted_err (A := A) (B := B) h1 h2
  have hs : 0 ≤ u * (|A| + |B|) := by positivity
  rw [abs_le] at h3
  rw [lt_abs] at hbig
  have s1 : (A * f - B * g) / 2 * r < 0 ↔ A * f - B * g < 0 := by
    constructor
    · intro h
      by_contra hc
      exact absurd h (not_lt.2 (mul_nonneg (by linarith [not_lt.1 hc]) hrp.le))
    · intro h
      exact mul_neg_of_neg_of_pos (by linarith) hrp
  have s2 : 0 < (A * f - B * g) / 2 * r ↔ 0 < A * f - B * g := by
    rw [mul_pos_iff_of_pos_right hrp]
    constructor <;> intro h <;> linarith
  rw [s1, s2]
  refine ⟨⟨fun h => ?_, fun h => ?_⟩, ⟨fun h => ?_, fun h => ?_⟩⟩ <;>
    (rcases hbig with hb | hb <;> nlinarith [h3.1, h3.2])

/-- **C115**, no area: if two corners are the same point, the computed area is exactly zero, for every rounding rule. -/
theorem C115_equal_corners {rnd : K → K} (hR : Rounding rnd) (x y : K × K) :
    triVolFl rnd x x y = 0 ∧ triVolFl rnd x y x = 0 ∧ triVolFl rnd x y y = 0 := by
  unfold triVolFl
  simp only [sub_self, hR.zero, mul_zero, zero_mul, zero_div, true_and]
  rw [mul_comm, sub_self, hR.zero, zero_div, hR.zero]

theorem flipTrisFl_forall₂ {rnd : K → K} {p : List (K × K)} : ∀ {t t' : List Tri}, flipTrisFl rnd p t = some t' →
    List.Forall₂ (fun f f' => flipTriFl rnd p f = some f') t t' := by
  intro t
  induction t with
  | nil => intro t' h; simp only [flipTrisFl, Option.some.injEq] at h; subst h; exact .nil
  | cons f t ih =>
    intro t' h
    rw [flipTrisFl] at h
    cases hf : flipTriFl rnd p f with
    | none => rw [hf] at h; simp at h
    | some f' =>
      cases ht : flipTrisFl rnd p t with
      | none => rw [hf, ht] at h; simp at h
      | some r =>
        rw [hf, ht] at h
        simp only [Option.some.injEq] at h
        subst h
        exact .cons hf (ih ht)

/-- **C115**: the orientation step returns for every valid table, keeps the rows up to the order of the first two corners, and every
row of the result whose area is more than `2 u` times the sum of the sizes of the products (measured in the order given) is counterclockwise. -/
theorem C115_orientation_partial {rnd : K → K} {u : K} (hr : RelError rnd u) (h0 : 0 ≤ u) (hu : u ≤ 1 / 128) {p : List (K × K)} {t : List Tri}
    (hv : ValidMesh p t) :
    ∃ t', flipTrisFl rnd p t = some t' ∧ List.Forall₂ (fun f f' =>
      (f' = f ∨ f' = ⟨f.b, f.a, f.c⟩) ∧ ∀ x y z, corners p f = [some x, some y, some z] → 2 * u * areaScale x y z < |signedArea x y z| →
        ∃ x' y' z', corners p f' = [some x', some y', some z'] ∧ signedArea x' y' z' = |signedArea x y z|) t t' := by
  have get : ∀ f ∈ t, ∃ x y z, p[f.a]? = some x ∧ p[f.b]? = some y ∧ p[f.c]? = some z := fun f hf =>
    ⟨_, _, _, List.getElem?_eq_getElem (hv f hf f.a (.inl rfl)), List.getElem?_eq_getElem (hv f hf f.b (.inr (.inl rfl))),
      List.getElem?_eq_getElem (hv f hf f.c (.inr (.inr rfl)))⟩
  have hsome : ∀ t : List Tri, (∀ f ∈ t, ∃ x y z, p[f.a]? = some x ∧ p[f.b]? = some y ∧ p[f.c]? = some z) → ∃ t', flipTrisFl rnd p t = some t' := by
    intro t
    induction t with
    | nil => intro _; exact ⟨[], rfl⟩
    | cons f t ih =>
      intro hg
      obtain ⟨x, y, z, hx, hy, hz⟩ := hg f (by simp)
      obtain ⟨t', ht'⟩ := ih fun g hg' => hg g (by simp [hg'])
      exact ⟨(if triVolFl rnd x y z < 0 then ⟨f.b, f.a, f.c⟩ else f) :: t', by rw [flipTrisFl, flipTriFl, hx, hy, hz, ht']⟩
  obtain ⟨t', ht'⟩ := hsome t get
  refine ⟨t', ht', ?_⟩
  have h2 := flipTrisFl_forall₂ ht'
  clear ht' hv hsome
  induction h2 with
  | nil => exact .nil
  | @cons f f' t t' hf _ ih =>
    refine .cons ?_ (ih fun g hg => get g (by simp [hg]))
    obtain ⟨x, y, z, hx, hy, hz⟩ := get f (by simp)
    unfold flipTriFl at hf
    rw [hx, hy, hz] at hf
    simp only [Option.some.injEq] at hf
    refine ⟨?_, ?_⟩
    · subst hf
      split
      · exact .inr rfl
      · exact .inl rfl
    · intro x1 y1 z1 hc hbig
      unfold corners at hc
      rw [hx, hy, hz] at hc
      simp only [List.cons.injEq, Option.some.injEq, and_true] at hc
      obtain ⟨rfl, rfl, rfl⟩ := hc
      obtain ⟨hs, -⟩ := C115_sign hr h0 hu hbig
      by_cases hneg : signedArea x y z < 0
      · rw [if_pos (hs.2 hneg)] at hf
        subst hf
        refine ⟨y, x, z, by unfold corners; simp only [hx, hy, hz], ?_⟩
        rw [abs_of_neg hneg]
        unfold signedArea
        ring
      · rw [if_neg (fun h => hneg (hs.1 h))] at hf
        subst hf
        refine ⟨x, y, z, by unfold corners; simp only [hx, hy, hz], ?_⟩
        rw [abs_of_nonneg (not_lt.1 hneg)]

end

section
variable {K : Type} [Field K] [LinearOrder K] [IsStrictOrderedRing K] [FloorRing K]

/-- **C115** for doubles: areas are wrong by at most `3 / 2 ^ 53` times the sum of the sizes of the two products. -/
theorem C115_doubles (x y z : K × K) : |triVolFl roundDouble x y z - signedArea x y z| ≤ 3 / 2 ^ 53 * areaScale x y z := by
  have := C115_error (K := K) C113_roundDouble.2 (by positivity) (by norm_num) x y z
  rw [show (3 : K) * (1 / 2 ^ 53) = 3 / 2 ^ 53 by ring] at this
  exact this

end

/-- Three points of the plane (doubles), nearly on a line: 53.1, 50; 121.1, -63.1; 74.18…, 14.93…. -/
def sliver : List (ℚ × ℚ) :=
  [(7473160631667917 / 140737488355328, 50), (4260827459957555 / 35184372088832, -8880535515221197 / 140737488355328),
    (1305008332970489 / 17592186044416, 2102211590853795 / 140737488355328)]

/-- **C115** fails for slivers: the row has a negative computed area, is flipped, and then has a negative computed area again. So in the result of
`fix_mesh` there are rows with a negative `simp_vol`, and repeating the step alone flips them again
(a further call of `fix_mesh` sorts the rows first and then does the same as before, `C121_repeat_partial`). -/
theorem C115_sliver_flips :
    flipTrisFl roundDouble sliver [⟨0, 1, 2⟩] = some [⟨1, 0, 2⟩] ∧ flipTrisFl roundDouble sliver [⟨1, 0, 2⟩] = some [⟨0, 1, 2⟩] := by
  decide +kernel

/-- Three doubles nearly on a line whose computed area is negative in the order in which they are counterclockwise. -/
def sliver2 : List (ℚ × ℚ) :=
  [(7778560981398979 / 281474976710656, -4331618416600285 / 281474976710656), (5080060379673919 / 18014398509481984, 1038994507783209 / 35184372088832),
    (2685940844645685 / 281474976710656, 4031464386851665 / 281474976710656)]

/-- **C115** fails for slivers: a counterclockwise row is made clockwise. -/
theorem C115_made_clockwise : flipTris sliver2 [⟨0, 1, 2⟩] = some [⟨0, 1, 2⟩] ∧
    flipTrisFl roundDouble sliver2 [⟨0, 1, 2⟩] = some [⟨1, 0, 2⟩] := by
  decide +kernel

/-- The hypotheses of `C115_sign` and `C115_orientation_partial` hold for a triangle of a tenth of a degree. -/
example : flipTrisFl roundDouble [((1, 50) : ℚ × ℚ), (1 + 1 / 8, 50), (1, 50 - 1 / 8)] [⟨0, 1, 2⟩] = some [⟨1, 0, 2⟩] ∧
    2 * (1 / 2 ^ 53) * areaScale ((1, 50) : ℚ × ℚ) (1 + 1 / 8, 50) (1, 50 - 1 / 8) < |signedArea (1, 50) (1 + 1 / 8, 50) (1, 50 - 1 / 8)| ∧
    ValidMesh [((1, 50) : ℚ × ℚ), (1 + 1 / 8, 50), (1, 50 - 1 / 8)] [⟨0, 1, 2⟩] := by
  refine ⟨by decide +kernel, by decide +kernel, ?_⟩
  intro f hf v hv
  simp only [List.mem_singleton] at hf
  subst hf
  rcases hv with rfl | rfl | rfl <;> decide

/-- `C115_equal_corners` applies to doubles. -/
example : triVolFl roundDouble ((1 / 3, 1) : ℚ × ℚ) (1 / 7, 5) (1 / 7, 5) = 0 := (C115_equal_corners C113_roundDouble.1 _ _).2.2

end OM
