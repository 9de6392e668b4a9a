import Verif.Props.QualFl
/-!
# C131: decisions by quality in rounded arithmetic
-/
set_option linter.unusedSectionVars false
namespace OM
open Spec

section
variable {K : Type} [Field K] [LinearOrder K] [IsStrictOrderedRing K]

/-- **C131** (4) Two equal corners: NaN, for every rounding rule. -/
theorem C131_equal_corners {rnd root : K → K} (hR : Rounding rnd) (hr0 : root 0 = 0) (x y : K × K) :
    triQualFl rnd root x x y = none ∧ triQualFl rnd root x y x = none ∧ triQualFl rnd root x y y = none := by
  refine ⟨?_, ?_, ?_⟩ <;> unfold triQualFl qualOfLengthsFl <;> simp [edgeLengthFl_self hR hr0, hR.zero]

end

/-- **C131** (5) Without rounding the quality is that of C11. -/
theorem C131_exact (p q r : ℝ × ℝ) : triQualFl id (rootFl id) p q r = triQual p q r := by
  have e : ∀ p q : ℝ × ℝ, edgeLengthFl id (rootFl id) p q = edgeLength p q := by
    intro p q
    unfold edgeLengthFl rootFl edgeLength
    simp only [id]
    congr 1; ring
  unfold triQualFl triQual qualOfLengthsFl qualOfLengths
  simp only [e, id, rootFl]
  norm_num

theorem belowQual_iff {K : Type} [Field K] [LinearOrder K] (mq : K) (o : Option K) : belowQual mq o = true ↔ ∃ v, o = some v ∧ v < mq := by
  cases o <;> simp [belowQual]

theorem faceQualFl_corners {K : Type} [Field K] [LinearOrder K] {rnd root : K → K} {p : List (K × K)} {f : Tri} {x y z : K × K}
    (h : corners p f = [some x, some y, some z]) : faceQualFl rnd root p f = triQualFl rnd root x y z := by
  unfold corners at h
  simp only [List.cons.injEq, and_true] at h
  unfold faceQualFl
  rw [h.1, h.2.1, h.2.2]

/-- A triangle of a mesh that is neither thin nor of poor quality, nor nearly so. -/
def Spec.ClearlyGood (κ u mq : ℝ) (p : List (ℝ × ℝ)) (f : Tri) : Prop :=
  ∃ x y z, corners p f = [some x, some y, some z] ∧ x ≠ y ∧ Plump κ x y z ∧ mq ≤ (1 - 60 * (κ * u)) * radiusQuality x y z

/-- A triangle of a mesh that is not thin, but clearly of poor quality. -/
def Spec.ClearlyPoor (κ u mq : ℝ) (p : List (ℝ × ℝ)) (f : Tri) : Prop :=
  ∃ x y z, corners p f = [some x, some y, some z] ∧ x ≠ y ∧ Plump κ x y z ∧ (1 + 60 * (κ * u)) * radiusQuality x y z < mq

/-- **C131** (6) `delete_boundary_faces` with computed qualities: no triangle of the result comes from a triangle that touches the boundary and is clearly poor;
triangles that do not touch the boundary and triangles that are clearly good are all in the result. Missing: thin triangles, see (8). -/
theorem C131_boundary_partial {E : EngineFl ℝ} {u M κ : ℝ} (hR : Rounding E.fl) (hrel : RelError E.fl u) (h0 : 0 ≤ u) (hku : 500 * (κ * u) ≤ 1) (hu : u ≤ 1 / 2)
    (hq : E.qual = faceQualFl E.fl (rootFl E.fl)) (hr : IsRounding E.rnd) (hpt : 0 < E.ptol) (minQual : ℝ) {m : Mesh ℝ}
    (hv : ValidMesh m.p m.t) (hp : m.p ≠ []) (hus : ∀ v < m.p.length, ∃ f ∈ m.t, HasVertex f v)
    (ht : ∀ f ∈ m.t, Nondegenerate f) {e : ℝ} (he : IsExtent m.p e) (hM : ∀ q ∈ m.p, |q.1| ≤ M ∧ |q.2| ≤ M) :
    ∃ m', deleteBoundaryFacesFl E minQual m = some m' ∧
      (∀ g ∈ m'.t, ∃ f ∈ m.t, ¬ (TouchesBoundary m.t f ∧ ClearlyPoor κ u minQual m.p f) ∧
        CornersMatch (Within ((1 + u) ^ 3 * (e * E.ptol) + 5 * u * M)) m.p f m'.p g) ∧
      (∀ f ∈ m.t, ¬ TouchesBoundary m.t f ∨ ClearlyGood κ u minQual m.p f → ∃ g ∈ m'.t,
        CornersMatch (Within ((1 + u) ^ 3 * (e * E.ptol) + 5 * u * M)) m.p f m'.p g) := by
  obtain ⟨m', h1, h2, h3⟩ := C130_boundary_faces hR hrel h0 hu hr hpt minQual hv hp hus ht he hM
  refine ⟨m', h1, ?_, ?_⟩
  · intro g hg
    obtain ⟨f, hf, hn, hc⟩ := h2 g hg
    refine ⟨f, hf, ?_, hc⟩
    rintro ⟨hb, x, y, z, hcor, hne, hpl, hpoor⟩
    apply hn
    obtain ⟨v, hv', -, herr⟩ := C131_accuracy_partial hrel h0 hku hne hpl
    refine ⟨hb, v, ?_, ?_⟩
    · rw [hq, faceQualFl_corners hcor, hv']
    · rw [abs_le] at herr; linarith [herr.2]
  · intro f hf hgood
    apply h3 f hf
    rintro ⟨hb, w, hw, hlt⟩
    rcases hgood with hgood | ⟨x, y, z, hcor, hne, hpl, hgd⟩
    · exact hgood hb
    · obtain ⟨v, hv', -, herr⟩ := C131_accuracy_partial hrel h0 hku hne hpl
      rw [hq, faceQualFl_corners hcor, hv'] at hw
      simp only [Option.some.injEq] at hw
      rw [abs_le] at herr
      subst hw
      linarith [herr.1]

/-- **C131** (7) The order of two computed qualities is that of the exact ones up to the error: so where the program deletes the face with the lowest computed
quality, no other (not thin) face is clearly worse. -/
theorem C131_order {rnd : ℝ → ℝ} {u κ : ℝ} (hr : RelError rnd u) (h0 : 0 ≤ u) (hku : 500 * (κ * u) ≤ 1) {p q r p' q' r' : ℝ × ℝ} (hne : p ≠ q)
    (h : Plump κ p q r) (hne' : p' ≠ q') (h' : Plump κ p' q' r') {v v' : ℝ} (hv : triQualFl rnd (rootFl rnd) p q r = some v)
    (hv' : triQualFl rnd (rootFl rnd) p' q' r' = some v') (hle : v ≤ v') :
    (1 - 60 * (κ * u)) * radiusQuality p q r ≤ (1 + 60 * (κ * u)) * radiusQuality p' q' r' := by
  obtain ⟨w, hw, -, e⟩ := C131_accuracy_partial hr h0 hku hne h
  obtain ⟨w', hw', -, e'⟩ := C131_accuracy_partial hr h0 hku hne' h'
  rw [hv, Option.some.injEq] at hw
  rw [hv', Option.some.injEq] at hw'
  subst hw hw'
  rw [abs_le] at e e'
  linarith [e.1, e'.2]

/-! ## Doubling -/

/-- **C131** (8) The defect of C11 is exact in doubles: with all coordinates doubled, the computed quality is exactly doubled (and NaN stays NaN). -/
theorem C131_doubled (p q r : ℝ × ℝ) :
    triQualFl roundDouble (rootFl roundDouble) (2 * p.1, 2 * p.2) (2 * q.1, 2 * q.2) (2 * r.1, 2 * r.2) =
      (triQualFl roundDouble (rootFl roundDouble) p q r).map (2 * ·) := by
  have r4 : ∀ x : ℝ, roundDouble (2 * (2 * x)) = 2 * (2 * roundDouble x) := fun x => by rw [roundDouble_two_mul, roundDouble_two_mul]
  have r8 : ∀ x : ℝ, roundDouble (2 * (2 * (2 * x))) = 2 * (2 * (2 * roundDouble x)) := fun x => by rw [roundDouble_two_mul, r4]
  have r16 : ∀ x : ℝ, roundDouble (2 * (2 * (2 * (2 * x)))) = 2 * (2 * (2 * (2 * roundDouble x))) := fun x => by rw [roundDouble_two_mul, r8]
  have root4 : ∀ x : ℝ, rootFl roundDouble (2 * (2 * x)) = 2 * rootFl roundDouble x := by
    intro x
    unfold rootFl
    rw [show 2 * (2 * x) = 2 ^ 2 * x by ring, Real.sqrt_mul (by norm_num), Real.sqrt_sq (by norm_num), roundDouble_two_mul]
  have el : ∀ p q : ℝ × ℝ, edgeLengthFl roundDouble (rootFl roundDouble) (2 * p.1, 2 * p.2) (2 * q.1, 2 * q.2) =
      2 * edgeLengthFl roundDouble (rootFl roundDouble) p q := by
    intro p q
    unfold edgeLengthFl
    simp only
    rw [← mul_sub, ← mul_sub, roundDouble_two_mul, roundDouble_two_mul]
    rw [show ∀ x : ℝ, 2 * x * (2 * x) = 2 * (2 * (x * x)) from fun x => by ring, show ∀ x : ℝ, 2 * x * (2 * x) = 2 * (2 * (x * x)) from fun x => by ring,
      r4, r4, ← mul_add, ← mul_add, r4, root4]
  unfold triQualFl
  rw [el, el, el]
  generalize edgeLengthFl roundDouble (rootFl roundDouble) p q = a
  generalize edgeLengthFl roundDouble (rootFl roundDouble) p r = b
  generalize edgeLengthFl roundDouble (rootFl roundDouble) q r = c
  unfold qualOfLengthsFl
  simp only
  rw [← mul_add 2 a b, ← mul_add 2 b c, ← mul_add 2 c a, roundDouble_two_mul, roundDouble_two_mul, roundDouble_two_mul, ← mul_add, ← mul_sub, ← mul_sub, ← mul_sub,
    roundDouble_two_mul, roundDouble_two_mul, roundDouble_two_mul, roundDouble_two_mul]
  generalize roundDouble (roundDouble (a + b) + c) = s
  generalize roundDouble (roundDouble (b + c) - a) = x
  generalize roundDouble (roundDouble (c + a) - b) = y
  generalize roundDouble (roundDouble (a + b) - c) = z
  have m2 : ∀ x y : ℝ, 2 * x * (2 * y) = 2 * (2 * (x * y)) := fun x y => by ring
  have m4 : ∀ x y : ℝ, 2 * (2 * x) * (2 * y) = 2 * (2 * (2 * (x * y))) := fun x y => by ring
  have m8 : ∀ x y : ℝ, 2 * (2 * (2 * x)) * (2 * y) = 2 * (2 * (2 * (2 * (x * y)))) := fun x y => by ring
  rw [m2 s x, r4, m4, r8, m8, r16, m2 a b, r4, m4, r8, m2 x y, r4, m4, r8, root4, root4]
  generalize roundDouble (roundDouble (roundDouble (s * x) * y) * z) = under
  generalize roundDouble (roundDouble (a * b) * c) = abc
  generalize roundDouble (roundDouble (x * y) * z) = xyz
  have c1 : (2 * (2 * (2 * (2 * under))) < 0 ∨ 2 * s = 0 ∨ 2 * (2 * (2 * abc)) = 0) ↔ (under < 0 ∨ s = 0 ∨ abc = 0) := by
    refine or_congr ⟨fun h => by linarith, fun h => by linarith⟩ (or_congr ⟨fun h => by linarith, fun h => by linarith⟩ ⟨fun h => by linarith, fun h => by linarith⟩)
  have c2 : (2 * (2 * rootFl roundDouble under) = 0) ↔ rootFl roundDouble under = 0 := ⟨fun h => by linarith, fun h => by linarith⟩
  simp only [c1, c2]
  by_cases h1 : under < 0 ∨ s = 0 ∨ abc = 0
  · rw [if_pos h1, if_pos h1]; rfl
  rw [if_neg h1, if_neg h1]
  by_cases h2 : rootFl roundDouble under = 0
  · rw [if_pos h2, if_pos h2]; simp
  rw [if_neg h2, if_neg h2]
  have d1 : 2 * (2 * (2 * xyz)) / (2 * s) = 2 * (2 * (xyz / s)) := by
    rw [mul_div_mul_left _ _ (by norm_num : (2 : ℝ) ≠ 0)]; ring
  have d2 : 2 * (2 * (2 * abc)) / (2 * (2 * rootFl roundDouble under)) = 2 * (abc / rootFl roundDouble under) := by
    rw [mul_div_mul_left _ _ (by norm_num : (2 : ℝ) ≠ 0), mul_div_mul_left _ _ (by norm_num : (2 : ℝ) ≠ 0)]; ring
  have s2 : ∀ t : ℝ, roundDouble (1 / 2 * (2 * (2 * t))) = 2 * (2 * roundDouble (1 / 2 * t)) := fun t => by
    rw [show 1 / 2 * (2 * (2 * t)) = 2 * (2 * (1 / 2 * t)) by ring, r4]
  have s3 : ∀ t : ℝ, roundDouble (2 * (2 * (2 * t))) = 2 * (2 * roundDouble (2 * t)) := fun t => by rw [r4]
  rw [d1, d2, r4 (xyz / s), roundDouble_two_mul (abc / rootFl roundDouble under), s2, s3, mul_div_mul_left _ _ (by norm_num : (2 : ℝ) ≠ 0), mul_div_assoc,
    roundDouble_two_mul (_ / _)]
  rfl

/-- Legs 3 and 4 against legs 6 and 8: the computed quality of the second triangle is twice that of the first, so the first is "worse". -/
example : ∃ v, triQualFl roundDouble (rootFl roundDouble) (0, 0) (3, 0) (0, 4) = some v ∧ 0 < v ∧
    triQualFl roundDouble (rootFl roundDouble) (0, 0) (6, 0) (0, 8) = some (2 * v) ∧ v ≤ 2 * v := by
  obtain ⟨v, hv, hpos, -⟩ := C131_accuracy_partial (rnd := roundDouble) (u := 1 / 2 ^ 53) C113_roundDouble.2 (by positivity) (by norm_num)
    (show ((0 : ℝ), (0 : ℝ)) ≠ (3, 0) by simp) plump_345
  have h := C131_doubled (0, 0) (3, 0) (0, 4)
  rw [hv] at h
  norm_num at h
  exact ⟨v, hv, hpos, h, by linarith⟩

/-! ## The sliver -/

/-- The corners of a sliver: `-1`, `2⁻⁵³` and `1 + 3 · 2⁻⁵²` on the axis, the middle one raised by `2⁻⁶⁰`. -/
noncomputable def sliverPts : List (ℝ × ℝ) :=
  [(((-1 : ℚ) : ℝ), ((0 : ℚ) : ℝ)), (((1 / 2 ^ 53 : ℚ) : ℝ), ((1 / 2 ^ 60 : ℚ) : ℝ)), (((1 + 3 / 2 ^ 52 : ℚ) : ℝ), ((0 : ℚ) : ℝ))]

/-- Evaluation of a length of rational points. -/
theorem edgeLength_eval {x y x' y' S lo hi L : ℚ}
    (hS : roundDouble (roundDouble (roundDouble (x' - x) * roundDouble (x' - x)) + roundDouble (roundDouble (y' - y) * roundDouble (y' - y))) = S)
    (h0 : 0 ≤ lo) (h1 : lo * lo ≤ S) (h2 : S ≤ hi * hi) (h3 : roundDouble lo = L) (h4 : roundDouble hi = L) (h5 : 0 ≤ hi) :
    edgeLengthFl roundDouble (rootFl roundDouble) ((x : ℝ), (y : ℝ)) ((x' : ℝ), (y' : ℝ)) = L := by
  unfold edgeLengthFl rootFl
  simp only [← Rat.cast_sub, roundDouble_cast, ← Rat.cast_mul, ← Rat.cast_add]
  rw [hS]
  exact roundDouble_sqrt h0 h1 h2 h3 h4 h5

theorem sliver_nan : faceQualFl roundDouble (rootFl roundDouble) sliverPts ⟨0, 1, 2⟩ = none := by
  have e1 : edgeLengthFl roundDouble (rootFl roundDouble) (((-1 : ℚ) : ℝ), ((0 : ℚ) : ℝ)) (((1 / 2 ^ 53 : ℚ) : ℝ), ((1 / 2 ^ 60 : ℚ) : ℝ)) = ((1 : ℚ) : ℝ) :=
    edgeLength_eval (S := 1) (lo := 1) (hi := 1) (by decide +kernel) (by norm_num) (by norm_num) (by norm_num) (by decide +kernel) (by decide +kernel) (by norm_num)
  have e2 : edgeLengthFl roundDouble (rootFl roundDouble) (((-1 : ℚ) : ℝ), ((0 : ℚ) : ℝ)) (((1 + 3 / 2 ^ 52 : ℚ) : ℝ), ((0 : ℚ) : ℝ)) = ((2 + 1 / 2 ^ 50 : ℚ) : ℝ) :=
    edgeLength_eval (S := 4 + 1 / 2 ^ 48) (lo := 2 + 1 / 2 ^ 50 - 1 / 2 ^ 80) (hi := 2 + 1 / 2 ^ 50) (by decide +kernel) (by norm_num) (by norm_num) (by norm_num)
      (by decide +kernel) (by decide +kernel) (by norm_num)
  have e3 : edgeLengthFl roundDouble (rootFl roundDouble) (((1 / 2 ^ 53 : ℚ) : ℝ), ((1 / 2 ^ 60 : ℚ) : ℝ)) (((1 + 3 / 2 ^ 52 : ℚ) : ℝ), ((0 : ℚ) : ℝ)) = ((1 + 1 / 2 ^ 51 : ℚ) : ℝ) :=
    edgeLength_eval (S := 1 + 1 / 2 ^ 50) (lo := 1 + 1 / 2 ^ 51 - 1 / 2 ^ 80) (hi := 1 + 1 / 2 ^ 51) (by decide +kernel) (by norm_num) (by norm_num) (by norm_num)
      (by decide +kernel) (by decide +kernel) (by norm_num)
  unfold faceQualFl sliverPts
  simp only [List.getElem?_cons_zero, List.getElem?_cons_succ]
  unfold triQualFl
  rw [e1, e2, e3]
  unfold qualOfLengthsFl
  simp only [← Rat.cast_sub, roundDouble_cast, ← Rat.cast_mul, ← Rat.cast_add]
  rw [if_pos]
  left
  rw [← Rat.cast_zero, Rat.cast_lt]
  decide +kernel


/-- **C131** fails for slivers: a triangle with a positive area and a quality far below the default limit of `delete_boundary_faces` has the computed quality NaN, which
is not below the limit. So the face stays, although it touches the boundary. -/
theorem C131_sliver_kept :
    (∀ q ∈ sliverPts, IsDouble q.1 ∧ IsDouble q.2) ∧ ∃ x y z, corners sliverPts ⟨0, 1, 2⟩ = [some x, some y, some z] ∧ signedArea x y z ≠ 0 ∧
      radiusQuality x y z < 1 / 100 ∧ TouchesBoundary [⟨0, 1, 2⟩] ⟨0, 1, 2⟩ ∧
      deleteBoundaryRows lexOrder (stableSort Nat natOrder) (faceQualFl roundDouble (rootFl roundDouble) sliverPts) (1 / 100) sliverPts [⟨0, 1, 2⟩] =
        some [⟨0, 1, 2⟩] := by
  refine ⟨?_, _, _, _, rfl, ?_, ?_, ?_, ?_⟩
  · intro q hq
    simp only [sliverPts, List.mem_cons, List.not_mem_nil, or_false] at hq
    rcases hq with rfl | rfl | rfl
    · exact ⟨⟨-1, 0, by norm_num, by norm_num⟩, ⟨0, 0, by norm_num, by norm_num⟩⟩
    · exact ⟨⟨1, -53, by norm_num, by norm_num⟩, ⟨1, -60, by norm_num, by norm_num⟩⟩
    · exact ⟨⟨2 ^ 52 + 3, -52, by norm_num, by norm_num⟩, ⟨0, 0, by norm_num, by norm_num⟩⟩
  · unfold signedArea
    norm_num
  · have hA : |signedArea (((-1 : ℚ) : ℝ), ((0 : ℚ) : ℝ)) (((1 / 2 ^ 53 : ℚ) : ℝ), ((1 / 2 ^ 60 : ℚ) : ℝ)) (((1 + 3 / 2 ^ 52 : ℚ) : ℝ), ((0 : ℚ) : ℝ))| ≤ 1 / 2 ^ 59 := by
      unfold signedArea
      rw [abs_le]
      constructor <;> norm_num
    have l1 : 1 ≤ sideLength (((-1 : ℚ) : ℝ), ((0 : ℚ) : ℝ)) (((1 / 2 ^ 53 : ℚ) : ℝ), ((1 / 2 ^ 60 : ℚ) : ℝ)) :=
      Real.le_sqrt_of_sq_le (by norm_num)
    have l2 : 1 ≤ sideLength (((-1 : ℚ) : ℝ), ((0 : ℚ) : ℝ)) (((1 + 3 / 2 ^ 52 : ℚ) : ℝ), ((0 : ℚ) : ℝ)) :=
      Real.le_sqrt_of_sq_le (by norm_num)
    have l3 : 1 ≤ sideLength (((1 / 2 ^ 53 : ℚ) : ℝ), ((1 / 2 ^ 60 : ℚ) : ℝ)) (((1 + 3 / 2 ^ 52 : ℚ) : ℝ), ((0 : ℚ) : ℝ)) :=
      Real.le_sqrt_of_sq_le (by norm_num)
    unfold radiusQuality
    simp only
    generalize sideLength (((-1 : ℚ) : ℝ), ((0 : ℚ) : ℝ)) (((1 / 2 ^ 53 : ℚ) : ℝ), ((1 / 2 ^ 60 : ℚ) : ℝ)) = a at *
    generalize sideLength (((-1 : ℚ) : ℝ), ((0 : ℚ) : ℝ)) (((1 + 3 / 2 ^ 52 : ℚ) : ℝ), ((0 : ℚ) : ℝ)) = b at *
    generalize sideLength (((1 / 2 ^ 53 : ℚ) : ℝ), ((1 / 2 ^ 60 : ℚ) : ℝ)) (((1 + 3 / 2 ^ 52 : ℚ) : ℝ), ((0 : ℚ) : ℝ)) = c at *
    have hab : 1 ≤ a * b := by nlinarith
    have habc : 1 ≤ a * b * c := by nlinarith
    have hs : 1 ≤ (a + b + c) ^ 2 := by nlinarith
    have hden : 1 ≤ (a + b + c) ^ 2 * (a * b * c) := by nlinarith
    have hA3 := pow_le_pow_left₀ (abs_nonneg _) hA 3
    rw [div_lt_iff₀ (by linarith)]
    have : (64 : ℝ) * (1 / 2 ^ 59) ^ 3 < 1 / 100 := by norm_num
    linarith
  · exact ⟨0, .inl rfl, by decide +kernel⟩
  · obtain ⟨t', h1, h2⟩ := deleteBoundaryRows_spec lexOrder (stableSort Nat natOrder) (faceQualFl roundDouble (rootFl roundDouble) sliverPts) (1 / 100)
      (p := sliverPts) (t := [⟨0, 1, 2⟩]) (validMesh_of_bound (by simp [sliverPts])) (by
        intro v hv
        have hv' : v < 3 := hv
        refine ⟨_, List.mem_singleton.2 rfl, ?_⟩
        unfold HasVertex
        simp only
        omega)
    rw [h1, h2]
    simp only [List.filter_cons, sliver_nan, belowQual, Bool.false_and, Bool.not_false, if_true, List.filter_nil]

/-- An engine over the real numbers with the rounding of doubles and the qualities of `simp_qual`. -/
noncomputable def engineR : EngineFl ℝ where
  oE := lexOrder
  oP := ptOrder
  oT := triOrder
  srtE := stableSort Nat lexOrder
  srtV := stableSort Nat natOrder
  rnd := roundEven
  ptol := 1 / 10 ^ 6
  qual := faceQualFl roundDouble (rootFl roundDouble)
  fl := roundDouble
  sum := fun l => l.foldl (fun s y => roundDouble (s + y)) 0

/-- One triangle with legs 3 and 4 (quality 8/5): it stays with the default limit and goes with the limit 2. -/
example : (∃ m', deleteBoundaryFacesFl engineR (1 / 100) ⟨[(0, 0), (3, 0), (0, 4)], [⟨0, 1, 2⟩]⟩ = some m' ∧ m'.t ≠ []) ∧
    ∃ m', deleteBoundaryFacesFl engineR 2 ⟨[(0, 0), (3, 0), (0, 4)], [⟨0, 1, 2⟩]⟩ = some m' ∧ m'.t = [] := by
  have e1 : sideLength (0, 0) (3, 0) = 3 := by
    unfold sideLength; rw [Real.sqrt_eq_iff_mul_self_eq (by norm_num) (by norm_num)]; norm_num
  have e2 : sideLength (0, 0) (0, 4) = 4 := by
    unfold sideLength; rw [Real.sqrt_eq_iff_mul_self_eq (by norm_num) (by norm_num)]; norm_num
  have e3 : sideLength (3, 0) (0, 4) = 5 := by
    unfold sideLength; rw [Real.sqrt_eq_iff_mul_self_eq (by norm_num) (by norm_num)]; norm_num
  have hQ : radiusQuality (0, 0) (3, 0) (0, 4) = 8 / 5 := by
    simp only [radiusQuality, e1, e2, e3, signedArea]
    norm_num
  have key : ∀ mq : ℝ, _ := fun mq => C131_boundary_partial (E := engineR) (u := 1 / 2 ^ 53) (M := 4) (κ := 6) C113_roundDouble.1 C113_roundDouble.2
    (by positivity) (by norm_num) (by norm_num) rfl (show IsRounding (roundEven : ℝ → Int) from fun x => roundEven_near x) (by norm_num [engineR]) mq
    (m := ⟨[(0, 0), (3, 0), (0, 4)], [⟨0, 1, 2⟩]⟩) (validMesh_of_bound (by simp)) (by simp) (by
      intro v hv
      have hv' : v < 3 := hv
      refine ⟨_, List.mem_singleton.2 rfl, ?_⟩
      unfold HasVertex
      simp only
      omega) (by decide) (e := 4) (by
        refine ⟨⟨(0, 0), by simp, (0, 4), by simp, .inr (by norm_num)⟩, ?_⟩
        intro q hq q' hq'
        simp only [List.mem_cons, List.not_mem_nil, or_false] at hq hq'
        rcases hq with rfl | rfl | rfl <;> rcases hq' with rfl | rfl | rfl <;> norm_num) (by
        intro q hq
        simp only [List.mem_cons, List.not_mem_nil, or_false] at hq
        rcases hq with rfl | rfl | rfl <;> norm_num)
  constructor
  · obtain ⟨m', h1, -, h3⟩ := key (1 / 100)
    obtain ⟨g, hg, -⟩ := h3 ⟨0, 1, 2⟩ (by simp) (.inr ⟨(0, 0), (3, 0), (0, 4), rfl, by simp, plump_345, by rw [hQ]; norm_num⟩)
    exact ⟨m', h1, List.ne_nil_of_mem hg⟩
  · obtain ⟨m', h1, h2, -⟩ := key 2
    refine ⟨m', h1, List.eq_nil_iff_forall_not_mem.2 fun g hg => ?_⟩
    obtain ⟨f, hf, hn, -⟩ := h2 g hg
    simp only [List.mem_singleton] at hf
    subst hf
    exact hn ⟨⟨0, .inl rfl, by decide +kernel⟩, (0, 0), (3, 0), (0, 4), rfl, by simp, plump_345, by rw [hQ]; norm_num⟩

end OM
