import Verif.Model.Region
import Verif.Spec.Box
import Mathlib.Tactic.Linarith
import Mathlib.Tactic.Ring
import Mathlib.Tactic.FieldSimp
import Mathlib.Tactic.NormNum
import Mathlib.Tactic.Positivity
/-!
# Properties C42, C43, C44 (`region.py`)
-/
set_option linter.unusedSectionVars false
namespace OM
open Spec

/-! ## C42 -/

section
variable {K : Type} [Field K] [LinearOrder K] [IsStrictOrderedRing K]

theorem isGlobal_mono {o i : Box K} (hi : isGlobalBbox i = true) (h1 : o.xmin ≤ i.xmin) (h2 : i.xmax ≤ o.xmax)
    (h3 : o.ymin ≤ i.ymin) (h4 : i.ymax ≤ o.ymax) : isGlobalBbox o = true := by
  simp only [isGlobalBbox, Bool.and_eq_true, Bool.or_eq_true, decide_eq_true_eq] at hi ⊢
  obtain ⟨ha, hb⟩ := hi
  constructor
  · rcases ha with ha | ⟨ha, ha'⟩
    · left; linarith
    · right; exact ⟨by linarith, by linarith⟩
  · rcases hb with hb | ⟨hb, hb'⟩
    · left; linarith
    · right; exact ⟨by linarith, by linarith⟩

/-- The four comparisons decide unless the outer box is global. -/
theorem bboxContains_iff {o i : Box K} (ho : isGlobalBbox o = false) :
    bboxContains o i = true ↔ o.xmin ≤ i.xmin ∧ i.xmax ≤ o.xmax ∧ o.ymin ≤ i.ymin ∧ i.ymax ≤ o.ymax := by
  unfold bboxContains
  rw [ho, if_neg (by simp)]
  by_cases hi : isGlobalBbox i = true
  · simp only [hi, Bool.not_false, Bool.and_self, if_true, Bool.false_eq_true, false_iff]
    rintro ⟨h1, h2, h3, h4⟩
    rw [isGlobal_mono hi h1 h2 h3 h4] at ho
    exact absurd ho (by simp)
  · simp only [hi, Bool.false_and, Bool.false_eq_true, if_false, Bool.and_eq_true, decide_eq_true_eq, and_assoc]

/-- **C42** (1) Every box contains itself. -/
theorem C42_contains_refl (b : Box K) : bboxContains b b = true := by
  cases h : isGlobalBbox b with
  | true => simp [bboxContains, h]
  | false => rw [bboxContains_iff h]; exact ⟨le_refl _, le_refl _, le_refl _, le_refl _⟩

/-- **C42** (2) Containment is transitive, for global boxes too. -/
theorem C42_contains_trans {a b c : Box K} (h1 : bboxContains a b = true) (h2 : bboxContains b c = true) :
    bboxContains a c = true := by
  cases ha : isGlobalBbox a with
  | true => simp [bboxContains, ha]
  | false =>
    have h1' := (bboxContains_iff ha).1 h1
    cases hb : isGlobalBbox b with
    | true =>
      rw [isGlobal_mono hb h1'.1 h1'.2.1 h1'.2.2.1 h1'.2.2.2] at ha
      exact absurd ha (by simp)
    | false =>
      have h2' := (bboxContains_iff hb).1 h2
      rw [bboxContains_iff ha]
      exact ⟨h1'.1.trans h2'.1, h2'.2.1.trans h1'.2.1, h1'.2.2.1.trans h2'.2.2.1, h2'.2.2.2.trans h1'.2.2.2⟩

/-- **C42** (3) If the outer box is not global, containment means that every point of the inner box lies in the outer box. -/
theorem C42_contains_iff_points {o i : Box K} (ho : isGlobalBbox o = false) (hi : ProperBox i) :
    bboxContains o i = true ↔ ∀ q, InBox i q → InBox o q := by
  rw [bboxContains_iff ho]
  constructor
  · rintro ⟨h1, h2, h3, h4⟩ q ⟨q1, q2, q3, q4⟩
    exact ⟨h1.trans q1, q2.trans h2, h3.trans q3, q4.trans h4⟩
  · intro h
    have a := h (i.xmin, i.ymin) ⟨le_refl _, hi.1, le_refl _, hi.2⟩
    have b := h (i.xmax, i.ymax) ⟨hi.1, le_refl _, hi.2, le_refl _⟩
    exact ⟨a.1, b.2.1, a.2.2.1, b.2.2.2⟩

/-- **C42** (4) A global box is not contained in a box that is not global. -/
theorem C42_global_not_in_regional {o i : Box K} (ho : isGlobalBbox o = false) (hi : isGlobalBbox i = true) :
    bboxContains o i = false := by
  simp [bboxContains, ho, hi]

end

example : isGlobalBbox (⟨-10, 10, 0, 5⟩ : Box ℚ) = false ∧ ProperBox (⟨-1, 1, 1, 2⟩ : Box ℚ) ∧
    bboxContains (⟨-10, 10, 0, 5⟩ : Box ℚ) ⟨-1, 1, 1, 2⟩ = true ∧ bboxContains (⟨-10, 10, 0, 5⟩ : Box ℚ) ⟨-1, 1, 1, 6⟩ = false ∧
    isGlobalBbox (⟨-180, 180, -90, 90⟩ : Box ℚ) = true := by
  refine ⟨by decide +kernel, ⟨?_, ?_⟩, by decide +kernel, by decide +kernel, by decide +kernel⟩ <;> norm_num

/-- **C42** The restriction to boxes that are not global is needed: a box that covers 300 by 150 degrees "contains" boxes outside of
it. -/
theorem C42_global_contains_everything :
    ∃ o i : Box ℚ, ProperBox o ∧ ProperBox i ∧ bboxContains o i = true ∧ ∀ q, InBox i q → ¬ InBox o q := by
  refine ⟨⟨0, 300, -75, 75⟩, ⟨-100, -50, 0, 10⟩, ⟨by norm_num, by norm_num⟩, ⟨by norm_num, by norm_num⟩, by decide +kernel, ?_⟩
  rintro q ⟨_, h1, _, _⟩ ⟨h2, _, _, _⟩
  simp only at h1 h2
  linarith

/-! ## C44 -/

section
variable {K : Type} [Field K] [LinearOrder K] {C : Type}

/-- **C44** Full claim: a `Region` built from a tuple has exactly four numbers with `xmin < xmax` and `ymin < ymax`. Proved: it has at
least four, the first four with `xmin ≤ xmax`, `ymin ≤ ymax`, and exactly these tuples are accepted. The counterexamples below
show that more values and empty boxes are accepted. -/
theorem C44_constructor_partial (vals : List K) (crs : C) :
    (∀ r, mkRegion (.tuple vals) crs = some r ↔ r = ⟨.tuple vals, crs⟩ ∧
      ∃ a b c d l, vals = a :: b :: c :: d :: l ∧ a ≤ b ∧ c ≤ d) ∧
    (mkRegion (.tuple vals) crs = none ↔ ¬ ∃ a b c d l, vals = a :: b :: c :: d :: l ∧ a ≤ b ∧ c ≤ d) := by
  classical
  have key : mkRegion (.tuple vals) crs =
      if ∃ a b c d l, vals = a :: b :: c :: d :: l ∧ a ≤ b ∧ c ≤ d then some ⟨.tuple vals, crs⟩ else none := by
    match vals with
    | [] => simp [mkRegion, checkExtent]
    | [_] => simp [mkRegion, checkExtent]
    | [_, _] => simp [mkRegion, checkExtent]
    | [_, _, _] => simp [mkRegion, checkExtent]
    | a :: b :: c :: d :: l =>
      by_cases h1 : b < a
      · simp [mkRegion, checkExtent, h1]
      · by_cases h2 : d < c
        · rw [if_neg]
          · simp [mkRegion, checkExtent, h1, h2]
          · rintro ⟨_, _, _, _, _, h, _, h4⟩
            cases h
            exact absurd h2 (not_lt.2 h4)
        · rw [if_pos ⟨a, b, c, d, l, rfl, not_lt.1 h1, not_lt.1 h2⟩]
          simp [mkRegion, checkExtent, h1, h2]
  rw [key]
  constructor
  · intro r
    split
    · rename_i h; rw [Option.some.injEq]; exact ⟨fun e => ⟨e.symm, h⟩, fun e => e.1.symm⟩
    · rename_i h; exact ⟨fun e => (nomatch e), fun e => absurd e.2 h⟩
  · split
    · rename_i h; exact ⟨fun e => (nomatch e), fun e => absurd h e⟩
    · rename_i h; exact ⟨fun _ => h, fun _ => rfl⟩

/-- **C44** counterexamples: five values are accepted, and so is a box without width. -/
theorem C44_bad_tuples_accepted :
    mkRegion (.tuple [0, 1, 0, 1, 7] : Extent ℚ) 4326 = some ⟨.tuple [0, 1, 0, 1, 7], 4326⟩ ∧
      mkRegion (.tuple [0, 0, 0, 1] : Extent ℚ) 4326 = some ⟨.tuple [0, 0, 0, 1], 4326⟩ := by
  constructor <;> decide +kernel

/-- The box of a region is a polygon or has (at least) four values with `xmin ≤ xmax` and `ymin ≤ ymax`. -/
def ValidRegion (r : Region K C) : Prop :=
  ∀ vals, r.bbox = .tuple vals → ∃ a b c d l, vals = a :: b :: c :: d :: l ∧ a ≤ b ∧ c ≤ d

theorem checkExtent_valid {e : Extent K} {crs : C} (h : checkExtent e = some e) : ValidRegion ⟨e, crs⟩ := by
  intro vals hv
  simp only at hv
  subst hv
  unfold checkExtent at h
  split at h
  · rename_i a b c d l he
    cases he
    split at h
    · cases h
    · split at h
      · cases h
      · rename_i h1 h2
        exact ⟨a, b, c, d, l, rfl, not_lt.1 h1, not_lt.1 h2⟩
  · cases h
  · rename_i he; cases he

theorem checkExtent_idem {e e' : Extent K} (h : checkExtent e = some e') : e' = e := by
  unfold checkExtent at h
  split at h
  · split at h
    · cases h
    · split at h
      · cases h
      · cases h; rfl
  · cases h
  · cases h; rfl

variable [DecidableEq C]

/-- **C44** Every region holds an accepted box after any sequence of transformations, failed ones included. -/
theorem C44_always_valid (tr : C → C → K × K → Option (K × K)) {e : Extent K} {crs : C} {r : Region K C}
    (h : mkRegion e crs = some r) (dsts : List C) :
    ValidRegion (dsts.foldl (fun r d => (transformTo tr d r).1) r) := by
  have h0 : ValidRegion r := by
    unfold mkRegion at h
    rw [Option.map_eq_some_iff] at h
    obtain ⟨b, hb, rfl⟩ := h
    have := checkExtent_idem hb
    subst this
    exact checkExtent_valid hb
  clear h
  induction dsts generalizing r with
  | nil => exact h0
  | cons d ds ih =>
    refine ih (r := (transformTo tr d r).1) ?_
    unfold transformTo
    split
    · exact h0
    · split
      · exact h0
      · rename_i b hb
        unfold transformExtent at hb
        split at hb
        · split at hb
          · have := checkExtent_idem hb
            subst this
            exact checkExtent_valid hb
          · cases hb
        · cases hb
        · rw [Option.map_eq_some_iff] at hb
          obtain ⟨l, _, rfl⟩ := hb
          exact checkExtent_valid rfl

/-- **C44** A transformation that raises leaves the object as it was. -/
theorem C44_failed_transform_keeps (tr : C → C → K × K → Option (K × K)) (dst : C) (r : Region K C)
    (h : (transformTo tr dst r).2 = true) : (transformTo tr dst r).1 = r := by
  unfold transformTo at h ⊢
  split
  · rfl
  · split
    · rfl
    · rename_i h1 _ b hb
      rw [if_neg h1, hb] at h
      simp at h

theorem transformAll_inverse {f g : K × K → Option (K × K)} (hfg : ∀ p q, f p = some q → g q = some p) :
    ∀ {l l' : List (K × K)}, transformAll f l = some l' → transformAll g l' = some l
  | [], l', h => by cases h; rfl
  | q :: l, l', h => by
    unfold transformAll at h
    split at h
    · rename_i q' m h1 h2
      cases h
      rw [transformAll, hfg q q' h1, transformAll_inverse hfg h2]
    · cases h

/-- **C44** If a transformation succeeds, the transformation back with the inverse transformer restores the region. -/
theorem C44_round_trip (tr : C → C → K × K → Option (K × K)) {src dst : C}
    (hinv : ∀ p q, tr src dst p = some q → tr dst src q = some p) {e : Extent K} {r : Region K C}
    (h : mkRegion e src = some r) (hok : (transformTo tr dst r).2 = false) :
    transformTo tr src (transformTo tr dst r).1 = (r, false) := by
  unfold mkRegion at h
  rw [Option.map_eq_some_iff] at h
  obtain ⟨b, hb, rfl⟩ := h
  have hbe := checkExtent_idem hb
  subst hbe
  unfold transformTo at hok
  by_cases hd : src = dst
  · subst hd
    simp [transformTo]
  · simp only [hd, if_false] at hok
    cases hx : transformExtent (tr src dst) b with
    | none => rw [hx] at hok; simp at hok
    | some b' =>
      have hback : transformExtent (tr dst src) b' = some b := by
        unfold transformExtent at hx
        split at hx
        · rename_i a1 b1 c1 d1
          split at hx
          · rename_i a' c' b' d' h1 h2
            have := checkExtent_idem hx
            subst this
            simp only [transformExtent, hinv _ _ h1, hinv _ _ h2]
            exact hb
          · cases hx
        · cases hx
        · rw [Option.map_eq_some_iff] at hx
          obtain ⟨l, hl, rfl⟩ := hx
          simp only [transformExtent, transformAll_inverse hinv hl, Option.map_some]
      have e1 : transformTo tr dst ⟨b, src⟩ = (⟨b', dst⟩, false) := by
        simp [transformTo, hd, hx]
      rw [e1]
      simp [transformTo, Ne.symm hd, hback]

end

/-- A transformer between systems 0 and 1 that shifts and scales, and raises outside a range. -/
def shiftTr (a b : Nat) (q : ℚ × ℚ) : Option (ℚ × ℚ) :=
  if a = 0 ∧ b = 1 then some (2 * q.1 + 5, q.2 / 3) else if a = 1 ∧ b = 0 then some ((q.1 - 5) / 2, q.2 * 3) else none

example : mkRegion (.tuple [0, 1, 0, 3] : Extent ℚ) 0 = some ⟨.tuple [0, 1, 0, 3], 0⟩ ∧
    (∀ p q, shiftTr 0 1 p = some q → shiftTr 1 0 q = some p) ∧
    transformTo shiftTr 1 ⟨.tuple [0, 1, 0, 3], 0⟩ = (⟨.tuple [5, 7, 0, 1], 1⟩, false) ∧
    transformTo shiftTr 0 ⟨.tuple [5, 7, 0, 1], 1⟩ = (⟨.tuple [0, 1, 0, 3], 0⟩, false) ∧
    (transformTo shiftTr 2 ⟨.tuple [0, 1, 0, 3], 0⟩).2 = true := by
  refine ⟨by decide +kernel, ?_, by decide +kernel, by decide +kernel, by decide +kernel⟩
  rintro ⟨x, y⟩ q h
  simp only [shiftTr, and_self, if_true, Option.some.injEq] at h
  subst h
  simp only [shiftTr]
  norm_num

/-! ## C43 -/

theorem to3d_sphere (R lon lat : ℝ) : (to3d R lon lat).1 ^ 2 + (to3d R lon lat).2.1 ^ 2 + (to3d R lon lat).2.2 ^ 2 = R ^ 2 := by
  simp only [to3d]
  have h1 := Real.sin_sq_add_cos_sq (lat / 180 * Real.pi)
  have h2 := Real.sin_sq_add_cos_sq (lon / 180 * Real.pi)
  generalize Real.cos (lat / 180 * Real.pi) = c at *
  generalize Real.sin (lat / 180 * Real.pi) = s at *
  generalize Real.cos (lon / 180 * Real.pi) = d at *
  generalize Real.sin (lon / 180 * Real.pi) = e at *
  have : (c * d * R) ^ 2 + (c * e * R) ^ 2 + (s * R) ^ 2 = (c ^ 2 * (e ^ 2 + d ^ 2) + s ^ 2) * R ^ 2 := by ring
  rw [this, h2]
  have h3 : c ^ 2 * 1 + s ^ 2 = 1 := by linarith
  rw [h3, one_mul]

theorem stereoTo3d_sphere (R u v : ℝ) :
    (stereoTo3d R u v).1 ^ 2 + (stereoTo3d R u v).2.1 ^ 2 + (stereoTo3d R u v).2.2 ^ 2 = R ^ 2 := by
  simp only [stereoTo3d]
  have h : (1 + (u ^ 2 + v ^ 2)) ≠ 0 := by positivity
  field_simp
  ring

/-- **C43** (1) The intermediate points of both directions lie on the sphere of radius `R`. -/
theorem C43_on_sphere (R a b : ℝ) :
    (to3d R a b).1 ^ 2 + (to3d R a b).2.1 ^ 2 + (to3d R a b).2.2 ^ 2 = R ^ 2 ∧
      (stereoTo3d R a b).1 ^ 2 + (stereoTo3d R a b).2.1 ^ 2 + (stereoTo3d R a b).2.2 ^ 2 = R ^ 2 :=
  ⟨to3d_sphere R a b, stereoTo3d_sphere R a b⟩

/-- Projecting to the plane and back to the sphere is the identity, except at the south pole. -/
theorem stereoTo3d_toStereo {R : ℝ} (hR : R ≠ 0) {lon lat : ℝ} (hs : 1 + Real.sin (lat / 180 * Real.pi) ≠ 0) :
    stereoTo3d R (toStereo R lon lat).1 (toStereo R lon lat).2 = to3d R lon lat := by
  simp only [stereoTo3d, toStereo, to3d]
  have h1 := Real.sin_sq_add_cos_sq (lat / 180 * Real.pi)
  have h2 := Real.sin_sq_add_cos_sq (lon / 180 * Real.pi)
  generalize Real.cos (lat / 180 * Real.pi) = c at *
  generalize Real.sin (lat / 180 * Real.pi) = s at *
  generalize Real.cos (lon / 180 * Real.pi) = d at *
  generalize Real.sin (lon / 180 * Real.pi) = e at *
  have hRs : R + s * R = R * (1 + s) := by ring
  have hu : -(c * d * R) / (R + s * R) = -(c * d) / (1 + s) := by rw [hRs]; field_simp
  have hv : -(c * e * R) / (R + s * R) = -(c * e) / (1 + s) := by rw [hRs]; field_simp
  have hr : (-(c * d) / (1 + s)) ^ 2 + (-(c * e) / (1 + s)) ^ 2 = (1 - s) / (1 + s) := by
    have : (-(c * d) / (1 + s)) ^ 2 + (-(c * e) / (1 + s)) ^ 2 = c ^ 2 * (e ^ 2 + d ^ 2) / (1 + s) ^ 2 := by
      field_simp; ring
    rw [this, h2]
    have hc : c ^ 2 = (1 - s) * (1 + s) := by linarith [h1, show (1 - s) * (1 + s) = 1 - s ^ 2 by ring]
    rw [hc]
    field_simp
  rw [hu, hv, hr]
  have h4 : 1 + (1 - s) / (1 + s) = 2 / (1 + s) := by field_simp; ring
  have h5 : 1 - (1 - s) / (1 + s) = 2 * s / (1 + s) := by field_simp; ring
  rw [h4, h5]
  refine Prod.ext ?_ (Prod.ext ?_ ?_) <;> simp only <;> field_simp

/-- **C43** (2) Longitude and latitude are recovered from the plane, for longitudes in `(-180, 180]` and latitudes strictly between the
poles. -/
theorem C43_lonlat_round_trip {R : ℝ} (hR : 0 < R) (rmax : ℝ) {lon lat : ℝ} (h1 : -180 < lon) (h2 : lon ≤ 180) (h3 : -90 < lat)
    (h4 : lat < 90) : toLatLon R rmax (toStereo R lon lat).1 (toStereo R lon lat).2 = (lon, lat) := by
  have hpi := Real.pi_pos
  have hlat1 : -(Real.pi / 2) < lat / 180 * Real.pi := by nlinarith
  have hlat2 : lat / 180 * Real.pi < Real.pi / 2 := by nlinarith
  have hc : 0 < Real.cos (lat / 180 * Real.pi) := Real.cos_pos_of_mem_Ioo ⟨hlat1, hlat2⟩
  have hs : 0 < 1 + Real.sin (lat / 180 * Real.pi) := by
    have h5 := Real.sin_sq_add_cos_sq (lat / 180 * Real.pi)
    have h6 : 0 < Real.cos (lat / 180 * Real.pi) ^ 2 := by positivity
    nlinarith [Real.neg_one_le_sin (lat / 180 * Real.pi)]
  rw [toLatLon, stereoTo3d_toStereo hR.ne' hs.ne']
  have hrad : Real.sqrt ((to3d R lon lat).1 ^ 2 + (to3d R lon lat).2.1 ^ 2 + (to3d R lon lat).2.2 ^ 2) = R := by
    rw [to3d_sphere, Real.sqrt_sq hR.le]
  simp only [lonLatOf3d, hrad, if_neg hR.ne']
  have harg : Complex.arg ⟨(to3d R lon lat).1, (to3d R lon lat).2.1⟩ = lon / 180 * Real.pi := by
    have hr : 0 < Real.cos (lat / 180 * Real.pi) * R := mul_pos hc hR
    have := Complex.arg_mul_cos_add_sin_mul_I hr (θ := lon / 180 * Real.pi) ⟨by nlinarith, by nlinarith⟩
    rw [← this]
    congr 1
    simp only [to3d]
    generalize lon / 180 * Real.pi = θ
    generalize Real.cos (lat / 180 * Real.pi) = c
    rw [← Complex.ofReal_cos, ← Complex.ofReal_sin]
    apply Complex.ext
    · simp [-Complex.ofReal_cos, -Complex.ofReal_sin]; ring
    · simp [-Complex.ofReal_cos, -Complex.ofReal_sin]; ring
  have hz : (to3d R lon lat).2.2 / R = Real.sin (lat / 180 * Real.pi) := by simp only [to3d]; field_simp
  rw [harg, hz, Real.arcsin_sin hlat1.le hlat2.le]
  refine Prod.ext ?_ ?_ <;> simp only <;> field_simp

/-- **C43** (3) Every point of the plane is recovered from its longitude and latitude. -/
theorem C43_plane_round_trip {R : ℝ} (hR : 0 < R) (rmax u v : ℝ) :
    toStereo R (toLatLon R rmax u v).1 (toLatLon R rmax u v).2 = (u, v) := by
  have hpi := Real.pi_pos
  have hp : (0 : ℝ) < 1 + (u ^ 2 + v ^ 2) := by positivity
  obtain ⟨q, hq⟩ : ∃ q, q = stereoTo3d R u v := ⟨_, rfl⟩
  have hsph := stereoTo3d_sphere R u v
  have hrad : Real.sqrt (q.1 ^ 2 + q.2.1 ^ 2 + q.2.2 ^ 2) = R := by
    rw [hq, hsph, Real.sqrt_sq hR.le]
  have e1 : (toLatLon R rmax u v).1 / 180 * Real.pi = Complex.arg ⟨q.1, q.2.1⟩ := by
    rw [toLatLon, ← hq]
    simp only [lonLatOf3d]
    field_simp
  have e2 : (toLatLon R rmax u v).2 / 180 * Real.pi = Real.arcsin (q.2.2 / R) := by
    rw [toLatLon, ← hq]
    simp only [lonLatOf3d, hrad, if_neg hR.ne']
    field_simp
  rw [← hq] at hsph
  have hz1 : q.2.2 / R ≤ 1 := by
    rw [div_le_one hR]
    nlinarith [sq_nonneg q.1, sq_nonneg q.2.1]
  have hz2 : -1 ≤ q.2.2 / R := by
    rw [le_div_iff₀ hR]
    nlinarith [sq_nonneg q.1, sq_nonneg q.2.1]
  have hnorm : ‖(⟨q.1, q.2.1⟩ : ℂ)‖ = R * Real.cos (Real.arcsin (q.2.2 / R)) := by
    rw [Complex.norm_def, Real.cos_arcsin, Complex.normSq_mk]
    have : R * Real.sqrt (1 - (q.2.2 / R) ^ 2) = Real.sqrt (R ^ 2 * (1 - (q.2.2 / R) ^ 2)) := by
      rw [Real.sqrt_mul (sq_nonneg R), Real.sqrt_sq hR.le]
    rw [this]
    congr 1
    field_simp
    linarith
  have hx : Real.cos (Real.arcsin (q.2.2 / R)) * Real.cos (Complex.arg ⟨q.1, q.2.1⟩) * R = q.1 := by
    have := Complex.norm_mul_cos_arg (⟨q.1, q.2.1⟩ : ℂ)
    rw [hnorm] at this
    linarith
  have hy : Real.cos (Real.arcsin (q.2.2 / R)) * Real.sin (Complex.arg ⟨q.1, q.2.1⟩) * R = q.2.1 := by
    have := Complex.norm_mul_sin_arg (⟨q.1, q.2.1⟩ : ℂ)
    rw [hnorm] at this
    linarith
  have hz : Real.sin (Real.arcsin (q.2.2 / R)) * R = q.2.2 := by
    rw [Real.sin_arcsin hz2 hz1]; field_simp
  simp only [toStereo, to3d, e1, e2, hx, hy, hz]
  rw [hq]
  simp only [stereoTo3d]
  have hden : R + R * (1 - (u ^ 2 + v ^ 2)) / (1 + (u ^ 2 + v ^ 2)) = 2 * R / (1 + (u ^ 2 + v ^ 2)) := by
    field_simp; ring
  rw [hden]
  refine Prod.ext ?_ ?_ <;> simp only <;> field_simp

example : toLatLon 2 7 (toStereo 2 180 (-45)).1 (toStereo 2 180 (-45)).2 = (180, -45) :=
  C43_lonlat_round_trip (by norm_num) 7 (by norm_num) (by norm_num) (by norm_num) (by norm_num)

end OM
