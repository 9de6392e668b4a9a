import Verif.Model.Sizing
import Verif.Props.Distance
import Mathlib.Analysis.SpecialFunctions.Trigonometric.Basic
import Mathlib.Analysis.Real.Pi.Irrational
/-!
# C39 wavelength sizing, C80 slope sizing, C81 feature sizing
-/
namespace OM
open Spec
set_option linter.unusedSectionVars false

section
variable {K C : Type} [Field K] [LinearOrder K] [IsStrictOrderedRing K] [FloorRing K]

theorem mkGrid_array_eq {b : Box K} {dx dy : K} {crs : C} {hm : Option K} {n m : Nat} {vals : Fin n → Fin m → Option K} {e : Bool}
    {g : Grid K C} (h : mkGrid b dx (some dy) crs hm (.array n m vals) e = some g) :
    g = ⟨b, dx, dy, n, m, vals, hm, e, crs, none⟩ := by
  unfold mkGrid at h
  simp only [Option.getD_some] at h
  split at h
  · exact (Option.some.inj h).symm
  · simp at h

/-- Clipping a number from below and from above. -/
theorem clip_some (mn mx : Option K) (v : K) :
    ∃ w, clipAbove mx (clipBelow mn (some v)) = some w ∧ (∀ b, mx = some b → w ≤ b) ∧
      (∀ a, mn = some a → (∀ b, mx = some b → a ≤ b) → a ≤ w) ∧
      ((∀ a, mn = some a → a ≤ v) → (∀ b, mx = some b → v ≤ b) → w = v) ∧
      (∀ c, c ≤ v → (∀ b, mx = some b → c ≤ b) → c ≤ w) := by
  cases mn with
  | none =>
    cases mx with
    | none => exact ⟨v, rfl, by simp⟩
    | some b =>
      by_cases hb : b < v
      · exact ⟨b, by simp [clipAbove, clipBelow, hb], by simp [not_le.2 hb]⟩
      · exact ⟨v, by simp [clipAbove, clipBelow, hb], by simp [not_lt.1 hb]; exact fun c hc _ => hc⟩
  | some a =>
    by_cases ha : v < a
    · cases mx with
      | none => exact ⟨a, by simp [clipAbove, clipBelow, ha], by simp [not_le.2 ha]; exact fun c hc => hc.trans ha.le⟩
      | some b =>
        by_cases hb : b < a
        · exact ⟨b, by simp [clipAbove, clipBelow, ha, hb], by simp [not_le.2 ha, not_le.2 hb]⟩
        · exact ⟨a, by simp [clipAbove, clipBelow, ha, hb], by simp [not_le.2 ha, not_lt.1 hb]; exact fun c hc _ => hc.trans ha.le⟩
    · cases mx with
      | none => exact ⟨v, by simp [clipAbove, clipBelow, ha], by simp [not_lt.1 ha]⟩
      | some b =>
        by_cases hb : b < v
        · exact ⟨b, by simp [clipAbove, clipBelow, ha, hb], by simp [not_le.2 hb]⟩
        · exact ⟨v, by simp [clipAbove, clipBelow, ha, hb], by simp [not_lt.1 ha, not_lt.1 hb]; exact fun c hc _ => hc⟩

theorem clip_mono (mn mx : Option K) {v v' w w' : K} (hv : v ≤ v') (h : clipAbove mx (clipBelow mn (some v)) = some w)
    (h' : clipAbove mx (clipBelow mn (some v')) = some w') : w ≤ w' := by
  have key : ∀ (o : Option K) (x x' : K), x ≤ x' → ∀ y y', clipAbove o (some x) = some y → clipAbove o (some x') = some y' → y ≤ y' := by
    intro o x x' hx y y' hy hy'
    cases o with
    | none => simp [clipAbove] at hy hy'; rwa [← hy, ← hy']
    | some b =>
      simp only [clipAbove] at hy hy'
      split at hy <;> split at hy' <;> simp only [Option.some.injEq] at hy hy' <;> subst hy hy'
      · exact le_rfl
      · linarith
      · linarith
      · exact hx
  cases mn with
  | none => exact key mx v v' hv w w' h h'
  | some a =>
    simp only [clipBelow] at h h'
    split at h <;> split at h'
    · exact key mx a a le_rfl w w' h h'
    · exact key mx _ _ (by linarith) w w' h h'
    · exact key mx _ _ (by linarith) w w' h h'
    · exact key mx _ _ hv w w' h h'

/-! ## C39 -/

/-- The shape of a result of `wavelength_sizing_function`, before limits are considered. -/
theorem wavelengthSizing_eq {sqrt cos : K → K} {dem : Grid K C} {wl : K} {mn mx : Option K} {period gravity : K} {crs : C} {geo : Bool}
    {r : Grid K C} (hbox : ¬ (|dem.box.xmin| = 180 ∧ |dem.box.xmax| = 180))
    (h : wavelengthSizing sqrt cos dem wl mn mx period gravity crs geo = some r) :
    ∃ z hm, dem.evalNodes dem = some z ∧ r = ⟨dem.box, dem.dx, dem.dy, dem.nx, dem.ny, fun i j => clipAbove mx (clipBelow mn ((z i j).map
        (waveSize sqrt period gravity wl (if geo then metresPerDegree cos ((dem.box.ymin + dem.box.ymax) / 2) else 1)))),
      hm, true, crs, some true⟩ := by
  unfold wavelengthSizing at h
  split at h
  · simp at h
  · rename_i z hz
    refine ⟨z, r.hmin, hz, ?_⟩
    simp only at h
    split at h
    · split at h
      · simp at h
      · obtain ⟨g, hg, hr⟩ := Option.map_eq_some_iff.1 h
        rw [← hr, buildInterpolant_noncyclic _ (by rw [mkGrid_array_eq hg]; exact hbox)]
        rw [mkGrid_array_eq hg]
        simp [clipBelow]
    · obtain ⟨g, hg, hr⟩ := Option.map_eq_some_iff.1 h
      rw [← hr, buildInterpolant_noncyclic _ (by rw [mkGrid_array_eq hg]; exact hbox)]
      rw [mkGrid_array_eq hg]
end

/-- Metres per degree are positive, whatever angle the cosine gets. -/
theorem metresPerDegree_pos (lat : ℝ) : 0 < metresPerDegree Real.cos lat := by
  unfold metresPerDegree
  have h2 := Real.cos_le_one (2 * lat)
  have h4 := Real.neg_one_le_cos (4 * lat)
  have h6 := Real.cos_le_one (6 * lat)
  linarith

/-- The divisor that turns metres into units of the grid, as the source computes it. -/
noncomputable def waveScale (geo : Bool) (b : Box ℝ) : ℝ := if geo then metresPerDegree Real.cos ((b.ymin + b.ymax) / 2) else 1

theorem waveScale_pos (geo : Bool) (b : Box ℝ) : 0 < waveScale geo b := by
  unfold waveScale
  split
  · exact metresPerDegree_pos _
  · exact one_pos

/-- **C39**. For a DEM that does not reach around the globe and elevations that are numbers: the result lives on the lattice of the DEM;
every size is at most the maximum, and at least the minimum if the limits are in order; two sizes are ordered as the absolute
elevations; and where the water is at least one metre deep and no limit applies, `wl` elements (turned into metres by the divisor of
the source) make up one wavelength `period * sqrt (gravity * |z|)`.
Missing: boxes around the globe, limits in wrong order (`C39_maximum_below_minimum`), the order by depth when there is land
(`C39_land_counts_as_depth`), the metres per degree of the latitude (`C39_latitude_in_radians`). -/
theorem C39_sizes_partial {C : Type} {dem : Grid ℝ C} {wl : ℝ} {mn mx : Option ℝ} {period gravity : ℝ} {crs : C} {geo : Bool}
    {r : Grid ℝ C} (hbox : ¬ (|dem.box.xmin| = 180 ∧ |dem.box.xmax| = 180)) (hwl : 0 < wl) (hp : 0 ≤ period) (hg : 0 ≤ gravity)
    (h : wavelengthSizing Real.sqrt Real.cos dem wl mn mx period gravity crs geo = some r) :
    ∃ (z W : Fin dem.nx → Fin dem.ny → Option ℝ) (hm : Option ℝ), dem.evalNodes dem = some z ∧
      r = ⟨dem.box, dem.dx, dem.dy, dem.nx, dem.ny, W, hm, true, crs, some true⟩ ∧
      ∀ i j d, z i j = some d → ∃ w, W i j = some w ∧ (∀ b, mx = some b → w ≤ b) ∧
        (∀ a, mn = some a → (∀ b, mx = some b → a ≤ b) → a ≤ w) ∧
        (1 ≤ |d| → (∀ a, mn = some a → a * waveScale geo dem.box * wl ≤ period * Real.sqrt (gravity * |d|)) →
          (∀ b, mx = some b → period * Real.sqrt (gravity * |d|) ≤ b * waveScale geo dem.box * wl) →
          w * waveScale geo dem.box * wl = period * Real.sqrt (gravity * |d|)) ∧
        ∀ k l d', z k l = some d' → |d| ≤ |d'| → ∃ w', W k l = some w' ∧ w ≤ w' := by
  obtain ⟨z, hm, hz, hr⟩ := wavelengthSizing_eq hbox h
  have hs := waveScale_pos geo dem.box
  set s := waveScale geo dem.box with hsd
  have hsw : s * wl ≠ 0 := (mul_pos hs hwl).ne'
  refine ⟨z, _, hm, hz, hr, fun i j d hd => ?_⟩
  obtain ⟨w, hw, hb, ha, he, -⟩ := clip_some mn mx (waveSize Real.sqrt period gravity wl s d)
  refine ⟨w, ?_, hb, ha, ?_, ?_⟩
  · rw [hd]; exact hw
  · intro h1 h2 h3
    have hws : waveSize Real.sqrt period gravity wl s d = period * Real.sqrt (gravity * |d|) / (wl * s) := by
      unfold waveSize
      rw [if_neg (not_lt.2 h1), div_div]
    have hpos : 0 < wl * s := mul_pos hwl hs
    have := he (fun a hma => by rw [hws, le_div_iff₀ hpos]; linarith [h2 a hma, mul_right_comm a s wl, mul_assoc a wl s])
      (fun b hmb => by rw [hws, div_le_iff₀ hpos]; linarith [h3 b hmb, mul_right_comm b s wl, mul_assoc b wl s])
    rw [this, hws]
    field_simp
  · intro k l d' hd' hdd
    obtain ⟨w', hw', -⟩ := clip_some mn mx (waveSize Real.sqrt period gravity wl s d')
    refine ⟨w', by rw [hd']; exact hw', clip_mono mn mx ?_ hw hw'⟩
    unfold waveSize
    have hd1 : |if |d| < 1 then 1 else d| ≤ |if |d'| < 1 then 1 else d'| := by
      split <;> split
      · exact le_rfl
      · rename_i h1 h2; push Not at h2; simpa using h2
      · linarith
      · exact hdd
    gcongr

/-- A DEM of two by one nodes with elevations −4 and 9, interpolant built. -/
def waveEx : Grid ℚ Nat := ⟨⟨0, 1, 0, 0⟩, 1, 1, 2, 1, fun i _ => some (if i = 0 then -4 else 9), none, true, 0, some true⟩

/-- A square root for the concrete runs: exact for the squares that occur. -/
def sqrtEx (x : ℚ) : ℚ := if x = 4 then 2 else if x = 9 then 3 else if x = 1 then 1 else 0

-- The function runs: sizes 2 and 3, limits 5/2.
example : (wavelengthSizing sqrtEx id waveEx 1 none none 1 1 0 false).map shown = some ([[some 2], [some 3]], some true) ∧
    (wavelengthSizing sqrtEx id waveEx 1 (some (5 / 2)) none 1 1 0 false).map shown = some ([[some (5 / 2)], [some 3]], some true) ∧
    (wavelengthSizing sqrtEx id waveEx 1 none (some (5 / 2)) 1 1 0 false).map shown = some ([[some 2], [some (5 / 2)]], some true) := by
  decide +kernel

-- The hypotheses of `C39_sizes_partial` can be met over the reals.
example : (wavelengthSizing Real.sqrt Real.cos
    (⟨⟨0, 1, 0, 0⟩, 1, 1, 2, 1, fun i _ => some (if i = 0 then -4 else 9), none, true, 0, some true⟩ : Grid ℝ Nat) 10 (some 1) (some 5) 7 9
    0 true).isSome := by
  simp [wavelengthSizing, Grid.evalNodes, mkGrid, gridChecks]

/-- **C39** fails: with a maximum below the minimum the sizes are below the minimum; with a maximum but no minimum the recorded `hmin`
is the least size before the cap and exceeds every value. -/
theorem C39_maximum_below_minimum :
    (wavelengthSizing sqrtEx id waveEx 1 (some 2) (some 1) 1 1 0 false).map (fun r => (shown r, r.hmin)) =
        some (([[some 1], [some 1]], some true), some 2) ∧
      (wavelengthSizing sqrtEx id waveEx 1 none (some 1) 1 1 0 false).map (fun r => (shown r, r.hmin)) =
        some (([[some 1], [some 1]], some true), some 2) := by
  refine ⟨?_, ?_⟩ <;> decide +kernel

/-- **C39** fails: the node on land (elevation 9) gets a larger size than the node at depth 4; sizes do not follow the depth. -/
theorem C39_land_counts_as_depth :
    (waveEx.evalNodes waveEx).map (fun z => (List.finRange 2).map fun i : Fin 2 => z i (0 : Fin 1)) = some [some (-4), some 9] ∧
    (wavelengthSizing sqrtEx id waveEx 1 none none 1 1 0 false).map shown = some ([[some 2], [some 3]], some true) := by
  refine ⟨?_, ?_⟩ <;> decide +kernel

/-- **C39** fails: the metres per degree are computed with the latitude in degrees handed to the cosine as radians. At mean latitude 45
the result differs from the value of the same formula for 45 degrees. -/
theorem C39_latitude_in_radians : metresPerDegree Real.cos 45 ≠ metresPerDegree Real.cos (45 * (Real.pi / 180)) := by
  have h0 : Real.cos 90 ≠ 0 := by
    intro h
    obtain ⟨k, hk⟩ := Real.cos_eq_zero_iff.1 h
    have hk0 : ((2 * k + 1 : ℤ) : ℝ) ≠ 0 := by
      exact_mod_cast (by omega : (2 * k + 1 : ℤ) ≠ 0)
    refine irrational_pi ⟨180 / ((2 * k + 1 : ℤ) : ℚ), ?_⟩
    push_cast at hk0 ⊢
    rw [div_eq_iff hk0]
    linarith
  intro h
  unfold metresPerDegree at h
  have e2 : Real.cos (2 * (45 * (Real.pi / 180))) = 0 := by
    rw [show 2 * (45 * (Real.pi / 180)) = Real.pi / 2 by ring, Real.cos_pi_div_two]
  have e4 : Real.cos (4 * (45 * (Real.pi / 180))) = -1 := by
    rw [show 4 * (45 * (Real.pi / 180)) = Real.pi by ring, Real.cos_pi]
  have e6 : Real.cos (6 * (45 * (Real.pi / 180))) = 0 := by
    rw [show 6 * (45 * (Real.pi / 180)) = 3 * (Real.pi / 2) by ring, Real.cos_three_mul, Real.cos_pi_div_two]
    ring
  rw [e2, e4, e6, show (2 * 45 : ℝ) = 90 by norm_num, show (4 * 45 : ℝ) = 2 * 90 by norm_num,
    show (6 * 45 : ℝ) = 3 * 90 by norm_num, Real.cos_two_mul, Real.cos_three_mul] at h
  have hfac : Real.cos 90 * (-(55982 / 100) + 235 / 100 * Real.cos 90 - 92 / 10000 * Real.cos 90 ^ 2 + 69 / 10000) = 0 := by
    linarith [h]
  rcases mul_eq_zero.1 hfac with h1 | h1
  · exact h0 h1
  · nlinarith [Real.cos_le_one 90, sq_nonneg (Real.cos 90)]

/-! ## C80 -/

section
variable {K C : Type} [Field K] [LinearOrder K] [IsStrictOrderedRing K] [FloorRing K]

theorem cyclicVals_all {n m : Nat} (b : Box K) (vals : Fin n → Fin m → Option K) (P : Option K → Prop) (h : ∀ i j, P (vals i j))
    (i : Fin n) (j : Fin m) : P (cyclicVals b vals i j) := by
  unfold cyclicVals
  split
  · exact h _ _
  · exact h _ _

theorem slopeValues_spec {twoPi sp cutoff : K} {scale : K × K} {n m : Nat}
    {slope : K → K → (Fin n → Fin m → K) → Option (Fin n → Fin m → K)} {mn : K} {mx : Option K} {dx dy : K}
    {z : Fin n → Fin m → K} {vals : Fin n → Fin m → Option K}
    (h : slopeValues twoPi sp cutoff scale slope mn mx dx dy z = some vals) :
    ∀ i j, ∃ w, vals i j = some w ∧ (∀ b, mx = some b → w ≤ b) ∧ ((∀ b, mx = some b → mn ≤ b) → mn ≤ w) := by
  intro i j
  obtain ⟨s, -, hv⟩ := Option.map_eq_some_iff.1 h
  rw [← hv]
  obtain ⟨w, hw, hb, ha, -⟩ := clip_some (some mn) mx (slopeSize twoPi sp scale.2 (cutElevation cutoff (z i j)) (s i j))
  exact ⟨w, hw, hb, ha mn rfl⟩

theorem slopeValues_some {twoPi sp cutoff : K} {scale : K × K} {n m : Nat}
    {slope : K → K → (Fin n → Fin m → K) → Option (Fin n → Fin m → K)} {mn : K} {mx : Option K} {dx dy : K}
    {z : Fin n → Fin m → K} {vals : Fin n → Fin m → Option K}
    (h : slopeValues twoPi sp cutoff scale slope mn mx dx dy z = some vals) : ∃ dx dy z s, slope dx dy z = some s := by
  obtain ⟨s, hs, -⟩ := Option.map_eq_some_iff.1 h
  exact ⟨_, _, _, s, hs⟩

theorem filteredSlope_sizes {sqrt : K → K} {filt : (n m : Nat) → K → (Fin n → Fin m → K) → Option (Fin n → Fin m → K)} {n m : Nat}
    (h : ∃ dx dy z s, filteredSlope sqrt filt (n := n) (m := m) dx dy z = some s) : 2 ≤ n ∧ 2 ≤ m := by
  obtain ⟨dx, dy, z, s, hs⟩ := h
  unfold filteredSlope at hs
  split at hs
  · simp at hs
  · obtain ⟨G, hG, -⟩ := Option.map_eq_some_iff.1 hs
    exact (C40_sizes _ _ _).1 (Option.isSome_iff_exists.2 ⟨G, hG⟩)

/-- The limits hold whatever computes the slope, as long as it rejects grids of less than two nodes per direction. -/
theorem slopeSizing_limits {twoPi : K} {dem : Grid K C} {sp cutoff : K} {scale : K × K}
    {slope : K → K → (Fin dem.nx → Fin dem.ny → K) → Option (Fin dem.nx → Fin dem.ny → K)} {mn mx : Option K} {coarsen : K} {r : Grid K C}
    (hnm : (∃ dx dy z s, slope dx dy z = some s) → 2 ≤ dem.nx ∧ 2 ≤ dem.ny)
    (h : bathyGradientSizing twoPi dem sp cutoff scale slope mn mx coarsen = some r) :
    ∃ lo, r.hmin = some lo ∧ r.box = dem.box ∧ (∀ a, mn = some a → lo = a) ∧ (mn = none → lo = max dem.dx dem.dy) ∧
      ∀ i j, ∃ w, r.vals i j = some w ∧ (∀ b, mx = some b → w ≤ b) ∧ ((∀ b, mx = some b → lo ≤ b) → lo ≤ w) := by
  unfold bathyGradientSizing at h
  split at h
  · simp at h
  split at h
  · simp at h
  split at h
  · simp at h
  rename_i z hz
  simp only at h
  refine ⟨mn.getD (max dem.dx dem.dy), ?_⟩
  set lo := mn.getD (max dem.dx dem.dy) with hlo
  have hlo' : (∀ a, mn = some a → lo = a) ∧ (mn = none → lo = max dem.dx dem.dy) :=
    ⟨fun a ha => by simp [hlo, ha], fun ha => by simp [hlo, ha]⟩
  split at h
  · simp at h
  rename_i vals hvals
  obtain ⟨hn, hm⟩ := hnm (slopeValues_some hvals)
  have hv := slopeValues_spec hvals
  split at h
  · simp at h
  rename_i g hg
  have hg' := mkGrid_array_eq hg
  have hpos : 0 < g.dx ∧ 0 < g.dy := by
    unfold mkGrid at hg
    simp only [Option.getD_some] at hg
    split at hg
    · rename_i hc
      simp [gridChecks] at hc
      rw [← Option.some.inj hg]
      exact ⟨hc.1.2, hc.2⟩
    · simp at hg
  subst hg'
  split at h
  · have hr := Option.some.inj h
    subst hr
    exact ⟨rfl, rfl, hlo'.1, hlo'.2, cyclicVals_all _ _
      (fun v => ∃ w, v = some w ∧ (∀ b, mx = some b → w ≤ b) ∧ ((∀ b, mx = some b → lo ≤ b) → lo ≤ w)) hv⟩
  · split at h
    · simp at h
    rename_i target htarget
    have htb : target.box = dem.box := by
      unfold mkGrid at htarget
      simp only [Option.getD_some] at htarget
      split at htarget
      · rw [← Option.some.inj htarget]
      · simp at htarget
    obtain ⟨t, ht, hr⟩ := Option.map_eq_some_iff.1 h
    subst hr
    unfold Grid.interpolateTo at ht
    split at ht
    · have ht' := Option.some.inj ht
      subst ht'
      refine ⟨rfl, htb, hlo'.1, hlo'.2, cyclicVals_all _ _
        (fun v => ∃ w, v = some w ∧ (∀ b, mx = some b → w ≤ b) ∧ ((∀ b, mx = some b → lo ≤ b) → lo ≤ w)) ?_⟩
      intro i j
      obtain ⟨k, l, -, hkl⟩ := nearestAt_spec
        (Grid.buildInterpolant (⟨dem.box, dem.dx, dem.dy, dem.nx, dem.ny, vals, some lo, true, dem.crs, none⟩ : Grid K C))
        (target.xAt i, target.yAt j) hpos.1 hpos.2 (by simp [Grid.buildInterpolant]; omega) (by simp [Grid.buildInterpolant]; omega)
      have hnum : ∃ x, Grid.mergedValue
          (Grid.buildInterpolant (⟨dem.box, dem.dx, dem.dy, dem.nx, dem.ny, vals, some lo, true, dem.crs, none⟩ : Grid K C))
          target i j = some x := by
        have : Grid.mergedValue
          (Grid.buildInterpolant (⟨dem.box, dem.dx, dem.dy, dem.nx, dem.ny, vals, some lo, true, dem.crs, none⟩ : Grid K C))
          target i j = Grid.nearestAt (Grid.buildInterpolant
            (⟨dem.box, dem.dx, dem.dy, dem.nx, dem.ny, vals, some lo, true, dem.crs, none⟩ : Grid K C)) (target.xAt i, target.yAt j) := by
          simp [Grid.mergedValue, Grid.sourceValue, Grid.buildInterpolant]
        rw [this, hkl]
        exact cyclicVals_all _ _ (fun v => ∃ w, v = some w) (fun i j => by obtain ⟨w, hw, -⟩ := hv i j; exact ⟨w, hw⟩) k l
      obtain ⟨x, hx⟩ := hnum
      obtain ⟨w, hw, hb, ha, -⟩ := clip_some (some lo) mx x
      exact ⟨w, by simp only; rw [hx]; exact hw, hb, ha lo rfl⟩
    · simp at ht

/-- **C80**, limits: for every accepted input, filter and coarsening, also around the globe, every node of the result has a number, at most
the maximum, and at least the minimum (the larger spacing of the DEM if none is given) if the limits are in order; that minimum is recorded
as `hmin`, and the box is that of the DEM.
Missing: the values between and outside the nodes (`C31_eval_between_partial`, `C80_coarse_no_extrapolation`). -/
theorem C80_limits_partial {sqrt : K → K} {twoPi : K} {dem : Grid K C} {sp cutoff : K} {scale : K × K}
    {filt : (n m : Nat) → K → (Fin n → Fin m → K) → Option (Fin n → Fin m → K)} {mn mx : Option K} {coarsen : K} {r : Grid K C}
    (h : bathyGradientSizing twoPi dem sp cutoff scale (filteredSlope sqrt filt) mn mx coarsen = some r) :
    ∃ lo, r.hmin = some lo ∧ r.box = dem.box ∧ (∀ a, mn = some a → lo = a) ∧ (mn = none → lo = max dem.dx dem.dy) ∧
      ∀ i j, ∃ w, r.vals i j = some w ∧ (∀ b, mx = some b → w ≤ b) ∧ ((∀ b, mx = some b → lo ≤ b) → lo ≤ w) :=
  slopeSizing_limits filteredSlope_sizes h

/-- **C80**, coarsening: a factor below one or not an integer is rejected. -/
theorem C80_coarsen_rejected (twoPi : K) (dem : Grid K C) (sp cutoff : K) (scale : K × K)
    (slope : K → K → (Fin dem.nx → Fin dem.ny → K) → Option (Fin dem.nx → Fin dem.ny → K)) (mn mx : Option K) (coarsen : K)
    (h : coarsen < 1 ∨ ∀ k : Int, (k : K) ≠ coarsen) : bathyGradientSizing twoPi dem sp cutoff scale slope mn mx coarsen = none := by
  unfold bathyGradientSizing
  split
  · rfl
  · rw [if_pos]
    exact h.imp_right fun h => h _
end

/-- **C80**, plane bottom: for a DEM that does not reach around the globe, without filter and coarsening, and a bottom that is a plane with
slopes `b` and `c` (in metres per metre) below the cutoff and deeper than one metre, every size that the limits allow is
`2 pi |z| / slope_parameter` divided by the slope `sqrt (b ^ 2 + c ^ 2)` plus 1e-10 and by the metres per degree. -/
theorem C80_plane_partial {C : Type} {dem : Grid ℝ C} {sp cutoff : ℝ} {scale : ℝ × ℝ} {mn mx : Option ℝ} {r : Grid ℝ C} {a b c : ℝ}
    (hbox : ¬ (|dem.box.xmin| = 180 ∧ |dem.box.xmax| = 180)) (hscale : scale.1 ≠ 0 ∧ scale.2 ≠ 0) (hd : dem.dx ≠ 0 ∧ dem.dy ≠ 0)
    (z : Fin dem.nx → Fin dem.ny → ℝ) (hz : dem.evalNodes dem = some fun i j => some (z i j))
    (hplane : ∀ i j, z i j = a + b * ((i.val : ℝ) * (dem.dx * scale.1)) + c * ((j.val : ℝ) * (dem.dy * scale.2)))
    (hcut : ∀ i j, z i j < cutoff ∧ z i j ≤ -1)
    (h : bathyGradientSizing (2 * Real.pi) dem sp cutoff scale (filteredSlope Real.sqrt fun _ _ _ f => some f) mn mx 1 = some r) :
    ∃ (W : Fin dem.nx → Fin dem.ny → ℝ) (lo : ℝ), r = ⟨dem.box, dem.dx, dem.dy, dem.nx, dem.ny, fun i j => some (W i j), some lo, true,
        dem.crs, some true⟩ ∧ (∀ x, mn = some x → lo = x) ∧ (mn = none → lo = max dem.dx dem.dy) ∧
      ∀ i j, lo ≤ 2 * Real.pi / sp * |z i j| / (Real.sqrt (b ^ 2 + c ^ 2) + 1 / 10000000000) / scale.2 →
        (∀ x, mx = some x → 2 * Real.pi / sp * |z i j| / (Real.sqrt (b ^ 2 + c ^ 2) + 1 / 10000000000) / scale.2 ≤ x) →
        W i j = 2 * Real.pi / sp * |z i j| / (Real.sqrt (b ^ 2 + c ^ 2) + 1 / 10000000000) / scale.2 := by
  unfold bathyGradientSizing at h
  rw [hz] at h
  simp only at h
  rw [if_neg (by simp)] at h
  have hnum : numbersOf (fun i j => some (z i j)) = some z := by simp [numbersOf]
  rw [hnum] at h
  simp only at h
  set lo := mn.getD (max dem.dx dem.dy) with hlo
  have hlo' : (∀ a, mn = some a → lo = a) ∧ (mn = none → lo = max dem.dx dem.dy) :=
    ⟨fun a ha => by simp [hlo, ha], fun ha => by simp [hlo, ha]⟩
  split at h
  · simp at h
  rename_i vals hvals
  split at h
  · simp at h
  rename_i g hg
  have hr := Option.some.inj h
  have hg' := mkGrid_array_eq hg
  obtain ⟨hn, hm⟩ := filteredSlope_sizes (slopeValues_some hvals)
  have hcutz : (fun i j => cutElevation cutoff (z i j)) = z := by
    funext i j
    simp [cutElevation, not_le.2 (hcut i j).1]
  have hF : z = fun (i : Fin dem.nx) (j : Fin dem.ny) =>
      a + b * ((i.val : ℝ) * (dem.dx * scale.1)) + c * ((j.val : ℝ) * (dem.dy * scale.2)) := funext fun i => funext fun j => hplane i j
  have hgrad : earthGradient z (dem.dy * scale.2) (dem.dx * scale.1) = some (fun _ _ => b, fun _ _ => c) := by
    rw [hF]
    exact C40_affine hn hm a b c _ _ (mul_ne_zero hd.2 hscale.2) (mul_ne_zero hd.1 hscale.1)
  have hvals' : vals = fun i j => clipAbove mx (clipBelow (some lo)
      (some (slopeSize (2 * Real.pi) sp scale.2 (z i j) (Real.sqrt (b ^ 2 + c ^ 2))))) := by
    have h2 := hvals
    unfold slopeValues at h2
    simp only [hcutz, filteredSlope, slopeField, hgrad, Option.map_some, Option.some.injEq] at h2
    rw [← h2]
    funext i j
    rw [add_comm (c ^ 2)]
    simp [cutElevation, not_le.2 (hcut i j).1]
  have hW : ∀ i j, ∃ w, vals i j = some w ∧
      (lo ≤ slopeSize (2 * Real.pi) sp scale.2 (z i j) (Real.sqrt (b ^ 2 + c ^ 2)) →
        (∀ x, mx = some x → slopeSize (2 * Real.pi) sp scale.2 (z i j) (Real.sqrt (b ^ 2 + c ^ 2)) ≤ x) →
        w = slopeSize (2 * Real.pi) sp scale.2 (z i j) (Real.sqrt (b ^ 2 + c ^ 2))) := by
    intro i j
    obtain ⟨w, hw, -, -, he, -⟩ := clip_some (some lo) mx (slopeSize (2 * Real.pi) sp scale.2 (z i j) (Real.sqrt (b ^ 2 + c ^ 2)))
    exact ⟨w, by rw [hvals']; exact hw, fun h1 h2 => he (fun a ha => by rwa [← Option.some.inj ha]) h2⟩
  choose W hW1 hW2 using hW
  refine ⟨W, lo, ?_, hlo'.1, hlo'.2, fun i j h1 h2 => ?_⟩
  · rw [← hr, buildInterpolant_noncyclic _ (by rw [hg']; exact hbox), hg']
    have : vals = fun i j => some (W i j) := funext fun i => funext fun j => hW1 i j
    rw [this]
  · have hs : slopeSize (2 * Real.pi) sp scale.2 (z i j) (Real.sqrt (b ^ 2 + c ^ 2)) =
        2 * Real.pi / sp * |z i j| / (Real.sqrt (b ^ 2 + c ^ 2) + 1 / 10000000000) / scale.2 := by
      unfold slopeSize
      rw [min_eq_left (hcut i j).2]
    rw [← hs] at h1 h2 ⊢
    exact hW2 i j h1 h2

/-- A DEM over the reals: three by two nodes, a plane that falls by 3 per column and rises by 4 per row. -/
noncomputable def planeEx : Grid ℝ Nat :=
  ⟨⟨0, 2, 0, 1⟩, 1, 1, 3, 2, fun i j => some (-100 - 3 * (i.val : ℝ) + 4 * (j.val : ℝ)), none, true, 0, none⟩

theorem planeEx_eval : planeEx.buildInterpolant.evalNodes planeEx.buildInterpolant =
    some fun i j => some (-100 - 3 * (i.val : ℝ) + 4 * (j.val : ℝ)) := by
  have hv : planeEx.buildInterpolant.vals = planeEx.vals := (C32_idempotent_partial planeEx (by simp [planeEx]) 0).2
  have hnode : ∀ (i : Fin planeEx.nx) (j : Fin planeEx.ny), planeEx.buildInterpolant.evalAt
      (planeEx.box.xmin + (i : ℝ) * planeEx.dx, planeEx.box.ymin + (j : ℝ) * planeEx.dy) =
      some (some (-100 - 3 * (i.val : ℝ) + 4 * (j.val : ℝ))) := by
    intro i j
    rw [C31_eval_node_partial planeEx i j (by simp [planeEx]) (by simp [planeEx])]
    · exact congrArg some (congrFun (congrFun hv i) j)
    · intro k l _ _
      exact (congrArg Option.isSome (congrFun (congrFun hv k) l)).trans rfl
  unfold Grid.evalNodes
  refine congrArg some (funext fun i => funext fun j => ?_)
  have := hnode i j
  rw [← Option.some.injEq]
  refine Eq.trans ?_ this
  simp only [Grid.xAt, Grid.yAt, Grid.evalAt]
  simp [Grid.buildInterpolant, planeEx]

-- The hypotheses of `C80_plane_partial` are met.
example : ¬ (|planeEx.buildInterpolant.box.xmin| = 180 ∧ |planeEx.buildInterpolant.box.xmax| = 180) ∧
    (∀ (i : Fin 3) (j : Fin 2), (-100 - 3 * (i.val : ℝ) + 4 * (j.val : ℝ)) =
      -100 + (-3) * ((i.val : ℝ) * (planeEx.dx * 1)) + 4 * ((j.val : ℝ) * (planeEx.dy * 1))) ∧
    (bathyGradientSizing (2 * Real.pi) planeEx.buildInterpolant 20 (-50) (1, 1) (filteredSlope Real.sqrt fun _ _ _ f => some f) none (some 9)
      1).isSome := by
  refine ⟨by simp [planeEx, Grid.buildInterpolant], fun i j => by simp [planeEx]; ring, ?_⟩
  unfold bathyGradientSizing
  rw [planeEx_eval]
  simp [numbersOf, slopeValues, filteredSlope, slopeField, mkGrid, gridChecks, planeEx, Grid.buildInterpolant, earthGradient]
  rw [if_pos (by norm_num)]
  rfl

/-- A DEM of three by two nodes on a box that is half a cell longer, depths 60, 62, 64, interpolant built. -/
def slopeEx : Grid ℚ Nat :=
  ⟨⟨0, 5 / 2, 0, 1⟩, 1, 1, 3, 2, fun i _ => some (-60 - 2 * (i.val : ℚ)), none, true, 0, some true⟩

-- A run without filter: slope 2 at all nodes, limits 1 and 8.
example : (bathyGradientSizing 6 slopeEx 20 (-50) (1, 1) (filteredSlope (fun x => x / 2) fun _ _ _ f => some f) (some 1) (some 8) 1).map
      (fun r => ((List.finRange 3).map fun i : Fin 3 => (r.evalAt ((i.val : ℚ), 0)), r.hmin)) =
    some ([some (some 8), some (some 8), some (some 8)], some 1) ∧
    (bathyGradientSizing 6 slopeEx 200 (-50) (1, 1) (filteredSlope (fun x => x / 2) fun _ _ _ f => some f) (some (93 / 100)) none 2).isSome := by
  refine ⟨?_, ?_⟩ <;> decide +kernel

/-- **C80** fails: with a coarsening factor the sizing function is not extrapolated beyond its last node. At the border of the box, beyond
the last node, the function is 8 without coarsening, and 999999 (more than the maximum) with coarsening. -/
theorem C80_coarse_no_extrapolation :
    (bathyGradientSizing 6 slopeEx 20 (-50) (1, 1) (filteredSlope (fun x => x / 2) fun _ _ _ f => some f) (some 1) (some 8) 1).map
        (fun r => (r.box.xmax, r.evalAt (5 / 2, 0))) = some (5 / 2, some (some 8)) ∧
      (bathyGradientSizing 6 slopeEx 20 (-50) (1, 1) (filteredSlope (fun x => x / 2) fun _ _ _ f => some f) (some 1) (some 8) 2).map
        (fun r => (r.box.xmax, r.evalAt (5 / 2, 0))) = some (5 / 2, some (some 999999)) := by
  refine ⟨?_, ?_⟩ <;> decide +kernel

/-! ## C81 -/

section
variable {K C : Type} [Field K] [LinearOrder K] [IsStrictOrderedRing K] [FloorRing K]

theorem mkGrid_scalar_spec {b : Box K} {d : K} {crs : C} {hm v : Option K} {e : Bool} {g : Grid K C}
    (h : mkGrid b d none crs hm (.scalar v) e = some g) :
    0 < d ∧ 0 < g.nx ∧ 0 < g.ny ∧ g.box = b ∧ g.dx = d ∧ g.dy = d ∧ g.extrapolate = e ∧ g.hmin = hm := by
  unfold mkGrid at h
  simp only [Option.getD_none] at h
  split at h
  · rename_i hc
    simp [gridChecks] at hc
    obtain ⟨⟨h1, h2⟩, h3⟩ := hc
    have hx : 0 ≤ ⌊(b.xmax - b.xmin) / d⌋ := Int.floor_nonneg.2 (div_nonneg (by linarith) h3.le)
    have hy : 0 ≤ ⌊(b.ymax - b.ymin) / d⌋ := Int.floor_nonneg.2 (div_nonneg (by linarith) h3.le)
    rw [← Option.some.inj h]
    refine ⟨h3, ?_, ?_, rfl, rfl, rfl, rfl, rfl⟩ <;> simp only <;> omega
  · simp at h

/-- **C81**, values: for a positive divisor and a box that does not reach around the globe, every node of the result has a number: the
width `2 (dMA + |dis|) / r` of a nearest node of a lattice with half the spacing, put between the limits. It is at most the maximum, at
least the minimum if the limits are in order, and not negative if no limit is.
Missing: without a minimum the values can be below `h0` although `h0` is recorded as `hmin` (`C81_zero_size`). -/
theorem C81_values_partial {dMA dis : (g : Grid K C) → Fin g.nx → Fin g.ny → K} {box : Box K} {h0 r : K} {mn mx : Option K} {crs : C}
    {g : Grid K C} (hbox : ¬ (|box.xmin| = 180 ∧ |box.xmax| = 180)) (h : featureSizing dMA dis box h0 r mn mx crs = some g) :
    0 < r ∧ g.box = box ∧ g.dx = h0 ∧ g.hmin = some h0 ∧ g.interp = some true ∧
      ∃ f, mkGrid box (h0 / 2) none crs (some h0) (.scalar (some 0)) true = some f ∧
        ∀ (i : Fin g.nx) (j : Fin g.ny), ∃ (k : Fin f.nx) (l : Fin f.ny) (w : K), g.vals i j = some w ∧
          NearestNode box.xmin (h0 / 2) f.nx box.ymin (h0 / 2) f.ny (nodeAt box.xmin h0 i, nodeAt box.ymin h0 j) k l ∧
          (∀ b, mx = some b → w ≤ b) ∧ (∀ a, mn = some a → (∀ b, mx = some b → a ≤ b) → a ≤ w) ∧
          ((∀ a, mn = some a → a ≤ 2 * (dMA f k l + |dis f k l|) / r) → (∀ b, mx = some b → 2 * (dMA f k l + |dis f k l|) / r ≤ b) →
            w = 2 * (dMA f k l + |dis f k l|) / r) ∧
          (0 ≤ dMA f k l → (∀ b, mx = some b → 0 ≤ b) → 0 ≤ w) := by
  unfold featureSizing at h
  split at h
  · rename_i hr
    split at h
    · rename_i f grid hf hgrid
      obtain ⟨hd, hnx, hny, hfb, hfdx, hfdy, hfe, -⟩ := mkGrid_scalar_spec hf
      obtain ⟨hd2, -, -, hgb, hgdx, hgdy, hge, -⟩ := mkGrid_scalar_spec hgrid
      simp only at h
      obtain ⟨t, ht, hg⟩ := Option.map_eq_some_iff.1 h
      unfold Grid.interpolateTo at ht
      split at ht
      · have ht' := Option.some.inj ht
        subst ht'
        rw [buildInterpolant_noncyclic _ (by simpa only [hgb] using hbox)] at hg
        subst hg
        refine ⟨hr, hgb, hgdx, rfl, rfl, f, hf, fun i j => ?_⟩
        simp only at i j ⊢
        rw [buildInterpolant_noncyclic _ (by simpa only [hfb] using hbox)]
        obtain ⟨k, l, hkl, hv⟩ := nearestAt_spec
          ({ f with vals := fun i j => some (2 * (dMA f i j + |(|dis f i j|)|) / r), interp := some f.extrapolate } : Grid K C)
          (grid.xAt i, grid.yAt j) (by rw [hfdx]; exact hd) (by rw [hfdy]; exact hd) hnx hny
        have hm : Grid.mergedValue
            ({ f with vals := fun i j => some (2 * (dMA f i j + |(|dis f i j|)|) / r), interp := some f.extrapolate } : Grid K C)
            grid i j = some (2 * (dMA f k l + |dis f k l|) / r) := by
          simp only [Grid.mergedValue, Grid.sourceValue, hfe, Bool.not_true, Bool.false_and, Bool.false_eq_true, if_false] at hv ⊢
          rw [hv, abs_abs]
        rw [hm]
        obtain ⟨w, hw, hb, ha, he, hge2⟩ := clip_some mn mx (2 * (dMA f k l + |dis f k l|) / r)
        refine ⟨k, l, w, hw, ?_, hb, ha, he, ?_⟩
        · simp only [hfb, hfdx, hfdy] at hkl
          simpa only [Grid.xAt, Grid.yAt, hgb, hgdx, hgdy, abs_of_pos hd2, nodeAt] using hkl
        · intro h1 h2
          have h3 : 0 ≤ 2 * (dMA f k l + |dis f k l|) / r := div_nonneg (by have := abs_nonneg (dis f k l); linarith) hr.le
          exact hge2 0 h3 h2
      · simp at ht
    · simp at h
  · simp at h

/-- **C81**: a divisor that is not positive is rejected. -/
theorem C81_divisor_rejected (dMA dis : (g : Grid K C) → Fin g.nx → Fin g.ny → K) (box : Box K) (h0 r : K) (mn mx : Option K) (crs : C)
    (hr : r ≤ 0) : featureSizing dMA dis box h0 r mn mx crs = none := by
  unfold featureSizing
  rw [if_neg (not_lt.2 hr)]
end

/-- **C81** fails without a minimum: a shoreline node on the medial axis gets size zero, while `h0 = 1` is recorded as the minimum. -/
theorem C81_zero_size :
    (featureSizing (fun _ i _ => (i.val : ℚ)) (fun _ _ _ => 0) (⟨0, 1, 0, 1⟩ : Box ℚ) 1 4 none none (0 : Nat)).map
        (fun g => (shown g, g.hmin)) = some (([[some 0, some 0], [some 1, some 1]], some true), some 1) ∧
      (featureSizing (fun _ i _ => (i.val : ℚ)) (fun _ _ _ => 0) (⟨0, 1, 0, 1⟩ : Box ℚ) 1 4 (some (1 / 2)) none (0 : Nat)).map
        (fun g => (shown g, g.hmin)) = some (([[some (1 / 2), some (1 / 2)], [some 1, some 1]], some true), some 1) := by
  refine ⟨?_, ?_⟩ <;> decide +kernel
end OM
