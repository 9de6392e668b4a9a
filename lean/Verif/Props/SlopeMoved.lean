import Verif.Props.MovingSizes
/-!
# The sizes from the slope of the bottom in other places and units (C156)
-/
set_option linter.unusedSectionVars false
namespace OM
open Spec
section
variable {K C : Type} [Field K] [LinearOrder K] [IsStrictOrderedRing K] [FloorRing K]

/-- The slope does not depend on the unit of lengths. -/
def Spec.SlopeInUnit (c : K) {n m : Nat} (slope slope' : K → K → (Fin n → Fin m → K) → Option (Fin n → Fin m → K)) : Prop :=
  ∀ dx dy z, slope' (c * dx) (c * dy) (fun i j => c * z i j) = slope dx dy z

/-- A filter whose wave lengths are given in the same unit as its field. -/
def Spec.FilterInUnit (c : K) (filt filt' : (n m : Nat) → K → (Fin n → Fin m → K) → Option (Fin n → Fin m → K)) : Prop :=
  ∀ n m d z, filt' n m (c * d) (fun i j => c * z i j) = (filt n m d z).map fun f i j => c * f i j

theorem diffAxis_unit {c : K} (hc : c ≠ 0) {n : Nat} (f : Fin (n + 2) → K) (d : K) (i : Fin (n + 2)) : diffAxis (fun k => c * f k) (c * d) i = diffAxis f d i := by
  have e : ∀ x y w : K, (c * x - c * y) / (c * w) = (x - y) / w := fun x y w => by rw [← mul_sub, mul_div_mul_left _ _ hc]
  unfold diffAxis
  split_ifs
  · rw [e]
  · rw [e]
  · rw [show 2 * (c * d) = c * (2 * d) by ring, e]

/-- **C156** (1): the slope of a field is the same in every unit of length. -/
theorem C156_slope {c : K} (hc : 0 < c) (sqrt : K → K) {n m : Nat} (z : Fin n → Fin m → K) (dx dy : K) :
    slopeField sqrt (fun i j => c * z i j) (c * dx) (c * dy) = slopeField sqrt z dx dy := by
  unfold slopeField
  congr 1
  match n, m, z with
  | 0, _, _ => rfl
  | 1, _, _ => rfl
  | _ + 2, 0, _ => rfl
  | _ + 2, 1, _ => rfl
  | _ + 2, _ + 2, z =>
    simp only [earthGradient, Option.some.injEq, Prod.mk.injEq]
    exact ⟨by funext i j; exact diffAxis_unit hc.ne' _ _ _, by funext i j; exact diffAxis_unit hc.ne' _ _ _⟩

/-- **C156** (2): so is the slope of a filtered field, if the wave lengths of the filter are given in that unit. -/
theorem C156_filtered {c : K} (hc : 0 < c) (sqrt : K → K) {filt filt' : (n m : Nat) → K → (Fin n → Fin m → K) → Option (Fin n → Fin m → K)} (hf : FilterInUnit c filt filt')
    (n m : Nat) : SlopeInUnit c (filteredSlope sqrt filt (n := n) (m := m)) (filteredSlope sqrt filt') := by
  intro dx dy z
  unfold filteredSlope
  rw [hf]
  rcases filt n m dy z with _ | f
  · rfl
  · exact C156_slope hc sqrt f dx dy

/-- The size at a node, in another unit, if the elevation is at most minus one in both. -/
theorem slopeSize_unit {c : K} (hc : 0 < c) (twoPi sp scale z s : K) (h : c = 1 ∨ z ≤ -1 ∧ c * z ≤ -1) :
    slopeSize twoPi sp scale (c * z) s = c * slopeSize twoPi sp scale z s := by
  rcases h with rfl | ⟨h1, h2⟩
  · rw [one_mul, one_mul]
  · unfold slopeSize
    rw [min_eq_left h1, min_eq_left h2, abs_mul, abs_of_pos hc]
    ring

theorem cutElevation_unit {c : K} (hc : 0 < c) (cutoff z : K) : cutElevation (c * cutoff) (c * z) = c * cutElevation cutoff z := by
  unfold cutElevation
  by_cases h : cutoff ≤ z
  · rw [if_pos h, if_pos ((mul_le_mul_iff_right₀ hc).2 h)]
  · rw [if_neg h, if_neg (fun h' => h ((mul_le_mul_iff_right₀ hc).1 h'))]

theorem slopeValues_unit {c : K} (hc : 0 < c) (twoPi sp cutoff : K) (scale : K × K) {n m : Nat} {slope slope' : K → K → (Fin n → Fin m → K) → Option (Fin n → Fin m → K)}
    (hs : SlopeInUnit c slope slope') (mn : K) (mx : Option K) (dx dy : K) (z : Fin n → Fin m → K)
    (hdeep : c = 1 ∨ ∀ i j, cutElevation cutoff (z i j) ≤ -1 ∧ c * cutElevation cutoff (z i j) ≤ -1) :
    slopeValues twoPi sp (c * cutoff) scale slope' (c * mn) (mx.map (c * ·)) (c * dx) (c * dy) (fun i j => c * z i j) =
      (slopeValues twoPi sp cutoff scale slope mn mx dx dy z).map fun v i j => (v i j).map (c * ·) := by
  unfold slopeValues
  simp only [cutElevation_unit hc, mul_assoc c]
  rw [hs, Option.map_map]
  congr 1
  funext s i j
  simp only [Function.comp_apply]
  rw [slopeSize_unit hc _ _ _ _ _ (hdeep.imp_right fun h => h i j)]
  have h1 := clipBelow_unit hc (some mn) (some (slopeSize twoPi sp scale.2 (cutElevation cutoff (z i j)) (s i j)))
  simp only [Option.map_some] at h1
  rw [h1, clipAbove_unit hc]

theorem numbersOf_unit {n m : Nat} (c : K) (z : Fin n → Fin m → Option K) :
    numbersOf (fun i j => (z i j).map (c * ·)) = (numbersOf z).map fun w i j => c * w i j := by
  unfold numbersOf
  have hi : (∀ i j, ((z i j).map (c * ·)).isSome) ↔ ∀ i j, (z i j).isSome := by simp only [Option.isSome_map]
  by_cases h : ∀ i j, (z i j).isSome
  · rw [dif_pos (hi.2 h), dif_pos h]
    simp only [Option.map_some, Option.some.injEq]
    funext i j
    exact Option.get_map
  · rw [dif_neg (fun h' => h (hi.1 h')), dif_neg h]
    rfl

theorem mkGrid_unit_scalar {c : K} (hc : 0 < c) (t : K × K) (b : Box K) (dx dy : K) (crs : C) (h : Option K) (ext : Bool) :
    mkGrid (boxInUnit c t b) (c * dx) (some (c * dy)) crs (h.map (c * ·)) (.scalar (some 0)) ext =
      (mkGrid b dx (some dy) crs h (.scalar (some 0)) ext).map (sizesInUnit c t) := by
  have e1 : ∀ x y s d : K, (c * x + s - (c * y + s)) / (c * d) = (x - y) / d := fun x y s d => by rw [shift_sub, mul_div_mul_left _ _ hc.ne']
  have hb : (boxInUnit c t b).xmax - (boxInUnit c t b).xmin = (c * b.xmax + t.1) - (c * b.xmin + t.1) := rfl
  have hb' : (boxInUnit c t b).ymax - (boxInUnit c t b).ymin = (c * b.ymax + t.2) - (c * b.ymin + t.2) := rfl
  simp only [mkGrid, Option.getD_some, gridChecks_unit hc]
  rw [hb, hb', e1, e1]
  split
  · simp only [Option.map_some, sizesInUnit, mul_zero]
  · rfl

theorem mkGrid_box {b : Box K} {dx : K} {dy : Option K} {crs : C} {h : Option K} {d : GridData K} {ext : Bool} {g : Grid K C} (hg : mkGrid b dx dy crs h d ext = some g) :
    g.box = b ∧ g.extrapolate = ext := by
  simp only [mkGrid] at hg
  split at hg
  · rcases d with _ | v | ⟨n, m, v⟩
    · cases hg
    · cases hg; exact ⟨rfl, rfl⟩
    · cases hg; exact ⟨rfl, rfl⟩
  · cases hg

/-- What is done with the sizes on the lattice of the elevations. -/
def finishSlope (dem : Grid K C) (lo : K) (mx : Option K) (coarsen : K) (vals : Fin dem.nx → Fin dem.ny → Option K) : Option (Grid K C) :=
  (mkGrid dem.box dem.dx (some dem.dy) dem.crs (some lo) (.array dem.nx dem.ny vals) true).bind fun g =>
    if coarsen = 1 then some g.buildInterpolant
    else
      (mkGrid dem.box (dem.dx * coarsen) (some (dem.dy * coarsen)) dem.crs (some lo) (.scalar (some 0)) true).bind fun target =>
        (g.buildInterpolant.interpolateTo target).map fun r =>
          Grid.buildInterpolant { r with
            vals := fun i j => clipAbove mx (clipBelow (some lo) (r.vals i j))
            hmin := some lo }

theorem bathyGradientSizing_eq (twoPi : K) (dem : Grid K C) (sp cutoff : K) (scale : K × K) (slope : K → K → (Fin dem.nx → Fin dem.ny → K) → Option (Fin dem.nx → Fin dem.ny → K))
    (mn mx : Option K) (coarsen : K) :
    bathyGradientSizing twoPi dem sp cutoff scale slope mn mx coarsen =
      (dem.evalNodes dem).bind fun z => if coarsen < 1 ∨ (⌊coarsen⌋ : K) ≠ coarsen then none else
        (numbersOf z).bind fun z => (slopeValues twoPi sp cutoff scale slope (mn.getD (max dem.dx dem.dy)) mx dem.dx dem.dy z).bind
          (finishSlope dem (mn.getD (max dem.dx dem.dy)) mx coarsen) := by
  unfold bathyGradientSizing finishSlope
  cases dem.evalNodes dem with
  | none => rfl
  | some z =>
    simp only [Option.bind_some]
    split
    · rfl
    · cases numbersOf z with
      | none => rfl
      | some z =>
        simp only [Option.bind_some]
        cases slopeValues twoPi sp cutoff scale slope (mn.getD (max dem.dx dem.dy)) mx dem.dx dem.dy z with
        | none => rfl
        | some vals =>
          simp only [Option.bind_some]
          cases mkGrid dem.box dem.dx (some dem.dy) dem.crs (some (mn.getD (max dem.dx dem.dy))) (.array dem.nx dem.ny vals) true with
          | none => rfl
          | some g =>
            simp only [Option.bind_some]
            split
            · rfl
            · cases mkGrid dem.box (dem.dx * coarsen) (some (dem.dy * coarsen)) dem.crs (some (mn.getD (max dem.dx dem.dy))) (.scalar (some 0)) true <;> rfl

theorem finishSlope_unit {c : K} (hc : 0 < c) (t : K × K) {dem : Grid K C} (hb : NotGlobe dem.box) (hb' : NotGlobe (boxInUnit c t dem.box)) (lo : K) (mx : Option K) (coarsen : K)
    (vals : Fin dem.nx → Fin dem.ny → Option K) :
    finishSlope (sizesInUnit c t dem) (c * lo) (mx.map (c * ·)) coarsen (fun i j => (vals i j).map (c * ·)) = (finishSlope dem lo mx coarsen vals).map (sizesInUnit c t) := by
  unfold finishSlope
  have h1 : mkGrid (sizesInUnit c t dem).box (sizesInUnit c t dem).dx (some (sizesInUnit c t dem).dy) (sizesInUnit c t dem).crs (some (c * lo))
      (.array (sizesInUnit c t dem).nx (sizesInUnit c t dem).ny fun i j => (vals i j).map (c * ·)) true = _ := mkGrid_unit_xy hc t dem.box dem.dx dem.dy dem.crs (some lo) vals true
  have h2 : mkGrid (sizesInUnit c t dem).box ((sizesInUnit c t dem).dx * coarsen) (some ((sizesInUnit c t dem).dy * coarsen)) (sizesInUnit c t dem).crs (some (c * lo))
      (.scalar (some 0)) true =
      (mkGrid dem.box (dem.dx * coarsen) (some (dem.dy * coarsen)) dem.crs (some lo) (.scalar (some 0)) true).map (sizesInUnit c t) := by
    have := mkGrid_unit_scalar hc t dem.box (dem.dx * coarsen) (dem.dy * coarsen) dem.crs (some lo) true
    rw [← mul_assoc, ← mul_assoc] at this
    exact this
  rw [h1, h2]
  cases hg : mkGrid dem.box dem.dx (some dem.dy) dem.crs (some lo) (.array dem.nx dem.ny vals) true with
  | none => rfl
  | some g =>
    obtain ⟨hgb, hge⟩ := mkGrid_box hg
    have hB : (sizesInUnit c t g).buildInterpolant = sizesInUnit c t g.buildInterpolant := buildInterpolant_unit (by rw [hgb]; exact hb) (by rw [hgb]; exact hb')
    simp only [Option.map_some, Option.bind_some]
    rw [hB]
    split
    · rfl
    · cases hT : mkGrid dem.box (dem.dx * coarsen) (some (dem.dy * coarsen)) dem.crs (some lo) (.scalar (some 0)) true with
      | none => rfl
      | some target =>
        obtain ⟨htb, -⟩ := mkGrid_box hT
        simp only [Option.map_some, Option.bind_some]
        rw [interpolateTo_unit hc t (g := g.buildInterpolant) (by rw [show g.buildInterpolant.extrapolate = g.extrapolate from rfl, hge])]
        cases hI : g.buildInterpolant.interpolateTo target with
        | none => rfl
        | some r =>
          have hrb : r.box = dem.box := by
            unfold Grid.interpolateTo at hI
            split at hI
            · cases hI; exact htb
            · cases hI
          simp only [Option.map_some, Option.some.injEq]
          have := buildInterpolant_unit (c := c) (t := t)
            (g := { r with vals := fun i j => clipAbove mx (clipBelow (some lo) (r.vals i j)), hmin := some lo }) (by rw [hrb]; exact hb) (by rw [hrb]; exact hb')
          rw [← this]
          have hv : (fun i j => (clipAbove mx (clipBelow (some lo) (r.vals i j))).map (c * ·)) =
              fun i j => clipAbove (mx.map (c * ·)) (clipBelow (some (c * lo)) ((r.vals i j).map (c * ·))) := by
            funext i j
            rw [← clipAbove_unit hc, ← clipBelow_unit hc]
            rfl
          simp only [sizesInUnit, hv, Option.map_some]

/-- **C156** (3): with places, spacings, elevations, cutoff and limits in another unit and with another origin, the sizing from the slope is the same sizing in that unit, also
coarsened, and raises in one exactly if it does in the other; if only the origin is changed, for all elevations, otherwise if the cut elevations are at most minus one in
both units. -/
theorem C156_sizing_partial {c : K} (hc : 0 < c) (t : K × K) {dem : Grid K C} (hx : 0 ≤ dem.dx) (hb : NotGlobe dem.box) (hb' : NotGlobe (boxInUnit c t dem.box))
    (twoPi sp cutoff : K) (scale : K × K) {slope slope' : K → K → (Fin dem.nx → Fin dem.ny → K) → Option (Fin dem.nx → Fin dem.ny → K)} (hs : SlopeInUnit c slope slope')
    (mn mx : Option K) (coarsen : K)
    (hdeep : c = 1 ∨ ∀ z, dem.evalNodes dem = some z → ∀ i j v, z i j = some v → cutElevation cutoff v ≤ -1 ∧ c * cutElevation cutoff v ≤ -1) :
    bathyGradientSizing twoPi (sizesInUnit c t dem) sp (c * cutoff) scale slope' (mn.map (c * ·)) (mx.map (c * ·)) coarsen =
      (bathyGradientSizing twoPi dem sp cutoff scale slope mn mx coarsen).map (sizesInUnit c t) := by
  have hlo : (mn.map (c * ·)).getD (max (sizesInUnit c t dem).dx (sizesInUnit c t dem).dy) = c * mn.getD (max dem.dx dem.dy) := by
    cases mn with
    | none => exact (mul_max_of_nonneg _ _ hc.le).symm
    | some a => rfl
  refine (bathyGradientSizing_eq twoPi (sizesInUnit c t dem) sp (c * cutoff) scale slope' (mn.map (c * ·)) (mx.map (c * ·)) coarsen).trans ?_
  rw [bathyGradientSizing_eq, evalNodes_unit hc t hx, hlo]
  cases hz : dem.evalNodes dem with
  | none => rfl
  | some z =>
    simp only [Option.map_some, Option.bind_some]
    split
    · rfl
    · have h1 : numbersOf (n := (sizesInUnit c t dem).nx) (m := (sizesInUnit c t dem).ny) (fun i j => (z i j).map (c * ·)) = _ := numbersOf_unit c z
      let lo := mn.getD (max dem.dx dem.dy)
      let S : (Fin (sizesInUnit c t dem).nx → Fin (sizesInUnit c t dem).ny → K) → Option (Fin (sizesInUnit c t dem).nx → Fin (sizesInUnit c t dem).ny → Option K) :=
        slopeValues twoPi sp (c * cutoff) scale slope' (c * lo) (mx.map (c * ·)) (sizesInUnit c t dem).dx (sizesInUnit c t dem).dy
      let F := finishSlope (sizesInUnit c t dem) (c * lo) (mx.map (c * ·)) coarsen
      refine (congrArg (fun o => Option.bind o fun w => (S w).bind F) h1).trans ?_
      cases hw : numbersOf z with
      | none => rfl
      | some w =>
        have hzw : ∀ i j, z i j = some (w i j) := by
          unfold numbersOf at hw
          split at hw
          · cases hw
            intro i j
            rw [Option.some_get]
          · cases hw
        have h2 : S (fun i j => c * w i j) = _ :=
          slopeValues_unit hc twoPi sp cutoff scale hs lo mx dem.dx dem.dy w (hdeep.imp_right fun h i j => h z hz i j _ (hzw i j))
        refine (congrArg (fun o => Option.bind o F) h2).trans ?_
        simp only [Option.bind_some]
        change _ = Option.map _ ((slopeValues twoPi sp cutoff scale slope lo mx dem.dx dem.dy w).bind _)
        cases slopeValues twoPi sp cutoff scale slope lo mx dem.dx dem.dy w with
        | none => rfl
        | some vals => exact finishSlope_unit hc t hb hb' _ mx coarsen vals

/-- **C156** (4): in another place the sizing from the slope is the same sizing there, for all elevations. -/
theorem C156_moved (t : K × K) {dem : Grid K C} (hx : 0 ≤ dem.dx) (hb : NotGlobe dem.box) (hb' : NotGlobe (boxInUnit 1 t dem.box))
    (twoPi sp cutoff : K) (scale : K × K) (slope : K → K → (Fin dem.nx → Fin dem.ny → K) → Option (Fin dem.nx → Fin dem.ny → K)) (mn mx : Option K) (coarsen : K) :
    bathyGradientSizing twoPi (sizesInUnit 1 t dem) sp cutoff scale slope mn mx coarsen =
      (bathyGradientSizing twoPi dem sp cutoff scale slope mn mx coarsen).map (sizesInUnit 1 t) := by
  have e : ∀ o : Option K, o.map ((1 : K) * ·) = o := fun o => by cases o <;> simp
  have h := C156_sizing_partial one_pos t hx hb hb' twoPi sp cutoff scale (slope := slope) (slope' := slope) (fun dx dy z => by simp only [one_mul]) mn mx coarsen (Or.inl rfl)
  rw [e, e, one_mul] at h
  exact h

end

/-- Finding: where the water is shallower than one, the depth is taken as one in every unit, so half a metre gives another size in centimetres. -/
theorem C156_shallow : slopeSize (6 : ℚ) 20 1 (100 * (-1 / 2)) 1 < 100 * slopeSize (6 : ℚ) 20 1 (-1 / 2) 1 := by decide +kernel

/-- Depths of a quarter, a half and three quarters of the unit. -/
def shallowSlopeEx : Grid ℚ Nat :=
  ⟨⟨0, 5 / 2, 0, 1⟩, 1, 1, 3, 2, fun i _ => some (-(1 + (i.val : ℚ)) / 4), none, true, 0, some true⟩

/-- Finding: so the whole sizing of shallow water is another one in another unit. -/
theorem C156_shallow_sizing :
    (bathyGradientSizing (6 : ℚ) (sizesInUnit 100 (0, 0) shallowSlopeEx) 20 (100 * (-1 / 8)) (1, 1) (filteredSlope (fun x => x / 2) fun _ _ _ f => some f) (some 0) none 1).map
        (fun g => g.evalAt (0, 0)) ≠
      ((bathyGradientSizing (6 : ℚ) shallowSlopeEx 20 (-1 / 8) (1, 1) (filteredSlope (fun x => x / 2) fun _ _ _ f => some f) (some 0) none 1).map (sizesInUnit 100 (0, 0))).map
        fun g => g.evalAt (0, 0) := by decide +kernel

/-! ## Example -/

example : (0 : ℚ) < 100 ∧ 0 ≤ slopeEx.dx ∧ NotGlobe slopeEx.box ∧ NotGlobe (boxInUnit (100 : ℚ) (7, -3) slopeEx.box) ∧
    (∀ z, slopeEx.evalNodes slopeEx = some z → ∀ i j v, z i j = some v → cutElevation (-50 : ℚ) v ≤ -1 ∧ 100 * cutElevation (-50 : ℚ) v ≤ -1) ∧
    NotGlobe (boxInUnit (1 : ℚ) (7, -3) slopeEx.box) ∧
    (bathyGradientSizing 6 slopeEx 20 (-50) (1, 1) (filteredSlope (fun x => x / 2) fun _ _ _ f => some f) (some 1) (some 8) 2).isSome ∧
    FilterInUnit (100 : ℚ) (fun _ _ _ f => some f) (fun _ _ _ f => some f) := by
  refine ⟨by norm_num, by norm_num [slopeEx], by unfold NotGlobe; decide +kernel, by unfold NotGlobe; decide +kernel, fun z _ i j v _ => ?_, by unfold NotGlobe; decide +kernel, by decide +kernel, fun _ _ _ _ => rfl⟩
  have : cutElevation (-50 : ℚ) v ≤ -50 := by
    unfold cutElevation
    split
    · exact le_rfl
    · rename_i h; exact (not_le.1 h).le
  constructor <;> linarith

end OM
