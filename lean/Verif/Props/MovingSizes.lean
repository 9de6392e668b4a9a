import Verif.Props.MovingSea
import Verif.Props.GradCompare
import Verif.Props.Sizing
/-!
# C148: the sizing functions in other places and units
-/
set_option linter.unusedSectionVars false
namespace OM
open Spec
section
variable {K C : Type} [Field K] [LinearOrder K] [IsStrictOrderedRing K] [FloorRing K]

/-- A sizing grid with its sizes in another unit and with another origin. -/
def Spec.sizesInUnit (c : K) (t : K × K) (g : Grid K C) : Grid K C :=
  ⟨boxInUnit c t g.box, c * g.dx, c * g.dy, g.nx, g.ny, fun i j => (g.vals i j).map (c * ·), g.hmin.map (c * ·), g.extrapolate, g.crs, g.interp⟩

/-- The box is not taken for the globe. -/
def Spec.NotGlobe (b : Box K) : Prop := ¬ (|b.xmin| = 180 ∧ |b.xmax| = 180)

theorem notGlobe_cyclic {b : Box K} (h : NotGlobe b) : cyclicBox b = false := by
  rw [← Bool.not_eq_true, cyclicBox, Bool.and_eq_true, decide_eq_true_eq, decide_eq_true_eq]
  exact h

theorem buildInterpolant_unit {c : K} {t : K × K} {g : Grid K C} (h : NotGlobe g.box) (h' : NotGlobe (boxInUnit c t g.box)) :
    (sizesInUnit c t g).buildInterpolant = sizesInUnit c t g.buildInterpolant := by
  simp only [Grid.buildInterpolant, sizesInUnit, cyclicVals, notGlobe_cyclic h, notGlobe_cyclic h', Bool.false_eq_true, if_false]

theorem gridChecks_unit {c : K} (hc : 0 < c) (t : K × K) (b : Box K) (dx dy : K) :
    gridChecks (boxInUnit c t b) (c * dx) (c * dy) = gridChecks b dx dy := by
  have e : ∀ x : K, c * x ≤ 0 ↔ x ≤ 0 := fun x => by rw [← mul_zero c, mul_le_mul_iff_right₀ hc, mul_zero]
  simp only [gridChecks, boxInUnit, shift_lt hc, e]

theorem mkGrid_unit {c : K} (hc : 0 < c) (t : K × K) (b : Box K) (dx : K) (crs : C) (h : K) (ext : Bool) :
    mkGrid (boxInUnit c t b) (c * dx) none crs (some (c * h)) (.scalar (some 0)) ext =
      (mkGrid b dx none crs (some h) (.scalar (some 0)) ext).map (sizesInUnit c t) := by
  have e1 : ∀ x y s : K, (c * x + s - (c * y + s)) / (c * dx) = (x - y) / dx := fun x y s => by rw [shift_sub, mul_div_mul_left _ _ hc.ne']
  have hb : (boxInUnit c t b).xmax - (boxInUnit c t b).xmin = (c * b.xmax + t.1) - (c * b.xmin + t.1) := rfl
  have hb' : (boxInUnit c t b).ymax - (boxInUnit c t b).ymin = (c * b.ymax + t.2) - (c * b.ymin + t.2) := rfl
  simp only [mkGrid, Option.getD_none, gridChecks_unit hc]
  rw [hb, hb', e1, e1]
  split
  · simp only [Option.map_some, sizesInUnit, mul_zero]
  · rfl

theorem mkGrid_unit_array {c : K} (hc : 0 < c) (t : K × K) (b : Box K) (dx : K) (crs : C) (h : Option K) {n m : Nat} (v : Fin n → Fin m → Option K) (ext : Bool) :
    mkGrid (boxInUnit c t b) (c * dx) none crs (h.map (c * ·)) (.array n m fun i j => (v i j).map (c * ·)) ext =
      (mkGrid b dx none crs h (.array n m v) ext).map (sizesInUnit c t) := by
  simp only [mkGrid, Option.getD_none, gridChecks_unit hc]
  split <;> rfl

theorem xAt_unit (c : K) (t : K × K) (g : Grid K C) (i : Nat) : (sizesInUnit c t g).xAt i = c * g.xAt i + t.1 := by
  simp only [Grid.xAt, sizesInUnit, boxInUnit]; ring

theorem yAt_unit {c : K} (hc : 0 < c) (t : K × K) (g : Grid K C) (j : Nat) : (sizesInUnit c t g).yAt j = c * g.yAt j + t.2 := by
  have ha : |c * g.dy| = c * |g.dy| := by rw [abs_mul, abs_of_pos hc]
  simp only [Grid.yAt, sizesInUnit, boxInUnit, ha]; ring

theorem node_unit {c : K} (hc : 0 < c) (t : K × K) (g : Grid K C) (i j : Nat) :
    ((sizesInUnit c t g).xAt i, (sizesInUnit c t g).yAt j) = inUnit c t (g.xAt i, g.yAt j) := by rw [xAt_unit, yAt_unit hc]; rfl

theorem outside_unit {c : K} (hc : 0 < c) (t : K × K) (g : Grid K C) (q : K × K) : (sizesInUnit c t g).outside (inUnit c t q) = g.outside q := by
  have ha : |c * g.dy| = c * |g.dy| := by rw [abs_mul, abs_of_pos hc]
  simp only [Grid.outside, sizesInUnit, boxInUnit, inUnit, ha, axisOutside_shift hc]

theorem linearAt_unit {c : K} (hc : 0 < c) (t : K × K) (g : Grid K C) (q : K × K) :
    (sizesInUnit c t g).linearAt (inUnit c t q) = (g.linearAt q).map (c * ·) := by
  have ha : |c * g.dy| = c * |g.dy| := by rw [abs_mul, abs_of_pos hc]
  simp only [Grid.linearAt, sizesInUnit, boxInUnit, inUnit, ha, axisCell_shift hc]
  rcases axisCell g.box.xmin g.dx g.nx q.1 with _ | ⟨i0, i1, s⟩ <;> rcases axisCell g.box.ymin |g.dy| g.ny q.2 with _ | ⟨j0, j1, r⟩ <;> try rfl
  dsimp only
  rcases g.vals i0 j0 with _ | a <;> rcases g.vals i0 j1 with _ | b <;> rcases g.vals i1 j0 with _ | d <;> rcases g.vals i1 j1 with _ | e <;> try rfl
  simp only [Option.map_some, Option.some.injEq]
  ring

theorem nearestAt_unit {c : K} (hc : 0 < c) (t : K × K) (g : Grid K C) (q : K × K) :
    (sizesInUnit c t g).nearestAt (inUnit c t q) = (g.nearestAt q).map (c * ·) := by
  have ha : |c * g.dy| = c * |g.dy| := by rw [abs_mul, abs_of_pos hc]
  simp only [Grid.nearestAt, sizesInUnit, boxInUnit, inUnit, ha, axisCell_shift hc]
  rcases axisCell g.box.xmin g.dx g.nx q.1 with _ | ⟨i0, i1, s⟩ <;> rcases axisCell g.box.ymin |g.dy| g.ny q.2 with _ | ⟨j0, j1, r⟩ <;> try rfl

/-- **C148** (1): a sizing grid with its sizes in another unit gives the sizes in that unit at the moved points, at all points if the grid extrapolates and
otherwise at the points within its nodes. -/
theorem C148_values {c : K} (hc : 0 < c) (t : K × K) (g : Grid K C) (q : K × K) (h : g.interp = some false → g.outside q = false) :
    (sizesInUnit c t g).evalAt (inUnit c t q) = (g.evalAt q).map (Option.map (c * ·)) := by
  have hi : (sizesInUnit c t g).interp = g.interp := rfl
  simp only [Grid.evalAt, Grid.evalWith, outside_unit hc, linearAt_unit hc, hi]
  cases he : g.interp with
  | none => rfl
  | some e =>
    cases e with
    | true => simp
    | false => simp [h he]

theorem interpolateTo_unit {c : K} (hc : 0 < c) (t : K × K) {g g2 : Grid K C} (he : g.extrapolate = true) :
    (sizesInUnit c t g).interpolateTo (sizesInUnit c t g2) = (g.interpolateTo g2).map (sizesInUnit c t) := by
  have ho : (sizesInUnit c t g).overlaps (sizesInUnit c t g2) = g.overlaps g2 := by
    simp only [Grid.overlaps, sizesInUnit, boxInUnit, shift_lt hc]
  have he' : (sizesInUnit c t g).extrapolate = true := he
  have hm : ∀ (i : Fin g2.nx) (j : Fin g2.ny), (sizesInUnit c t g).mergedValue (sizesInUnit c t g2) i j = (g.mergedValue g2 i j).map (c * ·) := by
    intro i j
    simp only [Grid.mergedValue, he, he', Bool.not_true, Bool.false_and, Bool.false_eq_true, if_false, Grid.sourceValue]
    rw [node_unit hc, nearestAt_unit hc]
  simp only [Grid.interpolateTo, ho]
  split
  · simp only [Option.map_some, Option.some.injEq]
    have : (sizesInUnit c t g).mergedValue (sizesInUnit c t g2) = fun i j => (g.mergedValue g2 i j).map (c * ·) := by
      funext i j; exact hm i j
    rw [this]
    rfl
  · rfl

theorem capMax_unit {c : K} (hc : 0 < c) (mx : Option K) (v : K) : capMax (mx.map (c * ·)) (c * v) = c * capMax mx v := by
  cases mx with
  | none => rfl
  | some x => simp only [capMax, Option.map_some, mul_lt_mul_iff_right₀ hc]; split_ifs <;> rfl

theorem clipAbove_unit {c : K} (hc : 0 < c) (mx v : Option K) : clipAbove (mx.map (c * ·)) (v.map (c * ·)) = (clipAbove mx v).map (c * ·) := by
  cases mx <;> cases v <;> try rfl
  simp only [clipAbove, Option.map_some, mul_lt_mul_iff_right₀ hc]; split_ifs <;> rfl

theorem clipBelow_unit {c : K} (hc : 0 < c) (mn v : Option K) : clipBelow (mn.map (c * ·)) (v.map (c * ·)) = (clipBelow mn v).map (c * ·) := by
  cases mn <;> cases v <;> try rfl
  simp only [clipBelow, Option.map_some, mul_lt_mul_iff_right₀ hc]; split_ifs <;> rfl

/-- **C148** (2): the sizing from distances to points, with all lengths in another unit and another origin, is the same sizing in that unit, if the
distance solver finds distances (`hfmm`, `hnear`: solver and nearest nodes do not depend on place and unit). -/
theorem C148_distance_partial {c : K} (hc : 0 < c) (t : K × K) {near : Grid K C → K × K → Nat × Nat}
    {fmm : (n m : Nat) → K → K → (Fin n → Fin m → Bool) → Option (Fin n → Fin m → K)}
    (hnear : ∀ g p, near (sizesInUnit c t g) (inUnit c t p) = near g p)
    (hfmm : ∀ n m dx dy mask, fmm n m (c * dx) (c * dy) mask = (fmm n m dx dy mask).map fun d i j => c * d i j)
    {box : Box K} (hb : NotGlobe box) (hb' : NotGlobe (boxInUnit c t box)) {h0 coarsen rate : K} {mx : Option K} {crs : C} {points : List (K × K)}
    (hok : ∀ g, mkGrid box (h0 * coarsen) none crs (some h0) (.scalar (some 0)) true = some g →
      fmm g.nx g.ny g.dx g.dy (fun i j => points.any fun p => decide (near g p = (i.val, j.val))) ≠ none) :
    distanceSizing near fmm (boxInUnit c t box) (c * h0) coarsen rate (mx.map (c * ·)) crs (points.map (inUnit c t)) =
      (distanceSizing near fmm box h0 coarsen rate mx crs points).map (sizesInUnit c t) := by
  unfold distanceSizing
  rw [mul_assoc, mkGrid_unit hc]
  cases hg : mkGrid box (h0 * coarsen) none crs (some h0) (.scalar (some 0)) true with
  | none => rfl
  | some g =>
    have hbox : g.box = box := by
      simp only [mkGrid] at hg
      split at hg
      · rw [← Option.some.inj hg]
      · cases hg
    obtain ⟨d, hd⟩ := Option.ne_none_iff_exists'.1 (hok g hg)
    have hmask : (fun (i : Fin g.nx) (j : Fin g.ny) => (points.map (inUnit c t)).any fun p => decide (near (sizesInUnit c t g) p = (i.val, j.val))) =
        fun i j => points.any fun p => decide (near g p = (i.val, j.val)) := by
      funext i j
      rw [List.any_map]
      congr 1
      funext p
      simp only [Function.comp_apply, hnear]
    have hd' : fmm (sizesInUnit c t g).nx (sizesInUnit c t g).ny (sizesInUnit c t g).dx (sizesInUnit c t g).dy
        (fun i j => (points.map (inUnit c t)).any fun p => decide (near (sizesInUnit c t g) p = (i.val, j.val))) = some fun i j => c * d i j := by
      have := hfmm g.nx g.ny g.dx g.dy fun i j => points.any fun p => decide (near g p = (i.val, j.val))
      rw [hd, ← hmask] at this
      exact this
    simp only [Option.map_some, hd, hd', Option.some.injEq]
    rw [← buildInterpolant_unit (by rw [hbox]; exact hb) (by rw [hbox]; exact hb')]
    congr 1
    simp only [sizesInUnit, Option.map_some, Grid.mk.injEq, heq_eq_eq, true_and, and_true]
    funext i j
    rw [abs_mul, abs_of_pos hc, show c * h0 + c * |d i j| * rate = c * (h0 + |d i j| * rate) by ring, capMax_unit hc]

/-- **C148** (3): the sizing from feature widths, with all lengths in another unit and another origin, is the same sizing in that unit (`hMA`, `hdis`: the
distances to medial points and shoreline do not depend on place and unit). -/
theorem C148_feature {c : K} (hc : 0 < c) (t : K × K) {dMA dis : (g : Grid K C) → Fin g.nx → Fin g.ny → K}
    (hMA : ∀ g i j, dMA (sizesInUnit c t g) i j = c * dMA g i j) (hdis : ∀ g i j, dis (sizesInUnit c t g) i j = c * dis g i j)
    {box : Box K} (hb : NotGlobe box) (hb' : NotGlobe (boxInUnit c t box)) (h0 r : K) (mn mx : Option K) (crs : C) :
    featureSizing dMA dis (boxInUnit c t box) (c * h0) r (mn.map (c * ·)) (mx.map (c * ·)) crs =
      (featureSizing dMA dis box h0 r mn mx crs).map (sizesInUnit c t) := by
  have boxOf : ∀ {dx : K} {g : Grid K C}, mkGrid box dx none crs (some h0) (.scalar (some 0)) true = some g → g.box = box ∧ g.extrapolate = true := by
    intro dx g hg
    simp only [mkGrid] at hg
    split at hg
    · rw [← Option.some.inj hg]; exact ⟨rfl, rfl⟩
    · cases hg
  unfold featureSizing
  rw [mul_div_assoc, mkGrid_unit hc, mkGrid_unit hc]
  by_cases hr : 0 < r
  · rw [if_pos hr, if_pos hr]
    cases hf : mkGrid box (h0 / 2) none crs (some h0) (.scalar (some 0)) true with
    | none => rfl
    | some fine =>
      cases hg : mkGrid box h0 none crs (some h0) (.scalar (some 0)) true with
      | none => rfl
      | some g =>
        have e1 : ({ sizesInUnit c t fine with
            vals := fun i j => some (2 * (dMA (sizesInUnit c t fine) i j + |(|dis (sizesInUnit c t fine) i j|)|) / r) } : Grid K C) =
            sizesInUnit c t { fine with vals := fun i j => some (2 * (dMA fine i j + |(|dis fine i j|)|) / r) } := by
          simp only [sizesInUnit, Grid.mk.injEq, heq_eq_eq, true_and, and_true]
          funext i j
          have h1 := hMA fine i j
          have h2 := hdis fine i j
          simp only [Option.map_some, Option.some.injEq]
          refine Eq.trans (congrArg₂ (fun a b => 2 * (a + abs (abs b)) / r) h1 h2) ?_
          simp only [abs_mul, abs_abs, abs_of_pos hc]
          ring
        simp only [Option.map_some]
        rw [e1, buildInterpolant_unit (by rw [(boxOf hf).1]; exact hb) (by rw [(boxOf hf).1]; exact hb'), interpolateTo_unit hc t (by exact (boxOf hf).2)]
        rw [Option.map_map, Option.map_map]
        cases hi : ({ fine with vals := fun i j => some (2 * (dMA fine i j + |(|dis fine i j|)|) / r) } : Grid K C).buildInterpolant.interpolateTo g with
        | none => rfl
        | some G =>
          have hG : G.box = box := by
            simp only [Grid.interpolateTo] at hi
            split at hi
            · rw [← Option.some.inj hi]; exact (boxOf hg).1
            · cases hi
          simp only [Option.map_some, Function.comp_apply, Option.some.injEq]
          rw [← buildInterpolant_unit (by exact hG ▸ hb) (by exact hG ▸ hb')]
          congr 1
          simp only [sizesInUnit, Option.map_some, Grid.mk.injEq, heq_eq_eq, true_and, and_true]
          funext i j
          rw [clipBelow_unit hc, clipAbove_unit hc]
  · rw [if_neg hr, if_neg hr]
    rfl

theorem boundNode_unit {c : K} (hc : 0 < c) (minH maxH minZ maxZ : K) (z v : Option K) :
    boundNode (c * minH) (c * maxH) minZ maxZ z (v.map (c * ·)) = (boundNode minH maxH minZ maxZ z v).map (c * ·) := by
  cases z <;> cases v <;> try rfl
  simp only [boundNode, Option.map_some, mul_lt_mul_iff_right₀ hc, mul_le_mul_iff_right₀ hc]
  split_ifs <;> rfl

/-- A band with its sizes in another unit; its elevations are kept. -/
def Spec.bandInUnit (c : K) : List K → List K
  | [minH, maxH, minZ, maxZ] => [c * minH, c * maxH, minZ, maxZ]
  | l => l

theorem boundsLoop_unit {c : K} (hc : 0 < c) {n m : Nat} (elev : Fin n → Fin m → Option K) : ∀ (bounds : List (List K)) (vals : Fin n → Fin m → Option K),
    boundsLoop elev (bounds.map (bandInUnit c)) (fun i j => (vals i j).map (c * ·)) =
      ((fun i j => ((boundsLoop elev bounds vals).1 i j).map (c * ·)), (boundsLoop elev bounds vals).2)
  | [], vals => rfl
  | b :: bounds, vals => by
    match b with
    | [minH, maxH, minZ, maxZ] =>
      simp only [List.map_cons, bandInUnit, boundsLoop, mul_lt_mul_iff_right₀ hc]
      split_ifs
      · have := boundsLoop_unit hc elev bounds fun i j => boundNode minH maxH minZ maxZ (elev i j) (vals i j)
        simp only [boundNode_unit hc]
        exact this
      · rfl
      · rfl
    | [] => rfl
    | [_] => rfl
    | [_, _] => rfl
    | [_, _, _] => rfl
    | _ :: _ :: _ :: _ :: _ :: _ => rfl

/-- **C148** (4): bounds by elevation, with sizes in another unit and the elevations as they are, give the sizes in that unit; they are rejected in one unit
exactly if they are in the other. -/
theorem C148_bounds {c : K} (hc : 0 < c) (t : K × K) {g dem : Grid K C} (hb : NotGlobe g.box) (hb' : NotGlobe (boxInUnit c t g.box)) (bounds : List (List K)) :
    enforceBounds (sizesInUnit c t g) (gridInUnit c t dem) (bounds.map (bandInUnit c)) =
      (sizesInUnit c t (enforceBounds g dem bounds).1, (enforceBounds g dem bounds).2) := by
  have he : (gridInUnit c t dem).evalNodes (sizesInUnit c t g) = dem.evalNodes g := by
    have hi : (gridInUnit c t dem).interp = dem.interp := rfl
    have key := fun q => (C145_sizes hc t dem q).1
    simp only [Grid.evalNodes, hi]
    cases hd : dem.interp with
    | none => rfl
    | some e =>
      simp only [Option.map_some]
      refine congrArg some ?_
      funext i j
      have := key (g.xAt i, g.yAt j)
      simp only [Grid.evalAt, hi, hd, Option.map_some, Option.some.injEq] at this
      rw [node_unit hc]
      exact this
  unfold enforceBounds
  rw [he]
  cases dem.evalNodes g with
  | none => rfl
  | some elev =>
    have := boundsLoop_unit hc elev bounds g.vals
    dsimp only
    have key : boundsLoop (n := (sizesInUnit c t g).nx) (m := (sizesInUnit c t g).ny) elev (bounds.map (bandInUnit c)) (sizesInUnit c t g).vals =
        ((fun i j => ((boundsLoop elev bounds g.vals).1 i j).map (c * ·)), (boundsLoop elev bounds g.vals).2) := this
    rw [key]
    split
    · rfl
    · refine Prod.ext ?_ rfl
      exact buildInterpolant_unit (g := { g with vals := (boundsLoop elev bounds g.vals).1 }) hb hb'

theorem collectAll_scaled (c : K) : ∀ l : List (Option K), collectAll (l.map (Option.map (c * ·))) = (collectAll l).map (List.map (c * ·))
  | [] => rfl
  | none :: _ => rfl
  | some a :: l => by
    simp only [List.map_cons, Option.map_some, collectAll, collectAll_scaled c l, Option.map_map]
    rfl

theorem limitVals_unit {c : K} (hc : 0 < c) (sq2 sqEps elen gradation : K) {n m : Nat} (vals : Fin n → Fin m → Option K) :
    limitVals sq2 sqEps (c * elen) gradation (fun i j => (vals i j).map (c * ·)) =
      (limitVals sq2 sqEps elen gradation vals).map fun v i j => (v i j).map (c * ·) := by
  have hf : flattenF (fun i j => (vals i j).map (c * ·)) = (flattenF vals).map (List.map (c * ·)) := by
    rw [flattenF, flattenF, ← collectAll_scaled]
    congr 1
    simp only [List.map_flatMap, List.map_map]
    rfl
  unfold limitVals
  rw [hf]
  cases flattenF vals with
  | none => rfl
  | some f =>
    have hlim : gradientLimit sq2 sqEps n m 1 (c * elen) gradation 10000 (f.map (c * ·)) =
        (gradientLimit sq2 sqEps n m 1 elen gradation 10000 f).map (List.map (c * ·)) := by
      rw [gradientLimit, gradientLimit, C143_unit hc, Option.map_map, Option.map_map]
      rfl
    simp only [Option.map_some, hlim]
    cases gradientLimit sq2 sqEps n m 1 elen gradation 10000 f with
    | none => rfl
    | some out =>
      simp only [Option.map_some, reshapeF, List.length_map]
      split
      · simp only [Option.map_some, List.getElem_map]
      · rfl

/-- **C148** (5): limiting the gradation, without the stereographic correction, gives the same sizes in another unit and with another origin. -/
theorem C148_gradation {c : K} (hc : 0 < c) (t : K × K) (M : StereoMaps K) (sq2 sqEps : K) {g : Grid K C} (hb : NotGlobe g.box)
    (hb' : NotGlobe (boxInUnit c t g.box)) (gradation : K) (crs : C) :
    enforceGradation M sq2 sqEps (sizesInUnit c t g) gradation crs false =
      (enforceGradation M sq2 sqEps g gradation crs false).map (sizesInUnit c t) := by
  have h1 : (sizesInUnit c t g).dx ≠ (sizesInUnit c t g).dy ↔ g.dx ≠ g.dy := by
    simp only [sizesInUnit, ne_eq, mul_right_inj' hc.ne']
  have h2 : limitVals sq2 sqEps (sizesInUnit c t g).dx gradation (sizesInUnit c t g).vals =
      (limitVals sq2 sqEps g.dx gradation g.vals).map fun v i j => (v i j).map (c * ·) := limitVals_unit hc sq2 sqEps g.dx gradation g.vals
  unfold enforceGradation
  by_cases hg : gradation < 0
  · simp [hg]
  by_cases hd : g.dx = g.dy
  · rw [if_neg hg, if_neg hg, if_neg (fun h => (h1.1 h) hd), if_neg (fun h => h hd), h2]
    cases limitVals sq2 sqEps g.dx gradation g.vals with
    | none => rfl
    | some v =>
      simp only [Option.map_some, Bool.false_eq_true, if_false]
      have := mkGrid_unit_array hc t g.box g.dx crs g.hmin v g.extrapolate
      refine Eq.trans (congrArg (Option.map Grid.buildInterpolant) this) ?_
      rw [Option.map_map, Option.map_map]
      cases hm : mkGrid g.box g.dx none crs g.hmin (.array g.nx g.ny v) g.extrapolate with
      | none => rfl
      | some G =>
        have hG : G.box = g.box := by
          simp only [mkGrid] at hm
          split at hm
          · rw [← Option.some.inj hm]
          · cases hm
        simp only [Option.map_some, Function.comp_apply, Option.some.injEq]
        exact buildInterpolant_unit (by rw [hG]; exact hb) (by rw [hG]; exact hb')
  · rw [if_neg hg, if_neg hg, if_pos (h1.2 hd), if_pos hd]
    rfl

/-- **C148** (6): the size from the wave length at a node, with elevation and gravity in another unit of length, is the size in that unit, if the depth
is at least one in both units. -/
theorem C148_wave_partial {c : ℝ} (hc : 0 < c) (period gravity wl scale z : ℝ) (h1 : 1 ≤ |z|) (h2 : 1 ≤ |c * z|) :
    waveSize Real.sqrt period (c * gravity) wl scale (c * z) = c * waveSize Real.sqrt period gravity wl scale z := by
  simp only [waveSize, if_neg (not_lt.2 h1), if_neg (not_lt.2 h2)]
  rw [abs_mul, abs_of_pos hc, show c * gravity * (c * |z|) = c ^ 2 * (gravity * |z|) by ring, Real.sqrt_mul (sq_nonneg c), Real.sqrt_sq hc.le]
  ring

theorem node_inside {g : Grid K C} (hx : 0 ≤ g.dx) (i : Fin g.nx) (j : Fin g.ny) : g.outside (g.xAt i, g.yAt j) = false := by
  have h1 : ((i.val : Nat) : K) ≤ ((g.nx - 1 : Nat) : K) := by exact_mod_cast Nat.le_sub_one_of_lt i.isLt
  have h2 : ((j.val : Nat) : K) ≤ ((g.ny - 1 : Nat) : K) := by exact_mod_cast Nat.le_sub_one_of_lt j.isLt
  have h3 := mul_le_mul_of_nonneg_right h1 hx
  have h4 := mul_le_mul_of_nonneg_right h2 (abs_nonneg g.dy)
  have h5 : (0 : K) ≤ (i.val : K) * g.dx := mul_nonneg (Nat.cast_nonneg _) hx
  have h6 : (0 : K) ≤ (j.val : K) * |g.dy| := mul_nonneg (Nat.cast_nonneg _) (abs_nonneg _)
  simp only [Grid.outside, axisOutside, Grid.xAt, Grid.yAt, Bool.or_eq_false_iff]
  exact ⟨⟨decide_eq_false (not_lt.2 (by linarith)), decide_eq_false (not_lt.2 (by linarith))⟩, decide_eq_false (not_lt.2 (by linarith)), decide_eq_false (not_lt.2 (by linarith))⟩

theorem evalNodes_unit {c : K} (hc : 0 < c) (t : K × K) {dem : Grid K C} (hx : 0 ≤ dem.dx) :
    (sizesInUnit c t dem).evalNodes (sizesInUnit c t dem) = (dem.evalNodes dem).map fun z i j => (z i j).map (c * ·) := by
  have hi : (sizesInUnit c t dem).interp = dem.interp := rfl
  simp only [Grid.evalNodes, hi]
  cases hd : dem.interp with
  | none => rfl
  | some e =>
    simp only [Option.map_some]
    refine congrArg some ?_
    funext i j
    have := C148_values hc t dem (dem.xAt i, dem.yAt j) fun _ => node_inside hx i j
    simp only [Grid.evalAt, hi, hd, Option.map_some, Option.some.injEq] at this
    rw [node_unit hc]
    exact this

theorem optMin_scaled {c : K} (hc : 0 < c) (a b : Option K) : optMin (a.map (c * ·)) (b.map (c * ·)) = (optMin a b).map (c * ·) := by
  cases a <;> cases b <;> try rfl
  simp only [optMin, Option.map_some, mul_min_of_nonneg _ _ hc.le]

theorem gridMin_scaled {c : K} (hc : 0 < c) {n m : Nat} (v : Fin n → Fin m → Option K) :
    gridMin (fun i j => (v i j).map (c * ·)) = (gridMin v).map (Option.map (c * ·)) := by
  have ha : allVals (fun i j => (v i j).map (c * ·)) = (allVals v).map (Option.map (c * ·)) := by
    simp only [allVals, List.map_flatMap, List.map_map]
    rfl
  have hf : ∀ (l : List (Option K)) (x : Option K), (l.map (Option.map (c * ·))).foldl optMin (x.map (c * ·)) = (l.foldl optMin x).map (c * ·) := by
    intro l
    induction l with
    | nil => intro x; rfl
    | cons y l ih => intro x; rw [List.map_cons, List.foldl_cons, List.foldl_cons, optMin_scaled hc, ih]
  rw [gridMin, gridMin, ha]
  cases allVals v with
  | nil => rfl
  | cons x l => simp only [List.map_cons, hf, Option.map_some]

theorem mkGrid_unit_xy {c : K} (hc : 0 < c) (t : K × K) (b : Box K) (dx dy : K) (crs : C) (h : Option K) {n m : Nat} (v : Fin n → Fin m → Option K) (ext : Bool) :
    mkGrid (boxInUnit c t b) (c * dx) (some (c * dy)) crs (h.map (c * ·)) (.array n m fun i j => (v i j).map (c * ·)) ext =
      (mkGrid b dx (some dy) crs h (.array n m v) ext).map (sizesInUnit c t) := by
  simp only [mkGrid, Option.getD_some, gridChecks_unit hc]
  split <;> rfl

theorem mkGrid_built_unit {c : K} (hc : 0 < c) (t : K × K) {b : Box K} (hb : NotGlobe b) (hb' : NotGlobe (boxInUnit c t b)) (dx dy : K) (crs : C) (h : Option K) {n m : Nat}
    (v : Fin n → Fin m → Option K) (ext : Bool) :
    (mkGrid (boxInUnit c t b) (c * dx) (some (c * dy)) crs (h.map (c * ·)) (.array n m fun i j => (v i j).map (c * ·)) ext).map Grid.buildInterpolant =
      ((mkGrid b dx (some dy) crs h (.array n m v) ext).map Grid.buildInterpolant).map (sizesInUnit c t) := by
  rw [mkGrid_unit_xy hc, Option.map_map, Option.map_map]
  cases hm : mkGrid b dx (some dy) crs h (.array n m v) ext with
  | none => rfl
  | some G =>
    have hG : G.box = b := by
      simp only [mkGrid] at hm
      split at hm
      · rw [← Option.some.inj hm]
      · cases hm
    simp only [Option.map_some, Function.comp_apply, Option.some.injEq]
    exact buildInterpolant_unit (by rw [hG]; exact hb) (by rw [hG]; exact hb')

/-- **C148** (7): the sizing from wave lengths as a whole, in projected coordinates: with elevations, gravity, limits and places in another unit it gives the
sizes in that unit, if no depth is below one in either unit. -/
theorem C148_wavelength_partial {c : ℝ} (hc : 0 < c) (t : ℝ × ℝ) {dem : Grid ℝ C} (hx : 0 ≤ dem.dx) (hb : NotGlobe dem.box)
    (hb' : NotGlobe (boxInUnit c t dem.box)) (cos : ℝ → ℝ) (wl : ℝ) (mn mx : Option ℝ) (period gravity : ℝ) (crs : C)
    (hdeep : ∀ z, dem.evalNodes dem = some z → ∀ i j v, z i j = some v → 1 ≤ |v| ∧ 1 ≤ |c * v|) :
    wavelengthSizing Real.sqrt cos (sizesInUnit c t dem) wl (mn.map (c * ·)) (mx.map (c * ·)) period (c * gravity) crs false =
      (wavelengthSizing Real.sqrt cos dem wl mn mx period gravity crs false).map (sizesInUnit c t) := by
  unfold wavelengthSizing
  rw [evalNodes_unit hc t hx]
  cases hz : dem.evalNodes dem with
  | none => rfl
  | some z =>
    have hraw : (fun i j => ((z i j).map (c * ·)).map (waveSize Real.sqrt period (c * gravity) wl 1)) =
        fun i j => ((z i j).map (waveSize Real.sqrt period gravity wl 1)).map (c * ·) := by
      funext i j
      cases hv : z i j with
      | none => rfl
      | some v =>
        obtain ⟨h1, h2⟩ := hdeep z hz i j v hv
        simp only [Option.map_some, C148_wave_partial hc period gravity wl 1 v h1 h2]
    simp only [Option.map_some, Bool.false_eq_true, if_false]
    cases mn with
    | none =>
      simp only [Option.map_none]
      have hm := gridMin_scaled hc fun i j => (z i j).map (waveSize Real.sqrt period gravity wl 1)
      rw [← hraw] at hm
      have hm' : gridMin (n := (sizesInUnit c t dem).nx) (m := (sizesInUnit c t dem).ny)
          (fun i j => ((z i j).map (c * ·)).map (waveSize Real.sqrt period (c * gravity) wl 1)) =
          (gridMin fun i j => (z i j).map (waveSize Real.sqrt period gravity wl 1)).map (Option.map (c * ·)) := hm
      rw [hm']
      cases gridMin fun i j => (z i j).map (waveSize Real.sqrt period gravity wl 1) with
      | none => rfl
      | some h =>
        have := mkGrid_built_unit hc t hb hb' dem.dx dem.dy crs h (fun i j => clipAbove mx ((z i j).map (waveSize Real.sqrt period gravity wl 1))) true
        rw [show (fun i j => (clipAbove mx ((z i j).map (waveSize Real.sqrt period gravity wl 1))).map (c * ·)) =
          fun i j => clipAbove (mx.map (c * ·)) (((z i j).map (c * ·)).map (waveSize Real.sqrt period (c * gravity) wl 1)) by
            funext i j; rw [congrFun (congrFun hraw i) j, clipAbove_unit hc]] at this
        exact this
    | some a =>
      have := mkGrid_built_unit hc t hb hb' dem.dx dem.dy crs (some a) (fun i j => clipAbove mx (clipBelow (some a) ((z i j).map (waveSize Real.sqrt period gravity wl 1)))) true
      rw [show (fun i j => (clipAbove mx (clipBelow (some a) ((z i j).map (waveSize Real.sqrt period gravity wl 1)))).map (c * ·)) =
        fun i j => clipAbove (mx.map (c * ·)) (clipBelow ((some a).map (c * ·)) (((z i j).map (c * ·)).map (waveSize Real.sqrt period (c * gravity) wl 1))) by
          funext i j; rw [congrFun (congrFun hraw i) j, clipBelow_unit hc, clipAbove_unit hc]] at this
      exact this

/-- **C148** (8): for a shift alone nothing is asked of the distance solver: if it fails in one place it fails in the other. -/
theorem C148_distance_shift (t : K × K) {near : Grid K C → K × K → Nat × Nat}
    {fmm : (n m : Nat) → K → K → (Fin n → Fin m → Bool) → Option (Fin n → Fin m → K)} (hnear : ∀ g p, near (sizesInUnit 1 t g) (inUnit 1 t p) = near g p)
    {box : Box K} (hb : NotGlobe box) (hb' : NotGlobe (boxInUnit 1 t box)) (h0 coarsen rate : K) (mx : Option K) (crs : C) (points : List (K × K)) :
    distanceSizing near fmm (boxInUnit 1 t box) h0 coarsen rate mx crs (points.map (inUnit 1 t)) =
      (distanceSizing near fmm box h0 coarsen rate mx crs points).map (sizesInUnit 1 t) := by
  let solver : (n m : Nat) → K → K → (Fin n → Fin m → Bool) → Option (Fin n → Fin m → K) := fun n m dx dy mask => some ((fmm n m dx dy mask).getD fun _ _ => 999)
  have he : ∀ (b : Box K) (pts : List (K × K)), distanceSizing near fmm b h0 coarsen rate mx crs pts = distanceSizing near solver b h0 coarsen rate mx crs pts := by
    intro b pts
    simp only [distanceSizing]
    cases mkGrid b (h0 * coarsen) none crs (some h0) (.scalar (some 0)) true with
    | none => rfl
    | some g =>
      simp only [solver]
      cases fmm g.nx g.ny g.dx g.dy fun i j => pts.any fun p => decide (near g p = (i.val, j.val)) with
      | some d => rfl
      | none =>
        have : |(999 : K)| = 999 := abs_of_pos (by norm_num)
        simp only [Option.getD_none, this]
  rw [he, he]
  have := C148_distance_partial one_pos t (fmm := solver) hnear (fun n m dx dy mask => by simp only [one_mul, Option.map_some, solver]) hb hb' (h0 := h0) (coarsen := coarsen)
    (rate := rate) (mx := mx) (crs := crs) (points := points) (fun _ _ h => by cases h)
  rw [one_mul, show mx.map ((1 : K) * ·) = mx by cases mx <;> simp] at this
  exact this

end

/-- **C148**, finding: beyond the nodes of a grid that does not extrapolate the size is 999999 in every unit. -/
theorem C148_fill : ∃ g : Grid ℚ Unit, g.evalAt (5, 0) = some (some 999999) ∧ (sizesInUnit 1000 (0, 0) g).evalAt (inUnit 1000 (0, 0) (5, 0)) = some (some 999999) :=
  ⟨⟨⟨0, 1, 0, 1⟩, 1, 1, 2, 2, fun _ _ => some 1, none, false, (), some false⟩, by decide +kernel⟩

/-- **C148**, finding: if the distance solver finds no distance, the distance is 999 in every unit. In metres, where the grid below has steps of a thousand, that
is less than one step: the sizes far from everything are close to the minimum. -/
theorem C148_no_distance :
    (distanceSizing (C := Unit) (fun _ _ => (0, 0)) (fun _ _ _ _ _ => none) (⟨0, 2, 0, 2⟩ : Box ℚ) 1 1 (1 / 5) none () []).map (fun g => g.evalAt (1, 1)) =
      some (some (some (1 + 999 / 5))) ∧
    (distanceSizing (C := Unit) (fun _ _ => (0, 0)) (fun _ _ _ _ _ => none) (boxInUnit 1000 (0, 0) (⟨0, 2, 0, 2⟩ : Box ℚ)) 1000 1 (1 / 5) none () []).map
      (fun g => g.evalAt (1000, 1000)) = some (some (some (1000 + 999 / 5))) := by decide +kernel

/-- **C148**, finding: depths below one are replaced by one, whatever the unit: half a metre of water, given in centimetres, is not replaced and gives a size that is not the same. -/
theorem C148_shallow : waveSize Real.sqrt 1 1 1 1 (1 / 2) = 1 ∧ waveSize Real.sqrt 1 (100 * 1) 1 1 (100 * (1 / 2)) < 100 * 1 := by
  constructor
  · simp only [waveSize]
    norm_num [abs_of_pos]
  · have h : Real.sqrt 5000 < 100 := (Real.sqrt_lt' (by norm_num)).2 (by norm_num)
    simp only [waveSize]
    norm_num [abs_of_pos]
    exact h

/-! ## Examples -/

/-- A small sizing grid. -/
def sizesQ : Grid ℚ Unit := ⟨⟨0, 2, 0, 1⟩, 1, 1, 3, 2, fun i j => some (1 + i.val + 5 * j.val), some 1, true, (), some true⟩

theorem sizesQ_place : NotGlobe sizesQ.box ∧ NotGlobe (boxInUnit 1000 (5, 7) sizesQ.box) := by
  constructor <;> · unfold NotGlobe; decide +kernel

example : (sizesInUnit 1000 (5, 7) sizesQ).evalAt (inUnit 1000 (5, 7) (1 / 2, 1 / 2)) = some (some 4000) := by
  rw [C148_values (by norm_num) _ _ _ (by intro h; cases h)]
  decide +kernel

example := C148_bounds (c := (1000 : ℚ)) (by norm_num) (5, 7) (g := sizesQ) (dem := sizesQ) sizesQ_place.1 sizesQ_place.2 [[2, 3, 0, 5]]

example := C148_gradation (c := (1000 : ℚ)) (by norm_num) (5, 7) ⟨3, id, id⟩ sq2D sqEpsD (g := sizesQ) sizesQ_place.1 sizesQ_place.2 (1 / 5) ()

example := C148_feature (c := (1000 : ℚ)) (by norm_num) (5, 7) (C := Unit) (dMA := fun g _ _ => g.dx) (dis := fun g i _ => i.val * g.dx) (fun _ _ _ => rfl)
  (fun g i _ => by simp only [sizesInUnit]; ring) sizesQ_place.1 sizesQ_place.2 1 1 (some 1) none ()

example := C148_distance_partial (c := (1000 : ℚ)) (by norm_num) (5, 7) (C := Unit) (near := fun _ _ => (0, 0)) (fmm := fun _ _ dx _ _ => some fun i _ => i.val * dx)
  (fun _ _ => rfl) (fun _ _ _ _ _ => by simp only [Option.map_some]; congr 1; funext i j; ring) sizesQ_place.1 sizesQ_place.2 (h0 := 1) (coarsen := 1) (rate := 1 / 5)
  (mx := some 2) (crs := ()) (points := [(0, 0)]) (fun _ _ h => by cases h)

example := C148_wave_partial (c := 100) (by norm_num) 44712 9.807 30 1 (-20) (by norm_num) (by norm_num)

/-- A sloping sea bed, twenty and more metres deep. -/
noncomputable def bedR : Grid ℝ Unit := ⟨⟨0, 2, 0, 1⟩, 1, 1, 3, 2, fun i _ => some (-20 - i.val), none, true, (), some true⟩

theorem bedR_place : NotGlobe bedR.box ∧ NotGlobe (boxInUnit 100 (5, 7) bedR.box) := by
  constructor <;> · unfold NotGlobe; simp only [bedR, boxInUnit]; norm_num

theorem bedR_deep : ∀ z, bedR.evalNodes bedR = some z → ∀ i j v, z i j = some v → 1 ≤ |v| ∧ 1 ≤ |100 * v| := by
  intro z hz i j v hv
  have hb : bedR.buildInterpolant = bedR := by
    simp only [Grid.buildInterpolant, cyclicVals, notGlobe_cyclic bedR_place.1, Bool.false_eq_true, if_false]
    rfl
  have h := C31_eval_plane bedR (bedR.xAt i, bedR.yAt j) (-20) (-1) 0 (by norm_num [bedR]) (by norm_num [bedR]) (by simp [bedR]) (by simp [bedR])
    (fun i j => by
      simp only [Grid.buildInterpolant, cyclicVals, notGlobe_cyclic bedR_place.1, Bool.false_eq_true, if_false]
      simp only [bedR, nodeAt, Option.some.injEq]
      ring) (.inl rfl)
  rw [hb] at h
  have e : bedR.interp = some true := rfl
  simp only [Grid.evalAt, Grid.evalNodes, e, Option.map_some, Option.some.injEq] at h hz
  rw [← hz] at hv
  have hv := h.symm.trans hv
  rw [Option.some.injEq] at hv
  have hi : (0 : ℝ) ≤ (i.val : ℝ) := Nat.cast_nonneg _
  have hv' : v = -(20 + (i.val : ℝ)) := by
    rw [← hv]
    simp only [Grid.xAt, bedR]
    ring
  rw [hv', abs_mul, abs_neg, abs_of_pos (show (0 : ℝ) < 20 + (i.val : ℝ) by linarith), abs_of_pos (show (0 : ℝ) < 100 by norm_num)]
  constructor <;> linarith

example := C148_wavelength_partial (c := 100) (by norm_num) (5, 7) (dem := bedR) (by norm_num [bedR]) bedR_place.1 bedR_place.2 Real.cos 30 (some 1) (some 200) 44712 9.807 ()
  bedR_deep

example := C148_distance_shift (5, 7) (C := Unit) (K := ℚ) (near := fun _ _ => (0, 0)) (fmm := fun _ _ _ _ _ => none) (fun _ _ => rfl) (box := sizesQ.box) sizesQ_place.1
  (by unfold NotGlobe; decide +kernel) 1 1 (1 / 5) none () [(0, 0)]

end OM
