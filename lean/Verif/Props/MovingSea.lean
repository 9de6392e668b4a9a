import Verif.Props.SeaMesh
import Verif.Props.Grid
/-!
# C145: inside tests, distances and sizes in other places and units
-/
set_option linter.unusedSectionVars false
namespace OM
namespace Spec
variable {K : Type} [Field K] [LinearOrder K]

/-- A point in another unit (`c` new units are one old) and with another origin. -/
def inUnit (c : K) (t p : K × K) : K × K := (c * p.1 + t.1, c * p.2 + t.2)

/-- A box in another unit and with another origin. -/
def boxInUnit (c : K) (t : K × K) (b : Box K) : Box K := ⟨c * b.xmin + t.1, c * b.xmax + t.1, c * b.ymin + t.2, c * b.ymax + t.2⟩

/-- A segment in another unit and with another origin. -/
def segInUnit (c : K) (t : K × K) (s : (K × K) × (K × K)) : (K × K) × (K × K) := (inUnit c t s.1, inUnit c t s.2)

end Spec
open Spec
section
variable {K : Type} [Field K] [LinearOrder K] [IsStrictOrderedRing K]

theorem shift_lt {c : K} (hc : 0 < c) (t x y : K) : c * x + t < c * y + t ↔ x < y := by rw [add_lt_add_iff_right, mul_lt_mul_iff_right₀ hc]
theorem shift_le {c : K} (hc : 0 < c) (t x y : K) : c * x + t ≤ c * y + t ↔ x ≤ y := by rw [add_le_add_iff_right, mul_le_mul_iff_right₀ hc]
theorem shift_min {c : K} (hc : 0 < c) (t x y : K) : min (c * x + t) (c * y + t) = c * min x y + t := by
  rw [mul_min_of_nonneg _ _ hc.le, min_add_add_right]
theorem shift_max {c : K} (hc : 0 < c) (t x y : K) : max (c * x + t) (c * y + t) = c * max x y + t := by
  rw [mul_max_of_nonneg _ _ hc.le, max_add_add_right]
theorem shift_sub (c t x y : K) : (c * x + t) - (c * y + t) = c * (x - y) := by ring

theorem cSkip_shift {c : K} (hc : 0 < c) (t : K × K) (ftol : K) (q : K × K) (s : Seg K) : cSkip (c * ftol) (inUnit c t q) (segInUnit c t s) = cSkip ftol q s := by
  simp only [cSkip, inUnit, segInUnit, shift_lt hc]
  have e1 : ∀ y : K, c * y + t.2 - c * ftol = c * (y - ftol) + t.2 := fun y => by ring
  have e2 : ∀ y : K, c * y + t.2 + c * ftol = c * (y + ftol) + t.2 := fun y => by ring
  split_ifs <;> simp only [e1, e2, shift_lt hc]

theorem cOnSegment_shift {c : K} (hc : 0 < c) (t : K × K) (ftol : K) (q : K × K) (s : Seg K) :
    cOnSegment (c * ftol) (inUnit c t q) (segInUnit c t s) = cOnSegment ftol q s := by
  have hc' := hc.ne'
  simp only [cOnSegment, inUnit, segInUnit, shift_sub, mul_ne_zero_iff, ne_eq, hc', not_false_eq_true, true_and]
  split_ifs with h
  · have et : (c * (q.1 - s.1.1) * (c * (s.2.1 - s.1.1)) + c * (q.2 - s.1.2) * (c * (s.2.2 - s.1.2))) /
        (c * (s.2.1 - s.1.1) * (c * (s.2.1 - s.1.1)) + c * (s.2.2 - s.1.2) * (c * (s.2.2 - s.1.2))) =
        ((q.1 - s.1.1) * (s.2.1 - s.1.1) + (q.2 - s.1.2) * (s.2.2 - s.1.2)) / ((s.2.1 - s.1.1) * (s.2.1 - s.1.1) + (s.2.2 - s.1.2) * (s.2.2 - s.1.2)) := by
      rw [show ∀ a b x y : K, c * a * (c * x) + c * b * (c * y) = (c * c) * (a * x + b * y) from fun a b x y => by ring,
        show ∀ x y : K, c * x * (c * x) + c * y * (c * y) = (c * c) * (x * x + y * y) from fun x y => by ring, mul_div_mul_left _ _ (mul_ne_zero hc' hc')]
    rw [et]
    generalize ((q.1 - s.1.1) * (s.2.1 - s.1.1) + (q.2 - s.1.2) * (s.2.2 - s.1.2)) / ((s.2.1 - s.1.1) * (s.2.1 - s.1.1) + (s.2.2 - s.1.2) * (s.2.2 - s.1.2)) = r
    have e1 : ∀ a b d u : K, abs (c * a + u - (c * b + u + r * (c * d))) = c * abs (a - (b + r * d)) := fun a b d u => by
      rw [← abs_of_pos hc, ← abs_mul, abs_of_pos hc]; congr 1; ring
    rw [e1, e1, ← mul_add]
    simp only [mul_le_mul_iff_right₀ hc]
  · rfl

theorem cCross_shift {c : K} (hc : 0 < c) (t q : K × K) (s : Seg K) : cCross (inUnit c t q) (segInUnit c t s) = cCross q s := by
  have hc' := hc.ne'
  simp only [cCross, inUnit, segInUnit, shift_sub, shift_lt hc, shift_le hc, mul_ne_zero_iff, ne_eq, hc', not_false_eq_true, true_and]
  by_cases hd : s.2.2 - s.1.2 = 0
  · have : s.2.2 = s.1.2 := sub_eq_zero.1 hd
    have h : ((decide (s.1.2 ≤ q.2) && decide (q.2 < s.2.2)) || (decide (s.2.2 ≤ q.2) && decide (q.2 < s.1.2))) = false := by
      rw [this]; simp
    rw [h, Bool.false_and, Bool.false_and]
  · simp only [hd, not_false_eq_true, if_true]
    have e : c * s.1.1 + t.1 + c * (q.2 - s.1.2) * (c * (s.2.1 - s.1.1) / (c * (s.2.2 - s.1.2))) = c * (s.1.1 + (q.2 - s.1.2) * ((s.2.1 - s.1.1) / (s.2.2 - s.1.2))) + t.1 := by
      rw [mul_div_mul_left _ _ hc']; ring
    simp only [e, shift_lt hc]

theorem cLoop_shift {c : K} (hc : 0 < c) (t : K × K) (ftol : K) (q : K × K) : ∀ (l : List (Seg K)) (i : Bool),
    cLoop (c * ftol) (inUnit c t q) (l.map (segInUnit c t)) i = cLoop ftol q l i
  | [], _ => rfl
  | s :: l, i => by
    simp only [List.map_cons, cLoop, cSkip_shift hc, cOnSegment_shift hc, cCross_shift hc, cLoop_shift hc t ftol q l]

/-- **C145** (1) The compiled test gives the same answers in another place and, with the tolerance in the new unit, in another unit. -/
theorem C145_compiled {c : K} (hc : 0 < c) (t : K × K) (ftol : K) (segs : List (Seg K)) (q : K × K) :
    cPoint (c * ftol) (segs.map (segInUnit c t)) (inUnit c t q) = cPoint ftol segs q := by
  simp only [cPoint, cLoop_shift hc]

/-! ## The test in Python -/

theorem pyLoop_shift (t : K × K) (ftol : K) (q : K × K) : ∀ (l : List (Seg K)) (n : Nat), pyLoop ftol (inUnit 1 t q) (l.map (segInUnit 1 t)) n = pyLoop ftol q l n
  | [], _ => rfl
  | s :: l, n => by
    have h1 : pySkip ftol (inUnit 1 t q) (segInUnit 1 t s) = pySkip ftol q s := by
      simp only [pySkip, inUnit, segInUnit, shift_min one_pos, shift_max one_pos]
      have e1 : ∀ y : K, 1 * y + t.2 - ftol = 1 * (y - ftol) + t.2 := fun y => by ring
      have e2 : ∀ y : K, 1 * y + t.2 + ftol = 1 * (y + ftol) + t.2 := fun y => by ring
      simp only [e1, e2, shift_lt one_pos]
    have h2 : pyOnSegment ftol (inUnit 1 t q) (segInUnit 1 t s) = pyOnSegment ftol q s := by
      simp only [pyOnSegment, inUnit, segInUnit, shift_sub]
      simp only [one_mul]
    have h3 : pyCross ftol (inUnit 1 t q) (segInUnit 1 t s) = pyCross ftol q s := by
      simp only [pyCross, inUnit, segInUnit, shift_sub, shift_lt one_pos]
      have e : 1 * s.1.1 + t.1 + 1 * (q.2 - s.1.2) * (1 * (s.2.1 - s.1.1)) / (1 * (s.2.2 - s.1.2)) = 1 * (s.1.1 + (q.2 - s.1.2) * (s.2.1 - s.1.1) / (s.2.2 - s.1.2)) + t.1 := by
        simp only [one_mul]; ring
      simp only [e, shift_lt one_pos]
      simp only [one_mul]
    simp only [List.map_cons, pyLoop, h1, h2, h3, pyLoop_shift t ftol q l]

theorem listMin_shift (t : K) : ∀ (l : List K) (x : K), listMin (1 * x + t) (l.map fun y => 1 * y + t) = 1 * listMin x l + t
  | [], _ => rfl
  | y :: l, x => by
    have := listMin_shift t l (min x y)
    simp only [listMin, List.map_cons, List.foldl_cons] at this ⊢
    rw [shift_min one_pos, this]

theorem listMax_shift (t : K) : ∀ (l : List K) (x : K), listMax (1 * x + t) (l.map fun y => 1 * y + t) = 1 * listMax x l + t
  | [], _ => rfl
  | y :: l, x => by
    have := listMax_shift t l (max x y)
    simp only [listMax, List.map_cons, List.foldl_cons] at this ⊢
    rw [shift_max one_pos, this]

/-- **C145** (2) The test in Python gives the same answers in another place. -/
theorem C145_python_partial (t : K × K) (ftol : K) (nodes : Nat) (segs : List (Seg K)) (q : K × K) :
    pyPoint ftol nodes (segs.map (segInUnit 1 t)) (inUnit 1 t q) = pyPoint ftol nodes segs q := by
  cases segs with
  | nil => rfl
  | cons s l =>
    have hb : segBox (segInUnit 1 t s) (l.map (segInUnit 1 t)) = boxInUnit 1 t (segBox s l) := by
      simp only [segBox, boxInUnit, segInUnit, inUnit, List.map_map, Function.comp_def, ← shift_min one_pos, ← shift_max one_pos]
      simp only [← listMin_shift, ← listMax_shift, List.map_map, Function.comp_def]
    have hl := pyLoop_shift t ftol q (s :: l) 0
    simp only [List.map_cons] at hl ⊢
    simp only [pyPoint, hb, hl]
    have e1 : ∀ y u : K, 1 * y + u - ftol = 1 * (y - ftol) + u := fun y u => by ring
    have e2 : ∀ y u : K, 1 * y + u + ftol = 1 * (y + ftol) + u := fun y u => by ring
    simp only [boxInUnit, inUnit, e1, e2, shift_le one_pos]

/-! ## Distances -/

/-- **C145** (3) Distances to a box are measured in the new unit. -/
theorem C145_box {c : K} (hc : 0 < c) (t : K × K) (b : Box K) (q : K × K) : bboxDistance (boxInUnit c t b) (inUnit c t q) = c * bboxDistance b q := by
  simp only [bboxDistance, boxInUnit, inUnit]
  have e1 : ∀ a x u : K, -(c * a + u) + (c * x + u) = c * (-a + x) := fun a x u => by ring
  simp only [e1, shift_sub]
  rw [mul_neg, mul_min_of_nonneg _ _ hc.le, mul_min_of_nonneg _ _ hc.le, mul_min_of_nonneg _ _ hc.le]

theorem segments_shift {A B : Type} (f : A → B) (l : List A) : segments (l.map f) = (segments l).map fun s => (f s.1, f s.2) := by
  simp only [segments, ← List.map_tail, List.zip_map]
  rfl

theorem closedTwice_shift {A B : Type} {f : A → B} {l : List A} (h : ClosedTwice l) : ClosedTwice (l.map f) := by
  obtain ⟨p, g, rfl⟩ := h
  exact ⟨f p, g.map f, by simp⟩

theorem ringTest_shift {c : K} (hc : 0 < c) (t : K × K) {T T' : SdfTools K} (hcfg : T'.cfg = T.cfg) (hT : T.cfg.env = none ∧ T.cfg.compiled = true) (hf : T'.ftol = c * T.ftol)
    (fs : List (List (K × K))) (q : K × K) : ringTest T' (fs.map fun f => f.map (inUnit c t)) (inUnit c t q) = ringTest T fs q := by
  have hs : (fs.map fun f => f.map (inUnit c t)).flatMap segments = (fs.flatMap segments).map (segInUnit c t) := by
    rw [List.flatMap_map, List.map_flatMap]
    exact List.flatMap_congr fun f _ => segments_shift _ f
  rw [ringTest, ringTest, hcfg, if_pos hT, if_pos hT, hs, hf, C145_compiled hc]

/-- **C145** (4) The signed distance of a shoreline moved to another place and unit is the signed distance in the new unit, for the compiled test with the tolerance in
the new unit and a tree that measures in the new unit. -/
theorem C145_distance {c : K} (hc : 0 < c) (t : K × K) {T T' : SdfTools K} (hcfg : T'.cfg = T.cfg) (hT : T.cfg.env = none ∧ T.cfg.compiled = true) (hf : T'.ftol = c * T.ftol)
    (hnear : ∀ l q, T'.near (l.map (inUnit c t)) (inUnit c t q) = c * T.near l q) {inner box : List (List (K × K))} (hi : ∀ f ∈ inner, ClosedTwice f)
    (hb : ∀ f ∈ box, ClosedTwice f) (hne : box ≠ []) (invert : Bool) :
    ∃ func cov func' cov', signedDistanceFunction T (joinNaN inner) (joinNaN box) invert = some (func, cov) ∧
      signedDistanceFunction T' (joinNaN (inner.map fun f => f.map (inUnit c t))) (joinNaN (box.map fun f => f.map (inUnit c t))) invert = some (func', cov') ∧
      (∀ x : List (K × K), func' (x.map fun p => (some (inUnit c t p).1, some (inUnit c t p).2)) =
        (func (x.map fun p => (some p.1, some p.2))).map fun r => r.map (c * ·)) ∧
      ∀ x : List (K × K), cov' (x.map fun p => (some (inUnit c t p).1, some (inUnit c t p).2)) = (cov (x.map fun p => (some p.1, some p.2))).map fun r => r.map (c * ·) := by
  have mapped : ∀ {fs : List (List (K × K))}, (∀ f ∈ fs, ClosedTwice f) → ∀ f ∈ fs.map (fun f => f.map (inUnit c t)), ClosedTwice f := by
    intro fs h f hf
    obtain ⟨g, hg, rfl⟩ := List.mem_map.1 hf
    exact closedTwice_shift (h g hg)
  obtain ⟨func, cov, h1, h2, h3⟩ := C102_pointwise T hi hb hne invert
  obtain ⟨func', cov', h1', h2', h3'⟩ := C102_pointwise T' (mapped hi) (mapped hb) (by simpa using hne) invert
  refine ⟨func, cov, func', cov', h1, h1', fun x => ?_, fun x => ?_⟩
  · rw [h2, h2', Option.map_some, List.map_map, List.map_map, List.map_map]
    congr 1
    refine List.map_congr_left fun p _ => ?_
    simp only [Function.comp_apply, sdfAt, ← List.map_append, ← List.map_flatten, Prod.mk.eta, ringTest_shift hc t hcfg hT hf, hnear]
    split_ifs <;> ring
  · rw [h3, h3', Option.map_some, List.map_map, List.map_map, List.map_map]
    congr 1
    refine List.map_congr_left fun p _ => ?_
    simp only [Function.comp_apply, coveringAt, ← List.map_flatten, Prod.mk.eta, ringTest_shift hc t hcfg hT hf, hnear]
    split_ifs <;> ring

/-! ## Sizes -/

variable [FloorRing K] {C : Type}

/-- A sizing grid in another unit and with another origin; the sizes at the nodes are kept. -/
def Spec.gridInUnit (c : K) (t : K × K) (g : Grid K C) : Grid K C := { g with box := boxInUnit c t g.box, dx := c * g.dx, dy := c * g.dy }

theorem axisCell_shift {c : K} (hc : 0 < c) (t x0 d x : K) : ∀ n, axisCell (c * x0 + t) (c * d) n (c * x + t) = axisCell x0 d n x
  | 0 => rfl
  | 1 => rfl
  | n + 2 => by
    have e1 : (c * x + t - (c * x0 + t)) / (c * d) = (x - x0) / d := by rw [shift_sub, mul_div_mul_left _ _ hc.ne']
    have e2 : ∀ i : K, (c * x + t - (c * x0 + t + i * (c * d))) / (c * d) = (x - (x0 + i * d)) / d := fun i => by
      rw [show c * x + t - (c * x0 + t + i * (c * d)) = c * (x - (x0 + i * d)) by ring, mul_div_mul_left _ _ hc.ne']
    simp only [axisCell, e1, e2]

theorem axisOutside_shift {c : K} (hc : 0 < c) (t x0 d x : K) (n : Nat) : axisOutside (c * x0 + t) (c * d) n (c * x + t) = axisOutside x0 d n x := by
  have e : c * x0 + t + ((n - 1 : Nat) : K) * (c * d) = c * (x0 + ((n - 1 : Nat) : K) * d) + t := by ring
  simp only [axisOutside, e, shift_lt hc]

/-- **C145** (5) A sizing grid moved to another place and unit gives the same sizes at the moved points, inside and outside its nodes. -/
theorem C145_sizes {c : K} (hc : 0 < c) (t : K × K) (g : Grid K C) (q : K × K) :
    (gridInUnit c t g).evalAt (inUnit c t q) = g.evalAt q ∧ (gridInUnit c t g).sourceValue (inUnit c t q) = g.sourceValue q := by
  have ha : |c * g.dy| = c * |g.dy| := by rw [abs_mul, abs_of_pos hc]
  have ho : (gridInUnit c t g).outside (inUnit c t q) = g.outside q := by
    simp only [Grid.outside, gridInUnit, boxInUnit, inUnit, ha, axisOutside_shift hc]
  have hl : (gridInUnit c t g).linearAt (inUnit c t q) = g.linearAt q := by
    simp only [Grid.linearAt, gridInUnit, boxInUnit, inUnit, ha, axisCell_shift hc]
    rcases axisCell g.box.xmin g.dx g.nx q.1 with _ | ⟨i0, i1, s⟩ <;> rcases axisCell g.box.ymin |g.dy| g.ny q.2 with _ | ⟨j0, j1, r⟩ <;> try rfl
  have hn : (gridInUnit c t g).nearestAt (inUnit c t q) = g.nearestAt q := by
    simp only [Grid.nearestAt, gridInUnit, boxInUnit, inUnit, ha, axisCell_shift hc]
    rcases axisCell g.box.xmin g.dx g.nx q.1 with _ | ⟨i0, i1, s⟩ <;> rcases axisCell g.box.ymin |g.dy| g.ny q.2 with _ | ⟨j0, j1, r⟩ <;> try rfl
  constructor
  · simp only [Grid.evalAt, Grid.evalWith, ho, hl]
    rfl
  · simp only [Grid.sourceValue, ho, hn]
    rfl

end

/-- The unit square. -/
def squareSegs : List (Seg ℚ) := [((0, 0), (1, 0)), ((1, 0), (1, 1)), ((1, 1), (0, 1)), ((0, 1), (0, 0))]

/-- **C145** The test in Python depends on the unit: it compares the tolerance with products of two lengths. With tolerance 0.1 a point next to a corner of the unit
square is reported on the boundary, in a unit ten times smaller, with the tolerance in that unit, it is outside. -/
theorem C145_python_unit :
    pyPoint (1 / 10) 4 squareSegs ((21 / 20, -1 / 20) : ℚ × ℚ) = (true, true) ∧
      pyPoint (10 * (1 / 10)) 4 (squareSegs.map (segInUnit 10 (0, 0))) (inUnit 10 (0, 0) ((21 / 20, -1 / 20) : ℚ × ℚ)) = (false, false) := by
  decide +kernel

/-- **C145** Building the interpolant depends on the place: the box from -180 to 180 is treated as the globe, the same box one unit to the east is not. -/
theorem C145_globe_place :
    let g : Grid ℚ Nat := ⟨⟨-180, 180, 0, 1⟩, 180, 1, 3, 2, fun i _ => some (i.val : ℚ), none, true, 0, none⟩
    g.buildInterpolant.evalAt (-180, 0) = some (some 2) ∧ (gridInUnit 1 (1, 0) g).buildInterpolant.evalAt (inUnit 1 (1, 0) (-180, 0)) = some (some 0) := by
  decide +kernel

/-- **C53** Without edges no point is inside or on the boundary, whatever method is chosen (also where the engines get no ring). -/
theorem C53_no_edges {K : Type} [Field K] [LinearOrder K] (cfg : PolyConfig) (shapely mpl : PolyEngine K) (ftol : K) (vert : List (QueryPoint K)) (node : List (K × K)) :
    inpoly2 cfg shapely mpl ftol vert node (some []) = some (vert.map fun _ => (false, false)) := by
  have hk : ∀ n, ∃ ans, kernelFor cfg shapely mpl ftol node [] n = some ans ∧ ∀ p, ans p = (false, false) := by
    intro n
    have hray : ∀ p, pyPoint ftol node.length [] p = (false, false) := fun _ => rfl
    simp only [kernelFor, segsOf, List.map_nil, collectAll, enginePoints, edgesToRings, if_true]
    split_ifs
    · exact ⟨_, rfl, fun _ => rfl⟩
    all_goals exact ⟨_, rfl, hray⟩
  obtain ⟨ans, h1, h2⟩ := hk (vert.filterMap finitePoint).length
  simp only [inpoly2, checkEdges, List.all_nil, if_true, List.map_nil, Option.map_some, h1]
  split_ifs
  · rfl
  · rfl
  · congr 1
    refine List.map_congr_left fun v _ => ?_
    cases finitePoint v with
    | none => rfl
    | some p => exact h2 p

/-! ## Examples -/

example : inpoly2 ⟨false, true, false, some .shapely⟩ (fun _ => none) (fun _ => none) (1 / 100 : ℚ) [(some 0, some 0), (none, some 1)] [(0, 0), (1, 0)] (some []) =
    some [(false, false), (false, false)] := C53_no_edges _ _ _ _ _ _

example : cPoint (1000 * (1 / 100)) (squareSegs.map (segInUnit 1000 (5, 7))) (inUnit 1000 (5, 7) ((1 / 2, 1 / 3) : ℚ × ℚ)) = (true, false) := by
  rw [C145_compiled (by norm_num)]
  decide +kernel
example : pyPoint (1 / 100) 4 (squareSegs.map (segInUnit 1 (5, 7))) (inUnit 1 (5, 7) ((1 / 2, 1 / 3) : ℚ × ℚ)) = (true, false) := by
  rw [C145_python_partial]
  decide +kernel
example : bboxDistance (boxInUnit 1000 (5, 7) (⟨0, 4, 0, 2⟩ : Box ℚ)) (inUnit 1000 (5, 7) (1, 1)) = 1000 * -1 := by
  rw [C145_box (by norm_num)]
  decide +kernel

/-- The distances of `nearQ` are sums of differences of coordinates and so measured in the unit. -/
theorem nearQ_shift {c : ℚ} (hc : 0 < c) (t : ℚ × ℚ) (q : ℚ × ℚ) : ∀ l : List (ℚ × ℚ), nearQ (l.map (inUnit c t)) (inUnit c t q) = c * nearQ l q
  | [] => by simp [nearQ]
  | [v] => by
    simp only [List.map_cons, List.map_nil, nearQ, inUnit, shift_sub, abs_mul, abs_of_pos hc]
    ring
  | v :: w :: l => by
    have ih := nearQ_shift hc t q (w :: l)
    simp only [List.map_cons] at ih
    simp only [List.map_cons, nearQ, ih]
    rw [mul_min_of_nonneg _ _ hc.le]
    congr 1
    simp only [inUnit, shift_sub, abs_mul, abs_of_pos hc]
    ring

/-- `toolsQ` with the tolerance in another unit. -/
def toolsIn (c : ℚ) : SdfTools ℚ := { toolsQ with ftol := c * toolsQ.ftol }

example := C145_distance (c := 1000) (by norm_num) (5, 7) (T := toolsQ) (T' := toolsIn 1000) rfl (by decide) rfl (fun l q => nearQ_shift (by norm_num) (5, 7) q l)
  shoresQ.innerClosed shoresQ.boxClosed shoresQ.boxSome false
example : (gridInUnit 1000 (5, 7) (⟨⟨0, 2, 0, 1⟩, 1, 1, 3, 2, fun i _ => some (i.val : ℚ), none, true, (), some true⟩ : Grid ℚ Unit)).evalAt (inUnit 1000 (5, 7) (3 / 2, 1 / 2)) =
    some (some (3 / 2)) := by
  rw [(C145_sizes (by norm_num) _ _ _).1]
  decide +kernel

end OM
