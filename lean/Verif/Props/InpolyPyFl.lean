import Verif.Lemmas.InpolyPyFl
import Verif.Props.InpolyFl
/-!
# C122: the Python inside test in rounded arithmetic, and both kernels together
-/
set_option linter.unusedSectionVars false
namespace OM
open Spec

section
variable {K : Type} [Field K] [LinearOrder K]

/-- The distance within which the Python kernel may report the boundary: one and a half tolerances across the edge, the tolerance divided by the
length of the edge along it (the code compares `ftol` with a product of two lengths), and rounding errors. -/
def Spec.pyReach (ftol e : K) (s : (K × K) × (K × K)) : K := 3 / 2 * ftol + 9 / 4 * ftol / (|s.2.1 - s.1.1| + |s.2.2 - s.1.2|) + e

/-- **C122**: without rounding errors the model is `pyPoint`. -/
theorem C122_exact (ftol : K) (n : Nat) (segs : List (Seg K)) (q : K × K) : pyPointFl id ftol n segs q = pyPoint ftol n segs q := by
  have hl : ∀ (l : List (Seg K)) (c : Nat), pyLoopFl id ftol q l c = pyLoop ftol q l c := by
    intro l
    induction l with
    | nil => intro c; rfl
    | cons s l ih =>
      intro c
      unfold pyLoopFl pyLoop
      simp only [ih]
      rfl
  cases segs with
  | nil => rfl
  | cons s l =>
    unfold pyPointFl pyPoint
    simp only [hl]
    rfl

end
section
variable {K : Type} [Field K] [LinearOrder K] [IsStrictOrderedRing K]
variable {rnd : K → K} {u : K}

theorem relError_id : RelError (id : K → K) 0 := fun x => by simp

theorem near_of_pyOnSegment {ftol : K} (hf : 0 ≤ ftol) {q : K × K} {s : Seg K} (h : pyOnSegment ftol q s = true) :
    NearSegment (pyReach ftol 0 s) q s.1 s.2 := by
  have h' : pyOnSegmentFl id ftol q s = true := h
  have m : ∀ x ∈ [|s.1.1|, |s.2.1|, |s.1.2|, |s.2.2|, |q.1|, |q.2|], x ≤ |s.1.1| + |s.2.1| + |s.1.2| + |s.2.2| + |q.1| + |q.2| := by
    have a1 := abs_nonneg s.1.1
    have a2 := abs_nonneg s.2.1
    have a3 := abs_nonneg s.1.2
    have a4 := abs_nonneg s.2.2
    have a5 := abs_nonneg q.1
    have a6 := abs_nonneg q.2
    intro x hx
    simp only [List.mem_cons, List.not_mem_nil, or_false] at hx
    rcases hx with rfl | rfl | rfl | rfl | rfl | rfl <;> linarith
  have := near_of_pyOnSegmentFl relError_id le_rfl (by norm_num) hf (m _ (by simp)) (m _ (by simp)) (m _ (by simp)) (m _ (by simp)) (m _ (by simp))
    (m _ (by simp)) h'
  rwa [mul_zero, zero_mul] at this

theorem pyReach_mono {ftol e e' : K} (h : e ≤ e') (s : Seg K) : pyReach ftol e s ≤ pyReach ftol e' s := by
  unfold pyReach
  linarith

theorem le_pyReach {ftol e : K} (hf : 0 ≤ ftol) (s : Seg K) : ftol + e ≤ pyReach ftol e s := by
  unfold pyReach
  have : 0 ≤ 9 / 4 * ftol / (|s.2.1 - s.1.1| + |s.2.2 - s.1.2|) := by positivity
  linarith

/-- A point away from an edge and not level with it if it is nearly horizontal: the crossing is counted as in exact arithmetic. -/
theorem pyCountFl_far (hR : Rounding rnd) (hr : RelError rnd u) (h0 : 0 ≤ u) (hu : u ≤ 1 / 128) {ftol M : K}
    (hf : 0 ≤ ftol) {q : K × K} {s : Seg K} (s1 : StoredPoint rnd M s.1) (s2 : StoredPoint rnd M s.2) (hq : rnd q.2 = q.2)
    (hflat : LevelClear ((1 + 2 * u) * ftol) 0 q.2 s) (hn : ¬ NearSegment (ftol + 16 * u * M) q s.1 s.2) : pyCountFl rnd ftol q s = crossesRight q s := by
  unfold pyCountFl
  by_cases hs : (s.1.2 ≤ q.2 ∧ q.2 < s.2.2) ∨ (s.2.2 ≤ q.2 ∧ q.2 < s.1.2)
  · have hsk : pySkipFl rnd ftol q s = false := by
      apply pySkipFl_of_range hR hf hq
      · rcases hs with h | h
        · exact (min_le_left _ _).trans h.1
        · exact (min_le_right _ _).trans h.1
      · rcases hs with h | h
        · exact h.2.le.trans (le_max_right _ _)
        · exact h.2.le.trans (le_max_left _ _)
    have hfl : ¬ |rnd (s.2.2 - s.1.2)| ≤ ftol := by
      have h1 : (1 + 2 * u) * ftol < |s.2.2 - s.1.2| := by
        by_contra hc
        exact levelClear_not_straddle hflat (not_lt.1 hc) hs
      obtain ⟨f, g, e⟩ := rnd_fac hr h0 (by linarith) (s.2.2 - s.1.2)
      have hfp := g.pos (by linarith : u < 1)
      have hg := g.1
      rw [pow_one] at hg
      rw [e, abs_mul, abs_of_pos hfp, not_le]
      have h2 : (1 - u) * ((1 + 2 * u) * ftol) < f * |s.2.2 - s.1.2| :=
        lt_of_le_of_lt (mul_le_mul_of_nonneg_right hg (by positivity)) (mul_lt_mul_of_pos_left h1 hfp)
      have h3 : 0 ≤ u * (1 - 2 * u) * ftol := mul_nonneg (mul_nonneg h0 (by linarith)) hf
      nlinarith
    have herr := pyXintFl_err hr h0 hu hs s1.2.2.1 s2.2.2.1
    have hx : ftol + 16 * u * M < |q.1 - (s.1.1 + (q.2 - s.1.2) * (s.2.1 - s.1.1) / (s.2.2 - s.1.2))| := by
      by_contra hc
      exact hn ⟨_, crossing_on_segment hs, by simpa using not_lt.1 hc⟩
    rw [hsk]
    unfold pyCrossFl crossesRight
    rw [(straddle_iff q s).2 hs, decide_eq_false hfl]
    simp only [Bool.not_false, Bool.true_and]
    rw [decide_eq_decide]
    rw [abs_le] at herr
    rw [lt_abs] at hx
    constructor
    · intro h
      rcases hx with hx | hx <;> linarith [herr.1, herr.2]
    · intro h
      rcases hx with hx | hx <;> linarith [herr.1, herr.2]
  · have h1 : (decide (q.2 < s.1.2) != decide (q.2 < s.2.2)) = false := by
      rw [← Bool.not_eq_true, straddle_iff]; exact hs
    unfold pyCrossFl crossesRight
    simp [h1]

/-- The answer at points away from the edges: the number of edges crossed by the ray. -/
theorem pyPointFl_far (hR : Rounding rnd) (hr : RelError rnd u) (h0 : 0 ≤ u) (hu : u ≤ 1 / 128) {ftol M : K} (hf : 0 ≤ ftol) {n : Nat} (hn3 : 3 ≤ n)
    {segs : List (Seg K)} (hs : ∀ s ∈ segs, StoredPoint rnd M s.1 ∧ StoredPoint rnd M s.2) (he : EvenDegrees segs)
    {q : K × K} (hflat : ∀ s ∈ segs, LevelClear ((1 + 2 * u) * ftol) 0 q.2 s) (hq : StoredPoint rnd M q)
    (hn : ∀ s ∈ segs, ¬ NearSegment (pyReach ftol (64 * u * M) s) q s.1 s.2) :
    pyPointFl rnd ftol n segs q = (segs.countP (crossesRight q) % 2 == 1, false) := by
  cases segs with
  | nil => rfl
  | cons s l =>
    have hM : 0 ≤ M := (abs_nonneg _).trans hq.2.2.1
    have huM : 0 ≤ u * M := mul_nonneg h0 hM
    have hit : (s :: l).any (pyHitFl rnd ftol q) = false := by
      rw [List.any_eq_false]
      intro e hm h
      simp only [pyHitFl, Bool.and_eq_true] at h
      obtain ⟨e1, e2⟩ := hs e hm
      exact hn e hm (near_of_pyOnSegmentFl hr h0 hu hf e1.2.2.1 e2.2.2.1 e1.2.2.2 e2.2.2.2 hq.2.2.1 hq.2.2.2 h.2)
    have hc : (s :: l).countP (pyCountFl rnd ftol q) = (s :: l).countP (crossesRight q) :=
      List.countP_congr fun e hm => by
        rw [pyCountFl_far hR hr h0 hu hf (hs e hm).1 (hs e hm).2 hq.2.1 (hflat e hm)
          fun h => hn e hm (near_mono (le_trans (by linarith) (le_pyReach (e := 64 * u * M) hf e)) h)]
    rw [pyPointFl_cons rnd ftol hn3, hit, hc]
    split_ifs with hb
    · simp
    · have := even_of_reject le_rfl (fun f => even_straddle (s :: l) he f) (segBoxFl_reject hR hf hq.1 hq.2.1 hb)
      rw [Nat.even_iff.1 this]
      rfl

/-- **C122**, points away from the edges of closed polygons and not level with nearly horizontal edges: the answer of the Python kernel is the one of exact
arithmetic and never "boundary". -/
theorem C122_far (hR : Rounding rnd) (hr : RelError rnd u) (h0 : 0 ≤ u) (hu : u ≤ 1 / 128) {ftol M : K} (hf : 0 ≤ ftol) {n : Nat} (hn3 : 3 ≤ n)
    {segs : List (Seg K)} (hs : ∀ s ∈ segs, StoredPoint rnd M s.1 ∧ StoredPoint rnd M s.2) (he : EvenDegrees segs)
    {q : K × K} (hflat : ∀ s ∈ segs, LevelClear ((1 + 2 * u) * ftol) 0 q.2 s) (hq : StoredPoint rnd M q)
    (hn : ∀ s ∈ segs, ¬ NearSegment (pyReach ftol (64 * u * M) s) q s.1 s.2) :
    pyPointFl rnd ftol n segs q = pyPoint ftol n segs q ∧ (pyPoint ftol n segs q).2 = false := by
  have hM : 0 ≤ M := (abs_nonneg _).trans hq.2.2.1
  have huM : 0 ≤ u * M := mul_nonneg h0 hM
  have h1 := pyPointFl_far hR hr h0 hu hf hn3 hs he hflat hq hn
  have hid : Rounding (id : K → K) := ⟨fun _ _ h => h, fun _ => rfl, rfl⟩
  have h2 := pyPointFl_far hid relError_id le_rfl (by norm_num) (M := M) hf hn3 (segs := segs)
    (fun s hm => ⟨⟨rfl, rfl, (hs s hm).1.2.2⟩, ⟨rfl, rfl, (hs s hm).2.2.2⟩⟩) he
    (fun s hm => levelClear_mono (hflat s hm) (mul_le_mul_of_nonneg_right (by linarith) hf) le_rfl) (q := q) ⟨rfl, rfl, hq.2.2⟩
    (fun s hm h => hn s hm (near_mono (pyReach_mono (by linarith) s) h))
  rw [C122_exact] at h2
  rw [h1, h2]
  exact ⟨rfl, rfl⟩

/-- **C122**: so at such points both kernels give the same answer, whatever the compiler does with the compiled one. -/
theorem C122_kernels_agree (hR : Rounding rnd) (hr : RelError rnd u) (h0 : 0 ≤ u) (hu : u ≤ 1 / 128) (fused : Bool) {ftol M : K} (hf : 0 ≤ ftol)
    (hfM : ftol ≤ M) {n : Nat} (hn3 : 3 ≤ n) {segs : List (Seg K)} (hs : ∀ s ∈ segs, StoredPoint rnd M s.1 ∧ StoredPoint rnd M s.2)
    (he : EvenDegrees segs) {q : K × K} (hflat : ∀ s ∈ segs, LevelClear ((1 + 2 * u) * ftol) 0 q.2 s) (hq : StoredPoint rnd M q)
    (hn : ∀ s ∈ segs, ¬ NearSegment (pyReach ftol (64 * u * M) s) q s.1 s.2) :
    pyPointFl rnd ftol n segs q = cPointFl rnd fused ftol segs q := by
  have hM : 0 ≤ M := (abs_nonneg _).trans hq.2.2.1
  have huM : 0 ≤ u * M := mul_nonneg h0 hM
  obtain ⟨h1, h2⟩ := C114_far hR hr h0 hu fused hf hfM hs (q := q)
    fun s hm h => hn s hm (near_mono (le_trans (by linarith) (le_pyReach (e := 64 * u * M) hf s)) h)
  rw [pyPointFl_far hR hr h0 hu hf hn3 hs he hflat hq hn, h1]
  rw [cPoint_eq] at h2 ⊢
  simp only at h2
  rw [h2, Bool.false_or, List.countP_congr (fun s _ => by rw [cCount_eq hf] : ∀ s ∈ segs, cCount ftol q s = true ↔ crossesRight q s = true)]

/-- **C122**: for the edges of a triangulated region the answer at such points is the right one. -/
theorem C122_region (hR : Rounding rnd) (hr : RelError rnd u) (h0 : 0 ≤ u) (hu : u ≤ 1 / 128) {ftol M : K} (hf : 0 ≤ ftol) {n : Nat} (hn3 : 3 ≤ n)
    {ts : List ((K × K) × (K × K) × (K × K))} {segs : List (Seg K)} (ht : Triangulates ts segs)
    (hs : ∀ s ∈ segs, StoredPoint rnd M s.1 ∧ StoredPoint rnd M s.2) (he : EvenDegrees segs)
    {q : K × K} (hflat : ∀ s ∈ segs, LevelClear ((1 + 2 * u) * ftol) 0 q.2 s) (hq : StoredPoint rnd M q)
    (hn : ∀ s ∈ segs, ¬ NearSegment (pyReach ftol (64 * u * M) s) q s.1 s.2) :
    (pyPointFl rnd ftol n segs q).2 = false ∧
      ((pyPointFl rnd ftol n segs q).1 = true ↔ ∃ t ∈ ts, InClosedTriangle q t.1 t.2.1 t.2.2) := by
  obtain ⟨h1, h2⟩ := C122_far hR hr h0 hu hf hn3 hs he hflat hq hn
  rw [h1]
  exact ⟨h2, C101_region_python_partial hf hn3 ht
    (fun s hm => levelClear_mono (hflat s hm) (by rw [add_mul, one_mul]; have := mul_nonneg (mul_nonneg (by norm_num : (0 : K) ≤ 2) h0) hf; linarith) le_rfl) h2⟩

/-- **C122**, reported boundary points: they are near an edge, where the part of the tolerance along the edge is divided by the length of the
edge. -/
theorem C122_reported (hr : RelError rnd u) (h0 : 0 ≤ u) (hu : u ≤ 1 / 128) {ftol M : K} (hf : 0 ≤ ftol) {n : Nat} {segs : List (Seg K)}
    (hs : ∀ s ∈ segs, StoredPoint rnd M s.1 ∧ StoredPoint rnd M s.2) {q : K × K} (hq : StoredPoint rnd M q)
    (h : (pyPointFl rnd ftol n segs q).2 = true) : ∃ s ∈ segs, NearSegment (pyReach ftol (64 * u * M) s) q s.1 s.2 := by
  cases segs with
  | nil => exact absurd h (by simp [pyPointFl])
  | cons s l =>
    have hn3 : 3 ≤ n := by
      by_contra hc
      rw [not_le] at hc
      unfold pyPointFl at h
      simp [hc] at h
    rw [pyPointFl_cons rnd ftol hn3] at h
    split_ifs at h with hb
    · obtain ⟨e, hm, hh⟩ := List.any_eq_true.1 h
      simp only [pyHitFl, Bool.and_eq_true] at hh
      obtain ⟨e1, e2⟩ := hs e hm
      exact ⟨e, hm, near_of_pyOnSegmentFl hr h0 hu hf e1.2.2.1 e2.2.2.1 e1.2.2.2 e2.2.2.2 hq.2.2.1 hq.2.2.2 hh.2⟩

/-- A point that makes an edge report the boundary and lies in the range of the edge. -/
theorem pyPointFl_of_hit (hR : Rounding rnd) {ftol : K} (hf : 0 ≤ ftol) {n : Nat} (hn3 : 3 ≤ n) {segs : List (Seg K)} {s : Seg K} (hm : s ∈ segs)
    {q : K × K} (h1 : rnd q.1 = q.1) (h2 : rnd q.2 = q.2) (hon : OnClosedSegment q s.1 s.2) (hh : pyOnSegmentFl rnd ftol q s = true) :
    pyPointFl rnd ftol n segs q = (true, true) := by
  cases segs with
  | nil => cases hm
  | cons s0 l =>
    have hr' := onSegment_range hon
    have hany : (s0 :: l).any (pyHitFl rnd ftol q) = true := by
      rw [List.any_eq_true]
      refine ⟨s, hm, ?_⟩
      simp only [pyHitFl, Bool.and_eq_true]
      exact ⟨by rw [pySkipFl_of_range hR hf h2 hr'.1 hr'.2.1]; rfl, hh⟩
    rw [pyPointFl_cons rnd ftol hn3, hany]
    split_ifs with hb
    · rfl
    · exfalso
      rcases segBoxFl_reject hR hf h1 h2 hb with h | h | h | h <;> obtain ⟨a, b⟩ := h s hm
      · have := hr'.2.2.1
        rw [min_le_iff] at this
        rcases this with h | h <;> linarith
      · have := hr'.2.2.2
        rw [le_max_iff] at this
        rcases this with h | h <;> linarith
      · have := hr'.1
        rw [min_le_iff] at this
        rcases this with h | h <;> linarith
      · have := hr'.2.1
        rw [le_max_iff] at this
        rcases this with h | h <;> linarith

/-- **C122**, points exactly on an edge: they are reported if the tolerance is at least `5 u` times the length of the edge. The size of the
coordinates does not matter. -/
theorem C122_on_edge_partial (hR : Rounding rnd) (hr : RelError rnd u) (h0 : 0 ≤ u) (hu : u ≤ 1 / 128) {ftol : K} (hf : 0 ≤ ftol) {n : Nat} (hn3 : 3 ≤ n)
    {segs : List (Seg K)} {s : Seg K} (hm : s ∈ segs) (hne : s.1 ≠ s.2) {q : K × K} (h1 : rnd q.1 = q.1) (h2 : rnd q.2 = q.2)
    (hon : OnClosedSegment q s.1 s.2) (htol : (5 * u) ^ 2 * ((s.2.1 - s.1.1) ^ 2 + (s.2.2 - s.1.2) ^ 2) ≤ ftol ^ 2) :
    pyPointFl rnd ftol n segs q = (true, true) :=
  pyPointFl_of_hit hR hf hn3 hm h1 h2 hon (pyOnSegmentFl_on hR hr h0 hu hf hne hon htol)

/-- **C122**, vertices: both ends of an edge are reported for every tolerance and every size of the coordinates. (The compiled kernel is certain
to find only the first end, `C114_vertex`.) -/
theorem C122_vertices (hR : Rounding rnd) (hr : RelError rnd u) (h0 : 0 ≤ u) (hu : u ≤ 1 / 128) {ftol M : K} (hf : 0 ≤ ftol) {n : Nat} (hn3 : 3 ≤ n)
    {segs : List (Seg K)} {s : Seg K} (hm : s ∈ segs) (s1 : StoredPoint rnd M s.1) (s2 : StoredPoint rnd M s.2) (hne : s.1 ≠ s.2) :
    pyPointFl rnd ftol n segs s.1 = (true, true) ∧ pyPointFl rnd ftol n segs s.2 = (true, true) := by
  obtain ⟨F, hF, eF⟩ := pyLen2Fl_fac hr h0 (by linarith) s
  have hLp : 0 < (s.2.1 - s.1.1) * (s.2.1 - s.1.1) + (s.2.2 - s.1.2) * (s.2.2 - s.1.2) := (len2_pos_iff s).2 (by
    by_contra hc
    simp only [not_or, not_not] at hc
    exact hne (Prod.ext (by linarith [hc.1]) (by linarith [hc.2])))
  have hL : 0 < pyLen2Fl rnd s := by
    have := hF.pos (by linarith : u < 1)
    rw [eF]; positivity
  have hidem : rnd (pyLen2Fl rnd s) = pyLen2Fl rnd s := by
    unfold pyLen2Fl
    exact hR.idem _
  have hle : pyLen2Fl rnd s ≤ rnd (pyLen2Fl rnd s + ftol) := by
    conv_lhs => rw [← hidem]
    exact hR.mono (by linarith)
  have hff : 0 ≤ rnd (ftol * ftol) := by rw [← hR.zero]; exact hR.mono (mul_nonneg hf hf)
  constructor
  · refine pyPointFl_of_hit hR hf hn3 hm s1.1 s1.2.1 ⟨0, le_rfl, zero_le_one, by ring, by ring⟩ ?_
    have hc : pyCrossProdFl rnd s.1 s = 0 := by unfold pyCrossProdFl; simp [hR.zero]
    have hd : pyDotFl rnd s.1 s = 0 := by unfold pyDotFl; simp [hR.zero]
    unfold pyOnSegmentFl
    simp only [hc, hd, mul_zero, hR.zero, zero_div, Bool.and_eq_true, decide_eq_true_eq]
    exact ⟨⟨⟨hL, hff⟩, by linarith⟩, hL.le.trans hle⟩
  · refine pyPointFl_of_hit hR hf hn3 hm s2.1 s2.2.1 ⟨1, zero_le_one, le_rfl, by ring, by ring⟩ ?_
    have hc : pyCrossProdFl rnd s.2 s = 0 := by
      unfold pyCrossProdFl
      rw [mul_comm (rnd (s.2.1 - s.1.1)), sub_self, hR.zero]
    have hd : pyDotFl rnd s.2 s = pyLen2Fl rnd s := rfl
    unfold pyOnSegmentFl
    simp only [hc, hd, mul_zero, hR.zero, zero_div, Bool.and_eq_true, decide_eq_true_eq]
    exact ⟨⟨⟨hL, hff⟩, by linarith⟩, hle⟩

/-- **C122**, the tolerance along an edge, in exact arithmetic: a point in line with a horizontal edge, up to `ftol` divided by the length beyond
its end, passes the boundary test of the Python kernel. The shorter the edge, the farther away. -/
theorem C122_overshoot {ftol : K} (hf : 0 ≤ ftol) {x y len d : K} (hl : 0 < len) (hd : 0 ≤ d) (h : d * len ≤ ftol) {n : Nat} (hn : 3 ≤ n)
    {segs : List (Seg K)} (hm : ((x, y), (x + len, y)) ∈ segs) (hx : ∃ s ∈ segs, x + len + d ≤ s.2.1) :
    pyPoint ftol n segs (x + len + d, y) = (true, true) := by
  have hhit : segs.any (pyHit ftol (x + len + d, y)) = true := by
    rw [List.any_eq_true]
    refine ⟨_, hm, ?_⟩
    unfold pyHit pySkip pyOnSegment
    simp only [min_self, max_self, Bool.and_eq_true, Bool.not_eq_true', Bool.or_eq_false_iff, decide_eq_false_iff_not, decide_eq_true_eq, not_lt,
      sub_self, mul_zero, zero_mul, add_zero, zero_div, add_sub_cancel_left]
    refine ⟨⟨by linarith, by linarith⟩, ⟨⟨⟨by positivity, by positivity⟩, ?_⟩, ?_⟩⟩
    · have : 0 ≤ len * (x + len + d - x) := mul_nonneg hl.le (by linarith)
      linarith
    · nlinarith
  rw [pyPoint_eq, hhit, if_neg]
  · rfl
  · rintro (h | h | h)
    · rw [h] at hm; cases hm
    · omega
    · rcases h with h | h | h | h
      · have := (h _ hm).1
        simp only at this
        linarith
      · obtain ⟨s, hs, hsx⟩ := hx
        have := (h s hs).2
        simp only at this
        linarith
      · have := (h _ hm).1
        simp only at this
        linarith
      · have := (h _ hm).1
        simp only at this
        linarith

end
section
variable {K : Type} [Field K] [LinearOrder K] [IsStrictOrderedRing K] [FloorRing K]

/-- **C122** for doubles and the tolerance `5e-14` of the code: points exactly on an edge of length up to ninety are reported, whatever the
coordinates. -/
theorem C122_doubles {n : Nat} (hn3 : 3 ≤ n) {segs : List (Seg K)} {s : Seg K} (hm : s ∈ segs) (hne : s.1 ≠ s.2)
    (hlen : (s.2.1 - s.1.1) ^ 2 + (s.2.2 - s.1.2) ^ 2 ≤ 90 ^ 2) {q : K × K} (h1 : IsDouble q.1) (h2 : IsDouble q.2)
    (hon : OnClosedSegment q s.1 s.2) : pyPointFl roundDouble (roundDouble (5 / 10 ^ 14)) n segs q = (true, true) := by
  have h := (abs_le.1 (C113_roundDouble.2 (5 / 10 ^ 14 : K))).1
  rw [abs_of_pos (by positivity)] at h
  have h' : (5 / 10 ^ 14 - 1 / 2 ^ 53 * (5 / 10 ^ 14) : K) ≤ roundDouble (5 / 10 ^ 14) := by linarith
  have hp : (0 : K) ≤ 5 / 10 ^ 14 - 1 / 2 ^ 53 * (5 / 10 ^ 14) := by norm_num
  refine C122_on_edge_partial C113_roundDouble.1 C113_roundDouble.2 (by positivity) (by norm_num) (hp.trans h') hn3 hm hne
    (roundDouble_of_isDouble h1) (roundDouble_of_isDouble h2) hon ?_
  refine le_trans (mul_le_mul_of_nonneg_left hlen (by positivity)) (le_trans ?_ (pow_le_pow_left₀ hp h' 2))
  norm_num

end

theorem flTriangle_reach : ∀ s ∈ flTriangle, ¬ NearSegment (pyReach (roundDouble (5 / 10 ^ 14)) (64 * (1 / 2 ^ 53) * 1000) s) (230, 400) s.1 s.2 := by
  intro s hs
  simp only [flTriangle, List.mem_cons, List.not_mem_nil, or_false] at hs
  rcases hs with rfl | rfl | rfl
  · exact not_near_of_line (-365 / 404) 1 (130 - 365 / 404 * 132) (by norm_num [abs_le]) (by norm_num) (by norm_num) (by norm_num) (by decide +kernel)
  · exact not_near_of_line (-68 / 527) (-1) (-563 - 68 / 527 * 9) (by norm_num [abs_le]) (by norm_num) (by norm_num) (by norm_num) (by decide +kernel)
  · exact not_near_of_line 1 (123 / 433) (9 + 123 / 433 * 563) (by norm_num) (by norm_num [abs_le]) (by norm_num) (by norm_num) (by decide +kernel)

theorem flTriangle_even : EvenDegrees flTriangle := by
  intro v
  by_cases h1 : v = (132, 130)
  · subst h1; decide +kernel
  · by_cases h2 : v = (536, 495)
    · subst h2; decide +kernel
    · by_cases h3 : v = (9, 563)
      · subst h3; decide +kernel
      · have : endCount flTriangle v = 0 := by
          unfold endCount
          simp [flTriangle, Ne.symm h1, Ne.symm h2, Ne.symm h3]
        rw [this]
        exact Even.zero

theorem flTriangle_level : ∀ s ∈ flTriangle, LevelClear ((1 + 2 * (1 / 2 ^ 53)) * roundDouble (5 / 10 ^ 14)) 0 400 s := by
  unfold LevelClear
  decide +kernel

/-- The hypotheses of `C122_far`, `C122_kernels_agree` and `C122_region` hold at a point well inside. -/
example : pyPointFl roundDouble (roundDouble (5 / 10 ^ 14)) 3 flTriangle (230, 400) = (true, false) ∧
    cPointFl roundDouble true (roundDouble (5 / 10 ^ 14)) flTriangle (230, 400) = (true, false) ∧
    ∃ t ∈ [(((132, 130), (536, 495), (9, 563)) : (ℚ × ℚ) × (ℚ × ℚ) × (ℚ × ℚ))], InClosedTriangle (230, 400) t.1 t.2.1 t.2.2 := by
  have hq : StoredPoint roundDouble 1000 ((230, 400) : ℚ × ℚ) := by
    unfold StoredPoint
    decide +kernel
  have ht : Triangulates [((132, 130), (536, 495), (9, 563))] flTriangle :=
    triangulates_check [(132, 130), (536, 495), (9, 563)] (by decide +kernel) (by decide +kernel) (by decide +kernel) (by decide +kernel)
      (by decide +kernel)
  have h := C122_far (K := ℚ) C113_roundDouble.1 C113_roundDouble.2 (by positivity) (by norm_num) (ftol := roundDouble (5 / 10 ^ 14)) (n := 3)
    (by decide +kernel) le_rfl flTriangle_stored flTriangle_even flTriangle_level hq flTriangle_reach
  have h2 := C122_kernels_agree (K := ℚ) C113_roundDouble.1 C113_roundDouble.2 (by positivity) (by norm_num) true (ftol := roundDouble (5 / 10 ^ 14))
    (n := 3) (by decide +kernel) (by decide +kernel) le_rfl flTriangle_stored flTriangle_even flTriangle_level hq flTriangle_reach
  have h3 := C122_region (K := ℚ) C113_roundDouble.1 C113_roundDouble.2 (by positivity) (by norm_num) (ftol := roundDouble (5 / 10 ^ 14)) (n := 3)
    (by decide +kernel) le_rfl ht flTriangle_stored flTriangle_even flTriangle_level hq flTriangle_reach
  have e : pyPoint (roundDouble (5 / 10 ^ 14)) 3 flTriangle (230, 400) = (true, false) := by decide +kernel
  refine ⟨h.1.trans e, h2 ▸ h.1.trans e, h3.2.1 ?_⟩
  rw [h.1, e]

/-- The hypotheses of `C122_vertices` and `C122_reported`: a vertex is reported with tolerance zero, so it is near an edge. -/
example : pyPointFl roundDouble 0 3 flTriangle (536, 495) = (true, true) ∧
    ∃ s ∈ flTriangle, NearSegment (pyReach 0 (64 * (1 / 2 ^ 53) * 1000) s) (536, 495) s.1 s.2 := by
  have hv : pyPointFl roundDouble 0 3 flTriangle (536, 495) = (true, true) :=
    (C122_vertices (K := ℚ) (s := ((132, 130), (536, 495))) (M := 1000) C113_roundDouble.1 C113_roundDouble.2 (by positivity) (by norm_num) le_rfl le_rfl
      (by decide) (flTriangle_stored _ (by decide)).1 (flTriangle_stored _ (by decide)).2 (by decide)).2
  exact ⟨hv, C122_reported C113_roundDouble.2 (by positivity) (by norm_num) le_rfl flTriangle_stored
    (flTriangle_stored ((132, 130), (536, 495)) (by decide)).2 (by rw [hv])⟩

/-- The hypotheses of `C122_doubles` (and so of `C122_on_edge_partial`) hold for a point on an edge of more than seventy degrees. -/
example : pyPointFl roundDouble (roundDouble (5 / 10 ^ 14)) 3 [(((-170, -60) : ℚ × ℚ), (-110, -20)), ((-110, -20), (-170, -20)), ((-170, -20), (-170, -60))]
    (-155, -50) = (true, true) :=
  C122_doubles le_rfl (s := ((-170, -60), (-110, -20))) (by simp) (by decide) (by norm_num) ⟨-155, 0, by norm_num, by norm_num⟩
    ⟨-50, 0, by norm_num, by norm_num⟩ ⟨1 / 4, by norm_num, by norm_num, by norm_num, by norm_num⟩

/-- A triangle with one very short edge. -/
def needle : List (Seg ℚ) := [((0, 0), (1 / 2 ^ 30, 0)), ((1 / 2 ^ 30, 0), (1, 1)), ((1, 1), (0, 0))]

/-- **C122**, the kernels disagree about points that are nowhere near the boundary: the point `(2⁻¹⁵, 0)` is outside and more than `10⁸`
tolerances away from all edges; the Python kernel reports it on the boundary and inside, in exact arithmetic and in doubles. -/
theorem C122_short_edge : (∀ s ∈ needle, ¬ NearSegment (10 ^ 8 * (5 / 10 ^ 14)) (1 / 2 ^ 15, 0) s.1 s.2) ∧
    pyPoint (5 / 10 ^ 14) 3 needle (1 / 2 ^ 15, 0) = (true, true) ∧ cPoint (5 / 10 ^ 14) needle (1 / 2 ^ 15, 0) = (false, false) ∧
    pyPointFl roundDouble (roundDouble (5 / 10 ^ 14)) 3 needle (1 / 2 ^ 15, 0) = (true, true) ∧
    cPointFl roundDouble true (roundDouble (5 / 10 ^ 14)) needle (1 / 2 ^ 15, 0) = (false, false) := by
  refine ⟨fun s hs => ?_, ?_, by decide +kernel, by decide +kernel, by decide +kernel⟩
  · simp only [needle, List.mem_cons, List.not_mem_nil, or_false] at hs
    rcases hs with rfl | rfl | rfl
    · exact not_near_of_line 1 0 (1 / 2 ^ 30) (by norm_num) (by norm_num) (by norm_num) (by norm_num) (by norm_num)
    · exact not_near_of_line 1 (-(1 - 1 / 2 ^ 30)) (1 / 2 ^ 30) (by norm_num) (by norm_num [abs_le]) (by norm_num) (by norm_num) (by norm_num)
    · exact not_near_of_line 1 (-1) 0 (by norm_num) (by norm_num) (by norm_num) (by norm_num) (by norm_num)
  · have := C122_overshoot (K := ℚ) (ftol := 5 / 10 ^ 14) (x := 0) (y := 0) (len := 1 / 2 ^ 30) (d := 1 / 2 ^ 15 - 1 / 2 ^ 30) (n := 3) (segs := needle)
      (by norm_num) (by norm_num) (by norm_num) (by norm_num) le_rfl (by simp [needle]) ⟨((1 / 2 ^ 30, 0), (1, 1)), by simp [needle], by norm_num⟩
    convert this using 2
    norm_num

/-- **C122**, the kernels disagree about a point exactly on a long edge: the Python kernel finds it, the compiled one does not
(`C114_on_edge_missed`). -/
theorem C122_on_edge_differ :
    pyPointFl roundDouble (roundDouble (5 / 10 ^ 14)) 3 degTriangle (-46625231 / 524288, 82800659 / 2097152) = (true, true) ∧
      cPointFl roundDouble false (roundDouble (5 / 10 ^ 14)) degTriangle (-46625231 / 524288, 82800659 / 2097152) = (false, false) := by
  decide +kernel

end OM
