import Verif.Lemmas.InpolyFl
import Verif.Props.InpolyRegion
import Verif.Props.GradLimitFl
/-!
# C114: the inside test in rounded arithmetic
-/
set_option linter.unusedSectionVars false
namespace OM
open Spec

/-- The numbers of the point are numbers of the machine of size at most `M`. -/
def Spec.StoredPoint {K : Type} [Field K] [LinearOrder K] (rnd : K → K) (M : K) (p : K × K) : Prop :=
  rnd p.1 = p.1 ∧ rnd p.2 = p.2 ∧ |p.1| ≤ M ∧ |p.2| ≤ M

section
variable {K : Type} [Field K] [LinearOrder K] [IsStrictOrderedRing K]

theorem cSkipFl_of_range {rnd : K → K} (hR : Rounding rnd) {ftol : K} (hf : 0 ≤ ftol) {q : K × K} {s : Seg K} (h1 : rnd s.1.2 = s.1.2)
    (h2 : rnd s.2.2 = s.2.2) (hl : min s.1.2 s.2.2 ≤ q.2) (hu : q.2 ≤ max s.1.2 s.2.2) : cSkipFl rnd ftol q s = false := by
  have key : ∀ lo hi : K, rnd lo = lo → rnd hi = hi → lo ≤ q.2 → q.2 ≤ hi →
      (decide (q.2 < rnd (lo - ftol)) || decide (rnd (hi + ftol) < q.2)) = false := by
    intro lo hi e1 e2 a b
    have h3 : rnd (lo - ftol) ≤ lo := by conv_rhs => rw [← e1]
                                         exact hR.mono (by linarith)
    have h4 : hi ≤ rnd (hi + ftol) := by conv_lhs => rw [← e2]
                                         exact hR.mono (by linarith)
    simp only [Bool.or_eq_false_iff, decide_eq_false_iff_not, not_lt]
    exact ⟨h3.trans a, b.trans h4⟩
  unfold cSkipFl
  by_cases h : s.1.2 < s.2.2
  · simp only [if_pos h]
    rw [min_eq_left h.le] at hl
    rw [max_eq_right h.le] at hu
    exact key _ _ h1 h2 hl hu
  · simp only [if_neg h]
    rw [min_eq_right (not_lt.1 h)] at hl
    rw [max_eq_left (not_lt.1 h)] at hu
    exact key _ _ h2 h1 hl hu

theorem near_of_cOnSegment {ftol : K} {q : K × K} {s : Seg K} (h : cOnSegment ftol q s = true) : NearSegment ftol q s.1 s.2 := by
  unfold cOnSegment at h
  simp only at h
  by_cases hd : s.2.1 - s.1.1 ≠ 0 ∨ s.2.2 - s.1.2 ≠ 0
  · rw [if_pos hd] at h
    simp only [Bool.and_eq_true, decide_eq_true_eq] at h
    exact ⟨(_, _), ⟨_, h.1.1, h.1.2, rfl, rfl⟩, h.2⟩
  · rw [if_neg hd] at h
    exact absurd h (by simp)

theorem near_mono {d d' : K} (h : d ≤ d') {q a b : K × K} (hn : NearSegment d q a b) : NearSegment d' q a b := by
  obtain ⟨z, hz, hd⟩ := hn
  exact ⟨z, hz, hd.trans h⟩

theorem crossing_on_segment {q : K × K} {s : Seg K} (hs : (s.1.2 ≤ q.2 ∧ q.2 < s.2.2) ∨ (s.2.2 ≤ q.2 ∧ q.2 < s.1.2)) :
    OnClosedSegment (s.1.1 + (q.2 - s.1.2) * (s.2.1 - s.1.1) / (s.2.2 - s.1.2), q.2) s.1 s.2 := by
  have hne : s.2.2 - s.1.2 ≠ 0 := by
    intro h0
    have : s.2.2 = s.1.2 := by linarith
    rcases hs with ⟨h1, h2⟩ | ⟨h1, h2⟩ <;> (rw [this] at *; exact absurd h1 (not_le.2 h2))
  refine ⟨(q.2 - s.1.2) / (s.2.2 - s.1.2), ?_, ?_, ?_, ?_⟩
  · rcases hs with ⟨h1, h2⟩ | ⟨h1, h2⟩
    · exact div_nonneg (by linarith) (by linarith)
    · exact div_nonneg_of_nonpos (by linarith) (by linarith)
  · rcases hs with ⟨h1, h2⟩ | ⟨h1, h2⟩
    · rw [div_le_one (by linarith)]; linarith
    · rw [div_le_one_of_neg (by linarith)]; linarith
  · simp only; rw [div_mul_eq_mul_div]
  · simp only; rw [div_mul_cancel₀ _ hne]; ring

/-- A point away from the edge: the crossing is counted as in exact arithmetic. -/
theorem cCountFl_far {rnd : K → K} {u : K} (hR : Rounding rnd) (hr : RelError rnd u) (h0 : 0 ≤ u) (hu : u ≤ 1 / 128) (fused : Bool) {ftol M : K}
    (hf : 0 ≤ ftol) {q : K × K} {s : Seg K} (s1 : StoredPoint rnd M s.1) (s2 : StoredPoint rnd M s.2)
    (hn : ¬ NearSegment (ftol + 16 * u * M) q s.1 s.2) : cCountFl rnd fused ftol q s = cCount ftol q s := by
  rw [cCount_eq hf]
  unfold cCountFl
  by_cases hs : (s.1.2 ≤ q.2 ∧ q.2 < s.2.2) ∨ (s.2.2 ≤ q.2 ∧ q.2 < s.1.2)
  · have hsk : cSkipFl rnd ftol q s = false := by
      apply cSkipFl_of_range hR hf s1.2.1 s2.2.1
      · rcases hs with h | h
        · exact (min_le_left _ _).trans h.1
        · exact (min_le_right _ _).trans h.1
      · rcases hs with h | h
        · exact h.2.le.trans (le_max_right _ _)
        · exact h.2.le.trans (le_max_left _ _)
    have herr := cXintFl_err hr h0 hu fused hs s1.2.2.1 s2.2.2.1
    have hst : ((decide (s.1.2 ≤ q.2) && decide (q.2 < s.2.2)) || (decide (s.2.2 ≤ q.2) && decide (q.2 < s.1.2))) = true := by simpa using hs
    have hx : ftol + 16 * u * M < |q.1 - (s.1.1 + (q.2 - s.1.2) * (s.2.1 - s.1.1) / (s.2.2 - s.1.2))| := by
      by_contra hc
      exact hn ⟨_, crossing_on_segment hs, by simpa using not_lt.1 hc⟩
    rw [hsk]
    unfold cCrossFl crossesRight
    rw [hst, (straddle_iff q s).2 hs]
    simp only [Bool.not_false, Bool.true_and]
    rw [decide_eq_decide]
    rw [abs_le] at herr
    rw [lt_abs] at hx
    constructor
    · intro h
      rcases hx with hx | hx <;> linarith [herr.1, herr.2]
    · intro h
      rcases hx with hx | hx <;> linarith [herr.1, herr.2]
  · have h1 : (decide (q.2 < s.1.2) != decide (q.2 < s.2.2)) = false := by
      rw [← Bool.not_eq_true, straddle_iff]; exact hs
    have h2 : ((decide (s.1.2 ≤ q.2) && decide (q.2 < s.2.2)) || (decide (s.2.2 ≤ q.2) && decide (q.2 < s.1.2))) = false := by
      rw [← Bool.not_eq_true]; simpa using hs
    unfold cCrossFl crossesRight
    simp [h1, h2]

/-- **C114**, points away from the edges: with rounding errors of relative size `u` the answer is the one of exact arithmetic, and never
"boundary", for every point that is farther than `ftol + 16 u M` from all edges. -/
theorem C114_far {rnd : K → K} {u : K} (hR : Rounding rnd) (hr : RelError rnd u) (h0 : 0 ≤ u) (hu : u ≤ 1 / 128) (fused : Bool) {ftol M : K}
    (hf : 0 ≤ ftol) (hfM : ftol ≤ M) {segs : List (Seg K)} (hs : ∀ s ∈ segs, StoredPoint rnd M s.1 ∧ StoredPoint rnd M s.2) {q : K × K}
    (hn : ∀ s ∈ segs, ¬ NearSegment (ftol + 16 * u * M) q s.1 s.2) :
    cPointFl rnd fused ftol segs q = cPoint ftol segs q ∧ (cPoint ftol segs q).2 = false := by
  have hit1 : segs.any (cHitFl rnd fused ftol q) = false := by
    rw [List.any_eq_false]
    intro s hm h
    simp only [cHitFl, Bool.and_eq_true] at h
    obtain ⟨s1, s2⟩ := hs s hm
    exact hn s hm (near_of_cOnSegmentFl hr h0 hu fused hfM s1.2.2.1 s2.2.2.1 s1.2.2.2 s2.2.2.2 h.2)
  have hit2 : segs.any (cHit ftol q) = false := by
    rw [List.any_eq_false]
    intro s hm h
    simp only [cHit, Bool.and_eq_true] at h
    obtain ⟨s1, -⟩ := hs s hm
    have hM : 0 ≤ M := (abs_nonneg _).trans s1.2.2.1
    exact hn s hm (near_mono (by have : 0 ≤ u * M := mul_nonneg h0 hM
                                 linarith) (near_of_cOnSegment h.2))
  have hc : segs.countP (cCountFl rnd fused ftol q) = segs.countP (cCount ftol q) :=
    List.countP_congr fun s hm => by rw [cCountFl_far hR hr h0 hu fused hf (hs s hm).1 (hs s hm).2 (hn s hm)]
  rw [cPointFl_eq, cPoint_eq, hit1, hit2, hc]
  exact ⟨rfl, rfl⟩

/-- **C114**: so for the edges of a triangulated region the answer at such points is the right one. -/
theorem C114_region {rnd : K → K} {u : K} (hR : Rounding rnd) (hr : RelError rnd u) (h0 : 0 ≤ u) (hu : u ≤ 1 / 128) (fused : Bool) {ftol M : K}
    (hf : 0 ≤ ftol) (hfM : ftol ≤ M) {ts : List ((K × K) × (K × K) × (K × K))} {segs : List (Seg K)} (ht : Triangulates ts segs)
    (hs : ∀ s ∈ segs, StoredPoint rnd M s.1 ∧ StoredPoint rnd M s.2) {q : K × K}
    (hn : ∀ s ∈ segs, ¬ NearSegment (ftol + 16 * u * M) q s.1 s.2) :
    (cPointFl rnd fused ftol segs q).2 = false ∧
      ((cPointFl rnd fused ftol segs q).1 = true ↔ ∃ t ∈ ts, InClosedTriangle q t.1 t.2.1 t.2.2) := by
  obtain ⟨h1, h2⟩ := C114_far hR hr h0 hu fused hf hfM hs hn
  rw [h1]
  exact ⟨h2, C101_region_compiled hf ht h2⟩

/-- **C114**, reported boundary points: they are nearly at most the tolerance away from an edge. -/
theorem C114_reported {rnd : K → K} {u : K} (hr : RelError rnd u) (h0 : 0 ≤ u) (hu : u ≤ 1 / 128) (fused : Bool) {ftol M : K}
    (hfM : ftol ≤ M) {segs : List (Seg K)} (hs : ∀ s ∈ segs, StoredPoint rnd M s.1 ∧ StoredPoint rnd M s.2) {q : K × K}
    (h : (cPointFl rnd fused ftol segs q).2 = true) : ∃ s ∈ segs, NearSegment (ftol + 16 * u * M) q s.1 s.2 := by
  rw [cPointFl_eq] at h
  obtain ⟨s, hm, hh⟩ := List.any_eq_true.1 h
  simp only [cHitFl, Bool.and_eq_true] at hh
  obtain ⟨s1, s2⟩ := hs s hm
  exact ⟨s, hm, near_of_cOnSegmentFl hr h0 hu fused hfM s1.2.2.1 s2.2.2.1 s1.2.2.2 s2.2.2.2 hh.2⟩

/-- **C114**, points exactly on an edge: they are reported if the tolerance is at least `u` times one and a half times the size of the
coordinates plus sixteen times the length of the edge. -/
theorem C114_on_edge_partial {rnd : K → K} {u : K} (hR : Rounding rnd) (hone : rnd 1 = 1) (hr : RelError rnd u) (h0 : 0 ≤ u) (hu : u ≤ 1 / 128)
    (fused : Bool) {ftol : K} {segs : List (Seg K)} {s : Seg K} (hm : s ∈ segs) (hs : rnd s.1.2 = s.1.2 ∧ rnd s.2.2 = s.2.2) (hne : s.1 ≠ s.2)
    {q : K × K} (hon : OnClosedSegment q s.1 s.2)
    (htol : u * (3 / 2 * (|q.1| + |q.2|) + 16 * (|s.2.1 - s.1.1| + |s.2.2 - s.1.2|)) ≤ ftol) :
    cPointFl rnd fused ftol segs q = (true, true) := by
  have hf : 0 ≤ ftol := le_trans (by positivity) htol
  have hr' := onSegment_range hon
  have : segs.any (cHitFl rnd fused ftol q) = true := by
    rw [List.any_eq_true]
    refine ⟨s, hm, ?_⟩
    simp only [cHitFl, Bool.and_eq_true]
    exact ⟨by rw [cSkipFl_of_range hR hf hs.1 hs.2 hr'.1 hr'.2.1]; rfl, cOnSegmentFl_on hR hone hr h0 hu fused hne hon htol⟩
  rw [cPointFl_eq, this]
  rfl

/-- **C114**, vertices: the first point of an edge is reported for every tolerance and every size of the coordinates. -/
theorem C114_vertex {rnd : K → K} {u : K} (hR : Rounding rnd) (hr : RelError rnd u) (h0 : 0 ≤ u) (hu : u < 1) (fused : Bool) {ftol M : K}
    (hf : 0 ≤ ftol) {segs : List (Seg K)} {s : Seg K} (hm : s ∈ segs) (s1 : StoredPoint rnd M s.1) (s2 : StoredPoint rnd M s.2) (hne : s.1 ≠ s.2) :
    cPointFl rnd fused ftol segs s.1 = (true, true) := by
  have hd : rnd (s.2.1 - s.1.1) ≠ 0 ∨ rnd (s.2.2 - s.1.2) ≠ 0 := by
    obtain ⟨f2, g2, e2⟩ := rnd_fac hr h0 hu (s.2.1 - s.1.1)
    obtain ⟨f3, g3, e3⟩ := rnd_fac hr h0 hu (s.2.2 - s.1.2)
    rw [e2, e3]
    by_contra hc
    simp only [not_or, not_not, mul_eq_zero, (g2.pos hu).ne', (g3.pos hu).ne', or_false] at hc
    exact hne (Prod.ext (by linarith [hc.1]) (by linarith [hc.2]))
  have ht : cParamFl rnd fused s.1 s = 0 := by
    unfold cParamFl mulAdd
    cases fused <;> simp [hR.zero]
  have hdist : cDistFl rnd fused s.1 s 0 = 0 := by
    unfold cDistFl mulAdd
    cases fused <;> simp [hR.zero, s1.1, s1.2.1]
  have hon : cOnSegmentFl rnd fused ftol s.1 s = true := by
    unfold cOnSegmentFl
    rw [if_pos hd]
    simp [ht, hdist, hf]
  have : segs.any (cHitFl rnd fused ftol s.1) = true := by
    rw [List.any_eq_true]
    refine ⟨s, hm, ?_⟩
    simp only [cHitFl, Bool.and_eq_true]
    exact ⟨by rw [cSkipFl_of_range hR hf s1.2.1 s2.2.1 (min_le_left _ _) (le_max_left _ _)]; rfl, hon⟩
  rw [cPointFl_eq, this]
  rfl

/-- **C114**: the order of the edges does not matter. -/
theorem C114_order (rnd : K → K) (fused : Bool) (ftol : K) {l l' : List (Seg K)} (h : List.Perm l l') (q : K × K) :
    cPointFl rnd fused ftol l q = cPointFl rnd fused ftol l' q := by
  rw [cPointFl_eq, cPointFl_eq, h.countP_eq]
  have : l.any (cHitFl rnd fused ftol q) = l'.any (cHitFl rnd fused ftol q) := by
    rw [Bool.eq_iff_iff, List.any_eq_true, List.any_eq_true]
    exact ⟨fun ⟨s, hs, hh⟩ => ⟨s, h.mem_iff.1 hs, hh⟩, fun ⟨s, hs, hh⟩ => ⟨s, h.mem_iff.2 hs, hh⟩⟩
  rw [this]

end

section
variable {K : Type} [Field K] [LinearOrder K] [IsStrictOrderedRing K] [FloorRing K]

/-- Numbers with 53 binary digits are not changed. -/
theorem roundDouble_of_isDouble {x : K} (h : IsDouble x) : roundDouble x = x := by
  have := ((C113_nearest x).2 x h).1
  rw [sub_self, abs_zero] at this
  linarith [abs_eq_zero.1 (le_antisymm this (abs_nonneg _))]

theorem roundDouble_one : roundDouble (1 : K) = 1 :=
  roundDouble_of_isDouble ⟨1, 0, by norm_num, by norm_num⟩

/-- **C114** for doubles: points farther than `ftol + M / 2 ^ 49` from all edges get the answer of exact arithmetic. -/
theorem C114_doubles (fused : Bool) {ftol M : K} (hf : 0 ≤ ftol) (hfM : ftol ≤ M) {segs : List (Seg K)}
    (hs : ∀ s ∈ segs, (IsDouble s.1.1 ∧ IsDouble s.1.2 ∧ IsDouble s.2.1 ∧ IsDouble s.2.2) ∧
      |s.1.1| ≤ M ∧ |s.1.2| ≤ M ∧ |s.2.1| ≤ M ∧ |s.2.2| ≤ M) {q : K × K}
    (hn : ∀ s ∈ segs, ¬ NearSegment (ftol + M / 2 ^ 49) q s.1 s.2) :
    cPointFl roundDouble fused ftol segs q = cPoint ftol segs q ∧ (cPoint ftol segs q).2 = false := by
  refine C114_far C113_roundDouble.1 C113_roundDouble.2 (by positivity) (by norm_num) fused hf hfM (M := M) (fun s h => ?_) (fun s h => ?_)
  · obtain ⟨⟨h1, h2, h3, h4⟩, h5, h6, h7, h8⟩ := hs s h
    exact ⟨⟨roundDouble_of_isDouble h1, roundDouble_of_isDouble h2, h5, h6⟩, ⟨roundDouble_of_isDouble h3, roundDouble_of_isDouble h4, h7, h8⟩⟩
  · rw [show 16 * (1 / 2 ^ 53) * M = M / 2 ^ 49 by ring]
    exact hn s h

/-- **C114** for doubles and the tolerance `5e-14` of the code, in degrees: points exactly on an edge that is at most two and a half degrees long
are reported everywhere on the globe. -/
theorem C114_degrees (fused : Bool) {segs : List (Seg K)} {s : Seg K} (hm : s ∈ segs) (hs : IsDouble s.1.2 ∧ IsDouble s.2.2)
    (hne : s.1 ≠ s.2) (hlen : |s.2.1 - s.1.1| + |s.2.2 - s.1.2| ≤ 5 / 2) {q : K × K} (hon : OnClosedSegment q s.1 s.2)
    (hx : |q.1| ≤ 180) (hy : |q.2| ≤ 90) : cPointFl roundDouble fused (roundDouble (5 / 10 ^ 14)) segs q = (true, true) := by
  refine C114_on_edge_partial C113_roundDouble.1 roundDouble_one C113_roundDouble.2 (by positivity) (by norm_num) fused hm
    ⟨roundDouble_of_isDouble hs.1, roundDouble_of_isDouble hs.2⟩ hne hon ?_
  have h := (abs_le.1 (C113_roundDouble.2 (5 / 10 ^ 14 : K))).1
  rw [abs_of_pos (by positivity)] at h
  have hb : 3 / 2 * (|q.1| + |q.2|) + 16 * (|s.2.1 - s.1.1| + |s.2.2 - s.1.2|) ≤ 445 := by linarith
  have := mul_le_mul_of_nonneg_left hb (show (0 : K) ≤ 1 / 2 ^ 53 by positivity)
  have e : (1 / 2 ^ 53 * 445 : K) ≤ 5 / 10 ^ 14 - 1 / 2 ^ 53 * (5 / 10 ^ 14) := by norm_num
  linarith

end

/-- A triangle with sides of some hundred units, coordinates with few digits. -/
def flTriangle : List (Seg ℚ) := [((132, 130), (536, 495)), ((536, 495), (9, 563)), ((9, 563), (132, 130))]

theorem flTriangle_isDouble : ∀ s ∈ flTriangle, (IsDouble s.1.1 ∧ IsDouble s.1.2 ∧ IsDouble s.2.1 ∧ IsDouble s.2.2) ∧
    |s.1.1| ≤ 1000 ∧ |s.1.2| ≤ 1000 ∧ |s.2.1| ≤ 1000 ∧ |s.2.2| ≤ 1000 := by
  have key : ∀ n : Int, |n| ≤ 1000 → IsDouble (n : ℚ) ∧ |(n : ℚ)| ≤ 1000 := fun n hn =>
    ⟨⟨n, 0, hn.trans (by norm_num), by simp⟩, by exact_mod_cast hn⟩
  intro s hs
  have k1 := key 132 (by decide)
  have k2 := key 130 (by decide)
  have k3 := key 536 (by decide)
  have k4 := key 495 (by decide)
  have k5 := key 9 (by decide)
  have k6 := key 563 (by decide)
  push_cast at k1 k2 k3 k4 k5 k6
  simp only [flTriangle, List.mem_cons, List.not_mem_nil, or_false] at hs
  rcases hs with rfl | rfl | rfl
  · exact ⟨⟨k1.1, k2.1, k3.1, k4.1⟩, k1.2, k2.2, k3.2, k4.2⟩
  · exact ⟨⟨k3.1, k4.1, k5.1, k6.1⟩, k3.2, k4.2, k5.2, k6.2⟩
  · exact ⟨⟨k5.1, k6.1, k1.1, k2.1⟩, k5.2, k6.2, k1.2, k2.2⟩

/-- A point right of a line `p x + r y = c` with the segment on the other side. -/
theorem not_near_of_line {d : ℚ} {q a b : ℚ × ℚ} (p r c : ℚ) (hp : |p| ≤ 1) (hr : |r| ≤ 1) (ha : p * a.1 + r * a.2 ≤ c)
    (hb : p * b.1 + r * b.2 ≤ c) (hq : c + d < p * q.1 + r * q.2) : ¬ NearSegment d q a b := by
  rintro ⟨z, ⟨t, t0, t1, zx, zy⟩, hd⟩
  have hz : p * z.1 + r * z.2 ≤ c := by
    rw [zx, zy]
    nlinarith [mul_le_mul_of_nonneg_left hb t0, mul_le_mul_of_nonneg_left ha (sub_nonneg.2 t1)]
  have h1 : p * (q.1 - z.1) ≤ |q.1 - z.1| := by
    refine (le_abs_self _).trans ?_
    rw [abs_mul]
    exact mul_le_of_le_one_left (abs_nonneg _) hp
  have h2 : r * (q.2 - z.2) ≤ |q.2 - z.2| := by
    refine (le_abs_self _).trans ?_
    rw [abs_mul]
    exact mul_le_of_le_one_left (abs_nonneg _) hr
  nlinarith

theorem flTriangle_far : ∀ s ∈ flTriangle, ¬ NearSegment (roundDouble (5 / 10 ^ 14) + 1000 / 2 ^ 49) (230, 400) s.1 s.2 := by
  intro s hs
  have hd : roundDouble (5 / 10 ^ 14 : ℚ) + 1000 / 2 ^ 49 < 1 / 10 := by decide +kernel
  simp only [flTriangle, List.mem_cons, List.not_mem_nil, or_false] at hs
  rcases hs with rfl | rfl | rfl
  · exact not_near_of_line (-365 / 404) 1 (130 - 365 / 404 * 132) (by norm_num [abs_le]) (by norm_num) (by norm_num) (by norm_num) (by linarith)
  · exact not_near_of_line (-68 / 527) (-1) (-563 - 68 / 527 * 9) (by norm_num [abs_le]) (by norm_num) (by norm_num) (by norm_num) (by linarith)
  · exact not_near_of_line 1 (123 / 433) (9 + 123 / 433 * 563) (by norm_num) (by norm_num [abs_le]) (by norm_num) (by norm_num) (by linarith)

/-- The hypotheses of `C114_doubles` (and so of `C114_far`) hold at a point well inside. -/
example : cPointFl roundDouble true (roundDouble (5 / 10 ^ 14)) flTriangle (230, 400) = (true, false) := by
  have h := C114_doubles (K := ℚ) true (ftol := roundDouble (5 / 10 ^ 14)) (M := 1000) (segs := flTriangle) (q := (230, 400)) (by decide +kernel)
    (by decide +kernel) flTriangle_isDouble flTriangle_far
  rw [h.1]
  decide +kernel

theorem flTriangle_stored : ∀ s ∈ flTriangle, StoredPoint roundDouble 1000 s.1 ∧ StoredPoint roundDouble 1000 s.2 := by
  intro s hs
  obtain ⟨⟨h1, h2, h3, h4⟩, h5, h6, h7, h8⟩ := flTriangle_isDouble s hs
  exact ⟨⟨roundDouble_of_isDouble h1, roundDouble_of_isDouble h2, h5, h6⟩, ⟨roundDouble_of_isDouble h3, roundDouble_of_isDouble h4, h7, h8⟩⟩

/-- The hypotheses of `C114_region`: the triangle as a region of one triangle. -/
example : Triangulates [((132, 130), (536, 495), (9, 563))] flTriangle ∧
    ((cPointFl roundDouble true (roundDouble (5 / 10 ^ 14)) flTriangle (230, 400)).1 = true ↔
      ∃ t ∈ [(((132, 130), (536, 495), (9, 563)) : (ℚ × ℚ) × (ℚ × ℚ) × (ℚ × ℚ))], InClosedTriangle (230, 400) t.1 t.2.1 t.2.2) := by
  have ht : Triangulates [((132, 130), (536, 495), (9, 563))] flTriangle :=
    triangulates_check [(132, 130), (536, 495), (9, 563)] (by decide +kernel) (by decide +kernel) (by decide +kernel) (by decide +kernel)
      (by decide +kernel)
  refine ⟨ht, (C114_region C113_roundDouble.1 C113_roundDouble.2 (by positivity) (by norm_num) true (ftol := roundDouble (5 / 10 ^ 14)) (M := 1000)
    (by decide +kernel) (by decide +kernel) ht flTriangle_stored fun s h => ?_).2⟩
  rw [show (16 * (1 / 2 ^ 53) * 1000 : ℚ) = 1000 / 2 ^ 49 by norm_num]
  exact flTriangle_far s h

/-- The hypotheses of `C114_reported`, `C114_vertex` and `C114_order`: a vertex is reported, so it is near an edge; the edges in another order. -/
example : cPointFl roundDouble false 0 flTriangle (9, 563) = (true, true) ∧
    (∃ s ∈ flTriangle, NearSegment (0 + 16 * (1 / 2 ^ 53) * 1000) (9, 563) s.1 s.2) ∧
    cPointFl roundDouble false 0 flTriangle.reverse (9, 563) = (true, true) := by
  have hv : cPointFl roundDouble false 0 flTriangle (9, 563) = (true, true) :=
    C114_vertex (K := ℚ) (s := ((9, 563), (132, 130))) (M := 1000) C113_roundDouble.1 C113_roundDouble.2 (by positivity) (by norm_num) false (le_refl 0)
      (by decide) (flTriangle_stored _ (by decide)).1 (flTriangle_stored _ (by decide)).2 (by decide)
  exact ⟨hv, C114_reported C113_roundDouble.2 (by positivity) (by norm_num) false (by norm_num) flTriangle_stored (by rw [hv]),
    (C114_order roundDouble false 0 (List.reverse_perm flTriangle) _).trans hv⟩

/-- **C114** fails near the edges: a point inside, farther than the tolerance from all edges, is called outside. -/
theorem C114_wrong_side : cPoint (roundDouble (5 / 10 ^ 14)) flTriangle (7652600929320959 / 17592186044416, 1615 / 4) = (true, false) ∧
    cPointFl roundDouble false (roundDouble (5 / 10 ^ 14)) flTriangle (7652600929320959 / 17592186044416, 1615 / 4) = (false, false) := by
  decide +kernel

/-- A triangle of longitudes and latitudes with long edges. -/
def degTriangle : List (Seg ℚ) :=
  [((92327131 / 524288, 5265347 / 524288), (-92942685 / 524288, 1615319 / 32768)),
    ((-92942685 / 524288, 1615319 / 32768), (-54808149 / 1048576, 19168365 / 1048576)),
    ((-54808149 / 1048576, 19168365 / 1048576), (92327131 / 524288, 5265347 / 524288))]

/-- **C114** fails for long edges: a point exactly on an edge (three quarters of the way) is neither boundary nor inside. -/
theorem C114_on_edge_missed :
    OnClosedSegment (-46625231 / 524288, 82800659 / 2097152) ((92327131 / 524288, 5265347 / 524288) : ℚ × ℚ) (-92942685 / 524288, 1615319 / 32768) ∧
      cPoint (roundDouble (5 / 10 ^ 14)) degTriangle (-46625231 / 524288, 82800659 / 2097152) = (true, true) ∧
      cPointFl roundDouble false (roundDouble (5 / 10 ^ 14)) degTriangle (-46625231 / 524288, 82800659 / 2097152) = (false, false) := by
  refine ⟨⟨3 / 4, by norm_num, by norm_num, by norm_num, by norm_num⟩, by decide +kernel, by decide +kernel⟩

/-- The hypotheses of `C114_degrees` (and so of `C114_on_edge_partial`) hold for a point on a short edge. -/
example : cPointFl roundDouble false (roundDouble (5 / 10 ^ 14)) [(((-170, 60) : ℚ × ℚ), (-169, 61)), ((-169, 61), (-170, 61)), ((-170, 61), (-170, 60))]
    (-170 + 1 / 4, 60 + 1 / 4) = (true, true) :=
  C114_degrees false (s := ((-170, 60), (-169, 61))) (by simp)
    ⟨⟨60, 0, by norm_num, by norm_num⟩, ⟨61, 0, by norm_num, by norm_num⟩⟩ (by decide) (by norm_num [abs_le]) ⟨1 / 4, by norm_num, by norm_num, by norm_num, by norm_num⟩
    (by norm_num [abs_le]) (by norm_num [abs_le])

end OM
