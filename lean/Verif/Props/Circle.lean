import Verif.Model.Circle
import Verif.Props.InpolyRegion
import Mathlib.Analysis.Real.Pi.Bounds
import Mathlib.Analysis.SpecialFunctions.Trigonometric.Bounds
/-!
# C106, C107: circles of `create_circle` and lengths of polygons
-/
set_option linter.unusedSectionVars false
namespace OM.Spec

/-- The point of the circle at the angle `t`. -/
noncomputable def onCircle (center : ℝ × ℝ) (radius t : ℝ) : ℝ × ℝ := (radius * Real.cos t + center.1, radius * Real.sin t + center.2)

/-- The squared distance of two points. -/
def sqDistance (p q : ℝ × ℝ) : ℝ := (p.1 - q.1) ^ 2 + (p.2 - q.2) ^ 2

/-- The sum of the lengths of the edges. -/
noncomputable def edgeSum (es : List ((ℝ × ℝ) × (ℝ × ℝ))) : ℝ := (es.map fun e => Real.sqrt (sqDistance e.2 e.1)).sum

end OM.Spec
namespace OM
open Spec

theorem circleLoop_eq (center : ℝ × ℝ) (radius : ℝ) : ∀ (m n k : Nat), m + k = 63 → m ≤ n →
    circleLoop center radius n ((k : ℝ) / 10) = (List.range' k m).map fun (i : Nat) => onCircle center radius ((i : ℝ) / 10)
  | 0, n, k, hk, _ => by
    obtain rfl : k = 63 := by omega
    cases n with
    | zero => rfl
    | succ n =>
      have := Real.pi_lt_d2
      rw [circleLoop, if_neg (by norm_num; linarith)]
      rfl
  | m + 1, n, k, hk, hn => by
    obtain ⟨n, rfl⟩ : ∃ n' : Nat, n = n' + 1 := ⟨n - 1, by omega⟩
    have h1 : (k : ℝ) ≤ 62 := by exact_mod_cast (by omega : k ≤ 62)
    have := Real.pi_gt_d2
    rw [circleLoop, if_pos (by linarith), List.range'_succ, List.map_cons]
    have h2 : (k : ℝ) / 10 + 1 / 10 = ((k + 1 : Nat) : ℝ) / 10 := by push_cast; ring
    rw [h2, circleLoop_eq center radius m n (k + 1) (by omega) (by omega)]
    rfl

/-- **C106**: the loop ends after 63 rounds, however many are allowed. -/
theorem C106_rounds (center : ℝ × ℝ) (radius : ℝ) {n : Nat} (hn : 63 ≤ n) : circleLoop center radius n 0 = createCircle center radius := by
  have h := circleLoop_eq center radius 63 n 0 (by omega) hn
  have h' := circleLoop_eq center radius 63 100 0 (by omega) (by omega)
  simp only [Nat.cast_zero, zero_div] at h h'
  rw [createCircle, h, h']

/-- **C106**: the points are those at the angles `0, 0.1, …, 6.2`. -/
theorem C106_points (center : ℝ × ℝ) (radius : ℝ) :
    createCircle center radius = (List.range 63).map fun (i : Nat) => onCircle center radius ((i : ℝ) / 10) := by
  have h' := circleLoop_eq center radius 63 100 0 (by omega) (by omega)
  simp only [Nat.cast_zero, zero_div] at h'
  rw [createCircle, h', List.range_eq_range']

theorem sq_on_circle (center : ℝ × ℝ) (radius t : ℝ) : sqDistance (onCircle center radius t) center = radius ^ 2 := by
  have := Real.sin_sq_add_cos_sq t
  simp only [sqDistance, onCircle, add_sub_cancel_right]
  linear_combination radius ^ 2 * this

/-- **C106**: all 63 points are at the radius. -/
theorem C106_radius (center : ℝ × ℝ) (radius : ℝ) : (createCircle center radius).length = 63 ∧
    ∀ p ∈ createCircle center radius, sqDistance p center = radius ^ 2 := by
  rw [C106_points]
  refine ⟨by simp, fun p hp => ?_⟩
  obtain ⟨i, _, rfl⟩ := List.mem_map.1 hp
  exact sq_on_circle _ _ _

/-- The chord between two angles. -/
theorem sq_chord (center : ℝ × ℝ) (radius m h : ℝ) :
    sqDistance (onCircle center radius (m + h)) (onCircle center radius (m - h)) = (2 * radius * Real.sin h) ^ 2 := by
  have := Real.sin_sq_add_cos_sq m
  simp only [sqDistance, onCircle, Real.cos_add, Real.sin_add, Real.cos_sub, Real.sin_sub]
  linear_combination 4 * radius ^ 2 * Real.sin h ^ 2 * this

/-- A point of the plane seen from an edge of the circle. -/
theorem turn_chord (center : ℝ × ℝ) (radius m h : ℝ) (q : ℝ × ℝ) :
    turnOf (onCircle center radius (m - h)) (onCircle center radius (m + h)) q =
      2 * radius * Real.sin h * (radius * Real.cos h - ((q.1 - center.1) * Real.cos m + (q.2 - center.2) * Real.sin m)) := by
  have := Real.sin_sq_add_cos_sq m
  simp only [turnOf, onCircle, Real.cos_add, Real.sin_add, Real.cos_sub, Real.sin_sub]
  linear_combination 2 * radius ^ 2 * Real.sin h * Real.cos h * this

/-- Three points of the circle. -/
theorem turn_circle (center : ℝ × ℝ) (radius s a b : ℝ) :
    turnOf (onCircle center radius s) (onCircle center radius (s + 2 * a)) (onCircle center radius (s + 2 * a + 2 * b)) =
      4 * radius ^ 2 * (Real.sin a * Real.sin b * Real.sin (a + b)) := by
  have h1 := Real.sin_sq_add_cos_sq a
  have h2 := Real.sin_sq_add_cos_sq b
  have h3 : turnOf (onCircle center radius s) (onCircle center radius (s + 2 * a)) (onCircle center radius (s + 2 * a + 2 * b)) =
      radius ^ 2 * (Real.sin (s + 2 * a - s) + Real.sin (s + 2 * a + 2 * b - (s + 2 * a)) - Real.sin (s + 2 * a + 2 * b - s)) := by
    generalize s + 2 * a + 2 * b = u
    generalize s + 2 * a = t
    simp only [turnOf, onCircle, Real.sin_sub]
    ring
  have e1 : s + 2 * a - s = 2 * a := by ring
  have e2 : s + 2 * a + 2 * b - (s + 2 * a) = 2 * b := by ring
  have e3 : s + 2 * a + 2 * b - s = 2 * (a + b) := by ring
  rw [h3, e1, e2, e3]
  simp only [Real.sin_two_mul, Real.sin_add, Real.cos_add]
  linear_combination -(2 * radius ^ 2 * Real.sin a * Real.cos a) * h2 - (2 * radius ^ 2 * Real.sin b * Real.cos b) * h1

theorem mem_edgesBackTo_range (f : Nat → ℝ × ℝ) (z : ℝ × ℝ) (e : (ℝ × ℝ) × (ℝ × ℝ)) : ∀ (n k : Nat),
    e ∈ edgesBackTo z ((List.range' k (n + 1)).map f) ↔ (∃ i : Nat, k ≤ i ∧ i < k + n ∧ e = (f i, f (i + 1))) ∨ e = (f (k + n), z)
  | 0, k => by
    simp only [zero_add, List.range'_one, List.map_cons, List.map_nil, edgesBackTo, List.mem_singleton, Nat.add_zero]
    constructor
    · exact .inr
    · rintro (⟨i, h1, h2, _⟩ | h)
      · omega
      · exact h
  | n + 1, k => by
    have h := mem_edgesBackTo_range f z e n (k + 1)
    rw [List.range'_succ, List.map_cons] at h ⊢
    rw [List.range'_succ, List.map_cons, edgesBackTo, List.mem_cons, h]
    constructor
    · rintro (rfl | ⟨i, h1, h2, rfl⟩ | rfl)
      · exact .inl ⟨k, le_refl _, by omega, rfl⟩
      · exact .inl ⟨i, by omega, by omega, rfl⟩
      · exact .inr (by rw [show k + 1 + n = k + (n + 1) by omega])
    · rintro (⟨i, h1, h2, rfl⟩ | rfl)
      · by_cases h3 : i = k
        · exact .inl (by rw [h3])
        · exact .inr (.inl ⟨i, by omega, by omega, rfl⟩)
      · exact .inr (.inr (by rw [show k + 1 + n = k + (n + 1) by omega]))

theorem convexRing_range (f : Nat → ℝ × ℝ) (N : Nat) (h : ∀ i j l : Nat, i < j → j < l → l < N → 0 < turnOf (f i) (f j) (f l)) : ∀ (m k : Nat),
    k + m = N → ConvexRing ((List.range' k m).map f)
  | 0, _, _ => trivial
  | m + 1, k, hk => by
    rw [List.range'_succ, List.map_cons]
    refine ⟨?_, convexRing_range f N h m (k + 1) (by omega)⟩
    rw [List.pairwise_map]
    refine (List.pairwise_lt_range' (s := k + 1) (n := m)).imp_of_mem fun {i j} hi hj hij => ?_
    simp only [List.mem_range'_1] at hi hj
    exact h k i j (by omega) hij (by omega)

/-- **C106**: for a positive radius the points are the corners of a convex polygon, listed counterclockwise. -/
theorem C106_convex (center : ℝ × ℝ) {radius : ℝ} (hr : 0 < radius) : ConvexRing (createCircle center radius) := by
  rw [C106_points, List.range_eq_range']
  refine convexRing_range _ 63 (fun i j l hij hjl hl => ?_) 63 0 rfl
  have h1 : (i : ℝ) + 1 ≤ j := by exact_mod_cast hij
  have h2 : (j : ℝ) + 1 ≤ l := by exact_mod_cast hjl
  have h3 : (l : ℝ) ≤ 62 := by exact_mod_cast (by omega : l ≤ 62)
  have h4 : (0 : ℝ) ≤ i := Nat.cast_nonneg i
  have hp := Real.pi_gt_d2
  have h := turn_circle center radius ((i : ℝ) / 10) (((j : ℝ) - i) / 20) (((l : ℝ) - j) / 20)
  rw [show (i : ℝ) / 10 + 2 * (((j : ℝ) - i) / 20) = (j : ℝ) / 10 by ring, show (j : ℝ) / 10 + 2 * (((l : ℝ) - j) / 20) = (l : ℝ) / 10 by ring] at h
  rw [h]
  have s1 := Real.sin_pos_of_pos_of_lt_pi (x := ((j : ℝ) - i) / 20) (by linarith) (by linarith)
  have s2 := Real.sin_pos_of_pos_of_lt_pi (x := ((l : ℝ) - j) / 20) (by linarith) (by linarith)
  have s3 := Real.sin_pos_of_pos_of_lt_pi (x := ((j : ℝ) - i) / 20 + ((l : ℝ) - j) / 20) (by linarith) (by linarith)
  positivity

/-- The edges of the circle as chords: half angle `0.05`, and one shorter chord. -/
theorem circle_edges (center : ℝ × ℝ) (radius : ℝ) (e : (ℝ × ℝ) × (ℝ × ℝ)) : e ∈ ringEdges (createCircle center radius) ↔
    (∃ i : Nat, i < 62 ∧ e = (onCircle center radius ((2 * (i : ℝ) + 1) / 20 - 1 / 20), onCircle center radius ((2 * (i : ℝ) + 1) / 20 + 1 / 20))) ∨
      e = (onCircle center radius (Real.pi + 31 / 10 - (Real.pi - 31 / 10)), onCircle center radius (Real.pi + 31 / 10 + (Real.pi - 31 / 10))) := by
  have h0 : ringEdges (createCircle center radius) =
      edgesBackTo (onCircle center radius 0) ((List.range' 0 (62 + 1)).map fun (i : Nat) => onCircle center radius ((i : ℝ) / 10)) := by
    rw [C106_points, List.range_eq_range', List.range'_succ, List.map_cons]
    simp only [ringEdges, Nat.cast_zero, zero_div]
  have e1 : Real.pi + 31 / 10 - (Real.pi - 31 / 10) = 62 / 10 := by ring
  have e2 : onCircle center radius (Real.pi + 31 / 10 + (Real.pi - 31 / 10)) = onCircle center radius 0 := by
    have : Real.pi + 31 / 10 + (Real.pi - 31 / 10) = 2 * Real.pi := by ring
    rw [this]; simp [onCircle]
  rw [h0, mem_edgesBackTo_range, e1, e2]
  have e3 : ∀ i : Nat, (2 * (i : ℝ) + 1) / 20 - 1 / 20 = (i : ℝ) / 10 := fun i => by ring
  have e4 : ∀ i : Nat, (2 * (i : ℝ) + 1) / 20 + 1 / 20 = ((i + 1 : Nat) : ℝ) / 10 := fun i => by push_cast; ring
  simp only [e3, e4, Nat.zero_le, true_and, Nat.zero_add, Nat.cast_ofNat]

/-- **C106**: neighbours are at the distance `2 r sin 0.05`; the ring is not closed, the last point is nearer to the first (at the distance
`2 r sin (π - 3.1)`, about five sixths of the others). -/
theorem C106_spacing (center : ℝ × ℝ) {radius : ℝ} (hr : 0 < radius) :
    (∀ i : Nat, ∀ p q : ℝ × ℝ, (createCircle center radius)[i]? = some p → (createCircle center radius)[i + 1]? = some q →
      sqDistance q p = (2 * radius * Real.sin (1 / 20)) ^ 2) ∧
    (∀ p q : ℝ × ℝ, (createCircle center radius).head? = some p → (createCircle center radius).getLast? = some q →
      sqDistance p q = (2 * radius * Real.sin (Real.pi - 31 / 10)) ^ 2 ∧ 0 < sqDistance p q ∧ sqDistance p q < (2 * radius * Real.sin (1 / 20)) ^ 2) := by
  rw [C106_points]
  refine ⟨fun i p q hp hq => ?_, fun p q hp hq => ?_⟩
  · rw [List.getElem?_map, Option.map_eq_some_iff] at hp hq
    obtain ⟨a, ha, rfl⟩ := hp
    obtain ⟨b, hb, rfl⟩ := hq
    obtain ⟨_, rfl⟩ := List.getElem?_eq_some_iff.1 ha
    obtain ⟨_, rfl⟩ := List.getElem?_eq_some_iff.1 hb
    have := sq_chord center radius ((2 * (i : ℝ) + 1) / 20) (1 / 20)
    rw [← this]
    simp only [List.getElem_range]
    congr 2
    · push_cast; ring
    · ring
  · rw [List.range_eq_range', List.range'_succ, List.map_cons, List.head?_cons] at hp
    rw [List.getLast?_map, List.range_succ, List.getLast?_concat] at hq
    cases hp
    cases hq
    have h := sq_chord center radius (Real.pi + 31 / 10) (Real.pi - 31 / 10)
    have e1 : Real.pi + 31 / 10 - (Real.pi - 31 / 10) = ((62 : Nat) : ℝ) / 10 := by push_cast; ring
    have e2 : onCircle center radius (Real.pi + 31 / 10 + (Real.pi - 31 / 10)) = onCircle center radius (((0 : Nat) : ℝ) / 10) := by
      have : Real.pi + 31 / 10 + (Real.pi - 31 / 10) = 2 * Real.pi := by ring
      rw [this]; simp [onCircle]
    rw [e1, e2] at h
    have hp1 := Real.pi_gt_d2
    have hp2 := Real.pi_lt_d2
    have s1 := Real.sin_pos_of_pos_of_lt_pi (x := Real.pi - 31 / 10) (by linarith) (by linarith)
    have s2 : Real.sin (Real.pi - 31 / 10) < Real.sin (1 / 20) := Real.sin_lt_sin_of_lt_of_le_pi_div_two (by linarith) (by linarith) (by linarith)
    rw [h]
    refine ⟨rfl, by positivity, ?_⟩
    have : 2 * radius * Real.sin (Real.pi - 31 / 10) < 2 * radius * Real.sin (1 / 20) := mul_lt_mul_of_pos_left s2 (by linarith)
    exact pow_lt_pow_left₀ this (by positivity) (by norm_num)

theorem left_of_chord {center q : ℝ × ℝ} {radius m h : ℝ} (hr : 0 < radius) (h0 : 0 < h) (h1 : h ≤ 1 / 20)
    (hq : sqDistance q center ≤ (radius * Real.cos (1 / 20)) ^ 2) : 0 ≤ turnOf (onCircle center radius (m - h)) (onCircle center radius (m + h)) q := by
  have hp := Real.pi_gt_d2
  have s1 := Real.sin_pos_of_pos_of_lt_pi h0 (by linarith)
  have c1 : Real.cos (1 / 20) ≤ Real.cos h := Real.cos_le_cos_of_nonneg_of_le_pi h0.le (by linarith) h1
  have c2 : 0 < Real.cos (1 / 20) := Real.cos_pos_of_mem_Ioo ⟨by linarith, by linarith⟩
  rw [turn_chord]
  have hcs : (q.1 - center.1) * Real.cos m + (q.2 - center.2) * Real.sin m ≤ radius * Real.cos (1 / 20) := by
    refine abs_le_of_sq_le_sq' ?_ (by positivity) |>.2
    refine le_trans ?_ hq
    have := Real.sin_sq_add_cos_sq m
    have h2 := sq_nonneg ((q.1 - center.1) * Real.sin m - (q.2 - center.2) * Real.cos m)
    have h3 : sqDistance q center = ((q.1 - center.1) * Real.cos m + (q.2 - center.2) * Real.sin m) ^ 2 +
        ((q.1 - center.1) * Real.sin m - (q.2 - center.2) * Real.cos m) ^ 2 := by
      simp only [sqDistance]
      linear_combination -((q.1 - center.1) ^ 2 + (q.2 - center.2) ^ 2) * this
    rw [h3]; linarith
  have : radius * Real.cos (1 / 20) ≤ radius * Real.cos h := mul_le_mul_of_nonneg_left c1 hr.le
  exact mul_nonneg (by positivity) (by linarith)

theorem left_of_chord_strict {center q : ℝ × ℝ} {radius m h : ℝ} (hr : 0 < radius) (h0 : 0 < h) (h1 : h ≤ 1 / 20)
    (hq : sqDistance q center < (radius * Real.cos (1 / 20)) ^ 2) : 0 < turnOf (onCircle center radius (m - h)) (onCircle center radius (m + h)) q := by
  have hp := Real.pi_gt_d2
  have s1 := Real.sin_pos_of_pos_of_lt_pi h0 (by linarith)
  have c1 : Real.cos (1 / 20) ≤ Real.cos h := Real.cos_le_cos_of_nonneg_of_le_pi h0.le (by linarith) h1
  have c2 : 0 < Real.cos (1 / 20) := Real.cos_pos_of_mem_Ioo ⟨by linarith, by linarith⟩
  rw [turn_chord]
  have hcs : (q.1 - center.1) * Real.cos m + (q.2 - center.2) * Real.sin m < radius * Real.cos (1 / 20) := by
    refine abs_lt_of_sq_lt_sq' ?_ (by positivity) |>.2
    refine lt_of_le_of_lt ?_ hq
    have := Real.sin_sq_add_cos_sq m
    have h2 := sq_nonneg ((q.1 - center.1) * Real.sin m - (q.2 - center.2) * Real.cos m)
    have h3 : sqDistance q center = ((q.1 - center.1) * Real.cos m + (q.2 - center.2) * Real.sin m) ^ 2 +
        ((q.1 - center.1) * Real.sin m - (q.2 - center.2) * Real.cos m) ^ 2 := by
      simp only [sqDistance]
      linear_combination -((q.1 - center.1) ^ 2 + (q.2 - center.2) ^ 2) * this
    rw [h3]; linarith
  have : radius * Real.cos (1 / 20) ≤ radius * Real.cos h := mul_le_mul_of_nonneg_left c1 hr.le
  exact mul_pos (by positivity) (by linarith)

/-- **C106**: used as a polygon in the compiled inside test, points up to `r cos 0.05` from the centre are inside (if not reported on the boundary). -/
theorem C106_inside {center q : ℝ × ℝ} {radius ftol : ℝ} (hr : 0 < radius) (hf : 0 ≤ ftol) {segs : List (Seg ℝ)}
    (hs : SameEdges (ringEdges (createCircle center radius)) segs) (hb : (cPoint ftol segs q).2 = false)
    (hq : sqDistance q center ≤ (radius * Real.cos (1 / 20)) ^ 2) : (cPoint ftol segs q).1 = true := by
  rw [C101_convex hf (C106_convex center hr) (by rw [(C106_radius center radius).1]; norm_num) hs hb]
  intro e he
  have hp1 := Real.pi_gt_d2
  have hp2 := Real.pi_lt_d2
  rcases (circle_edges center radius e).1 he with ⟨i, _, rfl⟩ | rfl
  · exact left_of_chord hr (by norm_num) (le_refl _) hq
  · exact left_of_chord hr (by linarith) (by linarith) hq

theorem triangle_in_disc {center q a b c : ℝ × ℝ} {R : ℝ} (ha : sqDistance a center = R) (hb : sqDistance b center = R) (hc : sqDistance c center = R)
    (h : InClosedTriangle q a b c) : sqDistance q center ≤ R := by
  obtain ⟨u, v, w, hu, hv, hw, h1, hx, hy⟩ := h
  have key : R - sqDistance q center = u * v * sqDistance a b + v * w * sqDistance b c + u * w * sqDistance a c := by
    have hw' : w = 1 - u - v := by linarith
    have : R = u * sqDistance a center + v * sqDistance b center + w * sqDistance c center := by rw [ha, hb, hc, hw']; ring
    rw [this]
    simp only [sqDistance, hx, hy, hw']
    ring
  have nn : ∀ p q : ℝ × ℝ, 0 ≤ sqDistance p q := fun p q => by unfold sqDistance; positivity
  have := mul_nonneg (mul_nonneg hu hv) (nn a b)
  have := mul_nonneg (mul_nonneg hv hw) (nn b c)
  have := mul_nonneg (mul_nonneg hu hw) (nn a c)
  linarith

/-- **C106**: and points farther than the radius are not. -/
theorem C106_outside {center q : ℝ × ℝ} {radius ftol : ℝ} (hr : 0 < radius) (hf : 0 ≤ ftol) {segs : List (Seg ℝ)}
    (hs : SameEdges (ringEdges (createCircle center radius)) segs) (hb : (cPoint ftol segs q).2 = false)
    (hq : radius ^ 2 < sqDistance q center) : (cPoint ftol segs q).1 = false := by
  rw [Bool.eq_false_iff]
  intro hin
  rw [C101_convex hf (C106_convex center hr) (by rw [(C106_radius center radius).1]; norm_num) hs hb] at hin
  have hc := C106_convex center hr
  have hR := (C106_radius center radius).2
  have hl := (C106_radius center radius).1
  revert hin hc hR hl
  generalize createCircle center radius = ring
  intro hin hc hR hl
  match ring, hl with
  | a :: b :: c :: l, _ =>
    obtain ⟨t, ht, h⟩ := (convex_region hc q).2 hin
    obtain ⟨e1, m1, m2⟩ := mem_fan ht
    have := triangle_in_disc (hR t.1 (by rw [e1]; simp)) (hR _ (List.mem_cons_of_mem _ m1)) (hR _ (List.mem_cons_of_mem _ m2)) h
    linarith

/-- **C106**: with tolerance zero nothing has to be assumed: nearer than `r cos 0.05` is inside, farther than `r` is outside, neither is on the boundary. -/
theorem C106_exact {center q : ℝ × ℝ} {radius : ℝ} (hr : 0 < radius) :
    (sqDistance q center < (radius * Real.cos (1 / 20)) ^ 2 → cPoint 0 (ringEdges (createCircle center radius)) q = (true, false)) ∧
    (radius ^ 2 < sqDistance q center → cPoint 0 (ringEdges (createCircle center radius)) q = (false, false)) := by
  have hp1 := Real.pi_gt_d2
  have hp2 := Real.pi_lt_d2
  have hs : SameEdges (ringEdges (createCircle center radius)) (ringEdges (createCircle center radius)) :=
    ⟨_, List.Perm.refl _, List.forall₂_same.2 fun _ _ => .inl rfl⟩
  constructor
  · intro hq
    have hb : (cPoint 0 (ringEdges (createCircle center radius)) q).2 = false := by
      rw [Bool.eq_false_iff]
      intro hb
      obtain ⟨e, he, _, t, _, _, hx, hy⟩ := ((C51_boundary_exact (le_refl 3) _ q).2).1 hb
      have h0 : turnOf e.1 e.2 q = 0 := by simp only [turnOf, hx, hy]; ring
      rcases (circle_edges center radius e).1 he with ⟨i, _, rfl⟩ | rfl
      · exact (left_of_chord_strict hr (by norm_num) (le_refl _) hq).ne' h0
      · exact (left_of_chord_strict hr (by linarith) (by linarith) hq).ne' h0
    exact Prod.ext (C106_inside hr (le_refl 0) hs hb hq.le) hb
  · intro hq
    have hb : (cPoint 0 (ringEdges (createCircle center radius)) q).2 = false := by
      rw [Bool.eq_false_iff]
      intro hb
      obtain ⟨e, he, _, t, t0, t1, hx, hy⟩ := ((C51_boundary_exact (le_refl 3) _ q).2).1 hb
      have hin : InClosedTriangle q e.1 e.2 e.2 := ⟨1 - t, t, 0, by linarith, t0, le_refl 0, by ring, by rw [hx]; ring, by rw [hy]; ring⟩
      have := triangle_in_disc (R := radius ^ 2) (center := center) ?_ ?_ ?_ hin
      · linarith
      all_goals rcases (circle_edges center radius e).1 he with ⟨i, _, rfl⟩ | rfl <;> exact sq_on_circle _ _ _
    exact Prod.ext (C106_outside hr (le_refl 0) hs hb hq) hb

theorem pathLength_back (z : ℝ × ℝ) : ∀ l : List (ℝ × ℝ), l ≠ [] → pathLength (l ++ [z]) = edgeSum (edgesBackTo z l)
  | [], h => absurd rfl h
  | [a], _ => by simp [pathLength, edgesBackTo, edgeSum, sqDistance]
  | a :: b :: l, _ => by
    have h := pathLength_back z (b :: l) (by simp)
    rw [List.cons_append, List.cons_append, pathLength, ← List.cons_append, h]
    simp [edgesBackTo, edgeSum, sqDistance]

theorem pathLength_concat (y z : ℝ × ℝ) : ∀ l : List (ℝ × ℝ), pathLength (l ++ [y] ++ [z]) = pathLength (l ++ [y]) + Real.sqrt (sqDistance z y)
  | [] => by simp [pathLength, sqDistance]
  | [a] => by simp [pathLength, sqDistance, add_assoc]
  | a :: b :: l => by
    have h := pathLength_concat y z (b :: l)
    simp only [List.cons_append, pathLength] at h ⊢
    rw [h]; ring

/-- **C107**: the length of a polygon given without its first point repeated is the sum of all its edges, the closing one included. -/
theorem C107_open {a z : ℝ × ℝ} {l : List (ℝ × ℝ)} (h : (a :: l).getLast? = some z) (hne : ¬ (isCloseTo a.1 z.1 ∧ isCloseTo a.2 z.2)) :
    polyLength (a :: l) = some (edgeSum (ringEdges (a :: l))) := by
  rw [polyLength, List.head?_cons, h]
  simp only [if_neg hne, ringEdges]
  rw [pathLength_back a (a :: l) (by simp)]

/-- **C107**: repeating the first point does not change it. -/
theorem C107_closed (a : ℝ × ℝ) (l : List (ℝ × ℝ)) : polyLength (a :: l ++ [a]) = some (edgeSum (ringEdges (a :: l))) := by
  have h1 : (a :: l ++ [a]).head? = some a := rfl
  have h2 : (a :: l ++ [a]).getLast? = some a := List.getLast?_concat
  have h3 : isCloseTo a.1 a.1 ∧ isCloseTo a.2 a.2 := by
    simp only [isCloseTo, sub_self, abs_zero, decide_eq_true_eq]
    constructor <;> positivity
  rw [polyLength, h1, h2]
  simp only [if_pos h3, ringEdges]
  rw [pathLength_back a (a :: l) (by simp)]

/-- **C107**: in general the length lacks the closing edge if the end points are close for `np.isclose`: at most `√2 (10⁻⁸ + 10⁻⁵ M)` for coordinates
of size at most `M` (with degrees about 0.0026, or 280 m). -/
theorem C107_bounds {a z : ℝ × ℝ} {l : List (ℝ × ℝ)} (h : (a :: l).getLast? = some z) {M : ℝ} (h1 : |z.1| ≤ M) (h2 : |z.2| ≤ M) :
    ∃ L : ℝ, polyLength (a :: l) = some L ∧ L ≤ edgeSum (ringEdges (a :: l)) ∧
      edgeSum (ringEdges (a :: l)) ≤ L + Real.sqrt 2 * (1 / 10 ^ 8 + 1 / 10 ^ 5 * M) := by
  have hM : 0 ≤ M := le_trans (abs_nonneg _) h1
  by_cases hc : isCloseTo a.1 z.1 ∧ isCloseTo a.2 z.2
  · refine ⟨pathLength (a :: l), ?_, ?_⟩
    · rw [polyLength, List.head?_cons, h]
      simp only [if_pos hc]
    · obtain ⟨l', hl'⟩ := List.getLast?_eq_some_iff.1 h
      have e := pathLength_back a (a :: l) (by simp)
      rw [show ringEdges (a :: l) = edgesBackTo a (a :: l) from rfl, ← e, hl', pathLength_concat]
      refine ⟨by linarith [Real.sqrt_nonneg (sqDistance a z)], ?_⟩
      have k1 : |a.1 - z.1| ≤ 1 / 10 ^ 8 + 1 / 10 ^ 5 * M := by
        have := of_decide_eq_true hc.1
        linarith
      have k2 : |a.2 - z.2| ≤ 1 / 10 ^ 8 + 1 / 10 ^ 5 * M := by
        have := of_decide_eq_true hc.2
        linarith
      have : Real.sqrt (sqDistance a z) ≤ Real.sqrt 2 * (1 / 10 ^ 8 + 1 / 10 ^ 5 * M) := by
        refine Real.sqrt_le_iff.2 ⟨by positivity, ?_⟩
        rw [mul_pow, Real.sq_sqrt (by norm_num)]
        have := sq_le_sq' (by linarith [abs_nonneg (a.1 - z.1)]) k1
        have := sq_le_sq' (by linarith [abs_nonneg (a.2 - z.2)]) k2
        rw [sq_abs] at *
        simp only [sqDistance]
        linarith
      linarith
  · refine ⟨_, C107_open h hc, le_refl _, ?_⟩
    have : 0 ≤ Real.sqrt 2 * (1 / 10 ^ 8 + 1 / 10 ^ 5 * M) := by positivity
    linarith

/-- **C107**: there is an answer exactly if there is a point (an array without rows raises `IndexError`). -/
theorem C107_returns_iff (l : List (ℝ × ℝ)) : (∃ L, polyLength l = some L) ↔ l ≠ [] := by
  cases l with
  | nil => simp [polyLength]
  | cons a l =>
    obtain ⟨z, hz⟩ : ∃ z, (a :: l).getLast? = some z := ⟨_, List.getLast?_eq_some_getLast (by simp)⟩
    rw [polyLength, List.head?_cons, hz]
    simp

/-- **C107** exactly: what is missing is the closing edge, and it is missing if and only if its two coordinate differences are at most `10⁻⁸ + 10⁻⁵` times
the size of the coordinate of the last point. -/
theorem C107_exact {a z : ℝ × ℝ} {l : List (ℝ × ℝ)} (h : (a :: l).getLast? = some z) : polyLength (a :: l) = some (edgeSum (ringEdges (a :: l)) -
    if |a.1 - z.1| ≤ 1 / 100000000 + |z.1| / 100000 ∧ |a.2 - z.2| ≤ 1 / 100000000 + |z.2| / 100000 then Real.sqrt (sqDistance a z) else 0) := by
  have e1 : ∀ x y : ℝ, isCloseTo x y = true ↔ |x - y| ≤ 1 / 100000000 + |y| / 100000 := by
    intro x y
    simp only [isCloseTo, decide_eq_true_eq]
    have : (1 : ℝ) / 10 ^ 8 + 1 / 10 ^ 5 * |y| = 1 / 100000000 + |y| / 100000 := by ring
    rw [this]
  by_cases hc : isCloseTo a.1 z.1 ∧ isCloseTo a.2 z.2
  · rw [if_pos ⟨(e1 _ _).1 hc.1, (e1 _ _).1 hc.2⟩, polyLength, List.head?_cons, h]
    simp only [if_pos hc]
    obtain ⟨l', hl'⟩ := List.getLast?_eq_some_iff.1 h
    have e := pathLength_back a (a :: l) (by simp)
    rw [show ringEdges (a :: l) = edgesBackTo a (a :: l) from rfl, ← e, hl', pathLength_concat]
    ring_nf
  · rw [if_neg (fun k => hc ⟨(e1 _ _).2 k.1, (e1 _ _).2 k.2⟩), sub_zero]
    exact C107_open h hc

/-- **C107**: near the origin the absolute part decides. -/
example : polyLength [((0 : ℝ), 0), (1, 0), (1 / 1000000000, 0)] = some (edgeSum (ringEdges [((0 : ℝ), 0), (1, 0), (1 / 1000000000, 0)]) - 1 / 1000000000) := by
  rw [C107_exact (z := (1 / 1000000000, 0)) rfl, if_pos (by norm_num [abs_of_pos])]
  have : Real.sqrt (sqDistance ((0 : ℝ), 0) (1 / 1000000000, 0)) = 1 / 1000000000 := by
    rw [show sqDistance ((0 : ℝ), (0 : ℝ)) (1 / 1000000000, 0) = (1 / 1000000000) ^ 2 by simp only [sqDistance]; norm_num]
    exact Real.sqrt_sq (by norm_num)
  rw [this]

/-- A square with sides of `0.0005` degrees (about 50 m), its first point not repeated. -/
noncomputable def smallSquare : List (ℝ × ℝ) := [(100, 60), (100 + 1 / 2000, 60), (100 + 1 / 2000, 60 + 1 / 2000), (100, 60 + 1 / 2000)]

/-- **C107** fails for small polygons far from the origin: only three of the four sides of `smallSquare` are added. -/
theorem C107_small : polyLength smallSquare = some (3 / 2000) ∧ edgeSum (ringEdges smallSquare) = 4 / 2000 := by
  have h : Real.sqrt ((1 / 2000 : ℝ) ^ 2) = 1 / 2000 := Real.sqrt_sq (by norm_num)
  constructor
  · have hc : isCloseTo (100 : ℝ) 100 ∧ isCloseTo (60 : ℝ) (60 + 1 / 2000) := by
      constructor
      · simp only [isCloseTo, decide_eq_true_eq]; norm_num
      · simp only [isCloseTo, decide_eq_true_eq]
        rw [abs_of_neg (by norm_num), abs_of_pos (by norm_num)]; norm_num
    simp only [polyLength, smallSquare, List.head?_cons, List.getLast?_cons_cons, List.getLast?_singleton, if_pos hc, pathLength]
    have e1 : ((100 : ℝ) + 1 / 2000 - 100) ^ 2 + (60 - 60) ^ 2 = (1 / 2000) ^ 2 := by norm_num
    have e2 : ((100 : ℝ) + 1 / 2000 - (100 + 1 / 2000)) ^ 2 + (60 + 1 / 2000 - 60) ^ 2 = (1 / 2000) ^ 2 := by norm_num
    have e3 : ((100 : ℝ) - (100 + 1 / 2000)) ^ 2 + (60 + 1 / 2000 - (60 + 1 / 2000)) ^ 2 = (1 / 2000) ^ 2 := by norm_num
    rw [e1, e2, e3, h]
    norm_num
  · simp only [smallSquare, ringEdges, edgesBackTo, edgeSum, sqDistance, List.map_cons, List.map_nil, List.sum_cons, List.sum_nil]
    have e1 : ((100 : ℝ) + 1 / 2000 - 100) ^ 2 + (60 - 60) ^ 2 = (1 / 2000) ^ 2 := by norm_num
    have e2 : ((100 : ℝ) + 1 / 2000 - (100 + 1 / 2000)) ^ 2 + (60 + 1 / 2000 - 60) ^ 2 = (1 / 2000) ^ 2 := by norm_num
    have e3 : ((100 : ℝ) - (100 + 1 / 2000)) ^ 2 + (60 + 1 / 2000 - (60 + 1 / 2000)) ^ 2 = (1 / 2000) ^ 2 := by norm_num
    have e4 : ((100 : ℝ) - 100) ^ 2 + (60 - (60 + 1 / 2000)) ^ 2 = (1 / 2000) ^ 2 := by norm_num
    rw [e1, e2, e3, e4, h]
    norm_num

example : cPoint 0 (ringEdges (createCircle (3, 4) 5)) (3, 5) = (true, false) ∧ cPoint 0 (ringEdges (createCircle (3, 4) 5)) (3, 10) = (false, false) := by
  refine ⟨(C106_exact (by norm_num)).1 ?_, (C106_exact (by norm_num)).2 ?_⟩
  · have h := Real.one_sub_sq_div_two_le_cos (x := 1 / 20)
    have : (1 / 2 : ℝ) ≤ Real.cos (1 / 20) := by norm_num at h ⊢; linarith
    have h2 : (5 / 2 : ℝ) ≤ 5 * Real.cos (1 / 20) := by linarith
    have := pow_le_pow_left₀ (by norm_num) h2 2
    refine lt_of_lt_of_le ?_ this
    norm_num [sqDistance]
  · norm_num [sqDistance]

example : polyLength ([(0, 0), (3, 0), (3, 4)] : List (ℝ × ℝ)) = some (3 + (4 + 5)) := by
  rw [C107_open (z := (3, 4)) (by simp)]
  · simp only [ringEdges, edgesBackTo, edgeSum, sqDistance, List.map_cons, List.map_nil, List.sum_cons, List.sum_nil]
    have e1 : ((3 : ℝ) - 0) ^ 2 + (0 - 0) ^ 2 = 3 ^ 2 := by norm_num
    have e2 : ((3 : ℝ) - 3) ^ 2 + (4 - 0) ^ 2 = 4 ^ 2 := by norm_num
    have e3 : ((0 : ℝ) - 3) ^ 2 + (0 - 4) ^ 2 = 5 ^ 2 := by norm_num
    rw [e1, e2, e3, Real.sqrt_sq (by norm_num), Real.sqrt_sq (by norm_num), Real.sqrt_sq (by norm_num)]
    norm_num
  · simp only [isCloseTo, decide_eq_true_eq]
    norm_num

end OM
