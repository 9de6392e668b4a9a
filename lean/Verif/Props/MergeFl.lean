import Verif.Model.MergeFl
import Verif.Lemmas.FixMesh3
import Verif.Lemmas.Orders
import Verif.Props.InpolyFl
import Mathlib.Tactic.Linarith
import Mathlib.Tactic.Positivity
import Mathlib.Tactic.NormNum
/-!
# C118: the merging of vertices in `fix_mesh` in rounded arithmetic
-/
set_option linter.unusedSectionVars false
namespace OM
open Spec

section
variable {K : Type} [Field K] [LinearOrder K] [IsStrictOrderedRing K]

/-- A snapped coordinate is near the coordinate. -/
theorem snapCoordFl_near {rnd : K → K} {rint : K → Int} {u snap x M : K} (hr : RelError rnd u) (h0 : 0 ≤ u) (hu : u ≤ 1 / 2) (hi : IsRounding rint)
    (hs : 0 < snap) (hx : |x| ≤ M) : |(snapCoordFl rnd rint snap x).1 - x| ≤ (1 + u) / 2 * snap + 5 / 2 * u * M := by
  have hM : 0 ≤ M := (abs_nonneg _).trans hx
  unfold snapCoordFl
  simp only
  have e1 := hr (x / snap)
  rw [abs_div, abs_of_pos hs] at e1
  have e2 := hi (rnd (x / snap))
  generalize rnd (x / snap) = y at e1 e2 ⊢
  generalize hn : ((rint y : Int) : K) = n at e2 ⊢
  have e3 := hr (n * snap)
  have e4 : |y * snap - x| ≤ u * M := by
    have : |y * snap - x| = |y - x / snap| * snap := by
      rw [← abs_of_pos hs, ← abs_mul, abs_of_pos hs, sub_mul, div_mul_cancel₀ _ hs.ne']
    rw [this]
    have h := mul_le_mul_of_nonneg_right e1 hs.le
    rw [mul_assoc, div_mul_cancel₀ _ hs.ne'] at h
    exact h.trans (mul_le_mul_of_nonneg_left hx h0)
  have e5 : |n * snap - y * snap| ≤ 1 / 2 * snap := by
    rw [← sub_mul, abs_mul, abs_of_pos hs]
    exact mul_le_mul_of_nonneg_right e2 hs.le
  have e6 : |n * snap - x| ≤ 1 / 2 * snap + u * M := by
    have := abs_add_le (n * snap - y * snap) (y * snap - x)
    rw [sub_add_sub_cancel] at this
    linarith
  have e7 : |n * snap| ≤ 1 / 2 * snap + u * M + M := by
    have := abs_add_le (n * snap - x) x
    rw [sub_add_cancel] at this
    linarith
  have e8 := mul_le_mul_of_nonneg_left e7 h0
  have e9 := abs_add_le (rnd (n * snap) - n * snap) (n * snap - x)
  rw [sub_add_sub_cancel] at e9
  have : u * (u * M) ≤ 1 / 2 * (u * M) := mul_le_mul_of_nonneg_right hu (mul_nonneg h0 hM)
  nlinarith

/-- Rows with the same key are close. -/
theorem close_of_keyFl {rnd : K → K} {rint : K → Int} {u snap M : K} (hr : RelError rnd u) (h0 : 0 ≤ u) (hu : u ≤ 1 / 2) (hi : IsRounding rint)
    (hs : 0 < snap) {q q' : K × K} (hq : |q.1| ≤ M ∧ |q.2| ≤ M) (hq' : |q'.1| ≤ M ∧ |q'.2| ≤ M)
    (h : snapRowFl rnd rint snap q = snapRowFl rnd rint snap q') : Within ((1 + u) * snap + 5 * u * M) q q' := by
  unfold snapRowFl at h
  rw [if_neg hs.ne', if_neg hs.ne'] at h
  have h' := Option.some.inj h
  have h1 := congrArg (fun r => r.1.1) h'
  have h2 := congrArg (fun r => r.2.1) h'
  simp only at h1 h2
  have a1 := snapCoordFl_near hr h0 hu hi hs hq.1
  have a2 := snapCoordFl_near hr h0 hu hi hs hq'.1
  have b1 := snapCoordFl_near hr h0 hu hi hs hq.2
  have b2 := snapCoordFl_near hr h0 hu hi hs hq'.2
  rw [h1] at a1
  rw [h2] at b1
  constructor
  · have := abs_sub_le q.1 (snapCoordFl rnd rint snap q'.1).1 q'.1
    rw [abs_sub_comm q.1 (snapCoordFl rnd rint snap q'.1).1] at this
    linarith
  · have := abs_sub_le q.2 (snapCoordFl rnd rint snap q'.2).1 q'.2
    rw [abs_sub_comm q.2 (snapCoordFl rnd rint snap q'.2).1] at this
    linarith

theorem mergeFl_eq_some {rnd : K → K} {rint : K → Int} {o : RowOrder (Row K)} {p p1 : List (K × K)} {ptol : K} {jx : List Nat}
    (h : mergeFl rnd rint o p ptol = some (p1, jx)) : ∃ snap, snapSizeFl rnd p ptol = some snap ∧
      gather p (uniqueIndex o (p.map (snapRowFl rnd rint snap))) = some p1 ∧ jx = uniqueInverse o (p.map (snapRowFl rnd rint snap)) := by
  unfold mergeFl at h
  split at h
  · simp at h
  · rename_i snap hs
    simp only at h
    split at h
    · rename_i p' hg
      simp only [Option.some.injEq, Prod.mk.injEq] at h
      exact ⟨snap, hs, by rw [hg, h.1], h.2.symm⟩
    · simp at h

/-- The rounded size of the lattice, from the extent of the points. -/
theorem snapSizeFl_bounds {rnd : K → K} {u : K} (hR : Rounding rnd) (hr : RelError rnd u) (h0 : 0 ≤ u) (hu : u < 1) {p : List (K × K)} {ptol e snap : K} (hpt : 0 < ptol)
    (he : IsExtent p e) (h : snapSizeFl rnd p ptol = some snap) : (1 - u) ^ 2 * (e * ptol) ≤ snap ∧ snap ≤ (1 + u) ^ 2 * (e * ptol) := by
  cases p with
  | nil => simp [snapSizeFl] at h
  | cons q r =>
    have hex : snapSize (q :: r) ptol = some (e * ptol) := by
      rw [← snapSize_eq hpt he (snap := max (spread q.1 (r.map Prod.fst)) (spread q.2 (r.map Prod.snd)) * ptol) rfl]; rfl
    have hm : max (spread q.1 (r.map Prod.fst)) (spread q.2 (r.map Prod.snd)) = e := by
      simp only [snapSize, Option.some.injEq] at hex
      exact mul_right_cancel₀ hpt.ne' hex
    simp only [snapSizeFl, Option.some.injEq] at h
    rw [← hR.mono.map_max, hm] at h
    have he0 := extent_nonneg he
    have a := abs_le.1 (hr e)
    rw [abs_of_nonneg he0] at a
    have b0 : 0 ≤ rnd e * ptol := mul_nonneg (by nlinarith) hpt.le
    have b := abs_le.1 (hr (rnd e * ptol))
    rw [abs_of_nonneg b0, h] at b
    have c1 : (1 - u) * (e * ptol) ≤ rnd e * ptol := by nlinarith
    have c2 : rnd e * ptol ≤ (1 + u) * (e * ptol) := by nlinarith
    constructor
    · calc (1 - u) ^ 2 * (e * ptol) = (1 - u) * ((1 - u) * (e * ptol)) := by ring
        _ ≤ (1 - u) * (rnd e * ptol) := mul_le_mul_of_nonneg_left c1 (by linarith)
        _ ≤ snap := by linarith [b.1]
    · calc snap ≤ (1 + u) * (rnd e * ptol) := by linarith [b.2]
        _ ≤ (1 + u) * ((1 + u) * (e * ptol)) := mul_le_mul_of_nonneg_left c2 (by linarith)
        _ = (1 + u) ^ 2 * (e * ptol) := by ring

/-- The merging raises for an empty list of points only. -/
theorem C118_returns_iff (rnd : K → K) (rint : K → Int) (o : RowOrder (Row K)) (p : List (K × K)) (ptol : K) :
    (mergeFl rnd rint o p ptol).isSome = true ↔ p ≠ [] := by
  cases p with
  | nil => simp [mergeFl, snapSizeFl]
  | cons q r =>
    simp only [mergeFl, snapSizeFl]
    obtain ⟨p1, hp1⟩ := merge_isSome (snapRowFl rnd rint _) o (q :: r)
    rw [hp1]
    simp

/-- Vertices are input vertices, every input vertex has a place among them, and identical points have the same place. -/
theorem C118_map {rnd : K → K} {rint : K → Int} {o : RowOrder (Row K)} {p p1 : List (K × K)} {ptol : K} {jx : List Nat}
    (h : mergeFl rnd rint o p ptol = some (p1, jx)) :
    (∀ q ∈ p1, q ∈ p) ∧ jx.length = p.length ∧ (∀ k ∈ jx, k < p1.length) ∧ ∀ i j : Nat, p[i]? = p[j]? → jx[i]? = jx[j]? := by
  obtain ⟨snap, -, hg, rfl⟩ := mergeFl_eq_some h
  refine ⟨gather_subset hg, by simp [uniqueInverse], fun k hk => ?_, fun i j hij => ?_⟩
  · obtain ⟨i, hi⟩ := List.getElem?_of_mem hk
    exact (merge_inverse hg hi).1
  · unfold uniqueInverse
    simp only [List.getElem?_map, hij]

/-- **C118**, partial: every vertex is at most the tolerance away, in each coordinate, from the vertex that replaces it, up to rounding errors of the
coordinates; in particular points farther apart than this are not merged. -/
theorem C118_merged_partial {rnd : K → K} {rint : K → Int} {u M : K} (hR : Rounding rnd) (hr : RelError rnd u) (h0 : 0 ≤ u) (hu : u ≤ 1 / 2)
    (hi : IsRounding rint) {o : RowOrder (Row K)} {p p1 : List (K × K)} {ptol e : K} {jx : List Nat} (hpt : 0 < ptol) (he : IsExtent p e)
    (hM : ∀ q ∈ p, |q.1| ≤ M ∧ |q.2| ≤ M) (h : mergeFl rnd rint o p ptol = some (p1, jx)) {i k : Nat} {q q' : K × K}
    (hq : p[i]? = some q) (hk : jx[i]? = some k) (hq' : p1[k]? = some q') : Within ((1 + u) ^ 3 * (e * ptol) + 5 * u * M) q q' := by
  obtain ⟨snap, hs, hg, rfl⟩ := mergeFl_eq_some h
  have key := (merge_inverse hg hk).2
  rw [hq, hq'] at key
  have hm := List.mem_of_getElem? hq
  have hm' := gather_subset hg q' (List.mem_of_getElem? hq')
  obtain ⟨b1, b2⟩ := snapSizeFl_bounds hR hr h0 (by linarith) hpt he hs
  have he0 := extent_nonneg he
  rcases he0.eq_or_lt with hz | hpos
  · subst hz
    rw [extent_zero he hm hm']
    have hM0 : 0 ≤ M := (abs_nonneg _).trans (hM q' hm').1
    constructor <;> rw [sub_self, abs_zero] <;> positivity
  · have hs0 : 0 < snap := lt_of_lt_of_le (mul_pos (pow_pos (by linarith) 2) (mul_pos hpos hpt)) b1
    obtain ⟨c1, c2⟩ := close_of_keyFl hr h0 hu hi hs0 (hM q hm) (hM q' hm') (by simpa using key.symm)
    have hb : (1 + u) * snap ≤ (1 + u) ^ 3 * (e * ptol) := by
      have := mul_le_mul_of_nonneg_left b2 (by linarith : 0 ≤ 1 + u)
      calc (1 + u) * snap ≤ _ := this
        _ = _ := by ring
    exact ⟨by linarith, by linarith⟩

/-- Two vertices with the same place are close. -/
theorem C118_same_place_partial {rnd : K → K} {rint : K → Int} {u M : K} (hR : Rounding rnd) (hr : RelError rnd u) (h0 : 0 ≤ u) (hu : u ≤ 1 / 2)
    (hi : IsRounding rint) {o : RowOrder (Row K)} {p p1 : List (K × K)} {ptol e : K} {jx : List Nat} (hpt : 0 < ptol) (he : IsExtent p e)
    (hM : ∀ q ∈ p, |q.1| ≤ M ∧ |q.2| ≤ M) (h : mergeFl rnd rint o p ptol = some (p1, jx)) {i j : Nat} {q q' : K × K}
    (hq : p[i]? = some q) (hq' : p[j]? = some q') (hij : jx[i]? = jx[j]?) : Within ((1 + u) ^ 3 * (e * ptol) + 5 * u * M) q q' := by
  obtain ⟨snap, hs, hg, rfl⟩ := mergeFl_eq_some h
  have hlen : i < (uniqueInverse o (p.map (snapRowFl rnd rint snap))).length := by
    simp only [uniqueInverse, List.length_map]; exact (List.getElem?_eq_some_iff.1 hq).1
  have hk : (uniqueInverse o (p.map (snapRowFl rnd rint snap)))[i]? = some _ := List.getElem?_eq_getElem hlen
  have k1 := (merge_inverse hg hk).2
  have k2 := (merge_inverse hg (hij ▸ hk)).2
  rw [k1, hq, hq'] at k2
  have hm := List.mem_of_getElem? hq
  have hm' := List.mem_of_getElem? hq'
  obtain ⟨b1, b2⟩ := snapSizeFl_bounds hR hr h0 (by linarith) hpt he hs
  rcases (extent_nonneg he).eq_or_lt with hz | hpos
  · subst hz
    rw [extent_zero he hm hm']
    have hM0 : 0 ≤ M := (abs_nonneg _).trans (hM q' hm').1
    constructor <;> rw [sub_self, abs_zero] <;> positivity
  · have hs0 : 0 < snap := lt_of_lt_of_le (mul_pos (pow_pos (by linarith) 2) (mul_pos hpos hpt)) b1
    obtain ⟨c1, c2⟩ := close_of_keyFl hr h0 hu hi hs0 (hM q hm) (hM q' hm') (by simpa using k2)
    have hb : (1 + u) * snap ≤ (1 + u) ^ 3 * (e * ptol) := by
      have := mul_le_mul_of_nonneg_left b2 (by linarith : 0 ≤ 1 + u)
      calc (1 + u) * snap ≤ _ := this
        _ = _ := by ring
    exact ⟨by linarith, by linarith⟩

/-- The vertices that are returned have different snapped positions: no two of them are the same point. -/
theorem C118_distinct {rnd : K → K} {rint : K → Int} {o : RowOrder (Row K)} {p p1 : List (K × K)} {ptol : K} {jx : List Nat}
    (h : mergeFl rnd rint o p ptol = some (p1, jx)) : p1.Nodup := by
  obtain ⟨snap, -, hg, -⟩ := mergeFl_eq_some h
  have := merged_keys hg
  exact List.Nodup.of_map _ (this ▸ unique_nodup o _)

section
variable [FloorRing K]

/-- **C118** for doubles, with the default tolerance of the code and coordinates of at most a hundred times the extent: points with the same place
differ by at most `2.6e-13` times the extent in each coordinate. -/
theorem C118_doubles_partial {rint : K → Int} (hi : IsRounding rint) {o : RowOrder (Row K)} {p p1 : List (K × K)} {e : K} {jx : List Nat}
    (he : IsExtent p e) (hM : ∀ q ∈ p, |q.1| ≤ 100 * e ∧ |q.2| ≤ 100 * e)
    (h : mergeFl roundDouble rint o p (3961408125713217 / 2 ^ 94) = some (p1, jx)) {i j : Nat} {q q' : K × K}
    (hq : p[i]? = some q) (hq' : p[j]? = some q') (hij : jx[i]? = jx[j]?) : Within (26 / 10 ^ 14 * e) q q' := by
  obtain ⟨hR, hr⟩ := C113_roundDouble (K := K)
  obtain ⟨c1, c2⟩ := C118_same_place_partial hR hr (by positivity) (by norm_num) hi (by positivity) he hM h hq hq' hij
  have he0 := extent_nonneg he
  have hb : (1 + 1 / 2 ^ 53 : K) ^ 3 * (e * (3961408125713217 / 2 ^ 94)) + 5 * (1 / 2 ^ 53) * (100 * e) ≤ 26 / 10 ^ 14 * e := by
    have : (1 + 1 / 2 ^ 53 : K) ^ 3 * (3961408125713217 / 2 ^ 94) + 5 * (1 / 2 ^ 53) * 100 ≤ 26 / 10 ^ 14 := by norm_num
    nlinarith
  exact ⟨c1.trans hb, c2.trans hb⟩

end
end

/-! ## Examples -/

theorem roundEven_isRounding : IsRounding (roundEven : ℚ → Int) := fun x => by
  have h := roundEven_near x
  exact h

/-- The mesh of four points of extent `1` whose second and third point are `2 ^ -50` apart is merged, and the hypotheses of
`C118_same_place_partial` and `C118_doubles_partial` are met. -/
example : IsExtent ([(1, 0), (2, 0), (2 + 1 / 2 ^ 50, 0), (1, 1 / 2)] : List (ℚ × ℚ)) (1 + 1 / 2 ^ 50) ∧
    mergeFl roundDouble roundEven ptOrder [(1, 0), (2, 0), (2 + 1 / 2 ^ 50, 0), (1, 1 / 2)] (3961408125713217 / 2 ^ 94 : ℚ) =
      some ([(1, 0), (1, 1 / 2), (2, 0)], [0, 2, 2, 1]) := by
  constructor
  · unfold IsExtent; decide +kernel
  · decide +kernel

/-! ## What fails in doubles -/

/-- Two points that are farther apart than the tolerance are merged: at `1792` neighbouring doubles are `2 ^ -42` apart, the tolerance of points of extent
`0.75` is smaller, but two neighbouring doubles have the same snapped value. -/
theorem C118_merged_beyond_tolerance : ∃ (p : List (ℚ × ℚ)) (e : ℚ) (p1 : List (ℚ × ℚ)) (jx : List Nat) (q q' : ℚ × ℚ),
    (∀ q ∈ p, IsDouble q.1 ∧ IsDouble q.2) ∧ IsExtent p e ∧
    mergeFl roundDouble roundEven ptOrder p (3961408125713217 / 2 ^ 94) = some (p1, jx) ∧ p[1]? = some q ∧ p[2]? = some q' ∧ jx[1]? = jx[2]? ∧
    ¬ Within (e * (3961408125713217 / 2 ^ 94)) q q' := by
  refine ⟨[(1792, 0), (1792 + 996 / 2 ^ 42, 0), (1792 + 997 / 2 ^ 42, 0), (1792 + 3 / 4, 0)], 3 / 4,
    [(1792, 0), (1792 + 996 / 2 ^ 42, 0), (1792 + 3 / 4, 0)], [0, 1, 1, 2], (1792 + 996 / 2 ^ 42, 0), (1792 + 997 / 2 ^ 42, 0), ?_, ?_, ?_, rfl, rfl,
    rfl, ?_⟩
  · have h0 : IsDouble (0 : ℚ) := ⟨0, 0, by norm_num, by norm_num⟩
    intro q hq
    simp only [List.mem_cons, List.not_mem_nil, or_false] at hq
    rcases hq with rfl | rfl | rfl | rfl
    · exact ⟨⟨1792, 0, by norm_num, by norm_num⟩, h0⟩
    · exact ⟨⟨1792 * 2 ^ 42 + 996, -42, by norm_num, by norm_num⟩, h0⟩
    · exact ⟨⟨1792 * 2 ^ 42 + 997, -42, by norm_num, by norm_num⟩, h0⟩
    · exact ⟨⟨1792 * 4 + 3, -2, by norm_num, by norm_num⟩, h0⟩
  · unfold IsExtent; decide +kernel
  · decide +kernel
  · unfold Within; decide +kernel

end OM
