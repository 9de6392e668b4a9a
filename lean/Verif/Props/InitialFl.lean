import Verif.Model.InitialFl
import Verif.Props.Initial
import Verif.Props.GridFl
/-!
# C124: the initial points in floating-point arithmetic
-/
set_option linter.unusedSectionVars false
namespace OM
open Spec

section
variable {K : Type} [Field K] [LinearOrder K] [IsStrictOrderedRing K] [FloorRing K]

/-- Without rounding errors this is the exact model. -/
theorem C124_exact (h geps : K) (b : Box K) (fh : List (K × K) → Option (List (Float64 K))) (fd : List (K × K) → Option (List K))
    (rand : Nat → K) (pfix : List (K × K)) : initialFl id h geps b fh fd rand pfix = initialPoints h geps b fh fd rand pfix none := by
  have hl : ∀ lo hi : K, latticeLineFl id lo hi h = latticeLine lo hi h := by
    intro lo hi
    unfold latticeLineFl latticeLine lineCountFl
    refine List.map_congr_left fun i _ => ?_
    simp only [lineNodeFl, id]
    ring
  have hp : latticePointsFl id b h = latticePoints b h := by
    unfold latticePointsFl latticePoints
    simp only [hl]
  have hk : ∀ (u : K) (m r : Float64 K), keepRandomFl id u m r = keepRandom u m r := by
    intro u m r
    unfold keepRandomFl keepRandom
    cases m <;> cases r <;> simp [pow_two]
  simp only [initialFl, initialPoints, initialFrom, hp, hk, Option.bind_eq_bind]
  cases fh (latticePoints b h) with
  | none => rfl
  | some r => rfl

/-- The quotient whose ceiling is the number of points, times the step. -/
theorem lineQuot_error {rnd : K → K} {u M : K} (hr : RelError rnd u) (h0 : 0 ≤ u) (hu : u ≤ 1 / 8) {lo hi h : K} (hlo : |lo| ≤ M)
    (hhi : |hi + h| ≤ M) (hh : 0 < h) : |rnd (rnd (rnd (hi + h) - lo) / h) * h - (hi + h - lo)| ≤ 7 * u * M := by
  have hM : 0 ≤ M := (abs_nonneg _).trans hlo
  have huM : 0 ≤ u * M := mul_nonneg h0 hM
  have huu : u * (u * M) ≤ 1 / 8 * (u * M) := mul_le_mul_of_nonneg_right hu huM
  have e1 := hr (hi + h)
  have e1' : |rnd (hi + h) - (hi + h)| ≤ u * M := e1.trans (mul_le_mul_of_nonneg_left hhi h0)
  have a1 := abs_le.1 e1'
  have a2 := abs_le.1 hlo
  have a3 := abs_le.1 hhi
  have b1 : |rnd (hi + h) - lo| ≤ 2 * M + u * M := abs_le.2 ⟨by linarith, by linarith⟩
  have e2 := (hr (rnd (hi + h) - lo)).trans (mul_le_mul_of_nonneg_left b1 h0)
  have e2' : |rnd (rnd (hi + h) - lo) - (rnd (hi + h) - lo)| ≤ 3 * (u * M) := by
    refine e2.trans ?_
    have : u * (2 * M + u * M) = 2 * (u * M) + u * (u * M) := by ring
    rw [this]
    linarith
  have a4 := abs_le.1 e2'
  set S := rnd (rnd (hi + h) - lo) with hS
  have huM8 : u * M ≤ 1 / 8 * M := mul_le_mul_of_nonneg_right hu hM
  have b2 : |S| ≤ 3 * M := abs_le.2 ⟨by linarith, by linarith⟩
  have e3 := hr (S / h)
  have e3' : |rnd (S / h) * h - S| ≤ 3 * (u * M) := by
    have h1 : |rnd (S / h) * h - S| = |rnd (S / h) - S / h| * h := by
      rw [← abs_of_pos hh, ← abs_mul, abs_of_pos hh, sub_mul, div_mul_cancel₀ _ hh.ne']
    rw [h1]
    calc |rnd (S / h) - S / h| * h ≤ u * |S / h| * h := mul_le_mul_of_nonneg_right e3 hh.le
      _ = u * |S| := by rw [abs_div, abs_of_pos hh]; field_simp
      _ ≤ u * (3 * M) := mul_le_mul_of_nonneg_left b2 h0
      _ = 3 * (u * M) := by ring
  have a5 := abs_le.1 e3'
  rw [abs_le]
  constructor <;> linarith

/-- Every lattice coordinate is where it should be, up to eight rounding errors. -/
theorem C124_node_error {rnd : K → K} {u M : K} (hr : RelError rnd u) (h0 : 0 ≤ u) (hu : u ≤ 1 / 8) {lo hi h : K} (hlo : |lo| ≤ M)
    (hhi : |hi + h| ≤ M) (hh : 0 < h) {i : Nat} (hi' : i < lineCountFl rnd lo hi h) :
    |lineNodeFl rnd lo h i - nodeAt lo h i| ≤ 8 * u * M ∧ nodeAt lo h i < hi + h + 7 * u * M := by
  have hM : 0 ≤ M := (abs_nonneg _).trans hlo
  have huM : 0 ≤ u * M := mul_nonneg h0 hM
  have huM8 : u * M ≤ 1 / 8 * M := mul_le_mul_of_nonneg_right hu hM
  have hq := abs_le.1 (lineQuot_error hr h0 hu hlo hhi hh)
  have h1 := Nat.lt_ceil.1 hi'
  have h2 := mul_lt_mul_of_pos_right h1 hh
  have hid : 0 ≤ (i : K) * h := mul_nonneg (Nat.cast_nonneg i) hh.le
  have a2 := abs_le.1 hlo
  have a3 := abs_le.1 hhi
  have b1 : (i : K) * h ≤ 3 * M := by linarith
  have e1 := hr ((i : K) * h)
  have e1' : |rnd ((i : K) * h) - i * h| ≤ 3 * (u * M) := by
    refine e1.trans ?_
    rw [abs_of_nonneg hid]
    have := mul_le_mul_of_nonneg_left b1 h0
    linarith
  have a4 := abs_le.1 e1'
  have b2 : |rnd ((i : K) * h) + lo| ≤ 5 * M := abs_le.2 ⟨by linarith, by linarith⟩
  have e2 := (hr (rnd ((i : K) * h) + lo)).trans (mul_le_mul_of_nonneg_left b2 h0)
  have a5 := abs_le.1 e2
  simp only [nodeAt, lineNodeFl]
  refine ⟨abs_le.2 ⟨by linarith, by linarith⟩, by linarith⟩

/-- **C124**, order: the first coordinate is that of the box and the coordinates never descend. -/
theorem C124_ascending {rnd : K → K} (hR : Rounding rnd) {lo h : K} (hlo : rnd lo = lo) (hh : 0 ≤ h) :
    lineNodeFl rnd lo h 0 = lo ∧ Monotone (lineNodeFl rnd lo h) := by
  refine ⟨by simp [lineNodeFl, hR.zero, hlo], ?_⟩
  intro i j hij
  have : (i : K) ≤ j := by exact_mod_cast hij
  exact hR.mono (by have := hR.mono (mul_le_mul_of_nonneg_right this hh); linarith)

/-- **C124**, no coordinate twice: they ascend strictly if the step is more than 16 rounding errors of the largest coordinate. -/
theorem C124_strict_partial {rnd : K → K} {u M : K} (hr : RelError rnd u) (h0 : 0 ≤ u) (hu : u ≤ 1 / 8) {lo hi h : K} (hlo : |lo| ≤ M)
    (hhi : |hi + h| ≤ M) (hh : 16 * u * M < h) {i j : Nat} (hij : i < j) (hj : j < lineCountFl rnd lo hi h) :
    lineNodeFl rnd lo h i < lineNodeFl rnd lo h j := by
  have hM : 0 ≤ M := (abs_nonneg _).trans hlo
  have hh0 : 0 < h := lt_of_le_of_lt (mul_nonneg (mul_nonneg (by norm_num) h0) hM) hh
  have e1 := abs_le.1 (C124_node_error hr h0 hu hlo hhi hh0 (hij.trans hj)).1
  have e2 := abs_le.1 (C124_node_error hr h0 hu hlo hhi hh0 hj).1
  have hij' : (i : K) + 1 ≤ j := by exact_mod_cast hij
  have := mul_le_mul_of_nonneg_right hij' hh0.le
  simp only [nodeAt] at e1 e2
  linarith

/-- **C124**, ends: there is a coordinate, the last one is not before the end of the side and less than one step behind it, up to 15 rounding errors. -/
theorem C124_last_partial {rnd : K → K} {u M : K} (hr : RelError rnd u) (h0 : 0 ≤ u) (hu : u ≤ 1 / 8) {lo hi h : K} (hlo : |lo| ≤ M)
    (hhi : |hi + h| ≤ M) (hlh : lo ≤ hi) (hh : 7 * u * M < h) : ∃ n, lineCountFl rnd lo hi h = n + 1 ∧
      hi - 15 * u * M ≤ lineNodeFl rnd lo h n ∧ lineNodeFl rnd lo h n < hi + h + 15 * u * M := by
  have hM : 0 ≤ M := (abs_nonneg _).trans hlo
  have hh0 : 0 < h := lt_of_le_of_lt (mul_nonneg (mul_nonneg (by norm_num) h0) hM) hh
  have hq := abs_le.1 (lineQuot_error hr h0 hu hlo hhi hh0)
  have hpos : 0 < rnd (rnd (rnd (hi + h) - lo) / h) := by
    by_contra hn
    have := mul_nonpos_of_nonpos_of_nonneg (not_lt.1 hn) hh0.le
    linarith
  have hcnt : 0 < lineCountFl rnd lo hi h := Nat.ceil_pos.2 hpos
  obtain ⟨n, hn⟩ := Nat.exists_eq_succ_of_ne_zero hcnt.ne'
  refine ⟨n, hn, ?_⟩
  obtain ⟨e1, e2⟩ := C124_node_error hr h0 hu hlo hhi hh0 (i := n) (by omega)
  have e1 := abs_le.1 e1
  have h1 : rnd (rnd (rnd (hi + h) - lo) / h) ≤ n + 1 := by
    have := Nat.le_ceil (rnd (rnd (rnd (hi + h) - lo) / h))
    have hc : (⌈rnd (rnd (rnd (hi + h) - lo) / h)⌉₊ : K) = (n : K) + 1 := by exact_mod_cast hn
    rwa [hc] at this
  have h2 := mul_le_mul_of_nonneg_right h1 hh0.le
  simp only [nodeAt] at e1 e2
  exact ⟨by linarith, by linarith⟩

/-- **C124**, cover: every number of the side is at most half a step away from a coordinate, up to 15 rounding errors. -/
theorem C124_cover_partial {rnd : K → K} {u M : K} (hr : RelError rnd u) (h0 : 0 ≤ u) (hu : u ≤ 1 / 8) {lo hi h : K} (hlo : |lo| ≤ M)
    (hhi : |hi + h| ≤ M) (hh : 7 * u * M < h) {x : K} (hx : lo ≤ x) (hx' : x ≤ hi) :
    ∃ y ∈ latticeLineFl rnd lo hi h, |x - y| ≤ h / 2 + 15 * u * M := by
  have hM : 0 ≤ M := (abs_nonneg _).trans hlo
  have huM : 0 ≤ u * M := mul_nonneg h0 hM
  have hh0 : 0 < h := lt_of_le_of_lt (mul_nonneg (mul_nonneg (by norm_num) h0) hM) hh
  obtain ⟨n, hn, hl1, hl2⟩ := C124_last_partial hr h0 hu hlo hhi (hx.trans hx') hh
  have hmem : ∀ i, i < lineCountFl rnd lo hi h → lineNodeFl rnd lo h i ∈ latticeLineFl rnd lo hi h := fun i hi' =>
    List.mem_map.2 ⟨i, List.mem_range.2 hi', rfl⟩
  obtain ⟨i, hi1⟩ : ∃ i : Nat, (i : Int) = ⌊(x - lo) / h + 1 / 2⌋ :=
    Int.eq_ofNat_of_zero_le (Int.floor_nonneg.2 (add_nonneg (div_nonneg (by linarith) hh0.le) (by norm_num))) |>.imp fun _ h => h.symm
  have hi1' : (i : K) = (⌊(x - lo) / h + 1 / 2⌋ : K) := by exact_mod_cast congrArg (Int.cast : ℤ → K) hi1
  have f1 := Int.floor_le ((x - lo) / h + 1 / 2)
  have f2 := Int.lt_floor_add_one ((x - lo) / h + 1 / 2)
  rw [← hi1'] at f1 f2
  have g1 := mul_le_mul_of_nonneg_right f1 hh0.le
  have g2 := mul_lt_mul_of_pos_right f2 hh0
  rw [add_mul, div_mul_cancel₀ _ hh0.ne'] at g1 g2
  by_cases hin : i < lineCountFl rnd lo hi h
  · refine ⟨_, hmem i hin, ?_⟩
    have e1 := abs_le.1 (C124_node_error hr h0 hu hlo hhi hh0 hin).1
    simp only [nodeAt] at e1
    rw [abs_le]
    constructor <;> linarith
  · refine ⟨_, hmem n (by omega), ?_⟩
    have e1 := abs_le.1 (C124_node_error hr h0 hu hlo hhi hh0 (i := n) (by omega)).1
    have hni : (n : K) + 1 ≤ i := by
      have : n + 1 ≤ i := by omega
      exact_mod_cast this
    have := mul_le_mul_of_nonneg_right hni hh0.le
    simp only [nodeAt] at e1
    rw [abs_le]
    constructor <;> linarith

/-- **C124**, selection: with sizes of at least the smallest one the probability is at most one and falls with the size; at the smallest size it is
one, so that no point there is lost. -/
theorem C124_selection {rnd : K → K} (hR : Rounding rnd) (h1 : rnd 1 = 1) {m : K} (hm : 0 < rnd (m * m)) (hm0 : 0 < m) :
    (∀ u, u < 1 → keepRandomFl rnd u (.fin m) (.fin m) = true) ∧
    (∀ u x y, m ≤ x → x ≤ y → keepRandomFl rnd u (.fin m) (.fin y) = true → keepRandomFl rnd u (.fin m) (.fin x) = true) ∧
    (∀ u x, m ≤ x → 1 ≤ u → keepRandomFl rnd u (.fin m) (.fin x) = false) := by
  have sq : ∀ x y : K, m ≤ x → x ≤ y → rnd (x * x) ≤ rnd (y * y) := fun x y hx hxy =>
    hR.mono (mul_le_mul hxy hxy (hm0.le.trans hx) (hm0.le.trans (hx.trans hxy)))
  refine ⟨fun u hu => ?_, fun u x y hx hxy hk => ?_, fun u x hx hu => ?_⟩
  · simp only [keepRandomFl]
    rw [if_neg hm.ne', div_self hm.ne', h1]
    exact decide_eq_true hu
  · have hx1 := hm.trans_le (sq m x le_rfl hx)
    have hy1 := hx1.trans_le (sq x y hx hxy)
    simp only [keepRandomFl] at hk ⊢
    rw [if_neg hy1.ne', decide_eq_true_eq] at hk
    rw [if_neg hx1.ne', decide_eq_true_eq]
    exact hk.trans_le (hR.mono (div_le_div_of_nonneg_left hm.le hx1 (sq x y hx hxy)))
  · have hx1 := hm.trans_le (sq m x le_rfl hx)
    simp only [keepRandomFl]
    rw [if_neg hx1.ne', decide_eq_false_iff_not, not_lt]
    refine le_trans ?_ hu
    rw [← h1]
    exact hR.mono ((div_le_one hx1).2 (sq m x le_rfl hx))

/-- **C124**: the initial points are the fixed points followed by lattice points at which the signed distance is below the tolerance, in the order
of the lattice. A lattice point with the smallest of all sizes that are not below the minimum edge length is always among them if its distance is
below the tolerance, whatever random numbers in `[0, 1)` are drawn. -/
theorem C124_initial_points {rnd : K → K} (hR : Rounding rnd) (hone : rnd 1 = 1) (hpos : ∀ x, 0 < x → 0 < rnd x) {h geps : K} (hh : 0 < h) {b : Box K}
    {fh : List (K × K) → Option (List (Float64 K))} {g : K × K → Float64 K} (hg : Pointwise fh g) {fd : List (K × K) → Option (List K)}
    {f : K × K → K} (hf : Pointwise fd f) {rand : Nat → K} {pfix r : List (K × K)} (hr : initialFl rnd h geps b fh fd rand pfix = some r) :
    ∃ l, r = pfix ++ l ∧ l.Sublist (latticePointsFl rnd b h) ∧ (∀ q ∈ l, f q < geps) ∧
      ((∀ i, rand i < 1) → ∀ (q : K × K) (x : K), q ∈ latticePointsFl rnd b h → g q = .fin x → h ≤ x →
        (∀ (q' : K × K) (y : K), q' ∈ latticePointsFl rnd b h → g q' = .fin y → h ≤ y → x ≤ y) → f q < geps → q ∈ l) := by
  simp only [initialFl, Option.bind_eq_bind, Option.bind_eq_some_iff] at hr
  obtain ⟨r0, h1, s, h2, h3⟩ := hr
  obtain rfl := hg _ _ h1
  split at h3
  · simp only [Option.bind_eq_some_iff] at h3
    obtain ⟨p1, h6, d, h7, p2, h8, h9⟩ := h3
    refine ⟨p2, (Option.some.inj h9).symm, (maskRows_sublist h8).trans (maskRows_sublist h6), ?_, ?_⟩
    · obtain rfl := hf _ _ h7
      rw [List.map_map] at h8
      intro q hq
      obtain ⟨i, h3, h4⟩ := (mem_maskRows h8 q).1 hq
      rw [List.getElem?_map, h4] at h3
      simpa using h3
    · obtain rfl := hf _ _ h7
      rw [List.map_map] at h8
      intro hrand q x hq hx hhx hmin hfq
      have hx0 : 0 < x := hh.trans_le hhx
      obtain ⟨s1, s2, s3⟩ := smallestSize_spec h2
      have hsx : s = .fin x := by
        have hle := s3 (.fin x) (List.mem_map.2 ⟨q, hq, hx⟩) (by simpa [Float64.atLeast] using hhx)
        cases s with
        | fin m =>
          have h5 : m ≤ x := hle
          have h6 : h ≤ m := by simpa [Float64.atLeast] using s2
          obtain ⟨q', hq', hy'⟩ := List.mem_map.1 s1
          rw [le_antisymm h5 (hmin q' m hq' hy' h6)]
        | nan => exact hle.elim
        | posInf => exact hle.elim
        | negInf => exact hle.elim
      subst hsx
      have hfst : q ∈ p1 := by
        obtain ⟨i, hi⟩ := List.mem_iff_getElem?.1 hq
        refine (mem_maskRows h6 q).2 ⟨i, ?_, hi⟩
        have hx' : ((latticePointsFl rnd b h).map g)[i]? = some (.fin x) := by rw [List.getElem?_map, hi, Option.map_some, hx]
        have hil : i < ((latticePointsFl rnd b h).map g).length := (List.getElem?_eq_some_iff.1 hx').1
        rw [List.getElem?_zipWith, List.getElem?_range hil, hx']
        simp only [Option.some.injEq]
        exact (C124_selection hR hone (hpos _ (mul_pos hx0 hx0)) hx0).1 _ (hrand i)
      obtain ⟨j, hj⟩ := List.mem_iff_getElem?.1 hfst
      refine (mem_maskRows h8 q).2 ⟨j, ?_, hj⟩
      rw [List.getElem?_map, hj]
      simpa using hfq
  · simp at h3

/-- **C124** for doubles, partial: along each side of a box with coordinates up to `M` the lattice begins at the corner, ascends strictly, ends between
`M / 2 ^ 49` before the end of the side and one step (and `M / 2 ^ 49`) behind it, and every point of the box is at most half a step and
`M / 2 ^ 49` away from a lattice point along each axis. The steps must be larger than `M / 2 ^ 49`. -/
theorem C124_doubles_partial {b : Box K} {h M : K} (hx : b.xmin ≤ b.xmax) (hy : b.ymin ≤ b.ymax) (h1 : |b.xmin| ≤ M) (h2 : |b.xmax + h| ≤ M)
    (h3 : |b.ymin| ≤ M) (h4 : |b.ymax + h| ≤ M) (hd1 : IsDouble b.xmin) (hd2 : IsDouble b.ymin) (hh : M / 2 ^ 49 < h) :
    (b.xmin, b.ymin) ∈ latticePointsFl roundDouble b h ∧ (latticePointsFl roundDouble b h).Nodup ∧
    (∀ q ∈ latticePointsFl roundDouble b h, b.xmin ≤ q.1 ∧ q.1 < b.xmax + h + M / 2 ^ 49 ∧ b.ymin ≤ q.2 ∧ q.2 < b.ymax + h + M / 2 ^ 49) ∧
    ∀ p : K × K, b.xmin ≤ p.1 → p.1 ≤ b.xmax → b.ymin ≤ p.2 → p.2 ≤ b.ymax →
      ∃ q ∈ latticePointsFl roundDouble b h, |p.1 - q.1| ≤ h / 2 + M / 2 ^ 49 ∧ |p.2 - q.2| ≤ h / 2 + M / 2 ^ 49 := by
  obtain ⟨hR, hr⟩ := C113_roundDouble (K := K)
  have hM : 0 ≤ M := (abs_nonneg _).trans h1
  have hu0 : (0 : K) ≤ 1 / 2 ^ 53 := by positivity
  have hu1 : (1 / 2 ^ 53 : K) ≤ 1 / 8 := by norm_num
  have hM49 : 0 ≤ M / 2 ^ 49 := by positivity
  have hh0 : 0 < h := hM49.trans_lt hh
  have c16 : 16 * (1 / 2 ^ 53) * M = M / 2 ^ 49 := by ring
  have c15 : 15 * (1 / 2 ^ 53) * M ≤ M / 2 ^ 49 := by rw [← c16]; nlinarith
  have c7 : 7 * (1 / 2 ^ 53) * M ≤ M / 2 ^ 49 := by rw [← c16]; nlinarith
  have line : ∀ lo hi : K, lo ≤ hi → |lo| ≤ M → |hi + h| ≤ M → IsDouble lo → lo ∈ latticeLineFl roundDouble lo hi h ∧
      (latticeLineFl roundDouble lo hi h).Nodup ∧ (∀ x ∈ latticeLineFl roundDouble lo hi h, lo ≤ x ∧ x < hi + h + M / 2 ^ 49) ∧
      ∀ x, lo ≤ x → x ≤ hi → ∃ y ∈ latticeLineFl roundDouble lo hi h, |x - y| ≤ h / 2 + M / 2 ^ 49 := by
    intro lo hi hlh hlo hhi hd
    obtain ⟨n, hn, l1, l2⟩ := C124_last_partial hr hu0 hu1 hlo hhi hlh (c7.trans_lt hh)
    obtain ⟨a1, a2⟩ := C124_ascending hR (h := h) (roundDouble_of_isDouble hd) hh0.le
    refine ⟨List.mem_map.2 ⟨0, List.mem_range.2 (by omega), a1⟩, ?_, ?_, ?_⟩
    · unfold latticeLineFl
      refine List.Nodup.map_on ?_ List.nodup_range
      intro i hi' j hj' hij
      rw [List.mem_range] at hi' hj'
      rcases lt_trichotomy i j with hlt | heq | hlt
      · exact absurd hij (C124_strict_partial hr hu0 hu1 hlo hhi (by rw [c16]; exact hh) hlt hj').ne
      · exact heq
      · exact absurd hij.symm (C124_strict_partial hr hu0 hu1 hlo hhi (by rw [c16]; exact hh) hlt hi').ne
    · intro x hx
      obtain ⟨i, hi', rfl⟩ := List.mem_map.1 hx
      rw [List.mem_range] at hi'
      have b1 := a2 (Nat.zero_le i)
      have b2 := a2 (show i ≤ n by omega)
      rw [a1] at b1
      exact ⟨b1, lt_of_le_of_lt b2 (l2.trans_le (by linarith))⟩
    · intro x hx hx'
      obtain ⟨y, hy, hxy⟩ := C124_cover_partial hr hu0 hu1 hlo hhi (c7.trans_lt hh) hx hx'
      exact ⟨y, hy, hxy.trans (by linarith)⟩
  obtain ⟨x1, x2, x3, x4⟩ := line _ _ hx h1 h2 hd1
  obtain ⟨y1, y2, y3, y4⟩ := line _ _ hy h3 h4 hd2
  have hmem : ∀ q : K × K, q ∈ latticePointsFl roundDouble b h ↔ q.1 ∈ latticeLineFl roundDouble b.xmin b.xmax h ∧
      q.2 ∈ latticeLineFl roundDouble b.ymin b.ymax h := by
    intro q
    simp only [latticePointsFl, List.mem_flatMap, List.mem_map]
    exact ⟨fun ⟨x, hx, y, hy, e⟩ => by rw [← e]; exact ⟨hx, hy⟩, fun ⟨hx, hy⟩ => ⟨_, hx, _, hy, rfl⟩⟩
  refine ⟨(hmem _).2 ⟨x1, y1⟩, ?_, ?_, ?_⟩
  · unfold latticePointsFl
    rw [List.nodup_flatMap]
    refine ⟨fun x _ => y2.map fun a b h => by simpa using h, ?_⟩
    refine x2.imp ?_
    intro x y hxy q hq hq'
    obtain ⟨_, -, rfl⟩ := List.mem_map.1 hq
    obtain ⟨_, -, h2⟩ := List.mem_map.1 hq'
    simp only [Prod.mk.injEq] at h2
    exact hxy h2.1.symm
  · intro q hq
    obtain ⟨q1, q2⟩ := (hmem q).1 hq
    exact ⟨(x3 _ q1).1, (x3 _ q1).2, (y3 _ q2).1, (y3 _ q2).2⟩
  · intro p p1 p2 p3 p4
    obtain ⟨x, hx, hx'⟩ := x4 _ p1 p2
    obtain ⟨y, hy, hy'⟩ := y4 _ p3 p4
    exact ⟨(x, y), (hmem _).2 ⟨hx, hy⟩, hx', hy'⟩

end

example := C124_doubles_partial (K := ℚ) (b := ⟨0, 2, -1, 1⟩) (h := 1 / 8) (M := 17 / 8) (by norm_num) (by norm_num) (by norm_num) (by norm_num)
  (by norm_num) (by norm_num) ⟨0, 0, by norm_num, by norm_num⟩ ⟨-1, 0, by norm_num, by norm_num⟩ (by norm_num)

example : latticeLineFl roundDouble (0 : ℚ) (3 / 4) (1 / 2) = [0, 1 / 2, 1] := by decide +kernel

-- The run of the exact model, with rounding.
example : initialFl roundDouble (1 / 2) (1 / 1000) ⟨0, 1, 0, 1⟩ (fun l => some (l.map growing)) (fun l => some (l.map diagonalFd)) (fun i => ((i % 2 : Nat) : ℚ) / 2) [(1 / 3, 1 / 3)] =
    some [(1 / 3, 1 / 3), (0, 0), (0, 1 / 2), (0, 1), (1 / 2, 1 / 2), (1, 0), (1, 1)] := by decide +kernel

example := C124_initial_points (rnd := roundDouble) (C113_roundDouble (K := ℚ)).1 (by decide +kernel) (fun _ => roundDouble_pos_of_pos) (h := 1 / 2) (geps := 1 / 1000)
  (by norm_num) (b := ⟨0, 1, 0, 1⟩) (fh := fun l => some (l.map growing)) (g := growing)
  (fun l r h => (Option.some.inj h).symm) (fd := fun l => some (l.map diagonalFd)) (f := diagonalFd) (fun l r h => (Option.some.inj h).symm)
  (rand := fun i => ((i % 2 : Nat) : ℚ) / 2) (pfix := [(1 / 3, 1 / 3)])
  (r := [(1 / 3, 1 / 3), (0, 0), (0, 1 / 2), (0, 1), (1 / 2, 1 / 2), (1, 0), (1, 1)]) (by decide +kernel)

/-- **C124** fails at the far end: from 1 to the double next to `1.2` in steps of `0.1` there is a fourth coordinate, a whole step behind the end. -/
theorem C124_extra_row : ∃ lo hi h : ℚ, IsDouble lo ∧ IsDouble hi ∧ IsDouble h ∧ lo ≤ hi ∧ 0 < h ∧ lineCountFl roundDouble lo hi h = 4 ∧
    hi + h ≤ lineNodeFl roundDouble lo h 3 :=
  ⟨1, 5404319552844595 / 2 ^ 52, 3602879701896397 / 2 ^ 55, ⟨1, 0, by norm_num, by norm_num⟩, ⟨5404319552844595, -52, by norm_num, by norm_num⟩,
    ⟨3602879701896397, -55, by norm_num, by norm_num⟩, by norm_num, by norm_num, by decide +kernel, by decide +kernel⟩

/-- **C124** fails at the far end: from the double next to `-0.9` to the one next to `0.1` in steps of `0.5` the end is not reached. -/
theorem C124_end_missed : ∃ lo hi h : ℚ, IsDouble lo ∧ IsDouble hi ∧ IsDouble h ∧ lo ≤ hi ∧ 0 < h ∧
    ∀ x ∈ latticeLineFl roundDouble lo hi h, x < hi :=
  ⟨-8106479329266893 / 2 ^ 53, 3602879701896397 / 2 ^ 55, 1 / 2, ⟨-8106479329266893, -53, by norm_num, by norm_num⟩,
    ⟨3602879701896397, -55, by norm_num, by norm_num⟩, ⟨1, -1, by norm_num, by norm_num⟩, by norm_num, by norm_num, by decide +kernel⟩

end OM
