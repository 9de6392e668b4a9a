import Verif.Model.BoxFl
import Verif.Props.GenerateFl3
import Verif.Props.SizingFl
import Verif.Props.Circle
import Mathlib.Analysis.SpecialFunctions.Trigonometric.Bounds
/-!
# C129: rectangles and circles in floating-point arithmetic
-/
set_option linter.unusedSectionVars false

namespace OM
open Spec

namespace Spec
variable {K : Type} [Field K] [LinearOrder K]

/-- Strictly inside the rectangle. -/
def StrictlyIn (b : Box K) (p : K × K) : Prop := (b.xmin < p.1 ∧ p.1 < b.xmax) ∧ (b.ymin < p.2 ∧ p.2 < b.ymax)

/-- Outside the closed rectangle. -/
def OutsideBox (b : Box K) (p : K × K) : Prop := p.1 < b.xmin ∨ b.xmax < p.1 ∨ p.2 < b.ymin ∨ b.ymax < p.2

/-- Inside the rectangle, farther than `m` from the lines through its sides. -/
def BoxMargin (m : K) (b : Box K) (p : K × K) : Prop := (b.xmin + m < p.1 ∧ p.1 < b.xmax - m) ∧ (b.ymin + m < p.2 ∧ p.2 < b.ymax - m)

end Spec

section
variable {K : Type} [Field K] [LinearOrder K] [IsStrictOrderedRing K]

/-- Rounding after the minimum gives the same as before. -/
theorem bboxDistanceFl_eq {rnd : K → K} (hR : Rounding rnd) (b : Box K) (p : K × K) : bboxDistanceFl rnd b p = -rnd (-bboxDistance b p) := by
  unfold bboxDistanceFl bboxDistance
  rw [neg_neg, hR.mono.map_min, hR.mono.map_min, hR.mono.map_min]

theorem rnd_pos_iff {rnd : K → K} {u : K} (hR : Rounding rnd) (hr : RelError rnd u) (hu : u < 1) (z : K) : 0 < rnd z ↔ 0 < z := by
  constructor
  · intro h
    by_contra hc
    have := hR.mono (not_lt.1 hc)
    rw [hR.zero] at this
    linarith
  · intro h
    have h1 := hR.mono h.le
    rw [hR.zero] at h1
    exact lt_of_le_of_ne h1 (Ne.symm (rnd_ne_zero hr hu h.ne'))

theorem rnd_neg_iff {rnd : K → K} {u : K} (hR : Rounding rnd) (hr : RelError rnd u) (hu : u < 1) (z : K) : rnd z < 0 ↔ z < 0 := by
  constructor
  · intro h
    by_contra hc
    have := hR.mono (not_lt.1 hc)
    rw [hR.zero] at this
    linarith
  · intro h
    have h1 := hR.mono h.le
    rw [hR.zero] at h1
    exact lt_of_le_of_ne h1 (rnd_ne_zero hr hu h.ne)

theorem bboxDistance_neg_iff (b : Box K) (p : K × K) : bboxDistance b p < 0 ↔ StrictlyIn b p := by
  unfold bboxDistance StrictlyIn
  rw [neg_lt_zero, lt_min_iff, lt_min_iff, lt_min_iff]
  constructor
  · rintro ⟨⟨⟨h1, h2⟩, h3⟩, h4⟩
    exact ⟨⟨by linarith, by linarith⟩, by linarith, by linarith⟩
  · rintro ⟨⟨h1, h2⟩, h3, h4⟩
    exact ⟨⟨⟨by linarith, by linarith⟩, by linarith⟩, by linarith⟩

theorem bboxDistance_pos_iff (b : Box K) (p : K × K) : 0 < bboxDistance b p ↔ OutsideBox b p := by
  unfold bboxDistance OutsideBox
  rw [neg_pos, min_lt_iff, min_lt_iff, min_lt_iff]
  constructor
  · rintro (((h | h) | h) | h)
    · exact Or.inr (Or.inr (Or.inl (by linarith)))
    · exact Or.inr (Or.inr (Or.inr (by linarith)))
    · exact Or.inl (by linarith)
    · exact Or.inr (Or.inl (by linarith))
  · rintro (h | h | h | h)
    · exact Or.inl (Or.inr (by linarith))
    · exact Or.inr (by linarith)
    · exact Or.inl (Or.inl (Or.inl (by linarith)))
    · exact Or.inl (Or.inl (Or.inr (by linarith)))

/-- **C129** (sign): rounding never changes on which side of the boundary a point is; the value has the relative error of one rounding. -/
theorem C129_sign {rnd : K → K} {u : K} (hR : Rounding rnd) (hr : RelError rnd u) (hu : u < 1) (b : Box K) (p : K × K) :
    (bboxDistanceFl rnd b p < 0 ↔ StrictlyIn b p) ∧ (0 < bboxDistanceFl rnd b p ↔ OutsideBox b p) ∧
      |bboxDistanceFl rnd b p - bboxDistance b p| ≤ u * |bboxDistance b p| := by
  rw [bboxDistanceFl_eq hR]
  refine ⟨?_, ?_, ?_⟩
  · rw [neg_lt_zero, rnd_pos_iff hR hr hu, neg_pos, bboxDistance_neg_iff]
  · rw [neg_pos, rnd_neg_iff hR hr hu, neg_lt_zero, bboxDistance_pos_iff]
  · have := hr (-bboxDistance b p)
    rw [abs_neg] at this
    rw [← abs_neg]
    convert this using 2
    ring

theorem bboxDistance_lip {b : Box K} {p q : K × K} {d : K} (h : Within d p q) : bboxDistance b q ≤ bboxDistance b p + d := by
  obtain ⟨h1, h2⟩ := h
  rw [abs_le] at h1 h2
  unfold bboxDistance
  have key : min (min (min (-b.ymin + p.2) (b.ymax - p.2)) (-b.xmin + p.1)) (b.xmax - p.1) - d ≤
      min (min (min (-b.ymin + q.2) (b.ymax - q.2)) (-b.xmin + q.1)) (b.xmax - q.1) := by
    refine le_min (le_min (le_min ?_ ?_) ?_) ?_
    · have : min (min (min (-b.ymin + p.2) (b.ymax - p.2)) (-b.xmin + p.1)) (b.xmax - p.1) ≤ -b.ymin + p.2 :=
        (min_le_left _ _).trans ((min_le_left _ _).trans (min_le_left _ _))
      linarith
    · have : min (min (min (-b.ymin + p.2) (b.ymax - p.2)) (-b.xmin + p.1)) (b.xmax - p.1) ≤ b.ymax - p.2 :=
        (min_le_left _ _).trans ((min_le_left _ _).trans (min_le_right _ _))
      linarith
    · have : min (min (min (-b.ymin + p.2) (b.ymax - p.2)) (-b.xmin + p.1)) (b.xmax - p.1) ≤ -b.xmin + p.1 :=
        (min_le_left _ _).trans (min_le_right _ _)
      linarith
    · have : min (min (min (-b.ymin + p.2) (b.ymax - p.2)) (-b.xmin + p.1)) (b.xmax - p.1) ≤ b.xmax - p.1 := min_le_right _ _
      linarith
  linarith

theorem bboxDistance_lt_iff (b : Box K) (p : K × K) (m : K) : bboxDistance b p < -m ↔ BoxMargin m b p := by
  unfold bboxDistance BoxMargin
  rw [neg_lt_neg_iff, lt_min_iff, lt_min_iff, lt_min_iff]
  constructor
  · rintro ⟨⟨⟨h1, h2⟩, h3⟩, h4⟩
    exact ⟨⟨by linarith, by linarith⟩, by linarith, by linarith⟩
  · rintro ⟨⟨h1, h2⟩, h3, h4⟩
    exact ⟨⟨⟨by linarith, by linarith⟩, by linarith⟩, by linarith⟩

/-- **C129** (mesh of a rectangle): the centroid of every returned triangle is inside the rectangle by the tolerance `geps`, up to the merging tolerance of
`fix_mesh` and the rounding errors of the coordinates. -/
theorem C129_mesh {S : GenFl K} {u M : K} (hR : Rounding S.fl) (hr : RelError S.fl u) (h0 : 0 ≤ u) (hu : u ≤ 1 / 8) (hi : IsRounding S.rnd) {b : Box K}
    (hf : Pointwise S.fd (bboxDistanceFl S.fl b)) (hg : S.fl S.geps = S.geps) (hpt : 0 < S.ptol) {maxIter : Nat} {p : List (K × K)} {m : FixResult K}
    {l : List (GenIter K)} (h : generateMeshFl S maxIter p = some (m, l)) :
    ∃ r, l.getLast? = some r ∧ ∀ e, IsExtent r.points e → (∀ q ∈ r.points, |q.1| ≤ M ∧ |q.2| ≤ M) → ∀ g ∈ m.t, ∃ x y z,
      corners m.p g = [some x, some y, some z] ∧ BoxMargin (S.geps - ((1 + u) ^ 3 * (e * S.ptol) + 8 * u * M)) b (centroid x y z) := by
  obtain ⟨-, -, a3, r, a4, a5⟩ := C125_kept hf h
  refine ⟨r, a4, fun e he hM g hg' => ?_⟩
  obtain ⟨-, hv, c3⟩ := a3 r (List.mem_of_getLast? a4)
  obtain ⟨t, ht, x, y, z, x', y', z', d1, d2, d3, d4, d5⟩ :=
    (C120_geometry_partial hR hr h0 (hu.trans (by norm_num)) hi hpt he hM hv a5).2 g hg'
  obtain ⟨-, x0, y0, z0, e1, e2⟩ := (c3 t).1 ht
  rw [d1] at e1
  simp only [List.cons.injEq, Option.some.injEq, and_true] at e1
  obtain ⟨rfl, rfl, rfl⟩ := e1
  have hcor := corners_valid (C120_wellformed a5).1 hg'
  refine ⟨_, _, _, hcor, ?_⟩
  rw [hcor] at d2
  have hperm : [vertexAt m.p g.a, vertexAt m.p g.b, vertexAt m.p g.c].Perm [x', y', z'] := by
    have : ([vertexAt m.p g.a, vertexAt m.p g.b, vertexAt m.p g.c].map some).Perm ([x', y', z'].map some) := d2
    exact (List.map_perm_map_iff (Option.some_injective _)).1 this
  rw [centroid_perm hperm]
  have hmem : ∀ w, some w ∈ corners r.points t → w ∈ r.points := by
    intro w hw
    simp only [corners, List.mem_cons, List.not_mem_nil, or_false] at hw
    rcases hw with hw | hw | hw <;> exact List.mem_of_getElem? hw.symm
  have e3 : bboxDistance b (roundedCentroid S.fl x y z) < -S.geps := by
    rw [bboxDistanceFl_eq hR, neg_lt_neg_iff] at e2
    by_contra hc
    have := hR.mono (show -bboxDistance b (roundedCentroid S.fl x y z) ≤ S.geps by linarith [not_lt.1 hc])
    rw [hg] at this
    linarith
  have w1 := bboxDistance_lip (b := b)
    (C125_centroid_error hr h0 hu (hM x (hmem x (by rw [d1]; simp))) (hM y (hmem y (by rw [d1]; simp))) (hM z (hmem z (by rw [d1]; simp))))
  have w2 := bboxDistance_lip (b := b) (p := centroid x y z) (q := centroid x' y' z') (centroid_within d3 d4 d5)
  rw [← bboxDistance_lt_iff]
  linarith

/-! ### Projection to a side -/

/-- One coordinate of the projection: `q` is `d0` beyond the side at `c` (in the direction `σ`), `d` and `dp` are the computed distances at the point and at the
shifted point. -/
theorem side_gradient {fl : K → K} {u M : K} (hr : RelError fl u) (h0 : 0 ≤ u) {d dp deps σ d0 : K} (hσ : σ = 1 ∨ σ = -1) (hd0 : 0 < d0) (hd0M : d0 ≤ 2 * M)
    (hdeps : 0 < deps) (hdM : deps ≤ M) (hκ : 48 * (u * M) ≤ deps) (hu : u ≤ 1 / 48) (hd : |d - d0| ≤ u * d0) (hdp : |dp - (d0 + σ * deps)| ≤ 6 * (u * M)) :
    |fl (fl (dp - d) / deps) - σ| ≤ 12 * (u * M) / deps := by
  have hM : 0 < M := hdeps.trans_le hdM
  have huM : 0 ≤ u * M := mul_nonneg h0 hM.le
  have e1 : |(dp - d) - σ * deps| ≤ 8 * (u * M) := by
    have : u * d0 ≤ 2 * (u * M) := by nlinarith
    rw [abs_le] at hd hdp ⊢
    constructor <;> linarith [hd.1, hd.2, hdp.1, hdp.2]
  have hσ1 : |σ| = 1 := by rcases hσ with rfl | rfl <;> simp
  have e2 : |dp - d| ≤ 2 * M := by
    have : |σ * deps| = deps := by rw [abs_mul, hσ1, one_mul, abs_of_pos hdeps]
    have h3 := abs_add_le ((dp - d) - σ * deps) (σ * deps)
    rw [sub_add_cancel, this] at h3
    have : 8 * (u * M) ≤ M := by linarith
    linarith
  have e3 : |fl (dp - d) - σ * deps| ≤ 10 * (u * M) := by
    have h3 := hr (dp - d)
    have h4 : u * |dp - d| ≤ 2 * (u * M) := by nlinarith
    have := abs_add_le (fl (dp - d) - (dp - d)) ((dp - d) - σ * deps)
    rw [sub_add_sub_cancel] at this
    linarith
  have e4 : |fl (dp - d) / deps - σ| ≤ 10 * (u * M) / deps := by
    rw [show fl (dp - d) / deps - σ = (fl (dp - d) - σ * deps) / deps by field_simp, abs_div, abs_of_pos hdeps]
    exact div_le_div_of_nonneg_right e3 hdeps.le
  have hk1 : 10 * (u * M) / deps ≤ 1 := by rw [div_le_one hdeps]; linarith
  have e5 : |fl (dp - d) / deps| ≤ 2 := by
    have := abs_add_le (fl (dp - d) / deps - σ) σ
    rw [sub_add_cancel, hσ1] at this
    linarith
  have e6 := hr (fl (dp - d) / deps)
  have e7 : u * |fl (dp - d) / deps| ≤ 2 * (u * M) / deps := by
    rw [le_div_iff₀ hdeps]
    have : u * |fl (dp - d) / deps| ≤ u * 2 := mul_le_mul_of_nonneg_left e5 h0
    nlinarith
  have := abs_add_le (fl (fl (dp - d) / deps) - fl (dp - d) / deps) (fl (dp - d) / deps - σ)
  rw [sub_add_sub_cancel] at this
  calc _ ≤ 2 * (u * M) / deps + 10 * (u * M) / deps := by linarith
    _ = 12 * (u * M) / deps := by ring

theorem side_step {fl : K → K} {u M : K} (hr : RelError fl u) (h0 : 0 ≤ u) {q c d g deps σ d0 : K} (hσ : σ = 1 ∨ σ = -1) (hd0 : 0 < d0) (hd0M : d0 ≤ 2 * M)
    (hc : |c| ≤ M) (hdeps : 0 < deps) (hdM : deps ≤ M) (hκ : 48 * (u * M) ≤ deps) (hu : u ≤ 1 / 48) (hq : q = c + σ * d0)
    (hd : ∃ f, Fac u 1 f ∧ d = d0 * f) (hg : |g - σ| ≤ 12 * (u * M) / deps) :
    1 / 2 ≤ fl (g * g) ∧ |fl (q - fl (fl (d * g) / fl (g * g))) - c| ≤ 23 * (u * M) / deps * d0 + 2 * (u * M) := by
  have hM : 0 < M := hdeps.trans_le hdM
  have hu1 : u < 1 := by linarith
  have hσ2 : σ * σ = 1 := by rcases hσ with rfl | rfl <;> ring
  have hκ4 : 12 * (u * M) / deps ≤ 1 / 4 := by rw [div_le_iff₀ hdeps]; linarith
  have huκ : u ≤ u * M / deps := by
    rw [le_div_iff₀ hdeps]
    exact mul_le_mul_of_nonneg_left hdM h0
  -- the gradient is close to `σ`
  have hgs : |σ * g - 1| ≤ 12 * (u * M) / deps := by
    have : σ * g - 1 = σ * (g - σ) := by linear_combination hσ2
    rw [this, abs_mul, show |σ| = 1 by rcases hσ with rfl | rfl <;> simp, one_mul]
    exact hg
  have hlo : 3 / 4 ≤ σ * g := by linarith [(abs_le.1 hgs).1]
  have hg2 : g * g = (σ * g) * (σ * g) := by linear_combination -(g * g) * hσ2
  have hne : g ≠ 0 := by rintro rfl; rw [mul_zero] at hlo; linarith
  have hgg : 9 / 16 ≤ g * g := by rw [hg2]; nlinarith
  obtain ⟨f, hf, rfl⟩ := hd
  obtain ⟨f2, hf2, e2⟩ := rnd_fac hr h0 hu1 (g * g)
  obtain ⟨f1, hf1, e1⟩ := rnd_fac hr h0 hu1 (d0 * f * g)
  obtain ⟨f3, hf3, e3⟩ := rnd_fac hr h0 hu1 (fl (d0 * f * g) / fl (g * g))
  refine ⟨?_, ?_⟩
  · rw [e2]
    have := hf2.1
    rw [pow_one] at this
    nlinarith
  · have hG : Fac u 4 (f * f1 * f2⁻¹ * f3) := ((hf.mul hu1 hf1).mul hu1 (hf2.inv hu1)).mul hu1 hf3
    have hGe := hG.err h0 (by push_cast; linarith) hu1
    push_cast at hGe
    set G := f * f1 * f2⁻¹ * f3 with hGdef
    have hf2p := (hf2.pos hu1).ne'
    have hstep : fl (fl (d0 * f * g) / fl (g * g)) = σ * (d0 * (G / (σ * g))) := by
      rw [e3, e1, e2, hGdef]
      have hσ0 : σ ≠ 0 := by rcases hσ with rfl | rfl <;> norm_num
      field_simp
    have hrat : |1 - G / (σ * g)| ≤ 23 * (u * M) / deps := by
      have hsg : 0 < σ * g := by linarith
      rw [show 1 - G / (σ * g) = (σ * g - G) / (σ * g) by rw [sub_div, div_self hsg.ne'], abs_div, abs_of_pos hsg, div_le_iff₀ hsg]
      have h1 : |σ * g - G| ≤ 12 * (u * M) / deps + 10 / 9 * 4 * u := by
        have := abs_add_le (σ * g - 1) (1 - G)
        rw [sub_add_sub_cancel, abs_sub_comm 1 G] at this
        linarith
      have h2 : 12 * (u * M) / deps + 10 / 9 * 4 * u ≤ 17 * (u * M / deps) := by
        rw [mul_div_assoc]; linarith
      have hp : 0 ≤ u * M / deps := h0.trans huκ
      rw [mul_div_assoc]
      nlinarith
    have hdist : |q - fl (fl (d0 * f * g) / fl (g * g)) - c| ≤ 23 * (u * M) / deps * d0 := by
      rw [hstep, hq, show c + σ * d0 - σ * (d0 * (G / (σ * g))) - c = σ * ((1 - G / (σ * g)) * d0) by ring, abs_mul, abs_mul, abs_of_pos hd0,
        show |σ| = 1 by rcases hσ with rfl | rfl <;> simp, one_mul]
      exact mul_le_mul_of_nonneg_right hrat hd0.le
    have hsmall : 23 * (u * M) / deps * d0 ≤ M := by
      have : 23 * (u * M) / deps ≤ 1 / 2 := by rw [div_le_iff₀ hdeps]; linarith
      nlinarith
    have hfin := hr (q - fl (fl (d0 * f * g) / fl (g * g)))
    have hmag : |q - fl (fl (d0 * f * g) / fl (g * g))| ≤ 2 * M := by
      have := abs_add_le (q - fl (fl (d0 * f * g) / fl (g * g)) - c) c
      rw [sub_add_cancel] at this
      linarith
    have := abs_add_le (fl (q - fl (fl (d0 * f * g) / fl (g * g))) - (q - fl (fl (d0 * f * g) / fl (g * g)))) (q - fl (fl (d0 * f * g) / fl (g * g)) - c)
    rw [show ∀ A B C : K, A - B + (B - C) = A - C from fun A B C => by ring] at this
    have hum := mul_le_mul_of_nonneg_left hmag h0
    linarith

theorem bboxDistance_right {b : Box K} {p : K × K} (h1 : b.xmin - p.1 ≤ p.1 - b.xmax) (h2 : b.ymin - p.2 ≤ p.1 - b.xmax) (h3 : p.2 - b.ymax ≤ p.1 - b.xmax) :
    bboxDistance b p = p.1 - b.xmax := by
  unfold bboxDistance
  rw [min_eq_right (le_min (le_min (by linarith) (by linarith)) (by linarith))]
  ring

theorem bboxDistance_left {b : Box K} {p : K × K} (h1 : p.1 - b.xmax ≤ b.xmin - p.1) (h2 : b.ymin - p.2 ≤ b.xmin - p.1) (h3 : p.2 - b.ymax ≤ b.xmin - p.1) :
    bboxDistance b p = b.xmin - p.1 := by
  unfold bboxDistance
  rw [min_eq_right (b := -b.xmin + p.1) (le_min (by linarith) (by linarith)), min_eq_left (by linarith)]
  ring

/-- The distance computed at the point shifted along the axis. -/
theorem shifted_error {fl : K → K} {u M : K} (hr : RelError fl u) (h0 : 0 ≤ u) (hu : u ≤ 1 / 48) {x deps c σ : K} (hσ : σ = 1 ∨ σ = -1) (hx : |x| ≤ M)
    (hc : |c| ≤ M) (hdeps : 0 < deps) (hdM : deps ≤ M) {v : K} (hv : |v - σ * (fl (x + deps) - c)| ≤ u * |σ * (fl (x + deps) - c)|) :
    |v - (σ * (x - c) + σ * deps)| ≤ 6 * (u * M) := by
  have hM : 0 < M := hdeps.trans_le hdM
  have hs : |σ| = 1 := by rcases hσ with rfl | rfl <;> simp
  rw [abs_mul, hs, one_mul] at hv
  have h1 := hr (x + deps)
  have h2 : |x + deps| ≤ 2 * M := by
    have := abs_add_le x deps
    rw [abs_of_pos hdeps] at this
    linarith
  have h3 : u * |x + deps| ≤ 2 * (u * M) := by nlinarith
  have h4 : |fl (x + deps) - c| ≤ 3 * M + 2 * (u * M) := by
    have a := abs_add_le (fl (x + deps) - (x + deps)) (x + deps - c)
    have a' := abs_sub (x + deps) c
    rw [sub_add_sub_cancel] at a
    linarith
  have h5 : u * |fl (x + deps) - c| ≤ 4 * (u * M) := by
    have : 3 * M + 2 * (u * M) ≤ 4 * M := by nlinarith
    have := mul_le_mul_of_nonneg_left (h4.trans this) h0
    linarith
  have h6 : |σ * (fl (x + deps) - c) - (σ * (x - c) + σ * deps)| = |fl (x + deps) - (x + deps)| := by
    rw [show σ * (fl (x + deps) - c) - (σ * (x - c) + σ * deps) = σ * (fl (x + deps) - (x + deps)) by ring, abs_mul, hs, one_mul]
  have := abs_add_le (v - σ * (fl (x + deps) - c)) (σ * (fl (x + deps) - c) - (σ * (x - c) + σ * deps))
  rw [sub_add_sub_cancel, h6] at this
  linarith

theorem bboxFl_value {fl : K → K} {u : K} (hR : Rounding fl) (hr : RelError fl u) (h0 : 0 ≤ u) (hu : u < 1) {b : Box K} {p : K × K} {d : K} (h : bboxDistance b p = d) :
    (∃ f, Fac u 1 f ∧ bboxDistanceFl fl b p = d * f) ∧ |bboxDistanceFl fl b p - d| ≤ u * |d| := by
  have h1 := (C129_sign hR hr hu b p).2.2
  rw [h] at h1
  refine ⟨?_, h1⟩
  obtain ⟨f, hf, e⟩ := rnd_fac hr h0 hu (-d)
  exact ⟨f, hf, by rw [bboxDistanceFl_eq hR, h, e]; ring⟩

/-- A point beyond one of the two sides `x = c`, between the lines through the other sides. -/
theorem project_beyond_x {fl : K → K} {u M : K} (hR : Rounding fl) (hr : RelError fl u) (h0 : 0 ≤ u) (hu : u ≤ 1 / 48) {b : Box K} {deps : K} (hdeps : 0 < deps)
    (hdM : deps ≤ M) (hd1 : deps ≤ 1 / 2) (hκ : 48 * (u * M) ≤ deps) (hw : b.xmin + 4 * deps ≤ b.xmax) (hb : |b.xmin| ≤ M ∧ |b.xmax| ≤ M)
    (hby : fl b.ymax = b.ymax) {q : K × K} (hq : |q.1| ≤ M) (h1 : fl q.1 = q.1) (h2 : fl q.2 = q.2) (hlo : b.ymin + 2 * deps ≤ q.2)
    (hhi : q.2 + 2 * deps ≤ b.ymax) {c : K} (hc : c = b.xmin ∧ q.1 < c ∨ c = b.xmax ∧ c < q.1) :
    0 < bboxDistanceFl fl b q ∧
    (projectPointFl fl deps q (bboxDistanceFl fl b q) (gradFlOf fl (bboxDistanceFl fl b) deps q)).2 = q.2 ∧
      |(projectPointFl fl deps q (bboxDistanceFl fl b q) (gradFlOf fl (bboxDistanceFl fl b) deps q)).1 - c| ≤ 23 * (u * M) / deps * |q.1 - c| + 2 * (u * M) := by
  have hM : 0 < M := hdeps.trans_le hdM
  have hu1 : u < 1 := by linarith
  have huM : 0 ≤ u * M := mul_nonneg h0 hM.le
  -- the shift upwards does not leave the strip
  have hup : fl (q.2 + deps) ≤ b.ymax := by
    have := hR.mono (show q.2 + deps ≤ b.ymax by linarith)
    rwa [hby] at this
  have hup' : q.2 ≤ fl (q.2 + deps) := by
    have := hR.mono (show q.2 ≤ q.2 + deps by linarith)
    rwa [h2] at this
  have hx := hr (q.1 + deps)
  have hxs : |q.1 + deps| ≤ 2 * M := by
    have := abs_add_le q.1 deps
    rw [abs_of_pos hdeps] at this
    linarith
  have hx2 : |fl (q.1 + deps) - (q.1 + deps)| ≤ deps / 24 := by
    have : u * |q.1 + deps| ≤ 2 * (u * M) := by nlinarith
    linarith
  rw [abs_le] at hx2
  have key : ∃ σ, (σ = 1 ∨ σ = -1) ∧ |c| ≤ M ∧ 0 < σ * (q.1 - c) ∧ bboxDistance b q = σ * (q.1 - c) ∧
      bboxDistance b (fl (q.1 + deps), q.2) = σ * (fl (q.1 + deps) - c) ∧ bboxDistance b (q.1, fl (q.2 + deps)) = σ * (q.1 - c) := by
    rcases hc with ⟨rfl, hc⟩ | ⟨rfl, hc⟩
    · refine ⟨-1, Or.inr rfl, hb.1, by linarith, ?_, ?_, ?_⟩
      · rw [bboxDistance_left (by linarith) (by linarith) (by linarith)]; ring
      · rw [bboxDistance_left (by dsimp only; linarith) (by dsimp only; linarith) (by dsimp only; linarith)]; dsimp only; ring
      · rw [bboxDistance_left (by dsimp only; linarith) (by dsimp only; linarith) (by dsimp only; linarith)]; dsimp only; ring
    · refine ⟨1, Or.inl rfl, hb.2, by linarith, ?_, ?_, ?_⟩
      · rw [bboxDistance_right (by linarith) (by linarith) (by linarith)]; ring
      · rw [bboxDistance_right (by dsimp only; linarith) (by dsimp only; linarith) (by dsimp only; linarith)]; dsimp only; ring
      · rw [bboxDistance_right (by dsimp only; linarith) (by dsimp only; linarith) (by dsimp only; linarith)]; dsimp only; ring
  obtain ⟨σ, hσ, hcM, hpos, k1, k2, k3⟩ := key
  have hs : |σ| = 1 := by rcases hσ with rfl | rfl <;> simp
  have habs : |q.1 - c| = σ * (q.1 - c) := by
    rw [← abs_of_pos hpos, abs_mul, hs, one_mul]
  have hd0M : σ * (q.1 - c) ≤ 2 * M := by
    rw [← habs]
    have := abs_sub q.1 c
    linarith
  obtain ⟨v1, v1'⟩ := bboxFl_value hR hr h0 hu1 k1
  obtain ⟨-, v2⟩ := bboxFl_value hR hr h0 hu1 k2
  have e2 := shifted_error hr h0 hu hσ hq hcM hdeps hdM v2
  rw [abs_of_pos hpos] at v1'
  have hg1 := side_gradient hr h0 hσ hpos hd0M hdeps hdM hκ hu v1' e2
  have hgrad : gradFlOf fl (bboxDistanceFl fl b) deps q =
      (fl (fl (bboxDistanceFl fl b (fl (q.1 + deps), q.2) - bboxDistanceFl fl b q) / deps), 0) := by
    unfold gradFlOf
    rw [add_zero, add_zero, h1, h2, show bboxDistanceFl fl b (q.1, fl (q.2 + deps)) = bboxDistanceFl fl b q by
      rw [bboxDistanceFl_eq hR, bboxDistanceFl_eq hR, k1, k3], sub_self, hR.zero, zero_div, hR.zero]
  rw [hgrad]
  set g := fl (fl (bboxDistanceFl fl b (fl (q.1 + deps), q.2) - bboxDistanceFl fl b q) / deps) with hgdef
  obtain ⟨s1, s2⟩ := side_step (q := q.1) (c := c) hr h0 hσ hpos hd0M hcM hdeps hdM hκ hu (by
    rw [← mul_assoc, show σ * σ = 1 by rcases hσ with rfl | rfl <;> ring]; ring) v1 hg1
  have hg2 : (if fl (fl (g * g) + fl ((0 : K) * 0)) < deps then deps else fl (fl (g * g) + fl ((0 : K) * 0))) = fl (g * g) := by
    rw [mul_zero, hR.zero, add_zero, hR.idem, if_neg (by linarith)]
  refine ⟨(C129_sign hR hr hu1 b q).2.1.2 ((bboxDistance_pos_iff b q).1 (by rw [k1]; exact hpos)), ?_, ?_⟩
  · simp only [projectPointFl]
    rw [hg2, mul_zero, hR.zero, zero_div, hR.zero, sub_zero, h2]
  · simp only [projectPointFl]
    rw [hg2, habs]
    exact s2

/-! The two other sides: exchange the coordinates. -/

theorem bboxDistanceFl_swap (fl : K → K) (b : Box K) (p : K × K) :
    bboxDistanceFl fl ⟨b.ymin, b.ymax, b.xmin, b.xmax⟩ (p.2, p.1) = bboxDistanceFl fl b p := by
  simp only [bboxDistanceFl, neg_inj]
  rw [min_assoc, min_comm (min _ _), ← min_assoc]

theorem gradFlOf_swap (fl : K → K) (b : Box K) (deps : K) (q : K × K) :
    gradFlOf fl (bboxDistanceFl fl ⟨b.ymin, b.ymax, b.xmin, b.xmax⟩) deps (q.2, q.1) = (gradFlOf fl (bboxDistanceFl fl b) deps q).swap := by
  simp only [gradFlOf, Prod.swap, Prod.mk.injEq]
  exact ⟨by rw [bboxDistanceFl_swap fl b (fl (q.1 + 0), fl (q.2 + deps)), bboxDistanceFl_swap],
    by rw [bboxDistanceFl_swap fl b (fl (q.1 + deps), fl (q.2 + 0)), bboxDistanceFl_swap]⟩

theorem projectPointFl_swap (fl : K → K) (deps : K) (q : K × K) (d : K) (g : K × K) :
    projectPointFl fl deps (q.2, q.1) d g.swap = (projectPointFl fl deps q d g).swap := by
  simp only [projectPointFl, Prod.swap]
  rw [add_comm (fl (g.2 * g.2))]

/-- **C129** (projection): points that are not outside stay; a point beyond one side only, and between the lines through the neighbouring sides, is moved to
this side, up to rounding errors, and only perpendicularly to it. -/
theorem C129_projection {fl : K → K} {u M : K} (hR : Rounding fl) (hr : RelError fl u) (h0 : 0 ≤ u) (hu : u ≤ 1 / 48) {b : Box K}
    {fd : List (K × K) → Option (List K)} (hf : Pointwise fd (bboxDistanceFl fl b)) {deps : K} (hdeps : 0 < deps) (hdM : deps ≤ M) (hd1 : deps ≤ 1 / 2)
    (hκ : 48 * (u * M) ≤ deps) (hwx : b.xmin + 4 * deps ≤ b.xmax) (hwy : b.ymin + 4 * deps ≤ b.ymax)
    (hb : ∀ c ∈ [b.xmin, b.xmax, b.ymin, b.ymax], |c| ≤ M ∧ fl c = c) {p p' : List (K × K)} (hp : ∀ q ∈ p, (|q.1| ≤ M ∧ |q.2| ≤ M) ∧ fl q.1 = q.1 ∧ fl q.2 = q.2)
    (h : projectPointsBackFl fl fd deps p = some p') :
    p'.length = p.length ∧ ∀ (i : Nat) (q q' : K × K), p[i]? = some q → p'[i]? = some q' →
      (¬ OutsideBox b q → q' = q) ∧
      (∀ c, (c = b.xmin ∧ q.1 < c ∨ c = b.xmax ∧ c < q.1) → b.ymin + 2 * deps ≤ q.2 → q.2 + 2 * deps ≤ b.ymax →
        q'.2 = q.2 ∧ |q'.1 - c| ≤ 23 * (u * M) / deps * |q.1 - c| + 2 * (u * M)) ∧
      (∀ c, (c = b.ymin ∧ q.2 < c ∨ c = b.ymax ∧ c < q.2) → b.xmin + 2 * deps ≤ q.1 → q.1 + 2 * deps ≤ b.xmax →
        q'.1 = q.1 ∧ |q'.2 - c| ≤ 23 * (u * M) / deps * |q.2 - c| + 2 * (u * M)) := by
  simp only [List.forall_mem_cons, List.not_mem_nil, false_implies, implies_true, and_true] at hb
  obtain ⟨⟨x1, x2⟩, ⟨x3, x4⟩, ⟨y1, y2⟩, y3, y4⟩ := hb
  rw [projectFl_eq hf h]
  refine ⟨List.length_map _, fun i q q' hi hi' => ?_⟩
  obtain ⟨⟨m1, m2⟩, r1, r2⟩ := hp q (List.mem_of_getElem? hi)
  rw [List.getElem?_map, hi, Option.map_some, Option.some.injEq] at hi'
  refine ⟨fun ho => ?_, fun c hc hlo hhi => ?_, fun c hc hlo hhi => ?_⟩
  · rw [← hi', if_neg]
    exact fun hc => ho ((C129_sign hR hr (by linarith) b q).2.1.1 hc)
  · obtain ⟨a1, a2, a3⟩ := project_beyond_x hR hr h0 hu hdeps hdM hd1 hκ hwx ⟨x1, x3⟩ y4 m1 r1 r2 hlo hhi hc
    rw [if_pos a1] at hi'
    subst hi'
    exact ⟨a2, a3⟩
  · obtain ⟨a1, a2, a3⟩ := project_beyond_x (b := ⟨b.ymin, b.ymax, b.xmin, b.xmax⟩) (q := (q.2, q.1)) hR hr h0 hu hdeps hdM hd1 hκ hwy ⟨y1, y3⟩ x4 m2 r2 r1 hlo hhi hc
    rw [bboxDistanceFl_swap] at a1 a2 a3
    rw [gradFlOf_swap, projectPointFl_swap] at a2 a3
    rw [if_pos a1] at hi'
    subst hi'
    exact ⟨a2, a3⟩

end

/-! ### Examples and negative results in doubles -/

/-- **C129** (corners): "This has an incorrect distance to the four corners but that isn't a big deal": a point beyond two sides is projected to one of them only,
and stays outside. -/
theorem C129_corner_outside : ∃ (b : Box ℚ) (q : ℚ × ℚ) (deps : ℚ), OutsideBox b q ∧
    projectPointFl roundDouble deps q (bboxDistanceFl roundDouble b q) (gradFlOf roundDouble (bboxDistanceFl roundDouble b) deps q) = (2, 1) ∧
    OutsideBox b (2, 1) := by
  refine ⟨⟨0, 1, 0, 1⟩, (2, 3), 1 / 2 ^ 26, Or.inr (Or.inl (by norm_num)), ?_, Or.inr (Or.inl (by norm_num))⟩
  decide +kernel

example : bboxDistanceFl roundDouble (⟨0, 1, 0, 1⟩ : Box ℚ) (1 / 3, 1 / 2) < 0 ∧ 0 < bboxDistanceFl roundDouble (⟨0, 1, 0, 1⟩ : Box ℚ) (1 + 1 / 2 ^ 200, 1 / 2) :=
  ⟨(C129_sign C113_roundDouble.1 C113_roundDouble.2 (by norm_num) _ _).1.2 ⟨⟨by norm_num, by norm_num⟩, by norm_num, by norm_num⟩,
    (C129_sign C113_roundDouble.1 C113_roundDouble.2 (by norm_num) _ _).2.1.2 (Or.inr (Or.inl (by norm_num)))⟩

/-- A point right of the unit square is moved to its right side. -/
example : ∃ q' : ℚ × ℚ, projectPointsBackFl roundDouble (fun l => some (l.map (bboxDistanceFl roundDouble ⟨0, 1, 0, 1⟩))) (1 / 2 ^ 26) [(5 / 4, 1 / 2)] = some [q'] ∧
    q'.2 = 1 / 2 ∧ |q'.1 - 1| ≤ 23 * (1 / 2 ^ 53 * 2) / (1 / 2 ^ 26) * |5 / 4 - 1| + 2 * (1 / 2 ^ 53 * 2) := by
  have h : ∃ q' : ℚ × ℚ, projectPointsBackFl roundDouble (fun l => some (l.map (bboxDistanceFl roundDouble ⟨0, 1, 0, 1⟩))) (1 / 2 ^ 26) [(5 / 4, 1 / 2)] = some [q'] :=
    ⟨(1, 1 / 2), by decide +kernel⟩
  obtain ⟨q', h⟩ := h
  refine ⟨q', h, ?_⟩
  exact ((C129_projection (M := 2) C113_roundDouble.1 C113_roundDouble.2 (by norm_num) (by norm_num) (fun l v e => (Option.some.inj e).symm) (by norm_num) (by norm_num)
    (by norm_num) (by norm_num) (by norm_num) (by norm_num) (by
      simp only [List.forall_mem_cons, List.not_mem_nil, false_implies, implies_true, and_true]
      exact ⟨⟨by norm_num, by decide +kernel⟩, ⟨by norm_num, by decide +kernel⟩, ⟨by norm_num, by decide +kernel⟩, by norm_num, by decide +kernel⟩) (by
      simp only [List.forall_mem_cons, List.not_mem_nil, false_implies, implies_true, and_true]
      exact ⟨⟨by norm_num, by norm_num⟩, by decide +kernel, by decide +kernel⟩) h).2 0 _ _ rfl rfl).2.1 1 (Or.inr ⟨rfl, by norm_num⟩) (by norm_num) (by norm_num)

/-- A mesh of the rectangle `-1 ≤ x, y ≤ 12`. -/
def boxD : GenFl ℚ := { genD [] false with fd := fun l => some (l.map (bboxDistanceFl roundDouble ⟨-1, 12, -1, 12⟩)), geps := 1 / 8 }

example : ∃ m l, generateMeshFl boxD 2 [(1, 1), (10, 0), (0, 11)] = some (m, l) ∧ m.t ≠ [] ∧ ∃ r, l.getLast? = some r ∧ ∀ e, IsExtent r.points e →
    (∀ q ∈ r.points, |q.1| ≤ 12 ∧ |q.2| ≤ 12) → ∀ g ∈ m.t, ∃ x y z, corners m.p g = [some x, some y, some z] ∧
      BoxMargin (1 / 8 - ((1 + 1 / 2 ^ 53) ^ 3 * (e * boxD.ptol) + 8 * (1 / 2 ^ 53) * 12)) (⟨-1, 12, -1, 12⟩ : Box ℚ) (centroid x y z) := by
  have h : ((generateMeshFl boxD 2 [(1, 1), (10, 0), (0, 11)]).map fun R => !R.1.t.isEmpty) = some true := by decide +kernel
  rw [Option.map_eq_some_iff] at h
  obtain ⟨⟨m, l⟩, h, h'⟩ := h
  exact ⟨m, l, h, (fun e => by simp [e] at h'), C129_mesh (S := boxD) (C113_roundDouble (K := ℚ)).1 (C113_roundDouble (K := ℚ)).2 (by norm_num) (by norm_num) rndQ_isRounding
    (fun _ _ h => (Option.some.inj h).symm) (by decide +kernel) (by norm_num [boxD, genD, genQ]) h⟩

/-! ### The circle -/

/-- The double `0.1`. -/
def tenth64 : ℚ := 3602879701896397 / 36028797018963968

/-- The double `2 * math.pi`. -/
def twoPi64 : ℚ := 884279719003555 / 140737488355328

theorem circleAngles_more {K : Type} [Field K] [LinearOrder K] {rnd : K → K} {step twoPi : K} : ∀ {n : Nat} {t : K}, (circleAnglesFl rnd step twoPi n t).length < n →
    ∀ m, n ≤ m → circleAnglesFl rnd step twoPi m t = circleAnglesFl rnd step twoPi n t
  | 0, _, h, _, _ => absurd h (Nat.not_lt_zero _)
  | n + 1, t, h, m, hm => by
    obtain ⟨m, rfl⟩ : ∃ k, m = k + 1 := ⟨m - 1, by omega⟩
    unfold circleAnglesFl at h ⊢
    split
    · rename_i hc
      rw [if_pos hc, List.length_cons] at h
      rw [circleAngles_more (n := n) (by omega) m (by omega)]
    · rfl

/-- **C129** (angles of the circle): computed with doubles, the loop ends after 63 rounds, and the angles are `0, 0.1, …, 6.2` up to accumulated rounding errors. -/
theorem C129_angles {n : Nat} (hn : 64 ≤ n) : (circleAnglesFl roundDouble tenth64 twoPi64 n 0).length = 63 ∧
    ∀ (k : Nat) (t : ℚ), (circleAnglesFl roundDouble tenth64 twoPi64 n 0)[k]? = some t → |t - k / 10| ≤ 1 / 2 ^ 45 := by
  have h1 : (circleAnglesFl roundDouble tenth64 twoPi64 64 0).length = 63 := by decide +kernel
  rw [circleAngles_more (by rw [h1]; norm_num) n hn]
  refine ⟨h1, fun k t hk => ?_⟩
  have h2 : ∀ x ∈ (circleAnglesFl roundDouble tenth64 twoPi64 64 0).zipIdx, |x.1 - (x.2 : ℚ) / 10| ≤ 1 / 2 ^ 45 := by decide +kernel
  exact h2 (t, k) (List.mem_zipIdx_iff_getElem?.2 hk)

theorem abs_cast_le {a b : ℚ} (h : |a| ≤ b) : |(a : ℝ)| ≤ (b : ℝ) := by
  rw [← Rat.cast_abs]
  exact Rat.cast_le.2 h

theorem coordinate_error {c C r x δ : ℝ} {c' r' x' : ℚ} (hc : c = (c' : ℝ)) (hr : r = (r' : ℝ)) (hx : x = (x' : ℝ)) (hC : |C| ≤ 1) (hδ : |c - C| ≤ δ) (h1 : δ ≤ 1) :
    |((roundDouble (roundDouble (r' * c') + x') : ℚ) : ℝ) - (r * C + x)| ≤ |r| * (δ + 6 / 2 ^ 53) + |x| / 2 ^ 53 := by
  have e1 := abs_cast_le (C113_roundDouble.2 (r' * c'))
  have e2 := abs_cast_le (C113_roundDouble.2 (roundDouble (r' * c') + x'))
  push_cast at e1 e2
  have e1' : |((roundDouble (r' * c') : ℚ) : ℝ) - r * c| ≤ 1 / 2 ^ 53 * |r * c| := by rw [hr, hc]; exact e1
  have e2' : |((roundDouble (roundDouble (r' * c') + x') : ℚ) : ℝ) - (((roundDouble (r' * c') : ℚ) : ℝ) + x)| ≤
      1 / 2 ^ 53 * |((roundDouble (r' * c') : ℚ) : ℝ) + x| := by rw [hx]; exact e2
  set A := ((roundDouble (r' * c') : ℚ) : ℝ)
  set B := ((roundDouble (roundDouble (r' * c') + x') : ℚ) : ℝ)
  have hcc : |c| ≤ 2 := by
    have := abs_add_le (c - C) C
    rw [sub_add_cancel] at this
    linarith
  have hrc : |r * c| ≤ |r| * 2 := by
    rw [abs_mul]
    exact mul_le_mul_of_nonneg_left hcc (abs_nonneg r)
  have hA : |A| ≤ |r| * 3 := by
    have := abs_add_le (A - r * c) (r * c)
    rw [sub_add_cancel] at this
    nlinarith [abs_nonneg r]
  have hAx := abs_add_le A x
  have hd : |r * c - r * C| ≤ |r| * δ := by
    rw [← mul_sub, abs_mul]
    exact mul_le_mul_of_nonneg_left hδ (abs_nonneg r)
  have t1 := abs_add_le (B - (A + x)) (A - r * c)
  have t2 := abs_add_le (B - (A + x) + (A - r * c)) (r * c - r * C)
  rw [show B - (A + x) + (A - r * c) + (r * c - r * C) = B - (r * C + x) by ring] at t2
  have hr0 := abs_nonneg r
  nlinarith

/-- **C129** (points of the circle): with `cos` and `sin` of the platform wrong by at most `δ`, the 63 points are those at the angles `0, 0.1, …, 6.2`, up to `δ`
and rounding errors. -/
theorem C129_circle {cos sin : ℚ → ℚ} {δ : ℝ} (hδ : δ ≤ 1 / 2) (hcos : ∀ t, |(cos t : ℝ) - Real.cos t| ≤ δ) (hsin : ∀ t, |(sin t : ℝ) - Real.sin t| ≤ δ) {n : Nat}
    (hn : 64 ≤ n) (center : ℚ × ℚ) (radius : ℚ) :
    (createCircleFl roundDouble cos sin tenth64 twoPi64 n center radius).length = 63 ∧
    ∀ (k : Nat) (p : ℚ × ℚ), (createCircleFl roundDouble cos sin tenth64 twoPi64 n center radius)[k]? = some p →
      |(p.1 : ℝ) - (onCircle (center.1, center.2) radius (k / 10)).1| ≤ |(radius : ℝ)| * (δ + 1 / 2 ^ 44) + |(center.1 : ℝ)| / 2 ^ 53 ∧
      |(p.2 : ℝ) - (onCircle (center.1, center.2) radius (k / 10)).2| ≤ |(radius : ℝ)| * (δ + 1 / 2 ^ 44) + |(center.2 : ℝ)| / 2 ^ 53 := by
  obtain ⟨h1, h2⟩ := C129_angles hn
  refine ⟨by rw [createCircleFl, List.length_map, h1], fun k p hp => ?_⟩
  rw [createCircleFl, List.getElem?_map, Option.map_eq_some_iff] at hp
  obtain ⟨t, ht, rfl⟩ := hp
  have h3 : |(t : ℝ) - k / 10| ≤ 1 / 2 ^ 45 := by
    have := abs_cast_le (h2 k t ht)
    push_cast at this
    exact this
  have tri : ∀ a b c : ℝ, |a - b| ≤ δ → |b - c| ≤ |(t : ℝ) - k / 10| → |a - c| ≤ δ + 1 / 2 ^ 45 := fun a b c x y => by
    have := abs_add_le (a - b) (b - c)
    rw [sub_add_sub_cancel] at this
    linarith
  have hc := tri _ _ _ (hcos t) (Real.abs_cos_sub_cos_le t (k / 10))
  have hs := tri _ _ _ (hsin t) (Real.abs_sin_sub_sin_le t (k / 10))
  have hr0 := abs_nonneg (radius : ℝ)
  have fin : ∀ x : ℝ, |(radius : ℝ)| * (δ + 1 / 2 ^ 45 + 6 / 2 ^ 53) + |x| / 2 ^ 53 ≤ |(radius : ℝ)| * (δ + 1 / 2 ^ 44) + |x| / 2 ^ 53 := fun x => by
    have : δ + 1 / 2 ^ 45 + 6 / 2 ^ 53 ≤ δ + 1 / 2 ^ 44 := by
      have : (1 : ℝ) / 2 ^ 45 + 6 / 2 ^ 53 ≤ 1 / 2 ^ 44 := by norm_num
      linarith
    have := mul_le_mul_of_nonneg_left this hr0
    linarith
  exact ⟨(coordinate_error rfl rfl rfl (Real.abs_cos_le_one _) hc (by linarith)).trans (fin _),
    (coordinate_error rfl rfl rfl (Real.abs_sin_le_one _) hs (by linarith)).trans (fin _)⟩

/-- There are rational functions as close to `cos` and `sin` as needed. -/
example : ∃ cos sin : ℚ → ℚ, (∀ t, |(cos t : ℝ) - Real.cos t| ≤ 1 / 2 ^ 53) ∧ (∀ t, |(sin t : ℝ) - Real.sin t| ≤ 1 / 2 ^ 53) ∧
    (createCircleFl roundDouble cos sin tenth64 twoPi64 64 (1, 2) 3).length = 63 := by
  have key : ∀ f : ℝ → ℝ, ∃ g : ℚ → ℚ, ∀ t, |(g t : ℝ) - f t| ≤ 1 / 2 ^ 53 := fun f => by
    have : ∀ t : ℚ, ∃ y : ℚ, |(y : ℝ) - f t| ≤ 1 / 2 ^ 53 := fun t => by
      obtain ⟨y, h1, h2⟩ := exists_rat_btwn (show f t < f t + 1 / 2 ^ 53 by norm_num)
      exact ⟨y, by rw [abs_le]; constructor <;> linarith⟩
    exact ⟨fun t => (this t).choose, fun t => (this t).choose_spec⟩
  obtain ⟨c, hc⟩ := key Real.cos
  obtain ⟨s, hs⟩ := key Real.sin
  exact ⟨c, s, hc, hs, (C129_circle (by norm_num) hc hs le_rfl _ _).1⟩

end OM
