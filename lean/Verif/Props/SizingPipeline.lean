import Verif.Props.GridMin
import Verif.Props.Edgefx
/-!
# C98: the sizing function of the documentation, `compute_minimum` followed by `enforce_mesh_gradation`

The README combines several sizing grids with `compute_minimum` and limits the gradation of the result. Here the two are composed, with
hypotheses on the given grids only.
-/
set_option linter.unusedSectionVars false
namespace OM

section
variable {K C : Type} [Field K] [LinearOrder K] [IsStrictOrderedRing K] [FloorRing K] [DecidableEq C]

/-- The given sizes are positive: those of the base grid at all of its nodes, and all that the other grids offer there. -/
structure Spec.PositiveSizes (tr : C → C → K × K → K × K) (base : Grid K C) (others : List (Grid K C)) : Prop where
  base_pos : ∀ i j, ∃ x, base.vals i j = some x ∧ 0 < x
  others_pos : ∀ o ∈ others, ∀ (i : Fin base.nx) (j : Fin base.ny) (v : Option K),
    Offers tr base o (base.xAt i, base.yAt j) (base.vals i j) v → ∃ x, v = some x ∧ 0 < x

/-- The spacings and shapes of the given grids are valid and the fill value does not occur. -/
structure Spec.UsableGrids (base : Grid K C) (others : List (Grid K C)) : Prop where
  not_global : ¬ (|base.box.xmin| = 180 ∧ |base.box.xmax| = 180)
  lattice : ∀ o ∈ others, 0 < o.dx ∧ 0 < o.dy ∧ 0 < o.nx ∧ 0 < o.ny
  no_fill : ∀ o ∈ others, o.crs = base.crs → o.extrapolate = false → ∀ i j, o.vals i j ≠ some (-999)

open Spec

theorem minimum_positive {tr : C → C → K × K → K × K} {base g : Grid K C} {others : List (Grid K C)} (hu : UsableGrids base others)
    (hp : PositiveSizes tr base others) (h : computeMinimum tr (base :: others) = some g) :
    ∃ (w : Fin base.nx → Fin base.ny → Option K) (lo : K),
      g = { base with vals := w, hmin := some lo, extrapolate := true, interp := some true } ∧ 0 < lo ∧
      (∀ i j, ∃ x, w i j = some x ∧ lo ≤ x ∧ (∃ z, base.vals i j = some z ∧ x ≤ z) ∧
        ∀ o ∈ others, ∃ z, Offers tr base o (base.xAt i, base.yAt j) (base.vals i j) (some z) ∧ x ≤ z) ∧
      ∃ i j, w i j = some lo ∧ (base.vals i j = some lo ∨ ∃ o ∈ others, Offers tr base o (base.xAt i, base.yAt j) (base.vals i j) (some lo)) := by
  obtain ⟨w, arrs, h1, h2, h3⟩ := C34_pointwise_minimum_partial h hu.not_global hu.lattice hu.no_fill
  obtain ⟨lo, h4, h5, h6⟩ := C34_hmin h
  have back : ∀ a ∈ arrs, ∃ o ∈ others, ∀ (i : Fin base.nx) (j : Fin base.ny), Offers tr base o (base.xAt i, base.yAt j) (base.vals i j) (a i j) := by
    intro a ha
    obtain ⟨n, hn, rfl⟩ := List.getElem_of_mem ha
    have hl := h2.length_eq
    exact ⟨others[n], List.getElem_mem _, h2.get (by omega) hn⟩
  have forth : ∀ o ∈ others, ∃ a ∈ arrs, ∀ (i : Fin base.nx) (j : Fin base.ny), Offers tr base o (base.xAt i, base.yAt j) (base.vals i j) (a i j) := by
    intro o ho
    obtain ⟨n, hn, rfl⟩ := List.getElem_of_mem ho
    have hl := h2.length_eq
    exact ⟨arrs[n], List.getElem_mem _, h2.get hn (by omega)⟩
  have num : ∀ i j, ∃ x, w i j = some x := by
    intro i j
    refine Option.isSome_iff_exists.1 ((h3 i j).1 ⟨?_, fun a ha => ?_⟩)
    · obtain ⟨x, hx, -⟩ := hp.base_pos i j
      rw [hx]; rfl
    · obtain ⟨o, ho, hoa⟩ := back a ha
      obtain ⟨x, hx, -⟩ := hp.others_pos o ho i j _ (hoa i j)
      rw [hx]; rfl
  have pos : ∀ i j x, w i j = some x → 0 < x := by
    intro i j x hx
    rcases ((h3 i j).2 x hx).1.1 with hb | ⟨a, ha, hb⟩
    · obtain ⟨y, hy, hy0⟩ := hp.base_pos i j
      rw [hb] at hy
      exact Option.some.inj hy ▸ hy0
    · obtain ⟨o, ho, hoa⟩ := back a ha
      obtain ⟨y, hy, hy0⟩ := hp.others_pos o ho i j _ (hoa i j)
      rw [hb] at hy
      exact Option.some.inj hy ▸ hy0
  rw [h4] at h1
  subst h1
  refine ⟨w, lo, rfl, h5.1, fun i j => ?_, ?_⟩
  · obtain ⟨x, hx⟩ := num i j
    obtain ⟨⟨-, hlow⟩, hz⟩ := (h3 i j).2 x hx
    refine ⟨x, hx, h6 ⟨pos i j x hx, i, j, hx⟩, hz, fun o ho => ?_⟩
    obtain ⟨a, ha, hoa⟩ := forth o ho
    obtain ⟨z, hz', -⟩ := hp.others_pos o ho i j _ (hoa i j)
    have := hoa i j
    rw [hz'] at this
    exact ⟨z, this, hlow (.inr ⟨a, ha, hz'⟩)⟩
  · obtain ⟨-, i, j, hij⟩ := h5
    refine ⟨i, j, hij, ?_⟩
    rcases ((h3 i j).2 lo hij).1.1 with hb | ⟨a, ha, hb⟩
    · exact .inl hb
    · obtain ⟨o, ho, hoa⟩ := back a ha
      have := hoa i j
      rw [hb] at this
      exact .inr ⟨o, ho, this⟩

/-- **C98**, sizes at the nodes. The graded minimum of positive sizing grids lives on the lattice of the first one. No size exceeds the size of the
base grid or that offered by any other grid at the node. The recorded minimum is positive, the smallest size of the graded grid, and a size
of one of the given grids.
Missing: base grids around the globe and the correction at the pole (`C28_globe_rows_exchanged`). -/
theorem C98_sizes_partial {tr : C → C → K × K → K × K} {M : StereoMaps K} {sq2 sqEps gr : K} {base g r : Grid K C} {others : List (Grid K C)} {crs : C}
    (hs2 : 1 ≤ sq2) (hse : 0 ≤ sqEps) (hdx : 0 ≤ base.dx) (hu : UsableGrids base others) (hp : PositiveSizes tr base others)
    (h : computeMinimum tr (base :: others) = some g) (h' : enforceGradation M sq2 sqEps g gr crs false = some r) :
    ∃ (w : Fin base.nx → Fin base.ny → Option K) (lo : K),
      r = { base with vals := w, hmin := some lo, extrapolate := true, crs := crs, interp := some true } ∧ 0 < lo ∧
      (∀ i j, ∃ y, w i j = some y ∧ lo ≤ y ∧ (∃ z, base.vals i j = some z ∧ y ≤ z) ∧
        ∀ o ∈ others, ∃ z, Offers tr base o (base.xAt i, base.yAt j) (base.vals i j) (some z) ∧ y ≤ z) ∧
      ∃ i j, w i j = some lo ∧ (base.vals i j = some lo ∨ ∃ o ∈ others, Offers tr base o (base.xAt i, base.yAt j) (base.vals i j) (some lo)) := by
  obtain ⟨v, lo, rfl, hlo, hv, hmin⟩ := minimum_positive hu hp h
  obtain ⟨w, -, -, hr, -⟩ := C28_values_partial (g := { base with vals := v, hmin := some lo, extrapolate := true, interp := some true }) hu.not_global h'
  subst hr
  have low : ∀ (i : Fin base.nx) (j : Fin base.ny), ∃ x y, v i j = some x ∧ w i j = some y ∧ y ≤ x ∧
      ∀ lo, (∀ k l x, v k l = some x → lo ≤ x) → lo ≤ y := C28_lowered_partial (g := { base with vals := v, hmin := some lo, extrapolate := true, interp := some true }) hs2 hse hdx hu.not_global (by
    intro i j x hx
    obtain ⟨y, hy, hy0, -⟩ := hv i j
    have : some y = some x := hy.symm.trans hx
    exact Option.some.inj this ▸ hlo.le.trans hy0) h'
  have above : ∀ k l x, v k l = some x → lo ≤ x := by
    intro k l x hx
    obtain ⟨y, hy, hy0, -⟩ := hv k l
    rw [hy] at hx
    exact Option.some.inj hx ▸ hy0
  refine ⟨w, lo, rfl, hlo, fun i j => ?_, ?_⟩
  · obtain ⟨x, y, hx, hy, hyx, hb⟩ := low i j
    obtain ⟨x', hx', -, ⟨z, hz, hxz⟩, ho⟩ := hv i j
    obtain rfl : x = x' := by rw [hx] at hx'; exact Option.some.inj hx'
    refine ⟨y, hy, hb lo above, ⟨z, hz, hyx.trans hxz⟩, fun o h => ?_⟩
    obtain ⟨u, hu1, hu2⟩ := ho o h
    exact ⟨u, hu1, hyx.trans hu2⟩
  · obtain ⟨i, j, hij, hor⟩ := hmin
    obtain ⟨x, y, hx, hy, hyx, hb⟩ := low i j
    obtain rfl : x = lo := by rw [hx] at hij; exact Option.some.inj hij
    refine ⟨i, j, ?_, hor⟩
    rw [hy, le_antisymm hyx (hb x above)]

/-- **C98**, existence: grids that can be aligned give a result, for every gradation that is not negative and equal spacings. -/
theorem C98_succeeds (tr : C → C → K × K → K × K) (M : StereoMaps K) (sq2 sqEps : K) {gr : K} {base : Grid K C} {others : List (Grid K C)} (crs : C)
    (hgr : 0 ≤ gr) (hdx : 0 < base.dx) (hd : base.dx = base.dy) (hx : base.box.xmin ≤ base.box.xmax) (hy : base.box.ymin ≤ base.box.ymax)
    (hn : 0 < base.nx) (hm : 0 < base.ny)
    (hal : ∀ o ∈ others, (o.crs = base.crs → o.box.xmin < base.box.xmax ∧ base.box.xmin < o.box.xmax ∧
      o.box.ymin < base.box.ymax ∧ base.box.ymin < o.box.ymax) ∧ (o.crs ≠ base.crs → o.interp.isSome))
    (hu : UsableGrids base others) (hp : PositiveSizes tr base others) :
    ∃ g r, computeMinimum tr (base :: others) = some g ∧ enforceGradation M sq2 sqEps g gr crs false = some r := by
  have hs := C34_succeeds_partial tr base others hal hu.not_global hu.lattice hu.no_fill
    ⟨⟨0, hn⟩, ⟨0, hm⟩, hp.base_pos _ _, fun o ho v hv => hp.others_pos o ho _ _ v hv⟩
  obtain ⟨g, hg⟩ := Option.isSome_iff_exists.1 hs
  obtain ⟨v, lo, rfl, -, hv, -⟩ := minimum_positive hu hp hg
  obtain ⟨r, hr⟩ := Option.isSome_iff_exists.1 (C28_succeeds M sq2 sqEps (g := { base with vals := v, hmin := some lo, extrapolate := true, interp := some true })
    crs hgr hdx hd hx hy hn hm fun i j => by
      obtain ⟨x, hx, -⟩ := hv i j
      show (v i j).isSome
      rw [hx]; rfl)
  exact ⟨_, r, hg, hr⟩

/-- **C98**, sizes at points: evaluated at any point of the lattice the graded minimum gives a size of at least the recorded minimum, and at most the
largest size of the base grid around the point. -/
theorem C98_points_partial {tr : C → C → K × K → K × K} {M : StereoMaps K} {sq2 sqEps gr : K} {base g r : Grid K C} {others : List (Grid K C)} {crs : C}
    (hs2 : 1 ≤ sq2) (hse : 0 ≤ sqEps) (hdx : 0 < base.dx) (hdy : 0 < base.dy) (hu : UsableGrids base others) (hp : PositiveSizes tr base others)
    (h : computeMinimum tr (base :: others) = some g) (h' : enforceGradation M sq2 sqEps g gr crs false = some r) {q : K × K}
    (hq : InLattice base.box.xmin base.dx base.nx base.box.ymin |base.dy| base.ny q) :
    ∃ lo v, r.hmin = some lo ∧ r.evalAt q = some (some v) ∧ 0 < lo ∧ lo ≤ v ∧
      ∀ hi, (∀ (i : Fin base.nx) (j : Fin base.ny) (z : K), |q.1 - nodeAt base.box.xmin base.dx i| < base.dx →
        |q.2 - nodeAt base.box.ymin |base.dy| j| < |base.dy| → base.vals i j = some z → z ≤ hi) → v ≤ hi := by
  obtain ⟨w, lo, rfl, hlo, hw, -⟩ := C98_sizes_partial hs2 hse hdx.le hu hp h h'
  have hc : cyclicBox base.box = false := by
    unfold cyclicBox
    rw [← Bool.not_eq_true]
    simpa using hu.not_global
  have hb : cyclicVals base.box w = w := by simp [cyclicVals, hc]
  obtain ⟨v, hv, hb2⟩ := C31_eval_between_partial
    ({ base with vals := w, hmin := some lo, extrapolate := true, crs := crs, interp := some true } : Grid K C) q hdx hdy hq (by
      intro i j _ _
      show (cyclicVals base.box w i j).isSome
      obtain ⟨y, hy, -⟩ := hw i j
      rw [hb, hy]; rfl)
  simp only [Grid.buildInterpolant, hb] at hv hb2
  refine ⟨lo, v, rfl, hv, hlo, ?_, fun hi hh => ?_⟩
  · -- any upper bound will do
    have : ∃ hi, ∀ (i : Fin base.nx) (j : Fin base.ny) (x : K), w i j = some x → x ≤ hi := by
      obtain ⟨hi, hhi⟩ := ((Set.finite_range fun ij : Fin base.nx × Fin base.ny => (w ij.1 ij.2).elim lo id)).bddAbove
      refine ⟨hi, fun i j x hx => ?_⟩
      have := hhi (Set.mem_range_self (i, j))
      simpa [hx] using this
    obtain ⟨hi, hhi⟩ := this
    refine (hb2 lo hi fun i j x _ _ hx => ⟨?_, hhi i j x hx⟩).1
    obtain ⟨y, hy, hy0, -⟩ := hw i j
    have : some y = some x := hy.symm.trans hx
    exact Option.some.inj this ▸ hy0
  · refine (hb2 lo hi fun i j x h1 h2 hx => ?_).2
    obtain ⟨y, hy, hy0, ⟨z, hz, hyz⟩, -⟩ := hw i j
    have : some y = some x := hy.symm.trans hx
    obtain rfl := Option.some.inj this
    exact ⟨hy0, hyz.trans (hh i j z h1 h2 hz)⟩

end

/-! ## Beyond the last node -/

section
open Spec

/-- A base grid whose box ends between two nodes. -/
def pipeBase : Grid ℚ Nat := ⟨⟨0, 29 / 10, 0, 2⟩, 1, 1, 3, 3, fun i _ => if i = 2 then some (1 / 2) else some 9, none, false, 0, none⟩

/-- Another grid that covers a corner of it. -/
def pipeOther : Grid ℚ Nat := ⟨⟨-1, 1, -1, 1⟩, 1, 1, 3, 3, fun _ j => if j = 1 then some 3 else some 5, none, false, 0, none⟩

/-- The two grids combined and graded. -/
def pipeResult : Option (Grid ℚ Nat) :=
  (computeMinimum (fun _ _ q => q) [pipeBase, pipeOther]).bind fun g => enforceGradation noStereo sq2D sqEpsD g 1 0 false

theorem pipe_usable : UsableGrids pipeBase [pipeOther] := by
  refine ⟨by decide +kernel, ?_, ?_⟩ <;> (intro o ho; rw [List.mem_singleton] at ho; subst ho; decide +kernel)

theorem pipe_positive : PositiveSizes (fun _ _ q => q) pipeBase [pipeOther] := by
  have hb : ∀ (i : Fin pipeBase.nx) (j : Fin pipeBase.ny), ∃ x, pipeBase.vals i j = some x ∧ 0 < x := by
    intro i j
    simp only [pipeBase]
    split
    · exact ⟨_, rfl, by norm_num⟩
    · exact ⟨_, rfl, by norm_num⟩
  refine ⟨hb, ?_⟩
  intro o ho i j v hv
  rw [List.mem_singleton] at ho
  subst ho
  obtain ⟨h1, h2⟩ := hv.1 rfl
  by_cases hl : InLattice pipeOther.box.xmin pipeOther.dx pipeOther.nx pipeOther.box.ymin |pipeOther.dy| pipeOther.ny (pipeBase.xAt i, pipeBase.yAt j)
  · obtain ⟨k, l, -, rfl⟩ := h1 (.inr hl)
    simp only [pipeOther]
    split
    · exact ⟨_, rfl, by norm_num⟩
    · exact ⟨_, rfl, by norm_num⟩
  · rw [h2 ⟨rfl, hl⟩]
    exact hb i j

example : pipeResult.map (fun r => (allVals r.vals, r.hmin)) =
    some ([some (5 / 2), some (5 / 2), some (5 / 2), some (3 / 2), some (3 / 2), some (3 / 2), some (1 / 2), some (1 / 2), some (1 / 2)], some (1 / 2)) := by
  decide +kernel
example : 1 ≤ sq2D ∧ 0 ≤ sqEpsD ∧ 0 < pipeBase.dx ∧ pipeBase.dx = pipeBase.dy ∧ 0 < pipeBase.nx ∧ pipeBase.box.xmin ≤ pipeBase.box.xmax ∧
    InLattice pipeBase.box.xmin pipeBase.dx pipeBase.nx pipeBase.box.ymin |pipeBase.dy| pipeBase.ny (3 / 2, 1 / 3) := by
  refine ⟨by decide +kernel, by decide +kernel, by decide +kernel, rfl, by decide, by decide +kernel, ⟨by decide, ?_, ?_⟩, by decide, ?_, ?_⟩ <;>
    norm_num [nodeAt, pipeBase]
example : pipeResult.bind (fun r => r.evalAt (3 / 2, 1 / 3)) = some (some 1) := by decide +kernel

/-- **C98** fails in the part of the box beyond the last node: `compute_minimum` makes the result extrapolate linearly, and the size at a point inside
the box of two positive grids is negative. -/
theorem C98_negative_in_box :
    ∃ (base other g r : Grid ℚ Nat) (q : ℚ × ℚ), UsableGrids base [other] ∧ PositiveSizes (fun _ _ q => q) base [other] ∧
      computeMinimum (fun _ _ q => q) [base, other] = some g ∧ enforceGradation noStereo sq2D sqEpsD g 1 0 false = some r ∧
      r.box.xmin ≤ q.1 ∧ q.1 ≤ r.box.xmax ∧ r.box.ymin ≤ q.2 ∧ q.2 ≤ r.box.ymax ∧ ∃ v, r.evalAt q = some (some v) ∧ v < 0 := by
  have h1 : (pipeResult.map fun r => (r.box.xmin, r.box.xmax, r.box.ymin, r.box.ymax, r.evalAt (29 / 10, 1))) =
      some (0, 29 / 10, 0, 2, some (some (-2 / 5))) := by decide +kernel
  rw [Option.map_eq_some_iff] at h1
  obtain ⟨r, hr, h1⟩ := h1
  unfold pipeResult at hr
  rw [Option.bind_eq_some_iff] at hr
  obtain ⟨g, hg, hr⟩ := hr
  simp only [Prod.mk.injEq] at h1
  obtain ⟨a1, a2, a3, a4, a5⟩ := h1
  refine ⟨pipeBase, pipeOther, g, r, (29 / 10, 1), pipe_usable, pipe_positive, hg, hr, ?_, ?_, ?_, ?_, _, a5, by norm_num⟩
  · rw [a1]; norm_num
  · rw [a2]
  · rw [a3]; norm_num
  · rw [a4]; norm_num

end
end OM
