import Verif.Props.Edgefx
/-!
# C104: gradation of global sizing functions, with the correction at the north pole

`enforce_mesh_gradation(..., stereo=True)` limits the field, resamples the **given** field on a stereographic lattice around the north
pole, limits that, puts it back at all nodes north of the equator and limits once more. The statements hold for all maps between the two
coordinate systems.
-/
set_option linter.unusedSectionVars false

namespace OM
open Spec

namespace Spec

/-- The row whose value ends in row `i` when `build_interpolant` has exchanged the first and last row of a box around the globe. -/
def rowAfter {K : Type} [Field K] [LinearOrder K] (b : Box K) {n : Nat} (i : Fin n) : Fin n :=
  if |b.xmin| = 180 ∧ |b.xmax| = 180 then
    if i.val = 0 then ⟨n - 1, by have := i.isLt; omega⟩ else if i.val = n - 1 then ⟨0, by have := i.isLt; omega⟩ else i
  else i

/-- Resolution of the stereographic lattice: half the spacing of the grid, in radians. -/
def polarStep {K : Type} [Field K] (pi dx : K) : K := dx * 1 / 180 * pi / 2

/-- No value is extrapolated: the grid does not extrapolate at all, or the nodes of the stereographic lattice lie in the lattice of the
grid and the nodes north of the equator in the stereographic lattice. -/
def NoExtrapolation {K C : Type} [Field K] [LinearOrder K] [FloorRing K] (M : StereoMaps K) (g : Grid K C) : Prop :=
  let d := polarStep M.pi g.dx
  let n := ⌈2 / d⌉.toNat
  (g.interp = some false ∨ ∀ k l : Fin n,
    InLattice g.box.xmin g.dx g.nx g.box.ymin |g.dy| g.ny (M.toLatLon (-1 + (k : K) * d, -1 + (l : K) * d))) ∧
  (g.extrapolate = false ∨ ∀ (i : Fin g.nx) (j : Fin g.ny), 0 < g.yAt j →
    InLattice (-1) d n (-1) |d| n (M.toStereo (g.xAt i, g.yAt j)))

end Spec

section
variable {K C : Type} [Field K] [LinearOrder K] [IsStrictOrderedRing K] [FloorRing K]

theorem limitVals_lowers {sq2 sqEps elen gr : K} {n m : Nat} {vals W : Fin n → Fin m → Option K}
    (hs2 : 1 ≤ sq2) (hse : 0 ≤ sqEps) (helen : 0 ≤ elen) (hgr : 0 ≤ gr) (hpos : ∀ i j v, vals i j = some v → 0 ≤ v)
    (h : limitVals sq2 sqEps elen gr vals = some W) (i : Fin n) (j : Fin m) :
    ∃ x y, vals i j = some x ∧ W i j = some y ∧ y ≤ x ∧ ∀ lo, (∀ k l v, vals k l = some v → lo ≤ v) → lo ≤ y := by
  obtain ⟨f, out, h1, h2, h3, h4, h5⟩ := limitVals_spec h
  have hmem : ∀ v ∈ f, ∃ k l, vals k l = some v := by
    intro v hv
    obtain ⟨p, hp, rfl⟩ := List.getElem_of_mem hv
    have hn : 0 < n := by have := i.isLt; omega
    have hp' : p < n * m := by rw [h1, mul_one] at hp; exact hp
    refine ⟨⟨p % n, Nat.mod_lt _ hn⟩, ⟨p / n, Nat.div_lt_of_lt_mul hp'⟩, ?_⟩
    rw [h2]
    have : nodeIndex n m (p % n) (p / n) 0 = p := by
      simp only [nodeIndex, mul_zero, add_zero]
      exact Nat.mod_add_div p n
    rw [this, List.getElem?_eq_getElem hp]
  have hlt : nodeIndex n m i j 0 < f.length := by
    rw [h1]
    have hi := i.isLt
    have hj := j.isLt
    simp only [nodeIndex, mul_zero, add_zero, mul_one]
    calc i.val + n * j.val < n + n * j.val := by omega
      _ = n * (j.val + 1) := by ring
      _ ≤ n * m := Nat.mul_le_mul_left _ hj
  have hx := List.getElem?_eq_getElem hlt
  have hy := List.getElem?_eq_getElem (h4 ▸ hlt : nodeIndex n m i j 0 < out.length)
  obtain ⟨c1, -, c3, -⟩ := C23_limiter_lowers h1 hs2 hse helen hgr
    (fun v hv => by obtain ⟨k, l, hk⟩ := hmem v hv; exact hpos k l v hk) h3 hx hy
  refine ⟨_, _, (h2 i j).trans hx, (h5 i j).trans hy, c1, fun lo hlo => c3 lo fun v hv => ?_⟩
  obtain ⟨k, l, hk⟩ := hmem v hv
  exact hlo k l v hk

/-- Without extrapolation the interpolated value is a number not below a common lower bound of the nodes. -/
theorem evalWith_above {g : Grid K C} {e : Bool} {q : K × K} (hdx : 0 < g.dx) (hdy : 0 < g.dy) (hn : 0 < g.nx) (hm : 0 < g.ny)
    (hv : ∀ i j, (g.vals i j).isSome) (hq : e = false ∨ InLattice g.box.xmin g.dx g.nx g.box.ymin |g.dy| g.ny q) :
    ∃ v, g.evalWith e q = some v ∧ ∀ lo, lo ≤ 999999 → (∀ i j w, g.vals i j = some w → lo ≤ w) → lo ≤ v := by
  by_cases ho : InLattice g.box.xmin g.dx g.nx g.box.ymin |g.dy| g.ny q
  · obtain ⟨v, hv1, hb⟩ := linearAt_spec g q hdx hdy ho fun i j _ _ => hv i j
    have : g.outside q = false := (outside_false hn hm).2 ho
    refine ⟨v, by simp [Grid.evalWith, this, hv1], fun lo _ hlo => ?_⟩
    obtain ⟨hi, hhi⟩ := ((Set.finite_range fun ij : Fin g.nx × Fin g.ny => (g.vals ij.1 ij.2).elim lo id)).bddAbove
    refine (hb lo hi fun i j w _ _ hw => ⟨hlo i j w hw, ?_⟩).1
    have := hhi (Set.mem_range_self (i, j))
    simpa [hw] using this
  · have he : e = false := hq.resolve_right ho
    have : g.outside q = true := by
      by_contra h
      exact ho ((outside_false hn hm).1 (by simpa using h))
    exact ⟨999999, by simp [Grid.evalWith, he, this], fun lo h _ => h⟩

theorem cyclicVals_rowAfter (b : Box K) {n m : Nat} (W : Fin n → Fin m → Option K) (i : Fin n) (j : Fin m) :
    cyclicVals b W i j = W (rowAfter b i) j := by
  unfold cyclicVals rowAfter
  by_cases h : |b.xmin| = 180 ∧ |b.xmax| = 180
  · have hc : cyclicBox b = true := by simp [cyclicBox, h]
    rw [if_pos hc, if_pos h]
    rfl
  · have hc : cyclicBox b = false := by
      unfold cyclicBox
      rw [← Bool.not_eq_true]
      simpa using h
    rw [hc, if_neg h]
    rfl

/-- The stereographic grid after the correction. -/
def polarGrid (pi : K) (crs : C) (g : Grid K C) (v : Fin ⌈2 / polarStep pi g.dx⌉.toNat → Fin ⌈2 / polarStep pi g.dx⌉.toNat → Option K) : Grid K C :=
  ⟨⟨-1, 1, -1, 1⟩, polarStep pi g.dx, polarStep pi g.dx, ⌈2 / polarStep pi g.dx⌉.toNat, ⌈2 / polarStep pi g.dx⌉.toNat, v, g.hmin, g.extrapolate, crs, some g.extrapolate⟩

theorem stereoFix_eq (M : StereoMaps K) (sq2 sqEps gr : K) (crs : C) (g : Grid K C) (tmp : Fin g.nx → Fin g.ny → Option K)
    (hd : 0 < polarStep M.pi g.dx) :
    stereoFix M sq2 sqEps gr crs g tmp =
      g.interp.bind fun e =>
        (limitVals sq2 sqEps (polarStep M.pi g.dx) 10 (fun (i j : Fin ⌈2 / polarStep M.pi g.dx⌉.toNat) =>
          g.evalWith e (M.toLatLon (-1 + (i : K) * polarStep M.pi g.dx, -1 + (j : K) * polarStep M.pi g.dx)))).bind fun v =>
        limitVals sq2 sqEps g.dx gr fun i j =>
          if 0 < g.yAt j then (polarGrid M.pi crs g v).evalWith g.extrapolate (M.toStereo (g.xAt i, g.yAt j)) else tmp i j := by
  unfold stereoFix
  simp only
  rw [if_neg (show ¬ (g.dx * 1 / 180 * M.pi / 2 = 0) from hd.ne')]
  cases g.interp with
  | none => rfl
  | some b =>
    simp only [Option.bind_some]
    cases hL : limitVals sq2 sqEps (g.dx * 1 / 180 * M.pi / 2) 10 (fun (i j : Fin ⌈2 / (g.dx * 1 / 180 * M.pi / 2)⌉.toNat) =>
        g.evalWith b (M.toLatLon (-1 + (i : K) * (g.dx * 1 / 180 * M.pi / 2), -1 + (j : K) * (g.dx * 1 / 180 * M.pi / 2)))) with
    | none =>
      have hL' : limitVals sq2 sqEps (polarStep M.pi g.dx) 10 (fun (i j : Fin ⌈2 / polarStep M.pi g.dx⌉.toNat) =>
        g.evalWith b (M.toLatLon (-1 + (i : K) * polarStep M.pi g.dx, -1 + (j : K) * polarStep M.pi g.dx))) = none := hL
      rw [hL']
      rfl
    | some v =>
      have hL' : limitVals sq2 sqEps (polarStep M.pi g.dx) 10 (fun (i j : Fin ⌈2 / polarStep M.pi g.dx⌉.toNat) =>
        g.evalWith b (M.toLatLon (-1 + (i : K) * polarStep M.pi g.dx, -1 + (j : K) * polarStep M.pi g.dx))) = some v := hL
      rw [hL']
      have : mkGrid ⟨-1, 1, -1, 1⟩ (g.dx * 1 / 180 * M.pi / 2) none crs g.hmin
          (.array ⌈2 / (g.dx * 1 / 180 * M.pi / 2)⌉.toNat ⌈2 / (g.dx * 1 / 180 * M.pi / 2)⌉.toNat v) g.extrapolate =
          some { polarGrid M.pi crs g v with interp := none } := by
        have hd' : 0 < g.dx * 1 / 180 * M.pi / 2 := hd
        have hc : gridChecks (⟨-1, 1, -1, 1⟩ : Box K) (g.dx * 1 / 180 * M.pi / 2) (g.dx * 1 / 180 * M.pi / 2) = true := by
          simp only [gridChecks, Bool.not_eq_true', Bool.or_eq_false_iff, decide_eq_false_iff_not, not_lt, not_le]
          exact ⟨⟨⟨by norm_num, by norm_num⟩, hd'⟩, hd'⟩
        simp only [mkGrid, Option.getD_none]
        rw [if_pos hc]
        rfl
      simp only [this]
      rw [buildInterpolant_noncyclic _ (by simp only [polarGrid]; norm_num)]
      rfl

/-- All steps of a call with the correction at the pole. -/
theorem polar_run {M : StereoMaps K} {sq2 sqEps : K} {g r : Grid K C} {gr : K} {crs : C} (hdx : 0 < g.dx) (hpi : 0 < M.pi)
    (h : enforceGradation M sq2 sqEps g gr crs true = some r) :
    ∃ e tmp v W, 0 ≤ gr ∧ g.dy = g.dx ∧ g.interp = some e ∧ limitVals sq2 sqEps g.dx gr g.vals = some tmp ∧
      limitVals sq2 sqEps (polarStep M.pi g.dx) 10 (fun (i j : Fin ⌈2 / polarStep M.pi g.dx⌉.toNat) =>
        g.evalWith e (M.toLatLon (-1 + (i : K) * polarStep M.pi g.dx, -1 + (j : K) * polarStep M.pi g.dx))) = some v ∧
      limitVals sq2 sqEps g.dx gr (fun i j =>
        if 0 < g.yAt j then (polarGrid M.pi crs g v).evalWith g.extrapolate (M.toStereo (g.xAt i, g.yAt j)) else tmp i j) = some W ∧
      r = ⟨g.box, g.dx, g.dy, g.nx, g.ny, fun i j => W (rowAfter g.box i) j, g.hmin, g.extrapolate, crs, some g.extrapolate⟩ := by
  have hd : 0 < polarStep M.pi g.dx := by unfold polarStep; positivity
  unfold enforceGradation at h
  split at h
  · simp at h
  · rename_i hgr
    split at h
    · simp at h
    · rename_i hdd
      push Not at hdd hgr
      split at h
      · simp at h
      · rename_i tmp htmp
        simp only [if_true] at h
        rw [stereoFix_eq M sq2 sqEps gr crs g tmp hd] at h
        cases hi : g.interp with
        | none => rw [hi] at h; simp at h
        | some e =>
          rw [hi] at h
          simp only [Option.bind_some] at h
          split at h
          · simp at h
          · rename_i W hW
            rw [Option.bind_eq_some_iff] at hW
            obtain ⟨v, hv, hW⟩ := hW
            rw [Option.map_eq_some_iff] at h
            obtain ⟨r', hr', rfl⟩ := h
            refine ⟨e, tmp, v, W, hgr, hdd.symm, rfl, htmp, hv, hW, ?_⟩
            unfold mkGrid at hr'
            simp only [Option.getD_none] at hr'
            split at hr'
            · have hr := Option.some.inj hr'
              rw [← hr]
              unfold Grid.buildInterpolant
              simp only
              rw [← hdd]
              congr 1
              funext i j
              exact cyclicVals_rowAfter g.box W i j
            · simp at hr'

/-- The field before the last limiting: numbers, nowhere below a common lower bound of the given sizes. -/
theorem polar_mixed {M : StereoMaps K} {sq2 sqEps : K} {g : Grid K C} {gr : K} {crs : C} {e : Bool}
    (hs2 : 1 ≤ sq2) (hse : 0 ≤ sqEps) (hdx : 0 < g.dx) (hdd : g.dy = g.dx) (hpi : 0 < M.pi) (hgr : 0 ≤ gr)
    (hpos : ∀ i j, ∃ v, g.vals i j = some v ∧ 0 ≤ v) (hne : NoExtrapolation M g) (hi : g.interp = some e) (hn : 0 < g.nx) (hm : 0 < g.ny)
    {tmp : Fin g.nx → Fin g.ny → Option K} (htmp : limitVals sq2 sqEps g.dx gr g.vals = some tmp) :
    (∀ k l : Fin ⌈2 / polarStep M.pi g.dx⌉.toNat, ∃ w,
        g.evalWith e (M.toLatLon (-1 + (k : K) * polarStep M.pi g.dx, -1 + (l : K) * polarStep M.pi g.dx)) = some w) ∧
    ∀ v, limitVals sq2 sqEps (polarStep M.pi g.dx) 10 (fun (i j : Fin ⌈2 / polarStep M.pi g.dx⌉.toNat) =>
        g.evalWith e (M.toLatLon (-1 + (i : K) * polarStep M.pi g.dx, -1 + (j : K) * polarStep M.pi g.dx))) = some v →
      ∀ (i : Fin g.nx) (j : Fin g.ny), ∃ w, (if 0 < g.yAt j then (polarGrid M.pi crs g v).evalWith g.extrapolate (M.toStereo (g.xAt i, g.yAt j)) else tmp i j) = some w ∧
        ∀ lo, lo ≤ 999999 → (∀ k l u, g.vals k l = some u → lo ≤ u) → lo ≤ w := by
  have hd : 0 < polarStep M.pi g.dx := by unfold polarStep; positivity
  have hsome : ∀ i j, (g.vals i j).isSome := fun i j => by obtain ⟨v, hv, -⟩ := hpos i j; rw [hv]; rfl
  have hpos' : ∀ i j v, g.vals i j = some v → 0 ≤ v := fun i j v hv => by
    obtain ⟨u, hu, hu0⟩ := hpos i j
    rw [hu] at hv
    exact Option.some.inj hv ▸ hu0
  have hE : ∀ k l : Fin ⌈2 / polarStep M.pi g.dx⌉.toNat, ∃ w,
      g.evalWith e (M.toLatLon (-1 + (k : K) * polarStep M.pi g.dx, -1 + (l : K) * polarStep M.pi g.dx)) = some w ∧
        ∀ lo, lo ≤ 999999 → (∀ i j u, g.vals i j = some u → lo ≤ u) → lo ≤ w := fun k l => by
    refine evalWith_above hdx (hdd ▸ hdx) hn hm hsome ?_
    rcases hne.1 with h | h
    · rw [hi] at h
      exact Or.inl (Option.some.inj h)
    · exact Or.inr (h k l)
  refine ⟨fun k l => ⟨_, (hE k l).choose_spec.1⟩, fun v hv i j => ?_⟩
  have hvl : ∀ k l, ∃ y, v k l = some y ∧ ∀ lo, lo ≤ 999999 → (∀ i j u, g.vals i j = some u → lo ≤ u) → lo ≤ y := fun k l => by
    obtain ⟨-, y, -, hy, -, hlo⟩ := limitVals_lowers hs2 hse hd.le (by norm_num) (by
      intro k l u hu
      obtain ⟨w, hw, hb⟩ := hE k l
      simp only [hw] at hu
      exact Option.some.inj hu ▸ hb 0 (by norm_num) hpos') hv k l
    refine ⟨y, hy, fun lo h1 h2 => hlo lo fun k' l' u hu => ?_⟩
    obtain ⟨w, hw, hb⟩ := hE k' l'
    simp only [hw] at hu
    exact Option.some.inj hu ▸ hb lo h1 h2
  by_cases hy : 0 < g.yAt j
  · rw [if_pos hy]
    have hnp : 0 < ⌈2 / polarStep M.pi g.dx⌉.toNat := by
      have : 0 < ⌈2 / polarStep M.pi g.dx⌉ := Int.ceil_pos.2 (by positivity)
      omega
    obtain ⟨w, hw, hb⟩ := evalWith_above (g := polarGrid M.pi crs g v) (e := g.extrapolate) (q := M.toStereo (g.xAt i, g.yAt j)) hd hd hnp hnp
      (fun k l => by obtain ⟨y, hy, -⟩ := hvl k l; show (v k l).isSome; rw [hy]; rfl) (hne.2.imp id fun h => h i j hy)
    refine ⟨w, hw, fun lo h1 h2 => hb lo h1 fun k l u hu => ?_⟩
    obtain ⟨y, hy, hb'⟩ := hvl k l
    have : some y = some u := hy.symm.trans hu
    exact Option.some.inj this ▸ hb' lo h1 h2
  · rw [if_neg hy]
    obtain ⟨-, y, -, hy, -, hlo⟩ := limitVals_lowers hs2 hse hdx.le hgr hpos' htmp i j
    exact ⟨y, hy, fun lo _ h2 => hlo lo h2⟩

/-- **C104**, sizes. With the correction at the pole the result lives on the lattice of the given grid. Up to the exchange of the first and
last row of a box around the globe, a size on or south of the equator is at most the given one, and no size anywhere is below the smallest
given size (sizes above the fill value 999999 aside).
Missing: north of the equator sizes can grow (`C104_pole_grows`); extrapolated values; NaN. -/
theorem C104_sizes_partial {M : StereoMaps K} {sq2 sqEps : K} {g r : Grid K C} {gr : K} {crs : C} (hs2 : 1 ≤ sq2) (hse : 0 ≤ sqEps)
    (hdx : 0 < g.dx) (hpi : 0 < M.pi) (hpos : ∀ i j, ∃ v, g.vals i j = some v ∧ 0 ≤ v) (hne : NoExtrapolation M g)
    (h : enforceGradation M sq2 sqEps g gr crs true = some r) :
    ∃ W : Fin g.nx → Fin g.ny → Option K, r = ⟨g.box, g.dx, g.dy, g.nx, g.ny, fun i j => W (rowAfter g.box i) j, g.hmin, g.extrapolate, crs, some g.extrapolate⟩ ∧
      ∀ (i : Fin g.nx) (j : Fin g.ny), ∃ x y, g.vals i j = some x ∧ W i j = some y ∧ (g.yAt j ≤ 0 → y ≤ x) ∧
        ∀ lo, lo ≤ 999999 → (∀ k l v, g.vals k l = some v → lo ≤ v) → lo ≤ y := by
  obtain ⟨e, tmp, v, W, hgr, hdd, hi, htmp, hv, hW, hr⟩ := polar_run hdx hpi h
  have hpos' : ∀ i j v, g.vals i j = some v → 0 ≤ v := fun i j v hv => by
    obtain ⟨u, hu, hu0⟩ := hpos i j
    rw [hu] at hv
    exact Option.some.inj hv ▸ hu0
  refine ⟨W, hr, fun i j => ?_⟩
  have hmix := (polar_mixed (crs := crs) hs2 hse hdx hdd hpi hgr hpos hne hi (by have := i.isLt; omega) (by have := j.isLt; omega) htmp).2 v hv
  obtain ⟨x, hx, -⟩ := hpos i j
  obtain ⟨x2, y, hx2, hy, hyx, hlo⟩ := limitVals_lowers hs2 hse hdx.le hgr (by
    intro k l u hu
    obtain ⟨w, hw, hb⟩ := hmix k l
    rw [hw] at hu
    exact Option.some.inj hu ▸ hb 0 (by norm_num) hpos') hW i j
  refine ⟨x, y, hx, hy, fun hs => ?_, fun lo h1 h2 => hlo lo fun k l u hu => ?_⟩
  · rw [if_neg (not_lt.2 hs)] at hx2
    obtain ⟨x1, y1, e1, e2, e3, -⟩ := limitVals_lowers hs2 hse hdx.le hgr hpos' htmp i j
    rw [hx] at e1
    rw [hx2] at e2
    rw [Option.some.inj e1]
    exact hyx.trans ((Option.some.inj e2).le.trans e3)
  · obtain ⟨w, hw, hb⟩ := hmix k l
    rw [hw] at hu
    exact Option.some.inj hu ▸ hb lo h1 h2

/-- **C104**, success: with an interpolant, equal positive spacings, a box in order and numbers at the nodes a grid is returned. -/
theorem C104_succeeds (M : StereoMaps K) (sq2 sqEps : K) {g : Grid K C} {gr : K} (crs : C) (hs2 : 1 ≤ sq2) (hse : 0 ≤ sqEps) (hgr : 0 ≤ gr) (hdx : 0 < g.dx)
    (hd : g.dx = g.dy) (hpi : 0 < M.pi) (hx : g.box.xmin ≤ g.box.xmax) (hy : g.box.ymin ≤ g.box.ymax) (hn : 0 < g.nx) (hm : 0 < g.ny)
    (hi : g.interp.isSome) (hpos : ∀ i j, ∃ v, g.vals i j = some v ∧ 0 ≤ v) (hne : NoExtrapolation M g) :
    (enforceGradation M sq2 sqEps g gr crs true).isSome := by
  have hdp : 0 < polarStep M.pi g.dx := by unfold polarStep; positivity
  obtain ⟨e, he⟩ := Option.isSome_iff_exists.1 hi
  obtain ⟨tmp, htmp⟩ := limitVals_some sq2 sqEps g.dx gr hn hm (vals := g.vals) fun i j => by
    obtain ⟨v, hv, -⟩ := hpos i j; rw [hv]; rfl
  obtain ⟨h1, h2⟩ := polar_mixed (crs := crs) hs2 hse hdx hd.symm hpi hgr hpos hne he hn hm htmp
  have hnp : 0 < ⌈2 / polarStep M.pi g.dx⌉.toNat := by
    have : 0 < ⌈2 / polarStep M.pi g.dx⌉ := Int.ceil_pos.2 (by positivity)
    omega
  obtain ⟨v, hv⟩ := limitVals_some sq2 sqEps (polarStep M.pi g.dx) 10 hnp hnp
    (vals := fun (i j : Fin ⌈2 / polarStep M.pi g.dx⌉.toNat) =>
      g.evalWith e (M.toLatLon (-1 + (i : K) * polarStep M.pi g.dx, -1 + (j : K) * polarStep M.pi g.dx)))
    fun i j => by obtain ⟨w, hw⟩ := h1 i j; simp only [hw]; rfl
  obtain ⟨W, hW⟩ := limitVals_some sq2 sqEps g.dx gr hn hm
    (vals := fun i j => if 0 < g.yAt j then (polarGrid M.pi crs g v).evalWith g.extrapolate (M.toStereo (g.xAt i, g.yAt j)) else tmp i j)
    fun i j => by obtain ⟨w, hw, -⟩ := h2 v hv i j; rw [hw]; rfl
  unfold enforceGradation
  rw [if_neg (by simpa using hgr), if_neg (by simpa using hd), htmp]
  simp only [if_true]
  rw [stereoFix_eq M sq2 sqEps gr crs g tmp hdp, he, Option.bind_some, hv, Option.bind_some, hW]
  simp [mkGrid, gridChecks, hx, hy, hdx]

/-- **C104**, gradation: the returned sizes are, up to the exchange of rows, the output of the limiter with the given gradation. If its loop
ended by convergence, orthogonal neighbours differ by at most gradation times spacing plus the tolerance. -/
theorem C104_graded {M : StereoMaps K} {sq2 sqEps : K} {g r : Grid K C} {gr : K} {crs : C} (hdx : 0 < g.dx) (hpi : 0 < M.pi)
    (h : enforceGradation M sq2 sqEps g gr crs true = some r) :
    ∃ (W : Fin g.nx → Fin g.ny → Option K) (f out : List K), r = ⟨g.box, g.dx, g.dy, g.nx, g.ny, fun i j => W (rowAfter g.box i) j, g.hmin, g.extrapolate, crs, some g.extrapolate⟩ ∧
      gradientLimit sq2 sqEps g.nx g.ny 1 g.dx gr 10000 f = some out ∧
      (∀ (i : Fin g.nx) (j : Fin g.ny), W i j = out[nodeIndex g.nx g.ny i j 0]?) ∧
      ∀ lo ∈ f, (∀ x ∈ f, lo ≤ x) → gradientLimitRun sq2 sqEps g.nx g.ny 1 g.dx gr 10000 f = some (out, true) →
        ∀ (i k : Fin g.nx) (j l : Fin g.ny), (i = k ∧ (l : Nat) = j + 1) ∨ ((k : Nat) = i + 1 ∧ j = l) →
          ∃ x y, W i j = some x ∧ W k l = some y ∧ |x - y| ≤ g.dx * gr + lo * sqEps := by
  obtain ⟨e, tmp, v, W, hgr, hdd, hi, htmp, hv, hW, hr⟩ := polar_run hdx hpi h
  obtain ⟨f, out, h1, h2, h3, h4, h5⟩ := limitVals_spec hW
  refine ⟨W, f, out, hr, h3, h5, fun lo hlo hmin hrun i k j l hn => ?_⟩
  have := (C24_converged_graded_partial h1 hrun hlo hmin).1 (nodeIndex g.nx g.ny i j 0) (nodeIndex g.nx g.ny k l 0)
    ⟨i, j, k, l, 0, i.isLt, j.isLt, k.isLt, l.isLt, by omega, rfl, rfl, by
      rcases hn with ⟨rfl, h⟩ | ⟨h, rfl⟩ <;> omega⟩
  obtain ⟨x, y, hx, hy, hxy⟩ := this
  exact ⟨x, y, (h5 i j).trans hx, (h5 k l).trans hy, hxy⟩

end

/-! ## A grid around the globe -/

/-- Longitude and latitude of the nine nodes of the stereographic lattice for spacing 90°, rounded to whole degrees, and the exact image of the
pole. The nodes have the coordinates −1, −0.21 and 0.57. -/
def globeMaps : StereoMaps ℚ where
  pi := 355 / 113
  toLatLon q :=
    if q.1 < -1 / 2 then if q.2 < -1 / 2 then (45, -19) else if q.2 < 0 then (12, -1) else (-30, -8)
    else if q.1 < 0 then if q.2 < -1 / 2 then (78, -1) else if q.2 < 0 then (45, 56) else (-69, 27)
    else if q.2 < -1 / 2 then (120, -8) else if q.2 < 0 then (159, 27) else (-135, 12)
  toStereo _ := (0, 0)

/-- Sizes 100 everywhere but 10 at the north pole. -/
def globeGrid : Grid ℚ Nat :=
  ⟨⟨-180, 180, -90, 90⟩, 90, 90, 5, 3, fun _ j => if j = 2 then some 10 else some 100, some 10, true, 0, some true⟩

theorem globe_no_extrapolation : NoExtrapolation globeMaps globeGrid := by
  unfold NoExtrapolation
  refine ⟨Or.inr ?_, Or.inr ?_⟩ <;> (unfold InLattice OnAxis; decide +kernel)

theorem globe_positive : ∀ i j, ∃ v, globeGrid.vals i j = some v ∧ 0 ≤ v := by
  intro i j
  simp only [globeGrid]
  split
  · exact ⟨_, rfl, by norm_num⟩
  · exact ⟨_, rfl, by norm_num⟩

/-- **C104** fails north of the equator: the smallest size, 10 at the pole, becomes 37, although the field around it has been lowered to respect it.
The stereographic lattice has no node at the pole, and it is filled from the given sizes, not the limited ones. -/
theorem C104_pole_grows :
    ∃ (M : StereoMaps ℚ) (g r : Grid ℚ Nat), NoExtrapolation M g ∧ enforceGradation M sq2D sqEpsD g (3 / 20) 0 true = some r ∧
      (∀ (i : Fin g.nx) (j : Fin g.ny), g.yAt j = 90 → g.vals i j = some 10) ∧
      allVals r.vals = [some 37, some (47 / 2), some 37, some 37, some (47 / 2), some 37, some 37, some (47 / 2), some 37,
        some 37, some (47 / 2), some 37, some 37, some (47 / 2), some 37] := by
  have h : (enforceGradation globeMaps sq2D sqEpsD globeGrid (3 / 20) 0 true).map (fun r => allVals r.vals) =
      some [some 37, some (47 / 2), some 37, some 37, some (47 / 2), some 37, some 37, some (47 / 2), some 37,
        some 37, some (47 / 2), some 37, some 37, some (47 / 2), some 37] := by decide +kernel
  rw [Option.map_eq_some_iff] at h
  obtain ⟨r, hr, h⟩ := h
  exact ⟨globeMaps, globeGrid, r, globe_no_extrapolation, hr, by decide +kernel, h⟩

example : (enforceGradation globeMaps sq2D sqEpsD globeGrid (3 / 20) 0 true).isSome :=
  C104_succeeds globeMaps sq2D sqEpsD 0 (by decide +kernel) (by decide +kernel) (by norm_num) (by decide +kernel) rfl (by decide +kernel)
    (by decide +kernel) (by decide +kernel) (by decide) (by decide) rfl globe_positive globe_no_extrapolation

example : 0 < globeGrid.dx ∧ 0 < globeMaps.pi ∧ 1 ≤ sq2D ∧ 0 ≤ sqEpsD ∧ globeGrid.yAt 1 ≤ 0 := by decide +kernel

end OM
