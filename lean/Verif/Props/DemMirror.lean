import Verif.Props.DemSubset
/-!
# C85: subsets of files with axes in any direction
-/
set_option linter.unusedSectionVars false
namespace OM
open Spec
section
variable {K C : Type} [Field K] [LinearOrder K] [FloorRing K]

/-- **C85** (axes of any direction). Every node of the DEM sits on a pair of file coordinates inside the requested box, and every such pair has its node. The
value of the node is that of the file at these coordinates if the x axis goes up and the y axis goes down; along an axis of the other direction it is
the one at the coordinate mirrored in the middle of the subset. -/
theorem C85_nodes_any [IsStrictOrderedRing K] {d : XrArray K} {b bo : Box K} {dx dy : K} {B : Band K} {crs : C} {nodata : Option K} {e : Bool} {g : Grid K C}
    {x0 sx y0 sy : K} (hsx : sx ≠ 0) (hsy : sy ≠ 0) (hxs : ∀ i, d.xs i = x0 + (i.val : K) * sx) (hys : ∀ i, d.ys i = y0 + (i.val : K) * sy)
    (h : xrSubset d b = some (some (bo, dx, dy, B))) (hg : mkDem (subsetRead bo dx dy B crs nodata) e = some g)
    (hnc : ¬(|bo.xmin| = 180 ∧ |bo.xmax| = 180)) :
    (∀ (i : Fin g.nx) (j : Fin g.ny), ∃ (k k' : Fin d.nx) (l l' : Fin d.ny), (g.xAt i, g.yAt j) = (d.xs k, d.ys l) ∧ InBox b (d.xs k, d.ys l) ∧
      Measured nodata (d.at k' l') (g.vals i j) ∧ d.xs k' = (if 0 < sx then d.xs k else bo.xmin + bo.xmax - d.xs k) ∧
      d.ys l' = (if sy < 0 then d.ys l else bo.ymin + bo.ymax - d.ys l)) ∧
    ∀ (k : Fin d.nx) (l : Fin d.ny), InBox b (d.xs k, d.ys l) → ∃ (i : Fin g.nx) (j : Fin g.ny), (g.xAt i, g.yAt j) = (d.xs k, d.ys l) := by
  obtain ⟨rx, ry, hrx, hry, hdx, hdy, hdx0, hdy0, hbx, hby, rfl⟩ := xrSubset_spec h
  obtain ⟨-, -, -, -, rfl⟩ := mkDem_eq hg
  have mono : ∀ {n : Nat} {f : Fin n → K} {a s : K}, (∀ i, f i = a + (i.val : K) * s) → Monotone f ∨ Antitone f := by
    intro n f a s hf
    rcases le_total 0 s with hs | hs
    · refine .inl fun i j hij => ?_
      have : ((i.val : Nat) : K) ≤ j.val := Nat.cast_le.2 hij
      rw [hf, hf]
      have := mul_le_mul_of_nonneg_right this hs
      linarith
    · refine .inr fun i j hij => ?_
      have : ((i.val : Nat) : K) ≤ j.val := Nat.cast_le.2 hij
      rw [hf, hf]
      have := mul_le_mul_of_nonpos_right this hs
      linarith
  have hxr := C85_monotone (mono hxs) hrx
  have hyr := C85_monotone (mono hys) hry
  have hxab := (C85_range hrx).2.2.1
  have hyab := (C85_range hry).2.2.1
  obtain ⟨xa, xb⟩ := rx
  obtain ⟨ya, yb⟩ := ry
  dsimp only at hxr hyr hxab hyab
  have hnx : (d.isel (xa, xb) (ya, yb)).nx = xb.val + 1 - xa.val := rfl
  have hny : (d.isel (xa, xb) (ya, yb)).ny = yb.val + 1 - ya.val := rfl
  have hx' : ∀ i : Fin (xb.val + 1 - xa.val), sliceAxis (xa, xb) d.xs i = (x0 + (xa.val : K) * sx) + (i.val : K) * sx := by
    intro i
    simp only [sliceAxis, hxs]
    push_cast; ring
  have hy' : ∀ i : Fin (yb.val + 1 - ya.val), sliceAxis (ya, yb) d.ys i = (y0 + (ya.val : K) * sy) + (i.val : K) * sy := by
    intro i
    simp only [sliceAxis, hys]
    push_cast; ring
  have hx2 : 2 ≤ xb.val + 1 - xa.val := by
    by_contra hlt
    have := medianSpacing_short (sliceAxis (xa, xb) d.xs) (by simp only; omega)
    rw [show medianSpacing (sliceAxis (xa, xb) d.xs) = some dx from hdx] at this
    simp at this
  have hy2 : 2 ≤ yb.val + 1 - ya.val := by
    by_contra hlt
    have := medianSpacing_short (sliceAxis (ya, yb) d.ys) (by simp only; omega)
    rw [show medianSpacing (sliceAxis (ya, yb) d.ys) = some dy from hdy] at this
    simp at this
  have edx : dx = |sx| := Option.some.inj (hdx.symm.trans (medianSpacing_uniform hx2 hx'))
  have edy : dy = |sy| := Option.some.inj (hdy.symm.trans (medianSpacing_uniform hy2 hy'))
  have hxcast : (((xb.val + 1 - xa.val : Nat)) : K) = (xb.val : K) + 1 - xa.val := by
    rw [Nat.cast_sub (by have : xa.val ≤ xb.val := hxab; omega)]; push_cast; ring
  have hycast : (((yb.val + 1 - ya.val : Nat)) : K) = (yb.val : K) + 1 - ya.val := by
    rw [Nat.cast_sub (by have : ya.val ≤ yb.val := hyab; omega)]; push_cast; ring
  -- the two ends of the subset in both directions
  have boxx : (0 < sx → bo.xmin = x0 + (xa.val : K) * sx ∧ bo.xmax = x0 + (xb.val : K) * sx) ∧
      (sx < 0 → bo.xmax = x0 + (xa.val : K) * sx ∧ bo.xmin = x0 + (xb.val : K) * sx) := by
    constructor
    · intro hs
      obtain ⟨h1, h2⟩ := axisRange_up hs hx' hbx
      rw [hxcast] at h2
      exact ⟨h1, by rw [h2]; ring⟩
    · intro hs
      obtain ⟨h1, h2⟩ := axisRange_down hs hx' hbx
      rw [hxcast] at h2
      exact ⟨h1, by rw [h2]; ring⟩
  have boxy : (0 < sy → bo.ymin = y0 + (ya.val : K) * sy ∧ bo.ymax = y0 + (yb.val : K) * sy) ∧
      (sy < 0 → bo.ymax = y0 + (ya.val : K) * sy ∧ bo.ymin = y0 + (yb.val : K) * sy) := by
    constructor
    · intro hs
      obtain ⟨h1, h2⟩ := axisRange_up hs hy' hby
      rw [hycast] at h2
      exact ⟨h1, by rw [h2]; ring⟩
    · intro hs
      obtain ⟨h1, h2⟩ := axisRange_down hs hy' hby
      rw [hycast] at h2
      exact ⟨h1, by rw [h2]; ring⟩
  have revx : ∀ i : Fin (xb.val + 1 - xa.val), (((i.rev).val : Nat) : K) = (xb.val : K) + 1 - xa.val - ((i.val : K) + 1) := by
    intro i
    rw [Fin.val_rev, Nat.cast_sub (by omega), hxcast]; push_cast; ring
  have revy : ∀ j : Fin (yb.val + 1 - ya.val), (((j.rev).val : Nat) : K) = (yb.val : K) + 1 - ya.val - ((j.val : K) + 1) := by
    intro j
    rw [Fin.val_rev, Nat.cast_sub (by omega), hycast]; push_cast; ring
  -- node positions
  let px : Fin (xb.val + 1 - xa.val) → Fin (xb.val + 1 - xa.val) := fun i => if 0 < sx then i else i.rev
  let py : Fin (yb.val + 1 - ya.val) → Fin (yb.val + 1 - ya.val) := fun j => if sy < 0 then j.rev else j
  have posx : ∀ i : Fin (xb.val + 1 - xa.val), bo.xmin + (i.val : K) * dx = d.xs ⟨xa.val + (px i).val, by omega⟩ := by
    intro i
    rw [hxs, edx]
    rcases lt_or_gt_of_ne hsx with hs | hs
    · simp only [px, if_neg hs.not_gt, abs_of_neg hs]
      rw [(boxx.2 hs).2]; push_cast; rw [revx]; ring
    · simp only [px, if_pos hs, abs_of_pos hs]
      rw [(boxx.1 hs).1]; push_cast; ring
  have posy : ∀ j : Fin (yb.val + 1 - ya.val), bo.ymin + (j.val : K) * |(|(-dy)|)| = d.ys ⟨ya.val + (py j).val, by omega⟩ := by
    intro j
    rw [hys, edy, abs_abs, abs_neg, abs_abs]
    rcases lt_or_gt_of_ne hsy with hs | hs
    · simp only [py, if_pos hs, abs_of_neg hs]
      rw [(boxy.2 hs).2]; push_cast; rw [revy]; ring
    · simp only [py, if_neg hs.not_gt, abs_of_pos hs]
      rw [(boxy.1 hs).1]; push_cast; ring
  constructor
  · intro (i : Fin (xb.val + 1 - xa.val)) (j : Fin (yb.val + 1 - ya.val))
    refine ⟨⟨xa.val + (px i).val, by omega⟩, ⟨xa.val + i.val, by omega⟩, ⟨ya.val + (py j).val, by omega⟩, ⟨ya.val + (j.rev).val, by omega⟩,
      Prod.ext (posx i) (posy j), ?_, ?_, ?_, ?_⟩
    · have h1 := (hxr ⟨xa.val + (px i).val, by omega⟩).1 ⟨Fin.mk_le_mk.2 (by simp), Fin.mk_le_mk.2 (by have := (px i).isLt; omega)⟩
      have h2 := (hyr ⟨ya.val + (py j).val, by omega⟩).1 ⟨Fin.mk_le_mk.2 (by simp), Fin.mk_le_mk.2 (by have := (py j).isLt; omega)⟩
      exact ⟨h1.1, h1.2, h2.1, h2.2⟩
    · have hv := clean_measured (d.isel (xa, xb) (ya, yb)).toBand nodata i j.rev rfl
      have hat : (d.isel (xa, xb) (ya, yb)).toBand.data i j.rev = d.at ⟨xa.val + i.val, by omega⟩ ⟨ya.val + (j.rev).val, by omega⟩ :=
        (toBand_at (d.isel (xa, xb) (ya, yb)) i j.rev).trans (isel_at d (xa, xb) (ya, yb) i j.rev (by simp only; omega) (by simp only; omega))
      rw [hat] at hv
      have : cyclicVals bo (subsetRead bo dx dy (d.isel (xa, xb) (ya, yb)).toBand crs nodata).stored.data =
          (subsetRead bo dx dy (d.isel (xa, xb) (ya, yb)).toBand crs nodata).stored.data := cyclicVals_of_not hnc _
      show Measured nodata _ (cyclicVals bo (subsetRead bo dx dy (d.isel (xa, xb) (ya, yb)).toBand crs nodata).stored.data i j)
      rw [this]
      exact hv
    · rw [hxs, hxs]
      rcases lt_or_gt_of_ne hsx with hs | hs
      · simp only [px, if_neg hs.not_gt]
        rw [(boxx.2 hs).1, (boxx.2 hs).2]; push_cast; rw [revx]; ring
      · simp only [px, if_pos hs]
    · rw [hys, hys]
      rcases lt_or_gt_of_ne hsy with hs | hs
      · simp only [py, if_pos hs]
      · simp only [py, if_neg hs.not_gt]
        rw [(boxy.1 hs).1, (boxy.1 hs).2]; push_cast; rw [revy]; ring
  · intro k l hin
    obtain ⟨h1, h2, h3, h4⟩ := hin
    have hk := (hxr k).2 ⟨h1, h2⟩
    have hl := (hyr l).2 ⟨h3, h4⟩
    have hk1 : xa.val ≤ k.val := hk.1
    have hk2 : k.val ≤ xb.val := hk.2
    have hl1 : ya.val ≤ l.val := hl.1
    have hl2 : l.val ≤ yb.val := hl.2
    have pxpx : ∀ i, px (px i) = i := fun i => by simp only [px]; split_ifs <;> simp
    have pypy : ∀ i, py (py i) = i := fun i => by simp only [py]; split_ifs <;> simp
    let i : Fin (xb.val + 1 - xa.val) := px ⟨k.val - xa.val, by omega⟩
    let j : Fin (yb.val + 1 - ya.val) := py ⟨l.val - ya.val, by omega⟩
    refine ⟨i, j, Prod.ext ((posx i).trans ?_) ((posy j).trans ?_)⟩
    · congr 1; ext
      show xa.val + (px i).val = k.val
      simp only [i, pxpx]; omega
    · congr 1; ext
      show ya.val + (py j).val = l.val
      simp only [j, pypy]; omega

end

-- A file with latitudes from south to north.
example : ∃ (bo : Box ℚ) (dx dy : ℚ) (B : Band ℚ) (g : Grid ℚ Nat), xrSubset (xrDemo 20 2) ⟨6, 9, 19, 23⟩ = some (some (bo, dx, dy, B)) ∧
    mkDem (subsetRead bo dx dy B 4326 none) false = some g ∧ ∀ (i : Fin g.nx) (j : Fin g.ny), ∃ (k k' : Fin 4) (l l' : Fin 3),
      (g.xAt i, g.yAt j) = ((xrDemo 20 2).xs k, (xrDemo 20 2).ys l) ∧ Measured none ((xrDemo 20 2).at k' l') (g.vals i j) ∧
      (xrDemo 20 2).xs k' = (xrDemo 20 2).xs k ∧ (xrDemo 20 2).ys l' = 42 - (xrDemo 20 2).ys l := by
  obtain ⟨⟨bo, dx, dy, B⟩, hx⟩ : ∃ x, xrSubset (xrDemo 20 2) ⟨6, 9, 19, 23⟩ = some (some x) := by
    have : (xrSubset (xrDemo 20 2) ⟨6, 9, 19, 23⟩).any Option.isSome = true := by decide +kernel
    rcases h : xrSubset (xrDemo 20 2) ⟨6, 9, 19, 23⟩ with _ | _ | x
    · simp [h] at this
    · simp [h] at this
    · exact ⟨x, rfl⟩
  have hb : bo = ⟨6, 8, 20, 22⟩ ∧ dx = 1 ∧ dy = 2 := by
    have : (xrSubset (xrDemo 20 2) ⟨6, 9, 19, 23⟩).map (·.map fun x => (x.1, x.2.1, x.2.2.1)) = some (some (⟨6, 8, 20, 22⟩, 1, 2)) := by decide +kernel
    rw [hx] at this
    simpa using this
  obtain ⟨rfl, rfl, rfl⟩ := hb
  obtain ⟨g, hg⟩ := Option.isSome_iff_exists.1 ((C76_accepts (subsetRead ⟨6, 8, 20, 22⟩ 1 2 B 4326 none : DemRead ℚ Nat) false).2
    ⟨by norm_num [subsetRead], by norm_num [subsetRead], by norm_num [subsetRead], by norm_num [subsetRead]⟩)
  refine ⟨_, _, _, B, g, hx, hg, fun i j => ?_⟩
  obtain ⟨k, k', l, l', h1, -, h2, h3, h4⟩ := (C85_nodes_any (x0 := 5) (sx := 1) (y0 := 20) (sy := 2) (by norm_num) (by norm_num) (fun i => by simp [xrDemo])
    (fun i => by simp [xrDemo]) hx hg (by norm_num)).1 i j
  exact ⟨k, k', l, l', h1, h2, by simpa using h3, by rw [h4]; norm_num⟩

end OM
