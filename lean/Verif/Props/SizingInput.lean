import Verif.Model.SizingInput
import Verif.Props.Distance
/-!
# C92 points of distance sizing functions on the grid, C93 the border of an array
-/
namespace OM
open Spec
set_option linter.unusedSectionVars false

namespace Spec
/-- A KD-tree returns the position of a nearest node. -/
def IsNearestTree {K : Type} [Field K] [LinearOrder K] (tree : List (K × K) → K × K → Nat) : Prop :=
  ∀ (l : List (K × K)) (p : K × K), l ≠ [] → ∃ x, l[tree l p]? = some x ∧ ∀ y ∈ l, sqDist p x ≤ sqDist p y

/-- A distance solver that is never zero at a node (the field is −1 or 1 at the nodes, its zero set lies between them). -/
def NeverZero {K : Type} [Field K] (fmm : (n m : Nat) → K → K → (Fin n → Fin m → Bool) → Option (Fin n → Fin m → K)) : Prop :=
  ∀ n m dx dy marks d, fmm n m dx dy marks = some d → ∀ i j, d i j ≠ 0
end Spec

theorem flatMap_range_getElem? {A : Type} (f : Nat → Nat → A) (m : Nat) : ∀ (n k : Nat),
    ((List.range n).flatMap fun i => (List.range m).map (f i))[k]? = if k < n * m then some (f (k / m) (k % m)) else none
  | 0, k => by simp
  | n + 1, k => by
    have hlen : ((List.range n).flatMap fun i => (List.range m).map (f i)).length = n * m := by simp
    rw [List.range_succ, List.flatMap_append, List.getElem?_append, hlen, Nat.succ_mul]
    split
    · rename_i h
      rw [flatMap_range_getElem? f m n k, if_pos h, if_pos (by omega)]
    · rename_i h
      simp only [List.flatMap_cons, List.flatMap_nil, List.append_nil, List.getElem?_map]
      by_cases hk : k < n * m + m
      · rw [if_pos hk, List.getElem?_range (by omega)]
        have h1 : k = n * m + (k - n * m) := by omega
        have h2 : k / m = n := Nat.div_eq_of_lt_le (by omega) (by rw [Nat.succ_mul]; omega)
        have h3 : k % m = k - n * m := by
          conv_lhs => rw [h1]
          rw [Nat.mul_comm n m, Nat.mul_add_mod, Nat.mul_comm m n, Nat.mod_eq_of_lt (by omega)]
        rw [h2, h3]
        rfl
      · rw [if_neg hk, List.getElem?_eq_none (by simp; omega)]
        rfl

section
variable {K C : Type} [Field K] [LinearOrder K] [IsStrictOrderedRing K] [FloorRing K]

theorem gridNodes_getElem? (g : Grid K C) (k : Nat) :
    (gridNodes g)[k]? = if k < g.nx * g.ny then some (g.xAt (k / g.ny), g.yAt (k % g.ny)) else none :=
  flatMap_range_getElem? (fun i j => (g.xAt i, g.yAt j)) g.ny g.nx k

theorem mem_gridNodes (g : Grid K C) (x : K × K) : x ∈ gridNodes g ↔ ∃ i < g.nx, ∃ j < g.ny, x = (g.xAt i, g.yAt j) := by
  simp only [gridNodes, List.mem_flatMap, List.mem_map, List.mem_range]
  constructor
  · rintro ⟨i, hi, j, hj, rfl⟩
    exact ⟨i, hi, j, hj, rfl⟩
  · rintro ⟨i, hi, j, hj, rfl⟩
    exact ⟨i, hi, j, hj, rfl⟩

/-- **C92**, indices: for every point `find_indices` gives the two indices of a nearest node of the grid. -/
theorem C92_nearest {tree : List (K × K) → K × K → Nat} (ht : IsNearestTree tree) (g : Grid K C) (hn : 0 < g.nx) (hm : 0 < g.ny)
    (p : K × K) : NearestNode g.box.xmin g.dx g.nx g.box.ymin |g.dy| g.ny p (nearNode tree g p).1 (nearNode tree g p).2 := by
  have hne : gridNodes g ≠ [] := by
    intro h
    have := (mem_gridNodes g (g.xAt 0, g.yAt 0)).2 ⟨0, hn, 0, hm, rfl⟩
    rw [h] at this
    simp at this
  obtain ⟨x, hx, hmin⟩ := ht (gridNodes g) p hne
  rw [gridNodes_getElem?] at hx
  split at hx
  · rename_i hk
    have hx := Option.some.inj hx
    refine ⟨(Nat.div_lt_iff_lt_mul hm).2 hk, Nat.mod_lt _ hm, fun k hk l hl => ?_⟩
    have := hmin _ ((mem_gridNodes g _).2 ⟨k, hk, l, hl, rfl⟩)
    rw [← hx] at this
    exact this
  · simp at hx

theorem half_cell_axis {x0 d x : K} {n i : Nat} (hd : 0 < d) (hi : i < n) (hx : OnAxis x0 d n x)
    (hmin : ∀ k < n, (x - nodeAt x0 d i) ^ 2 ≤ (x - nodeAt x0 d k) ^ 2) : |x - nodeAt x0 d i| ≤ d / 2 := by
  obtain ⟨hn, h0, h1⟩ := hx
  rw [abs_le]
  constructor
  · by_contra hc
    push Not at hc
    have hpos : 0 < i := by
      rcases Nat.eq_zero_or_pos i with rfl | h
      · simp [nodeAt] at hc
        linarith
      · exact h
    have := hmin (i - 1) (by omega)
    have e : nodeAt x0 d (i - 1) = nodeAt x0 d i - d := by
      simp only [nodeAt]
      rw [Nat.cast_sub hpos]
      push_cast
      ring
    rw [e] at this
    nlinarith
  · by_contra hc
    push Not at hc
    have hlt : i + 1 < n := by
      by_contra hge
      have : i = n - 1 := by omega
      rw [← this] at h1
      linarith
    have := hmin (i + 1) hlt
    have e : nodeAt x0 d (i + 1) = nodeAt x0 d i + d := by
      simp only [nodeAt]
      push_cast
      ring
    rw [e] at this
    nlinarith

/-- **C92**, distance: for a point inside the lattice the marked node is at most half a spacing away along each axis. -/
theorem C92_half_cell {tree : List (K × K) → K × K → Nat} (ht : IsNearestTree tree) (g : Grid K C) (hdx : 0 < g.dx) (hdy : 0 < |g.dy|)
    (p : K × K) (hp : InLattice g.box.xmin g.dx g.nx g.box.ymin |g.dy| g.ny p) :
    |p.1 - g.xAt (nearNode tree g p).1| ≤ g.dx / 2 ∧ |p.2 - g.yAt (nearNode tree g p).2| ≤ |g.dy| / 2 := by
  obtain ⟨hi, hj, hmin⟩ := C92_nearest ht g hp.1.1 hp.2.1 p
  refine ⟨half_cell_axis hdx hi hp.1 fun k hk => ?_, half_cell_axis hdy hj hp.2 fun l hl => ?_⟩
  · have := hmin k hk _ hj
    simp only [sqDist] at this
    linarith
  · have := hmin _ hi l hl
    simp only [sqDist] at this
    linarith

/-- **C92**: rows that are NaN are dropped, the others are kept in order. -/
theorem C92_indices (tree : List (K × K) → K × K → Nat) (g : Grid K C) (points : List (Option (K × K))) :
    gridIndices tree g points = (points.filter Option.isSome).filterMap (Option.map (nearNode tree g)) := by
  unfold gridIndices
  induction points with
  | nil => rfl
  | cons p l ih =>
    cases p with
    | none => simpa using ih
    | some p => simpa using ih

theorem linePoints_some {h : K} (hh : 0 < h) : ∀ (lines : List (LineFeature K)),
    (∀ f ∈ lines, h / 2 < f.len) → linePoints h lines = some (lines.flatMap fun f => (resamplePositions f.len h).map f.at_)
  | [], _ => rfl
  | f :: l, hl => by
    have h1 := C79_points f.at_ f.len h hh (hl f (by simp))
    have h2 := linePoints_some hh l fun f hf => hl f (by simp [hf])
    have hp : 0 < h / 2 := by linarith
    have hc : 0 < ⌈f.len / (h / 2)⌉ := Int.ceil_pos.2 (div_pos (lt_trans hp (hl f (by simp))) hp)
    have hne : (resamplePositions f.len h).map f.at_ ≠ [] := by
      have : ⌈f.len / (h / 2)⌉.toNat ≠ 0 := by omega
      simpa [resamplePositions] using this
    simp only [linePoints, h1, h2, List.flatMap_cons]
    split
    · rename_i p r ps e1 e2
      rw [← Option.some.inj e1, ← Option.some.inj e2]
    · rename_i hx
      exfalso
      cases hc : (resamplePositions f.len h).map f.at_ with
      | nil => exact hne hc
      | cons p r => exact hx p r _ (by rw [hc]) rfl

theorem linePoints_short {h : K} (hh : 0 < h) : ∀ (lines : List (LineFeature K)) (f : LineFeature K), f ∈ lines → 0 ≤ f.len →
    f.len ≤ h / 2 → linePoints h lines = none
  | g :: l, f, hf, h0, h1 => by
    have hp : 0 < h / 2 := by linarith
    rcases List.mem_cons.1 hf with rfl | hf
    · simp only [linePoints]
      split
      · rename_i p r ps e1 e2
        exfalso
        rcases h0.eq_or_lt with h0 | h0
        · have : resampleLine f.at_ f.len h = some [] := by simp [resampleLine, resamplePositions, ← h0]
          rw [this] at e1
          simp at e1
        · rw [C79_short_line_raises f.at_ f.len h hh h0 h1] at e1
          simp at e1
      · rfl
    · simp only [linePoints]
      split
      · rename_i p r ps e1 e2
        rw [linePoints_short hh l f hf h0 h1] at e2
        simp at e2
      · rfl

/-- **C92**, lines: the sizing function of lines longer than half the minimum edge length is that of the points taken along them in steps
of half the minimum edge length; it raises if one of the features is no line, for another coordinate system, and for a file without features. -/
theorem C92_lines_partial {tree : List (K × K) → K × K → Nat}
    {fmm : (n m : Nat) → K → K → (Fin n → Fin m → Bool) → Option (Fin n → Fin m → K)} {sameCrs : Bool} {lines : List (LineFeature K)}
    {box : Box K} {h0 rate coarsen : K} {mx : Option K} {crs : C} (hh : 0 < h0) (hl : ∀ f ∈ lines, h0 / 2 < f.len) :
    distanceSizingLines tree fmm sameCrs lines box h0 rate mx coarsen crs =
      if sameCrs = true ∧ (∀ f ∈ lines, f.isLine = true) ∧ lines ≠ [] then
        distanceSizing (nearNode tree) fmm box h0 coarsen rate mx crs (lines.flatMap fun f => (resamplePositions f.len h0).map f.at_)
      else none := by
  unfold distanceSizingLines
  rw [linePoints_some hh lines hl]
  congr 1
  simp [and_assoc]

/-- **C92** fails for short lines: one line of at most half the minimum edge length makes the function raise. -/
theorem C92_short_line {tree : List (K × K) → K × K → Nat}
    {fmm : (n m : Nat) → K → K → (Fin n → Fin m → Bool) → Option (Fin n → Fin m → K)} {sameCrs : Bool} {lines : List (LineFeature K)}
    {box : Box K} {h0 rate coarsen : K} {mx : Option K} {crs : C} (hh : 0 < h0) (f : LineFeature K) (hf : f ∈ lines) (h1 : 0 ≤ f.len)
    (h2 : f.len ≤ h0 / 2) : distanceSizingLines tree fmm sameCrs lines box h0 rate mx coarsen crs = none := by
  unfold distanceSizingLines
  rw [linePoints_short hh lines f hf h1 h2]
  split <;> rfl

/-- **C92**, points: the sizing function of a file of points. -/
theorem C92_points (tree : List (K × K) → K × K → Nat)
    (fmm : (n m : Nat) → K → K → (Fin n → Fin m → Bool) → Option (Fin n → Fin m → K)) (sameCrs : Bool) (points : List (Bool × (K × K)))
    (box : Box K) (h0 rate : K) (mx : Option K) (coarsen : K) (crs : C) :
    distanceSizingPoints tree fmm sameCrs points box h0 rate mx coarsen crs =
      if sameCrs = true ∧ (∀ f ∈ points, f.1 = true) ∧ points ≠ [] then
        distanceSizing (nearNode tree) fmm box h0 coarsen rate mx crs (points.map Prod.snd)
      else none := by
  unfold distanceSizingPoints
  congr 1
  simp [and_assoc]

/-- **C92** fails, minimum: because the zero set of the field lies between the nodes, no value equals the minimum edge length, not even at the
marked nodes, if the rate is positive and the maximum is larger than the minimum. -/
theorem C92_minimum_not_reached {near : Grid K C → K × K → Nat × Nat}
    {fmm : (n m : Nat) → K → K → (Fin n → Fin m → Bool) → Option (Fin n → Fin m → K)} (hz : NeverZero fmm) {box : Box K}
    {h0 coarsen rate : K} {mx : Option K} {crs : C} {points : List (K × K)} {r : Grid K C} (hbox : ¬ (|box.xmin| = 180 ∧ |box.xmax| = 180))
    (hrate : 0 < rate) (hmx : ∀ x, mx = some x → h0 < x) (h : distanceSizing near fmm box h0 coarsen rate mx crs points = some r) :
    ∀ i j, ∃ w, r.vals i j = some w ∧ h0 < w := by
  obtain ⟨g, -, W, D, hr, hD, hW⟩ := C38_values_partial hbox hrate.le (fun x hx => (hmx x hx).le) h
  have hD0 : ∀ i j, 0 < D i j := by
    intro i j
    obtain ⟨m, -, ⟨d, hd, hDd⟩ | ⟨-, hDd⟩⟩ := hD
    · rw [hDd]
      exact abs_pos.2 (hz _ _ _ _ _ _ hd i j)
    · rw [hDd]
      norm_num
  subst hr
  intro i j
  refine ⟨W i j, rfl, ?_⟩
  obtain ⟨-, -, -, h4, h5, -⟩ := hW i j
  have hpos : h0 < h0 + rate * D i j := by nlinarith [mul_pos hrate (hD0 i j)]
  cases mx with
  | none =>
    rw [h4 (by simp)]
    exact hpos
  | some x =>
    by_cases hc : h0 + rate * D i j ≤ x
    · rw [h4 (by rintro y hy; rw [← Option.some.inj hy]; exact hc)]
      exact hpos
    · push Not at hc
      rw [h5 x rfl hc]
      exact hmx x rfl

/-- **C92**, shoreline: the points used are the shoreline points inside the bounding polygon, without the NaN rows. -/
theorem C92_shore_points {inpoly : List (Option (K × K)) → Option (List Bool)} {inner mainland : List (Option (K × K))} {inside : K × K → Prop}
    [DecidablePred inside] (nanFlag : Bool)
    (h : inpoly (inner ++ mainland) = some ((inner ++ mainland).map fun p => match p with | none => nanFlag | some p => decide (inside p))) :
    (shorePoints inpoly inner mainland).filterMap id = ((inner ++ mainland).filterMap id).filter fun p => decide (inside p) := by
  simp only [shorePoints, h]
  generalize inner ++ mainland = l
  induction l with
  | nil => rfl
  | cons p l ih =>
    cases p with
    | none =>
      simp only [List.map_cons, keepRows]
      split
      · simpa using ih
      · simpa using ih
    | some p =>
      simp only [List.map_cons, keepRows, List.filterMap_cons, id, List.filter_cons]
      split
      · exact congrArg (p :: ·) ih
      · exact ih

/-- **C92**, shoreline: if the test for the bounding polygon raises, all points are used. -/
theorem C92_shore_points_error {inpoly : List (Option (K × K)) → Option (List Bool)} {inner mainland : List (Option (K × K))}
    (h : inpoly (inner ++ mainland) = none) : shorePoints inpoly inner mainland = inner ++ mainland := by
  simp only [shorePoints, h]

theorem nodeAt_injective {x0 d : K} (hd : 0 < d) {i k : Nat} (h : nodeAt x0 d i = nodeAt x0 d k) : i = k := by
  simp only [nodeAt, add_right_inj] at h
  exact_mod_cast mul_right_cancel₀ hd.ne' h

/-- A node is the nearest node of itself. -/
theorem nearNode_node {tree : List (K × K) → K × K → Nat} (ht : IsNearestTree tree) (g : Grid K C) (hdx : 0 < g.dx) (hdy : 0 < |g.dy|)
    {i j : Nat} (hi : i < g.nx) (hj : j < g.ny) : nearNode tree g (g.xAt i, g.yAt j) = (i, j) := by
  obtain ⟨h1, h2, h3⟩ := C92_nearest ht g (by omega) (by omega) (g.xAt i, g.yAt j)
  have := h3 i hi j hj
  simp only [sqDist] at this
  change (nodeAt g.box.xmin g.dx i - nodeAt g.box.xmin g.dx _) ^ 2 + (nodeAt g.box.ymin |g.dy| j - nodeAt g.box.ymin |g.dy| _) ^ 2 ≤
    (nodeAt g.box.xmin g.dx i - nodeAt g.box.xmin g.dx i) ^ 2 + (nodeAt g.box.ymin |g.dy| j - nodeAt g.box.ymin |g.dy| j) ^ 2 at this
  simp only [sub_self] at this
  have e1 := sq_nonneg (nodeAt g.box.xmin g.dx i - nodeAt g.box.xmin g.dx (nearNode tree g (g.xAt i, g.yAt j)).1)
  have e2 := sq_nonneg (nodeAt g.box.ymin |g.dy| j - nodeAt g.box.ymin |g.dy| (nearNode tree g (g.xAt i, g.yAt j)).2)
  have a1 : (nodeAt g.box.xmin g.dx i - nodeAt g.box.xmin g.dx (nearNode tree g (g.xAt i, g.yAt j)).1) ^ 2 = 0 := by linarith
  have a2 : (nodeAt g.box.ymin |g.dy| j - nodeAt g.box.ymin |g.dy| (nearNode tree g (g.xAt i, g.yAt j)).2) ^ 2 = 0 := by linarith
  have b1 := nodeAt_injective hdx (sub_eq_zero.1 (pow_eq_zero_iff (two_ne_zero) |>.1 a1))
  have b2 := nodeAt_injective hdy (sub_eq_zero.1 (pow_eq_zero_iff (two_ne_zero) |>.1 a2))
  exact Prod.ext b1.symm b2.symm

theorem keepRows_map {A B : Type} (f : A → B) (q : A → Bool) : ∀ l : List A, keepRows (l.map f) (l.map q) = (l.filter q).map f
  | [] => rfl
  | a :: l => by
    simp only [List.map_cons, keepRows, keepRows_map f q l, List.filter_cons]
    split <;> simp_all

/-- **C92**, mask: if there are shoreline points and the test for the bounding polygon does not raise, exactly the nodes outside of it are masked. -/
theorem C92_mask {tree : List (K × K) → K × K → Nat} (ht : IsNearestTree tree) {inpoly : List (Option (K × K)) → Option (List Bool)}
    {g : Grid K C} (hdx : 0 < g.dx) (hdy : 0 < |g.dy|) {inner mainland : List (Option (K × K))} {inside : K × K → Prop} [DecidablePred inside]
    (hne : inner ++ mainland ≠ []) (h1 : (inpoly (inner ++ mainland)).isSome)
    (h2 : inpoly ((gridNodes g).map some) = some ((gridNodes g).map fun p => decide (inside p))) (i : Fin g.nx) (j : Fin g.ny) :
    shoreMask tree inpoly g inner mainland i j = true ↔ ¬ inside (g.xAt i.val, g.yAt j.val) := by
  obtain ⟨m1, h1⟩ := Option.isSome_iff_exists.1 h1
  have hemp : ¬ (inner ++ mainland).isEmpty = true := by simpa using hne
  unfold shoreMask
  rw [if_neg hemp, h1, h2]
  simp only
  rw [keepRows_map]
  simp only [Bool.not_eq_true', List.any_eq_false, decide_eq_true_eq]
  constructor
  · intro h hin
    refine h (i.val, j.val) ?_ rfl
    unfold gridIndices
    rw [List.mem_map]
    refine ⟨(g.xAt i.val, g.yAt j.val), ?_, nearNode_node ht g hdx hdy i.isLt j.isLt⟩
    simp only [List.filterMap_map, List.mem_filterMap, List.mem_filter, decide_eq_true_eq, Function.comp_apply, id]
    exact ⟨_, ⟨(mem_gridNodes g _).2 ⟨i.val, i.isLt, j.val, j.isLt, rfl⟩, hin⟩, rfl⟩
  · intro hout k hk hkij
    subst hkij
    unfold gridIndices at hk
    rw [List.mem_map] at hk
    obtain ⟨p, hp, hpk⟩ := hk
    simp only [List.filterMap_map, List.mem_filterMap, List.mem_filter, decide_eq_true_eq, Function.comp_apply, id, Option.some.injEq] at hp
    obtain ⟨p', ⟨hp1, hp2⟩, rfl⟩ := hp
    obtain ⟨a, ha, b, hb, rfl⟩ := (mem_gridNodes g _).1 hp1
    rw [nearNode_node ht g hdx hdy ha hb] at hpk
    obtain ⟨rfl, rfl⟩ := Prod.mk.inj hpk
    exact hout hp2

/-- **C92**, shoreline, as a whole: for a box that does not reach around the globe, with a test for the bounding polygon that tells which points
are inside, the sizes are those of C38 for exactly the shoreline points inside of the polygon, and exactly the nodes outside of it are masked. -/
theorem C92_shore_partial {tree : List (K × K) → K × K → Nat} (ht : IsNearestTree tree)
    {fmm : (n m : Nat) → K → K → (Fin n → Fin m → Bool) → Option (Fin n → Fin m → K)}
    {inpoly : List (Option (K × K)) → Option (List Bool)} {inner mainland : List (Option (K × K))} {inside : K × K → Prop} [DecidablePred inside]
    (nanFlag : Bool)
    (hin : ∀ l, inpoly l = some (l.map fun p => match p with | none => nanFlag | some p => decide (inside p)))
    {box : Box K} {h0 rate coarsen : K} {mx : Option K} {crs : C} (hbox : ¬ (|box.xmin| = 180 ∧ |box.xmax| = 180)) (hrate : 0 ≤ rate)
    (hmx : ∀ x, mx = some x → h0 ≤ x) (hne : inner ++ mainland ≠ []) {r : Grid K C} {mask : Fin r.nx → Fin r.ny → Bool}
    (h : distanceSizingShore tree fmm inpoly inner mainland box h0 rate mx coarsen crs = some ⟨r, mask⟩) :
    (∃ g, mkGrid box (h0 * coarsen) none crs (some h0) (.scalar (some 0)) true = some g ∧
      ∃ W D : Fin g.nx → Fin g.ny → K, r = { g with vals := fun i j => some (W i j), interp := some true } ∧
        DistanceField (nearNode tree) fmm (((inner ++ mainland).filterMap id).filter fun p => decide (inside p)) g D ∧
        ∀ i j, ((∀ x, mx = some x → h0 + rate * D i j ≤ x) → W i j = h0 + rate * D i j) ∧
          ∀ x, mx = some x → x < h0 + rate * D i j → W i j = x) ∧
      ∀ i j, mask i j = true ↔ ¬ inside (nodeAt r.box.xmin r.dx i.val, nodeAt r.box.ymin |r.dy| j.val) := by
  unfold distanceSizingShore at h
  obtain ⟨g', hg', he⟩ := Option.map_eq_some_iff.1 h
  rw [Sigma.mk.injEq] at he
  obtain ⟨rfl, he⟩ := he
  obtain rfl := eq_of_heq he
  rw [C92_shore_points nanFlag (hin _)] at hg'
  obtain ⟨g, hg, W, D, hr, hD, hW⟩ := C38_values_partial hbox hrate hmx hg'
  refine ⟨⟨g, hg, W, D, hr, hD, fun i j => ⟨(hW i j).2.2.2.1, (hW i j).2.2.2.2.1⟩⟩, fun i j => ?_⟩
  have hpos : 0 < g.dx ∧ 0 < g.dy := by
    unfold mkGrid at hg
    simp only [Option.getD_none] at hg
    split at hg
    · rename_i hc
      rw [← Option.some.inj hg]
      simp [gridChecks] at hc
      exact ⟨hc.2, hc.2⟩
    · simp at hg
  have hpos' : 0 < g'.dx ∧ 0 < |g'.dy| := by
    rw [hr]
    exact ⟨hpos.1, abs_pos.2 hpos.2.ne'⟩
  refine C92_mask ht hpos'.1 hpos'.2 hne (by rw [hin]; rfl) ?_ i j
  rw [hin, List.map_map]
  rfl

/-! ## C93 -/

/-- **C93**: for arrays of at least two rows and two columns the border has every border cell exactly once and no inner cell. -/
theorem C93_border {n m : Nat} (hn : 2 ≤ n) (hm : 2 ≤ m) : ∃ l, borderIndices n m = some l ∧ l.Nodup ∧
    (∀ i j, (i, j) ∈ l ↔ i < n ∧ j < m ∧ (i = 0 ∨ i = n - 1 ∨ j = 0 ∨ j = m - 1)) ∧ l.length = 2 * (n + m) - 4 := by
  refine ⟨_, if_neg (by omega), ?_, ?_, ?_⟩
  · have hd : ∀ i, i ∈ (List.range (n - 1)).drop 1 ↔ 0 < i ∧ i < n - 1 := by
      intro i
      rw [List.range_eq_range', List.drop_range', List.mem_range'_1]
      omega
    have hnd : ((List.range (n - 1)).drop 1).Nodup := List.nodup_range.sublist (List.drop_sublist _ _)
    rw [List.nodup_append, List.nodup_append, List.nodup_append]
    refine ⟨⟨⟨?_, ?_, ?_⟩, ?_, ?_⟩, ?_, ?_⟩
    · exact List.nodup_range.map fun a b h => by simpa using h
    · exact List.nodup_range.map fun a b h => by simpa using h
    · intro a ha b hb
      simp only [List.mem_map, List.mem_range] at ha hb
      obtain ⟨j, hj, rfl⟩ := ha
      obtain ⟨i, hi, rfl⟩ := hb
      simp
      omega
    · exact (List.nodup_reverse.2 List.nodup_range).map fun a b h => by simpa using h
    · intro a ha b hb
      simp only [List.mem_append, List.mem_map, List.mem_reverse, List.mem_range] at ha hb
      obtain ⟨j, hj, rfl⟩ := hb
      rcases ha with ⟨i, hi, rfl⟩ | ⟨i, hi, rfl⟩ <;> simp <;> omega
    · exact (List.nodup_reverse.2 hnd).map fun a b h => by simpa using h
    · intro a ha b hb
      simp only [List.mem_append, List.mem_map, List.mem_reverse, List.mem_range] at ha hb
      obtain ⟨j, hj, rfl⟩ := hb
      have := (hd j).1 hj
      rcases ha with (⟨i, hi, rfl⟩ | ⟨i, hi, rfl⟩) | ⟨i, hi, rfl⟩ <;> simp <;> omega
  · intro i j
    simp only [List.mem_append, List.mem_map, List.mem_reverse, List.mem_range, Prod.mk.injEq]
    have hd : ∀ i, i ∈ (List.range (n - 1)).drop 1 ↔ 0 < i ∧ i < n - 1 := by
      intro i
      rw [List.range_eq_range', List.drop_range', List.mem_range'_1]
      omega
    constructor
    · rintro (((⟨a, h1, h2, h3⟩ | ⟨a, h1, h2, h3⟩) | ⟨a, h1, h2, h3⟩) | ⟨a, h1, h2, h3⟩)
      · omega
      · omega
      · omega
      · have := (hd a).1 h1
        omega
    · rintro ⟨h1, h2, h3⟩
      by_cases c1 : i = n - 1
      · exact Or.inl (Or.inr ⟨j, h2, c1.symm, rfl⟩)
      · by_cases c2 : j = m - 1
        · exact Or.inl (Or.inl (Or.inr ⟨i, by omega, rfl, c2.symm⟩))
        · by_cases c3 : i = 0
          · exact Or.inl (Or.inl (Or.inl ⟨j, by omega, c3.symm, rfl⟩))
          · exact Or.inr ⟨i, (hd i).2 (by omega), rfl, by omega⟩
  · simp
    omega

/-- **C93** fails: in an array of one row all cells but the last occur twice. -/
theorem C93_single_row : borderIndices 1 3 = some [(0, 0), (0, 1), (0, 2), (0, 1), (0, 0)] := by decide +kernel

example : borderIndices 3 3 = some [(0, 0), (0, 1), (0, 2), (1, 2), (2, 2), (2, 1), (2, 0), (1, 0)] := by decide +kernel
end

/-! ### examples -/

/-- The first nearest point of a list. -/
def firstNearest : List (ℚ × ℚ) → ℚ × ℚ → Nat
  | x :: y :: l, p =>
    match (y :: l)[firstNearest (y :: l) p]? with
    | some z => if sqDist p x ≤ sqDist p z then 0 else firstNearest (y :: l) p + 1
    | none => 0
  | _, _ => 0

theorem firstNearest_spec : IsNearestTree firstNearest := by
  intro l p hl
  induction l with
  | nil => exact absurd rfl hl
  | cons x l ih =>
    cases l with
    | nil => exact ⟨x, by simp [firstNearest], by simp⟩
    | cons y l =>
      obtain ⟨z, hz, hmin⟩ := ih (by simp)
      simp only [firstNearest, hz]
      split
      · rename_i hle
        refine ⟨x, by simp, fun w hw => ?_⟩
        rcases List.mem_cons.1 hw with rfl | hw
        · exact le_rfl
        · exact hle.trans (hmin w hw)
      · rename_i hle
        refine ⟨z, by simpa using hz, fun w hw => ?_⟩
        rcases List.mem_cons.1 hw with rfl | hw
        · exact (not_le.1 hle).le
        · exact hmin w hw

/-- A grid of three by two nodes. -/
def nodeEx : Grid ℚ Nat := ⟨⟨0, 2, 0, 1⟩, 1, 1, 3, 2, fun _ _ => none, none, true, 0, none⟩

example : 0 < nodeEx.dx ∧ 0 < |nodeEx.dy| ∧ gridNodes nodeEx = [(0, 0), (0, 1), (1, 0), (1, 1), (2, 0), (2, 1)] ∧
    gridIndices firstNearest nodeEx [some (1 / 3, 3 / 4), none, some (7 / 4, 1 / 4)] = [(0, 1), (2, 0)] := by
  refine ⟨?_, ?_, ?_, ?_⟩ <;> decide +kernel
example := C92_half_cell firstNearest_spec nodeEx (by decide +kernel) (by decide +kernel) (1 / 3, 3 / 4)
  (by simp [InLattice, OnAxis, nodeAt, nodeEx]; norm_num)

/-- A test for the half plane on the left of 3/2. -/
def leftHalf (l : List (Option (ℚ × ℚ))) : Option (List Bool) := some (l.map fun p => match p with | none => false | some p => decide (p.1 < 3 / 2))

example := C92_mask firstNearest_spec (inpoly := leftHalf) (g := nodeEx) (by decide +kernel) (by decide +kernel)
  (inner := [some (0, 0), none]) (mainland := []) (inside := fun p => p.1 < 3 / 2) (by simp) rfl rfl
example : (List.finRange 3).map (fun i : Fin 3 => shoreMask firstNearest leftHalf nodeEx [some (0, 0), none] [] i (0 : Fin 2)) =
    [false, false, true] := by decide +kernel
example := C92_shore_points (inpoly := leftHalf) (inner := [some (0, 0), none, some (2, 0)]) (mainland := [some (1, 1)])
  (inside := fun p => p.1 < 3 / 2) false rfl

/-- A line along the x axis. -/
def lineEx (len : ℚ) : LineFeature ℚ := ⟨true, len, fun t => (t, 0)⟩

-- The shoreline points left of 3/2 are (0, 0) and (1, 1); the nodes with x = 2, 3, 4 are masked.
example : (distanceSizingShore firstNearest columnDistance leftHalf [some (0, 0), none, some (4, 0)] [some (1, 1)] (⟨0, 4, 0, 1⟩ : Box ℚ) 1 (1 / 2)
    (some 2) 1 0).map (fun r => (shown r.1, (List.finRange r.1.nx).map fun i => (List.finRange r.1.ny).map fun j => r.2 i j)) =
    some (([[some 1, some 1], [some 1, some 1], [some (3 / 2), some (3 / 2)], [some 2, some 2], [some 2, some 2]], some true),
      [[false, false], [false, false], [true, true], [true, true], [true, true]]) := by decide +kernel

-- One line of length 3/2 with minimum edge length 1: points at 0, 1/2, 1.
example : (∀ f ∈ [lineEx (3 / 2)], (1 : ℚ) / 2 < f.len) ∧ linePoints 1 [lineEx (3 / 2)] = some [(0, 0), (1 / 2, 0), (1, 0)] ∧
    (distanceSizingLines firstNearest columnDistance true [lineEx (3 / 2)] (⟨0, 4, 0, 1⟩ : Box ℚ) 1 (1 / 2) (some 2) 1 0).map shown =
      some ([[some 1, some 1], [some 1, some 1], [some (3 / 2), some (3 / 2)], [some 2, some 2], [some 2, some 2]], some true) ∧
    linePoints 1 [lineEx (3 / 2), lineEx (1 / 2)] = none := by
  refine ⟨by simp [lineEx]; norm_num, ?_, ?_, ?_⟩ <;> decide +kernel

/-- **C92** fails: a point far outside of the box is not ignored, it marks the nearest node on the border, whose size is then the minimum. -/
theorem C92_outside_point_marked :
    (distanceSizingPoints firstNearest columnDistance true [(true, (1000, 0))] (⟨0, 4, 0, 1⟩ : Box ℚ) 1 (1 / 2) none 1 0).map shown =
      some ([[some 3, some 3], [some (5 / 2), some (5 / 2)], [some 2, some 2], [some (3 / 2), some (3 / 2)], [some 1, some 1]], some true) := by
  decide +kernel

/-- A solver for concrete runs: half a spacing more than `columnDistance`, negative at the marked nodes. -/
def betweenDistance : (n m : Nat) → ℚ → ℚ → (Fin n → Fin m → Bool) → Option (Fin n → Fin m → ℚ) := fun n m dx dy marks =>
  if dx ≤ 0 then none else (columnDistance n m dx dy marks).map fun d i j => if marks i j then -dx / 2 else |d i j| + dx / 2

theorem betweenDistance_neverZero : NeverZero betweenDistance := by
  intro n m dx dy marks d h i j
  unfold betweenDistance at h
  split at h
  · simp at h
  · rename_i hdx
    obtain ⟨d', -, rfl⟩ := Option.map_eq_some_iff.1 h
    simp only
    split
    · linarith
    · have := abs_nonneg (d' i j)
      linarith

example : ¬ (|(⟨0, 2, 0, 0⟩ : Box ℚ).xmin| = 180 ∧ |(⟨0, 2, 0, 0⟩ : Box ℚ).xmax| = 180) ∧
    (distanceSizing (nearNode firstNearest) betweenDistance (⟨0, 2, 0, 0⟩ : Box ℚ) 1 1 (1 / 5) (some 2) 0 [(0, 0)]).map shown =
      some ([[some (11 / 10)], [some (13 / 10)], [some (3 / 2)]], some true) := by decide +kernel

end OM
