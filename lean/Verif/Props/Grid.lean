import Verif.Lemmas.Grid
import Mathlib.Data.Rat.Floor
import Mathlib.Order.Bounds.Basic
import Mathlib.Algebra.Order.Ring.Rat
/-!
# Properties of grids and their interpolants (C30–C33)
-/
namespace OM
open Spec
set_option linter.unusedSectionVars false

section
variable {K C : Type} [Field K] [LinearOrder K] [IsStrictOrderedRing K] [FloorRing K]

/-! ## C30 -/

theorem axis_count {a b d : K} (hab : a ≤ b) (hd : 0 < d) {n : Nat} (hn : (n : Int) = ⌊(b - a) / d⌋ + 1) :
    (∀ k < n, a ≤ nodeAt a d k ∧ nodeAt a d k ≤ b) ∧ b < nodeAt a d n ∧ 0 < n := by
  have h0 : 0 ≤ ⌊(b - a) / d⌋ := Int.floor_nonneg.2 (div_nonneg (by linarith) hd.le)
  refine ⟨fun k hk => ⟨?_, ?_⟩, ?_, by omega⟩
  · simp only [nodeAt]
    have : 0 ≤ (k : K) * d := by positivity
    linarith
  · have h1 : (k : Int) ≤ ⌊(b - a) / d⌋ := by omega
    have h2 : ((k : Int) : K) ≤ (b - a) / d := Int.le_floor.1 h1
    rw [le_div_iff₀ hd, Int.cast_natCast] at h2
    simp only [nodeAt]
    linarith
  · have h1 : ⌊(b - a) / d⌋ < (n : Int) := by omega
    have h2 : (b - a) / d < ((n : Int) : K) := Int.floor_lt.1 h1
    rw [div_lt_iff₀ hd, Int.cast_natCast] at h2
    simp only [nodeAt]
    linarith

/-- **C30**, grids of a scalar value. Every valid box and positive spacings give a grid. The coordinate vectors are
`x0 + i dx` and `y0 + j dy`, not empty, strictly increasing and inside the box; one more node would be outside. -/
theorem C30_scalar_grid_partial (b : Box K) (dx dy : K) (crs : C) (hmin : Option K) (v : Option K) (e : Bool)
    (hx : b.xmin ≤ b.xmax) (hy : b.ymin ≤ b.ymax) (hdx : 0 < dx) (hdy : 0 < dy) :
    ∃ g : Grid K C, mkGrid b dx (some dy) crs hmin (.scalar v) e = some g ∧ (∀ i j, g.vals i j = v) ∧
      g.createVectors.1 = (List.range g.nx).map (nodeAt b.xmin dx) ∧
      g.createVectors.2 = (List.range g.ny).map (nodeAt b.ymin dy) ∧
      (∀ x ∈ g.createVectors.1, b.xmin ≤ x ∧ x ≤ b.xmax) ∧ (∀ y ∈ g.createVectors.2, b.ymin ≤ y ∧ y ≤ b.ymax) ∧
      b.xmax < nodeAt b.xmin dx g.nx ∧ b.ymax < nodeAt b.ymin dy g.ny ∧ 0 < g.nx ∧ 0 < g.ny ∧
      g.createVectors.1.Pairwise (· < ·) ∧ g.createVectors.2.Pairwise (· < ·) := by
  have hc : gridChecks b dx dy = true := by
    simp [gridChecks, hx, hy, hdx, hdy]
  refine ⟨⟨b, dx, dy, (⌊(b.xmax - b.xmin) / dx⌋ + 1).toNat, (⌊(b.ymax - b.ymin) / dy⌋ + 1).natAbs, fun _ _ => v, hmin, e, crs,
    none⟩, by simp only [mkGrid, Option.getD_some, hc, if_true], ?_⟩
  have hfx : 0 ≤ ⌊(b.xmax - b.xmin) / dx⌋ := Int.floor_nonneg.2 (div_nonneg (by linarith) hdx.le)
  have hfy : 0 ≤ ⌊(b.ymax - b.ymin) / dy⌋ := Int.floor_nonneg.2 (div_nonneg (by linarith) hdy.le)
  have hcx := axis_count hx hdx (n := (⌊(b.xmax - b.xmin) / dx⌋ + 1).toNat) (by omega)
  have hcy := axis_count hy hdy (n := (⌊(b.ymax - b.ymin) / dy⌋ + 1).natAbs) (by omega)
  have mono : ∀ (a d : K), 0 < d → ∀ n, ((List.range n).map (nodeAt a d)).Pairwise (· < ·) := by
    intro a d hd n
    rw [List.pairwise_map]
    refine List.pairwise_lt_range.imp ?_
    intro i j hij
    simp only [nodeAt]
    have : (i : K) < j := by exact_mod_cast hij
    nlinarith
  have e2 : ∀ n : Nat, (List.range n).map (fun (j : Nat) => b.ymin + (j : K) * |dy|) = (List.range n).map (nodeAt b.ymin dy) := by
    intro n
    rw [abs_of_pos hdy]; rfl
  refine ⟨fun _ _ => rfl, rfl, e2 _, ?_, ?_, hcx.2.1, hcy.2.1, hcx.2.2, hcy.2.2, mono _ _ hdx _, ?_⟩
  · intro x hx
    obtain ⟨k, hk, rfl⟩ := List.mem_map.1 hx
    exact hcx.1 k (List.mem_range.1 hk)
  · intro y hy
    have hy' : y ∈ (List.range (⌊(b.ymax - b.ymin) / dy⌋ + 1).natAbs).map (nodeAt b.ymin dy) := by
      rw [← e2]; exact hy
    obtain ⟨k, hk, rfl⟩ := List.mem_map.1 hy'
    exact hcy.1 k (List.mem_range.1 hk)
  · have := mono b.ymin dy hdy (⌊(b.ymax - b.ymin) / dy⌋ + 1).natAbs
    rw [← e2] at this
    exact this

/-- **C30**, rejection: a reversed box or a spacing that is not positive raises, whatever the values are. -/
theorem C30_invalid_rejected (b : Box K) (dx dy : K) (crs : C) (hmin : Option K) (data : GridData K) (e : Bool)
    (h : b.xmax < b.xmin ∨ b.ymax < b.ymin ∨ dx ≤ 0 ∨ dy ≤ 0) : mkGrid b dx (some dy) crs hmin data e = none := by
  have hc : gridChecks b dx dy = false := by
    simp only [gridChecks]
    rcases h with h | h | h | h <;> simp [h]
  simp [mkGrid, hc]

/-- **C30** fails for grids of an array: its shape is not compared with the box. Here a 3 by 1 array on a unit box with spacing 1
has a node at `x = 2`. -/
theorem C30_array_shape_not_checked :
    ∃ g : Grid ℚ Nat, mkGrid (⟨0, 1, 0, 1⟩ : Box ℚ) 1 none 0 none (.array 3 1 fun _ _ => some 1) false = some g ∧
      (2 : ℚ) ∈ g.createVectors.1 ∧ g.box.xmax = 1 := by
  refine ⟨_, rfl, ?_, rfl⟩
  decide +kernel

example : (mkGrid (⟨0, 1, 0, 2⟩ : Box ℚ) (1 / 3) (some (3 / 4)) (0 : Nat) none (.scalar (some 7)) false).map Grid.createVectors
    = some ([0, 1 / 3, 2 / 3, 1], [0, 3 / 4, 3 / 2]) := by decide +kernel
example : (mkGrid (⟨0, 1, 0, 2⟩ : Box ℚ) (-1) none (0 : Nat) none (.scalar (some 7)) false).map Grid.createVectors = none := by
  decide +kernel

/-! ## C31 -/

/-- The nodes of the cells around a point have numbers as values. -/
def NumbersAround (g : Grid K C) (q : K × K) : Prop :=
  ∀ (i : Fin g.nx) (j : Fin g.ny), |q.1 - nodeAt g.box.xmin g.dx i| ≤ g.dx → |q.2 - nodeAt g.box.ymin |g.dy| j| ≤ |g.dy| →
    (g.vals i j).isSome

theorem linearAt_eq (g : Grid K C) (q : K × K) {i0 i1 : Fin g.nx} {j0 j1 : Fin g.ny} {s t v00 v01 v10 v11 : K}
    (hx : axisCell g.box.xmin g.dx g.nx q.1 = some (i0, i1, s)) (hy : axisCell g.box.ymin |g.dy| g.ny q.2 = some (j0, j1, t))
    (h00 : g.vals i0 j0 = some v00) (h01 : g.vals i0 j1 = some v01) (h10 : g.vals i1 j0 = some v10)
    (h11 : g.vals i1 j1 = some v11) :
    g.linearAt q = some (v00 * (1 - s) * (1 - t) + v01 * (1 - s) * t + v10 * s * (1 - t) + v11 * s * t) := by
  simp only [Grid.linearAt, hx, hy, h00, h01, h10, h11]

theorem linearAt_spec (g : Grid K C) (q : K × K) (hdx : 0 < g.dx) (hdy : 0 < g.dy)
    (hq : InLattice g.box.xmin g.dx g.nx g.box.ymin |g.dy| g.ny q) (hnum : NumbersAround g q) :
    ∃ v, g.linearAt q = some v ∧ ∀ lo hi : K,
      (∀ (i : Fin g.nx) (j : Fin g.ny) (w : K), |q.1 - nodeAt g.box.xmin g.dx i| < g.dx →
        |q.2 - nodeAt g.box.ymin |g.dy| j| < |g.dy| → g.vals i j = some w → lo ≤ w ∧ w ≤ hi) → lo ≤ v ∧ v ≤ hi := by
  obtain ⟨i0, i1, s, hcx, hs0, hs1, hxs, hi⟩ := axisCell_inside hdx hq.1
  have hdy' : 0 < |g.dy| := abs_pos.2 hdy.ne'
  obtain ⟨j0, j1, t, hcy, ht0, ht1, hyt, hj⟩ := axisCell_inside hdy' hq.2
  have lo_le : ∀ {x0 d s x : K} {i : Nat}, 0 < d → 0 ≤ s → s ≤ 1 → x = nodeAt x0 d i + s * d → |x - nodeAt x0 d i| ≤ d := by
    intro x0 d s x i hd h0 h1 hx
    rw [hx, add_sub_cancel_left, abs_of_nonneg (mul_nonneg h0 hd.le)]
    nlinarith
  have up_le : ∀ {x0 d s x : K} {i : Nat}, 0 < d → 0 ≤ s → s ≤ 1 → x = nodeAt x0 d i + s * d → |x - nodeAt x0 d (i + 1)| ≤ d := by
    intro x0 d s x i hd h0 h1 hx
    have : x - nodeAt x0 d (i + 1) = (s - 1) * d := by rw [hx]; simp only [nodeAt]; push_cast; ring
    rw [this, abs_mul, abs_of_pos hd, abs_of_nonpos (by linarith)]
    nlinarith
  have hi0 := lo_le hdx hs0 hs1 hxs
  have hj0 := lo_le hdy' ht0 ht1 hyt
  have hi1 : |q.1 - nodeAt g.box.xmin g.dx i1| ≤ g.dx := by
    rcases hi with h | h
    · rw [h]; exact up_le hdx hs0 hs1 hxs
    · rw [h.1]; exact hi0
  have hj1 : |q.2 - nodeAt g.box.ymin |g.dy| j1| ≤ |g.dy| := by
    rcases hj with h | h
    · rw [h]; exact up_le hdy' ht0 ht1 hyt
    · rw [h.1]; exact hj0
  obtain ⟨v00, h00⟩ := Option.isSome_iff_exists.1 (hnum i0 j0 hi0 hj0)
  obtain ⟨v01, h01⟩ := Option.isSome_iff_exists.1 (hnum i0 j1 hi0 hj1)
  obtain ⟨v10, h10⟩ := Option.isSome_iff_exists.1 (hnum i1 j0 hi1 hj0)
  obtain ⟨v11, h11⟩ := Option.isSome_iff_exists.1 (hnum i1 j1 hi1 hj1)
  refine ⟨_, linearAt_eq g q hcx hcy h00 h01 h10 h11, fun lo hi' hb => ?_⟩
  have x0lt : s < 1 → |q.1 - nodeAt g.box.xmin g.dx i0| < g.dx := fun h => abs_lower_lt hdx hs0 h hxs
  have y0lt : t < 1 → |q.2 - nodeAt g.box.ymin |g.dy| j0| < |g.dy| := fun h => abs_lower_lt hdy' ht0 h hyt
  have x1lt : 0 < s → |q.1 - nodeAt g.box.xmin g.dx i1| < g.dx := by
    intro h
    rcases hi with h' | h'
    · rw [h']; exact abs_upper_lt hdx h hs1 hxs
    · exact absurd h'.2 h.ne'
  have y1lt : 0 < t → |q.2 - nodeAt g.box.ymin |g.dy| j1| < |g.dy| := by
    intro h
    rcases hj with h' | h'
    · rw [h']; exact abs_upper_lt hdy' h ht1 hyt
    · exact absurd h'.2 h.ne'
  exact bilinear_between hs0 hs1 ht0 ht1 (fun a b => hb i0 j0 v00 (x0lt a) (y0lt b) h00)
    (fun a b => hb i0 j1 v01 (x0lt a) (y1lt b) h01) (fun a b => hb i1 j0 v10 (x1lt a) (y0lt b) h10)
    (fun a b => hb i1 j1 v11 (x1lt a) (y1lt b) h11)

/-- **C31**, bounds. After `build_interpolant` the value at a point of the lattice exists and lies between any bounds of the values
at the nodes less than one spacing away in x and y: these are the corners of the cell, at a cell border only those on the border.
Missing: nodes with NaN next to the point (see `C31_nan_neighbour`). -/
theorem C31_eval_between_partial (g : Grid K C) (q : K × K) (hdx : 0 < g.dx) (hdy : 0 < g.dy)
    (hq : InLattice g.box.xmin g.dx g.nx g.box.ymin |g.dy| g.ny q) (hnum : NumbersAround g.buildInterpolant q) :
    ∃ v, g.buildInterpolant.evalAt q = some (some v) ∧ ∀ lo hi : K,
      (∀ (i : Fin g.nx) (j : Fin g.ny) (w : K), |q.1 - nodeAt g.box.xmin g.dx i| < g.dx →
        |q.2 - nodeAt g.box.ymin |g.dy| j| < |g.dy| → g.buildInterpolant.vals i j = some w → lo ≤ w ∧ w ≤ hi) →
      lo ≤ v ∧ v ≤ hi := by
  obtain ⟨v, hv, hb⟩ := linearAt_spec g.buildInterpolant q hdx hdy hq hnum
  refine ⟨v, ?_, hb⟩
  have ho : g.buildInterpolant.outside q = false := (outside_false hq.1.1 hq.2.1).2 hq
  simp [Grid.evalAt, Grid.buildInterpolant, Grid.evalWith] at ho hv ⊢
  simp [ho, hv]

/-- **C31**, nodes. After `build_interpolant` the value at a node is the value of the node, if the nodes around it are numbers. -/
theorem C31_eval_node_partial (g : Grid K C) (i : Fin g.nx) (j : Fin g.ny) (hdx : 0 < g.dx) (hdy : 0 < g.dy)
    (hnum : NumbersAround g.buildInterpolant (g.box.xmin + (i : K) * g.dx, g.box.ymin + (j : K) * g.dy)) :
    g.buildInterpolant.evalAt (g.box.xmin + (i : K) * g.dx, g.box.ymin + (j : K) * g.dy)
      = some (g.buildInterpolant.vals i j) := by
  have hady : |g.dy| = g.dy := abs_of_pos hdy
  have onA : ∀ (x0 d : K) (n : Nat) (i : Fin n), 0 < d → OnAxis x0 d n (x0 + (i : K) * d) := by
    intro x0 d n i hd
    refine ⟨by have := i.isLt; omega, ?_, ?_⟩
    · have : 0 ≤ (i : K) * d := by positivity
      linarith
    · simp only [nodeAt]
      have : ((i : Nat) : K) ≤ ((n - 1 : Nat) : K) := by
        have := i.isLt
        exact_mod_cast (by omega : (i : Nat) ≤ n - 1)
      nlinarith
  have only : ∀ {x0 d : K} {n : Nat} {i k : Fin n}, 0 < d → |x0 + (i : K) * d - nodeAt x0 d k| < d → k = i := by
    intro x0 d n i k hd h
    have e : x0 + (i : K) * d - nodeAt x0 d k = ((i : K) - k) * d := by simp only [nodeAt]; ring
    rw [e, abs_mul, abs_of_pos hd] at h
    have h' : |((i : K) - k)| < 1 := by
      by_contra hc
      push Not at hc
      nlinarith
    rw [abs_lt] at h'
    rcases Nat.lt_trichotomy (k : Nat) i with h2 | h2 | h2
    · have : ((k : Nat) : K) + 1 ≤ ((i : Nat) : K) := by exact_mod_cast h2
      linarith [h'.2]
    · exact Fin.ext h2
    · have : ((i : Nat) : K) + 1 ≤ ((k : Nat) : K) := by exact_mod_cast h2
      linarith [h'.1]
  have hq : InLattice g.box.xmin g.dx g.nx g.box.ymin |g.dy| g.ny (g.box.xmin + (i : K) * g.dx, g.box.ymin + (j : K) * g.dy) :=
    ⟨onA _ _ _ i hdx, by rw [hady]; exact onA _ _ _ j hdy⟩
  obtain ⟨v, hv, hb⟩ := C31_eval_between_partial g _ hdx hdy hq hnum
  have hs : (g.buildInterpolant.vals i j).isSome := by
    apply hnum i j
    · simp only [nodeAt, Grid.buildInterpolant]; simp [hdx.le]
    · rw [show g.buildInterpolant.dy = g.dy from rfl, hady]
      simp only [nodeAt, Grid.buildInterpolant]; simp [hdy.le]
  obtain ⟨w, hw⟩ := Option.isSome_iff_exists.1 hs
  have := hb w w (by
    intro i' j' w' hx hy hw'
    have e1 := only hdx hx
    rw [hady] at hy
    have e2 := only hdy hy
    rw [e1, e2, hw] at hw'
    exact Option.some.inj hw' ▸ ⟨le_refl _, le_refl _⟩)
  rw [hv, hw]
  exact congrArg (fun z => some (some z)) (le_antisymm this.2 this.1)

/-- **C31**, outside. Without extrapolation a point outside the lattice gets 999999. -/
theorem C31_eval_outside (g : Grid K C) (q : K × K) (hn : 0 < g.nx) (hm : 0 < g.ny) (he : g.extrapolate = false)
    (hq : ¬ InLattice g.box.xmin g.dx g.nx g.box.ymin |g.dy| g.ny q) :
    g.buildInterpolant.evalAt q = some (some 999999) := by
  have ho : g.buildInterpolant.outside q = true := by
    by_contra h
    have h' : g.buildInterpolant.outside q = false := by simpa using h
    exact hq ((outside_false (g := g.buildInterpolant) hn hm).1 h')
  simp only [Grid.evalAt, Grid.evalWith, Grid.buildInterpolant, Option.map_some, he] at ho ⊢
  simp [ho]

/-- **C31**, form of the interpolation. A grid that samples a plane gives the plane at every point of the lattice, and at every
point at all if extrapolation is on (at least two nodes in each direction). -/
theorem C31_eval_plane (g : Grid K C) (q : K × K) (a b c : K) (hdx : 0 < g.dx) (hdy : 0 < g.dy) (hn : 2 ≤ g.nx) (hm : 2 ≤ g.ny)
    (hv : ∀ i j, g.buildInterpolant.vals i j = some (a + b * nodeAt g.box.xmin g.dx i + c * nodeAt g.box.ymin g.dy j))
    (hq : g.extrapolate = true ∨ InLattice g.box.xmin g.dx g.nx g.box.ymin |g.dy| g.ny q) :
    g.buildInterpolant.evalAt q = some (some (a + b * q.1 + c * q.2)) := by
  have hady : |g.dy| = g.dy := abs_of_pos hdy
  obtain ⟨i0, i1, s, hcx, hi, hx⟩ := axisCell_spec (x0 := g.box.xmin) (x := q.1) hdx hn
  obtain ⟨j0, j1, t, hcy, hj, hy⟩ := axisCell_spec (x0 := g.box.ymin) (x := q.2) hdy hm
  have hl : g.buildInterpolant.linearAt q = some (a + b * q.1 + c * q.2) := by
    have e1 : g.buildInterpolant.box = g.box := rfl
    have e2 : g.buildInterpolant.dx = g.dx := rfl
    have e3 : g.buildInterpolant.dy = g.dy := rfl
    have hcx' : axisCell g.buildInterpolant.box.xmin g.buildInterpolant.dx g.buildInterpolant.nx q.1 = some (i0, i1, s) := hcx
    have hcy' : axisCell g.buildInterpolant.box.ymin |g.buildInterpolant.dy| g.buildInterpolant.ny q.2 = some (j0, j1, t) := by
      rw [e3, hady]; exact hcy
    refine (linearAt_eq g.buildInterpolant q hcx' hcy' (hv i0 j0) (hv i0 j1) (hv i1 j0) (hv i1 j1)).trans ?_
    congr 1
    rw [hx, hy, hi, hj]
    simp only [nodeAt]
    push_cast
    ring
  have ho : (!g.extrapolate && g.buildInterpolant.outside q) = false := by
    rcases hq with h | h
    · simp [h]
    · rw [(outside_false (g := g.buildInterpolant) (by show 0 < g.nx; omega) (by show 0 < g.ny; omega)).2 h]; simp
  have : g.buildInterpolant.evalAt q
      = some (if !g.extrapolate && g.buildInterpolant.outside q then some 999999 else g.buildInterpolant.linearAt q) := rfl
  rw [this, ho, hl]
  simp

/-- **C31** fails next to NaN: the value at node `(1, 0)` is 5, `eval` there is NaN because node `(0, 0)` of the
same cell is NaN, although its weight is zero. -/
theorem C31_nan_neighbour :
    ∃ g : Grid ℚ Nat, g.buildInterpolant.vals = g.vals ∧ (∃ (i : Fin g.nx) (j : Fin g.ny), g.vals i j = some 5 ∧
      g.buildInterpolant.evalAt (nodeAt g.box.xmin g.dx i, nodeAt g.box.ymin g.dy j) = some none) := by
  refine ⟨⟨⟨0, 1, 0, 0⟩, 1, 1, 2, 1, fun i _ => if i = 0 then none else some 5, none, false, 0, none⟩, ?_, (1 : Fin 2), (0 : Fin 1), ?_, ?_⟩
  · unfold Grid.buildInterpolant cyclicVals
    simp only
    rw [if_neg (by decide +kernel)]
  · decide +kernel
  · decide +kernel

/-- A small grid of three by two nodes for the examples. -/
def gridEx : Grid ℚ Nat := ⟨⟨0, 2, 0, 1⟩, 1, 1, 3, 2, fun i j => some ((i : ℚ) + 10 * j), none, false, 0, none⟩

example : NumbersAround gridEx.buildInterpolant (1 / 2, 1 / 4) := by
  intro i j _ _
  revert i j
  decide +kernel
example : gridEx.buildInterpolant.evalAt (1 / 2, 1 / 4) = some (some 3) := by decide +kernel
example : gridEx.buildInterpolant.evalAt (2, 1) = some (gridEx.vals (2 : Fin 3) (1 : Fin 2)) := by decide +kernel
example : gridEx.buildInterpolant.evalAt (2, 2) = some (some 999999) := by decide +kernel
example : ({ gridEx with extrapolate := true } : Grid ℚ Nat).buildInterpolant.evalAt (3, 2) = some (some 23) := by decide +kernel

/-! ## C32 -/

theorem swapIndex_swap {n : Nat} (i : Fin n) : swapIndex (swapIndex i) = i := by
  have := i.isLt
  apply Fin.ext
  unfold swapIndex
  split_ifs <;> simp_all

/-- **C32**, boxes that do not reach around the globe: any number of calls leaves values and `eval` as after the first. -/
theorem C32_idempotent_partial (g : Grid K C) (h : ¬ (|g.box.xmin| = 180 ∧ |g.box.xmax| = 180)) (n : Nat) :
    (Grid.buildInterpolant^[n + 1]) g = g.buildInterpolant ∧ g.buildInterpolant.vals = g.vals := by
  have hc : cyclicBox g.box = false := by
    unfold cyclicBox
    rw [← Bool.not_eq_true]
    simpa using h
  have h1 : g.buildInterpolant.vals = g.vals := by simp [Grid.buildInterpolant, cyclicVals, hc]
  refine ⟨?_, h1⟩
  induction n with
  | zero => rfl
  | succ n ih =>
    rw [Function.iterate_succ_apply', ih]
    simp [Grid.buildInterpolant, cyclicVals, hc]

/-- **C32**, boxes around the globe: the values after `n` calls are those after one call for odd `n` and the original ones for
even `n > 0`. One call exchanges the first and the last row. -/
theorem C32_period_two (g : Grid K C) (h : |g.box.xmin| = 180 ∧ |g.box.xmax| = 180) (n : Nat) :
    (Grid.buildInterpolant^[2 * n + 1]) g = g.buildInterpolant ∧
    (Grid.buildInterpolant^[2 * n + 2]) g = { g.buildInterpolant with vals := g.vals } ∧
    ∀ (i : Fin g.nx) j, g.buildInterpolant.vals i j =
      g.vals (if i.val = 0 then ⟨g.nx - 1, by have := i.isLt; omega⟩
        else if i.val = g.nx - 1 then ⟨0, by have := i.isLt; omega⟩ else i) j := by
  have hc : cyclicBox g.box = true := by simp [cyclicBox, h]
  have two : ∀ g' : Grid K C, g'.box = g.box → g'.buildInterpolant.buildInterpolant = { g'.buildInterpolant with vals := g'.vals } := by
    intro g' hb
    simp only [Grid.buildInterpolant, cyclicVals, hb, hc, if_true, swapIndex_swap]
  have odd : (Grid.buildInterpolant^[2 * n + 1]) g = g.buildInterpolant := by
    induction n with
    | zero => rfl
    | succ n ih =>
      rw [show 2 * (n + 1) + 1 = (2 * n + 1) + 1 + 1 by ring, Function.iterate_succ_apply', Function.iterate_succ_apply', ih,
        two _ rfl]
      simp only [Grid.buildInterpolant, cyclicVals, hc, if_true]
  refine ⟨odd, ?_, fun i j => ?_⟩
  · rw [show 2 * n + 2 = (2 * n + 1) + 1 by ring, Function.iterate_succ_apply', odd, two _ rfl]
  · simp only [Grid.buildInterpolant, cyclicVals, hc, if_true, swapIndex]

/-- **C32**, boxes around the globe: a second call changes nothing exactly if the first and the last row agree. -/
theorem C32_idempotent_iff (g : Grid K C) (h : |g.box.xmin| = 180 ∧ |g.box.xmax| = 180) :
    g.buildInterpolant.buildInterpolant.vals = g.buildInterpolant.vals ↔
      ∀ (i k : Fin g.nx) (j : Fin g.ny), i.val = 0 → k.val + 1 = g.nx → g.vals i j = g.vals k j := by
  have hc : cyclicBox g.box = true := by simp [cyclicBox, h]
  have h3 := (C32_period_two g h 0).2.2
  have h4 : ∀ i j, g.buildInterpolant.buildInterpolant.vals i j = g.vals i j := by
    intro i j
    simp only [Grid.buildInterpolant, cyclicVals, hc, if_true, swapIndex_swap]
  have h5 : g.buildInterpolant.buildInterpolant.vals = g.buildInterpolant.vals ↔
      ∀ (i : Fin g.nx) (j : Fin g.ny), g.vals i j = g.buildInterpolant.vals i j :=
    ⟨fun he i j => by rw [← h4 i j]; exact congrFun (congrFun he i) j,
      fun he => funext fun i => funext fun j => (h4 i j).trans (he i j)⟩
  rw [h5]
  constructor
  · intro he i k j hi hk
    have := (he i j).trans (h3 i j)
    rw [if_pos hi] at this
    rw [this]
    congr 1
    apply Fin.ext
    simp only
    omega
  · intro he i j
    refine Eq.trans ?_ (h3 i j).symm
    split_ifs with h5 h6
    · exact he i _ j h5 (by simp only; have := i.isLt; omega)
    · exact (he _ i j rfl (by have := i.isLt; omega)).symm
    · rfl

/-- A grid around the globe with different first and last row. -/
def globeEx : Grid ℚ Nat := ⟨⟨-180, 180, 0, 0⟩, 180, 1, 3, 1, fun i _ => some (i : ℚ), none, false, 0, none⟩

/-- **C32** fails around the globe: the value at the west end alternates between 2 and 0. -/
theorem C32_not_idempotent : ∃ (g : Grid ℚ Nat) (q : ℚ × ℚ),
    g.buildInterpolant.evalAt q = some (some 2) ∧ g.buildInterpolant.buildInterpolant.evalAt q = some (some 0) :=
  ⟨globeEx, (-180, 0), by decide +kernel, by decide +kernel⟩

example : ¬ (|gridEx.box.xmin| = 180 ∧ |gridEx.box.xmax| = 180) := by decide +kernel
example : |globeEx.box.xmin| = 180 ∧ |globeEx.box.xmax| = 180 := by decide +kernel

/-! ## C33 -/

theorem nearestAt_spec (g : Grid K C) (q : K × K) (hdx : 0 < g.dx) (hdy : 0 < g.dy) (hn : 0 < g.nx) (hm : 0 < g.ny) :
    ∃ (k : Fin g.nx) (l : Fin g.ny), NearestNode g.box.xmin g.dx g.nx g.box.ymin g.dy g.ny q k l ∧ g.nearestAt q = g.vals k l := by
  obtain ⟨c, hc, hc'⟩ := nearerNode_spec (x0 := g.box.xmin) (x := q.1) hdx hn
  obtain ⟨d, hd, hd'⟩ := nearerNode_spec (x0 := g.box.ymin) (x := q.2) hdy hm
  refine ⟨nearerNode c, nearerNode d, nearest_both hc' hd', ?_⟩
  simp only [Grid.nearestAt, abs_of_pos hdy, hc, hd]

/-- **C33**. If the boxes overlap in an open set, the source does not extrapolate and has no node with value -999, then
`interpolate_to` gives a grid that differs from the target only in the values, in `extrapolate` and in the missing interpolant.
Inside the source lattice the new value is that of a nearest source node, elsewhere the old one.
Missing: the three excluded cases, where the statement is false (see the next theorems). -/
theorem C33_interpolate_partial (g g2 : Grid K C) (hdx : 0 < g.dx) (hdy : 0 < g.dy) (hn : 0 < g.nx) (hm : 0 < g.ny)
    (hov : g.box.xmin < g2.box.xmax ∧ g2.box.xmin < g.box.xmax ∧ g.box.ymin < g2.box.ymax ∧ g2.box.ymin < g.box.ymax)
    (he : g.extrapolate = false) (hfill : ∀ i j, g.vals i j ≠ some (-999)) :
    ∃ w, g.interpolateTo g2 = some { g2 with vals := w, extrapolate := false, interp := none } ∧
      ∀ (i : Fin g2.nx) (j : Fin g2.ny),
        (InLattice g.box.xmin g.dx g.nx g.box.ymin |g.dy| g.ny (g2.xAt i, g2.yAt j) →
          ∃ (k : Fin g.nx) (l : Fin g.ny),
            NearestNode g.box.xmin g.dx g.nx g.box.ymin g.dy g.ny (g2.xAt i, g2.yAt j) k l ∧ w i j = g.vals k l) ∧
        (¬ InLattice g.box.xmin g.dx g.nx g.box.ymin |g.dy| g.ny (g2.xAt i, g2.yAt j) → w i j = g2.vals i j) := by
  refine ⟨g.mergedValue g2, ?_, fun i j => ⟨fun h => ?_, fun h => ?_⟩⟩
  · have : g.overlaps g2 = true := by simp [Grid.overlaps, hov]
    simp [Grid.interpolateTo, this]
  · obtain ⟨k, l, h1, h2⟩ := nearestAt_spec g (g2.xAt i, g2.yAt j) hdx hdy hn hm
    refine ⟨k, l, h1, ?_⟩
    have ho := (outside_false hn hm).2 h
    simp only [Grid.mergedValue, Grid.sourceValue, ho, h2, Bool.and_false, Bool.false_eq_true, if_false,
      hfill k l, decide_false]
  · have ho : g.outside (g2.xAt i, g2.yAt j) = true := by
      by_contra hc
      exact h ((outside_false hn hm).1 (by simpa using hc))
    simp [Grid.mergedValue, Grid.sourceValue, ho, he]

/-- **C33**, a source that extrapolates: every target node, also outside, gets the value of a nearest source node. -/
theorem C33_extrapolating_source (g g2 : Grid K C) (hdx : 0 < g.dx) (hdy : 0 < g.dy) (hn : 0 < g.nx) (hm : 0 < g.ny)
    (hov : g.box.xmin < g2.box.xmax ∧ g2.box.xmin < g.box.xmax ∧ g.box.ymin < g2.box.ymax ∧ g2.box.ymin < g.box.ymax)
    (he : g.extrapolate = true) :
    ∃ w, g.interpolateTo g2 = some { g2 with vals := w, extrapolate := false, interp := none } ∧
      ∀ (i : Fin g2.nx) (j : Fin g2.ny), ∃ (k : Fin g.nx) (l : Fin g.ny),
        NearestNode g.box.xmin g.dx g.nx g.box.ymin g.dy g.ny (g2.xAt i, g2.yAt j) k l ∧ w i j = g.vals k l := by
  refine ⟨g.mergedValue g2, ?_, fun i j => ?_⟩
  · have : g.overlaps g2 = true := by simp [Grid.overlaps, hov]
    simp [Grid.interpolateTo, this]
  · obtain ⟨k, l, h1, h2⟩ := nearestAt_spec g (g2.xAt i, g2.yAt j) hdx hdy hn hm
    exact ⟨k, l, h1, by simp [Grid.mergedValue, Grid.sourceValue, he, h2]⟩

/-- A target grid that reaches beyond `gridEx`. -/
def targetEx : Grid ℚ Nat := ⟨⟨0, 4, 0, 1⟩, 2, 1, 3, 2, fun _ _ => some 77, none, false, 0, none⟩

/-- **C33** fails for the value -999: a source node with that value does not reach the target node on it. -/
theorem C33_fill_value_lost : ∃ g g2 g3 : Grid ℚ Nat, ∃ (k : Fin g.nx) (l : Fin g.ny) (i : Fin g3.nx) (j : Fin g3.ny),
    g.interpolateTo g2 = some g3 ∧ g.xAt k = g3.xAt i ∧ g.yAt l = g3.yAt j ∧ g.vals k l = some (-999) ∧ g3.vals i j = some 77 := by
  refine ⟨{ gridEx with vals := fun _ _ => some (-999) }, targetEx,
    { targetEx with vals := Grid.mergedValue { gridEx with vals := fun _ _ => some (-999) } targetEx, extrapolate := false, interp := none }, (0 : Fin 3), (0 : Fin 2), (0 : Fin 3), (0 : Fin 2), ?_, ?_, ?_, ?_, ?_⟩
  · unfold Grid.interpolateTo; rw [if_pos (by decide +kernel)]
  · decide +kernel
  · decide +kernel
  · decide +kernel
  · decide +kernel

/-- **C33** fails for extrapolating sources: the node at `x = 4` is outside the source lattice but loses its old value 77. -/
theorem C33_extrapolate_overwrites : ∃ g g2 g3 : Grid ℚ Nat, ∃ (i : Fin g2.nx) (j : Fin g2.ny) (i' : Fin g3.nx) (j' : Fin g3.ny),
    g.interpolateTo g2 = some g3 ∧ i.val = i'.val ∧ j.val = j'.val ∧
      ¬ InLattice g.box.xmin g.dx g.nx g.box.ymin |g.dy| g.ny (g2.xAt i, g2.yAt j) ∧ g2.vals i j = some 77 ∧
      g3.vals i' j' = some 2 := by
  refine ⟨{ gridEx with extrapolate := true }, targetEx,
    { targetEx with vals := Grid.mergedValue { gridEx with extrapolate := true } targetEx, extrapolate := false, interp := none }, (2 : Fin 3), (0 : Fin 2), (2 : Fin 3), (0 : Fin 2), ?_, rfl, rfl, ?_, rfl, ?_⟩
  · unfold Grid.interpolateTo; rw [if_pos (by decide +kernel)]
  · unfold InLattice OnAxis nodeAt; decide +kernel
  · decide +kernel

/-- **C33** fails for boxes that only touch: the call raises although a target node lies in the source lattice. -/
theorem C33_touching_boxes_raise : ∃ g g2 : Grid ℚ Nat, ∃ (i : Fin g2.nx) (j : Fin g2.ny),
    g.interpolateTo g2 = none ∧ InLattice g.box.xmin g.dx g.nx g.box.ymin |g.dy| g.ny (g2.xAt i, g2.yAt j) := by
  refine ⟨gridEx, { targetEx with box := ⟨2, 6, 0, 1⟩ }, (0 : Fin 3), (0 : Fin 2), ?_, ?_⟩
  · unfold Grid.interpolateTo; rw [if_neg (by decide +kernel)]
  · unfold InLattice OnAxis nodeAt; decide +kernel

example : gridEx.box.xmin < targetEx.box.xmax ∧ targetEx.box.xmin < gridEx.box.xmax ∧ gridEx.box.ymin < targetEx.box.ymax ∧
    targetEx.box.ymin < gridEx.box.ymax := by decide +kernel
example : ∀ i j, gridEx.vals i j ≠ some (-999) := by decide +kernel
example : (gridEx.interpolateTo targetEx).map (fun g => allVals g.vals)
    = some [some 0, some 10, some 2, some 12, some 77, some 77] := by decide +kernel

end
end OM
