import Verif.Props.Edgefx
/-!
# C38 distance sizing, C40 finite differences, C79 resampling of lines
-/
namespace OM
open Spec
set_option linter.unusedSectionVars false

section
variable {K C : Type} [Field K] [LinearOrder K] [IsStrictOrderedRing K] [FloorRing K]

/-! ## C38 -/

theorem capMax_le (mx : Option K) (v x : K) (h : mx = some x) : capMax mx v ≤ x := by
  subst h
  unfold capMax
  split <;> rename_i h
  · exact absurd h (by simp)
  · rename_i y
    have := Option.some.inj h
    subst this
    split
    · exact le_rfl
    · rename_i h'; push Not at h'; exact h'

theorem capMax_ge (mx : Option K) (v lo : K) (hv : lo ≤ v) (hm : ∀ x, mx = some x → lo ≤ x) : lo ≤ capMax mx v := by
  cases mx with
  | none => exact hv
  | some x =>
    unfold capMax
    simp only
    split
    · exact hm x rfl
    · exact hv

theorem capMax_lipschitz (mx : Option K) (v w : K) : |capMax mx v - capMax mx w| ≤ |v - w| := by
  cases mx with
  | none => exact le_rfl
  | some x =>
    unfold capMax
    simp only
    split <;> split <;> rename_i h1 h2
    · simp
    · push Not at h2
      rw [abs_of_nonneg (by linarith), abs_of_nonneg (by linarith)]
      linarith
    · push Not at h1
      rw [abs_of_nonpos (by linarith), abs_of_nonpos (by linarith)]
      linarith
    · exact le_rfl

/-- `D` is the distance field used on a grid: the absolute value of what the distance solver returns for the nodes nearest to the
points, or 999 everywhere if the solver rejects the field. -/
def DistanceField (near : Grid K C → K × K → Nat × Nat)
    (fmm : (n m : Nat) → K → K → (Fin n → Fin m → Bool) → Option (Fin n → Fin m → K)) (points : List (K × K)) (g : Grid K C)
    (D : Fin g.nx → Fin g.ny → K) : Prop :=
  ∃ marks : Fin g.nx → Fin g.ny → Bool, (∀ i j, marks i j = true ↔ ∃ p ∈ points, near g p = (i.val, j.val)) ∧
    ((∃ d, fmm g.nx g.ny g.dx g.dy marks = some d ∧ ∀ i j, D i j = |d i j|) ∨
      (fmm g.nx g.ny g.dx g.dy marks = none ∧ ∀ i j, D i j = 999))

/-- **C38**. For a box that does not reach around the globe, a rate that is not negative and limits in order: the result is the grid of
the box with spacing `h0 * coarsen`; every value is at least `h0`, at most the maximum if one is given, equal to `h0` where the distance is
zero, equal to `h0 + rate * distance` where that does not exceed the maximum and to the maximum elsewhere, and two values differ by at most the rate times the
difference of the distances.
Missing: boxes around the globe (`C38_globe_rows_exchanged`), a maximum below the minimum (`C38_maximum_below_minimum`), and the
evaluation outside the node lattice (`C38_extrapolated_below`). -/
theorem C38_values_partial {near : Grid K C → K × K → Nat × Nat}
    {fmm : (n m : Nat) → K → K → (Fin n → Fin m → Bool) → Option (Fin n → Fin m → K)} {box : Box K} {h0 coarsen rate : K}
    {mx : Option K} {crs : C} {points : List (K × K)} {r : Grid K C} (hbox : ¬ (|box.xmin| = 180 ∧ |box.xmax| = 180))
    (hrate : 0 ≤ rate) (hmx : ∀ x, mx = some x → h0 ≤ x) (h : distanceSizing near fmm box h0 coarsen rate mx crs points = some r) :
    ∃ g, mkGrid box (h0 * coarsen) none crs (some h0) (.scalar (some 0)) true = some g ∧
      ∃ W D : Fin g.nx → Fin g.ny → K, r = { g with vals := fun i j => some (W i j), interp := some true } ∧ DistanceField near fmm points g D ∧
        ∀ (i : Fin g.nx) (j : Fin g.ny), h0 ≤ W i j ∧ (∀ x, mx = some x → W i j ≤ x) ∧ (D i j = 0 → W i j = h0) ∧
          ((∀ x, mx = some x → h0 + rate * D i j ≤ x) → W i j = h0 + rate * D i j) ∧
          (∀ x, mx = some x → x < h0 + rate * D i j → W i j = x) ∧
          ∀ k l, |W i j - W k l| ≤ rate * |D i j - D k l| := by
  unfold distanceSizing at h
  split at h
  · simp at h
  · rename_i g hg
    have hgb : g.box = box ∧ g.extrapolate = true := by
      unfold mkGrid at hg
      simp only at hg
      split at hg
      · rw [← Option.some.inj hg]; exact ⟨rfl, rfl⟩
      · simp at hg
    have hr := Option.some.inj h
    set marks : Fin g.nx → Fin g.ny → Bool := fun i j => points.any fun p => decide (near g p = (i.val, j.val)) with hmarks
    set D : Fin g.nx → Fin g.ny → K :=
      (match fmm g.nx g.ny g.dx g.dy marks with
        | some d => fun i j => |d i j|
        | none => fun _ _ => 999) with hD
    have hDF : DistanceField near fmm points g D := by
      refine ⟨marks, fun i j => by simp [hmarks], ?_⟩
      cases hf : fmm g.nx g.ny g.dx g.dy marks with
      | some d => exact Or.inl ⟨d, rfl, fun i j => by rw [hD, hf]⟩
      | none => exact Or.inr ⟨rfl, fun i j => by rw [hD, hf]⟩
    have hD0 : ∀ i j, 0 ≤ D i j := by
      intro i j
      obtain ⟨m, -, ⟨d, -, hd⟩ | ⟨-, hd⟩⟩ := hDF
      · rw [hd]; exact abs_nonneg _
      · rw [hd]; norm_num
    refine ⟨g, hg, fun i j => capMax mx (h0 + D i j * rate), D, ?_, hDF, fun i j => ⟨?_, ?_, ?_, ?_, ?_, ?_⟩⟩
    · rw [← hr, buildInterpolant_noncyclic _ (by rw [hgb.1]; exact hbox)]
      simp only [hgb.2, hD, hmarks]
      rfl
    · exact capMax_ge _ _ _ (by nlinarith [hD0 i j]) hmx
    · exact fun x hx => capMax_le _ _ _ hx
    · intro hz
      simp only [hz, zero_mul, add_zero]
      cases mx with
      | none => rfl
      | some x =>
        have := hmx x rfl
        simp [capMax, not_lt.2 this]
    · intro hz
      rw [mul_comm rate] at hz
      cases mx with
      | none => simp [capMax, mul_comm]
      | some x => simp only [capMax]; rw [if_neg (not_lt.2 (hz x rfl)), mul_comm]
    · intro x hx hlt
      rw [mul_comm rate] at hlt
      simp only [hx, capMax]
      rw [if_pos hlt]
    · intro k l
      refine (capMax_lipschitz _ _ _).trans ?_
      rw [show h0 + D i j * rate - (h0 + D k l * rate) = rate * (D i j - D k l) by ring, abs_mul, abs_of_nonneg hrate]

/-- **C38**, evaluation: at every point of the node lattice the sizing function gives a number between the limits. -/
theorem C38_eval_partial {near : Grid K C → K × K → Nat × Nat}
    {fmm : (n m : Nat) → K → K → (Fin n → Fin m → Bool) → Option (Fin n → Fin m → K)} {box : Box K} {h0 coarsen rate : K}
    {mx : Option K} {crs : C} {points : List (K × K)} {r : Grid K C} (hbox : ¬ (|box.xmin| = 180 ∧ |box.xmax| = 180))
    (hrate : 0 ≤ rate) (hmx : ∀ x, mx = some x → h0 ≤ x) (h : distanceSizing near fmm box h0 coarsen rate mx crs points = some r)
    (q : K × K) (hq : InLattice r.box.xmin r.dx r.nx r.box.ymin |r.dy| r.ny q) :
    ∃ v, r.evalAt q = some (some v) ∧ h0 ≤ v ∧ ∀ x, mx = some x → v ≤ x := by
  obtain ⟨g, hg, W, D, hr, -, hW⟩ := C38_values_partial hbox hrate hmx h
  have hgb : g.box = box ∧ 0 < g.dx ∧ 0 < g.dy ∧ g.extrapolate = true := by
    unfold mkGrid at hg
    simp only [Option.getD_none] at hg
    split at hg
    · rename_i hc
      rw [← Option.some.inj hg]
      simp [gridChecks] at hc
      exact ⟨rfl, hc.2, hc.2, rfl⟩
    · simp at hg
  set g1 : Grid K C := { g with vals := fun i j => some (W i j), interp := none } with hg1
  have hb : g1.buildInterpolant = r := by
    rw [buildInterpolant_noncyclic g1 (by rw [show g1.box = box from hgb.1]; exact hbox), hr]
    simp only [hg1, hgb.2.2.2]
    rfl
  have hq' : InLattice g1.box.xmin g1.dx g1.nx g1.box.ymin |g1.dy| g1.ny q := by
    rw [hr] at hq; exact hq
  have hvals : ∀ i j, ∃ i' j', g1.buildInterpolant.vals i j = some (W i' j') := by
    have := buildInterpolant_noncyclic g1 (by rw [show g1.box = box from hgb.1]; exact hbox)
    rw [this]
    exact fun i j => ⟨i, j, rfl⟩
  obtain ⟨v, hv, hbd⟩ := C31_eval_between_partial g1 q hgb.2.1 hgb.2.2.1 hq' (by
    intro i j _ _
    obtain ⟨i', j', hij⟩ := hvals i j
    rw [hij]; rfl)
  rw [hb] at hv
  refine ⟨v, hv, ?_, fun x hx => ?_⟩
  · -- any upper bound will do for the lower one
    cases mx with
    | some x =>
      exact (hbd h0 x fun i j w _ _ hw => by
        obtain ⟨i', j', hij⟩ := hvals i j
        rw [hij] at hw
        rw [← Option.some.inj hw]
        exact ⟨(hW i' j').1, (hW i' j').2.1 x rfl⟩).1
    | none =>
      have : ∃ M, ∀ i j, W i j ≤ M := by
        classical
        rcases isEmpty_or_nonempty (Fin g.nx × Fin g.ny) with he | hne
        · exact ⟨0, fun i j => (he.false (i, j)).elim⟩
        · obtain ⟨p, hp⟩ := Finite.exists_max fun p : Fin g.nx × Fin g.ny => W p.1 p.2
          exact ⟨W p.1 p.2, fun i j => hp (i, j)⟩
      obtain ⟨M, hM⟩ := this
      exact (hbd h0 M fun i j w _ _ hw => by
        obtain ⟨i', j', hij⟩ := hvals i j
        rw [hij] at hw
        rw [← Option.some.inj hw]
        exact ⟨(hW i' j').1, hM i' j'⟩).1
  · exact (hbd h0 x fun i j w _ _ hw => by
      obtain ⟨i', j', hij⟩ := hvals i j
      rw [hij] at hw
      rw [← Option.some.inj hw]
      exact ⟨(hW i' j').1, (hW i' j').2.1 x hx⟩).2

/-- Node of a point by rounding down, for concrete runs. -/
def floorNode : Grid ℚ Nat → ℚ × ℚ → Nat × Nat :=
  fun g q => (⌊(q.1 - g.box.xmin) / g.dx⌋.toNat, ⌊(q.2 - g.box.ymin) / g.dy⌋.toNat)

/-- A solver for concrete runs: columns to the nearest marked node of the row 0, 1, …; rejects a field without a mark. -/
def columnDistance : (n m : Nat) → ℚ → ℚ → (Fin n → Fin m → Bool) → Option (Fin n → Fin m → ℚ) := fun n m dx _ marks =>
  match (List.finRange n).filter fun i => (List.finRange m).any fun j => marks i j with
  | [] => none
  | k :: ks => some fun i _ => (ks.foldl (fun a k => min a |(i.val : ℚ) - k.val|) |(i.val : ℚ) - k.val|) * dx

/-- The values of a run, row by row, together with the state of the interpolant. -/
def shown (r : Grid ℚ Nat) : List (List (Option ℚ)) × Option Bool :=
  ((List.finRange r.nx).map fun i => (List.finRange r.ny).map fun j => r.vals i j, r.interp)

-- Five columns, one point on column 3: the hypotheses of the theorems hold and the run gives a grid.
example : ¬ (|(⟨0, 4, 0, 1⟩ : Box ℚ).xmin| = 180 ∧ |(⟨0, 4, 0, 1⟩ : Box ℚ).xmax| = 180) ∧
    (distanceSizing floorNode columnDistance (⟨0, 4, 0, 1⟩ : Box ℚ) 1 1 (1 / 2) (some 2) 0 [(3, 0)]).map shown =
      some ([[some 2, some 2], [some 2, some 2], [some (3 / 2), some (3 / 2)], [some 1, some 1], [some (3 / 2), some (3 / 2)]],
        some true) := by decide +kernel

/-- **C38** fails: with a maximum below the minimum every value is the maximum, also on the points. -/
theorem C38_maximum_below_minimum :
    (distanceSizing floorNode columnDistance (⟨0, 1, 0, 1⟩ : Box ℚ) 1 1 (1 / 2) (some (1 / 2)) 0 [(0, 0)]).map shown =
      some ([[some (1 / 2), some (1 / 2)], [some (1 / 2), some (1 / 2)]], some true) := by decide +kernel

/-- **C38** fails: a negative rate is accepted and gives values below the minimum, even negative ones. -/
theorem C38_negative_rate :
    (distanceSizing floorNode columnDistance (⟨0, 2, 0, 0⟩ : Box ℚ) 1 1 (-1) none 0 [(0, 0)]).map shown =
      some ([[some 1], [some 0], [some (-1)]], some true) := by decide +kernel

/-- **C38** fails for a box around the globe: the first and the last column are exchanged, so the size on the point (the first column)
is not the minimum, and the other end gets it. -/
theorem C38_globe_rows_exchanged :
    (distanceSizing floorNode columnDistance (⟨-180, 180, 0, 0⟩ : Box ℚ) 120 1 (1 / 120) none 0 [(-180, 0)]).map shown =
      some ([[some 123], [some 121], [some 122], [some 120]], some true) := by decide +kernel

/-- **C38** fails between the last node and the border of the box: the box is not a multiple of the spacing, the last node is at 1, the
sizing function extrapolates linearly and gives 1/2 at the border point, half of the minimum edge length. -/
theorem C38_extrapolated_below :
    (distanceSizing floorNode columnDistance (⟨0, 3 / 2, 0, 0⟩ : Box ℚ) 1 1 1 none 0 [(1, 0)]).map
      (fun r => (shown r, r.box.xmax, r.evalAt (3 / 2, 0))) =
      some (([[some 2], [some 1]], some true), 3 / 2, some (some (1 / 2))) := by decide +kernel

/-! ## C40 -/

theorem diffAxis_affine {n : Nat} (a b d : K) (hd : d ≠ 0) (i : Fin (n + 2)) :
    diffAxis (fun k : Fin (n + 2) => a + b * ((k.val : K) * d)) d i = b := by
  unfold diffAxis
  split
  · simp; field_simp
  · split
    · simp only; push_cast; field_simp; ring
    · rename_i h0 h1
      have h2 : (((i.val - 1 : Nat) : Nat) : K) = (i.val : K) - 1 := by
        rw [Nat.cast_sub (by omega)]; simp
      simp only [h2]; push_cast; field_simp; ring

theorem diffAxis_linear {n : Nat} (f f' : Fin (n + 2) → K) (s t d : K) (i : Fin (n + 2)) :
    diffAxis (fun k => s * f k + t * f' k) d i = s * diffAxis f d i + t * diffAxis f' d i := by
  unfold diffAxis
  split
  · ring
  · split <;> ring

/-- **C40**, affine fields: on a grid of at least two nodes per direction both components of the gradient of a plane are exact at every
node, interior or border. -/
theorem C40_affine {n m : Nat} (hn : 2 ≤ n) (hm : 2 ≤ m) (a b c dx dy : K) (hdx : dx ≠ 0) (hdy : dy ≠ 0) :
    earthGradient (fun (i : Fin n) (j : Fin m) => a + b * ((i.val : K) * dy) + c * ((j.val : K) * dx)) dx dy =
      some (fun _ _ => b, fun _ _ => c) := by
  obtain ⟨n, rfl⟩ := Nat.exists_eq_add_of_le' hn
  obtain ⟨m, rfl⟩ := Nat.exists_eq_add_of_le' hm
  simp only [earthGradient]
  congr 2
  · funext i j
    refine (congrArg (fun f => diffAxis f dy i) (funext fun k => ?_)).trans (diffAxis_affine (a + c * ((j.val : K) * dx)) b dy hdy i)
    ring
  · funext i j
    exact diffAxis_affine (a + b * ((i.val : K) * dy)) c dx hdx j

/-- **C40**, constant fields have gradient zero. -/
theorem C40_constant {n m : Nat} (hn : 2 ≤ n) (hm : 2 ≤ m) (a dx dy : K) (hdx : dx ≠ 0) (hdy : dy ≠ 0) :
    earthGradient (fun (_ : Fin n) (_ : Fin m) => a) dx dy = some (fun _ _ => 0, fun _ _ => 0) := by
  simpa using C40_affine hn hm a 0 0 dx dy hdx hdy

/-- **C40**, linearity: the gradient of a linear combination is the linear combination of the gradients. -/
theorem C40_linear {n m : Nat} (F F' : Fin n → Fin m → K) (s t dx dy : K) {G G' : (Fin n → Fin m → K) × (Fin n → Fin m → K)}
    (h : earthGradient F dx dy = some G) (h' : earthGradient F' dx dy = some G') :
    earthGradient (fun i j => s * F i j + t * F' i j) dx dy =
      some (fun i j => s * G.1 i j + t * G'.1 i j, fun i j => s * G.2 i j + t * G'.2 i j) := by
  match n, m with
  | 0, _ => simp [earthGradient] at h
  | 1, _ => simp [earthGradient] at h
  | _ + 2, 0 => simp [earthGradient] at h
  | _ + 2, 1 => simp [earthGradient] at h
  | n + 2, m + 2 =>
    simp only [earthGradient, Option.some.injEq] at h h' ⊢
    subst h h'
    congr 1
    · funext i j
      exact diffAxis_linear _ _ _ _ _ _
    · funext i j
      exact diffAxis_linear _ _ _ _ _ _

/-- **C40**: the gradient exists exactly for grids of at least two nodes per direction. -/
theorem C40_sizes {n m : Nat} (F : Fin n → Fin m → K) (dx dy : K) : (earthGradient F dx dy).isSome ↔ 2 ≤ n ∧ 2 ≤ m := by
  match n, m with
  | 0, _ => simp [earthGradient]
  | 1, _ => simp [earthGradient]
  | _ + 2, 0 => simp [earthGradient]
  | _ + 2, 1 => simp [earthGradient]
  | n + 2, m + 2 => simp [earthGradient]

-- A plane on three by two nodes, and a field that is not a plane.
example : (earthGradient (fun (i : Fin 3) (j : Fin 2) => (5 : ℚ) + 2 * (i.val * 3) - j.val * 7) 7 3).map
    (fun G => (List.finRange 3).map fun i => (List.finRange 2).map fun j => (G.1 i j, G.2 i j)) =
    some [[(2, -1), (2, -1)], [(2, -1), (2, -1)], [(2, -1), (2, -1)]] := by decide +kernel
example : (earthGradient (fun (i : Fin 3) (j : Fin 2) => (i.val * i.val + j.val : ℚ)) 1 1).map
    (fun G => (List.finRange 3).map fun i => (List.finRange 2).map fun j => (G.1 i j, G.2 i j)) =
    some [[(1, 1), (1, 1)], [(2, 1), (2, 1)], [(3, 1), (3, 1)]] := by decide +kernel

/-! ## C79 -/

/-- **C79**, spacing: the points of a resampled line are at the positions `0, h/2, h, …` along it, all before its end, and the last one
is at most `h/2` before the end: no part of the line is further than that from the next position.
Missing: the end itself (`C79_end_missing`) and short lines (`C79_short_line_raises`). -/
theorem C79_gaps_partial (len h : K) (hh : 0 < h) (hl : 0 < len) :
    0 ∈ resamplePositions len h ∧ (∀ t ∈ resamplePositions len h, 0 ≤ t ∧ t < len) ∧
      ∀ t, 0 ≤ t → t ≤ len → ∃ s ∈ resamplePositions len h, s ≤ t ∧ t - s ≤ h / 2 := by
  have hp : 0 < h / 2 := by linarith
  have hc : 0 < ⌈len / (h / 2)⌉ := Int.ceil_pos.2 (div_pos hl hp)
  have hmem : ∀ k : Nat, k < ⌈len / (h / 2)⌉.toNat → (k : K) * (h / 2) ∈ resamplePositions len h := fun k hk =>
    List.mem_map.2 ⟨k, List.mem_range.2 hk, rfl⟩
  have hlt : ∀ k : Nat, k < ⌈len / (h / 2)⌉.toNat ↔ (k : K) * (h / 2) < len := by
    intro k
    rw [Int.lt_toNat, Int.lt_ceil, lt_div_iff₀ hp]
    simp
  refine ⟨by simpa using hmem 0 (by omega), ?_, ?_⟩
  · intro t ht
    obtain ⟨k, hk, rfl⟩ := List.mem_map.1 ht
    exact ⟨mul_nonneg (Nat.cast_nonneg k) hp.le, (hlt k).1 (List.mem_range.1 hk)⟩
  · intro t ht htl
    rcases eq_or_lt_of_le htl with rfl | htl
    · set k := ⌈t / (h / 2)⌉.toNat - 1 with hk
      refine ⟨_, hmem k (by omega), ((hlt k).1 (by omega)).le, ?_⟩
      have := (hlt (k + 1)).not.1 (by omega)
      push_cast at this
      linarith
    · set k := ⌊t / (h / 2)⌋.toNat with hk
      have h0 : 0 ≤ ⌊t / (h / 2)⌋ := Int.floor_nonneg.2 (div_nonneg ht hp.le)
      have hcast : (k : K) = (⌊t / (h / 2)⌋ : K) := by
        rw [hk, ← Int.cast_natCast, Int.toNat_of_nonneg h0]
      have h1 : (k : K) * (h / 2) ≤ t := by
        rw [hcast, ← le_div_iff₀ hp]; exact Int.floor_le _
      have h2 : t < ((k : K) + 1) * (h / 2) := by
        rw [hcast, ← div_lt_iff₀ hp]; exact Int.lt_floor_add_one _
      exact ⟨_, hmem k ((hlt k).2 (h1.trans_lt htl)), h1, by linarith⟩

/-- **C79** fails: the end of the line is never among the points. -/
theorem C79_end_missing (len h : K) (hh : 0 < h) (hl : 0 < len) : len ∉ resamplePositions len h := fun hm =>
  lt_irrefl _ ((C79_gaps_partial len h hh hl).2.1 len hm).2

/-- **C79** fails: a line not longer than half the minimum edge length raises. -/
theorem C79_short_line_raises {P : Type} (at_ : K → P) (len h : K) (hh : 0 < h) (hl : 0 < len) (hs : len ≤ h / 2) :
    resampleLine at_ len h = none := by
  have hp : 0 < h / 2 := by linarith
  have : ⌈len / (h / 2)⌉ = 1 := by
    rw [Int.ceil_eq_iff]
    exact ⟨by simpa using div_pos hl hp, by simpa using (div_le_one hp).2 hs⟩
  simp [resampleLine, resamplePositions, this]

/-- **C79**: a longer line gives the points at the positions. -/
theorem C79_points {P : Type} (at_ : K → P) (len h : K) (hh : 0 < h) (hs : h / 2 < len) :
    resampleLine at_ len h = some ((resamplePositions len h).map at_) := by
  have hp : 0 < h / 2 := by linarith
  have : 1 < ⌈len / (h / 2)⌉ := Int.lt_ceil.2 (by simpa using (one_lt_div hp).2 hs)
  simp only [resampleLine]
  rw [if_neg]
  simp [resamplePositions]
  omega

-- A line of length 7/2 with minimum edge length 2: positions 0, 1, 2, 3.
example : resampleLine (fun t : ℚ => (t, 0 * t)) (7 / 2) 2 = some [(0, 0), (1, 0), (2, 0), (3, 0)] := by decide +kernel
-- A line of length 1 and the same edge length raises.
example : resampleLine (fun t : ℚ => (t, 0 * t)) 1 2 = none := by decide +kernel
end
end OM
