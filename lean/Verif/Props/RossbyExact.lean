import Verif.Props.Rossby
/-!
# C91: exactly which inputs the Rossby radius filter accepts
-/
set_option linter.unusedSectionVars false
namespace OM
open Spec

section
variable {K : Type} [Field K] [LinearOrder K] [IsStrictOrderedRing K] [FloorRing K] {sqrt : K → K}
  {gauss : (n m : Nat) → K → K → (Fin n → Fin m → K) → Fin n → Fin m → K} {twoPi : K}

theorem levelSlope_iff {n m : Nat} {xs ys : List K} {dx dy : K} {z : Fin n → Fin m → K} {s e k : Nat} :
    (levelSlope sqrt gauss twoPi xs ys dx dy z s e k).isSome ↔ 2 ≤ n ∧ 2 ≤ min m e - s ∧
      (0 < k → wrapsAround xs = false ∧ ((∃ y ∈ ys, 89 < y) → e + 2 ^ (k - 1) < m)) := by
  have hs : (slopeField sqrt (colSlice z s e) dx dy).isSome ↔ 2 ≤ n ∧ 2 ≤ min m e - s := by
    unfold slopeField
    rw [Option.isSome_map]
    exact C40_sizes _ _ _
  unfold levelSlope
  split
  · rename_i hk
    have hf : (levelField gauss twoPi xs ys dy z s e k).isSome ↔ wrapsAround xs = false ∧ ((∃ y ∈ ys, 89 < y) → e + 2 ^ (k - 1) < m) := by
      unfold levelField
      simp only
      split
      · rename_i h
        rw [Bool.or_eq_true, Bool.and_eq_true, List.any_eq_true, decide_eq_true_eq] at h
        simp only [Option.isSome_none, Bool.false_eq_true, false_iff, not_and]
        rcases h with h | ⟨h1, h2⟩
        · rw [h]; simp
        · intro _ hc
          have := hc (by simpa using h1)
          omega
      · rename_i h
        rw [Bool.or_eq_true, Bool.and_eq_true, List.any_eq_true, decide_eq_true_eq] at h
        push Not at h
        have hr : wrapsAround xs = false ∧ ((∃ y ∈ ys, 89 < y) → e + 2 ^ (k - 1) < m) := by
          refine ⟨by simpa using h.1, fun hy => ?_⟩
          have := h.2 (by simpa using hy)
          omega
        refine iff_of_true ?_ hr
        cases blockSpacing xs s e with
        | none => rfl
        | some d =>
          have hl : "lowpass".toLower = "lowpass" := by decide +kernel
          simp only [filt2, hl]
          rfl
    constructor
    · intro h
      cases hl : levelField gauss twoPi xs ys dy z s e k with
      | none => rw [hl] at h; simp at h
      | some f =>
        rw [hl] at h hf
        have h1 := hs.1 h
        exact ⟨h1.1, h1.2, fun _ => hf.1 rfl⟩
    · rintro ⟨h1, h2, h3⟩
      obtain ⟨f, hf'⟩ := Option.isSome_iff_exists.1 (hf.2 (h3 hk))
      rw [hf']
      exact hs.2 ⟨h1, h2⟩
  · rename_i hk
    rw [hs]
    exact ⟨fun h => ⟨h.1, h.2, fun h => absurd h hk⟩, fun h => ⟨h.1, h.2.1⟩⟩

theorem blockLoop_isSome {n m : Nat} {xs ys : List K} {dx dy : K} {level : Fin n → Fin m → Nat} {z : Fin n → Fin m → K} :
    ∀ (l : List (Nat × Nat)) (bs : Fin n → Fin m → Option K),
      (∀ b ∈ l, ∀ i j, (levelSlope sqrt gauss twoPi xs ys dx dy z b.1 b.2 (colSlice level b.1 b.2 i j)).isSome) →
      (blockLoop sqrt gauss twoPi xs ys dx dy level z l bs).isSome
  | [], bs, _ => by simp [blockLoop]
  | (s, e) :: l, bs, h => by
    simp only [blockLoop]
    have hb : (levelLoop (levelSlope sqrt gauss twoPi xs ys dx dy z s e) (colSlice level s e)
        (blockLevels (colSlice level s e)) (fun _ _ => 0)).isSome :=
      (levelLoop_isSome _ _).2 fun a ha => by
        obtain ⟨i, j, rfl⟩ := (mem_blockLevels _ _).1 ha
        exact h _ List.mem_cons_self i j
    obtain ⟨b, hb⟩ := Option.isSome_iff_exists.1 hb
    rw [hb]
    exact blockLoop_isSome l _ fun b hb => h b (List.mem_cons_of_mem _ hb)

theorem rossbyBlocks_cases {m div : Nat} {b : Nat × Nat} : ∀ (k s : Nat), (∀ a, a < k → s + a * div ≤ m) → b ∈ rossbyBlocks m div k s →
    ∃ a s', a < k ∧ s' = s + a * div ∧ b = (s', min m (s' + div))
  | 0, s, _, h => by simp [rossbyBlocks] at h
  | k + 1, s, hm, h => by
    simp only [rossbyBlocks, List.mem_cons] at h
    rcases h with h | h
    · exact ⟨0, s, by omega, by omega, h⟩
    · cases k with
      | zero => simp [rossbyBlocks] at h
      | succ k =>
        have h1 := hm 1 (by omega)
        have e : min m (s + div) = s + div := by omega
        rw [e] at h
        obtain ⟨a, s', ha, hs, rfl⟩ := rossbyBlocks_cases (k + 1) (s + div) (fun a ha => by
          have := hm (a + 1) (by omega)
          rw [Nat.succ_mul] at this
          omega) h
        refine ⟨a + 1, s', by omega, ?_, rfl⟩
        rw [Nat.succ_mul]
        omega

/-- **C91**, which inputs are accepted, for grids cut into blocks of `div` columns: exactly those with two rows or more, no block of a single
column, and no node to be filtered (level above 0) if the grid reaches around the globe, or if it reaches north of 89 degrees and the block
of the node with its margin reaches the last column. -/
theorem C91_exact {n m div : Nat} {height : K} {xs ys : List K} {level : Fin n → Fin m → Nat} {dx dy : K} {z : Fin n → Fin m → K}
    (hdiv : rossbyDiv n m height = some div) (hm : 0 < m) :
    (rossbyRadiusFilter sqrt gauss twoPi height xs ys level dx dy z).isSome ↔ 2 ≤ n ∧ div ≠ 1 ∧ m % div ≠ 1 ∧
      ∀ (i : Fin n) (j : Fin m), 0 < level i j → wrapsAround xs = false ∧
        ((∃ y ∈ ys, 89 < y) → j.val / div * div + div + 2 ^ (level i j - 1) < m) := by
  have hd := rossbyDiv_pos hm hdiv
  have hn : 0 < n := by
    unfold rossbyDiv at hdiv
    split at hdiv
    · simp at hdiv
    · omega
  constructor
  · intro h
    have key : ∀ i j, (levelSlope sqrt gauss twoPi xs ys dx dy z (j.val / div * div) (min m (j.val / div * div + div)) (level i j)).isSome := by
      intro i j
      by_contra hc
      rw [Option.not_isSome_iff_eq_none] at hc
      rw [filter_none hdiv i j hc] at h
      simp at h
    refine ⟨(levelSlope_iff.1 (key ⟨0, hn⟩ ⟨0, hm⟩)).1, ?_, ?_, fun i j hl => ?_⟩
    · intro hc
      rw [C91_single_column hdiv hm (.inl hc)] at h
      simp at h
    · intro hc
      rw [C91_single_column hdiv hm (.inr hc)] at h
      simp at h
    · have h1 := (levelSlope_iff.1 (key i j)).2.2 hl
      refine ⟨h1.1, fun hy => ?_⟩
      have h2 := h1.2 hy
      have : 0 < 2 ^ (level i j - 1) := by positivity
      omega
  · rintro ⟨h2n, hd1, hmod, hlev⟩
    unfold rossbyRadiusFilter
    rw [hdiv]
    have h2 := Nat.div_add_mod m div
    have h3 := Nat.mod_lt m hd
    have hstart : ∀ a, a < (m + div - 1) / div → a * div + 2 ≤ m := by
      intro a ha
      have h1 : (a + 1) * div ≤ m + div - 1 := (Nat.le_div_iff_mul_le hd).1 ha
      rw [Nat.succ_mul] at h1
      by_contra hc
      apply hmod
      have h4 : m = a * div + 1 := by omega
      rw [h4, Nat.mul_comm, Nat.mul_add_mod, Nat.mod_eq_of_lt (by omega)]
    refine blockLoop_isSome _ _ fun b hb i j => ?_
    obtain ⟨a, s, ha, hs, rfl⟩ := rossbyBlocks_cases _ 0 (fun a ha => by have := hstart a ha; omega) hb
    rw [Nat.zero_add] at hs
    simp only at j ⊢
    have hj := j.isLt
    rw [levelSlope_iff]
    have ha2 := hstart a ha
    refine ⟨h2n, by omega, fun hl => ?_⟩
    have hq : (s + j.val) / div = a := by
      have : ∀ t, t < div → (s + t) / div = a := fun t ht => by
        rw [hs, Nat.mul_comm, Nat.mul_add_div hd, Nat.div_eq_of_lt ht, Nat.add_zero]
      exact this _ (by omega)
    have := hlev i ⟨s + j.val, by omega⟩ hl
    simp only [hq] at this
    refine ⟨this.1, fun hy => ?_⟩
    have h5 := this.2 hy
    show min m (s + div) + 2 ^ (level i ⟨s + j.val, _⟩ - 1) < m
    omega


/-- **C91**, length of the blocks: the smallest whole number that is not below both ten degrees of latitude and ten million nodes. -/
theorem C91_block_length {n m div : Nat} {height : K} : rossbyDiv n m height = some div ↔ 0 < n ∧ 0 < height ∧
    (((10000000 : K) ≤ div * n ∨ 10 * (m : K) ≤ div * height) ∧ ∀ d : Nat, ((10000000 : K) ≤ d * n ∨ 10 * (m : K) ≤ d * height) → div ≤ d) := by
  unfold rossbyDiv
  by_cases h0 : n = 0 ∨ height ≤ 0
  · rw [if_pos h0]
    refine ⟨fun h => absurd h (by simp), fun ⟨h1, h2, _⟩ => ?_⟩
    rcases h0 with h0 | h0
    · omega
    · exact absurd h2 (not_lt.2 h0)
  · rw [if_neg h0]
    push Not at h0
    have hn : 0 < n := Nat.pos_of_ne_zero h0.1
    have hnK : (0 : K) < n := by exact_mod_cast hn
    have key : ∀ d : Nat, (⌈min (10000000 / (n : K)) (10 * (m : K) / height)⌉.toNat ≤ d ↔ ((10000000 : K) ≤ d * n ∨ 10 * (m : K) ≤ d * height)) := by
      intro d
      rw [Int.toNat_le, Int.ceil_le, min_le_iff, div_le_iff₀ hnK, div_le_iff₀ h0.2]
      push_cast
      rfl
    simp only [Option.some.injEq]
    constructor
    · rintro rfl
      exact ⟨hn, h0.2, (key _).1 le_rfl, fun d hd => (key d).2 hd⟩
    · rintro ⟨-, -, h1, h2⟩
      exact le_antisymm ((key _).2 h1) (h2 _ ((key _).1 le_rfl))

/-- **C91**, the grids that count as reaching around the globe. -/
theorem C91_around {xs : List K} : wrapsAround xs = true ↔ ((∃ x ∈ xs, 179 < x) ∧ ∃ x ∈ xs, x < -179) ∨ (∃ x ∈ xs, 359 < x) ∧ ∃ x ∈ xs, x < 1 := by
  simp only [wrapsAround, Bool.or_eq_true, Bool.and_eq_true, List.any_eq_true, decide_eq_true_eq]

end

/-- **C91**, the two Rossby filters on a grid around the globe: the one whose radius is, at all nodes, less than two spacings times the quotient returns;
the one whose radius is at some node at least that raises. So the choice of the filter matters only for whether an exception is raised. -/
theorem C91_global_choice {C : Type} (gauss : (n m : Nat) → ℝ → ℝ → (Fin n → Fin m → ℝ) → Fin n → Fin m → ℝ) (dem : Grid ℝ C) {q dx dy : ℝ}
    (hq : 0 < q) (hdy : 0 < dy) (cut : WaveArg ℝ) (barot : Bool) {div : Nat}
    (hdiv : rossbyDiv dem.nx dem.ny (dem.box.ymax - dem.box.ymin) = some div) (hn : 2 ≤ dem.nx) (hm : 0 < dem.ny) (hd : div ≠ 1)
    (hmod : dem.ny % div ≠ 1) (hw : wrapsAround dem.createVectors.1 = true) (hlat : ∀ j : Fin dem.ny, |dem.yAt j.val| ≤ 90)
    (z : Fin dem.nx → Fin dem.ny → ℝ) :
    (chosenSlope gauss dem (if barot then "barotropic" else "baroclinic") q cut dx dy z).isSome ↔
      ∀ i j, rossbyRadius barot (dem.yAt j.val) (z i j) < 2 * (dy * q) := by
  have hb : slopeBranch (if barot then "barotropic" else "baroclinic") q = if barot then .barotropic else .baroclinic := by
    cases barot
    · exact (C91_rossby_selected _ q).2.2 ⟨rfl, hq⟩
    · exact (C91_rossby_selected _ q).1.2 ⟨rfl, hq⟩
  have hlevel : ∀ i j, 0 < rossbyLevel (rossbyRadius barot (dem.yAt j.val) (z i j)) dy q ↔
      2 * (dy * q) ≤ rossbyRadius barot (dem.yAt j.val) (z i j) := by
    intro i j
    have hr := (C91_radius barot (dem.yAt j.val) (z i j) (hlat j)).1
    obtain ⟨-, h1, h2⟩ := C91_level hr hdy hq
    constructor
    · intro h
      have h3 := h1 h
      have h4 : dy * 2 ≤ dy * 2 ^ rossbyLevel (rossbyRadius barot (dem.yAt j.val) (z i j)) dy q := by
        refine mul_le_mul_of_nonneg_left ?_ hdy.le
        calc (2 : ℝ) = 2 ^ 1 := by norm_num
          _ ≤ _ := pow_le_pow_right₀ (by norm_num) h
      have h5 := (le_div_iff₀ hq).1 (h4.trans h3)
      linarith
    · intro h
      by_contra hc
      have h0 : rossbyLevel (rossbyRadius barot (dem.yAt j.val) (z i j)) dy q = 0 := by omega
      have h3 := h2 (by omega)
      rw [h0, div_lt_iff₀ hq] at h3
      simp only [pow_zero, mul_one] at h3
      linarith
  have hex := C91_exact (sqrt := Real.sqrt) (gauss := gauss) (twoPi := 2 * Real.pi) (xs := dem.createVectors.1) (ys := dem.createVectors.2)
    (level := fun i j => rossbyLevel (rossbyRadius barot (dem.yAt j) (z i j)) dy q) (dx := dx) (dy := dy) (z := z) hdiv hm
  have hnum : ∀ r, rossbyRadiusFilter Real.sqrt gauss (2 * Real.pi) (dem.box.ymax - dem.box.ymin) dem.createVectors.1
      dem.createVectors.2 (fun i j => rossbyLevel (rossbyRadius barot (dem.yAt j) (z i j)) dy q) dx dy z = some r → (numbersOf r).isSome := by
    intro r hr
    obtain ⟨Z, hZ⟩ := exists_extension z
    have hv := C91_value hdiv hr Z hZ
    have : r = fun i j => some (Real.sqrt (clampedDiff (Z i.val) dy (j.val / div * div) (min dem.ny (j.val / div * div + div) - 1) j.val ^ 2 +
        clampedDiff (fun k => Z k j.val) dx 0 (dem.nx - 1) i.val ^ 2)) := funext fun i => funext fun j => hv i j
    rw [this]
    simp [numbersOf]
  have hcs : (chosenSlope gauss dem (if barot then "barotropic" else "baroclinic") q cut dx dy z).isSome ↔
      (rossbyRadiusFilter Real.sqrt gauss (2 * Real.pi) (dem.box.ymax - dem.box.ymin) dem.createVectors.1
        dem.createVectors.2 (fun i j => rossbyLevel (rossbyRadius barot (dem.yAt j) (z i j)) dy q) dx dy z).isSome := by
    have : chosenSlope gauss dem (if barot then "barotropic" else "baroclinic") q cut dx dy z =
        (rossbyRadiusFilter Real.sqrt gauss (2 * Real.pi) (dem.box.ymax - dem.box.ymin) dem.createVectors.1
        dem.createVectors.2 (fun i j => rossbyLevel (rossbyRadius barot (dem.yAt j) (z i j)) dy q) dx dy z).bind numbersOf := by
      unfold chosenSlope
      rw [hb]
      cases barot <;> rfl
    rw [this]
    constructor
    · intro h
      obtain ⟨s, hs⟩ := Option.isSome_iff_exists.1 h
      obtain ⟨r, hr, -⟩ := Option.bind_eq_some_iff.1 hs
      rw [hr]; rfl
    · intro h
      obtain ⟨r, hr⟩ := Option.isSome_iff_exists.1 h
      rw [hr]
      exact hnum r hr
  rw [hcs, hex]
  constructor
  · rintro ⟨-, -, -, h⟩ i j
    by_contra hc
    have := (h i j ((hlevel i j).2 (not_lt.1 hc))).1
    rw [hw] at this
    simp at this
  · intro h
    exact ⟨hn, hd, hmod, fun i j hl => absurd ((hlevel i j).1 hl) (not_le.2 (h i j))⟩


/-- Two rows, six columns, depths growing along the columns. -/
def sixColumns (_ : Fin 2) (j : Fin 6) : ℚ := j.val

/-- Level 1 in one column, 0 elsewhere. -/
def oneLevel {m : Nat} (c : Nat) (_ : Fin 2) (j : Fin m) : Nat := if j.val = c then 1 else 0

-- Three blocks of two columns north of 89 degrees: a node of level 1 in the first block is accepted, in the last block not.
example : (rossbyRadiusFilter (fun x => x) flatGauss 6 40 [0, 1] [85, 86, 87, 88, 89, 90] (oneLevel 0) 1 1 sixColumns).isSome ∧
    ¬ (rossbyRadiusFilter (fun x => x) flatGauss 6 40 [0, 1] [85, 86, 87, 88, 89, 90] (oneLevel 4) 1 1 sixColumns).isSome := by
  have hdiv : rossbyDiv 2 6 (40 : ℚ) = some 2 := by decide +kernel
  rw [C91_exact hdiv (by norm_num), C91_exact hdiv (by norm_num)]
  refine ⟨⟨by norm_num, by norm_num, by norm_num, fun i j hl => ⟨by decide +kernel, fun _ => ?_⟩⟩, fun h => ?_⟩
  · revert i j
    decide +kernel
  · have := (h.2.2.2 0 4 (by decide)).2 ⟨90, by simp, by norm_num⟩
    revert this
    decide +kernel
-- Around the globe: only fields without nodes to be filtered.
example : (rossbyRadiusFilter (fun x => x) flatGauss 6 20 [-180, 180] [0, 1, 2, 3] (oneLevel 7) 1 1 squareDepths).isSome ∧
    ¬ (rossbyRadiusFilter (fun x => x) flatGauss 6 20 [-180, 180] [0, 1, 2, 3] (oneLevel 3) 1 1 squareDepths).isSome := by
  have hdiv : rossbyDiv 2 4 (20 : ℚ) = some 2 := by decide +kernel
  rw [C91_exact hdiv (by norm_num), C91_exact hdiv (by norm_num)]
  refine ⟨⟨by norm_num, by norm_num, by norm_num, fun i j hl => ?_⟩, fun h => ?_⟩
  · exfalso
    revert i j
    decide +kernel
  · have := (h.2.2.2 0 3 (by decide)).1
    revert this
    decide +kernel

/-- Three meridians and four parallels ten degrees apart, around the globe. -/
noncomputable def globalDem : Grid ℝ Nat := ⟨⟨-180, 180, -15, 5⟩, 180, 20 / 3, 3, 4, fun _ _ => some 0, none, true, 0, none⟩

-- The hypotheses of `C91_global_choice` are met.
example : rossbyDiv globalDem.nx globalDem.ny (globalDem.box.ymax - globalDem.box.ymin) = some 2 ∧ 2 ≤ globalDem.nx ∧ 0 < globalDem.ny ∧
    globalDem.ny % 2 ≠ 1 ∧ wrapsAround globalDem.createVectors.1 = true ∧ ∀ j : Fin globalDem.ny, |globalDem.yAt j.val| ≤ 90 := by
  refine ⟨?_, by decide, by decide, by decide, ?_, ?_⟩
  · have h : min (10000000 / ((3 : Nat) : ℝ)) (10 * ((4 : Nat) : ℝ) / (5 - -15)) = ((2 : Int) : ℝ) := by norm_num
    simp only [globalDem, rossbyDiv]
    rw [h, Int.ceil_intCast]
    norm_num
    rfl
  · simp only [wrapsAround, Bool.or_eq_true, Bool.and_eq_true, List.any_eq_true, decide_eq_true_eq]
    refine .inl ⟨⟨180, ?_, by norm_num⟩, -180, ?_, by norm_num⟩
    · exact List.mem_map.2 ⟨2, by simp [globalDem], by simp only [Grid.xAt, globalDem]; norm_num⟩
    · exact List.mem_map.2 ⟨0, by simp [globalDem], by simp only [Grid.xAt, globalDem]; norm_num⟩
  · intro j
    have h0 : (0 : ℝ) ≤ (j.val : ℝ) := Nat.cast_nonneg _
    have h1 : (j.val : ℝ) ≤ 3 := by
      have := j.isLt
      have h2 : j.val ≤ 3 := by simp only [globalDem] at this; omega
      exact_mod_cast h2
    simp only [Grid.yAt, globalDem]
    rw [abs_of_pos (show (0 : ℝ) < 20 / 3 by norm_num), abs_le]
    constructor <;> linarith

/-- **C91**, the radius: with the phase speed `c` of the mode (for depths of less than one metre that of one metre), the radius times the Coriolis parameter is `c` five degrees and more
off the equator, and nearer to it the square of the radius times twice the meridional change of the Coriolis parameter is `c` (Earth of 6371 km); radii above ten
thousand kilometres are cut. -/
theorem C91_radius_formula (barot : Bool) (lat z : ℝ) (hlat : |lat| ≤ 90) :
    let c : ℝ := if barot then Real.sqrt (9807 / 1000 * max 1 (-z)) else 25 / 10000 * max 1 (-z) / Real.pi
    let omega : ℝ := 729 / 10000000
    ∃ r : ℝ, 0 < r ∧ rossbyRadius barot lat z = min r 10000000 ∧
      (5 ≤ |lat| → r * (2 * omega * |Real.sin (lat * Real.pi / 180)|) = c) ∧
      (|lat| < 5 → r ^ 2 * (2 * (2 * omega * Real.cos (lat * Real.pi / 180) / 6371000)) = c) := by
  intro c omega
  have hpi := Real.pi_pos
  have hz : (1 : ℝ) ≤ max 1 (-z) := le_max_left _ _
  have hc : 0 < c := by
    show 0 < (if barot then _ else _)
    split
    · exact Real.sqrt_pos.2 (by linarith)
    · exact div_pos (by linarith) hpi
  obtain ⟨hl1, hl2⟩ := abs_le.1 hlat
  have hcut : ∀ r : ℝ, (if 10000000 < r then 10000000 else r) = min r 10000000 := fun r => by
    split
    · rw [min_eq_right (by linarith)]
    · rw [min_eq_left (by linarith)]
  by_cases h5 : |lat| < 5
  · obtain ⟨h51, h52⟩ := abs_lt.1 h5
    have hcos : 0 < Real.cos (lat * Real.pi / 180) := Real.cos_pos_of_mem_Ioo ⟨by nlinarith, by nlinarith⟩
    have hd : 0 < 4 * omega * Real.cos (lat * Real.pi / 180) / 6371000 := by
      show 0 < 4 * (729 / 10000000) * _ / (6371000 : ℝ)
      positivity
    refine ⟨Real.sqrt (c / (4 * omega * Real.cos (lat * Real.pi / 180) / 6371000)), Real.sqrt_pos.2 (div_pos hc hd), ?_, fun h => absurd h (not_le.2 h5), fun _ => ?_⟩
    · rw [← hcut]
      unfold rossbyRadius
      simp only [if_pos h5]
      rfl
    · rw [Real.sq_sqrt (div_pos hc hd).le, show 2 * (2 * omega * Real.cos (lat * Real.pi / 180) / 6371000) = 4 * omega * Real.cos (lat * Real.pi / 180) / 6371000 by ring]
      exact div_mul_cancel₀ _ hd.ne'
  · have hs : 0 < |Real.sin (lat * Real.pi / 180)| := by
      have h5' := not_lt.1 h5
      rw [abs_pos]
      rcases le_abs.1 h5' with h | h
      · exact (Real.sin_pos_of_pos_of_lt_pi (by positivity) (by nlinarith)).ne'
      · have := Real.sin_neg_of_neg_of_neg_pi_lt (x := lat * Real.pi / 180) (by nlinarith) (by nlinarith)
        exact this.ne
    have hd : 0 < 2 * omega * |Real.sin (lat * Real.pi / 180)| := by
      show 0 < 2 * (729 / 10000000 : ℝ) * _
      positivity
    refine ⟨c / (2 * omega * |Real.sin (lat * Real.pi / 180)|), div_pos hc hd, ?_, fun _ => div_mul_cancel₀ _ hd.ne', fun h => absurd h h5⟩
    rw [← hcut]
    unfold rossbyRadius
    simp only [if_neg h5]
    rfl

example : rossbyDiv 2 4 (20 : ℚ) = some 2 ∧ (10 : ℚ) * 4 ≤ 2 * 20 ∧ wrapsAround ([-180, 0, 180] : List ℚ) = true := by decide +kernel
-- at 30 degrees north the Coriolis parameter is the rotation rate: the barotropic radius in one metre of water is the root of 9.807 over it
example : ∃ r : ℝ, rossbyRadius true 30 0 = min r 10000000 ∧ r * (729 / 10000000) = Real.sqrt (9807 / 1000) := by
  obtain ⟨r, -, h1, h2, -⟩ := C91_radius_formula true 30 0 (by norm_num)
  refine ⟨r, h1, ?_⟩
  have := h2 (by norm_num)
  have hs : Real.sin (30 * Real.pi / 180) = 1 / 2 := by
    rw [show (30 : ℝ) * Real.pi / 180 = Real.pi / 6 by ring, Real.sin_pi_div_six]
  rw [hs] at this
  norm_num at this
  rw [this, Real.sqrt_div (by norm_num)]
end OM
