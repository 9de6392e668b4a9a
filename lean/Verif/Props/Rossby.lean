import Verif.Model.Rossby
import Verif.Lemmas.Unique
import Verif.Props.Sizing
/-!
# C91 the Rossby radius filter
-/
namespace OM
open Spec
set_option linter.unusedSectionVars false

namespace Spec
/-- The difference quotient of `F` at `j` between its neighbours, as far as they are in `lo .. hi`. -/
def clampedDiff {K : Type} [Field K] (F : Nat → K) (d : K) (lo hi j : Nat) : K :=
  (F (min hi (j + 1)) - F (max lo (j - 1))) / (((min hi (j + 1) - max lo (j - 1) : Nat) : K) * d)
end Spec

section
variable {K : Type} [Field K] [LinearOrder K] [IsStrictOrderedRing K] [FloorRing K]

theorem diffAxis_clamped {n : Nat} (f : Fin (n + 2) → K) (F : Nat → K) (hF : ∀ i, f i = F i.val) (d : K) (i : Fin (n + 2)) :
    diffAxis f d i = clampedDiff F d 0 (n + 1) i.val := by
  obtain ⟨i, hi⟩ := i
  unfold diffAxis clampedDiff
  simp only [hF]
  split_ifs with h0 h1
  · subst h0
    simp
  · subst h1
    simp
  · rw [min_eq_right (by omega), max_eq_right (by omega)]
    have : i + 1 - (i - 1) = 2 := by omega
    rw [this]
    simp

theorem clampedDiff_shift (F : Nat → K) (d : K) (s hi j : Nat) :
    clampedDiff (fun k => F (s + k)) d 0 hi j = clampedDiff F d s (s + hi) (s + j) := by
  unfold clampedDiff
  have h1 : min (s + hi) (s + j + 1) = s + min hi (j + 1) := by omega
  have h2 : max s (s + j - 1) = s + max 0 (j - 1) := by omega
  rw [h1, h2]
  simp only
  have h3 : s + min hi (j + 1) - (s + max 0 (j - 1)) = min hi (j + 1) - max 0 (j - 1) := by omega
  rw [h3]

theorem slopeField_clamped (sqrt : K → K) {n m : Nat} (hn : 2 ≤ n) (hm : 2 ≤ m) (z : Fin n → Fin m → K) (Z : Nat → Nat → K)
    (hZ : ∀ i j, z i j = Z i.val j.val) (dx dy : K) :
    slopeField sqrt z dx dy = some fun i j =>
      sqrt (clampedDiff (Z i.val) dy 0 (m - 1) j.val ^ 2 + clampedDiff (fun k => Z k j.val) dx 0 (n - 1) i.val ^ 2) := by
  match n, m, hn, hm with
  | n + 2, m + 2, _, _ =>
    simp only [slopeField, earthGradient, Option.map_some, Option.some.injEq]
    funext i j
    rw [diffAxis_clamped (z i) (Z i.val) (hZ i) dy j,
      diffAxis_clamped (fun k => z k j) (fun k => Z k j.val) (fun k => hZ k j) dx i]
    rfl

theorem slopeField_none (sqrt : K → K) {n m : Nat} (h : n < 2 ∨ m < 2) (z : Fin n → Fin m → K) (dx dy : K) :
    slopeField sqrt z dx dy = none := by
  have := (C40_sizes z dy dx).not.2 (by omega)
  unfold slopeField
  rw [Option.not_isSome_iff_eq_none.1 this]
  rfl

theorem levelLoop_some {n w : Nat} {slope : Nat → Option (Fin n → Fin w → K)} {level : Fin n → Fin w → Nat} {t : Fin n → Fin w → K} :
    ∀ {l : List Nat} {bst r : Fin n → Fin w → K}, (∀ k t', slope k = some t' → t' = t) → levelLoop slope level l bst = some r →
      ∀ i j, r i j = if level i j ∈ l then t i j else bst i j
  | [], bst, r, _, h, i, j => by simp [← Option.some.inj h]
  | k :: l, bst, r, ht, h, i, j => by
    simp only [levelLoop] at h
    split at h
    · simp at h
    · rename_i t' ht'
      have := ht k t' ht'
      subst this
      rw [levelLoop_some ht h i j]
      by_cases h1 : level i j ∈ l
      · simp [h1]
      · by_cases h2 : level i j = k
        · simp [h2]
        · simp [h1, h2]

theorem levelLoop_isSome {n w : Nat} {slope : Nat → Option (Fin n → Fin w → K)} {level : Fin n → Fin w → Nat} :
    ∀ (l : List Nat) (bst : Fin n → Fin w → K), (levelLoop slope level l bst).isSome ↔ ∀ k ∈ l, (slope k).isSome
  | [], bst => by simp [levelLoop]
  | k :: l, bst => by
    simp only [levelLoop]
    split
    · rename_i h
      simp [h]
    · rename_i t h
      rw [levelLoop_isSome l]
      simp [h]

theorem mem_blockLevels {n w : Nat} (level : Fin n → Fin w → Nat) (k : Nat) : k ∈ blockLevels level ↔ ∃ i j, level i j = k := by
  unfold blockLevels
  rw [mem_unique]
  simp

variable {sqrt : K → K} {gauss : (n m : Nat) → K → K → (Fin n → Fin m → K) → Fin n → Fin m → K} {twoPi : K}

theorem levelSlope_some {n m : Nat} {xs ys : List K} {dx dy : K} {z : Fin n → Fin m → K} {s e k : Nat} {t : Fin n → Fin (min m e - s) → K}
    (h : levelSlope sqrt gauss twoPi xs ys dx dy z s e k = some t) : slopeField sqrt (colSlice z s e) dx dy = some t := by
  unfold levelSlope at h
  split at h
  · split at h
    · simp at h
    · exact h
  · exact h

/-- The run of one block. -/
theorem block_value {n m : Nat} {xs ys : List K} {dx dy : K} {level : Fin n → Fin m → Nat} {z : Fin n → Fin m → K} {Z : Nat → Nat → K}
    (hZ : ∀ i j, z i j = Z i.val j.val) {s e : Nat} {r : Fin n → Fin (min m e - s) → K} (he : e ≤ m)
    (h : levelLoop (levelSlope sqrt gauss twoPi xs ys dx dy z s e) (colSlice level s e) (blockLevels (colSlice level s e))
        (fun _ _ => 0) = some r) (i : Fin n) (j : Nat) (h1 : s ≤ j) (h2 : j < e) :
    r i ⟨j - s, by omega⟩ = sqrt (clampedDiff (Z i.val) dy s (e - 1) j ^ 2 + clampedDiff (fun k => Z k j) dx 0 (n - 1) i.val ^ 2) := by
  have hlev : ∀ i j, colSlice level s e i j ∈ blockLevels (colSlice level s e) := fun i j => (mem_blockLevels _ _).2 ⟨i, j, rfl⟩
  have hall := (levelLoop_isSome _ _).1 (Option.isSome_iff_exists.2 ⟨r, h⟩) _ (hlev i ⟨j - s, by omega⟩)
  obtain ⟨t, ht⟩ := Option.isSome_iff_exists.1 hall
  have ht := levelSlope_some ht
  have hr := levelLoop_some (t := t) (fun k t' hk => by
    have := levelSlope_some hk
    rw [this] at ht
    exact Option.some.inj ht) h i ⟨j - s, by omega⟩
  rw [if_pos (hlev _ _)] at hr
  rw [hr]
  have hsz : 2 ≤ n ∧ 2 ≤ min m e - s := by
    by_contra hc
    rw [slopeField_none sqrt (by omega)] at ht
    simp at ht
  have := slopeField_clamped sqrt hsz.1 hsz.2 (colSlice z s e) (fun a b => Z a (s + b)) (fun a b => by simp [colSlice, hZ]) dx dy
  rw [ht] at this
  rw [Option.some.inj this]
  simp only
  rw [clampedDiff_shift (Z i.val)]
  have e1 : s + (min m e - s - 1) = e - 1 := by omega
  have e2 : s + (j - s) = j := by omega
  rw [e1, e2]

theorem blocks_value {n m div : Nat} {xs ys : List K} {dx dy : K} {level : Fin n → Fin m → Nat} {z : Fin n → Fin m → K}
    {Z : Nat → Nat → K} (hZ : ∀ i j, z i j = Z i.val j.val) :
    ∀ (k s : Nat) (bs r : Fin n → Fin m → Option K),
      blockLoop sqrt gauss twoPi xs ys dx dy level z (rossbyBlocks m div k s) bs = some r →
      ∀ (i : Fin n) (j : Fin m), (j.val < s → r i j = bs i j) ∧ (s ≤ j.val → j.val < s + k * div →
        r i j = some (sqrt (clampedDiff (Z i.val) dy (s + (j.val - s) / div * div) (min m (s + (j.val - s) / div * div + div) - 1) j.val ^ 2 +
          clampedDiff (fun k => Z k j.val) dx 0 (n - 1) i.val ^ 2)))
  | 0, s, bs, r, h, i, j => by
    simp only [rossbyBlocks, blockLoop, Option.some.injEq] at h
    subst h
    exact ⟨fun _ => rfl, fun h1 h2 => by omega⟩
  | k + 1, s, bs, r, h, i, j => by
    simp only [rossbyBlocks, blockLoop] at h
    split at h
    · simp at h
    rename_i bst hb
    obtain ⟨g1, g2⟩ := blocks_value hZ k _ _ _ h i j
    have hj := j.isLt
    refine ⟨fun hlt => ?_, fun h1 h2 => ?_⟩
    · rw [g1 (by omega), dif_neg (by omega)]
    · by_cases hin : j.val < min m (s + div)
      · rw [g1 hin, dif_pos ⟨h1, hin⟩, block_value hZ (by omega) hb i j.val h1 hin]
        have : (j.val - s) / div = 0 := Nat.div_eq_of_lt (by omega)
        rw [this]
        simp
      · have hs : min m (s + div) = s + div := by omega
        have hd : 0 < div := by
          by_contra hc
          have : div = 0 := by omega
          subst this
          simp at h2
          omega
        rw [hs] at g2
        rw [g2 (by omega) (by rw [Nat.succ_mul] at h2; omega)]
        have : (j.val - s) / div = (j.val - (s + div)) / div + 1 := by
          rw [← Nat.add_div_right _ hd]
          congr 1
          omega
        rw [this, Nat.succ_mul]
        have e1 : s + ((j.val - (s + div)) / div * div + div) = s + div + (j.val - (s + div)) / div * div := by omega
        rw [e1]

theorem blocks_cover {m div j : Nat} (hd : 0 < div) (hj : j < m) : j < 0 + (m + div - 1) / div * div := by
  have h := Nat.div_add_mod (m + div - 1) div
  have h2 := Nat.mod_lt (m + div - 1) hd
  rw [mul_comm] at h
  omega

theorem rossbyDiv_pos {n m div : Nat} {height : K} (hm : 0 < m) (h : rossbyDiv n m height = some div) : 0 < div := by
  unfold rossbyDiv at h
  split at h
  · simp at h
  rename_i hc
  push Not at hc
  have hn : (0 : K) < (n : K) := by
    have : 0 < n := Nat.pos_of_ne_zero hc.1
    exact_mod_cast this
  have hm' : (0 : K) < (m : K) := by exact_mod_cast hm
  have hpos : (0 : K) < min (10000000 / (n : K)) (10 * (m : K) / height) :=
    lt_min (div_pos (by norm_num) hn) (div_pos (by linarith) hc.2)
  have := Int.ceil_pos.2 hpos
  rw [← Option.some.inj h]
  omega

/-- **C91** fails: the result does not depend on the filter. For every filter, quotient and radius (through the levels of the nodes), whenever
the function returns, the value at each node is the slope of the depths *as given*: difference quotients between the neighbours, along the
second axis only between neighbours in the same block of `div` columns. Every node gets a number. -/
theorem C91_value {n m div : Nat} {height : K} {xs ys : List K} {level : Fin n → Fin m → Nat} {dx dy : K} {z : Fin n → Fin m → K}
    {r : Fin n → Fin m → Option K} (hdiv : rossbyDiv n m height = some div)
    (h : rossbyRadiusFilter sqrt gauss twoPi height xs ys level dx dy z = some r) (Z : Nat → Nat → K)
    (hZ : ∀ i j, z i j = Z i.val j.val) (i : Fin n) (j : Fin m) :
    r i j = some (sqrt (clampedDiff (Z i.val) dy (j.val / div * div) (min m (j.val / div * div + div) - 1) j.val ^ 2 +
      clampedDiff (fun k => Z k j.val) dx 0 (n - 1) i.val ^ 2)) := by
  unfold rossbyRadiusFilter at h
  rw [hdiv] at h
  have hd := rossbyDiv_pos (by have := j.isLt; omega) hdiv
  have := (blocks_value hZ _ _ _ _ h i j).2 (Nat.zero_le _) (blocks_cover hd j.isLt)
  simpa using this

theorem exists_extension {n m : Nat} (z : Fin n → Fin m → K) : ∃ Z : Nat → Nat → K, ∀ i j, z i j = Z i.val j.val :=
  ⟨fun a b => if h : a < n ∧ b < m then z ⟨a, h.1⟩ ⟨b, h.2⟩ else 0, fun i j => by simp⟩

/-- **C91** fails: two runs with different filters, levels, and coordinates give the same slopes. -/
theorem C91_filter_ignored {gauss' : (n m : Nat) → K → K → (Fin n → Fin m → K) → Fin n → Fin m → K} {n m : Nat} {height : K}
    {xs ys xs' ys' : List K} {level level' : Fin n → Fin m → Nat} {dx dy : K} {z : Fin n → Fin m → K}
    {r r' : Fin n → Fin m → Option K} (h : rossbyRadiusFilter sqrt gauss twoPi height xs ys level dx dy z = some r)
    (h' : rossbyRadiusFilter sqrt gauss' twoPi height xs' ys' level' dx dy z = some r') : r = r' := by
  cases hdiv : rossbyDiv n m height with
  | none => simp [rossbyRadiusFilter, hdiv] at h
  | some div =>
    funext i j
    obtain ⟨Z, hZ⟩ := exists_extension z
    rw [C91_value hdiv h _ hZ i j, C91_value hdiv h' _ hZ i j]

/-- **C91**: away from the borders between blocks the result is the slope of the unfiltered depths. -/
theorem C91_inside_blocks {n m div : Nat} {height : K} {xs ys : List K} {level : Fin n → Fin m → Nat} {dx dy : K} {z : Fin n → Fin m → K}
    {r : Fin n → Fin m → Option K} (hdiv : rossbyDiv n m height = some div)
    (h : rossbyRadiusFilter sqrt gauss twoPi height xs ys level dx dy z = some r) {s : Fin n → Fin m → K}
    (hs : slopeField sqrt z dx dy = some s) (i : Fin n) (j : Fin m) (hlo : j.val = 0 ∨ j.val % div ≠ 0)
    (hhi : j.val + 1 = m ∨ (j.val + 1) % div ≠ 0) : r i j = some (s i j) := by
  obtain ⟨Z, hZ⟩ := exists_extension z
  have hsz : 2 ≤ n ∧ 2 ≤ m := by
    by_contra hc
    rw [slopeField_none sqrt (by omega)] at hs
    simp at hs
  rw [C91_value hdiv h _ hZ i j]
  have hs' := slopeField_clamped sqrt hsz.1 hsz.2 z _ hZ dx dy
  rw [hs] at hs'
  rw [Option.some.inj hs']
  have hd := rossbyDiv_pos (by omega) hdiv
  have hj := j.isLt
  have hdm := Nat.div_add_mod j.val div
  rw [mul_comm] at hdm
  have hml := Nat.mod_lt j.val hd
  have hq : clampedDiff (Z i.val) dy (j.val / div * div) (min m (j.val / div * div + div) - 1) j.val =
      clampedDiff (Z i.val) dy 0 (m - 1) j.val := by
    unfold clampedDiff
    have e1 : max (j.val / div * div) (j.val - 1) = max 0 (j.val - 1) := by
      rcases hlo with h0 | h0
      · simp [h0]
      · omega
    have e2 : min (min m (j.val / div * div + div) - 1) (j.val + 1) = min (m - 1) (j.val + 1) := by
      rcases hhi with h0 | h0
      · omega
      · have : j.val % div + 1 ≠ div := by
          intro hc
          apply h0
          have : j.val + 1 = j.val / div * div + div := by omega
          rw [this]
          simp
        omega
    rw [e1, e2]
  rw [hq]

/-! ### which inputs run -/

theorem levelSlope_isSome {n m : Nat} {xs ys : List K} {dx dy : K} {z : Fin n → Fin m → K} {s e k : Nat} (hn : 2 ≤ n) (he : e ≤ m)
    (hse : s + 2 ≤ e) (hw : wrapsAround xs = false) (hp : ∀ y ∈ ys, y ≤ 89) :
    (levelSlope sqrt gauss twoPi xs ys dx dy z s e k).isSome := by
  have hs : (slopeField sqrt (colSlice z s e) dx dy).isSome := by
    unfold slopeField
    rw [Option.isSome_map]
    exact (C40_sizes _ _ _).2 ⟨hn, by omega⟩
  have hp' : ys.any (fun y => decide (89 < y)) = false := by
    simp only [List.any_eq_false, decide_eq_true_eq, not_lt]
    exact hp
  unfold levelSlope
  split
  · have hf : ∃ f, levelField gauss twoPi xs ys dy z s e k = some f := by
      unfold levelField
      simp only [hw, hp', Bool.false_and, Bool.or_self]
      rw [if_neg (by simp)]
      cases blockSpacing xs s e with
      | none => exact ⟨_, rfl⟩
      | some d =>
        have h : filt2 (gauss n (min m (min m (e + 2 ^ (k - 1))) - (max 1 (s - 2 ^ (k - 1)) - 1))) twoPi
            (colSlice z (max 1 (s - 2 ^ (k - 1)) - 1) (min m (e + 2 ^ (k - 1)))) (min d dy)
            (.scalar (if k = 1 then dy * (201 / 100) else dy * 2 ^ k)) "lowpass" (26 / 10) =
            some (lowPass (gauss _ _) twoPi (min d dy) (26 / 10) (if k = 1 then dy * (201 / 100) else dy * 2 ^ k)
              (colSlice z (max 1 (s - 2 ^ (k - 1)) - 1) (min m (e + 2 ^ (k - 1))))) := by
          have hl : "lowpass".toLower = "lowpass" := by decide +kernel
          simp only [filt2, hl]
        simp only [h]
        exact ⟨_, rfl⟩
    obtain ⟨f, hf⟩ := hf
    rw [hf]
    exact hs
  · exact hs

theorem blocks_run {n m div : Nat} {xs ys : List K} {dx dy : K} {level : Fin n → Fin m → Nat} {z : Fin n → Fin m → K} (hn : 2 ≤ n)
    (hd : 2 ≤ div) (hw : wrapsAround xs = false) (hp : ∀ y ∈ ys, y ≤ 89) :
    ∀ (k s : Nat) (bs : Fin n → Fin m → Option K), (∀ a, a < k → s + a * div + 2 ≤ m) →
      (blockLoop sqrt gauss twoPi xs ys dx dy level z (rossbyBlocks m div k s) bs).isSome
  | 0, s, bs, _ => by simp [rossbyBlocks, blockLoop]
  | k + 1, s, bs, h => by
    simp only [rossbyBlocks, blockLoop]
    have h0 := h 0 (by omega)
    have hb : (levelLoop (levelSlope sqrt gauss twoPi xs ys dx dy z s (min m (s + div))) (colSlice level s (min m (s + div)))
        (blockLevels (colSlice level s (min m (s + div)))) (fun _ _ => 0)).isSome :=
      (levelLoop_isSome _ _).2 fun a _ => levelSlope_isSome hn (by omega) (by omega) hw hp
    obtain ⟨b, hb⟩ := Option.isSome_iff_exists.1 hb
    rw [hb]
    simp only
    cases k with
    | zero => simp [rossbyBlocks, blockLoop]
    | succ k =>
      have h1 := h 1 (by omega)
      have : min m (s + div) = s + div := by omega
      refine blocks_run hn hd hw hp _ _ _ fun a ha => ?_
      rw [this]
      have := h (a + 1) (by omega)
      rw [Nat.succ_mul] at this
      omega

/-- **C91**, inputs that run: at least two rows, blocks of at least two columns and no single column left over, a grid that neither reaches
around the globe nor north of 89 degrees. -/
theorem C91_runs {n m div : Nat} {height : K} {xs ys : List K} {level : Fin n → Fin m → Nat} {dx dy : K} {z : Fin n → Fin m → K}
    (hdiv : rossbyDiv n m height = some div) (hn : 2 ≤ n) (hd : 2 ≤ div) (hmod : m % div ≠ 1) (hw : wrapsAround xs = false)
    (hp : ∀ y ∈ ys, y ≤ 89) : (rossbyRadiusFilter sqrt gauss twoPi height xs ys level dx dy z).isSome := by
  unfold rossbyRadiusFilter
  rw [hdiv]
  refine blocks_run hn hd hw hp _ _ _ fun a ha => ?_
  have h1 : (a + 1) * div ≤ m + div - 1 := (Nat.le_div_iff_mul_le (by omega)).1 ha
  rw [Nat.succ_mul] at h1
  have h2 := Nat.div_add_mod m div
  have h3 := Nat.mod_lt m (show 0 < div by omega)
  by_contra hc
  apply hmod
  have h4 : m = a * div + 1 := by omega
  rw [h4, Nat.mul_comm, Nat.mul_add_mod, Nat.mod_eq_of_lt (by omega)]

theorem blockLoop_none {n m : Nat} {xs ys : List K} {dx dy : K} {level : Fin n → Fin m → Nat} {z : Fin n → Fin m → K} {s e : Nat}
    {i : Fin n} {j : Fin m} (hj : s ≤ j.val ∧ j.val < e) (hs : levelSlope sqrt gauss twoPi xs ys dx dy z s e (level i j) = none) :
    ∀ (l : List (Nat × Nat)) (bs : Fin n → Fin m → Option K), (s, e) ∈ l → blockLoop sqrt gauss twoPi xs ys dx dy level z l bs = none
  | (s', e') :: l, bs, h => by
    simp only [blockLoop]
    split
    · rfl
    · rename_i b hb
      rcases List.mem_cons.1 h with h | h
      · obtain ⟨rfl, rfl⟩ := Prod.mk.inj h
        exfalso
        have hm := (levelLoop_isSome _ _).1 (Option.isSome_iff_exists.2 ⟨b, hb⟩) (level i j)
          ((mem_blockLevels _ _).2 ⟨i, ⟨j.val - s, by have := j.isLt; omega⟩, by
            simp only [colSlice]
            congr 1
            exact Fin.ext (by simp; omega)⟩)
        rw [hs] at hm
        simp at hm
      · exact blockLoop_none hj hs l _ h

theorem mem_rossbyBlocks {m div : Nat} : ∀ (k s b : Nat), b < k → s + b * div ≤ m → (s + b * div, min m (s + b * div + div)) ∈ rossbyBlocks m div k s
  | 0, s, b, h, _ => by omega
  | k + 1, s, 0, _, _ => by simp [rossbyBlocks]
  | k + 1, s, b + 1, h, hm => by
    rw [Nat.succ_mul] at hm ⊢
    have h1 : min m (s + div) = s + div := by have := Nat.zero_le (b * div); omega
    have := mem_rossbyBlocks (m := m) (div := div) k (s + div) b (by omega) (by omega)
    simp only [rossbyBlocks, h1]
    refine List.mem_cons_of_mem _ ?_
    have e1 : s + (b * div + div) = s + div + b * div := by omega
    rw [e1]
    exact this

theorem filter_none {n m div : Nat} {height : K} {xs ys : List K} {level : Fin n → Fin m → Nat} {dx dy : K} {z : Fin n → Fin m → K}
    (hdiv : rossbyDiv n m height = some div) (i : Fin n) (j : Fin m)
    (h : levelSlope sqrt gauss twoPi xs ys dx dy z (j.val / div * div) (min m (j.val / div * div + div)) (level i j) = none) :
    rossbyRadiusFilter sqrt gauss twoPi height xs ys level dx dy z = none := by
  unfold rossbyRadiusFilter
  rw [hdiv]
  have hd := rossbyDiv_pos (by have := j.isLt; omega) hdiv
  have hj := j.isLt
  have h1 := Nat.div_add_mod j.val div
  have h2 := Nat.mod_lt j.val hd
  rw [mul_comm] at h1
  refine blockLoop_none (i := i) (j := j) (by omega) h _ _ ?_
  have := mem_rossbyBlocks (m := m) (div := div) ((m + div - 1) / div) 0 (j.val / div) ?_ (by omega)
  · simpa using this
  · rw [Nat.lt_iff_add_one_le, Nat.le_div_iff_mul_le hd, Nat.succ_mul]
    omega

/-- **C91** fails: a grid with a block of a single column is rejected with an `IndexError`; that is so if blocks have one column, and if one
column is left over. -/
theorem C91_single_column {n m div : Nat} {height : K} {xs ys : List K} {level : Fin n → Fin m → Nat} {dx dy : K}
    {z : Fin n → Fin m → K} (hdiv : rossbyDiv n m height = some div) (hm : 0 < m) (h : div = 1 ∨ m % div = 1) :
    rossbyRadiusFilter sqrt gauss twoPi height xs ys level dx dy z = none := by
  have hn : 0 < n := by
    unfold rossbyDiv at hdiv
    split at hdiv
    · simp at hdiv
    · omega
  have hd := rossbyDiv_pos hm hdiv
  have h1 := Nat.div_add_mod (m - 1) div
  have h2 := Nat.mod_lt (m - 1) hd
  have hmod : (m - 1) % div = 0 := by
    rcases h with rfl | h
    · exact Nat.mod_one _
    · have h3 := Nat.div_add_mod m div
      have : m - 1 = div * (m / div) := by omega
      rw [this, Nat.mul_mod_right]
  rw [mul_comm] at h1
  refine filter_none hdiv ⟨0, hn⟩ ⟨m - 1, by omega⟩ ?_
  have hnone : slopeField sqrt (colSlice z ((m - 1) / div * div) (min m ((m - 1) / div * div + div))) dx dy = none :=
    slopeField_none sqrt (by right; omega) _ _ _
  unfold levelSlope
  split
  · split
    · rfl
    · exact hnone
  · exact hnone

/-- **C91** fails: a grid whose box is at least ten times as high as its number of columns (in the units of the box, for example a projected
grid with spacings of more than ten metres) is rejected. -/
theorem C91_projected_rejected {n m : Nat} {height : K} {xs ys : List K} {level : Fin n → Fin m → Nat} {dx dy : K}
    {z : Fin n → Fin m → K} (hm : 0 < m) (h : 10 * (m : K) ≤ height) :
    rossbyRadiusFilter sqrt gauss twoPi height xs ys level dx dy z = none := by
  cases hdiv : rossbyDiv n m height with
  | none => simp [rossbyRadiusFilter, hdiv]
  | some div =>
    refine C91_single_column hdiv hm (Or.inl ?_)
    have hd := rossbyDiv_pos hm hdiv
    unfold rossbyDiv at hdiv
    split at hdiv
    · simp at hdiv
    rename_i hc
    push Not at hc
    have h1 : min (10000000 / (n : K)) (10 * (m : K) / height) ≤ ((1 : Int) : K) := by
      refine (min_le_right _ _).trans ?_
      rw [div_le_iff₀ hc.2]
      simpa using h
    have := Int.ceil_le.2 h1
    have h2 := Option.some.inj hdiv
    omega

/-- **C91** fails: a grid that reaches around the globe is rejected with a `TypeError` as soon as one node has a level above 0, that is, would
be filtered. -/
theorem C91_global_rejected {n m : Nat} {height : K} {xs ys : List K} {level : Fin n → Fin m → Nat} {dx dy : K} {z : Fin n → Fin m → K}
    (hw : wrapsAround xs = true) (i : Fin n) (j : Fin m) (hl : 0 < level i j) :
    rossbyRadiusFilter sqrt gauss twoPi height xs ys level dx dy z = none := by
  cases hdiv : rossbyDiv n m height with
  | none => simp [rossbyRadiusFilter, hdiv]
  | some div =>
    refine filter_none hdiv i j ?_
    simp [levelSlope, levelField, hl, hw]

/-- **C91**: a box of at most ten degrees height with at most ten million nodes is one block, and the result is the slope of the depths. -/
theorem C91_one_block {n m : Nat} {height : K} {xs ys : List K} {level : Fin n → Fin m → Nat} {dx dy : K} {z : Fin n → Fin m → K}
    (hh : 0 < height ∧ height ≤ 10) (hnm : n * m ≤ 10000000) (hn : 2 ≤ n) (hm : 2 ≤ m) (hw : wrapsAround xs = false)
    (hp : ∀ y ∈ ys, y ≤ 89) :
    rossbyRadiusFilter sqrt gauss twoPi height xs ys level dx dy z = (slopeField sqrt z dx dy).map fun s i j => some (s i j) := by
  have hn' : (0 : K) < (n : K) := by exact_mod_cast (show 0 < n by omega)
  have hm' : (0 : K) < (m : K) := by exact_mod_cast (show 0 < m by omega)
  obtain ⟨div, hdiv, hmd⟩ : ∃ div, rossbyDiv n m height = some div ∧ m ≤ div := by
    unfold rossbyDiv
    rw [if_neg (by push Not; exact ⟨by omega, hh.1⟩)]
    refine ⟨_, rfl, ?_⟩
    have h1 : (m : K) ≤ min (10000000 / (n : K)) (10 * (m : K) / height) := by
      refine le_min ?_ ?_
      · rw [le_div_iff₀ hn']
        have : (n : K) * (m : K) ≤ 10000000 := by exact_mod_cast hnm
        linarith
      · rw [le_div_iff₀ hh.1]
        nlinarith [hh.2]
    have h2 := h1.trans (Int.le_ceil _)
    have h3 : ((m : Int) : K) ≤ ((⌈min (10000000 / (n : K)) (10 * (m : K) / height)⌉ : Int) : K) := by simpa using h2
    have := Int.cast_le.1 h3
    omega
  have hmod : m % div ≠ 1 := by
    rcases Nat.eq_or_lt_of_le hmd with h | h
    · rw [← h, Nat.mod_self]; omega
    · rw [Nat.mod_eq_of_lt h]; omega
  obtain ⟨r, hr⟩ := Option.isSome_iff_exists.1 (C91_runs (sqrt := sqrt) (gauss := gauss) (twoPi := twoPi) (level := level) (dx := dx)
    (dy := dy) (z := z) hdiv hn (by omega) hmod hw hp)
  have hsz : (slopeField sqrt z dx dy).isSome := by
    unfold slopeField
    rw [Option.isSome_map]
    exact (C40_sizes _ _ _).2 ⟨hn, hm⟩
  obtain ⟨s, hs⟩ := Option.isSome_iff_exists.1 hsz
  rw [hr, hs, Option.map_some]
  congr 1
  funext i j
  have hj := j.isLt
  refine C91_inside_blocks hdiv hr hs i j ?_ ?_
  · by_cases h0 : j.val = 0
    · exact Or.inl h0
    · right
      rw [Nat.mod_eq_of_lt (by omega)]
      exact h0
  · by_cases h0 : j.val + 1 = m
    · exact Or.inl h0
    · right
      rw [Nat.mod_eq_of_lt (by omega)]
      omega
end

/-! ### examples, and the borders between blocks -/

/-- A smoothing that gives the first value everywhere. -/
def flatGauss : (n m : Nat) → ℚ → ℚ → (Fin n → Fin m → ℚ) → Fin n → Fin m → ℚ
  | _ + 1, _ + 1, _, _, z => fun _ _ => z 0 0
  | _, _, _, _, z => z

/-- Two rows, four columns, depths the squares of the second index. -/
def squareDepths (_ : Fin 2) (j : Fin 4) : ℚ := (j.val : ℚ) ^ 2

/-- **C91** fails: two blocks of two columns; the filter makes the field constant and all nodes have level 1, but the slope is that of the depths
as given, and at the border between the blocks not even that (2 and 4 by differences over both sides, 1 and 5 within the blocks). -/
theorem C91_block_border :
    rossbyDiv 2 4 (20 : ℚ) = some 2 ∧
    ((rossbyRadiusFilter (fun x => x) flatGauss 6 20 [0, 1] [0, 1, 2, 3] (fun _ _ => 1) 1 1 squareDepths).map fun r =>
      (List.finRange 4).map fun j => r 0 j) = some [some 1, some 1, some 25, some 25] ∧
    ((slopeField (fun x => x) squareDepths (1 : ℚ) 1).map fun r => (List.finRange 4).map fun j => r 0 j) = some [1, 4, 16, 25] ∧
    ((levelField flatGauss 6 [0, 1] [0, 1, 2, 3] 1 squareDepths 0 2 1).map fun f => (List.finRange f.1).map fun j => f.2 0 j) =
      some [0, 0, 0] := by
  refine ⟨?_, ?_, ?_, ?_⟩ <;> decide +kernel

-- The hypotheses of `C91_value`, `C91_filter_ignored`, `C91_inside_blocks` (at the outer columns) and `C91_runs` are met.
example : rossbyDiv 2 4 (20 : ℚ) = some 2 ∧ 4 % 2 ≠ 1 ∧ wrapsAround ([0, 1] : List ℚ) = false ∧ (∀ y ∈ ([0, 1, 2, 3] : List ℚ), y ≤ 89) ∧
    (rossbyRadiusFilter (fun x => x) flatGauss 6 20 [0, 1] [0, 1, 2, 3] (fun _ j => j.val) 1 1 squareDepths).isSome ∧
    ((3 : Fin 4).val + 1 = 4 ∧ (3 : Fin 4).val % 2 ≠ 0) := by
  refine ⟨?_, ?_, ?_, ?_, ?_, ?_⟩ <;> decide +kernel
-- A grid of 111 columns with a spacing of one degree: blocks of 11 columns, one column left over.
example : rossbyDiv 50 111 (110 : ℚ) = some 11 ∧ 111 % 11 = 1 := by decide +kernel
-- A projected grid of 300 columns with a spacing of 50 metres.
example : 10 * ((300 : Nat) : ℚ) ≤ 299 * 50 := by norm_num
-- Grids that reach around the globe.
example : wrapsAround ([-359 / 2, 0, 359 / 2] : List ℚ) = true ∧ wrapsAround ([1 / 2, 180, 719 / 2] : List ℚ) = true := by decide +kernel
-- A grid of one block.
example : (0 : ℚ) < 3 ∧ (3 : ℚ) ≤ 10 ∧ 2 * 4 ≤ 10000000 ∧
    (rossbyRadiusFilter (fun x => x) flatGauss 6 3 [0, 1] [0, 1, 2, 3] (fun _ _ => 2) 1 1 squareDepths).map
      (fun r => (List.finRange 4).map fun j => r 0 j) = some [some 1, some 4, some 16, some 25] := by
  refine ⟨by norm_num, by norm_num, by norm_num, ?_⟩
  decide +kernel

/-! ### the radius and the levels -/

/-- **C91**: at latitudes up to 90 degrees the radius is positive and at most ten thousand kilometres. -/
theorem C91_radius (barot : Bool) (lat z : ℝ) (hlat : |lat| ≤ 90) : 0 < rossbyRadius barot lat z ∧ rossbyRadius barot lat z ≤ 10000000 := by
  have hz : (1 : ℝ) ≤ max 1 (-z) := le_max_left _ _
  have hpi := Real.pi_pos
  have hc : 0 < (if barot then Real.sqrt (9807 / 1000 * max 1 (-z)) else 25 / 10000 * max 1 (-z) / Real.pi) := by
    split
    · exact Real.sqrt_pos.2 (by linarith)
    · exact div_pos (by linarith) hpi
  unfold rossbyRadius
  simp only
  generalize (if barot then Real.sqrt (9807 / 1000 * max 1 (-z)) else 25 / 10000 * max 1 (-z) / Real.pi) = c at hc
  have hr : 0 < (if |lat| < 5 then Real.sqrt (c / (4 * (729 / 10000000) * Real.cos (lat * Real.pi / 180) / 6371000))
      else c / (2 * (729 / 10000000) * |Real.sin (lat * Real.pi / 180)|)) := by
    obtain ⟨hl1, hl2⟩ := abs_le.1 hlat
    split
    · rename_i h5
      obtain ⟨h1, h2⟩ := abs_lt.1 h5
      have : 0 < Real.cos (lat * Real.pi / 180) := Real.cos_pos_of_mem_Ioo ⟨by nlinarith, by nlinarith⟩
      exact Real.sqrt_pos.2 (div_pos hc (by positivity))
    · rename_i h5
      have hs : Real.sin (lat * Real.pi / 180) ≠ 0 := by
        intro h0
        rw [Real.sin_eq_zero_iff_of_lt_of_lt (by nlinarith) (by nlinarith)] at h0
        have : lat = 0 := by
          have h1 : lat * Real.pi = 0 := by linarith
          rcases mul_eq_zero.1 h1 with h | h
          · exact h
          · exact absurd h hpi.ne'
        subst this
        simp at h5
      exact div_pos hc (by positivity)
  generalize (if |lat| < 5 then Real.sqrt (c / (4 * (729 / 10000000) * Real.cos (lat * Real.pi / 180) / 6371000))
      else c / (2 * (729 / 10000000) * |Real.sin (lat * Real.pi / 180)|)) = r at hr
  split
  · norm_num
  · rename_i h
    exact ⟨hr, not_lt.1 h⟩

-- Not only the bound: the formula at 30 degrees, one metre deep, baroclinic.
example : rossbyRadius false 30 0 = 25 / 10000 / Real.pi / (729 / 10000000) := by
  have h1 : (30 : ℝ) * Real.pi / 180 = Real.pi / 6 := by ring
  have h5 : ¬ (|(30 : ℝ)| < 5) := by norm_num [abs_of_pos]
  have hs : |Real.sin (Real.pi / 6)| = 1 / 2 := by rw [Real.sin_pi_div_six]; norm_num
  unfold rossbyRadius
  simp only [h1, h5, hs, if_false]
  have hm : max (1 : ℝ) (-0) = 1 := by norm_num
  rw [hm]
  have hle : (25 / 10000 * 1 / Real.pi) / (2 * (729 / 10000000) * (1 / 2)) ≤ (10000000 : ℝ) := by
    rw [div_le_iff₀ (by norm_num), div_le_iff₀ Real.pi_pos]
    nlinarith [Real.two_le_pi]
  simp only [Bool.false_eq_true, if_false]
  rw [if_neg (not_lt.2 hle)]
  ring

/-- **C91**, levels: they are at most 10; below that, `2 ^ level` spacings are at most the radius divided by the quotient (unless the level is 0),
and twice as many are more than it. So the wavelength `dy * 2 ^ level` handed to the filter is the filter length up to a factor of two. -/
theorem C91_level {radius dy quotient : ℝ} (hr : 0 < radius) (hdy : 0 < dy) (hq : 0 < quotient) :
    rossbyLevel radius dy quotient ≤ 10 ∧
      (0 < rossbyLevel radius dy quotient → dy * 2 ^ rossbyLevel radius dy quotient ≤ radius / quotient) ∧
      (rossbyLevel radius dy quotient < 10 → radius / quotient < 2 * (dy * 2 ^ rossbyLevel radius dy quotient)) := by
  have hx : 0 < radius / dy / quotient := by positivity
  have hxe : radius / quotient = dy * (radius / dy / quotient) := by field_simp
  set L := Real.logb 2 (radius / dy / quotient) with hL
  have hk : rossbyLevel radius dy quotient = min 10 ⌊L⌋.toNat := rfl
  refine ⟨by rw [hk]; exact min_le_left _ _, fun h0 => ?_, fun h10 => ?_⟩
  · rw [hxe]
    refine mul_le_mul_of_nonneg_left ?_ hdy.le
    have h1 : ((rossbyLevel radius dy quotient : Nat) : ℝ) ≤ L := by
      have h2 : ((rossbyLevel radius dy quotient : Nat) : Int) ≤ ⌊L⌋ := by omega
      have h3 := Int.le_floor.1 h2
      simpa using h3
    rw [hL, Real.le_logb_iff_rpow_le (by norm_num) hx] at h1
    simpa using h1
  · rw [hxe]
    have h1 : L < ((rossbyLevel radius dy quotient : Nat) : ℝ) + 1 := by
      have h2 : ⌊L⌋ < ((rossbyLevel radius dy quotient : Nat) : Int) + 1 := by omega
      have h3 := Int.floor_lt.1 h2
      push_cast at h3
      exact h3
    rw [hL, Real.logb_lt_iff_lt_rpow (by norm_num) hx, Real.rpow_add (by norm_num)] at h1
    have h4 : radius / dy / quotient < 2 ^ rossbyLevel radius dy quotient * 2 := by simpa using h1
    nlinarith

-- Radius 800, spacing 10, quotient 10: eight spacings, level 3.
example : rossbyLevel 800 10 10 = 3 := by
  have h8 : (800 / 10 / 10 : ℝ) = (2 : ℝ) ^ (3 : ℝ) := by norm_num
  unfold rossbyLevel
  rw [h8, Real.logb_rpow (by norm_num) (by norm_num)]
  norm_num
  rfl

/-! ### the choice of the filter -/

/-- **C91** fails: the band-stop filter, named in the documentation of `filter_cutoffs`, is never applied, whatever the quotient; nor is a type in
other than lower case. `filt2` accepts both. -/
theorem C91_bandstop_off {K : Type} [Field K] [LinearOrder K] [FloorRing K] (q : K) :
    slopeBranch "bandstop" q = .off ∧ slopeBranch "LowPass" q = .off ∧ slopeBranch "lowpass" q = .filter ∧
      slopeBranch "highpass" q = .filter ∧ slopeBranch "bandpass" q = .filter ∧
      (filt2 (fun _ _ (z : ℚ) => z) (6 : ℚ) 1 1 (.vector [3, 4]) "bandstop" (26 / 10)).isSome ∧
      (filt2 (fun _ _ (z : ℚ) => z) (6 : ℚ) 1 1 (.scalar 3) "LowPass" (26 / 10)).isSome := by
  have h1 : ¬ ("pass".toList <:+: "bandstop".toList) := by decide
  have h2 : ¬ ("pass".toList <:+: "LowPass".toList) := by decide
  have h3 : "pass".toList <:+: "lowpass".toList := by decide
  have h4 : "pass".toList <:+: "highpass".toList := by decide
  have h5 : "pass".toList <:+: "bandpass".toList := by decide
  refine ⟨?_, ?_, ?_, ?_, ?_, by decide +kernel, by decide +kernel⟩ <;> unfold slopeBranch <;>
    rw [if_neg (by rintro ⟨h, -⟩; revert h; decide), if_neg (by rintro ⟨h, -⟩; revert h; decide)]
  · rw [if_neg h1]
  · rw [if_neg h2]
  · rw [if_pos h3]
  · rw [if_pos h4]
  · rw [if_pos h5]

/-- **C91**: the Rossby filters are selected for a positive quotient only. -/
theorem C91_rossby_selected {K : Type} [Field K] [LinearOrder K] [FloorRing K] (t : String) (q : K) :
    (slopeBranch t q = .barotropic ↔ t = "barotropic" ∧ 0 < q) ∧ (slopeBranch t q = .baroclinic ↔ t = "baroclinic" ∧ 0 < q) := by
  unfold slopeBranch
  by_cases h1 : t = "barotropic" ∧ 0 < q
  · have : ¬ (t = "baroclinic" ∧ 0 < q) := by
      rintro ⟨h, -⟩
      rw [h1.1] at h
      revert h
      decide
    rw [if_pos h1]
    simp [h1, this]
  · by_cases h2 : t = "baroclinic" ∧ 0 < q
    · rw [if_neg h1, if_pos h2]
      simp [h1, h2]
    · rw [if_neg h1, if_neg h2]
      split_ifs <;> simp [h1, h2]

theorem mem_createVectors_snd {C : Type} (g : Grid ℝ C) (y : ℝ) : y ∈ g.createVectors.2 ↔ ∃ j : Fin g.ny, g.yAt j.val = y := by
  unfold Grid.createVectors
  simp only [List.mem_map, List.mem_range]
  constructor
  · rintro ⟨j, hj, rfl⟩
    exact ⟨⟨j, hj⟩, rfl⟩
  · rintro ⟨j, rfl⟩
    exact ⟨j.val, j.isLt, rfl⟩

/-- **C91** fails, sizing function: on a box of at most ten degrees height with at most ten million nodes that neither reaches around the globe
nor north of 89 degrees, the barotropic and the baroclinic filter give for every quotient the slope without filter, so that the sizing
function is the same. -/
theorem C91_rossby_is_off {C : Type} (gauss : (n m : Nat) → ℝ → ℝ → (Fin n → Fin m → ℝ) → Fin n → Fin m → ℝ) (dem : Grid ℝ C) (q : ℝ)
    (hq : 0 < q) (cut : WaveArg ℝ) (t : String) (ht : t = "barotropic" ∨ t = "baroclinic")
    (hh : 0 < dem.box.ymax - dem.box.ymin ∧ dem.box.ymax - dem.box.ymin ≤ 10) (hnm : dem.nx * dem.ny ≤ 10000000) (hn : 2 ≤ dem.nx)
    (hm : 2 ≤ dem.ny) (hw : wrapsAround dem.createVectors.1 = false) (hp : ∀ j : Fin dem.ny, dem.yAt j.val ≤ 89) :
    chosenSlope gauss dem t q cut = chosenSlope gauss dem "" q cut := by
  have hoff : slopeBranch "" q = .off := by
    unfold slopeBranch
    rw [if_neg (by rintro ⟨h, -⟩; revert h; decide), if_neg (by rintro ⟨h, -⟩; revert h; decide), if_neg (by decide)]
  have hp' : ∀ y ∈ dem.createVectors.2, y ≤ 89 := by
    intro y hy
    obtain ⟨j, rfl⟩ := (mem_createVectors_snd dem y).1 hy
    exact hp j
  funext dx dy z
  have key : ∀ level : Fin dem.nx → Fin dem.ny → Nat, (rossbyRadiusFilter Real.sqrt gauss (2 * Real.pi) (dem.box.ymax - dem.box.ymin)
      dem.createVectors.1 dem.createVectors.2 level dx dy z).bind numbersOf = slopeField Real.sqrt z dx dy := by
    intro level
    rw [C91_one_block hh hnm hn hm hw hp']
    cases slopeField Real.sqrt z dx dy with
    | none => rfl
    | some s => simp [numbersOf]
  rcases ht with rfl | rfl
  · unfold chosenSlope
    rw [hoff, (C91_rossby_selected "barotropic" q).1.2 ⟨rfl, hq⟩]
    simp only [key, filteredSlope]
  · unfold chosenSlope
    rw [hoff, (C91_rossby_selected "baroclinic" q).2.2 ⟨rfl, hq⟩]
    simp only [key, filteredSlope]

-- The DEM `planeEx` of two rows and three columns meets the hypotheses.
example : 0 < planeEx.box.ymax - planeEx.box.ymin ∧ planeEx.box.ymax - planeEx.box.ymin ≤ 10 ∧ planeEx.nx * planeEx.ny ≤ 10000000 ∧
    wrapsAround planeEx.createVectors.1 = false ∧ ∀ j : Fin planeEx.ny, planeEx.yAt j.val ≤ 89 := by
  refine ⟨by norm_num [planeEx], by norm_num [planeEx], by norm_num [planeEx], ?_, fun j => ?_⟩
  · have : planeEx.createVectors.1 = [0, 1, 2] := by
      simp [Grid.createVectors, Grid.xAt, planeEx, List.range_succ]
    rw [this]
    simp [wrapsAround]
    norm_num
  · have hj : (j.val : ℝ) ≤ 2 := by
      have : j.val < 2 := j.isLt
      exact_mod_cast this.le
    change (0 : ℝ) + (j.val : ℝ) * |(1 : ℝ)| ≤ 89
    rw [abs_one]
    linarith

theorem chosenSlope_sizes {C : Type} {gauss : (n m : Nat) → ℝ → ℝ → (Fin n → Fin m → ℝ) → Fin n → Fin m → ℝ} {dem : Grid ℝ C} {q : ℝ}
    {cut : WaveArg ℝ} {t : String} (hne : 0 < dem.nx ∧ 0 < dem.ny) (h : ∃ dx dy z s, chosenSlope gauss dem t q cut dx dy z = some s) :
    2 ≤ dem.nx ∧ 2 ≤ dem.ny := by
  obtain ⟨dx, dy, z, s, hs⟩ := h
  have key : ∀ (height : ℝ) (xs ys : List ℝ) (level : Fin dem.nx → Fin dem.ny → Nat),
      (rossbyRadiusFilter Real.sqrt gauss (2 * Real.pi) height xs ys level dx dy z).bind numbersOf = some s → 2 ≤ dem.nx ∧ 2 ≤ dem.ny := by
    intro height xs ys level h
    by_contra hc
    have : rossbyRadiusFilter Real.sqrt gauss (2 * Real.pi) height xs ys level dx dy z = none := by
      cases hdiv : rossbyDiv dem.nx dem.ny height with
      | none => simp [rossbyRadiusFilter, hdiv]
      | some div =>
        refine filter_none hdiv ⟨0, hne.1⟩ ⟨0, hne.2⟩ ?_
        have hnone : slopeField Real.sqrt (colSlice z (0 / div * div) (min dem.ny (0 / div * div + div))) dx dy = none :=
          slopeField_none _ (by simp; omega) _ _ _
        unfold levelSlope
        split
        · split
          · rfl
          · exact hnone
        · exact hnone
    rw [this] at h
    simp at h
  unfold chosenSlope at hs
  simp only at hs
  split at hs
  · exact key _ _ _ _ hs
  · exact key _ _ _ _ hs
  · exact filteredSlope_sizes ⟨_, _, _, _, hs⟩
  · exact filteredSlope_sizes ⟨_, _, _, _, hs⟩

/-- **C91**, limits: whatever the type of filter, every node of the sizing function has a number within the limits (as `C80_limits_partial`). -/
theorem C91_limits_partial {C : Type} {gauss : (n m : Nat) → ℝ → ℝ → (Fin n → Fin m → ℝ) → Fin n → Fin m → ℝ} {dem : Grid ℝ C} {q : ℝ}
    {cut : WaveArg ℝ} {t : String} {sp cutoff : ℝ} {scale : ℝ × ℝ} {mn mx : Option ℝ} {coarsen : ℝ} {r : Grid ℝ C}
    (hne : 0 < dem.nx ∧ 0 < dem.ny)
    (h : bathyGradientSizing (2 * Real.pi) dem sp cutoff scale (chosenSlope gauss dem t q cut) mn mx coarsen = some r) :
    ∃ lo, r.hmin = some lo ∧ r.box = dem.box ∧ (∀ a, mn = some a → lo = a) ∧ (mn = none → lo = max dem.dx dem.dy) ∧
      ∀ i j, ∃ w, r.vals i j = some w ∧ (∀ b, mx = some b → w ≤ b) ∧ ((∀ b, mx = some b → lo ≤ b) → lo ≤ w) :=
  slopeSizing_limits (chosenSlope_sizes hne) h

-- A run without filter: the plane of `planeEx`.
example (gauss : (n m : Nat) → ℝ → ℝ → (Fin n → Fin m → ℝ) → Fin n → Fin m → ℝ) :
    (bathyGradientSizing (2 * Real.pi) planeEx.buildInterpolant 20 (-50) (1, 1)
      (chosenSlope gauss planeEx.buildInterpolant "bandstop" 50 (.vector [3, 4])) none (some 9) 1).isSome := by
  have : chosenSlope gauss planeEx.buildInterpolant "bandstop" 50 (.vector [3, 4]) =
      filteredSlope Real.sqrt fun _ _ _ f => some f := by
    funext dx dy z
    unfold chosenSlope
    rw [(C91_bandstop_off (50 : ℝ)).1]
  rw [this]
  unfold bathyGradientSizing
  rw [planeEx_eval]
  simp [numbersOf, slopeValues, filteredSlope, slopeField, mkGrid, gridChecks, planeEx, Grid.buildInterpolant, earthGradient]
  rw [if_pos (by norm_num)]
  rfl

end OM
