import Verif.Model.Grid
import Verif.Spec.Lattice
import Mathlib.Tactic.Linarith
import Mathlib.Tactic.Ring
import Mathlib.Tactic.FieldSimp
import Mathlib.Data.List.Sort
/-!
# Lemmas on the interpolator of a grid
-/
namespace OM
open Spec
set_option linter.unusedSectionVars false

section
variable {K C : Type} [Field K] [LinearOrder K] [IsStrictOrderedRing K] [FloorRing K]

theorem axisOutside_false {x0 d : K} {n : Nat} {x : K} (hn : 0 < n) : axisOutside x0 d n x = false ↔ OnAxis x0 d n x := by
  simp [axisOutside, OnAxis, nodeAt, hn]

theorem outside_false {g : Grid K C} {q : K × K} (hn : 0 < g.nx) (hm : 0 < g.ny) :
    g.outside q = false ↔ InLattice g.box.xmin g.dx g.nx g.box.ymin |g.dy| g.ny q := by
  unfold Grid.outside InLattice
  rw [Bool.or_eq_false_iff, axisOutside_false hn, axisOutside_false hm]

/-- The cell of a point: the point is the weighted mean of the two nodes. -/
theorem axisCell_spec {x0 d : K} {n : Nat} {x : K} (hd : 0 < d) (hn : 2 ≤ n) :
    ∃ i0 i1 s, axisCell x0 d n x = some (i0, i1, s) ∧ (i1 : Nat) = i0 + 1 ∧ x = nodeAt x0 d i0 + s * d := by
  match n, hn with
  | n + 2, _ =>
    refine ⟨_, _, _, rfl, rfl, ?_⟩
    simp only [nodeAt]
    field_simp
    ring

/-- Inside the axis the weight lies between zero and one. -/
theorem axisCell_inside {x0 d : K} {n : Nat} {x : K} (hd : 0 < d) (hx : OnAxis x0 d n x) :
    ∃ i0 i1 s, axisCell x0 d n x = some (i0, i1, s) ∧ 0 ≤ s ∧ s ≤ 1 ∧ x = nodeAt x0 d i0 + s * d ∧
      ((i1 : Nat) = i0 + 1 ∨ (i1 = i0 ∧ s = 0)) := by
  obtain ⟨h0, h1, h2⟩ := hx
  match n, h0 with
  | 1, _ =>
    refine ⟨0, 0, 0, rfl, le_refl _, zero_le_one, ?_, Or.inr ⟨rfl, rfl⟩⟩
    simp only [nodeAt] at h2 ⊢
    simp at h2 ⊢
    exact le_antisymm h2 h1
  | n + 2, _ =>
    refine ⟨_, _, _, rfl, ?_, ?_, ?_, Or.inl rfl⟩
    · apply div_nonneg _ hd.le
      have h3 : 0 ≤ (x - x0) / d := div_nonneg (by linarith) hd.le
      have h4 : ((min ⌊(x - x0) / d⌋.toNat n : Nat) : K) ≤ (x - x0) / d := by
        have : ((⌊(x - x0) / d⌋.toNat : Nat) : Int) = ⌊(x - x0) / d⌋ := Int.toNat_of_nonneg (Int.floor_nonneg.2 h3)
        have h5 : ((⌊(x - x0) / d⌋.toNat : Nat) : K) = ((⌊(x - x0) / d⌋ : Int) : K) := by
          rw [← Int.cast_natCast, this]
        calc ((min ⌊(x - x0) / d⌋.toNat n : Nat) : K) ≤ ((⌊(x - x0) / d⌋.toNat : Nat) : K) := by
              exact_mod_cast min_le_left _ _
          _ = ((⌊(x - x0) / d⌋ : Int) : K) := h5
          _ ≤ _ := Int.floor_le _
      rw [le_div_iff₀ hd] at h4
      linarith
    · rw [div_le_one hd]
      have h3 : 0 ≤ (x - x0) / d := div_nonneg (by linarith) hd.le
      rcases le_total ⌊(x - x0) / d⌋.toNat n with h | h
      · simp only [min_eq_left h]
        have : ((⌊(x - x0) / d⌋.toNat : Nat) : Int) = ⌊(x - x0) / d⌋ := Int.toNat_of_nonneg (Int.floor_nonneg.2 h3)
        have h5 : ((⌊(x - x0) / d⌋.toNat : Nat) : K) = ((⌊(x - x0) / d⌋ : Int) : K) := by
          rw [← Int.cast_natCast, this]
        have h6 := Int.lt_floor_add_one ((x - x0) / d)
        rw [div_lt_iff₀ hd] at h6
        rw [h5]
        linarith
      · simp only [min_eq_right h]
        simp only [nodeAt] at h2
        have : ((n + 2 - 1 : Nat) : K) = (n : K) + 1 := by
          rw [show n + 2 - 1 = n + 1 from rfl]; push_cast; ring
        rw [this] at h2
        linarith
    · simp only [nodeAt]
      field_simp
      ring

/-- A node that gets a positive weight is closer than one spacing. -/
theorem abs_lower_lt {x0 d s x : K} {i : Nat} (hd : 0 < d) (h0 : 0 ≤ s) (h1 : s < 1) (hx : x = nodeAt x0 d i + s * d) :
    |x - nodeAt x0 d i| < d := by
  rw [hx, add_sub_cancel_left, abs_of_nonneg (mul_nonneg h0 hd.le)]
  nlinarith

theorem abs_upper_lt {x0 d s x : K} {i : Nat} (hd : 0 < d) (h0 : 0 < s) (h1 : s ≤ 1) (hx : x = nodeAt x0 d i + s * d) :
    |x - nodeAt x0 d (i + 1)| < d := by
  have : x - nodeAt x0 d (i + 1) = (s - 1) * d := by
    rw [hx]; simp only [nodeAt]; push_cast; ring
  rw [this, abs_mul, abs_of_pos hd, abs_of_nonpos (by linarith)]
  nlinarith

/-- A weighted mean of four numbers lies between bounds of those with positive weight. -/
theorem bilinear_between {s t v00 v01 v10 v11 lo hi : K} (hs0 : 0 ≤ s) (hs1 : s ≤ 1) (ht0 : 0 ≤ t) (ht1 : t ≤ 1)
    (h00 : s < 1 → t < 1 → lo ≤ v00 ∧ v00 ≤ hi) (h01 : s < 1 → 0 < t → lo ≤ v01 ∧ v01 ≤ hi)
    (h10 : 0 < s → t < 1 → lo ≤ v10 ∧ v10 ≤ hi) (h11 : 0 < s → 0 < t → lo ≤ v11 ∧ v11 ≤ hi) :
    lo ≤ v00 * (1 - s) * (1 - t) + v01 * (1 - s) * t + v10 * s * (1 - t) + v11 * s * t ∧
      v00 * (1 - s) * (1 - t) + v01 * (1 - s) * t + v10 * s * (1 - t) + v11 * s * t ≤ hi := by
  have key : ∀ (w v : K), 0 ≤ w → (0 < w → lo ≤ v ∧ v ≤ hi) → lo * w ≤ v * w ∧ v * w ≤ hi * w := by
    intro w v hw h
    rcases hw.eq_or_lt with h' | h'
    · simp [← h']
    · exact ⟨mul_le_mul_of_nonneg_right (h h').1 hw, mul_le_mul_of_nonneg_right (h h').2 hw⟩
  have hs : 0 ≤ 1 - s := by linarith
  have ht : 0 ≤ 1 - t := by linarith
  have pp : ∀ {a b : K}, 0 ≤ a → 0 ≤ b → 0 < a * b → 0 < a ∧ 0 < b := by
    intro a b ha hb h
    constructor
    · rcases ha.eq_or_lt with h' | h'
      · rw [← h'] at h; simp at h
      · exact h'
    · rcases hb.eq_or_lt with h' | h'
      · rw [← h'] at h; simp at h
      · exact h'
  have a00 := key ((1 - s) * (1 - t)) v00 (mul_nonneg hs ht) fun h => by
    have := pp hs ht h; exact h00 (by linarith [this.1]) (by linarith [this.2])
  have a01 := key ((1 - s) * t) v01 (mul_nonneg hs ht0) fun h => by
    have := pp hs ht0 h; exact h01 (by linarith [this.1]) this.2
  have a10 := key (s * (1 - t)) v10 (mul_nonneg hs0 ht) fun h => by
    have := pp hs0 ht h; exact h10 this.1 (by linarith [this.2])
  have a11 := key (s * t) v11 (mul_nonneg hs0 ht0) fun h => by
    have := pp hs0 ht0 h; exact h11 this.1 this.2
  have e : ∀ c : K, c = c * ((1 - s) * (1 - t)) + c * ((1 - s) * t) + c * (s * (1 - t)) + c * (s * t) := by
    intro c; ring
  constructor
  · rw [e lo]; nlinarith [a00.1, a01.1, a10.1, a11.1]
  · rw [e hi]; nlinarith [a00.2, a01.2, a10.2, a11.2]

/-- Choosing the nearer node of the cell gives a nearest node of the axis. -/
theorem nearerNode_spec {x0 d : K} {n : Nat} {x : K} (hd : 0 < d) (hn : 0 < n) :
    ∃ c, axisCell x0 d n x = some c ∧ NearestOnAxis x0 d n x (nearerNode c) := by
  match n, hn with
  | 1, _ =>
    refine ⟨_, rfl, ?_, ?_⟩
    · exact (nearerNode _).isLt
    · intro k hk
      have h1 : k = 0 := by omega
      have h2 : ((nearerNode ((0 : Fin 1), (0 : Fin 1), (0 : K)) : Fin 1) : Nat) = 0 := by omega
      rw [h1, h2]
  | n + 2, _ =>
    refine ⟨_, rfl, (nearerNode _).isLt, ?_⟩
    intro k hk
    set i := min ⌊(x - x0) / d⌋.toNat n with hi
    set s := (x - (x0 + (i : K) * d)) / d with hs
    have hx : x = x0 + (i : K) * d + s * d := by rw [hs]; field_simp; ring
    -- position in units of the spacing
    have hpos : ∀ m : Nat, x - nodeAt x0 d m = ((i : K) + s - m) * d := by
      intro m
      simp only [nodeAt]; linear_combination hx
    have hs0 : s < 0 → i = 0 := by
      intro h
      by_contra hne
      have h1 : 0 < ⌊(x - x0) / d⌋.toNat := lt_of_lt_of_le (Nat.pos_of_ne_zero hne) (min_le_left _ _)
      have h2 : 0 < ⌊(x - x0) / d⌋ := by omega
      have h3 : ((i : Nat) : Int) ≤ ⌊(x - x0) / d⌋ := by
        have : i ≤ ⌊(x - x0) / d⌋.toNat := min_le_left _ _
        omega
      have h4 : ((i : Int) : K) ≤ (x - x0) / d := Int.le_floor.1 h3
      rw [le_div_iff₀ hd] at h4
      have h5 : 0 ≤ s * d := by
        have : ((i : Int) : K) = (i : K) := by simp
        rw [this] at h4
        linarith
      nlinarith
    have hs1 : 1 < s → i = n := by
      intro h
      by_contra hne
      have h1 : ⌊(x - x0) / d⌋.toNat < n := by
        by_contra h'
        exact hne (by rw [hi]; exact min_eq_right (by omega))
      have h2 : i = ⌊(x - x0) / d⌋.toNat := min_eq_left h1.le
      have h3 : (⌊(x - x0) / d⌋ : Int) < (i : Int) + 1 := by omega
      have h4 : (x - x0) / d < (((i : Int) + 1 : Int) : K) := Int.floor_lt.1 h3
      rw [div_lt_iff₀ hd] at h4
      push_cast at h4
      nlinarith
    have habs : ∀ m : Nat, |x - nodeAt x0 d m| = |(i : K) + s - m| * d := by
      intro m; rw [hpos, abs_mul, abs_of_pos hd]
    rw [habs, habs]
    apply mul_le_mul_of_nonneg_right _ hd.le
    have hkn : (k : K) ≤ (n : K) + 1 := by
      have : k ≤ n + 1 := by omega
      exact_mod_cast this
    have hk0 : (0 : K) ≤ (k : K) := by positivity
    unfold nearerNode
    simp only
    split
    · rename_i hle
      simp only
      rw [show (i : K) + s - (i : K) = s by ring]
      rcases lt_or_ge s 0 with h | h
      · have hi0 : (i : K) = 0 := by rw [hs0 h]; simp
        rw [hi0, abs_of_neg h]
        rw [abs_of_nonpos (by linarith)]
        linarith
      · rw [abs_of_nonneg h]
        rcases Nat.lt_trichotomy k i with hk' | hk' | hk'
        · have : (k : K) + 1 ≤ i := by exact_mod_cast hk'
          rw [abs_of_nonneg (by linarith)]; linarith
        · rw [hk']
          rw [show (i : K) + s - (i : K) = s by ring, abs_of_nonneg h]
        · have : (i : K) + 1 ≤ k := by exact_mod_cast hk'
          rw [abs_of_nonpos (by linarith)]; linarith
    · rename_i hle
      push Not at hle
      simp only
      have hc : (((i + 1 : Nat)) : K) = (i : K) + 1 := by push_cast; ring
      rw [hc, show (i : K) + s - ((i : K) + 1) = s - 1 by ring]
      rcases lt_or_ge 1 s with h | h
      · have hi0 : (i : K) = n := by rw [hs1 h]
        rw [hi0, abs_of_pos (by linarith)]
        rw [abs_of_nonneg (by linarith)]
        linarith
      · rw [abs_of_nonpos (by linarith)]
        rcases Nat.lt_trichotomy k (i + 1) with hk' | hk' | hk'
        · have : (k : K) ≤ i := by exact_mod_cast (Nat.lt_succ_iff.1 hk')
          rw [abs_of_nonneg (by linarith)]; linarith
        · rw [hk', hc, show (i : K) + s - ((i : K) + 1) = s - 1 by ring, abs_of_nonpos (by linarith)]
        · have : (i : K) + 1 + 1 ≤ k := by exact_mod_cast hk'
          rw [abs_of_nonpos (by linarith)]; linarith

theorem nearest_both {x0 dx : K} {n : Nat} {y0 dy : K} {m : Nat} {q : K × K} {i j : Nat}
    (hi : NearestOnAxis x0 dx n q.1 i) (hj : NearestOnAxis y0 dy m q.2 j) : NearestNode x0 dx n y0 dy m q i j := by
  refine ⟨hi.1, hj.1, fun k hk l hl => ?_⟩
  simp only [sqDist]
  have h1 := sq_le_sq.2 (hi.2 k hk)
  have h2 := sq_le_sq.2 (hj.2 l hl)
  linarith

end
end OM
