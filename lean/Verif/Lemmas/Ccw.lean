import Verif.Lemmas.Polys
/-!
# Lemmas on the orientation test
-/
set_option linter.unusedSectionVars false
namespace OM
open Spec

section
variable {K : Type} [Field K] [LinearOrder K] [IsStrictOrderedRing K]

theorem det3_eq_turn (a b c : K × K) : det3 a b c = turn a b c := rfl

/-- The sum of the triangles `a, lᵢ, lᵢ₊₁`. -/
def fanSum (a : K × K) (l : List (K × K)) : K := ((segments l).map fun s => turn a s.1 s.2).sum

theorem segments_cons {α : Type} (x y : α) (l : List α) : segments (x :: y :: l) = (x, y) :: segments (y :: l) := rfl

theorem fanSum_eq (a : K × K) : ∀ (b : K × K) (l : List (K × K)),
    fanSum a (b :: l) = twiceArea (b :: l) + (a.1 * b.2 - b.1 * a.2) -
      (a.1 * ((b :: l).getLast (List.cons_ne_nil _ _)).2 - ((b :: l).getLast (List.cons_ne_nil _ _)).1 * a.2)
  | b, [] => by simp [fanSum, twiceArea, segments]
  | b, c :: l => by
    have ih := fanSum_eq a c l
    have e1 : fanSum a (b :: c :: l) = turn a b c + fanSum a (c :: l) := by
      unfold fanSum; rw [segments_cons]; simp
    have e2 : twiceArea (b :: c :: l) = (b.1 * c.2 - c.1 * b.2) + twiceArea (c :: l) := by
      unfold twiceArea; rw [segments_cons]; simp
    rw [e1, e2, ih, List.getLast_cons (List.cons_ne_nil c l)]
    unfold turn
    ring

/-- A closed list: twice the area is the sum over the fan of its first point. -/
theorem twiceArea_fan {a b : K × K} {l : List (K × K)} (h : (b :: l).getLast? = some a) :
    twiceArea (a :: b :: l) = fanSum a (b :: l) := by
  rw [List.getLast?_eq_some_getLast (List.cons_ne_nil b l), Option.some.injEq] at h
  rw [fanSum_eq, h]
  unfold twiceArea
  rw [segments_cons]
  simp only [List.map_cons, List.sum_cons]
  ring

/-- The value the loop ends with: the one it started with or the triangle of three consecutive points that are not the last. -/
theorem ccwLoop_cases : ∀ (p : List (K × K)) (d : K), closeToZero (ccwLoop d p) = false →
    ccwLoop d p = d ∨ ∃ i a b c, i + 3 < p.length ∧ p[i]? = some a ∧ p[i + 1]? = some b ∧ p[i + 2]? = some c ∧
      ccwLoop d p = turn a b c
  | [], d, _ => Or.inl rfl
  | [_], d, _ => Or.inl rfl
  | [_, _], d, _ => Or.inl rfl
  | [_, _, _], d, _ => Or.inl rfl
  | a :: b :: c :: e :: l, d, h => by
    rw [ccwLoop] at h ⊢
    by_cases hz : closeToZero d = true
    · rw [if_pos hz] at h ⊢
      rcases ccwLoop_cases (b :: c :: e :: l) (det3 a b c) h with h1 | ⟨i, x, y, z, h1, h2, h3, h4, h5⟩
      · exact Or.inr ⟨0, a, b, c, by simp, rfl, rfl, rfl, h1⟩
      · exact Or.inr ⟨i + 1, x, y, z, by simp at h1 ⊢; omega, h2, h3, h4, h5⟩
    · rw [if_neg hz]; exact Or.inl rfl

/-- The loop gives up only if all triangles are close to zero. -/
theorem ccwLoop_none : ∀ (p : List (K × K)) (d : K), closeToZero (ccwLoop d p) = true →
    closeToZero d = true ∧ ∀ i a b c, i + 3 < p.length → p[i]? = some a → p[i + 1]? = some b → p[i + 2]? = some c →
      closeToZero (turn a b c) = true
  | [], d, h => ⟨h, by intro i a b c h; simp at h⟩
  | [_], d, h => ⟨h, by intro i a b c h; simp at h⟩
  | [_, _], d, h => ⟨h, by intro i a b c h; simp at h⟩
  | [_, _, _], d, h => ⟨h, by intro i a b c h; simp at h⟩
  | a :: b :: c :: e :: l, d, h => by
    rw [ccwLoop] at h
    by_cases hz : closeToZero d = true
    · rw [if_pos hz] at h
      obtain ⟨h1, h2⟩ := ccwLoop_none (b :: c :: e :: l) (det3 a b c) h
      refine ⟨hz, ?_⟩
      intro i x y z hi hx hy hw
      cases i with
      | zero => cases hx; cases hy; cases hw; exact h1
      | succ i => exact h2 i x y z (by simp at hi ⊢; omega) hx hy hw
    · rw [if_neg hz] at h; exact absurd h hz

/-- All triangles of three points in the order of the list (without the last point) turn the same way. -/
def TurnsLike (s : K) (p : List (K × K)) : Prop :=
  ∀ i j k a b c, i < j → j < k → k + 1 < p.length → p[i]? = some a → p[j]? = some b → p[k]? = some c → 0 ≤ s * turn a b c

theorem segments_get {α : Type} : ∀ (l : List α) (i : Nat), (segments l)[i]? =
    (match l[i]?, l[i + 1]? with | some x, some y => some (x, y) | _, _ => none)
  | [], i => by simp [segments]
  | [x], i => by cases i <;> simp [segments]
  | x :: y :: l, 0 => by simp [segments]
  | x :: y :: l, i + 1 => by
    rw [segments_cons, List.getElem?_cons_succ, segments_get (y :: l) i]
    rfl

theorem sum_pos_of_pair {l : List K} (h : ∀ x ∈ l, 0 ≤ x) {i : Nat} {x y : K} (hx : l[i]? = some x) (hy : l[i + 1]? = some y)
    (hpos : 0 < x + y) : 0 < l.sum := by
  induction l generalizing i with
  | nil => simp at hx
  | cons z l ih =>
    have hl : 0 ≤ l.sum := List.sum_nonneg fun w hw => h w (List.mem_cons_of_mem _ hw)
    have hz := h z (List.mem_cons_self ..)
    rw [List.sum_cons]
    cases i with
    | zero =>
      simp only [List.getElem?_cons_zero, Option.some.injEq] at hx
      subst hx
      cases l with
      | nil => simp at hy
      | cons w l =>
        simp only [Nat.zero_add, List.getElem?_cons_succ, List.getElem?_cons_zero, Option.some.injEq] at hy
        subst hy
        have hl' : 0 ≤ l.sum := List.sum_nonneg fun u hu => h u (List.mem_cons_of_mem _ (List.mem_cons_of_mem _ hu))
        rw [List.sum_cons]
        linarith
    | succ i =>
      have := ih (fun w hw => h w (List.mem_cons_of_mem _ hw)) hx hy
      linarith

theorem sum_pos_of_one {l : List K} (h : ∀ x ∈ l, 0 ≤ x) {x : K} (hx : x ∈ l) (hpos : 0 < x) : 0 < l.sum :=
  hpos.trans_le (List.single_le_sum h x hx)

/-- If all triangles turn one way and one triangle of consecutive points is not flat, the area has the same sign. -/
theorem area_sign {s : K} {a b : K × K} {l : List (K × K)} (hlast : (b :: l).getLast? = some a)
    (hconv : TurnsLike s (a :: b :: l)) {i : Nat} {x y z : K × K} (hi : i + 3 < (a :: b :: l).length)
    (hx : (a :: b :: l)[i]? = some x) (hy : (a :: b :: l)[i + 1]? = some y) (hz : (a :: b :: l)[i + 2]? = some z)
    (hpos : 0 < s * turn x y z) : 0 < s * twiceArea (a :: b :: l) := by
  rw [twiceArea_fan hlast, fanSum, ← List.sum_map_mul_left]
  have hterm : ∀ (k : Nat) (e : (K × K) × (K × K)), (segments (b :: l))[k]? = some e →
      (b :: l)[k]? = some e.1 ∧ (b :: l)[k + 1]? = some e.2 := by
    intro k e he
    rw [segments_get] at he
    split at he
    · rename_i u v h1 h2; cases he; exact ⟨h1, h2⟩
    · cases he
  have hnn : ∀ w ∈ (segments (b :: l)).map fun e => s * turn a e.1 e.2, 0 ≤ w := by
    intro w hw
    obtain ⟨e, he, rfl⟩ := List.mem_map.1 hw
    obtain ⟨k, hk⟩ := List.mem_iff_getElem?.1 he
    obtain ⟨h1, h2⟩ := hterm k e hk
    have hk2 : k + 1 < (b :: l).length := (List.getElem?_eq_some_iff.1 h2).1
    by_cases hend : k + 2 = (b :: l).length
    · have : e.2 = a := by
        rw [List.getLast?_eq_getElem?, ← hend] at hlast
        rw [show k + 2 - 1 = k + 1 by omega, h2] at hlast
        exact Option.some.inj hlast
      rw [this]
      have : turn a e.1 a = 0 := by unfold turn; ring
      rw [this, mul_zero]
    · exact hconv 0 (k + 1) (k + 2) a e.1 e.2 (by omega) (by omega) (by simp at hk2 hend ⊢; omega) rfl h1 h2
  cases i with
  | zero =>
    have ea : a = x := Option.some.inj hx
    have eb : b = y := Option.some.inj hy
    have hmem : (b, z) ∈ segments (b :: l) := by
      apply List.mem_of_getElem? (i := 0)
      rw [segments_get]
      simp only [List.getElem?_cons_zero]
      rw [show (b :: l)[0 + 1]? = some z from hz]
    rw [← ea, ← eb] at hpos
    exact sum_pos_of_one hnn (List.mem_map.2 ⟨(b, z), hmem, rfl⟩) hpos
  | succ i =>
    have hx' : (b :: l)[i]? = some x := hx
    have hy' : (b :: l)[i + 1]? = some y := hy
    have hz' : (b :: l)[i + 2]? = some z := hz
    have g1 : ((segments (b :: l)).map fun e => s * turn a e.1 e.2)[i]? = some (s * turn a x y) := by
      rw [List.getElem?_map, segments_get, hx', hy']; rfl
    have g2 : ((segments (b :: l)).map fun e => s * turn a e.1 e.2)[i + 1]? = some (s * turn a y z) := by
      rw [List.getElem?_map, segments_get, hy', hz']; rfl
    have hxz := hconv 0 (i + 1) (i + 3) a x z (by omega) (by omega) (by simp at hi ⊢; omega) rfl hx' hz'
    refine sum_pos_of_pair hnn g1 g2 ?_
    have : s * turn a x y + s * turn a y z = s * turn x y z + s * turn a x z := by unfold turn; ring
    rw [this]
    linarith

end

end OM
