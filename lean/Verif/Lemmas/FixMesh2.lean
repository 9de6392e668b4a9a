import Verif.Lemmas.FixMesh
import Verif.Lemmas.Orders
import Mathlib.Algebra.Order.AbsoluteValue.Basic
import Mathlib.Algebra.Order.Field.Basic
/-! Snapping, totality and exact representation for `fix_mesh`. -/
set_option linter.unusedSectionVars false
namespace OM
open Spec
variable {K : Type} [Field K] [LinearOrder K] [IsStrictOrderedRing K]

theorem snapSize_bounds {p : List (K × K)} {ptol snap : K} (hpt : 0 < ptol) (h : snapSize p ptol = some snap) :
    (∀ q ∈ p, ∀ q' ∈ p, |q.1 - q'.1| * ptol ≤ snap ∧ |q.2 - q'.2| * ptol ≤ snap) ∧
      (∀ ext, (∀ q ∈ p, ∀ q' ∈ p, |q.1 - q'.1| ≤ ext ∧ |q.2 - q'.2| ≤ ext) → snap ≤ ext * ptol) := by
  cases p with
  | nil => simp [snapSize] at h
  | cons q0 r =>
    simp only [snapSize, Option.some.injEq] at h
    have hsp : ∀ (x : K) (l : List K), ∀ y ∈ x :: l, ∀ z ∈ x :: l, |y - z| ≤ spread x l := by
      intro x l y hy z hz
      unfold spread
      rw [abs_le]
      have h1 := le_foldl_max x l y hy
      have h2 := le_foldl_max x l z hz
      have h3 := foldl_min_le x l y hy
      have h4 := foldl_min_le x l z hz
      constructor <;> linarith
    have hmem1 : ∀ q ∈ q0 :: r, q.1 ∈ q0.1 :: r.map Prod.fst := by
      intro q hq
      rw [← List.map_cons]; exact List.mem_map_of_mem hq
    have hmem2 : ∀ q ∈ q0 :: r, q.2 ∈ q0.2 :: r.map Prod.snd := by
      intro q hq
      rw [← List.map_cons]; exact List.mem_map_of_mem hq
    constructor
    · intro q hq q' hq'
      rw [← h]
      constructor
      · exact mul_le_mul_of_nonneg_right
          ((hsp _ _ _ (hmem1 q hq) _ (hmem1 q' hq')).trans (le_max_left _ _)) hpt.le
      · exact mul_le_mul_of_nonneg_right
          ((hsp _ _ _ (hmem2 q hq) _ (hmem2 q' hq')).trans (le_max_right _ _)) hpt.le
    · intro ext hext
      rw [← h]
      apply mul_le_mul_of_nonneg_right _ hpt.le
      have a1 := foldl_max_mem q0.1 (r.map Prod.fst)
      have a2 := foldl_min_mem q0.1 (r.map Prod.fst)
      have b1 := foldl_max_mem q0.2 (r.map Prod.snd)
      have b2 := foldl_min_mem q0.2 (r.map Prod.snd)
      rw [← List.map_cons, List.mem_map] at a1 a2 b1 b2
      obtain ⟨u, hu, eu⟩ := a1
      obtain ⟨v, hv, ev⟩ := a2
      obtain ⟨u', hu', eu'⟩ := b1
      obtain ⟨v', hv', ev'⟩ := b2
      unfold spread
      rw [← eu, ← ev, ← eu', ← ev']
      exact max_le ((le_abs_self _).trans (hext u hu v hv).1) ((le_abs_self _).trans (hext u' hu' v' hv').2)

/-- Points with the same snapped position are within `snap` of each other. -/
theorem same_snap_close {rnd : K → Int} (hr : IsRounding rnd) {snap : K} (hs : 0 < snap) {q q' : K × K}
    (h : snapRow rnd snap q = snapRow rnd snap q') : |q.1 - q'.1| ≤ snap ∧ |q.2 - q'.2| ≤ snap := by
  unfold snapRow at h
  rw [if_neg hs.ne', if_neg hs.ne'] at h
  simp only [Option.some.injEq, Prod.mk.injEq, snapCoord] at h
  have one : ∀ x y : K, (rnd (x / snap) : K) * snap = rnd (y / snap) * snap → |x - y| ≤ snap := by
    intro x y hxy
    have hxy := mul_right_cancel₀ hs.ne' hxy
    have h1 := hr (x / snap)
    have h2 := hr (y / snap)
    rw [hxy] at h1
    rw [abs_le] at h1 h2
    have h3 : |x / snap - y / snap| ≤ 1 := by
      rw [abs_le]; constructor <;> linarith [h1.1, h1.2, h2.1, h2.2]
    rw [← sub_div, abs_div, abs_of_pos hs, div_le_one hs] at h3
    exact h3
  exact ⟨one _ _ h.1.1, one _ _ h.2.1⟩

/-- If no two members are identified by `φ`, permuted images come from permuted lists. -/
theorem perm_of_map_perm {α β : Type} {φ : α → β} {A B : List α}
    (hinj : ∀ x ∈ A ++ B, ∀ y ∈ A ++ B, φ x = φ y → x = y) (h : (A.map φ).Perm (B.map φ)) : A.Perm B := by
  classical
  induction A generalizing B with
  | nil =>
    have := h.length_eq
    simp at this
    rw [List.length_eq_zero_iff.1 this.symm]
  | cons a A ih =>
    have ha : φ a ∈ B.map φ := h.mem_iff.1 (by simp)
    obtain ⟨b, hb, hab⟩ := List.mem_map.1 ha
    have : b = a := hinj b (by simp [hb]) a (by simp) hab
    subst this
    have hp := List.perm_cons_erase hb
    refine (List.Perm.cons b (ih ?_ ?_)).trans hp.symm
    · intro x hx y hy
      have sub : ∀ z ∈ A ++ B.erase b, z ∈ b :: A ++ B := by
        intro z hz
        rcases List.mem_append.1 hz with h | h
        · simp [h]
        · simp [List.mem_of_mem_erase h]
      exact hinj x (sub x hx) y (sub y hy)
    · have h2 := h.trans (hp.map φ)
      rw [List.map_cons, List.map_cons] at h2
      exact (List.perm_cons _).1 h2

theorem fixMesh_facts {rnd : K → Int} {oP : RowOrder (Row K)} {oT : RowOrder Tri}
    {p : List (K × K)} {t : List Tri} {ptol : K} {du : Bool} {R : FixResult K}
    (h : fixMesh rnd oP oT p t ptol du = some R) :
    ∃ snap, snapSize p ptol = some snap ∧ FixFacts (snapRow rnd snap) p t R.p R.t ∧
      (du = true → ∀ v < R.p.length, ∃ f ∈ R.t, HasVertex f v) ∧
      (du = false → R.jx = uniqueInverse oP (p.map (snapRow rnd snap)) ∧
        gather p (uniqueIndex oP (p.map (snapRow rnd snap))) = some R.p) ∧
      (∃ t3, flipTris R.p t3 = some R.t) := by
  obtain ⟨snap, p1, t1, h1, h2, h3, h4⟩ := fixMesh_stages h
  have hm := merge_facts (oT := oT) h2 h3
  refine ⟨snap, h1, ?_⟩
  rcases h4 with ⟨hd, hp, ht, hj⟩ | ⟨hd, hp, ht, hj⟩
  · subst hd
    rw [hp]
    refine ⟨flip_facts hm.1 ht, fun h => by simp at h, fun _ => ⟨hj, h2⟩, _, ht⟩
  · subst hd
    have hdrop := drop_facts hm.1 hp
    refine ⟨flip_facts hdrop.1 ht, ?_, fun h => by simp at h, _, ht⟩
    intro _ v hv
    obtain ⟨f, hf, hfv⟩ := hdrop.2 v hv
    obtain ⟨g, hg, hfg⟩ := forall₂_mem_left (flipTris_forall₂ ht) f hf
    refine ⟨g, hg, ?_⟩
    rw [hasVertex_iff_mem] at hfv ⊢
    exact (flipTri_perm hfg).mem_iff.2 hfv

/-- `fix_mesh` succeeds on every non-empty vertex array with valid indices. -/
theorem fixMesh_isSome (rnd : K → Int) (oP : RowOrder (Row K)) (oT : RowOrder Tri)
    {p : List (K × K)} {t : List Tri} (ptol : K) (du : Bool) (hp : p ≠ []) (hv : ValidMesh p t) :
    ∃ R, fixMesh rnd oP oT p t ptol du = some R := by
  obtain ⟨snap, hs⟩ : ∃ snap, snapSize p ptol = some snap := by
    cases p with
    | nil => exact absurd rfl hp
    | cons q r => exact ⟨_, rfl⟩
  obtain ⟨p1, h1⟩ := merge_isSome (snapRow rnd snap) oP p
  obtain ⟨t1, h2⟩ := mapTris_isSome (g := fun i => (uniqueInverse oP (p.map (snapRow rnd snap)))[i]?) (t := t)
    (fun f hf v hfv => inverse_isSome (hv f hf v hfv))
  have hm := (merge_facts (oT := oT) h1 h2).1
  unfold fixMesh
  simp only [hs, h1, h2, Option.bind_eq_bind, Option.bind_some]
  split
  · obtain ⟨p2, h3⟩ := gather_isSome (l := p1) (ix := unique natOrder (flatTris (unique oT (t1.map Tri.sort))))
      (by
        intro i hi
        obtain ⟨f, hf, hfv⟩ := (mem_flatTris _ _).1 ((mem_unique _ _ _).1 hi)
        exact hm.valid f hf i hfv)
    have hd := (drop_facts hm h3).1
    obtain ⟨t4, h4⟩ := flipTris_isSome hd.valid
    rw [h3]
    simp only [Option.bind_some]
    have h4' : flipTris p2 ((unique oT (t1.map Tri.sort)).map fun f : Tri =>
        (⟨(unique natOrder (flatTris (unique oT (t1.map Tri.sort)))).idxOf f.a,
          (unique natOrder (flatTris (unique oT (t1.map Tri.sort)))).idxOf f.b,
          (unique natOrder (flatTris (unique oT (t1.map Tri.sort)))).idxOf f.c⟩ : Tri)) = some t4 := h4
    simp only [h4', Option.bind_some]
    exact ⟨_, rfl⟩
  · obtain ⟨t4, h4⟩ := flipTris_isSome hm.valid
    rw [h4]
    exact ⟨_, rfl⟩

/-- Every row after the orientation step has non-negative signed area. -/
theorem flipTri_nonneg {p : List (K × K)} {f f' : Tri} (h : flipTri p f = some f') {x y z : K × K}
    (hx : p[f'.a]? = some x) (hy : p[f'.b]? = some y) (hz : p[f'.c]? = some z) : 0 ≤ signedArea x y z := by
  unfold flipTri at h
  split at h
  · simp at h
  · rename_i v hv
    obtain ⟨x0, y0, z0, h1, h2, h3, h4⟩ := faceVol_eq_some.1 hv
    simp only [Option.some.injEq] at h
    subst h
    split at hx
    · rename_i hneg
      rw [if_pos hneg] at hy hz
      simp only at hx hy hz
      rw [h2] at hx; rw [h1] at hy; rw [h3] at hz
      simp only [Option.some.injEq] at hx hy hz
      subst hx hy hz
      rw [signedArea_swap, ← triVol_eq_signedArea, h4]
      linarith
    · rename_i hneg
      rw [if_neg hneg] at hy hz
      rw [h1] at hx; rw [h2] at hy; rw [h3] at hz
      simp only [Option.some.injEq] at hx hy hz
      subst hx hy hz
      rw [← triVol_eq_signedArea, h4]
      linarith

end OM
