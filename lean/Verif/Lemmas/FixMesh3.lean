import Verif.Lemmas.FixMesh2
import Mathlib.Data.List.Permutation
import Mathlib.Tactic.FieldSimp
import Mathlib.Tactic.Ring
import Mathlib.Tactic.LinearCombination
/-! Lemmas behind C05 – C11. -/
set_option linter.unusedSectionVars false
namespace OM
open Spec
variable {K : Type} [Field K] [LinearOrder K] [IsStrictOrderedRing K]

theorem snapSize_eq {p : List (K × K)} {ptol e snap : K} (hpt : 0 < ptol) (he : IsExtent p e)
    (h : snapSize p ptol = some snap) : snap = e * ptol := by
  obtain ⟨h1, h2⟩ := snapSize_bounds hpt h
  apply le_antisymm (h2 e he.2)
  obtain ⟨q, hq, q', hq', h | h⟩ := he.1
  · rw [h]; exact (h1 q hq q' hq').1
  · rw [h]; exact (h1 q hq q' hq').2

theorem extent_nonneg {p : List (K × K)} {e : K} (he : IsExtent p e) : 0 ≤ e := by
  obtain ⟨q, -, q', -, h | h⟩ := he.1 <;> rw [h] <;> exact abs_nonneg _

theorem extent_zero {p : List (K × K)} (he : IsExtent p 0) {q q' : K × K} (hq : q ∈ p) (hq' : q' ∈ p) : q = q' := by
  obtain ⟨h1, h2⟩ := he.2 q hq q' hq'
  exact Prod.ext (sub_eq_zero.1 (abs_nonpos_iff.1 h1)) (sub_eq_zero.1 (abs_nonpos_iff.1 h2))

theorem exists_extent {p : List (K × K)} (hp : p ≠ []) : ∃ e, IsExtent p e := by
  cases p with
  | nil => exact absurd rfl hp
  | cons q0 r =>
    have hs : snapSize (q0 :: r) (1 : K) = some _ := rfl
    have hb := (snapSize_bounds one_pos hs).1
    have a1 := foldl_max_mem q0.1 (r.map Prod.fst)
    have a2 := foldl_min_mem q0.1 (r.map Prod.fst)
    have b1 := foldl_max_mem q0.2 (r.map Prod.snd)
    have b2 := foldl_min_mem q0.2 (r.map Prod.snd)
    have c1 : r.foldl (fun _ _ => (0:K)) 0 = r.foldl (fun _ _ => (0:K)) 0 := rfl
    have d1 := (foldl_min_le q0.1 (r.map Prod.fst) q0.1 (by simp)).trans (le_foldl_max q0.1 (r.map Prod.fst) q0.1 (by simp))
    have d2 := (foldl_min_le q0.2 (r.map Prod.snd) q0.2 (by simp)).trans (le_foldl_max q0.2 (r.map Prod.snd) q0.2 (by simp))
    rw [← List.map_cons, List.mem_map] at a1 a2 b1 b2
    obtain ⟨u, hu, eu⟩ := a1
    obtain ⟨v, hv, ev⟩ := a2
    obtain ⟨u', hu', eu'⟩ := b1
    obtain ⟨v', hv', ev'⟩ := b2
    refine ⟨max (spread q0.1 (r.map Prod.fst)) (spread q0.2 (r.map Prod.snd)), ?_, ?_⟩
    · rcases max_choice (spread q0.1 (r.map Prod.fst)) (spread q0.2 (r.map Prod.snd)) with h | h
      · refine ⟨u, hu, v, hv, Or.inl ?_⟩
        rw [h, spread, ← eu, ← ev, abs_of_nonneg]
        rw [eu, ev]; linarith
      · refine ⟨u', hu', v', hv', Or.inr ?_⟩
        rw [h, spread, ← eu', ← ev', abs_of_nonneg]
        rw [eu', ev']; linarith
    · intro q hq q' hq'
      simpa using hb q hq q' hq'

theorem snapRow_eq_iff {rnd : K → Int} {snap : K} (hs : 0 < snap) {q q' : K × K} :
    snapRow rnd snap q = snapRow rnd snap q' ↔
      latticePoint rnd snap q = latticePoint rnd snap q' ∧
      ((rnd (q.1 / snap) = 0 ∧ q.1 < 0) ↔ (rnd (q'.1 / snap) = 0 ∧ q'.1 < 0)) ∧
      ((rnd (q.2 / snap) = 0 ∧ q.2 < 0) ↔ (rnd (q'.2 / snap) = 0 ∧ q'.2 < 0)) := by
  have hd : ∀ x : K, x / snap < 0 ↔ x < 0 := fun x => div_neg_iff_of_pos' hs x
  unfold snapRow snapCoord latticePoint
  rw [if_neg hs.ne', if_neg hs.ne']
  simp only [Option.some.injEq, Prod.mk.injEq, decide_eq_decide, hd]
  tauto
where
  div_neg_iff_of_pos' {snap : K} (hs : 0 < snap) (x : K) : x / snap < 0 ↔ x < 0 := by
    rw [div_lt_iff₀ hs, zero_mul]

theorem lattice_or_straddle {rnd : K → Int} {snap : K} (hs : 0 < snap) {q q' : K × K}
    (h : snapRow rnd snap q ≠ snapRow rnd snap q') (hl : latticePoint rnd snap q = latticePoint rnd snap q') :
    StraddleZero (latticePoint rnd snap q) q q' := by
  by_contra hst
  apply h
  rw [snapRow_eq_iff hs]
  have e1 : rnd (q.1 / snap) = rnd (q'.1 / snap) := by
    have := congrArg Prod.fst hl
    exact_mod_cast mul_right_cancel₀ hs.ne' this
  have e2 : rnd (q.2 / snap) = rnd (q'.2 / snap) := by
    have := congrArg Prod.snd hl
    exact_mod_cast mul_right_cancel₀ hs.ne' this
  unfold StraddleZero latticePoint at hst
  push Not at hst
  refine ⟨hl, ?_, ?_⟩
  · rw [← e1]
    by_cases h0 : rnd (q.1 / snap) = 0
    · rcases hst.1 (by rw [h0]; simp) with ⟨a, b⟩ | ⟨a, b⟩
      · simp [a, b]
      · simp [not_lt.2 a, not_lt.2 b]
    · simp [h0]
  · rw [← e2]
    by_cases h0 : rnd (q.2 / snap) = 0
    · rcases hst.2 (by rw [h0]; simp) with ⟨a, b⟩ | ⟨a, b⟩
      · simp [a, b]
      · simp [not_lt.2 a, not_lt.2 b]
    · simp [h0]

/-- Permuted images: the second list can be rearranged so that images agree position by position. -/
theorem map_perm_rearrange {α β : Type} [DecidableEq α] {φ : α → β} :
    ∀ {A B : List α}, (A.map φ).Perm (B.map φ) → ∃ B' : List α, B'.Perm B ∧ List.Forall₂ (fun a b => φ a = φ b) A B'
  | [], B, h => by
    have := h.length_eq
    simp at this
    exact ⟨[], by rw [List.length_eq_zero_iff.1 this.symm], .nil⟩
  | a :: A, B, h => by
    have ha : φ a ∈ B.map φ := h.mem_iff.1 (by simp)
    obtain ⟨b, hb, hab⟩ := List.mem_map.1 ha
    have hp := List.perm_cons_erase hb
    have h2 := h.trans (hp.map φ)
    rw [List.map_cons, List.map_cons, hab] at h2
    obtain ⟨B', h3, h4⟩ := map_perm_rearrange ((List.perm_cons _).1 h2)
    exact ⟨b :: B', (h3.cons b).trans hp.symm, .cons hab.symm h4⟩

/-- Equal corner keys (up to order) give matching corners. -/
theorem cornersMatch_of_keys {key : K × K → Row K} {p p' : List (K × K)} {f g : Tri}
    (hf : ∀ v, HasVertex f v → v < p.length) (h : (cornerKeys key p' g).Perm (cornerKeys key p f)) :
    CornersMatch (fun x x' => x ∈ p ∧ x' ∈ p' ∧ key x = key x') p f p' g := by
  have h' : ((corners p f).map (Option.map key)).Perm ((corners p' g).map (Option.map key)) := h.symm
  obtain ⟨B', hB, hF⟩ := map_perm_rearrange h'
  have get : ∀ v, HasVertex f v → ∃ x, p[v]? = some x ∧ x ∈ p := fun v hv =>
    ⟨p[v]'(hf v hv), List.getElem?_eq_getElem _, List.getElem_mem _⟩
  obtain ⟨x, hx, mx⟩ := get f.a (Or.inl rfl)
  obtain ⟨y, hy, my⟩ := get f.b (Or.inr (Or.inl rfl))
  obtain ⟨z, hz, mz⟩ := get f.c (Or.inr (Or.inr rfl))
  have hmem : ∀ w ∈ B', ∀ w', w = some w' → w' ∈ p' := by
    intro w hw w' hw'
    have := hB.mem_iff.1 hw
    subst hw'
    simp only [corners, List.mem_cons, List.not_mem_nil, or_false] at this
    rcases this with h | h | h <;> exact List.mem_of_getElem? h.symm
  unfold corners at hF
  rw [hx, hy, hz] at hF
  obtain ⟨b1, B1, e1, hF1, rfl⟩ := List.forall₂_cons_left_iff.1 hF
  obtain ⟨b2, B2, e2, hF2, rfl⟩ := List.forall₂_cons_left_iff.1 hF1
  obtain ⟨b3, B3, e3, hF3, rfl⟩ := List.forall₂_cons_left_iff.1 hF2
  rw [List.forall₂_nil_left_iff] at hF3
  subst hF3
  have some_of : ∀ {b : Option (K × K)} {w : K × K}, Option.map key (some w) = Option.map key b →
      ∃ w', b = some w' ∧ key w = key w' := by
    intro b w hb
    cases b with
    | none => simp at hb
    | some w' => exact ⟨w', rfl, by simpa using hb⟩
  obtain ⟨x', rfl, kx⟩ := some_of e1
  obtain ⟨y', rfl, ky⟩ := some_of e2
  obtain ⟨z', rfl, kz⟩ := some_of e3
  refine ⟨x, y, z, x', y', z', ?_, hB.symm, ⟨mx, hmem _ (by simp) _ rfl, kx⟩, ⟨my, hmem _ (by simp) _ rfl, ky⟩,
    ⟨mz, hmem _ (by simp) _ rfl, kz⟩⟩
  unfold corners
  rw [hx, hy, hz]

theorem CornersMatch.imp {α : Type} {r s : α → α → Prop} (h : ∀ x y, r x y → s x y) {p p' : List α} {f g : Tri} :
    CornersMatch r p f p' g → CornersMatch s p f p' g := by
  rintro ⟨x, y, z, x', y', z', h1, h2, h3, h4, h5⟩
  exact ⟨x, y, z, x', y', z', h1, h2, h _ _ h3, h _ _ h4, h _ _ h5⟩

/-- The absolute area does not depend on the order of the corners. -/
theorem abs_signedArea_perm {x y z x' y' z' : K × K} (h : [x, y, z].Perm [x', y', z']) :
    |signedArea x y z| = |signedArea x' y' z'| := by
  have h' := List.mem_permutations'.2 h
  simp [List.permutations', List.permutations'Aux] at h'
  have key : ∀ a b : K, a = b ∨ a = -b → |a| = |b| := by
    rintro a b (h | h)
    · rw [h]
    · rw [h, abs_neg]
  apply key
  unfold signedArea
  rcases h' with ⟨rfl, rfl, rfl⟩ | ⟨rfl, rfl, rfl⟩ | ⟨rfl, rfl, rfl⟩ | ⟨rfl, rfl, rfl⟩ | ⟨rfl, rfl, rfl⟩ | ⟨rfl, rfl, rfl⟩
  all_goals first | (left; ring1) | (right; ring1)

theorem close_of_key {rnd : K → Int} (hr : IsRounding rnd) {p : List (K × K)} {e ptol : K} (he : IsExtent p e)
    (hpt : 0 < ptol) {q q' : K × K} (hq : q ∈ p) (hq' : q' ∈ p)
    (h : snapRow rnd (e * ptol) q = snapRow rnd (e * ptol) q') : Within (e * ptol) q q' := by
  rcases (extent_nonneg he).eq_or_lt with h0 | h0
  · subst h0
    rw [extent_zero he hq hq']
    simp [Within]
  · exact same_snap_close hr (mul_pos h0 hpt) h

theorem lattice_of_key {rnd : K → Int} {p : List (K × K)} {e ptol : K} (he : IsExtent p e)
    (hpt : 0 < ptol) {q q' : K × K} (hq : q ∈ p) (hq' : q' ∈ p)
    (h : snapRow rnd (e * ptol) q = snapRow rnd (e * ptol) q') :
    latticePoint rnd (e * ptol) q = latticePoint rnd (e * ptol) q' := by
  rcases (extent_nonneg he).eq_or_lt with h0 | h0
  · subst h0
    rw [extent_zero he hq hq']
  · exact ((snapRow_eq_iff (mul_pos h0 hpt)).1 h).1

end OM
