import Verif.Spec.Generator
import Mathlib.Tactic.FieldSimp
import Mathlib.Tactic.Linarith
import Mathlib.Tactic.Ring
import Mathlib.Data.Rat.Floor
/-!
# C72: points outside the domain are projected back
-/
set_option linter.unusedSectionVars false
namespace OM
open Spec

theorem maskRows_isSome {α : Type} {m : List Bool} {l : List α} (h : m.length = l.length) : ∃ r, maskRows m l = some r := by
  induction m generalizing l with
  | nil => cases l with
    | nil => exact ⟨[], rfl⟩
    | cons => simp at h
  | cons b m ih => cases l with
    | nil => simp at h
    | cons x l =>
      obtain ⟨r, hr⟩ := ih (by simpa using h)
      exact ⟨_, by rw [maskRows, hr, Option.map_some]⟩

theorem maskRows_cons {α : Type} {b : Bool} {m : List Bool} {x : α} {l r : List α} (h : maskRows (b :: m) (x :: l) = some r) :
    ∃ r', maskRows m l = some r' ∧ r = if b then x :: r' else r' := by
  rw [maskRows, Option.map_eq_some_iff] at h
  obtain ⟨r', h1, h2⟩ := h
  exact ⟨r', h1, h2.symm⟩

theorem maskRows_length {α : Type} {m : List Bool} {l r : List α} (h : maskRows m l = some r) : m.length = l.length := by
  induction m generalizing l r with
  | nil => cases l with
    | nil => rfl
    | cons => simp [maskRows] at h
  | cons b m ih => cases l with
    | nil => simp [maskRows] at h
    | cons x l =>
      obtain ⟨r', h1, -⟩ := maskRows_cons h
      simp [ih h1]

theorem mem_maskRows {α : Type} {m : List Bool} {l r : List α} (h : maskRows m l = some r) (q : α) :
    q ∈ r ↔ ∃ i : Nat, m[i]? = some true ∧ l[i]? = some q := by
  induction m generalizing l r with
  | nil => cases l with
    | nil => have : r = [] := by simpa [maskRows] using h.symm
             subst this; simp
    | cons => simp [maskRows] at h
  | cons b m ih => cases l with
    | nil => simp [maskRows] at h
    | cons x l =>
      obtain ⟨r', h1, rfl⟩ := maskRows_cons h
      have hi := ih h1
      constructor
      · intro hq
        cases b with
        | false =>
          obtain ⟨i, h2, h3⟩ := hi.1 (by simpa using hq)
          exact ⟨i + 1, by simpa using h2, by simpa using h3⟩
        | true =>
          rcases List.mem_cons.1 (by simpa using hq : q ∈ x :: r') with rfl | hq
          · exact ⟨0, by simp, by simp⟩
          · obtain ⟨i, h2, h3⟩ := hi.1 hq
            exact ⟨i + 1, by simpa using h2, by simpa using h3⟩
      · rintro ⟨i, h2, h3⟩
        cases i with
        | zero =>
          have h2 : b = true := by simpa using h2
          have h3 : x = q := by simpa using h3
          simp [h2, h3]
        | succ i =>
          have : q ∈ r' := hi.2 ⟨i, by simpa using h2, by simpa using h3⟩
          cases b <;> simp [this]

theorem maskRows_sublist {α : Type} {m : List Bool} {l r : List α} (h : maskRows m l = some r) : r.Sublist l := by
  induction m generalizing l r with
  | nil => cases l with
    | nil => have : r = [] := by simpa [maskRows] using h.symm
             subst this; simp
    | cons => simp [maskRows] at h
  | cons b m ih => cases l with
    | nil => simp [maskRows] at h
    | cons x l =>
      obtain ⟨r', h1, rfl⟩ := maskRows_cons h
      cases b with
      | false => exact (ih h1).cons x
      | true => exact (ih h1).cons₂ x

theorem maskRows_map {α β : Type} (P : α → Bool) (f : α → β) (l : List α) : maskRows (l.map P) (l.map f) = some ((l.filter P).map f) := by
  induction l with
  | nil => rfl
  | cons x l ih =>
    rw [List.map_cons, List.map_cons, maskRows, ih, Option.map_some]
    by_cases h : P x = true <;> simp [h]

theorem replaceRows_map {α : Type} (P : α → Bool) (f : α → α) (l : List α) :
    replaceRows (l.map P) l ((l.filter P).map f) = l.map fun x => if P x then f x else x := by
  induction l with
  | nil => rfl
  | cons x l ih =>
    by_cases h : P x = true
    · simp [h, replaceRows, ih]
    · simp [h, replaceRows, ih]

section
variable {K : Type} [Field K] [LinearOrder K]

/-- The finite differences of `f`. -/
def gradOf (f : K × K → K) (deps : K) (q : K × K) : K × K := ((f (q.1 + deps, q.2) - f q) / deps, (f (q.1, q.2 + deps) - f q) / deps)

theorem gradients_eq {fd : List (K × K) → Option (List K)} {f : K × K → K} (hf : Pointwise fd f) {deps : K} {q g : List (K × K)}
    (h : gradients fd deps q (q.map f) = some g) : g = q.map (gradOf f deps) := by
  simp only [gradients, Option.bind_eq_bind, Option.bind_eq_some_iff] at h
  obtain ⟨gx, h1, gy, h2, h3⟩ := h
  obtain rfl := hf _ _ h1
  obtain rfl := hf _ _ h2
  split at h3
  · have h3 := Option.some.inj h3
    rw [← h3]
    clear * -
    induction q with
    | nil => rfl
    | cons x l ih => simpa [gradOf] using ih
  · simp at h3

theorem project_eq {fd : List (K × K) → Option (List K)} {f : K × K → K} (hf : Pointwise fd f) {deps : K} {p p' : List (K × K)}
    (h : projectPointsBack fd deps p = some p') :
    p' = p.map fun q => if 0 < f q then projectPoint deps q (f q) (gradOf f deps q) else q := by
  simp only [projectPointsBack, Option.bind_eq_bind, Option.bind_eq_some_iff] at h
  obtain ⟨d, h1, h2⟩ := h
  obtain rfl := hf _ _ h1
  split at h2
  · simp only [Option.bind_eq_some_iff, List.map_map, Function.comp_def] at h2
    obtain ⟨q, h3, dq, h4, g, h5, h6⟩ := h2
    have e3 := maskRows_map (fun x => decide (0 < f x)) id p
    rw [List.map_id, List.map_id, h3] at e3
    obtain rfl := Option.some.inj e3
    rw [maskRows_map (fun x => decide (0 < f x)) f p] at h4
    obtain rfl := Option.some.inj h4
    have hg : g = (p.filter fun x => decide (0 < f x)).map (gradOf f deps) := by
      cases hc : gradients fd deps (p.filter fun x => decide (0 < f x)) ((p.filter fun x => decide (0 < f x)).map f) with
      | some g' =>
        rw [outsideGradients, hc] at h5
        obtain rfl := Option.some.inj h5
        exact gradients_eq hf hc
      | none =>
        rw [outsideGradients, hc] at h5
        obtain ⟨g', h7, h8⟩ := Option.bind_eq_some_iff.1 h5
        obtain rfl := gradients_eq hf h7
        rw [maskRows_map (fun x => decide (0 < f x)) (gradOf f deps) p] at h8
        exact (Option.some.inj h8).symm
    subst hg
    have h6 := Option.some.inj h6
    rw [← h6]
    have : List.zipWith (fun (x : (K × K) × K) g => projectPoint deps x.1 x.2 g)
        ((p.filter fun x => decide (0 < f x)).zip ((p.filter fun x => decide (0 < f x)).map f))
        ((p.filter fun x => decide (0 < f x)).map (gradOf f deps)) =
        (p.filter fun x => decide (0 < f x)).map fun q => projectPoint deps q (f q) (gradOf f deps q) := by
      generalize (p.filter fun x => decide (0 < f x)) = l
      clear * -
      induction l with
      | nil => rfl
      | cons x l ih => simpa using ih
    rw [this, replaceRows_map (fun x => decide (0 < f x))]
    simp only [decide_eq_true_eq]
  · rename_i hn
    have hn : ∀ q ∈ p, ¬ 0 < f q := by simpa using hn
    have h2 : p = p' := Option.some.inj h2
    rw [← h2]
    conv_lhs => rw [← List.map_id p]
    exact List.map_congr_left fun q hq => by simp [hn q hq]

/-- **C72**: for a distance function that works point by point (it may raise), a returned projection has the same number of points. Points that
are not outside stay. A point outside at which the function is affine with gradient `n` (at the point and the two points for the differences) and
`n` is not too small is moved along `-n` by the distance over the length of `n`, onto the zero line of the affine function. -/
theorem C72_projection [IsStrictOrderedRing K] {fd : List (K × K) → Option (List K)} {f : K × K → K} (hf : Pointwise fd f) {deps : K} (hd : 0 < deps)
    {p p' : List (K × K)} (h : projectPointsBack fd deps p = some p') :
    p'.length = p.length ∧ ∀ (i : Nat) (q q' : K × K), p[i]? = some q → p'[i]? = some q' →
      (f q ≤ 0 → q' = q) ∧
      (0 < f q → ∀ (n : K × K) (c : K), AffineAt f n c q → AffineAt f n c (q.1 + deps, q.2) → AffineAt f n c (q.1, q.2 + deps) →
        deps ≤ n.1 ^ 2 + n.2 ^ 2 →
        q' = (q.1 - f q / (n.1 ^ 2 + n.2 ^ 2) * n.1, q.2 - f q / (n.1 ^ 2 + n.2 ^ 2) * n.2) ∧ n.1 * q'.1 + n.2 * q'.2 + c = 0 ∧
        (AffineAt f n c q' → f q' = 0)) := by
  obtain rfl := project_eq hf h
  refine ⟨by simp, ?_⟩
  intro i q q' hq hq'
  rw [List.getElem?_map, hq, Option.map_some, Option.some.injEq] at hq'
  subst hq'
  refine ⟨fun h0 => if_neg (not_lt.2 h0), fun h0 n c a0 a1 a2 hn => ?_⟩
  rw [if_pos h0]
  have hpos : 0 < n.1 ^ 2 + n.2 ^ 2 := lt_of_lt_of_le hd hn
  have g1 : (gradOf f deps q).1 = n.1 := by
    simp only [gradOf]
    rw [a0, a1]
    field_simp
    ring
  have g2 : (gradOf f deps q).2 = n.2 := by
    simp only [gradOf]
    rw [a0, a2]
    field_simp
    ring
  have e : projectPoint deps q (f q) (gradOf f deps q) = (q.1 - f q / (n.1 ^ 2 + n.2 ^ 2) * n.1, q.2 - f q / (n.1 ^ 2 + n.2 ^ 2) * n.2) := by
    simp only [projectPoint, g1, g2]
    rw [if_neg (not_lt.2 hn)]
    refine Prod.ext ?_ ?_ <;> dsimp only <;> ring
  rw [e]
  have key : n.1 * (q.1 - f q / (n.1 ^ 2 + n.2 ^ 2) * n.1) + n.2 * (q.2 - f q / (n.1 ^ 2 + n.2 ^ 2) * n.2) + c = 0 := by
    have h1 : f q = n.1 * q.1 + n.2 * q.2 + c := a0
    have h2 : n.1 * (q.1 - f q / (n.1 ^ 2 + n.2 ^ 2) * n.1) + n.2 * (q.2 - f q / (n.1 ^ 2 + n.2 ^ 2) * n.2) + c =
        (n.1 * q.1 + n.2 * q.2 + c) - f q / (n.1 ^ 2 + n.2 ^ 2) * (n.1 ^ 2 + n.2 ^ 2) := by ring
    rw [h2, div_mul_cancel₀ _ hpos.ne', ← h1, sub_self]
  exact ⟨rfl, key, fun a => a.trans key⟩

/-- **C72** (no exception): the projection returns if the distances of all points and of all shifted points can be computed, even if the call for the
outside points alone raises. -/
theorem C72_returns {fd : List (K × K) → Option (List K)} {f : K × K → K} (hf : Pointwise fd f) {deps : K} {p : List (K × K)}
    (h0 : fd p ≠ none) (h1 : fd (p.map fun x => (x.1 + deps, x.2)) ≠ none) (h2 : fd (p.map fun x => (x.1, x.2 + deps)) ≠ none) :
    ∃ p', projectPointsBack fd deps p = some p' := by
  obtain ⟨d, hd⟩ := Option.ne_none_iff_exists'.1 h0
  obtain ⟨gx, hgx⟩ := Option.ne_none_iff_exists'.1 h1
  obtain ⟨gy, hgy⟩ := Option.ne_none_iff_exists'.1 h2
  obtain rfl := hf _ _ hd
  obtain rfl := hf _ _ hgx
  obtain rfl := hf _ _ hgy
  have hall : ∃ g, gradients fd deps p (p.map f) = some g ∧ g.length = p.length := by
    refine ⟨_, by simp only [gradients, Option.bind_eq_bind, hgx, hgy, Option.bind_some]; rw [if_pos (by simp)]; rfl, by simp⟩
  obtain ⟨g, hg, hgl⟩ := hall
  simp only [projectPointsBack, hd, Option.bind_eq_bind, Option.bind_some]
  split
  · obtain ⟨q, hq⟩ := maskRows_isSome (m := (p.map f).map fun x => decide (0 < x)) (l := p) (by simp)
    obtain ⟨dq, hdq⟩ := maskRows_isSome (m := (p.map f).map fun x => decide (0 < x)) (l := p.map f) (by simp)
    obtain ⟨gq, hgq⟩ := maskRows_isSome (m := (p.map f).map fun x => decide (0 < x)) (l := g) (by simp [hgl])
    rw [hq, hdq]
    simp only [Option.bind_some, outsideGradients]
    cases gradients fd deps q dq with
    | some g' => exact ⟨_, rfl⟩
    | none =>
      simp only [hg, Option.bind_some, hgq]
      exact ⟨_, rfl⟩
  · exact ⟨_, rfl⟩

end

/-- The half plane `x ≤ 0`. -/
def halfPlane (q : ℚ × ℚ) : ℚ := q.1

example : projectPointsBack (fun l => some (l.map halfPlane)) (1 / 100) [(2, 3), (-1, 5)] = some [(0, 3), (-1, 5)] := by decide +kernel

example :=
  ((C72_projection (f := halfPlane) (fd := fun l => some (l.map halfPlane)) (deps := 1 / 100) (p := [(2, 3), (-1, 5)]) (p' := [(0, 3), (-1, 5)])
    (fun l r h => (Option.some.inj h).symm) (by norm_num) (by decide +kernel)).2 0 (2, 3) (0, 3) rfl rfl).2 (by norm_num [halfPlane]) (1, 0) 0
    (by norm_num [AffineAt, halfPlane]) (by norm_num [AffineAt, halfPlane]) (by norm_num [AffineAt, halfPlane]) (by norm_num)

/-- A distance function that raises if no point is in the box `[-4, 4]²` (as the signed distance functions of geodata do). -/
def raisingFd (l : List (ℚ × ℚ)) : Option (List ℚ) := if l.any fun q => decide (q.1 ≤ 4 ∧ q.1 ≥ -4) then some (l.map halfPlane) else none

example : ∃ p', projectPointsBack raisingFd (1 / 100) [(5, 3), (-1, 5)] = some p' :=
  C72_returns (f := halfPlane) (by intro l r h; unfold raisingFd at h; split at h <;> simp_all) (by decide +kernel) (by decide +kernel) (by decide +kernel)

example : projectPointsBack raisingFd (1 / 100) [(5, 3), (-1, 5)] = some [(0, 3), (-1, 5)] := by decide +kernel

/-- **C72** (limit): for a function with a gradient below the floor the moved point stays outside. -/
theorem C72_flat_gradient : ∃ (fd : List (ℚ × ℚ) → Option (List ℚ)) (f : ℚ × ℚ → ℚ) (q q' : ℚ × ℚ), Pointwise fd f ∧ (∃ n, ∀ x, AffineAt f n 0 x) ∧
    projectPointsBack fd (1 / 100) [q] = some [q'] ∧ 0 < f q' :=
  ⟨fun l => some (l.map fun q => q.1 / 100), fun q => q.1 / 100, (1, 0), (99 / 100, 0), fun l r h => (Option.some.inj h).symm,
    ⟨(1 / 100, 0), fun x => by simp only [AffineAt]; ring⟩, by decide +kernel, by norm_num⟩

end OM
