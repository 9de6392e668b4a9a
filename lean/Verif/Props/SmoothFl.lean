import Verif.Model.SmoothFl
import Verif.Spec.SmoothFl
import Verif.Props.Smooth
import Verif.Props.InpolyFl
/-!
# Property C119 (`laplacian2` in rounded arithmetic)
-/
set_option linter.unusedSectionVars false
namespace OM
open Spec

section
variable {K : Type} [Field K] [LinearOrder K] [IsStrictOrderedRing K]

/-! ## sums -/

/-- The numbers added one after the other, each sum rounded. -/
def sumFl (rnd : K → K) (acc : K) (xs : List K) : K := xs.foldl (fun a x => rnd (a + x)) acc

theorem sumFl_err {rnd : K → K} {u : K} (hr : RelError rnd u) (hu : 0 ≤ u) : ∀ (xs : List K) (acc S T c : K), 1 ≤ c →
    |acc - S| ≤ (c - 1) * T → |S| ≤ T → |sumFl rnd acc xs - (S + xs.sum)| ≤
      (c * (1 + u) ^ xs.length - 1) * (T + (xs.map fun y => |y|).sum)
  | [], acc, S, T, c, _, h, _ => by simpa [sumFl] using h
  | x :: xs, acc, S, T, c, hc, h, hS => by
    have hT : 0 ≤ T := (abs_nonneg S).trans hS
    have e1 := hr (acc + x)
    have a1 : |acc| ≤ c * T := by
      have := abs_sub_abs_le_abs_sub acc S
      linarith
    have a2 : |acc + x| ≤ c * T + |x| := (abs_add_le acc x).trans (by linarith)
    have h1 : |rnd (acc + x) - (S + x)| ≤ (c * (1 + u) - 1) * (T + |x|) := by
      have t : rnd (acc + x) - (S + x) = (rnd (acc + x) - (acc + x)) + (acc - S) := by ring
      rw [t]
      refine (abs_add_le _ _).trans ?_
      have b1 := mul_le_mul_of_nonneg_left a2 hu
      have b2 : 0 ≤ (c - 1) * (1 + u) * |x| := mul_nonneg (mul_nonneg (by linarith) (by linarith)) (abs_nonneg x)
      nlinarith
    have h2 : |S + x| ≤ T + |x| := (abs_add_le S x).trans (by linarith)
    have hc' : 1 ≤ c * (1 + u) := by nlinarith
    have ih := sumFl_err hr hu xs (rnd (acc + x)) (S + x) (T + |x|) (c * (1 + u)) hc' h1 h2
    simp only [List.sum_cons, List.length_cons, List.map_cons]
    rw [pow_succ', ← add_assoc, ← add_assoc, ← mul_assoc]
    exact ih

theorem abs_sum_le : ∀ xs : List K, |xs.sum| ≤ (xs.map fun y => |y|).sum
  | [] => by simp
  | x :: xs => by
    simp only [List.sum_cons, List.map_cons]
    exact (abs_add_le _ _).trans (by have := abs_sum_le xs; linarith)

/-- The rounded mean. -/
theorem meanFl_near {rnd : K → K} {u : K} (hr : RelError rnd u) (hu : 0 ≤ u) {xs : List K} (hne : xs ≠ []) :
    NearMean u xs (rnd (sumFl rnd 0 xs / (xs.length : K))) := by
  have hn : (0 : K) < (xs.length : K) := Nat.cast_pos.2 (List.length_pos_iff.2 hne)
  have h1 := sumFl_err hr hu xs 0 0 0 1 le_rfl (by simp) (by simp)
  rw [zero_add, zero_add, one_mul] at h1
  set s := sumFl rnd 0 xs
  set T := (xs.map fun y => |y|).sum with hT
  have h2 := hr (s / (xs.length : K))
  rw [abs_div, abs_of_pos hn] at h2
  have h3 : |s| ≤ (1 + u) ^ xs.length * T := by
    have a := abs_sub_abs_le_abs_sub s xs.sum
    have b := abs_sum_le xs
    rw [← hT] at b
    linarith
  unfold NearMean
  rw [← hT]
  have t : rnd (s / (xs.length : K)) * (xs.length : K) - xs.sum =
      (rnd (s / (xs.length : K)) - s / (xs.length : K)) * (xs.length : K) + (s - xs.sum) := by
    field_simp
    ring
  rw [t]
  refine (abs_add_le _ _).trans ?_
  rw [abs_mul, abs_of_pos hn]
  have h4 : |rnd (s / (xs.length : K)) - s / (xs.length : K)| * (xs.length : K) ≤ u * |s| := by
    calc _ ≤ u * (|s| / (xs.length : K)) * (xs.length : K) := mul_le_mul_of_nonneg_right h2 hn.le
      _ = u * |s| := by field_simp
  have h5 := mul_le_mul_of_nonneg_left h3 hu
  rw [pow_succ]
  nlinarith

theorem nearMean_bounds {u : K} (hu : 0 ≤ u) {xs : List K} {x lo hi M : K} {N : Nat} (hne : xs ≠ []) (hN : xs.length ≤ N)
    (h : NearMean u xs x) (hb : ∀ y ∈ xs, lo ≤ y ∧ y ≤ hi ∧ |y| ≤ M) :
    lo - ((1 + u) ^ (N + 1) - 1) * M ≤ x ∧ x ≤ hi + ((1 + u) ^ (N + 1) - 1) * M ∧ |x| ≤ (1 + u) ^ (N + 1) * M := by
  have hn : (0 : K) < (xs.length : K) := Nat.cast_pos.2 (List.length_pos_iff.2 hne)
  have sums : ∀ ys : List K, (∀ y ∈ ys, lo ≤ y ∧ y ≤ hi ∧ |y| ≤ M) → lo * (ys.length : K) ≤ ys.sum ∧ ys.sum ≤ hi * (ys.length : K) ∧
      (ys.map fun y => |y|).sum ≤ M * (ys.length : K) := by
    intro ys
    induction ys with
    | nil => simp
    | cons y ys ih =>
      intro hy
      obtain ⟨i1, i2, i3⟩ := ih fun z hz => hy z (List.mem_cons_of_mem _ hz)
      obtain ⟨j1, j2, j3⟩ := hy y (List.mem_cons_self ..)
      simp only [List.sum_cons, List.length_cons, List.map_cons, Nat.cast_add, Nat.cast_one]
      refine ⟨?_, ?_, ?_⟩ <;> linarith
  obtain ⟨s1, s2, s3⟩ := sums xs hb
  have hM : 0 ≤ M := by
    obtain ⟨y, hy⟩ := List.exists_mem_of_ne_nil xs hne
    exact (abs_nonneg y).trans (hb y hy).2.2
  have hg : (1 + u) ^ (xs.length + 1) ≤ (1 + u) ^ (N + 1) := pow_le_pow_right₀ (by linarith) (by omega)
  have hg1 : 1 ≤ (1 + u) ^ (xs.length + 1) := one_le_pow₀ (by linarith)
  set g := (1 + u) ^ (xs.length + 1)
  set G := (1 + u) ^ (N + 1)
  have h1 : |x * (xs.length : K) - xs.sum| ≤ (G - 1) * M * (xs.length : K) := by
    refine h.trans ?_
    calc (g - 1) * (xs.map fun y => |y|).sum ≤ (g - 1) * (M * (xs.length : K)) := mul_le_mul_of_nonneg_left s3 (by linarith)
      _ ≤ (G - 1) * (M * (xs.length : K)) := mul_le_mul_of_nonneg_right (by linarith) (mul_nonneg hM hn.le)
      _ = _ := by ring
  obtain ⟨h2, h3⟩ := abs_le.1 h1
  have hs := abs_le.1 ((abs_sum_le xs).trans s3)
  refine ⟨?_, ?_, ?_⟩
  · rw [← mul_le_mul_iff_left₀ hn]; linarith
  · rw [← mul_le_mul_iff_left₀ hn]; linarith
  · rw [abs_le]
    constructor
    · rw [← mul_le_mul_iff_left₀ hn]; linarith [hs.1]
    · rw [← mul_le_mul_iff_left₀ hn]; linarith [hs.2]

/-! ## one step -/

theorem rowSumFl_spec {rnd : K → K} {p : List (K × K)} {v : Nat} : ∀ {es : List (Nat × Nat)} {acc s : K × K},
    rowSumFl rnd p v acc es = some s → ∃ qs, List.Forall₂ (fun w x => p[w]? = some x) (rowCols es v) qs ∧
      s.1 = sumFl rnd acc.1 (qs.map Prod.fst) ∧ s.2 = sumFl rnd acc.2 (qs.map Prod.snd)
  | [], acc, s, h => by
    cases h
    exact ⟨[], .nil, rfl, rfl⟩
  | (i, j) :: es, acc, s, h => by
    rw [rowSumFl] at h
    by_cases hi : i = v
    · rw [if_pos hi] at h
      split at h
      · rename_i q hq
        obtain ⟨qs, h1, h2, h3⟩ := rowSumFl_spec h
        refine ⟨q :: qs, ?_, h2, h3⟩
        rw [rowCols, List.filter_cons_of_pos (by simpa using hi)]
        exact .cons hq h1
      · cases h
    · rw [if_neg hi] at h
      obtain ⟨qs, h1, h2, h3⟩ := rowSumFl_spec h
      refine ⟨qs, ?_, h2, h3⟩
      rw [rowCols, List.filter_cons_of_neg (by simpa using hi)]
      exact h1

theorem smoothRowsFl_length {rnd : K → K} {es : List (Nat × Nat)} {bnd : List Nat} {p : List (K × K)} :
    ∀ {l r : List (K × K)} {v : Nat}, smoothRowsFl rnd es bnd p v l = some r → r.length = l.length
  | [], r, v, h => by cases h; rfl
  | q :: l, r, v, h => by
    rw [smoothRowsFl] at h
    split at h
    · rename_i s r' hs hr
      cases h
      simp [smoothRowsFl_length hr]
    · cases h

theorem smoothRowsFl_spec {rnd : K → K} {es : List (Nat × Nat)} {bnd : List Nat} {p : List (K × K)} :
    ∀ {l r : List (K × K)} {v : Nat}, smoothRowsFl rnd es bnd p v l = some r → ∀ (k : Nat) (q q' : K × K), l[k]? = some q →
      r[k]? = some q' → (v + k ∈ bnd → q' = q) ∧ (v + k ∉ bnd → ∃ s, rowSumFl rnd p (v + k) (0, 0) es = some s ∧
        q' = (rnd (s.1 / (rowWeight es (v + k) : K)), rnd (s.2 / (rowWeight es (v + k) : K))))
  | [], r, v, h, k, q, q', hk, _ => by simp at hk
  | x :: l, r, v, h, k, q, q', hk, hk' => by
    rw [smoothRowsFl] at h
    split at h
    · rename_i s r' hs hr
      cases h
      cases k with
      | zero =>
        simp only [List.getElem?_cons_zero, Option.some.injEq] at hk hk'
        subst hk
        rw [Nat.add_zero]
        constructor
        · intro hb
          rw [if_pos (by simpa using hb)] at hk'
          exact hk'.symm
        · intro hb
          rw [if_neg (by simpa using hb)] at hk'
          exact ⟨s, hs, hk'.symm⟩
      | succ k =>
        rw [List.getElem?_cons_succ] at hk hk'
        have := smoothRowsFl_spec hr k q q' hk hk'
        rw [show v + 1 + k = v + (k + 1) by omega] at this
        exact this
    · cases h

theorem smoothStepFl_spec {rnd : K → K} {u : K} (hr : RelError rnd u) (hu : 0 ≤ u) {t : List Tri} {bnd : List Nat}
    {p p' : List (K × K)} (hw : ∀ v < p.length, rowWeight (smoothEntries t) v ≠ 0)
    (h : smoothRowsFl rnd (smoothEntries t) bnd p 0 p = some p') : MovesNearMean u (mates t) (· ∈ bnd) p p' := by
  refine ⟨smoothRowsFl_length h, fun v q q' hq hq' => ?_⟩
  obtain ⟨h1, h2⟩ := smoothRowsFl_spec h v q q' hq hq'
  rw [Nat.zero_add] at h1 h2
  refine ⟨h1, fun hb => ?_⟩
  obtain ⟨s, hs, e⟩ := h2 hb
  obtain ⟨qs, g1, g2, g3⟩ := rowSumFl_spec hs
  have hlen := g1.length_eq
  have hne : qs ≠ [] := by
    intro h0
    apply hw v (List.getElem?_eq_some_iff.1 hq).1
    rw [rowWeight_eq, hlen, h0]; rfl
  rw [rowWeight_eq, hlen] at e
  rw [rowCols_mates] at g1
  refine ⟨qs, g1, hne, ?_, ?_⟩
  · have := meanFl_near hr hu (xs := qs.map Prod.fst) (by simpa using hne)
    rw [e]
    dsimp only
    rw [g2]
    simpa using this
  · have := meanFl_near hr hu (xs := qs.map Prod.snd) (by simpa using hne)
    rw [e]
    dsimp only
    rw [g3]
    simpa using this

/-! ## stop test and loop -/

theorem edgeChangesFl_spec {rnd : K → K} {len : K × K → K × K → K} {p p' : List (K × K)} :
    ∀ {es : List (Nat × Nat)} {r : List K}, edgeChangesFl rnd len p p' es = some r →
      ∀ d, d ∈ r ↔ ∃ e ∈ es, ∃ x y x' y', p[e.1]? = some x ∧ p[e.2]? = some y ∧ p'[e.1]? = some x' ∧
        p'[e.2]? = some y' ∧ d = rnd (rnd (len x' y' - len x y) / len x' y')
  | [], r, h, d => by cases h; simp
  | (i, j) :: es, r, h, d => by
    rw [edgeChangesFl] at h
    split at h
    · rename_i x y x' y' r' h1 h2 h3 h4 h5
      cases h
      rw [List.mem_cons, edgeChangesFl_spec h5 d]
      constructor
      · rintro (rfl | ⟨e, he, hh⟩)
        · exact ⟨(i, j), List.mem_cons_self .., x, y, x', y', h1, h2, h3, h4, rfl⟩
        · exact ⟨e, List.mem_cons_of_mem _ he, hh⟩
      · rintro ⟨e, he, a, b, a', b', g1, g2, g3, g4, rfl⟩
        rcases List.mem_cons.1 he with rfl | he
        · left
          dsimp only at g1 g2 g3 g4
          rw [h1] at g1; rw [h2] at g2; rw [h3] at g3; rw [h4] at g4
          cases g1; cases g2; cases g3; cases g4; rfl
        · exact Or.inr ⟨e, he, a, b, a', b', g1, g2, g3, g4, rfl⟩
    · cases h

theorem settledRounded_iff {rnd : K → K} {len : K × K → K × K → K} {tol : K} {t : List Tri} {p p' : List (K × K)} {r : List K}
    {x : K} (h : edgeChangesFl rnd len p p' (getEdges t) = some r) (hm : maxElement r = some x) :
    x < tol ↔ SettledRounded rnd len tol t p p' := by
  rw [maxElement_lt hm]
  constructor
  · intro hall f hf e he a b a' b' h1 h2 h3 h4
    exact hall _ ((edgeChangesFl_spec h _).2 ⟨e, mem_getEdges_iff.2 ⟨f, hf, he⟩, a, b, a', b', h1, h2, h3, h4, rfl⟩)
  · intro hs d hd
    obtain ⟨e, he, a, b, a', b', h1, h2, h3, h4, rfl⟩ := (edgeChangesFl_spec h d).1 hd
    obtain ⟨f, hf, he⟩ := mem_getEdges_iff.1 he
    exact hs f hf e he a b a' b' h1 h2 h3 h4

theorem smoothLoopFl_spec {rnd : K → K} {u : K} (hr : RelError rnd u) (hu : 0 ≤ u) {len : K × K → K × K → K} {tol : K} {t : List Tri}
    {bnd : List Nat} : ∀ {n : Nat} {p p' : List (K × K)},
    (∀ v < p.length, rowWeight (smoothEntries t) v ≠ 0) →
    smoothLoopFl rnd len tol (smoothEntries t) (getEdges t) bnd n p = some p' →
    (n = 0 ∧ p' = p) ∨ ∃ j p1, j < n ∧
      Steps (fun x y => MovesNearMean u (mates t) (· ∈ bnd) x y ∧ ¬ SettledRounded rnd len tol t x y) j p p1 ∧
      MovesNearMean u (mates t) (· ∈ bnd) p1 p' ∧
      (SettledRounded rnd len tol t p1 p' ∨ (¬ SettledRounded rnd len tol t p1 p' ∧ j + 1 = n))
  | 0, p, p', _, h => by cases h; exact Or.inl ⟨rfl, rfl⟩
  | n + 1, p, p', hw, h => by
    right
    rw [smoothLoopFl] at h
    split at h
    · cases h
    · rename_i p1 hp1
      have hstep := smoothStepFl_spec hr hu hw hp1
      split at h
      · cases h
      · rename_i move hmove
        rw [Option.bind_eq_some_iff] at hmove
        obtain ⟨r, hr', hm⟩ := hmove
        have hset := settledRounded_iff (tol := tol) hr' hm
        by_cases hlt : move < tol
        · rw [if_pos hlt] at h
          cases h
          exact ⟨0, p, by omega, .zero _, hstep, Or.inl (hset.1 hlt)⟩
        · rw [if_neg hlt] at h
          have hns := fun hs => hlt (hset.2 hs)
          rcases smoothLoopFl_spec hr hu (by rw [hstep.1]; exact hw) h with ⟨rfl, rfl⟩ | ⟨j, p2, hj, hc, hs, hend⟩
          · exact ⟨0, p, by omega, .zero _, hstep, Or.inr ⟨hns, rfl⟩⟩
          · refine ⟨j + 1, p2, by omega, .succ ⟨hstep, hns⟩ hc, hs, ?_⟩
            rcases hend with h1 | ⟨h1, h2⟩
            · exact Or.inl h1
            · exact Or.inr ⟨h1, by omega⟩

/-- **C119** (1) A run of `laplacian2` in rounded arithmetic, for every mesh, every list of fixed vertices and every rounding of relative
error `u`: the triangles are the same; either some vertex is unused and nothing changes, or there are at most `max_iter` steps, in each of
which the ends of sides that occur once (the boundary vertices) and the fixed vertices stay exactly where they are and every other vertex
moves to the mean of its neighbours up to one rounding more than it has neighbours; the run ends with the first step after which no edge has
grown by the fraction `tol`, as far as the rounded numbers tell, or after `max_iter` steps. -/
theorem C119_steps {rnd : K → K} {u : K} (hr : RelError rnd u) (hu : 0 ≤ u) {len : K × K → K × K → K} {oE : RowOrder (Nat × Nat)}
    {maxIter : Nat} {tol : K} {ifix : List Nat} {m m' : Mesh K} (h : laplacian2Fl rnd len oE maxIter tol ifix m = some m') :
    m'.t = m.t ∧ (((∃ v < m.p.length, ∀ f ∈ m.t, ¬ HasVertex f v) ∧ m' = m) ∨
      ((∀ v < m.p.length, ∃ f ∈ m.t, HasVertex f v) ∧
        ((maxIter = 0 ∧ m'.p = m.p) ∨ ∃ j p1, j < maxIter ∧
          Steps (fun x y => MovesNearMean u (mates m.t) (fun v => (∃ w, sideCount m.t v w = 1) ∨ v ∈ ifix) x y ∧
            ¬ SettledRounded rnd len tol m.t x y) j m.p p1 ∧
          MovesNearMean u (mates m.t) (fun v => (∃ w, sideCount m.t v w = 1) ∨ v ∈ ifix) p1 m'.p ∧
          (SettledRounded rnd len tol m.t p1 m'.p ∨ (¬ SettledRounded rnd len tol m.t p1 m'.p ∧ j + 1 = maxIter))))) := by
  have hwt : ∀ v, rowWeight (smoothEntries m.t) v = 0 ↔ ∀ f ∈ m.t, ¬ HasVertex f v := by
    intro v
    rw [rowWeight_eq, rowCols_mates, List.length_eq_zero_iff, mates_eq_nil]
  unfold laplacian2Fl at h
  dsimp only at h
  split at h
  · split at h
    · rename_i be bv hex
      have hbe : be = getBoundaryEdges oE m.t := by
        simp only [externalTopology] at hex
        cases hg : gather m.p (unique natOrder (flatPairs (getBoundaryEdges oE m.t))) with
        | none => rw [hg] at hex; cases hex
        | some x => rw [hg] at hex; cases hex; rfl
      by_cases hz : (List.range m.p.length).any (fun v => rowWeight (smoothEntries m.t) v == 0) = true
      · rw [if_pos hz] at h
        cases h
        refine ⟨rfl, Or.inl ⟨?_, rfl⟩⟩
        rw [List.any_eq_true] at hz
        obtain ⟨v, hv, hv0⟩ := hz
        exact ⟨v, List.mem_range.1 hv, (hwt v).1 (by simpa using hv0)⟩
      · rw [if_neg hz] at h
        have hw : ∀ v < m.p.length, rowWeight (smoothEntries m.t) v ≠ 0 := by
          intro v hv h0
          exact hz (List.any_eq_true.2 ⟨v, List.mem_range.2 hv, by simpa using h0⟩)
        rw [Option.map_eq_some_iff] at h
        obtain ⟨p', hp', rfl⟩ := h
        refine ⟨rfl, Or.inr ⟨?_, ?_⟩⟩
        · intro v hv
          by_contra hno
          push Not at hno
          exact hw v hv ((hwt v).2 hno)
        · have := smoothLoopFl_spec hr hu hw hp'
          have hmem : (fun v => v ∈ unique natOrder (flatPairs be) ++ ifix) =
              fun v => (∃ w, sideCount m.t v w = 1) ∨ v ∈ ifix := by
            funext v
            rw [List.mem_append, mem_unique, hbe, mem_flat_boundary_all oE]
          rw [hmem] at this
          exact this
    · cases h
  · cases h

/-! ## consequences -/

theorem movesNearMean_fixed {u : K} {nb : Nat → List Nat} {fixed : Nat → Prop} {v : Nat} (hv : fixed v) {x y : List (K × K)}
    (h : MovesNearMean u nb fixed x y) : y[v]? = x[v]? := by
  by_cases hl : v < x.length
  · have hl' : v < y.length := by rw [h.1]; exact hl
    rw [List.getElem?_eq_getElem hl, List.getElem?_eq_getElem hl']
    rw [(h.2 v _ _ (List.getElem?_eq_getElem hl) (List.getElem?_eq_getElem hl')).1 hv]
  · have hl' : ¬ v < y.length := by rw [h.1]; exact hl
    rw [List.getElem?_eq_none (not_lt.1 hl), List.getElem?_eq_none (not_lt.1 hl')]

/-- **C119** (2) Boundary vertices and fixed vertices do not move at all, and the triangles and the number of vertices stay. -/
theorem C119_fixed {rnd : K → K} {u : K} (hr : RelError rnd u) (hu : 0 ≤ u) {len : K × K → K × K → K} {oE : RowOrder (Nat × Nat)}
    {maxIter : Nat} {tol : K} {ifix : List Nat} {m m' : Mesh K} (h : laplacian2Fl rnd len oE maxIter tol ifix m = some m') :
    m'.t = m.t ∧ m'.p.length = m.p.length ∧ (∀ v, (∃ w, sideCount m.t v w = 1) ∨ v ∈ ifix → m'.p[v]? = m.p[v]?) ∧
      ((∀ f ∈ m.t, Nondegenerate f) → ∀ v, 0 < boundaryDegree m.t v → m'.p[v]? = m.p[v]?) := by
  obtain ⟨h1, h3⟩ := C119_steps hr hu h
  have key : m'.p.length = m.p.length ∧ ∀ v, ((∃ w, sideCount m.t v w = 1) ∨ v ∈ ifix) → m'.p[v]? = m.p[v]? := by
    rcases h3 with ⟨-, rfl⟩ | ⟨-, ⟨-, e⟩ | ⟨j, p1, -, g1, g2, -⟩⟩
    · exact ⟨rfl, fun _ _ => rfl⟩
    · rw [e]; exact ⟨rfl, fun _ _ => rfl⟩
    · have hl : p1.length = m.p.length ∧ ∀ v, ((∃ w, sideCount m.t v w = 1) ∨ v ∈ ifix) → p1[v]? = m.p[v]? := by
        clear g2
        generalize m.p = p at g1
        induction g1 with
        | zero => exact ⟨rfl, fun _ _ => rfl⟩
        | succ hh _ ih => exact ⟨ih.1.trans hh.1.1, fun v hv => (ih.2 v hv).trans (movesNearMean_fixed (fixed := fun v => (∃ w, sideCount m.t v w = 1) ∨ v ∈ ifix) hv hh.1)⟩
      exact ⟨g2.1.trans hl.1, fun v hv =>
        (movesNearMean_fixed (fixed := fun v => (∃ w, sideCount m.t v w = 1) ∨ v ∈ ifix) hv g2).trans (hl.2 v hv)⟩
  refine ⟨h1, key.1, key.2, fun ht v hv => key.2 v (Or.inl ?_)⟩
  rw [← mem_flat_boundary_all oE, mem_flat_boundary oE ht]
  exact hv

theorem movesNearMean_box {u : K} (hu : 0 ≤ u) {t : List Tri} {fixed : Nat → Prop} {x y : List (K × K)}
    (h : MovesNearMean u (mates t) fixed x y) {N : Nat} (hN : ∀ v, (mates t v).length ≤ N) {pr : K × K → K}
    (hpr : pr = Prod.fst ∨ pr = Prod.snd) {lo hi M : K} (hb : ∀ q ∈ x, lo ≤ pr q ∧ pr q ≤ hi ∧ |pr q| ≤ M) :
    ∀ q ∈ y, lo - ((1 + u) ^ (N + 1) - 1) * M ≤ pr q ∧ pr q ≤ hi + ((1 + u) ^ (N + 1) - 1) * M ∧
      |pr q| ≤ (1 + u) ^ (N + 1) * M := by
  intro q' hq'
  obtain ⟨v, hv⟩ := List.mem_iff_getElem?.1 hq'
  have hvl : v < x.length := by
    have := (List.getElem?_eq_some_iff.1 hv).1
    rwa [h.1] at this
  have hg : 1 ≤ (1 + u) ^ (N + 1) := one_le_pow₀ (by linarith)
  obtain ⟨h1, h2⟩ := h.2 v _ q' (List.getElem?_eq_getElem hvl) hv
  by_cases hf : fixed v
  · rw [h1 hf]
    obtain ⟨b1, b2, b3⟩ := hb _ (List.getElem_mem hvl)
    have hM : 0 ≤ M := (abs_nonneg _).trans b3
    have := mul_nonneg (sub_nonneg.2 hg) hM
    exact ⟨by linarith, by linarith, by linarith⟩
  · obtain ⟨qs, g1, g2, g3, g4⟩ := h2 hf
    have hall : ∀ y ∈ qs.map pr, lo ≤ y ∧ y ≤ hi ∧ |y| ≤ M := by
      intro y hy
      obtain ⟨q, hq, rfl⟩ := List.mem_map.1 hy
      obtain ⟨w, -, hw⟩ := forall₂_mem_right g1 q hq
      exact hb q (List.mem_of_getElem? hw)
    have hlen : (qs.map pr).length ≤ N := by
      rw [List.length_map, ← g1.length_eq]; exact hN v
    refine nearMean_bounds hu (by simpa using g2) hlen ?_ hall
    rcases hpr with rfl | rfl
    · exact g3
    · exact g4

/-- **C119** (3) After any run all coordinates lie between the smallest and the largest coordinate before, up to rounding: with at most `N`
neighbours (counted with repetitions), coordinates of at most `M` and `n = (N + 1) * max_iter` roundings in a row the box grows by at most
`((1 + u) ^ n - 1) * M` on every side. -/
theorem C119_box {rnd : K → K} {u : K} (hr : RelError rnd u) (hu : 0 ≤ u) {len : K × K → K × K → K} {oE : RowOrder (Nat × Nat)}
    {maxIter : Nat} {tol : K} {ifix : List Nat} {m m' : Mesh K} (h : laplacian2Fl rnd len oE maxIter tol ifix m = some m') {N : Nat}
    (hN : ∀ v, (mates m.t v).length ≤ N) {pr : K × K → K} (hpr : pr = Prod.fst ∨ pr = Prod.snd) {lo hi M : K}
    (hb : ∀ q ∈ m.p, lo ≤ pr q ∧ pr q ≤ hi ∧ |pr q| ≤ M) :
    ∀ q ∈ m'.p, lo - ((1 + u) ^ ((N + 1) * maxIter) - 1) * M ≤ pr q ∧ pr q ≤ hi + ((1 + u) ^ ((N + 1) * maxIter) - 1) * M := by
  rcases List.eq_nil_or_concat m.p with h0 | ⟨_, q0, h0⟩
  · have := (C119_fixed hr hu h).2.1
    rw [h0, List.length_nil, List.length_eq_zero_iff] at this
    rw [this]; simp
  have hM : 0 ≤ M := (abs_nonneg _).trans (hb q0 (by rw [h0]; simp)).2.2
  have grow : ∀ (k : Nat), 1 ≤ (1 + u) ^ k := fun k => one_le_pow₀ (by linarith)
  have key : ∀ {Q : List (K × K) → List (K × K) → Prop} {fixed : Nat → Prop} {j : Nat} {x y : List (K × K)} {lo hi M : K},
      Steps (fun x y => MovesNearMean u (mates m.t) fixed x y ∧ Q x y) j x y → (∀ q ∈ x, lo ≤ pr q ∧ pr q ≤ hi ∧ |pr q| ≤ M) →
      ∀ q ∈ y, lo - ((1 + u) ^ ((N + 1) * j) - 1) * M ≤ pr q ∧ pr q ≤ hi + ((1 + u) ^ ((N + 1) * j) - 1) * M ∧
        |pr q| ≤ (1 + u) ^ ((N + 1) * j) * M := by
    intro Q fixed j x y lo hi M hs
    induction hs generalizing lo hi M with
    | zero x => intro hb q hq; simpa using hb q hq
    | succ h1 _ ih =>
      rename_i n x y z _
      intro hb q hq
      have hb1 := movesNearMean_box hu h1.1 hN hpr hb
      have := ih hb1 q hq
      have e : (1 + u) ^ ((N + 1) * (n + 1)) = (1 + u) ^ ((N + 1) * n) * (1 + u) ^ (N + 1) := by rw [Nat.mul_succ, pow_add]
      rw [e]
      obtain ⟨a, b, c⟩ := this
      refine ⟨by linarith, by linarith, by linarith⟩
  have weaken : ∀ {k : Nat} {c : K}, k ≤ (N + 1) * maxIter → (lo - ((1 + u) ^ k - 1) * M ≤ c ∧ c ≤ hi + ((1 + u) ^ k - 1) * M) →
      lo - ((1 + u) ^ ((N + 1) * maxIter) - 1) * M ≤ c ∧ c ≤ hi + ((1 + u) ^ ((N + 1) * maxIter) - 1) * M := by
    intro k c hk hc
    have h1 : (1 + u) ^ k ≤ (1 + u) ^ ((N + 1) * maxIter) := pow_le_pow_right₀ (by linarith) hk
    have h2 := mul_le_mul_of_nonneg_right h1 hM
    exact ⟨by linarith [hc.1], by linarith [hc.2]⟩
  obtain ⟨-, h3⟩ := C119_steps hr hu h
  rcases h3 with ⟨-, rfl⟩ | ⟨-, ⟨-, e⟩ | ⟨j, p1, hj, g1, g2, -⟩⟩
  · intro q hq
    exact weaken (Nat.zero_le _) (by simpa using ⟨(hb q hq).1, (hb q hq).2.1⟩)
  · rw [e]
    intro q hq
    exact weaken (Nat.zero_le _) (by simpa using ⟨(hb q hq).1, (hb q hq).2.1⟩)
  · intro q hq
    have h4 := key g1 hb
    have h5 := movesNearMean_box hu g2 hN hpr h4 q hq
    apply weaken (k := (N + 1) * (j + 1)) (Nat.mul_le_mul_left _ (by omega))
    rw [Nat.mul_succ, pow_add]
    exact ⟨by linarith [h5.1], by linarith [h5.2.1]⟩

/-- **C119** (4) The same with a bound that is linear in the number of roundings. -/
theorem C119_box_linear {rnd : K → K} {u : K} (hr : RelError rnd u) (hu : 0 ≤ u) {len : K × K → K × K → K} {oE : RowOrder (Nat × Nat)}
    {maxIter : Nat} {tol : K} {ifix : List Nat} {m m' : Mesh K} (h : laplacian2Fl rnd len oE maxIter tol ifix m = some m') {N : Nat}
    (hN : ∀ v, (mates m.t v).length ≤ N) (hs : ((N + 1) * maxIter : Nat) * u ≤ 1 / 2) {pr : K × K → K}
    (hpr : pr = Prod.fst ∨ pr = Prod.snd) {lo hi M : K} (hb : ∀ q ∈ m.p, lo ≤ pr q ∧ pr q ≤ hi ∧ |pr q| ≤ M) :
    ∀ q ∈ m'.p, lo - 2 * ((N + 1) * maxIter : Nat) * u * M ≤ pr q ∧ pr q ≤ hi + 2 * ((N + 1) * maxIter : Nat) * u * M := by
  have key : ∀ n : Nat, (n : K) * u ≤ 1 / 2 → (1 + u) ^ n * (1 - n * u) ≤ 1 := by
    intro n
    induction n with
    | zero => simp
    | succ n ih =>
      intro hn
      push_cast at hn ⊢
      have hnu : 0 ≤ (n : K) * u := mul_nonneg (Nat.cast_nonneg n) hu
      have h1 := ih (by nlinarith)
      have hp : 0 ≤ (1 + u) ^ n := pow_nonneg (by linarith) n
      have h2 : (1 + u) * (1 - (n + 1) * u) ≤ 1 - n * u := by nlinarith
      calc (1 + u) ^ (n + 1) * (1 - (n + 1) * u) = (1 + u) ^ n * ((1 + u) * (1 - (n + 1) * u)) := by ring
        _ ≤ (1 + u) ^ n * (1 - n * u) := mul_le_mul_of_nonneg_left h2 hp
        _ ≤ 1 := h1
  intro q hq
  have h1 := C119_box hr hu h hN hpr hb q hq
  have h2 := key _ hs
  have h3 : (1 + u) ^ ((N + 1) * maxIter) - 1 ≤ 2 * ((N + 1) * maxIter : Nat) * u := by
    set g := (1 + u) ^ ((N + 1) * maxIter)
    set k := (((N + 1) * maxIter : Nat) : K) * u
    have hk : 0 ≤ k := mul_nonneg (Nat.cast_nonneg _) hu
    have hg : g ≤ 2 := by nlinarith
    have : 2 * (((N + 1) * maxIter : Nat) : K) * u = 2 * k := by ring
    rw [this]
    nlinarith
  have hM : 0 ≤ M := by
    have hl := (C119_fixed hr hu h).2.1
    cases hmp : m.p with
    | nil =>
      rw [hmp, List.length_nil, List.length_eq_zero_iff] at hl
      rw [hl] at hq; cases hq
    | cons q0 l => exact (abs_nonneg _).trans (hb q0 (by rw [hmp]; simp)).2.2
  have h4 := mul_le_mul_of_nonneg_right h3 hM
  exact ⟨by linarith [h1.1], by linarith [h1.2]⟩

/-! ## No exception -/

theorem rowSumFl_isSome {rnd : K → K} {p : List (K × K)} (v : Nat) : ∀ {es : List (Nat × Nat)} (acc : K × K), (∀ e ∈ es, e.2 < p.length) →
    ∃ s, rowSumFl rnd p v acc es = some s
  | [], acc, _ => ⟨_, rfl⟩
  | (i, j) :: es, acc, h => by
    have hj : j < p.length := h (i, j) (List.mem_cons_self ..)
    rw [rowSumFl, List.getElem?_eq_getElem hj]
    dsimp only
    by_cases hi : i = v
    · rw [if_pos hi]; exact rowSumFl_isSome v _ fun e he => h e (List.mem_cons_of_mem _ he)
    · rw [if_neg hi]; exact rowSumFl_isSome v _ fun e he => h e (List.mem_cons_of_mem _ he)

theorem smoothRowsFl_isSome {rnd : K → K} {es : List (Nat × Nat)} {bnd : List Nat} {p : List (K × K)} (h : ∀ e ∈ es, e.2 < p.length) :
    ∀ (l : List (K × K)) (v : Nat), ∃ r, smoothRowsFl rnd es bnd p v l = some r
  | [], _ => ⟨_, rfl⟩
  | q :: l, v => by
    obtain ⟨r, hr⟩ := smoothRowsFl_isSome (rnd := rnd) h (bnd := bnd) l (v + 1)
    obtain ⟨s, hs⟩ := rowSumFl_isSome (rnd := rnd) v (0, 0) h
    rw [smoothRowsFl, hs, hr]
    exact ⟨_, rfl⟩

theorem edgeChangesFl_isSome {rnd : K → K} {len : K × K → K × K → K} {p p' : List (K × K)} (hl : p'.length = p.length) :
    ∀ {es : List (Nat × Nat)}, (∀ e ∈ es, e.1 < p.length ∧ e.2 < p.length) →
      ∃ r, edgeChangesFl rnd len p p' es = some r ∧ r.length = es.length
  | [], _ => ⟨[], rfl, rfl⟩
  | (i, j) :: es, h => by
    obtain ⟨r, hr, hrl⟩ := edgeChangesFl_isSome (rnd := rnd) hl (es := es) fun e he => h e (List.mem_cons_of_mem _ he)
    obtain ⟨hi, hj⟩ := h (i, j) (List.mem_cons_self ..)
    dsimp only at hi hj
    rw [edgeChangesFl, List.getElem?_eq_getElem hi, List.getElem?_eq_getElem hj,
      List.getElem?_eq_getElem (hl ▸ hi), List.getElem?_eq_getElem (hl ▸ hj), hr]
    exact ⟨_, rfl, by simp [hrl]⟩

theorem smoothLoopFl_isSome {rnd : K → K} {len : K × K → K × K → K} {tol : K} {t : List Tri} {bnd : List Nat} (hne : t ≠ []) :
    ∀ {n : Nat} {p : List (K × K)}, ValidMesh p t →
      ∃ p', smoothLoopFl rnd len tol (smoothEntries t) (getEdges t) bnd n p = some p'
  | 0, p, _ => ⟨p, rfl⟩
  | n + 1, p, hv => by
    obtain ⟨p1, hp1⟩ := smoothRowsFl_isSome (rnd := rnd) (bnd := bnd) (fun e he => (mem_smoothEntries hv e he).2) p 0
    have hl := smoothRowsFl_length hp1
    obtain ⟨r, hr, hrl⟩ := edgeChangesFl_isSome (rnd := rnd) (len := len) hl (es := getEdges t) (by
      intro e he
      obtain ⟨f, hf, he⟩ := mem_getEdges_iff.1 he
      have ha := hv f hf f.a (Or.inl rfl)
      have hb := hv f hf f.b (Or.inr (Or.inl rfl))
      have hc := hv f hf f.c (Or.inr (Or.inr rfl))
      simp only [List.mem_cons, List.not_mem_nil, or_false] at he
      rcases he with rfl | rfl | rfl
      · exact ⟨ha, hb⟩
      · exact ⟨ha, hc⟩
      · exact ⟨hb, hc⟩)
    rw [smoothLoopFl, hp1]
    dsimp only
    rw [hr, Option.bind_some]
    cases r with
    | nil =>
      cases t with
      | nil => exact absurd rfl hne
      | cons f t => simp [getEdges] at hrl
    | cons y r =>
      rw [maxElement]
      dsimp only
      by_cases hlt : List.foldl max y r < tol
      · rw [if_pos hlt]; exact ⟨_, rfl⟩
      · rw [if_neg hlt]
        apply smoothLoopFl_isSome hne
        intro f hf v hfv
        rw [hl]; exact hv f hf v hfv

/-- **C119** (5) It returns for every mesh with vertices and valid indices, whatever the rounding. -/
theorem C119_returns (rnd : K → K) (len : K × K → K × K → K) (oE : RowOrder (Nat × Nat)) (maxIter : Nat) (tol : K) (ifix : List Nat)
    {m : Mesh K} (hv : ValidMesh m.p m.t) (hp : m.p ≠ []) : ∃ m', laplacian2Fl rnd len oE maxIter tol ifix m = some m' := by
  have hall : (smoothEntries m.t).all (fun e => decide (e.1 < m.p.length)) = true :=
    List.all_eq_true.2 fun e he => by simpa using (mem_smoothEntries hv e he).1
  obtain ⟨bv, hex, -⟩ := externalTopology_isSome oE hv
  unfold laplacian2Fl
  dsimp only
  rw [if_pos hall, hex]
  dsimp only
  split
  · exact ⟨m, rfl⟩
  · rename_i hz
    have hne : m.t ≠ [] := by
      intro h0
      apply hz
      rw [h0]
      refine List.any_eq_true.2 ⟨0, List.mem_range.2 (List.length_pos_iff.2 hp), by rfl⟩
    obtain ⟨p', hp'⟩ := smoothLoopFl_isSome (rnd := rnd) (len := len) (tol := tol)
      (bnd := unique natOrder (flatPairs (getBoundaryEdges oE m.t)) ++ ifix) hne (n := maxIter) hv
    rw [hp']
    exact ⟨_, rfl⟩

/-! ## Exact arithmetic -/

theorem rowSumFl_id {p : List (K × K)} {v : Nat} : ∀ (es : List (Nat × Nat)) (acc : K × K),
    rowSumFl id p v acc es = (rowSum p v es).map fun s => (acc.1 + s.1, acc.2 + s.2)
  | [], acc => by simp [rowSumFl, rowSum]
  | (i, j) :: es, acc => by
    rw [rowSumFl, rowSum]
    by_cases hi : i = v
    · rw [if_pos hi, if_pos hi]
      cases hq : p[j]? with
      | none => rfl
      | some q =>
        dsimp only
        rw [rowSumFl_id es]
        cases rowSum p v es with
        | none => rfl
        | some s => simp [add_assoc]
    · rw [if_neg hi, if_neg hi]
      exact rowSumFl_id es acc

theorem smoothRowsFl_id {es : List (Nat × Nat)} {bnd : List Nat} {p : List (K × K)} : ∀ (l : List (K × K)) (v : Nat),
    smoothRowsFl id es bnd p v l = smoothRows es bnd p v l
  | [], _ => rfl
  | q :: l, v => by
    rw [smoothRowsFl, smoothRows, smoothRowsFl_id l, rowSumFl_id]
    cases rowSum p v es with
    | none => rfl
    | some s => cases smoothRows es bnd p (v + 1) l <;> simp

theorem edgeChangesFl_id {len : K × K → K × K → K} {p p' : List (K × K)} : ∀ es : List (Nat × Nat),
    edgeChangesFl id len p p' es = edgeChanges len p p' es
  | [] => rfl
  | (i, j) :: es => by rw [edgeChangesFl, edgeChanges, edgeChangesFl_id es]; rfl

theorem smoothLoopFl_id {len : K × K → K × K → K} {tol : K} {es edge : List (Nat × Nat)} {bnd : List Nat} :
    ∀ (n : Nat) (p : List (K × K)), smoothLoopFl id len tol es edge bnd n p = smoothLoop len tol es edge bnd n p
  | 0, _ => rfl
  | n + 1, p => by
    rw [smoothLoopFl, smoothLoop, smoothRowsFl_id]
    cases smoothRows es bnd p 0 p with
    | none => rfl
    | some p' =>
      dsimp only
      rw [edgeChangesFl_id]
      cases (edgeChanges len p p' edge).bind maxElement with
      | none => rfl
      | some move => simp only [smoothLoopFl_id n]

/-- **C119** (6) Without rounding it is the function of property C20. -/
theorem C119_exact {len : K × K → K × K → K} {oE : RowOrder (Nat × Nat)} {maxIter : Nat} {tol : K} {pfix : Option (List (K × K))}
    (hpf : pfix ≠ some []) {m : Mesh K} {ifix : List Nat} (hfix : fixedNodes m.p pfix = some ifix) :
    laplacian2Fl id len oE maxIter tol ifix m = laplacian2 len oE maxIter tol pfix m := by
  unfold laplacian2Fl laplacian2
  rw [hfix]
  dsimp only
  simp only [smoothLoopFl_id, hpf, false_and, if_false]
  split
  · cases externalTopology oE m.p m.t <;> rfl
  · rfl

end

/-! ## Doubles -/

/-- A flat triangle of doubles next to the line `x = 0.7` with a vertex in its middle. -/
def flatWheel : Mesh ℚ :=
  ⟨[(3152519739159347 / 2 ^ 52, 1), (3152519739159346 / 2 ^ 52, 0), (3152519739159347 / 2 ^ 52, -1), (6305039478318693 / 2 ^ 53, 0)],
    [⟨0, 1, 3⟩, ⟨1, 2, 3⟩, ⟨2, 0, 3⟩]⟩

/-- **C119** In doubles smoothing can leave the box: the inner vertex of a mesh of counterclockwise triangles moves beyond all vertices of
the boundary. -/
theorem C119_leaves_box : ∃ (m : Mesh ℚ) (p' : List (ℚ × ℚ)) (v : Nat) (q' : ℚ × ℚ), ValidMesh m.p m.t ∧
    (∀ q ∈ m.p, IsDouble q.1 ∧ IsDouble q.2) ∧
    (∀ f ∈ m.t, ∃ x y z, m.p[f.a]? = some x ∧ m.p[f.b]? = some y ∧ m.p[f.c]? = some z ∧ 0 < signedArea x y z) ∧
    laplacian2Fl roundDouble lenQ lexOrder 20 (1 / 100) [] m = some ⟨p', m.t⟩ ∧ p'[v]? = some q' ∧ ∀ q ∈ m.p, q.1 < q'.1 := by
  have hd : ∀ q ∈ flatWheel.p, roundDouble q.1 = q.1 ∧ roundDouble q.2 = q.2 := by decide +kernel
  refine ⟨flatWheel, flatWheel.p.take 3 ++ [(6305039478318695 / 2 ^ 53, 0)], 3, (6305039478318695 / 2 ^ 53, 0),
    validMesh_of_bound (by decide), fun q hq => ⟨(hd q hq).1 ▸ (C113_nearest q.1).1, (hd q hq).2 ▸ (C113_nearest q.2).1⟩, ?_,
    by decide +kernel, by decide +kernel, by decide +kernel⟩
  intro f hf
  simp only [flatWheel, List.mem_cons, List.not_mem_nil, or_false] at hf
  rcases hf with rfl | rfl | rfl
  · exact ⟨_, _, _, rfl, rfl, rfl, by unfold signedArea; norm_num⟩
  · exact ⟨_, _, _, rfl, rfl, rfl, by unfold signedArea; norm_num⟩
  · exact ⟨_, _, _, rfl, rfl, rfl, by unfold signedArea; norm_num⟩

/-- The square around a vertex, with coordinates that are doubles. -/
example : RelError roundDouble (1 / 2 ^ 53 : ℚ) ∧ (0 : ℚ) ≤ 1 / 2 ^ 53 ∧ (∀ v, (mates wheelM.t v).length ≤ 8) ∧
    (((8 + 1) * 20 : Nat) : ℚ) * (1 / 2 ^ 53) ≤ 1 / 2 ∧ (∀ q ∈ wheelM.p, 0 ≤ q.1 ∧ q.1 ≤ 1 ∧ |q.1| ≤ 1) ∧
    laplacian2Fl roundDouble lenQ lexOrder 20 (1 / 100) [] wheelM = some ⟨[(0, 0), (1, 0), (1, 1), (0, 1), (1 / 2, 1 / 2)], wheelM.t⟩ := by
  refine ⟨C113_roundDouble.2, by norm_num, ?_, by norm_num, by decide +kernel, by decide +kernel⟩
  intro v
  by_cases h : v < 5
  · revert v; decide
  · have : mates wheelM.t v = [] := mates_eq_nil.2 (by
      intro f hf hfv
      simp only [wheelM, List.mem_cons, List.not_mem_nil, or_false] at hf
      rcases hf with rfl | rfl | rfl | rfl <;> (rcases hfv with h1 | h1 | h1 <;> simp at h1 <;> omega))
    rw [this]; simp

example : fixedNodes wheelM.p (some [(9 / 10, 9 / 10)]) = some [2] ∧ (some [((9 : ℚ) / 10, (9 : ℚ) / 10)]) ≠ some [] := by
  decide +kernel

end OM
