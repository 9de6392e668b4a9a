import Verif.Model.Geodata
import Verif.Spec.Poly
import Verif.Lemmas.FixMesh
import Mathlib.Tactic.Linarith
import Mathlib.Tactic.Ring
import Mathlib.Tactic.NormNum
/-!
# Lemmas on the polygon helpers of `geodata.py`
-/
set_option linter.unusedSectionVars false
namespace OM
open Spec

/-! ## splitting -/

theorem clumps_feature {α : Type} : ∀ (f cur : List α) (l : List (Option α)), cur ++ f ≠ [] →
    clumps cur (f.map some ++ none :: l) = (cur ++ f) :: clumps [] l
  | [], cur, l, h => by
    cases cur with
    | nil => simp at h
    | cons c cur => simp [clumps]
  | q :: f, cur, l, h => by
    have e : clumps cur ((q :: f).map some ++ none :: l) = clumps (cur ++ [q]) (f.map some ++ none :: l) := by
      cases cur <;> rfl
    rw [e, clumps_feature f (cur ++ [q]) l (by simp)]
    simp

theorem clumps_joinNaN {α : Type} : ∀ (fs : List (List α)), (∀ f ∈ fs, f ≠ []) → clumps [] (joinNaN fs) = fs
  | [], _ => rfl
  | f :: fs, h => by
    rw [joinNaN, clumps_feature f [] _ (by simpa using h f (List.mem_cons_self ..)),
      clumps_joinNaN fs fun g hg => h g (List.mem_cons_of_mem _ hg)]
    rfl

theorem flatten_close {α : Type} : ∀ (fs : List (List α)), (fs.map fun r => r.map some ++ [none]).flatten = joinNaN fs
  | [] => rfl
  | f :: fs => by simp [joinNaN, flatten_close fs]

/-- An array that ends in NaN, does not start with NaN and has no two NaN rows in a row is made of non-empty features. -/
theorem exists_features {α : Type} : ∀ (arr : List (Option α)) (cur : List α),
    (cur ≠ [] ∨ arr.head? ≠ some none) → (cur = [] → arr ≠ []) → arr.IsChain (fun a b => ¬ (a = none ∧ b = none)) →
    (arr.getLast? = some none) →
    ∃ fs, fs ≠ [] ∧ (∀ f ∈ fs, f ≠ []) ∧ cur.map some ++ arr = joinNaN fs
  | [], cur, _, _, _, hl => by simp at hl
  | [none], cur, h1, _, _, _ => by
    have hc : cur ≠ [] := by
      rcases h1 with h | h
      · exact h
      · simp at h
    exact ⟨[cur], by simp, by simpa using hc, by simp [joinNaN]⟩
  | none :: b :: arr, cur, h1, _, hch, hl => by
    have hc : cur ≠ [] := by
      rcases h1 with h | h
      · exact h
      · simp at h
    rw [List.isChain_cons_cons] at hch
    obtain ⟨fs, e1, e2, e3⟩ := exists_features (b :: arr) [] (Or.inr (by
      intro hb
      simp only [List.head?_cons, Option.some.injEq] at hb
      exact hch.1 ⟨rfl, hb⟩)) (by simp) hch.2 (by rw [List.getLast?_cons_cons] at hl; exact hl)
    refine ⟨cur :: fs, by simp, ?_, ?_⟩
    · intro f hf
      rcases List.mem_cons.1 hf with rfl | hf
      · exact hc
      · exact e2 f hf
    · rw [joinNaN, ← e3]; simp
  | [some q], cur, _, _, _, hl => by simp at hl
  | some q :: b :: arr, cur, _, _, hch, hl => by
    rw [List.isChain_cons_cons] at hch
    obtain ⟨fs, e1, e2, e3⟩ := exists_features (b :: arr) (cur ++ [q]) (Or.inl (by simp)) (by simp) hch.2
      (by rw [List.getLast?_cons_cons] at hl; exact hl)
    exact ⟨fs, e1, e2, by rw [← e3]; simp⟩

/-! ## corner cutting -/

section
variable {K : Type} [Field K] [LinearOrder K] [IsStrictOrderedRing K]

theorem chaikinFrom_length (prev : K × K) : ∀ l : List (K × K), (chaikinFrom prev l).length = 2 * l.length
  | [] => rfl
  | [c] => rfl
  | c :: d :: l => by
    rw [chaikinFrom, List.length_cons, List.length_cons, chaikinFrom_length c (d :: l)]
    simp only [List.length_cons]; omega

theorem cut_self (c : K × K) : cut c c = c := by
  refine Prod.ext ?_ ?_ <;> simp only [cut] <;> ring

theorem cut_halfplane {a b c : K} {p q : K × K} (hp : a * p.1 + b * p.2 ≤ c) (hq : a * q.1 + b * q.2 ≤ c) :
    a * (cut p q).1 + b * (cut p q).2 ≤ c := by
  simp only [cut]
  linarith

theorem chaikinFrom_halfplane {a b c : K} : ∀ (l : List (K × K)) (prev : K × K), a * prev.1 + b * prev.2 ≤ c →
    (∀ q ∈ l, a * q.1 + b * q.2 ≤ c) → ∀ q ∈ chaikinFrom prev l, a * q.1 + b * q.2 ≤ c
  | [], _, _, _, q, hq => by simp [chaikinFrom] at hq
  | [x], prev, hp, h, q, hq => by
    have hx := h x (by simp)
    simp only [chaikinFrom, List.mem_cons, List.not_mem_nil, or_false] at hq
    rcases hq with rfl | rfl
    · exact cut_halfplane hx hp
    · exact cut_halfplane hx hx
  | x :: y :: l, prev, hp, h, q, hq => by
    have hx := h x (by simp)
    have hy := h y (by simp)
    rw [chaikinFrom, List.mem_cons, List.mem_cons] at hq
    rcases hq with rfl | rfl | hq
    · exact cut_halfplane hx hp
    · exact cut_halfplane hx hy
    · exact chaikinFrom_halfplane (y :: l) x hx (fun z hz => h z (List.mem_cons_of_mem _ hz)) q hq

theorem chaikinFrom_last : ∀ (l : List (K × K)) (prev : K × K), (chaikinFrom prev l).getLast? = l.getLast?
  | [], _ => rfl
  | [c], prev => by simp [chaikinFrom, cut_self]
  | c :: d :: l, prev => by
    have hne : chaikinFrom c (d :: l) ≠ [] := by
      intro h
      have := chaikinFrom_length c (d :: l)
      rw [h] at this
      simp at this
    rw [chaikinFrom, List.getLast?_cons_cons (l := l) (a := c) (b := d), ← chaikinFrom_last (d :: l) c]
    obtain ⟨x, xs, hx⟩ := List.exists_cons_of_ne_nil hne
    rw [hx, List.getLast?_cons_cons, List.getLast?_cons_cons]

/-- Entries `2k` and `2k+1` of one refinement. -/
theorem chaikinFrom_get : ∀ (l : List (K × K)) (prev : K × K) (k : Nat) (c : K × K), l[k]? = some c →
    (chaikinFrom prev l)[2 * k]? = some (cut c (((prev :: l)[k]?).getD c)) ∧
      (chaikinFrom prev l)[2 * k + 1]? = some (cut c ((l[k + 1]?).getD c))
  | [], _, k, c, h => by simp at h
  | [x], prev, 0, c, h => by
    simp only [List.getElem?_cons_zero, Option.some.injEq] at h
    subst h
    simp [chaikinFrom]
  | [x], prev, k + 1, c, h => by simp at h
  | x :: y :: l, prev, 0, c, h => by
    simp only [List.getElem?_cons_zero, Option.some.injEq] at h
    subst h
    simp [chaikinFrom]
  | x :: y :: l, prev, k + 1, c, h => by
    rw [List.getElem?_cons_succ] at h
    obtain ⟨h1, h2⟩ := chaikinFrom_get (y :: l) x k c h
    rw [show 2 * (k + 1) = (2 * k) + 1 + 1 by ring, show 2 * k + 1 + 1 + 1 = (2 * k + 1) + 1 + 1 by ring]
    simp only [chaikinFrom, List.getElem?_cons_succ]
    simp only [List.getElem?_cons_succ] at h1 h2
    exact ⟨h1, h2⟩

theorem chaikin_spec : ∀ (n : Nat) (p : K × K) (l : List (K × K)), ∃ r, chaikin n (p :: l) = some r ∧
    r.length = 2 ^ n * (l.length + 1) ∧ r.head? = some p ∧ r.getLast? = (p :: l).getLast? ∧
    ∀ a b c : K, (∀ q ∈ p :: l, a * q.1 + b * q.2 ≤ c) → ∀ q ∈ r, a * q.1 + b * q.2 ≤ c
  | 0, p, l => ⟨p :: l, rfl, by simp, rfl, rfl, fun _ _ _ h => h⟩
  | n + 1, p, l => by
    have hhead : (chaikinFrom p (p :: l)).head? = some p := by
      cases l with
      | nil => simp [chaikinFrom, cut_self]
      | cons d l => simp [chaikinFrom, cut_self]
    cases hx : chaikinFrom p (p :: l) with
    | nil => rw [hx] at hhead; simp at hhead
    | cons q m =>
      obtain ⟨r, h1, h2, h3, h4, h5⟩ := chaikin_spec n q m
      have hlen := chaikinFrom_length p (p :: l)
      rw [hx] at hhead hlen
      simp only [List.head?_cons, Option.some.injEq] at hhead
      subst hhead
      refine ⟨r, ?_, ?_, h3, ?_, ?_⟩
      · rw [chaikin, hx]; exact h1
      · simp only [List.length_cons] at hlen
        rw [h2, hlen, pow_succ]; ring
      · rw [h4, ← hx, chaikinFrom_last]
      · intro a b c h
        apply h5
        rw [← hx]
        exact chaikinFrom_halfplane _ _ (h q (List.mem_cons_self ..)) h

end

/-! ## simplification -/

theorem simplifyLoop_spec (inside : List Bool) : ∀ (fuel j : Nat) (line : List Nat), inside.length - j < fuel →
    line.Pairwise (· ≤ ·) → (∀ i ∈ line, i < j ∧ i < inside.length) →
    (∀ i < j, inside[i]? = some true → i ∈ line) →
    ∃ js, simplifyLoop inside fuel j line = some js ∧ js.Pairwise (· ≤ ·) ∧ (∀ i ∈ js, i < inside.length) ∧
      ∀ i, inside[i]? = some true → i ∈ js
  | 0, j, line, hf, _, _, _ => absurd hf (Nat.not_lt_zero _)
  | fuel + 1, j, line, hf, h1, h2, h3 => by
    have happ : ∀ k, j ≤ k → k < inside.length → (line ++ [k]).Pairwise (· ≤ ·) := by
      intro k hk _
      rw [List.pairwise_append]
      refine ⟨h1, by simp, ?_⟩
      intro x hx y hy
      rw [List.mem_singleton] at hy
      have := (h2 x hx).1
      omega
    have keep : ∀ (b : Bool), inside[j]? = some b →
        ∃ js, simplifyLoop inside fuel (j + 1) (line ++ [j]) = some js ∧ js.Pairwise (· ≤ ·) ∧
          (∀ i ∈ js, i < inside.length) ∧ ∀ i, inside[i]? = some true → i ∈ js := by
      intro b hb
      have hj := (List.getElem?_eq_some_iff.1 hb).1
      refine simplifyLoop_spec inside fuel (j + 1) (line ++ [j]) (by omega) (happ j (le_refl _) hj) ?_ ?_
      · intro i hi
        rcases List.mem_append.1 hi with hi | hi
        · have := h2 i hi; omega
        · rw [List.mem_singleton] at hi; omega
      · intro i hi ht
        rw [List.mem_append, List.mem_singleton]
        by_cases hij : i = j
        · exact Or.inr hij
        · exact Or.inl (h3 i (by omega) ht)
    rw [simplifyLoop]
    split
    · rename_i hn
      refine ⟨line, rfl, h1, fun i hi => (h2 i hi).2, ?_⟩
      intro i ht
      have hil := (List.getElem?_eq_some_iff.1 ht).1
      rw [List.getElem?_eq_none_iff] at hn
      exact h3 i (by omega) ht
    · rename_i hb; exact keep _ hb
    · rename_i hb
      dsimp only
      split
      · rename_i hall
        have hj := (List.getElem?_eq_some_iff.1 hb).1
        refine simplifyLoop_spec inside fuel _ _ (by omega) ?_ ?_ ?_
        · rw [List.pairwise_append]
          refine ⟨h1, by simp, ?_⟩
          intro x hx y hy
          have := (h2 x hx).1
          simp only [List.mem_cons, List.not_mem_nil, or_false] at hy
          omega
        · intro i hi
          rcases List.mem_append.1 hi with hi | hi
          · have := h2 i hi; omega
          · simp only [List.mem_cons, List.not_mem_nil, or_false] at hi; omega
        · intro i hi ht
          rw [List.mem_append]
          by_cases hij : i < j
          · exact Or.inl (h3 i hij ht)
          · right
            simp only [List.mem_cons, List.not_mem_nil, or_false]
            by_contra hcon
            push Not at hcon
            have hmem : true ∈ (inside.drop j).take (min (j + 50) (inside.length - 1) - j) := by
              rw [List.mem_iff_getElem?]
              refine ⟨i - j, ?_⟩
              rw [List.getElem?_take, if_pos (by omega), List.getElem?_drop, show j + (i - j) = i by omega]
              exact ht
            rw [List.all_eq_true] at hall
            simpa using hall true hmem
      · exact keep _ hb

theorem simplifyFeature_spec {α : Type} (mask : α → Bool) (pts : List α) :
    ∃ (js : List Nat) (r : List α), simplifyFeature mask pts = some r ∧ js.Pairwise (· ≤ ·) ∧ (∀ j ∈ js, j + 1 < pts.length) ∧
      r.map some = js.map (fun j => pts[j]?) ∧ ∀ j q, j + 1 < pts.length → pts[j]? = some q → mask q = true → j ∈ js := by
  obtain ⟨js, h1, h2, h3, h4⟩ := simplifyLoop_spec (pts.dropLast.map mask) (pts.length + 1) 0 [] (by simp) (by simp)
    (by simp) (by simp)
  have hlen : ∀ j ∈ js, j + 1 < pts.length := by
    intro j hj
    have := h3 j hj
    simp at this
    omega
  obtain ⟨r, hr⟩ := gather_isSome (l := pts) (ix := js) fun j hj => by have := hlen j hj; omega
  refine ⟨js, r, by rw [simplifyFeature, h1]; exact hr, h2, hlen, gather_eq_some.1 hr, ?_⟩
  intro j q hj hq hm
  apply h4
  rw [List.getElem?_map, List.getElem?_dropLast, if_pos (by omega), hq]
  simp [hm]

/-! ## shoelace -/

section
variable {K : Type} [Field K] [LinearOrder K] [IsStrictOrderedRing K]

/-- The sum of `x y' - y x'` along a path, primes for the point before. -/
def pathCross : K × K → List (K × K) → K
  | _, [] => 0
  | p, c :: l => (c.1 * p.2 - c.2 * p.1) + pathCross c l

theorem pathCross_append : ∀ (l m : List (K × K)) (p : K × K),
    pathCross p (l ++ m) = pathCross p l + pathCross ((p :: l).getLast (List.cons_ne_nil _ _)) m
  | [], m, p => by simp [pathCross]
  | c :: l, m, p => by
    rw [List.cons_append, pathCross, pathCross_append l m c, pathCross, List.getLast_cons (List.cons_ne_nil _ _)]
    ring

theorem pathCross_dot : ∀ (l : List (K × K)) (p : K × K),
    pathCross p l = dot (l.map Prod.fst) (p.2 :: l.map Prod.snd).dropLast - dot (l.map Prod.snd) (p.1 :: l.map Prod.fst).dropLast
  | [], p => by simp [pathCross, dot]
  | [c], p => by simp [pathCross, dot]
  | c :: d :: l, p => by
    have ih := pathCross_dot (d :: l) c
    rw [pathCross, ih]
    simp only [dot, List.map_cons, List.dropLast_cons₂, List.zipWith_cons_cons, List.sum_cons]
    ring

theorem roll_concat {α : Type} (l : List α) (x : α) : roll (l ++ [x]) = x :: l := by
  simp [roll]

/-- Twice the signed shoelace sum that `_poly_area` takes the absolute value of. -/
def shoe (l : List (K × K)) : K :=
  match l.getLast? with
  | none => 0
  | some p => pathCross p l

theorem polyArea_eq (l : List (K × K)) :
    polyArea (l.map Prod.fst) (l.map Prod.snd) = some (1 / 2 * |shoe l|) := by
  rw [polyArea, if_pos (by simp)]
  rcases List.eq_nil_or_concat l with rfl | ⟨m, p, rfl⟩
  · simp [shoe, dot, roll]
  · simp only [List.concat_eq_append]
    have e1 : roll ((m ++ [p]).map Prod.snd) = (p.2 :: (m ++ [p]).map Prod.snd).dropLast := by
      rw [List.map_append, List.map_cons, List.map_nil, roll_concat, ← List.cons_append, List.dropLast_concat]
    have e2 : roll ((m ++ [p]).map Prod.fst) = (p.1 :: (m ++ [p]).map Prod.fst).dropLast := by
      rw [List.map_append, List.map_cons, List.map_nil, roll_concat, ← List.cons_append, List.dropLast_concat]
    rw [e1, e2, ← pathCross_dot]
    simp [shoe]

theorem shoe_rotate (p : K × K) (l : List (K × K)) : shoe (l ++ [p]) = shoe (p :: l) := by
  have e1 : shoe (l ++ [p]) = pathCross p (l ++ [p]) := by simp [shoe]
  have e2 : shoe (p :: l) = pathCross ((p :: l).getLast (List.cons_ne_nil _ _)) (p :: l) := by
    simp [shoe, List.getLast?_eq_some_getLast]
  rw [e1, e2, pathCross_append, pathCross, pathCross, pathCross]
  ring

theorem pathCross_reverse : ∀ (l : List (K × K)) (p q : K × K),
    pathCross p (l ++ [q]) = - pathCross q (l.reverse ++ [p])
  | [], p, q => by simp [pathCross]; ring
  | c :: l, p, q => by
    rw [List.cons_append, pathCross, pathCross_reverse l c q, List.reverse_cons, pathCross_append (l.reverse ++ [c]) [p] q,
      pathCross]
    have : (q :: (l.reverse ++ [c])).getLast (List.cons_ne_nil _ _) = c := by simp
    rw [this, pathCross]
    ring

theorem shoe_reverse (l : List (K × K)) : shoe l.reverse = - shoe l := by
  rcases List.eq_nil_or_concat l with rfl | ⟨m, p, rfl⟩
  · simp [shoe]
  · simp only [List.concat_eq_append, List.reverse_append, List.reverse_cons, List.reverse_nil, List.nil_append,
      List.cons_append]
    rw [← shoe_rotate p m.reverse]
    have e1 : shoe (m ++ [p]) = pathCross p (m ++ [p]) := by simp [shoe]
    have e2 : shoe (m.reverse ++ [p]) = pathCross p (m.reverse ++ [p]) := by simp [shoe]
    rw [e1, e2, pathCross_reverse m p p]
    ring

theorem pathCross_translate (u v : K) : ∀ (l : List (K × K)) (p : K × K),
    pathCross (p.1 + u, p.2 + v) (l.map fun q => (q.1 + u, q.2 + v)) =
      pathCross p l + (((p :: l).getLast (List.cons_ne_nil _ _)).1 - p.1) * v -
        (((p :: l).getLast (List.cons_ne_nil _ _)).2 - p.2) * u
  | [], p => by simp [pathCross]
  | c :: l, p => by
    rw [List.map_cons, pathCross, pathCross_translate u v l c, pathCross, List.getLast_cons (List.cons_ne_nil c l)]
    ring

theorem shoe_translate (u v : K) (l : List (K × K)) : shoe (l.map fun q => (q.1 + u, q.2 + v)) = shoe l := by
  rcases List.eq_nil_or_concat l with rfl | ⟨m, p, rfl⟩
  · simp [shoe]
  · simp only [List.concat_eq_append]
    have e1 : shoe ((m ++ [p]).map fun q => (q.1 + u, q.2 + v)) =
        pathCross (p.1 + u, p.2 + v) ((m ++ [p]).map fun q => (q.1 + u, q.2 + v)) := by simp [shoe]
    have e2 : shoe (m ++ [p]) = pathCross p (m ++ [p]) := by simp [shoe]
    have e3 : (p :: (m ++ [p])).getLast (List.cons_ne_nil _ _) = p := by simp
    rw [e1, e2, pathCross_translate, e3]
    ring

end

/-! ## duplicates -/

theorem removeDup1_cons {α : Type} [DecidableEq α] (x y : α) (l : List α) :
    removeDup1 (x :: y :: l) = (removeDup1 (y :: l)).map fun r => if x = y then r else x :: r := by
  unfold removeDup1
  by_cases h : x = y
  · simp [h]
  · simp [h]

theorem removeDup1_spec {α : Type} [DecidableEq α] : ∀ (x : α) (l : List α),
    ∃ (r : List α) (runs : List (α × Nat)), removeDup1 (x :: l) = some r ∧ r = runs.map Prod.fst ∧ r.head? = some x ∧
      x :: l = (runs.flatMap fun y => List.replicate (y.2 + 1) y.1) ∧ r.IsChain (· ≠ ·)
  | x, [] => ⟨[x], [(x, 0)], by simp [removeDup1], rfl, rfl, by simp, by simp⟩
  | x, y :: l => by
    obtain ⟨r, runs, h1, h2, h3, h4, h5⟩ := removeDup1_spec y l
    rw [removeDup1_cons, h1]
    by_cases h : x = y
    · subst h
      cases runs with
      | nil => simp at h4
      | cons a runs =>
        have ha : a.1 = x := by
          rw [h2] at h3; simpa using h3
        refine ⟨r, (a.1, a.2 + 1) :: runs, by simp, by rw [h2]; rfl, h3, ?_, h5⟩
        rw [h4, List.flatMap_cons, List.flatMap_cons, List.replicate_succ (n := a.2 + 1), ha]
        rfl
    · refine ⟨x :: r, (x, 0) :: runs, by simp [h], by rw [h2]; rfl, rfl, by rw [h4]; simp, ?_⟩
      cases r with
      | nil => simp
      | cons z r =>
        simp only [List.head?_cons, Option.some.injEq] at h3
        subst h3
        exact List.isChain_cons_cons.2 ⟨h, h5⟩

end OM
