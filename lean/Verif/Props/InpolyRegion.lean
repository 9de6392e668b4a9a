import Verif.Props.InpolyPaths
import Mathlib.Tactic.Linarith
import Mathlib.Tactic.FieldSimp
/-!
# C101: the inside test is right for every triangulated region

The region is given by triangles without common inner points; the edges are the sides that belong to an odd number of them (to one, if the triangles fit
together). Every region bounded by simple rings has such triangles, so this covers polygons with holes and several parts.
-/
set_option linter.unusedSectionVars false
namespace OM.Spec
section
variable {K : Type} [Field K] [LinearOrder K]

/-- The sides of a triangle. -/
def triSides (t : (K × K) × (K × K) × (K × K)) : List ((K × K) × (K × K)) := [(t.1, t.2.1), (t.2.1, t.2.2), (t.2.2, t.1)]

/-- `q` is a point of the closed triangle `a b c`. -/
def InClosedTriangle (q a b c : K × K) : Prop :=
  ∃ u v w : K, 0 ≤ u ∧ 0 ≤ v ∧ 0 ≤ w ∧ u + v + w = 1 ∧ q.1 = u * a.1 + v * b.1 + w * c.1 ∧ q.2 = u * a.2 + v * b.2 + w * c.2

/-- How often the edge `a b` is listed, in either direction. -/
def edgeCount {V : Type} [DecidableEq V] (l : List (V × V)) (a b : V) : Nat := l.countP fun e => e = (a, b) ∨ e = (b, a)

/-- The triangles have areas and no common inner points; the edges are sides of the triangles, namely (up to pairs of equal edges) those of an odd number
of triangles. -/
structure Triangulates (ts : List ((K × K) × (K × K) × (K × K))) (edges : List ((K × K) × (K × K))) : Prop where
  area : ∀ t ∈ ts, (t.2.1.1 - t.1.1) * (t.2.2.2 - t.1.2) - (t.2.1.2 - t.1.2) * (t.2.2.1 - t.1.1) ≠ 0
  apart : ts.Pairwise fun s t => ∀ q, InTriangle q s.1 s.2.1 s.2.2 → ¬ InTriangle q t.1 t.2.1 t.2.2
  sides : ∀ e ∈ edges, e.1 ≠ e.2 → ∃ t ∈ ts, e ∈ triSides t ∨ e.swap ∈ triSides t
  border : ∀ a b, a ≠ b → edgeCount edges a b % 2 = edgeCount (ts.flatMap triSides) a b % 2

/-- Twice the signed area of the triangle `a b c`; positive if `c` is left of the way from `a` to `b`. -/
def turnOf (a b c : K × K) : K := (b.1 - a.1) * (c.2 - a.2) - (b.2 - a.2) * (c.1 - a.1)

/-- The vertices are in convex position and listed counterclockwise: every three of them, in their order, turn left. -/
def ConvexRing : List (K × K) → Prop
  | [] => True
  | a :: l => l.Pairwise (fun b c => 0 < turnOf a b c) ∧ ConvexRing l

/-- The edges of a path through the points, back to `z`. -/
def edgesBackTo (z : K × K) : List (K × K) → List ((K × K) × (K × K))
  | [] => []
  | [a] => [(a, z)]
  | a :: b :: l => (a, b) :: edgesBackTo z (b :: l)

/-- The edges of the closed ring. -/
def ringEdges : List (K × K) → List ((K × K) × (K × K))
  | [] => []
  | a :: l => edgesBackTo a (a :: l)

end
end OM.Spec

namespace OM
open Spec

/-! ## Parity -/

theorem edgeCount_pos {V : Type} [DecidableEq V] {l : List (V × V)} {a b : V} (h : 0 < edgeCount l a b) : (a, b) ∈ l ∨ (b, a) ∈ l := by
  obtain ⟨e, he, h'⟩ := List.countP_pos_iff.1 h
  simp only [decide_eq_true_eq] at h'
  rcases h' with rfl | rfl
  · exact .inl he
  · exact .inr he

/-- If every edge is listed an even number of times, every symmetric count is even. -/
theorem even_countP {V : Type} [DecidableEq V] {f : V × V → Bool} (hs : ∀ e, f e.swap = f e) (hd : ∀ a, f (a, a) = false) (n : Nat) :
    ∀ l : List (V × V), l.length ≤ n → (∀ a b, a ≠ b → edgeCount l a b % 2 = 0) → l.countP f % 2 = 0 := by
  induction n using Nat.strong_induction_on with
  | _ n ih =>
    intro l hl h
    match l with
    | [] => rfl
    | (a, b) :: l =>
      by_cases hab : a = b
      · subst hab
        have hl' : l.length < n := by simp at hl; omega
        have := ih _ hl' l le_rfl (fun c d hcd => by
          have h1 := h c d hcd
          rw [edgeCount, List.countP_cons_of_neg (by
            simp only [decide_eq_true_eq, Prod.mk.injEq]
            rintro (⟨rfl, rfl⟩ | ⟨rfl, rfl⟩) <;> exact hcd rfl)] at h1
          exact h1)
        rw [List.countP_cons_of_neg (by simp [hd])]
        exact this
      · have h1 := h a b hab
        rw [edgeCount, List.countP_cons_of_pos (by simp)] at h1
        have h2 : 0 < edgeCount l a b := by unfold edgeCount; omega
        have key : ∃ e ∈ l, f e = f (a, b) ∧ ∀ c d : V, (decide (e = (c, d) ∨ e = (d, c))) = decide ((a, b) = (c, d) ∨ (a, b) = (d, c)) := by
          rcases edgeCount_pos h2 with h3 | h3
          · exact ⟨_, h3, rfl, fun c d => rfl⟩
          · refine ⟨_, h3, hs (a, b), fun c d => ?_⟩
            simp only [Prod.mk.injEq, decide_eq_decide]
            tauto
        obtain ⟨e, he, e1, e2⟩ := key
        have hp := List.perm_cons_erase he
        have hlen : (l.erase e).length < n := by
          have := hp.length_eq
          simp only [List.length_cons] at this hl
          omega
        have hE := ih _ hlen (l.erase e) le_rfl (fun c d hcd => by
          have h4 := h c d hcd
          unfold edgeCount at h4 ⊢
          rw [List.countP_cons, hp.countP_eq, List.countP_cons, e2 c d] at h4
          split at h4 <;> omega)
        rw [List.countP_cons, hp.countP_eq, List.countP_cons, e1]
        split <;> omega

/-- Symmetric counts over two lists with the same edges up to an even number are equal up to an even number. -/
theorem countP_parity {V : Type} [DecidableEq V] {f : V × V → Bool} (hs : ∀ e, f e.swap = f e) (hd : ∀ a, f (a, a) = false) {l l' : List (V × V)}
    (h : ∀ a b, a ≠ b → edgeCount l a b % 2 = edgeCount l' a b % 2) : l.countP f % 2 = l'.countP f % 2 := by
  have := even_countP hs hd _ (l ++ l') le_rfl (fun a b hab => by
    have := h a b hab
    unfold edgeCount at *
    rw [List.countP_append]; omega)
  rw [List.countP_append] at this
  omega

theorem evenDegrees_iff {V : Type} [DecidableEq V] {l : List (V × V)} :
    EvenDegrees l ↔ ∀ v, l.countP (fun e => decide (e.1 = v) != decide (e.2 = v)) % 2 = 0 := by
  have : ∀ v, endCount l v % 2 = l.countP (fun e => decide (e.1 = v) != decide (e.2 = v)) % 2 := by
    intro v
    unfold endCount
    induction l with
    | nil => rfl
    | cons e l ih =>
      simp only [List.countP_cons]
      by_cases h1 : e.1 = v <;> by_cases h2 : e.2 = v <;> simp [h1, h2] <;> omega
  unfold EvenDegrees
  exact forall_congr' fun v => by rw [Nat.even_iff, this]

section
variable {K : Type} [Field K] [LinearOrder K] [IsStrictOrderedRing K]

theorem triSides_even (ts : List ((K × K) × (K × K) × (K × K))) : EvenDegrees (ts.flatMap triSides) := by
  intro v
  rw [Nat.even_iff]
  induction ts with
  | nil => rfl
  | cons t ts ih =>
    have : endCount (triSides t) v % 2 = 0 := by
      unfold endCount triSides
      simp only [List.countP_cons, List.countP_nil, decide_eq_true_eq]
      by_cases h1 : t.1 = v <;> by_cases h2 : t.2.1 = v <;> by_cases h3 : t.2.2 = v <;> simp [h1, h2, h3]
    unfold endCount at *
    rw [List.flatMap_cons, List.countP_append, List.countP_append]
    omega

variable {ts : List ((K × K) × (K × K) × (K × K))} {segs : List (Seg K)}

theorem Spec.Triangulates.parity (h : Triangulates ts segs) {f : Seg K → Bool} (hs : ∀ e, f e.swap = f e) (hd : ∀ a, f (a, a) = false) :
    segs.countP f % 2 = (ts.flatMap triSides).countP f % 2 :=
  countP_parity hs hd h.border

theorem Spec.Triangulates.even (h : Triangulates ts segs) : EvenDegrees segs := by
  rw [evenDegrees_iff]
  intro v
  rw [h.parity (by intro e; simp [Bool.xor_comm]) (by simp)]
  exact evenDegrees_iff.1 (triSides_even ts) v

/-! ## Triangles -/

theorem closed_of_side {q : K × K} {t : (K × K) × (K × K) × (K × K)} {e : Seg K} (he : e ∈ triSides t ∨ e.swap ∈ triSides t) (hq : OnClosedSegment q e.1 e.2) :
    InClosedTriangle q t.1 t.2.1 t.2.2 := by
  have key : ∀ e' ∈ triSides t, OnClosedSegment q e'.1 e'.2 → InClosedTriangle q t.1 t.2.1 t.2.2 := by
    intro e' he' hq
    obtain ⟨r, r0, r1, hx, hy⟩ := hq
    simp only [triSides, List.mem_cons, List.not_mem_nil, or_false] at he'
    rcases he' with rfl | rfl | rfl
    · exact ⟨1 - r, r, 0, by linarith, r0, le_rfl, by ring, by rw [hx]; ring, by rw [hy]; ring⟩
    · exact ⟨0, 1 - r, r, le_rfl, by linarith, r0, by ring, by rw [hx]; ring, by rw [hy]; ring⟩
    · exact ⟨r, 0, 1 - r, r0, le_rfl, by linarith, by ring, by rw [hx]; ring, by rw [hy]; ring⟩
  rcases he with he | he
  · exact key e he hq
  · refine key _ he ?_
    obtain ⟨r, r0, r1, hx, hy⟩ := hq
    exact ⟨1 - r, by linarith, by linarith, by simp only [Prod.fst_swap, Prod.snd_swap]; rw [hx]; ring, by simp only [Prod.fst_swap, Prod.snd_swap]; rw [hy]; ring⟩

/-- A point between a point of the closed triangle and an inner point is an inner point. -/
theorem inner_between {q g a b c : K × K} (hq : InClosedTriangle q a b c) (hg : InTriangle g a b c) {r : K} (r0 : 0 < r) (r1 : r ≤ 1) :
    InTriangle (q.1 + r * (g.1 - q.1), q.2 + r * (g.2 - q.2)) a b c := by
  obtain ⟨u, v, w, hu, hv, hw, h1, hx, hy⟩ := hq
  obtain ⟨u', v', w', hu', hv', hw', h1', hx', hy'⟩ := hg
  have p : ∀ {x x' : K}, 0 ≤ x → 0 < x' → 0 < (1 - r) * x + r * x' := fun hx hx' =>
    add_pos_of_nonneg_of_pos (mul_nonneg (by linarith) hx) (mul_pos r0 hx')
  refine ⟨(1 - r) * u + r * u', (1 - r) * v + r * v', (1 - r) * w + r * w', p hu hu', p hv hv', p hw hw', ?_, ?_, ?_⟩
  · linear_combination (1 - r) * h1 + r * h1'
  · simp only; rw [hx, hx']; ring
  · simp only; rw [hy, hy']; ring

/-- Every point has barycentric coordinates. -/
theorem barycentric {a b c : K × K} (hD : sideOf a b c ≠ 0) (g : K × K) :
    ∃ u v w : K, u + v + w = 1 ∧ g.1 = u * a.1 + v * b.1 + w * c.1 ∧ g.2 = u * a.2 + v * b.2 + w * c.2 := by
  have hsum : sideOf b c g + sideOf c a g + sideOf a b g = sideOf a b c := by unfold sideOf; ring
  refine ⟨sideOf b c g / sideOf a b c, sideOf c a g / sideOf a b c, sideOf a b g / sideOf a b c, ?_, ?_, ?_⟩
  · rw [← add_div, ← add_div, hsum, div_self hD]
  · field_simp
    unfold sideOf; ring
  · field_simp
    unfold sideOf; ring

/-- Inner points stay inner points on the first part of the way to any point. -/
theorem inner_near {z g a b c : K × K} (hD : sideOf a b c ≠ 0) (hz : InTriangle z a b c) :
    ∃ r : K, 0 < r ∧ r ≤ 1 ∧ InTriangle (z.1 + r * (g.1 - z.1), z.2 + r * (g.2 - z.2)) a b c := by
  obtain ⟨u, v, w, hu, hv, hw, h1, hx, hy⟩ := hz
  obtain ⟨u', v', w', h1', hx', hy'⟩ := barycentric hD g
  let m := min u (min v w)
  let M := |u'| + |v'| + |w'|
  have hm : 0 < m := lt_min hu (lt_min hv hw)
  have hM : 0 ≤ M := by positivity
  have hd : 0 < 2 * (m + M) := by linarith
  let r := m / (2 * (m + M))
  have r0 : 0 < r := div_pos hm hd
  have r1 : r ≤ 1 := by
    rw [div_le_one hd]; linarith
  have er : r * (2 * (m + M)) = m := div_mul_cancel₀ _ hd.ne'
  have p : ∀ {x x' : K}, m ≤ x → - M ≤ x' → 0 < (1 - r) * x + r * x' := by
    intro x x' hx hx'
    have k1 : (1 - r) * m ≤ (1 - r) * x := mul_le_mul_of_nonneg_left hx (by linarith)
    have k2 : r * (- M) ≤ r * x' := mul_le_mul_of_nonneg_left hx' r0.le
    have k3 : (1 - r) * m + r * (- M) = m / 2 := by linear_combination (- 1 / 2) * er
    linarith
  have a1 := neg_abs_le u'
  have a2 := neg_abs_le v'
  have a3 := neg_abs_le w'
  have b1 := abs_nonneg u'
  have b2 := abs_nonneg v'
  have b3 := abs_nonneg w'
  refine ⟨r, r0, r1, (1 - r) * u + r * u', (1 - r) * v + r * v', (1 - r) * w + r * w', p (min_le_left _ _) ?_, p ?_ ?_, p ?_ ?_, ?_, ?_, ?_⟩
  · show - (|u'| + |v'| + |w'|) ≤ u'; linarith
  · exact (min_le_right _ _).trans (min_le_left _ _)
  · show - (|u'| + |v'| + |w'|) ≤ v'; linarith
  · exact (min_le_right _ _).trans (min_le_right _ _)
  · show - (|u'| + |v'| + |w'|) ≤ w'; linarith
  · linear_combination (1 - r) * h1 + r * h1'
  · simp only; rw [hx, hx']; ring
  · simp only; rw [hy, hy']; ring

/-- The centroid. -/
def centroidOf (t : (K × K) × (K × K) × (K × K)) : K × K := ((t.1.1 + t.2.1.1 + t.2.2.1) / 3, (t.1.2 + t.2.1.2 + t.2.2.2) / 3)

theorem centroidOf_inner (t : (K × K) × (K × K) × (K × K)) : InTriangle (centroidOf t) t.1 t.2.1 t.2.2 :=
  ⟨1 / 3, 1 / 3, 1 / 3, by positivity, by positivity, by positivity, by norm_num, by simp only [centroidOf]; ring, by simp only [centroidOf]; ring⟩

/-- An inner point of a triangle is no point of a closed triangle without common inner points. -/
theorem inner_not_closed {s t : (K × K) × (K × K) × (K × K)} (ht : sideOf t.1 t.2.1 t.2.2 ≠ 0)
    (h : ∀ q, InTriangle q s.1 s.2.1 s.2.2 → ¬ InTriangle q t.1 t.2.1 t.2.2) {z : K × K} (hz : InTriangle z t.1 t.2.1 t.2.2) :
    ¬ InClosedTriangle z s.1 s.2.1 s.2.2 := by
  intro hc
  obtain ⟨r, r0, r1, hr⟩ := inner_near (g := centroidOf s) ht hz
  exact h _ (inner_between hc (centroidOf_inner s) r0 r1) hr

theorem closed_of_inner {z a b c : K × K} (h : InTriangle z a b c) : InClosedTriangle z a b c := by
  obtain ⟨u, v, w, hu, hv, hw, h1, hx, hy⟩ := h
  exact ⟨u, v, w, hu.le, hv.le, hw.le, h1, hx, hy⟩

/-- An inner point is not on a side. -/
theorem inner_not_side {t : (K × K) × (K × K) × (K × K)} (ht : sideOf t.1 t.2.1 t.2.2 ≠ 0) {z : K × K} (hz : InTriangle z t.1 t.2.1 t.2.2) {e : Seg K}
    (he : e ∈ triSides t) : ¬ OnClosedSegment z e.1 e.2 := by
  intro hs
  obtain ⟨u, v, w, hu, hv, hw, h1, hx, hy⟩ := hz
  obtain ⟨r, -, -, kx, ky⟩ := hs
  have hu' : u = 1 - v - w := by linear_combination h1
  have s0 : ∀ {p q : K × K}, z.1 = p.1 + r * (q.1 - p.1) → z.2 = p.2 + r * (q.2 - p.2) → sideOf p q z = 0 := by
    intro p q h2 h3
    unfold sideOf; rw [h2, h3]; ring
  have e1 : sideOf t.1 t.2.1 z = w * sideOf t.1 t.2.1 t.2.2 := by unfold sideOf; rw [hx, hy, hu']; ring
  have e2 : sideOf t.2.1 t.2.2 z = u * sideOf t.1 t.2.1 t.2.2 := by unfold sideOf; rw [hx, hy, hu']; ring
  have e3 : sideOf t.2.2 t.1 z = v * sideOf t.1 t.2.1 t.2.2 := by unfold sideOf; rw [hx, hy, hu']; ring
  simp only [triSides, List.mem_cons, List.not_mem_nil, or_false] at he
  rcases he with rfl | rfl | rfl
  · rw [s0 kx ky] at e1; exact mul_ne_zero hw.ne' ht e1.symm
  · rw [s0 kx ky] at e2; exact mul_ne_zero hu.ne' ht e2.symm
  · rw [s0 kx ky] at e3; exact mul_ne_zero hv.ne' ht e3.symm

/-! ## The region -/

theorem crossesRight_self (q a : K × K) : crossesRight q (a, a) = false := by simp [crossesRight]

theorem sides_parity {t : (K × K) × (K × K) × (K × K)} (ht : sideOf t.1 t.2.1 t.2.2 ≠ 0) {q : K × K} (hq : ∀ e ∈ triSides t, ¬ OnClosedSegment q e.1 e.2) :
    (triSides t).countP (crossesRight q) % 2 = 1 ↔ InTriangle q t.1 t.2.1 t.2.2 :=
  triangle_parity ht (hq (t.1, t.2.1) (by simp [triSides])) (hq (t.2.1, t.2.2) (by simp [triSides])) (hq (t.2.2, t.1) (by simp [triSides]))

theorem region_outside (h : Triangulates ts segs) {q : K × K} (hq : ∀ t ∈ ts, ¬ InClosedTriangle q t.1 t.2.1 t.2.2) : segs.countP (crossesRight q) % 2 = 0 := by
  rw [h.parity (crossesRight_swap q) (crossesRight_self q)]
  have hA := h.area
  clear h
  induction ts with
  | nil => rfl
  | cons t ts ih =>
    have h1 : ¬ (triSides t).countP (crossesRight q) % 2 = 1 := by
      rw [sides_parity (hA t (by simp)) fun e he ho => hq t (by simp) (closed_of_side (.inl he) ho)]
      exact fun hi => hq t (by simp) (closed_of_inner hi)
    have h2 := ih (fun t' ht' => hq t' (by simp [ht'])) fun t' ht' => hA t' (by simp [ht'])
    rw [List.flatMap_cons, List.countP_append]
    omega

theorem region_centroid (hA : ∀ t ∈ ts, sideOf t.1 t.2.1 t.2.2 ≠ 0)
    (hP : ts.Pairwise fun s t => ∀ q, InTriangle q s.1 s.2.1 s.2.2 → ¬ InTriangle q t.1 t.2.1 t.2.2) {t : (K × K) × (K × K) × (K × K)} (ht : t ∈ ts) :
    (ts.flatMap triSides).countP (crossesRight (centroidOf t)) % 2 = 1 := by
  have zero : ∀ l : List ((K × K) × (K × K) × (K × K)), (∀ s ∈ l, sideOf s.1 s.2.1 s.2.2 ≠ 0 ∧ ¬ InClosedTriangle (centroidOf t) s.1 s.2.1 s.2.2) →
      (l.flatMap triSides).countP (crossesRight (centroidOf t)) % 2 = 0 := by
    intro l hl
    induction l with
    | nil => rfl
    | cons s l ih =>
      obtain ⟨h1, h2⟩ := hl s (by simp)
      have h3 : ¬ (triSides s).countP (crossesRight (centroidOf t)) % 2 = 1 := by
        rw [sides_parity h1 fun e he ho => h2 (closed_of_side (.inl he) ho)]
        exact fun hi => h2 (closed_of_inner hi)
      have := ih fun s' hs' => hl s' (by simp [hs'])
      rw [List.flatMap_cons, List.countP_append]
      omega
  obtain ⟨l1, l2, rfl⟩ := List.append_of_mem ht
  obtain ⟨-, p2, p3⟩ := List.pairwise_append.1 hP
  have hself : (triSides t).countP (crossesRight (centroidOf t)) % 2 = 1 :=
    (sides_parity (hA t ht) fun e he => inner_not_side (hA t ht) (centroidOf_inner t) he).2 (centroidOf_inner t)
  have z1 := zero l1 fun s hs => ⟨hA s (by simp [hs]), inner_not_closed (hA t ht) (p3 s hs t (by simp)) (centroidOf_inner t)⟩
  have z2 := zero l2 fun s hs => ⟨hA s (by simp [hs]), inner_not_closed (hA t ht)
    (fun q h1 h2 => (List.pairwise_cons.1 p2).1 s hs q h2 h1) (centroidOf_inner t)⟩
  rw [List.flatMap_append, List.flatMap_cons, List.countP_append, List.countP_append]
  omega

/-- An edge of the border has no point inside of a triangle. -/
theorem border_not_inner (h : Triangulates ts segs) {t : (K × K) × (K × K) × (K × K)} (ht : t ∈ ts) {z : K × K} (hz : InTriangle z t.1 t.2.1 t.2.2) {e : Seg K}
    (he : e ∈ segs) (hne : e.1 ≠ e.2) : ¬ OnClosedSegment z e.1 e.2 := by
  intro ho
  obtain ⟨s, hs, hse⟩ := h.sides e he hne
  by_cases hst : s = t
  · subst hst
    rcases hse with hse | hse
    · exact inner_not_side (h.area s hs) hz hse ho
    · refine inner_not_side (h.area s hs) hz hse ?_
      obtain ⟨r, r0, r1, hx, hy⟩ := ho
      exact ⟨1 - r, by linarith, by linarith, by simp only [Prod.fst_swap, Prod.snd_swap]; rw [hx]; ring, by simp only [Prod.fst_swap, Prod.snd_swap]; rw [hy]; ring⟩
  · have : Std.Symm fun s t : (K × K) × (K × K) × (K × K) => ∀ q, InTriangle q s.1 s.2.1 s.2.2 → ¬ InTriangle q t.1 t.2.1 t.2.2 :=
      ⟨fun a b h q h1 h2 => h q h2 h1⟩
    exact inner_not_closed (h.area t ht) (h.apart.forall hs ht hst) hz (closed_of_side hse ho)

theorem region_inside (h : Triangulates ts segs) {q : K × K} (hoff : ∀ e ∈ segs, e.1 ≠ e.2 → ¬ OnClosedSegment q e.1 e.2)
    {t : (K × K) × (K × K) × (K × K)} (ht : t ∈ ts) (hq : InClosedTriangle q t.1 t.2.1 t.2.2) : segs.countP (crossesRight q) % 2 = 1 := by
  -- without the degenerate edges
  let segs' := segs.filter fun e => e.1 ≠ e.2
  have hcnt : ∀ v, segs'.countP (crossesRight v) = segs.countP (crossesRight v) := by
    intro v
    rw [List.countP_filter]
    refine List.countP_congr fun e _ => ?_
    by_cases he : e.1 = e.2
    · have : e = (e.2, e.2) := Prod.ext he rfl
      rw [this]; simp [crossesRight_self]
    · simp [he]
  have h' : Triangulates ts segs' := ⟨h.area, h.apart, fun e he => h.sides e (List.mem_filter.1 he).1, fun a b hab => by
    rw [← h.border a b hab]
    congr 1
    unfold edgeCount
    rw [List.countP_filter]
    refine List.countP_congr fun e _ => ?_
    simp only [Bool.and_eq_true, decide_eq_true_eq]
    constructor
    · exact fun h => h.1
    · rintro (rfl | rfl)
      · exact ⟨.inl rfl, hab⟩
      · exact ⟨.inr rfl, hab.symm⟩⟩
  have hpath : MeetsProperly segs' [q, centroidOf t] 0 := by
    refine .step q (centroidOf t) [] 0 [] segs' (List.Perm.refl _) (by simp) ?_ (.single _)
    intro e he z hz ho
    obtain ⟨he, hne⟩ := List.mem_filter.1 he
    have hne : e.1 ≠ e.2 := by simpa using hne
    obtain ⟨r, r0, r1, hx, hy⟩ := hz
    rcases eq_or_lt_of_le r0 with hr | hr
    · subst hr
      have : z = q := Prod.ext (by rw [hx]; ring) (by rw [hy]; ring)
      rw [this] at ho
      exact hoff e he hne ho
    · have hi := inner_between hq (centroidOf_inner t) hr r1
      rw [← hx, ← hy] at hi
      exact border_not_inner h ht hi he hne ho
  have hp := path_parity h'.even hpath q [centroidOf t] rfl
  simp only [List.getLast_cons_cons, List.getLast_singleton, hcnt] at hp
  have hc := region_centroid h.area h.apart ht
  rw [← h.parity (crossesRight_swap _) (crossesRight_self _)] at hc
  omega

theorem region_parity (h : Triangulates ts segs) {q : K × K} (hoff : ∀ e ∈ segs, e.1 ≠ e.2 → ¬ OnClosedSegment q e.1 e.2) :
    segs.countP (crossesRight q) % 2 = 1 ↔ ∃ t ∈ ts, InClosedTriangle q t.1 t.2.1 t.2.2 := by
  constructor
  · intro h1
    by_contra hn
    rw [region_outside h fun t ht hc => hn ⟨t, ht, hc⟩] at h1
    simp at h1
  · rintro ⟨t, ht, hc⟩
    exact region_inside h hoff ht hc

/-- **C101**, compiled kernel: every point that is not reported on the boundary is inside exactly if it is a point of the region. -/
theorem C101_region_compiled {ftol : K} (hf : 0 ≤ ftol) (h : Triangulates ts segs) {q : K × K} (hb : (cPoint ftol segs q).2 = false) :
    (cPoint ftol segs q).1 = true ↔ ∃ t ∈ ts, InClosedTriangle q t.1 t.2.1 t.2.2 := by
  have hoff : ∀ e ∈ segs, e.1 ≠ e.2 → ¬ OnClosedSegment q e.1 e.2 := by
    intro e he hne ho
    have := ((C51_boundary hf (le_refl 3) segs q).1 ⟨e, he, hne, ho⟩).2
    rw [this] at hb; simp at hb
  rw [← region_parity h hoff]
  simp only [cPoint_eq] at hb ⊢
  rw [hb, Bool.false_or, beq_iff_eq]
  rw [List.countP_congr (fun s _ => by rw [cCount_eq hf] : ∀ s ∈ segs, cCount ftol q s = true ↔ crossesRight q s = true)]

/-- **C101**, Python kernel: the same if the point is not level with a nearly horizontal edge. -/
theorem C101_region_python_partial {ftol : K} (hf : 0 ≤ ftol) {n : Nat} (hn : 3 ≤ n) (h : Triangulates ts segs) {q : K × K}
    (hflat : ∀ s ∈ segs, LevelClear ftol 0 q.2 s) (hb : (pyPoint ftol n segs q).2 = false) : (pyPoint ftol n segs q).1 = true ↔ ∃ t ∈ ts, InClosedTriangle q t.1 t.2.1 t.2.2 := by
  have hoff : ∀ e ∈ segs, e.1 ≠ e.2 → ¬ OnClosedSegment q e.1 e.2 := by
    intro e he hne ho
    have := ((C51_boundary hf hn segs q).1 ⟨e, he, hne, ho⟩).1
    rw [this] at hb; simp at hb
  rw [← region_parity h hoff, pyPoint_parity hf hn h.even hflat (pyHit_of_flag hn hb), beq_iff_eq]

/-- **C51** exactly (Python kernel): for a closed polygon and a point that is not reported on the boundary, the answer is the even-odd rule exactly if the point
is outside of the box by more than the tolerance, or the ray from the point to the right meets an even number of nearly flat edges, which the kernel skips. -/
theorem C51_flat_edges {ftol : K} (hf : 0 ≤ ftol) {n : Nat} (hn : 3 ≤ n) (he : EvenDegrees segs) {q : K × K} (hb : (pyPoint ftol n segs q).2 = false) :
    ((pyPoint ftol n segs q).1 = true ↔ Odd (segs.countP fun s => decide (RayMeets q s))) ↔
      OutsideBy ftol q (endPoints segs) ∨ Even (segs.countP fun s => decide (|s.2.2 - s.1.2| ≤ ftol ∧ RayMeets q s)) := by
  have hr : ∀ s : Seg K, decide (RayMeets q s) = crossesRight q s := fun s => by
    rw [Bool.eq_iff_iff, decide_eq_true_eq, crossesRight, Bool.and_eq_true, straddle_iff, decide_eq_true_eq, RayMeets]
  simp only [Bool.decide_and, hr]
  rw [pyPoint_eq] at hb ⊢
  by_cases hc : segs = [] ∨ n < 3 ∨ pyReject ftol q segs
  · rw [if_pos hc]
    rcases hc with hc | hc | hc
    · subst hc; simp
    · omega
    · have h3 := even_of_reject hf (even_straddle segs he) hc
      simp [(pyReject_iff _ _ _).1 hc, h3]
  · rw [if_neg hc] at hb ⊢
    simp only at hb
    push Not at hc
    have hout : ¬ OutsideBy ftol q (endPoints segs) := fun h => hc.2.2 ((pyReject_iff _ _ _).2 h)
    have hsplit : segs.countP (crossesRight q) = segs.countP (pyCount ftol q) + segs.countP fun s => decide (|s.2.2 - s.1.2| ≤ ftol) && crossesRight q s := by
      rw [List.countP_eq_countP_filter_add segs (crossesRight q) (fun s => !decide (|s.2.2 - s.1.2| ≤ ftol)), List.countP_filter, List.countP_filter]
      congr 1
      · refine List.countP_congr fun s _ => ?_
        by_cases hd : |s.2.2 - s.1.2| ≤ ftol
        · simp [hd, pyCount, pyCross]
        · rw [pyCount_eq hf q s fun h => absurd h hd]
          simp [hd]
      · refine List.countP_congr fun s _ => ?_
        simp [and_comm]
    simp only [hb, Bool.false_or, beq_iff_eq, hout, false_or, ← Nat.odd_iff]
    rw [hsplit, Nat.odd_add]
    by_cases h1 : Odd (segs.countP (pyCount ftol q)) <;> simp [h1]

/-- **C101** exactly (Python kernel): the answer at a point that is not reported on the boundary is right exactly if the point is outside of the box or the ray
to the right meets an even number of nearly flat edges. -/
theorem C101_python_right_iff {ftol : K} (hf : 0 ≤ ftol) {n : Nat} (hn : 3 ≤ n) (h : Triangulates ts segs) {q : K × K} (hb : (pyPoint ftol n segs q).2 = false) :
    ((pyPoint ftol n segs q).1 = true ↔ ∃ t ∈ ts, InClosedTriangle q t.1 t.2.1 t.2.2) ↔
      OutsideBy ftol q (endPoints segs) ∨ Even (segs.countP fun s => decide (|s.2.2 - s.1.2| ≤ ftol ∧ RayMeets q s)) := by
  have hoff : ∀ e ∈ segs, e.1 ≠ e.2 → ¬ OnClosedSegment q e.1 e.2 := by
    intro e he hne ho
    have := ((C51_boundary hf hn segs q).1 ⟨e, he, hne, ho⟩).1
    rw [this] at hb; simp at hb
  have hr : ∀ s : Seg K, decide (RayMeets q s) = crossesRight q s := fun s => by
    rw [Bool.eq_iff_iff, decide_eq_true_eq, crossesRight, Bool.and_eq_true, straddle_iff, decide_eq_true_eq, RayMeets]
  rw [← C51_flat_edges hf hn h.even hb, ← region_parity h hoff, Nat.odd_iff]
  simp only [hr]

/-! ## Convex rings -/

/-- The triangles of the first vertex with the other edges. -/
def fan (a : K × K) : List (K × K) → List ((K × K) × (K × K) × (K × K))
  | [] => []
  | [_] => []
  | b :: c :: l => (a, b, c) :: fan a (c :: l)

theorem turn_cycle (a b c : K × K) : turnOf b c a = turnOf a b c := by unfold turnOf; ring

theorem turn_swap (a b c : K × K) : turnOf b a c = - turnOf a b c := by unfold turnOf; ring

theorem mem_fan {a : K × K} : ∀ {l : List (K × K)} {t : (K × K) × (K × K) × (K × K)}, t ∈ fan a l → t.1 = a ∧ t.2.1 ∈ l ∧ t.2.2 ∈ l
  | [], t, h => by simp [fan] at h
  | [_], t, h => by simp [fan] at h
  | b :: c :: l, t, h => by
    rcases List.mem_cons.1 h with rfl | h
    · simp
    · obtain ⟨h1, h2, h3⟩ := mem_fan h
      exact ⟨h1, List.mem_cons_of_mem _ h2, List.mem_cons_of_mem _ h3⟩

theorem fan_area {a : K × K} : ∀ {l : List (K × K)}, l.Pairwise (fun b c => 0 < turnOf a b c) → ∀ t ∈ fan a l, 0 < turnOf t.1 t.2.1 t.2.2
  | [], _, t, h => by simp [fan] at h
  | [_], _, t, h => by simp [fan] at h
  | b :: c :: l, hp, t, h => by
    rcases List.mem_cons.1 h with rfl | h
    · exact (List.pairwise_cons.1 hp).1 c (by simp)
    · exact fan_area (List.pairwise_cons.1 hp).2 t h

/-- `turnOf a b` is affine in the last point. -/
theorem turn_combine {a b q x y z : K × K} {u v w : K} (h1 : u + v + w = 1) (hx : q.1 = u * x.1 + v * y.1 + w * z.1) (hy : q.2 = u * x.2 + v * y.2 + w * z.2) :
    turnOf a b q = u * turnOf a b x + v * turnOf a b y + w * turnOf a b z := by
  have hu : u = 1 - v - w := by linear_combination h1
  unfold turnOf
  rw [hx, hy, hu]; ring

theorem fan_apart {a : K × K} : ∀ {l : List (K × K)}, l.Pairwise (fun b c => 0 < turnOf a b c) →
    (fan a l).Pairwise fun s t => ∀ q, InTriangle q s.1 s.2.1 s.2.2 → ¬ InTriangle q t.1 t.2.1 t.2.2
  | [], _ => List.Pairwise.nil
  | [_], _ => List.Pairwise.nil
  | b :: c :: l, hp => by
    obtain ⟨hp1, hp2⟩ := List.pairwise_cons.1 hp
    refine List.pairwise_cons.2 ⟨fun t ht q h1 h2 => ?_, fan_apart hp2⟩
    obtain ⟨u, v, w, hu, hv, hw, h3, hx, hy⟩ := h1
    obtain ⟨u', v', w', hu', hv', hw', h3', hx', hy'⟩ := h2
    obtain ⟨e1, m1, m2⟩ := mem_fan ht
    -- from one side of the line from `a` to `c`
    have k1 := turn_combine (a := a) (b := c) h3 hx hy
    have z1 : turnOf a c a = 0 := by unfold turnOf; ring
    have z2 : turnOf a c c = 0 := by unfold turnOf; ring
    have z3 : turnOf a c b < 0 := by
      have h4 : turnOf a c b = - turnOf a b c := by unfold turnOf; ring
      have := hp1 c (by simp)
      rw [h4]; linarith
    simp only [z1, z2, mul_zero, zero_add, add_zero] at k1
    have k2 : turnOf a c q < 0 := by rw [k1]; exact mul_neg_of_pos_of_neg hv z3
    -- and from the other
    have nn : ∀ x ∈ c :: l, 0 ≤ turnOf a c x := by
      intro x hx
      rcases List.mem_cons.1 hx with rfl | hx
      · rw [z2]
      · exact ((List.pairwise_cons.1 hp2).1 x hx).le
    have k3 := turn_combine (a := a) (b := c) h3' hx' hy'
    rw [e1, z1, mul_zero, zero_add] at k3
    have : 0 ≤ turnOf a c q := by
      rw [k3]
      exact add_nonneg (mul_nonneg hv'.le (nn _ m1)) (mul_nonneg hw'.le (nn _ m2))
    linarith

theorem edgeCount_cons {V : Type} [DecidableEq V] (e : V × V) (l : List (V × V)) (x y : V) :
    edgeCount (e :: l) x y = edgeCount l x y + if e = (x, y) ∨ e = (y, x) then 1 else 0 := by
  unfold edgeCount; rw [List.countP_cons]; simp

theorem fan_border (a : K × K) (x y : K × K) : ∀ (b : K × K) (l : List (K × K)),
    edgeCount ((a, b) :: edgesBackTo a (b :: l)) x y % 2 = edgeCount ((fan a (b :: l)).flatMap triSides) x y % 2
  | b, [] => by
    simp only [edgesBackTo, fan, List.flatMap_nil, edgeCount_cons, Prod.mk.injEq]
    have : edgeCount ([] : List ((K × K) × (K × K))) x y = 0 := rfl
    rw [this]
    by_cases h1 : a = x ∧ b = y
    · simp [h1.1, h1.2]
    · by_cases h2 : a = y ∧ b = x
      · simp [h2.1, h2.2]
      · have h3 : ¬ (b = x ∧ a = y) := fun h => h2 ⟨h.2, h.1⟩
        have h4 : ¬ (b = y ∧ a = x) := fun h => h1 ⟨h.2, h.1⟩
        simp [h1, h2, h3, h4]
  | b, c :: l => by
    have ih := fan_border a x y c l
    have e1 : edgesBackTo a (b :: c :: l) = (b, c) :: edgesBackTo a (c :: l) := rfl
    have e2 : (fan a (b :: c :: l)).flatMap triSides = (a, b) :: (b, c) :: (c, a) :: (fan a (c :: l)).flatMap triSides := rfl
    rw [e1, e2]
    simp only [edgeCount_cons] at ih ⊢
    have h : (if ((c, a) : (K × K) × (K × K)) = (x, y) ∨ (c, a) = (y, x) then 1 else 0) = if ((a, c) : (K × K) × (K × K)) = (x, y) ∨ (a, c) = (y, x) then 1 else 0 := by
      congr 1
      simp only [Prod.mk.injEq, eq_iff_iff]
      tauto
    rw [h]
    omega

theorem fan_sides (a : K × K) : ∀ (b : K × K) (l : List (K × K)), ∀ e ∈ (a, b) :: edgesBackTo a (b :: l), l ≠ [] →
    ∃ t ∈ fan a (b :: l), e ∈ triSides t ∨ e.swap ∈ triSides t
  | b, [], e, he, hl => absurd rfl hl
  | b, [c], e, he, _ => by
    refine ⟨(a, b, c), by simp [fan], .inl ?_⟩
    simpa [edgesBackTo, triSides] using he
  | b, c :: d :: l, e, he, _ => by
    have e1 : edgesBackTo a (b :: c :: d :: l) = (b, c) :: edgesBackTo a (c :: d :: l) := rfl
    rw [e1] at he
    rcases List.mem_cons.1 he with rfl | he
    · exact ⟨(a, b, c), List.mem_cons_self, .inl (by simp [triSides])⟩
    · rcases List.mem_cons.1 he with rfl | he
      · exact ⟨(a, b, c), List.mem_cons_self, .inl (by simp [triSides])⟩
      · obtain ⟨t, ht, h⟩ := fan_sides a c (d :: l) e (List.mem_cons_of_mem _ he) (by simp)
        exact ⟨t, List.mem_cons_of_mem _ ht, h⟩

/-- The fan of a convex ring. -/
theorem convex_triangulates {a b c : K × K} {l : List (K × K)} (h : ConvexRing (a :: b :: c :: l)) :
    Triangulates (fan a (b :: c :: l)) (ringEdges (a :: b :: c :: l)) where
  area t ht := (fan_area h.1 t ht).ne'
  apart := fan_apart h.1
  sides e he _ := fan_sides a b (c :: l) e he (by simp)
  border x y _ := fan_border a x y b (c :: l)

/-- All vertices of a convex ring are left of (or on) all edges. -/
theorem back_left {z : K × K} : ∀ {l : List (K × K)}, l.Pairwise (fun b c => 0 < turnOf z b c) → ConvexRing l → ∀ e ∈ edgesBackTo z l,
    (∀ v ∈ l, 0 ≤ turnOf e.1 e.2 v) ∧ 0 ≤ turnOf e.1 e.2 z
  | [], _, _, e, he => by simp [edgesBackTo] at he
  | [a], _, _, e, he => by
    obtain rfl : e = (a, z) := by simpa [edgesBackTo] using he
    refine ⟨fun v hv => ?_, ?_⟩
    · obtain rfl : v = a := by simpa using hv
      apply le_of_eq; unfold turnOf; ring
    · apply le_of_eq; unfold turnOf; ring
  | a :: b :: l, hz, hc, e, he => by
    obtain ⟨hz1, hz2⟩ := List.pairwise_cons.1 hz
    rcases List.mem_cons.1 he with rfl | he
    · refine ⟨fun v hv => ?_, ?_⟩
      · simp only [List.mem_cons] at hv
        rcases hv with rfl | rfl | hv
        · apply le_of_eq; unfold turnOf; ring
        · apply le_of_eq; unfold turnOf; ring
        · exact ((List.pairwise_cons.1 hc.1).1 v hv).le
      · rw [turn_cycle]; exact (hz1 b (by simp)).le
    · have he2 : e ∈ edgesBackTo z (b :: l) := he
      obtain ⟨h1, h2⟩ := back_left hz2 hc.2 e he
      refine ⟨fun v hv => ?_, h2⟩
      rcases List.mem_cons.1 hv with rfl | hv
      · -- the first vertex: edges between later vertices, or the last edge
        have aux : ∀ (l : List (K × K)) (w : K × K), l.Pairwise (fun b c => 0 < turnOf w b c) → (∀ x ∈ l, 0 < turnOf z w x) → ∀ e ∈ edgesBackTo z l,
            0 ≤ turnOf e.1 e.2 w := by
          intro l
          induction l with
          | nil => intro w _ _ e he; simp [edgesBackTo] at he
          | cons x l ih =>
            intro w hw hzw e he
            cases l with
            | nil =>
              obtain rfl : e = (x, z) := by simpa [edgesBackTo] using he
              rw [turn_cycle, turn_cycle]
              exact (hzw x (by simp)).le
            | cons y l =>
              rcases List.mem_cons.1 he with rfl | he
              · rw [turn_cycle]; exact ((List.pairwise_cons.1 hw).1 y (by simp)).le
              · exact ih w (List.pairwise_cons.1 hw).2 (fun x' hx' => hzw x' (List.mem_cons_of_mem _ hx')) e he
        exact aux (b :: l) v hc.1 hz1 e he2
      · exact h1 v hv

theorem closed_of_turns {a b c q : K × K} (hD : 0 < turnOf a b c) (h1 : 0 ≤ turnOf a b q) (h2 : 0 ≤ turnOf b c q) (h3 : 0 ≤ turnOf c a q) :
    InClosedTriangle q a b c := by
  have hsum : turnOf b c q + turnOf c a q + turnOf a b q = turnOf a b c := by unfold turnOf; ring
  refine ⟨turnOf b c q / turnOf a b c, turnOf c a q / turnOf a b c, turnOf a b q / turnOf a b c, div_nonneg h2 hD.le, div_nonneg h3 hD.le, div_nonneg h1 hD.le, ?_, ?_, ?_⟩
  · rw [← add_div, ← add_div, hsum, div_self hD.ne']
  · have := hD.ne'
    field_simp
    unfold turnOf; ring
  · have := hD.ne'
    field_simp
    unfold turnOf; ring

theorem fan_covers {a q : K × K} : ∀ {b : K × K} {l : List (K × K)}, l ≠ [] → (b :: l).Pairwise (fun b c => 0 < turnOf a b c) → 0 ≤ turnOf a b q →
    (∀ e ∈ edgesBackTo a (b :: l), 0 ≤ turnOf e.1 e.2 q) → ∃ t ∈ fan a (b :: l), InClosedTriangle q t.1 t.2.1 t.2.2
  | b, [], h, _, _, _ => absurd rfl h
  | b, [c], _, hp, h1, he => by
    refine ⟨(a, b, c), by simp [fan], closed_of_turns ((List.pairwise_cons.1 hp).1 c (by simp)) h1 ?_ ?_⟩
    · exact he (b, c) (by simp [edgesBackTo])
    · exact he (c, a) (by simp [edgesBackTo])
  | b, c :: d :: l, _, hp, h1, he => by
    by_cases h2 : 0 ≤ turnOf a c q
    · obtain ⟨t, ht, h3⟩ := fan_covers (b := c) (l := d :: l) (by simp) (List.pairwise_cons.1 hp).2 h2 fun e he' => he e (List.mem_cons_of_mem _ he')
      exact ⟨t, List.mem_cons_of_mem _ ht, h3⟩
    · refine ⟨(a, b, c), List.mem_cons_self, closed_of_turns ((List.pairwise_cons.1 hp).1 c (by simp)) h1 ?_ ?_⟩
      · exact he (b, c) List.mem_cons_self
      · rw [turn_swap]; linarith

theorem convex_region {a b c : K × K} {l : List (K × K)} (h : ConvexRing (a :: b :: c :: l)) (q : K × K) :
    (∃ t ∈ fan a (b :: c :: l), InClosedTriangle q t.1 t.2.1 t.2.2) ↔ ∀ e ∈ ringEdges (a :: b :: c :: l), 0 ≤ turnOf e.1 e.2 q := by
  constructor
  · rintro ⟨t, ht, u, v, w, hu, hv, hw, h1, hx, hy⟩ e he
    obtain ⟨e1, m1, m2⟩ := mem_fan ht
    have left : ∀ x ∈ a :: b :: c :: l, 0 ≤ turnOf e.1 e.2 x := by
      have hz : (a :: b :: c :: l).Pairwise (fun x y => 0 ≤ turnOf a x y) := by
        refine List.pairwise_cons.2 ⟨fun x _ => le_of_eq (by unfold turnOf; ring), h.1.imp fun h => h.le⟩
      rcases List.mem_cons.1 he with rfl | he
      · intro x hx
        simp only [List.mem_cons] at hx
        rcases hx with rfl | rfl | hx
        · apply le_of_eq; unfold turnOf; ring
        · apply le_of_eq; unfold turnOf; ring
        · exact ((List.pairwise_cons.1 h.1).1 x (by simpa using hx)).le
      · obtain ⟨k1, k2⟩ := back_left h.1 h.2 e he
        intro x hx
        rcases List.mem_cons.1 hx with rfl | hx
        · exact k2
        · exact k1 x hx
    rw [turn_combine h1 hx hy, e1]
    exact add_nonneg (add_nonneg (mul_nonneg hu (left a (by simp))) (mul_nonneg hv (left _ (List.mem_cons_of_mem _ m1))))
      (mul_nonneg hw (left _ (List.mem_cons_of_mem _ m2)))
  · intro he
    exact fan_covers (by simp) h.1 (he (a, b) List.mem_cons_self) fun e he' => he e (List.mem_cons_of_mem _ he')

/-- **C101**, convex rings with any number of vertices: a point not reported on the boundary is inside exactly if it is left of all edges. The order and
the directions of the edges do not matter. -/
theorem C101_convex {ftol : K} (hf : 0 ≤ ftol) {ring : List (K × K)} (h : ConvexRing ring) (h3 : 3 ≤ ring.length) {segs : List (Seg K)}
    (hs : SameEdges (ringEdges ring) segs) {q : K × K} (hb : (cPoint ftol segs q).2 = false) :
    (cPoint ftol segs q).1 = true ↔ ∀ e ∈ ringEdges ring, 0 ≤ turnOf e.1 e.2 q := by
  match ring, h3 with
  | a :: b :: c :: l, _ =>
    rw [C49_compiled ftol hs] at hb ⊢
    rw [C101_region_compiled hf (convex_triangulates h) hb, convex_region h]

end

/-- A square of four triangles around a hole, cut into eight triangles; the edges are those of the two rings, one of them twice more. -/
def frameTris : List ((ℚ × ℚ) × (ℚ × ℚ) × (ℚ × ℚ)) :=
  [((0, 0), (3, 0), (1, 1)), ((3, 0), (2, 1), (1, 1)), ((3, 0), (3, 3), (2, 1)), ((3, 3), (2, 2), (2, 1)), ((3, 3), (0, 3), (2, 2)), ((0, 3), (1, 2), (2, 2)),
    ((0, 3), (0, 0), (1, 2)), ((0, 0), (1, 1), (1, 2))]

def frameEdges : List (Seg ℚ) :=
  [((0, 0), (3, 0)), ((3, 0), (3, 3)), ((3, 3), (0, 3)), ((0, 3), (0, 0)), ((1, 1), (2, 1)), ((2, 1), (2, 2)), ((2, 2), (1, 2)), ((1, 2), (1, 1)),
    ((2, 1), (1, 1)), ((1, 1), (2, 1)), ((1, 1), (1, 1))]

/-- Two triangles have no common inner points if a side of one of them has them on different sides. -/
theorem turns_apart {a b s1 s2 s3 t1 t2 t3 : ℚ × ℚ} (h1 : 0 ≤ turnOf a b s1 ∧ 0 ≤ turnOf a b s2 ∧ 0 ≤ turnOf a b s3)
    (h2 : turnOf a b t1 ≤ 0 ∧ turnOf a b t2 ≤ 0 ∧ turnOf a b t3 ≤ 0) (h3 : 0 < turnOf a b s1 + turnOf a b s2 + turnOf a b s3) (q : ℚ × ℚ) (hs : InTriangle q s1 s2 s3) :
    ¬ InTriangle q t1 t2 t3 := by
  rintro ⟨u', v', w', hu', hv', hw', h', hx', hy'⟩
  obtain ⟨u, v, w, hu, hv, hw, h, hx, hy⟩ := hs
  have e1 := turn_combine (a := a) (b := b) h hx hy
  have e2 := turn_combine (a := a) (b := b) h' hx' hy'
  have p1 : 0 < turnOf a b q := by
    rw [e1]
    obtain ⟨k1, k2, k3⟩ := h1
    have m1 := mul_nonneg hu.le k1
    have m2 := mul_nonneg hv.le k2
    have m3 := mul_nonneg hw.le k3
    rcases k1.lt_or_eq with k | k
    · have := mul_pos hu k; linarith
    · rcases k2.lt_or_eq with k' | k'
      · have := mul_pos hv k'; linarith
      · have := mul_pos hw (show 0 < turnOf a b s3 by linarith); linarith
  have p2 : turnOf a b q ≤ 0 := by
    rw [e2]
    obtain ⟨k1, k2, k3⟩ := h2
    have m1 := mul_nonpos_of_nonneg_of_nonpos hu'.le k1
    have m2 := mul_nonpos_of_nonneg_of_nonpos hv'.le k2
    have m3 := mul_nonpos_of_nonneg_of_nonpos hw'.le k3
    linarith
  exact absurd p1 (not_lt.2 p2)

/-- The line through two points has the three points of `s` on its left and those of `t` on its right. -/
def lineBetween (s t : (ℚ × ℚ) × (ℚ × ℚ) × (ℚ × ℚ)) (l : Seg ℚ) : Bool :=
  decide (0 ≤ turnOf l.1 l.2 s.1 ∧ 0 ≤ turnOf l.1 l.2 s.2.1 ∧ 0 ≤ turnOf l.1 l.2 s.2.2) &&
    decide (turnOf l.1 l.2 t.1 ≤ 0 ∧ turnOf l.1 l.2 t.2.1 ≤ 0 ∧ turnOf l.1 l.2 t.2.2 ≤ 0) &&
    decide (0 < turnOf l.1 l.2 s.1 + turnOf l.1 l.2 s.2.1 + turnOf l.1 l.2 s.2.2)

theorem apart_of_lines {ts : List ((ℚ × ℚ) × (ℚ × ℚ) × (ℚ × ℚ))}
    (h : ts.Pairwise fun s t => (triSides s ++ (triSides t).map Prod.swap).any (lineBetween s t) = true) :
    ts.Pairwise fun s t => ∀ q, InTriangle q s.1 s.2.1 s.2.2 → ¬ InTriangle q t.1 t.2.1 t.2.2 := by
  refine h.imp fun {s t} h q hs => ?_
  obtain ⟨l, -, hl⟩ := List.any_eq_true.1 h
  simp only [lineBetween, Bool.and_eq_true, decide_eq_true_eq] at hl
  exact turns_apart hl.1.1 hl.1.2 hl.2 q hs

/-- A criterion for concrete regions. -/
theorem triangulates_check {ts : List ((ℚ × ℚ) × (ℚ × ℚ) × (ℚ × ℚ))} {edges : List (Seg ℚ)} (verts : List (ℚ × ℚ))
    (h1 : ∀ t ∈ ts, turnOf t.1 t.2.1 t.2.2 ≠ 0)
    (h2 : ts.Pairwise fun s t => (triSides s ++ (triSides t).map Prod.swap).any (lineBetween s t) = true)
    (h3 : ∀ e ∈ edges, e.1 ≠ e.2 → ∃ t ∈ ts, e ∈ triSides t ∨ e.swap ∈ triSides t)
    (h4 : ∀ a ∈ verts, ∀ b ∈ verts, a ≠ b → edgeCount edges a b % 2 = edgeCount (ts.flatMap triSides) a b % 2)
    (h5 : ∀ e ∈ edges ++ ts.flatMap triSides, e.1 ∈ verts ∧ e.2 ∈ verts) : Triangulates ts edges where
  area := h1
  apart := apart_of_lines h2
  sides := h3
  border := by
    intro a b hab
    by_cases h : a ∈ verts ∧ b ∈ verts
    · exact h4 a h.1 b h.2 hab
    · have zero : ∀ l : List (Seg ℚ), (∀ e ∈ l, e.1 ∈ verts ∧ e.2 ∈ verts) → edgeCount l a b = 0 := by
        intro l hl
        rcases Nat.eq_zero_or_pos (edgeCount l a b) with h0 | h0
        · exact h0
        · rcases edgeCount_pos h0 with h1 | h1
          · exact absurd (hl _ h1) h
          · exact absurd (hl _ h1).symm h
      rw [zero _ fun e he => h5 e (List.mem_append_left _ he), zero _ fun e he => h5 e (List.mem_append_right _ he)]

theorem frame_triangulates : Triangulates frameTris frameEdges :=
  triangulates_check [(0, 0), (3, 0), (3, 3), (0, 3), (1, 1), (2, 1), (2, 2), (1, 2)] (by decide +kernel) (by decide +kernel) (by decide +kernel)
    (by decide +kernel) (by decide +kernel)

-- A square with a hole: inside the frame, in the hole, outside; the last point is on the line of an inner side.
example : Triangulates frameTris frameEdges ∧ (∀ s ∈ frameEdges, LevelClear (1 / 1000) 0 (3 / 2) s) ∧
    cPoint (1 / 1000) frameEdges (1 / 2, 3 / 2) = (true, false) ∧ cPoint (1 / 1000) frameEdges (3 / 2, 3 / 2) = (false, false) ∧
    cPoint (1 / 1000) frameEdges (4, 3 / 2) = (false, false) ∧ pyPoint (1 / 1000) 8 frameEdges (1 / 2, 3 / 2) = (true, false) ∧
    pyPoint (1 / 1000) 8 frameEdges (3 / 2, 3 / 2) = (false, false) ∧ cPoint (1 / 1000) frameEdges (1 / 2, 1 / 2) = (true, false) :=
  ⟨frame_triangulates, by unfold LevelClear; decide +kernel, by decide +kernel, by decide +kernel, by decide +kernel, by decide +kernel, by decide +kernel, by decide +kernel⟩

/-- Triangles of the hexagon with a nearly flat edge. -/
def flatHexTris : List ((ℚ × ℚ) × (ℚ × ℚ) × (ℚ × ℚ)) :=
  [((0, 0), (3, 0), (3, 1 / 2)), ((0, 0), (3, 1 / 2), (2, 1 / 2 + 1 / 10 ^ 14)), ((0, 0), (2, 1 / 2 + 1 / 10 ^ 14), (2, 1)), ((0, 0), (2, 1), (0, 1))]

theorem flat_triangulates : Triangulates flatHexTris flatHexagon :=
  triangulates_check [(0, 0), (3, 0), (3, 1 / 2), (2, 1 / 2 + 1 / 10 ^ 14), (2, 1), (0, 1)] (by decide +kernel) (by decide +kernel) (by decide +kernel)
    (by decide +kernel) (by decide +kernel)

-- The hexagon with a nearly flat edge: at `(1/2, 2/5)` the answer is right, level with the edge it is wrong.
example : ((pyPoint (5 / 10 ^ 14) 6 flatHexagon (1 / 2, 2 / 5)).1 = true ↔ ∃ t ∈ flatHexTris, InClosedTriangle (1 / 2, 2 / 5) t.1 t.2.1 t.2.2) ∧
    ¬ ((pyPoint (5 / 10 ^ 14) 6 flatHexagon (1 / 2, 1 / 2 + 1 / (2 * 10 ^ 14))).1 = true ↔
      ∃ t ∈ flatHexTris, InClosedTriangle (1 / 2, 1 / 2 + 1 / (2 * 10 ^ 14)) t.1 t.2.1 t.2.2) :=
  ⟨C101_region_python_partial (by norm_num) (by norm_num) flat_triangulates (by unfold LevelClear; decide +kernel) (by decide +kernel),
    fun h => by
      have := (C101_python_right_iff (by norm_num) (by norm_num) flat_triangulates (by decide +kernel)).1 h
      rcases this with h | h
      · rw [← pyReject_iff] at h
        revert h
        unfold pyReject
        decide +kernel
      · revert h
        decide +kernel⟩

-- The rule of the crossings at the same point.
example : ¬ ((pyPoint (5 / 10 ^ 14) 6 flatHexagon (1 / 2, 1 / 2 + 1 / (2 * 10 ^ 14))).1 = true ↔
    Odd (flatHexagon.countP fun s => decide (RayMeets (1 / 2, 1 / 2 + 1 / (2 * 10 ^ 14)) s))) := fun h => by
  rcases (C51_flat_edges (by norm_num) (by norm_num) flat_triangulates.even (by decide +kernel)).1 h with h | h
  · rw [← pyReject_iff] at h
    revert h
    unfold pyReject
    decide +kernel
  · revert h
    decide +kernel

-- A convex pentagon.
example : ConvexRing ([(0, 0), (2, 0), (3, 2), (1, 3), (-1, 2)] : List (ℚ × ℚ)) ∧
    cPoint (1 / 1000) (ringEdges [(0, 0), (2, 0), (3, 2), (1, 3), (-1, 2)]) ((1, 1) : ℚ × ℚ) = (true, false) ∧
    cPoint (1 / 1000) (ringEdges [(0, 0), (2, 0), (3, 2), (1, 3), (-1, 2)]) ((-1, 1) : ℚ × ℚ) = (false, false) := by
  refine ⟨?_, by decide +kernel, by decide +kernel⟩
  simp only [ConvexRing]
  refine ⟨by decide +kernel, by decide +kernel, by decide +kernel, by decide +kernel, by decide +kernel, trivial⟩

end OM
