import Verif.Props.Region
/-!
# C109: the bounds of a region, before and after a transformation
-/
set_option linter.unusedSectionVars false
namespace OM

section
variable {K C : Type} [Field K] [LinearOrder K] [IsStrictOrderedRing K]

namespace Spec

/-- The points of a region: those between the limits of a tuple, or all convex combinations of two vertices of a polygon (its edges and diagonals). -/
def PointOf (e : Extent K) (q : K × K) : Prop :=
  match e with
  | .tuple (a :: b :: c :: d :: _) => (a ≤ q.1 ∧ q.1 ≤ b) ∧ c ≤ q.2 ∧ q.2 ≤ d
  | .tuple _ => False
  | .polygon l => ∃ u ∈ l, ∃ v ∈ l, ∃ t : K, 0 ≤ t ∧ t ≤ 1 ∧ q = ((1 - t) * u.1 + t * v.1, (1 - t) * u.2 + t * v.2)

/-- Four numbers that bound the points, each of them reached by a point. -/
def TightBox (P : K × K → Prop) (a b c d : K) : Prop :=
  (∀ q, P q → (a ≤ q.1 ∧ q.1 ≤ b) ∧ c ≤ q.2 ∧ q.2 ≤ d) ∧ (∃ q, P q ∧ q.1 = a) ∧ (∃ q, P q ∧ q.1 = b) ∧ (∃ q, P q ∧ q.2 = c) ∧ ∃ q, P q ∧ q.2 = d

end Spec
open Spec

theorem boundsMin_spec (l : List K) (x : K) : (∀ y ∈ x :: l, l.foldl min x ≤ y) ∧ l.foldl min x ∈ x :: l := by
  induction l generalizing x with
  | nil => simp
  | cons a l ih =>
    obtain ⟨h1, h2⟩ := ih (min x a)
    simp only [List.foldl_cons]
    refine ⟨fun y hy => ?_, ?_⟩
    · have h0 := h1 (min x a) List.mem_cons_self
      rcases List.mem_cons.1 hy with rfl | hy
      · exact h0.trans (min_le_left _ _)
      · rcases List.mem_cons.1 hy with rfl | hy
        · exact h0.trans (min_le_right _ _)
        · exact h1 y (List.mem_cons_of_mem _ hy)
    · rcases List.mem_cons.1 h2 with h | h
      · rw [h]
        rcases min_choice x a with e | e <;> rw [e] <;> simp
      · simp [h]

theorem boundsMax_spec (l : List K) (x : K) : (∀ y ∈ x :: l, y ≤ l.foldl max x) ∧ l.foldl max x ∈ x :: l := by
  induction l generalizing x with
  | nil => simp
  | cons a l ih =>
    obtain ⟨h1, h2⟩ := ih (max x a)
    simp only [List.foldl_cons]
    refine ⟨fun y hy => ?_, ?_⟩
    · have h0 := h1 (max x a) List.mem_cons_self
      rcases List.mem_cons.1 hy with rfl | hy
      · exact (le_max_left _ _).trans h0
      · rcases List.mem_cons.1 hy with rfl | hy
        · exact (le_max_right _ _).trans h0
        · exact h1 y (List.mem_cons_of_mem _ hy)
    · rcases List.mem_cons.1 h2 with h | h
      · rw [h]
        rcases max_choice x a with e | e <;> rw [e] <;> simp
      · simp [h]

theorem between_bounds {a b u v t : K} (h0 : 0 ≤ t) (h1 : t ≤ 1) (hu : a ≤ u ∧ u ≤ b) (hv : a ≤ v ∧ v ≤ b) :
    a ≤ (1 - t) * u + t * v ∧ (1 - t) * u + t * v ≤ b := by
  constructor <;> nlinarith [mul_nonneg (sub_nonneg.2 h1) (sub_nonneg.2 hu.1), mul_nonneg h0 (sub_nonneg.2 hv.1),
    mul_nonneg (sub_nonneg.2 h1) (sub_nonneg.2 hu.2), mul_nonneg h0 (sub_nonneg.2 hv.2)]

/-- **C109**. The bounds of a region that was constructed with a polygon with points, or with a tuple of four values, are the smallest box that contains its
points. They can be used as extent of a region. -/
theorem C109_bounds {e : Extent K} {crs : C} {r : Region K C} (h : mkRegion e crs = some r)
    (hne : e ≠ .polygon []) (h4 : ∀ vals, e = .tuple vals → vals.length = 4) :
    ∃ a b c d, totalBounds r = some [a, b, c, d] ∧ TightBox (PointOf e) a b c d ∧
      mkRegion (.tuple [a, b, c, d]) crs = some ⟨.tuple [a, b, c, d], crs⟩ := by
  unfold mkRegion at h
  obtain ⟨e', he, rfl⟩ := Option.map_eq_some_iff.1 h
  have := checkExtent_idem he
  subst this
  cases e' with
  | tuple vals =>
    obtain ⟨a, b, c, d, l, rfl, h1, h2⟩ := checkExtent_valid (crs := crs) he vals rfl
    have hl := h4 _ rfl
    have : l = [] := by
      cases l with
      | nil => rfl
      | cons => simp at hl
    subst this
    refine ⟨a, b, c, d, rfl, ⟨fun q hq => hq, ⟨(a, c), ⟨⟨le_rfl, h1⟩, le_rfl, h2⟩, rfl⟩, ⟨(b, c), ⟨⟨h1, le_rfl⟩, le_rfl, h2⟩, rfl⟩,
      ⟨(a, c), ⟨⟨le_rfl, h1⟩, le_rfl, h2⟩, rfl⟩, ⟨(a, d), ⟨⟨le_rfl, h1⟩, h2, le_rfl⟩, rfl⟩⟩, ?_⟩
    simp only [mkRegion]
    rw [he]
    rfl
  | polygon l =>
    cases l with
    | nil => exact absurd rfl hne
    | cons p l =>
      obtain ⟨m1, m2⟩ := boundsMin_spec (l.map Prod.fst) p.1
      obtain ⟨M1, M2⟩ := boundsMax_spec (l.map Prod.fst) p.1
      obtain ⟨n1, n2⟩ := boundsMin_spec (l.map Prod.snd) p.2
      obtain ⟨N1, N2⟩ := boundsMax_spec (l.map Prod.snd) p.2
      have hx : ∀ u ∈ p :: l, u.1 ∈ p.1 :: l.map Prod.fst := fun u hu => by
        rw [← List.map_cons (f := Prod.fst)]; exact List.mem_map_of_mem hu
      have hy : ∀ u ∈ p :: l, u.2 ∈ p.2 :: l.map Prod.snd := fun u hu => by
        rw [← List.map_cons (f := Prod.snd)]; exact List.mem_map_of_mem hu
      have vert : ∀ u ∈ p :: l, PointOf (.polygon (p :: l)) u := fun u hu =>
        ⟨u, hu, u, hu, 0, le_rfl, zero_le_one, by simp⟩
      have fx : ∀ x, x ∈ p.1 :: l.map Prod.fst → ∃ q, PointOf (.polygon (p :: l)) q ∧ q.1 = x := fun x hx => by
        rw [← List.map_cons (f := Prod.fst)] at hx
        obtain ⟨u, hu, rfl⟩ := List.mem_map.1 hx
        exact ⟨u, vert u hu, rfl⟩
      have fy : ∀ x, x ∈ p.2 :: l.map Prod.snd → ∃ q, PointOf (.polygon (p :: l)) q ∧ q.2 = x := fun x hx => by
        rw [← List.map_cons (f := Prod.snd)] at hx
        obtain ⟨u, hu, rfl⟩ := List.mem_map.1 hx
        exact ⟨u, vert u hu, rfl⟩
      refine ⟨_, _, _, _, rfl, ⟨?_, fx _ m2, fx _ M2, fy _ n2, fy _ N2⟩, ?_⟩
      · rintro q ⟨u, hu, v, hv, t, ht0, ht1, rfl⟩
        exact ⟨between_bounds ht0 ht1 ⟨m1 _ (hx u hu), M1 _ (hx u hu)⟩ ⟨m1 _ (hx v hv), M1 _ (hx v hv)⟩,
          between_bounds ht0 ht1 ⟨n1 _ (hy u hu), N1 _ (hy u hu)⟩ ⟨n1 _ (hy v hv), N1 _ (hy v hv)⟩⟩
      · have h1 := (m1 _ List.mem_cons_self).trans (M1 _ List.mem_cons_self)
        have h2 := (n1 _ List.mem_cons_self).trans (N1 _ List.mem_cons_self)
        simp only [mkRegion, checkExtent]
        rw [if_neg (not_lt.2 h1), if_neg (not_lt.2 h2)]
        rfl

/-- **C109**: a polygon without points has no bounds. -/
theorem C109_no_points (crs : C) : mkRegion (.polygon [] : Extent K) crs = some ⟨.polygon [], crs⟩ ∧
    totalBounds (⟨.polygon [], crs⟩ : Region K C) = none := ⟨rfl, rfl⟩

variable [DecidableEq C]

/-- **C109**, transformation of a tuple, for transformers that treat the axes separately and keep their order (as between longitudes and latitudes and the
Mercator projection): the new box holds exactly the images of the points of the old one.
Missing: other transformers (`C109_corners_only`). -/
theorem C109_transform_partial {tr : C → C → K × K → Option (K × K)} {a b c d : K} {src dst : C} (hne : src ≠ dst) {f g : K → K}
    (hf : StrictMono f) (hg : StrictMono g) (htr : ∀ q, tr src dst q = some (f q.1, g q.2)) {r : Region K C}
    (h : mkRegion (.tuple [a, b, c, d]) src = some r) :
    transformTo tr dst r = (⟨.tuple [f a, f b, g c, g d], dst⟩, false) ∧
      ∀ q, PointOf (.tuple [a, b, c, d]) q ↔ PointOf (.tuple [f a, f b, g c, g d]) (f q.1, g q.2) := by
  unfold mkRegion at h
  obtain ⟨e', he, rfl⟩ := Option.map_eq_some_iff.1 h
  have := checkExtent_idem he
  subst this
  obtain ⟨a', b', c', d', l, hl, h1, h2⟩ := checkExtent_valid (crs := src) he _ rfl
  injection hl with e1 hl; injection hl with e2 hl; injection hl with e3 hl; injection hl with e4 hl
  subst e1 e2 e3 e4
  refine ⟨?_, fun q => ?_⟩
  · unfold transformTo
    simp only
    rw [if_neg hne]
    simp only [transformExtent, htr, checkExtent]
    rw [if_neg (not_lt.2 (hf.monotone h1)), if_neg (not_lt.2 (hg.monotone h2))]
  · simp only [PointOf, hf.le_iff_le, hg.le_iff_le]

/-- **C109**, transformation of a polygon: the vertices of the new polygon are the images of the old ones in order, whenever the transformer accepts them. -/
theorem C109_transform_polygon {tr : C → C → K × K → Option (K × K)} {l : List (K × K)} {src dst : C} (hne : src ≠ dst) {F : K × K → K × K}
    (htr : ∀ q ∈ l, tr src dst q = some (F q)) :
    transformTo tr dst (⟨.polygon l, src⟩ : Region K C) = (⟨.polygon (l.map F), dst⟩, false) := by
  have key : ∀ l : List (K × K), (∀ q ∈ l, tr src dst q = some (F q)) → transformAll (tr src dst) l = some (l.map F) := by
    intro l
    induction l with
    | nil => intro _; rfl
    | cons q l ih =>
      intro h
      rw [transformAll, h q List.mem_cons_self, ih fun x hx => h x (List.mem_cons_of_mem _ hx)]
      rfl
  unfold transformTo
  simp only
  rw [if_neg hne]
  simp only [transformExtent, key l htr, Option.map_some]

end

open Spec

/-- A transformer from system 0 to system 1 that turns by 45 degrees (and scales by the root of two). -/
def turnTr (a b : Nat) (q : ℚ × ℚ) : Option (ℚ × ℚ) := if a = 0 ∧ b = 1 then some (q.1 - q.2, q.1 + q.2) else none

/-- **C109** fails for tuples: only two corners are transformed. Under a rotation by 45 degrees the new box of the unit square has no width, and the images of the
other two corners are outside. -/
theorem C109_corners_only :
    transformTo turnTr 1 ⟨.tuple [0, 1, 0, 1], 0⟩ = (⟨.tuple [0, 0, 0, 2], 1⟩, false) ∧
      PointOf (.tuple [0, 1, 0, 1] : Extent ℚ) (1, 0) ∧ turnTr 0 1 (1, 0) = some (1, 1) ∧
      ¬ PointOf (.tuple [0, 0, 0, 2] : Extent ℚ) (1, 1) := by
  refine ⟨by decide +kernel, ⟨⟨by norm_num, by norm_num⟩, by norm_num, by norm_num⟩, by decide +kernel, ?_⟩
  rintro ⟨⟨h, h'⟩, -⟩
  norm_num at h'

/-- **C109** fails for tuples of five values, which `Region` accepts: the bounds are not four numbers. -/
theorem C109_five_values : mkRegion (.tuple [0, 1, 0, 1, 7] : Extent ℚ) 0 = some ⟨.tuple [0, 1, 0, 1, 7], 0⟩ ∧
    totalBounds (⟨.tuple [0, 1, 0, 1, 7], 0⟩ : Region ℚ Nat) = some [0, 1, 0, 1, 7] := by
  constructor <;> decide +kernel

example : totalBounds (⟨.polygon [(0, 0), (3, 1), (-1, 5)], 0⟩ : Region ℚ Nat) = some [-1, 3, 0, 5] := by decide +kernel
example : ∃ r, mkRegion (.polygon [(0, 0), (3, 1), (-1, 5)] : Extent ℚ) 0 = some r ∧
    ∃ a b c d, totalBounds r = some [a, b, c, d] ∧ TightBox (PointOf (.polygon [(0, 0), (3, 1), (-1, 5)] : Extent ℚ)) a b c d := by
  obtain ⟨a, b, c, d, h1, h2, -⟩ := C109_bounds (e := (.polygon [(0, 0), (3, 1), (-1, 5)] : Extent ℚ)) (crs := 0) rfl (by simp) (by simp)
  exact ⟨_, rfl, a, b, c, d, h1, h2⟩
example : transformTo shiftTr 1 (⟨.tuple [0, 1, 0, 3], 0⟩ : Region ℚ Nat) = (⟨.tuple [2 * 0 + 5, 2 * 1 + 5, 0 / 3, 3 / 3], 1⟩, false) :=
  (C109_transform_partial (f := fun x => 2 * x + 5) (g := fun y => y / 3) (by norm_num) (fun x y h => by simp only; linarith)
    (fun x y h => by simp only; linarith) (fun q => by simp [shiftTr]) rfl).1
example : transformTo turnTr 1 (⟨.polygon [(0, 0), (1, 0), (0, 1)], 0⟩ : Region ℚ Nat) = (⟨.polygon [(0, 0), (1, 1), (-1, 1)], 1⟩, false) := by
  decide +kernel
end OM
