import Verif.Model.Sdf
import Mathlib.Data.Rat.Floor
import Mathlib.Tactic.Linarith
import Mathlib.Tactic.Ring
import Mathlib.Tactic.FieldSimp
/-!
# C45–C48: signed distance functions
-/
namespace OM
set_option linter.unusedSectionVars false

section
variable {K P C : Type} [Field K] [LinearOrder K] [IsStrictOrderedRing K]

/-- A point is strictly inside a domain: the evaluation is a negative number. -/
def Spec.Inside (d : Domain K P C) (p : P) : Prop := ∃ v, d.func p = some (some v) ∧ v < 0

/-- A point is strictly outside a domain: the evaluation is a positive number. -/
def Spec.Outside (d : Domain K P C) (p : P) : Prop := ∃ v, d.func p = some (some v) ∧ 0 < v

/-- The evaluation is a number. -/
def Spec.Defined (d : Domain K P C) (p : P) : Prop := ∃ v, d.func p = some (some v)

open Spec

/-! ## C45 -/

theorem foldl_min_lt (l : List K) (x c : K) : l.foldl min x < c ↔ x < c ∨ ∃ y ∈ l, y < c := by
  induction l generalizing x with
  | nil => simp
  | cons y l ih => simp [ih, or_assoc]

theorem foldl_max_lt (l : List K) (x c : K) : l.foldl max x < c ↔ x < c ∧ ∀ y ∈ l, y < c := by
  induction l generalizing x with
  | nil => simp
  | cons y l ih => simp [ih, and_assoc]

theorem collectAll_map_some {A B : Type} (f : A → B) (l : List A) : collectAll (l.map fun a => some (f a)) = some (l.map f) := by
  induction l with
  | nil => rfl
  | cons a l ih => simp [collectAll, ih]

theorem foldl_optMin_some (l : List K) (x : K) : (l.map some).foldl optMin (some x) = some (l.foldl min x) := by
  induction l generalizing x with
  | nil => rfl
  | cons y l ih => simp [optMin, ih]

theorem foldl_optMax_some (l : List K) (x : K) : (l.map some).foldl optMax (some x) = some (l.foldl max x) := by
  induction l generalizing x with
  | nil => rfl
  | cons y l ih => simp [optMax, ih]

theorem reduce_min (x : K) (l : List K) :
    reduceEvals optMin ((x :: l).map fun v => some (some v)) = some (some (l.foldl min x)) := by
  unfold reduceEvals
  rw [collectAll_map_some]
  simp [foldl_optMin_some]

theorem reduce_max (x : K) (l : List K) :
    reduceEvals optMax ((x :: l).map fun v => some (some v)) = some (some (l.foldl max x)) := by
  unfold reduceEvals
  rw [collectAll_map_some]
  simp [foldl_optMax_some]

/-- Members with numbers as a list of numbers. -/
theorem exists_values (l : List (Domain K P C)) (p : P) (h : ∀ d ∈ l, Defined d p) :
    ∃ f : Domain K P C → K, ∀ d ∈ l, d.func p = some (some (f d)) := by
  have : ∀ d : Domain K P C, ∃ v : K, d ∈ l → d.func p = some (some v) := by
    intro d
    by_cases hd : d ∈ l
    · obtain ⟨v, hv⟩ := h d hd
      exact ⟨v, fun _ => hv⟩
    · exact ⟨0, fun h => absurd h hd⟩
  exact ⟨fun d => (this d).choose, fun d hd => (this d).choose_spec hd⟩

theorem combine_func {ev : P → Option (Option K)} {l : List (Domain K P C)} {u : Domain K P C} (h : combine ev l = some u) :
    l ≠ [] ∧ u.func = ev := by
  unfold combine at h
  obtain ⟨b, hb, hu⟩ := Option.map_eq_some_iff.1 h
  refine ⟨?_, by rw [← hu]⟩
  rintro rfl
  simp [computeBbox] at hb

/-- **C45**, union: where all members have numbers, a point is strictly inside the union iff it is strictly inside some member. (A NaN of one
member hides the others, `C45_nan_hides`; the list must not be empty, `C45_empty_raises`.) -/
theorem C45_union_partial {l : List (Domain K P C)} {u : Domain K P C} (h : unionDomain l = some u) (p : P)
    (hn : ∀ d ∈ l, Defined d p) : Inside u p ↔ ∃ d ∈ l, Inside d p := by
  obtain ⟨hne, hf⟩ := combine_func h
  obtain ⟨f, hf'⟩ := exists_values l p hn
  have hin : ∀ d ∈ l, Inside d p ↔ f d < 0 := fun d hd =>
    ⟨fun ⟨v, hv, h0⟩ => by rw [hf' d hd] at hv; simp at hv; rwa [hv], fun h0 => ⟨_, hf' d hd, h0⟩⟩
  obtain ⟨d, l', rfl⟩ := List.exists_cons_of_ne_nil hne
  have hev : u.func p = some (some ((l'.map f).foldl min (f d))) := by
    have hl : ((d :: l').map fun e => e.func p) = (f d :: l'.map f).map fun v => some (some v) := by
      rw [← List.map_cons, List.map_map]
      exact List.map_congr_left hf'
    rw [hf, ← reduce_min, ← hl]
  have : Inside u p ↔ (l'.map f).foldl min (f d) < 0 :=
    ⟨fun ⟨v, hv, h0⟩ => by rw [hev] at hv; simp at hv; rwa [hv], fun h0 => ⟨_, hev, h0⟩⟩
  rw [this, foldl_min_lt]
  simp only [List.mem_map, List.mem_cons, exists_eq_or_imp]
  refine or_congr (hin d (by simp)).symm ⟨?_, ?_⟩
  · rintro ⟨y, ⟨e, he, rfl⟩, hy⟩
    exact ⟨e, he, (hin e (by simp [he])).2 hy⟩
  · rintro ⟨e, he, hy⟩
    exact ⟨_, ⟨e, he, rfl⟩, (hin e (by simp [he])).1 hy⟩

/-- **C45**, intersection: a point is strictly inside the intersection iff it is strictly inside all members. -/
theorem C45_intersection_partial {l : List (Domain K P C)} {u : Domain K P C} (h : intersectionDomain l = some u) (p : P)
    (hn : ∀ d ∈ l, Defined d p) : Inside u p ↔ ∀ d ∈ l, Inside d p := by
  obtain ⟨hne, hf⟩ := combine_func h
  obtain ⟨f, hf'⟩ := exists_values l p hn
  have hin : ∀ d ∈ l, Inside d p ↔ f d < 0 := fun d hd =>
    ⟨fun ⟨v, hv, h0⟩ => by rw [hf' d hd] at hv; simp at hv; rwa [hv], fun h0 => ⟨_, hf' d hd, h0⟩⟩
  obtain ⟨d, l', rfl⟩ := List.exists_cons_of_ne_nil hne
  have hev : u.func p = some (some ((l'.map f).foldl max (f d))) := by
    have hl : ((d :: l').map fun e => e.func p) = (f d :: l'.map f).map fun v => some (some v) := by
      rw [← List.map_cons, List.map_map]
      exact List.map_congr_left hf'
    rw [hf, ← reduce_max, ← hl]
  have : Inside u p ↔ (l'.map f).foldl max (f d) < 0 :=
    ⟨fun ⟨v, hv, h0⟩ => by rw [hev] at hv; simp at hv; rwa [hv], fun h0 => ⟨_, hev, h0⟩⟩
  rw [this, foldl_max_lt]
  simp only [List.mem_map, List.mem_cons, forall_eq_or_imp, forall_exists_index, and_imp, forall_apply_eq_imp_iff₂]
  exact and_congr (hin d (by simp)).symm
    ⟨fun h e he => (hin e (by simp [he])).2 (h e he), fun h e he => (hin e (by simp [he])).1 (h e he)⟩

/-- The first member and the rest, for a difference. -/
theorem C45_difference_partial {d : Domain K P C} {l : List (Domain K P C)} {u : Domain K P C} (h : differenceDomain (d :: l) = some u)
    (p : P) (hd : Defined d p) (hn : ∀ e ∈ l, Defined e p) : Inside u p ↔ Inside d p ∧ ∀ e ∈ l, Outside e p := by
  obtain ⟨-, hf⟩ := combine_func h
  obtain ⟨f, hf'⟩ := exists_values l p hn
  obtain ⟨x, hx⟩ := hd
  have hout : ∀ e ∈ l, Outside e p ↔ -f e < 0 := fun e he =>
    ⟨fun ⟨v, hv, h0⟩ => by rw [hf' e he] at hv; simp at hv; rw [hv]; linarith, fun h0 => ⟨_, hf' e he, by linarith⟩⟩
  have hev : u.func p = some (some ((l.map fun e => -f e).foldl max x)) := by
    have hl : differenceEvals p (d :: l) = (x :: l.map fun e => -f e).map fun v => some (some v) := by
      simp only [differenceEvals, List.map_cons, List.map_map]
      refine List.cons_eq_cons.2 ⟨hx, List.map_congr_left fun (e : Domain K P C) he => ?_⟩
      simp [hf' e he]
    rw [hf, ← reduce_max, ← hl]
  have : Inside u p ↔ (l.map fun e => -f e).foldl max x < 0 :=
    ⟨fun ⟨v, hv, h0⟩ => by rw [hev] at hv; simp at hv; rwa [hv], fun h0 => ⟨_, hev, h0⟩⟩
  rw [this, foldl_max_lt]
  simp only [List.mem_map, forall_exists_index, and_imp, forall_apply_eq_imp_iff₂]
  refine and_congr ⟨fun h0 => ⟨x, hx, h0⟩, fun ⟨v, hv, h0⟩ => by rw [hx] at hv; simp at hv; rwa [hv]⟩
    ⟨fun h e he => (hout e he).2 (h e he), fun h e he => (hout e he).1 (h e he)⟩

theorem foldl_min_le' (l : List K) (x : K) : l.foldl min x ≤ x ∧ ∀ y ∈ l, l.foldl min x ≤ y := by
  induction l generalizing x with
  | nil => simp
  | cons y l ih =>
    obtain ⟨h1, h2⟩ := ih (min x y)
    refine ⟨h1.trans (min_le_left _ _), ?_⟩
    intro z hz
    rcases List.mem_cons.1 hz with rfl | hz
    · exact h1.trans (min_le_right _ _)
    · exact h2 z hz

theorem foldl_max_ge' (l : List K) (x : K) : x ≤ l.foldl max x ∧ ∀ y ∈ l, y ≤ l.foldl max x := by
  induction l generalizing x with
  | nil => simp
  | cons y l ih =>
    obtain ⟨h1, h2⟩ := ih (max x y)
    refine ⟨(le_max_left _ _).trans h1, ?_⟩
    intro z hz
    rcases List.mem_cons.1 hz with rfl | hz
    · exact (le_max_right _ _).trans h1
    · exact h2 z hz

/-- **C45**, boxes: the box of a union, intersection or difference contains the boxes of all members. -/
theorem C45_box {l : List (Domain K P C)} {u : Domain K P C}
    (h : unionDomain l = some u ∨ intersectionDomain l = some u ∨ differenceDomain l = some u) (d : Domain K P C) (hd : d ∈ l) :
    u.box.xmin ≤ d.box.xmin ∧ d.box.xmax ≤ u.box.xmax ∧ u.box.ymin ≤ d.box.ymin ∧ d.box.ymax ≤ u.box.ymax := by
  have hb : computeBbox l = some u.box := by
    rcases h with h | h | h <;>
    · obtain ⟨b, hb, hu⟩ := Option.map_eq_some_iff.1 h
      rw [hb, ← hu]
  cases l with
  | nil => simp at hd
  | cons e l =>
    simp only [computeBbox, Option.some.injEq] at hb
    rw [← hb]
    simp only [listMin, listMax]
    have hm : ∀ g : Domain K P C → K, (l.map g).foldl min (g e) ≤ g d := by
      intro g
      rcases List.mem_cons.1 hd with rfl | hd
      · exact (foldl_min_le' _ _).1
      · exact (foldl_min_le' _ _).2 _ (List.mem_map_of_mem hd)
    have hM : ∀ g : Domain K P C → K, g d ≤ (l.map g).foldl max (g e) := by
      intro g
      rcases List.mem_cons.1 hd with rfl | hd
      · exact (foldl_max_ge' _ _).1
      · exact (foldl_max_ge' _ _).2 _ (List.mem_map_of_mem hd)
    exact ⟨hm (·.box.xmin), hM (·.box.xmax), hm (·.box.ymin), hM (·.box.ymax)⟩

/-- **C45**: the set operations raise exactly for an empty list. -/
theorem C45_empty_raises (l : List (Domain K P C)) : (unionDomain l = none ↔ l = []) ∧ (intersectionDomain l = none ↔ l = []) ∧
    (differenceDomain l = none ↔ l = []) := by
  cases l <;> simp [unionDomain, intersectionDomain, differenceDomain, combine, computeBbox]

theorem combine_attributes {ev : P → Option (Option K)} {l : List (Domain K P C)} {u : Domain K P C} (h : combine ev l = some u) :
    (∀ c, u.crs = some c ↔ ∃ l1 d l2, l = l1 ++ d :: l2 ∧ d.crs = some c ∧ ∀ e ∈ l1, e.crs = none) ∧
      (u.stereo = true ↔ ∃ d ∈ l, d.stereo = true) ∧ u.covering = none := by
  obtain ⟨b, -, rfl⟩ := Option.map_eq_some_iff.1 h
  refine ⟨fun c => ?_, by simp, rfl⟩
  show firstCrs l = some c ↔ _
  clear h
  unfold firstCrs
  induction l with
  | nil => simp
  | cons d l ih =>
    cases hd : d.crs with
    | none =>
      rw [List.filterMap_cons_none hd, ih]
      constructor
      · rintro ⟨l1, e, l2, rfl, he, hn⟩
        exact ⟨d :: l1, e, l2, rfl, he, by simpa [hd] using hn⟩
      · rintro ⟨_ | ⟨a, l1⟩, e, l2, hl, he, hn⟩
        · simp only [List.nil_append, List.cons.injEq] at hl
          rw [← hl.1, hd] at he
          simp at he
        · simp only [List.cons_append, List.cons.injEq] at hl
          exact ⟨l1, e, l2, hl.2, he, fun x hx => hn x (List.mem_cons_of_mem _ hx)⟩
    | some c' =>
      rw [List.filterMap_cons_some hd]
      simp only [List.head?_cons, Option.some.injEq]
      constructor
      · rintro rfl
        exact ⟨[], d, l, rfl, hd, by simp⟩
      · rintro ⟨_ | ⟨a, l1⟩, e, l2, hl, he, hn⟩
        · simp only [List.nil_append, List.cons.injEq] at hl
          rw [← hl.1, hd] at he
          exact Option.some.inj he
        · simp only [List.cons_append, List.cons.injEq] at hl
          have := hn a List.mem_cons_self
          rw [← hl.1, hd] at this
          simp at this

/-- **C45**, attributes: the coordinate system of a union, intersection or difference is that of the first member that has one, it is
stereographic iff some member is, and it has no covering. -/
theorem C45_attributes {l : List (Domain K P C)} {u : Domain K P C}
    (h : unionDomain l = some u ∨ intersectionDomain l = some u ∨ differenceDomain l = some u) :
    (∀ c, u.crs = some c ↔ ∃ l1 d l2, l = l1 ++ d :: l2 ∧ d.crs = some c ∧ ∀ e ∈ l1, e.crs = none) ∧
      (u.stereo = true ↔ ∃ d ∈ l, d.stereo = true) ∧ u.covering = none := by
  rcases h with h | h | h
  · exact combine_attributes h
  · exact combine_attributes h
  · exact combine_attributes h
end

open Spec

/-- Two squares for concrete cases. -/
def squareA : Domain ℚ (ℚ × ℚ) Nat := createBbox ⟨0, 2, 0, 2⟩
/-- The second square. -/
def squareB : Domain ℚ (ℚ × ℚ) Nat := createBbox ⟨1, 3, 0, 2⟩
/-- A domain that evaluates to NaN. -/
def nanDomain : Domain ℚ (ℚ × ℚ) Nat := ⟨⟨0, 1, 0, 1⟩, fun _ => some none, none, none, false⟩

-- A point in both squares, and one in the first only.
example : Inside squareA (3 / 2, 1) ∧ Inside squareB (3 / 2, 1) ∧ Inside squareA (1 / 2, 1) ∧ Outside squareB (1 / 2, 1) ∧
    Defined squareA (5, 5) ∧ (unionDomain [squareA, squareB]).isSome ∧ (intersectionDomain [squareA, squareB]).isSome ∧
    (differenceDomain [squareA, squareB]).isSome :=
  ⟨⟨-1 / 2, by decide +kernel, by decide +kernel⟩, ⟨-1 / 2, by decide +kernel, by decide +kernel⟩,
    ⟨-1 / 2, by decide +kernel, by decide +kernel⟩, ⟨1 / 2, by decide +kernel, by decide +kernel⟩, ⟨3, by decide +kernel⟩, rfl, rfl, rfl⟩

example : (unionDomain [squareA, { squareB with crs := some 7 }, { squareA with crs := some 8, stereo := true }]).map
    (fun u => (u.crs, u.stereo, u.covering.isSome)) = some (some 7, true, false) := by decide +kernel

/-- **C45** fails for domains of different systems: the members are evaluated at the same coordinates, although the result carries only the
system of the first. -/
theorem C45_systems_not_compared : ∃ u : Domain ℚ (ℚ × ℚ) Nat, unionDomain [{ squareA with crs := some 7 }, { squareB with crs := some 8 }] = some u ∧
    u.crs = some 7 ∧ ∀ p, u.func p = reduceEvals optMin [squareA.func p, squareB.func p] := by
  refine ⟨_, rfl, rfl, fun p => rfl⟩

/-- A rectangle made by `create_bbox` has no coordinate system, is not stereographic and has no covering (**C45**). -/
theorem C45_rectangle_attributes {K C : Type} [Field K] [LinearOrder K] (b : Box K) : (createBbox b : Domain K (K × K) C).box = b ∧
    (createBbox b : Domain K (K × K) C).crs = none ∧ (createBbox b : Domain K (K × K) C).stereo = false ∧
    (createBbox b : Domain K (K × K) C).covering.isNone := ⟨rfl, rfl, rfl, rfl⟩

/-- **C45** fails with NaN: a point strictly inside a member is not inside the union with a domain that gives NaN there. -/
theorem C45_nan_hides : Inside squareA (1, 1) ∧
    ∀ u, unionDomain [squareA, nanDomain] = some u → ¬ Inside u (1, 1) := by
  refine ⟨⟨-1, by decide +kernel, by decide +kernel⟩, fun u hu ⟨v, hv, _⟩ => ?_⟩
  rw [(combine_func hu).2] at hv
  have : reduceEvals optMin ([squareA, nanDomain].map fun d => d.func (1, 1)) = some none := by decide +kernel
  exact absurd (this.symm.trans hv) (by simp)

/-! ## C48 -/

section
variable {K : Type} [Field K] [LinearOrder K] [IsStrictOrderedRing K]

/-- **C48**: the function of `create_bbox` is negative exactly strictly inside the box, zero exactly at the points of the closed box that are
not strictly inside, and positive exactly outside the closed box. -/
theorem C48_sign (b : Box K) (p : K × K) :
    (bboxDistance b p < 0 ↔ b.xmin < p.1 ∧ p.1 < b.xmax ∧ b.ymin < p.2 ∧ p.2 < b.ymax) ∧
      (bboxDistance b p = 0 ↔ (b.xmin ≤ p.1 ∧ p.1 ≤ b.xmax ∧ b.ymin ≤ p.2 ∧ p.2 ≤ b.ymax) ∧
        ¬ (b.xmin < p.1 ∧ p.1 < b.xmax ∧ b.ymin < p.2 ∧ p.2 < b.ymax)) ∧
      (0 < bboxDistance b p ↔ ¬ (b.xmin ≤ p.1 ∧ p.1 ≤ b.xmax ∧ b.ymin ≤ p.2 ∧ p.2 ≤ b.ymax)) := by
  have h1 : bboxDistance b p < 0 ↔ b.xmin < p.1 ∧ p.1 < b.xmax ∧ b.ymin < p.2 ∧ p.2 < b.ymax := by
    simp only [bboxDistance, neg_lt_zero, lt_min_iff]
    constructor
    · rintro ⟨⟨⟨h1, h2⟩, h3⟩, h4⟩
      exact ⟨by linarith, by linarith, by linarith, by linarith⟩
    · rintro ⟨h1, h2, h3, h4⟩
      exact ⟨⟨⟨by linarith, by linarith⟩, by linarith⟩, by linarith⟩
  have h2 : bboxDistance b p ≤ 0 ↔ b.xmin ≤ p.1 ∧ p.1 ≤ b.xmax ∧ b.ymin ≤ p.2 ∧ p.2 ≤ b.ymax := by
    simp only [bboxDistance, neg_nonpos, le_min_iff]
    constructor
    · rintro ⟨⟨⟨h1, h2⟩, h3⟩, h4⟩
      exact ⟨by linarith, by linarith, by linarith, by linarith⟩
    · rintro ⟨h1, h2, h3, h4⟩
      exact ⟨⟨⟨by linarith, by linarith⟩, by linarith⟩, by linarith⟩
  refine ⟨h1, ?_, ?_⟩
  · rw [← h1, ← h2, not_lt]
    exact ⟨fun h => ⟨h.le, h.ge⟩, fun h => le_antisymm h.1 h.2⟩
  · rw [← h2, not_le]
end

example : bboxDistance (⟨0, 2, 0, 4⟩ : Box ℚ) (1, 1) = -1 ∧ bboxDistance (⟨0, 2, 0, 4⟩ : Box ℚ) (2, 1) = 0 ∧
    bboxDistance (⟨0, 2, 0, 4⟩ : Box ℚ) (1, 7) = 3 := by decide +kernel

/-! ## C47 -/

section
variable {K C : Type} [Field K] [LinearOrder K] [IsStrictOrderedRing K]

/-- `near` gives the distance to the nearest of the vertices, for a distance `dist` that is zero exactly for equal points. -/
def Spec.NearestDistance (dist : K × K → K × K → K) (verts : List (K × K)) (near : K × K → K) : Prop :=
  (∀ p q, 0 ≤ dist p q) ∧ (∀ p q, dist p q = 0 ↔ p = q) ∧
    ∀ p, (∃ v ∈ verts, near p = dist p v) ∧ ∀ v ∈ verts, near p ≤ dist p v

theorem NearestDistance_pos {dist : K × K → K × K → K} {verts : List (K × K)} {near : K × K → K} (h : NearestDistance dist verts near)
    (p : K × K) : 0 ≤ near p ∧ (0 < near p ↔ p ∉ verts) := by
  obtain ⟨h0, h1, h2⟩ := h
  obtain ⟨⟨v, hv, hd⟩, hle⟩ := h2 p
  have hn : 0 ≤ near p := by rw [hd]; exact h0 _ _
  refine ⟨hn, ?_⟩
  constructor
  · intro hp hm
    have := hle p hm
    rw [(h1 p p).2 rfl] at this
    linarith
  · intro hm
    refine lt_of_le_of_ne hn fun he => hm ?_
    rw [hd] at he
    rw [(h1 p v).1 he.symm]
    exact hv

/-- **C47**, sign: at a point with finite coordinates the function is negative exactly if the point is inside both polygons and not on a
vertex; its absolute value is the distance to the nearest vertex; inverting changes the sign.
Missing: points that are not finite with `invert` (`C47_nonfinite_inside_inverted`). -/
theorem C47_finite_partial {dist : K × K → K × K → K} {verts : List (K × K)} {near : K × K → K}
    (h : NearestDistance dist verts near) (inBox inShore : K × K → Bool) (x y : K) :
    (sdfAt inBox inShore near false (some x, some y) < 0 ↔
        inShore (x, y) = true ∧ inBox (x, y) = true ∧ (x, y) ∉ verts) ∧
      (∀ i, |sdfAt inBox inShore near i (some x, some y)| = near (x, y)) ∧
      (sdfAt inBox inShore near true (some x, some y) = -sdfAt inBox inShore near false (some x, some y)) ∧
      (sdfAt inBox inShore near true (some x, some y) < 0 ↔
        ¬ (inShore (x, y) = true ∧ inBox (x, y) = true) ∧ (x, y) ∉ verts) := by
  obtain ⟨h0, h1⟩ := NearestDistance_pos h (x, y)
  rw [← h1]
  cases hb : (inShore (x, y) && inBox (x, y))
  · have hb' : ¬ (inShore (x, y) = true ∧ inBox (x, y) = true) := by
      rw [← Bool.and_eq_true, hb]; simp
    simp only [sdfAt, hb, Bool.false_eq_true, if_false, if_true, one_mul, mul_neg, mul_one, neg_lt_zero]
    refine ⟨⟨fun h => absurd h (not_lt.2 h0), fun h => absurd ⟨h.1, h.2.1⟩ hb'⟩, ?_, trivial, ⟨fun h => ⟨hb', h⟩, fun h => h.2⟩⟩
    intro i
    cases i <;> simp [abs_of_nonneg h0]
  · have hb' : inShore (x, y) = true ∧ inBox (x, y) = true := by rwa [Bool.and_eq_true] at hb
    simp only [sdfAt, hb, Bool.false_eq_true, if_false, if_true, mul_neg, mul_one, neg_mul, one_mul, neg_neg, neg_lt_zero]
    refine ⟨⟨fun h => ⟨hb'.1, hb'.2, h⟩, fun h => h.2.2⟩, ?_, trivial,
      ⟨fun h => absurd h (not_lt.2 h0), fun h => absurd hb' h.1⟩⟩
    intro i
    cases i <;> simp [abs_of_nonneg h0]

/-- **C47**, points that are not finite are outside the function that is not inverted. -/
theorem C47_nonfinite_outside (inBox inShore : K × K → Bool) (near : K × K → K) (q : QueryPoint K) (hq : q.1 = none ∨ q.2 = none) :
    0 < sdfAt inBox inShore near false q := by
  rcases q with ⟨_ | x, _ | y⟩
  · simp [sdfAt]
  · simp [sdfAt]
  · simp [sdfAt]
  · simp at hq

/-- **C47** fails: with `invert` every point that is not finite is inside. -/
theorem C47_nonfinite_inside_inverted (inBox inShore : K × K → Bool) (near : K × K → K) (q : QueryPoint K)
    (hq : q.1 = none ∨ q.2 = none) : sdfAt inBox inShore near true q < 0 := by
  rcases q with ⟨_ | x, _ | y⟩
  · simp [sdfAt]
  · simp [sdfAt]
  · simp [sdfAt]
  · simp at hq

/-! ## C46 -/

/-- A point inside a domain is not strictly outside of its covering. -/
def Spec.CoversItself {P : Type} (d : Domain K P C) (p : P) : Prop := Inside d p → ¬ Outside (coverDomain d) p

/-- All evaluations needed for the nests give numbers. -/
def Spec.AllDefined {P : Type} (l : List (Domain K P C)) (p : P) : Prop := ∀ d ∈ l, Defined d p ∧ Defined (coverDomain d) p

theorem nests_spec {P : Type} : ∀ {l ns : List (Domain K P C)}, nests l = some ns →
    ns.length = l.length ∧ ∀ i (hi : i < l.length) (hi' : i < ns.length),
      differenceDomain (l[i] :: (l.drop (i + 1)).map coverDomain) = some ns[i] := by
  intro l
  induction l with
  | nil => intro ns h; simp [nests] at h; subst h; simp
  | cons d l ih =>
    intro ns h
    unfold nests at h
    split at h
    · rename_i n r hn hr
      have := Option.some.inj h
      subst this
      obtain ⟨h1, h2⟩ := ih hr
      refine ⟨by simp [h1], fun i hi hi' => ?_⟩
      cases i with
      | zero => simpa using hn
      | succ i => simpa using h2 i (by simpa using hi) (by simpa using hi')
    · simp at h

/-- **C46**, membership: where all evaluations give numbers, a point is inside nest `i` iff it is inside domain `i` and strictly outside the
coverings of all later domains. -/
theorem C46_nest_iff_partial {P : Type} {l ns : List (Domain K P C)} {u : Domain K P C} (h : multiscaleSdf l = some (u, ns)) (p : P)
    (hp : AllDefined l p) (i : Nat) (hi : i < l.length) (hi' : i < ns.length) :
    Inside ns[i] p ↔ Inside l[i] p ∧ ∀ j (hj : j < l.length), i < j → Outside (coverDomain l[j]) p := by
  unfold multiscaleSdf at h
  split at h
  · split at h
    · simp at h
    · rename_i ns' hns
      obtain ⟨u', hu, he⟩ := Option.map_eq_some_iff.1 h
      simp only [Prod.mk.injEq] at he
      obtain ⟨rfl, rfl⟩ := he
      have hd := (nests_spec hns).2 i hi hi'
      rw [C45_difference_partial hd p (hp _ (List.getElem_mem hi)).1 (by
        intro e he
        obtain ⟨d, hd, rfl⟩ := List.mem_map.1 he
        exact (hp d (List.mem_of_mem_drop hd)).2)]
      refine and_congr_right fun _ => ⟨fun h j hj hij => ?_, fun h e he => ?_⟩
      · refine h _ (List.mem_map.2 ⟨l[j], ?_, rfl⟩)
        rw [List.mem_drop_iff_getElem]
        exact ⟨j - (i + 1), by omega, by simp [show i + 1 + (j - (i + 1)) = j by omega]⟩
      · obtain ⟨d, hd, rfl⟩ := List.mem_map.1 he
        rw [List.mem_drop_iff_getElem] at hd
        obtain ⟨k, hk, rfl⟩ := hd
        exact h (i + 1 + k) (by omega) (by omega)
  · simp at h

/-- **C46**, disjoint: two nests have no common point if every domain covers itself there. -/
theorem C46_disjoint_partial {P : Type} {l ns : List (Domain K P C)} {u : Domain K P C} (h : multiscaleSdf l = some (u, ns)) (p : P)
    (hp : AllDefined l p) (hc : ∀ d ∈ l, CoversItself d p) (i j : Nat) (hij : i < j) (hj : j < ns.length) :
    ¬ (Inside (ns[i]'(by omega)) p ∧ Inside ns[j] p) := by
  have hlen : ns.length = l.length := by
    unfold multiscaleSdf at h
    split at h
    · split at h
      · simp at h
      · rename_i ns' hns
        obtain ⟨u', hu, he⟩ := Option.map_eq_some_iff.1 h
        simp only [Prod.mk.injEq] at he
        rw [← he.2]
        exact (nests_spec hns).1
    · simp at h
  rintro ⟨h1, h2⟩
  rw [C46_nest_iff_partial h p hp i (by omega) (by omega)] at h1
  rw [C46_nest_iff_partial h p hp j (by omega) hj] at h2
  exact hc _ (List.getElem_mem _) h2.1 (h1.2 j (by omega) hij)

/-- **C46**, union: a point is inside the union iff it is inside one of the nests. -/
theorem C46_union_partial {P : Type} {l ns : List (Domain K P C)} {u : Domain K P C} (h : multiscaleSdf l = some (u, ns)) (p : P)
    (hn : ∀ n ∈ ns, Defined n p) : Inside u p ↔ ∃ n ∈ ns, Inside n p := by
  unfold multiscaleSdf at h
  split at h
  · split at h
    · simp at h
    · obtain ⟨u', hu, he⟩ := Option.map_eq_some_iff.1 h
      simp only [Prod.mk.injEq] at he
      obtain ⟨rfl, rfl⟩ := he
      exact C45_union_partial hu p hn
  · simp at h

/-- **C46**: every domain built by `signed_distance_function` without `invert` covers itself at every point, so the nests of such domains
are disjoint. -/
theorem C46_sdf_covers (box : Box K) (inBox inShore : K × K → Bool) (near near2 : K × K → K) (crs : Option C) (stereo : Bool)
    (hn : ∀ p, 0 ≤ near p) (hn2 : ∀ p, 0 ≤ near2 p) (q : QueryPoint K) :
    CoversItself (signedDistance box inBox inShore near near2 crs stereo false) q := by
  rintro ⟨v, hv, h0⟩ ⟨w, hw, hw0⟩
  simp only [signedDistance, Option.some.injEq] at hv
  simp only [signedDistance, coverDomain, Option.getD_some, Option.some.injEq] at hw
  subst hv hw
  rcases q with ⟨_ | x, _ | y⟩
  · simp [sdfAt] at h0; linarith
  · simp [sdfAt] at h0; linarith
  · simp [sdfAt] at h0; linarith
  · have h1 := hn (x, y)
    have h2 := hn2 (x, y)
    simp only [sdfAt, Bool.false_eq_true, if_false] at h0
    simp only [coveringAt] at hw0
    cases hb : inBox (x, y)
    · simp [hb] at h0; linarith
    · simp [hb] at hw0; linarith

/-- **C46**: a list of at least two domains gives nests, shorter lists raise. -/
theorem C46_accepts {P : Type} (l : List (Domain K P C)) : (multiscaleSdf l).isSome ↔ 1 < l.length := by
  unfold multiscaleSdf
  split
  · rename_i h
    have hn : ∀ l : List (Domain K P C), ∃ ns, nests l = some ns := by
      intro l
      induction l with
      | nil => exact ⟨[], rfl⟩
      | cons d l ih =>
        obtain ⟨ns, hns⟩ := ih
        have : ∃ n, differenceDomain (d :: l.map coverDomain) = some n := by
          cases hd : differenceDomain (d :: l.map coverDomain) with
          | some n => exact ⟨n, rfl⟩
          | none => exact absurd ((C45_empty_raises _).2.2.1 hd) (by simp)
        obtain ⟨n, hn⟩ := this
        exact ⟨n :: ns, by simp [nests, hn, hns]⟩
    obtain ⟨ns, hns⟩ := hn l
    rw [hns]
    have hne : ns ≠ [] := by
      intro h0
      have := (nests_spec hns).1
      rw [h0] at this
      simp at this
      omega
    simp only [Option.isSome_map, h, iff_true]
    cases hu : unionDomain ns with
    | some u => rfl
    | none => exact absurd ((C45_empty_raises _).1.1 hu) hne
  · simp_all
end

/-- Two nested squares as domains with coverings: all points of the square are water, distances are one. -/
def sdfEx (b : Box ℚ) (invert : Bool) : Domain ℚ (QueryPoint ℚ) Nat :=
  signedDistance b (fun p => decide (bboxDistance b p < 0)) (fun _ => true) (fun _ => 1) (fun _ => 1) none false invert

-- Big and small square: a point of the small one is in the second nest only, a point beside it in the first.
example : (multiscaleSdf [sdfEx ⟨0, 9, 0, 9⟩ false, sdfEx ⟨3, 6, 3, 6⟩ false]).map
      (fun r => (r.2.map fun n => n.func (some 4, some 4), r.2.map fun n => n.func (some 1, some 1), r.1.func (some 1, some 1))) =
    some ([some (some 1), some (some (-1))], [some (some (-1)), some (some 1)], some (some (-1))) := by decide +kernel

/-- **C46** fails for inverted domains: at a point far outside of both squares both nests are inside. -/
theorem C46_inverted_overlap : (multiscaleSdf [sdfEx ⟨0, 9, 0, 9⟩ true, sdfEx ⟨3, 6, 3, 6⟩ true]).map
      (fun r => r.2.map fun n => n.func (some 20, some 20)) = some [some (some (-1)), some (some (-1))] := by decide +kernel

/-- **C46** fails for domains without covering, such as those of `create_bbox`: they are accepted, but the evaluation of the nests
raises. -/
theorem C46_no_covering_raises : (multiscaleSdf [squareA, squareB]).map
      (fun r => (r.2.map fun n => n.func (1, 1), r.1.func (1, 1))) = some ([none, some (some 0)], none) := by decide +kernel

/-- **C46**: a point of the coarse domain on land of the finer one is in no nest, although it is inside a domain. -/
theorem C46_fine_land_excluded :
    (multiscaleSdf [sdfEx ⟨0, 9, 0, 9⟩ false, (signedDistance ⟨3, 6, 3, 6⟩ (fun p => decide (bboxDistance ⟨3, 6, 3, 6⟩ p < 0))
        (fun _ => false) (fun _ => 1) (fun _ => 1) none false false : Domain ℚ (QueryPoint ℚ) Nat)]).map
      (fun r => r.2.map fun n => n.func (some 4, some 4)) = some [some (some 1), some (some 1)] ∧
    (sdfEx ⟨0, 9, 0, 9⟩ false).func (some 4, some 4) = some (some (-1)) := by decide +kernel

end OM
