import Verif.Model.Geodata
import Verif.Spec.Box
import Mathlib.Tactic.Linarith
import Mathlib.Tactic.NormNum
import Mathlib.Tactic.Ring
/-!
# Properties C59, C60, C77 (boxes in `geodata.py`)
-/
set_option linter.unusedSectionVars false
namespace OM
open Spec

section
variable {K : Type} [Field K] [LinearOrder K] [IsStrictOrderedRing K]

/-! ## C59 -/

theorem exists_between_all {a b c d : K} (h1 : a < b) (h2 : c < d) (h3 : a < d) (h4 : c < b) :
    ∃ x, a < x ∧ x < b ∧ c < x ∧ x < d := by
  obtain ⟨x, hx1, hx2⟩ := exists_between (max_lt (lt_min h1 h3) (lt_min h4 h2) : max a c < min b d)
  exact ⟨x, (le_max_left _ _).trans_lt hx1, hx2.trans_le (min_le_left _ _), (le_max_right _ _).trans_lt hx1,
    hx2.trans_le (min_le_right _ _)⟩

/-- **C59** For boxes with positive extent both tests say whether the interiors have a common point. -/
theorem C59_overlap_iff (b1 b2 : Box K) (h1 : b1.xmin < b1.xmax ∧ b1.ymin < b1.ymax)
    (h2 : b2.xmin < b2.xmax ∧ b2.ymin < b2.ymax) :
    (isOverlapping b1 b2 = true ↔ ∃ q, InsideBox b1 q ∧ InsideBox b2 q) ∧
      (bboxOverlapsBounds b1 b2 = true ↔ ∃ q, InsideBox b1 q ∧ InsideBox b2 q) := by
  have key : (∃ q, InsideBox b1 q ∧ InsideBox b2 q) ↔
      ((b1.xmin < b2.xmax ∧ b2.xmin < b1.xmax) ∧ b1.ymin < b2.ymax) ∧ b2.ymin < b1.ymax := by
    constructor
    · rintro ⟨q, ⟨a1, a2, a3, a4⟩, ⟨b1, b2, b3, b4⟩⟩
      exact ⟨⟨⟨a1.trans b2, b1.trans a2⟩, a3.trans b4⟩, b3.trans a4⟩
    · rintro ⟨⟨⟨a1, a2⟩, a3⟩, a4⟩
      obtain ⟨x, x1, x2, x3, x4⟩ := exists_between_all h1.1 h2.1 a1 a2
      obtain ⟨y, y1, y2, y3, y4⟩ := exists_between_all h1.2 h2.2 a3 a4
      exact ⟨(x, y), ⟨x1, x2, y1, y2⟩, ⟨x3, x4, y3, y4⟩⟩
  constructor
  · rw [key]
    simp only [isOverlapping, Bool.and_eq_true, decide_eq_true_eq]
  · rw [key]
    simp only [bboxOverlapsBounds, Bool.and_eq_true, decide_eq_true_eq, max_lt_iff, lt_min_iff]
    constructor
    · rintro ⟨⟨⟨_, a2⟩, a1, _⟩, ⟨_, a4⟩, a3, _⟩
      exact ⟨⟨⟨a1, a2⟩, a3⟩, a4⟩
    · rintro ⟨⟨⟨a1, a2⟩, a3⟩, a4⟩
      exact ⟨⟨⟨h1.1, a2⟩, a1, h2.1⟩, ⟨h1.2, a4⟩, a3, h2.2⟩

/-- **C59** Both tests are symmetric, for all boxes. -/
theorem C59_overlap_symm (b1 b2 : Box K) :
    isOverlapping b1 b2 = isOverlapping b2 b1 ∧ bboxOverlapsBounds b1 b2 = bboxOverlapsBounds b2 b1 := by
  constructor
  · unfold isOverlapping
    cases decide (b1.xmin < b2.xmax) <;> cases decide (b2.xmin < b1.xmax) <;> cases decide (b1.ymin < b2.ymax) <;>
      cases decide (b2.ymin < b1.ymax) <;> rfl
  · simp only [bboxOverlapsBounds, max_comm b1.xmin, min_comm b1.xmax, max_comm b1.ymin, min_comm b1.ymax]

example : isOverlapping (⟨0, 2, 0, 2⟩ : Box ℚ) ⟨1, 3, 1, 3⟩ = true ∧ isOverlapping (⟨0, 2, 0, 2⟩ : Box ℚ) ⟨2, 3, 0, 2⟩ = false ∧
    bboxOverlapsBounds (⟨0, 2, 0, 2⟩ : Box ℚ) ⟨1, 3, 1, 3⟩ = true := by
  refine ⟨?_, ?_, ?_⟩ <;> decide +kernel

/-! ## C60 -/

variable {C S : Type} [DecidableEq C]

/-- A subdataset that can be opened, has more than one row and column and finite bounds, with the area of its bounds. -/
def UsableSub (sd : S × Option (SubInfo K C)) (area : K) : Prop :=
  ∃ info b, sd.2 = some info ∧ 1 < info.width ∧ 1 < info.height ∧ info.bounds = some b ∧
    area = (b.xmax - b.xmin) * (b.ymax - b.ymin)

theorem pickStep_cases (tr : C → C → Box K → Option (Box K)) (desired : Option (Box K × C)) (st : Option S × K)
    (sd : S × Option (SubInfo K C)) :
    (∃ area, UsableSub sd area ∧ pickStep tr desired st sd = if st.2 < area then (some sd.1, area) else st) ∨
      ((∀ area, ¬ UsableSub sd area) ∧ pickStep tr desired st sd = st) := by
  obtain ⟨s, o⟩ := sd
  cases o with
  | none => exact Or.inr ⟨by rintro a ⟨_, _, h, _⟩; simp at h, rfl⟩
  | some info =>
    by_cases hw : info.width ≤ 1 ∨ info.height ≤ 1
    · right
      constructor
      · rintro a ⟨i, b, h, h1, h2, _⟩
        cases h
        omega
      · simp only [pickStep, if_pos hw]
    · cases hb : info.bounds with
      | none =>
        right
        constructor
        · rintro a ⟨i, b, h, _, _, h3, _⟩
          cases h
          rw [hb] at h3; cases h3
        · simp only [pickStep, if_neg hw, hb]
      | some b =>
        left
        push Not at hw
        refine ⟨(b.xmax - b.xmin) * (b.ymax - b.ymin), ⟨info, b, rfl, hw.1, hw.2, hb, rfl⟩, ?_⟩
        simp only [pickStep, if_neg (show ¬ (info.width ≤ 1 ∨ info.height ≤ 1) by omega), hb]
        cases desired with
        | none => rfl
        | some d =>
          dsimp only
          cases bboxInSub tr d info.crs with
          | none => rfl
          | some bb => simp only [ite_self]

theorem pick_fold (tr : C → C → Box K → Option (Box K)) (desired : Option (Box K × C)) :
    ∀ (subs : List (S × Option (SubInfo K C))) (st : Option S × K),
      (let r := subs.foldl (pickStep tr desired) st
       st.2 ≤ r.2 ∧ (∀ sd ∈ subs, ∀ area, UsableSub sd area → area ≤ r.2) ∧
        (r = st ∨ ∃ sd ∈ subs, UsableSub sd r.2 ∧ r.1 = some sd.1 ∧ st.2 < r.2))
  | [], st => ⟨le_refl _, by simp, Or.inl rfl⟩
  | sd :: subs, st => by
    have ih := pick_fold tr desired subs (pickStep tr desired st sd)
    obtain ⟨h1, h2, h3⟩ := ih
    simp only [List.foldl_cons]
    have hstep : st.2 ≤ (pickStep tr desired st sd).2 ∧ (∀ area, UsableSub sd area → area ≤ (pickStep tr desired st sd).2) ∧
        (pickStep tr desired st sd = st ∨ (UsableSub sd (pickStep tr desired st sd).2 ∧
          (pickStep tr desired st sd).1 = some sd.1 ∧ st.2 < (pickStep tr desired st sd).2)) := by
      rcases pickStep_cases tr desired st sd with ⟨area, hu, he⟩ | ⟨hn, he⟩
      · have huniq : ∀ a, UsableSub sd a → a = area := by
          rintro a ⟨i, b, e1, _, _, e4, e5⟩
          obtain ⟨i', b', f1, _, _, f4, f5⟩ := hu
          rw [e1] at f1; cases f1
          rw [e4] at f4; cases f4
          rw [e5, f5]
        rw [he]
        by_cases hlt : st.2 < area
        · rw [if_pos hlt]
          exact ⟨hlt.le, fun a ha => (huniq a ha).le, Or.inr ⟨hu, rfl, hlt⟩⟩
        · rw [if_neg hlt]
          exact ⟨le_refl _, fun a ha => (huniq a ha).le.trans (not_lt.1 hlt), Or.inl rfl⟩
      · rw [he]
        exact ⟨le_refl _, fun a ha => absurd ha (hn a), Or.inl rfl⟩
    obtain ⟨g1, g2, g3⟩ := hstep
    refine ⟨g1.trans h1, ?_, ?_⟩
    · intro x hx a ha
      rcases List.mem_cons.1 hx with rfl | hx
      · exact (g2 a ha).trans h1
      · exact h2 x hx a ha
    · rcases h3 with h3 | ⟨x, hx, hu, hr, hlt⟩
      · rw [h3]
        rcases g3 with g3 | ⟨hu, hr, hlt⟩
        · exact Or.inl g3
        · exact Or.inr ⟨sd, List.mem_cons_self .., hu, hr, hlt⟩
      · exact Or.inr ⟨x, List.mem_cons_of_mem _ hx, hu, hr, g1.trans_lt hlt⟩

/-- **C60** Full claim: if a subdataset overlaps the region, one that overlaps it is picked, otherwise the largest. Proved: the largest
usable subdataset is picked whatever the region is. `C60_overlap_ignored` shows that the first part fails. -/
theorem C60_largest_picked_partial (tr : C → C → Box K → Option (Box K)) (desired : Option (Box K × C))
    (subs : List (S × Option (SubInfo K C))) (hpos : ∀ sd ∈ subs, ∀ area, UsableSub sd area → 0 ≤ area) :
    ((∀ sd ∈ subs, ∀ area, ¬ UsableSub sd area) ∧ pickNetcdf tr desired subs = none) ∨
      ∃ sd ∈ subs, ∃ area, UsableSub sd area ∧ pickNetcdf tr desired subs = some sd.1 ∧
        ∀ sd' ∈ subs, ∀ area', UsableSub sd' area' → area' ≤ area := by
  obtain ⟨h1, h2, h3⟩ := pick_fold tr desired subs (none, -1)
  unfold pickNetcdf
  rcases h3 with h3 | ⟨sd, hsd, hu, hr, _⟩
  · left
    refine ⟨?_, by rw [h3]⟩
    intro sd hsd area hu
    have h4 := h2 sd hsd area hu
    have h5 := hpos sd hsd area hu
    rw [h3] at h4
    simp only at h4
    linarith
  · exact Or.inr ⟨sd, hsd, _, hu, hr, h2⟩

/-- **C60** The region has no influence on the choice. -/
theorem C60_region_irrelevant (tr : C → C → Box K → Option (Box K)) (desired desired' : Option (Box K × C))
    (subs : List (S × Option (SubInfo K C))) : pickNetcdf tr desired subs = pickNetcdf tr desired' subs := by
  have hstep : ∀ (st : Option S × K) (sd : S × Option (SubInfo K C)), pickStep tr desired st sd = pickStep tr desired' st sd := by
    intro st sd
    rcases pickStep_cases tr desired st sd with ⟨a, ⟨i, b, e1, e2, e3, e4, e5⟩, h⟩ | ⟨hn, h⟩ <;>
      rcases pickStep_cases tr desired' st sd with ⟨a', ⟨i', b', f1, f2, f3, f4, f5⟩, h'⟩ | ⟨hn', h'⟩
    · rw [e1] at f1; cases f1
      rw [e4] at f4; cases f4
      rw [h, h', e5, f5]
    · exact absurd ⟨i, b, e1, e2, e3, e4, e5⟩ (hn' a)
    · exact absurd ⟨i', b', f1, f2, f3, f4, f5⟩ (hn a')
    · rw [h, h']
  have : pickStep tr desired = pickStep (S := S) tr desired' := funext fun st => funext fun sd => hstep st sd
  unfold pickNetcdf
  rw [this]

end

/-- Two subdatasets: number 0 covers the region, number 1 is larger and lies elsewhere. -/
def twoSubs : List (Nat × Option (SubInfo ℚ Nat)) :=
  [(0, some ⟨10, 10, some ⟨0, 5, 0, 5⟩, some 4326⟩), (1, some ⟨10, 10, some ⟨100, 150, 0, 50⟩, some 4326⟩)]

/-- **C60** counterexample: subdataset 0 overlaps the region `[1,2]×[1,2]`, subdataset 1 does not, and subdataset 1 is picked. -/
theorem C60_overlap_ignored :
    bboxOverlapsBounds (⟨1, 2, 1, 2⟩ : Box ℚ) ⟨0, 5, 0, 5⟩ = true ∧ bboxOverlapsBounds (⟨1, 2, 1, 2⟩ : Box ℚ) ⟨100, 150, 0, 50⟩ = false ∧
      pickNetcdf (fun _ _ b => some b) (some (⟨1, 2, 1, 2⟩, 4326)) twoSubs = some 1 := by
  refine ⟨by decide +kernel, by decide +kernel, by decide +kernel⟩

example : (∀ sd ∈ twoSubs, ∀ area, UsableSub sd area → 0 ≤ area) ∧ UsableSub (S := Nat) (twoSubs[0]) 25 := by
  constructor
  · rintro sd hsd area ⟨i, b, h1, _, _, h4, h5⟩
    simp only [twoSubs, List.mem_cons, List.not_mem_nil, or_false] at hsd
    rcases hsd with rfl | rfl
    · cases h1; cases h4; rw [h5]; norm_num
    · cases h1; cases h4; rw [h5]; norm_num
  · exact ⟨⟨10, 10, some ⟨0, 5, 0, 5⟩, some 4326⟩, ⟨0, 5, 0, 5⟩, rfl, by norm_num, by norm_num, rfl, by norm_num⟩

/-! ## C77 -/

section
variable {K : Type} [Field K] [LinearOrder K] [IsStrictOrderedRing K]

/-- **C77** What the function really decides: all four values, latitudes included, lie between -180 and 180. -/
theorem C77_decides_180 (xmin xmax ymin ymax : K) :
    inferGeographic [xmin, xmax, ymin, ymax] = true ↔ ∀ v ∈ [xmin, xmax, ymin, ymax], |v| ≤ 180 := by
  rw [inferGeographic]
  split
  · rename_i h
    simp only [List.any_eq_true, decide_eq_true_eq] at h
    obtain ⟨v, hv, h⟩ := h
    simp only [Bool.false_eq_true, false_iff]
    intro hall
    have := hall v hv
    linarith
  · rename_i h0
    simp only [List.any_eq_true, decide_eq_true_eq, not_exists, not_and, not_lt] at h0
    split
    · rename_i h
      simp only [Bool.and_eq_true, List.all_eq_true, List.mem_cons, List.not_mem_nil, or_false, forall_eq_or_imp, forall_eq,
        decide_eq_true_eq] at h
      obtain ⟨⟨⟨a1, a2⟩, a3, a4⟩, ⟨b1, b2⟩, b3, b4⟩ := h
      simp only [List.mem_cons, List.not_mem_nil, or_false, forall_eq_or_imp, forall_eq, abs_le, true_iff]
      exact ⟨⟨a1, a2⟩, ⟨a3, a4⟩, ⟨by linarith, by linarith⟩, ⟨by linarith, by linarith⟩⟩
    · split
      · rename_i h
        simp only [List.any_eq_true, Bool.and_eq_true, decide_eq_true_eq] at h
        obtain ⟨v, hv, h1, _⟩ := h
        simp only [Bool.false_eq_true, false_iff]
        intro hall
        exact absurd (hall v hv) (not_le.2 h1)
      · rename_i h
        simp only [List.any_eq_true, Bool.and_eq_true, decide_eq_true_eq, not_exists, not_and] at h
        simp only [true_iff]
        intro v hv
        by_contra hlt
        exact h v hv (not_le.1 hlt) (h0 v hv)

/-- **C77** Full claim: geographic coordinates are proposed exactly when all values are valid longitudes and latitudes. Proved: they are
proposed whenever this holds, and never if a longitude is not valid. `C77_latitude_not_checked` shows that the rest fails. -/
theorem C77_valid_lonlat_partial (xmin xmax ymin ymax : K) :
    (|xmin| ≤ 180 → |xmax| ≤ 180 → |ymin| ≤ 90 → |ymax| ≤ 90 → inferGeographic [xmin, xmax, ymin, ymax] = true) ∧
      (180 < |xmin| ∨ 180 < |xmax| → inferGeographic [xmin, xmax, ymin, ymax] = false) := by
  constructor
  · intro h1 h2 h3 h4
    rw [C77_decides_180]
    simp only [List.mem_cons, List.not_mem_nil, or_false, forall_eq_or_imp, forall_eq]
    exact ⟨h1, h2, by linarith, by linarith⟩
  · intro h
    rw [← Bool.not_eq_true, C77_decides_180]
    intro hall
    rcases h with h | h
    · have := hall xmin (by simp)
      linarith
    · have := hall xmax (by simp)
      linarith

end

/-- **C77** counterexample: latitudes from 100 to 170 degrees are taken for geographic. -/
theorem C77_latitude_not_checked : inferGeographic [0, 10, 100, (170 : ℚ)] = true := by decide +kernel

example : inferGeographic [-75, -70, 38, (42 : ℚ)] = true ∧ inferGeographic [500000, 510000, 4000000, (4010000 : ℚ)] = false := by
  constructor <;> decide +kernel

end OM
