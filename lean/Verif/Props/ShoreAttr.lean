import Verif.Model.ShoreAttr
import Mathlib.Data.Rat.Defs
import Mathlib.Algebra.Order.Ring.Rat
import Mathlib.Algebra.Field.Rat
import Mathlib.Tactic.NormNum
/-!
# C137: the attributes of a shoreline
-/
namespace OM
set_option linter.unusedSectionVars false
namespace Spec

variable {K : Type} [Field K] [LinearOrder K]

/-- A number that is not NaN and larger than zero. -/
def PositiveNumber (x : Option K) : Prop := ∃ y, x = some y ∧ 0 < y

/-- A number that is not NaN and not negative. -/
def NonnegNumber (x : Option K) : Prop := ∃ y, x = some y ∧ 0 ≤ y

/-- The attributes are as wanted, up to NaN. -/
def SoundUpToNan (s : ShoreAttr K) : Prop :=
  (s.h0 = none ∨ PositiveNumber s.h0) ∧ (s.refinements = none ∨ NonnegNumber s.refinements) ∧ (s.mult = none ∨ PositiveNumber s.mult)

/-- The attributes are as wanted. -/
def SoundAttr (s : ShoreAttr K) : Prop := PositiveNumber s.h0 ∧ NonnegNumber s.refinements ∧ PositiveNumber s.mult

/-- The assignment does not give NaN. -/
def NoNan : ShoreOp K → Prop
  | .shp _ _ => True
  | .refinements x => x ≠ none
  | .mult x => x ≠ none
  | .h0 x => x ≠ none

/-- The value that an assignment gives to an attribute is allowed by the class. -/
def Allowed : ShoreOp K → Prop
  | .shp _ isfile => isfile = true
  | .refinements x => ∀ y, x = some y → 0 ≤ y
  | .mult x => ∀ y, x = some y → 0 < y
  | .h0 x => ∀ y, x = some y → 0 < y

/-- The last allowed value of an attribute in a history. -/
def lastValue {A : Type} (get : ShoreOp K → Option A) (start : A) (ops : List (ShoreOp K)) : A :=
  match (ops.filterMap get).getLast? with
  | some a => a
  | none => start

end Spec
open Spec

variable {K : Type} [Field K] [LinearOrder K]

theorem belowZero_iff {x : Option K} : belowZero x = false ↔ ∀ y, x = some y → 0 ≤ y := by
  cases x <;> simp [belowZero]

theorem notAboveZero_iff {x : Option K} : notAboveZero x = false ↔ ∀ y, x = some y → 0 < y := by
  cases x <;> simp [notAboveZero]

/-- **C137** (1) An assignment raises exactly if the value is not allowed (FileNotFoundError for paths, ValueError otherwise); if not, it changes that attribute only. -/
theorem C137_step (s : ShoreAttr K) (op : ShoreOp K) :
    (Allowed op → s.step op = .ok (match op with
      | .shp p _ => { s with shp := p }
      | .refinements x => { s with refinements := x }
      | .mult x => { s with mult := x }
      | .h0 x => { s with h0 := x })) ∧
    (¬ Allowed op → s.step op = .error (match op with
      | .shp _ _ => .fileNotFound
      | _ => .valueError)) := by
  cases op with
  | shp p f => cases f <;> simp [Allowed, ShoreAttr.step]
  | refinements x =>
    refine ⟨fun h => ?_, fun h => ?_⟩
    · rw [Allowed, ← belowZero_iff] at h
      simp [ShoreAttr.step, h]
    · rw [Allowed, ← belowZero_iff] at h
      simp [ShoreAttr.step, h]
  | mult x =>
    refine ⟨fun h => ?_, fun h => ?_⟩
    · rw [Allowed, ← notAboveZero_iff] at h
      simp [ShoreAttr.step, h]
    · rw [Allowed, ← notAboveZero_iff] at h
      simp [ShoreAttr.step, h]
  | h0 x =>
    refine ⟨fun h => ?_, fun h => ?_⟩
    · rw [Allowed, ← notAboveZero_iff] at h
      simp [ShoreAttr.step, h]
    · rw [Allowed, ← notAboveZero_iff] at h
      simp [ShoreAttr.step, h]

theorem soundUpToNan_step {s s' : ShoreAttr K} {op : ShoreOp K} (hs : SoundUpToNan s) (h : s.step op = .ok s') : SoundUpToNan s' := by
  have ha : Allowed op := by
    by_contra hn
    rw [(C137_step s op).2 hn] at h
    simp at h
  rw [(C137_step s op).1 ha] at h
  simp only [Except.ok.injEq] at h
  subst h
  cases op with
  | shp p f => exact hs
  | refinements x =>
    refine ⟨hs.1, ?_, hs.2.2⟩
    cases x with
    | none => exact Or.inl rfl
    | some y => exact Or.inr ⟨y, rfl, ha y rfl⟩
  | mult x =>
    refine ⟨hs.1, hs.2.1, ?_⟩
    cases x with
    | none => exact Or.inl rfl
    | some y => exact Or.inr ⟨y, rfl, ha y rfl⟩
  | h0 x =>
    refine ⟨?_, hs.2⟩
    cases x with
    | none => exact Or.inl rfl
    | some y => exact Or.inr ⟨y, rfl, ha y rfl⟩

/-- **C137** (2) The constructor succeeds exactly if the path is a file and no number is out of its range; then the attributes are the arguments. A missing file is reported before bad numbers. -/
theorem C137_new (p : List Char) (f : Bool) (h r m : Option K) : ShoreAttr.new p f h r m =
    (if f = false then .error .fileNotFound
    else if (∃ y, h = some y ∧ y ≤ 0) ∨ (∃ y, r = some y ∧ y < 0) ∨ (∃ y, m = some y ∧ y ≤ 0) then .error .valueError else .ok ⟨p, h, r, m⟩) := by
  have e1 : ∀ x : Option K, notAboveZero x = true ↔ ∃ y, x = some y ∧ y ≤ 0 := by
    intro x
    cases x <;> simp [notAboveZero]
  have e2 : ∀ x : Option K, belowZero x = true ↔ ∃ y, x = some y ∧ y < 0 := by
    intro x
    cases x <;> simp [belowZero]
  cases f with
  | false => simp [ShoreAttr.new]
  | true =>
    simp only [ShoreAttr.new, if_true, Bool.true_eq_false, if_false]
    simp only [e1, e2]
    by_cases a : ∃ y, h = some y ∧ y ≤ 0
    · rw [if_pos a, if_pos (Or.inl a)]
    · by_cases b : ∃ y, r = some y ∧ y < 0
      · rw [if_neg a, if_pos b, if_pos (Or.inr (Or.inl b))]
      · by_cases c : ∃ y, m = some y ∧ y ≤ 0
        · rw [if_neg a, if_neg b, if_pos c, if_pos (Or.inr (Or.inr c))]
        · rw [if_neg a, if_neg b, if_neg c, if_neg (by rintro (h | h | h); exacts [a h, b h, c h])]

/-- **C137** (3) After every history of assignments, allowed or not, the numbers are NaN or in their ranges. -/
theorem C137_history_partial (ops : List (ShoreOp K)) {s : ShoreAttr K} (hs : SoundUpToNan s) : SoundUpToNan (s.run ops) := by
  induction ops generalizing s with
  | nil => exact hs
  | cons op ops ih =>
    unfold ShoreAttr.run
    cases h : s.step op with
    | ok s' => exact ih (soundUpToNan_step hs h)
    | error e => exact ih hs

/-- **C137** (4) If no assignment gives NaN, they are in their ranges. -/
theorem C137_numbers (ops : List (ShoreOp K)) (hops : ∀ op ∈ ops, NoNan op) {s : ShoreAttr K} (hs : SoundAttr s) : SoundAttr (s.run ops) := by
  induction ops generalizing s with
  | nil => exact hs
  | cons op ops ih =>
    have hno := hops op List.mem_cons_self
    have hrest := fun o ho => hops o (List.mem_cons_of_mem _ ho)
    unfold ShoreAttr.run
    cases h : s.step op with
    | error e => exact ih hrest hs
    | ok s' =>
      have hu : SoundUpToNan s' := soundUpToNan_step ⟨Or.inr hs.1, Or.inr hs.2.1, Or.inr hs.2.2⟩ h
      refine ih hrest ?_
      have ha : Allowed op := by
        by_contra hn
        rw [(C137_step s op).2 hn] at h
        simp at h
      rw [(C137_step s op).1 ha] at h
      simp only [Except.ok.injEq] at h
      subst h
      cases op with
      | shp p f => exact hs
      | refinements x => exact ⟨hs.1, hu.2.1.resolve_left hno, hs.2.2⟩
      | mult x => exact ⟨hs.1, hs.2.1, hu.2.2.resolve_left hno⟩
      | h0 x => exact ⟨hu.1.resolve_left hno, hs.2⟩

/-- **C137** (5) After every history each attribute has the value of the last allowed assignment to it, or the one it began with. -/
theorem C137_last [∀ op : ShoreOp K, Decidable (Allowed op)] (ops : List (ShoreOp K)) (s : ShoreAttr K) :
    (s.run ops).shp = lastValue (fun op => if Allowed op then match op with | .shp p _ => some p | _ => none else none) s.shp ops ∧
    (s.run ops).h0 = lastValue (fun op => if Allowed op then match op with | .h0 x => some x | _ => none else none) s.h0 ops ∧
    (s.run ops).refinements = lastValue (fun op => if Allowed op then match op with | .refinements x => some x | _ => none else none) s.refinements ops ∧
    (s.run ops).mult = lastValue (fun op => if Allowed op then match op with | .mult x => some x | _ => none else none) s.mult ops := by
  have key : ∀ {A : Type} (get : ShoreOp K → Option A) (a : A) (op : ShoreOp K) (ops : List (ShoreOp K)),
      lastValue get a (op :: ops) = lastValue get (match get op with | some b => b | none => a) ops := by
    intro A get a op ops
    unfold lastValue
    cases h : get op with
    | none => simp [h]
    | some b =>
      rw [List.filterMap_cons_some h]
      cases hl : ops.filterMap get with
      | nil => simp
      | cons c l =>
        rw [List.getLast?_cons_cons]
        cases hx : (c :: l).getLast? with
        | none => simp at hx
        | some x => rfl
  induction ops generalizing s with
  | nil => exact ⟨rfl, rfl, rfl, rfl⟩
  | cons op ops ih =>
    unfold ShoreAttr.run
    rw [key, key, key, key]
    by_cases ha : Allowed op
    · rw [(C137_step s op).1 ha]
      simp only [ha, if_true]
      cases op <;> exact ih _
    · rw [(C137_step s op).2 ha]
      simp only [ha, if_false]
      exact ih s

/-- **C137** (6) NaN is accepted for every number, and zero refinements although the message says that they must be larger than zero: the wish that the attributes are numbers in their ranges is
not met. -/
theorem C137_nan_accepted (p : List Char) : ShoreAttr.new (K := ℚ) p true none none none = .ok ⟨p, none, none, none⟩ ∧ ¬ SoundAttr (⟨p, none, none, none⟩ : ShoreAttr ℚ) ∧
    ShoreAttr.new (K := ℚ) p true (some 1) (some 0) (some 4) = .ok ⟨p, some 1, some 0, some 4⟩ := by
  refine ⟨by simp [ShoreAttr.new, notAboveZero, belowZero], ?_, by norm_num [ShoreAttr.new, notAboveZero, belowZero]⟩
  rintro ⟨⟨y, h, -⟩, -⟩
  simp at h

/-- **C137** (7) Features are reprojected exactly if their coordinate system is not the wanted one; the number and order of features stay. -/
theorem C137_transform {C P : Type} [DecidableEq C] (reproject : C → C → P → P) (fs : List P) (crs dst : C) :
    (shoreTransform reproject fs crs dst).2 = dst ∧ (shoreTransform reproject fs crs dst).1.length = fs.length ∧ (crs = dst → (shoreTransform reproject fs crs dst).1 = fs) ∧
    (crs ≠ dst → ∀ (i : Nat) (f : P), fs[i]? = some f → (shoreTransform reproject fs crs dst).1[i]? = some (reproject crs dst f)) ∧
    shoreTransform reproject (shoreTransform reproject fs crs dst).1 (shoreTransform reproject fs crs dst).2 dst = shoreTransform reproject fs crs dst := by
  unfold shoreTransform
  by_cases h : crs = dst
  · subst h
    simp
  · simp [h]
    intro i f hf
    exact ⟨f, hf, rfl⟩

example : (ShoreAttr.mk "a".toList (some (1 : ℚ)) (some 1) (some 4)).run [.h0 (some 2), .h0 (some (-1)), .mult (some 0), .shp "b".toList false, .refinements (some 0)] = ⟨"a".toList, some 2, some 0, some 4⟩ ∧
    SoundAttr (ShoreAttr.mk "a".toList (some (1 : ℚ)) (some 1) (some 4)) := by
  refine ⟨by norm_num [ShoreAttr.run, ShoreAttr.step, notAboveZero, belowZero], ⟨1, rfl, by norm_num⟩, ⟨1, rfl, by norm_num⟩, ⟨4, rfl, by norm_num⟩⟩

example : shoreTransform (fun (a b : ℕ) (x : ℕ) => x + b - a) [10, 20] 3 5 = ([12, 22], 5) ∧ shoreTransform (fun (a b : ℕ) (x : ℕ) => x + b - a) [10, 20] 5 5 = ([10, 20], 5) := by decide

end OM
