import Verif.Props.GridObj2
/-!
# C134: what single operations on a grid do
-/
set_option linter.unusedSectionVars false
namespace OM
open Spec

section
variable {K C : Type} [Field K] [LinearOrder K] [IsStrictOrderedRing K] [FloorRing K]

/-- **C134** (9) A successful write changes one entry, for everything that refers to the array, and fails exactly for indices that are not in the array. -/
theorem C134_write (P : Projections K C) {h : List (GridArray K)} {s : GridObj K C} {a : GridArray K} (ha : s.current h = some a) (i j : Nat) (v : Option K) :
    ((s.step P h (.write i j v)).raised = false ↔ i < a.nx ∧ j < a.ny) ∧
    ((s.step P h (.write i j v)).raised = false → (s.step P h (.write i j v)).obj = s ∧ ∀ t : GridObj K C, t.values = s.values →
      ∃ a', t.current (s.step P h (.write i j v)).heap = some a' ∧ a'.nx = a.nx ∧ a'.ny = a.ny ∧
        ∀ i' j', entryOf a' i' j' = if i' = i ∧ j' = j then some v else entryOf a i' j') := by
  unfold GridObj.current at ha
  cases hv : s.values with
  | none => rw [hv] at ha; cases ha
  | some r =>
    rw [hv, Option.bind_some] at ha
    simp only [GridObj.step, GridObj.write, hv, ha]
    by_cases hij : i < a.nx ∧ j < a.ny
    · rw [if_pos hij]
      refine ⟨by simpa using hij, fun _ => ⟨rfl, fun t ht => ?_⟩⟩
      have hr : r < h.length := (List.getElem?_eq_some_iff.1 ha).1
      refine ⟨⟨a.nx, a.ny, fun i' j' => if i'.val = i ∧ j'.val = j then v else a.vals i' j'⟩, by unfold GridObj.current; rw [ht, Option.bind_some, List.getElem?_set_self hr], rfl, rfl, fun i' j' => ?_⟩
      unfold entryOf
      by_cases hb : i' < a.nx ∧ j' < a.ny
      · rw [dif_pos hb, dif_pos hb]
        simp only
        split <;> rfl
      · rw [dif_neg hb, dif_neg hb, if_neg]
        rintro ⟨rfl, rfl⟩
        exact hb hij
    · rw [if_neg hij]
      exact ⟨by simpa using hij, fun hh => by cases hh⟩

/-- **C134** (10) A scalar fills an array of its own whose nodes, counted from the left and lower side of the box, are those that lie in the box. -/
theorem C134_scalar (P : Projections K C) {h : List (GridArray K)} {s : GridObj K C} (hs : SoundGrid h s) (v : Option K) : (s.step P h (.setValues (.scalar v))).raised = false ∧
    (s.step P h (.setValues (.scalar v))).obj.values = some h.length ∧ ∃ a, (s.step P h (.setValues (.scalar v))).heap = h ++ [a] ∧ (∀ i j, a.vals i j = v) ∧
      (∀ i : Nat, i < a.nx ↔ s.box.xmin + i * s.dx ≤ s.box.xmax) ∧ (∀ j : Nat, j < a.ny ↔ s.box.ymin + j * s.dy ≤ s.box.ymax) := by
  have key : ∀ (lo hi d : K), 0 < d → lo ≤ hi → ∀ i : Nat, i < (⌊(hi - lo) / d⌋ + 1).toNat ↔ lo + i * d ≤ hi := by
    intro lo hi d hd hl i
    have h0 : 0 ≤ ⌊(hi - lo) / d⌋ := Int.floor_nonneg.2 (div_nonneg (sub_nonneg.2 hl) hd.le)
    have : i < (⌊(hi - lo) / d⌋ + 1).toNat ↔ (i : ℤ) ≤ ⌊(hi - lo) / d⌋ := by omega
    rw [this, Int.le_floor, le_div_iff₀ hd, le_sub_iff_add_le']
    simp
  refine ⟨rfl, rfl, _, rfl, fun _ _ => rfl, key _ _ _ hs.dx hs.box.1, fun j => ?_⟩
  rw [← key _ _ _ hs.dy hs.box.2 j]
  have h0 : 0 ≤ ⌊(s.box.ymax - s.box.ymin) / s.dy⌋ := Int.floor_nonneg.2 (div_nonneg (sub_nonneg.2 hs.box.2) hs.dy.le)
  simp only
  omega

/-- **C134** (11) A successful `flip` gives the grid an array of its own with the negated values, if the box does not reach around the globe, and no other grid sees it. -/
theorem C134_flip (P : Projections K C) {h : List (GridArray K)} {s : GridObj K C} (hok : (s.step P h .flip).raised = false) (hbox : ¬ (|s.box.xmin| = 180 ∧ |s.box.xmax| = 180)) :
    ∃ a a', s.current h = some a ∧ (s.step P h .flip).obj.values = some h.length ∧ (s.step P h .flip).heap = h ++ [a'] ∧ a'.nx = a.nx ∧ a'.ny = a.ny ∧
      ∀ i j, entryOf a' i j = (entryOf a i j).map fun x => x.map fun y => -y := by
  have hc : cyclicBox s.box = false := by simpa [cyclicBox] using hbox
  rw [GridObj.step] at hok ⊢
  unfold GridObj.flip at hok ⊢
  cases hv : s.values with
  | none => rw [hv] at hok; cases hok
  | some r =>
    rw [hv] at hok
    simp only at hok ⊢
    cases ha : h[r]? with
    | none => rw [ha] at hok; cases hok
    | some a =>
      refine ⟨a, ⟨a.nx, a.ny, fun i j => (a.vals i j).map fun x => -x⟩, by unfold GridObj.current; rw [hv]; exact ha, ?_, ?_, rfl, rfl, fun i j => ?_⟩
      · simp [GridObj.setValues, GridObj.build, hc]
      · simp [GridObj.setValues, GridObj.build, hc, cyclicVals]
      · unfold entryOf
        split <;> rfl

/-- **C134** (12) Assigned attributes are the ones read, and the others stay: spacings. -/
theorem C134_spacing (P : Projections K C) (h : List (GridArray K)) (s : GridObj K C) (v : K) :
    ((s.step P h (.setDx v)).raised = true ↔ v ≤ 0) ∧ ((s.step P h (.setDy v)).raised = true ↔ v ≤ 0) ∧
    (0 < v → (s.step P h (.setDx v)).obj = { s with dx := v } ∧ (s.step P h (.setDy v)).obj = { s with dy := v }) ∧
    (s.step P h (.setDx v)).heap = h ∧ (s.step P h (.setDy v)).heap = h := by
  unfold GridObj.step
  by_cases hv : v ≤ 0
  · simp [hv, not_lt.2 hv]
  · simp [hv]

/-- **C134** (12) Attributes without checks. -/
theorem C134_plain (P : Projections K C) (h : List (GridArray K)) (s : GridObj K C) (e : Bool) (m : Option K) :
    s.step P h (.setExtrapolate e) = ⟨h, { s with extrapolate := e }, false⟩ ∧ s.step P h (.setHmin m) = ⟨h, { s with hmin := m }, false⟩ := ⟨rfl, rfl⟩

/-- **C134** (13) `transform_to` does nothing in the same system; in another it raises exactly if the transformed lower left and upper right corners are not in order, and else they are the
corners of the new box. -/
theorem C134_transform (P : Projections K C) (h : List (GridArray K)) (s : GridObj K C) (dst : C) (lo hi : K × K) (hlo : P.transform s.crs dst (s.box.xmin, s.box.ymin) = lo)
    (hhi : P.transform s.crs dst (s.box.xmax, s.box.ymax) = hi) :
    (P.same s.crs dst = true → s.step P h (.transformTo dst) = ⟨h, s, false⟩) ∧
    (P.same s.crs dst = false → ((s.step P h (.transformTo dst)).raised = true ↔ ¬ (lo.1 ≤ hi.1 ∧ lo.2 ≤ hi.2)) ∧
      (lo.1 ≤ hi.1 ∧ lo.2 ≤ hi.2 → (s.step P h (.transformTo dst)).obj = { s with box := ⟨lo.1, hi.1, lo.2, hi.2⟩, crs := dst })) := by
  subst hlo hhi
  simp only [GridObj.step, GridObj.transformTo]
  refine ⟨fun e => by rw [if_pos e], fun e => ?_⟩
  rw [if_neg (by simp [e])]
  unfold GridObj.setBox
  simp only
  split
  · rename_i hb
    simp only [if_true]
    refine ⟨⟨fun _ hh => ?_, fun _ => trivial⟩, fun hh => ?_⟩
    all_goals rcases hb with hb | hb
    · exact absurd hh.1 (not_le.2 hb)
    · exact absurd hh.2 (not_le.2 hb)
    · exact absurd hh.1 (not_le.2 hb)
    · exact absurd hh.2 (not_le.2 hb)
  · rename_i hb
    push Not at hb
    simp [hb]

/-- **C134** (14) An existing array is not copied: afterwards both grids have the same values, also after writes through either of them. -/
theorem C134_alias (P : Projections K C) {h : List (GridArray K)} {s t : GridObj K C} {r : Nat} (ht : t.values = some r) (hr : r < h.length) (i j : Nat) (v : Option K) :
    (s.step P h (.setValues (.ref r))).raised = false ∧
    (s.step P h (.setValues (.ref r))).obj.current (t.step P (s.step P h (.setValues (.ref r))).heap (.write i j v)).heap =
      t.current (t.step P (s.step P h (.setValues (.ref r))).heap (.write i j v)).heap := by
  obtain ⟨a, ha⟩ : ∃ a, h[r]? = some a := ⟨_, List.getElem?_eq_getElem hr⟩
  simp only [GridObj.step, GridObj.setValues, ha]
  unfold GridObj.current
  rw [ht]
  exact ⟨trivial, rfl⟩

end

example : (unitGrid.step shiftedSystems unitHeap (.write 1 0 (some 5))).raised = false :=
  (C134_write shiftedSystems (s := unitGrid) (h := unitHeap) rfl 1 0 (some 5)).1.2 ⟨by decide, by decide⟩

example : ∃ a, (unitGrid.step shiftedSystems unitHeap (.setValues (.scalar (some 4)))).heap = unitHeap ++ [a] ∧ a.nx = 2 := by
  obtain ⟨_, _, a, h1, _, h3, _⟩ := C134_scalar shiftedSystems unitGrid_sound (some 4)
  refine ⟨a, h1, ?_⟩
  have e1 := (h3 1).2 (by decide +kernel)
  have e2 := mt (h3 2).1 (by decide +kernel)
  omega

example : ∃ a', (unitGrid.step shiftedSystems unitHeap .flip).heap = unitHeap ++ [a'] ∧ entryOf a' 1 1 = some (some (-1)) := by
  obtain ⟨a, a', h1, _, h3, _, _, h6⟩ := C134_flip shiftedSystems (h := unitHeap) (s := unitGrid) (by decide +kernel) (by decide +kernel)
  refine ⟨a', h3, ?_⟩
  rw [h6]
  cases h1
  decide +kernel

example : (unitGrid.step shiftedSystems unitHeap (.setDx 3)).obj.dx = 3 ∧ (unitGrid.step shiftedSystems unitHeap (.setDy 0)).raised = true :=
  ⟨by rw [((C134_spacing shiftedSystems unitHeap unitGrid 3).2.2.1 (by norm_num)).1], (C134_spacing shiftedSystems unitHeap unitGrid 0).2.1.2 le_rfl⟩

example : (unitGrid.step shiftedSystems unitHeap (.transformTo true)).obj.box.xmax = 101 := by
  rw [((C134_transform shiftedSystems unitHeap unitGrid true (100, 100) (101, 101) (by decide +kernel) (by decide +kernel)).2 rfl).2 (by decide +kernel)]

example : ({ unitGrid with values := none }.step shiftedSystems unitHeap (.setValues (.ref 0))).raised = false :=
  (C134_alias shiftedSystems (t := unitGrid) rfl (by decide) 0 0 none).1

example : (unitGrid.step shiftedSystems unitHeap (.setExtrapolate false)).obj.extrapolate = false := by rw [(C134_plain shiftedSystems unitHeap unitGrid false none).1]

end OM
