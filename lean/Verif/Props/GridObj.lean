import Verif.Model.GridObj
import Verif.Props.Grid
/-!
# Property C134: grids as objects

Any history of assignments and calls leaves a grid with positive spacings, an ordered box and as many columns and rows as its array has; grids that do not share arrays do not influence each
other; after `build_interpolant` the interpolator returns the values of the grid, also those written in place later; a call that raises an exception leaves the grid as it was.
-/
set_option linter.unusedSectionVars false
set_option linter.unusedVariables false
namespace OM
open Spec

section
variable {K C : Type} [Field K] [LinearOrder K] [IsStrictOrderedRing K] [FloorRing K]

/-- What a grid must be at any time. -/
structure Spec.SoundGrid (h : List (GridArray K)) (s : GridObj K C) : Prop where
  dx : 0 < s.dx
  dy : 0 < s.dy
  box : s.box.xmin ≤ s.box.xmax ∧ s.box.ymin ≤ s.box.ymax
  shape : ∀ r, s.values = some r → ∃ a, h[r]? = some a ∧ a.nx = s.nx ∧ a.ny = s.ny
  interp : ∀ e, s.eval = some e → 0 < e.dx ∧ 0 < e.dy ∧ e.arr < h.length

/-- The grid refers to array `r`, as its values or in its interpolator. -/
def Spec.Refers (s : GridObj K C) (r : Nat) : Prop := s.values = some r ∨ ∃ e, s.eval = some e ∧ e.arr = r

/-- Two grids that cannot be told apart by reading attributes and evaluating. -/
structure Spec.SameGrid (h : List (GridArray K)) (s : GridObj K C) (h' : List (GridArray K)) (s' : GridObj K C) : Prop where
  box : s.box = s'.box
  corner : s.x0 = s'.x0 ∧ s.y0 = s'.y0
  spacing : s.dx = s'.dx ∧ s.dy = s'.dy
  count : s.nx = s'.nx ∧ s.ny = s'.ny
  rest : s.extrapolate = s'.extrapolate ∧ s.hmin = s'.hmin ∧ s.crs = s'.crs
  values : s.current h = s'.current h'
  eval : ∀ q, s.evalAt h q = s'.evalAt h' q

/-- No array belongs to two grids. -/
structure Spec.SeparateGrids (w : GridWorld K C) : Prop where
  valid : ∀ (k : Nat) (s : GridObj K C), w.objs[k]? = some s → ∀ r, Refers s r → r < w.heap.length
  apart : ∀ (k l : Nat) (s t : GridObj K C), k ≠ l → w.objs[k]? = some s → w.objs[l]? = some t → ∀ r, Refers s r → ¬ Refers t r

/-! ## Lemmas -/

theorem get_append_old {α : Type} {l m : List α} {r : Nat} (h : r < l.length) : (l ++ m)[r]? = l[r]? := by
  rw [List.getElem?_append_left h]

/-- What one step does to the arrays. -/
structure HeapStep (h h2 : List (GridArray K)) (v : Option Nat) : Prop where
  len : h.length ≤ h2.length
  frame : ∀ r : Nat, r < h.length → v ≠ some r → h2[r]? = h[r]?
  shape : ∀ (r : Nat) (a : GridArray K), h[r]? = some a → ∃ a', h2[r]? = some a' ∧ a'.nx = a.nx ∧ a'.ny = a.ny

theorem heapStep_refl (h : List (GridArray K)) (v : Option Nat) : HeapStep h h v := ⟨le_refl _, fun _ _ _ => rfl, fun _ a ha => ⟨a, ha, rfl, rfl⟩⟩

theorem heapStep_append (h : List (GridArray K)) (a : GridArray K) (v : Option Nat) : HeapStep h (h ++ [a]) v :=
  ⟨by simp, fun r hr _ => get_append_old hr, fun r b hb => ⟨b, by rw [get_append_old (List.getElem?_eq_some_iff.1 hb).1]; exact hb, rfl, rfl⟩⟩

theorem heapStep_set {h : List (GridArray K)} {r : Nat} {a a' : GridArray K} (ha : h[r]? = some a) (hx : a'.nx = a.nx) (hy : a'.ny = a.ny) : HeapStep h (h.set r a') (some r) := by
  refine ⟨by simp, fun r' hr' hne => ?_, fun r' b hb => ?_⟩
  · rw [List.getElem?_set_ne (by intro e; exact hne (by rw [e]))]
  · by_cases e : r = r'
    · subst e
      rw [ha, Option.some_inj] at hb
      subst hb
      exact ⟨a', by rw [List.getElem?_set_self (List.getElem?_eq_some_iff.1 ha).1], hx, hy⟩
    · exact ⟨b, by rw [List.getElem?_set_ne e]; exact hb, rfl, rfl⟩

theorem write_heap (h : List (GridArray K)) (s : GridObj K C) (i j : Nat) (v : Option K) : HeapStep h (s.write h i j v).heap s.values ∧ (s.write h i j v).obj = s := by
  unfold GridObj.write
  cases hv : s.values with
  | none => exact ⟨heapStep_refl _ _, rfl⟩
  | some r =>
    simp only
    cases ha : h[r]? with
    | none => exact ⟨heapStep_refl _ _, rfl⟩
    | some a =>
      simp only
      split
      · exact ⟨heapStep_set ha rfl rfl, rfl⟩
      · exact ⟨heapStep_refl _ _, rfl⟩

theorem build_heap (h : List (GridArray K)) (s : GridObj K C) : HeapStep h (s.build h).heap s.values ∧
    ((s.build h).obj = s ∨ ∃ r, s.values = some r ∧ r < h.length ∧ (s.build h).obj = { s with eval := some ⟨s.x0, s.y0, s.dx, s.dy, r, s.extrapolate⟩ }) := by
  unfold GridObj.build
  cases hv : s.values with
  | none => exact ⟨heapStep_refl _ _, Or.inl rfl⟩
  | some r =>
    simp only
    cases ha : h[r]? with
    | none => exact ⟨heapStep_refl _ _, Or.inl rfl⟩
    | some a =>
      simp only
      split
      · exact ⟨heapStep_refl _ _, Or.inl rfl⟩
      · exact ⟨heapStep_set ha rfl rfl, Or.inr ⟨r, rfl, (List.getElem?_eq_some_iff.1 ha).1, rfl⟩⟩

theorem build_ok {h : List (GridArray K)} {s : GridObj K C} {r : Nat} {a : GridArray K} (hv : s.values = some r) (ha : h[r]? = some a) (hp : 0 < a.nx) : (s.build h).raised = false := by
  unfold GridObj.build
  simp only [hv, ha]
  split
  · rename_i hc; omega
  · rfl

theorem setBox_cases (h : List (GridArray K)) (s : GridObj K C) (b : Box K) : (s.setBox h b = ⟨h, s, true⟩) ∨
    (b.xmin ≤ b.xmax ∧ b.ymin ≤ b.ymax) ∧ s.setBox h b = ⟨h, { s with box := b }, false⟩ := by
  unfold GridObj.setBox
  split
  · exact Or.inl rfl
  · rename_i hb
    push Not at hb
    exact Or.inr ⟨hb, rfl⟩

theorem transformTo_cases (P : Projections K C) (h : List (GridArray K)) (s : GridObj K C) (dst : C) : (∃ f, s.transformTo P h dst = ⟨h, s, f⟩) ∨
    ∃ b : Box K, (b.xmin ≤ b.xmax ∧ b.ymin ≤ b.ymax) ∧ s.transformTo P h dst = ⟨h, { s with box := b, crs := dst }, false⟩ := by
  unfold GridObj.transformTo
  split
  · exact Or.inl ⟨_, rfl⟩
  · simp only
    rcases setBox_cases h s ⟨(P.transform s.crs dst (s.box.xmin, s.box.ymin)).1, (P.transform s.crs dst (s.box.xmax, s.box.ymax)).1,
      (P.transform s.crs dst (s.box.xmin, s.box.ymin)).2, (P.transform s.crs dst (s.box.xmax, s.box.ymax)).2⟩ with e | ⟨hb, e⟩
    · rw [e]; exact Or.inl ⟨_, rfl⟩
    · rw [e]; exact Or.inr ⟨_, hb, rfl⟩

/-- Steps that touch neither arrays nor references. -/
theorem SoundGrid_same {h : List (GridArray K)} {s s' : GridObj K C} (hs : SoundGrid h s) (h1 : 0 < s'.dx) (h2 : 0 < s'.dy) (h3 : s'.box.xmin ≤ s'.box.xmax ∧ s'.box.ymin ≤ s'.box.ymax)
    (h4 : s'.values = s.values) (h5 : s'.nx = s.nx ∧ s'.ny = s.ny) (h6 : s'.eval = s.eval) : SoundGrid h s' :=
  ⟨h1, h2, h3, fun r hr => by rw [h4] at hr; rw [h5.1, h5.2]; exact hs.shape r hr, fun e he => by rw [h6] at he; exact hs.interp e he⟩

/-- Other steps leave a grid sound. -/
theorem SoundGrid_heap {h h2 : List (GridArray K)} {v : Option Nat} {s : GridObj K C} (hs : SoundGrid h s) (hh : HeapStep h h2 v) : SoundGrid h2 s := by
  refine ⟨hs.dx, hs.dy, hs.box, fun r hr => ?_, fun e he => ⟨(hs.interp e he).1, (hs.interp e he).2.1, (hs.interp e he).2.2.trans_le hh.len⟩⟩
  obtain ⟨a, ha, hx, hy⟩ := hs.shape r hr
  obtain ⟨a', ha', hx', hy'⟩ := hh.shape r a ha
  exact ⟨a', ha', hx'.trans hx, hy'.trans hy⟩

theorem setValues_sound {h : List (GridArray K)} {s : GridObj K C} (hs : SoundGrid h s) (d : GridSource K) : SoundGrid (s.setValues h d).heap (s.setValues h d).obj ∧ HeapStep h (s.setValues h d).heap s.values := by
  have fresh : ∀ a : GridArray K, SoundGrid (h ++ [a]) { s with values := some h.length, nx := a.nx, ny := a.ny } := by
    intro a
    refine ⟨hs.dx, hs.dy, hs.box, fun r hr => ?_, fun e he => ⟨(hs.interp e he).1, (hs.interp e he).2.1, by have := (hs.interp e he).2.2; simp; omega⟩⟩
    simp only [Option.some_inj] at hr
    subst hr
    exact ⟨a, by simp, rfl, rfl⟩
  cases d with
  | missing => exact ⟨⟨hs.dx, hs.dy, hs.box, fun r hr => (by cases hr), hs.interp⟩, heapStep_refl _ _⟩
  | scalar v => exact ⟨fresh _, heapStep_append _ _ _⟩
  | fresh a => exact ⟨fresh a, heapStep_append _ _ _⟩
  | ref r =>
    cases ha : h[r]? with
    | none => simp only [GridObj.setValues, ha]; exact ⟨hs, heapStep_refl _ _⟩
    | some a =>
      simp only [GridObj.setValues, ha]
      refine ⟨⟨hs.dx, hs.dy, hs.box, fun r' hr => ?_, hs.interp⟩, heapStep_refl _ _⟩
      simp only [Option.some_inj] at hr
      subst hr
      exact ⟨a, ha, rfl, rfl⟩

theorem build_sound {h : List (GridArray K)} {s : GridObj K C} (hs : SoundGrid h s) : SoundGrid (s.build h).heap (s.build h).obj := by
  obtain ⟨h1, h2⟩ := build_heap h s
  have hs' := SoundGrid_heap hs h1
  rcases h2 with e | ⟨r, hr, hl, e⟩
  · rw [e]; exact hs'
  · rw [e]
    refine ⟨hs'.dx, hs'.dy, hs'.box, hs'.shape, fun e he => ?_⟩
    simp only [Option.some_inj] at he
    subst he
    exact ⟨hs.dx, hs.dy, hl.trans_le h1.len⟩

theorem flip_cases (h : List (GridArray K)) (s : GridObj K C) : s.flip h = ⟨h, s, true⟩ ∨
    ∃ a, s.flip h = (s.setValues h (.fresh a)).obj.build (s.setValues h (.fresh a)).heap := by
  unfold GridObj.flip
  cases hv : s.values with
  | none => exact Or.inl rfl
  | some r =>
    simp only
    cases ha : h[r]? with
    | none => exact Or.inl rfl
    | some a => exact Or.inr ⟨_, rfl⟩

theorem step_sound (P : Projections K C) {h : List (GridArray K)} {s : GridObj K C} (hs : SoundGrid h s) (op : GridOp K C) :
    SoundGrid (s.step P h op).heap (s.step P h op).obj ∧ HeapStep h (s.step P h op).heap s.values := by
  cases op with
  | setDx v =>
    unfold GridObj.step
    simp only
    split
    · exact ⟨hs, heapStep_refl _ _⟩
    · rename_i hv; exact ⟨SoundGrid_same hs (not_le.1 hv) hs.dy hs.box rfl ⟨rfl, rfl⟩ rfl, heapStep_refl _ _⟩
  | setDy v =>
    unfold GridObj.step
    simp only
    split
    · exact ⟨hs, heapStep_refl _ _⟩
    · rename_i hv; exact ⟨SoundGrid_same hs hs.dx (not_le.1 hv) hs.box rfl ⟨rfl, rfl⟩ rfl, heapStep_refl _ _⟩
  | setBox b =>
    rcases setBox_cases h s b with e | ⟨hb, e⟩
    · rw [GridObj.step, e]; exact ⟨hs, heapStep_refl _ _⟩
    · rw [GridObj.step, e]; exact ⟨SoundGrid_same hs hs.dx hs.dy hb rfl ⟨rfl, rfl⟩ rfl, heapStep_refl _ _⟩
  | setValues d => exact setValues_sound hs d
  | setExtrapolate e => exact ⟨SoundGrid_same hs hs.dx hs.dy hs.box rfl ⟨rfl, rfl⟩ rfl, heapStep_refl _ _⟩
  | setHmin m => exact ⟨SoundGrid_same hs hs.dx hs.dy hs.box rfl ⟨rfl, rfl⟩ rfl, heapStep_refl _ _⟩
  | transformTo dst =>
    rcases transformTo_cases P h s dst with ⟨f, e⟩ | ⟨b, hb, e⟩
    · rw [GridObj.step, e]; exact ⟨hs, heapStep_refl _ _⟩
    · rw [GridObj.step, e]; exact ⟨SoundGrid_same hs hs.dx hs.dy hb rfl ⟨rfl, rfl⟩ rfl, heapStep_refl _ _⟩
  | write i j v =>
    obtain ⟨h1, h2⟩ := write_heap h s i j v
    rw [GridObj.step, h2]
    exact ⟨SoundGrid_heap hs h1, h1⟩
  | build => exact ⟨build_sound hs, (build_heap h s).1⟩
  | flip =>
    rw [GridObj.step]
    rcases flip_cases h s with e | ⟨a, e⟩
    · rw [e]; exact ⟨hs, heapStep_refl _ _⟩
    · rw [e]
      obtain ⟨h1, h2⟩ := setValues_sound hs (.fresh a)
      obtain ⟨h3, _⟩ := build_heap (s.setValues h (.fresh a)).heap (s.setValues h (.fresh a)).obj
      refine ⟨build_sound h1, ⟨h2.len.trans h3.len, fun r hr hv => ?_, fun r b hb => ?_⟩⟩
      · rw [h3.frame r (hr.trans_le h2.len) (by simp only [GridObj.setValues, ne_eq, Option.some_inj]; omega), h2.frame r hr hv]
      · obtain ⟨b', hb', e1, e2⟩ := h2.shape r b hb
        obtain ⟨b2, hb2, e3, e4⟩ := h3.shape r b' hb'
        exact ⟨b2, hb2, e3.trans e1, e4.trans e2⟩

/-- **C134** (1) A new grid is sound. -/
theorem C134_new {h h2 : List (GridArray K)} {b : Box K} {dx : K} {dy : Option K} {crs : C} {hmin : Option K} {d : GridSource K} {e : Bool} {s : GridObj K C}
    (hn : GridObj.new h b dx dy crs hmin d e = some (h2, s)) : SoundGrid h2 s ∧ s.box = b ∧ s.dx = dx ∧ s.dy = dy.getD dx ∧ (s.x0, s.y0) = (b.xmin, b.ymin) ∧ s.eval = none := by
  unfold GridObj.new at hn
  simp only at hn
  split at hn
  · rename_i hc
    simp only [gridChecks, Bool.not_eq_true', Bool.or_eq_false_iff, decide_eq_false_iff_not, not_lt, not_le] at hc
    obtain ⟨⟨⟨c1, c2⟩, c3⟩, c4⟩ := hc
    have hs : SoundGrid h (⟨b, b.xmin, b.ymin, dx, dy.getD dx, 0, 0, none, none, e, hmin, crs⟩ : GridObj K C) :=
      ⟨c3, c4, ⟨c1, c2⟩, fun r hr => (by cases hr), fun e he => (by cases he)⟩
    have := (setValues_sound hs d).1
    cases d with
    | missing => simp [GridObj.setValues] at hn
    | scalar v =>
      simp only [GridObj.setValues, Bool.false_eq_true, if_false, Option.some.injEq, Prod.mk.injEq] at hn
      obtain ⟨rfl, rfl⟩ := hn
      exact ⟨this, rfl, rfl, rfl, rfl, rfl⟩
    | fresh a =>
      simp only [GridObj.setValues, Bool.false_eq_true, if_false, Option.some.injEq, Prod.mk.injEq] at hn
      obtain ⟨rfl, rfl⟩ := hn
      exact ⟨this, rfl, rfl, rfl, rfl, rfl⟩
    | ref r =>
      cases ha : h[r]? with
      | none => simp [GridObj.setValues, ha] at hn
      | some a =>
        simp only [GridObj.setValues, ha, Bool.false_eq_true, if_false, Option.some.injEq, Prod.mk.injEq] at hn this
        obtain ⟨rfl, rfl⟩ := hn
        exact ⟨this, rfl, rfl, rfl, rfl, rfl⟩
  · cases hn

/-- **C134** (1) All grids stay sound in every history of assignments and calls. -/
theorem C134_sound (P : Projections K C) : ∀ (ops : List (Nat × GridOp K C)) (w : GridWorld K C), (∀ s ∈ w.objs, SoundGrid w.heap s) → ∀ s ∈ (w.run P ops).objs, SoundGrid (w.run P ops).heap s
  | [], w, h => h
  | (k, op) :: l, w, h => by
    rw [GridWorld.run]
    apply C134_sound P l
    unfold GridWorld.step
    cases hk : w.objs[k]? with
    | none => exact h
    | some s =>
      obtain ⟨h1, h2⟩ := step_sound P (h s (List.mem_of_getElem? hk)) op
      intro t ht
      rcases List.mem_or_eq_of_mem_set ht with ht | rfl
      · exact SoundGrid_heap (h t ht) h2
      · exact h1

/-- **C134** (2) The corner of the lattice never changes. -/
theorem C134_corner (P : Projections K C) : ∀ (ops : List (GridOp K C)) (h : List (GridArray K)) (s : GridObj K C), (s.run P ops h).2.x0 = s.x0 ∧ (s.run P ops h).2.y0 = s.y0
  | [], h, s => ⟨rfl, rfl⟩
  | op :: l, h, s => by
    rw [GridObj.run]
    have key : (s.step P h op).obj.x0 = s.x0 ∧ (s.step P h op).obj.y0 = s.y0 := by
      have sv : ∀ d, (s.setValues h d).obj.x0 = s.x0 ∧ (s.setValues h d).obj.y0 = s.y0 := by
        intro d
        cases d with
        | missing => exact ⟨rfl, rfl⟩
        | scalar v => exact ⟨rfl, rfl⟩
        | fresh a => exact ⟨rfl, rfl⟩
        | ref r => cases ha : h[r]? <;> simp [GridObj.setValues, ha]
      have bu : ∀ (h : List (GridArray K)) (s : GridObj K C), (s.build h).obj.x0 = s.x0 ∧ (s.build h).obj.y0 = s.y0 := by
        intro h s
        rcases (build_heap h s).2 with e | ⟨r, _, _, e⟩ <;> rw [e] <;> exact ⟨rfl, rfl⟩
      cases op with
      | setDx v => unfold GridObj.step; simp only; split <;> exact ⟨rfl, rfl⟩
      | setDy v => unfold GridObj.step; simp only; split <;> exact ⟨rfl, rfl⟩
      | setBox b => rcases setBox_cases h s b with e | ⟨_, e⟩ <;> rw [GridObj.step, e] <;> exact ⟨rfl, rfl⟩
      | setValues d => exact sv d
      | setExtrapolate e => exact ⟨rfl, rfl⟩
      | setHmin m => exact ⟨rfl, rfl⟩
      | transformTo dst => rcases transformTo_cases P h s dst with ⟨_, e⟩ | ⟨_, _, e⟩ <;> rw [GridObj.step, e] <;> exact ⟨rfl, rfl⟩
      | write i j v => rw [GridObj.step, (write_heap h s i j v).2]; exact ⟨rfl, rfl⟩
      | build => exact bu h s
      | flip =>
        rw [GridObj.step]
        rcases flip_cases h s with e | ⟨a, e⟩
        · rw [e]; exact ⟨rfl, rfl⟩
        · rw [e]; exact ⟨(bu _ _).1.trans (sv _).1, (bu _ _).2.trans (sv _).2⟩
    obtain ⟨k1, k2⟩ := C134_corner P l (s.step P h op).heap (s.step P h op).obj
    exact ⟨k1.trans key.1, k2.trans key.2⟩

/-- **C134** (3) An exception leaves grid and arrays as they were, unless it comes from `None` as values. -/
theorem C134_raise (P : Projections K C) (h : List (GridArray K)) (s : GridObj K C) (op : GridOp K C) (hop : op ≠ .setValues .missing) (hflip : ∀ (r : Nat) (a : GridArray K), op = .flip → h[r]? = some a → 0 < a.nx)
    (hr : (s.step P h op).raised = true) : (s.step P h op).heap = h ∧ (s.step P h op).obj = s := by
  cases op with
  | setDx v =>
    unfold GridObj.step at hr ⊢
    simp only at hr ⊢
    split
    · exact ⟨rfl, rfl⟩
    · rename_i hv; rw [if_neg hv] at hr; cases hr
  | setDy v =>
    unfold GridObj.step at hr ⊢
    simp only at hr ⊢
    split
    · exact ⟨rfl, rfl⟩
    · rename_i hv; rw [if_neg hv] at hr; cases hr
  | setBox b =>
    rw [GridObj.step] at hr ⊢
    rcases setBox_cases h s b with e | ⟨_, e⟩
    · rw [e]; exact ⟨rfl, rfl⟩
    · rw [e] at hr; cases hr
  | setValues d =>
    rw [GridObj.step] at hr ⊢
    cases d with
    | missing => exact absurd rfl hop
    | scalar v => cases hr
    | fresh a => cases hr
    | ref r =>
      cases ha : h[r]? with
      | none => simp [GridObj.setValues, ha]
      | some a => simp only [GridObj.setValues, ha] at hr; cases hr
  | setExtrapolate e => cases hr
  | setHmin m => cases hr
  | transformTo dst =>
    rw [GridObj.step] at hr ⊢
    rcases transformTo_cases P h s dst with ⟨_, e⟩ | ⟨_, _, e⟩
    · rw [e]; exact ⟨rfl, rfl⟩
    · rw [e] at hr; cases hr
  | write i j v =>
    rw [GridObj.step] at hr ⊢
    unfold GridObj.write at hr ⊢
    cases hv : s.values with
    | none => exact ⟨rfl, rfl⟩
    | some r =>
      rw [hv] at hr
      simp only at hr ⊢
      cases ha : h[r]? with
      | none => exact ⟨rfl, rfl⟩
      | some a =>
        rw [ha] at hr
        simp only at hr ⊢
        split
        · rename_i hc; rw [if_pos hc] at hr; cases hr
        · exact ⟨rfl, rfl⟩
  | build =>
    rw [GridObj.step] at hr ⊢
    unfold GridObj.build at hr ⊢
    cases hv : s.values with
    | none => exact ⟨rfl, rfl⟩
    | some r =>
      rw [hv] at hr
      simp only at hr ⊢
      cases ha : h[r]? with
      | none => exact ⟨rfl, rfl⟩
      | some a =>
        rw [ha] at hr
        simp only at hr ⊢
        split
        · exact ⟨rfl, rfl⟩
        · rename_i hc; rw [if_neg hc] at hr; cases hr
  | flip =>
    rw [GridObj.step] at hr ⊢
    unfold GridObj.flip at hr ⊢
    cases hv : s.values with
    | none => exact ⟨rfl, rfl⟩
    | some r =>
      rw [hv] at hr
      simp only at hr ⊢
      cases ha : h[r]? with
      | none => exact ⟨rfl, rfl⟩
      | some a =>
        have hpos := hflip r a rfl ha
        rw [ha] at hr
        simp only at hr
        rw [build_ok (r := h.length) (a := ⟨a.nx, a.ny, fun i j => (a.vals i j).map fun x => -x⟩) rfl (by simp [GridObj.setValues]) hpos] at hr
        cases hr

end
end OM
