import Verif.Props.GridObj
/-!
# Property C134: independence of grids, and what the interpolator returns
-/
set_option linter.unusedSectionVars false
set_option linter.unusedVariables false
namespace OM
open Spec

section
variable {K C : Type} [Field K] [LinearOrder K] [IsStrictOrderedRing K] [FloorRing K]

/-! ## Renaming of arrays -/

/-- The second grid is the first with its arrays at other places. -/
structure GridLike (f : Nat → Nat) (h : List (GridArray K)) (s : GridObj K C) (h' : List (GridArray K)) (s' : GridObj K C) : Prop where
  obj : s' = { s with values := s.values.map f, eval := s.eval.map fun e => { e with arr := f e.arr } }
  valid : ∀ r, Refers s r → r < h.length ∧ f r < h'.length ∧ h'[f r]? = h[r]?
  inj : ∀ r r', Refers s r → Refers s r' → f r = f r' → r = r'

theorem gridLike_same {f : Nat → Nat} {h h' : List (GridArray K)} {s s' : GridObj K C} (hl : GridLike f h s h' s') : SameGrid h s h' s' := by
  obtain ⟨rfl, hv, _⟩ := hl
  refine ⟨rfl, ⟨rfl, rfl⟩, ⟨rfl, rfl⟩, ⟨rfl, rfl⟩, ⟨rfl, rfl, rfl⟩, ?_, ?_⟩
  · unfold GridObj.current
    cases e : s.values with
    | none => rfl
    | some r => exact (hv r (Or.inl e)).2.2.symm
  · intro q
    unfold GridObj.evalAt
    cases e : s.eval with
    | none => rfl
    | some i =>
      simp only [Option.map_some]
      rw [(hv i.arr (Or.inr ⟨i, e, rfl⟩)).2.2]

theorem gridLike_refl {h : List (GridArray K)} {s : GridObj K C} (hv : ∀ r, Refers s r → r < h.length) : GridLike id h s h s :=
  ⟨by cases s; simp, fun r hr => ⟨hv r hr, hv r hr, rfl⟩, fun _ _ _ _ e => e⟩

/-- Other arrays may change. -/
theorem gridLike_frame {f : Nat → Nat} {h h2 h' : List (GridArray K)} {s s' : GridObj K C} (hl : GridLike f h s h' s') (hlen : h.length ≤ h2.length)
    (hfr : ∀ r, Refers s r → h2[r]? = h[r]?) : GridLike f h2 s h' s' :=
  ⟨hl.obj, fun r hr => ⟨(hl.valid r hr).1.trans_le hlen, (hl.valid r hr).2.1, by rw [hfr r hr]; exact (hl.valid r hr).2.2⟩, hl.inj⟩

/-- Changes of other attributes. -/
theorem gridLike_attr {f : Nat → Nat} {h h' : List (GridArray K)} {s s' t t' : GridObj K C} (hl : GridLike f h s h' s') (hv : t.values = s.values) (he : t.eval = s.eval)
    (ht : t' = { t with values := s'.values, eval := s'.eval }) : GridLike f h t h' t' := by
  have hr : ∀ r, Refers t r → Refers s r := by
    intro r hr
    unfold Refers at hr ⊢
    rwa [hv, he] at hr
  refine ⟨?_, fun r h1 => hl.valid r (hr r h1), fun r r' h1 h2 => hl.inj r r' (hr r h1) (hr r' h2)⟩
  rw [ht, hl.obj, hv, he]

theorem gridLike_fresh {f : Nat → Nat} {h h' : List (GridArray K)} {s s' : GridObj K C} (hl : GridLike f h s h' s') (a : GridArray K) :
    GridLike (fun r => if r = h.length then h'.length else f r) (h ++ [a]) { s with values := some h.length, nx := a.nx, ny := a.ny } (h' ++ [a])
      { s' with values := some h'.length, nx := a.nx, ny := a.ny } := by
  have old : ∀ r, Refers { s with values := some h.length, nx := a.nx, ny := a.ny } r → r = h.length ∨ Refers s r := by
    intro r hr
    rcases hr with hr | hr
    · simp only [Option.some_inj] at hr; exact Or.inl hr.symm
    · exact Or.inr (Or.inr hr)
  refine ⟨?_, ?_, ?_⟩
  · rw [hl.obj]
    simp only [Option.map_some, if_true, GridObj.mk.injEq, true_and, and_true]
    cases e : s.eval with
    | none => rfl
    | some i =>
      have := (hl.valid i.arr (Or.inr ⟨i, e, rfl⟩)).1
      simp only [Option.map_some]
      rw [if_neg (by omega)]
  · intro r hr
    rcases old r hr with rfl | hr
    · simp
    · obtain ⟨h1, h2, h3⟩ := hl.valid r hr
      rw [if_neg (by omega), List.getElem?_append_left h2, List.getElem?_append_left h1]
      simp only [List.length_append, List.length_singleton]
      exact ⟨by omega, by omega, h3⟩
  · intro r r' hr hr' e
    rcases old r hr with rfl | hr
    · rcases old r' hr' with rfl | hr'
      · rfl
      · have := hl.valid r' hr'
        rw [if_pos rfl, if_neg (by omega)] at e
        omega
    · have v := hl.valid r hr
      rcases old r' hr' with rfl | hr'
      · rw [if_pos rfl, if_neg (by omega)] at e
        omega
      · have v' := hl.valid r' hr'
        rw [if_neg (by omega), if_neg (by omega)] at e
        exact hl.inj r r' hr hr' e

theorem gridLike_set {f : Nat → Nat} {h h' : List (GridArray K)} {s s' : GridObj K C} (hl : GridLike f h s h' s') {r : Nat} (hr : Refers s r) (a : GridArray K) :
    GridLike f (h.set r a) s (h'.set (f r) a) s' := by
  refine ⟨hl.obj, fun r' hr' => ?_, hl.inj⟩
  obtain ⟨h1, h2, h3⟩ := hl.valid r' hr'
  refine ⟨by simpa using h1, by simpa using h2, ?_⟩
  by_cases e : r = r'
  · subst e
    rw [List.getElem?_set_self h2, List.getElem?_set_self h1]
  · rw [List.getElem?_set_ne e, List.getElem?_set_ne (fun c => e (hl.inj _ _ hr hr' c)), h3]

theorem gridLike_build {f : Nat → Nat} {h h' : List (GridArray K)} {s s' : GridObj K C} (hl : GridLike f h s h' s') :
    (s.build h).raised = (s'.build h').raised ∧ GridLike f (s.build h).heap (s.build h).obj (s'.build h').heap (s'.build h').obj := by
  have hl' := hl
  obtain ⟨rfl, hv, hi⟩ := hl
  unfold GridObj.build
  cases e : s.values with
  | none => rw [e] at hl'; exact ⟨rfl, hl'⟩
  | some r =>
    have hr : Refers s r := Or.inl e
    simp only [Option.map_some]
    rw [(hv r hr).2.2]
    cases ha : h[r]? with
    | none => rw [e] at hl'; exact ⟨rfl, hl'⟩
    | some a =>
      simp only
      by_cases hc : cyclicBox s.box = true ∧ a.nx = 0
      · rw [if_pos hc, if_pos hc]; rw [e] at hl'; exact ⟨rfl, hl'⟩
      · rw [if_neg hc, if_neg hc]
        have hs := gridLike_set hl' hr ⟨a.nx, a.ny, cyclicVals s.box a.vals⟩
        refine ⟨rfl, ?_, fun r' hr' => hs.valid r' ?_, fun r' r'' h1 h2 => hs.inj r' r'' ?_ ?_⟩
        · simp
        all_goals
          have key : ∀ t, Refers { s with values := some r, eval := some ⟨s.x0, s.y0, s.dx, s.dy, r, s.extrapolate⟩ } t → Refers s t := by
            intro t ht
            rcases ht with ht | ⟨i, h3, h4⟩
            · simp only [Option.some_inj] at ht; subst ht; exact hr
            · simp only [Option.some_inj] at h3
              subst h3
              simp only at h4
              subst h4
              exact hr
        · exact key _ (by simpa [e] using hr')
        · exact key _ (by simpa [e] using h1)
        · exact key _ (by simpa [e] using h2)

theorem gridLike_step (P : Projections K C) {f : Nat → Nat} {h h' : List (GridArray K)} {s s' : GridObj K C} (hl : GridLike f h s h' s') (op : GridOp K C) (hop : ∀ r, op ≠ .setValues (.ref r)) :
    (s.step P h op).raised = (s'.step P h' op).raised ∧ ∃ g, GridLike g (s.step P h op).heap (s.step P h op).obj (s'.step P h' op).heap (s'.step P h' op).obj := by
  have hl' := hl
  obtain ⟨rfl, hv, hi⟩ := hl
  cases op with
  | setDx v =>
    unfold GridObj.step
    simp only
    by_cases c : v ≤ 0
    · rw [if_pos c, if_pos c]; exact ⟨rfl, f, hl'⟩
    · rw [if_neg c, if_neg c]; exact ⟨rfl, f, gridLike_attr hl' rfl rfl rfl⟩
  | setDy v =>
    unfold GridObj.step
    simp only
    by_cases c : v ≤ 0
    · rw [if_pos c, if_pos c]; exact ⟨rfl, f, hl'⟩
    · rw [if_neg c, if_neg c]; exact ⟨rfl, f, gridLike_attr hl' rfl rfl rfl⟩
  | setBox b =>
    unfold GridObj.step GridObj.setBox
    simp only
    by_cases c : b.xmax < b.xmin ∨ b.ymax < b.ymin
    · rw [if_pos c, if_pos c]; exact ⟨rfl, f, hl'⟩
    · rw [if_neg c, if_neg c]; exact ⟨rfl, f, gridLike_attr hl' rfl rfl rfl⟩
  | setValues d =>
    cases d with
    | missing =>
      refine ⟨rfl, f, ⟨rfl, fun r hr => hv r ?_, fun r r' h1 h2 => hi r r' ?_ ?_⟩⟩
      · rcases hr with hr | hr
        · cases hr
        · exact Or.inr hr
      · rcases h1 with hr | hr
        · cases hr
        · exact Or.inr hr
      · rcases h2 with hr | hr
        · cases hr
        · exact Or.inr hr
    | scalar v => exact ⟨rfl, _, gridLike_fresh hl' _⟩
    | fresh a => exact ⟨rfl, _, gridLike_fresh hl' a⟩
    | ref r => exact absurd rfl (hop r)
  | setExtrapolate e => exact ⟨rfl, f, gridLike_attr hl' rfl rfl rfl⟩
  | setHmin m => exact ⟨rfl, f, gridLike_attr hl' rfl rfl rfl⟩
  | transformTo dst =>
    unfold GridObj.step GridObj.transformTo GridObj.setBox
    simp only
    by_cases c0 : P.same s.crs dst = true
    · rw [if_pos c0, if_pos c0]; exact ⟨rfl, f, hl'⟩
    · rw [if_neg c0, if_neg c0]
      by_cases c : (P.transform s.crs dst (s.box.xmax, s.box.ymax)).1 < (P.transform s.crs dst (s.box.xmin, s.box.ymin)).1 ∨
        (P.transform s.crs dst (s.box.xmax, s.box.ymax)).2 < (P.transform s.crs dst (s.box.xmin, s.box.ymin)).2
      · rw [if_pos c, if_pos c]; exact ⟨rfl, f, hl'⟩
      · rw [if_neg c, if_neg c]; exact ⟨rfl, f, gridLike_attr hl' rfl rfl rfl⟩
  | write i j v =>
    unfold GridObj.step GridObj.write
    simp only
    cases e : s.values with
    | none => rw [e] at hl'; exact ⟨rfl, f, hl'⟩
    | some r =>
      have hr : Refers s r := Or.inl e
      simp only [Option.map_some]
      rw [(hv r hr).2.2]
      cases ha : h[r]? with
      | none => rw [e] at hl'; exact ⟨rfl, f, hl'⟩
      | some a =>
        simp only
        by_cases c : i < a.nx ∧ j < a.ny
        · rw [if_pos c, if_pos c]
          have := gridLike_set hl' hr ⟨a.nx, a.ny, fun i' j' => if i'.val = i ∧ j'.val = j then v else a.vals i' j'⟩
          rw [e] at this
          exact ⟨rfl, f, this⟩
        · rw [if_neg c, if_neg c]; rw [e] at hl'; exact ⟨rfl, f, hl'⟩
  | build => exact ⟨(gridLike_build hl').1, f, (gridLike_build hl').2⟩
  | flip =>
    unfold GridObj.step GridObj.flip
    simp only
    cases e : s.values with
    | none => rw [e] at hl'; exact ⟨rfl, f, hl'⟩
    | some r =>
      have hr : Refers s r := Or.inl e
      simp only [Option.map_some]
      rw [(hv r hr).2.2]
      cases ha : h[r]? with
      | none => rw [e] at hl'; exact ⟨rfl, f, hl'⟩
      | some a =>
        have := gridLike_build (gridLike_fresh hl' ⟨a.nx, a.ny, fun i j => (a.vals i j).map fun x => -x⟩)
        exact ⟨this.1, _, this.2⟩

/-- The references after a step. -/
theorem step_refers (P : Projections K C) (h : List (GridArray K)) (s : GridObj K C) (op : GridOp K C) (hop : ∀ r, op ≠ .setValues (.ref r)) (r : Nat) (hr : Refers (s.step P h op).obj r) :
    Refers s r ∨ r = h.length ∧ r < (s.step P h op).heap.length := by
  have bu : ∀ (h : List (GridArray K)) (s : GridObj K C) (r : Nat), Refers (s.build h).obj r → Refers s r := by
    intro h s r hr
    rcases (build_heap h s).2 with e | ⟨t, ht, _, e⟩
    · rwa [e] at hr
    · rw [e] at hr
      rcases hr with hr | ⟨i, h1, h2⟩
      · exact Or.inl hr
      · simp only [Option.some_inj] at h1
        subst h1
        exact Or.inl (by rw [ht]; exact congrArg some h2)
  cases op with
  | setDx v => unfold GridObj.step at hr; simp only at hr; split at hr <;> exact Or.inl hr
  | setDy v => unfold GridObj.step at hr; simp only at hr; split at hr <;> exact Or.inl hr
  | setBox b => rcases setBox_cases h s b with e | ⟨_, e⟩ <;> rw [GridObj.step, e] at hr <;> exact Or.inl hr
  | setValues d =>
    cases d with
    | missing =>
      rcases hr with hr | hr
      · cases hr
      · exact Or.inl (Or.inr hr)
    | scalar v =>
      rcases hr with hr | hr
      · cases hr; exact Or.inr ⟨rfl, by simp [GridObj.step, GridObj.setValues]⟩
      · exact Or.inl (Or.inr hr)
    | fresh a =>
      rcases hr with hr | hr
      · cases hr; exact Or.inr ⟨rfl, by simp [GridObj.step, GridObj.setValues]⟩
      · exact Or.inl (Or.inr hr)
    | ref r => exact absurd rfl (hop r)
  | setExtrapolate e => exact Or.inl hr
  | setHmin m => exact Or.inl hr
  | transformTo dst => rcases transformTo_cases P h s dst with ⟨_, e⟩ | ⟨_, _, e⟩ <;> rw [GridObj.step, e] at hr <;> exact Or.inl hr
  | write i j v => rw [GridObj.step, (write_heap h s i j v).2] at hr; exact Or.inl hr
  | build => exact Or.inl (bu h s r hr)
  | flip =>
    rw [GridObj.step] at hr ⊢
    rcases flip_cases h s with e | ⟨a, e⟩
    · rw [e] at hr; exact Or.inl hr
    · rw [e] at hr ⊢
      have hl := (build_heap (s.setValues h (.fresh a)).heap (s.setValues h (.fresh a)).obj).1.len
      rcases bu _ _ _ hr with hr | hr
      · cases hr
        refine Or.inr ⟨rfl, ?_⟩
        simp only [GridObj.setValues, List.length_append, List.length_singleton] at hl ⊢
        omega
      · exact Or.inl (Or.inr hr)

theorem step_frame (P : Projections K C) (h : List (GridArray K)) (s : GridObj K C) (op : GridOp K C) : h.length ≤ (s.step P h op).heap.length ∧
    ∀ r, r < h.length → ¬ Refers s r → (s.step P h op).heap[r]? = h[r]? := by
  have nr : ∀ r, ¬ Refers s r → s.values ≠ some r := fun r hr e => hr (Or.inl e)
  have hs : HeapStep h (s.step P h op).heap s.values := by
    cases op with
    | setDx v => unfold GridObj.step; simp only; split <;> exact heapStep_refl _ _
    | setDy v => unfold GridObj.step; simp only; split <;> exact heapStep_refl _ _
    | setBox b => rcases setBox_cases h s b with e | ⟨_, e⟩ <;> rw [GridObj.step, e] <;> exact heapStep_refl _ _
    | setValues d =>
      cases d with
      | missing => exact heapStep_refl _ _
      | scalar v => exact heapStep_append _ _ _
      | fresh a => exact heapStep_append _ _ _
      | ref r => cases ha : h[r]? <;> simp only [GridObj.step, GridObj.setValues, ha] <;> exact heapStep_refl _ _
    | setExtrapolate e => exact heapStep_refl _ _
    | setHmin m => exact heapStep_refl _ _
    | transformTo dst => rcases transformTo_cases P h s dst with ⟨_, e⟩ | ⟨_, _, e⟩ <;> rw [GridObj.step, e] <;> exact heapStep_refl _ _
    | write i j v => exact (write_heap h s i j v).1
    | build => exact (build_heap h s).1
    | flip =>
      rw [GridObj.step]
      rcases flip_cases h s with e | ⟨a, e⟩
      · rw [e]; exact heapStep_refl _ _
      · rw [e]
        have h2 : HeapStep h (s.setValues h (.fresh a)).heap s.values := heapStep_append _ _ _
        obtain ⟨h3, _⟩ := build_heap (s.setValues h (.fresh a)).heap (s.setValues h (.fresh a)).obj
        refine ⟨h2.len.trans h3.len, fun r hr hv => ?_, fun r b hb => ?_⟩
        · rw [h3.frame r (hr.trans_le h2.len) (by simp only [GridObj.setValues, ne_eq, Option.some_inj]; omega), h2.frame r hr hv]
        · obtain ⟨b', hb', e1, e2⟩ := h2.shape r b hb
          obtain ⟨b2, hb2, e3, e4⟩ := h3.shape r b' hb'
          exact ⟨b2, hb2, e3.trans e1, e4.trans e2⟩
  exact ⟨hs.len, fun r hr hn => hs.frame r hr (nr r hn)⟩

theorem separate_step (P : Projections K C) {w : GridWorld K C} (hw : SeparateGrids w) (k : Nat) (op : GridOp K C) (hop : ∀ r, op ≠ .setValues (.ref r)) : SeparateGrids (w.step P k op) := by
  unfold GridWorld.step
  cases hk : w.objs[k]? with
  | none => exact hw
  | some s =>
    simp only
    obtain ⟨hlen, _⟩ := step_frame P w.heap s op
    have hkl : k < w.objs.length := (List.getElem?_eq_some_iff.1 hk).1
    have get : ∀ (l : Nat) (t : GridObj K C), (w.objs.set k (s.step P w.heap op).obj)[l]? = some t → l = k ∧ t = (s.step P w.heap op).obj ∨ l ≠ k ∧ w.objs[l]? = some t := by
      intro l t ht
      by_cases e : k = l
      · subst e
        rw [List.getElem?_set_self hkl, Option.some_inj] at ht
        exact Or.inl ⟨rfl, ht.symm⟩
      · rw [List.getElem?_set_ne e] at ht
        exact Or.inr ⟨Ne.symm e, ht⟩
    refine ⟨fun l t ht r hr => ?_, fun l m t u hlm ht hu r hr hr' => ?_⟩
    · simp only at ht ⊢
      rcases get l t ht with ⟨rfl, rfl⟩ | ⟨_, ht⟩
      · rcases step_refers P _ _ _ hop r hr with hr | hr
        · exact (hw.valid _ _ hk r hr).trans_le hlen
        · exact hr.2
      · exact (hw.valid l t ht r hr).trans_le hlen
    · simp only at ht hu
      rcases get l t ht with ⟨rfl, rfl⟩ | ⟨hl, ht'⟩
      · rcases get m u hu with ⟨rfl, rfl⟩ | ⟨hm, hu⟩
        · exact hlm rfl
        · rcases step_refers P _ _ _ hop r hr with hr | hr
          · exact hw.apart l m s u (Ne.symm hm) hk hu r hr hr'
          · have := hw.valid m u hu r hr'
            omega
      · rcases get m u hu with ⟨rfl, rfl⟩ | ⟨hm, hu⟩
        · rcases step_refers P _ _ _ hop r hr' with hr' | hr'
          · exact hw.apart l m t s hl ht' hk r hr hr'
          · have := hw.valid l t ht' r hr
            omega
        · exact hw.apart l m t u hlm ht' hu r hr hr'

theorem independent_aux (P : Projections K C) (k : Nat) : ∀ (ops : List (Nat × GridOp K C)) (w : GridWorld K C) (f : Nat → Nat) (s s' : GridObj K C) (h' : List (GridArray K)), SeparateGrids w →
    (∀ p ∈ ops, ∀ r, p.2 ≠ .setValues (.ref r)) → w.objs[k]? = some s → GridLike f w.heap s h' s' →
    ∃ s2, (w.run P ops).objs[k]? = some s2 ∧
      SameGrid (w.run P ops).heap s2 (s'.run P ((ops.filter fun p => p.1 = k).map (·.2)) h').1 (s'.run P ((ops.filter fun p => p.1 = k).map (·.2)) h').2
  | [], w, f, s, s', h', _, _, hk, hl => ⟨s, hk, gridLike_same hl⟩
  | (l, op) :: ops, w, f, s, s', h', hw, hops, hk, hl => by
    rw [GridWorld.run]
    have hop := hops (l, op) (by simp)
    have hw' := separate_step P hw l op hop
    have ih := fun (f : Nat → Nat) (t t' : GridObj K C) (h' : List (GridArray K)) => independent_aux P k ops (w.step P l op) f t t' h' hw' (fun p hp => hops p (List.mem_cons_of_mem _ hp))
    by_cases e : l = k
    · subst e
      obtain ⟨_, g, hg⟩ := gridLike_step P hl op hop
      have hst : w.step P l op = ⟨(s.step P w.heap op).heap, w.objs.set l (s.step P w.heap op).obj⟩ := by
        unfold GridWorld.step
        rw [hk]
      have := ih g (s.step P w.heap op).obj (s'.step P h' op).obj (s'.step P h' op).heap (by
        rw [hst]
        simp only
        rw [List.getElem?_set_self (List.getElem?_eq_some_iff.1 hk).1]) (by rw [hst]; exact hg)
      simpa [GridObj.run] using this
    · have := ih f s s' h' (by
        unfold GridWorld.step
        cases hlk : w.objs[l]? with
        | none => exact hk
        | some t => simp only; rw [List.getElem?_set_ne e]; exact hk) (by
        unfold GridWorld.step
        cases hlk : w.objs[l]? with
        | none => exact hl
        | some t =>
          simp only
          obtain ⟨h1, h2⟩ := step_frame P w.heap t op
          exact gridLike_frame hl h1 fun r hr => h2 r (hl.valid r hr).1 (hw.apart k l s t (Ne.symm e) hk hlk r hr))
      simpa [e] using this

/-- **C134** (4) Grids that share no array do not influence each other: a grid looks and evaluates as if only the assignments to and calls of itself had been made. -/
theorem C134_independent (P : Projections K C) (w : GridWorld K C) (hw : SeparateGrids w) (ops : List (Nat × GridOp K C)) (hops : ∀ p ∈ ops, ∀ r, p.2 ≠ .setValues (.ref r)) (k : Nat)
    (s : GridObj K C) (hk : w.objs[k]? = some s) : ∃ s2, (w.run P ops).objs[k]? = some s2 ∧
      SameGrid (w.run P ops).heap s2 (s.run P ((ops.filter fun p => p.1 = k).map (·.2)) w.heap).1 (s.run P ((ops.filter fun p => p.1 = k).map (·.2)) w.heap).2 :=
  independent_aux P k ops w id s s w.heap hw hops hk (gridLike_refl (hw.valid k s hk))

/-- **C134** (4) New grids with arrays of their own share no array with others. -/
theorem C134_new_separate {w : GridWorld K C} (hw : SeparateGrids w) {h2 : List (GridArray K)} {b : Box K} {dx : K} {dy : Option K} {crs : C} {hmin : Option K} {d : GridSource K} {e : Bool}
    {s : GridObj K C} (hd : ∀ r, d ≠ .ref r) (hn : GridObj.new w.heap b dx dy crs hmin d e = some (h2, s)) : SeparateGrids ⟨h2, w.objs ++ [s]⟩ := by
  have key : ∃ a, h2 = w.heap ++ [a] ∧ s.values = some w.heap.length ∧ s.eval = none := by
    unfold GridObj.new at hn
    simp only at hn
    split at hn
    · cases d with
      | missing => simp [GridObj.setValues] at hn
      | scalar v =>
        simp only [GridObj.setValues, Bool.false_eq_true, if_false, Option.some.injEq, Prod.mk.injEq] at hn
        obtain ⟨rfl, rfl⟩ := hn
        exact ⟨_, rfl, rfl, rfl⟩
      | fresh a =>
        simp only [GridObj.setValues, Bool.false_eq_true, if_false, Option.some.injEq, Prod.mk.injEq] at hn
        obtain ⟨rfl, rfl⟩ := hn
        exact ⟨_, rfl, rfl, rfl⟩
      | ref r => exact absurd rfl (hd r)
    · cases hn
  obtain ⟨a, rfl, hv, he⟩ := key
  have hs : ∀ r, Refers s r → r = w.heap.length := by
    intro r hr
    rcases hr with hr | ⟨i, hi, _⟩
    · rw [hv, Option.some_inj] at hr; exact hr.symm
    · rw [he] at hi; cases hi
  have get : ∀ (l : Nat) (t : GridObj K C), (w.objs ++ [s])[l]? = some t → w.objs[l]? = some t ∨ l = w.objs.length ∧ t = s := by
    intro l t ht
    rcases lt_trichotomy l w.objs.length with hl | hl | hl
    · rw [List.getElem?_append_left hl] at ht; exact Or.inl ht
    · subst hl; simp at ht; exact Or.inr ⟨rfl, ht.symm⟩
    · rw [List.getElem?_eq_none (by simp; omega)] at ht; cases ht
  refine ⟨fun l t ht r hr => ?_, fun l m t u hlm ht hu r hr hr' => ?_⟩
  · simp only [List.length_append, List.length_singleton]
    rcases get l t ht with ht | ⟨_, rfl⟩
    · have := hw.valid l t ht r hr; omega
    · have := hs r hr; omega
  · rcases get l t ht with ht' | ⟨rfl, rfl⟩
    · rcases get m u hu with hu | ⟨_, rfl⟩
      · exact hw.apart l m t u hlm ht' hu r hr hr'
      · have := hw.valid l t ht' r hr
        have := hs r hr'
        omega
    · rcases get m u hu with hu | ⟨rfl, rfl⟩
      · have := hw.valid m u hu r hr'
        have := hs r hr
        omega
      · exact hlm rfl

/-! ## The interpolator -/

/-- Calls that replace neither array nor spacings. -/
def Spec.KeepsLattice : GridOp K C → Prop
  | .setDx _ | .setDy _ | .setValues _ | .flip => False
  | _ => True

/-- Assignments of attributes. -/
def Spec.OnlyAttributes : GridOp K C → Prop
  | .write _ _ _ | .build | .flip => False
  | _ => True

/-- An entry of an array. -/
def Spec.entryOf (a : GridArray K) (i j : Nat) : Option (Option K) := if h : i < a.nx ∧ j < a.ny then some (a.vals ⟨i, h.1⟩ ⟨j, h.2⟩) else none

/-- The interpolator belongs to the present values. -/
def Tied (h : List (GridArray K)) (s : GridObj K C) (e : Bool) : Prop := ∃ r, s.values = some r ∧ r < h.length ∧ s.eval = some ⟨s.x0, s.y0, s.dx, s.dy, r, e⟩

theorem tied_build {h : List (GridArray K)} {s : GridObj K C} (hb : (s.build h).raised = false) : Tied (s.build h).heap (s.build h).obj s.extrapolate := by
  unfold GridObj.build at hb ⊢
  cases hv : s.values with
  | none => rw [hv] at hb; cases hb
  | some r =>
    rw [hv] at hb
    simp only at hb ⊢
    cases ha : h[r]? with
    | none => rw [ha] at hb; cases hb
    | some a =>
      rw [ha] at hb
      simp only at hb ⊢
      by_cases hc : cyclicBox s.box = true ∧ a.nx = 0
      · rw [if_pos hc] at hb; cases hb
      · rw [if_neg hc]
        exact ⟨r, rfl, by simpa using (List.getElem?_eq_some_iff.1 ha).1, rfl⟩

theorem tied_eval {h : List (GridArray K)} {s : GridObj K C} {e : Bool} (ht : Tied h s e) :
    ∃ a, s.current h = some a ∧ ∀ q, s.evalAt h q = some ((latticeGrid s.x0 s.y0 s.dx s.dy a e).evalWith e q) := by
  obtain ⟨r, hv, hr, he⟩ := ht
  refine ⟨h[r], by simp [GridObj.current, hv, hr], fun q => ?_⟩
  unfold GridObj.evalAt
  simp [he, hr]

theorem tied_step (P : Projections K C) {h : List (GridArray K)} {s : GridObj K C} {e : Bool} (ht : Tied h s e) {op : GridOp K C} (hop : KeepsLattice op) :
    ∃ e', Tied (s.step P h op).heap (s.step P h op).obj e' := by
  cases op with
  | setDx v => exact hop.elim
  | setDy v => exact hop.elim
  | setBox b => rcases setBox_cases h s b with c | ⟨_, c⟩ <;> rw [GridObj.step, c] <;> exact ⟨e, ht⟩
  | setValues d => exact hop.elim
  | setExtrapolate e' => exact ⟨e, ht⟩
  | setHmin m => exact ⟨e, ht⟩
  | transformTo dst => rcases transformTo_cases P h s dst with ⟨_, c⟩ | ⟨_, _, c⟩ <;> rw [GridObj.step, c] <;> exact ⟨e, ht⟩
  | write i j v =>
    obtain ⟨h1, h2⟩ := write_heap h s i j v
    rw [GridObj.step, h2]
    obtain ⟨r, a, b, c⟩ := ht
    exact ⟨e, r, a, b.trans_le h1.len, c⟩
  | build =>
    rw [GridObj.step]
    cases hb : (s.build h).raised with
    | false => exact ⟨_, tied_build hb⟩
    | true =>
      have := C134_raise P h s .build (by simp) (by simp) hb
      rw [GridObj.step] at this
      rw [this.1, this.2]
      exact ⟨e, ht⟩
  | flip => exact hop.elim

theorem tied_run (P : Projections K C) : ∀ (ops : List (GridOp K C)) {h : List (GridArray K)} {s : GridObj K C} {e : Bool}, Tied h s e → (∀ op ∈ ops, KeepsLattice op) →
    ∃ e', Tied (s.run P ops h).1 (s.run P ops h).2 e'
  | [], _, _, e, ht, _ => ⟨e, ht⟩
  | op :: ops, h, s, e, ht, hops => by
    rw [GridObj.run]
    obtain ⟨e', ht'⟩ := tied_step P ht (hops op (by simp))
    exact tied_run P ops ht' fun o ho => hops o (List.mem_cons_of_mem _ ho)

/-- **C134** (5) After a successful `build_interpolant` or `flip` the interpolator is the linear interpolation of the values of the grid on its lattice, with extrapolation if that was asked for. -/
theorem C134_built (P : Projections K C) {h : List (GridArray K)} {s : GridObj K C} {op : GridOp K C} (hop : op = .build ∨ op = .flip) (hok : (s.step P h op).raised = false) :
    ∃ a, (s.step P h op).obj.current (s.step P h op).heap = some a ∧ ∀ q, (s.step P h op).obj.evalAt (s.step P h op).heap q =
      some ((latticeGrid s.x0 s.y0 s.dx s.dy a s.extrapolate).evalWith s.extrapolate q) := by
  rcases hop with rfl | rfl
  · rw [GridObj.step] at hok ⊢
    have ht := tied_build hok
    obtain ⟨a, h1, h2⟩ := tied_eval ht
    refine ⟨a, h1, fun q => (h2 q).trans ?_⟩
    rcases (build_heap h s).2 with e | ⟨_, _, _, e⟩ <;> rw [e]
  · rw [GridObj.step] at hok ⊢
    rcases flip_cases h s with e | ⟨a, e⟩
    · rw [e] at hok; cases hok
    · rw [e] at hok ⊢
      have ht := tied_build hok
      obtain ⟨a', h1, h2⟩ := tied_eval ht
      refine ⟨a', h1, fun q => (h2 q).trans ?_⟩
      rcases (build_heap (s.setValues h (.fresh a)).heap (s.setValues h (.fresh a)).obj).2 with e | ⟨_, _, _, e⟩ <;> rw [e] <;> rfl

theorem flip_tied {h : List (GridArray K)} {s : GridObj K C} (hok : (s.flip h).raised = false) : Tied (s.flip h).heap (s.flip h).obj s.extrapolate := by
  rcases flip_cases h s with e | ⟨a, e⟩
  · rw [e] at hok; cases hok
  · rw [e] at hok ⊢
    exact tied_build hok

/-- **C134** (6) That stays so until spacings are assigned or values are replaced: changes in place and everything else do not separate the interpolator from the values. -/
theorem C134_eval_current (P : Projections K C) {h : List (GridArray K)} {s : GridObj K C} {op : GridOp K C} (hop : op = .build ∨ op = .flip) (hok : (s.step P h op).raised = false)
    (ops : List (GridOp K C)) (hops : ∀ o ∈ ops, KeepsLattice o) : ∃ a e, (s.run P (op :: ops) h).2.current (s.run P (op :: ops) h).1 = some a ∧
      ∀ q, (s.run P (op :: ops) h).2.evalAt (s.run P (op :: ops) h).1 q =
        some ((latticeGrid (s.run P (op :: ops) h).2.x0 (s.run P (op :: ops) h).2.y0 (s.run P (op :: ops) h).2.dx (s.run P (op :: ops) h).2.dy a e).evalWith e q) := by
  rw [GridObj.run]
  have ht : Tied (s.step P h op).heap (s.step P h op).obj s.extrapolate := by
    rcases hop with rfl | rfl
    · exact tied_build hok
    · exact flip_tied hok
  obtain ⟨e, ht'⟩ := tied_run P ops ht hops
  obtain ⟨a, h1, h2⟩ := tied_eval ht'
  exact ⟨a, e, h1, h2⟩

theorem evalWith_interp {D : Type} (g : Grid K D) (o : Option Bool) (e : Bool) (q : K × K) : ({ g with interp := o } : Grid K D).evalWith e q = g.evalWith e q := by
  have hl : ({ g with interp := o } : Grid K D).linearAt q = g.linearAt q := by
    unfold Grid.linearAt
    simp only
    cases axisCell g.box.xmin g.dx g.nx q.1 with
    | none => rfl
    | some c =>
      cases axisCell g.box.ymin |g.dy| g.ny q.2 with
      | none => rfl
      | some d =>
        obtain ⟨i0, i1, s⟩ := c
        obtain ⟨j0, j1, t⟩ := d
        simp only
  unfold Grid.evalWith
  rw [hl]
  rfl

/-- **C134** (6) In particular it returns the entries of `values` at the nodes. -/
theorem C134_eval_node (P : Projections K C) {h : List (GridArray K)} {s : GridObj K C} (hs : SoundGrid h s) {op : GridOp K C} (hop : op = .build ∨ op = .flip) (hok : (s.step P h op).raised = false)
    (ops : List (GridOp K C)) (hops : ∀ o ∈ ops, KeepsLattice o) {a : GridArray K} (ha : (s.run P (op :: ops) h).2.current (s.run P (op :: ops) h).1 = some a)
    (hnum : ∀ i j, (a.vals i j).isSome) (i j : Nat) (v : K) (hv : entryOf a i j = some (some v)) :
    (s.run P (op :: ops) h).2.evalAt (s.run P (op :: ops) h).1
      ((s.run P (op :: ops) h).2.x0 + (i : K) * (s.run P (op :: ops) h).2.dx, (s.run P (op :: ops) h).2.y0 + (j : K) * (s.run P (op :: ops) h).2.dy) = some (some v) := by
  obtain ⟨a', e, h1, h2⟩ := C134_eval_current P hop hok ops hops
  rw [ha, Option.some_inj] at h1
  subst h1
  rw [h2]
  have hsound : ∀ (ops : List (GridOp K C)) (h : List (GridArray K)) (s : GridObj K C), SoundGrid h s → SoundGrid (s.run P ops h).1 (s.run P ops h).2 := by
    intro ops
    induction ops with
    | nil => exact fun h s hs => hs
    | cons o ops ih => exact fun h s hs => ih _ _ (step_sound P hs o).1
  have hs2 := hsound (op :: ops) h s hs
  generalize (s.run P (op :: ops) h).2 = t at *
  unfold entryOf at hv
  split at hv
  · rename_i hij
    rw [Option.some_inj] at hv
    have hc : cyclicBox (⟨t.x0, t.x0 + 1, t.y0, t.y0 + 1⟩ : Box K) = false := by
      have : ¬ (|t.x0| = 180 ∧ |t.x0 + 1| = 180) := by
        rintro ⟨h1, h2⟩
        rcases abs_eq (show (0 : K) ≤ 180 by norm_num) |>.1 h1 with h | h <;> rcases abs_eq (show (0 : K) ≤ 180 by norm_num) |>.1 h2 with h' | h' <;> linarith
      unfold cyclicBox
      rw [← Bool.not_eq_true, Bool.and_eq_true, decide_eq_true_iff, decide_eq_true_iff]
      exact this
    have hb : (latticeGrid t.x0 t.y0 t.dx t.dy a e).buildInterpolant.vals = a.vals := by
      unfold Grid.buildInterpolant cyclicVals
      simp [hc, latticeGrid]
    have := C31_eval_node_partial (latticeGrid t.x0 t.y0 t.dx t.dy a e) ⟨i, hij.1⟩ ⟨j, hij.2⟩ hs2.dx hs2.dy (by
      intro i j _ _
      rw [hb]
      exact hnum i j)
    rw [hb] at this
    have h3 : (latticeGrid t.x0 t.y0 t.dx t.dy a e).buildInterpolant.evalAt (t.x0 + (i : K) * t.dx, t.y0 + (j : K) * t.dy) =
        some ((latticeGrid t.x0 t.y0 t.dx t.dy a e).evalWith e (t.x0 + (i : K) * t.dx, t.y0 + (j : K) * t.dy)) := by
      have h4 : (latticeGrid t.x0 t.y0 t.dx t.dy a e).buildInterpolant = { latticeGrid t.x0 t.y0 t.dx t.dy a e with interp := some e } := by
        unfold Grid.buildInterpolant cyclicVals
        simp [hc, latticeGrid]
      rw [h4]
      exact congrArg some (evalWith_interp _ _ _ _)
    rw [← h3, ← hv]
    exact this
  · cases hv

/-- **C134** (7) Assigning attributes does not change what the interpolator returns, not even with new values. -/
theorem C134_eval_frozen (P : Projections K C) {h : List (GridArray K)} {s : GridObj K C} (hs : SoundGrid h s) {op : GridOp K C} (hop : OnlyAttributes op) (q : K × K) :
    (s.step P h op).obj.evalAt (s.step P h op).heap q = s.evalAt h q := by
  have app : ∀ (a : GridArray K) (t : GridObj K C), t.eval = s.eval → t.evalAt (h ++ [a]) q = s.evalAt h q := by
    intro a t ht
    unfold GridObj.evalAt
    rw [ht]
    cases e : s.eval with
    | none => rfl
    | some i => simp only; rw [List.getElem?_append_left (hs.interp i e).2.2]
  cases op with
  | setDx v => unfold GridObj.step; simp only; split <;> rfl
  | setDy v => unfold GridObj.step; simp only; split <;> rfl
  | setBox b => rcases setBox_cases h s b with e | ⟨_, e⟩ <;> rw [GridObj.step, e] <;> rfl
  | setValues d =>
    cases d with
    | missing => rfl
    | scalar v => exact app _ _ rfl
    | fresh a => exact app _ _ rfl
    | ref r => cases ha : h[r]? <;> simp only [GridObj.step, GridObj.setValues, ha] <;> rfl
  | setExtrapolate e => rfl
  | setHmin m => rfl
  | transformTo dst => rcases transformTo_cases P h s dst with ⟨_, e⟩ | ⟨_, _, e⟩ <;> rw [GridObj.step, e] <;> rfl
  | write i j v => exact hop.elim
  | build => exact hop.elim
  | flip => exact hop.elim

/-- **C134** (8) `build_interpolant` leaves the values alone unless the box reaches around the globe; then the outer meridians change places. -/
theorem C134_build_values {h : List (GridArray K)} {s : GridObj K C} (hok : (s.build h).raised = false) : ∃ a a', s.current h = some a ∧ (s.build h).obj.current (s.build h).heap = some a' ∧
    a'.nx = a.nx ∧ a'.ny = a.ny ∧ ∀ i j, entryOf a' i j = entryOf a (if |s.box.xmin| = 180 ∧ |s.box.xmax| = 180 then (if i = 0 then a.nx - 1 else if i = a.nx - 1 then 0 else i) else i) j := by
  unfold GridObj.build at hok ⊢
  cases hv : s.values with
  | none => rw [hv] at hok; cases hok
  | some r =>
    rw [hv] at hok
    simp only at hok ⊢
    cases ha : h[r]? with
    | none => rw [ha] at hok; cases hok
    | some a =>
      rw [ha] at hok
      simp only at hok ⊢
      by_cases hc : cyclicBox s.box = true ∧ a.nx = 0
      · rw [if_pos hc] at hok; cases hok
      · rw [if_neg hc]
        refine ⟨a, ⟨a.nx, a.ny, cyclicVals s.box a.vals⟩, by simp [GridObj.current, hv, ha], ?_, rfl, rfl, fun i j => ?_⟩
        · simp [GridObj.current, (List.getElem?_eq_some_iff.1 ha).1]
        · by_cases hcyc : |s.box.xmin| = 180 ∧ |s.box.xmax| = 180
          · rw [if_pos hcyc]
            have hcb : cyclicBox s.box = true := by simpa [cyclicBox] using hcyc
            have hpos : a.nx ≠ 0 := fun h0 => hc ⟨hcb, h0⟩
            unfold entryOf cyclicVals
            simp only [hcb, if_true]
            by_cases hij : i < a.nx ∧ j < a.ny
            · rw [dif_pos hij, dif_pos (by refine ⟨?_, hij.2⟩; split <;> [skip; split] <;> omega)]
              congr 2
              apply Fin.ext
              unfold swapIndex
              simp only
              split <;> [rfl; split <;> rfl]
            · rw [dif_neg hij, dif_neg]
              intro hh
              apply hij
              refine ⟨?_, hh.2⟩
              have := hh.1
              by_contra hge
              rw [if_neg (by omega), if_neg (by omega)] at this
              omega
          · rw [if_neg hcyc]
            have hcb : cyclicBox s.box = false := by simpa [cyclicBox] using hcyc
            unfold entryOf cyclicVals
            simp [hcb]

end

/-! ## Negations -/

/-- Two systems; the second is shifted by 100. -/
def shiftedSystems : Projections ℚ Bool := ⟨fun a b => a == b, fun a b q => if a == b then q else (q.1 + 100, q.2 + 100)⟩

/-- A grid of two by two nodes with the value 1. -/
def unitGrid : GridObj ℚ Bool := ⟨⟨0, 1, 0, 1⟩, 0, 0, 1, 1, 2, 2, some 0, none, true, none, false⟩
def unitHeap : List (GridArray ℚ) := [⟨2, 2, fun _ _ => some 1⟩]

/-- A grid around the globe with values 1, 2, 3 on its meridians. -/
def globeObj : GridObj ℚ Bool := ⟨⟨-180, 180, 0, 1⟩, -180, 0, 180, 1, 3, 2, some 0, none, true, none, false⟩
def globeObjHeap : List (GridArray ℚ) := [⟨3, 2, fun i _ => some (i.val + 1)⟩]

example : GridObj.new ([] : List (GridArray ℚ)) ⟨0, 1, 0, 1⟩ 1 none false none (.scalar (some 1)) true = some (unitHeap, unitGrid) := by
  have e1 : ((⌊((1 : ℚ) - 0) / 1⌋ + 1).toNat) = 2 := by decide +kernel
  have e2 : ((⌊((1 : ℚ) - 0) / 1⌋ + 1).natAbs) = 2 := by decide +kernel
  unfold GridObj.new
  rw [if_pos (by decide +kernel)]
  simp only [GridObj.setValues, Option.getD_none, List.length_nil, List.nil_append, Bool.false_eq_true, if_false]
  rw [e1, e2]
  rfl

theorem unitGrid_sound : SoundGrid unitHeap unitGrid :=
  ⟨by decide +kernel, by decide +kernel, by decide +kernel, fun r hr => by cases hr; exact ⟨_, rfl, rfl, rfl⟩, fun e he => by cases he⟩

theorem globeObj_sound : SoundGrid globeObjHeap globeObj :=
  ⟨by decide +kernel, by decide +kernel, by decide +kernel, fun r hr => by cases hr; exact ⟨_, rfl, rfl, rfl⟩, fun e he => by cases he⟩

/-- **C134** Negation: new values are not seen by the interpolator until it is built again. -/
theorem C134_stale : ((unitGrid.run shiftedSystems [.build, .setValues (.scalar (some 2))] unitHeap).2.evalAt (unitGrid.run shiftedSystems [.build, .setValues (.scalar (some 2))] unitHeap).1 (0, 0) =
      some (some 1)) ∧
    ((unitGrid.run shiftedSystems [.build, .setValues (.scalar (some 2))] unitHeap).2.current (unitGrid.run shiftedSystems [.build, .setValues (.scalar (some 2))] unitHeap).1).map (fun a => entryOf a 0 0) =
      some (some (some 2)) := by
  decide +kernel

/-- **C134** Negation: `transform_to` moves the box of a grid but not its nodes; all nodes are outside of the box. -/
theorem C134_transform_leaves_nodes : let t := (unitGrid.run shiftedSystems [.transformTo true] unitHeap).2
    t.crs = true ∧ t.box.xmin = 100 ∧ ∀ i : Fin t.nx, t.x0 + (i.val : ℚ) * t.dx < t.box.xmin := by
  decide +kernel

/-- **C134** Negation: assigning `None` raises an exception and the values are lost. -/
theorem C134_none_lost : (unitGrid.step shiftedSystems unitHeap (.setValues .missing)).raised = true ∧
    (unitGrid.step shiftedSystems unitHeap (.setValues .missing)).obj.values = none ∧ unitGrid.values = some 0 := by
  decide +kernel

/-- **C134** Negation: building the interpolator again changes what it returns, if the box reaches around the globe. -/
theorem C134_built_twice : (globeObj.run shiftedSystems [.build] globeObjHeap).2.evalAt (globeObj.run shiftedSystems [.build] globeObjHeap).1 (-180, 0) = some (some 3) ∧
    (globeObj.run shiftedSystems [.build, .build] globeObjHeap).2.evalAt (globeObj.run shiftedSystems [.build, .build] globeObjHeap).1 (-180, 0) = some (some 1) := by
  decide +kernel

/-- **C134** Negation: two grids around the globe that share their array change each other by `build_interpolant`. -/
theorem C134_shared : ((GridWorld.run shiftedSystems [(0, .build)] ⟨globeObjHeap, [globeObj, globeObj]⟩).objs[0]?).bind (fun s =>
      s.evalAt (GridWorld.run shiftedSystems [(0, .build)] ⟨globeObjHeap, [globeObj, globeObj]⟩).heap (-180, 0)) = some (some 3) ∧
    ((GridWorld.run shiftedSystems [(0, .build), (1, .build)] ⟨globeObjHeap, [globeObj, globeObj]⟩).objs[0]?).bind (fun s =>
      s.evalAt (GridWorld.run shiftedSystems [(0, .build), (1, .build)] ⟨globeObjHeap, [globeObj, globeObj]⟩).heap (-180, 0)) = some (some 1) := by
  decide +kernel

/-! ## Examples -/

/-- Two grids with an array each. -/
def twoGrids : GridWorld ℚ Bool := ⟨[⟨2, 2, fun _ _ => some 1⟩, ⟨3, 2, fun i _ => some (i.val + 1)⟩], [unitGrid, { globeObj with values := some 1 }]⟩

theorem twoGrids_separate : SeparateGrids twoGrids := by
  have cases2 : ∀ (k : Nat) (s : GridObj ℚ Bool), twoGrids.objs[k]? = some s → (k = 0 ∧ s = unitGrid) ∨ (k = 1 ∧ s = { globeObj with values := some 1 }) := by
    intro k s h
    match k, h with
    | 0, h => exact Or.inl ⟨rfl, by cases h; rfl⟩
    | 1, h => exact Or.inr ⟨rfl, by cases h; rfl⟩
  have refs : ∀ (s : GridObj ℚ Bool) (r t : Nat), s.values = some t → s.eval = none → Refers s r → r = t := by
    intro s r t h1 h2 hr
    rcases hr with hr | ⟨i, hi, _⟩
    · rw [h1, Option.some_inj] at hr; exact hr.symm
    · rw [h2] at hi; cases hi
  refine ⟨fun k s hk r hr => ?_, fun k l s t hkl hk hl r hr hr' => ?_⟩
  · rcases cases2 k s hk with ⟨_, rfl⟩ | ⟨_, rfl⟩
    · rw [refs _ r 0 rfl rfl hr]; decide
    · rw [refs _ r 1 rfl rfl hr]; decide
  · rcases cases2 k s hk with ⟨rfl, rfl⟩ | ⟨rfl, rfl⟩ <;> rcases cases2 l t hl with ⟨rfl, rfl⟩ | ⟨rfl, rfl⟩
    · exact hkl rfl
    · have h1 := refs _ r 0 rfl rfl hr
      have h2 := refs _ r 1 rfl rfl hr'
      omega
    · have h1 := refs _ r 1 rfl rfl hr
      have h2 := refs _ r 0 rfl rfl hr'
      omega
    · exact hkl rfl

example : ∃ s2, (twoGrids.run shiftedSystems [(0, .build), (1, .build), (1, .setValues (.scalar (some 9))), (0, .write 1 1 (some 5)), (1, .flip)]).objs[0]? = some s2 ∧
    SameGrid (twoGrids.run shiftedSystems [(0, .build), (1, .build), (1, .setValues (.scalar (some 9))), (0, .write 1 1 (some 5)), (1, .flip)]).heap s2
      (unitGrid.run shiftedSystems [.build, .write 1 1 (some 5)] twoGrids.heap).1 (unitGrid.run shiftedSystems [.build, .write 1 1 (some 5)] twoGrids.heap).2 :=
  C134_independent shiftedSystems twoGrids twoGrids_separate [(0, .build), (1, .build), (1, .setValues (.scalar (some 9))), (0, .write 1 1 (some 5)), (1, .flip)] (by simp) 0 unitGrid rfl

example (s : GridObj ℚ Bool) (h2 : List (GridArray ℚ)) (hn : GridObj.new twoGrids.heap ⟨0, 1, 0, 1⟩ 1 none false none (.scalar (some 3)) true = some (h2, s)) :
    SeparateGrids ⟨h2, twoGrids.objs ++ [s]⟩ := C134_new_separate twoGrids_separate (by simp) hn

example : ∀ s ∈ (GridWorld.run shiftedSystems [(0, .build), (0, .setDx (-1)), (0, .setValues .missing), (0, .setValues (.scalar (some 2)))] ⟨unitHeap, [unitGrid]⟩).objs,
    SoundGrid (GridWorld.run shiftedSystems [(0, .build), (0, .setDx (-1)), (0, .setValues .missing), (0, .setValues (.scalar (some 2)))] ⟨unitHeap, [unitGrid]⟩).heap s :=
  C134_sound _ _ _ (by simpa using unitGrid_sound)

example : (unitGrid.run shiftedSystems [.setBox ⟨5, 9, 5, 9⟩, .setValues (.scalar (some 1))] unitHeap).2.x0 = 0 := (C134_corner _ _ _ _).1

example : (unitGrid.step shiftedSystems unitHeap (.setDx 0)).obj = unitGrid := (C134_raise _ _ _ _ (by simp) (by simp) (by decide +kernel)).2

example : (unitGrid.run shiftedSystems [.build, .write 1 0 (some 5), .setExtrapolate false] unitHeap).2.evalAt
    (unitGrid.run shiftedSystems [.build, .write 1 0 (some 5), .setExtrapolate false] unitHeap).1 (1, 0) = some (some 5) := by
  have := C134_eval_node shiftedSystems unitGrid_sound (op := .build) (Or.inl rfl) (by decide +kernel) [.write 1 0 (some 5), .setExtrapolate false] (by simp [KeepsLattice])
    (a := ⟨2, 2, fun i' j' => if i'.val = 1 ∧ j'.val = 0 then some 5 else cyclicVals ⟨0, 1, 0, 1⟩ (fun _ _ => some 1) i' j'⟩) rfl
    (by intro i j; fin_cases i <;> fin_cases j <;> decide +kernel) 1 0 5 (by decide +kernel)
  have e : ((unitGrid.run shiftedSystems [.build, .write 1 0 (some 5), .setExtrapolate false] unitHeap).2.x0 + ((1 : Fin 2).val : ℚ) * (unitGrid.run shiftedSystems [.build, .write 1 0 (some 5), .setExtrapolate false] unitHeap).2.dx,
      (unitGrid.run shiftedSystems [.build, .write 1 0 (some 5), .setExtrapolate false] unitHeap).2.y0 + ((0 : Fin 2).val : ℚ) * (unitGrid.run shiftedSystems [.build, .write 1 0 (some 5), .setExtrapolate false] unitHeap).2.dy) = ((1, 0) : ℚ × ℚ) := by decide +kernel
  rw [← e]
  exact this

example : ∃ a, (unitGrid.step shiftedSystems unitHeap .flip).obj.current (unitGrid.step shiftedSystems unitHeap .flip).heap = some a ∧
    ∀ q, (unitGrid.step shiftedSystems unitHeap .flip).obj.evalAt (unitGrid.step shiftedSystems unitHeap .flip).heap q = some ((latticeGrid 0 0 1 1 a true).evalWith true q) :=
  C134_built shiftedSystems (Or.inr rfl) (by decide +kernel)

example (q : ℚ × ℚ) : (unitGrid.step shiftedSystems unitHeap (.setValues (.scalar (some 7)))).obj.evalAt (unitGrid.step shiftedSystems unitHeap (.setValues (.scalar (some 7)))).heap q =
    unitGrid.evalAt unitHeap q := C134_eval_frozen shiftedSystems unitGrid_sound (op := .setValues (.scalar (some 7))) (by simp [OnlyAttributes]) q

example : ∃ a a', globeObj.current globeObjHeap = some a ∧ (globeObj.build globeObjHeap).obj.current (globeObj.build globeObjHeap).heap = some a' ∧ entryOf a' 0 0 = entryOf a 2 0 := by
  obtain ⟨a, a', h1, h2, h3, h4, h5⟩ := C134_build_values (h := globeObjHeap) (s := globeObj) (by decide +kernel)
  refine ⟨a, a', h1, h2, ?_⟩
  have ha : a.nx = 3 := by cases h1; rfl
  rw [h5, if_pos (by decide +kernel), if_pos rfl, ha]

end OM
