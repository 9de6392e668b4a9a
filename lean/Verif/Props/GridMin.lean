import Verif.Props.Grid
/-!
# Properties of `compute_minimum` (C34)
-/
namespace OM
open Spec
set_option linter.unusedSectionVars false

section
variable {K C : Type} [Field K] [LinearOrder K] [IsStrictOrderedRing K] [FloorRing K] [DecidableEq C]

/-! ## collecting, reducing -/

theorem collect_some {A : Type} : ∀ {l : List (Option A)} {r : List A}, collectAll l = some r → l = r.map some := by
  intro l
  induction l with
  | nil => intro r h; simp [collectAll] at h; subst h; rfl
  | cons a l ih =>
    intro r h
    cases a with
    | none => simp [collectAll] at h
    | some a =>
      simp only [collectAll, Option.map_eq_some_iff] at h
      obtain ⟨r', h1, h2⟩ := h
      rw [ih h1, ← h2]; rfl

theorem collect_map_some {A : Type} (r : List A) : collectAll (r.map some) = some r := by
  induction r with
  | nil => rfl
  | cons a r ih => simp [collectAll, ih]

theorem collect_none {A : Type} : ∀ {l : List (Option A)}, collectAll l = none ↔ none ∈ l := by
  intro l
  induction l with
  | nil => simp [collectAll]
  | cons a l ih =>
    cases a with
    | none => simp [collectAll]
    | some a => simp [collectAll, ih]

theorem optMin_comm (a b : Option K) : optMin a b = optMin b a := by
  cases a <;> cases b <;> simp [optMin, min_comm]

theorem optMin_right_comm (a b c : Option K) : optMin (optMin a b) c = optMin (optMin a c) b := by
  cases a <;> cases b <;> cases c <;> simp [optMin, min_right_comm]

theorem minReduce_eq {n m : Nat} (v : Fin n → Fin m → Option K) (l : List (Fin n → Fin m → Option K)) (i : Fin n) (j : Fin m) :
    minReduce v l i j = l.foldl (fun a w => optMin a (w i j)) (v i j) := by
  induction l generalizing v with
  | nil => rfl
  | cons w l ih => rw [minReduce, ih]; rfl

theorem foldl_optMin {A : Type} (f : A → Option K) : ∀ (l : List A) (a : Option K) (x : K),
    l.foldl (fun a w => optMin a (f w)) a = some x →
      ∃ y, a = some y ∧ x ≤ y ∧ (∀ w ∈ l, ∃ z, f w = some z ∧ x ≤ z) ∧ (x = y ∨ ∃ w ∈ l, f w = some x) := by
  intro l
  induction l with
  | nil => intro a x h; exact ⟨x, h, le_refl _, by simp, Or.inl rfl⟩
  | cons w l ih =>
    intro a x h
    rw [List.foldl_cons] at h
    obtain ⟨y, hy, hxy, hall, hx⟩ := ih _ _ h
    cases ha : a with
    | none => rw [ha] at hy; simp [optMin] at hy
    | some a' =>
      cases hw : f w with
      | none => rw [ha, hw] at hy; simp [optMin] at hy
      | some w' =>
        rw [ha, hw] at hy
        simp only [optMin, Option.some.injEq] at hy
        refine ⟨a', rfl, hxy.trans (hy ▸ min_le_left _ _), ?_, ?_⟩
        · intro u hu
          rcases List.mem_cons.1 hu with h' | h'
          · exact ⟨w', h' ▸ hw, hxy.trans (hy ▸ min_le_right _ _)⟩
          · exact hall u h'
        · rcases hx with h' | ⟨u, hu, hu'⟩
          · rcases min_choice a' w' with hm | hm
            · exact Or.inl (by rw [h', ← hy, hm])
            · exact Or.inr ⟨w, List.mem_cons_self, by rw [hw, h', ← hy, hm]⟩
          · exact Or.inr ⟨u, List.mem_cons_of_mem _ hu, hu'⟩

theorem foldl_optMin_isSome {A : Type} (f : A → Option K) : ∀ (l : List A) (a : Option K), a.isSome → (∀ w ∈ l, (f w).isSome) →
    (l.foldl (fun a w => optMin a (f w)) a).isSome := by
  intro l
  induction l with
  | nil => intro a ha _; exact ha
  | cons w l ih =>
    intro a ha hl
    rw [List.foldl_cons]
    refine ih _ ?_ fun u hu => hl u (List.mem_cons_of_mem _ hu)
    obtain ⟨x, hx⟩ := Option.isSome_iff_exists.1 ha
    obtain ⟨y, hy⟩ := Option.isSome_iff_exists.1 (hl w List.mem_cons_self)
    rw [hx, hy]; rfl

theorem mem_allVals {n m : Nat} {vals : Fin n → Fin m → Option K} {v : Option K} :
    v ∈ allVals vals ↔ ∃ i j, vals i j = v := by
  simp [allVals]

theorem minElement_none {l : List K} : minElement l = none ↔ l = [] := by
  cases l <;> simp [minElement]

theorem foldl_min_isLeast : ∀ (l : List K) (x : K), IsLeast {y | y ∈ x :: l} (l.foldl min x) := by
  intro l
  induction l with
  | nil => intro x; exact ⟨by simp, fun y hy => by simp at hy; exact hy.ge⟩
  | cons a l ih =>
    intro x
    rw [List.foldl_cons]
    obtain ⟨h1, h2⟩ := ih (min x a)
    constructor
    · rcases List.mem_cons.1 h1 with h | h
      · rcases min_choice x a with hm | hm
        · rw [h, hm]; simp
        · rw [h, hm]; simp
      · exact List.mem_cons_of_mem _ (List.mem_cons_of_mem _ h)
    · intro y hy
      have hm := h2 (show min x a ∈ {y | y ∈ min x a :: l} from List.mem_cons_self)
      rcases List.mem_cons.1 hy with h | h
      · rw [h]; exact hm.trans (min_le_left _ _)
      · rcases List.mem_cons.1 h with h | h
        · rw [h]; exact hm.trans (min_le_right _ _)
        · exact h2 (List.mem_cons_of_mem _ h)

theorem minElement_isLeast {l : List K} {x : K} (h : minElement l = some x) : IsLeast {y | y ∈ l} x := by
  cases l with
  | nil => simp [minElement] at h
  | cons a l =>
    simp only [minElement, Option.some.injEq] at h
    rw [← h]; exact foldl_min_isLeast l a

theorem mem_positives {n m : Nat} {vals : Fin n → Fin m → Option K} {x : K} :
    x ∈ (allVals vals).filterMap (fun v => v.filter fun x => decide (0 < x)) ↔ 0 < x ∧ ∃ i j, vals i j = some x := by
  rw [List.mem_filterMap]
  constructor
  · rintro ⟨v, hv, h⟩
    obtain ⟨i, j, hij⟩ := mem_allVals.1 hv
    rw [Option.filter_eq_some_iff] at h
    exact ⟨by simpa using h.2, i, j, by rw [hij, h.1]⟩
  · rintro ⟨h0, i, j, h⟩
    exact ⟨some x, mem_allVals.2 ⟨i, j, h⟩, by rw [Option.filter_eq_some_iff]; simpa using h0⟩

theorem exists_cyclicVals {n m : Nat} (b : Box K) (vals : Fin n → Fin m → Option K) (v : Option K) :
    (∃ i j, cyclicVals b vals i j = v) ↔ ∃ i j, vals i j = v := by
  unfold cyclicVals
  split
  · constructor
    · rintro ⟨i, j, h⟩; exact ⟨swapIndex i, j, h⟩
    · rintro ⟨i, j, h⟩; exact ⟨swapIndex i, j, by simpa only [swapIndex_swap] using h⟩
  · exact Iff.rfl

/-- What a successful run computed. -/
theorem computeMinimum_some {tr : C → C → K × K → K × K} {base : Grid K C} {others : List (Grid K C)} {g : Grid K C}
    (h : computeMinimum tr (base :: others) = some g) :
    ∃ arrs x, others.map (alignedVals tr base) = arrs.map some ∧
      minElement ((allVals (minReduce base.vals arrs)).filterMap fun v => v.filter fun x => decide (0 < x)) = some x ∧
      g = { base with vals := cyclicVals base.box (minReduce base.vals arrs), hmin := some x, extrapolate := true, interp := some true } := by
  rw [computeMinimum] at h
  split at h
  · simp at h
  · rename_i arrs ha
    simp only at h
    split at h
    · simp at h
    · rename_i x hx
      simp only [Option.some.injEq] at h
      exact ⟨arrs, x, collect_some ha, hx, h.symm⟩

/-! ## C34 -/

/-- The value another grid offers at a node `q` of the base grid, where the base grid has the value `old`:
in the same coordinate system the value of a nearest node, or `old` if the node is outside its lattice and it does not extrapolate;
in another system the value of its `eval` at the transformed node. -/
def Offers (tr : C → C → K × K → K × K) (base other : Grid K C) (q : K × K) (old v : Option K) : Prop :=
  (other.crs = base.crs →
    ((other.extrapolate = true ∨ InLattice other.box.xmin other.dx other.nx other.box.ymin |other.dy| other.ny q) →
      ∃ (k : Fin other.nx) (l : Fin other.ny),
        NearestNode other.box.xmin other.dx other.nx other.box.ymin other.dy other.ny q k l ∧ v = other.vals k l) ∧
    ((other.extrapolate = false ∧ ¬ InLattice other.box.xmin other.dx other.nx other.box.ymin |other.dy| other.ny q) →
      v = old)) ∧
  (other.crs ≠ base.crs → other.evalAt (tr base.crs other.crs q) = some v)

theorem alignedVals_offers {tr : C → C → K × K → K × K} {base other : Grid K C} {a : Fin base.nx → Fin base.ny → Option K}
    (h : alignedVals tr base other = some a) (hdx : 0 < other.dx) (hdy : 0 < other.dy) (hn : 0 < other.nx) (hm : 0 < other.ny)
    (hcyc : ¬ (|base.box.xmin| = 180 ∧ |base.box.xmax| = 180))
    (hfill : other.crs = base.crs → other.extrapolate = false → ∀ i j, other.vals i j ≠ some (-999)) (i : Fin base.nx)
    (j : Fin base.ny) : Offers tr base other (base.xAt i, base.yAt j) (base.vals i j) (a i j) := by
  unfold alignedVals at h
  split at h
  · rename_i hcrs
    split at h
    · rename_i hov
      simp only [Option.some.injEq] at h
      refine ⟨fun _ => ?_, fun hne => absurd hcrs hne⟩
      have hov' : other.box.xmin < base.box.xmax ∧ base.box.xmin < other.box.xmax ∧ other.box.ymin < base.box.ymax ∧
          base.box.ymin < other.box.ymax := by
        simpa [Grid.overlaps, and_assoc] using hov
      have obtain_w : ∀ w, other.interpolateTo base = some { base with vals := w, extrapolate := false, interp := none } → w = a := by
        intro w hw
        unfold Grid.interpolateTo at hw
        rw [if_pos hov, Option.some.injEq] at hw
        rw [← h]
        simp only [Grid.mk.injEq, heq_eq_eq, true_and, and_true] at hw
        exact hw.symm
      by_cases he : other.extrapolate = true
      · obtain ⟨w, hw, hw'⟩ := C33_extrapolating_source other base hdx hdy hn hm hov' he
        have := obtain_w w hw
        subst this
        exact ⟨fun _ => hw' i j, fun h' => by rw [he] at h'; simp at h'⟩
      · have he' : other.extrapolate = false := by simpa using he
        obtain ⟨w, hw, hw'⟩ := C33_interpolate_partial other base hdx hdy hn hm hov' he' (hfill hcrs he')
        have := obtain_w w hw
        subst this
        exact ⟨fun h' => (hw' i j).1 (h'.resolve_left he), fun h' => (hw' i j).2 h'.2⟩
    · simp at h
  · rename_i hcrs
    refine ⟨fun h' => absurd h' hcrs, fun _ => ?_⟩
    have hc : cyclicBox base.box = false := by
      unfold cyclicBox
      rw [← Bool.not_eq_true]
      simpa using hcyc
    rw [Option.map_eq_some_iff] at h
    obtain ⟨e, he, h⟩ := h
    rw [← h]
    simp [Grid.evalAt, he, cyclicVals, hc]

theorem forall₂_map_left' {A B : Type} {f : A → Option B} : ∀ {l : List A} {r : List B}, l.map f = r.map some →
    List.Forall₂ (fun a b => f a = some b) l r := by
  intro l
  induction l with
  | nil => intro r h; cases r with
    | nil => exact .nil
    | cons => simp at h
  | cons a l ih =>
    intro r h
    cases r with
    | nil => simp at h
    | cons b r =>
      simp only [List.map_cons, List.cons.injEq] at h
      exact .cons h.1 (ih h.2)

/-- **C34**. For a base grid that does not reach around the globe: the result has the lattice and coordinate system of the base
grid, and there are arrays of values offered by the other grids such that every node of the result holds a number only if base
and all offers are numbers, and then it is the smallest of them. So it never exceeds the base value.
Missing: base grids around the globe (`C34_globe_rows_exchanged`), NaN values (`C34_nan_hides`), source value -999. -/
theorem C34_pointwise_minimum_partial {tr : C → C → K × K → K × K} {base : Grid K C} {others : List (Grid K C)} {g : Grid K C}
    (h : computeMinimum tr (base :: others) = some g) (hcyc : ¬ (|base.box.xmin| = 180 ∧ |base.box.xmax| = 180))
    (hval : ∀ o ∈ others, 0 < o.dx ∧ 0 < o.dy ∧ 0 < o.nx ∧ 0 < o.ny)
    (hfill : ∀ o ∈ others, o.crs = base.crs → o.extrapolate = false → ∀ i j, o.vals i j ≠ some (-999)) :
    ∃ (w : Fin base.nx → Fin base.ny → Option K) (arrs : List (Fin base.nx → Fin base.ny → Option K)),
      g = { base with vals := w, hmin := g.hmin, extrapolate := true, interp := some true } ∧
      List.Forall₂ (fun o a => ∀ (i : Fin base.nx) (j : Fin base.ny), Offers tr base o (base.xAt i, base.yAt j) (base.vals i j) (a i j)) others arrs ∧
      ∀ i j, (((base.vals i j).isSome ∧ ∀ a ∈ arrs, (a i j).isSome) → (w i j).isSome) ∧
        ∀ x, w i j = some x →
          IsLeast {z | base.vals i j = some z ∨ ∃ a ∈ arrs, a i j = some z} x ∧ ∃ z, base.vals i j = some z ∧ x ≤ z := by
  obtain ⟨arrs, x, h1, h2, h3⟩ := computeMinimum_some h
  have hc : cyclicBox base.box = false := by
    unfold cyclicBox
    rw [← Bool.not_eq_true]
    simpa using hcyc
  refine ⟨minReduce base.vals arrs, arrs, ?_, ?_, fun i j => ⟨fun hs => ?_, fun z hz => ?_⟩⟩
  · rw [h3]; simp [cyclicVals, hc]
  · have hf := forall₂_map_left' h1
    clear h1 h2 h3 h
    induction hf with
    | nil => exact .nil
    | cons hd _ ih =>
      rename_i o a l r _
      have hv := hval o List.mem_cons_self
      refine .cons (fun i j => alignedVals_offers hd hv.1 hv.2.1 hv.2.2.1 hv.2.2.2 hcyc (hfill o List.mem_cons_self) i j) ?_
      exact ih (fun o ho => hval o (List.mem_cons_of_mem _ ho)) fun o ho => hfill o (List.mem_cons_of_mem _ ho)
  · rw [minReduce_eq]
    exact foldl_optMin_isSome (fun w => w i j) arrs _ hs.1 hs.2
  · rw [minReduce_eq] at hz
    obtain ⟨y, hy, hzy, hall, hz'⟩ := foldl_optMin (fun (w : Fin base.nx → Fin base.ny → Option K) => w i j) arrs _ _ hz
    refine ⟨⟨?_, ?_⟩, y, hy, hzy⟩
    · rcases hz' with h' | ⟨w, hw, hw'⟩
      · exact Or.inl (h' ▸ hy)
      · exact Or.inr ⟨w, hw, hw'⟩
    · rintro u (hu | ⟨a, ha, hu⟩)
      · rw [hy] at hu; exact Option.some.inj hu ▸ hzy
      · obtain ⟨u', hu', hzu⟩ := hall a ha
        rw [hu] at hu'
        exact Option.some.inj hu' ▸ hzu

/-- **C34**, order: permuting the other grids changes nothing, neither the result nor whether there is one. -/
theorem C34_order_irrelevant (tr : C → C → K × K → K × K) (base : Grid K C) {others others' : List (Grid K C)}
    (h : others.Perm others') : computeMinimum tr (base :: others) = computeMinimum tr (base :: others') := by
  have hp := h.map (alignedVals tr base)
  rw [computeMinimum, computeMinimum]
  cases hc : collectAll (others.map (alignedVals tr base)) with
  | none =>
    have : collectAll (others'.map (alignedVals tr base)) = none := collect_none.2 (hp.mem_iff.1 (collect_none.1 hc))
    rw [this]
  | some r =>
    cases hc' : collectAll (others'.map (alignedVals tr base)) with
    | none => rw [collect_none, ← hp.mem_iff, ← collect_none, hc] at hc'; simp at hc'
    | some r' =>
      have hr : r.Perm r' := by
        rw [collect_some hc, collect_some hc'] at hp
        have := hp.filterMap id
        simpa [List.filterMap_map] using this
      have : minReduce base.vals r = minReduce base.vals r' := by
        funext i j
        rw [minReduce_eq, minReduce_eq]
        exact hr.foldl_eq' (fun x _ y _ z => optMin_right_comm z (x i j) (y i j)) _
      simp only [this]

/-- **C34**, `hmin`: it is the smallest positive value of the result, for every base grid. -/
theorem C34_hmin {tr : C → C → K × K → K × K} {grids : List (Grid K C)} {g : Grid K C} (h : computeMinimum tr grids = some g) :
    ∃ x, g.hmin = some x ∧ IsLeast {z | 0 < z ∧ ∃ i j, g.vals i j = some z} x := by
  cases grids with
  | nil => simp [computeMinimum] at h
  | cons base others =>
    obtain ⟨arrs, x, h1, h2, h3⟩ := computeMinimum_some h
    refine ⟨x, by rw [h3], ?_⟩
    have := minElement_isLeast h2
    have e : {z : K | 0 < z ∧ ∃ i j, g.vals i j = some z} = {y | y ∈ (allVals (minReduce base.vals arrs)).filterMap
        fun v => v.filter fun x => decide (0 < x)} := by
      ext z
      simp only [Set.mem_ofPred_eq]
      rw [mem_positives]
      subst h3
      exact and_congr_right fun _ => exists_cyclicVals _ _ _
    rw [e]
    exact this

/-- **C34**, failure: without any positive value in the base grid there is no result. -/
theorem C34_no_positive_value (tr : C → C → K × K → K × K) (base : Grid K C) (others : List (Grid K C))
    (h : ∀ i j x, base.vals i j = some x → x ≤ 0) : computeMinimum tr (base :: others) = none := by
  cases hc : computeMinimum tr (base :: others) with
  | none => rfl
  | some g =>
    obtain ⟨arrs, x, h1, h2, h3⟩ := computeMinimum_some hc
    have hm := (minElement_isLeast h2).1
    simp only [Set.mem_ofPred_eq] at hm
    obtain ⟨h0, i, j, hij⟩ := mem_positives.1 hm
    rw [minReduce_eq] at hij
    obtain ⟨y, hy, hxy, -⟩ := foldl_optMin (fun (w : Fin base.nx → Fin base.ny → Option K) => w i j) arrs _ _ hij
    exact absurd (h i j y hy) (not_le.2 (h0.trans_le hxy))

/-- **C34**, success: if every other grid can be aligned (overlapping boxes in the same system, an interpolant in another one) and
at some node the base value and all offered values are positive, there is a result. Missing: as for the minimum. -/
theorem C34_succeeds_partial (tr : C → C → K × K → K × K) (base : Grid K C) (others : List (Grid K C))
    (hal : ∀ o ∈ others, (o.crs = base.crs → o.box.xmin < base.box.xmax ∧ base.box.xmin < o.box.xmax ∧
      o.box.ymin < base.box.ymax ∧ base.box.ymin < o.box.ymax) ∧ (o.crs ≠ base.crs → o.interp.isSome))
    (hcyc : ¬ (|base.box.xmin| = 180 ∧ |base.box.xmax| = 180))
    (hval : ∀ o ∈ others, 0 < o.dx ∧ 0 < o.dy ∧ 0 < o.nx ∧ 0 < o.ny)
    (hfill : ∀ o ∈ others, o.crs = base.crs → o.extrapolate = false → ∀ i j, o.vals i j ≠ some (-999))
    (hpos : ∃ (i : Fin base.nx) (j : Fin base.ny), (∃ x, base.vals i j = some x ∧ 0 < x) ∧
      ∀ o ∈ others, ∀ v, Offers tr base o (base.xAt i, base.yAt j) (base.vals i j) v → ∃ x, v = some x ∧ 0 < x) :
    (computeMinimum tr (base :: others)).isSome := by
  rw [computeMinimum]
  cases hc : collectAll (others.map (alignedVals tr base)) with
  | none =>
    exfalso
    obtain ⟨o, ho, h⟩ := List.mem_map.1 (collect_none.1 hc)
    unfold alignedVals at h
    split at h
    · rename_i he
      have hov : o.overlaps base = true := by
        have := (hal o ho).1 he
        simp [Grid.overlaps, this]
      rw [if_pos hov] at h
      simp at h
    · rename_i he
      have := (hal o ho).2 he
      rw [Option.map_eq_none_iff] at h
      rw [h] at this
      simp at this
  | some r =>
    simp only
    obtain ⟨i, j, ⟨x, hx, hx0⟩, hall⟩ := hpos
    have hr := collect_some hc
    have hmem : ∀ a ∈ r, ∃ x, a i j = some x ∧ 0 < x := by
      intro a ha
      have : some a ∈ others.map (alignedVals tr base) := by rw [hr]; exact List.mem_map_of_mem ha
      obtain ⟨o, ho, hoa⟩ := List.mem_map.1 this
      have hv := hval o ho
      exact hall o ho _ (alignedVals_offers hoa hv.1 hv.2.1 hv.2.2.1 hv.2.2.2 hcyc (hfill o ho) i j)
    have hs : (minReduce base.vals r i j).isSome := by
      rw [minReduce_eq]
      refine foldl_optMin_isSome (fun (w : Fin base.nx → Fin base.ny → Option K) => w i j) r _ (by rw [hx]; rfl) ?_
      intro a ha
      obtain ⟨y, hy, _⟩ := hmem a ha
      rw [hy]; rfl
    obtain ⟨y, hy⟩ := Option.isSome_iff_exists.1 hs
    have hy0 : 0 < y := by
      have hy' := hy
      rw [minReduce_eq] at hy'
      obtain ⟨z, hz, _, _, h'⟩ := foldl_optMin (fun (w : Fin base.nx → Fin base.ny → Option K) => w i j) r _ _ hy'
      rcases h' with h' | ⟨w, hw, hw'⟩
      · rw [h']; rw [hx] at hz; exact Option.some.inj hz ▸ hx0
      · obtain ⟨u, hu, hu0⟩ := hmem w hw
        rw [hw'] at hu; exact Option.some.inj hu ▸ hu0
    cases hme : minElement ((allVals (minReduce base.vals r)).filterMap fun v => v.filter fun x => decide (0 < x)) with
    | none =>
      rw [minElement_none] at hme
      have : y ∈ (allVals (minReduce base.vals r)).filterMap (fun v => v.filter fun x => decide (0 < x)) :=
        mem_positives.2 ⟨hy0, i, j, hy⟩
      rw [hme] at this
      simp at this
    | some z => rfl

/-- **C34** fails around the globe: the first and the last row of the result are exchanged, here base values 1, 2, 3 (a single
grid) give 3 at the first node, which exceeds the base value 1. -/
theorem C34_globe_rows_exchanged : ∃ (base g : Grid ℚ Nat) (i : Fin base.nx) (j : Fin base.ny) (i' : Fin g.nx) (j' : Fin g.ny),
    computeMinimum (fun _ _ q => q) [base] = some g ∧ i.val = i'.val ∧ j.val = j'.val ∧ base.vals i j = some 1 ∧
      g.vals i' j' = some 3 := by
  refine ⟨⟨⟨-180, 180, 0, 0⟩, 180, 1, 3, 1, fun i _ => some ((i : ℚ) + 1), none, false, 0, none⟩,
    Grid.buildInterpolant ⟨⟨-180, 180, 0, 0⟩, 180, 1, 3, 1, fun i _ => some ((i : ℚ) + 1), some 1, true, 0, none⟩,
    (0 : Fin 3), (0 : Fin 1), (0 : Fin 3), (0 : Fin 1), ?_, rfl, rfl, ?_, ?_⟩
  · have h : minElement ((allVals (minReduce (fun (i : Fin 3) (_ : Fin 1) => some ((i : ℚ) + 1)) [])).filterMap
        fun v => v.filter fun x => decide (0 < x)) = some 1 := by decide +kernel
    rw [computeMinimum]
    simp only [List.map_nil, collectAll]
    rw [h]
    rfl
  · decide +kernel
  · decide +kernel

/-- **C34** fails for NaN: where another grid is NaN the result is NaN although the base value is available. -/
theorem C34_nan_hides : ∃ (base other g : Grid ℚ Nat) (i : Fin base.nx) (j : Fin base.ny) (i' : Fin g.nx) (j' : Fin g.ny),
    computeMinimum (fun _ _ q => q) [base, other] = some g ∧ i.val = i'.val ∧ j.val = j'.val ∧ base.vals i j = some 1 ∧
      g.vals i' j' = none := by
  let base : Grid ℚ Nat := ⟨⟨0, 1, 0, 1⟩, 1, 1, 2, 2, fun i _ => some ((i : ℚ) + 1), none, false, 0, none⟩
  let other : Grid ℚ Nat := ⟨⟨0, 1, 0, 1⟩, 1, 1, 2, 2, fun i _ => if i = 0 then none else some 5, none, false, 0, none⟩
  have h : minElement ((allVals (minReduce base.vals [other.mergedValue base])).filterMap
        fun v => v.filter fun x => decide (0 < x)) = some 2 := by decide +kernel
  refine ⟨base, other, Grid.buildInterpolant { base with vals := minReduce base.vals [other.mergedValue base], hmin := some 2, extrapolate := true, interp := none },
    (0 : Fin 2), (0 : Fin 2), (0 : Fin 2), (0 : Fin 2), ?_, rfl, rfl, ?_, ?_⟩
  · have ha : alignedVals (fun _ _ q => q) base other = some (other.mergedValue base) := by
      unfold alignedVals
      rw [if_pos rfl, if_pos (by decide +kernel)]
    rw [computeMinimum]
    simp only [List.map_cons, List.map_nil, collectAll, ha, Option.map_some]
    rw [h]
  · decide +kernel
  · decide +kernel

/-- The hypotheses of the theorems above are met by two grids in one system. -/
def minExBase : Grid ℚ Nat := ⟨⟨0, 4, 0, 1⟩, 2, 1, 3, 2, fun i _ => some ((i : ℚ) + 1), none, false, 0, none⟩

example : (computeMinimum (fun _ _ q => q) [minExBase, gridEx]).map (fun g => (allVals g.vals, g.hmin))
    = some ([some 0, some 1, some 2, some 2, some 3, some 3], some 1) := by decide +kernel
example : ¬ (|minExBase.box.xmin| = 180 ∧ |minExBase.box.xmax| = 180) := by decide +kernel
example : ∀ o ∈ [gridEx], 0 < o.dx ∧ 0 < o.dy ∧ 0 < o.nx ∧ 0 < o.ny := by
  intro o ho; rw [List.mem_singleton] at ho; subst ho; decide +kernel
example : ∀ o ∈ [gridEx], o.crs = minExBase.crs → o.extrapolate = false → ∀ i j, o.vals i j ≠ some (-999) := by
  intro o ho; rw [List.mem_singleton] at ho; subst ho; decide +kernel

end
end OM
