import Verif.Props.Sdf
/-!
# C45, C46 for all evaluations, including NaN and exceptions

The theorems of `Verif.Props.Sdf` ask for numbers at the point. Here the value of a union, an intersection and a difference is given for every
point: an exception of one member is an exception of the result, otherwise a NaN of one member makes the result NaN, otherwise it is the
smallest or largest number.
-/
set_option linter.unusedSectionVars false

namespace OM
open Spec

section
variable {K P C : Type} [Field K] [LinearOrder K] [IsStrictOrderedRing K]

/-! ## reductions -/

theorem fold_nan {op : Option K → Option K → Option K} (h1 : ∀ a, op none a = none) (h2 : ∀ a, op a none = none) :
    ∀ (vs : List (Option K)) (v : Option K), none ∈ v :: vs → vs.foldl op v = none := by
  intro vs
  induction vs with
  | nil => intro v h; rw [List.mem_singleton] at h; exact h.symm
  | cons w vs ih =>
    intro v h
    rw [List.foldl_cons]
    apply ih
    rcases List.mem_cons.1 h with h | h
    · rw [← h, h1]; simp
    · rcases List.mem_cons.1 h with h | h
      · rw [← h, h2]; simp
      · exact List.mem_cons_of_mem _ h

theorem collectAll_eq_none {A : Type} : ∀ {l : List (Option A)}, collectAll l = none ↔ none ∈ l := by
  intro l
  induction l with
  | nil => simp [collectAll]
  | cons a l ih =>
    cases a with
    | none => simp [collectAll]
    | some a => simp [collectAll, ih]

theorem collectAll_eq_some {A : Type} : ∀ {l : List (Option A)} {r : List A}, collectAll l = some r → l = r.map some := by
  intro l
  induction l with
  | nil => intro r h; simp [collectAll] at h; subst h; rfl
  | cons a l ih =>
    intro r h
    cases a with
    | none => simp [collectAll] at h
    | some a =>
      simp only [collectAll, Option.map_eq_some_iff] at h
      obtain ⟨r', h1, h2⟩ := h
      rw [ih h1, ← h2]; rfl

/-- The reduction raises exactly if there is nothing to reduce or one evaluation raised. -/
theorem reduce_raises (op : Option K → Option K → Option K) (l : List (Option (Option K))) :
    reduceEvals op l = none ↔ l = [] ∨ none ∈ l := by
  unfold reduceEvals
  split
  · rename_i h
    simp [collectAll_eq_none.1 h]
  · rename_i h
    have := collectAll_eq_some h
    simp at this
    simp [this]
  · rename_i v vs h
    have := collectAll_eq_some h
    simp [this]

/-- All entries are numbers, or one is missing, or none is missing and one is NaN. -/
theorem evals_cases (l : List (Option (Option K))) :
    (∃ xs : List K, l = xs.map fun v => some (some v)) ∨ none ∈ l ∨ (none ∉ l ∧ some none ∈ l) := by
  induction l with
  | nil => exact Or.inl ⟨[], rfl⟩
  | cons a l ih =>
    rcases a with _ | _ | x
    · right; left; simp
    · by_cases h : none ∈ l
      · right; left; simp [h]
      · right; right; simp [h]
    · rcases ih with ⟨xs, rfl⟩ | h | ⟨h, h'⟩
      · exact Or.inl ⟨x :: xs, rfl⟩
      · right; left; simp [h]
      · right; right; simp [h, h']

theorem reduce_nan {op : Option K → Option K → Option K} (h1 : ∀ a, op none a = none) (h2 : ∀ a, op a none = none)
    {l : List (Option (Option K))} (h : none ∉ l) (h' : some none ∈ l) : reduceEvals op l = some none := by
  unfold reduceEvals
  split
  · rename_i hc; exact absurd (collectAll_eq_none.1 hc) h
  · rename_i hc; rw [collectAll_eq_some hc] at h'; simp at h'
  · rename_i v vs hc
    rw [collectAll_eq_some hc] at h'
    rw [fold_nan h1 h2]
    simpa using h'

theorem foldl_max_isGreatest : ∀ (l : List K) (x : K), IsGreatest {y | y ∈ x :: l} (l.foldl max x) := by
  intro l
  induction l with
  | nil => intro x; exact ⟨by simp, fun y hy => by simp at hy; exact hy.le⟩
  | cons a l ih =>
    intro x
    rw [List.foldl_cons]
    obtain ⟨h1, h2⟩ := ih (max x a)
    constructor
    · rcases List.mem_cons.1 h1 with h | h
      · rcases max_choice x a with hm | hm
        · rw [h, hm]; simp
        · rw [h, hm]; simp
      · exact List.mem_cons_of_mem _ (List.mem_cons_of_mem _ h)
    · intro y hy
      have hm := h2 (show max x a ∈ {y | y ∈ max x a :: l} from List.mem_cons_self)
      rcases List.mem_cons.1 hy with h | h
      · rw [h]; exact (le_max_left _ _).trans hm
      · rcases List.mem_cons.1 h with h | h
        · rw [h]; exact (le_max_right _ _).trans hm
        · exact h2 (List.mem_cons_of_mem _ h)

theorem foldl_min_isLeast' : ∀ (l : List K) (x : K), IsLeast {y | y ∈ x :: l} (l.foldl min x) := by
  intro l
  induction l with
  | nil => intro x; exact ⟨by simp, fun y hy => by simp at hy; exact hy.ge⟩
  | cons a l ih =>
    intro x
    rw [List.foldl_cons]
    obtain ⟨h1, h2⟩ := ih (min x a)
    constructor
    · rcases List.mem_cons.1 h1 with h | h
      · rcases min_choice x a with hm | hm
        · rw [h, hm]; simp
        · rw [h, hm]; simp
      · exact List.mem_cons_of_mem _ (List.mem_cons_of_mem _ h)
    · intro y hy
      have hm := h2 (show min x a ∈ {y | y ∈ min x a :: l} from List.mem_cons_self)
      rcases List.mem_cons.1 hy with h | h
      · rw [h]; exact hm.trans (min_le_left _ _)
      · rcases List.mem_cons.1 h with h | h
        · rw [h]; exact hm.trans (min_le_right _ _)
        · exact h2 (List.mem_cons_of_mem _ h)

/-- The three outcomes of `op` reductions, with `Best` the set of best elements. -/
theorem reduce_outcomes {op : Option K → Option K → Option K} {best : K → List K → K} {Best : Set K → K → Prop}
    (h1 : ∀ a, op none a = none) (h2 : ∀ a, op a none = none)
    (h3 : ∀ x l, reduceEvals op ((x :: l).map fun v => some (some v)) = some (some (best x l)))
    (h4 : ∀ x l, Best {y | y ∈ x :: l} (best x l)) (h5 : ∀ S a b, Best S a → Best S b → a = b) {l : List (Option (Option K))} (hl : l ≠ []) :
    (reduceEvals op l = none ↔ none ∈ l) ∧ (reduceEvals op l = some none ↔ none ∉ l ∧ some none ∈ l) ∧
    ∀ v, reduceEvals op l = some (some v) ↔ (∀ e ∈ l, ∃ x, e = some (some x)) ∧ Best {x | some (some x) ∈ l} v := by
  have hr : reduceEvals op l = none ↔ none ∈ l := by rw [reduce_raises]; simp [hl]
  refine ⟨hr, ?_⟩
  rcases evals_cases l with ⟨xs, rfl⟩ | h | ⟨h, h'⟩
  · cases xs with
    | nil => simp at hl
    | cons x xs =>
      have e : {y : K | some (some y) ∈ (x :: xs).map fun v => some (some v)} = {y | y ∈ x :: xs} := by
        ext y; simp
      rw [h3, e]
      refine ⟨by simp, fun v => ?_⟩
      simp only [Option.some.injEq]
      constructor
      · rintro rfl
        refine ⟨?_, h4 x xs⟩
        intro e he
        obtain ⟨v, -, rfl⟩ := List.mem_map.1 he
        exact ⟨v, rfl⟩
      · rintro ⟨-, hv⟩
        exact h5 _ _ _ (h4 x xs) hv
  · rw [hr.2 h]
    refine ⟨by simp [h], fun v => ?_⟩
    simp only [reduceCtorEq, false_iff, not_and]
    intro hall
    obtain ⟨x, hx⟩ := hall _ h
    simp at hx
  · rw [reduce_nan h1 h2 h h']
    refine ⟨by simp [h, h'], fun v => ?_⟩
    simp only [Option.some.injEq, reduceCtorEq, false_iff, not_and]
    intro hall
    obtain ⟨x, hx⟩ := hall _ h'
    simp at hx

theorem optMin_nan (a : Option K) : optMin none a = none ∧ optMin a none = none := by cases a <;> simp [optMin]
theorem optMax_nan (a : Option K) : optMax none a = none ∧ optMax a none = none := by cases a <;> simp [optMax]

theorem reduceMin_outcomes {l : List (Option (Option K))} (hl : l ≠ []) :
    (reduceEvals optMin l = none ↔ none ∈ l) ∧ (reduceEvals optMin l = some none ↔ none ∉ l ∧ some none ∈ l) ∧
    ∀ v, reduceEvals optMin l = some (some v) ↔ (∀ e ∈ l, ∃ x, e = some (some x)) ∧ IsLeast {x | some (some x) ∈ l} v :=
  reduce_outcomes (best := fun x l => l.foldl min x) (Best := IsLeast) (fun a => (optMin_nan a).1) (fun a => (optMin_nan a).2) reduce_min
    (fun x l => foldl_min_isLeast' l x) (fun _ _ _ ha hb => ha.unique hb) hl

theorem reduceMax_outcomes {l : List (Option (Option K))} (hl : l ≠ []) :
    (reduceEvals optMax l = none ↔ none ∈ l) ∧ (reduceEvals optMax l = some none ↔ none ∉ l ∧ some none ∈ l) ∧
    ∀ v, reduceEvals optMax l = some (some v) ↔ (∀ e ∈ l, ∃ x, e = some (some x)) ∧ IsGreatest {x | some (some x) ∈ l} v :=
  reduce_outcomes (best := fun x l => l.foldl max x) (Best := IsGreatest) (fun a => (optMax_nan a).1) (fun a => (optMax_nan a).2) reduce_max
    (fun x l => foldl_max_isGreatest l x) (fun _ _ _ ha hb => ha.unique hb) hl

/-! ## C45 -/

/-- **C45**, union, every point: it raises iff a member raises, is NaN iff no member raises and one is NaN, and otherwise is the smallest value of
the members. -/
theorem C45_union_value {l : List (Domain K P C)} {u : Domain K P C} (h : unionDomain l = some u) (p : P) :
    (u.func p = none ↔ ∃ d ∈ l, d.func p = none) ∧
    (u.func p = some none ↔ (∀ d ∈ l, d.func p ≠ none) ∧ ∃ d ∈ l, d.func p = some none) ∧
    ∀ v, u.func p = some (some v) ↔ (∀ d ∈ l, Defined d p) ∧ IsLeast {x | ∃ d ∈ l, d.func p = some (some x)} v := by
  obtain ⟨hne, hf⟩ := combine_func h
  rw [hf]
  have := reduceMin_outcomes (l := l.map fun d => d.func p) (by simpa using hne)
  simpa [Defined] using this

/-- **C45**, intersection, every point: as for the union, with the largest value. -/
theorem C45_intersection_value {l : List (Domain K P C)} {u : Domain K P C} (h : intersectionDomain l = some u) (p : P) :
    (u.func p = none ↔ ∃ d ∈ l, d.func p = none) ∧
    (u.func p = some none ↔ (∀ d ∈ l, d.func p ≠ none) ∧ ∃ d ∈ l, d.func p = some none) ∧
    ∀ v, u.func p = some (some v) ↔ (∀ d ∈ l, Defined d p) ∧ IsGreatest {x | ∃ d ∈ l, d.func p = some (some x)} v := by
  obtain ⟨hne, hf⟩ := combine_func h
  rw [hf]
  have := reduceMax_outcomes (l := l.map fun d => d.func p) (by simpa using hne)
  simpa [Defined] using this

/-- **C45**, difference, every point: the largest of the value of the first member and the values of the others with changed sign. -/
theorem C45_difference_value {d : Domain K P C} {l : List (Domain K P C)} {u : Domain K P C} (h : differenceDomain (d :: l) = some u) (p : P) :
    (u.func p = none ↔ ∃ e ∈ d :: l, e.func p = none) ∧
    (u.func p = some none ↔ (∀ e ∈ d :: l, e.func p ≠ none) ∧ ∃ e ∈ d :: l, e.func p = some none) ∧
    ∀ v, u.func p = some (some v) ↔
      (∀ e ∈ d :: l, Defined e p) ∧ IsGreatest {x | d.func p = some (some x) ∨ ∃ e ∈ l, e.func p = some (some (-x))} v := by
  obtain ⟨-, hf⟩ := combine_func h
  rw [hf]
  have key := reduceMax_outcomes (l := differenceEvals p (d :: l)) (by simp [differenceEvals])
  have e1 : none ∈ differenceEvals p (d :: l) ↔ ∃ e ∈ d :: l, e.func p = none := by
    simp [differenceEvals, eq_comm]
  have e2 : some none ∈ differenceEvals p (d :: l) ↔ ∃ e ∈ d :: l, e.func p = some none := by
    simp [differenceEvals, eq_comm]
  have e3 : (∀ e ∈ differenceEvals p (d :: l), ∃ x, e = some (some x)) ↔ ∀ e ∈ d :: l, Defined e p := by
    simp only [differenceEvals, List.mem_cons, List.mem_map, forall_eq_or_imp, forall_exists_index, and_imp, forall_apply_eq_imp_iff₂, Defined]
    refine and_congr_right fun _ => forall₂_congr fun e _ => ?_
    rcases e.func p with _ | _ | x
    · simp
    · simp
    · simp
  have e4 : {x | some (some x) ∈ differenceEvals p (d :: l)} = {x | d.func p = some (some x) ∨ ∃ e ∈ l, e.func p = some (some (-x))} := by
    ext x
    simp only [Set.mem_setOf_eq, differenceEvals, List.mem_cons, List.mem_map]
    refine or_congr eq_comm (exists_congr fun e => and_congr_right fun _ => ?_)
    rcases e.func p with _ | _ | y
    · simp
    · simp
    · simp [neg_eq_iff_eq_neg]
  refine ⟨key.1.trans e1, key.2.1.trans ?_, fun v => (key.2.2 v).trans ?_⟩
  · rw [e1, e2]; simp
  · rw [e3, e4]

/-- **C45**, union: a point is strictly inside iff it is strictly inside some member and all members have numbers there. -/
theorem C45_union {l : List (Domain K P C)} {u : Domain K P C} (h : unionDomain l = some u) (p : P) :
    Inside u p ↔ (∀ d ∈ l, Defined d p) ∧ ∃ d ∈ l, Inside d p := by
  constructor
  · rintro ⟨v, hv, h0⟩
    obtain ⟨hd, ⟨⟨d, hdl, hdv⟩, -⟩⟩ := ((C45_union_value h p).2.2 v).1 hv
    exact ⟨hd, d, hdl, v, hdv, h0⟩
  · rintro ⟨hd, hex⟩
    exact (C45_union_partial h p hd).2 hex

/-- **C45**, intersection, without any condition: strictly inside iff strictly inside all members. -/
theorem C45_intersection {l : List (Domain K P C)} {u : Domain K P C} (h : intersectionDomain l = some u) (p : P) :
    Inside u p ↔ ∀ d ∈ l, Inside d p := by
  constructor
  · rintro ⟨v, hv, h0⟩
    have hd := (((C45_intersection_value h p).2.2 v).1 hv).1
    exact (C45_intersection_partial h p hd).1 ⟨v, hv, h0⟩
  · intro hall
    exact (C45_intersection_partial h p fun d hd => (hall d hd).imp fun _ h => h.1).2 hall

/-- **C45**, difference, without any condition: strictly inside iff strictly inside the first and strictly outside all others. -/
theorem C45_difference {d : Domain K P C} {l : List (Domain K P C)} {u : Domain K P C} (h : differenceDomain (d :: l) = some u) (p : P) :
    Inside u p ↔ Inside d p ∧ ∀ e ∈ l, Outside e p := by
  constructor
  · rintro ⟨v, hv, h0⟩
    have hd := (((C45_difference_value h p).2.2 v).1 hv).1
    exact (C45_difference_partial h p (hd d (by simp)) fun e he => hd e (by simp [he])).1 ⟨v, hv, h0⟩
  · rintro ⟨h1, h2⟩
    exact (C45_difference_partial h p (h1.imp fun _ h => h.1) fun e he => (h2 e he).imp fun _ h => h.1).2 ⟨h1, h2⟩

/-! ## C46 -/

theorem multiscale_parts {l ns : List (Domain K P C)} {u : Domain K P C} (h : multiscaleSdf l = some (u, ns)) :
    nests l = some ns ∧ unionDomain ns = some u := by
  unfold multiscaleSdf at h
  split at h
  · split at h
    · simp at h
    · rename_i ns' hns
      obtain ⟨u', hu, he⟩ := Option.map_eq_some_iff.1 h
      simp only [Prod.mk.injEq] at he
      obtain ⟨rfl, rfl⟩ := he
      exact ⟨hns, hu⟩
  · simp at h

/-- **C46**, membership, without any condition: a point is inside nest `i` iff it is inside domain `i` and strictly outside the coverings of all
later domains. -/
theorem C46_nest_iff {l ns : List (Domain K P C)} {u : Domain K P C} (h : multiscaleSdf l = some (u, ns)) (p : P) (i : Nat) (hi : i < l.length)
    (hi' : i < ns.length) : Inside ns[i] p ↔ Inside l[i] p ∧ ∀ j (hj : j < l.length), i < j → Outside (coverDomain l[j]) p := by
  have hd := (nests_spec (multiscale_parts h).1).2 i hi hi'
  rw [C45_difference hd p]
  refine and_congr_right fun _ => ⟨fun h j hj hij => ?_, fun h e he => ?_⟩
  · refine h _ (List.mem_map.2 ⟨l[j], ?_, rfl⟩)
    rw [List.mem_drop_iff_getElem]
    exact ⟨j - (i + 1), by omega, by simp [show i + 1 + (j - (i + 1)) = j by omega]⟩
  · obtain ⟨d, hd, rfl⟩ := List.mem_map.1 he
    rw [List.mem_drop_iff_getElem] at hd
    obtain ⟨k, hk, rfl⟩ := hd
    exact h (i + 1 + k) (by omega) (by omega)

/-- **C46**, disjoint: two nests have no common point if every domain covers itself there. -/
theorem C46_disjoint {l ns : List (Domain K P C)} {u : Domain K P C} (h : multiscaleSdf l = some (u, ns)) (p : P)
    (hc : ∀ d ∈ l, CoversItself d p) (i j : Nat) (hij : i < j) (hj : j < ns.length) : ¬ (Inside (ns[i]'(by omega)) p ∧ Inside ns[j] p) := by
  have hlen : ns.length = l.length := (nests_spec (multiscale_parts h).1).1
  rintro ⟨h1, h2⟩
  rw [C46_nest_iff h p i (by omega) (by omega)] at h1
  rw [C46_nest_iff h p j (by omega) hj] at h2
  exact hc _ (List.getElem_mem _) h2.1 (h1.2 j (by omega) hij)

/-- **C46**, union: a point is inside the union iff it is inside one of the nests and all domains, and all coverings but the first, have numbers there. -/
theorem C46_union {l ns : List (Domain K P C)} {u : Domain K P C} (h : multiscaleSdf l = some (u, ns)) (p : P) :
    Inside u p ↔ (∀ d ∈ l, Defined d p) ∧ (∀ d ∈ l.tail, Defined (coverDomain d) p) ∧ ∃ n ∈ ns, Inside n p := by
  obtain ⟨hn, hu⟩ := multiscale_parts h
  obtain ⟨hlen, hd⟩ := nests_spec hn
  rw [C45_union hu p, ← and_assoc]
  refine and_congr_left fun _ => ?_
  have hdef : ∀ i (hi : i < l.length) (hi' : i < ns.length),
      Defined ns[i] p ↔ Defined l[i] p ∧ ∀ d ∈ l.drop (i + 1), Defined (coverDomain d) p := by
    intro i hi hi'
    have hv := C45_difference_value (hd i hi hi') p
    have : Defined ns[i] p ↔ ns[i].func p ≠ none ∧ ns[i].func p ≠ some none := by
      unfold Defined
      rcases ns[i].func p with _ | _ | x <;> simp
    rw [this, ne_eq, ne_eq, hv.1, hv.2.1]
    have hD : ∀ e : Domain K P C, Defined e p ↔ e.func p ≠ none ∧ e.func p ≠ some none := by
      intro e
      unfold Defined
      rcases e.func p with _ | _ | x <;> simp
    constructor
    · rintro ⟨h1, h2⟩
      have hall : ∀ e ∈ l[i] :: (l.drop (i + 1)).map coverDomain, Defined e p := by
        intro e he
        have hne : ∀ e ∈ l[i] :: (l.drop (i + 1)).map coverDomain, e.func p ≠ none := fun e he hx => h1 ⟨e, he, hx⟩
        exact (hD e).2 ⟨hne e he, fun hx => h2 ⟨hne, e, he, hx⟩⟩
      exact ⟨hall _ (by simp), fun d hd => hall _ (by simp only [List.mem_cons, List.mem_map]; exact Or.inr ⟨d, hd, rfl⟩)⟩
    · rintro ⟨h1, h2⟩
      have hall : ∀ e ∈ l[i] :: (l.drop (i + 1)).map coverDomain, Defined e p := by
        intro e he
        rcases List.mem_cons.1 he with rfl | he
        · exact h1
        · obtain ⟨d, hd, rfl⟩ := List.mem_map.1 he
          exact h2 d hd
      exact ⟨fun ⟨e, he, hx⟩ => ((hD e).1 (hall e he)).1 hx, fun ⟨_, e, he, hx⟩ => ((hD e).1 (hall e he)).2 hx⟩
  constructor
  · intro hall
    have hall' : ∀ i (hi : i < l.length), Defined l[i] p ∧ ∀ d ∈ l.drop (i + 1), Defined (coverDomain d) p := fun i hi =>
      (hdef i hi (by omega)).1 (hall _ (List.getElem_mem _))
    refine ⟨fun d hdl => ?_, fun d hdl => ?_⟩
    · obtain ⟨i, hi, rfl⟩ := List.getElem_of_mem hdl
      exact (hall' i hi).1
    · have hpos : 0 < l.length := by
        cases l with
        | nil => simp at hdl
        | cons => simp
      exact (hall' 0 hpos).2 d (by rw [List.drop_one]; exact hdl)
  · rintro ⟨h1, h2⟩ n hnn
    obtain ⟨i, hi, rfl⟩ := List.getElem_of_mem hnn
    refine (hdef i (by omega) hi).2 ⟨h1 _ (List.getElem_mem _), fun d hdd => h2 d ?_⟩
    rw [← List.drop_one]
    exact (List.drop_subset_drop_left l (by omega)) hdd

/-- **C46**: each nest lies in its own domain, and a point of the last domain is in its nest. -/
theorem C46_nest_inside {l ns : List (Domain K P C)} {u : Domain K P C} (h : multiscaleSdf l = some (u, ns)) (p : P) :
    (∀ i (hi : i < l.length) (hi' : i < ns.length), Inside ns[i] p → Inside l[i] p) ∧
      ∀ (hl : l.length - 1 < l.length) (hl' : l.length - 1 < ns.length), Inside ns[l.length - 1] p ↔ Inside l[l.length - 1] p := by
  refine ⟨fun i hi hi' hin => ((C46_nest_iff h p i hi hi').1 hin).1, fun hl hl' => ?_⟩
  rw [C46_nest_iff h p _ hl hl']
  exact ⟨fun h => h.1, fun h => ⟨h, fun j hj hij => absurd hij (by omega)⟩⟩

end

/-! ## Examples -/

/-- Three squares, one of them a domain of NaN. -/
example : ∃ u, unionDomain [squareA, squareB] = some u ∧ Inside u ((5 / 2, 1) : ℚ × ℚ) := by
  refine ⟨_, rfl, -1 / 2, by decide +kernel, by norm_num⟩
example : ∃ u, intersectionDomain [squareA, squareB] = some u ∧ Inside u ((3 / 2, 1) : ℚ × ℚ) := by
  refine ⟨_, rfl, -1 / 2, by decide +kernel, by norm_num⟩
example : ∃ u, differenceDomain [squareA, squareB] = some u ∧ Inside u ((1 / 2, 1) : ℚ × ℚ) := by
  refine ⟨_, rfl, -1 / 2, by decide +kernel, by norm_num⟩
/-- Two nests: the first one is the large box without the small one. -/
example : (multiscaleSdf [sdfEx ⟨0, 9, 0, 9⟩ false, sdfEx ⟨3, 6, 3, 6⟩ false]).map
    (fun r => (r.2.map fun n => n.func (some 1, some 1), r.1.func (some 1, some 1))) = some ([some (some (-1)), some (some 1)], some (some (-1))) := by
  decide +kernel

end OM
