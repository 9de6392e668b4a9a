import Verif.Model.Shoreline
import Verif.Props.Polys
import Verif.Props.Edges
import Verif.Spec.Box
/-!
# C88–C90: reading, clipping and classifying a shoreline
-/
set_option linter.unusedSectionVars false
namespace OM
open Spec
section
variable {K : Type} [Field K] [LinearOrder K] [IsStrictOrderedRing K]

/-! ## C88 reading -/

/-- The interiors of the box and of the bounds of a feature meet (both have an interior). -/
def Spec.Meets (b : Box K) (f : Feature K) : Prop :=
  b.xmin < f.bounds.xmax ∧ f.bounds.xmin < b.xmax ∧ b.ymin < f.bounds.ymax ∧ f.bounds.ymin < b.ymax

instance (b : Box K) (f : Feature K) : Decidable (Meets b f) := by unfold Meets; infer_instance

/-- The points of a feature as they are stored: those with different coordinates, and the last one again. -/
def Spec.storedPoints (l : List (K × K)) : List (K × K) := l.filter (fun q => decide (q.1 ≠ q.2)) ++ l.getLast?.toList

theorem isOverlapping_iff (b : Box K) (f : Feature K) : isOverlapping b f.bounds = true ↔ Meets b f := by
  simp [isOverlapping, Meets, and_assoc]

theorem removeDup2_eq (l : List (K × K)) (hl : l ≠ []) : removeDup2 l = some (storedPoints l) := by
  cases l with
  | nil => exact absurd rfl hl
  | cons x l => simp [removeDup2, storedPoints, List.getLast?_eq_some_getLast]

theorem readLoop_iff (b : Box K) (fs : List (Feature K)) (r : List (List (Option (K × K)))) : readLoop b fs = some r ↔
    (∀ f ∈ fs, Meets b f → f.kind ≠ .other ∧ f.coords ≠ []) ∧
      r = (fs.filter fun f => decide (Meets b f)).map fun f => (storedPoints f.coords).map some ++ [none] := by
  induction fs generalizing r with
  | nil => simp [readLoop, eq_comm]
  | cons g l ih =>
    unfold readLoop
    by_cases hm : Meets b g
    · rw [if_pos ((isOverlapping_iff b g).2 hm), List.filter_cons_of_pos (by simpa using hm)]
      by_cases hk : g.kind = .other
      · rw [if_pos hk]
        constructor
        · intro h; cases h
        · rintro ⟨h, -⟩
          exact absurd hk (h g (by simp) hm).1
      · rw [if_neg hk]
        by_cases hc : g.coords = []
        · rw [hc]
          constructor
          · intro h; simp [removeDup2] at h
          · rintro ⟨h, -⟩
            exact absurd hc (h g (by simp) hm).2
        · rw [removeDup2_eq _ hc]
          simp only [Option.bind_eq_bind, Option.bind_some, Option.bind_eq_some_iff, List.forall_mem_cons, List.map_cons]
          constructor
          · rintro ⟨r', hr, h⟩
            obtain ⟨h1, rfl⟩ := (ih r').1 hr
            exact ⟨⟨fun _ => ⟨hk, hc⟩, h1⟩, (Option.some.inj h).symm⟩
          · rintro ⟨⟨-, h1⟩, rfl⟩
            exact ⟨_, (ih _).2 ⟨h1, rfl⟩, rfl⟩
    · rw [if_neg (fun h => hm ((isOverlapping_iff b g).1 h)), List.filter_cons_of_neg (by simpa using hm), ih]
      simp only [List.forall_mem_cons]
      exact and_congr_left fun _ => ⟨fun h => ⟨fun h' => absurd h' hm, h⟩, fun h => h.2⟩

/-- **C88** (reading): the array returned holds exactly the features whose bounds meet the box, in the order of the file, each with the points
`storedPoints`; it raises exactly if there is none, or one of them is neither a line nor a polygon or has no points.
Missing for "unchanged": `C88_unchanged_partial`, `C88_diagonal_point_lost`. -/
theorem C88_read (b : Box K) (fs : List (Feature K)) (arr : List (Option (K × K))) : readShoreline b fs = some arr ↔
    (∃ f ∈ fs, Meets b f) ∧ (∀ f ∈ fs, Meets b f → f.kind ≠ .other ∧ f.coords ≠ []) ∧
      arr = joinNaN ((fs.filter fun f => decide (Meets b f)).map fun f => storedPoints f.coords) := by
  unfold readShoreline
  rw [Option.bind_eq_some_iff]
  have hne : ((fs.filter fun f => decide (Meets b f)).map fun f => (storedPoints f.coords).map some ++ [none]) = [] ↔ ¬ ∃ f ∈ fs, Meets b f := by
    simp [List.filter_eq_nil_iff]
  have hfl : ((fs.filter fun f => decide (Meets b f)).map fun f => (storedPoints f.coords).map some ++ [none]).flatten =
      joinNaN ((fs.filter fun f => decide (Meets b f)).map fun f => storedPoints f.coords) := by
    rw [← flatten_close, List.map_map]
    rfl
  constructor
  · rintro ⟨r, h1, h2⟩
    obtain ⟨h3, rfl⟩ := (readLoop_iff b fs r).1 h1
    unfold convertToArray at h2
    split at h2
    · cases h2
    · rename_i hn
      refine ⟨by rw [hne] at hn; exact not_not.1 hn, h3, ?_⟩
      rw [← hfl]
      exact (Option.some.inj h2).symm
  · rintro ⟨h1, h2, rfl⟩
    refine ⟨_, (readLoop_iff b fs _).2 ⟨h2, rfl⟩, ?_⟩
    unfold convertToArray
    rw [if_neg (by rw [hne]; exact not_not.2 h1), hfl]

/-- **C88** (points): a feature without points with equal coordinates keeps its points, the last one comes twice.
Missing: features with a point `(x, x)`. -/
theorem C88_unchanged_partial (l : List (K × K)) (h : ∀ q ∈ l, q.1 ≠ q.2) : storedPoints l = l ++ l.getLast?.toList := by
  unfold storedPoints
  rw [List.filter_eq_self.2]
  intro q hq
  simpa using h q hq

/-- **C88** (bounds and interiors): for boxes with an interior, `Meets` says that the interiors have a common point. -/
theorem C88_meets_iff (b : Box K) (f : Feature K) (h1 : b.xmin < b.xmax ∧ b.ymin < b.ymax)
    (h2 : f.bounds.xmin < f.bounds.xmax ∧ f.bounds.ymin < f.bounds.ymax) : Meets b f ↔ ∃ q, InsideBox b q ∧ InsideBox f.bounds q := by
  constructor
  · rintro ⟨m1, m2, m3, m4⟩
    obtain ⟨x, hx⟩ := exists_between (max_lt (lt_min h1.1 m1) (lt_min m2 h2.1))
    obtain ⟨y, hy⟩ := exists_between (max_lt (lt_min h1.2 m3) (lt_min m4 h2.2))
    simp only [max_lt_iff, lt_min_iff] at hx hy
    exact ⟨(x, y), ⟨hx.1.1, hx.2.1, hy.1.1, hy.2.1⟩, hx.1.2, hx.2.2, hy.1.2, hy.2.2⟩
  · rintro ⟨q, ⟨a1, a2, a3, a4⟩, b1, b2, b3, b4⟩
    exact ⟨a1.trans b2, b1.trans a2, a3.trans b4, b3.trans a4⟩

/-- **C88** (coordinate system): a region brings its own; a box that looks like longitudes and latitudes, or an explicit system, leaves the argument
unchanged; only a tuple that does not look geographic, with the default argument, takes the system of the file. -/
theorem C88_crs {C : Type} [DecidableEq C] (wgs crs : C) (native : Option C) :
    (∀ (e : Extent K) (c : C), shorelineCrs wgs crs native (.region e c) = c) ∧
      (∀ e : Extent K, crs ≠ wgs → shorelineCrs wgs crs native (.extent e) = crs) ∧
      (∀ vals : List K, inferGeographic vals = true → shorelineCrs wgs crs native (.extent (.tuple vals)) = crs) ∧
      ∀ vals : List K, inferGeographic vals = false → shorelineCrs wgs wgs native (.extent (.tuple vals)) = native.getD wgs := by
  refine ⟨fun _ _ => rfl, fun e h => ?_, fun vals h => ?_, fun vals h => ?_⟩
  · cases e with
    | tuple vals => simp [shorelineCrs, h]
    | polygon pts => rfl
  · simp [shorelineCrs, h]
  · simp only [shorelineCrs, h, decide_true, Bool.not_false, Bool.and_self, if_true]
    cases native with
    | none => rfl
    | some c =>
      by_cases hc : c = wgs
      · simp [hc]
      · simp [hc]

/-- The box is the smallest one that holds all points of the list. -/
def Spec.BoxOf (b : Box K) (l : List (K × K)) : Prop :=
  (∀ q ∈ l, InBox b q) ∧ (∃ q ∈ l, q.1 = b.xmin) ∧ (∃ q ∈ l, q.1 = b.xmax) ∧ (∃ q ∈ l, q.2 = b.ymin) ∧ ∃ q ∈ l, q.2 = b.ymax

theorem foldl_min_attained (l : List K) : ∀ a : K, (l.foldl min a = a ∨ l.foldl min a ∈ l) ∧ l.foldl min a ≤ a ∧ ∀ x ∈ l, l.foldl min a ≤ x := by
  induction l with
  | nil => simp
  | cons y l ih =>
    intro a
    obtain ⟨h0, h1, h2⟩ := ih (min a y)
    refine ⟨?_, h1.trans (min_le_left _ _), fun x hx => ?_⟩
    · rw [List.foldl_cons, List.mem_cons]
      rcases h0 with h0 | h0
      · rw [h0]
        rcases min_choice a y with h | h
        · exact Or.inl h
        · exact Or.inr (Or.inl h)
      · exact Or.inr (Or.inr h0)
    · rcases List.mem_cons.1 hx with rfl | hx
      · exact h1.trans (min_le_right _ _)
      · exact h2 x hx

theorem foldl_max_attained (l : List K) : ∀ a : K, (l.foldl max a = a ∨ l.foldl max a ∈ l) ∧ a ≤ l.foldl max a ∧ ∀ x ∈ l, x ≤ l.foldl max a := by
  induction l with
  | nil => simp
  | cons y l ih =>
    intro a
    obtain ⟨h0, h1, h2⟩ := ih (max a y)
    refine ⟨?_, (le_max_left _ _).trans h1, fun x hx => ?_⟩
    · rw [List.foldl_cons, List.mem_cons]
      rcases h0 with h0 | h0
      · rw [h0]
        rcases max_choice a y with h | h
        · exact Or.inl h
        · exact Or.inr (Or.inl h)
      · exact Or.inr (Or.inr h0)
    · rcases List.mem_cons.1 hx with rfl | hx
      · exact (le_max_right _ _).trans h1
      · exact h2 x hx

theorem boxOf_foldl (q : K × K) (l : List (K × K)) : BoxOf ⟨(l.map Prod.fst).foldl min q.1, (l.map Prod.fst).foldl max q.1,
    (l.map Prod.snd).foldl min q.2, (l.map Prod.snd).foldl max q.2⟩ (q :: l) := by
  obtain ⟨a1, a2, a3⟩ := foldl_min_attained (l.map Prod.fst) q.1
  obtain ⟨b1, b2, b3⟩ := foldl_max_attained (l.map Prod.fst) q.1
  obtain ⟨c1, c2, c3⟩ := foldl_min_attained (l.map Prod.snd) q.2
  obtain ⟨d1, d2, d3⟩ := foldl_max_attained (l.map Prod.snd) q.2
  have pick : ∀ (f : K × K → K) (x : K), x = f q ∨ x ∈ l.map f → ∃ p ∈ q :: l, f p = x := by
    rintro f x (rfl | h)
    · exact ⟨q, by simp, rfl⟩
    · obtain ⟨p, hp, rfl⟩ := List.mem_map.1 h
      exact ⟨p, List.mem_cons_of_mem _ hp, rfl⟩
  refine ⟨fun p hp => ?_, pick _ _ a1, pick _ _ b1, pick _ _ c1, pick _ _ d1⟩
  rcases List.mem_cons.1 hp with rfl | hp
  · exact ⟨a2, b2, c2, d2⟩
  · exact ⟨a3 _ (List.mem_map_of_mem hp), b3 _ (List.mem_map_of_mem hp), c3 _ (List.mem_map_of_mem hp), d3 _ (List.mem_map_of_mem hp)⟩

/-- **C88** (box of the region): for a polygon it is the smallest box around it, and its points are kept in one of the two orders, the one that
`_is_path_ccw` takes for counterclockwise; a tuple is its own box. -/
theorem C88_region_box (pts bb : List (K × K)) (b : Box K) (h : regionShape (.polygon pts) = some (bb, b)) :
    BoxOf b pts ∧ ((isPathCcw pts = some true ∧ bb = pts) ∨ (isPathCcw pts = some false ∧ bb = pts.reverse)) := by
  simp only [regionShape, Option.bind_eq_bind, Option.bind_eq_some_iff] at h
  obtain ⟨c, hc, h⟩ := h
  split at h
  · cases h
  · rename_i q l hq
    have := Option.some.inj h
    simp only [Prod.mk.injEq] at this
    obtain ⟨rfl, rfl⟩ := this
    have hB := boxOf_foldl q l
    cases c with
    | true =>
      simp only [if_true] at hq
      rw [hq]
      exact ⟨hB, Or.inl ⟨by rw [← hq]; exact hc, rfl⟩⟩
    | false =>
      simp only [Bool.false_eq_true, if_false] at hq
      refine ⟨?_, Or.inr ⟨hc, hq.symm⟩⟩
      have hm : ∀ p, p ∈ pts ↔ p ∈ q :: l := fun p => by rw [← hq, List.mem_reverse]
      unfold BoxOf at hB ⊢
      simpa only [hm] using hB

/-- **C88** (stereographic box): the box used for stereographic coordinates is the smallest box around the points read, times 0.99. -/
theorem C88_stereo_box (polys : List (Option (K × K))) (b : Box K) (h : stereoBox polys = some b) :
    ∃ b0, BoxOf b0 (polys.filterMap id) ∧ b = ⟨b0.xmin * (99 / 100), b0.xmax * (99 / 100), b0.ymin * (99 / 100), b0.ymax * (99 / 100)⟩ := by
  have hmin : ∀ (l : List K) (a : K), (l.map fun x => x * (99 / 100)).foldl min (a * (99 / 100)) = l.foldl min a * (99 / 100) := by
    intro l
    induction l with
    | nil => intro a; rfl
    | cons x l ih => intro a; rw [List.map_cons, List.foldl_cons, List.foldl_cons, ← min_mul_of_nonneg _ _ (by norm_num), ih]
  have hmax : ∀ (l : List K) (a : K), (l.map fun x => x * (99 / 100)).foldl max (a * (99 / 100)) = l.foldl max a * (99 / 100) := by
    intro l
    induction l with
    | nil => intro a; rfl
    | cons x l ih => intro a; rw [List.map_cons, List.foldl_cons, List.foldl_cons, ← max_mul_of_nonneg _ _ (by norm_num), ih]
  unfold stereoBox at h
  split at h
  · cases h
  · rename_i q l hq
    rw [hq]
    refine ⟨_, boxOf_foldl q l, ?_⟩
    rw [← Option.some.inj h]
    have e1 : (l.map fun q : K × K => q.1 * (99 / 100)) = (l.map Prod.fst).map fun x => x * (99 / 100) := by rw [List.map_map]; rfl
    have e2 : (l.map fun q : K × K => q.2 * (99 / 100)) = (l.map Prod.snd).map fun x => x * (99 / 100) := by rw [List.map_map]; rfl
    rw [e1, e2, hmin, hmax, hmin, hmax]

/-- **C88** (bounding polygon): its points are those given, in the order `_is_path_ccw` takes for counterclockwise; without points it is the border of the box. -/
theorem C88_boubox (b : Box K) (bb r : List (K × K)) (h : orientBoubox b bb = some r) :
    (bb = [] ∧ r = [(b.xmin, b.ymin), (b.xmax, b.ymin), (b.xmax, b.ymax), (b.xmin, b.ymax), (b.xmin, b.ymin)]) ∨
      (bb ≠ [] ∧ ((isPathCcw bb = some true ∧ r = bb) ∨ (isPathCcw bb = some false ∧ r = bb.reverse))) := by
  unfold orientBoubox at h
  by_cases h0 : bb.length = 0
  · rw [if_pos h0] at h
    exact Or.inl ⟨List.length_eq_zero_iff.1 h0, (Option.some.inj h).symm⟩
  · rw [if_neg h0] at h
    obtain ⟨c, hc, rfl⟩ := Option.map_eq_some_iff.1 h
    refine Or.inr ⟨fun h' => h0 (by rw [h']; rfl), ?_⟩
    cases c with
    | true => exact Or.inl ⟨hc, rfl⟩
    | false => exact Or.inr ⟨hc, rfl⟩

/-! ## Closed rings -/

theorem closedTwice_iff {α : Type} (f : List α) : ClosedTwice f ↔ ∃ p g, f.head? = some p ∧ g ≠ [] ∧ f = g ++ [p, p] := by
  constructor
  · rintro ⟨p, g, rfl⟩
    exact ⟨p, p :: g, rfl, by simp, rfl⟩
  · rintro ⟨p, g, h1, h2, rfl⟩
    cases g with
    | nil => exact absurd rfl h2
    | cons q g =>
      simp only [List.cons_append, List.head?_cons, Option.some.injEq] at h1
      subst h1
      exact ⟨q, g, rfl⟩

theorem chaikinFrom_lastTwo (p : K × K) : ∀ (g : List (K × K)) (prev : K × K), ∃ g', chaikinFrom prev (g ++ [p, p]) = g' ++ [p, p]
  | [], prev => ⟨[cut p prev, cut p p], by simp [chaikinFrom, cut_self]⟩
  | c :: g, prev => by
    obtain ⟨g', hg⟩ := chaikinFrom_lastTwo p g c
    cases hgp : g ++ [p, p] with
    | nil => simp at hgp
    | cons d l =>
      rw [hgp] at hg
      exact ⟨cut c prev :: cut c d :: g', by rw [List.cons_append, hgp, chaikinFrom, hg]; rfl⟩

theorem chaikin_lastTwo (p : K × K) : ∀ (n : Nat) (g r : List (K × K)), chaikin n (g ++ [p, p]) = some r → ∃ g', r = g' ++ [p, p]
  | 0, g, r, h => ⟨g, (Option.some.inj h).symm⟩
  | n + 1, g, r, h => by
    cases hgp : g ++ [p, p] with
    | nil => simp at hgp
    | cons c l =>
      rw [hgp, chaikin, ← hgp] at h
      obtain ⟨g', hg⟩ := chaikinFrom_lastTwo p g c
      rw [hg] at h
      exact chaikin_lastTwo p n g' r h

theorem chaikin_closedTwice {n : Nat} {f r : List (K × K)} (hf : ClosedTwice f) (h : chaikin n f = some r) : ClosedTwice r := by
  obtain ⟨p, g, rfl⟩ := hf
  obtain ⟨r', h1, h2, h3, -⟩ := chaikin_spec n p (g ++ [p, p])
  obtain rfl : r = r' := Option.some.inj (h.symm.trans h1)
  obtain ⟨g', rfl⟩ := chaikin_lastTwo p n (p :: g) r h
  refine (closedTwice_iff _).2 ⟨p, g', h3, ?_, rfl⟩
  rintro rfl
  have : 1 ≤ 2 ^ n := Nat.one_le_two_pow
  simp at h2
  nlinarith

/-- What densifying does to a feature. -/
def RefinedFeature (f f' : List (K × K)) : Prop :=
  f'.head? = f.head? ∧ f.Sublist f' ∧ (∀ p, f = [p] → f' = [p]) ∧ ∀ g p, f = g ++ [p, p] → ∃ g', f' = g' ++ [p, p]

theorem onSegment_self {p q : K × K} (h : OnSegment p p q) : q = p := by
  obtain ⟨s, -, -, h1, h2⟩ := h
  exact Prod.ext (by rw [h1]; ring) (by rw [h2]; ring)

theorem densified_feature {d : K} : ∀ (f : List (K × K)) (rest : List (Option (K × K))) (ins : List Bool) (out : List (Option (K × K))), f ≠ [] →
    Densified d (f.map some ++ none :: rest) ins out →
    ∃ f' out', out = f'.map some ++ none :: out' ∧ RefinedFeature f f' ∧ ((rest = [] ∧ out' = []) ∨ ∃ ins', Densified d rest ins' out')
  | [], _, _, _, h, _ => absurd rfl h
  | [a], rest, ins, out, _, h => by
    cases h with
    | keep _ _ _ m mb ms out1 _ hr =>
      have key : ∀ o, RefinedFeature [a] [a] ∧ some a :: none :: o = ([a].map some ++ none :: o : List (Option (K × K))) := fun o =>
        ⟨⟨rfl, List.Sublist.refl _, fun p hp => hp, fun g p hg => ⟨g, hg⟩⟩, rfl⟩
      cases hr with
      | last => exact ⟨[a], [], (key _).2, (key []).1, Or.inl ⟨rfl, rfl⟩⟩
      | keep _ _ _ _ _ _ out2 _ hr2 => exact ⟨[a], out2, (key _).2, (key out2).1, Or.inr ⟨_, hr2⟩⟩
  | a :: b :: f, rest, ins, out, _, h => by
    have step : ∀ (mid f1 : List (K × K)), (∀ q ∈ mid, OnSegment a b q) → RefinedFeature (b :: f) f1 → RefinedFeature (a :: b :: f) (a :: mid ++ f1) := by
      intro mid f1 hmid ⟨r1, r2, r3, r4⟩
      refine ⟨rfl, ?_, by simp, ?_⟩
      · exact (r2.trans (List.sublist_append_right mid f1)).cons_cons a
      · intro g p hg
        cases g with
        | nil =>
          simp only [List.nil_append, List.cons.injEq] at hg
          obtain ⟨rfl, rfl, rfl⟩ := hg
          rw [r3 b rfl]
          rcases List.eq_nil_or_concat mid with rfl | ⟨m, q, rfl⟩
          · exact ⟨[], rfl⟩
          · have : q = b := onSegment_self (hmid q (by simp))
            subst this
            exact ⟨q :: m, by simp⟩
        | cons c g =>
          simp only [List.cons_append, List.cons.injEq] at hg
          obtain ⟨g', rfl⟩ := r4 g p hg.2
          exact ⟨a :: mid ++ g', by simp⟩
    cases h with
    | keep _ _ _ m mb ms out1 _ hr =>
      obtain ⟨f1, o1, rfl, hR, hrest⟩ := densified_feature (b :: f) rest _ out1 (by simp) hr
      exact ⟨a :: [] ++ f1, o1, by simp, step [] f1 (by simp) hR, hrest⟩
    | split _ _ mid _ m ms out1 _ hon hr =>
      obtain ⟨f1, o1, rfl, hR, hrest⟩ := densified_feature (b :: f) rest _ out1 (by simp) hr
      exact ⟨a :: mid ++ f1, o1, by simp, step mid f1 hon hR, hrest⟩

theorem densified_joinNaN {d : K} : ∀ (fs : List (List (K × K))) (ins : List Bool) (out : List (Option (K × K))), fs ≠ [] → (∀ f ∈ fs, f ≠ []) →
    Densified d (joinNaN fs) ins out → ∃ fs', out = joinNaN fs' ∧ List.Forall₂ RefinedFeature fs fs'
  | [], _, _, h, _, _ => absurd rfl h
  | f :: fs, ins, out, _, hf, h => by
    obtain ⟨f', out', rfl, hR, hrest⟩ := densified_feature f (joinNaN fs) ins out (hf f (by simp)) h
    cases fs with
    | nil =>
      rcases hrest with ⟨-, rfl⟩ | ⟨ins', hd⟩
      · exact ⟨[f'], rfl, List.Forall₂.cons hR List.Forall₂.nil⟩
      · cases hd
    | cons g gs =>
      rcases hrest with ⟨h0, -⟩ | ⟨ins', hd⟩
      · simp [joinNaN] at h0
      · obtain ⟨fs', rfl, hall⟩ := densified_joinNaN (g :: gs) ins' out' (by simp) (fun x hx => hf x (List.mem_cons_of_mem _ hx)) hd
        exact ⟨f' :: fs', rfl, List.Forall₂.cons hR hall⟩

theorem refined_closedTwice {f f' : List (K × K)} (h : RefinedFeature f f') (hf : ClosedTwice f) : ClosedTwice f' := by
  obtain ⟨p, g, h1, h2, rfl⟩ := (closedTwice_iff f).1 hf
  obtain ⟨r1, r2, -, r4⟩ := h
  obtain ⟨g', rfl⟩ := r4 g p rfl
  refine (closedTwice_iff _).2 ⟨p, g', r1.trans h1, ?_, rfl⟩
  rintro rfl
  have := r2.length_le
  cases g with
  | nil => exact h2 rfl
  | cons a g => simp at this

/-- Every feature of the array ends with its first point written twice. -/
def Spec.Rings (arr : List (Option (K × K))) : Prop := ∃ fs : List (List (K × K)), arr = joinNaN fs ∧ ∀ f ∈ fs, ClosedTwice f

theorem closedTwice_ne {α : Type} {f : List α} (h : ClosedTwice f) : f ≠ [] := by
  obtain ⟨p, g, rfl⟩ := h
  simp

theorem joinNaN_append {α : Type} (l m : List (List α)) : joinNaN (l ++ m) = joinNaN l ++ joinNaN m := by
  rw [← flatten_close, ← flatten_close, ← flatten_close, List.map_append, List.flatten_append]

theorem rings_nil : Rings ([] : List (Option (K × K))) := ⟨[], rfl, by simp⟩

theorem rings_append {a b : List (Option (K × K))} (ha : Rings a) (hb : Rings b) : Rings (a ++ b) := by
  obtain ⟨f, rfl, h1⟩ := ha
  obtain ⟨g, rfl, h2⟩ := hb
  refine ⟨f ++ g, (joinNaN_append f g).symm, fun x hx => ?_⟩
  rcases List.mem_append.1 hx with hx | hx
  · exact h1 x hx
  · exact h2 x hx

theorem rings_flatten {l : List (List (Option (K × K)))} (h : ∀ x ∈ l, Rings x) : Rings l.flatten := by
  induction l with
  | nil => exact rings_nil
  | cons a l ih => exact rings_append (h a (by simp)) (ih fun x hx => h x (List.mem_cons_of_mem _ hx))

theorem rings_feature {f : List (K × K)} (h : ClosedTwice f) : Rings (f.map some ++ [none]) := ⟨[f], rfl, by simpa using h⟩

theorem collect_forall {α β : Type} {f : α → Option β} : ∀ {l : List α} {r : List β}, collect f l = some r → List.Forall₂ (fun x y => f x = some y) l r
  | [], r, h => by cases h; exact List.Forall₂.nil
  | x :: l, r, h => by
    unfold collect at h
    split at h
    · rename_i y r' h1 h2
      cases h
      exact List.Forall₂.cons h1 (collect_forall h2)
    · cases h

theorem forall2_right {α β : Type} {R : α → β → Prop} {l : List α} {r : List β} (h : List.Forall₂ R l r) : ∀ y ∈ r, ∃ x ∈ l, R x y := by
  induction h with
  | nil => simp
  | cons h1 _ ih =>
    intro y hy
    rcases List.mem_cons.1 hy with rfl | hy
    · exact ⟨_, List.mem_cons_self .., h1⟩
    · obtain ⟨x, hx, hR⟩ := ih y hy
      exact ⟨x, List.mem_cons_of_mem _ hx, hR⟩

theorem forall2_left {α β : Type} {R : α → β → Prop} {l : List α} {r : List β} (h : List.Forall₂ R l r) : ∀ x ∈ l, ∃ y ∈ r, R x y := by
  induction h with
  | nil => simp
  | cons h1 _ ih =>
    intro y hy
    rcases List.mem_cons.1 hy with rfl | hy
    · exact ⟨_, List.mem_cons_self .., h1⟩
    · obtain ⟨x, hx, hR⟩ := ih y hy
      exact ⟨x, List.mem_cons_of_mem _ hx, hR⟩

variable {G : Type}

/-- Outer rings that have points are closed: they start and end with the same point, which is written twice. -/
def Spec.RingsClosed (L : ShapeLib K G) : Prop := ∀ g xy, L.exterior g = some xy → xy = [] ∨ ∃ x m, xy = x :: m ++ [x]

theorem ringRows_rings {L : ShapeLib K G} (hL : RingsClosed L) {g : G} {r : List (Option (K × K))} (h : ringRows L g = some r) : Rings r := by
  unfold ringRows at h
  split at h
  · rename_i x l hx
    cases h
    rcases hL g _ hx with h0 | ⟨y, m, hy⟩
    · cases h0
    · simp only [List.cons_append, List.cons.injEq] at hy
      obtain ⟨rfl, rfl⟩ := hy
      exact ⟨[x :: m ++ [x, x]], by simp [joinNaN], by simpa using ⟨x, m, rfl⟩⟩
  · cases h

theorem clumps_rings {fs : List (List (K × K))} (h : ∀ f ∈ fs, ClosedTwice f) : clumps [] (none :: joinNaN fs) = fs :=
  clumps_joinNaN fs fun f hf => closedTwice_ne (h f hf)

theorem clipFeature_rings {L : ShapeLib K G} (hL : RingsClosed L) {b : G} {f : List (K × K)} (hf : ClosedTwice f) {r : List (Option (K × K))}
    (h : clipFeature L b f = some r) : Rings r := by
  unfold clipFeature at h
  split at h
  · cases h
  · split at h
    · cases h
    · obtain ⟨rs, h1, rfl⟩ := Option.map_eq_some_iff.1 h
      refine rings_flatten fun x hx => ?_
      obtain ⟨p, -, hp⟩ := forall2_right (collect_forall h1) x hx
      unfold clipPart at hp
      split at hp
      · cases hp
        exact rings_feature hf
      · split at hp
        · cases hp
          exact rings_nil
        · split at hp
          · cases hp
          · cases hp
          · obtain ⟨rr, h2, rfl⟩ := Option.map_eq_some_iff.1 hp
            refine rings_flatten fun x hx => ?_
            obtain ⟨g, -, hg⟩ := forall2_right (collect_forall h2) x hx
            exact ringRows_rings hL hg

/-- **C89** (closed): clipping closed rings gives closed rings. -/
theorem C89_rings {L : ShapeLib K G} (hL : RingsClosed L) {delta : K} {polys : List (Option (K × K))} {b : Box K} {r : List (Option (K × K))}
    (hp : Rings polys) (h : clipPolys L delta polys b = some r) : Rings r := by
  obtain ⟨fs, rfl, hfs⟩ := hp
  simp only [clipPolys, Option.bind_eq_bind, Option.bind_eq_some_iff, clumps_rings hfs] at h
  obtain ⟨B, -, rs, h1, h2⟩ := h
  cases h2
  refine rings_flatten fun x hx => ?_
  obtain ⟨f, hf, hc⟩ := forall2_right (collect_forall h1) x hx
  exact clipFeature_rings hL (hfs f hf) hc

theorem classify_members {P : Type} (E : ShapeEngine P G K) (areaMin : K) (stereo : Bool) (dom : G) (ps : List P) :
    (∀ p ∈ (classifyShoreline E areaMin stereo dom ps).inner, p ∈ ps) ∧ ∀ p ∈ (classifyShoreline E areaMin stereo dom ps).mainland, p ∈ ps :=
  ⟨fun _ h => (C58_order_and_disjoint E areaMin stereo dom ps).1.subset h, fun _ h => (C58_order_and_disjoint E areaMin stereo dom ps).2.1.subset h⟩

theorem classifyAll_parts [FloorRing K] {L : ShapeLib K G} {mask : Box K → Option (K × K) → Bool} {b : Box K} {bb : List (K × K)}
    {polys : List (Option (K × K))} {h0 mult : K} {stereo : Bool} {s : Shore K} (h : classifyAll L mask b bb polys h0 mult stereo = some s) :
    ∃ B fs gs rings, collect (fun f => (featurePolygon L f).map fun g => (f, g)) (clumps [] (none :: polys)) = some fs ∧
      collect (ringRows L) gs = some rings ∧
      s = ⟨((classifyShoreline (shoreEngine L stereo) (mult * h0 ^ 2) stereo B fs).inner.map fun x => x.1.map some ++ [none]).flatten,
        ((classifyShoreline (shoreEngine L stereo) (mult * h0 ^ 2) stereo B fs).mainland.map fun x => x.1.map some ++ [none]).flatten, rings.flatten⟩ := by
  simp only [classifyAll, Option.bind_eq_bind, Option.bind_eq_some_iff] at h
  obtain ⟨bb', -, bd, -, B, -, fs, h1, gs, -, rings, h2, h3⟩ := h
  exact ⟨B, fs, gs, rings, h1, h2, (Option.some.inj h3).symm⟩

theorem classifyAll_rings [FloorRing K] {L : ShapeLib K G} (hL : RingsClosed L) {mask : Box K → Option (K × K) → Bool} {b : Box K} {bb : List (K × K)}
    {polys : List (Option (K × K))} {h0 mult : K} {stereo : Bool} {s : Shore K} (hp : Rings polys) (h : classifyAll L mask b bb polys h0 mult stereo = some s) :
    Rings s.inner ∧ Rings s.mainland ∧ Rings s.boubox := by
  obtain ⟨ps, rfl, hps⟩ := hp
  obtain ⟨B, fs, gs, rings, h1, h2, rfl⟩ := classifyAll_parts h
  rw [clumps_rings hps] at h1
  have hfs : ∀ x ∈ fs, ClosedTwice x.1 := by
    intro x hx
    obtain ⟨f, hf, he⟩ := forall2_right (collect_forall h1) x hx
    obtain ⟨g, -, rfl⟩ := Option.map_eq_some_iff.1 he
    exact hps f hf
  obtain ⟨m1, m2⟩ := classify_members (shoreEngine L stereo) (mult * h0 ^ 2) stereo B fs
  refine ⟨rings_flatten fun x hx => ?_, rings_flatten fun x hx => ?_, rings_flatten fun x hx => ?_⟩
  · obtain ⟨y, hy, rfl⟩ := List.mem_map.1 hx
    exact rings_feature (hfs y (m1 y hy))
  · obtain ⟨y, hy, rfl⟩ := List.mem_map.1 hx
    exact rings_feature (hfs y (m2 y hy))
  · obtain ⟨g, -, hg⟩ := forall2_right (collect_forall h2) x hx
    exact ringRows_rings hL hg

theorem stored_closedTwice {l : List (K × K)} (h : ∃ p g, l = p :: g ++ [p] ∧ p.1 ≠ p.2) : ClosedTwice (storedPoints l) := by
  obtain ⟨p, g, rfl, hp⟩ := h
  refine ⟨p, g.filter fun q => decide (q.1 ≠ q.2), ?_⟩
  have : (p :: g ++ [p]).getLast? = some p := by rw [List.getLast?_append]; rfl
  rw [storedPoints, this]
  simp [hp]

theorem read_rings {b : Box K} {fs : List (Feature K)} {arr : List (Option (K × K))} (h : readShoreline b fs = some arr)
    (hf : ∀ f ∈ fs, Meets b f → ∃ p g, f.coords = p :: g ++ [p] ∧ p.1 ≠ p.2) : Rings arr := by
  obtain ⟨-, -, rfl⟩ := (C88_read b fs arr).1 h
  refine ⟨_, rfl, fun f hf' => ?_⟩
  obtain ⟨g, hg, rfl⟩ := List.mem_map.1 hf'
  rw [List.mem_filter] at hg
  exact stored_closedTwice (hf g hg.1 (by simpa using hg.2))

theorem smooth_rings {n : Nat} {arr r : List (Option (K × K))} (ha : Rings arr) (h : smoothShoreline n arr = some r) : Rings r := by
  obtain ⟨fs, rfl, hfs⟩ := ha
  simp only [smoothShoreline, clumps_rings hfs, Option.bind_eq_some_iff] at h
  obtain ⟨rs, h1, h2⟩ := h
  unfold convertToArray at h2
  split at h2
  · cases h2
  · cases h2
    refine rings_flatten fun x hx => ?_
    obtain ⟨f, hf, he⟩ := forall2_right (collect_forall h1) x hx
    obtain ⟨g, hg, rfl⟩ := Option.map_eq_some_iff.1 he
    exact rings_feature (chaikin_closedTwice (hfs f hf) hg)

theorem densify_rings [FloorRing K] {d : K} (hd : 0 < d) {arr r : List (Option (K × K))} {ins : List Bool} (hl : ins.length = arr.length) (ha : Rings arr)
    (h : densify d arr ins = some r) : Rings r := by
  obtain ⟨fs, rfl, hfs⟩ := ha
  cases fs with
  | nil =>
    have : ins = [] := List.length_eq_zero_iff.1 (by simpa [joinNaN] using hl)
    subst this
    have := Option.some.inj ((C55_empty d).symm.trans h)
    subst this
    exact rings_nil
  | cons f fs =>
    have hne : joinNaN (f :: fs) ≠ [] := by simp [joinNaN]
    obtain ⟨out, h1, h2, -⟩ := C55_densify hd hl hne
    obtain rfl : r = out := Option.some.inj (h.symm.trans h1)
    obtain ⟨fs', rfl, hall⟩ := densified_joinNaN (f :: fs) ins r (by simp) (fun x hx => closedTwice_ne (hfs x hx)) h2
    refine ⟨fs', rfl, fun x hx => ?_⟩
    obtain ⟨y, hy, hR⟩ := forall2_right hall x hx
    exact refined_closedTwice hR (hfs y hy)

theorem shoreline_steps [FloorRing K] {L : ShapeLib K G} {mask : Box K → Option (K × K) → Bool} {a : ShoreArgs K} {e : Extent K} {fs : List (Feature K)}
    {b' : Box K} {s : Shore K} (h : shoreline L mask a e fs = some (b', s)) :
    0 < a.h0 ∧ 0 ≤ a.refinements ∧ 0 < a.mult ∧ ∃ bb b, regionShape e = some (bb, b) ∧ b.xmin ≤ b.xmax ∧ b.ymin ≤ b.ymax ∧
      shorelineSteps L mask a a.refinements.toNat bb b fs = some (b', s) := by
  simp only [shoreline, Option.bind_eq_bind, Option.bind_eq_some_iff] at h
  obtain ⟨⟨bb, b⟩, h1, t, h2, h3⟩ := h
  by_cases c1 : a.h0 ≤ 0
  · simp [c1] at h3
  by_cases c2 : a.refinements < 0
  · simp [c2] at h3
  by_cases c3 : a.mult ≤ 0
  · simp [c3] at h3
  simp only [if_neg c1, if_neg c2, if_neg c3] at h3
  refine ⟨not_le.1 c1, not_lt.1 c2, not_le.1 c3, bb, b, h1, ?_, ?_, h3⟩
  · by_contra hx
    simp [checkExtent, not_le.1 hx] at h2
  · by_contra hy
    simp only [checkExtent] at h2
    split at h2
    · cases h2
    · simp [not_le.1 hy] at h2

theorem shorelineSteps_parts [FloorRing K] {L : ShapeLib K G} {mask : Box K → Option (K × K) → Bool} {a : ShoreArgs K} {n : Nat} {bb : List (K × K)} {b b' : Box K}
    {fs : List (Feature K)} {s : Shore K} (h : shorelineSteps L mask a n bb b fs = some (b', s)) :
    ∃ p1 bb' p2 p3 p4, readShoreline b fs = some p1 ∧
      (if a.stereo then (stereoBox p1).map fun b => (createBoubox b, b) else some (bb, b)) = some (bb', b') ∧
      (if a.smooth then smoothShoreline n p1 else some p1) = some p2 ∧ densify a.h0 p2 (p2.map (mask b')) = some p3 ∧
      clipPolys L (1 / 10) p3 b' = some p4 ∧ classifyAll L mask b' bb' p4 (a.h0 / 2) a.mult a.stereo = some s := by
  simp only [shorelineSteps, Option.bind_eq_bind, Option.bind_eq_some_iff] at h
  obtain ⟨p1, h1, ⟨bb', b''⟩, h2, p2, h3, p3, h4, p4, h5, s', h6, h7⟩ := h
  have := Option.some.inj h7
  simp only [Prod.mk.injEq] at this
  obtain ⟨rfl, rfl⟩ := this
  exact ⟨p1, bb', p2, p3, p4, h1, h2, h3, h4, h5, h6⟩

/-- **C90** (closed rings): if every geometry that meets the region is a closed ring whose first point has different coordinates, then every
polygon stored in a `Shoreline` — islands, mainland and bounding polygon — ends with its first point written twice; this is what `get_poly_edges`
needs (`C04_poly_edges_complete_partial`). For every library whose outer rings are closed, with or without smoothing, stereographic or not.
Missing: rings starting at a point `(x, x)` (`C90_diagonal_start_opened`) and lines that are not closed. -/
theorem C90_rings_closed_partial [FloorRing K] {L : ShapeLib K G} (hL : RingsClosed L) {mask : Box K → Option (K × K) → Bool} {a : ShoreArgs K} {e : Extent K}
    {fs : List (Feature K)} (hf : ∀ f ∈ fs, ∃ p g, f.coords = p :: g ++ [p] ∧ p.1 ≠ p.2) {b' : Box K} {s : Shore K}
    (h : shoreline L mask a e fs = some (b', s)) : Rings s.inner ∧ Rings s.mainland ∧ Rings s.boubox := by
  obtain ⟨hh, -, -, bb, b, -, -, -, h⟩ := shoreline_steps h
  obtain ⟨p1, bb', p2, p3, p4, h1, -, h3, h4, h5, h6⟩ := shorelineSteps_parts h
  have r1 := read_rings h1 fun f hf' _ => hf f hf'
  have r2 : Rings p2 := by
    by_cases hs : a.smooth = true
    · rw [if_pos hs] at h3
      exact smooth_rings r1 h3
    · rw [if_neg hs] at h3
      rwa [← Option.some.inj h3]
  exact classifyAll_rings hL (C89_rings hL (densify_rings hh (by simp) r2 h4) h5) h6

/-- **C90** (edges): under the same conditions `get_poly_edges` on the array made of islands and bounding polygon (`signed_distance_function`) gives
exactly the segments of all rings. -/
theorem C90_edges_partial [FloorRing K] {L : ShapeLib K G} (hL : RingsClosed L) {mask : Box K → Option (K × K) → Bool} {a : ShoreArgs K} {e : Extent K}
    {fs : List (Feature K)} (hf : ∀ f ∈ fs, ∃ p g, f.coords = p :: g ++ [p] ∧ p.1 ≠ p.2) {b' : Box K} {s : Shore K}
    (h : shoreline L mask a e fs = some (b', s)) (hne : s.inner ++ s.boubox ≠ []) :
    ∃ rings : List (List (K × K)), s.inner ++ s.boubox = joinNaN rings ∧ ∃ es, getPolyEdges ((s.inner ++ s.boubox).map Option.isNone) = some es ∧
      es.map (fun x => (pointAt (s.inner ++ s.boubox) x.1, pointAt (s.inner ++ s.boubox) x.2)) =
        (rings.flatMap segments).map fun x => (some x.1, some x.2) := by
  obtain ⟨h1, -, h3⟩ := C90_rings_closed_partial hL hf h
  obtain ⟨rs, h4, h5⟩ := rings_append h1 h3
  have hr : rs ≠ [] := by
    rintro rfl
    exact hne h4
  refine ⟨rs, h4, ?_⟩
  rw [h4]
  exact C04_poly_edges_complete_partial rs hr h5

/-! ## C89 clipping -/

/-- A closed list of points with its first point added once more. -/
def Spec.withFirst {α : Type} (l : List α) : List α := l ++ l.head?.toList

/-- What becomes of feature `f` with the valid polygon `g`: it stays as it is if the box contains it, disappears if it does not meet the box,
otherwise it is replaced by the outer rings of the parts of the intersection. -/
def Spec.Clipped (L : ShapeLib K G) (B : G) (f : List (K × K)) (out : List (List (K × K))) : Prop :=
  ∃ g, L.polygon f.dropLast = some g ∧
    ((L.contains B g = true ∧ out = [f]) ∨ (L.contains B g = false ∧ L.isEmpty (L.inter g B) = true ∧ out = []) ∨
      (L.contains B g = false ∧ L.isEmpty (L.inter g B) = false ∧ ∃ gs, gs ≠ [] ∧ L.parts (L.inter g B) = some gs ∧
        List.Forall₂ (fun p r => ∃ xy, xy ≠ [] ∧ L.exterior p = some xy ∧ r = withFirst xy) gs out))

theorem ringRows_some {L : ShapeLib K G} {p : G} {r : List (Option (K × K))} (h : ringRows L p = some r) :
    ∃ xy, xy ≠ [] ∧ L.exterior p = some xy ∧ r = (withFirst xy).map some ++ [none] := by
  unfold ringRows at h
  split at h
  · rename_i x l hx
    exact ⟨x :: l, by simp, hx, by rw [← Option.some.inj h]; simp [withFirst]⟩
  · cases h

theorem ringRows_list {L : ShapeLib K G} : ∀ {gs : List G} {rr : List (List (Option (K × K)))}, List.Forall₂ (fun p r => ringRows L p = some r) gs rr →
    ∃ out, rr.flatten = joinNaN out ∧ List.Forall₂ (fun p r => ∃ xy, xy ≠ [] ∧ L.exterior p = some xy ∧ r = withFirst xy) gs out
  | [], [], _ => ⟨[], rfl, List.Forall₂.nil⟩
  | p :: gs, r :: rr, h => by
    rw [List.forall₂_cons] at h
    obtain ⟨xy, h1, h2, rfl⟩ := ringRows_some h.1
    obtain ⟨out, h3, h4⟩ := ringRows_list h.2
    exact ⟨withFirst xy :: out, by rw [List.flatten_cons, h3]; simp [joinNaN], List.Forall₂.cons ⟨xy, h1, h2, rfl⟩ h4⟩

theorem clipFeature_clipped {L : ShapeLib K G} {B : G} {f : List (K × K)} {r : List (Option (K × K))}
    (hv : ∀ g, L.polygon f.dropLast = some g → L.valid g = true) (h : clipFeature L B f = some r) : ∃ out, Clipped L B f out ∧ r = joinNaN out := by
  unfold clipFeature at h
  split at h
  · cases h
  · rename_i g hg
    rw [featurePolygon] at hg
    rw [hv g hg] at h
    simp only [if_true, collect] at h
    cases hc : clipPart L B f g with
    | none => rw [hc] at h; cases h
    | some q =>
      rw [hc] at h
      obtain rfl : q = r := by simpa using h
      unfold clipPart at hc
      by_cases c1 : L.contains B g = true
      · rw [if_pos c1] at hc
        exact ⟨[f], ⟨g, hg, Or.inl ⟨c1, rfl⟩⟩, (Option.some.inj hc).symm⟩
      · rw [if_neg c1] at hc
        have c1' : L.contains B g = false := by simpa using c1
        by_cases c2 : L.isEmpty (L.inter g B) = true
        · rw [if_pos c2] at hc
          exact ⟨[], ⟨g, hg, Or.inr (Or.inl ⟨c1', c2, rfl⟩)⟩, (Option.some.inj hc).symm⟩
        · rw [if_neg c2] at hc
          have c2' : L.isEmpty (L.inter g B) = false := by simpa using c2
          split at hc
          · cases hc
          · cases hc
          · rename_i p ps hp
            obtain ⟨rr, h1, rfl⟩ := Option.map_eq_some_iff.1 hc
            obtain ⟨out, h2, h3⟩ := ringRows_list (collect_forall h1)
            exact ⟨out, ⟨g, hg, Or.inr (Or.inr ⟨c1', c2', p :: ps, by simp, hp, h3⟩)⟩, h2⟩

/-- **C89** (result): if the polygons of all features are valid, clipping replaces every feature as `Clipped` says, with the box made larger by
`delta` on every side, and keeps the order. Missing: invalid polygons (`C89_repaired_repeated`). -/
theorem C89_clip_partial {L : ShapeLib K G} {delta : K} {fs : List (List (K × K))} {b : Box K} {r : List (Option (K × K))} (hf : ∀ f ∈ fs, f ≠ [])
    (hv : ∀ f ∈ fs, ∀ g, L.polygon f.dropLast = some g → L.valid g = true) (h : clipPolys L delta (joinNaN fs) b = some r) :
    ∃ B outs, L.polygon (createBoubox ⟨b.xmin - delta, b.xmax + delta, b.ymin - delta, b.ymax + delta⟩) = some B ∧
      List.Forall₂ (Clipped L B) fs outs ∧ r = joinNaN outs.flatten := by
  simp only [clipPolys, Option.bind_eq_bind, Option.bind_eq_some_iff] at h
  obtain ⟨B, hB, rs, h1, h2⟩ := h
  rw [show clumps [] (none :: joinNaN fs) = fs from clumps_joinNaN fs hf] at h1
  have key : ∀ (fs : List (List (K × K))) (rs : List (List (Option (K × K)))), (∀ f ∈ fs, ∀ g, L.polygon f.dropLast = some g → L.valid g = true) →
      List.Forall₂ (fun f r => clipFeature L B f = some r) fs rs → ∃ outs, List.Forall₂ (Clipped L B) fs outs ∧ rs.flatten = joinNaN outs.flatten := by
    intro fs rs hv h
    induction h with
    | nil => exact ⟨[], List.Forall₂.nil, rfl⟩
    | cons ha _ ih =>
      obtain ⟨out, h3, rfl⟩ := clipFeature_clipped (hv _ (by simp)) ha
      obtain ⟨outs, h4, h5⟩ := ih fun f hf => hv f (List.mem_cons_of_mem _ hf)
      exact ⟨out :: outs, List.Forall₂.cons h3 h4, by rw [List.flatten_cons, List.flatten_cons, joinNaN_append, h5]⟩
  obtain ⟨outs, h3, h4⟩ := key fs rs hv (collect_forall h1)
  exact ⟨B, outs, hB, h3, by rw [← h4]; exact (Option.some.inj h2).symm⟩

/-- Laws of the library for boxes: a polygon contained in a box has its points in it, and so have the outer rings of the parts of an intersection with it. -/
structure Spec.BoxLaws (L : ShapeLib K G) : Prop where
  contains : ∀ b B pts g, ProperBox b → L.polygon (createBoubox b) = some B → L.polygon pts = some g → L.contains B g = true → ∀ q ∈ pts, InBox b q
  inter : ∀ b B g gs p xy, ProperBox b → L.polygon (createBoubox b) = some B → L.isEmpty (L.inter g B) = false → L.parts (L.inter g B) = some gs → p ∈ gs → L.exterior p = some xy → ∀ q ∈ xy, InBox b q

theorem closedTwice_mem {α : Type} {f : List α} (h : ClosedTwice f) {q : α} (hq : q ∈ f) : q ∈ f.dropLast := by
  obtain ⟨p, g, rfl⟩ := h
  rw [show (p :: g ++ [p, p]).dropLast = p :: g ++ [p] by rw [show p :: g ++ [p, p] = (p :: g ++ [p]) ++ [p] by simp, List.dropLast_concat]]
  simpa using hq

/-- **C89** (inside): after clipping closed rings with valid polygons every point lies in the box made larger by `delta`. -/
theorem C89_inside_partial {L : ShapeLib K G} (hL : BoxLaws L) {delta : K} {fs : List (List (K × K))} {b : Box K} {r : List (Option (K × K))}
    (hb : ProperBox b) (hd : 0 ≤ delta) (hf : ∀ f ∈ fs, ClosedTwice f) (hv : ∀ f ∈ fs, ∀ g, L.polygon f.dropLast = some g → L.valid g = true)
    (h : clipPolys L delta (joinNaN fs) b = some r) :
    ∀ q, some q ∈ r → b.xmin - delta ≤ q.1 ∧ q.1 ≤ b.xmax + delta ∧ b.ymin - delta ≤ q.2 ∧ q.2 ≤ b.ymax + delta := by
  obtain ⟨B, outs, hB, h1, rfl⟩ := C89_clip_partial (fun f hf' => closedTwice_ne (hf f hf')) hv h
  have hp : ProperBox (⟨b.xmin - delta, b.xmax + delta, b.ymin - delta, b.ymax + delta⟩ : Box K) :=
    ⟨by have := hb.1; show b.xmin - delta ≤ b.xmax + delta; linarith, by have := hb.2; show b.ymin - delta ≤ b.ymax + delta; linarith⟩
  intro q hq
  rw [← flatten_close, List.mem_flatten] at hq
  obtain ⟨l, hl, hq⟩ := hq
  obtain ⟨f', hf', rfl⟩ := List.mem_map.1 hl
  obtain ⟨out, ho, hfo⟩ := List.mem_flatten.1 hf'
  have hq' : q ∈ f' := by simpa using hq
  obtain ⟨f, hff, g, hg, hc⟩ := forall2_right h1 out ho
  rcases hc with ⟨c1, rfl⟩ | ⟨-, -, rfl⟩ | ⟨-, c2, gs, -, c3, c4⟩
  · rw [List.mem_singleton] at hfo
    subst hfo
    exact hL.contains _ B _ g hp hB hg c1 q (closedTwice_mem (hf _ hff) hq')
  · cases hfo
  · obtain ⟨p, hp', xy, hne, he, rfl⟩ := forall2_right c4 f' hfo
    refine hL.inter _ B g gs p xy hp hB c2 c3 hp' he q ?_
    cases xy with
    | nil => exact absurd rfl hne
    | cons x l =>
      simp only [withFirst, List.head?_cons, Option.toList_some, List.mem_append, List.mem_singleton] at hq'
      rcases hq' with hq' | rfl
      · exact hq'
      · simp

/-- **C89**, finding: a feature whose polygon is not valid and is repaired into several polygons, all in the box, comes out once for each of them, unrepaired. -/
theorem C89_repaired_repeated {L : ShapeLib K G} {B g : G} {f : List (K × K)} (hg : L.polygon f.dropLast = some g) (hv : L.valid g = false)
    (hne : L.repaired g ≠ []) (hc : ∀ p ∈ L.repaired g, L.contains B p = true) :
    clipFeature L B f = some (joinNaN (List.replicate (L.repaired g).length f)) := by
  have key : ∀ ps : List G, (∀ p ∈ ps, L.contains B p = true) → collect (clipPart L B f) ps = some (List.replicate ps.length (f.map some ++ [none])) := by
    intro ps hps
    induction ps with
    | nil => rfl
    | cons p ps ih =>
      rw [collect, ih fun q hq => hps q (List.mem_cons_of_mem _ hq), clipPart, if_pos (hps p (by simp))]
      rfl
  unfold clipFeature featurePolygon
  rw [hg]
  simp only [hv, Bool.false_eq_true, if_false]
  split
  · rename_i h0
    exact absurd h0 hne
  · rename_i p ps hp
    rw [hp] at hc
    rw [key _ hc, Option.map_some, ← flatten_close, List.map_replicate, hp]

/-! ## C90 classification -/

theorem paired_fst {L : ShapeLib K G} {l : List (List (K × K))} {ps : List (List (K × K) × G)}
    (h : List.Forall₂ (fun f y => ((featurePolygon L f).map fun g => (f, g)) = some y) l ps) : ps.map Prod.fst = l := by
  induction h with
  | nil => rfl
  | cons h1 _ ih =>
    obtain ⟨g, -, rfl⟩ := Option.map_eq_some_iff.1 h1
    rw [List.map_cons, ih]

/-- **C90** (islands and mainland): the islands are features left by the clipping whose polygon has at least the area `mult * h0² / 4` (in
longitudes and latitudes for stereographic coordinates); islands and mainland come in the order of the file. -/
theorem C90_area [FloorRing K] {L : ShapeLib K G} {mask : Box K → Option (K × K) → Bool} {a : ShoreArgs K} {e : Extent K}
    {fs : List (Feature K)} {b' : Box K} {s : Shore K} (h : shoreline L mask a e fs = some (b', s)) :
    ∃ (dense polys : List (Option (K × K))) (inner mainland : List (List (K × K))), clipPolys L (1 / 10) dense b' = some polys ∧ s.inner = joinNaN inner ∧ s.mainland = joinNaN mainland ∧
      inner.Sublist (clumps [] (none :: polys)) ∧ mainland.Sublist (clumps [] (none :: polys)) ∧ (a.stereo = true → mainland = []) ∧
      ∀ f ∈ inner, ∃ g, L.polygon f.dropLast = some g ∧ a.mult * a.h0 ^ 2 / 4 ≤ (if a.stereo then L.areaLonLat g else L.area g) := by
  obtain ⟨hh, -, -, bb, b, -, -, -, h⟩ := shoreline_steps h
  obtain ⟨p1, bb', p2, p3, p4, -, -, -, -, hcl, h6⟩ := shorelineSteps_parts h
  obtain ⟨B, ps, gs, rings, h1, h2, rfl⟩ := classifyAll_parts h6
  have hps := collect_forall h1
  have hfst : ps.map Prod.fst = clumps [] (none :: p4) := paired_fst hps
  obtain ⟨s1, s2, -⟩ := C58_order_and_disjoint (shoreEngine L a.stereo) (a.mult * (a.h0 / 2) ^ 2) a.stereo B ps
  obtain ⟨ds, -, h3, h4, h5⟩ := C58_classification_partial (shoreEngine L a.stereo) (a.mult * (a.h0 / 2) ^ 2) a.stereo B ps
  refine ⟨p3, p4, (classifyShoreline (shoreEngine L a.stereo) (a.mult * (a.h0 / 2) ^ 2) a.stereo B ps).inner.map Prod.fst,
    (classifyShoreline (shoreEngine L a.stereo) (a.mult * (a.h0 / 2) ^ 2) a.stereo B ps).mainland.map Prod.fst, hcl, ?_, ?_, ?_, ?_, ?_, ?_⟩
  · rw [← flatten_close, List.map_map]; rfl
  · rw [← flatten_close, List.map_map]; rfl
  · rw [← hfst]; exact s1.map _
  · rw [← hfst]; exact s2.map _
  · intro hs
    rw [h5]
    simp [hs]
  · intro f hf
    obtain ⟨x, hx, rfl⟩ := List.mem_map.1 hf
    have hx' := hx
    rw [h4] at hx'
    obtain ⟨y, hy, rfl⟩ := List.mem_map.1 hx'
    rw [List.mem_filter, Bool.and_eq_true, decide_eq_true_eq] at hy
    obtain ⟨f', -, hf'⟩ := forall2_right hps y.1 (List.of_mem_zip hy.1).1
    obtain ⟨g, hg, he⟩ := Option.map_eq_some_iff.1 hf'
    rw [featurePolygon] at hg
    rw [← he]
    refine ⟨g, hg, ?_⟩
    have h7 := hy.2.2
    rw [← he] at h7
    have h8 : a.mult * (a.h0 / 2) ^ 2 = a.mult * a.h0 ^ 2 / 4 := by ring
    rw [h8] at h7
    cases hst : a.stereo <;> simpa [shoreEngine, hst] using h7

end

/-! ## A small library: polygons are boxes -/

/-- The box around a list of points. -/
def boxAround : List (ℚ × ℚ) → Option (Box ℚ)
  | [] => none
  | q :: l => some ⟨(l.map Prod.fst).foldl min q.1, (l.map Prod.fst).foldl max q.1, (l.map Prod.snd).foldl min q.2, (l.map Prod.snd).foldl max q.2⟩

/-- Box `b` lies in box `a`. -/
def boxIn (a b : Box ℚ) : Bool := a.xmin ≤ b.xmin && b.xmax ≤ a.xmax && a.ymin ≤ b.ymin && b.ymax ≤ a.ymax

/-- The common part of two boxes. -/
def boxCap (a b : Box ℚ) : Box ℚ := ⟨max a.xmin b.xmin, min a.xmax b.xmax, max a.ymin b.ymin, min a.ymax b.ymax⟩

/-- A library for the examples: every polygon is replaced by the box around it; the difference cuts at one side only. -/
def boxLib : ShapeLib ℚ (Box ℚ) where
  polygon := boxAround
  valid _ := true
  repaired g := [g]
  contains := boxIn
  overlaps a b := !((boxCap a b).xmax ≤ (boxCap a b).xmin) && !((boxCap a b).ymax ≤ (boxCap a b).ymin) && !boxIn a b && !boxIn b a
  inter := boxCap
  diff a b := if b.xmin ≤ a.xmin then { a with xmin := b.xmax } else { a with xmax := b.xmin }
  isEmpty g := g.xmax ≤ g.xmin || g.ymax ≤ g.ymin
  parts g := some [g]
  exterior g := some (createBoubox g)
  area g := (g.xmax - g.xmin) * (g.ymax - g.ymin)
  areaLonLat g := (g.xmax - g.xmin) * (g.ymax - g.ymin)

theorem boxLib_closed : RingsClosed boxLib := by
  intro g xy h
  cases h
  exact Or.inr ⟨(g.xmin, g.ymin), [(g.xmax, g.ymin), (g.xmax, g.ymax), (g.xmin, g.ymax)], rfl⟩

/-- The square with lower left corner `(x, y)` as a geometry of the file. -/
def fileRect (x y w h : ℚ) : Feature ℚ :=
  ⟨⟨x, x + w, y, y + h⟩, .polygon, [(x, y), (x + w, y), (x + w, y + h), (x, y + h), (x, y)]⟩

/-- A file with an island of area 1, land that reaches over the border of the region, and land far away. -/
def fileFeatures : List (Feature ℚ) := [fileRect 5 2 1 1, fileRect (-3) 1 5 8, fileRect 20 1 1 1]

example : readShoreline (⟨0, 10, 0, 8⟩ : Box ℚ) fileFeatures = some (joinNaN [[(5, 2), (6, 2), (6, 3), (5, 3), (5, 2), (5, 2)],
    [(-3, 1), (2, 1), (2, 9), (-3, 9), (-3, 1), (-3, 1)]]) := by decide +kernel

example := (C88_read (⟨0, 10, 0, 8⟩ : Box ℚ) fileFeatures _).1 (by decide +kernel : readShoreline _ fileFeatures = some
  [some (5, 2), some (6, 2), some (6, 3), some (5, 3), some (5, 2), some (5, 2), none, some (-3, 1), some (2, 1), some (2, 9), some (-3, 9), some (-3, 1),
    some (-3, 1), none])

example : storedPoints [((5 : ℚ), (2 : ℚ)), (6, 2), (5, 2)] = [(5, 2), (6, 2), (5, 2), (5, 2)] := C88_unchanged_partial _ (by decide +kernel)

example := (C88_meets_iff (⟨0, 10, 0, 8⟩ : Box ℚ) (fileRect (-3) 1 5 8) (by decide +kernel) (by decide +kernel)).1 (by decide +kernel)

example := C88_region_box [((0 : ℚ), (0 : ℚ)), (4, 1), (2, 5), (0, 0)] [(0, 0), (4, 1), (2, 5), (0, 0)] ⟨0, 4, 0, 5⟩ (by decide +kernel)

example := C88_region_box [((0 : ℚ), (0 : ℚ)), (2, 5), (4, 1), (0, 0)] [(0, 0), (4, 1), (2, 5), (0, 0)] ⟨0, 4, 0, 5⟩ (by decide +kernel)

example := C88_stereo_box [some ((-100 : ℚ), (-100 : ℚ)), none, some (200, 100)] ⟨-99, 198, -99, 99⟩ (by decide +kernel)

example := C88_boubox (⟨0, 1, 0, 1⟩ : Box ℚ) [(0, 0), (2, 5), (4, 1), (0, 0)] [(0, 0), (4, 1), (2, 5), (0, 0)] (by decide +kernel)

/-- **C88**, finding: a closed ring that starts at a point with equal coordinates loses that point at its start and is stored open; a corner
with equal coordinates is lost. -/
theorem C88_diagonal_point_lost : storedPoints [((1 : ℚ), (1 : ℚ)), (3, 1), (3, 2), (1, 1)] = [(3, 1), (3, 2), (1, 1)] ∧
    storedPoints [((1 : ℚ), (0 : ℚ)), (3, 3), (0, 5), (1, 0)] = [(1, 0), (0, 5), (1, 0), (1, 0)] := by decide +kernel

/-- **C88**, finding: a straight coastline along a parallel or a meridian has bounds without interior; it is still found, but not if it runs along the
border of the region. -/
theorem C88_straight_line : isOverlapping (⟨0, 10, 0, 8⟩ : Box ℚ) ⟨-1, 3, 4, 4⟩ = true ∧ isOverlapping (⟨0, 10, 0, 8⟩ : Box ℚ) ⟨-1, 3, 8, 8⟩ = false := by
  decide +kernel

example : (shorelineCrs 4326 4326 (some 32618) (.extent (.tuple [300000, 310000, 4500000, (4510000 : ℚ)])) : Nat) = 32618 := by decide +kernel

example : (shorelineCrs 4326 4326 (some 32618) (.extent (.tuple [-75, -74, 40, (41 : ℚ)])) : Nat) = 4326 := by decide +kernel

example := (C88_crs (K := ℚ) 4326 4326 (some 32618)).2.2.1 [-75, -74, 40, 41] (by decide +kernel)

/-- The result of the constructor for `fileFeatures`. -/
theorem fileFeatures_shoreline : (shoreline boxLib (fun _ _ => false) ⟨1, 1, 4, false, false⟩ (.tuple [0, 10, 0, 8]) fileFeatures).map
    (fun x => (x.2.inner, x.2.mainland, x.2.boubox)) = some (joinNaN [[(5, 2), (6, 2), (6, 3), (5, 3), (5, 2), (5, 2)]],
      joinNaN [[(-1 / 10, 1), (2, 1), (2, 81 / 10), (-1 / 10, 81 / 10), (-1 / 10, 1), (-1 / 10, 1)]],
      joinNaN [[(2, 0), (10, 0), (10, 8), (2, 8), (2, 0), (2, 0)]]) := by decide +kernel

/-- **C90**, finding: the constructor passes `h0 / 2`; an island of area 1 is kept although `minimum_area_mult * h0**2` is 4 (as is
`h0 * minimum_area_mult`, the documented limit). -/
theorem C90_small_island_kept : ∃ (a : ShoreArgs ℚ) (b : Box ℚ) (s : Shore ℚ), a.h0 = 1 ∧ a.mult = 4 ∧
    shoreline boxLib (fun _ _ => false) a (.tuple [0, 10, 0, 8]) fileFeatures = some (b, s) ∧
    s.inner = joinNaN [[(5, 2), (6, 2), (6, 3), (5, 3), (5, 2), (5, 2)]] ∧ boxLib.area ⟨5, 6, 2, 3⟩ < a.mult * a.h0 ^ 2 := by
  obtain ⟨⟨b, s⟩, h1, h2⟩ := Option.map_eq_some_iff.1 fileFeatures_shoreline
  simp only [Prod.mk.injEq] at h2
  exact ⟨_, b, s, rfl, rfl, h1, h2.1, by decide +kernel⟩

/-- An example with a densified ring: `mask` is true everywhere. -/
example : (shoreline boxLib (fun _ _ => true) ⟨1, 1, 4, true, false⟩ (.tuple [0, 10, 0, 8]) fileFeatures).isSome = true := by decide +kernel

theorem fileFeatures_closed : ∀ f ∈ fileFeatures, ∃ p g, f.coords = p :: g ++ [p] ∧ p.1 ≠ p.2 := by
  intro f hf
  simp only [fileFeatures, List.mem_cons, List.not_mem_nil, or_false] at hf
  rcases hf with rfl | rfl | rfl
  · exact ⟨(5, 2), [(5 + 1, 2), (5 + 1, 2 + 1), (5, 2 + 1)], rfl, by decide +kernel⟩
  · exact ⟨(-3, 1), [(-3 + 5, 1), (-3 + 5, 1 + 8), (-3, 1 + 8)], rfl, by decide +kernel⟩
  · exact ⟨(20, 1), [(20 + 1, 1), (20 + 1, 1 + 1), (20, 1 + 1)], rfl, by decide +kernel⟩

example : ∃ b s, shoreline boxLib (fun _ _ => true) ⟨1, 1, 4, true, false⟩ (.tuple [0, 10, 0, 8]) fileFeatures = some (b, s) ∧
    Rings s.inner ∧ Rings s.mainland ∧ Rings s.boubox := by
  obtain ⟨⟨b, s⟩, h⟩ := Option.isSome_iff_exists.1
    (by decide +kernel : (shoreline boxLib (fun _ _ => true) ⟨1, 1, 4, true, false⟩ (.tuple [0, 10, 0, 8]) fileFeatures).isSome = true)
  exact ⟨b, s, h, C90_rings_closed_partial boxLib_closed fileFeatures_closed h⟩

example : ∃ b s, shoreline boxLib (fun _ _ => false) ⟨1, 1, 4, false, false⟩ (.tuple [0, 10, 0, 8]) fileFeatures = some (b, s) ∧
    ∃ rings : List (List (ℚ × ℚ)), s.inner ++ s.boubox = joinNaN rings := by
  obtain ⟨⟨b, s⟩, h1, h2⟩ := Option.map_eq_some_iff.1 fileFeatures_shoreline
  simp only [Prod.mk.injEq] at h2
  obtain ⟨rings, h3, -⟩ := C90_edges_partial boxLib_closed fileFeatures_closed h1 (by rw [h2.1]; simp [joinNaN])
  exact ⟨b, s, h1, rings, h3⟩

example : ∃ b s, shoreline boxLib (fun _ _ => false) ⟨1, 1, 4, false, false⟩ (.tuple [0, 10, 0, 8]) fileFeatures = some (b, s) ∧
    ∃ inner : List (List (ℚ × ℚ)), s.inner = joinNaN inner ∧ ∀ f ∈ inner, ∃ g, boxAround f.dropLast = some g ∧ 1 ≤ boxLib.area g := by
  obtain ⟨⟨b, s⟩, h1, h2⟩ := Option.map_eq_some_iff.1 fileFeatures_shoreline
  obtain ⟨-, -, inner, -, -, h3, -, -, -, -, h4⟩ := C90_area h1
  refine ⟨b, s, h1, inner, h3, fun f hf => ?_⟩
  obtain ⟨g, h5, h6⟩ := h4 f hf
  exact ⟨g, h5, by norm_num at h6; exact h6⟩

/-- **C90**, finding: an island whose ring starts at a point with equal coordinates is stored open, and `get_poly_edges` then leaves out one of its sides:
that from `(3, 4)` to `(3, 3)`. -/
theorem C90_diagonal_start_opened : ∃ (b : Box ℚ) (s : Shore ℚ) (es : List (Int × Int)),
    shoreline boxLib (fun _ _ => false) ⟨1, 1, 4, false, false⟩ (.tuple [0, 10, 0, 8]) [fileRect 3 3 3 1] = some (b, s) ∧
    s.inner = [some (6, 3), some (6, 4), some (3, 4), some (3, 3), none] ∧ getPolyEdges (s.inner.map Option.isNone) = some es ∧
    es = [(0, 1), (1, 2), (3, 0)] := by
  have h : (shoreline boxLib (fun _ _ => false) ⟨1, 1, 4, false, false⟩ (.tuple [0, 10, 0, 8]) [fileRect 3 3 3 1]).map (fun x => x.2.inner) =
      some [some (6, 3), some (6, 4), some (3, 4), some (3, 3), none] := by decide +kernel
  obtain ⟨⟨b, s⟩, h1, h2⟩ := Option.map_eq_some_iff.1 h
  simp only at h2
  exact ⟨b, s, _, h1, h2, by rw [h2]; decide +kernel, rfl⟩

/-- Rings of three features around and across the box. -/
def clipInput : List (List (ℚ × ℚ)) := [[(5, 2), (6, 2), (6, 3), (5, 3), (5, 2), (5, 2)], [(-3, 1), (2, 1), (2, 9), (-3, 9), (-3, 1), (-3, 1)],
  [(20, 1), (21, 1), (21, 2), (20, 2), (20, 1), (20, 1)]]

theorem clipInput_clipped : clipPolys boxLib (1 / 10) (joinNaN clipInput) ⟨0, 10, 0, 8⟩ = some (joinNaN [[(5, 2), (6, 2), (6, 3), (5, 3), (5, 2), (5, 2)],
    [(-1 / 10, 1), (2, 1), (2, 81 / 10), (-1 / 10, 81 / 10), (-1 / 10, 1), (-1 / 10, 1)]]) := by decide +kernel

theorem clipInput_rings : ∀ f ∈ clipInput, ClosedTwice f := by
  intro f hf
  simp only [clipInput, List.mem_cons, List.not_mem_nil, or_false] at hf
  rcases hf with rfl | rfl | rfl
  · exact ⟨(5, 2), [(6, 2), (6, 3), (5, 3)], rfl⟩
  · exact ⟨(-3, 1), [(2, 1), (2, 9), (-3, 9)], rfl⟩
  · exact ⟨(20, 1), [(21, 1), (21, 2), (20, 2)], rfl⟩

example := C89_clip_partial (fun f hf => closedTwice_ne (clipInput_rings f hf)) (fun _ _ _ _ => rfl) clipInput_clipped

example := C89_rings boxLib_closed ⟨clipInput, rfl, clipInput_rings⟩ clipInput_clipped

theorem rat_foldl_min_le (l : List ℚ) : ∀ a : ℚ, l.foldl min a ≤ a ∧ ∀ x ∈ l, l.foldl min a ≤ x := by
  induction l with
  | nil => simp
  | cons y l ih =>
    intro a
    obtain ⟨h1, h2⟩ := ih (min a y)
    refine ⟨h1.trans (min_le_left _ _), fun x hx => ?_⟩
    rcases List.mem_cons.1 hx with rfl | hx
    · exact h1.trans (min_le_right _ _)
    · exact h2 x hx

theorem rat_le_foldl_max (l : List ℚ) : ∀ a : ℚ, a ≤ l.foldl max a ∧ ∀ x ∈ l, x ≤ l.foldl max a := by
  induction l with
  | nil => simp
  | cons y l ih =>
    intro a
    obtain ⟨h1, h2⟩ := ih (max a y)
    refine ⟨(le_max_left _ _).trans h1, fun x hx => ?_⟩
    rcases List.mem_cons.1 hx with rfl | hx
    · exact (le_max_right _ _).trans h1
    · exact h2 x hx

theorem boxAround_inBox {pts : List (ℚ × ℚ)} {g : Box ℚ} (h : boxAround pts = some g) : ∀ q ∈ pts, InBox g q := by
  cases pts with
  | nil => cases h
  | cons p l =>
    cases h
    intro q hq
    rcases List.mem_cons.1 hq with rfl | hq
    · exact ⟨(rat_foldl_min_le _ _).1, (rat_le_foldl_max _ _).1, (rat_foldl_min_le _ _).1, (rat_le_foldl_max _ _).1⟩
    · exact ⟨(rat_foldl_min_le _ _).2 _ (List.mem_map_of_mem hq), (rat_le_foldl_max _ _).2 _ (List.mem_map_of_mem hq),
        (rat_foldl_min_le _ _).2 _ (List.mem_map_of_mem hq), (rat_le_foldl_max _ _).2 _ (List.mem_map_of_mem hq)⟩

theorem boxAround_createBoubox {b B : Box ℚ} (hb : ProperBox b) (h : boxAround (createBoubox b) = some B) : B = b := by
  obtain ⟨h1, h2⟩ := hb
  cases h
  cases b
  simp_all

theorem boxLib_laws : BoxLaws boxLib where
  contains b B pts g hb hB hg hc q hq := by
    obtain rfl := boxAround_createBoubox hb hB
    obtain ⟨q1, q2, q3, q4⟩ := boxAround_inBox hg q hq
    have hc : boxIn B g = true := hc
    simp only [boxIn, Bool.and_eq_true, decide_eq_true_eq] at hc
    exact ⟨hc.1.1.1.trans q1, q2.trans hc.1.1.2, hc.1.2.trans q3, q4.trans hc.2⟩
  inter b B g gs p xy hb hB he hp hm hx q hq := by
    obtain rfl := boxAround_createBoubox hb hB
    cases hp
    rw [List.mem_singleton] at hm
    subst hm
    cases hx
    have he : (decide ((boxCap g B).xmax ≤ (boxCap g B).xmin) || decide ((boxCap g B).ymax ≤ (boxCap g B).ymin)) = false := he
    simp only [Bool.or_eq_false_iff, decide_eq_false_iff_not, not_le] at he
    have e1 : B.xmin ≤ (boxCap g B).xmin := le_max_right _ _
    have e2 : (boxCap g B).xmax ≤ B.xmax := min_le_right _ _
    have e3 : B.ymin ≤ (boxCap g B).ymin := le_max_right _ _
    have e4 : (boxCap g B).ymax ≤ B.ymax := min_le_right _ _
    have hq : q ∈ createBoubox (boxCap g B) := hq
    simp only [createBoubox, List.mem_cons, List.not_mem_nil, or_false] at hq
    unfold InBox
    rcases hq with rfl | rfl | rfl | rfl | rfl <;> refine ⟨?_, ?_, ?_, ?_⟩ <;> dsimp only <;> linarith [he.1, he.2]

example := C89_inside_partial (b := ⟨0, 10, 0, 8⟩) boxLib_laws ⟨by decide +kernel, by decide +kernel⟩ (by norm_num) clipInput_rings (fun _ _ _ _ => rfl) clipInput_clipped

example : clipFeature { boxLib with valid := fun _ => false, repaired := fun g => [g, g] } ⟨0, 10, 0, 8⟩ [(5, 2), (6, 3), (5, 2), (5, 2)] =
    some (joinNaN [[(5, 2), (6, 3), (5, 2), (5, 2)], [(5, 2), (6, 3), (5, 2), (5, 2)]]) :=
  C89_repaired_repeated (L := { boxLib with valid := fun _ => false, repaired := fun g => [g, g] }) (g := ⟨5, 6, 2, 3⟩) (by decide +kernel) rfl
    (by simp) (by decide +kernel)
end OM
