import Verif.Model.ClipSnap
import Verif.Lemmas.Polys
import Verif.Spec.Box
import Verif.Spec.Poly
import Mathlib.Data.List.Basic
import Mathlib.Tactic.Linarith
import Mathlib.Tactic.NormNum
/-!
# C116: `_clip_polys_2`
-/
set_option linter.unusedSectionVars false
namespace OM
open Spec

section
variable {K : Type} [Field K] [LinearOrder K] [IsStrictOrderedRing K]

/-- What is asked of the inside test of the box: right away from the border. -/
structure Spec.BoxTest (b : Box K) (inside : K × K → Bool) : Prop where
  yes : ∀ q, b.xmin < q.1 → q.1 < b.xmax → b.ymin < q.2 → q.2 < b.ymax → inside q = true
  no : ∀ q, inside q = true → InBox b q

/-- The corner of the box beyond which the point lies. -/
def Spec.cornerBeyond (b : Box K) (q : K × K) : Option (K × K) :=
  if q.1 < b.xmin then
    if q.2 < b.ymin then some (b.xmin, b.ymin) else if b.ymax < q.2 then some (b.xmin, b.ymax) else none
  else if b.xmax < q.1 then
    if q.2 < b.ymin then some (b.xmax, b.ymin) else if b.ymax < q.2 then some (b.xmax, b.ymax) else none
  else none

/-- What becomes of the point number `i` of the polygon: inside points are kept, the first point beyond each corner is moved to the corner, all other
points are left out. -/
def Spec.snapped (b : Box K) (inside : K × K → Bool) (p : List (K × K)) (i : Nat) (q : K × K) : Option (K × K) :=
  if inside q then some q
  else match cornerBeyond b q with
    | none => none
    | some c => if (p.take i).any (fun q' => cornerBeyond b q' == some c) then none else some c

/-- The first point is repeated at the end unless the ends are close. -/
def Spec.closedUp (l : List (K × K)) : List (K × K) :=
  match l.head?, l.getLast? with
  | some a, some z =>
    if |a.1 - z.1| ≤ 1 / 10 ^ 8 + 1 / 10 ^ 5 * |z.1| ∧ |a.2 - z.2| ≤ 1 / 10 ^ 8 + 1 / 10 ^ 5 * |z.2| then l else l ++ [a]
  | _, _ => l

/-- The flags belong to the points seen so far. -/
def FlagsFor (b : Box K) (seen : List (K × K)) (k : KeepFlags) : Prop :=
  k.ll = !seen.any (fun q => cornerBeyond b q == some (b.xmin, b.ymin)) ∧ k.ul = !seen.any (fun q => cornerBeyond b q == some (b.xmin, b.ymax)) ∧
    k.lr = !seen.any (fun q => cornerBeyond b q == some (b.xmax, b.ymin)) ∧ k.ur = !seen.any (fun q => cornerBeyond b q == some (b.xmax, b.ymax))

theorem snapCorner_spec {b : Box K} (hx : b.xmin < b.xmax) (hy : b.ymin < b.ymax) {seen : List (K × K)} {k : KeepFlags} (hk : FlagsFor b seen k)
    (q : K × K) :
    (snapCorner b k q).1 = (match cornerBeyond b q with
      | none => none
      | some c => if seen.any (fun q' => cornerBeyond b q' == some c) then none else some c) ∧
    FlagsFor b (seen ++ [q]) (snapCorner b k q).2 := by
  obtain ⟨h1, h2, h3, h4⟩ := hk
  have e1 : b.xmin ≠ b.xmax := hx.ne
  have e2 : b.ymin ≠ b.ymax := hy.ne
  unfold snapCorner FlagsFor
  simp only [List.any_append, List.any_cons, List.any_nil, Bool.or_false]
  unfold cornerBeyond
  by_cases a1 : q.1 < b.xmin
  · have a2 : ¬ b.xmax < q.1 := by intro h; linarith
    by_cases c1 : q.2 < b.ymin
    · have c2 : ¬ b.ymax < q.2 := by intro h; linarith
      cases hll : seen.any (fun q => cornerBeyond b q == some (b.xmin, b.ymin)) <;> unfold cornerBeyond at hll h1 h2 h3 h4 <;>
        simp [a1, a2, c1, c2, h1, h2, h3, h4, hll, e1, e2, e1.symm, e2.symm]
    · by_cases c2 : b.ymax < q.2
      · cases hll : seen.any (fun q => cornerBeyond b q == some (b.xmin, b.ymax)) <;> unfold cornerBeyond at hll h1 h2 h3 h4 <;>
          simp [a1, a2, c1, c2, h1, h2, h3, h4, hll, e1, e2, e1.symm, e2.symm]
      · unfold cornerBeyond at h1 h2 h3 h4
        simp [a1, a2, c1, c2, h1, h2, h3, h4]
  · by_cases a2 : b.xmax < q.1
    · by_cases c1 : q.2 < b.ymin
      · have c2 : ¬ b.ymax < q.2 := by intro h; linarith
        cases hll : seen.any (fun q => cornerBeyond b q == some (b.xmax, b.ymin)) <;> unfold cornerBeyond at hll h1 h2 h3 h4 <;>
          simp [a1, a2, c1, c2, h1, h2, h3, h4, hll, e1, e2, e1.symm, e2.symm]
      · by_cases c2 : b.ymax < q.2
        · cases hll : seen.any (fun q => cornerBeyond b q == some (b.xmax, b.ymax)) <;> unfold cornerBeyond at hll h1 h2 h3 h4 <;>
            simp [a1, a2, c1, c2, h1, h2, h3, h4, hll, e1, e2, e1.symm, e2.symm]
        · unfold cornerBeyond at h1 h2 h3 h4
          simp [a1, a2, c1, c2, h1, h2, h3, h4]
    · unfold cornerBeyond at h1 h2 h3 h4
      simp [a1, a2, h1, h2, h3, h4]

theorem cornerBeyond_inBox {b : Box K} {q : K × K} (h : InBox b q) : cornerBeyond b q = none := by
  obtain ⟨h1, h2, h3, h4⟩ := h
  unfold cornerBeyond
  rw [if_neg (not_lt.2 h1), if_neg (not_lt.2 h2)]

theorem cornerBeyond_corner {b : Box K} (hx : b.xmin ≤ b.xmax) (hy : b.ymin ≤ b.ymax) {q c : K × K} (h : cornerBeyond b q = some c) : InBox b c := by
  unfold cornerBeyond at h
  unfold InBox
  split_ifs at h <;> simp_all <;> subst h <;> simp [hx, hy]

theorem FlagsFor.skip {b : Box K} {seen : List (K × K)} {k : KeepFlags} (hk : FlagsFor b seen k) {q : K × K} (h : cornerBeyond b q = none) :
    FlagsFor b (seen ++ [q]) k := by
  obtain ⟨h1, h2, h3, h4⟩ := hk
  refine ⟨?_, ?_, ?_, ?_⟩ <;> simp [List.any_append, h, h1, h2, h3, h4]

theorem snapLoop_spec {b : Box K} (hx : b.xmin < b.xmax) (hy : b.ymin < b.ymax) {inside : K × K → Bool} (hin : BoxTest b inside) :
    ∀ (l seen : List (K × K)) (k : KeepFlags), FlagsFor b seen k →
      snapLoop b inside k l = (l.zipIdx seen.length).filterMap fun x => snapped b inside (seen ++ l) x.2 x.1
  | [], _, _, _ => rfl
  | q :: l, seen, k, hk => by
    have happ : seen ++ q :: l = (seen ++ [q]) ++ l := by simp
    have hlen : seen.length + 1 = (seen ++ [q]).length := by simp
    have htake : ((seen ++ [q]) ++ l).take seen.length = seen := by simp
    rw [List.zipIdx_cons, List.filterMap_cons, happ, hlen]
    unfold snapLoop
    by_cases hq : inside q = true
    · have hk' := hk.skip (cornerBeyond_inBox (hin.no q hq))
      rw [if_pos hq, snapLoop_spec hx hy hin l (seen ++ [q]) k hk']
      simp only [snapped, hq, if_true]
    · rw [if_neg hq, if_neg (fun h => hq (hin.yes q h.1.1 h.1.2 h.2.1 h.2.2))]
      obtain ⟨e1, e2⟩ := snapCorner_spec hx hy hk q
      have hs : snapped b inside ((seen ++ [q]) ++ l) seen.length q = (snapCorner b k q).1 := by
        rw [e1]
        simp only [snapped, hq, htake]
        simp
      rcases hc : snapCorner b k q with ⟨c, k'⟩
      rw [hc] at hs e2
      have hrec := snapLoop_spec hx hy hin l (seen ++ [q]) k' e2
      cases c with
      | none => simp only [hs]; exact hrec
      | some c => simp only [hs]; rw [hrec]

/-- What is left of one polygon. -/
def Spec.clippedRing (b : Box K) (inside : K × K → Bool) (p : List (K × K)) : List (K × K) :=
  if p.all inside then p else closedUp (p.zipIdx.filterMap fun x => snapped b inside p x.2 x.1)

theorem snapLoop_ne_nil {b : Box K} {inside : K × K → Bool} : ∀ (l : List (K × K)) (k : KeepFlags), l.any inside = true → snapLoop b inside k l ≠ []
  | [], _, h => by simp at h
  | q :: l, k, h => by
    unfold snapLoop
    by_cases hq : inside q = true
    · rw [if_pos hq]; simp
    · rw [if_neg hq]
      have hl : l.any inside = true := by simpa [hq] using h
      split_ifs
      · simp
      · rcases snapCorner b k q with ⟨_ | c, k'⟩
        · exact snapLoop_ne_nil l k' hl
        · simp

theorem closeLine_spec {l : List (K × K)} (h : l ≠ []) : closeLine l = some ((closedUp l).map some ++ [none]) := by
  obtain ⟨a, ha⟩ : ∃ a, l.head? = some a := by cases l with
    | nil => exact absurd rfl h
    | cons a t => exact ⟨a, rfl⟩
  obtain ⟨z, hz⟩ : ∃ z, l.getLast? = some z := ⟨l.getLast h, List.getLast?_eq_some_getLast h⟩
  unfold closeLine closedUp isCloseTo
  rw [ha, hz]
  simp only [decide_eq_true_eq]
  split_ifs <;> rfl

theorem flagsFor_nil (b : Box K) : FlagsFor b [] ⟨true, true, true, true⟩ := ⟨rfl, rfl, rfl, rfl⟩

theorem clipSnapLoop_spec {b : Box K} (hx : b.xmin < b.xmax) (hy : b.ymin < b.ymax) {inside : K × K → Bool} (hin : BoxTest b inside) :
    ∀ fs : List (List (K × K)), (∀ f ∈ fs, f ≠ []) →
      clipSnapLoop b inside fs = some ((fs.filter fun f => f.any inside).map fun f => (clippedRing b inside f).map some ++ [none])
  | [], _ => rfl
  | f :: fs, hf => by
    unfold clipSnapLoop
    rw [clipSnapLoop_spec hx hy hin fs fun g hg => hf g (List.mem_cons_of_mem _ hg)]
    unfold clipSnapPoly
    have hne := hf f List.mem_cons_self
    by_cases hall : f.all inside = true
    · have hany : f.any inside = true := by
        cases f with
        | nil => exact absurd rfl hne
        | cons a t => rw [List.all_cons] at hall; rw [List.any_cons]; simp_all
      rw [if_pos hall, List.filter_cons, if_pos hany]
      simp only [List.map_cons, clippedRing, hall, if_true, List.singleton_append]
    · rw [if_neg hall]
      by_cases hany : f.any inside = true
      · rw [if_pos hany, closeLine_spec (snapLoop_ne_nil f _ hany), List.filter_cons, if_pos hany,
          snapLoop_spec hx hy hin f [] _ (flagsFor_nil b)]
        simp only [Option.map_some, List.map_cons, clippedRing, hall, List.nil_append, List.length_nil, List.singleton_append]
        simp
      · rw [if_neg hany, List.filter_cons, if_neg hany]
        rfl

theorem flatten_joinNaN {α : Type} : ∀ fs : List (List α), (fs.map fun f => f.map some ++ [none]).flatten = joinNaN fs
  | [] => rfl
  | f :: fs => by rw [List.map_cons, List.flatten_cons, flatten_joinNaN fs, joinNaN]; simp

/-- `_clip_polys_2` exactly: the polygons without a point in the enlarged box are left out, the others are cut as `clippedRing` says. If none is left,
the function raises. -/
theorem C116_exact (contains : List (K × K) → K × K → Bool) {delta : K} {bbox b : Box K} (hb : b = inflate delta bbox) (hx : b.xmin < b.xmax)
    (hy : b.ymin < b.ymax) (hin : BoxTest b (contains (createBoubox b))) {fs : List (List (K × K))} (hf : ∀ f ∈ fs, f ≠ []) :
    clipPolys2 contains delta bbox (joinNaN fs) =
      if ∃ f ∈ fs, f.any (contains (createBoubox b)) = true then
        some (joinNaN ((fs.filter fun f => f.any (contains (createBoubox b))).map (clippedRing b (contains (createBoubox b)))))
      else none := by
  subst hb
  have hc : clumps [] (none :: joinNaN fs) = fs := by
    show clumps [] (joinNaN fs) = fs
    exact clumps_joinNaN fs hf
  unfold clipPolys2
  simp only [hc]
  rw [clipSnapLoop_spec hx hy hin fs hf, Option.bind_some]
  unfold convertToArray
  by_cases h : ∃ f ∈ fs, f.any (contains (createBoubox (inflate delta bbox))) = true
  · rw [if_pos h, if_neg, ← flatten_joinNaN, List.map_map]
    · rfl
    · obtain ⟨f, h1, h2⟩ := h
      simp only [List.map_eq_nil_iff, List.filter_eq_nil_iff]
      exact fun hh => hh f h1 h2
  · rw [if_neg h, if_pos]
    simp only [List.map_eq_nil_iff, List.filter_eq_nil_iff]
    exact fun f h1 h2 => h ⟨f, h1, h2⟩

theorem mem_closedUp {l : List (K × K)} {q : K × K} : q ∈ closedUp l ↔ q ∈ l := by
  unfold closedUp
  cases l with
  | nil => rfl
  | cons a t =>
    rcases h : (a :: t).getLast? with _ | z
    · rfl
    · simp only [List.head?_cons]
      split_ifs
      · rfl
      · rw [List.mem_append, List.mem_singleton]
        exact ⟨fun hh => hh.elim id fun e => e ▸ List.mem_cons_self, Or.inl⟩

/-- Every point of the cut polygon is a point of the polygon that passed the test or a corner of the box beyond which the polygon has a point. -/
theorem C116_points (b : Box K) (inside : K × K → Bool) (p : List (K × K)) {q : K × K} (h : q ∈ clippedRing b inside p) :
    (q ∈ p ∧ inside q = true) ∨ ∃ q' ∈ p, cornerBeyond b q' = some q := by
  unfold clippedRing at h
  split_ifs at h with hall
  · exact Or.inl ⟨h, List.all_eq_true.1 hall q h⟩
  · rw [mem_closedUp, List.mem_filterMap] at h
    obtain ⟨⟨q', i⟩, h1, h2⟩ := h
    have hq' : q' ∈ p := List.fst_mem_of_mem_zipIdx h1
    simp only [snapped] at h2
    by_cases hi : inside q' = true
    · rw [if_pos hi] at h2
      obtain rfl := Option.some.inj h2
      exact Or.inl ⟨hq', hi⟩
    · rw [if_neg hi] at h2
      rcases hc : cornerBeyond b q' with _ | c
      · rw [hc] at h2; simp at h2
      · rw [hc] at h2
        simp only at h2
        split_ifs at h2
        obtain rfl := Option.some.inj h2
        exact Or.inr ⟨q', hq', hc⟩

/-- The cut polygon lies in the enlarged box. -/
theorem C116_inside_box {b : Box K} (hx : b.xmin ≤ b.xmax) (hy : b.ymin ≤ b.ymax) {inside : K × K → Bool} (hin : BoxTest b inside) (p : List (K × K))
    {q : K × K} (h : q ∈ clippedRing b inside p) : InBox b q := by
  rcases C116_points b inside p h with ⟨_, h2⟩ | ⟨q', _, h2⟩
  · exact hin.no q h2
  · exact cornerBeyond_corner hx hy h2

/-- The points that passed the test are kept, in their order. -/
theorem C116_kept (b : Box K) (inside : K × K → Bool) (p : List (K × K)) : (p.filter inside).Sublist (clippedRing b inside p) := by
  unfold clippedRing
  split_ifs with hall
  · exact List.filter_sublist
  · have key : ∀ (l : List (K × K)) (n : Nat), (l.filter inside).Sublist ((l.zipIdx n).filterMap fun x => snapped b inside p x.2 x.1) := by
      intro l
      induction l with
      | nil => intro n; exact List.Sublist.refl _
      | cons a t ih =>
        intro n
        rw [List.zipIdx_cons, List.filterMap_cons, List.filter_cons]
        by_cases ha : inside a = true
        · simp only [snapped, ha, if_true]
          exact (ih (n + 1)).cons_cons a
        · rw [if_neg ha]
          rcases hs : snapped b inside p n a with _ | c
          · simp only [hs]; exact ih (n + 1)
          · simp only [hs]; exact (ih (n + 1)).cons c
    refine (key p 0).trans ?_
    generalize (p.zipIdx.filterMap fun x => snapped b inside p x.2 x.1) = r
    unfold closedUp
    split
    · split_ifs
      · exact List.Sublist.refl _
      · exact List.sublist_append_left _ _
    · exact List.Sublist.refl _

/-- The ends of a polygon that was cut are close (in the sense of `np.isclose`). -/
theorem C116_closed (b : Box K) (inside : K × K → Bool) (p : List (K × K)) (h : p.all inside = false) {a z : K × K}
    (ha : (clippedRing b inside p).head? = some a) (hz : (clippedRing b inside p).getLast? = some z) :
    |a.1 - z.1| ≤ 1 / 10 ^ 8 + 1 / 10 ^ 5 * |z.1| ∧ |a.2 - z.2| ≤ 1 / 10 ^ 8 + 1 / 10 ^ 5 * |z.2| := by
  unfold clippedRing at ha hz
  rw [if_neg (by rw [h]; exact Bool.false_ne_true)] at ha hz
  revert ha hz
  generalize (p.zipIdx.filterMap fun x => snapped b inside p x.2 x.1) = r
  intro ha hz
  unfold closedUp at ha hz
  cases r with
  | nil => simp at ha
  | cons c t =>
    rcases hl : (c :: t).getLast? with _ | w
    · simp at hl
    · rw [hl] at ha hz
      simp only [List.head?_cons] at ha hz
      split_ifs at ha hz with hcl
      · rw [hl] at hz
        simp only [List.head?_cons] at ha
        obtain rfl := Option.some.inj ha
        obtain rfl := Option.some.inj hz
        exact hcl
      · rw [List.getLast?_concat] at hz
        simp only [List.cons_append, List.head?_cons] at ha
        obtain rfl := Option.some.inj ha
        obtain rfl := Option.some.inj hz
        simp only [sub_self, abs_zero]
        constructor <;> positivity

/-- A test of the open box, by the ring of `_create_boubox`. -/
def Spec.openBoxTest (ring : List (K × K)) (q : K × K) : Bool :=
  match ring with
  | a :: _ :: c :: _ => decide (a.1 < q.1 ∧ q.1 < c.1 ∧ a.2 < q.2 ∧ q.2 < c.2)
  | _ => false

theorem openBoxTest_boxTest (b : Box K) : BoxTest b (openBoxTest (createBoubox b)) where
  yes q h1 h2 h3 h4 := by simp [openBoxTest, createBoubox, h1, h2, h3, h4]
  no q h := by
    simp only [openBoxTest, createBoubox, decide_eq_true_eq] at h
    exact ⟨h.1.le, h.2.1.le, h.2.2.1.le, h.2.2.2.le⟩
end

/-! ## Examples -/

/-- The hypotheses of `C116_exact` and its result for a square that overlaps a corner of the box `[0, 2]²` enlarged by 1: the vertex beyond the corner
becomes the corner, the two vertices beyond the sides are left out. -/
example : BoxTest (⟨-1, 3, -1, 3⟩ : Box ℚ) (openBoxTest (createBoubox ⟨-1, 3, -1, 3⟩)) ∧
    clipPolys2 openBoxTest 1 (⟨0, 2, 0, 2⟩ : Box ℚ) (joinNaN [[(1, 1), (5, 1), (5, 5), (1, 5), (1, 1)], [(7, 7), (8, 7), (8, 8)]]) =
      some (joinNaN [[(1, 1), (3, 3), (1, 1)]]) := ⟨openBoxTest_boxTest _, by decide +kernel⟩

/-- A polygon inside is unchanged (it is not closed either), one that is cut is closed. -/
example : clipPolys2 openBoxTest 1 (⟨0, 2, 0, 2⟩ : Box ℚ) (joinNaN [[(0, 0), (1, 0), (1, 1)], [(0, 0), (2, 0), (2, 2), (-4, -4)]]) =
    some (joinNaN [[(0, 0), (1, 0), (1, 1)], [(0, 0), (2, 0), (2, 2), (-1, -1), (0, 0)]]) := by decide +kernel

/-- `C116_points`, `C116_inside_box`, `C116_kept` and `C116_closed` on a polygon with two inside points and two points beyond corners. -/
example : clippedRing (⟨-1, 3, -1, 3⟩ : Box ℚ) (openBoxTest (createBoubox ⟨-1, 3, -1, 3⟩)) [(0, 0), (5, -5), (6, -6), (2, 2), (5, 5), (1, 9)] =
      [(0, 0), (3, -1), (2, 2), (3, 3), (0, 0)] ∧
    ([(0, 0), (5, -5), (6, -6), (2, 2), (5, 5), (1, 9)] : List (ℚ × ℚ)).all (openBoxTest (createBoubox ⟨-1, 3, -1, 3⟩)) = false := by
  constructor <;> decide +kernel

/-! ## What the function does not do -/

/-- The area of the cut polygon is not the common part of the polygon and the box: a polygon around the whole box is lost, and the function raises. -/
theorem C116_enclosing_lost : clipPolys2 openBoxTest 1 (⟨0, 2, 0, 2⟩ : Box ℚ) (joinNaN [[(-9, -9), (9, -9), (9, 9), (-9, 9), (-9, -9)]]) = none := by
  decide +kernel

/-- A triangle with one vertex beyond a side of the box is reduced to a segment run through twice. -/
theorem C116_side_lost : clipPolys2 openBoxTest 1 (⟨0, 2, 0, 2⟩ : Box ℚ) (joinNaN [[(0, 0), (9, 1), (0, 2), (0, 0)]]) =
    some (joinNaN [[(0, 0), (0, 2), (0, 0)]]) := by decide +kernel

end OM
