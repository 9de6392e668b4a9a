import Verif.Lemmas.Ccw
import Verif.Lemmas.Densify
import Verif.Model.Circle
import Mathlib.Data.Rat.Floor
/-!
# C54–C58, C61–C63, C78: polygon helpers
-/
set_option linter.unusedSectionVars false
namespace OM
open Spec

/-! ## C54 list and array form -/

/-- **C54**, joining then splitting, for a non-empty list of polygons that each have a point. Missing: the empty list and empty polygons
(`C54_empty_list`, `C54_empty_polygon`). -/
theorem C54_join_split_partial {α : Type} (fs : List (List α)) (hne : fs ≠ []) (h : ∀ f ∈ fs, f ≠ []) :
    ∃ arr, convertToArray (fs.map fun f => f.map some ++ [none]) = some arr ∧
      convertToList arr = fs.map fun f => f.map some ++ [none] := by
  refine ⟨joinNaN fs, ?_, ?_⟩
  · rw [convertToArray, if_neg (by simpa using hne), flatten_close]
  · have e : clumps [] (none :: joinNaN fs) = clumps [] (joinNaN fs) := rfl
    rw [convertToList, e, clumps_joinNaN fs h]

/-- **C54**, splitting then joining, for arrays that end in a NaN row, do not start with one and never have two in a row. Missing: other
arrays (`C54_double_nan`, `C54_only_nan`). -/
theorem C54_split_join_partial {α : Type} (arr : List (Option α)) (hlast : arr.getLast? = some none) (hhead : arr.head? ≠ some none)
    (hch : arr.IsChain fun a b => ¬ (a = none ∧ b = none)) : convertToArray (convertToList arr) = some arr := by
  have hne : arr ≠ [] := by rintro rfl; simp at hlast
  obtain ⟨fs, h1, h2, h3⟩ := exists_features arr [] (Or.inr hhead) (fun _ => hne) hch hlast
  rw [List.map_nil, List.nil_append] at h3
  obtain ⟨a, ha, hb⟩ := C54_join_split_partial fs h1 h2
  have : a = joinNaN fs := by
    rw [convertToArray, if_neg (by simpa using h1), flatten_close] at ha
    exact (Option.some.inj ha).symm
  rw [h3, ← this, hb, ha]

example : convertToArray (convertToList [some 1, some 2, none, some 3, none]) = some [some 1, some 2, none, some 3, none] :=
  C54_split_join_partial _ (by decide) (by decide) (by simp)
example : ∃ arr, convertToArray ([[1, 2], [3]].map fun f => f.map some ++ [none]) = some arr ∧
    convertToList arr = [[1, 2], [3]].map fun f => f.map some ++ [none] :=
  C54_join_split_partial [[1, 2], [3]] (by decide) (by decide)

/-- **C54 fails** for an array with two NaN rows in a row: one is lost. -/
theorem C54_double_nan : ∃ arr : List (Option Nat), arr.getLast? = some none ∧ convertToArray (convertToList arr) ≠ some arr :=
  ⟨[some 1, none, none, some 2, none], by decide⟩

/-- **C54 fails** for an array of NaN rows only: `np.concatenate` raises. -/
theorem C54_only_nan {α : Type} (n : Nat) : convertToArray (convertToList (List.replicate n (none : Option α))) = none := by
  have h : ∀ m, clumps ([] : List α) (List.replicate m none) = [] := by
    intro m; induction m with
    | zero => rfl
    | succ m ih => rw [List.replicate_succ]; exact ih
  have e : clumps ([] : List α) (none :: List.replicate n none) = [] := h (n + 1)
  rw [convertToList, e]
  rfl

example : convertToArray (convertToList (List.replicate 2 (none : Option Nat))) = none := C54_only_nan 2

/-- **C54 fails** for the empty list: joining raises. -/
theorem C54_empty_list {α : Type} : convertToArray ([] : List (List (Option α))) = none := rfl

/-- **C54 fails** for a polygon without points: it disappears. -/
theorem C54_empty_polygon : ∃ (fs : List (List Nat)) (arr : List (Option Nat)),
    convertToArray (fs.map fun f => f.map some ++ [none]) = some arr ∧ convertToList arr ≠ fs.map fun f => f.map some ++ [none] :=
  ⟨[[1], []], _, rfl, by decide⟩

/-- **C54**, an array without closing NaN row: its last polygon is not lost and gets a closing row. -/
theorem C54_unterminated {α : Type} (fs : List (List α)) (f : List α) (h : ∀ f ∈ fs, f ≠ []) (hf : f ≠ []) :
    convertToList ((fs.map fun r => r.map some ++ [none]).flatten ++ f.map some) =
      (fs ++ [f]).map fun r => r.map some ++ [none] := by
  have last : ∀ (f cur : List α), cur ++ f ≠ [] → clumps cur (f.map some) = [cur ++ f] := by
    intro f
    induction f with
    | nil =>
      intro cur hc
      cases cur with
      | nil => simp at hc
      | cons c cur => simp [clumps]
    | cons q f ih =>
      intro cur _
      have e : clumps cur ((q :: f).map some) = clumps (cur ++ [q]) (f.map some) := by cases cur <;> rfl
      rw [e, ih _ (by simp)]
      simp
  have all : ∀ fs : List (List α), (∀ f ∈ fs, f ≠ []) → clumps [] (joinNaN fs ++ f.map some) = fs ++ [f] := by
    intro fs
    induction fs with
    | nil => intro _; simpa [joinNaN] using last f [] (by simpa using hf)
    | cons g fs ih =>
      intro hg
      have e : joinNaN (g :: fs) ++ f.map some = g.map some ++ none :: (joinNaN fs ++ f.map some) := by simp [joinNaN]
      rw [e, clumps_feature g [] _ (by simpa using hg g List.mem_cons_self), ih fun x hx => hg x (List.mem_cons_of_mem _ hx)]
      simp
  rw [flatten_close, convertToList]
  exact congrArg _ (all fs h)

example : convertToList [some 1, none, some 2, some 3] = [[some 1, none], [some 2, some 3, none]] :=
  C54_unterminated [[1]] [2, 3] (by simp) (by simp)

/-! ## lists of features -/

theorem collect_spec {α β : Type} {f : α → Option β} {P : α → β → Prop} : ∀ {l : List α},
    (∀ x ∈ l, ∃ y, f x = some y ∧ P x y) → ∃ r, collect f l = some r ∧ List.Forall₂ P l r
  | [], _ => ⟨[], rfl, List.Forall₂.nil⟩
  | x :: l, h => by
    obtain ⟨y, h1, h2⟩ := h x (List.mem_cons_self ..)
    obtain ⟨r, h3, h4⟩ := collect_spec fun z hz => h z (List.mem_cons_of_mem _ hz)
    exact ⟨y :: r, by rw [collect, h1, h3], List.Forall₂.cons h2 h4⟩

theorem collect_features {α : Type} {g : List α → Option (List α)} {P : List α → List α → Prop} {fs : List (List α)} (hne : fs ≠ [])
    (hf : ∀ f ∈ fs, f ≠ []) (h : ∀ f ∈ fs, ∃ r, g f = some r ∧ P f r) :
    ∃ rs, ((collect (fun f => (g f).map fun r => r.map some ++ [none]) (clumps [] (none :: joinNaN fs))).bind convertToArray =
      some (joinNaN rs)) ∧ List.Forall₂ P fs rs := by
  have e : clumps [] (none :: joinNaN fs) = fs := clumps_joinNaN fs hf
  rw [e]
  obtain ⟨rs, h1, h2⟩ := collect_spec (f := fun f => (g f).map fun r => r.map some ++ [none])
    (P := fun f r => ∃ r', r = r'.map some ++ [none] ∧ P f r') (l := fs) (by
      intro f hf
      obtain ⟨r, hr, hp⟩ := h f hf
      exact ⟨_, by rw [hr]; rfl, r, rfl, hp⟩)
  have h3 : ∀ (fs : List (List α)) (rs : List (List (Option α))),
      List.Forall₂ (fun f r => ∃ r' : List α, r = r'.map some ++ [none] ∧ P f r') fs rs →
      ∃ rs', rs = rs'.map (fun r => r.map some ++ [none]) ∧ List.Forall₂ P fs rs' := by
    intro fs rs h
    induction h with
    | nil => exact ⟨[], rfl, List.Forall₂.nil⟩
    | cons hab _ ih =>
      obtain ⟨r', rfl, hp⟩ := hab
      obtain ⟨rs', rfl, hps⟩ := ih
      exact ⟨r' :: rs', rfl, List.Forall₂.cons hp hps⟩
  obtain ⟨rs', rfl, h4⟩ := h3 _ _ h2
  refine ⟨rs', ?_, h4⟩
  rw [h1, Option.bind_some, convertToArray, if_neg, flatten_close]
  intro h0
  rw [List.map_eq_nil_iff] at h0
  subst h0
  cases h4
  exact hne rfl

/-! ## C55 densifying -/

section
variable {K : Type} [Field K] [LinearOrder K] [IsStrictOrderedRing K]

/-- **C55**: every row of the result is described by `Densified`: no row is left unfilled, the original rows are kept in order, inserted
points lie on their segment and both coordinates change by at most the spacing; segments outside and NaN rows are kept. -/
theorem C55_densify [FloorRing K] {d : K} (hd : 0 < d) {poly : List (Option (K × K))} {ins : List Bool}
    (hlen : ins.length = poly.length) (hne : poly ≠ []) :
    ∃ out, densify d poly ins = some out ∧ Densified d poly ins out ∧ poly.Sublist out := by
  obtain ⟨out, h1, h2⟩ := densify_spec hd hlen hne
  exact ⟨out, h1, h2, h2.sublist⟩

/-- **C55**, the array without rows is returned as it is. -/
theorem C55_empty [FloorRing K] (d : K) : densify d [] [] = some [] := rfl

/-- A segment of length two, one of length four, a NaN row and a segment with its end outside. -/
example : ∃ out, densify (1 : ℚ) [some (0, 0), some (2, 1), some (2, 5), none, some (0, 0), some (9, 9)]
      [true, true, true, false, true, false] = some out ∧
    Densified (1 : ℚ) [some (0, 0), some (2, 1), some (2, 5), none, some (0, 0), some (9, 9)]
      [true, true, true, false, true, false] out ∧
    [some (0, 0), some (2, 1), some (2, 5), none, some (0, 0), some (9, 9)].Sublist out := C55_densify (by norm_num) rfl (by simp)
example : densify (1 : ℚ) [some (0, 0), some (2, 1), some (2, 5), none, some (0, 0), some (9, 9)]
      [true, true, true, false, true, false] =
    some [some (0, 0), some (1, 1/2), some (2, 1), some (2, 2), some (2, 3), some (2, 4), some (2, 5), none, some (0, 0),
      some (9, 9)] := by decide +kernel

/-! ## C56 corner cutting -/

/-- **C56**: length, ends and half-planes, for at least one point. Missing: the empty list (`C56_empty_raises`). (The bounding box is the intersection of four half-planes.) -/
theorem C56_corner_cutting_partial (n : Nat) (p : K × K) (l : List (K × K)) : ∃ r, chaikin n (p :: l) = some r ∧
    r.length = 2 ^ n * (p :: l).length ∧ r.head? = some p ∧ r.getLast? = (p :: l).getLast? ∧
    ∀ a b c : K, (∀ q ∈ p :: l, a * q.1 + b * q.2 ≤ c) → ∀ q ∈ r, a * q.1 + b * q.2 ≤ c := by
  obtain ⟨r, h⟩ := chaikin_spec n p l
  exact ⟨r, h⟩

/-- **C56** fails for a list without points: it raises. -/
theorem C56_empty_raises (n : Nat) : chaikin (n + 1) ([] : List (K × K)) = none := rfl

/-- **C56**, without refinements every list is returned as it is, also one without points. -/
theorem C56_no_refinements (l : List (K × K)) : chaikin 0 l = some l := by
  cases l <;> rfl

/-- **C56**, which points: a refinement puts points at one and three quarters of each segment, at positions `2k+1` and `2k+2`. -/
theorem C56_quarter_points (l : List (K × K)) (k : Nat) (p q : K × K) (hp : l[k]? = some p) (hq : l[k + 1]? = some q) :
    ∃ r, chaikin 1 l = some r ∧ r[2 * k + 1]? = some (p.1 + (q.1 - p.1) / 4, p.2 + (q.2 - p.2) / 4) ∧
      r[2 * k + 2]? = some (q.1 - (q.1 - p.1) / 4, q.2 - (q.2 - p.2) / 4) := by
  cases l with
  | nil => simp at hp
  | cons c l =>
    refine ⟨chaikinFrom c (c :: l), rfl, ?_, ?_⟩
    · rw [(chaikinFrom_get (c :: l) c k p hp).2, hq]
      simp only [Option.getD_some, cut, Option.some.injEq, Prod.mk.injEq]
      constructor <;> ring
    · rw [show 2 * k + 2 = 2 * (k + 1) by ring, (chaikinFrom_get (c :: l) c (k + 1) q hq).1, List.getElem?_cons_succ, hp]
      simp only [Option.getD_some, cut, Option.some.injEq, Prod.mk.injEq]
      constructor <;> ring

/-- **C56** for a whole shoreline: each feature is refined, closed rings stay closed. -/
theorem C56_smooth_shoreline (n : Nat) (fs : List (List (K × K))) (hne : fs ≠ []) (hf : ∀ f ∈ fs, f ≠ []) :
    ∃ rs, smoothShoreline n (joinNaN fs) = some (joinNaN rs) ∧
      List.Forall₂ (fun f r => r.length = 2 ^ n * f.length ∧ r.head? = f.head? ∧ r.getLast? = f.getLast? ∧
        ∀ a b c : K, (∀ q ∈ f, a * q.1 + b * q.2 ≤ c) → ∀ q ∈ r, a * q.1 + b * q.2 ≤ c) fs rs := by
  apply collect_features hne hf
  intro f hfm
  cases f with
  | nil => exact absurd rfl (hf _ hfm)
  | cons p l =>
    obtain ⟨r, h1, h2, h3, h4, h5⟩ := C56_corner_cutting_partial n p l
    exact ⟨r, h1, h2, h3, h4, h5⟩

example : chaikin 1 [((0 : ℚ), (0 : ℚ)), (4, 0), (4, 4)] = some [(0, 0), (1, 0), (3, 0), (4, 1), (4, 3), (4, 4)] := by decide +kernel
example : ∃ r, chaikin 2 [((0 : ℚ), (0 : ℚ)), (4, 0), (4, 4)] = some r ∧ r.length = 2 ^ 2 * 3 := by
  obtain ⟨r, h1, h2, _⟩ := C56_corner_cutting_partial (K := ℚ) 2 (0, 0) [(4, 0), (4, 4)]
  exact ⟨r, h1, h2⟩
example : ∃ r, chaikin 1 [((0 : ℚ), (0 : ℚ)), (4, 0), (4, 4)] = some r ∧ r[2 * 1 + 1]? = some (4 + (4 - 4) / 4, 0 + (4 - 0) / 4) ∧
    r[2 * 1 + 2]? = some (4 - (4 - 4) / 4, 4 - (4 - 0) / 4) := C56_quarter_points _ 1 (4, 0) (4, 4) rfl rfl
example : ∃ rs, smoothShoreline 2 (joinNaN [[((0 : ℚ), (0 : ℚ)), (4, 0), (0, 0)], [(1, 1)]]) = some (joinNaN rs) := by
  obtain ⟨rs, h, _⟩ := C56_smooth_shoreline (K := ℚ) 2 [[(0, 0), (4, 0), (0, 0)], [(1, 1)]] (by simp) (by simp)
  exact ⟨rs, h⟩

end

/-! ## C57 simplification -/

/-- `r` picks points of `f` in order (a point may be repeated), and picks every point with the mask set, except possibly the last. -/
def Spec.KeepsInside {α : Type} (mask : α → Bool) (f r : List α) : Prop :=
  ∃ js : List Nat, js.Pairwise (· ≤ ·) ∧ r.map some = js.map (fun j => f[j]?) ∧
    ∀ j q, j + 1 < f.length → f[j]? = some q → mask q = true → j ∈ js

/-- **C57** without the last point of each feature. Missing: the last point (`C57_last_point_dropped`). -/
theorem C57_simplify_partial {α : Type} (mask : α → Bool) (fs : List (List α)) (hne : fs ≠ []) (hf : ∀ f ∈ fs, f ≠ []) :
    ∃ rs, nthSimplify mask (joinNaN fs) = some (joinNaN rs) ∧ List.Forall₂ (KeepsInside mask) fs rs := by
  apply collect_features hne hf
  intro f _
  obtain ⟨js, r, h1, h2, _, h4, h5⟩ := simplifyFeature_spec mask f
  exact ⟨r, h1, js, h2, h4, h5⟩

/-- **C57** for rings: if every feature ends with its first point, no point inside the box is lost as a location. -/
theorem C57_rings_keep_points {α : Type} (mask : α → Bool) (fs : List (List α)) (hne : fs ≠ [])
    (hf : ∀ f ∈ fs, 2 ≤ f.length ∧ f.head? = f.getLast?) :
    ∃ rs, nthSimplify mask (joinNaN fs) = some (joinNaN rs) ∧
      List.Forall₂ (fun f r => (∀ q ∈ r, q ∈ f) ∧ ∀ q ∈ f, mask q = true → q ∈ r) fs rs := by
  obtain ⟨rs, h1, h2⟩ := C57_simplify_partial mask fs hne (by
    intro f h0
    have := (hf f h0).1
    rintro rfl
    simp at this)
  refine ⟨rs, h1, ?_⟩
  have h3 : List.Forall₂ (fun f r => KeepsInside mask f r) fs rs := h2
  have key : ∀ f r, (2 ≤ f.length ∧ f.head? = f.getLast?) → KeepsInside mask f r →
      (∀ q ∈ r, q ∈ f) ∧ ∀ q ∈ f, mask q = true → q ∈ r := by
    rintro f r ⟨hl, hc⟩ ⟨js, _, e, hk⟩
    have pick : ∀ j q, j ∈ js → f[j]? = some q → q ∈ r := by
      intro j q hj hq
      have : some q ∈ r.map some := by rw [e]; exact List.mem_map.2 ⟨j, hj, hq⟩
      simpa using this
    constructor
    · intro q hq
      have : some q ∈ js.map (fun j => f[j]?) := by rw [← e]; exact List.mem_map_of_mem hq
      obtain ⟨j, _, hj⟩ := List.mem_map.1 this
      exact List.mem_of_getElem? hj
    · intro q hq hm
      obtain ⟨j, hj⟩ := List.mem_iff_getElem?.1 hq
      have hjl := (List.getElem?_eq_some_iff.1 hj).1
      by_cases hlt : j + 1 < f.length
      · exact pick j q (hk j q hlt hj hm) hj
      · have hjeq : j = f.length - 1 := by omega
        have h0 : f[0]? = some q := by
          rw [← List.head?_eq_getElem?, hc, List.getLast?_eq_getElem?, ← hjeq, hj]
        exact pick 0 q (hk 0 q (by omega) h0 hm) h0
  clear h1 h2 hne
  induction h3 with
  | nil => exact List.Forall₂.nil
  | cons hab _ ih =>
    exact List.Forall₂.cons (key _ _ (hf _ (List.mem_cons_self ..)) hab) (ih fun f h => hf f (List.mem_cons_of_mem _ h))

example : ∃ rs, nthSimplify (fun n => decide (n < 3)) (joinNaN [[1, 5, 6, 7, 2, 1], [9, 8, 9]]) = some (joinNaN rs) ∧
    List.Forall₂ (fun f r => (∀ q ∈ r, q ∈ f) ∧ ∀ q ∈ f, (fun n => decide (n < 3)) q = true → q ∈ r) [[1, 5, 6, 7, 2, 1], [9, 8, 9]] rs :=
  C57_rings_keep_points _ _ (by decide) (by decide)
example : ∃ rs, nthSimplify (fun n => decide (n < 3)) (joinNaN [[1, 5, 2], [9]]) = some (joinNaN rs) ∧
    List.Forall₂ (KeepsInside fun n => decide (n < 3)) [[1, 5, 2], [9]] rs := C57_simplify_partial _ _ (by decide) (by decide)

/-- **C57 fails** for a feature that is not closed: its last point is dropped even if it is inside. -/
theorem C57_last_point_dropped : ∃ (mask : Nat → Bool) (f r : List Nat), nthSimplify mask (joinNaN [f]) = some (joinNaN [r]) ∧
    ∃ q ∈ f, mask q = true ∧ q ∉ r :=
  ⟨fun _ => true, [1, 2, 3], [1, 2], by decide, 3, by decide, rfl, by decide⟩

/-! ## C58 classification -/

/-- The domain after each feature: mainland is cut out of it; in stereographic coordinates a feature that overlaps it replaces it. -/
def Spec.DomainsAfter {P G K : Type} (E : ShapeEngine P G K) (stereo : Bool) : G → List P → List G → Prop
  | _, [], [] => True
  | d, p :: ps, d0 :: ds => d0 = d ∧ ∃ d',
      (E.contains d (E.polygon p) = true ∨ E.overlaps (E.polygon p) d = false → d' = d) ∧
      (E.contains d (E.polygon p) = false → E.overlaps (E.polygon p) d = true →
        d' = if stereo then E.polygon p else E.difference d (E.polygon p)) ∧
      DomainsAfter E stereo d' ps ds
  | _, _, _ => False

theorem classify_foldl {P G K : Type} [LinearOrder K] (E : ShapeEngine P G K) (areaMin : K) (stereo : Bool) :
    ∀ (ps : List P) (st : ShoreState P G), ∃ ds, Spec.DomainsAfter E stereo st.dom ps ds ∧ ds.length = ps.length ∧
      (ps.foldl (classifyStep E areaMin stereo) st).inner = st.inner ++ ((ps.zip ds).filter fun x =>
        E.contains x.2 (E.polygon x.1) && decide (areaMin ≤ E.area (E.polygon x.1))).map Prod.fst ∧
      (ps.foldl (classifyStep E areaMin stereo) st).mainland = st.mainland ++ ((ps.zip ds).filter fun x =>
        !E.contains x.2 (E.polygon x.1) && E.overlaps (E.polygon x.1) x.2 && !stereo).map Prod.fst
  | [], st => ⟨[], trivial, rfl, by simp, by simp⟩
  | p :: ps, st => by
    obtain ⟨ds, h1, h2, h3, h4⟩ := classify_foldl E areaMin stereo ps (classifyStep E areaMin stereo st p)
    refine ⟨st.dom :: ds, ⟨rfl, (classifyStep E areaMin stereo st p).dom, ?_, ?_, h1⟩, by simp [h2], ?_, ?_⟩
    · intro h
      unfold classifyStep
      split
      · split <;> rfl
      · rename_i hc
        rcases h with h | h
        · exact absurd h hc
        · rw [if_neg (by simp [h])]
    · intro hc ho
      unfold classifyStep
      rw [if_neg (by simp [hc]), if_pos ho]
      split <;> rfl
    · rw [List.foldl_cons, h3, List.zip_cons_cons, List.filter_cons]
      unfold classifyStep
      by_cases hc : E.contains st.dom (E.polygon p) = true
      · by_cases ha : areaMin ≤ E.area (E.polygon p)
        · simp [hc, ha]
        · simp [hc, ha]
      · by_cases ho : E.overlaps (E.polygon p) st.dom = true
        · cases stereo <;> simp [hc, ho]
        · simp [hc, ho]
    · rw [List.foldl_cons, h4, List.zip_cons_cons, List.filter_cons]
      unfold classifyStep
      by_cases hc : E.contains st.dom (E.polygon p) = true
      · by_cases ha : areaMin ≤ E.area (E.polygon p)
        · simp [hc, ha]
        · simp [hc, ha]
      · by_cases ho : E.overlaps (E.polygon p) st.dom = true
        · cases stereo <;> simp [hc, ho]
        · simp [hc, ho]

/-- **C58**: with the domain as it is when a feature comes up, the islands are exactly the features it contains with at least the minimum
area, the mainland those it does not contain but overlaps (none in stereographic coordinates), both in the order of the input. -/
theorem C58_classification_partial {P G K : Type} [LinearOrder K] (E : ShapeEngine P G K) (areaMin : K) (stereo : Bool) (dom : G) (ps : List P) :
    ∃ ds, DomainsAfter E stereo dom ps ds ∧ ds.length = ps.length ∧
      (classifyShoreline E areaMin stereo dom ps).inner = ((ps.zip ds).filter fun x =>
        E.contains x.2 (E.polygon x.1) && decide (areaMin ≤ E.area (E.polygon x.1))).map Prod.fst ∧
      (classifyShoreline E areaMin stereo dom ps).mainland = ((ps.zip ds).filter fun x =>
        !E.contains x.2 (E.polygon x.1) && E.overlaps (E.polygon x.1) x.2 && !stereo).map Prod.fst := by
  obtain ⟨ds, h1, h2, h3, h4⟩ := classify_foldl E areaMin stereo ps ⟨dom, [], []⟩
  exact ⟨ds, h1, h2, h3, h4⟩

/-- **C58**, consequences: order kept, and different features never end up in both lists. -/
theorem C58_order_and_disjoint {P G K : Type} [LinearOrder K] (E : ShapeEngine P G K) (areaMin : K) (stereo : Bool) (dom : G)
    (ps : List P) : (classifyShoreline E areaMin stereo dom ps).inner.Sublist ps ∧
      (classifyShoreline E areaMin stereo dom ps).mainland.Sublist ps ∧
      (ps.Nodup → ∀ p ∈ (classifyShoreline E areaMin stereo dom ps).inner, p ∉ (classifyShoreline E areaMin stereo dom ps).mainland) := by
  obtain ⟨ds, _, h2, h3, h4⟩ := C58_classification_partial E areaMin stereo dom ps
  have hfst : (ps.zip ds).map Prod.fst = ps := by rw [List.map_fst_zip]; omega
  refine ⟨?_, ?_, ?_⟩
  · rw [h3]
    conv_rhs => rw [← hfst]
    exact List.filter_sublist.map _
  · rw [h4]
    conv_rhs => rw [← hfst]
    exact List.filter_sublist.map _
  · intro hnd p hp hq
    rw [h3] at hp
    rw [h4] at hq
    obtain ⟨x, hx, rfl⟩ := List.mem_map.1 hp
    obtain ⟨y, hy, hxy⟩ := List.mem_map.1 hq
    rw [List.mem_filter] at hx hy
    have hnd' : ((ps.zip ds).map Prod.fst).Nodup := by rw [hfst]; exact hnd
    have : y = x := List.inj_on_of_nodup_map hnd' hy.1 hx.1 hxy
    subst this
    have h5 := hx.2
    have h6 := hy.2
    simp only [Bool.and_eq_true, Bool.not_eq_true'] at h5 h6
    rw [h5.1] at h6
    exact absurd h6.1.1 (by simp)

/-- Intervals of numbers as polygons: `(0, 10)` is the domain, `(8, 12)` overlaps it, `(2, 5)` is an island, `(6, 7)` too small. -/
def intervalEngine : ShapeEngine (Nat × Nat) (Nat × Nat) Nat where
  polygon := id
  contains a b := decide (a.1 ≤ b.1) && decide (b.2 ≤ a.2)
  overlaps a b := decide (a.1 < b.2) && decide (b.1 < a.2)
  difference a b := if a.1 < b.1 then (a.1, b.1) else (b.2, a.2)
  area a := a.2 - a.1

example : (classifyShoreline intervalEngine 2 false (0, 10) [(8, 12), (2, 5), (6, 7), (20, 30)]).inner = [(2, 5)] ∧
    (classifyShoreline intervalEngine 2 false (0, 10) [(8, 12), (2, 5), (6, 7), (20, 30)]).mainland = [(8, 12)] := by decide
example : ∀ p ∈ (classifyShoreline intervalEngine 2 false (0, 10) [(8, 12), (2, 5), (6, 7), (20, 30)]).inner,
    p ∉ (classifyShoreline intervalEngine 2 false (0, 10) [(8, 12), (2, 5), (6, 7), (20, 30)]).mainland :=
  (C58_order_and_disjoint intervalEngine 2 false (0, 10) _).2.2 (by decide)

/-- **C58** fails for equality: a feature that is exactly as large as the minimum area, not larger, becomes an island. -/
theorem C58_equal_area_kept : ∃ (E : ShapeEngine (Nat × Nat) (Nat × Nat) Nat) (p : Nat × Nat),
    E.area (E.polygon p) = 2 ∧ (classifyShoreline E 2 false (0, 10) [p]).inner = [p] :=
  ⟨intervalEngine, (6, 8), by decide, by decide⟩

/-- **C58**, finding: in stereographic coordinates nothing is ever put among the mainland. -/
theorem C58_stereo_no_mainland {P G K : Type} [LinearOrder K] (E : ShapeEngine P G K) (areaMin : K) (dom : G) (ps : List P) :
    (classifyShoreline E areaMin true dom ps).mainland = [] := by
  obtain ⟨ds, _, _, _, h4⟩ := C58_classification_partial E areaMin true dom ps
  rw [h4]
  simp

/-! ## C61 orientation -/

section
variable {K : Type} [Field K] [LinearOrder K] [IsStrictOrderedRing K]

/-- **C61** for closed lists whose points, the closing one left out, turn the same way for any three of them in order (convex polygons,
collinear points allowed): if an answer is given it is right. Missing: other polygons (`C61_reflex_start`), small ones
(`C61_tiny_raises`). -/
theorem C61_convex_partial (p : List (K × K)) (hclosed : p.head? = p.getLast?) {s : K} (hs : s = 1 ∨ s = -1)
    (hconv : ∀ i j k a b c, i < j → j < k → k + 1 < p.length → p[i]? = some a → p[j]? = some b → p[k]? = some c → 0 ≤ s * turn a b c)
    {r : Bool} (h : isPathCcw p = some r) : (r = true ↔ 0 < twiceArea p) ∧ (r = false ↔ twiceArea p < 0) := by
  unfold isPathCcw at h
  split at h
  · cases h
  · rename_i hz
    rw [Bool.not_eq_true] at hz
    have hr : decide (0 < ccwLoop 0 p) = r := Option.some.inj h
    have hbig : ¬ |ccwLoop 0 p| ≤ 1 / 100000000 := by simpa [closeToZero] using hz
    have hne : ccwLoop 0 p ≠ 0 := by
      intro h0; rw [h0, abs_zero] at hbig; exact hbig (by norm_num)
    rcases ccwLoop_cases p 0 hz with h0 | ⟨i, a, b, c, hi, ha, hb, hc, e⟩
    · exact absurd h0 hne
    · have hturn := hconv i (i + 1) (i + 2) a b c (by omega) (by omega) (by omega) ha hb hc
      rw [e] at hne hr
      have hpos : 0 < s * turn a b c := lt_of_le_of_ne hturn (by
        intro h0
        rcases hs with rfl | rfl
        · exact hne (by linarith)
        · exact hne (by linarith))
      obtain ⟨x, q, rfl⟩ : ∃ x q, p = x :: q := by
        cases p with
        | nil => simp at hi
        | cons x q => exact ⟨x, q, rfl⟩
      obtain ⟨y, q, rfl⟩ : ∃ y q', q = y :: q' := by
        cases q with
        | nil => simp at hi
        | cons y q => exact ⟨y, q, rfl⟩
      have hl : (y :: q).getLast? = some x := by
        rw [List.head?_cons, List.getLast?_cons_cons] at hclosed
        exact hclosed.symm
      have harea := area_sign hl hconv hi ha hb hc hpos
      rcases hs with rfl | rfl
      · rw [one_mul] at hpos harea
        rw [← hr]
        simp only [decide_eq_true_eq, decide_eq_false_iff_not]
        exact ⟨⟨fun _ => harea, fun _ => hpos⟩, ⟨fun h => absurd hpos h, fun h => absurd harea (not_lt.2 h.le)⟩⟩
      · have h1 : turn a b c < 0 := by linarith
        have h2 : twiceArea (x :: y :: q) < 0 := by linarith
        rw [← hr]
        simp only [decide_eq_true_eq, decide_eq_false_iff_not]
        exact ⟨⟨fun h => absurd h1 (not_lt.2 h.le), fun h => absurd h2 (not_lt.2 h.le)⟩, ⟨fun _ => h2, fun _ => not_lt.2 h1.le⟩⟩

/-- **C61**: an answer is given if three consecutive points before the closing one span more than `10⁻⁸`. -/
theorem C61_answers (p : List (K × K)) (i : Nat) (a b c : K × K) (hi : i + 3 < p.length) (ha : p[i]? = some a) (hb : p[i + 1]? = some b)
    (hc : p[i + 2]? = some c) (hbig : 1 / 100000000 < |turn a b c|) : ∃ r, isPathCcw p = some r := by
  unfold isPathCcw
  split
  · rename_i hz
    have := (ccwLoop_none p 0 hz).2 i a b c hi ha hb hc
    simp only [closeToZero, decide_eq_true_eq] at this
    exact absurd hbig (not_lt.2 this)
  · exact ⟨_, rfl⟩

/-- A clockwise square with a collinear point. -/
example : isPathCcw [((0 : ℚ), (0 : ℚ)), (0, 1), (0, 2), (2, 2), (2, 0), (0, 0)] = some false := by decide +kernel
example : (false = true ↔ 0 < twiceArea [((0 : ℚ), (0 : ℚ)), (0, 1), (0, 2), (2, 2), (2, 0), (0, 0)]) ∧
    (false = false ↔ twiceArea [((0 : ℚ), (0 : ℚ)), (0, 1), (0, 2), (2, 2), (2, 0), (0, 0)] < 0) := by
  refine C61_convex_partial _ rfl (s := -1) (Or.inr rfl) ?_ (by decide +kernel)
  intro i j k a b c hij hjk hk ha hb hc
  have hk' : k < 5 := by simp at hk; omega
  have key : ∀ k < 5, ∀ j < k, ∀ i < j, ((([((0 : ℚ), (0 : ℚ)), (0, 1), (0, 2), (2, 2), (2, 0), (0, 0)][i]?).all fun (x : ℚ × ℚ) => ([((0 : ℚ), (0 : ℚ)), (0, 1), (0, 2), (2, 2), (2, 0), (0, 0)][j]?).all fun (y : ℚ × ℚ) => ([((0 : ℚ), (0 : ℚ)), (0, 1), (0, 2), (2, 2), (2, 0), (0, 0)][k]?).all fun (z : ℚ × ℚ) =>
      decide ((0 : ℚ) ≤ -1 * turn x y z)) = true) := by decide +kernel
  have := key k hk' j hjk i hij
  rw [ha, hb, hc] at this
  simpa using this
example : ∃ r, isPathCcw [((0 : ℚ), (0 : ℚ)), (0, 1), (0, 2), (2, 2), (2, 0), (0, 0)] = some r :=
  C61_answers _ 1 (0, 1) (0, 2) (2, 2) (by decide) rfl rfl rfl (by decide +kernel)

end

/-- **C61 fails**: a simple counter-clockwise quadrilateral that starts next to its reflex corner is called clockwise. -/
theorem C61_reflex_start : ∃ p : List (ℚ × ℚ), SimpleClosed p ∧ 0 < twiceArea p ∧ isPathCcw p = some false := by
  refine ⟨[(4, 4), (3, 1), (0, 0), (4, 0), (4, 4)], ⟨by decide +kernel, by decide, ?_⟩, by decide +kernel, by decide +kernel⟩
  intro i j e f hij he hf q hqe hqf
  have hseg : segments [((4 : ℚ), (4 : ℚ)), (3, 1), (0, 0), (4, 0), (4, 4)] =
      [((4, 4), (3, 1)), ((3, 1), (0, 0)), ((0, 0), (4, 0)), ((4, 0), (4, 4))] := rfl
  rw [hseg] at he hf
  have hj : j < 4 := (List.getElem?_eq_some_iff.1 hf).1
  obtain ⟨s, s0, s1, sx, sy⟩ := hqe
  obtain ⟨t, t0, t1, tx, ty⟩ := hqf
  obtain ⟨x, y⟩ := q
  rcases (by omega : (i = 0 ∧ j = 1) ∨ (i = 0 ∧ j = 2) ∨ (i = 0 ∧ j = 3) ∨ (i = 1 ∧ j = 2) ∨ (i = 1 ∧ j = 3) ∨ (i = 2 ∧ j = 3)) with
    ⟨rfl, rfl⟩ | ⟨rfl, rfl⟩ | ⟨rfl, rfl⟩ | ⟨rfl, rfl⟩ | ⟨rfl, rfl⟩ | ⟨rfl, rfl⟩
  all_goals
    simp only [List.getElem?_cons_zero, List.getElem?_cons_succ, Option.some.injEq] at he hf
    subst he hf
    simp only at sx sy tx ty
  · left; refine ⟨rfl, Prod.ext ?_ ?_⟩ <;> simp only <;> linarith
  · exfalso; linarith
  · right; refine ⟨rfl, rfl, Prod.ext ?_ ?_⟩ <;> simp only <;> linarith
  · left; refine ⟨rfl, Prod.ext ?_ ?_⟩ <;> simp only <;> linarith
  · exfalso; linarith
  · left; refine ⟨rfl, Prod.ext ?_ ?_⟩ <;> simp only <;> linarith

/-- **C61 fails**: a square with sides of `10⁻⁵` is too small, the call raises. -/
theorem C61_tiny_raises : ∃ p : List (ℚ × ℚ), p.head? = p.getLast? ∧ 0 < twiceArea p ∧ isPathCcw p = none :=
  ⟨[(0, 0), (1 / 100000, 0), (1 / 100000, 1 / 100000), (0, 1 / 100000), (0, 0)], rfl, by decide +kernel, by decide +kernel⟩

/-- An open triangle (three points, not closed) always raises: the loop needs a fourth point. -/
theorem C61_open_triangle_raises (a b c : ℚ × ℚ) : isPathCcw [a, b, c] = none := by
  have : isPathCcw [a, b, c] = if closeToZero (0 : ℚ) then none else some (decide ((0 : ℚ) < 0)) := rfl
  rw [this]
  decide +kernel

/-! ## C62 duplicates -/

/-- **C62** for vectors: the input is cut into runs of equal entries and one entry of each run is returned, neighbours being different.
Missing: arrays of points, for which the function is used (`C62_points_lost`, `C62_duplicates_kept`, `C62_ring_end_doubled`). -/
theorem C62_vector_partial {α : Type} [DecidableEq α] (x : α) (l : List α) :
    ∃ (r : List α) (runs : List (α × Nat)), removeDup1 (x :: l) = some r ∧ r = runs.map Prod.fst ∧
      x :: l = (runs.flatMap fun y => List.replicate (y.2 + 1) y.1) ∧ r.IsChain (· ≠ ·) := by
  obtain ⟨r, runs, h1, h2, _, h4, h5⟩ := removeDup1_spec x l
  exact ⟨r, runs, h1, h2, h4, h5⟩

example : removeDup1 [1, 1, 2, 3, 3, 1] = some [1, 2, 3, 1] := by decide
example : ∃ (r : List Nat) (runs : List (Nat × Nat)), removeDup1 [1, 1, 2, 3, 3, 1] = some r ∧ r = runs.map Prod.fst ∧
    [1, 1, 2, 3, 3, 1] = (runs.flatMap fun y => List.replicate (y.2 + 1) y.1) ∧ r.IsChain (· ≠ ·) := C62_vector_partial _ _

/-- **C62 fails** for points: a point with equal coordinates that is not the last is removed, wherever it is. -/
theorem C62_points_lost {α : Type} [DecidableEq α] (a : α) (l r : List (α × α)) (hl : l ≠ []) (hlast : l.getLast hl ≠ (a, a))
    (h : removeDup2 l = some r) : (a, a) ∉ r := by
  cases l with
  | nil => exact absurd rfl hl
  | cons x l =>
    cases h
    rw [List.mem_append, List.mem_filter, List.mem_singleton]
    rintro (h | h)
    · simp at h
    · exact hlast h.symm

example : removeDup2 [((0 : Nat), (0 : Nat)), (3, 3), (3, 1), (0, 1)] = some [(3, 1), (0, 1), (0, 1)] := by decide
example : ((3 : Nat), (3 : Nat)) ∉ [((3 : Nat), (1 : Nat)), (0, 1), (0, 1)] :=
  C62_points_lost 3 [(0, 0), (3, 3), (3, 1), (0, 1)] _ (by simp) (by decide) rfl

/-- **C62 fails** for points: without points with equal coordinates nothing is removed at all, and the last point is added again. -/
theorem C62_duplicates_kept {α : Type} [DecidableEq α] (l : List (α × α)) (hl : l ≠ []) (h : ∀ q ∈ l, q.1 ≠ q.2) :
    removeDup2 l = some (l ++ [l.getLast hl]) := by
  cases l with
  | nil => exact absurd rfl hl
  | cons x l =>
    rw [removeDup2, List.filter_eq_self.2]
    intro q hq
    simpa using h q hq

example : removeDup2 [((0 : Nat), (1 : Nat)), (0, 1), (2, 3)] = some [(0, 1), (0, 1), (2, 3), (2, 3)] :=
  C62_duplicates_kept _ (by simp) (by decide)

/-- **C62 fails** for rings: the closing point comes out twice. -/
theorem C62_ring_end_doubled {α : Type} [DecidableEq α] (p : α × α) (g : List (α × α)) (hp : p.1 ≠ p.2) :
    ∃ r, removeDup2 (p :: g ++ [p]) = some r ∧ ClosedTwice r := by
  refine ⟨_, rfl, p, g.filter fun q => decide (q.1 ≠ q.2), ?_⟩
  simp [hp]

example : ∃ r, removeDup2 (((0 : Nat), (1 : Nat)) :: [(2, 3), (2, 4)] ++ [(0, 1)]) = some r ∧ ClosedTwice r :=
  C62_ring_end_doubled _ _ (by decide)

/-! ## C63 area -/

section
variable {K : Type} [Field K] [LinearOrder K] [IsStrictOrderedRing K]

theorem pathCross_twiceArea : ∀ (l : List (K × K)) (p : K × K), pathCross p l = - twiceArea (p :: l)
  | [], p => by simp [pathCross, twiceArea, segments]
  | c :: l, p => by
    rw [pathCross, pathCross_twiceArea l c]
    unfold twiceArea
    rw [segments_cons]
    simp only [List.map_cons, List.sum_cons]
    ring

/-- **C63**: the value is half the absolute value of the shoelace sum of the closed ring. -/
theorem C63_area (p : K × K) (l : List (K × K)) :
    polyArea ((p :: l).map Prod.fst) ((p :: l).map Prod.snd) = some (|twiceArea (p :: l ++ [p])| / 2) := by
  rw [polyArea_eq, ← shoe_rotate]
  have e1 : shoe (l ++ [p]) = pathCross p (l ++ [p]) := by simp [shoe]
  rw [e1, pathCross_twiceArea, abs_neg]
  congr 1
  rw [List.cons_append]
  ring

/-- **C63**: never negative. -/
theorem C63_nonneg {x y : List K} {a : K} (h : polyArea x y = some a) : 0 ≤ a := by
  unfold polyArea at h
  split at h
  · cases h; positivity
  · cases h

/-- **C63**: translation. -/
theorem C63_translation (u v : K) (l : List (K × K)) :
    polyArea (l.map fun q => q.1 + u) (l.map fun q => q.2 + v) = polyArea (l.map Prod.fst) (l.map Prod.snd) := by
  have := polyArea_eq (l.map fun q => (q.1 + u, q.2 + v))
  rw [List.map_map, List.map_map, shoe_translate] at this
  rw [polyArea_eq, ← this]
  rfl

/-- **C63**: reversal. -/
theorem C63_reversal (l : List (K × K)) :
    polyArea (l.reverse.map Prod.fst) (l.reverse.map Prod.snd) = polyArea (l.map Prod.fst) (l.map Prod.snd) := by
  rw [polyArea_eq, polyArea_eq, shoe_reverse, abs_neg]

/-- **C63**: cyclic shift. -/
theorem C63_cyclic_shift (l : List (K × K)) (n : Nat) :
    polyArea ((l.rotate n).map Prod.fst) ((l.rotate n).map Prod.snd) = polyArea (l.map Prod.fst) (l.map Prod.snd) := by
  have : ∀ n (l : List (K × K)), shoe (l.rotate n) = shoe l := by
    intro n
    induction n with
    | zero => intro l; rw [List.rotate_zero]
    | succ n ih =>
      intro l
      cases l with
      | nil => simp
      | cons p l => rw [List.rotate_cons_succ, ih, shoe_rotate]
  rw [polyArea_eq, polyArea_eq, this]

example : polyArea [(0 : ℚ), 4, 4, 0] [0, 0, 3, 3] = some 12 := by decide +kernel
example : (0 : ℚ) ≤ 12 := C63_nonneg (x := [0, 4, 4, 0]) (y := [0, 0, 3, 3]) (by decide +kernel)

end

/-! ## C78 circle -/

/-- **C78**: every point lies on the circle, for every step but zero. -/
theorem C78_on_circle {radius arc : ℝ} {center : ℝ × ℝ} {r : List (ℝ × ℝ)} (h : createCircleCoords radius center arc = some r) :
    ∀ q ∈ r, (q.1 - center.1) ^ 2 + (q.2 - center.2) ^ 2 = radius ^ 2 := by
  unfold createCircleCoords at h
  rw [Option.map_eq_some_iff] at h
  obtain ⟨as, _, rfl⟩ := h
  intro q hq
  obtain ⟨a, _, rfl⟩ := List.mem_map.1 hq
  have := Real.cos_sq_add_sin_sq (a * Real.pi / 180)
  simp only [add_sub_cancel_left, mul_pow]
  rw [← mul_add, this, mul_one]

/-- **C78**: for a positive step the first point is at angle zero. Missing: other steps (`C78_zero_step_raises`, `C78_negative_step_empty`). -/
theorem C78_first_partial (radius : ℝ) (center : ℝ × ℝ) {arc : ℝ} (harc : 0 < arc) :
    ∃ r, createCircleCoords radius center arc = some r ∧ r.head? = some (center.1 + radius, center.2) := by
  have hpos : 0 < ⌈(360 + arc) / arc⌉.toNat := by
    rw [Int.lt_toNat]
    exact_mod_cast Int.ceil_pos.2 (div_pos (by linarith) harc)
  refine ⟨_, by rw [createCircleCoords, arangeReal, if_neg harc.ne', Option.map_some], ?_⟩
  rw [List.head?_eq_getElem?, List.getElem?_map, List.getElem?_map, List.getElem?_range hpos]
  simp

/-- **C78**: a step that divides the full turn into `n` parts gives `n + 1` points, the last equal to the first. -/
theorem C78_closed (radius : ℝ) (center : ℝ × ℝ) {arc : ℝ} {n : Nat} (hn : 0 < n) (harc : arc * n = 360) :
    ∃ r, createCircleCoords radius center arc = some r ∧ r.length = n + 1 ∧ r.head? = r.getLast? := by
  have hn' : (0 : ℝ) < n := by exact_mod_cast hn
  have hne : arc ≠ 0 := by rintro rfl; norm_num at harc
  have hcount : ⌈(360 + arc) / arc⌉.toNat = n + 1 := by
    rw [← harc, show (arc * n + arc) / arc = ((n + 1 : ℤ) : ℝ) by push_cast; field_simp, Int.ceil_intCast]
    omega
  refine ⟨_, by rw [createCircleCoords, arangeReal, if_neg hne, Option.map_some, hcount], by simp, ?_⟩
  rw [List.head?_eq_getElem?, List.getLast?_eq_getElem?, List.getElem?_map, List.getElem?_map, List.getElem?_map, List.getElem?_map,
    List.getElem?_range (by omega)]
  simp only [List.length_map, List.length_range, Nat.add_sub_cancel]
  rw [List.getElem?_range (by omega)]
  have e : ((n : ℝ) * arc) * Real.pi / 180 = 2 * Real.pi := by
    rw [mul_comm (n : ℝ), harc]; ring
  simp [e]

/-- **C78** fails for the step zero: it raises. -/
theorem C78_zero_step_raises (radius : ℝ) (center : ℝ × ℝ) : createCircleCoords radius center 0 = none := by
  simp [createCircleCoords, arangeReal]

/-- **C78** fails for negative steps down to -360, for which there is no point at all. -/
theorem C78_negative_step_empty (radius : ℝ) (center : ℝ × ℝ) {arc : ℝ} (h : arc < 0) (h' : -360 ≤ arc) :
    createCircleCoords radius center arc = some [] := by
  have : ⌈(360 + arc) / arc⌉.toNat = 0 := by
    rw [Int.toNat_eq_zero, Int.ceil_le]
    exact_mod_cast div_nonpos_of_nonneg_of_nonpos (by linarith) h.le
  simp [createCircleCoords, arangeReal, h.ne, this]

example : createCircleCoords 2 (1, 1) (-30) = some [] := C78_negative_step_empty 2 (1, 1) (by norm_num) (by norm_num)
example : ∃ r, createCircleCoords 2 (1, 1) 10 = some r ∧ r.length = 37 ∧ r.head? = r.getLast? :=
  C78_closed 2 (1, 1) (n := 36) (by norm_num) (by norm_num)
example : ∃ r, createCircleCoords 2 (1, 1) 7 = some r ∧ r.head? = some (1 + 2, 1) := C78_first_partial 2 (1, 1) (by norm_num)

end OM
