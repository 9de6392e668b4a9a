import Verif.Props.Shoreline
import Verif.Props.MovingSea
import Verif.Model.ClipSnap
/-!
# C151: the shoreline in other places and units
-/
set_option linter.unusedSectionVars false
namespace OM

namespace Spec
variable {K G H : Type} [Field K] [LinearOrder K]

/-- Rows with separators, in another unit and with another origin. -/
def rowsInUnit (c : K) (t : K × K) (l : List (Option (K × K))) : List (Option (K × K)) := l.map (Option.map (inUnit c t))

/-- The two geometry libraries say the same about shapes in another unit and with another origin; `m` tells which shape is which. -/
structure SameShapes (c : K) (t : K × K) (L : ShapeLib K G) (L' : ShapeLib K H) (m : G → H) : Prop where
  polygon : ∀ l, L'.polygon (l.map (inUnit c t)) = (L.polygon l).map m
  valid : ∀ g, L'.valid (m g) = L.valid g
  repaired : ∀ g, L'.repaired (m g) = (L.repaired g).map m
  contains : ∀ a b, L'.contains (m a) (m b) = L.contains a b
  overlaps : ∀ a b, L'.overlaps (m a) (m b) = L.overlaps a b
  inter : ∀ a b, L'.inter (m a) (m b) = m (L.inter a b)
  diff : ∀ a b, L'.diff (m a) (m b) = m (L.diff a b)
  isEmpty : ∀ g, L'.isEmpty (m g) = L.isEmpty g
  parts : ∀ g, L'.parts (m g) = (L.parts g).map (List.map m)
  exterior : ∀ g, L'.exterior (m g) = (L.exterior g).map (List.map (inUnit c t))
  area : ∀ g, L'.area (m g) = c ^ 2 * L.area g

/-- A geometry of the file in another unit and with another origin. -/
def featureInUnit (c : K) (t : K × K) (g : Feature K) : Feature K := ⟨boxInUnit c t g.bounds, g.kind, g.coords.map (inUnit c t)⟩

/-- A region in another place: the four bounds of a tuple, or the points of a polygon. -/
def regionInUnit (c : K) (t : K × K) : Extent K → Extent K
  | .tuple [x0, x1, y0, y1] => .tuple [c * x0 + t.1, c * x1 + t.1, c * y0 + t.2, c * y1 + t.2]
  | .tuple l => .tuple l
  | .polygon pts => .polygon (pts.map (inUnit c t))

/-- The polygons of a shoreline in another unit and with another origin. -/
def shoreInUnit (c : K) (t : K × K) (s : Shore K) : Shore K := ⟨rowsInUnit c t s.inner, rowsInUnit c t s.mainland, rowsInUnit c t s.boubox⟩

end Spec
open Spec

/-! ## Lists -/

theorem clumps_map {α β : Type} (f : α → β) : ∀ (l : List (Option α)) (cur : List α), clumps (cur.map f) (l.map (Option.map f)) = (clumps cur l).map (List.map f)
  | [], [] => rfl
  | [], _ :: _ => rfl
  | none :: l, [] => clumps_map f l []
  | none :: l, c :: cur => by
    have := clumps_map f l []
    simp only [List.map_nil] at this
    simp only [List.map_cons, Option.map_none, clumps, this]
  | some q :: l, [] => by
    have := clumps_map f l [q]
    simpa [clumps] using this
  | some q :: l, c :: cur => by
    have := clumps_map f l (c :: cur ++ [q])
    simpa [clumps] using this

theorem clumps_rows {α β : Type} (f : α → β) (l : List (Option α)) : clumps [] (none :: l.map (Option.map f)) = (clumps [] (none :: l)).map (List.map f) :=
  clumps_map f (none :: l) []

theorem collect_map {α β γ δ : Type} {f : α → Option β} {g : γ → Option δ} {m : α → γ} {n : β → δ} : ∀ {l : List α}, (∀ x ∈ l, g (m x) = (f x).map n) →
    collect g (l.map m) = (collect f l).map (List.map n)
  | [], _ => rfl
  | x :: l, h => by
    simp only [List.map_cons, collect, h x (by simp), collect_map fun y hy => h y (List.mem_cons_of_mem _ hy)]
    cases f x <;> cases collect f l <;> rfl

theorem convertToArray_map {α β : Type} (f : Option α → Option β) (l : List (List (Option α))) :
    convertToArray (l.map (List.map f)) = (convertToArray l).map (List.map f) := by
  simp only [convertToArray, List.map_eq_nil_iff]
  split_ifs
  · rfl
  · simp [List.map_flatten]

theorem feature_rows {α β : Type} (f : α → β) (r : List α) : (r.map f).map some ++ [none] = (r.map some ++ [none]).map (Option.map f) := by simp

section
variable {K G H : Type} [Field K] [LinearOrder K] [IsStrictOrderedRing K]

/-! ## Smoothing -/

theorem cut_unit (c : K) (t a b : K × K) : cut (inUnit c t a) (inUnit c t b) = inUnit c t (cut a b) := by
  ext <;> simp only [cut, inUnit] <;> ring

theorem chaikinFrom_unit (c : K) (t : K × K) : ∀ (l : List (K × K)) (p : K × K), chaikinFrom (inUnit c t p) (l.map (inUnit c t)) = (chaikinFrom p l).map (inUnit c t)
  | [], _ => rfl
  | [a], p => by simp only [List.map_cons, List.map_nil, chaikinFrom, cut_unit]
  | a :: b :: l, p => by
    have := chaikinFrom_unit c t (b :: l) a
    simp only [List.map_cons] at this
    simp only [List.map_cons, chaikinFrom, cut_unit, this]

theorem chaikin_unit (c : K) (t : K × K) : ∀ (n : Nat) (l : List (K × K)), chaikin n (l.map (inUnit c t)) = (chaikin n l).map (List.map (inUnit c t))
  | 0, _ => rfl
  | _ + 1, [] => rfl
  | n + 1, a :: l => by
    have := chaikinFrom_unit c t (a :: l) a
    simp only [List.map_cons] at this
    rw [List.map_cons, chaikin, this, chaikin_unit c t n]
    rfl

/-- **C151** (1): smoothing does the same in every place and unit. -/
theorem C151_smooth (c : K) (t : K × K) (n : Nat) (polys : List (Option (K × K))) : smoothShoreline n (rowsInUnit c t polys) = (smoothShoreline n polys).map (rowsInUnit c t) := by
  unfold smoothShoreline rowsInUnit
  rw [clumps_rows, collect_map (f := fun f => (chaikin n f).map fun r => r.map some ++ [none]) (n := List.map (Option.map (inUnit c t)))]
  · cases collect (fun f => (chaikin n f).map fun r => r.map some ++ [none]) (clumps [] (none :: polys)) with
    | none => rfl
    | some r => exact convertToArray_map _ _
  · intro f _
    rw [chaikin_unit, Option.map_map, Option.map_map]
    congr 1
    funext r
    exact feature_rows _ r

/-! ## Points in between -/

theorem segExtra_unit [FloorRing K] {c : K} (hc : 0 < c) (t : K × K) (d : K) (a b : Option (K × K)) (i : Bool) :
    segExtra (c * d) (a.map (inUnit c t)) (b.map (inUnit c t)) i = segExtra d a b i := by
  unfold segExtra
  split_ifs
  · rfl
  · cases a with
    | none => rfl
    | some a => cases b with
      | none => rfl
      | some b =>
        have h1 : |c * b.2 + t.2 - (c * a.2 + t.2)| = c * |b.2 - a.2| := by rw [← abs_of_pos hc, ← abs_mul, abs_of_pos hc]; congr 1; ring
        have h2 : |c * b.1 + t.1 - (c * a.1 + t.1)| = c * |b.1 - a.1| := by rw [← abs_of_pos hc, ← abs_mul, abs_of_pos hc]; congr 1; ring
        simp only [Option.map_some, inUnit, h1, h2, ← mul_max_of_nonneg _ _ hc.le, mul_div_mul_left _ _ hc.ne']

theorem segExtras_unit [FloorRing K] {c : K} (hc : 0 < c) (t : K × K) (d : K) : ∀ (l : List (Option (K × K))) (ins : List Bool),
    segExtras (c * d) (rowsInUnit c t l) ins = segExtras d l ins
  | [], _ => rfl
  | [_], _ => rfl
  | _ :: _ :: _, [] => rfl
  | _ :: _ :: _, [_] => rfl
  | a :: b :: l, i :: j :: ins => by
    have := segExtras_unit hc t d (b :: l) (j :: ins)
    simp only [rowsInUnit, List.map_cons] at this ⊢
    simp only [segExtras, segExtra_unit hc, this]

theorem rangePoint_unit (c : K) (t a b : K × K) (N k : Nat) : rangePoint (inUnit c t a) (inUnit c t b) N k = inUnit c t (rangePoint a b N k) := by
  ext <;> simp only [rangePoint, inUnit] <;> ring

theorem segRows_unit (c : K) (t : K × K) (a b : Option (K × K)) (n : Nat) :
    segRows (a.map (inUnit c t)) (b.map (inUnit c t)) n = rowsInUnit c t (segRows a b n) := by
  unfold segRows rowsInUnit
  split_ifs
  · rfl
  · cases a with
    | none => simp
    | some a => cases b with
      | none => simp
      | some b => simp [rangePoint_unit]

theorem writeAt_map {α β : Type} (f : α → β) (buf : List α) (n : Nat) (rows : List α) : writeAt (buf.map f) n (rows.map f) = (writeAt buf n rows).map (List.map f) := by
  unfold writeAt
  simp only [List.length_map]
  split_ifs
  · simp [List.map_take, List.map_drop]
  · rfl

theorem fillLoop_unit (c : K) (t : K × K) : ∀ (poly : List (Option (K × K))) (nin : List Nat) (buf : List (Option (K × K))) (n : Nat),
    fillLoop (rowsInUnit c t buf) n (rowsInUnit c t poly) nin = (fillLoop buf n poly nin).map (rowsInUnit c t)
  | [], _, _, _ => rfl
  | [_], _, _, _ => rfl
  | _ :: _ :: _, [], _, _ => rfl
  | a :: b :: l, k :: nin, buf, n => by
    have ih := fun buf' => fillLoop_unit c t (b :: l) nin buf' (n + k + 1)
    have hw := writeAt_map (Option.map (inUnit c t)) buf n (segRows a b k)
    have hs := segRows_unit c t a b k
    simp only [rowsInUnit, List.map_cons] at ih hs ⊢
    simp only [fillLoop, hs, hw]
    cases writeAt buf n (segRows a b k) with
    | none => rfl
    | some r => exact ih r

/-- **C151** (2): the same number of points is put in between, at the same places. -/
theorem C151_densify [FloorRing K] {c : K} (hc : 0 < c) (t : K × K) (d : K) (poly : List (Option (K × K))) (inside : List Bool) :
    densify (c * d) (rowsInUnit c t poly) inside = (densify d poly inside).map (rowsInUnit c t) := by
  unfold densify
  simp only [segExtras_unit hc]
  split_ifs
  · rfl
  · have hb : List.replicate ((segExtras d poly inside).sum + (rowsInUnit c t poly).length) none =
        rowsInUnit c t (List.replicate ((segExtras d poly inside).sum + poly.length) none) := by simp [rowsInUnit]
    rw [hb, fillLoop_unit]
    cases fillLoop (List.replicate ((segExtras d poly inside).sum + poly.length) none) 0 poly (segExtras d poly inside) with
    | none => rfl
    | some buf =>
      simp only [Option.map_some, rowsInUnit, List.getLast?_map, List.length_map]
      cases poly.getLast? with
      | none => rfl
      | some r => exact writeAt_map (Option.map (inUnit c t)) buf (buf.length - 1) [r]

/-! ## Clipping -/

theorem ringRows_unit {c : K} {t : K × K} {L : ShapeLib K G} {L' : ShapeLib K H} {m : G → H} (hL : SameShapes c t L L' m) (g : G) :
    ringRows L' (m g) = (ringRows L g).map (rowsInUnit c t) := by
  unfold ringRows
  rw [hL.exterior]
  rcases L.exterior g with _ | (_ | ⟨x, l⟩)
  · rfl
  · rfl
  · simp [rowsInUnit]

theorem flatten_rows (c : K) (t : K × K) (o : Option (List (List (Option (K × K))))) :
    (o.map (List.map (rowsInUnit c t))).map List.flatten = (o.map List.flatten).map (rowsInUnit c t) := by
  cases o with
  | none => rfl
  | some l =>
    simp only [Option.map_some, Option.some.injEq]
    exact (List.map_flatten (f := Option.map (inUnit c t)) (L := l)).symm

theorem clipPart_unit {c : K} {t : K × K} {L : ShapeLib K G} {L' : ShapeLib K H} {m : G → H} (hL : SameShapes c t L L' m) (b : G) (f : List (K × K)) (p : G) :
    clipPart L' (m b) (f.map (inUnit c t)) (m p) = (clipPart L b f p).map (rowsInUnit c t) := by
  unfold clipPart
  simp only [hL.contains, hL.inter, hL.isEmpty, hL.parts]
  split_ifs
  · simp only [Option.map_some, Option.some.injEq]
    exact feature_rows _ f
  · rfl
  · rcases L.parts (L.inter p b) with _ | (_ | ⟨g, gs⟩)
    · rfl
    · rfl
    · have := collect_map (f := ringRows L) (g := ringRows L') (m := m) (n := rowsInUnit c t) (l := g :: gs) fun x _ => ringRows_unit hL x
      simp only [List.map_cons] at this
      simp only [Option.map_some, List.map_cons, this, flatten_rows]

theorem featurePolygon_unit {c : K} {t : K × K} {L : ShapeLib K G} {L' : ShapeLib K H} {m : G → H} (hL : SameShapes c t L L' m) (f : List (K × K)) :
    featurePolygon L' (f.map (inUnit c t)) = (featurePolygon L f).map m := by
  rw [featurePolygon, ← List.map_dropLast, hL.polygon]
  rfl

theorem clipFeature_unit {c : K} {t : K × K} {L : ShapeLib K G} {L' : ShapeLib K H} {m : G → H} (hL : SameShapes c t L L' m) (b : G) (f : List (K × K)) :
    clipFeature L' (m b) (f.map (inUnit c t)) = (clipFeature L b f).map (rowsInUnit c t) := by
  unfold clipFeature
  rw [featurePolygon_unit hL]
  cases featurePolygon L f with
  | none => rfl
  | some g =>
    have hp : (if L'.valid (m g) then [m g] else L'.repaired (m g)) = (if L.valid g then [g] else L.repaired g).map m := by
      rw [hL.valid, hL.repaired]
      split_ifs <;> rfl
    simp only [Option.map_some, hp]
    cases (if L.valid g then [g] else L.repaired g) with
    | nil => rfl
    | cons p ps =>
      have := collect_map (f := clipPart L b f) (g := clipPart L' (m b) (f.map (inUnit c t))) (m := m) (n := rowsInUnit c t) (l := p :: ps) fun x _ => clipPart_unit hL b f x
      simp only [List.map_cons] at this
      simp only [List.map_cons, this, flatten_rows]

theorem inflate_unit (c : K) (t : K × K) (delta : K) (b : Box K) : inflate (c * delta) (boxInUnit c t b) = boxInUnit c t (inflate delta b) := by
  simp only [inflate, boxInUnit, Box.mk.injEq]
  refine ⟨?_, ?_, ?_, ?_⟩ <;> ring

/-- **C151** (3): clipping does the same if its margin is given in the other unit, too. -/
theorem C151_clip {c : K} {t : K × K} {L : ShapeLib K G} {L' : ShapeLib K H} {m : G → H} (hL : SameShapes c t L L' m) (delta : K) (polys : List (Option (K × K))) (b : Box K) :
    clipPolys L' (c * delta) (rowsInUnit c t polys) (boxInUnit c t b) = (clipPolys L delta polys b).map (rowsInUnit c t) := by
  have hb : createBoubox (boxInUnit c t (inflate delta b)) = (createBoubox (inflate delta b)).map (inUnit c t) := rfl
  simp only [clipPolys, inflate_unit, hb, hL.polygon]
  cases L.polygon (createBoubox (inflate delta b)) with
  | none => rfl
  | some B =>
    have := collect_map (f := clipFeature L B) (g := clipFeature L' (m B)) (m := List.map (inUnit c t)) (n := rowsInUnit c t) (l := clumps [] (none :: polys))
      fun x _ => clipFeature_unit hL B x
    simp only [Option.map_some, Option.bind_eq_bind, Option.bind_some, rowsInUnit, clumps_rows]
    rw [this]
    have := flatten_rows c t (collect (clipFeature L B) (clumps [] (none :: polys)))
    cases h : collect (clipFeature L B) (clumps [] (none :: polys)) with
    | none => rfl
    | some r =>
      rw [h] at this
      simpa using this

/-! ## Reading -/

theorem isOverlapping_unit {c : K} (hc : 0 < c) (t : K × K) (a b : Box K) : isOverlapping (boxInUnit c t a) (boxInUnit c t b) = isOverlapping a b := by
  simp only [isOverlapping, boxInUnit, add_lt_add_iff_right, add_le_add_iff_right, mul_lt_mul_iff_right₀ hc, mul_le_mul_iff_right₀ hc]

theorem removeDup2_unit {c : K} {t : K × K} {l : List (K × K)} (h : ∀ q ∈ l, c * q.1 + t.1 = c * q.2 + t.2 ↔ q.1 = q.2) :
    removeDup2 (l.map (inUnit c t)) = (removeDup2 l).map (List.map (inUnit c t)) := by
  cases l with
  | nil => rfl
  | cons x l =>
    simp only [List.map_cons, removeDup2, Option.map_some, Option.some.injEq, List.map_append, List.map_nil]
    congr 1
    · rw [← List.map_cons, List.filter_map]
      congr 1
      refine List.filter_congr fun q hq => ?_
      simp only [Function.comp_apply, inUnit, ne_eq, h q hq]
    · exact congrArg (fun z => [z]) (List.getLast_map (f := inUnit c t) (l := x :: l) (by simp))

theorem readLoop_unit {c : K} (hc : 0 < c) {t : K × K} (b : Box K) : ∀ {fs : List (Feature K)},
    (∀ g ∈ fs, ∀ q ∈ g.coords, c * q.1 + t.1 = c * q.2 + t.2 ↔ q.1 = q.2) →
    readLoop (boxInUnit c t b) (fs.map (featureInUnit c t)) = (readLoop b fs).map (List.map (rowsInUnit c t))
  | [], _ => rfl
  | g :: fs, h => by
    have ih := readLoop_unit hc b fun g' hg => h g' (List.mem_cons_of_mem _ hg)
    simp only [List.map_cons, readLoop, featureInUnit, isOverlapping_unit hc, ih, removeDup2_unit (h g (by simp))]
    split_ifs
    · rfl
    · cases removeDup2 g.coords with
      | none => rfl
      | some p =>
        cases readLoop b fs with
        | none => rfl
        | some r =>
          simp only [Option.map_some, Option.bind_eq_bind, Option.bind_some, Option.pure_def, List.map_cons, Option.some.injEq, List.cons.injEq, and_true]
          exact feature_rows _ p
    · rfl

/-- **C151** (4): reading does the same unless a point has equal coordinates in one place and not in the other. -/
theorem C151_read_partial {c : K} (hc : 0 < c) {t : K × K} (b : Box K) {fs : List (Feature K)}
    (h : ∀ g ∈ fs, ∀ q ∈ g.coords, c * q.1 + t.1 = c * q.2 + t.2 ↔ q.1 = q.2) :
    readShoreline (boxInUnit c t b) (fs.map (featureInUnit c t)) = (readShoreline b fs).map (rowsInUnit c t) := by
  rw [readShoreline, readLoop_unit hc b h, readShoreline]
  cases readLoop b fs with
  | none => rfl
  | some r => exact convertToArray_map _ _

/-! ## Classification -/

theorem det3_shift (t a b d : K × K) : det3 (inUnit 1 t a) (inUnit 1 t b) (inUnit 1 t d) = det3 a b d := by
  simp only [det3, inUnit]; ring

theorem ccwLoop_shift (t : K × K) : ∀ (l : List (K × K)) (d : K), ccwLoop d (l.map (inUnit 1 t)) = ccwLoop d l
  | [], _ => rfl
  | [_], _ => rfl
  | [_, _], _ => rfl
  | [_, _, _], _ => rfl
  | a :: b :: e :: f :: l, d => by
    have := fun d => ccwLoop_shift t (b :: e :: f :: l) d
    simp only [List.map_cons] at this
    simp only [List.map_cons, ccwLoop, det3_shift, this]

theorem isPathCcw_shift (t : K × K) (l : List (K × K)) : isPathCcw (l.map (inUnit 1 t)) = isPathCcw l := by
  simp only [isPathCcw, ccwLoop_shift]

theorem orientBoubox_shift (t : K × K) (b : Box K) (l : List (K × K)) :
    orientBoubox (boxInUnit 1 t b) (l.map (inUnit 1 t)) = (orientBoubox b l).map (List.map (inUnit 1 t)) := by
  simp only [orientBoubox, List.length_map, isPathCcw_shift]
  split_ifs
  · rfl
  · cases isPathCcw l with
    | none => rfl
    | some v => cases v <;> simp

/-- The state of the classification in another unit and with another origin. -/
def stateInUnit (c : K) (t : K × K) (m : G → H) (s : ShoreState (List (K × K) × G) G) : ShoreState (List (K × K) × H) H :=
  ⟨m s.dom, s.inner.map fun x => (x.1.map (inUnit c t), m x.2), s.mainland.map fun x => (x.1.map (inUnit c t), m x.2)⟩

theorem classifyStep_unit {c : K} (hc : 0 < c) {t : K × K} {L : ShapeLib K G} {L' : ShapeLib K H} {m : G → H} (hL : SameShapes c t L L' m) (areaMin : K)
    (s : ShoreState (List (K × K) × G) G) (x : List (K × K) × G) :
    classifyStep (shoreEngine L' false) (c ^ 2 * areaMin) false (stateInUnit c t m s) (x.1.map (inUnit c t), m x.2) =
      stateInUnit c t m (classifyStep (shoreEngine L false) areaMin false s x) := by
  simp only [classifyStep, shoreEngine, Bool.false_eq_true, if_false, stateInUnit, hL.contains, hL.overlaps, hL.area, hL.diff, mul_le_mul_iff_right₀ (pow_pos hc 2)]
  split_ifs <;> simp

theorem classifyShoreline_unit {c : K} (hc : 0 < c) {t : K × K} {L : ShapeLib K G} {L' : ShapeLib K H} {m : G → H} (hL : SameShapes c t L L' m) (areaMin : K) (dom : G)
    (ps : List (List (K × K) × G)) :
    classifyShoreline (shoreEngine L' false) (c ^ 2 * areaMin) false (m dom) (ps.map fun x => (x.1.map (inUnit c t), m x.2)) =
      stateInUnit c t m (classifyShoreline (shoreEngine L false) areaMin false dom ps) := by
  unfold classifyShoreline
  have : ∀ (ps : List (List (K × K) × G)) (s : ShoreState (List (K × K) × G) G),
      (ps.map fun x => (x.1.map (inUnit c t), m x.2)).foldl (classifyStep (shoreEngine L' false) (c ^ 2 * areaMin) false) (stateInUnit c t m s) =
        stateInUnit c t m (ps.foldl (classifyStep (shoreEngine L false) areaMin false) s) := by
    intro ps
    induction ps with
    | nil => intro s; rfl
    | cons x ps ih => intro s; rw [List.map_cons, List.foldl_cons, List.foldl_cons, classifyStep_unit hc hL, ih]
  exact this ps ⟨dom, [], []⟩

/-- **C151** (5): the classification does the same if the orientation of the bounding polygon is found in both units or in none (`C151_orientation_unit`) and the test
for points in the box agrees; without the stereographic option. -/
theorem C151_classify_partial [FloorRing K] {c : K} (hc : 0 < c) {t : K × K} {L : ShapeLib K G} {L' : ShapeLib K H} {m : G → H} (hL : SameShapes c t L L' m)
    {mask mask' : Box K → Option (K × K) → Bool} (hm : ∀ b p, mask' (boxInUnit c t b) (p.map (inUnit c t)) = mask b p) (b : Box K) {boubox : List (K × K)}
    (ho : isPathCcw (boubox.map (inUnit c t)) = isPathCcw boubox) (polys : List (Option (K × K))) (h0 mult : K) :
    classifyAll L' mask' (boxInUnit c t b) (boubox.map (inUnit c t)) (rowsInUnit c t polys) (c * h0) mult false =
      (classifyAll L mask b boubox polys h0 mult false).map (shoreInUnit c t) := by
  have hor : orientBoubox (boxInUnit c t b) (boubox.map (inUnit c t)) = (orientBoubox b boubox).map (List.map (inUnit c t)) := by
    simp only [orientBoubox, List.length_map, ho]
    split_ifs
    · rfl
    · cases isPathCcw boubox with
      | none => rfl
      | some v => cases v <;> simp
  simp only [classifyAll, hor, Option.bind_eq_bind, Option.pure_def]
  cases orientBoubox b boubox with
  | none => rfl
  | some bb =>
    have h1 : ((bb.map (inUnit c t)).map some).map (mask' (boxInUnit c t b)) = (bb.map some).map (mask b) := by
      simp only [List.map_map]
      refine List.map_congr_left fun q _ => ?_
      exact hm b (some q)
    have h2 : (bb.map (inUnit c t)).map some = rowsInUnit c t (bb.map some) := by simp [rowsInUnit]
    simp only [Option.map_some, Option.bind_some]
    rw [h1, h2, mul_div_assoc, C151_densify hc]
    cases densify (h0 / 2) (bb.map some) ((bb.map some).map (mask b)) with
    | none => rfl
    | some bd =>
      have h3 : (rowsInUnit c t bd).filterMap id = (bd.filterMap id).map (inUnit c t) := by
        simp only [rowsInUnit, List.filterMap_map, List.map_filterMap]
        rfl
      simp only [Option.map_some, Option.bind_some, h3, hL.polygon]
      cases L.polygon (bd.filterMap id) with
      | none => rfl
      | some B =>
        have h4 := collect_map (f := fun f => (featurePolygon L f).map fun g => (f, g)) (g := fun f => (featurePolygon L' f).map fun g => (f, g))
          (m := List.map (inUnit c t)) (n := fun x : List (K × K) × G => (x.1.map (inUnit c t), m x.2)) (l := clumps [] (none :: polys)) fun f _ => by
            rw [featurePolygon_unit hL, Option.map_map, Option.map_map]; rfl
        simp only [Option.map_some, Option.bind_some]
        rw [rowsInUnit, clumps_rows, h4]
        cases collect (fun f => (featurePolygon L f).map fun g => (f, g)) (clumps [] (none :: polys)) with
        | none => rfl
        | some ps =>
          have ha : mult * (c * h0) ^ 2 = c ^ 2 * (mult * h0 ^ 2) := by ring
          simp only [Option.map_some, Option.bind_some, ha, classifyShoreline_unit hc hL]
          generalize classifyShoreline (shoreEngine L false) (mult * h0 ^ 2) false B ps = st
          simp only [stateInUnit, hL.parts]
          cases L.parts st.dom with
          | none => rfl
          | some gs =>
            have h5 := collect_map (f := ringRows L) (g := ringRows L') (m := m) (n := rowsInUnit c t) (l := gs) fun x _ => ringRows_unit hL x
            simp only [Option.map_some, Option.bind_some]
            rw [h5]
            cases collect (ringRows L) gs with
            | none => rfl
            | some r =>
              have h6 : ∀ l : List (List (K × K) × G), (l.map fun x => (x.1.map (inUnit c t), m x.2)).map (fun x => x.1.map some ++ [none]) =
                  (l.map fun x => x.1.map some ++ [none]).map (rowsInUnit c t) := by
                intro l
                simp only [List.map_map]
                refine List.map_congr_left fun x _ => ?_
                exact feature_rows _ x.1
              have h7 : ∀ l : List (List (Option (K × K))), (l.map (rowsInUnit c t)).flatten = rowsInUnit c t l.flatten :=
                fun l => (List.map_flatten (f := Option.map (inUnit c t)) (L := l)).symm
              simp only [Option.map_some, Option.bind_some, shoreInUnit, Option.some.injEq, Shore.mk.injEq]
              exact ⟨by rw [h6, h7], by rw [h6, h7], h7 r⟩

/-! ## The class -/

theorem foldl_min_shift {α : Type} (f : α → K) (s : K) : ∀ (l : List α) (a : K), (l.map fun q => f q + s).foldl min (a + s) = (l.map f).foldl min a + s
  | [], _ => rfl
  | q :: l, a => by
    simp only [List.map_cons, List.foldl_cons, min_add_add_right]
    exact foldl_min_shift f s l _

theorem foldl_max_shift {α : Type} (f : α → K) (s : K) : ∀ (l : List α) (a : K), (l.map fun q => f q + s).foldl max (a + s) = (l.map f).foldl max a + s
  | [], _ => rfl
  | q :: l, a => by
    simp only [List.map_cons, List.foldl_cons, max_add_add_right]
    exact foldl_max_shift f s l _

theorem regionShape_shift (t : K × K) (e : Extent K) :
    regionShape (regionInUnit 1 t e) = (regionShape e).map fun x => (x.1.map (inUnit 1 t), boxInUnit 1 t x.2) := by
  cases e with
  | tuple l =>
    rcases l with _ | ⟨a, _ | ⟨b, _ | ⟨d, _ | ⟨e, _ | ⟨f, l⟩⟩⟩⟩⟩ <;> rfl
  | polygon pts =>
    simp only [regionInUnit, regionShape, isPathCcw_shift, Option.bind_eq_bind, Option.pure_def]
    cases isPathCcw pts with
    | none => rfl
    | some v =>
      have hr : (if v then pts.map (inUnit 1 t) else (pts.map (inUnit 1 t)).reverse) = (if v then pts else pts.reverse).map (inUnit 1 t) := by cases v <;> simp
      simp only [Option.bind_some, hr]
      cases (if v then pts else pts.reverse) with
      | nil => rfl
      | cons q l =>
        have e1 : (fun q : K × K => 1 * q.1 + t.1) = fun q => q.1 + t.1 := by funext q; rw [one_mul]
        have e2 : (fun q : K × K => 1 * q.2 + t.2) = fun q => q.2 + t.2 := by funext q; rw [one_mul]
        simp only [List.map_cons, Option.map_some, List.map_map, Function.comp_def, inUnit, boxInUnit, Option.some.injEq, Prod.mk.injEq, Box.mk.injEq, true_and, one_mul]
        exact ⟨foldl_min_shift Prod.fst t.1 l q.1, foldl_max_shift Prod.fst t.1 l q.1, foldl_min_shift Prod.snd t.2 l q.2, foldl_max_shift Prod.snd t.2 l q.2⟩

theorem shorelineSteps_shift [FloorRing K] {t : K × K} {L : ShapeLib K G} {L' : ShapeLib K H} {m : G → H} (hL : SameShapes 1 t L L' m)
    {mask mask' : Box K → Option (K × K) → Bool} (hm : ∀ b p, mask' (boxInUnit 1 t b) (p.map (inUnit 1 t)) = mask b p) {a : ShoreArgs K} (ha : a.stereo = false)
    (n : Nat) (bb : List (K × K)) (b : Box K) {fs : List (Feature K)} (hf : ∀ g ∈ fs, ∀ q ∈ g.coords, q.1 + t.1 = q.2 + t.2 ↔ q.1 = q.2) :
    shorelineSteps L' mask' a n (bb.map (inUnit 1 t)) (boxInUnit 1 t b) (fs.map (featureInUnit 1 t)) =
      (shorelineSteps L mask a n bb b fs).map fun x => (boxInUnit 1 t x.1, shoreInUnit 1 t x.2) := by
  simp only [shorelineSteps, ha, Bool.false_eq_true, if_false, Option.bind_eq_bind, Option.pure_def, Option.bind_some]
  have hread := C151_read_partial one_pos (t := t) b (fs := fs) (by simpa using hf)
  rw [hread]
  cases readShoreline b fs with
  | none => rfl
  | some polys =>
    have hsm : (if a.smooth = true then smoothShoreline n (rowsInUnit 1 t polys) else some (rowsInUnit 1 t polys)) =
        (if a.smooth = true then smoothShoreline n polys else some polys).map (rowsInUnit 1 t) := by
      split_ifs
      · exact C151_smooth 1 t _ polys
      · rfl
    simp only [Option.map_some, Option.bind_some]
    rw [hsm]
    cases (if a.smooth = true then smoothShoreline n polys else some polys) with
    | none => rfl
    | some ps =>
      have hmask : (rowsInUnit 1 t ps).map (mask' (boxInUnit 1 t b)) = ps.map (mask b) := by
        simp only [rowsInUnit, List.map_map]
        exact List.map_congr_left fun q _ => hm b q
      have hd := C151_densify one_pos t a.h0 ps (ps.map (mask b))
      rw [one_mul] at hd
      simp only [Option.map_some, Option.bind_some, hmask, hd]
      cases densify a.h0 ps (ps.map (mask b)) with
      | none => rfl
      | some pd =>
        have hcl := C151_clip hL (1 / 10) pd b
        rw [one_mul] at hcl
        simp only [Option.map_some, Option.bind_some, hcl]
        cases clipPolys L (1 / 10) pd b with
        | none => rfl
        | some pc =>
          have hcf := C151_classify_partial one_pos hL hm b (isPathCcw_shift t bb) pc (a.h0 / 2) a.mult
          rw [one_mul] at hcf
          simp only [Option.map_some, Option.bind_some, hcf]
          cases classifyAll L mask b bb pc (a.h0 / 2) a.mult false <;> rfl

/-- **C151** (6): a `Shoreline` in another place: region and file moved, so are the box and the three arrays of polygons, and it raises in one place exactly if it does in
the other; provided no point has equal coordinates in one place and not in the other (`C151_read_place`), and without the stereographic option. -/
theorem C151_shoreline_partial [FloorRing K] {t : K × K} {L : ShapeLib K G} {L' : ShapeLib K H} {m : G → H} (hL : SameShapes 1 t L L' m)
    {mask mask' : Box K → Option (K × K) → Bool} (hm : ∀ b p, mask' (boxInUnit 1 t b) (p.map (inUnit 1 t)) = mask b p) {a : ShoreArgs K} (ha : a.stereo = false)
    (e : Extent K) {fs : List (Feature K)} (hf : ∀ g ∈ fs, ∀ q ∈ g.coords, q.1 + t.1 = q.2 + t.2 ↔ q.1 = q.2) :
    shoreline L' mask' a (regionInUnit 1 t e) (fs.map (featureInUnit 1 t)) = (shoreline L mask a e fs).map fun x => (boxInUnit 1 t x.1, shoreInUnit 1 t x.2) := by
  simp only [shoreline, regionShape_shift, Option.bind_eq_bind]
  cases regionShape e with
  | none => rfl
  | some r =>
    obtain ⟨bb, b⟩ := r
    have hx : ∀ x y s : K, 1 * x + s < 1 * y + s ↔ x < y := fun x y s => by rw [one_mul, one_mul, add_lt_add_iff_right]
    have hs := shorelineSteps_shift hL hm ha a.refinements.toNat bb b hf
    by_cases h1 : b.xmax < b.xmin
    · simp only [Option.map_some, Option.bind_some, checkExtent, boxInUnit, hx, if_pos h1, Option.bind_none, Option.map_none]
    by_cases h2 : b.ymax < b.ymin
    · simp only [Option.map_some, Option.bind_some, checkExtent, boxInUnit, hx, if_neg h1, if_pos h2, Option.bind_none, Option.map_none]
    have h1' : ¬ (boxInUnit 1 t b).xmax < (boxInUnit 1 t b).xmin := by simpa only [boxInUnit, hx] using h1
    have h2' : ¬ (boxInUnit 1 t b).ymax < (boxInUnit 1 t b).ymin := by simpa only [boxInUnit, hx] using h2
    simp only [Option.map_some, Option.bind_some, checkExtent, if_neg h1, if_neg h2, if_neg h1', if_neg h2', hs]
    split_ifs <;> rfl

end

/-! ## What depends on place or unit -/

/-- **C151**, finding: a point of the file is dropped where its coordinates are equal (`remove_dup` works along the wrong axis), so the shoreline depends on the place: the
triangle loses a corner here and keeps it when moved. -/
theorem C151_read_place :
    readShoreline (⟨0, 10, 0, 10⟩ : Box ℚ) [⟨⟨0, 4, 1, 2⟩, .polygon, [(0, 1), (2, 2), (4, 1), (0, 1)]⟩] = some [some (0, 1), some (4, 1), some (0, 1), some (0, 1), none] ∧
      readShoreline (boxInUnit 1 (7, 0) (⟨0, 10, 0, 10⟩ : Box ℚ)) ([⟨⟨0, 4, 1, 2⟩, .polygon, [(0, 1), (2, 2), (4, 1), (0, 1)]⟩].map (featureInUnit 1 (7, 0))) =
        some [some (7, 1), some (9, 2), some (11, 1), some (7, 1), some (7, 1), none] := by decide +kernel

/-- **C151**, finding: the tolerance of the orientation test has a unit, the square of a length: of a square with side 0.0001 the orientation is not found and the call
raises, in a unit a thousand times smaller it is found. -/
theorem C151_orientation_unit :
    isPathCcw [((0 : ℚ), (0 : ℚ)), (1 / 10000, 0), (1 / 10000, 1 / 10000), (0, 1 / 10000), (0, 0)] = none ∧
      isPathCcw ([((0 : ℚ), (0 : ℚ)), (1 / 10000, 0), (1 / 10000, 1 / 10000), (0, 1 / 10000), (0, 0)].map (inUnit 1000 (0, 0))) = some true := by decide +kernel

/-- **C151**, finding: `np.isclose` measures from the origin, so whether a line counts as closed depends on the place: the open line is closed here and left open a
million away. -/
theorem C151_close_place :
    closeLine [((0 : ℚ), (0 : ℚ)), (4, 0), (4, 3)] = some [some (0, 0), some (4, 0), some (4, 3), some (0, 0), none] ∧
      closeLine ([((0 : ℚ), (0 : ℚ)), (4, 0), (4, 3)].map (inUnit 1 (1000000, 1000000))) =
        some [some (1000000, 1000000), some (1000004, 1000000), some (1000004, 1000003), none] := by decide +kernel

/-- **C151**, finding: the length of a polygon depends on the place for the same reason. -/
theorem C151_length_place : polyLength [(0, 0), (3, 4)] = some 10 ∧ polyLength ([((0 : ℝ), (0 : ℝ)), (3, 4)].map (inUnit 1 (1000000, 1000000))) = some 5 := by
  have h5 : Real.sqrt 25 = 5 := by rw [show (25 : ℝ) = 5 ^ 2 by norm_num]; exact Real.sqrt_sq (by norm_num)
  constructor
  · simp only [polyLength, List.head?_cons, List.getLast?_cons_cons, List.getLast?_singleton, isCloseTo]
    norm_num [pathLength, h5, abs_of_pos, abs_of_neg]
  · simp only [polyLength, inUnit, List.map_cons, List.map_nil, List.head?_cons, List.getLast?_cons_cons, List.getLast?_singleton, isCloseTo]
    norm_num [pathLength, h5, abs_of_pos, abs_of_neg]

/-! ## Examples -/

theorem foldl_min_unit {α : Type} (f : α → ℚ) {c : ℚ} (hc : 0 < c) (s : ℚ) : ∀ (l : List α) (a : ℚ), (l.map fun q => c * f q + s).foldl min (c * a + s) = c * (l.map f).foldl min a + s
  | [], _ => rfl
  | q :: l, a => by
    simp only [List.map_cons, List.foldl_cons, min_add_add_right, ← mul_min_of_nonneg _ _ hc.le]
    exact foldl_min_unit f hc s l _

theorem foldl_max_unit {α : Type} (f : α → ℚ) {c : ℚ} (hc : 0 < c) (s : ℚ) : ∀ (l : List α) (a : ℚ), (l.map fun q => c * f q + s).foldl max (c * a + s) = c * (l.map f).foldl max a + s
  | [], _ => rfl
  | q :: l, a => by
    simp only [List.map_cons, List.foldl_cons, max_add_add_right, ← mul_max_of_nonneg _ _ hc.le]
    exact foldl_max_unit f hc s l _

theorem boxCap_unit {c : ℚ} (hc : 0 < c) (t : ℚ × ℚ) (a b : Box ℚ) : boxCap (boxInUnit c t a) (boxInUnit c t b) = boxInUnit c t (boxCap a b) := by
  simp only [boxCap, boxInUnit, max_add_add_right, min_add_add_right, ← mul_max_of_nonneg _ _ hc.le, ← mul_min_of_nonneg _ _ hc.le]

theorem boxIn_unit {c : ℚ} (hc : 0 < c) (t : ℚ × ℚ) (a b : Box ℚ) : boxIn (boxInUnit c t a) (boxInUnit c t b) = boxIn a b := by
  simp only [boxIn, boxInUnit, add_le_add_iff_right, mul_le_mul_iff_right₀ hc]

/-- The library of the examples in another place and unit. -/
theorem boxLib_moved {c : ℚ} (hc : 0 < c) (t : ℚ × ℚ) : SameShapes c t boxLib boxLib (boxInUnit c t) where
  polygon l := by
    cases l with
    | nil => rfl
    | cons q l =>
      simp only [boxLib, List.map_cons, boxAround, Option.map_some, List.map_map, Function.comp_def, inUnit, boxInUnit, Option.some.injEq, Box.mk.injEq]
      exact ⟨foldl_min_unit Prod.fst hc t.1 l q.1, foldl_max_unit Prod.fst hc t.1 l q.1, foldl_min_unit Prod.snd hc t.2 l q.2, foldl_max_unit Prod.snd hc t.2 l q.2⟩
  valid _ := rfl
  repaired _ := rfl
  contains a b := boxIn_unit hc t a b
  overlaps a b := by
    simp only [boxLib, boxCap_unit hc, boxIn_unit hc]
    simp only [boxInUnit, add_le_add_iff_right, mul_le_mul_iff_right₀ hc]
  inter a b := boxCap_unit hc t a b
  diff a b := by
    simp only [boxLib, boxInUnit, add_le_add_iff_right, mul_le_mul_iff_right₀ hc]
    split_ifs <;> rfl
  isEmpty g := by simp only [boxLib, boxInUnit, add_le_add_iff_right, mul_le_mul_iff_right₀ hc]
  parts _ := rfl
  exterior _ := rfl
  area g := by simp only [boxLib, boxInUnit]; ring

/-- **C151**, finding: the margin of the clipping is 0.1 in every unit, so the clipped shoreline depends on the unit. -/
theorem C151_margin_unit :
    clipPolys boxLib (1 / 10) (rowsInUnit 10 (0, 0) [some (-3, 1), some (2, 1), some (2, 5), some (-3, 5), some (-3, 1), some (-3, 1), none]) (boxInUnit 10 (0, 0) ⟨0, 10, 0, 8⟩) ≠
      (clipPolys boxLib (1 / 10) [some (-3, 1), some (2, 1), some (2, 5), some (-3, 5), some (-3, 1), some (-3, 1), none] ⟨0, 10, 0, 8⟩).map (rowsInUnit 10 (0, 0)) := by
  decide +kernel

example := C151_smooth (3 : ℚ) (5, 7) 2 [some (0, 0), some (1, 0), some (1, 1), some (0, 0), none]
example := C151_densify (c := (3 : ℚ)) (by norm_num) (5, 7) (1 / 2) [some (0, 0), some (1, 0), some (1, 1), none] [true, true, true, true]
example := C151_clip (boxLib_moved (c := 10) (by norm_num) (5, 7)) (1 / 10) [some (-3, 1), some (2, 1), some (2, 5), some (-3, 5), some (-3, 1), some (-3, 1), none] ⟨0, 10, 0, 8⟩
example := C151_read_partial (c := (10 : ℚ)) (t := (5, 5)) (by norm_num) ⟨0, 10, 0, 8⟩ (fs := fileFeatures) fun g _ q _ => by simp
example := C151_classify_partial (c := (10 : ℚ)) (by norm_num) (boxLib_moved (by norm_num) (5, 7)) (mask := fun _ _ => true) (mask' := fun _ _ => true) (fun _ _ => rfl)
  ⟨0, 10, 0, 8⟩ (boubox := createBoubox ⟨0, 10, 0, 8⟩) (by decide +kernel) [some (5, 2), some (6, 2), some (6, 3), some (5, 3), some (5, 2), some (5, 2), none] 1 4

/-- The shoreline of the example, moved; the mask is the box itself. -/
example := C151_shoreline_partial (t := (20, 30)) (boxLib_moved one_pos (20, 30)) (mask := fun b p => p.any fun q => decide (b.xmin ≤ q.1))
  (mask' := fun b p => p.any fun q => decide (b.xmin ≤ q.1)) (fun b p => by cases p <;> simp [inUnit, boxInUnit]) (a := ⟨1, 1, 4, true, false⟩) rfl (.tuple [0, 10, 0, 8])
  (fs := [fileRect 5 2 1 1, fileRect (-3) 1 5 7]) (by decide +kernel)

end OM
