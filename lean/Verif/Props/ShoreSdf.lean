import Verif.Model.ShoreSdf
import Verif.Props.InpolyRegion
import Verif.Props.Edges
import Verif.Props.Sdf
import Verif.Props.Rings
import Verif.Props.Shoreline
/-!
# C102: the signed distance function of a shoreline, from its polygon arrays to the sign of the answers
-/
set_option linter.unusedSectionVars false
namespace OM.Spec
section
variable {K : Type} [Field K] [LinearOrder K]

/-- `q` is a point of one of the closed triangles. -/
def InRegion (ts : List ((K × K) × (K × K) × (K × K))) (q : K × K) : Prop := ∃ t ∈ ts, InClosedTriangle q t.1 t.2.1 t.2.2

/-- All points of the edges are farther than `ε` from `q`, in the sum of the coordinate differences. -/
def AwayBy (ε : K) (q : K × K) (edges : List ((K × K) × (K × K))) : Prop :=
  ∀ e ∈ edges, e.1 ≠ e.2 → ∀ p, OnClosedSegment p e.1 e.2 → ε < |q.1 - p.1| + |q.2 - p.2|

end
end OM.Spec

namespace OM
open Spec

section
variable {K : Type} [Field K] [LinearOrder K] [IsStrictOrderedRing K]

/-- The answers of `inpoly2` for the rings of a shoreline array. -/
def ringTest (T : SdfTools K) (fs : List (List (K × K))) (q : K × K) : Bool × Bool :=
  if T.cfg.env = none ∧ T.cfg.compiled = true then cPoint T.ftol (fs.flatMap segments) q
  else pyPoint T.ftol (joinNaN fs).length (fs.flatMap segments) q

theorem poly_rows {arr : List (Option (K × K))} : ∀ {es : List (Int × Int)} {segs : List (Seg K)},
    es.map (fun e => (pointAt arr e.1, pointAt arr e.2)) = segs.map (fun s => (some s.1, some s.2)) →
    checkEdges arr.length es = some (es.map fun e => (e.1.toNat, e.2.toNat)) ∧
      segsOf (arr.map nanToNum) (es.map fun e => (e.1.toNat, e.2.toNat)) = some segs
  | [], segs, h => by
    have : segs = [] := by simpa using h.symm
    subst this
    exact ⟨rfl, rfl⟩
  | e :: es, [], h => by simp at h
  | e :: es, s :: segs, h => by
    simp only [List.map_cons, List.cons.injEq, Prod.mk.injEq] at h
    obtain ⟨⟨h1, h2⟩, h3⟩ := h
    obtain ⟨i1, i2⟩ := poly_rows h3
    have row : ∀ {i : Int} {p : K × K}, pointAt arr i = some p → 0 ≤ i ∧ i < arr.length ∧ (arr.map nanToNum)[i.toNat]? = some p := by
      intro i p hp
      unfold pointAt at hp
      split at hp
      · rename_i h0
        cases hr : arr[i.toNat]? with
        | none => simp [hr] at hp
        | some o =>
          cases o with
          | none => simp [hr] at hp
          | some p' =>
            simp only [hr, Option.join_some, Option.some.injEq] at hp
            subst hp
            have := (List.getElem?_eq_some_iff.1 hr).1
            refine ⟨h0, by omega, ?_⟩
            rw [List.getElem?_map, hr]; rfl
      · simp at hp
    obtain ⟨a1, a2, a3⟩ := row h1
    obtain ⟨b1, b2, b3⟩ := row h2
    constructor
    · unfold checkEdges at i1 ⊢
      split at i1
      · rename_i hall
        rw [if_pos (by
          rw [List.all_cons, hall]
          simp [a1, a2, b1, b2])]
      · simp at i1
    · unfold segsOf at i2 ⊢
      simp only [List.map_cons, a3, b3, collectAll, i2, Option.map_some]

theorem putFinite_map {A : Type} (d : A) (f : K × K → A) : ∀ x : List (QueryPoint K),
    putFinite d x ((x.filterMap finitePoint).map f) = some (x.map fun q => match finitePoint q with
      | some p => f p
      | none => d)
  | [] => rfl
  | q :: x => by
    have ih := putFinite_map d f x
    cases hq : finitePoint q with
    | none => simp only [putFinite, List.filterMap_cons, hq, ih, List.map_cons, Option.map_some]
    | some p => simp only [putFinite, List.filterMap_cons, hq, ih, List.map_cons, Option.map_some]

theorem filterMap_finite (l : List (K × K)) : (l.map fun p => ((some p.1, some p.2) : QueryPoint K)).filterMap finitePoint = l := by
  induction l with
  | nil => rfl
  | cons p l ih => simp only [List.map_cons, List.filterMap_cons, finitePoint, ih]

/-- `inpoly2` for a shoreline array. -/
theorem insideMask_eq (T : SdfTools K) {fs : List (List (K × K))} (hne : fs ≠ []) (hfs : ∀ f ∈ fs, ClosedTwice f) {es : List (Int × Int)}
    (hes : getPolyEdges ((joinNaN fs).map Option.isNone) = some es) {x : List (QueryPoint K)} (hx : x.filterMap finitePoint ≠ []) :
    insideMask T (joinNaN fs) es x = some (x.map fun q => match finitePoint q with
      | some p => (ringTest T fs p).1
      | none => false) := by
  obtain ⟨es', h1, h2⟩ := C04_poly_edges_complete_partial fs hne hfs
  obtain rfl : es = es' := Option.some.inj (hes.symm.trans h1)
  obtain ⟨c1, c2⟩ := poly_rows h2
  obtain ⟨f, gs, rfl⟩ := List.exists_cons_of_ne_nil hne
  have hlen : 2 ≤ f.length := by
    obtain ⟨p, g, rfl⟩ := hfs f (by simp)
    simp
  have hker : ∀ n, kernelFor T.cfg T.shapely T.mpl T.ftol ((joinNaN (f :: gs)).map nanToNum) (es.map fun e => (e.1.toNat, e.2.toNat)) n =
      some (ringTest T (f :: gs)) := by
    intro n
    have hr := C53_shoreline_edges (f :: gs) f (by simp) hlen (joinNaN (f :: gs)).length es _ hes c1
    unfold kernelFor
    rw [c2]
    simp only [enginePoints, hr]
    unfold ringTest
    split_ifs <;> simp_all
  have hnode : (joinNaN (f :: gs)).map nanToNum ≠ [] := by simp [joinNaN]
  have hlen' : ((joinNaN (f :: gs)).map nanToNum).length = (joinNaN (f :: gs)).length := by simp
  unfold insideMask inpoly2
  rw [if_neg hnode]
  simp only [hlen', c1, Option.map_some, filterMap_finite, hker]
  have hx' : (x.filterMap finitePoint).length ≠ 0 := by simpa using hx
  rw [if_neg hx']
  simp only [Option.bind_some]
  rw [← putFinite_map false (fun p => (ringTest T (f :: gs) p).1) x]
  congr 1
  rw [List.map_map, List.map_map]
  exact List.map_congr_left fun p _ => rfl

theorem filterMap_joinNaN (fs : List (List (K × K))) : (joinNaN fs).filterMap id = fs.flatten := by
  induction fs with
  | nil => rfl
  | cons f fs ih => 
    rw [joinNaN, List.filterMap_append, List.filterMap_cons, List.filterMap_map, List.flatten_cons, ← ih]
    simp

theorem joinNaN_append' {α : Type} (a b : List (List α)) : joinNaN a ++ joinNaN b = joinNaN (a ++ b) := by
  induction a with
  | nil => rfl
  | cons f a ih => simp [joinNaN, ih]

theorem zip_sign {A : Type} (x : List A) (a b : A → Bool) (d : A → K) :
    List.zipWith signFlip (List.zipWith (fun a b => a && b) (x.map a) (x.map b)) (x.map d) = x.map fun q => signFlip (a q && b q) (d q) := by
  induction x with
  | nil => rfl
  | cons q x ih => simp [ih]

theorem zip_sign1 {A : Type} (x : List A) (a : A → Bool) (d : A → K) :
    List.zipWith signFlip (x.map a) (x.map d) = x.map fun q => signFlip (a q) (d q) := by
  induction x with
  | nil => rfl
  | cons q x ih => simp [ih]

theorem no_finite {x : List (QueryPoint K)} (h : x.filterMap finitePoint = []) {q : QueryPoint K} (hq : q ∈ x) : finitePoint q = none := by
  rw [List.filterMap_eq_nil_iff] at h
  exact h q hq

/-- **C102** for closed rings the functions of the domain are defined for every array of points and work point by point: the sign comes from the tests with
the rings, the size is the distance to the nearest vertex. -/
theorem C102_pointwise (T : SdfTools K) {inner box : List (List (K × K))} (hi : ∀ f ∈ inner, ClosedTwice f) (hb : ∀ f ∈ box, ClosedTwice f) (hne : box ≠ [])
    (invert : Bool) : ∃ func covering, signedDistanceFunction T (joinNaN inner) (joinNaN box) invert = some (func, covering) ∧
      (∀ x, func x = some (x.map (sdfAt (fun p => (ringTest T box p).1) (fun p => (ringTest T (inner ++ box) p).1) (T.near (inner ++ box).flatten) invert))) ∧
      ∀ x, covering x = some (x.map (coveringAt (fun p => (ringTest T box p).1) (T.near box.flatten))) := by
  have hne' : inner ++ box ≠ [] := by simp [hne]
  have hall : ∀ f ∈ inner ++ box, ClosedTwice f := by
    intro f hf
    rcases List.mem_append.1 hf with h | h
    · exact hi f h
    · exact hb f h
  obtain ⟨e, e1, -⟩ := C04_poly_edges_complete_partial _ hne' hall
  obtain ⟨eb, b1, -⟩ := C04_poly_edges_complete_partial _ hne hb
  refine ⟨domainFunc T (joinNaN box) eb (joinNaN (inner ++ box)) e invert, coveringFunc T (joinNaN box) eb, ?_, fun x => ?_, fun x => ?_⟩
  · unfold signedDistanceFunction
    simp only [joinNaN_append', e1, b1]
    rfl
  · have key : domainParts T (joinNaN box) eb (joinNaN (inner ++ box)) e x = some (
        x.map fun q => match finitePoint q with
          | some p => (ringTest T box p).1
          | none => false,
        x.map fun q => match finitePoint q with
          | some p => (ringTest T (inner ++ box) p).1
          | none => false,
        x.map fun q => match finitePoint q with
          | some p => T.near (inner ++ box).flatten p
          | none => 1000000000000) := by
      unfold domainParts
      by_cases hx : x.filterMap finitePoint = []
      · rw [if_pos hx]
        congr 1
        refine Prod.ext ?_ (Prod.ext ?_ ?_) <;> exact List.map_congr_left fun q hq => by rw [no_finite hx hq]
      · rw [if_neg hx, insideMask_eq T hne hb b1 hx, insideMask_eq T hne' hall e1 hx]
        unfold distances
        rw [putFinite_map, filterMap_joinNaN]
    unfold domainFunc
    rw [key]
    simp only [Option.map_some, zip_sign]
    congr 1
    cases invert with
    | false =>
      refine List.map_congr_left fun q _ => ?_
      rcases q with ⟨_ | x, _ | y⟩ <;> simp [sdfAt, finitePoint, signFlip]
    | true =>
      rw [if_pos rfl, List.map_map]
      refine List.map_congr_left fun q _ => ?_
      rcases q with ⟨_ | x, _ | y⟩ <;> simp [sdfAt, finitePoint, signFlip]
  · unfold coveringFunc
    by_cases hx : x.filterMap finitePoint = []
    · rw [if_pos hx, zip_sign1]
      congr 1
      refine List.map_congr_left fun q hq => ?_
      have := no_finite hx hq
      rcases q with ⟨_ | x, _ | y⟩ <;> simp_all [coveringAt, finitePoint, signFlip]
    · rw [if_neg hx, insideMask_eq T hne hb b1 hx]
      unfold distances
      rw [putFinite_map, filterMap_joinNaN]
      simp only [zip_sign1]
      congr 1
      refine List.map_congr_left fun q _ => ?_
      rcases q with ⟨_ | x, _ | y⟩
      · simp [coveringAt, finitePoint, signFlip]
      · simp [coveringAt, finitePoint, signFlip]
      · simp [coveringAt, finitePoint, signFlip]
      · rfl

/-! ## Signs -/

theorem cOnSegment_near {ftol : K} {q : K × K} {s : Seg K} (h : cOnSegment ftol q s = true) :
    s.1 ≠ s.2 ∧ ∃ p, OnClosedSegment p s.1 s.2 ∧ |q.1 - p.1| + |q.2 - p.2| ≤ ftol := by
  unfold cOnSegment at h
  dsimp only at h
  split at h
  · rename_i hd
    simp only [Bool.and_eq_true, decide_eq_true_eq] at h
    obtain ⟨⟨h0, h1⟩, h2⟩ := h
    refine ⟨?_, (_, _), ⟨_, h0, h1, rfl, rfl⟩, h2⟩
    intro e
    rw [e] at hd
    simp at hd
  · simp at h

theorem cLoop_flag {ftol : K} {q : K × K} : ∀ {l : List (Seg K)} {i : Bool}, (cLoop ftol q l i).1 = true → ∃ s ∈ l, cOnSegment ftol q s = true
  | [], i, h => by simp [cLoop] at h
  | s :: l, i, h => by
    unfold cLoop at h
    split_ifs at h with h1 h2 h3
    · obtain ⟨x, hx, h⟩ := cLoop_flag h; exact ⟨x, List.mem_cons_of_mem _ hx, h⟩
    · exact ⟨s, by simp, h2⟩
    · obtain ⟨x, hx, h⟩ := cLoop_flag h; exact ⟨x, List.mem_cons_of_mem _ hx, h⟩
    · obtain ⟨x, hx, h⟩ := cLoop_flag h; exact ⟨x, List.mem_cons_of_mem _ hx, h⟩

theorem away_not_flagged {ftol : K} {q : K × K} {segs : List (Seg K)} (h : AwayBy ftol q segs) : (cPoint ftol segs q).2 = false := by
  unfold cPoint
  dsimp only
  split
  · rename_i h1
    obtain ⟨s, hs, h2⟩ := cLoop_flag h1
    obtain ⟨hne, p, hp, hle⟩ := cOnSegment_near h2
    exact absurd (h s hs hne p hp) (not_lt.2 hle)
  · rfl

theorem closedTwice_length {fs : List (List (K × K))} (hne : fs ≠ []) (hfs : ∀ f ∈ fs, ClosedTwice f) : 3 ≤ (joinNaN fs).length := by
  obtain ⟨f, gs, rfl⟩ := List.exists_cons_of_ne_nil hne
  obtain ⟨p, g, rfl⟩ := hfs f (by simp)
  simp [joinNaN]; omega

/-- A value of `func` and the point it belongs to. -/
theorem value_at {func : List (QueryPoint K) → Option (List K)} {g : QueryPoint K → K} (h : ∀ x, func x = some (x.map g)) {x : List (QueryPoint K)} {i : Nat}
    {q : QueryPoint K} (hq : x[i]? = some q) : ∃ r, func x = some r ∧ r.length = x.length ∧ r[i]? = some (g q) :=
  ⟨_, h x, by simp, by rw [List.getElem?_map, hq]; rfl⟩

/-- **C102**, signs with the compiled test: a point away from the edges gets a negative value exactly if it lies in the region of the bounding polygon and in
that of all polygons, and is no vertex; the size is the distance to the nearest vertex. -/
theorem C102_sign (T : SdfTools K) (hT : T.cfg.env = none ∧ T.cfg.compiled = true) (hf : 0 ≤ T.ftol) {inner box : List (List (K × K))}
    (hi : ∀ f ∈ inner, ClosedTwice f) (hb : ∀ f ∈ box, ClosedTwice f) (hne : box ≠ []) {dist : K × K → K × K → K}
    (hd : NearestDistance dist (inner ++ box).flatten (T.near (inner ++ box).flatten)) {tsB tsS : List ((K × K) × (K × K) × (K × K))}
    (hB : Triangulates tsB (box.flatMap segments)) (hS : Triangulates tsS ((inner ++ box).flatMap segments)) {invert : Bool}
    {func covering : List (QueryPoint K) → Option (List K)} (h : signedDistanceFunction T (joinNaN inner) (joinNaN box) invert = some (func, covering))
    {x : List (QueryPoint K)} {i : Nat} {q : K × K} (hq : x[i]? = some (some q.1, some q.2)) (hqa : AwayBy T.ftol q ((inner ++ box).flatMap segments)) :
    ∃ r v, func x = some r ∧ r.length = x.length ∧ r[i]? = some v ∧ |v| = T.near (inner ++ box).flatten q ∧
      (invert = false → (v < 0 ↔ InRegion tsB q ∧ InRegion tsS q ∧ q ∉ (inner ++ box).flatten)) ∧
      (invert = true → (v < 0 ↔ ¬ (InRegion tsB q ∧ InRegion tsS q) ∧ q ∉ (inner ++ box).flatten)) := by
  obtain ⟨f', c', h1, h2, -⟩ := C102_pointwise T hi hb hne invert
  obtain ⟨rfl, rfl⟩ := Prod.mk.inj (Option.some.inj (h.symm.trans h1))
  obtain ⟨r, r1, r2, r3⟩ := value_at h2 hq
  have hqb : AwayBy T.ftol q (box.flatMap segments) := fun e he => hqa e (by
    rw [List.flatMap_append]; exact List.mem_append_right _ he)
  have i1 : (ringTest T box q).1 = true ↔ InRegion tsB q := by
    unfold ringTest; rw [if_pos hT]; exact C101_region_compiled hf hB (away_not_flagged hqb)
  have i2 : (ringTest T (inner ++ box) q).1 = true ↔ InRegion tsS q := by
    unfold ringTest; rw [if_pos hT]; exact C101_region_compiled hf hS (away_not_flagged hqa)
  obtain ⟨k1, k2, k3, k4⟩ := C47_finite_partial hd (fun p => (ringTest T box p).1) (fun p => (ringTest T (inner ++ box) p).1) q.1 q.2
  refine ⟨r, _, r1, r2, r3, k2 invert, ?_, ?_⟩
  · rintro rfl
    rw [k1]
    simp only [Prod.mk.eta]
    rw [i1, i2]
    exact ⟨fun ⟨a, b, c⟩ => ⟨b, a, c⟩, fun ⟨a, b, c⟩ => ⟨b, a, c⟩⟩
  · rintro rfl
    rw [k4]
    simp only [Prod.mk.eta]
    rw [i1, i2, and_comm (a := InRegion tsS q)]

/-- **C102**, signs with the test in Python (also chosen if shapely or matplotlib are asked for): as `C102_sign`, if the point is not level with an edge that is nearly
but not exactly flat. Partial because of this assumption, which cannot be dropped (`C101_python_right_iff`). -/
theorem C102_sign_python_partial (T : SdfTools K) (hT : ¬ (T.cfg.env = none ∧ T.cfg.compiled = true)) (hf : 0 ≤ T.ftol) {inner box : List (List (K × K))}
    (hi : ∀ f ∈ inner, ClosedTwice f) (hb : ∀ f ∈ box, ClosedTwice f) (hne : box ≠ []) {dist : K × K → K × K → K}
    (hd : NearestDistance dist (inner ++ box).flatten (T.near (inner ++ box).flatten)) {tsB tsS : List ((K × K) × (K × K) × (K × K))}
    (hB : Triangulates tsB (box.flatMap segments)) (hS : Triangulates tsS ((inner ++ box).flatMap segments))
    {invert : Bool}
    {func covering : List (QueryPoint K) → Option (List K)} (h : signedDistanceFunction T (joinNaN inner) (joinNaN box) invert = some (func, covering))
    {x : List (QueryPoint K)} {i : Nat} {q : K × K} (hq : x[i]? = some (some q.1, some q.2))
    (hflat : ∀ s ∈ (inner ++ box).flatMap segments, LevelClear T.ftol 0 q.2 s)
    (hqB : (pyPoint T.ftol (joinNaN box).length (box.flatMap segments) q).2 = false)
    (hqS : (pyPoint T.ftol (joinNaN (inner ++ box)).length ((inner ++ box).flatMap segments) q).2 = false) :
    ∃ r v, func x = some r ∧ r.length = x.length ∧ r[i]? = some v ∧ |v| = T.near (inner ++ box).flatten q ∧
      (invert = false → (v < 0 ↔ InRegion tsB q ∧ InRegion tsS q ∧ q ∉ (inner ++ box).flatten)) ∧
      (invert = true → (v < 0 ↔ ¬ (InRegion tsB q ∧ InRegion tsS q) ∧ q ∉ (inner ++ box).flatten)) := by
  obtain ⟨f', c', h1, h2, -⟩ := C102_pointwise T hi hb hne invert
  obtain ⟨rfl, rfl⟩ := Prod.mk.inj (Option.some.inj (h.symm.trans h1))
  obtain ⟨r, r1, r2, r3⟩ := value_at h2 hq
  have hall : ∀ f ∈ inner ++ box, ClosedTwice f := by
    intro f hf
    rcases List.mem_append.1 hf with h | h
    · exact hi f h
    · exact hb f h
  have i1 : (ringTest T box q).1 = true ↔ InRegion tsB q := by
    unfold ringTest; rw [if_neg hT]
    exact C101_region_python_partial hf (closedTwice_length hne hb) hB (fun s hs => hflat s (by rw [List.flatMap_append]; exact List.mem_append_right _ hs)) hqB
  have i2 : (ringTest T (inner ++ box) q).1 = true ↔ InRegion tsS q := by
    unfold ringTest; rw [if_neg hT]; exact C101_region_python_partial hf (closedTwice_length (by simp [hne]) hall) hS hflat hqS
  obtain ⟨k1, k2, k3, k4⟩ := C47_finite_partial hd (fun p => (ringTest T box p).1) (fun p => (ringTest T (inner ++ box) p).1) q.1 q.2
  refine ⟨r, _, r1, r2, r3, k2 invert, ?_, ?_⟩
  · rintro rfl
    rw [k1]
    simp only [Prod.mk.eta]
    rw [i1, i2]
    exact ⟨fun ⟨a, b, c⟩ => ⟨b, a, c⟩, fun ⟨a, b, c⟩ => ⟨b, a, c⟩⟩
  · rintro rfl
    rw [k4]
    simp only [Prod.mk.eta]
    rw [i1, i2, and_comm (a := InRegion tsS q)]

theorem covering_sdf (inBox : K × K → Bool) (near : K × K → K) (q : QueryPoint K) : coveringAt inBox near q = sdfAt inBox inBox near false q := by
  rcases q with ⟨_ | x, _ | y⟩ <;> simp [coveringAt, sdfAt]

/-- **C102**, the covering: a point away from the edges of the bounding polygon gets a negative value exactly if it lies in its region and is no vertex. -/
theorem C102_covering (T : SdfTools K) (hT : T.cfg.env = none ∧ T.cfg.compiled = true) (hf : 0 ≤ T.ftol) {inner box : List (List (K × K))}
    (hi : ∀ f ∈ inner, ClosedTwice f) (hb : ∀ f ∈ box, ClosedTwice f) (hne : box ≠ []) {dist : K × K → K × K → K}
    (hd : NearestDistance dist box.flatten (T.near box.flatten)) {tsB : List ((K × K) × (K × K) × (K × K))}
    (hB : Triangulates tsB (box.flatMap segments)) {invert : Bool}
    {func covering : List (QueryPoint K) → Option (List K)} (h : signedDistanceFunction T (joinNaN inner) (joinNaN box) invert = some (func, covering))
    {x : List (QueryPoint K)} {i : Nat} {q : K × K} (hq : x[i]? = some (some q.1, some q.2)) (hqa : AwayBy T.ftol q (box.flatMap segments)) :
    ∃ r v, covering x = some r ∧ r.length = x.length ∧ r[i]? = some v ∧ |v| = T.near box.flatten q ∧ (v < 0 ↔ InRegion tsB q ∧ q ∉ box.flatten) := by
  obtain ⟨f', c', h1, -, h2⟩ := C102_pointwise T hi hb hne invert
  obtain ⟨rfl, rfl⟩ := Prod.mk.inj (Option.some.inj (h.symm.trans h1))
  obtain ⟨r, r1, r2, r3⟩ := value_at h2 hq
  have i1 : (ringTest T box q).1 = true ↔ InRegion tsB q := by
    unfold ringTest; rw [if_pos hT]; exact C101_region_compiled hf hB (away_not_flagged hqa)
  have e := covering_sdf (fun p => (ringTest T box p).1) (T.near box.flatten) (some q.1, some q.2)
  obtain ⟨k1, k2, -⟩ := C47_finite_partial hd (fun p => (ringTest T box p).1) (fun p => (ringTest T box p).1) q.1 q.2
  refine ⟨r, _, r1, r2, r3, by rw [e]; exact k2 false, ?_⟩
  rw [e, k1]
  simp only [Prod.mk.eta]
  rw [i1, and_self_left]

/-- **C102**, the shoreline itself: a point on an edge of a polygon and in the region of the bounding polygon gets minus the distance to the nearest vertex,
a negative number unless the point is a vertex. The same holds for the Python test. -/
theorem C102_on_shoreline (T : SdfTools K) (hf : 0 ≤ T.ftol) {inner box : List (List (K × K))}
    (hi : ∀ f ∈ inner, ClosedTwice f) (hb : ∀ f ∈ box, ClosedTwice f) (hne : box ≠ [])
    {func covering : List (QueryPoint K) → Option (List K)} (h : signedDistanceFunction T (joinNaN inner) (joinNaN box) false = some (func, covering))
    {x : List (QueryPoint K)} {i : Nat} {q : K × K} (hq : x[i]? = some (some q.1, some q.2))
    (hs : ∃ s ∈ (inner ++ box).flatMap segments, s.1 ≠ s.2 ∧ OnClosedSegment q s.1 s.2) (hqB : (ringTest T box q).1 = true) :
    ∃ r, func x = some r ∧ r.length = x.length ∧ r[i]? = some (- T.near (inner ++ box).flatten q) := by
  obtain ⟨f', c', h1, h2, -⟩ := C102_pointwise T hi hb hne false
  obtain ⟨rfl, rfl⟩ := Prod.mk.inj (Option.some.inj (h.symm.trans h1))
  obtain ⟨r, r1, r2, r3⟩ := value_at h2 hq
  have hall : ∀ f ∈ inner ++ box, ClosedTwice f := by
    intro f hf
    rcases List.mem_append.1 hf with h | h
    · exact hi f h
    · exact hb f h
  have i2 : (ringTest T (inner ++ box) q).1 = true := by
    obtain ⟨b1, b2⟩ := (C51_boundary hf (closedTwice_length (fs := inner ++ box) (by simp [hne]) hall) ((inner ++ box).flatMap segments) q).1 hs
    unfold ringTest
    split
    · rw [b2]
    · rw [b1]
  refine ⟨r, r1, r2, ?_⟩
  rw [r3]
  simp [sdfAt, hqB, i2]

/-- **C102** from the files: for closed features that do not start at a point with equal coordinates, and a library with closed rings, the domain of the shoreline
exists and its function has a negative value exactly at the points of the two regions, for every array of points (points near the edges excepted, see
`C102_on_shoreline`). Partial: rings that start at a point with equal coordinates are opened (C90), and the regions are assumed to be triangulated. -/
theorem C102_files_partial [FloorRing K] {G : Type} {L : ShapeLib K G} (hL : RingsClosed L) {mask : Box K → Option (K × K) → Bool} {a : ShoreArgs K} {e : Extent K}
    {fs : List (Feature K)} (hfs : ∀ f ∈ fs, ∃ p g, f.coords = p :: g ++ [p] ∧ p.1 ≠ p.2) {b' : Box K} {s : Shore K}
    (h : shoreline L mask a e fs = some (b', s)) (hne : s.boubox ≠ []) (T : SdfTools K) (hT : T.cfg.env = none ∧ T.cfg.compiled = true) (hf : 0 ≤ T.ftol) :
    ∃ (inner box : List (List (K × K))) (func covering : List (QueryPoint K) → Option (List K)), s.inner = joinNaN inner ∧ s.boubox = joinNaN box ∧
      signedDistanceFunction T s.inner s.boubox false = some (func, covering) ∧
      ∀ (dist : K × K → K × K → K) (tsB tsS : List ((K × K) × (K × K) × (K × K))),
        NearestDistance dist (inner ++ box).flatten (T.near (inner ++ box).flatten) → Triangulates tsB (box.flatMap segments) →
        Triangulates tsS ((inner ++ box).flatMap segments) → ∀ (x : List (QueryPoint K)) (i : Nat) (q : K × K), x[i]? = some (some q.1, some q.2) →
        AwayBy T.ftol q ((inner ++ box).flatMap segments) → ∃ r v, func x = some r ∧ r.length = x.length ∧ r[i]? = some v ∧
          |v| = T.near (inner ++ box).flatten q ∧ (v < 0 ↔ InRegion tsB q ∧ InRegion tsS q ∧ q ∉ (inner ++ box).flatten) := by
  obtain ⟨⟨inner, e1, h1⟩, -, ⟨box, e2, h2⟩⟩ := C90_rings_closed_partial hL hfs h
  have hne' : box ≠ [] := by rintro rfl; exact hne e2
  obtain ⟨func, covering, h3, -⟩ := C102_pointwise T h1 h2 hne' false
  refine ⟨inner, box, func, covering, e1, e2, by rw [e1, e2]; exact h3, ?_⟩
  intro dist tsB tsS hd hB hS x i q hq hqa
  obtain ⟨r, v, r1, r2, r3, r4, r5, -⟩ := C102_sign T hT hf h1 h2 hne' hd hB hS h3 hq hqa
  exact ⟨r, v, r1, r2, r3, r4, r5 rfl⟩

end

/-! ## Examples -/

/-- The distance to the nearest of some points in the sum of the coordinate differences. -/
def nearQ : List (ℚ × ℚ) → ℚ × ℚ → ℚ
  | [], _ => 0
  | [v], q => |q.1 - v.1| + |q.2 - v.2|
  | v :: w :: l, q => min (|q.1 - v.1| + |q.2 - v.2|) (nearQ (w :: l) q)

theorem nearQ_nearest : ∀ {l : List (ℚ × ℚ)}, l ≠ [] → NearestDistance (fun p q => |p.1 - q.1| + |p.2 - q.2|) l (nearQ l) := by
  intro l hl
  refine ⟨fun p q => by positivity, fun p q => ⟨fun h => ?_, fun h => by simp [h]⟩, fun q => ?_⟩
  · have h1 := abs_nonneg (p.1 - q.1)
    have h2 := abs_nonneg (p.2 - q.2)
    exact Prod.ext (sub_eq_zero.1 (abs_eq_zero.1 (by linarith))) (sub_eq_zero.1 (abs_eq_zero.1 (by linarith)))
  · induction l with
    | nil => exact absurd rfl hl
    | cons v l ih =>
      cases l with
      | nil => exact ⟨⟨v, by simp, rfl⟩, by simp [nearQ]⟩
      | cons w l =>
        obtain ⟨⟨u, hu, e⟩, h⟩ := ih (by simp)
        refine ⟨?_, fun x hx => ?_⟩
        · rcases min_choice (|q.1 - v.1| + |q.2 - v.2|) (nearQ (w :: l) q) with h1 | h1
          · exact ⟨v, by simp, h1⟩
          · exact ⟨u, List.mem_cons_of_mem _ hu, by rw [nearQ, h1, e]⟩
        · rcases List.mem_cons.1 hx with rfl | hx
          · exact min_le_left _ _
          · exact (min_le_right _ _).trans (h x hx)

/-- The compiled kernel with a tolerance of one thousandth. -/
def toolsQ : SdfTools ℚ := ⟨⟨true, false, false, none⟩, fun _ => none, fun _ => none, 1 / 1000, nearQ⟩

def boxRing : List (List (ℚ × ℚ)) := [[(0, 0), (3, 0), (3, 3), (0, 3), (0, 0), (0, 0)]]
def islandRing : List (List (ℚ × ℚ)) := [[(1, 1), (2, 1), (2, 2), (1, 2), (1, 1), (1, 1)]]

theorem rings_twice : (∀ f ∈ islandRing, ClosedTwice f) ∧ ∀ f ∈ boxRing, ClosedTwice f := by
  constructor
  · intro f hf
    obtain rfl : f = _ := List.mem_singleton.1 hf
    exact ⟨(1, 1), [(2, 1), (2, 2), (1, 2)], rfl⟩
  · intro f hf
    obtain rfl : f = _ := List.mem_singleton.1 hf
    exact ⟨(0, 0), [(3, 0), (3, 3), (0, 3)], rfl⟩

theorem box_triangulated : Triangulates [((0, 0), (3, 0), (3, 3)), ((0, 0), (3, 3), (0, 3))] (boxRing.flatMap segments) :=
  triangulates_check [(0, 0), (3, 0), (3, 3), (0, 3)] (by decide +kernel) (by decide +kernel) (by decide +kernel) (by decide +kernel) (by decide +kernel)

theorem sea_triangulated : Triangulates frameTris ((islandRing ++ boxRing).flatMap segments) :=
  triangulates_check [(0, 0), (3, 0), (3, 3), (0, 3), (1, 1), (2, 1), (2, 2), (1, 2)] (by decide +kernel) (by decide +kernel) (by decide +kernel)
    (by decide +kernel) (by decide +kernel)

-- A box with one island: a point of the sea, one of the island, one outside, one that is not finite.
example : ((signedDistanceFunction toolsQ (joinNaN islandRing) (joinNaN boxRing) false).bind fun f =>
    f.1 [(some (1 / 2), some (1 / 2)), (some (3 / 2), some (3 / 2)), (none, some 1), (some 4, some 3)]) = some [-1, 1, 1000000000000, 1] := by decide +kernel

example : ((signedDistanceFunction toolsQ (joinNaN islandRing) (joinNaN boxRing) true).bind fun f =>
    f.2 [(some (1 / 2), some (1 / 2)), (some (3 / 2), some (3 / 2)), (none, some 1), (some 4, some 3)]) = some [-1, -3, 1000000000000, 1] := by decide +kernel

-- The hypotheses of C102_sign and C102_covering hold for it.
example : ∀ (x : List (QueryPoint ℚ)) (i : Nat) (q : ℚ × ℚ), x[i]? = some (some q.1, some q.2) →
    AwayBy toolsQ.ftol q ((islandRing ++ boxRing).flatMap segments) → ∃ func covering r v,
      signedDistanceFunction toolsQ (joinNaN islandRing) (joinNaN boxRing) false = some (func, covering) ∧ func x = some r ∧ r[i]? = some v ∧
      (v < 0 ↔ InRegion [((0, 0), (3, 0), (3, 3)), ((0, 0), (3, 3), (0, 3))] q ∧ InRegion frameTris q ∧ q ∉ (islandRing ++ boxRing).flatten) := by
  intro x i q hq ha
  obtain ⟨func, covering, h, -⟩ := C102_pointwise toolsQ rings_twice.1 rings_twice.2 (by simp [boxRing]) false
  obtain ⟨r, v, h1, -, h2, -, h3, -⟩ := C102_sign toolsQ ⟨rfl, rfl⟩ (by norm_num [toolsQ]) rings_twice.1 rings_twice.2 (by simp [boxRing])
    (nearQ_nearest (by simp [islandRing])) box_triangulated sea_triangulated h hq ha
  exact ⟨func, covering, r, v, h, h1, h2, h3 rfl⟩

-- A point of the sea that is away from the edges.
example : AwayBy (1 / 1000) ((1 / 2, 1 / 2) : ℚ × ℚ) (boxRing.flatMap segments) := by
  have h : boxRing.flatMap segments = [((0, 0), (3, 0)), ((3, 0), (3, 3)), ((3, 3), (0, 3)), ((0, 3), (0, 0)), ((0, 0), (0, 0))] := rfl
  rw [h]
  rintro e he - p ⟨t, h0, h1, hx, hy⟩
  have l1 := abs_nonneg (1 / 2 - p.1)
  have l2 := abs_nonneg (1 / 2 - p.2)
  have m1 := le_abs_self (1 / 2 - p.1)
  have m2 := le_abs_self (1 / 2 - p.2)
  have n1 := neg_abs_le (1 / 2 - p.1)
  have n2 := neg_abs_le (1 / 2 - p.2)
  simp only [List.mem_cons, List.not_mem_nil, or_false] at he
  rcases he with rfl | rfl | rfl | rfl | rfl <;> simp only at hx hy ⊢ <;> norm_num at hx hy ⊢ <;> linarith

-- The shoreline itself: the middle of a side of the island has the value -1/2.
example : ((signedDistanceFunction toolsQ (joinNaN islandRing) (joinNaN boxRing) false).bind fun f => f.1 [(some (3 / 2), some 1), (some 1, some 1)]) =
    some [-(1 / 2), 0] := by decide +kernel

-- The test in Python: no side of the rings is nearly flat, and the answers are the same.
example : (∀ s ∈ (islandRing ++ boxRing).flatMap segments, LevelClear (1 / 1000) 0 (3 / 2) s) ∧
    ((signedDistanceFunction ⟨⟨false, true, false, some .shapely⟩, fun _ => none, fun _ => none, 1 / 1000, nearQ⟩ (joinNaN islandRing) (joinNaN boxRing) false).bind fun f =>
      f.1 [(some (1 / 2), some (1 / 2)), (some (3 / 2), some (3 / 2)), (none, some 1), (some 4, some 3)]) = some [-1, 1, 1000000000000, 1] ∧
    pyPoint (1 / 1000) (joinNaN boxRing).length (boxRing.flatMap segments) (3 / 2, 3 / 2) = (true, false) ∧
    pyPoint (1 / 1000) (joinNaN (islandRing ++ boxRing)).length ((islandRing ++ boxRing).flatMap segments) (3 / 2, 3 / 2) = (false, false) :=
  ⟨by unfold LevelClear; decide +kernel, by decide +kernel, by decide +kernel, by decide +kernel⟩

-- A shoreline read from three features, and its domain.
example : ∃ b s, shoreline boxLib (fun _ _ => false) ⟨1, 1, 4, false, false⟩ (.tuple [0, 10, 0, 8]) fileFeatures = some (b, s) ∧ s.boubox ≠ [] ∧
    ∃ f, signedDistanceFunction toolsQ s.inner s.boubox false = some f := by
  obtain ⟨⟨b, s⟩, h1, h2⟩ := Option.map_eq_some_iff.1 fileFeatures_shoreline
  simp only [Prod.mk.injEq] at h2
  have hne : s.boubox ≠ [] := by rw [h2.2.2]; simp [joinNaN]
  obtain ⟨-, -, func, covering, -, -, h3, -⟩ := C102_files_partial boxLib_closed fileFeatures_closed h1 hne toolsQ ⟨rfl, rfl⟩ (by norm_num [toolsQ])
  exact ⟨b, s, h1, hne, _, h3⟩

end OM
