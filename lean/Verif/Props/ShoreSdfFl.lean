import Verif.Model.ShoreSdfFl
import Verif.Props.SeaMesh
import Verif.Props.InpolyPaths
import Verif.Props.InpolyPyFl
import Verif.Props.GenerateFl3
/-!
# C126: meshes of the sea in rounded arithmetic

The signed distance function of a shoreline with rounded inside tests, and the triangles that `generate_mesh` keeps with it.
-/
set_option linter.unusedSectionVars false
namespace OM.Spec
section
variable {K : Type} [Field K] [LinearOrder K]

/-- `q` is farther than its reach from every edge (in the sum of the coordinate differences). -/
def BeyondReach (reach : (K × K) × (K × K) → K) (q : K × K) (edges : List ((K × K) × (K × K))) : Prop := ∀ e ∈ edges, ¬ NearSegment (reach e) q e.1 e.2

/-- `near` gives the distance to the nearest of the points up to the relative error `ρ`. -/
def NearlyNearest (dist : K × K → K × K → K) (verts : List (K × K)) (ρ : K) (near : K × K → K) : Prop :=
  ∀ q, 0 ≤ near q ∧ (∃ w ∈ verts, (1 - ρ) * dist q w ≤ near q) ∧ ∀ v ∈ verts, near q ≤ (1 + ρ) * dist q v

/-- Moving a point changes its distance to any other by at most the sum of the coordinate differences. -/
def DistanceStable (dist : K × K → K × K → K) : Prop := ∀ x y v, dist x v ≤ dist y v + (|x.1 - y.1| + |x.2 - y.2|)

end
end OM.Spec

namespace OM
open Spec
section
variable {K : Type} [Field K] [LinearOrder K] [IsStrictOrderedRing K]

/-! ## The exact case -/

theorem cPointFl_id (fused : Bool) (ftol : K) (segs : List (Seg K)) (q : K × K) : cPointFl id fused ftol segs q = cPoint ftol segs q := by
  have h : ∀ (l : List (Seg K)) (i : Bool), cLoopFl id fused ftol q l i = cLoop ftol q l i := by
    intro l
    induction l with
    | nil => intro i; rfl
    | cons s l ih =>
      intro i
      have e1 : cSkipFl id ftol q s = cSkip ftol q s := rfl
      have e2 : cOnSegmentFl id fused ftol q s = cOnSegment ftol q s := by
        simp only [cOnSegmentFl, cOnSegment, cParamFl, cDistFl, mulAdd, id_eq, ite_self, sub_ne_zero]
        split_ifs
        · rw [add_comm ((q.1 - s.1.1) * _)]
          congr 3 <;> ring_nf
        · rfl
      have e3 : cCrossFl id fused q s = cCross q s := by
        simp only [cCrossFl, cCross, cXintFl, mulAdd, id_eq, ite_self]
      simp only [cLoopFl, cLoop, e1, e2, e3, ih]
  unfold cPointFl cPoint
  rw [h]

theorem kernelForFl_id (fused : Bool) (cfg : PolyConfig) (shapely mpl : PolyEngine K) (ftol : K) (node : List (K × K)) (es : List (Nat × Nat)) (n : Nat) :
    kernelForFl id fused cfg shapely mpl ftol node es n = kernelFor cfg shapely mpl ftol node es n := by
  unfold kernelForFl kernelFor
  cases segsOf node es with
  | none => rfl
  | some segs =>
    have e1 : cPointFl id fused ftol segs = cPoint ftol segs := funext (cPointFl_id fused ftol segs)
    have e2 : pyPointFl id ftol node.length segs = pyPoint ftol node.length segs := funext (C122_exact ftol node.length segs)
    simp only [e1, e2]

theorem insideMaskFl_id (fused : Bool) (T : SdfTools K) : insideMaskFl id fused T = insideMask T := by
  funext poly e x
  unfold insideMaskFl insideMask inpoly2Fl inpoly2
  simp only [kernelForFl_id]
  congr 1
  split
  · rfl
  · cases checkEdges (poly.map nanToNum).length e <;> rfl

/-- **C126** without rounding the functions are those of C102. -/
theorem C126_exact (fused : Bool) (T : SdfTools K) (inner boubox : List (Option (K × K))) (invert : Bool) :
    signedDistanceFunctionFl id fused T inner boubox invert = signedDistanceFunction T inner boubox invert := by
  have h1 : domainFuncFl id fused T = domainFunc T := by
    funext boubox eBox poly e invert x
    unfold domainFuncFl domainFunc domainPartsFl domainParts
    rw [insideMaskFl_id]
    rfl
  have h2 : coveringFuncFl id fused T = coveringFunc T := by
    funext boubox eBox x
    unfold coveringFuncFl coveringFunc
    rw [insideMaskFl_id]
    rfl
  unfold signedDistanceFunctionFl signedDistanceFunction
  rw [h1, h2]

/-! ## Point by point -/

/-- The answers of `inpoly2` for the rings of a shoreline array. -/
def ringTestFl (rnd : K → K) (fused : Bool) (T : SdfTools K) (fs : List (List (K × K))) (q : K × K) : Bool × Bool :=
  if T.cfg.env = none ∧ T.cfg.compiled = true then cPointFl rnd fused T.ftol (fs.flatMap segments) q
  else pyPointFl rnd T.ftol (joinNaN fs).length (fs.flatMap segments) q

theorem insideMaskFl_eq (rnd : K → K) (fused : Bool) (T : SdfTools K) {fs : List (List (K × K))} (hne : fs ≠ []) (hfs : ∀ f ∈ fs, ClosedTwice f)
    {es : List (Int × Int)} (hes : getPolyEdges ((joinNaN fs).map Option.isNone) = some es) {x : List (QueryPoint K)} (hx : x.filterMap finitePoint ≠ []) :
    insideMaskFl rnd fused T (joinNaN fs) es x = some (x.map fun q => match finitePoint q with
      | some p => (ringTestFl rnd fused T fs p).1
      | none => false) := by
  obtain ⟨es', h1, h2⟩ := C04_poly_edges_complete_partial fs hne hfs
  obtain rfl : es = es' := Option.some.inj (hes.symm.trans h1)
  obtain ⟨c1, c2⟩ := poly_rows h2
  obtain ⟨f, gs, rfl⟩ := List.exists_cons_of_ne_nil hne
  have hlen : 2 ≤ f.length := by
    obtain ⟨p, g, rfl⟩ := hfs f (by simp)
    simp
  have hker : ∀ n, kernelForFl rnd fused T.cfg T.shapely T.mpl T.ftol ((joinNaN (f :: gs)).map nanToNum) (es.map fun e => (e.1.toNat, e.2.toNat)) n =
      some (ringTestFl rnd fused T (f :: gs)) := by
    intro n
    have hr := C53_shoreline_edges (f :: gs) f (by simp) hlen (joinNaN (f :: gs)).length es _ hes c1
    unfold kernelForFl
    rw [c2]
    simp only [enginePoints, hr]
    unfold ringTestFl
    split_ifs <;> simp_all
  have hnode : (joinNaN (f :: gs)).map nanToNum ≠ [] := by simp [joinNaN]
  have hlen' : ((joinNaN (f :: gs)).map nanToNum).length = (joinNaN (f :: gs)).length := by simp
  unfold insideMaskFl inpoly2Fl
  rw [if_neg hnode]
  simp only [hlen', c1, filterMap_finite, hker]
  have hx' : (x.filterMap finitePoint).length ≠ 0 := by simpa using hx
  rw [if_neg hx']
  simp only [Option.map_some, Option.bind_some]
  refine Eq.trans ?_ (putFinite_map false (fun p => (ringTestFl rnd fused T (f :: gs) p).1) x)
  congr 1
  rw [List.map_map, List.map_map]
  exact List.map_congr_left fun p _ => rfl

/-- **C126** for closed rings the functions of the domain are defined for every array of points and work point by point, with any rounding: the sign comes from
the rounded tests with the rings, the size from the KD-tree. -/
theorem C126_pointwise (rnd : K → K) (fused : Bool) (T : SdfTools K) {inner box : List (List (K × K))} (hi : ∀ f ∈ inner, ClosedTwice f)
    (hb : ∀ f ∈ box, ClosedTwice f) (hne : box ≠ [])
    (invert : Bool) : ∃ func covering, signedDistanceFunctionFl rnd fused T (joinNaN inner) (joinNaN box) invert = some (func, covering) ∧
      (∀ x, func x = some (x.map (sdfAt (fun p => (ringTestFl rnd fused T box p).1) (fun p => (ringTestFl rnd fused T (inner ++ box) p).1)
        (T.near (inner ++ box).flatten) invert))) ∧
      ∀ x, covering x = some (x.map (coveringAt (fun p => (ringTestFl rnd fused T box p).1) (T.near box.flatten))) := by
  have hne' : inner ++ box ≠ [] := by simp [hne]
  have hall : ∀ f ∈ inner ++ box, ClosedTwice f := by
    intro f hf
    rcases List.mem_append.1 hf with h | h
    · exact hi f h
    · exact hb f h
  obtain ⟨e, e1, -⟩ := C04_poly_edges_complete_partial _ hne' hall
  obtain ⟨eb, b1, -⟩ := C04_poly_edges_complete_partial _ hne hb
  refine ⟨domainFuncFl rnd fused T (joinNaN box) eb (joinNaN (inner ++ box)) e invert, coveringFuncFl rnd fused T (joinNaN box) eb, ?_, fun x => ?_, fun x => ?_⟩
  · unfold signedDistanceFunctionFl
    simp only [joinNaN_append', e1, b1]
    rfl
  · have key : domainPartsFl rnd fused T (joinNaN box) eb (joinNaN (inner ++ box)) e x = some (
        x.map fun q => match finitePoint q with
          | some p => (ringTestFl rnd fused T box p).1
          | none => false,
        x.map fun q => match finitePoint q with
          | some p => (ringTestFl rnd fused T (inner ++ box) p).1
          | none => false,
        x.map fun q => match finitePoint q with
          | some p => T.near (inner ++ box).flatten p
          | none => 1000000000000) := by
      unfold domainPartsFl
      by_cases hx : x.filterMap finitePoint = []
      · rw [if_pos hx]
        congr 1
        refine Prod.ext ?_ (Prod.ext ?_ ?_) <;> exact List.map_congr_left fun q hq => by rw [no_finite hx hq]
      · rw [if_neg hx, insideMaskFl_eq rnd fused T hne hb b1 hx, insideMaskFl_eq rnd fused T hne' hall e1 hx]
        unfold distances
        rw [putFinite_map, filterMap_joinNaN]
        rfl
    unfold domainFuncFl
    rw [key]
    simp only [Option.map_some, zip_sign]
    congr 1
    cases invert with
    | false =>
      refine List.map_congr_left fun q _ => ?_
      rcases q with ⟨_ | x, _ | y⟩ <;> simp [sdfAt, finitePoint, signFlip]
    | true =>
      rw [if_pos rfl, List.map_map]
      refine List.map_congr_left fun q _ => ?_
      rcases q with ⟨_ | x, _ | y⟩ <;> simp [sdfAt, finitePoint, signFlip]
  · unfold coveringFuncFl
    by_cases hx : x.filterMap finitePoint = []
    · rw [if_pos hx, zip_sign1]
      congr 1
      refine List.map_congr_left fun q hq => ?_
      have := no_finite hx hq
      rcases q with ⟨_ | x, _ | y⟩ <;> simp_all [coveringAt, finitePoint, signFlip]
    · rw [if_neg hx, insideMaskFl_eq rnd fused T hne hb b1 hx]
      unfold distances
      rw [putFinite_map, filterMap_joinNaN]
      simp only [zip_sign1]
      congr 1
      refine List.map_congr_left fun q _ => ?_
      rcases q with ⟨_ | x, _ | y⟩
      · simp [coveringAt, finitePoint, signFlip]
      · simp [coveringAt, finitePoint, signFlip]
      · simp [coveringAt, finitePoint, signFlip]
      · rfl

/-! ## Signs -/

/-- How near to an edge the answers of the inside test are not guaranteed: the tolerance and rounding errors of the coordinates. -/
def testReach (T : SdfTools K) (u M : K) (s : Seg K) : K :=
  if T.cfg.env = none ∧ T.cfg.compiled = true then T.ftol + 16 * u * M else pyReach T.ftol (128 * u * M) s

/-- `q` is more than `e` beyond the reach of the test from all edges and, for the test in Python, more than `e` above or below the edges that are nearly but
not exactly flat, which this test skips. -/
def TestSafe (T : SdfTools K) (u M e : K) (q : K × K) (edges : List (Seg K)) : Prop :=
  BeyondReach (fun s => testReach T u M s + e) q edges ∧
    (¬ (T.cfg.env = none ∧ T.cfg.compiled = true) → ∀ s ∈ edges, LevelClear ((1 + 2 * u) * T.ftol) e q.2 s)

theorem TestSafe.sub {T : SdfTools K} {u M e : K} {q : K × K} {edges edges' : List (Seg K)} (h : TestSafe T u M e q edges) (hs : ∀ s ∈ edges', s ∈ edges) :
    TestSafe T u M e q edges' := ⟨fun s hm => h.1 s (hs s hm), fun hT s hm => h.2 hT s (hs s hm)⟩

/-- What the theorems assume about a shoreline, the tools and the arithmetic. -/
structure ShoresFl (rnd : K → K) (u M : K) (T : SdfTools K) (inner box : List (List (K × K))) (tsB tsS : List ((K × K) × (K × K) × (K × K))) : Prop where
  rounding : Rounding rnd
  relError : RelError rnd u
  unit : 0 ≤ u ∧ u ≤ 1 / 128
  ftol : 0 ≤ T.ftol ∧ T.ftol ≤ M
  innerClosed : ∀ f ∈ inner, ClosedTwice f
  boxClosed : ∀ f ∈ box, ClosedTwice f
  boxSome : box ≠ []
  stored : ∀ f ∈ inner ++ box, ∀ q ∈ f, StoredPoint rnd M q
  boxRegion : Triangulates tsB (box.flatMap segments)
  sea : Triangulates tsS ((inner ++ box).flatMap segments)

variable {rnd : K → K} {u M : K} {T : SdfTools K} {inner box : List (List (K × K))} {tsB tsS : List ((K × K) × (K × K) × (K × K))}

theorem segments_mem {α : Type} {l : List α} {s : α × α} (h : s ∈ segments l) : s.1 ∈ l ∧ s.2 ∈ l :=
  ⟨(List.of_mem_zip h).1, List.mem_of_mem_tail (List.of_mem_zip h).2⟩

theorem ShoresFl.storedSegs (H : ShoresFl rnd u M T inner box tsB tsS) : ∀ s ∈ (inner ++ box).flatMap segments, StoredPoint rnd M s.1 ∧ StoredPoint rnd M s.2 := by
  intro s hs
  obtain ⟨f, hf, hs⟩ := List.mem_flatMap.1 hs
  obtain ⟨h1, h2⟩ := segments_mem hs
  exact ⟨H.stored f hf _ h1, H.stored f hf _ h2⟩

theorem stored_double {M : K} (hM : 0 ≤ M) {p : K × K} (h : StoredPoint rnd M p) : StoredPoint rnd (2 * M) p :=
  ⟨h.1, h.2.1, h.2.2.1.trans (by linarith), h.2.2.2.trans (by linarith)⟩

/-- The test of some of the rings at a point away from all edges. -/
theorem ringTestFl_right (H : ShoresFl rnd u M T inner box tsB tsS) (fused : Bool) {fs : List (List (K × K))} (hne : fs ≠ []) (hfs : ∀ f ∈ fs, f ∈ inner ++ box)
    {ts : List ((K × K) × (K × K) × (K × K))} (hts : Triangulates ts (fs.flatMap segments)) {q : K × K} (hq : StoredPoint rnd (2 * M) q)
    (hn : TestSafe T u M 0 q (fs.flatMap segments)) : (ringTestFl rnd fused T fs q).1 = true ↔ InRegion ts q := by
  have hM : 0 ≤ M := H.ftol.1.trans H.ftol.2
  have hsub : ∀ s ∈ fs.flatMap segments, s ∈ (inner ++ box).flatMap segments := by
    intro s hs
    obtain ⟨f, hf, hs⟩ := List.mem_flatMap.1 hs
    exact List.mem_flatMap.2 ⟨f, hfs f hf, hs⟩
  unfold ringTestFl
  by_cases hT : T.cfg.env = none ∧ T.cfg.compiled = true
  · rw [if_pos hT]
    refine (C114_region H.rounding H.relError H.unit.1 H.unit.2 fused H.ftol.1 H.ftol.2 hts (fun s hs => H.storedSegs s (hsub s hs)) fun s hs => ?_).2
    have := hn.1 s hs
    unfold testReach at this
    simpa only [if_pos hT, add_zero] using this
  · rw [if_neg hT]
    have hcl : ∀ f ∈ fs, ClosedTwice f := fun f hf => by
      rcases List.mem_append.1 (hfs f hf) with h | h
      · exact H.innerClosed f h
      · exact H.boxClosed f h
    refine (C122_region H.rounding H.relError H.unit.1 H.unit.2 H.ftol.1 (closedTwice_length hne hcl) hts
      (fun s hs => ⟨stored_double hM (H.storedSegs s (hsub s hs)).1, stored_double hM (H.storedSegs s (hsub s hs)).2⟩) hts.even
      (hn.2 hT) hq fun s hs => ?_).2
    have := hn.1 s hs
    unfold testReach at this
    simp only [if_neg hT, add_zero] at this
    rwa [show 64 * u * (2 * M) = 128 * u * M by ring]

/-- **C126** (tests): at a point that is beyond the reach of the test from all edges, the rounded tests tell whether it lies in the region of the bounding polygon
and in that of all polygons. -/
theorem C126_tests (H : ShoresFl rnd u M T inner box tsB tsS) (fused : Bool) {q : K × K} (hq : StoredPoint rnd (2 * M) q)
    (hn : TestSafe T u M 0 q ((inner ++ box).flatMap segments)) :
    ((ringTestFl rnd fused T box q).1 = true ↔ InRegion tsB q) ∧ ((ringTestFl rnd fused T (inner ++ box) q).1 = true ↔ InRegion tsS q) :=
  ⟨ringTestFl_right H fused H.boxSome (fun f hf => List.mem_append_right _ hf) H.boxRegion hq
      (hn.sub fun s hs => by rw [List.flatMap_append]; exact List.mem_append_right _ hs),
    ringTestFl_right H fused (by simp [H.boxSome]) (fun f hf => hf) H.sea hq hn⟩

/-- The rounded function of the domain at a finite point. -/
def seaValueFl (rnd : K → K) (fused : Bool) (T : SdfTools K) (inner box : List (List (K × K))) (q : K × K) : K :=
  sdfAt (fun p => (ringTestFl rnd fused T box p).1) (fun p => (ringTestFl rnd fused T (inner ++ box) p).1) (T.near (inner ++ box).flatten) false
    (some q.1, some q.2)

theorem seaFl_pointwise (hi : ∀ f ∈ inner, ClosedTwice f) (hb : ∀ f ∈ box, ClosedTwice f) (hne : box ≠ []) {fused : Bool}
    {func covering : List (QueryPoint K) → Option (List K)}
    (h : signedDistanceFunctionFl rnd fused T (joinNaN inner) (joinNaN box) false = some (func, covering)) (pts : List (K × K)) :
    onFinite func pts = some (pts.map (seaValueFl rnd fused T inner box)) := by
  obtain ⟨f', c', h1, h2, -⟩ := C126_pointwise rnd fused T hi hb hne false
  obtain ⟨rfl, rfl⟩ := Prod.mk.inj (Option.some.inj (h.symm.trans h1))
  unfold onFinite
  rw [h2, List.map_map]
  rfl

/-- **C126** (signs): the value of the function is less than `-g` exactly if the point lies in both regions and the distance of the KD-tree is more than `g`. -/
theorem C126_sign (H : ShoresFl rnd u M T inner box tsB tsS) (hnear : ∀ q, 0 ≤ T.near (inner ++ box).flatten q) {fused : Bool}
    {func covering : List (QueryPoint K) → Option (List K)}
    (h : signedDistanceFunctionFl rnd fused T (joinNaN inner) (joinNaN box) false = some (func, covering)) (pts : List (K × K)) :
    ∃ vals, onFinite func pts = some vals ∧ vals.length = pts.length ∧ ∀ (i : Nat) (q : K × K) (v : K), pts[i]? = some q → vals[i]? = some v →
      StoredPoint rnd (2 * M) q → TestSafe T u M 0 q ((inner ++ box).flatMap segments) →
      |v| = T.near (inner ++ box).flatten q ∧
      ∀ g, 0 ≤ g → (v < -g ↔ InRegion tsB q ∧ InRegion tsS q ∧ g < T.near (inner ++ box).flatten q) := by
  refine ⟨_, seaFl_pointwise H.innerClosed H.boxClosed H.boxSome h pts, by simp, ?_⟩
  intro i q v hq hv hst hn
  rw [List.getElem?_map, hq] at hv
  obtain rfl := Option.some.inj hv
  obtain ⟨t1, t2⟩ := C126_tests H fused hst hn
  have h0 := hnear q
  rw [← t1, ← t2]
  unfold seaValueFl sdfAt
  dsimp only
  generalize T.near (inner ++ box).flatten q = d at h0
  cases hB : (ringTestFl rnd fused T box q).1 <;> cases hS : (ringTestFl rnd fused T (inner ++ box) q).1 <;>
    simp only [Bool.and_true, Bool.and_false, Bool.false_eq_true, if_true, if_false, one_mul, neg_mul, abs_neg, abs_of_nonneg h0, neg_lt_neg_iff, true_and,
      false_and, iff_false, not_lt] <;> intro g hg <;> first | linarith | exact trivial | exact Iff.rfl

end
end OM
