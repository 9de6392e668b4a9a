import Verif.Props.ShoreSdf
import Verif.Props.EndToEnd
import Verif.Props.GenerateCall
/-!
# C103: meshes of the sea: the triangles generated for the domain of a shoreline
-/
set_option linter.unusedSectionVars false
namespace OM.Spec
section
variable {K : Type} [Field K] [LinearOrder K]

/-- `z` lies in both regions and farther than `g` from all points of the list. -/
def InSea (tsB tsS : List ((K × K) × (K × K) × (K × K))) (verts : List (K × K)) (dist : K × K → K × K → K) (g : K) (z : K × K) : Prop :=
  InRegion tsB z ∧ InRegion tsS z ∧ ∀ v ∈ verts, g < dist z v

end
end OM.Spec

namespace OM
open Spec
section
variable {K : Type} [Field K] [LinearOrder K] [IsStrictOrderedRing K]

/-- The function of a domain applied to arrays of finite points, as `generate_mesh` does (`oceanmesh/mesh_generator.py:784`). -/
def onFinite (func : List (QueryPoint K) → Option (List K)) (pts : List (K × K)) : Option (List K) := func (pts.map fun p => (some p.1, some p.2))

/-- What the theorems assume about a shoreline and the tools: the compiled inside test, closed rings, the KD-tree gives the distance to the nearest vertex, and the
regions are triangulated. -/
structure Shores (T : SdfTools K) (inner box : List (List (K × K))) (dist : K × K → K × K → K) (tsB tsS : List ((K × K) × (K × K) × (K × K))) : Prop where
  compiled : T.cfg.env = none ∧ T.cfg.compiled = true
  ftol : 0 ≤ T.ftol
  innerClosed : ∀ f ∈ inner, ClosedTwice f
  boxClosed : ∀ f ∈ box, ClosedTwice f
  boxSome : box ≠ []
  nearest : NearestDistance dist (inner ++ box).flatten (T.near (inner ++ box).flatten)
  boxRegion : Triangulates tsB (box.flatMap segments)
  sea : Triangulates tsS ((inner ++ box).flatMap segments)

variable {T : SdfTools K} {inner box : List (List (K × K))} {dist : K × K → K × K → K} {tsB tsS : List ((K × K) × (K × K) × (K × K))}

/-- The function of the domain at a finite point. -/
def seaValue (T : SdfTools K) (inner box : List (List (K × K))) (q : K × K) : K :=
  sdfAt (fun p => (ringTest T box p).1) (fun p => (ringTest T (inner ++ box) p).1) (T.near (inner ++ box).flatten) false (some q.1, some q.2)

theorem sea_pointwise (H : Shores T inner box dist tsB tsS) {func covering : List (QueryPoint K) → Option (List K)}
    (h : signedDistanceFunction T (joinNaN inner) (joinNaN box) false = some (func, covering)) (pts : List (K × K)) :
    onFinite func pts = some (pts.map (seaValue T inner box)) := by
  obtain ⟨f', c', h1, h2, -⟩ := C102_pointwise T H.innerClosed H.boxClosed H.boxSome false
  obtain ⟨rfl, rfl⟩ := Prod.mk.inj (Option.some.inj (h.symm.trans h1))
  unfold onFinite
  rw [h2, List.map_map]
  rfl

theorem sea_value_lt (H : Shores T inner box dist tsB tsS) {q : K × K} (hq : AwayBy T.ftol q ((inner ++ box).flatMap segments)) {g : K} (hg : 0 ≤ g) :
    (seaValue T inner box q < -g ↔ InSea tsB tsS (inner ++ box).flatten dist g q) ∧
      (seaValue T inner box q < g → (InRegion tsB q ∧ InRegion tsS q) ∨ ∃ v ∈ (inner ++ box).flatten, dist q v < g) := by
  obtain ⟨func, covering, h, h2, -⟩ := C102_pointwise T H.innerClosed H.boxClosed H.boxSome false
  obtain ⟨r, v, r1, r2, r3, r4, r5, -⟩ := C102_sign T H.compiled H.ftol H.innerClosed H.boxClosed H.boxSome H.nearest H.boxRegion H.sea h (x := [(some q.1, some q.2)]) (i := 0)
    (q := q) rfl hq
  have hv : v = seaValue T inner box q := by
    rw [h2] at r1
    rw [← Option.some.inj r1] at r3
    exact (Option.some.inj r3).symm
  subst hv
  have r5 := r5 rfl
  obtain ⟨n0, n1, n2⟩ := H.nearest
  obtain ⟨⟨w, hw, e⟩, hle⟩ := n2 q
  have hnear : (g < T.near (inner ++ box).flatten q) ↔ ∀ v ∈ (inner ++ box).flatten, g < dist q v :=
    ⟨fun h v hv => h.trans_le (hle v hv), fun h => by rw [e]; exact h w hw⟩
  constructor
  · constructor
    · intro hlt
      have hneg : seaValue T inner box q < 0 := hlt.trans_le (by linarith)
      obtain ⟨a, b, -⟩ := r5.1 hneg
      refine ⟨a, b, hnear.1 ?_⟩
      rw [← r4, abs_of_neg hneg]; linarith
    · rintro ⟨a, b, c⟩
      have hgn := hnear.2 c
      have hneg := r5.2 ⟨a, b, fun hm => by
        have := c q hm
        rw [(n1 q q).2 rfl] at this
        exact absurd this (not_lt.2 hg)⟩
      rw [← r4, abs_of_neg hneg] at hgn
      linarith
  · intro hlt
    by_cases hneg : seaValue T inner box q < 0
    · obtain ⟨a, b, -⟩ := r5.1 hneg
      exact .inl ⟨a, b⟩
    · rw [abs_of_nonneg (not_lt.1 hneg)] at r4
      exact .inr ⟨w, hw, by rw [← e, ← r4]; exact hlt⟩

/-- **C103** in every iteration exactly those triangles are kept whose centroids lie in the sea and farther than `geps` from all vertices of the shoreline
(centroids within the tolerance of an edge excepted). -/
theorem C103_kept (H : Shores T inner box dist tsB tsS) {func covering : List (QueryPoint K) → Option (List K)}
    (hd : signedDistanceFunction T (joinNaN inner) (joinNaN box) false = some (func, covering)) {S : GenSetup K} (hS : S.fd = onFinite func) (hg : 0 ≤ S.geps)
    {maxIter : Nat} {p : List (K × K)} {m : FixResult K} {l : List (GenIter K)} (h : generateMesh S maxIter p = some (m, l)) :
    ∀ r ∈ l, ∀ x ∈ r.triangles, ∀ a b c, corners r.points x = [some a, some b, some c] →
      AwayBy T.ftol (centroid a b c) ((inner ++ box).flatMap segments) →
      (x ∈ r.kept ↔ InSea tsB tsS (inner ++ box).flatten dist S.geps (centroid a b c)) := by
  intro r hr x hx a b c hc ha
  have hf : Pointwise S.fd (seaValue T inner box) := by
    intro pts y hy
    rw [hS, sea_pointwise H hd] at hy
    exact (Option.some.inj hy).symm
  rw [((C68_kept hf h).2.2.1 r hr).2 x, ← (sea_value_lt H ha hg).1]
  constructor
  · rintro ⟨-, a', b', c', hc', hlt⟩
    rw [hc] at hc'
    simp only [List.cons.injEq, Option.some.injEq, and_true] at hc'
    obtain ⟨rfl, rfl, rfl⟩ := hc'
    exact hlt
  · exact fun hlt => ⟨hx, a, b, c, hc, hlt⟩

/-- **C103** the mesh returned by `generate_mesh` for the domain of a shoreline, and what is left of it after the first two cleaning steps: all centroids lie in
the sea (centroids within the tolerance of an edge excepted). -/
theorem C103_mesh (H : Shores T inner box dist tsB tsS) {func covering : List (QueryPoint K) → Option (List K)}
    (hd : signedDistanceFunction T (joinNaN inner) (joinNaN box) false = some (func, covering)) {S : GenSetup K} (hS : S.fd = onFinite func) (hg : 0 ≤ S.geps)
    (hr : IsRounding S.rnd) (hpt : 0 < S.ptol)
    {maxIter : Nat} {p : List (K × K)} {m : FixResult K} {l : List (GenIter K)} (h : generateMesh S maxIter p = some (m, l)) {r : GenIter K}
    (hl : l.getLast? = some r) (hs : Simplicial (dtInsert S.cgal ⟨[], []⟩ r.inserted)) (hnd : r.points.Nodup) {e : K} (he : FitsIn e r.points)
    (hap : Separated (e * S.ptol) r.points) :
    (∀ x ∈ m.t, ∃ a b c, corners m.p x = [some a, some b, some c] ∧ (AwayBy T.ftol (centroid a b c) ((inner ++ box).flatMap segments) →
      InSea tsB tsS (inner ++ box).flatten dist S.geps (centroid a b c))) ∧
    ∀ {E : Engine K}, E.rnd = S.rnd ∧ E.ptol = S.ptol → ∀ {rand : Nat → Nat → Nat → Nat} {thr : K} {m1 : Mesh K},
      makeTraversable E rand thr ⟨m.p, m.t⟩ = some (some m1) → ∃ m2, deleteOneFace E none m1 = some (some m2) ∧
        ∀ x ∈ m2.t, ∃ a b c, corners m2.p x = [some a, some b, some c] ∧ (AwayBy T.ftol (centroid a b c) ((inner ++ box).flatMap segments) →
          InSea tsB tsS (inner ++ box).flatten dist S.geps (centroid a b c)) := by
  have hf : Pointwise S.fd (seaValue T inner box) := by
    intro pts y hy
    rw [hS, sea_pointwise H hd] at hy
    exact (Option.some.inj hy).symm
  refine ⟨fun x hx => ?_, fun {E} hE {rand thr m1} h1 => ?_⟩
  · obtain ⟨a, b, c, hc, hlt⟩ := (C99_generated hf hr hpt h hl hs hnd he hap).2.2.2 x hx
    exact ⟨a, b, c, hc, fun ha => (sea_value_lt H ha hg).1.1 hlt⟩
  · obtain ⟨m2, h2, -, -, -, -, h3⟩ := C99_workflow hf hr hpt h hl hs hnd he hap hE h1
    refine ⟨m2, h2, fun x hx => ?_⟩
    obtain ⟨a, b, c, hc, hlt⟩ := h3 x hx
    exact ⟨a, b, c, hc, fun ha => (sea_value_lt H ha hg).1.1 hlt⟩

/-- **C103** for calls with the domain object: the tolerance is a thousandth of the minimum edge length; the start points made by the function lie in the sea
or within that distance of a vertex of the shoreline. -/
theorem C103_call [FloorRing K] (H : Shores T inner box dist tsB tsS) {func covering : List (QueryPoint K) → Option (List K)}
    (hd : signedDistanceFunction T (joinNaN inner) (joinNaN box) false = some (func, covering)) {E : GenEngine K} {bb : BoxArg K} {edge : EdgeArg K}
    {kw : List (String × OptVal K)} {m : FixResult K} {l : List (GenIter K)} (h : generateCall E (.domain bb (onFinite func)) edge kw = some (m, l)) :
    ∃ hm : K, 0 < hm ∧ MinimumIs kw edge hm ∧
      (∀ r ∈ l, ∀ x ∈ r.triangles, ∀ a b c, corners r.points x = [some a, some b, some c] →
        AwayBy T.ftol (centroid a b c) ((inner ++ box).flatMap segments) →
        (x ∈ r.kept ↔ InSea tsB tsS (inner ++ box).flatten dist (hm / 1000) (centroid a b c))) ∧
      ∃ r l', l = r :: l' ∧ (("points", OptVal.points r.inserted) ∈ kw ∨
        ∃ fixed new, r.inserted = fixed ++ new ∧ (("pfix", OptVal.points fixed) ∈ kw ∨ fixed = []) ∧
          ∀ q ∈ new, AwayBy T.ftol q ((inner ++ box).flatMap segments) →
            (InRegion tsB q ∧ InRegion tsS q) ∨ ∃ v ∈ (inner ++ box).flatten, dist q v < hm / 1000) := by
  have hf : Pointwise (onFinite func) (seaValue T inner box) := by
    intro pts y hy
    rw [sea_pointwise H hd] at hy
    exact (Option.some.inj hy).symm
  obtain ⟨hm, h1, h2, -, h3, r, l', h4, h5⟩ := C100_result h (fd := onFinite func) rfl hf
  have hg : 0 ≤ hm / 1000 := by positivity
  refine ⟨hm, h1, h2, fun r hr x hx a b c hc ha => ?_, r, l', h4, ?_⟩
  · rw [h3 r hr x, ← (sea_value_lt H ha hg).1]
    constructor
    · rintro ⟨-, a', b', c', hc', hlt⟩
      rw [hc] at hc'
      simp only [List.cons.injEq, Option.some.injEq, and_true] at hc'
      obtain ⟨rfl, rfl, rfl⟩ := hc'
      exact hlt
    · exact fun hlt => ⟨hx, a, b, c, hc, hlt⟩
  · rcases h5 with h5 | ⟨fixed, new, e1, e2, e3, -⟩
    · exact .inl h5
    · exact .inr ⟨fixed, new, e1, e2, fun q hq ha => (sea_value_lt H ha hg).2 (e3 q hq)⟩

end
/-! ## An execution -/

def bigBox : List (List (ℚ × ℚ)) := [[(-30, -30), (30, -30), (30, 30), (-30, 30), (-30, -30), (-30, -30)]]
def farIsland : List (List (ℚ × ℚ)) := [[(20, 20), (21, 20), (21, 21), (20, 21), (20, 20), (20, 20)]]
def bigTris : List ((ℚ × ℚ) × (ℚ × ℚ) × (ℚ × ℚ)) := [((-30, -30), (30, -30), (30, 30)), ((-30, -30), (30, 30), (-30, 30))]
def seaTris : List ((ℚ × ℚ) × (ℚ × ℚ) × (ℚ × ℚ)) :=
  [((-30, -30), (30, -30), (20, 20)), ((30, -30), (21, 20), (20, 20)), ((30, -30), (30, 30), (21, 20)), ((30, 30), (21, 21), (21, 20)),
    ((30, 30), (-30, 30), (21, 21)), ((-30, 30), (20, 21), (21, 21)), ((-30, 30), (-30, -30), (20, 21)), ((-30, -30), (20, 20), (20, 21))]

theorem shoresQ : Shores toolsQ farIsland bigBox (fun p q => |p.1 - q.1| + |p.2 - q.2|) bigTris seaTris where
  compiled := ⟨rfl, rfl⟩
  ftol := by norm_num [toolsQ]
  innerClosed f hf := by
    obtain rfl : f = _ := List.mem_singleton.1 hf
    exact ⟨(20, 20), [(21, 20), (21, 21), (20, 21)], rfl⟩
  boxClosed f hf := by
    obtain rfl : f = _ := List.mem_singleton.1 hf
    exact ⟨(-30, -30), [(30, -30), (30, 30), (-30, 30)], rfl⟩
  boxSome := by simp [bigBox]
  nearest := nearQ_nearest (by simp [farIsland])
  boxRegion := triangulates_check [(-30, -30), (30, -30), (30, 30), (-30, 30)] (by decide +kernel) (by decide +kernel) (by decide +kernel) (by decide +kernel)
    (by decide +kernel)
  sea := triangulates_check [(-30, -30), (30, -30), (30, 30), (-30, 30), (20, 20), (21, 20), (21, 21), (20, 21)] (by decide +kernel) (by decide +kernel)
    (by decide +kernel) (by decide +kernel) (by decide +kernel)

def seaFuncs : (List (QueryPoint ℚ) → Option (List ℚ)) × (List (QueryPoint ℚ) → Option (List ℚ)) :=
  match signedDistanceFunction toolsQ (joinNaN farIsland) (joinNaN bigBox) false with
  | some f => f
  | none => (fun _ => none, fun _ => none)

theorem seaFuncs_eq : signedDistanceFunction toolsQ (joinNaN farIsland) (joinNaN bigBox) false = some (seaFuncs.1, seaFuncs.2) := by
  obtain ⟨f, c, h, -⟩ := C102_pointwise toolsQ shoresQ.innerClosed shoresQ.boxClosed shoresQ.boxSome false
  unfold seaFuncs
  rw [h]

def seaGen : GenSetup ℚ := { wheelGen with fd := onFinite seaFuncs.1 }

/-- The execution of C99, in the sea. -/
theorem seaRun_eq : generateMesh seaGen 2 wheelStart = some (wheelRun.1, wheelRun.2) := by decide +kernel

example := C103_kept shoresQ seaFuncs_eq (S := seaGen) rfl (by norm_num [seaGen, wheelGen, genQ]) seaRun_eq

example := C103_mesh shoresQ seaFuncs_eq (S := seaGen) rfl (by norm_num [seaGen, wheelGen, genQ]) rndQ_isRounding (by norm_num [seaGen, wheelGen, genQ]) seaRun_eq rfl
  wheelRun_simplicial (by decide +kernel) wheelRun_fits wheelRun_apart

-- A centroid of the execution that is away from the edges.
example : AwayBy (1 / 1000) ((0, 0) : ℚ × ℚ) (farIsland.flatMap segments) := by
  have h : farIsland.flatMap segments = [((20, 20), (21, 20)), ((21, 20), (21, 21)), ((21, 21), (20, 21)), ((20, 21), (20, 20)), ((20, 20), (20, 20))] := rfl
  rw [h]
  rintro e he - p ⟨t, h0, h1, hx, hy⟩
  have l1 := abs_nonneg (0 - p.1)
  have l2 := abs_nonneg (0 - p.2)
  have n1 := neg_abs_le (0 - p.1)
  have n2 := neg_abs_le (0 - p.2)
  simp only [List.mem_cons, List.not_mem_nil, or_false] at he
  rcases he with rfl | rfl | rfl | rfl | rfl <;> simp only at hx hy ⊢ <;> norm_num at hx hy n1 n2 ⊢ <;> linarith

theorem seaCall_some : (generateCall engQ (.domain (.tuple [-30, 30, -30, 30]) (onFinite seaFuncs.1)) edgeQ
    [("min_edge_length", .num (.int 1)), ("max_iter", .num (.int 1)), ("points", .points [(0, 0), (2, 0), (0, 1)])]).isSome := by decide +kernel

example : ∃ m l, generateCall engQ (.domain (.tuple [-30, 30, -30, 30]) (onFinite seaFuncs.1)) edgeQ
    [("min_edge_length", .num (.int 1)), ("max_iter", .num (.int 1)), ("points", .points [(0, 0), (2, 0), (0, 1)])] = some (m, l) ∧
    ∃ hm : ℚ, 0 < hm ∧ ∀ r ∈ l, ∀ x ∈ r.triangles, ∀ a b c, corners r.points x = [some a, some b, some c] →
      AwayBy toolsQ.ftol (centroid a b c) ((farIsland ++ bigBox).flatMap segments) →
      (x ∈ r.kept ↔ InSea bigTris seaTris (farIsland ++ bigBox).flatten (fun p q => |p.1 - q.1| + |p.2 - q.2|) (hm / 1000) (centroid a b c)) := by
  obtain ⟨⟨m, l⟩, h⟩ := Option.isSome_iff_exists.1 seaCall_some
  obtain ⟨hm, h1, -, h2, -⟩ := C103_call shoresQ seaFuncs_eq h
  exact ⟨m, l, h, hm, h1, h2⟩

end OM
