import Verif.Props.SeaMeshFl
import Verif.Props.InitialFl
/-!
# C126: whole runs for the domain of a shoreline in rounded arithmetic, and the figures for doubles and degrees
-/
set_option linter.unusedSectionVars false
namespace OM
open Spec
section
variable {K : Type} [Field K] [LinearOrder K] [IsStrictOrderedRing K]
variable {rnd : K → K} {u M : K} {T : SdfTools K} {inner box : List (List (K × K))} {tsB tsS : List ((K × K) × (K × K) × (K × K))}

theorem seaValueFl_cases (rnd : K → K) (fused : Bool) (T : SdfTools K) (inner box : List (List (K × K))) (q : K × K) :
    ((ringTestFl rnd fused T box q).1 = true ∧ (ringTestFl rnd fused T (inner ++ box) q).1 = true ∧
        seaValueFl rnd fused T inner box q = -T.near (inner ++ box).flatten q) ∨
      seaValueFl rnd fused T inner box q = T.near (inner ++ box).flatten q := by
  unfold seaValueFl sdfAt
  dsimp only
  cases hB : (ringTestFl rnd fused T box q).1 <;> cases hS : (ringTestFl rnd fused T (inner ++ box) q).1 <;> simp

/-- **C126** (whole run): start points made by `generate_initial_points_grid` for the domain of a shoreline, then `generate_mesh`. Start points beyond the reach of
the tests lie in the sea or nearer than the tolerance to a vertex of the shoreline. Fixed points that are vertices of the shoreline, or lie in the sea
beyond the reach of the tests, are vertices of the triangulation in every iteration with their exact coordinates. -/
theorem C126_run [FloorRing K] (H : ShoresFl rnd u M T inner box tsB tsS) (hone : rnd 1 = 1) (hpos : ∀ x, 0 < x → 0 < rnd x) {fused : Bool}
    {func covering : List (QueryPoint K) → Option (List K)}
    (hd : signedDistanceFunctionFl rnd fused T (joinNaN inner) (joinNaN box) false = some (func, covering)) {dist : K × K → K × K → K} {ρ : K}
    (hself : ∀ q, dist q q = 0) (hnear : NearlyNearest dist (inner ++ box).flatten ρ (T.near (inner ++ box).flatten))
    {S : GenFl K} (hS : S.fd = onFinite func) (hfl : S.fl = rnd) (hsq : IsSquareSum S.sq) (L : CgalLaws S.cgal)
    (hfix : ∀ q ∈ S.pfix, (rnd q.1 = q.1 ∧ rnd q.2 = q.2) ∧ (q ∈ (inner ++ box).flatten ∨
      StoredPoint rnd (2 * M) q ∧ TestSafe T u M 0 q ((inner ++ box).flatMap segments) ∧ InRegion tsB q ∧ InRegion tsS q))
    {h geps : K} (hh : 0 < h) {b : Box K} {fh : List (K × K) → Option (List (Float64 K))} {g : K × K → Float64 K} (hg : Pointwise fh g) {rand : Nat → K}
    {p : List (K × K)} (hp : initialFl rnd h geps b fh S.fd rand S.pfix = some p) {maxIter : Nat} {m : FixResult K} {l : List (GenIter K)}
    (hm : generateMeshFl S maxIter p = some (m, l)) :
    (∃ new, p = S.pfix ++ new ∧ new.Sublist (latticePointsFl rnd b h) ∧ ∀ q ∈ new, StoredPoint rnd (2 * M) q →
        TestSafe T u M 0 q ((inner ++ box).flatMap segments) →
        (InRegion tsB q ∧ InRegion tsS q) ∨ ∃ v ∈ (inner ++ box).flatten, (1 - ρ) * dist q v < geps) ∧
      ∀ r ∈ l, RoundedPoints rnd r.points ∧ r.points = r.vertices ∧ ∀ q ∈ S.pfix, q ∈ r.points := by
  have hf : Pointwise S.fd (seaValueFl rnd fused T inner box) := by
    intro pts y hy
    rw [hS, seaFl_pointwise H.innerClosed H.boxClosed H.boxSome hd] at hy
    exact (Option.some.inj hy).symm
  obtain ⟨new, e1, e2, e3, -⟩ := C124_initial_points H.rounding hone hpos hh hg hf hp
  refine ⟨⟨new, e1, e2, fun q hq hst hn => ?_⟩, ?_⟩
  · have := e3 q hq
    obtain ⟨t1, t2⟩ := C126_tests H fused hst hn
    rcases seaValueFl_cases rnd fused T inner box q with ⟨h1, h2, -⟩ | h1
    · exact .inl ⟨t1.1 h1, t2.1 h2⟩
    · rw [h1] at this
      obtain ⟨w, hw, hl⟩ := (hnear q).2.1
      exact .inr ⟨w, hw, hl.trans_lt this⟩
  · have hround : RoundedPoints S.fl p := by
      rw [hfl, e1]
      intro q hq
      rcases List.mem_append.1 hq with hq | hq
      · exact (hfix q hq).1
      · have := e2.subset hq
        simp only [latticePointsFl, latticeLineFl, lineNodeFl, List.mem_flatMap, List.mem_map] at this
        obtain ⟨x, ⟨i, -, rfl⟩, y, ⟨j, -, rfl⟩, rfl⟩ := this
        exact ⟨H.rounding.idem _, H.rounding.idem _⟩
    have hin : ∀ q ∈ S.pfix, seaValueFl rnd fused T inner box q ≤ 0 := by
      intro q hq
      have h0 := (hnear q).1
      rcases (hfix q hq).2 with hv | ⟨hst, hn, hB, hSe⟩
      · have := (hnear q).2.2 q hv
        rw [hself, mul_zero] at this
        rcases seaValueFl_cases rnd fused T inner box q with ⟨-, -, h1⟩ | h1 <;> rw [h1] <;> linarith
      · obtain ⟨t1, t2⟩ := C126_tests H fused hst hn
        have : seaValueFl rnd fused T inner box q = -T.near (inner ++ box).flatten q := by
          unfold seaValueFl sdfAt
          simp [t1.2 hB, t2.2 hSe]
        rw [this]
        linarith
    have := C125_fixed_points (u := u) (by rw [hfl]; exact H.rounding) (by rw [hfl]; exact H.relError) (by linarith [H.unit.2]) hsq L hf hin hround
      (fun q hq => by rw [e1]; exact List.mem_append_left _ hq) hm
    rw [hfl] at this
    exact this

theorem beyond_mono {r r' : Seg K → K} {q : K × K} {edges : List (Seg K)} (h : ∀ s ∈ edges, r s ≤ r' s) (hb : BeyondReach r' q edges) : BeyondReach r q edges :=
  fun s hs hn => hb s hs (near_mono (h s hs) hn)

/-- The errors of the centroid and of `fix_mesh` in degrees. -/
theorem degrees_margin {pts : List (K × K)} (hM : ∀ q ∈ pts, |q.1| ≤ 180 ∧ |q.2| ≤ 180) {e : K} (he : IsExtent pts e) :
    2 * ((1 + 1 / 2 ^ 53) ^ 3 * (e * (3961408125713217 / 2 ^ 94)) + 8 * (1 / 2 ^ 53) * 180) ≤ (147 / 10 ^ 12 : K) := by
  have he360 : e ≤ 360 := by
    obtain ⟨⟨q, hq, q', hq', hc⟩, -⟩ := he
    have a := hM q hq
    have b := hM q' hq'
    rcases hc with rfl | rfl
    · have := abs_sub q.1 q'.1; linarith
    · have := abs_sub q.2 q'.2; linarith
  have he2 : (1 + 1 / 2 ^ 53 : K) ^ 3 * (e * (3961408125713217 / 2 ^ 94)) ≤ (1 + 1 / 2 ^ 53 : K) ^ 3 * (360 * (3961408125713217 / 2 ^ 94)) := by
    gcongr
  have hnum : (2 * ((1 + 1 / 2 ^ 53) ^ 3 * (360 * (3961408125713217 / 2 ^ 94)) + 8 * (1 / 2 ^ 53) * 180) : K) ≤ 147 / 10 ^ 12 := by norm_num
  linarith

/-- **C126** in doubles and degrees, with the tolerances of the code (`5e-14` in `inpoly2`, `2e-13` in `fix_mesh`) and the compiled test: the centroid of every
returned triangle that is farther than `1.5e-10` degrees (less than 0.02 mm) from all edges of the shoreline polygons lies in the sea. -/
theorem C126_degrees [FloorRing K] (hT : T.cfg.env = none ∧ T.cfg.compiled = true) (hft : T.ftol = roundDouble (5 / 10 ^ 14))
    (H : ShoresFl roundDouble (1 / 2 ^ 53) 180 T inner box tsB tsS)
    {fused : Bool} {func covering : List (QueryPoint K) → Option (List K)}
    (hd : signedDistanceFunctionFl roundDouble fused T (joinNaN inner) (joinNaN box) false = some (func, covering))
    (hnear : ∀ q, 0 ≤ T.near (inner ++ box).flatten q) {S : GenFl K} (hS : S.fd = onFinite func) (hfl : S.fl = roundDouble) (hg : 0 ≤ S.geps)
    (hi : IsRounding S.rnd) (hpt : S.ptol = 3961408125713217 / 2 ^ 94) {maxIter : Nat} {p : List (K × K)} {m : FixResult K} {l : List (GenIter K)}
    (h : generateMeshFl S maxIter p = some (m, l)) :
    ∃ r, l.getLast? = some r ∧ ((∀ q ∈ r.points, |q.1| ≤ 180 ∧ |q.2| ≤ 180) → ∀ e, IsExtent r.points e → ∀ g ∈ m.t, ∃ x y z,
      corners m.p g = [some x, some y, some z] ∧
      (BeyondReach (fun _ => 15 / 10 ^ 11) (centroid x y z) ((inner ++ box).flatMap segments) →
        InRegion tsB (centroid x y z) ∧ InRegion tsS (centroid x y z))) := by
  obtain ⟨r, h1, h2⟩ := C126_mesh H hd hnear hS hfl hg hi (by rw [hpt]; positivity) h
  refine ⟨r, h1, fun hM e he g hg' => ?_⟩
  obtain ⟨x, y, z, h3, h4⟩ := h2 e he hM g hg'
  refine ⟨x, y, z, h3, fun hb => h4 ⟨beyond_mono (fun s _ => ?_) hb, fun h => absurd hT h⟩⟩
  have hm := degrees_margin hM he
  have hf := (abs_le.1 (C113_roundDouble.2 (5 / 10 ^ 14 : K))).2
  rw [abs_of_pos (by positivity)] at hf
  have hnum : (5 / 10 ^ 14 + 1 / 2 ^ 53 * (5 / 10 ^ 14) + 16 * (1 / 2 ^ 53) * 180 + 147 / 10 ^ 12 : K) ≤ 15 / 10 ^ 11 := by norm_num
  rw [hpt]
  unfold testReach
  rw [if_pos hT, hft]
  linarith

/-- **C126** in doubles and degrees with the test in Python (or shapely or matplotlib asked for), for shorelines with edges of at least 0.001 degrees: the same for
centroids that are farther than `3e-10` degrees from all edges and more than `1.5e-10` degrees above or below the edges that are nearly but not exactly flat. -/
theorem C126_degrees_python [FloorRing K] (hT : ¬ (T.cfg.env = none ∧ T.cfg.compiled = true)) (hft : T.ftol = roundDouble (5 / 10 ^ 14))
    (H : ShoresFl roundDouble (1 / 2 ^ 53) 180 T inner box tsB tsS)
    (hlen : ∀ s ∈ (inner ++ box).flatMap segments, s.1 = s.2 ∨ 1 / 1000 ≤ |s.2.1 - s.1.1| + |s.2.2 - s.1.2|)
    {fused : Bool} {func covering : List (QueryPoint K) → Option (List K)}
    (hd : signedDistanceFunctionFl roundDouble fused T (joinNaN inner) (joinNaN box) false = some (func, covering))
    (hnear : ∀ q, 0 ≤ T.near (inner ++ box).flatten q) {S : GenFl K} (hS : S.fd = onFinite func) (hfl : S.fl = roundDouble) (hg : 0 ≤ S.geps)
    (hi : IsRounding S.rnd) (hpt : S.ptol = 3961408125713217 / 2 ^ 94) {maxIter : Nat} {p : List (K × K)} {m : FixResult K} {l : List (GenIter K)}
    (h : generateMeshFl S maxIter p = some (m, l)) :
    ∃ r, l.getLast? = some r ∧ ((∀ q ∈ r.points, |q.1| ≤ 180 ∧ |q.2| ≤ 180) → ∀ e, IsExtent r.points e → ∀ g ∈ m.t, ∃ x y z,
      corners m.p g = [some x, some y, some z] ∧
      (BeyondReach (fun _ => 3 / 10 ^ 10) (centroid x y z) ((inner ++ box).flatMap segments) →
        (∀ s ∈ (inner ++ box).flatMap segments, LevelClear (6 / 10 ^ 14) (15 / 10 ^ 11) (centroid x y z).2 s) →
        InRegion tsB (centroid x y z) ∧ InRegion tsS (centroid x y z))) := by
  obtain ⟨r, h1, h2⟩ := C126_mesh H hd hnear hS hfl hg hi (by rw [hpt]; positivity) h
  refine ⟨r, h1, fun hM e he g hg' => ?_⟩
  obtain ⟨x, y, z, h3, h4⟩ := h2 e he hM g hg'
  have hm := degrees_margin hM he
  have hf := (abs_le.1 (C113_roundDouble.2 (5 / 10 ^ 14 : K))).2
  rw [abs_of_pos (by positivity)] at hf
  have hf0 := H.ftol.1
  rw [← hft] at hf
  have hf1 : T.ftol ≤ 500001 / 10 ^ 19 := by
    have : (5 / 10 ^ 14 + 1 / 2 ^ 53 * (5 / 10 ^ 14) : K) ≤ 500001 / 10 ^ 19 := by norm_num
    linarith
  rw [← hpt] at hm
  refine ⟨x, y, z, h3, fun hb hl => h4 ⟨beyond_mono (fun s hs => ?_) hb, fun _ s hs => levelClear_mono (hl s hs) ?_ ?_⟩⟩
  · unfold testReach
    rw [if_neg hT]
    unfold pyReach
    have hq : 9 / 4 * T.ftol / (|s.2.1 - s.1.1| + |s.2.2 - s.1.2|) ≤ 9 / 4 * T.ftol * 1000 := by
      rcases hlen s hs with h | h
      · rw [h]
        simp only [sub_self, abs_zero, add_zero, div_zero]
        positivity
      · rw [div_le_iff₀ (by linarith [(by norm_num : (0 : K) < 1 / 1000)])]
        have : 9 / 4 * T.ftol * 1 ≤ 9 / 4 * T.ftol * (1000 * (|s.2.1 - s.1.1| + |s.2.2 - s.1.2|)) := mul_le_mul_of_nonneg_left (by linarith) (by positivity)
        linarith
    have hnum : (3 / 2 * (500001 / 10 ^ 19) + 9 / 4 * (500001 / 10 ^ 19) * 1000 + 128 * (1 / 2 ^ 53) * 180 + 147 / 10 ^ 12 : K) ≤ 3 / 10 ^ 10 := by norm_num
    linarith
  · have hnum : ((1 + 2 * (1 / 2 ^ 53)) * (500001 / 10 ^ 19) : K) ≤ 6 / 10 ^ 14 := by norm_num
    exact (mul_le_mul_of_nonneg_left hf1 (by positivity)).trans hnum
  · have hnum : (147 / 10 ^ 12 : K) ≤ 15 / 10 ^ 11 := by norm_num
    linarith

end
end OM
