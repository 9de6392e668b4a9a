import Verif.Props.ShoreSdfFl
/-!
# C126: the triangles generated for the domain of a shoreline in rounded arithmetic
-/
set_option linter.unusedSectionVars false
namespace OM
open Spec
section
variable {K : Type} [Field K] [LinearOrder K] [IsStrictOrderedRing K]
variable {rnd : K → K} {u M : K} {T : SdfTools K} {inner box : List (List (K × K))} {tsB tsS : List ((K × K) × (K × K) × (K × K))}

/-! ## Nearby points -/

theorem not_near_shift {r d : K} {x y a b : K × K} (h : ¬ NearSegment (r + d) x a b) (hd : |x.1 - y.1| + |x.2 - y.2| ≤ d) : ¬ NearSegment r y a b := by
  rintro ⟨z, hz, hle⟩
  refine h ⟨z, hz, ?_⟩
  have h1 := abs_sub_le x.1 y.1 z.1
  have h2 := abs_sub_le x.2 y.2 z.2
  linarith

theorem on_segment_dist {x y z : K × K} (h : OnClosedSegment z x y) : |x.1 - z.1| + |x.2 - z.2| ≤ |x.1 - y.1| + |x.2 - y.2| := by
  obtain ⟨t, t0, t1, e1, e2⟩ := h
  have k : ∀ p q r : K, r = p + t * (q - p) → |p - r| ≤ |p - q| := by
    intro p q r e
    rw [e, show p - (p + t * (q - p)) = t * (p - q) by ring, abs_mul, abs_of_nonneg t0]
    exact mul_le_of_le_one_left (abs_nonneg _) t1
  exact add_le_add (k _ _ _ e1) (k _ _ _ e2)

/-- Two points whose connection meets no edge lie both in the region or both outside. -/
theorem region_stable {ts : List ((K × K) × (K × K) × (K × K))} {segs : List (Seg K)} (hts : Triangulates ts segs) {x y : K × K}
    (h : ∀ e ∈ segs, Apart x y e.1 e.2) : InRegion ts x ↔ InRegion ts y := by
  have away : ∀ q : K × K, OnClosedSegment q x y → (cPoint 0 segs q).2 = false := by
    intro q hq
    apply away_not_flagged
    intro e he _ p hp
    rcases (add_nonneg (abs_nonneg (q.1 - p.1)) (abs_nonneg (q.2 - p.2))).lt_or_eq with h0 | h0
    · exact h0
    · have e1 : q.1 - p.1 = 0 := abs_eq_zero.1 (by linarith [abs_nonneg (q.1 - p.1), abs_nonneg (q.2 - p.2)])
      have e2 : q.2 - p.2 = 0 := abs_eq_zero.1 (by linarith [abs_nonneg (q.1 - p.1), abs_nonneg (q.2 - p.2)])
      obtain rfl : q = p := Prod.ext (by linarith) (by linarith)
      exact absurd hp (h e he q hq)
  have hx : (cPoint 0 segs x).2 = false := away x ⟨0, le_rfl, zero_le_one, by simp, by simp⟩
  have hy : (cPoint 0 segs y).2 = false := away y ⟨1, zero_le_one, le_rfl, by simp, by simp⟩
  have hp : MeetsProperly segs [x, y] 0 :=
    MeetsProperly.step x y [] 0 [] segs (by simp) (by simp) h (MeetsProperly.single y)
  have := C95_path_compiled le_rfl hts.even hp hx hy
  simp only [List.getLast_cons_cons, List.getLast_singleton] at this
  rw [show ((0 % 2 == 1 : Bool)) = false from rfl, Bool.xor_false] at this
  rw [InRegion, ← C101_region_compiled le_rfl hts hx, this, C101_region_compiled le_rfl hts hy]
  rfl

theorem testReach_nonneg (H : ShoresFl rnd u M T inner box tsB tsS) (s : Seg K) : 0 ≤ testReach T u M s := by
  have hM : 0 ≤ M := H.ftol.1.trans H.ftol.2
  have huM : 0 ≤ u * M := mul_nonneg H.unit.1 hM
  have := H.ftol.1
  unfold testReach
  split
  · linarith
  · have := le_pyReach (e := 128 * u * M) H.ftol.1 s
    linarith

/-- Points that are at most `d` apart, one of them more than `d` beyond the reach of the tests. -/
theorem sea_stable (H : ShoresFl rnd u M T inner box tsB tsS) {d : K} {x y : K × K} (hd : |x.1 - y.1| + |x.2 - y.2| ≤ d)
    (hx : TestSafe T u M d x ((inner ++ box).flatMap segments)) :
    TestSafe T u M 0 y ((inner ++ box).flatMap segments) ∧ (InRegion tsB x ↔ InRegion tsB y) ∧ (InRegion tsS x ↔ InRegion tsS y) := by
  have hap : ∀ e ∈ (inner ++ box).flatMap segments, Apart x y e.1 e.2 := by
    intro e he z hz hze
    exact hx.1 e he ⟨z, hze, (on_segment_dist hz).trans (hd.trans (by linarith [testReach_nonneg H e]))⟩
  refine ⟨⟨fun e he => ?_, fun hT e he => levelClear_shift (by rw [zero_add]; exact hx.2 hT e he) ?_⟩, region_stable H.boxRegion fun e he => hap e ?_, region_stable H.sea hap⟩
  · simp only [add_zero]; exact not_near_shift (hx.1 e he) hd
  · rw [abs_sub_comm]
    linarith [abs_nonneg (x.1 - y.1)]
  · rw [List.flatMap_append]; exact List.mem_append_right _ he

theorem within_sum {d : K} {x y : K × K} (h : Within d x y) : |y.1 - x.1| + |y.2 - x.2| ≤ 2 * d := by
  rw [abs_sub_comm y.1, abs_sub_comm y.2]
  have := h.1
  have := h.2
  linarith

theorem stored_centroid (H : ShoresFl rnd u M T inner box tsB tsS) {a b c : K × K} (ha : |a.1| ≤ M ∧ |a.2| ≤ M) (hb : |b.1| ≤ M ∧ |b.2| ≤ M)
    (hc : |c.1| ≤ M ∧ |c.2| ≤ M) : StoredPoint rnd (2 * M) (roundedCentroid rnd a b c) := by
  have hM : 0 ≤ M := H.ftol.1.trans H.ftol.2
  have hw := C125_centroid_error H.relError H.unit.1 (H.unit.2.trans (by norm_num)) ha hb hc
  have k : ∀ x y z w : K, |x| ≤ M → |y| ≤ M → |z| ≤ M → |w - (x + y + z) / 3| ≤ 3 * u * M → |w| ≤ 2 * M := by
    intro x y z w h1 h2 h3 h4
    have h5 := abs_add_three x y z
    have h6 : |(x + y + z) / 3| ≤ M := by rw [abs_div, abs_of_pos (by norm_num : (0 : K) < 3)]; linarith
    have h7 := abs_sub_abs_le_abs_sub w ((x + y + z) / 3)
    have h8 : 3 * u * M ≤ 3 / 128 * M := mul_le_mul_of_nonneg_right (by linarith [H.unit.2]) hM
    linarith
  exact ⟨H.rounding.idem _, H.rounding.idem _, k _ _ _ _ ha.1 hb.1 hc.1 hw.1, k _ _ _ _ ha.2 hb.2 hc.2 hw.2⟩

theorem seaValueFl_lt (H : ShoresFl rnd u M T inner box tsB tsS) (hnear : ∀ q, 0 ≤ T.near (inner ++ box).flatten q) (fused : Bool) {q : K × K}
    (hq : StoredPoint rnd (2 * M) q) (hn : TestSafe T u M 0 q ((inner ++ box).flatMap segments)) {g : K} (hg : 0 ≤ g) :
    seaValueFl rnd fused T inner box q < -g ↔ InRegion tsB q ∧ InRegion tsS q ∧ g < T.near (inner ++ box).flatten q := by
  obtain ⟨func, cov, h, -⟩ := C126_pointwise rnd fused T H.innerClosed H.boxClosed H.boxSome false
  obtain ⟨vals, h1, -, h2⟩ := C126_sign H hnear h [q]
  rw [seaFl_pointwise H.innerClosed H.boxClosed H.boxSome h] at h1
  exact (h2 0 q _ rfl (by rw [← Option.some.inj h1]; rfl) hq hn).2 g hg

/-! ## Triangles -/

/-- **C126** (kept triangles): the triangles that the rounded generator keeps for the domain of a shoreline, seen from their true centroids. A centroid more than
`6 u M` beyond the reach of the tests: if the triangle is kept the centroid lies in the sea and (up to rounding errors) farther than `geps` from all vertices
of the shoreline, and if the centroid does so then the triangle is kept. -/
theorem C126_kept (H : ShoresFl rnd u M T inner box tsB tsS) {fused : Bool} {func covering : List (QueryPoint K) → Option (List K)}
    (hd : signedDistanceFunctionFl rnd fused T (joinNaN inner) (joinNaN box) false = some (func, covering)) {dist : K × K → K × K → K} {ρ : K}
    (hρ : 0 ≤ ρ ∧ ρ ≤ 1) (hst : DistanceStable dist) (hnear : NearlyNearest dist (inner ++ box).flatten ρ (T.near (inner ++ box).flatten))
    {S : GenFl K} (hS : S.fd = onFinite func) (hfl : S.fl = rnd) (hg : 0 ≤ S.geps)
    {maxIter : Nat} {p : List (K × K)} {m : FixResult K} {l : List (GenIter K)} (h : generateMeshFl S maxIter p = some (m, l)) :
    ∀ r ∈ l, ∀ x ∈ r.triangles, ∀ a b c, corners r.points x = [some a, some b, some c] → |a.1| ≤ M ∧ |a.2| ≤ M → |b.1| ≤ M ∧ |b.2| ≤ M →
      |c.1| ≤ M ∧ |c.2| ≤ M → TestSafe T u M (6 * u * M) (centroid a b c) ((inner ++ box).flatMap segments) →
      (x ∈ r.kept → InRegion tsB (centroid a b c) ∧ InRegion tsS (centroid a b c) ∧
        ∀ v ∈ (inner ++ box).flatten, S.geps < (1 + ρ) * (dist (centroid a b c) v + 6 * u * M)) ∧
      (InRegion tsB (centroid a b c) → InRegion tsS (centroid a b c) →
        (∀ v ∈ (inner ++ box).flatten, S.geps < (1 - ρ) * (dist (centroid a b c) v - 6 * u * M)) → x ∈ r.kept) := by
  intro r hr x hx a b c hc ha hb hc' hn
  have hf : Pointwise S.fd (seaValueFl rnd fused T inner box) := by
    intro pts y hy
    rw [hS, seaFl_pointwise H.innerClosed H.boxClosed H.boxSome hd] at hy
    exact (Option.some.inj hy).symm
  have hw := C125_centroid_error H.relError H.unit.1 (H.unit.2.trans (by norm_num)) ha hb hc'
  have hws := within_sum hw
  rw [show 2 * (3 * u * M) = 6 * u * M by ring] at hws
  obtain ⟨s1, s2, s3⟩ := sea_stable H hws hn
  have key := seaValueFl_lt H (fun q => (hnear q).1) fused (stored_centroid H ha hb hc') s1 hg
  have hmem : x ∈ r.kept ↔ seaValueFl rnd fused T inner box (roundedCentroid rnd a b c) < -S.geps := by
    rw [((C125_kept hf h).2.2.1 r hr).2.2 x, hfl]
    constructor
    · rintro ⟨-, a', b', c', hc', hlt⟩
      rw [hc] at hc'
      simp only [List.cons.injEq, Option.some.injEq, and_true] at hc'
      obtain ⟨rfl, rfl, rfl⟩ := hc'
      exact hlt
    · exact fun hlt => ⟨hx, a, b, c, hc, hlt⟩
  rw [hmem, key, s2, s3]
  obtain ⟨-, ⟨w, hwm, hwl⟩, hnu⟩ := hnear (roundedCentroid rnd a b c)
  refine ⟨fun ⟨h1, h2, h3⟩ => ⟨h1, h2, fun v hv => ?_⟩, fun h1 h2 h3 => ⟨h1, h2, ?_⟩⟩
  · refine (h3.trans_le (hnu v hv)).trans_le (mul_le_mul_of_nonneg_left ?_ (by linarith [hρ.1]))
    have := hst (roundedCentroid rnd a b c) (centroid a b c) v
    rw [abs_sub_comm (roundedCentroid rnd a b c).1, abs_sub_comm (roundedCentroid rnd a b c).2] at this
    linarith
  · refine lt_of_lt_of_le ((h3 w hwm).trans_le (mul_le_mul_of_nonneg_left ?_ (by linarith [hρ.2]))) hwl
    have := hst (centroid a b c) (roundedCentroid rnd a b c) w
    linarith

/-- **C126** (result): the centroids of the returned triangles lie in the sea, those within the tolerances (of the tests and of `fix_mesh`) and rounding
errors of an edge excepted. -/
theorem C126_mesh (H : ShoresFl rnd u M T inner box tsB tsS) {fused : Bool} {func covering : List (QueryPoint K) → Option (List K)}
    (hd : signedDistanceFunctionFl rnd fused T (joinNaN inner) (joinNaN box) false = some (func, covering))
    (hnear : ∀ q, 0 ≤ T.near (inner ++ box).flatten q) {S : GenFl K} (hS : S.fd = onFinite func) (hfl : S.fl = rnd) (hg : 0 ≤ S.geps)
    (hi : IsRounding S.rnd) (hpt : 0 < S.ptol) {maxIter : Nat} {p : List (K × K)} {m : FixResult K} {l : List (GenIter K)}
    (h : generateMeshFl S maxIter p = some (m, l)) :
    ∃ r, l.getLast? = some r ∧ ∀ e, IsExtent r.points e → (∀ q ∈ r.points, |q.1| ≤ M ∧ |q.2| ≤ M) → ∀ g ∈ m.t, ∃ x y z,
      corners m.p g = [some x, some y, some z] ∧
      (TestSafe T u M (2 * ((1 + u) ^ 3 * (e * S.ptol) + 8 * u * M)) (centroid x y z) ((inner ++ box).flatMap segments) →
        InRegion tsB (centroid x y z) ∧ InRegion tsS (centroid x y z)) := by
  have hf : Pointwise S.fd (seaValueFl rnd fused T inner box) := by
    intro pts y hy
    rw [hS, seaFl_pointwise H.innerClosed H.boxClosed H.boxSome hd] at hy
    exact (Option.some.inj hy).symm
  obtain ⟨-, -, a3, r, a4, a5⟩ := C125_kept hf h
  refine ⟨r, a4, fun e he hM g hg' => ?_⟩
  obtain ⟨-, hv, c3⟩ := a3 r (List.mem_of_getLast? a4)
  rw [hfl] at a5 c3
  obtain ⟨t, ht, x, y, z, x', y', z', d1, d2, d3, d4, d5⟩ :=
    (C120_geometry_partial H.rounding H.relError H.unit.1 (H.unit.2.trans (by norm_num)) hi hpt he hM hv a5).2 g hg'
  obtain ⟨-, x0, y0, z0, e1, e2⟩ := (c3 t).1 ht
  rw [d1] at e1
  simp only [List.cons.injEq, Option.some.injEq, and_true] at e1
  obtain ⟨rfl, rfl, rfl⟩ := e1
  have hcor := corners_valid (C120_wellformed a5).1 hg'
  refine ⟨_, _, _, hcor, ?_⟩
  rw [hcor] at d2
  have hperm : [vertexAt m.p g.a, vertexAt m.p g.b, vertexAt m.p g.c].Perm [x', y', z'] := by
    have : ([vertexAt m.p g.a, vertexAt m.p g.b, vertexAt m.p g.c].map some).Perm ([x', y', z'].map some) := d2
    exact (List.map_perm_map_iff (Option.some_injective _)).1 this
  rw [centroid_perm hperm]
  have hmem : ∀ w, some w ∈ corners r.points t → w ∈ r.points := by
    intro w hw
    simp only [corners, List.mem_cons, List.not_mem_nil, or_false] at hw
    rcases hw with hw | hw | hw <;> exact List.mem_of_getElem? hw.symm
  have mx := hM x (hmem x (by rw [d1]; simp))
  have my := hM y (hmem y (by rw [d1]; simp))
  have mz := hM z (hmem z (by rw [d1]; simp))
  have w1 := within_sum (C125_centroid_error H.relError H.unit.1 (H.unit.2.trans (by norm_num)) mx my mz)
  have w2 := within_sum (centroid_within d3 d4 d5)
  intro hb
  have hsum : |(centroid x' y' z').1 - (roundedCentroid rnd x y z).1| + |(centroid x' y' z').2 - (roundedCentroid rnd x y z).2| ≤
      2 * ((1 + u) ^ 3 * (e * S.ptol) + 8 * u * M) := by
    have t1 := abs_sub_le (centroid x' y' z').1 (centroid x y z).1 (roundedCentroid rnd x y z).1
    have t2 := abs_sub_le (centroid x' y' z').2 (centroid x y z).2 (roundedCentroid rnd x y z).2
    linarith
  obtain ⟨s1, s2, s3⟩ := sea_stable H hsum hb
  obtain ⟨k1, k2, -⟩ := (seaValueFl_lt H hnear fused (stored_centroid H mx my mz) s1 hg).1 e2
  exact ⟨s2.2 k1, s3.2 k2⟩

end
end OM
