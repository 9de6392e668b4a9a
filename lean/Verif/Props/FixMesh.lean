import Verif.Lemmas.FixMesh3
import Mathlib.Tactic.NormNum
import Mathlib.Data.Rat.Floor
/-!
# Properties C05 – C10 (`oceanmesh/fix_mesh.py`)
-/
set_option linter.unusedSectionVars false
namespace OM
open Spec
variable {K : Type} [Field K] [LinearOrder K] [IsStrictOrderedRing K]

/-- Rounding half up on the rationals; used in the examples. -/
def rndQ (x : ℚ) : Int := (x + 1 / 2).floor

theorem rndQ_isRounding : IsRounding rndQ := by
  intro x
  have h1 : (((x + 1 / 2).floor : Int) : ℚ) ≤ x + 1 / 2 := Rat.floor_le _
  have h2 : x + 1 / 2 < ((x + 1 / 2).floor : Int) + 1 := by exact_mod_cast Rat.lt_floor_add_one (x + 1 / 2)
  rw [rndQ, abs_le]
  constructor <;> linarith

/-- A unit square of two triangles with one vertex repeated, one triangle repeated and one vertex unused. -/
def squareP : List (ℚ × ℚ) := [(0, 0), (1, 0), (5, 5), (0, 1), (1, 1), (1, 0)]
def squareT : List Tri := [⟨0, 3, 1⟩, ⟨4, 3, 5⟩, ⟨1, 0, 3⟩]

theorem squareT_valid : ValidMesh squareP squareT := by
  intro f hf v hv
  simp only [squareT, List.mem_cons, List.not_mem_nil, or_false] at hf
  rcases hf with rfl | rfl | rfl <;> rcases hv with h | h | h <;> simp_all [squareP] <;> omega

/-- **C05** (1) `fix_mesh` returns for every non-empty vertex array with valid indices. -/
theorem C05_fix_mesh_returns (rnd : K → Int) (oP : RowOrder (Row K)) (oT : RowOrder Tri) (p : List (K × K))
    (t : List Tri) (ptol : K) (du : Bool) (hp : p ≠ []) (hv : ValidMesh p t) :
    ∃ R, fixMesh rnd oP oT p t ptol du = some R :=
  fixMesh_isSome rnd oP oT ptol du hp hv

example : ∃ R, fixMesh rndQ ptOrder triOrder squareP squareT (1 / 100) true = some R :=
  C05_fix_mesh_returns _ _ _ _ _ _ _ (by simp [squareP]) squareT_valid

/-- **C05** (2) The result has valid indices, no two triangles with the same vertices and, with
`delete_unused=True`, no unused vertex. -/
theorem C05_fix_mesh_wellformed {rnd : K → Int} {oP : RowOrder (Row K)} {oT : RowOrder Tri} {p : List (K × K)}
    {t : List Tri} {ptol : K} {du : Bool} {R : FixResult K} (h : fixMesh rnd oP oT p t ptol du = some R) :
    ValidMesh R.p R.t ∧ (R.t.Pairwise fun f g => ¬ SameVertices f g) ∧
      (du = true → ∀ v < R.p.length, ∃ f ∈ R.t, HasVertex f v) := by
  obtain ⟨snap, -, hf, hu, -, -⟩ := fixMesh_facts h
  exact ⟨hf.valid, hf.distinct, hu⟩

/-- **C05** (3) Full claim: no two output vertices are rounded to the same lattice point. The code guarantees it only
up to the sign of zero: two output vertices on the same lattice point lie on different sides of a coordinate axis and
are rounded onto it. See
`C05_signed_zero_duplicates` for the counterexample to the full claim. -/
theorem C05_vertices_distinct_partial {rnd : K → Int} {oP : RowOrder (Row K)} {oT : RowOrder Tri}
    {p : List (K × K)} {t : List Tri} {ptol e : K} {du : Bool} {R : FixResult K} (hpt : 0 < ptol)
    (he : IsExtent p e) (h : fixMesh rnd oP oT p t ptol du = some R) :
    R.p.Pairwise fun q q' => latticePoint rnd (e * ptol) q = latticePoint rnd (e * ptol) q' →
      StraddleZero (latticePoint rnd (e * ptol) q) q q' := by
  obtain ⟨snap, hs, hf, -, -, -⟩ := fixMesh_facts h
  rw [snapSize_eq hpt he hs] at hf
  have hn := List.pairwise_map.1 hf.keysNodup
  rcases (extent_nonneg he).eq_or_lt with h0 | h0
  · subst h0
    refine hn.imp ?_
    intro q q' hqq
    exact absurd (by simp [snapRow]) hqq
  · exact hn.imp fun hqq hl => lattice_or_straddle (mul_pos h0 hpt) hqq hl

/-- **C05** (4) With non-negative coordinates no two output vertices are rounded to the same lattice point. -/
theorem C05_vertices_distinct_nonneg_partial {rnd : K → Int} {oP : RowOrder (Row K)} {oT : RowOrder Tri}
    {p : List (K × K)} {t : List Tri} {ptol e : K} {du : Bool} {R : FixResult K} (hpt : 0 < ptol)
    (he : IsExtent p e) (hnn : ∀ q ∈ p, 0 ≤ q.1 ∧ 0 ≤ q.2) (h : fixMesh rnd oP oT p t ptol du = some R) :
    R.p.Pairwise fun q q' => latticePoint rnd (e * ptol) q ≠ latticePoint rnd (e * ptol) q' := by
  have h1 := C05_vertices_distinct_partial hpt he h
  obtain ⟨snap, -, hf, -, -, -⟩ := fixMesh_facts h
  refine h1.imp_of_mem ?_
  intro q q' hq hq' hqq hl
  have a := hnn q (hf.points q hq)
  have b := hnn q' (hf.points q' hq')
  rcases hqq hl with hh | hh
  · exact absurd (hh.2.2 b.1) (not_lt.2 a.1)
  · exact absurd (hh.2.2 b.2) (not_lt.2 a.2)

/-- **C05** counterexample: two vertices left and right of the y axis are both rounded to the lattice point `(0, 0)` but
both are returned, because `unique_rows` compares bytes and `-0.0` is not `0.0`. -/
theorem C05_signed_zero_duplicates :
    ∃ (p : List (ℚ × ℚ)) (R : FixResult ℚ) (q q' : ℚ × ℚ),
      fixMesh rndQ ptOrder triOrder p [⟨0, 2, 3⟩, ⟨1, 2, 3⟩] (1 / 10) false = some R ∧ IsExtent p 1 ∧
        [q, q'].Sublist R.p ∧ latticePoint rndQ (1 * (1 / 10)) q = latticePoint rndQ (1 * (1 / 10)) q' := by
  refine ⟨[(-1 / 100, 0), (1 / 100, 0), (99 / 100, 0), (0, 1)], ⟨[(1 / 100, 0), (0, 1), (-1 / 100, 0), (99 / 100, 0)],
    [⟨1, 0, 3⟩, ⟨1, 2, 3⟩], [2, 0, 3, 1]⟩, (1 / 100, 0), (-1 / 100, 0), ?_, ?_, ?_, ?_⟩
  · decide +kernel
  · refine ⟨⟨(-1 / 100, 0), by simp, (0, 1), by simp, Or.inr (by norm_num)⟩, ?_⟩
    intro q hq q' hq'
    simp only [List.mem_cons, List.not_mem_nil, or_false] at hq hq'
    rcases hq with rfl | rfl | rfl | rfl <;> rcases hq' with rfl | rfl | rfl | rfl <;> norm_num [abs_le]
  · decide +kernel
  · decide +kernel


/-- **C06** Every input triangle is represented by an output triangle and every output triangle represents an input
triangle: corners correspond one to one, on the same lattice point and within the tolerance. Output vertices are input
vertices, and nothing grows. -/
theorem C06_fix_mesh_geometry {rnd : K → Int} (hr : IsRounding rnd) {oP : RowOrder (Row K)} {oT : RowOrder Tri}
    {p : List (K × K)} {t : List Tri} {ptol e : K} {du : Bool} {R : FixResult K} (hpt : 0 < ptol)
    (he : IsExtent p e) (hv : ValidMesh p t) (h : fixMesh rnd oP oT p t ptol du = some R) :
    (∀ f ∈ t, ∃ g ∈ R.t, CornersMatch (fun x x' => latticePoint rnd (e * ptol) x = latticePoint rnd (e * ptol) x' ∧
        Within (e * ptol) x x') p f R.p g) ∧
      (∀ g ∈ R.t, ∃ f ∈ t, CornersMatch (fun x x' => latticePoint rnd (e * ptol) x = latticePoint rnd (e * ptol) x' ∧
        Within (e * ptol) x x') p f R.p g) ∧
      (∀ q ∈ R.p, q ∈ p) ∧ R.t.length ≤ t.length ∧ R.p.length ≤ p.length := by
  obtain ⟨snap, hs, hf, -, -, -⟩ := fixMesh_facts h
  rw [snapSize_eq hpt he hs] at hf
  have go : ∀ f ∈ t, ∀ g, (cornerKeys (snapRow rnd (e * ptol)) R.p g).Perm (cornerKeys (snapRow rnd (e * ptol)) p f) →
      CornersMatch (fun x x' => latticePoint rnd (e * ptol) x = latticePoint rnd (e * ptol) x' ∧
        Within (e * ptol) x x') p f R.p g := by
    intro f hft g hk
    refine CornersMatch.imp ?_ (cornersMatch_of_keys (hv f hft) hk)
    rintro x x' ⟨hx, hx', hkey⟩
    exact ⟨lattice_of_key he hpt hx (hf.points _ hx') hkey, close_of_key hr he hpt hx (hf.points _ hx') hkey⟩
  refine ⟨?_, ?_, hf.points, hf.lenT, hf.lenP⟩
  · intro f hft
    obtain ⟨g, hg, hk⟩ := hf.fwd f hft
    exact ⟨g, hg, go f hft g hk⟩
  · intro g hg
    obtain ⟨f, hft, hk⟩ := hf.bwd g hg
    exact ⟨f, hft, go f hft g hk⟩

/-- **C06** (exact form) If different input points are rounded to different lattice points, the corners of the
representing triangle are exactly the corners of the input triangle. -/
theorem C06_fix_mesh_geometry_exact {rnd : K → Int} {oP : RowOrder (Row K)} {oT : RowOrder Tri}
    {p : List (K × K)} {t : List Tri} {ptol e : K} {du : Bool} {R : FixResult K} (hpt : 0 < ptol)
    (he : IsExtent p e) (hv : ValidMesh p t)
    (hinj : ∀ q ∈ p, ∀ q' ∈ p, latticePoint rnd (e * ptol) q = latticePoint rnd (e * ptol) q' → q = q')
    (h : fixMesh rnd oP oT p t ptol du = some R) :
    (∀ f ∈ t, ∃ g ∈ R.t, CornersMatch (fun x x' => x = x') p f R.p g) ∧
      (∀ g ∈ R.t, ∃ f ∈ t, CornersMatch (fun x x' => x = x') p f R.p g) := by
  obtain ⟨snap, hs, hf, -, -, -⟩ := fixMesh_facts h
  rw [snapSize_eq hpt he hs] at hf
  have go : ∀ f ∈ t, ∀ g, (cornerKeys (snapRow rnd (e * ptol)) R.p g).Perm (cornerKeys (snapRow rnd (e * ptol)) p f) →
      CornersMatch (fun x x' => x = x') p f R.p g := by
    intro f hft g hk
    refine CornersMatch.imp ?_ (cornersMatch_of_keys (hv f hft) hk)
    rintro x x' ⟨hx, hx', hkey⟩
    exact hinj x hx x' (hf.points _ hx') (lattice_of_key he hpt hx (hf.points _ hx') hkey)
  refine ⟨?_, ?_⟩
  · intro f hft
    obtain ⟨g, hg, hk⟩ := hf.fwd f hft
    exact ⟨g, hg, go f hft g hk⟩
  · intro g hg
    obtain ⟨f, hft, hk⟩ := hf.bwd g hg
    exact ⟨f, hft, go f hft g hk⟩

theorem squareP_extent : IsExtent squareP 5 := by
  refine ⟨⟨(5, 5), by simp [squareP], (0, 0), by simp [squareP], Or.inl (by norm_num)⟩, ?_⟩
  intro q hq q' hq'
  simp only [squareP, List.mem_cons, List.not_mem_nil, or_false] at hq hq'
  rcases hq with rfl | rfl | rfl | rfl | rfl | rfl <;> rcases hq' with rfl | rfl | rfl | rfl | rfl | rfl <;>
    norm_num [abs_le]

example : (0 : ℚ) < 1 / 100 ∧ IsExtent squareP 5 ∧ ValidMesh squareP squareT ∧ (∀ q ∈ squareP, 0 ≤ q.1 ∧ 0 ≤ q.2) ∧
    (∀ q ∈ squareP, ∀ q' ∈ squareP, latticePoint rndQ (5 * (1 / 100)) q = latticePoint rndQ (5 * (1 / 100)) q' → q = q') ∧
    fixMesh rndQ ptOrder triOrder squareP squareT (1 / 100) true =
      some ⟨[(0, 0), (0, 1), (1, 0), (1, 1)], [⟨1, 0, 2⟩, ⟨1, 2, 3⟩], [0, 1, 2, 1, 2, 3]⟩ :=
  ⟨by norm_num, squareP_extent, squareT_valid, by decide +kernel, by decide +kernel, by decide +kernel⟩

/-- **C07** (1) Every output triangle has non-negative signed area. -/
theorem C07_fix_mesh_ccw {rnd : K → Int} {oP : RowOrder (Row K)} {oT : RowOrder Tri} {p : List (K × K)}
    {t : List Tri} {ptol : K} {du : Bool} {R : FixResult K} (h : fixMesh rnd oP oT p t ptol du = some R) :
    ∀ g ∈ R.t, ∃ x y z, R.p[g.a]? = some x ∧ R.p[g.b]? = some y ∧ R.p[g.c]? = some z ∧ 0 ≤ signedArea x y z := by
  obtain ⟨snap, -, hf, -, -, t3, h3⟩ := fixMesh_facts h
  intro g hg
  have get : ∀ v, HasVertex g v → ∃ x, R.p[v]? = some x := fun v hv =>
    ⟨_, List.getElem?_eq_getElem (hf.valid g hg v hv)⟩
  obtain ⟨x, hx⟩ := get g.a (Or.inl rfl)
  obtain ⟨y, hy⟩ := get g.b (Or.inr (Or.inl rfl))
  obtain ⟨z, hz⟩ := get g.c (Or.inr (Or.inr rfl))
  obtain ⟨f, -, hfg⟩ := forall₂_mem_right (flipTris_forall₂ h3) g hg
  exact ⟨x, y, z, hx, hy, hz, flipTri_nonneg hfg hx hy hz⟩

/-- **C07** (2) Triangles with the same corner points have the same absolute area; so with `C06_fix_mesh_geometry_exact`
the area of an output triangle is the absolute area of the input triangle it represents. -/
theorem C07_fix_mesh_area {rnd : K → Int} {oP : RowOrder (Row K)} {oT : RowOrder Tri}
    {p : List (K × K)} {t : List Tri} {ptol e : K} {du : Bool} {R : FixResult K} (hpt : 0 < ptol)
    (he : IsExtent p e) (hv : ValidMesh p t)
    (hinj : ∀ q ∈ p, ∀ q' ∈ p, latticePoint rnd (e * ptol) q = latticePoint rnd (e * ptol) q' → q = q')
    (h : fixMesh rnd oP oT p t ptol du = some R) :
    ∀ g ∈ R.t, ∃ f ∈ t, ∃ x y z x' y' z', corners p f = [some x, some y, some z] ∧
      corners R.p g = [some x', some y', some z'] ∧ signedArea x' y' z' = |signedArea x y z| := by
  intro g hg
  obtain ⟨f, hft, x, y, z, x0, y0, z0, h1, h2, rfl, rfl, rfl⟩ := (C06_fix_mesh_geometry_exact hpt he hv hinj h).2 g hg
  obtain ⟨x', y', z', hx, hy, hz, hnn⟩ := C07_fix_mesh_ccw h g hg
  refine ⟨f, hft, x, y, z, x', y', z', h1, by unfold corners; rw [hx, hy, hz], ?_⟩
  have hp : ([x', y', z'].map some).Perm ([x, y, z].map some) := by
    unfold corners at h2
    rw [hx, hy, hz] at h2
    exact h2
  rw [← abs_of_nonneg hnn]
  exact abs_signedArea_perm (perm_of_map_perm (fun x _ y _ hxy => by simpa using hxy) hp)

/-- **C08** (1) Points merged by `fix_mesh` (`delete_unused=False`, so that the returned map is the vertex map) differ by
at most `ptol` times the extent in each coordinate; equivalently, points further apart are not merged. -/
theorem C08_merged_within_tolerance {rnd : K → Int} (hr : IsRounding rnd) {oP : RowOrder (Row K)} {oT : RowOrder Tri}
    {p : List (K × K)} {t : List Tri} {ptol e : K} {R : FixResult K} (hpt : 0 < ptol) (he : IsExtent p e)
    (h : fixMesh rnd oP oT p t ptol false = some R) {i j k : Nat} {q q' : K × K} (hi : p[i]? = some q)
    (hj : p[j]? = some q') (hik : R.jx[i]? = some k) (hjk : R.jx[j]? = some k) : Within (e * ptol) q q' := by
  obtain ⟨snap, hs, hf, -, hj', -⟩ := fixMesh_facts h
  rw [snapSize_eq hpt he hs] at hf hj'
  obtain ⟨h1, h2⟩ := hj' rfl
  rw [h1] at hik hjk
  have a := (merge_inverse h2 hik).2
  have b := (merge_inverse h2 hjk).2
  rw [a, hi, hj] at b
  exact close_of_key hr he hpt (List.mem_of_getElem? hi) (List.mem_of_getElem? hj) (by simpa using b)

/-- **C08** (2) Identical points are always merged. -/
theorem C08_identical_merged {rnd : K → Int} {oP : RowOrder (Row K)} {oT : RowOrder Tri}
    {p : List (K × K)} {t : List Tri} {ptol : K} {R : FixResult K}
    (h : fixMesh rnd oP oT p t ptol false = some R) {i j : Nat} (hij : p[i]? = p[j]?) : R.jx[i]? = R.jx[j]? := by
  obtain ⟨snap, -, -, -, hj', -⟩ := fixMesh_facts h
  obtain ⟨h1, -⟩ := hj' rfl
  rw [h1]
  unfold uniqueInverse
  simp only [List.getElem?_map, hij]

example : ∃ R, fixMesh rndQ ptOrder triOrder squareP squareT (1 / 100) false = some R ∧ R.jx[1]? = some 2 ∧
    R.jx[5]? = some 2 ∧ R.jx[0]? = some 0 :=
  ⟨⟨[(0, 0), (0, 1), (1, 0), (1, 1), (5, 5)], [⟨1, 0, 2⟩, ⟨1, 2, 3⟩], [0, 2, 4, 1, 3, 2]⟩, by decide +kernel⟩

/-- **C08** (3) Why the tolerance has to be positive: with `ptol=0` all vertices are merged into one (every snapped
coordinate is NaN and NaN rows have equal bytes). -/
theorem C08_zero_tolerance_merges_all {rnd : K → Int} {oP : RowOrder (Row K)} {oT : RowOrder Tri}
    {p : List (K × K)} {t : List Tri} {du : Bool} {R : FixResult K}
    (h : fixMesh rnd oP oT p t 0 du = some R) : R.p.length ≤ 1 := by
  obtain ⟨snap, hs, hf, -, -, -⟩ := fixMesh_facts h
  have h0 : snap = 0 := by
    cases p with
    | nil => simp [snapSize] at hs
    | cons q r => simpa [snapSize] using hs.symm
  subst h0
  have hn := List.pairwise_map.1 hf.keysNodup
  cases hR : R.p with
  | nil => simp
  | cons a l =>
    cases l with
    | nil => simp
    | cons b l =>
      rw [hR] at hn
      exact absurd (by simp [snapRow]) ((List.pairwise_cons.1 hn).1 b (by simp))

example : ∃ R, fixMesh rndQ ptOrder triOrder squareP squareT 0 false = some R :=
  C05_fix_mesh_returns _ _ _ _ _ _ _ (by simp [squareP]) squareT_valid

/-- **C09** Full claim: the third returned value maps every input vertex to the output vertex representing it, for both
values of `delete_unused`. Proved for `delete_unused=False`; for `True` it is false (`C09_map_wrong_delete_unused`). -/
theorem C09_vertex_map_partial {rnd : K → Int} (hr : IsRounding rnd) {oP : RowOrder (Row K)} {oT : RowOrder Tri}
    {p : List (K × K)} {t : List Tri} {ptol e : K} {R : FixResult K} (hpt : 0 < ptol) (he : IsExtent p e)
    (h : fixMesh rnd oP oT p t ptol false = some R) :
    R.jx.length = p.length ∧ ∀ (i : Nat) (q : K × K), p[i]? = some q → ∃ (k : Nat) (q' : K × K), R.jx[i]? = some k ∧ R.p[k]? = some q' ∧
      latticePoint rnd (e * ptol) q = latticePoint rnd (e * ptol) q' ∧ Within (e * ptol) q q' := by
  obtain ⟨snap, hs, hf, -, hj', -⟩ := fixMesh_facts h
  rw [snapSize_eq hpt he hs] at hf hj'
  obtain ⟨h1, h2⟩ := hj' rfl
  refine ⟨by rw [h1]; simp [uniqueInverse], ?_⟩
  intro i q hq
  have hlt : i < p.length := (List.getElem?_eq_some_iff.1 hq).1
  obtain ⟨k, hk⟩ := Option.isSome_iff_exists.1 (inverse_isSome (key := snapRow rnd (e * ptol)) (o := oP) hlt)
  obtain ⟨h3, h4⟩ := merge_inverse h2 hk
  rw [List.getElem?_eq_getElem h3, hq] at h4
  have hkey : snapRow rnd (e * ptol) q = snapRow rnd (e * ptol) R.p[k] := by simpa using h4.symm
  have hm : R.p[k] ∈ p := hf.points _ (List.getElem_mem h3)
  exact ⟨k, R.p[k], by rw [h1]; exact hk, List.getElem?_eq_getElem h3,
    lattice_of_key he hpt (List.mem_of_getElem? hq) hm hkey, close_of_key hr he hpt (List.mem_of_getElem? hq) hm hkey⟩

/-- **C09** counterexample for `delete_unused=True`: the returned array is the flattened connectivity. Here it has six
entries for four input vertices, and its entry for the input vertex 3, `(1, 1)`, is the output vertex `(0, 1)`. -/
theorem C09_map_wrong_delete_unused :
    ∃ (p : List (ℚ × ℚ)) (t : List Tri) (R : FixResult ℚ), ValidMesh p t ∧
      fixMesh rndQ ptOrder triOrder p t (1 / 100) true = some R ∧ R.jx.length ≠ p.length ∧
      ∃ k : Nat, p[3]? = some (1, 1) ∧ R.jx[3]? = some k ∧ R.p[k]? = some (0, 1) := by
  refine ⟨[(0, 0), (1, 0), (0, 1), (1, 1)], [⟨0, 1, 2⟩, ⟨1, 3, 2⟩],
    ⟨[(0, 0), (0, 1), (1, 0), (1, 1)], [⟨1, 0, 2⟩, ⟨1, 2, 3⟩], [0, 1, 2, 1, 2, 3]⟩, ?_, by decide +kernel,
    by decide, 1, by decide +kernel⟩
  intro f hf v hv
  simp only [List.mem_cons, List.not_mem_nil, or_false] at hf
  rcases hf with rfl | rfl <;> rcases hv with h | h | h <;> simp_all

/-- **C10** Laws of `simp_vol`: sign change under exchange, invariance under rotation of the corners and translation,
quadratic scaling, and zero exactly for collinear corners. -/
theorem C10_signed_area_laws (x y z d : K × K) (k : K) :
    triVol y x z = -triVol x y z ∧ triVol x z y = -triVol x y z ∧ triVol z y x = -triVol x y z ∧
      triVol y z x = triVol x y z ∧
      triVol (x.1 + d.1, x.2 + d.2) (y.1 + d.1, y.2 + d.2) (z.1 + d.1, z.2 + d.2) = triVol x y z ∧
      triVol (k * x.1, k * x.2) (k * y.1, k * y.2) (k * z.1, k * z.2) = k ^ 2 * triVol x y z ∧
      (triVol x y z = 0 ↔ Collinear x y z) := by
  refine ⟨by unfold triVol; ring, by unfold triVol; ring, by unfold triVol; ring, by unfold triVol; ring,
    by unfold triVol; ring, by unfold triVol; ring, ?_⟩
  have e : triVol x y z = 0 ↔ (y.1 - x.1) * (z.2 - x.2) - (y.2 - x.2) * (z.1 - x.1) = 0 := by
    unfold triVol
    rw [div_eq_zero_iff]
    simp
  rw [e]
  constructor
  · intro h
    by_cases h1 : y = x
    · by_cases h2 : z = x
      · subst h1; subst h2
        exact ⟨1, 0, z.1, Or.inl one_ne_zero, by ring, by ring, by ring⟩
      · subst h1
        refine ⟨z.2 - y.2, y.1 - z.1, (z.2 - y.2) * y.1 + (y.1 - z.1) * y.2, ?_, by ring, by ring, by ring⟩
        by_contra hc
        push Not at hc
        exact h2 (Prod.ext (sub_eq_zero.1 hc.2).symm (sub_eq_zero.1 hc.1))
    · refine ⟨y.2 - x.2, x.1 - y.1, (y.2 - x.2) * x.1 + (x.1 - y.1) * x.2, ?_, by ring, by ring, ?_⟩
      · by_contra hc
        push Not at hc
        exact h1 (Prod.ext (sub_eq_zero.1 hc.2).symm (sub_eq_zero.1 hc.1))
      · linear_combination -h
  · rintro ⟨a, b, c, hab, h1, h2, h3⟩
    have u : a * (y.1 - x.1) + b * (y.2 - x.2) = 0 := by linear_combination h2 - h1
    have v : a * (z.1 - x.1) + b * (z.2 - x.2) = 0 := by linear_combination h3 - h1
    rcases hab with ha | hb
    · apply mul_left_cancel₀ ha
      linear_combination (z.2 - x.2) * u - (y.2 - x.2) * v
    · apply mul_left_cancel₀ hb
      linear_combination (y.1 - x.1) * v - (z.1 - x.1) * u

/-- **C10** (counter-clockwise is positive) The reference triangle has area one half. -/
theorem C10_reference_positive : triVol ((0, 0) : K × K) (1, 0) (0, 1) = 1 / 2 := by
  unfold triVol; norm_num

example : Collinear ((0, 0) : ℚ × ℚ) (1, 2) (2, 4) ∧ ¬ Collinear ((0, 0) : ℚ × ℚ) (1, 2) (2, 5) := by
  constructor
  · exact ((C10_signed_area_laws _ _ _ (0, 0) 1).2.2.2.2.2.2).1 (by norm_num [triVol])
  · rw [← (C10_signed_area_laws _ _ _ (0, 0) 1).2.2.2.2.2.2]; norm_num [triVol]

end OM
