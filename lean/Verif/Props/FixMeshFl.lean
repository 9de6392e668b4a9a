import Verif.Lemmas.FixMeshFl
import Verif.Props.FixMesh
/-!
# C120 and C121: `fix_mesh` in rounded arithmetic, and repeated calls of `fix_mesh`
-/
set_option linter.unusedSectionVars false
namespace OM
open Spec

section
variable {K : Type} [Field K] [LinearOrder K] [IsStrictOrderedRing K]

/-- **C120** `fix_mesh` returns for every non-empty vertex array with valid indices, for every rounding rule. -/
theorem C120_returns (rnd : K → K) (rint : K → Int) (oP : RowOrder (Row K)) (oT : RowOrder Tri) (p : List (K × K)) (t : List Tri) (ptol : K) (du : Bool)
    (hp : p ≠ []) (hv : ValidMesh p t) : ∃ R, fixMeshFl rnd rint oP oT p t ptol du = some R :=
  fixMeshFl_isSome rnd rint oP oT ptol du hp hv

/-- **C120** The result has valid indices, no vertex twice, no two triangles with the same vertices and, with `delete_unused=True`, no unused vertex;
vertices are input vertices and nothing grows. This holds for every rounding rule. -/
theorem C120_wellformed {rnd : K → K} {rint : K → Int} {oP : RowOrder (Row K)} {oT : RowOrder Tri} {p : List (K × K)} {t : List Tri} {ptol : K} {du : Bool}
    {R : FixResult K} (h : fixMeshFl rnd rint oP oT p t ptol du = some R) :
    ValidMesh R.p R.t ∧ R.p.Nodup ∧ (R.t.Pairwise fun f g => ¬ SameVertices f g) ∧ (du = true → ∀ v < R.p.length, ∃ f ∈ R.t, HasVertex f v) ∧
      (∀ q ∈ R.p, q ∈ p) ∧ R.t.length ≤ t.length ∧ R.p.length ≤ p.length := by
  obtain ⟨snap, -, hf, hu, -, -⟩ := fixMeshFl_facts h
  exact ⟨hf.valid, List.Nodup.of_map _ hf.keysNodup, hf.distinct, hu, hf.points, hf.lenT, hf.lenP⟩

/-- **C120** Every input triangle is represented by an output triangle and every output triangle represents an input triangle: corners correspond one to
one. Full claim: corresponding corners differ by at most the tolerance times the extent. Proved up to the rounding errors of the coordinates (the full
claim is false, see `C118_merged_beyond_tolerance`). -/
theorem C120_geometry_partial {rnd : K → K} {rint : K → Int} {u M : K} (hR : Rounding rnd) (hr : RelError rnd u) (h0 : 0 ≤ u) (hu : u ≤ 1 / 2)
    (hi : IsRounding rint) {oP : RowOrder (Row K)} {oT : RowOrder Tri} {p : List (K × K)} {t : List Tri} {ptol e : K} {du : Bool} {R : FixResult K}
    (hpt : 0 < ptol) (he : IsExtent p e) (hM : ∀ q ∈ p, |q.1| ≤ M ∧ |q.2| ≤ M) (hv : ValidMesh p t)
    (h : fixMeshFl rnd rint oP oT p t ptol du = some R) :
    (∀ f ∈ t, ∃ g ∈ R.t, CornersMatch (Within ((1 + u) ^ 3 * (e * ptol) + 5 * u * M)) p f R.p g) ∧
      (∀ g ∈ R.t, ∃ f ∈ t, CornersMatch (Within ((1 + u) ^ 3 * (e * ptol) + 5 * u * M)) p f R.p g) := by
  obtain ⟨snap, hs, hf, -, -, -⟩ := fixMeshFl_facts h
  have go : ∀ f ∈ t, ∀ g, (cornerKeys (snapRowFl rnd rint snap) R.p g).Perm (cornerKeys (snapRowFl rnd rint snap) p f) →
      CornersMatch (Within ((1 + u) ^ 3 * (e * ptol) + 5 * u * M)) p f R.p g := by
    intro f hft g hk
    refine CornersMatch.imp ?_ (cornersMatch_of_keys (hv f hft) hk)
    rintro x x' ⟨hx, hx', hkey⟩
    exact near_of_keyFl hR hr h0 hu hi hpt he hM hs hx (hf.points _ hx') hkey
  refine ⟨?_, ?_⟩
  · intro f hft
    obtain ⟨g, hg, hk⟩ := hf.fwd f hft
    exact ⟨g, hg, go f hft g hk⟩
  · intro g hg
    obtain ⟨f, hft, hk⟩ := hf.bwd g hg
    exact ⟨f, hft, go f hft g hk⟩

/-- **C120** Full claim: every triangle of the result is counterclockwise or has no area. Proved for all triangles whose area is more than two rounding
errors of the two products, in the two orders in which the products can be formed; false for slivers (`C120_clockwise_result`). -/
theorem C120_orientation_partial {rnd : K → K} {rint : K → Int} {u : K} (hr : RelError rnd u) (h0 : 0 ≤ u) (hu : u ≤ 1 / 128)
    {oP : RowOrder (Row K)} {oT : RowOrder Tri} {p : List (K × K)} {t : List Tri} {ptol : K} {du : Bool} {R : FixResult K}
    (h : fixMeshFl rnd rint oP oT p t ptol du = some R) :
    ∀ g ∈ R.t, ∃ x y z, R.p[g.a]? = some x ∧ R.p[g.b]? = some y ∧ R.p[g.c]? = some z ∧
      (2 * u * areaScale x y z < |signedArea x y z| → 2 * u * areaScale y x z < |signedArea x y z| → 0 < signedArea x y z) := by
  obtain ⟨snap, -, hf, -, -, t3, hv3, h3⟩ := fixMeshFl_facts h
  intro g hg
  have get : ∀ v, HasVertex g v → ∃ x, R.p[v]? = some x := fun v hv => ⟨_, List.getElem?_eq_getElem (hf.valid g hg v hv)⟩
  obtain ⟨x, hx⟩ := get g.a (Or.inl rfl)
  obtain ⟨y, hy⟩ := get g.b (Or.inr (Or.inl rfl))
  obtain ⟨z, hz⟩ := get g.c (Or.inr (Or.inr rfl))
  refine ⟨x, y, z, hx, hy, hz, fun b1 b2 => ?_⟩
  obtain ⟨f, hft, hfg⟩ := forall₂_mem_right (flipTrisFl_forall₂ h3) g hg
  unfold flipTriFl at hfg
  split at hfg
  · rename_i x0 y0 z0 e1 e2 e3
    simp only [Option.some.injEq] at hfg
    have hne : signedArea x y z ≠ 0 := by
      intro hz0
      rw [hz0, abs_zero] at b1
      exact absurd b1 (not_lt.2 (mul_nonneg (by linarith) (by unfold areaScale; positivity)))
    split at hfg
    · rename_i hneg
      subst hfg
      simp only at hx hy hz
      obtain rfl : y0 = x := Option.some.inj (e2.symm.trans hx)
      obtain rfl : x0 = y := Option.some.inj (e1.symm.trans hy)
      obtain rfl : z0 = z := Option.some.inj (e3.symm.trans hz)
      rw [signedArea_swap, abs_neg] at b2
      have := ((C115_sign hr h0 hu b2).1).1 hneg
      rw [signedArea_swap]
      linarith
    · rename_i hnn
      subst hfg
      obtain rfl : x0 = x := Option.some.inj (e1.symm.trans hx)
      obtain rfl : y0 = y := Option.some.inj (e2.symm.trans hy)
      obtain rfl : z0 = z := Option.some.inj (e3.symm.trans hz)
      have := fun hh => hnn (((C115_sign hr h0 hu b1).1).2 hh)
      exact lt_of_le_of_ne (not_lt.1 this) (Ne.symm hne)
  · simp at hfg

/-- **C120** With `delete_unused=False` the third value has an entry for every input vertex and sends it to a vertex of the result that is near it.
(With `delete_unused=True` it is something else, see `C09_map_wrong_delete_unused`.) -/
theorem C120_vertex_map_partial {rnd : K → K} {rint : K → Int} {u M : K} (hR : Rounding rnd) (hr : RelError rnd u) (h0 : 0 ≤ u) (hu : u ≤ 1 / 2)
    (hi : IsRounding rint) {oP : RowOrder (Row K)} {oT : RowOrder Tri} {p : List (K × K)} {t : List Tri} {ptol e : K} {R : FixResult K}
    (hpt : 0 < ptol) (he : IsExtent p e) (hM : ∀ q ∈ p, |q.1| ≤ M ∧ |q.2| ≤ M) (h : fixMeshFl rnd rint oP oT p t ptol false = some R) :
    R.jx.length = p.length ∧ ∀ (i : Nat) (q : K × K), p[i]? = some q → ∃ (k : Nat) (q' : K × K), R.jx[i]? = some k ∧ R.p[k]? = some q' ∧
      Within ((1 + u) ^ 3 * (e * ptol) + 5 * u * M) q q' := by
  obtain ⟨snap, -, -, -, hm, -⟩ := fixMeshFl_facts h
  have hm := hm rfl
  obtain ⟨c1, c2, c3, -⟩ := C118_map hm
  refine ⟨c2, fun i q hq => ?_⟩
  have hlt : i < R.jx.length := by rw [c2]; exact (List.getElem?_eq_some_iff.1 hq).1
  have hk : R.jx[i]? = some R.jx[i] := List.getElem?_eq_getElem hlt
  have hk' := c3 _ (List.getElem_mem hlt)
  have hq' : R.p[R.jx[i]]? = some R.p[R.jx[i]] := List.getElem?_eq_getElem hk'
  exact ⟨_, _, hk, hq', C118_merged_partial hR hr h0 hu hi hpt he hM hm hq hk hq'⟩

/-- **C120** Without rounding the model is the one of C05 to C09. -/
theorem C120_exact (rint : K → Int) (oP : RowOrder (Row K)) (oT : RowOrder Tri) (p : List (K × K)) (t : List Tri) (ptol : K) (du : Bool) :
    fixMeshFl id rint oP oT p t ptol du = fixMesh rint oP oT p t ptol du := by
  have hsnap : snapSizeFl id p ptol = snapSize p ptol := by cases p <;> rfl
  have hrow : ∀ snap, snapRowFl id rint snap = snapRow rint snap := fun snap => rfl
  have hflip : ∀ (p : List (K × K)) (t : List Tri), flipTrisFl id p t = flipTris p t := by
    intro p t
    induction t with
    | nil => rfl
    | cons f t ih =>
      have : flipTriFl id p f = flipTri p f := by
        unfold flipTriFl flipTri faceVol
        cases p[f.a]? <;> cases p[f.b]? <;> cases p[f.c]? <;> rfl
      rw [flipTrisFl, flipTris, ih, this]
      cases flipTri p f <;> cases flipTris p t <;> rfl
  unfold fixMeshFl fixMesh mergeFl
  rw [hsnap]
  simp only [hrow, hflip]
  cases snapSize p ptol with
  | none => rfl
  | some snap =>
    simp only [Option.bind_eq_bind, Option.bind_some]
    cases gather p (uniqueIndex oP (p.map (snapRow rint snap))) with
    | none => rfl
    | some p1 =>
      simp only [Option.bind_some]
      cases mapTris (fun i => (uniqueInverse oP (p.map (snapRow rint snap)))[i]?) t with
      | none => rfl
      | some t1 =>
        simp only [Option.bind_some]
        cases du with
        | true =>
          simp only [if_true]
          cases gather p1 (unique natOrder (flatTris (unique oT (t1.map Tri.sort)))) with
          | none => rfl
          | some p2 =>
            simp only [Option.bind_some]
            cases flipTris p2 _ <;> rfl
        | false =>
          simp only [Bool.false_eq_true, if_false]
          cases flipTris p1 _ <;> rfl

/-! ## Repeated calls -/

/-- **C121** Full claim: calling `fix_mesh` on its own result gives the same result. Proved with `delete_unused=False` if the extent of the vertices did
not change; the third value is then the identity. Without that hypothesis it is false (`C121_not_idempotent`). -/
theorem C121_repeat_partial {rnd : K → K} {rint : K → Int} (hR : Rounding rnd) {oP : RowOrder (Row K)} {oT : RowOrder Tri} {p : List (K × K)}
    {t : List Tri} {ptol e : K} {R : FixResult K} (he : IsExtent p e) (he' : IsExtent R.p e)
    (h : fixMeshFl rnd rint oP oT p t ptol false = some R) :
    fixMeshFl rnd rint oP oT R.p R.t ptol false = some ⟨R.p, R.t, List.range R.p.length⟩ := by
  obtain ⟨snap, hs, hf, -, -, -⟩ := fixMeshFl_facts h
  have hs' : snapSizeFl rnd R.p ptol = some snap := by
    rw [← hs, snapSizeFl_extent hR he, snapSizeFl_extent hR he']
  obtain ⟨-, h2, h3⟩ := fixMeshFl_rows h
  exact again_false hs' hf.keysNodup (fixMeshFl_order hs h) hf.valid (by rw [h3 rfl]; exact h2)

/-- **C121** With `delete_unused=True` and an unchanged extent, the second call returns the same vertices and the same triangles, maybe in another order
(`C121_rows_reordered`), and from then on the result does not change any more. -/
theorem C121_repeat_delete_unused_partial {rnd : K → K} {rint : K → Int} (hR : Rounding rnd) {oP : RowOrder (Row K)} {oT : RowOrder Tri}
    {p : List (K × K)} {t : List Tri} {ptol e : K} {R : FixResult K} (he : IsExtent p e) (he' : IsExtent R.p e)
    (h : fixMeshFl rnd rint oP oT p t ptol true = some R) :
    ∃ R', fixMeshFl rnd rint oP oT R.p R.t ptol true = some R' ∧ R'.p = R.p ∧ R'.t.Perm R.t ∧ fixMeshFl rnd rint oP oT R'.p R'.t ptol true = some R' := by
  obtain ⟨snap, hs, hf, hu, -, -⟩ := fixMeshFl_facts h
  have hs' : snapSizeFl rnd R.p ptol = some snap := by
    rw [← hs, snapSizeFl_extent hR he, snapSizeFl_extent hR he']
  obtain ⟨h1, h2, -⟩ := fixMeshFl_rows h
  have ho := fixMeshFl_order hs h
  have hv2 : ValidMesh R.p (unique oT (R.t.map Tri.sort)) := by
    intro f hf' v hfv
    obtain ⟨g, hg, rfl⟩ := List.mem_map.1 ((mem_unique _ _ _).1 hf')
    rw [hasVertex_iff_mem] at hfv
    exact hf.valid g hg v ((hasVertex_iff_mem g v).2 (g.sort_perm.mem_iff.1 hfv))
  obtain ⟨t', ht'⟩ := flipTrisFl_isSome (rnd := rnd) hv2
  have r1 := again_true hs' hf.keysNodup ho hf.valid (hu rfl) ht'
  have hperm : (unique oT (R.t.map Tri.sort)).Perm (R.t.map Tri.sort) :=
    (List.perm_ext_iff_of_nodup (unique_nodup _ _) h1).2 fun a => mem_unique _ _ a
  have hP := flipTrisFl_rearrange hperm ht' h2
  refine ⟨_, r1, rfl, hP, ?_⟩
  have hsrt : t'.map Tri.sort = unique oT (R.t.map Tri.sort) := by
    refine sort_map_of_perm ?_ (flipTrisFl_perm ht')
    intro f hf'
    obtain ⟨g, -, rfl⟩ := List.mem_map.1 ((mem_unique _ _ _).1 hf')
    exact g.sort_sorted
  have hfix : unique oT (unique oT (R.t.map Tri.sort)) = unique oT (R.t.map Tri.sort) := unique_eq_self _ (unique_nodup _ _) (unique_sorted _ _)
  have r2 := again_true (t := t') hs' hf.keysNodup ho (fun f hf' => hf.valid f (hP.mem_iff.1 hf'))
    (fun v hv => by obtain ⟨f, hf', hfv⟩ := hu rfl v hv; exact ⟨f, hP.mem_iff.2 hf', hfv⟩) (by rw [hsrt, hfix]; exact ht')
  rw [hsrt, hfix] at r2
  exact r2

/-- **C121** in exact arithmetic. -/
theorem C121_repeat_exact_partial {rint : K → Int} {oP : RowOrder (Row K)} {oT : RowOrder Tri} {p : List (K × K)}
    {t : List Tri} {ptol e : K} {R : FixResult K} (he : IsExtent p e) (he' : IsExtent R.p e)
    (h : fixMesh rint oP oT p t ptol false = some R) :
    fixMesh rint oP oT R.p R.t ptol false = some ⟨R.p, R.t, List.range R.p.length⟩ := by
  rw [← C120_exact] at h ⊢
  exact C121_repeat_partial ⟨monotone_id, fun _ => rfl, rfl⟩ he he' h

section
variable [FloorRing K]

/-- **C120** for doubles, with the default tolerance of the code and coordinates of at most a hundred times the extent: corresponding corners
differ by at most `2.6e-13` times the extent. -/
theorem C120_doubles_partial {rint : K → Int} (hi : IsRounding rint) {oP : RowOrder (Row K)} {oT : RowOrder Tri} {p : List (K × K)} {t : List Tri}
    {e : K} {du : Bool} {R : FixResult K} (he : IsExtent p e) (hM : ∀ q ∈ p, |q.1| ≤ 100 * e ∧ |q.2| ≤ 100 * e) (hv : ValidMesh p t)
    (h : fixMeshFl roundDouble rint oP oT p t (3961408125713217 / 2 ^ 94) du = some R) :
    (∀ f ∈ t, ∃ g ∈ R.t, CornersMatch (Within (26 / 10 ^ 14 * e)) p f R.p g) ∧
      (∀ g ∈ R.t, ∃ f ∈ t, CornersMatch (Within (26 / 10 ^ 14 * e)) p f R.p g) := by
  obtain ⟨hR, hr⟩ := C113_roundDouble (K := K)
  obtain ⟨c1, c2⟩ := C120_geometry_partial hR hr (by positivity) (by norm_num) hi (by positivity) he hM hv h
  have he0 := extent_nonneg he
  have hb : (1 + 1 / 2 ^ 53 : K) ^ 3 * (e * (3961408125713217 / 2 ^ 94)) + 5 * (1 / 2 ^ 53) * (100 * e) ≤ 26 / 10 ^ 14 * e := by
    have : (1 + 1 / 2 ^ 53 : K) ^ 3 * (3961408125713217 / 2 ^ 94) + 5 * (1 / 2 ^ 53) * 100 ≤ 26 / 10 ^ 14 := by norm_num
    nlinarith
  have hw : ∀ x y : K × K, Within ((1 + 1 / 2 ^ 53 : K) ^ 3 * (e * (3961408125713217 / 2 ^ 94)) + 5 * (1 / 2 ^ 53) * (100 * e)) x y →
      Within (26 / 10 ^ 14 * e) x y := fun x y hxy => ⟨hxy.1.trans hb, hxy.2.trans hb⟩
  refine ⟨fun f hf => ?_, fun g hg => ?_⟩
  · obtain ⟨g, hg, hc⟩ := c1 f hf
    exact ⟨g, hg, CornersMatch.imp hw hc⟩
  · obtain ⟨f, hf, hc⟩ := c2 g hg
    exact ⟨f, hf, CornersMatch.imp hw hc⟩

end
end

/-! ## Examples -/

/-- The hypotheses of the theorems hold for the square of C05, in doubles: one vertex and one triangle are doubled, one vertex is unused. -/
example : fixMeshFl roundDouble roundEven ptOrder triOrder squareP squareT (3961408125713217 / 2 ^ 94) true =
      some ⟨[(0, 0), (0, 1), (1, 0), (1, 1)], [⟨1, 0, 2⟩, ⟨1, 2, 3⟩], [0, 1, 2, 1, 2, 3]⟩ ∧
    IsExtent squareP 5 ∧ ValidMesh squareP squareT ∧ (∀ q ∈ squareP, |q.1| ≤ 100 * 5 ∧ |q.2| ≤ 100 * 5) ∧ IsRounding (roundEven (K := ℚ)) ∧
    2 * (1 / 2 ^ 53) * areaScale ((0, 1) : ℚ × ℚ) (0, 0) (1, 0) < |signedArea (0, 1) (0, 0) (1, 0)| :=
  ⟨by decide +kernel, squareP_extent, squareT_valid, by decide +kernel, roundEven_isRounding, by decide +kernel⟩

/-- With `delete_unused=False` the extent of the square does not change: the second call returns the same. -/
example : ∃ R, fixMeshFl roundDouble roundEven ptOrder triOrder squareP squareT (3961408125713217 / 2 ^ 94) false = some R ∧ IsExtent R.p 5 ∧
    fixMeshFl roundDouble roundEven ptOrder triOrder R.p R.t (3961408125713217 / 2 ^ 94) false = some ⟨R.p, R.t, [0, 1, 2, 3, 4]⟩ := by
  have h : fixMeshFl roundDouble roundEven ptOrder triOrder squareP squareT (3961408125713217 / 2 ^ 94) false =
      some ⟨[(0, 0), (0, 1), (1, 0), (1, 1), (5, 5)], [⟨1, 0, 2⟩, ⟨1, 2, 3⟩], [0, 2, 4, 1, 3, 2]⟩ := by decide +kernel
  have he : IsExtent [((0, 0) : ℚ × ℚ), (0, 1), (1, 0), (1, 1), (5, 5)] 5 := by
    refine ⟨⟨(5, 5), by simp, (0, 0), by simp, Or.inl (by norm_num)⟩, ?_⟩
    decide +kernel
  exact ⟨_, h, he, C121_repeat_partial C113_roundDouble.1 squareP_extent he h⟩

/-- With `delete_unused=True` and all vertices in use. -/
example : ∃ R, fixMeshFl roundDouble roundEven ptOrder triOrder [((0, 0) : ℚ × ℚ), (1, 0), (0, 1), (1, 1)] [⟨3, 1, 2⟩, ⟨0, 1, 2⟩]
    (3961408125713217 / 2 ^ 94) true = some R ∧ IsExtent [((0, 0) : ℚ × ℚ), (1, 0), (0, 1), (1, 1)] 1 ∧ IsExtent R.p 1 := by
  refine ⟨⟨[(0, 0), (0, 1), (1, 0), (1, 1)], [⟨1, 0, 2⟩, ⟨1, 2, 3⟩], [0, 1, 2, 1, 2, 3]⟩, by decide +kernel, ?_, ?_⟩
  · exact ⟨⟨(0, 0), by simp, (1, 0), by simp, Or.inl (by norm_num)⟩, by decide +kernel⟩
  · exact ⟨⟨(0, 0), by simp, (1, 0), by simp, Or.inl (by norm_num)⟩, by decide +kernel⟩

/-! ## What fails -/

/-- Three doubles nearly on a line, in the order of their first coordinates. -/
def sliver3 : List (ℚ × ℚ) :=
  [(8815144496685625 / 2251799813685248, -2133941053340877 / 35184372088832), (7977910692656267 / 281474976710656, -5108818469192135 / 70368744177664),
    (5647216623384123 / 140737488355328, -2757214445597769 / 35184372088832)]

/-- **C120** fails for slivers: the result for one triangle of three doubles nearly on a line is clockwise. -/
theorem C120_clockwise_result : ∃ (p : List (ℚ × ℚ)) (R : FixResult ℚ) (x y z : ℚ × ℚ), (∀ q ∈ p, IsDouble q.1 ∧ IsDouble q.2) ∧
    fixMeshFl roundDouble roundEven ptOrder triOrder p [⟨0, 1, 2⟩] (3961408125713217 / 2 ^ 94) true = some R ∧ R.t = [⟨1, 0, 2⟩] ∧
      R.p[1]? = some x ∧ R.p[0]? = some y ∧ R.p[2]? = some z ∧ signedArea x y z < 0 := by
  refine ⟨sliver3, ⟨sliver3, [⟨1, 0, 2⟩], [0, 1, 2]⟩, (7977910692656267 / 281474976710656, -5108818469192135 / 70368744177664),
    (8815144496685625 / 2251799813685248, -2133941053340877 / 35184372088832),
    (5647216623384123 / 140737488355328, -2757214445597769 / 35184372088832), ?_, ?_, rfl, rfl, rfl, rfl, ?_⟩
  · have key : ∀ q ∈ sliver3, roundDouble q.1 = q.1 ∧ roundDouble q.2 = q.2 := by decide +kernel
    exact fun q hq => ⟨(key q hq).1 ▸ (C113_nearest q.1).1, (key q hq).2 ▸ (C113_nearest q.2).1⟩
  · decide +kernel
  · decide +kernel

/-- **C121** fails in doubles with the default tolerance: the first call drops an unused vertex far away, so that the second call uses a finer lattice,
merges two vertices the first call kept, and removes a triangle. -/
theorem C121_not_idempotent : ∃ (p : List (ℚ × ℚ)) (t : List Tri) (R R' : FixResult ℚ), (∀ q ∈ p, IsDouble q.1 ∧ IsDouble q.2) ∧
    fixMeshFl roundDouble roundEven ptOrder triOrder p t (3961408125713217 / 2 ^ 94) true = some R ∧
    fixMeshFl roundDouble roundEven ptOrder triOrder R.p R.t (3961408125713217 / 2 ^ 94) true = some R' ∧
    R.p.length = 4 ∧ R.t.length = 2 ∧ R'.p.length = 3 ∧ R'.t.length = 1 := by
  refine ⟨[(0, 0), (19 / 8, 0), (1103 / 2 ^ 50, 1), (1149 / 2 ^ 50, 1), (10, 10)], [⟨0, 1, 2⟩, ⟨0, 1, 3⟩],
    ⟨[(0, 0), (1103 / 2 ^ 50, 1), (1149 / 2 ^ 50, 1), (19 / 8, 0)], [⟨1, 0, 3⟩, ⟨2, 0, 3⟩], [0, 1, 3, 0, 2, 3]⟩,
    ⟨[(0, 0), (1103 / 2 ^ 50, 1), (19 / 8, 0)], [⟨1, 0, 2⟩], [0, 1, 2]⟩, ?_, ?_, ?_, rfl, rfl, rfl, rfl⟩
  · have key : ∀ q ∈ [((0, 0) : ℚ × ℚ), (19 / 8, 0), (1103 / 2 ^ 50, 1), (1149 / 2 ^ 50, 1), (10, 10)], roundDouble q.1 = q.1 ∧ roundDouble q.2 = q.2 := by
      decide +kernel
    exact fun q hq => ⟨(key q hq).1 ▸ (C113_nearest q.1).1, (key q hq).2 ▸ (C113_nearest q.2).1⟩
  · decide +kernel
  · decide +kernel

/-- The order of the bytes of non-negative little-endian integers below `65536`. -/
def bytesLe (a b : Nat) : Bool := decide (a % 256 < b % 256 ∨ (a % 256 = b % 256 ∧ a / 256 ≤ b / 256))

/-- Rows of three such integers in the order of their bytes. -/
def triBytes : RowOrder Tri :=
  let c : RowOrder Nat :=
    { le := bytesLe
      total := fun a b => by simp only [bytesLe, ← Bool.decide_or, decide_eq_true_eq]; omega
      trans := fun a b c => by simp only [bytesLe, decide_eq_true_eq]; omega
      antisymm := fun a b => by simp only [bytesLe, decide_eq_true_eq]; omega }
  let r : RowOrder (Nat × Nat × Nat) := .prod c (.prod c c)
  { le := fun f g => r.le (f.a, f.b, f.c) (g.a, g.b, g.c)
    total := fun f g => r.total _ _
    trans := fun f g h => r.trans _ _ _
    antisymm := fun f g h1 h2 => by
      have := r.antisymm _ _ h1 h2
      obtain ⟨a, b, c⟩ := f
      obtain ⟨a', b', c'⟩ := g
      simp only [Prod.mk.injEq] at this
      obtain ⟨rfl, rfl, rfl⟩ := this
      rfl }

/-- `260` points on a saw-tooth line. -/
def sawP : List (ℚ × ℚ) := (List.range 260).map fun i : Nat => ((i : ℚ), ((i % 2 : Nat) : ℚ))

/-- **C121** with `delete_unused=True` rows can change places: `unique_rows` compares the bytes of the rows before the vertices are renumbered, and in
bytes the row of the vertices `256, 257, 258` comes before the row of the vertices `1, 2, 3`. -/
theorem C121_rows_reordered :
    fixMesh rndQ ptOrder triBytes sawP [⟨1, 2, 3⟩, ⟨256, 257, 258⟩] (1 / 1000) true =
      some ⟨[(1, 1), (2, 0), (3, 1), (256, 0), (257, 1), (258, 0)], [⟨4, 3, 5⟩, ⟨0, 1, 2⟩], [3, 4, 5, 0, 1, 2]⟩ ∧
    fixMesh rndQ ptOrder triBytes [(1, 1), (2, 0), (3, 1), (256, 0), (257, 1), (258, 0)] [⟨4, 3, 5⟩, ⟨0, 1, 2⟩] (1 / 1000) true =
      some ⟨[(1, 1), (2, 0), (3, 1), (256, 0), (257, 1), (258, 0)], [⟨0, 1, 2⟩, ⟨4, 3, 5⟩], [0, 1, 2, 3, 4, 5]⟩ := by
  constructor <;> decide +kernel

end OM
