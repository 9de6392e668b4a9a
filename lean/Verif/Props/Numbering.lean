import Verif.Props.FixMeshFl
/-!
# C141: the result of `fix_mesh` does not depend on the numbering of its input
-/
namespace OM
namespace Spec

/-- The two meshes are the same drawing: the same points and the same triangles of points, whatever the numbering, the order of the rows, the order of the
corners and repetitions. -/
def SameDrawing {α : Type} (p : List α) (t : List Tri) (p' : List α) (t' : List Tri) : Prop :=
  (∀ q, q ∈ p ↔ q ∈ p') ∧ (∀ f ∈ t, ∃ g ∈ t', CornersMatch (fun x y => x = y) p f p' g) ∧
    ∀ g ∈ t', ∃ f ∈ t, CornersMatch (fun x y => x = y) p f p' g

end Spec
open Spec

theorem cornersMatch_eq_symm {α : Type} {p p' : List α} {f g : Tri} (h : CornersMatch (fun x y => x = y) p f p' g) : CornersMatch (fun x y => x = y) p' g p f := by
  obtain ⟨x, y, z, x', y', z', h1, h2, rfl, rfl, rfl⟩ := h
  rw [← h1] at h2
  obtain ⟨a, ha⟩ : ∃ a, p'[g.a]? = some a := by
    have := h2.subset (show p'[g.a]? ∈ corners p' g by simp [corners])
    rw [h1] at this
    simp only [List.mem_cons, List.not_mem_nil, or_false] at this
    rcases this with h | h | h <;> exact ⟨_, h⟩
  obtain ⟨b, hb⟩ : ∃ a, p'[g.b]? = some a := by
    have := h2.subset (show p'[g.b]? ∈ corners p' g by simp [corners])
    rw [h1] at this
    simp only [List.mem_cons, List.not_mem_nil, or_false] at this
    rcases this with h | h | h <;> exact ⟨_, h⟩
  obtain ⟨c, hc⟩ : ∃ a, p'[g.c]? = some a := by
    have := h2.subset (show p'[g.c]? ∈ corners p' g by simp [corners])
    rw [h1] at this
    simp only [List.mem_cons, List.not_mem_nil, or_false] at this
    rcases this with h | h | h <;> exact ⟨_, h⟩
  have e : corners p' g = [some a, some b, some c] := by simp [corners, ha, hb, hc]
  exact ⟨a, b, c, a, b, c, e, e ▸ h2.symm, rfl, rfl, rfl⟩

theorem cornersMatch_eq_perm {α : Type} {p p' : List α} {f g : Tri} (h : CornersMatch (fun x y => x = y) p f p' g) : (corners p f).Perm (corners p' g) := by
  obtain ⟨x, y, z, x', y', z', h1, h2, rfl, rfl, rfl⟩ := h
  rw [h1]; exact h2.symm

theorem cornersMatch_valid {α : Type} {p p' : List α} {f g : Tri} (h : CornersMatch (fun x y => x = y) p f p' g) : ∀ v, HasVertex f v → v < p.length := by
  obtain ⟨x, y, z, x', y', z', h1, -⟩ := h
  simp only [corners, List.cons.injEq, and_true] at h1
  rintro v (rfl | rfl | rfl)
  · exact (List.getElem?_eq_some_iff.1 h1.1).1
  · exact (List.getElem?_eq_some_iff.1 h1.2.1).1
  · exact (List.getElem?_eq_some_iff.1 h1.2.2).1

theorem drawing_symm {α : Type} {p p' : List α} {t t' : List Tri} (h : SameDrawing p t p' t') : SameDrawing p' t' p t :=
  ⟨fun q => (h.1 q).symm, fun g hg => let ⟨f, hf, hm⟩ := h.2.2 g hg; ⟨f, hf, cornersMatch_eq_symm hm⟩,
    fun f hf => let ⟨g, hg, hm⟩ := h.2.1 f hf; ⟨g, hg, cornersMatch_eq_symm hm⟩⟩

theorem drawing_valid {α : Type} {p p' : List α} {t t' : List Tri} (h : SameDrawing p t p' t') : ValidMesh p t :=
  fun f hf => let ⟨_, _, hm⟩ := h.2.1 f hf; cornersMatch_valid hm

section
variable {K : Type} [Field K] [LinearOrder K]

/-- The place of an entry in a list. -/
def rankIn {α : Type} [DecidableEq α] (l : List α) (a : α) : Nat := l.idxOf a

/-- Half of the comparison of the merged rows. -/
theorem merged_rows_sub {key : K × K → Row K} {o : RowOrder (Row K)} {p p' : List (K × K)} {t t' t1 t1' : List Tri} (hu : unique o (p.map key) = unique o (p'.map key))
    (hd : ∀ f ∈ t, ∃ g ∈ t', CornersMatch (fun x y => x = y) p f p' g) (ht : mapTris (fun i => (uniqueInverse o (p.map key))[i]?) t = some t1)
    (ht' : mapTris (fun i => (uniqueInverse o (p'.map key))[i]?) t' = some t1') : ∀ a ∈ t1.map Tri.sort, a ∈ t1'.map Tri.sort := by
  intro a ha
  obtain ⟨f1, hf1, rfl⟩ := List.mem_map.1 ha
  obtain ⟨f, hf, hff⟩ := forall₂_mem_right (mapTris_forall₂ ht) f1 hf1
  obtain ⟨g, hg, hm⟩ := hd f hf
  obtain ⟨g1, hg1, hgg⟩ := forall₂_mem_left (mapTris_forall₂ ht') g hg
  have key1 : ∀ {p : List (K × K)} {f f1 : Tri}, f.mapM (fun i => (uniqueInverse o (p.map key))[i]?) = some f1 →
      f1.toList.map some = (corners p f).map (Option.map fun q => rankIn (unique o (p.map key)) (key q)) := by
    intro p f f1 h
    obtain ⟨h1, h2, h3⟩ := Tri.mapM_eq_some.1 h
    simp only [uniqueInverse, List.getElem?_map, Option.map_map] at h1 h2 h3
    simp only [Tri.toList, corners, List.map_cons, List.map_nil, ← h1, ← h2, ← h3]
    rfl
  have hp : (f1.toList.map some).Perm (g1.toList.map some) := by
    rw [key1 hff, key1 hgg, hu]
    exact (cornersMatch_eq_perm hm).map _
  have hp' : f1.toList.Perm g1.toList := (List.map_perm_map_iff (Option.some_injective _)).1 hp
  refine List.mem_map.2 ⟨g1, hg1, ?_⟩
  exact (Tri.sort_eq_of_perm (Tri.sort_sorted g1) (hp'.trans (Tri.sort_perm g1).symm)).symm

/-- Points with different keys are merged to the same list in every order. -/
theorem merged_points_eq {key : K × K → Row K} {o : RowOrder (Row K)} {p p' p1 p1' : List (K × K)} (hs : ∀ q, q ∈ p ↔ q ∈ p')
    (hk : ∀ q ∈ p, ∀ q' ∈ p, key q = key q' → q = q') (hg : gather p (uniqueIndex o (p.map key)) = some p1)
    (hg' : gather p' (uniqueIndex o (p'.map key)) = some p1') : p1 = p1' ∧ unique o (p.map key) = unique o (p'.map key) := by
  have hu : unique o (p.map key) = unique o (p'.map key) := by
    refine unique_congr o fun a => ?_
    simp only [List.mem_map, hs]
  refine ⟨?_, hu⟩
  have e : p1.map key = p1'.map key := by rw [merged_keys hg, merged_keys hg', hu]
  have h1 := gather_subset hg
  have h2 := gather_subset hg'
  clear hu hg hg'
  induction p1 generalizing p1' with
  | nil => cases p1' with
    | nil => rfl
    | cons _ _ => simp at e
  | cons a l ih =>
    cases p1' with
    | nil => simp at e
    | cons b l' =>
      simp only [List.map_cons, List.cons.injEq] at e
      rw [hk a (h1 a (by simp)) b ((hs b).2 (h2 b (by simp))) e.1,
        ih e.2 (fun x hx => h1 x (List.mem_cons_of_mem _ hx)) fun x hx => h2 x (List.mem_cons_of_mem _ hx)]

variable [IsStrictOrderedRing K]

/-- `fix_mesh` of the same drawing, if different points have different keys. -/
theorem fixMeshFl_drawing {rnd : K → K} {rint : K → Int} {oP : RowOrder (Row K)} {oT : RowOrder Tri} {p p' : List (K × K)} {t t' : List Tri} {ptol snap : K} {du : Bool}
    (hd : SameDrawing p t p' t') (hp : p ≠ []) (hs : snapSizeFl rnd p ptol = some snap) (hs' : snapSizeFl rnd p' ptol = some snap)
    (hk : ∀ q ∈ p, ∀ q' ∈ p, snapRowFl rnd rint snap q = snapRowFl rnd rint snap q' → q = q') :
    ∃ R R', fixMeshFl rnd rint oP oT p t ptol du = some R ∧ fixMeshFl rnd rint oP oT p' t' ptol du = some R' ∧ R.p = R'.p ∧ R.t = R'.t ∧
      (du = true → R.jx = R'.jx) ∧ (du = false → ∀ (i j : Nat) (q : K × K), p[i]? = some q → p'[j]? = some q → R.jx[i]? = R'.jx[j]?) := by
  have hp' : p' ≠ [] := by
    intro h
    obtain ⟨q, hq⟩ := List.exists_mem_of_ne_nil p hp
    rw [hd.1, h] at hq
    simp at hq
  obtain ⟨R, hR⟩ := fixMeshFl_isSome rnd rint oP oT ptol du hp (drawing_valid hd)
  obtain ⟨R', hR'⟩ := fixMeshFl_isSome rnd rint oP oT ptol du hp' (drawing_valid (drawing_symm hd))
  refine ⟨R, R', hR, hR', ?_⟩
  obtain ⟨s, p1, t1, a1, a2, a3, a4⟩ := fixMeshFl_stages hR
  obtain ⟨s', p1', t1', b1, b2, b3, b4⟩ := fixMeshFl_stages hR'
  obtain rfl : s = snap := by rw [hs] at a1; exact (Option.some.inj a1).symm
  obtain rfl : s' = s := by rw [hs'] at b1; exact (Option.some.inj b1).symm
  obtain ⟨rfl, hu⟩ := merged_points_eq hd.1 hk a2 b2
  have ht : unique oT (t1.map Tri.sort) = unique oT (t1'.map Tri.sort) :=
    unique_congr oT fun a => ⟨merged_rows_sub hu hd.2.1 a3 b3 a, merged_rows_sub hu.symm (drawing_symm hd).2.1 b3 a3 a⟩
  rcases a4 with ⟨d, c1, c2, c3⟩ | ⟨d, c1, c2, c3⟩ <;> rcases b4 with ⟨d', e1, e2, e3⟩ | ⟨d', e1, e2, e3⟩
  · rw [ht, e2] at c2
    refine ⟨c1.trans e1.symm, (Option.some.inj c2).symm, fun h => absurd (d.symm.trans h) (by simp), fun _ i j q hi hj => ?_⟩
    rw [c3, e3]
    simp only [uniqueInverse, List.getElem?_map, hi, hj, hu]
  · exact absurd (d.symm.trans d') (by simp)
  · exact absurd (d.symm.trans d') (by simp)
  · rw [ht, e1] at c1
    have ep := Option.some.inj c1
    rw [ht, ← ep, e2] at c2
    exact ⟨ep.symm, (Option.some.inj c2).symm, fun _ => by rw [c3, e3, ht], fun h => absurd (d.symm.trans h) (by simp)⟩

theorem drawing_extent {p p' : List (K × K)} (h : ∀ q, q ∈ p ↔ q ∈ p') {e : K} (he : IsExtent p e) : IsExtent p' e := by
  unfold IsExtent at he ⊢
  simpa only [h] using he

/-- **C141** (1) In rounded arithmetic, too, two meshes that are the same drawing have the same result, vertex for vertex and row for row. Full claim: for every mesh.
Proved if different points are further apart than the distance below which points can be merged (otherwise false: `C141_order_matters`). -/
theorem C141_rounded_partial {rnd : K → K} {rint : K → Int} {u M : K} (hR : Rounding rnd) (hr : RelError rnd u) (h0 : 0 ≤ u) (hu : u ≤ 1 / 2) (hi : IsRounding rint)
    (oP : RowOrder (Row K)) (oT : RowOrder Tri) {p p' : List (K × K)} {t t' : List Tri} {ptol e : K} (du : Bool) (hpt : 0 < ptol) (he : IsExtent p e)
    (hM : ∀ q ∈ p, |q.1| ≤ M ∧ |q.2| ≤ M) (hsep : Separated ((1 + u) ^ 3 * (e * ptol) + 5 * u * M) p) (hd : SameDrawing p t p' t') :
    ∃ R R', fixMeshFl rnd rint oP oT p t ptol du = some R ∧ fixMeshFl rnd rint oP oT p' t' ptol du = some R' ∧ R.p = R'.p ∧ R.t = R'.t ∧
      (du = true → R.jx = R'.jx) ∧ (du = false → ∀ (i j : Nat) (q : K × K), p[i]? = some q → p'[j]? = some q → R.jx[i]? = R'.jx[j]?) := by
  have hp : p ≠ [] := by
    obtain ⟨q, hq, -⟩ := he.1
    exact List.ne_nil_of_mem hq
  have hs := snapSizeFl_extent hR (ptol := ptol) he
  have hs' := snapSizeFl_extent hR (ptol := ptol) (drawing_extent hd.1 he)
  exact fixMeshFl_drawing hd hp hs hs' fun q hq q' hq' hk => hsep q hq q' hq' (near_of_keyFl hR hr h0 hu hi hpt he hM hs hq hq' hk)

/-- **C141** (2) The same for exact arithmetic. -/
theorem C141_exact_partial {rint : K → Int} (hi : IsRounding rint) (oP : RowOrder (Row K)) (oT : RowOrder Tri) {p p' : List (K × K)} {t t' : List Tri} {ptol e : K}
    (du : Bool) (hpt : 0 < ptol) (he : IsExtent p e) (hsep : Separated (e * ptol) p) (hd : SameDrawing p t p' t') :
    ∃ R R', fixMesh rint oP oT p t ptol du = some R ∧ fixMesh rint oP oT p' t' ptol du = some R' ∧ R.p = R'.p ∧ R.t = R'.t ∧
      (du = true → R.jx = R'.jx) ∧ (du = false → ∀ (i j : Nat) (q : K × K), p[i]? = some q → p'[j]? = some q → R.jx[i]? = R'.jx[j]?) := by
  obtain ⟨M, hM⟩ : ∃ M : K, ∀ q ∈ p, |q.1| ≤ M ∧ |q.2| ≤ M := by
    clear he hsep hd
    induction p with
    | nil => exact ⟨0, by simp⟩
    | cons a l ih =>
      obtain ⟨M, hM⟩ := ih
      refine ⟨max M (max |a.1| |a.2|), fun q hq => ?_⟩
      rcases List.mem_cons.1 hq with rfl | hq
      · exact ⟨le_max_of_le_right (le_max_left _ _), le_max_of_le_right (le_max_right _ _)⟩
      · exact ⟨le_max_of_le_left (hM q hq).1, le_max_of_le_left (hM q hq).2⟩
  have := C141_rounded_partial (rnd := id) (u := 0) (M := M) ⟨monotone_id, fun _ => rfl, rfl⟩ (fun x => by simp) le_rfl (by norm_num) hi oP oT du hpt he hM
    (by simpa using hsep) hd
  simpa only [C120_exact] using this

section
variable [FloorRing K]

/-- **C141** (1) for doubles, with the default tolerance, coordinates of at most a hundred times the extent and different points more than `2.6e-13` extents apart. -/
theorem C141_doubles_partial {rint : K → Int} (hi : IsRounding rint) (oP : RowOrder (Row K)) (oT : RowOrder Tri) {p p' : List (K × K)} {t t' : List Tri} {e : K} (du : Bool)
    (he : IsExtent p e) (hM : ∀ q ∈ p, |q.1| ≤ 100 * e ∧ |q.2| ≤ 100 * e) (hsep : Separated (26 / 10 ^ 14 * e) p) (hd : SameDrawing p t p' t') :
    ∃ R R', fixMeshFl roundDouble rint oP oT p t (3961408125713217 / 2 ^ 94) du = some R ∧
      fixMeshFl roundDouble rint oP oT p' t' (3961408125713217 / 2 ^ 94) du = some R' ∧ R.p = R'.p ∧ R.t = R'.t ∧
      (du = true → R.jx = R'.jx) ∧ (du = false → ∀ (i j : Nat) (q : K × K), p[i]? = some q → p'[j]? = some q → R.jx[i]? = R'.jx[j]?) := by
  obtain ⟨hR, hr⟩ := C113_roundDouble (K := K)
  have he0 := extent_nonneg he
  have hb : (1 + 1 / 2 ^ 53 : K) ^ 3 * (e * (3961408125713217 / 2 ^ 94)) + 5 * (1 / 2 ^ 53) * (100 * e) ≤ 26 / 10 ^ 14 * e := by
    have : (1 + 1 / 2 ^ 53 : K) ^ 3 * (3961408125713217 / 2 ^ 94) + 5 * (1 / 2 ^ 53) * 100 ≤ 26 / 10 ^ 14 := by norm_num
    nlinarith
  exact C141_rounded_partial hR hr (by positivity) (by norm_num) hi oP oT du (by positivity) he hM
    (fun q hq q' hq' hw => hsep q hq q' hq' ⟨hw.1.trans hb, hw.2.trans hb⟩) hd
end
end

/-- The hypotheses hold for a square given with two numberings, one of them with a doubled vertex and a doubled triangle. -/
example : SameDrawing [((0, 0) : ℚ × ℚ), (1, 0), (0, 1), (1, 1)] [⟨0, 1, 2⟩, ⟨1, 3, 2⟩] [(1, 1), (0, 1), (1, 0), (0, 0), (1, 1)] [⟨4, 1, 2⟩, ⟨3, 2, 1⟩, ⟨2, 0, 1⟩] ∧
    IsExtent [((0, 0) : ℚ × ℚ), (1, 0), (0, 1), (1, 1)] 1 ∧ (∀ q ∈ [((0, 0) : ℚ × ℚ), (1, 0), (0, 1), (1, 1)], |q.1| ≤ 100 * 1 ∧ |q.2| ≤ 100 * 1) ∧
    Separated (26 / 10 ^ 14 * 1) [((0, 0) : ℚ × ℚ), (1, 0), (0, 1), (1, 1)] ∧
    (fixMeshFl roundDouble roundEven ptOrder triOrder [((0, 0) : ℚ × ℚ), (1, 0), (0, 1), (1, 1)] [⟨0, 1, 2⟩, ⟨1, 3, 2⟩] (3961408125713217 / 2 ^ 94) true).map (fun R => (R.p, R.t)) =
      some ([(0, 0), (0, 1), (1, 0), (1, 1)], [⟨1, 0, 2⟩, ⟨1, 2, 3⟩]) ∧
    (fixMeshFl roundDouble roundEven ptOrder triOrder [((1, 1) : ℚ × ℚ), (0, 1), (1, 0), (0, 0), (1, 1)] [⟨4, 1, 2⟩, ⟨3, 2, 1⟩, ⟨2, 0, 1⟩] (3961408125713217 / 2 ^ 94) true).map
      (fun R => (R.p, R.t)) = some ([(0, 0), (0, 1), (1, 0), (1, 1)], [⟨1, 0, 2⟩, ⟨1, 2, 3⟩]) := by
  refine ⟨⟨fun q => ?_, fun f hf => ?_, fun g hg => ?_⟩, ?_, by decide +kernel, ?_, by decide +kernel, by decide +kernel⟩
  · simp only [List.mem_cons, List.not_mem_nil, or_false]
    tauto
  · simp only [List.mem_cons, List.not_mem_nil, or_false] at hf
    rcases hf with rfl | rfl
    · exact ⟨⟨3, 2, 1⟩, by simp, _, _, _, _, _, _, rfl, List.Perm.refl _, rfl, rfl, rfl⟩
    · exact ⟨⟨2, 0, 1⟩, by simp, _, _, _, _, _, _, rfl, List.Perm.refl _, rfl, rfl, rfl⟩
  · simp only [List.mem_cons, List.not_mem_nil, or_false] at hg
    rcases hg with rfl | rfl | rfl
    · exact ⟨⟨1, 3, 2⟩, by simp, _, _, _, (1, 0), (1, 1), (0, 1), rfl, by decide +kernel, rfl, rfl, rfl⟩
    · exact ⟨⟨0, 1, 2⟩, by simp, _, _, _, _, _, _, rfl, List.Perm.refl _, rfl, rfl, rfl⟩
    · exact ⟨⟨1, 3, 2⟩, by simp, _, _, _, _, _, _, rfl, List.Perm.refl _, rfl, rfl, rfl⟩
  · exact ⟨⟨(0, 0), by simp, (1, 0), by simp, Or.inl (by norm_num)⟩, by decide +kernel⟩
  · have : ∀ q ∈ [((0, 0) : ℚ × ℚ), (1, 0), (0, 1), (1, 1)], ∀ q' ∈ [((0, 0) : ℚ × ℚ), (1, 0), (0, 1), (1, 1)],
        |q.1 - q'.1| ≤ 26 / 10 ^ 14 * 1 ∧ |q.2 - q'.2| ≤ 26 / 10 ^ 14 * 1 → q = q' := by decide +kernel
    exact this

end OM
