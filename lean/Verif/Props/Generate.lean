import Verif.Props.Forces
import Verif.Props.Projection
import Verif.Props.Initial
import Verif.Props.FixMesh
import Verif.Lemmas.Clean8
/-!
# C68, C69, C83: the loop of `generate_mesh`
-/
set_option linter.unusedSectionVars false
namespace OM
open Spec
section
variable {K : Type} [Field K] [LinearOrder K]

/-! ### Triangles outside -/

theorem centroids_eq {p : List (K × K)} {t : List Tri} {c : List (K × K)} (h : centroids p t = some c) :
    c = t.map (fun r => centroid (vertexAt p r.a) (vertexAt p r.b) (vertexAt p r.c)) ∧
      ∀ r ∈ t, corners p r = [some (vertexAt p r.a), some (vertexAt p r.b), some (vertexAt p r.c)] := by
  induction t generalizing c with
  | nil => simp_all [centroids]
  | cons f t ih =>
    simp only [centroids, Option.bind_eq_bind, Option.bind_eq_some_iff] at h
    obtain ⟨x, h1, y, h2, z, h3, r, h4, h5⟩ := h
    obtain ⟨rfl, i2⟩ := ih h4
    have h5 := Option.some.inj h5
    subst h5
    refine ⟨by simp [vertexAt, h1, h2, h3, centroid], ?_⟩
    intro g hg
    rcases List.mem_cons.1 hg with rfl | hg
    · simp [corners, vertexAt, h1, h2, h3]
    · exact i2 g hg

theorem removeOutside_mem {fd : List (K × K) → Option (List K)} {f : K × K → K} (hf : Pointwise fd f) {geps : K} {p : List (K × K)} {t kept : List Tri}
    (h : removeTrianglesOutside fd geps p t = some kept) :
    kept.Sublist t ∧ ValidMesh p t ∧ ∀ r, r ∈ kept ↔ r ∈ t ∧ InsideBy f geps p r := by
  simp only [removeTrianglesOutside, Option.bind_eq_bind, Option.bind_eq_some_iff] at h
  obtain ⟨c, h1, d, h2, h3⟩ := h
  obtain ⟨rfl, hc⟩ := centroids_eq h1
  obtain rfl := hf _ _ h2
  have e := maskRows_map (fun r : Tri => decide (f (centroid (vertexAt p r.a) (vertexAt p r.b) (vertexAt p r.c)) < -geps)) id t
  rw [List.map_map, List.map_map] at h3
  rw [List.map_id, List.map_id] at e
  have e2 : kept = t.filter fun r : Tri => decide (f (centroid (vertexAt p r.a) (vertexAt p r.b) (vertexAt p r.c)) < -geps) :=
    Option.some.inj (h3.symm.trans e)
  subst e2
  refine ⟨List.filter_sublist, ?_, ?_⟩
  · intro r hr v hv
    have := hc r hr
    simp only [corners, List.cons.injEq, and_true] at this
    rcases hv with rfl | rfl | rfl
    · exact (List.getElem?_eq_some_iff.1 this.1).1
    · exact (List.getElem?_eq_some_iff.1 this.2.1).1
    · exact (List.getElem?_eq_some_iff.1 this.2.2).1
  · intro r
    rw [List.mem_filter, decide_eq_true_eq]
    refine and_congr_right fun hr => ?_
    constructor
    · intro h
      exact ⟨_, _, _, hc r hr, h⟩
    · rintro ⟨x, y, z, h4, h5⟩
      rw [hc r hr] at h4
      simp only [List.cons.injEq, Option.some.injEq, and_true] at h4
      rw [h4.1, h4.2.1, h4.2.2]
      exact h5

/-! ### The record of the iterations -/

theorem genFirst_stages {S : GenSetup K} {p : List (K × K)} {r : GenIter K} (h : genFirst S p = some r) :
    r.inserted = p ∧ (∃ e, getTopology (dtInsert S.cgal ⟨[], []⟩ p) = some (r.vertices, r.triangles, e)) ∧
    (∃ locked ix, r.fixed = locked ++ ix ∧
      (if S.lock then (externalTopology S.oE r.vertices r.triangles).bind fun b => nearestVertices r.vertices b.2 else some []) = some locked ∧
      placeFixed S.pfix r.vertices = some (ix, r.points)) ∧
    removeTrianglesOutside S.fd S.geps r.points r.triangles = some r.kept := by
  simp only [genFirst, Option.bind_eq_bind, Option.bind_eq_some_iff] at h
  obtain ⟨⟨v, t, e⟩, h1, h⟩ := h
  by_cases hl : S.lock = true
  · simp only [hl, if_true, Option.bind_eq_some_iff] at h
    obtain ⟨locked, h2, ⟨ix, p'⟩, h3, kept, h4, h5⟩ := h
    have h5 := Option.some.inj h5
    subst h5
    refine ⟨rfl, ⟨e, h1⟩, ⟨locked, ix, rfl, ?_, h3⟩, h4⟩
    rw [if_pos hl]; exact Option.bind_eq_some_iff.2 h2
  · rw [if_neg hl] at h
    simp only [Option.bind_eq_some_iff] at h
    obtain ⟨locked, h2, ⟨ix, p'⟩, h3, kept, h4, h5⟩ := h
    have h5 := Option.some.inj h5
    subst h5
    exact ⟨rfl, ⟨e, h1⟩, ⟨locked, ix, rfl, by rw [if_neg hl]; exact h2, h3⟩, h4⟩

theorem genLoop_trace {S : GenSetup K} {n : Nat} {p : List (K × K)} {m : FixResult K} {l : List (GenIter K)} (h : genLoop S n p = some (m, l)) :
    l.length = n + 1 ∧ (∃ r l', l = r :: l' ∧ r.inserted = p) ∧ (∀ r ∈ l, genFirst S r.inserted = some r) ∧
      (∀ (k : Nat) (r r' : GenIter K), l[k]? = some r → l[k + 1]? = some r' → genSecond S r = some r'.inserted) ∧
      ∃ r, l.getLast? = some r ∧ fixMesh S.rnd S.oP S.oT r.points r.kept S.ptol true = some m := by
  induction n generalizing p m l with
  | zero =>
    simp only [genLoop, Option.bind_eq_bind, Option.bind_eq_some_iff] at h
    obtain ⟨r, h1, m', h2, h3⟩ := h
    have h3 := Option.some.inj h3
    simp only [Prod.mk.injEq] at h3
    obtain ⟨rfl, rfl⟩ := h3
    have hi := (genFirst_stages h1).1
    refine ⟨rfl, ⟨r, [], rfl, hi⟩, ?_, ?_, r, rfl, h2⟩
    · intro r' hr'
      obtain rfl : r' = r := by simpa using hr'
      rw [hi]; exact h1
    · intro k r1 r2 _ h2'
      simp at h2'
  | succ n ih =>
    simp only [genLoop, Option.bind_eq_bind, Option.bind_eq_some_iff] at h
    obtain ⟨r, h1, p', h2, ⟨m', l'⟩, h3, h4⟩ := h
    have h4 := Option.some.inj h4
    simp only [Prod.mk.injEq] at h4
    obtain ⟨rfl, rfl⟩ := h4
    have hi := (genFirst_stages h1).1
    obtain ⟨a1, ⟨r1, l1, rfl, a2⟩, a3, a4, r2, a5, a6⟩ := ih h3
    refine ⟨by simp only [List.length_cons] at a1 ⊢; omega, ⟨r, _, rfl, hi⟩, ?_, ?_, r2, ?_, a6⟩
    · intro r' hr'
      rcases List.mem_cons.1 hr' with rfl | hr'
      · rw [hi]; exact h1
      · exact a3 r' hr'
    · intro k x x' hx hx'
      cases k with
      | zero =>
        obtain rfl : r = x := by simpa using hx
        obtain rfl : r1 = x' := by simpa using hx'
        rw [a2]; exact h2
      | succ k => exact a4 k x x' (by simpa using hx) (by simpa using hx')
    · simpa using a5

/-- Induction over the iterations: a property of the inserted points that is kept by every iteration holds in all of them. -/
theorem trace_induct {S : GenSetup K} {l : List (GenIter K)} {P : List (K × K) → Prop}
    (h0 : ∀ r, l[0]? = some r → P r.inserted)
    (hstep : ∀ (r : GenIter K) (p : List (K × K)), r ∈ l → P r.inserted → genSecond S r = some p → P p)
    (hs : ∀ (k : Nat) (r r' : GenIter K), l[k]? = some r → l[k + 1]? = some r' → genSecond S r = some r'.inserted) :
    ∀ r ∈ l, P r.inserted := by
  have : ∀ (k : Nat) (r : GenIter K), l[k]? = some r → P r.inserted := by
    intro k
    induction k with
    | zero => exact h0
    | succ k ih =>
      intro r hr
      have hk : k < l.length := by have := (List.getElem?_eq_some_iff.1 hr).1; omega
      have hr' := List.getElem?_eq_getElem hk
      exact hstep _ _ (List.getElem_mem hk) (ih _ hr') (hs k _ _ hr' hr)
  intro r hr
  obtain ⟨k, hk⟩ := List.mem_iff_getElem?.1 hr
  exact this k r hk

theorem generateMesh_loop {S : GenSetup K} {maxIter : Nat} {p : List (K × K)} {R : FixResult K × List (GenIter K)}
    (h : generateMesh S maxIter p = some R) : ∃ n, maxIter = n + 1 ∧ p ≠ [] ∧ genLoop S n p = some R := by
  unfold generateMesh at h
  cases maxIter with
  | zero => simp at h
  | succ n =>
    dsimp only at h
    split at h
    · simp at h
    · rename_i hp
      exact ⟨n, rfl, fun h0 => hp (by simp [h0]), h⟩

/-- **C68**: if `generate_mesh` returns, whatever the triangulation, the sizing function, the square root, and the start points are: exactly `max_iter`
triangulations were made, the first one of the given points; in every iteration the triangles kept are exactly those whose centroid lies inside the
domain by more than the tolerance, and those of the last iteration are given to `fix_mesh`. -/
theorem C68_kept {S : GenSetup K} {f : K × K → K} (hf : Pointwise S.fd f) {maxIter : Nat} {p : List (K × K)} {m : FixResult K} {l : List (GenIter K)}
    (h : generateMesh S maxIter p = some (m, l)) :
    l.length = maxIter ∧ (∃ r l', l = r :: l' ∧ r.inserted = p) ∧
      (∀ r ∈ l, (∃ e, getTopology (dtInsert S.cgal ⟨[], []⟩ r.inserted) = some (r.vertices, r.triangles, e)) ∧
        ∀ x, x ∈ r.kept ↔ x ∈ r.triangles ∧ InsideBy f S.geps r.points x) ∧
      ∃ r, l.getLast? = some r ∧ fixMesh S.rnd S.oP S.oT r.points r.kept S.ptol true = some m := by
  obtain ⟨n, rfl, -, h⟩ := generateMesh_loop h
  obtain ⟨a1, a2, a3, a4, a5⟩ := genLoop_trace h
  refine ⟨a1, a2, ?_, a5⟩
  intro r hr
  obtain ⟨-, b2, -, b4⟩ := genFirst_stages (a3 r hr)
  exact ⟨b2, (removeOutside_mem hf b4).2.2⟩

theorem centroid_perm {x y z x' y' z' : K × K} (h : [x, y, z].Perm [x', y', z']) : centroid x y z = centroid x' y' z' := by
  have h1 := (h.map Prod.fst).sum_eq
  have h2 := (h.map Prod.snd).sum_eq
  simp only [List.map_cons, List.map_nil, List.sum_cons, List.sum_nil, add_zero, ← add_assoc] at h1 h2
  simp only [centroid, h1, h2]

theorem centroid_within [IsStrictOrderedRing K] {d : K} {x y z x' y' z' : K × K} (h1 : Within d x x') (h2 : Within d y y') (h3 : Within d z z') :
    Within d (centroid x y z) (centroid x' y' z') := by
  simp only [Within, centroid, abs_le] at *
  refine ⟨⟨?_, ?_⟩, ?_, ?_⟩ <;> linarith [h1.1.1, h1.1.2, h1.2.1, h1.2.2, h2.1.1, h2.1.2, h2.2.1, h2.2.2, h3.1.1, h3.1.2, h3.2.1, h3.2.2]

/-- The corners of a row of a valid table, as a list of three points. -/
theorem corners_valid {p : List (K × K)} {t : List Tri} (h : ValidMesh p t) {g : Tri} (hg : g ∈ t) :
    corners p g = [some (vertexAt p g.a), some (vertexAt p g.b), some (vertexAt p g.c)] := by
  simp only [corners, vertexAt]
  rw [List.getElem?_eq_getElem (h g hg _ (Or.inl rfl)), List.getElem?_eq_getElem (h g hg _ (Or.inr (Or.inl rfl))),
    List.getElem?_eq_getElem (h g hg _ (Or.inr (Or.inr rfl)))]
  rfl

/-- **C68** (result): `fix_mesh` merges vertices that differ by less than `e * ptol` (`e` is the extent of the point cloud), so centroids of the returned
triangles can differ by that much from those tested; for a distance function that changes by at most `c` per unit (in the maximum norm) the centroids of
the returned triangles lie inside by the tolerance up to `c * e * ptol`. -/
theorem C68_result [IsStrictOrderedRing K] {S : GenSetup K} {f : K × K → K} (hf : Pointwise S.fd f) (hr : IsRounding S.rnd) (hpt : 0 < S.ptol)
    {maxIter : Nat} {p : List (K × K)} {m : FixResult K} {l : List (GenIter K)}
    (h : generateMesh S maxIter p = some (m, l)) {c : K} (hc : 0 ≤ c) (hlip : ∀ x y d, Within d x y → f y ≤ f x + c * d) :
    ∃ r, l.getLast? = some r ∧ ∀ e, IsExtent r.points e → ∀ g ∈ m.t, ∃ x y z, corners m.p g = [some x, some y, some z] ∧
      f (centroid x y z) < -S.geps + c * (e * S.ptol) := by
  obtain ⟨-, -, a3, r, a4, a5⟩ := C68_kept hf h
  refine ⟨r, a4, fun e he g hg => ?_⟩
  obtain ⟨n, -, -, h'⟩ := generateMesh_loop h
  have hrl : r ∈ l := List.mem_of_getLast? a4
  obtain ⟨-, b2, -, b4⟩ := genFirst_stages ((genLoop_trace h').2.2.1 r hrl)
  obtain ⟨c1, c2, c3⟩ := removeOutside_mem hf b4
  have hv : ValidMesh r.points r.kept := fun t ht => c2 t (c1.subset ht)
  obtain ⟨t, ht, x, y, z, x', y', z', d1, d2, d3, d4, d5⟩ := (C06_fix_mesh_geometry hr hpt he hv a5).2.1 g hg
  obtain ⟨x0, y0, z0, e1, e2⟩ := (c3 t |>.1 ht).2
  rw [d1] at e1
  simp only [List.cons.injEq, Option.some.injEq, and_true] at e1
  obtain ⟨rfl, rfl, rfl⟩ := e1
  have hcor := corners_valid (C05_fix_mesh_wellformed a5).1 hg
  refine ⟨_, _, _, hcor, ?_⟩
  rw [hcor] at d2
  have hperm : [vertexAt m.p g.a, vertexAt m.p g.b, vertexAt m.p g.c].Perm [x', y', z'] := by
    have : ([vertexAt m.p g.a, vertexAt m.p g.b, vertexAt m.p g.c].map some).Perm ([x', y', z'].map some) := d2
    exact (List.map_perm_map_iff (Option.some_injective _)).1 this
  rw [centroid_perm hperm]
  have := hlip (centroid x y z) (centroid x' y' z') (e * S.ptol) (centroid_within d3.2 d4.2 d5.2)
  linarith

theorem within_of_latticePoint [IsStrictOrderedRing K] {rnd : K → Int} (hr : IsRounding rnd) {p : List (K × K)} {e ptol : K} (he : IsExtent p e)
    (hpt : 0 < ptol) {q q' : K × K} (hq : q ∈ p) (hq' : q' ∈ p) (h : latticePoint rnd (e * ptol) q = latticePoint rnd (e * ptol) q') :
    Within (e * ptol) q q' := by
  rcases (extent_nonneg he).eq_or_lt with h0 | h0
  · subst h0
    rw [extent_zero he hq hq']
    simp [Within]
  have hs : 0 < e * ptol := mul_pos h0 hpt
  have key : ∀ x y : K, (rnd (x / (e * ptol)) : K) * (e * ptol) = (rnd (y / (e * ptol)) : K) * (e * ptol) → |x - y| ≤ e * ptol := by
    intro x y hxy
    have h1 := mul_right_cancel₀ hs.ne' hxy
    have h2 := abs_le.1 (hr (x / (e * ptol)))
    have h3 := abs_le.1 (hr (y / (e * ptol)))
    rw [h1] at h2
    have h4 : |x / (e * ptol) - y / (e * ptol)| ≤ 1 := abs_le.2 ⟨by linarith [h2.1, h3.2], by linarith [h2.2, h3.1]⟩
    rw [← sub_div, abs_div, abs_of_pos hs, div_le_one hs] at h4
    exact h4
  simp only [latticePoint, Prod.mk.injEq] at h
  exact ⟨key _ _ h.1, key _ _ h.2⟩

/-- **C68** (result, exact): if the points of the last iteration are further apart than the merging tolerance, the returned triangles have their centroid
inside by the tolerance, and the returned triangles are those that were kept (with the same corner points, possibly in another order). -/
theorem C68_result_exact [IsStrictOrderedRing K] {S : GenSetup K} {f : K × K → K} (hf : Pointwise S.fd f) (hr : IsRounding S.rnd) (hpt : 0 < S.ptol)
    {maxIter : Nat} {p : List (K × K)} {m : FixResult K} {l : List (GenIter K)}
    (h : generateMesh S maxIter p = some (m, l)) :
    ∃ r, l.getLast? = some r ∧ ∀ e, IsExtent r.points e → Separated (e * S.ptol) r.points →
      (∀ g ∈ m.t, InsideBy f S.geps m.p g) ∧ (∀ t ∈ r.kept, ∃ g ∈ m.t, CornersMatch (fun x x' => x = x') r.points t m.p g) ∧
      ∀ g ∈ m.t, ∃ t ∈ r.kept, CornersMatch (fun x x' => x = x') r.points t m.p g := by
  obtain ⟨-, -, a3, r, a4, a5⟩ := C68_kept hf h
  refine ⟨r, a4, fun e he hsep => ?_⟩
  obtain ⟨n, -, -, h'⟩ := generateMesh_loop h
  have hrl : r ∈ l := List.mem_of_getLast? a4
  obtain ⟨-, b2, -, b4⟩ := genFirst_stages ((genLoop_trace h').2.2.1 r hrl)
  obtain ⟨c1, c2, c3⟩ := removeOutside_mem hf b4
  have hv : ValidMesh r.points r.kept := fun t ht => c2 t (c1.subset ht)
  have hinj : ∀ q ∈ r.points, ∀ q' ∈ r.points, latticePoint S.rnd (e * S.ptol) q = latticePoint S.rnd (e * S.ptol) q' → q = q' := by
    intro q hq q' hq' hl
    exact hsep q hq q' hq' (within_of_latticePoint hr he hpt hq hq' hl)
  obtain ⟨g1, g2⟩ := C06_fix_mesh_geometry_exact hpt he hv hinj a5
  refine ⟨fun g hg => ?_, g1, g2⟩
  obtain ⟨t, ht, x, y, z, x', y', z', d1, d2, rfl, rfl, rfl⟩ := g2 g hg
  obtain ⟨x0, y0, z0, e1, e2⟩ := (c3 t |>.1 ht).2
  rw [d1] at e1
  simp only [List.cons.injEq, Option.some.injEq, and_true] at e1
  obtain ⟨rfl, rfl, rfl⟩ := e1
  have hcor := corners_valid (C05_fix_mesh_wellformed a5).1 hg
  refine ⟨_, _, _, hcor, ?_⟩
  rw [hcor] at d2
  have hperm : [vertexAt m.p g.a, vertexAt m.p g.b, vertexAt m.p g.c].Perm [x, y, z] := by
    have : ([vertexAt m.p g.a, vertexAt m.p g.b, vertexAt m.p g.c].map some).Perm ([x, y, z].map some) := d2
    exact (List.map_perm_map_iff (Option.some_injective _)).1 this
  rw [centroid_perm hperm]
  exact e2

end
end OM
