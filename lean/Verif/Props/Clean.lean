import Verif.Lemmas.Clean8
import Verif.Props.FixMesh
import Verif.Props.Edges
/-!
# Properties C12 – C19 (`oceanmesh/clean.py`)
-/
set_option linter.unusedSectionVars false
namespace OM
open Spec

/-- Two triangles with a common edge, one attached at a vertex, one apart. -/
def fanT : List Tri := [⟨0, 1, 2⟩, ⟨1, 3, 2⟩, ⟨3, 4, 5⟩, ⟨6, 7, 8⟩]

theorem fanT_nondegenerate : ∀ f ∈ fanT, Nondegenerate f := by decide

theorem conforming_of_bound {t : List Tri} (n : Nat) (hv : ∀ f ∈ t, f.a < n ∧ f.b < n ∧ f.c < n)
    (h : ∀ u < n, ∀ v < n, edgeMultiplicity t u v ≤ 2) : Conforming t := by
  intro u v
  by_cases huv : u < n ∧ v < n
  · exact h u huv.1 v huv.2
  · unfold edgeMultiplicity
    rw [List.filter_eq_nil_iff.2]
    · simp
    · intro f hf he
      have he : HasEdge f u v := by simpa using he
      obtain ⟨h1, h2, h3⟩ := hv f hf
      apply huv
      constructor
      · rcases he.2.1 with h | h | h <;> omega
      · rcases he.2.2 with h | h | h <;> omega

theorem fanT_conforming : Conforming fanT := conforming_of_bound 9 (by decide) (by decide)

/-! ## C12 -/

/-- **C12** (soundness, every table) Reading the table as documented, `ftof[ix[c]:ix[c+1], 1]`, gives for every triangle a
list containing the triangle itself, and every other entry is a triangle that shares a side with it. -/
theorem C12_face_table_sound (srt : KeySort (Nat × Nat) Nat lexOrder.le) (t : List Tri) {c : Nat} {f : Tri}
    (hc : t[c]? = some f) :
    ∃ rows, block (faceToFace srt t).1 (faceToFace srt t).2 c = some rows ∧ c ∈ rows.map Prod.snd ∧
      ∀ g ∈ rows.map Prod.snd, g = c ∨ ∃ h, t[g]? = some h ∧ Adjacent f h := by
  have hlt := (List.getElem?_eq_some_iff.1 hc).1
  obtain ⟨rows, h1, -⟩ := faceToFace_block srt t hlt
  obtain ⟨ns, h2, h3⟩ := mem_faceNeighbours (srt := srt) hlt
  rw [faceNeighbours, h1] at h2
  cases h2
  refine ⟨rows, h1, (h3 c).2 (Or.inl rfl), ?_⟩
  intro g hg
  rcases (h3 g).1 hg with h | h | h
  · exact Or.inl h
  · obtain ⟨f', h', e1, e2, e3⟩ := mem_facePairs h
    rw [hc] at e1; cases e1
    exact Or.inr ⟨h', e2, e3⟩
  · obtain ⟨h', f', e1, e2, e3⟩ := mem_facePairs h
    rw [hc] at e2; cases e2
    exact Or.inr ⟨h', e1, Adjacent.symm e3⟩

/-- **C12** (exactness) Full claim: for every table the list of a triangle contains exactly itself and the triangles that
share an edge with it. Proved where no edge belongs to more than two triangles: each triangle is listed once and each
other triangle once per shared edge. `C12_third_neighbour_missing` shows that the claim fails otherwise. -/
theorem C12_face_table_exact_partial (srt : KeySort (Nat × Nat) Nat lexOrder.le) {t : List Tri}
    (ht : ∀ f ∈ t, Nondegenerate f) (hcf : Conforming t) {c : Nat} {f : Tri} (hc : t[c]? = some f) :
    ∃ rows, block (faceToFace srt t).1 (faceToFace srt t).2 c = some rows ∧ (rows.map Prod.snd).count c = 1 ∧
      (∀ g h, g ≠ c → t[g]? = some h →
        (rows.map Prod.snd).count g = sharedEdges f h ∧ (g ∈ rows.map Prod.snd ↔ Adjacent f h)) := by
  have hlt := (List.getElem?_eq_some_iff.1 hc).1
  obtain ⟨rows, h1, -⟩ := faceToFace_block srt t hlt
  have hns : faceNeighbours srt t c = some (rows.map Prod.snd) := by rw [faceNeighbours, h1]; rfl
  obtain ⟨h2, h3⟩ := faceNeighbours_count ht hcf hc hns
  refine ⟨rows, h1, h2, fun g h hg hh => ⟨h3 g h hg hh, ?_⟩⟩
  rw [adjacent_iff_shared (ht f (List.mem_of_getElem? hc)) (ht h (List.mem_of_getElem? hh)), ← h3 g h hg hh,
    List.count_pos_iff]

/-- **C12** counterexample: of three triangles on one edge the first and the last are not listed as neighbours. -/
theorem C12_third_neighbour_missing :
    ∃ (t : List Tri) (f h : Tri) (rows : List (Nat × Nat)), (∀ f ∈ t, Nondegenerate f) ∧ t[0]? = some f ∧ t[2]? = some h ∧
      Adjacent f h ∧
      block (faceToFace (stableSort Nat lexOrder) t).1 (faceToFace (stableSort Nat lexOrder) t).2 0 = some rows ∧
      2 ∉ rows.map Prod.snd :=
  ⟨[⟨0, 1, 2⟩, ⟨0, 1, 3⟩, ⟨0, 1, 4⟩], ⟨0, 1, 2⟩, ⟨0, 1, 4⟩, [(0, 0), (0, 1)], by decide, rfl, rfl,
    ⟨0, 1, by decide, by decide⟩, by decide +kernel, by decide⟩

example : (∀ f ∈ fanT, Nondegenerate f) ∧ Conforming fanT ∧ fanT[1]? = some ⟨1, 3, 2⟩ ∧
    block (faceToFace (stableSort Nat lexOrder) fanT).1 (faceToFace (stableSort Nat lexOrder) fanT).2 1 =
      some [(1, 0), (1, 1)] :=
  ⟨fanT_nondegenerate, fanT_conforming, rfl, by decide +kernel⟩

/-! ## C13 -/

/-- **C13** Full claim: for every vertex `ftov[ix[v]:ix[v+1]]` are exactly the triangles containing it. Proved for tables
that use all vertices `0 … n-1`; `C13_unused_vertex_shifts` shows the failure with an unused vertex. -/
theorem C13_vertex_table_exact_partial (srt : KeySort Nat Nat natOrder.le) {t : List Tri} {n : Nat}
    (hv : ∀ f ∈ t, ∀ v, HasVertex f v → v < n) (hu : ∀ v < n, ∃ f ∈ t, HasVertex f v) {v : Nat} (hvn : v < n) :
    ∃ l, block (vertexToFace srt t).1 (vertexToFace srt t).2 v = some l ∧
      (∀ k, k ∈ l ↔ ∃ f, t[k]? = some f ∧ HasVertex f v) ∧ ((∀ f ∈ t, Nondegenerate f) → l.Nodup) :=
  vertexToFace_block srt hv hu hvn

/-- **C13** counterexample: with vertex 0 unused the entry of vertex 1 lists the triangles of vertex 2, and the entry of
the last vertex raises an `IndexError`. -/
theorem C13_unused_vertex_shifts :
    ∃ (t : List Tri) (l : List Nat),
      block (vertexToFace (stableSort Nat natOrder) t).1 (vertexToFace (stableSort Nat natOrder) t).2 1 = some l ∧
      (∃ k ∈ l, ∃ f, t[k]? = some f ∧ ¬ HasVertex f 1) ∧ (∃ f ∈ t, HasVertex f 4) ∧
      block (vertexToFace (stableSort Nat natOrder) t).1 (vertexToFace (stableSort Nat natOrder) t).2 4 = none :=
  ⟨[⟨1, 2, 3⟩, ⟨2, 3, 4⟩], [0, 1], by decide +kernel, ⟨1, by decide, ⟨2, 3, 4⟩, rfl, by decide⟩,
    ⟨⟨2, 3, 4⟩, by decide, by decide⟩, by decide +kernel⟩

example : (∀ f ∈ fanT, ∀ v, HasVertex f v → v < 9) ∧ (∀ v < 9, ∃ f ∈ fanT, HasVertex f v) ∧
    block (vertexToFace (stableSort Nat natOrder) fanT).1 (vertexToFace (stableSort Nat natOrder) fanT).2 3 = some [1, 2] := by
  refine ⟨?_, by decide, by decide +kernel⟩
  intro f hf v hv
  simp only [fanT, List.mem_cons, List.not_mem_nil, or_false] at hf
  rcases hf with rfl | rfl | rfl | rfl <;> rcases hv with h | h | h <;> simp_all

/-! ## C14 -/

/-- **C14** The search terminates from every start triangle and flags exactly the triangles connected with it. -/
theorem C14_component_search_exact (srt : KeySort (Nat × Nat) Nat lexOrder.le) {t : List Tri} {start : Nat} {f : Tri}
    (hi : t[start]? = some f) :
    ∃ nflag, depthFirstSearch srt start t = some nflag ∧ nflag.length = t.length ∧
      ∀ (k : Nat) (g : Tri), t[k]? = some g → (nflag[k]? = some true ↔ Connected t f g) :=
  depthFirstSearch_spec srt hi

example : fanT[1]? = some ⟨1, 3, 2⟩ ∧
    depthFirstSearch (stableSort Nat lexOrder) 1 fanT = some [true, true, false, false] := by
  refine ⟨rfl, by decide +kernel⟩

/-! ## C15 -/

section
variable {K : Type} [Field K] [LinearOrder K] [IsStrictOrderedRing K]

open Classical in
/-- **C15** (1) `delete_exterior_faces` returns, in some order, exactly the triangles whose component has more than the
given fraction of the total area. -/
theorem C15_exterior_keeps_large_components (srt : KeySort (Nat × Nat) Nat lexOrder.le) {rand : Nat → Nat → Nat}
    (hrand : ∀ k n, 0 < n → rand k n < n) {p : List (K × K)} {t : List Tri} {A : Tri → K} (hA : IsAreaOf p t A)
    (hnn : ∀ f ∈ t, 0 ≤ A f) (hpos : 0 < (t.map A).sum) {thr : K} (hthr : 0 ≤ thr) :
    ∃ res, deleteExteriorFaces srt rand p t thr = some res ∧
      res.Perm (t.filter fun f => decide (thr * (t.map A).sum < componentArea A t f)) :=
  deleteExterior_spec srt hrand hA hnn hpos hthr

/-- **C15** (2) The result does not depend on the random numbers nor on how equal rows are sorted. -/
theorem C15_exterior_seed_independent (srt srt' : KeySort (Nat × Nat) Nat lexOrder.le) {rand rand' : Nat → Nat → Nat}
    (hrand : ∀ k n, 0 < n → rand k n < n) (hrand' : ∀ k n, 0 < n → rand' k n < n) {p : List (K × K)} {t : List Tri}
    {A : Tri → K} (hA : IsAreaOf p t A) (hnn : ∀ f ∈ t, 0 ≤ A f) (hpos : 0 < (t.map A).sum) {thr : K} (hthr : 0 ≤ thr) :
    ∃ res res', deleteExteriorFaces srt rand p t thr = some res ∧ deleteExteriorFaces srt' rand' p t thr = some res' ∧
      res.Perm res' := by
  obtain ⟨r, h1, h2⟩ := deleteExterior_spec srt hrand hA hnn hpos hthr
  obtain ⟨r', h1', h2'⟩ := deleteExterior_spec srt' hrand' hA hnn hpos hthr
  exact ⟨r, r', h1, h1', h2.trans h2'.symm⟩

end

/-- Coordinates for `fanT`: a unit square, a triangle attached at its corner, and a tiny triangle. -/
def fanP : List (ℚ × ℚ) := [(0, 0), (1, 0), (0, 1), (1, 1), (2, 1), (1, 2), (5, 5), (21 / 4, 5), (5, 21 / 4)]

def fanA : Tri → ℚ := fun f => if f = ⟨6, 7, 8⟩ then 1 / 32 else 1 / 2

example : (∀ k n : Nat, 0 < n → (fun _ m => m - 1) k n < n) ∧ IsAreaOf fanP fanT fanA ∧ (∀ f ∈ fanT, 0 ≤ fanA f) ∧
    0 < (fanT.map fanA).sum ∧
    deleteExteriorFaces (stableSort Nat lexOrder) (fun _ m => m - 1) fanP fanT (1 / 20) =
      some [⟨3, 4, 5⟩, ⟨0, 1, 2⟩, ⟨1, 3, 2⟩] ∧
    deleteExteriorFaces (stableSort Nat lexOrder) (fun _ _ => 0) fanP fanT (1 / 20) =
      some [⟨0, 1, 2⟩, ⟨1, 3, 2⟩, ⟨3, 4, 5⟩] := by
  refine ⟨fun k n h => ?_, ?_, by decide +kernel, by decide +kernel, by decide +kernel, by decide +kernel⟩
  · show n - 1 < n
    omega
  · intro f hf
    simp only [fanT, List.mem_cons, List.not_mem_nil, or_false] at hf
    rcases hf with rfl | rfl | rfl | rfl <;>
      exact ⟨_, _, _, rfl, by norm_num [signedArea, fanA]⟩

/-! ## C16 -/

section
variable {K : Type} [Field K] [LinearOrder K] [IsStrictOrderedRing K]

/-- **C16** On a mesh without unused vertices `delete_interior_faces` returns; it deletes rows `idx` and keeps the others
unchanged and in order. Every deleted row touches a vertex with more than two boundary edges; at every such vertex a row is
deleted, and it is a worst one among the rows at the vertex with all corners on the boundary (among all rows at the vertex
if there is none with all corners on the boundary). With no such vertex nothing is deleted. -/
theorem C16_delete_interior {α : Type} (oE : RowOrder (Nat × Nat)) (srtV : KeySort Nat Nat natOrder.le)
    (qual : Tri → Option K) {p : List α} {t : List Tri} (hv : ValidMesh p t)
    (hu : ∀ v < p.length, ∃ f ∈ t, HasVertex f v) (ht : ∀ f ∈ t, Nondegenerate f) :
    ∃ idx, deleteInteriorFaces oE srtV qual p t =
        some ((t.zipIdx.filter fun x => decide (x.2 ∉ idx)).map Prod.fst, idx) ∧
      (∀ c ∈ idx, ∃ f v, t[c]? = some f ∧ HasVertex f v ∧ 2 < boundaryDegree t v) ∧
      (∀ v, 2 < boundaryDegree t v → ∃ c ∈ idx, ∃ f, t[c]? = some f ∧ HasVertex f v ∧
        ((∃ g ∈ t, HasVertex g v ∧ AllOnBoundary t g) →
          WorstAmong qual t (fun k => ∃ g, t[k]? = some g ∧ HasVertex g v ∧ AllOnBoundary t g) c) ∧
        (¬ (∃ g ∈ t, HasVertex g v ∧ AllOnBoundary t g) →
          WorstAmong qual t (fun k => ∃ g, t[k]? = some g ∧ HasVertex g v) c)) ∧
      ((∀ v, boundaryDegree t v ≤ 2) → idx = [] ∧ deleteInteriorFaces oE srtV qual p t = some (t, [])) := by
  obtain ⟨idx, h1, h2⟩ := deleteInterior_spec oE srtV qual hv hu
  have hov : ∀ v, v ∈ overConnected (flatPairs (getBoundaryEdges oE t)) ↔ 2 < boundaryDegree t v := fun v => by
    rw [mem_overConnected, count_boundary oE ht]
  refine ⟨idx, by rw [h1, deleteRows_eq], ?_, ?_, ?_⟩
  · intro c hc
    obtain ⟨v, hvm, l, -, hl, -, hcl⟩ := forall₂_mem_right h2 c hc
    obtain ⟨f, hf, hfv⟩ := (hl c).1 hcl
    exact ⟨f, v, hf, hfv, (hov v).1 hvm⟩
  · intro v hvd
    obtain ⟨c, hc, l, -, hl, hpick, hcl⟩ := forall₂_mem_left h2 v ((hov v).2 hvd)
    obtain ⟨f, hf, hfv⟩ := (hl c).1 hcl
    refine ⟨c, hc, f, hf, hfv, ?_⟩
    obtain ⟨c', e1, -, e3, e4⟩ := pickFace_spec qual (flatPairs (getBoundaryEdges oE t)) (t := t)
      (List.ne_nil_of_mem hcl) (fun k hk => by
        obtain ⟨g, hg, -⟩ := (hl k).1 hk; exact (List.getElem?_eq_some_iff.1 hg).1)
    rw [hpick] at e1; cases e1
    have hon : ∀ (k : Nat) (g : Tri), t[k]? = some g →
        (onBoundary (flatPairs (getBoundaryEdges oE t)) t k = true ↔ AllOnBoundary t g) := by
      intro k g hg
      simp only [onBoundary, hg, Bool.and_eq_true, List.contains_iff_mem, mem_flat_boundary oE ht]
      constructor
      · rintro ⟨⟨ha, hb⟩, hc⟩ w (rfl | rfl | rfl)
        · exact ha
        · exact hb
        · exact hc
      · exact fun h => ⟨⟨h _ (Or.inl rfl), h _ (Or.inr (Or.inl rfl))⟩, h _ (Or.inr (Or.inr rfl))⟩
    constructor
    · rintro ⟨g, hg, hgv, hga⟩
      obtain ⟨k, hk⟩ := List.mem_iff_getElem?.1 hg
      have hS : ∀ j, j ∈ l.filter (onBoundary (flatPairs (getBoundaryEdges oE t)) t) ↔
          ∃ g, t[j]? = some g ∧ HasVertex g v ∧ AllOnBoundary t g := by
        intro j
        rw [List.mem_filter, hl]
        constructor
        · rintro ⟨⟨g, a, b⟩, c⟩; exact ⟨g, a, b, (hon j g a).1 c⟩
        · rintro ⟨g, a, b, c⟩; exact ⟨⟨g, a, b⟩, (hon j g a).2 c⟩
      rcases e4 ⟨k, (hl k).2 ⟨g, hk, hgv⟩, (hon k g hk).2 hga⟩ with ⟨w1, f', w2, w3⟩ | hsing
      · refine ⟨(hS c).1 w1, f', w2, ?_⟩
        intro q hq c' g' hc' hg'
        exact w3 q hq c' ((hS c').2 hc') g' hg'
      · have hcm : c ∈ l.filter (onBoundary (flatPairs (getBoundaryEdges oE t)) t) := by rw [hsing]; simp
        refine ⟨(hS c).1 hcm, f, hf, ?_⟩
        intro q hq c' g' hc' hg'
        have := (hS c').2 hc'
        rw [hsing, List.mem_singleton] at this
        subst this
        rw [hf] at hg'; cases hg'
        exact ⟨q, hq, le_refl _⟩
    · intro hno
      obtain ⟨w1, f', w2, w3⟩ := e3 (by
        intro k hk
        obtain ⟨g, hg, hgv⟩ := (hl k).1 hk
        rw [← Bool.not_eq_true, hon k g hg]
        exact fun h => hno ⟨g, List.mem_of_getElem? hg, hgv, h⟩)
      exact ⟨(hl c).1 w1, f', w2, fun q hq c' g' hc' hg' => w3 q hq c' ((hl c').2 hc') g' hg'⟩
  · intro hno
    have hnil : overConnected (flatPairs (getBoundaryEdges oE t)) = [] := by
      rw [List.eq_nil_iff_forall_not_mem]
      intro v hvm
      have := (hov v).1 hvm
      have := hno v
      omega
    rw [hnil, List.forall₂_nil_left_iff] at h2
    subst h2
    exact ⟨rfl, by rw [h1, deleteRows_nil]⟩

end

theorem validMesh_of_bound {α : Type} {p : List α} {t : List Tri}
    (h : ∀ f ∈ t, f.a < p.length ∧ f.b < p.length ∧ f.c < p.length) : ValidMesh p t := by
  intro f hf v hv
  obtain ⟨h1, h2, h3⟩ := h f hf
  rcases hv with rfl | rfl | rfl <;> assumption

example : ValidMesh fanP fanT ∧ (∀ v < fanP.length, ∃ f ∈ fanT, HasVertex f v) ∧ (∀ f ∈ fanT, Nondegenerate f) ∧
    boundaryDegree fanT 3 = 4 ∧
    deleteInteriorFaces lexOrder (stableSort Nat natOrder) (fun f => some (if f = ⟨3, 4, 5⟩ then (1 : ℚ) else 2)) fanP fanT =
      some ([⟨0, 1, 2⟩, ⟨1, 3, 2⟩, ⟨6, 7, 8⟩], [2]) :=
  ⟨validMesh_of_bound (by decide), by decide, fanT_nondegenerate, by decide, by decide +kernel⟩

/-! ## C17 -/

section
variable {K : Type} [Field K] [LinearOrder K] [IsStrictOrderedRing K]

/-- **C17** (1) The loop of `make_mesh_boundaries_traversable` stops for every mesh, every threshold and every sequence of
random numbers (`some none` = it raises an exception). -/
theorem C17_terminates (E : Engine K) (rand : Nat → Nat → Nat → Nat) (thr : K) (m : Mesh K) :
    ∃ r, makeTraversable E rand thr m = some r :=
  traversableLoop_total E rand thr _ 0 m (by omega)

/-- **C17** (2) If it returns a mesh in which no triangle is degenerate and no edge belongs to more than two triangles,
every vertex on a boundary edge lies on exactly two boundary edges. -/
theorem C17_boundary_traversable {E : Engine K} {rand : Nat → Nat → Nat → Nat} {thr : K} {m m' : Mesh K}
    (h : makeTraversable E rand thr m = some (some m')) (ht : ∀ f ∈ m'.t, Nondegenerate f) (hc : Conforming m'.t) :
    ∀ u v, IsBoundaryEdge m'.t u v → boundaryDegree m'.t v = 2 := by
  intro u v huv
  have hexit := traversableLoop_exit h
  have hpos : 0 < boundaryDegree m'.t v :=
    List.length_pos_of_mem (mem_boundaryNeighbours.2 (IsBoundaryEdge.symm' huv))
  rw [← count_boundary E.oE ht v]
  refine exactly_two hexit ?_ ((mem_flat_boundary E.oE ht v).2 hpos)
  intro w hw
  have hp := (mem_flat_boundary E.oE ht w).1 hw
  rw [count_boundary E.oE ht w]
  obtain ⟨k, hk⟩ := boundary_degree_even E.oE m'.t ht hc w
  rw [degree_eq_boundaryDegree E.oE ht] at hk
  omega

/-- **C17** (3) Triangles are only removed: the vertices of the result are vertices of the input, there are not more
triangles or vertices than before, and every triangle of the result is an input triangle with each corner moved by at
most the merging tolerance of `fix_mesh` times the number of `fix_mesh` calls. -/
theorem C17_only_removes {E : Engine K} (hr : IsRounding E.rnd) (hpt : 0 < E.ptol) {rand : Nat → Nat → Nat → Nat}
    {thr : K} {m m' : Mesh K} (hv : ValidMesh m.p m.t) {e : K} (he : IsExtent m.p e)
    (h : makeTraversable E rand thr m = some (some m')) :
    (∀ q ∈ m'.p, q ∈ m.p) ∧ m'.p.length ≤ m.p.length ∧ m'.t.length ≤ m.t.length ∧
      ∀ g ∈ m'.t, ∃ f ∈ m.t,
        CornersMatch (Within ((m.p.length + m.t.length : Nat) * (2 * (e * E.ptol)))) m.p f m'.p g := by
  have hd : 0 ≤ e * E.ptol := mul_nonneg (extent_nonneg he) hpt.le
  obtain ⟨n, hn, h1, h2, h3, h4, h5⟩ := traversableLoop_induct
    (P := fun n x => (∀ q ∈ x.p, q ∈ m.p) ∧ ValidMesh x.p x.t ∧ x.p.length ≤ m.p.length ∧ x.t.length ≤ m.t.length ∧
      ∀ g ∈ x.t, ∃ f ∈ m.t, CornersMatch (Within ((n : K) * (2 * (e * E.ptol)))) m.p f x.p g) (by
      rintro n k x x' ⟨a1, a2, a3, a4, a5⟩ hx
      obtain ⟨b1, b2, b3, -⟩ := traversablePass_progress hx
      obtain ⟨c1, c2⟩ := traversablePass_geometry hr hpt (e := e)
        (fun q hq q' hq' => he.2 q (a1 q hq) q' (a1 q' hq')) a2 hx
      refine ⟨fun q hq => a1 q (c1 q hq), b3, b1.trans a3, b2.trans a4, fun g hg => ?_⟩
      obtain ⟨f, hf, hfg⟩ := c2 g hg
      obtain ⟨f0, hf0, hff⟩ := a5 f hf
      refine ⟨f0, hf0, CornersMatch.trans ?_ hff hfg⟩
      rintro x y z hxy ⟨w, ⟨-, -, hyw⟩, -, -, hwz⟩
      have := Within.trans' hxy (Within.trans' hyw hwz)
      refine Within.mono (le_of_eq ?_) this
      push_cast; ring)
    (n := 0) (m := m) ⟨fun q hq => hq, hv, le_refl _, le_refl _, fun g hg => ⟨g, hg,
      CornersMatch.rfl' (fun x => by constructor <;> simp) (hv g hg)⟩⟩ h
  refine ⟨h1, h3, h4, fun g hg => ?_⟩
  obtain ⟨f, hf, hfg⟩ := h5 g hg
  refine ⟨f, hf, CornersMatch.imp (fun x y hxy => Within.mono ?_ hxy) hfg⟩
  have hn' : n ≤ m.p.length + m.t.length := by omega
  exact mul_le_mul_of_nonneg_right (Nat.cast_le.2 hn') (by linarith)

/-- **C17** (4) If the vertices are further apart than the merging tolerance, every triangle of the result has exactly the
corner points of an input triangle. -/
theorem C17_only_removes_exact {E : Engine K} (hr : IsRounding E.rnd) (hpt : 0 < E.ptol) {rand : Nat → Nat → Nat → Nat}
    {thr : K} {m m' : Mesh K} (hv : ValidMesh m.p m.t) {e : K} (he : IsExtent m.p e) (hs : Separated (e * E.ptol) m.p)
    (h : makeTraversable E rand thr m = some (some m')) :
    ∀ g ∈ m'.t, ∃ f ∈ m.t, CornersMatch (fun x x' => x = x') m.p f m'.p g := by
  obtain ⟨n, hn, h1, h2, h5⟩ := traversableLoop_induct
    (P := fun _ x => (∀ q ∈ x.p, q ∈ m.p) ∧ ValidMesh x.p x.t ∧
      ∀ g ∈ x.t, ∃ f ∈ m.t, CornersMatch (fun a b => a = b) m.p f x.p g) (by
      rintro n k x x' ⟨a1, a2, a5⟩ hx
      obtain ⟨b1, b2, b3, -⟩ := traversablePass_progress hx
      obtain ⟨c1, c2⟩ := traversablePass_geometry hr hpt (e := e)
        (fun q hq q' hq' => he.2 q (a1 q hq) q' (a1 q' hq')) a2 hx
      refine ⟨fun q hq => a1 q (c1 q hq), b3, fun g hg => ?_⟩
      obtain ⟨f, hf, hfg⟩ := c2 g hg
      obtain ⟨f0, hf0, hff⟩ := a5 f hf
      refine ⟨f0, hf0, CornersMatch.trans ?_ hff hfg⟩
      rintro x y z rfl ⟨w, ⟨w1, w2, hyw⟩, w3, w4, hwz⟩
      exact (hs x (a1 _ w1) w (a1 _ w2) hyw).trans (hs w (a1 _ w3) z (a1 _ w4) hwz))
    (n := 0) (m := m) ⟨fun q hq => hq, hv, fun g hg => ⟨g, hg, CornersMatch.rfl' (fun x => rfl) (hv g hg)⟩⟩ h
  exact h5

/-- **C17** (5) A mesh without a vertex on more than two boundary edges is returned unchanged. -/
theorem C17_traversable_unchanged (E : Engine K) (rand : Nat → Nat → Nat → Nat) (thr : K) {m : Mesh K}
    (hv : ValidMesh m.p m.t) (ht : ∀ f ∈ m.t, Nondegenerate f) (h2 : ∀ v, boundaryDegree m.t v ≤ 2) :
    makeTraversable E rand thr m = some (some m) := by
  have hov : overConnected (flatPairs (getBoundaryEdges E.oE m.t)) = [] := by
    rw [List.eq_nil_iff_forall_not_mem]
    intro v hvm
    rw [mem_overConnected, count_boundary E.oE ht] at hvm
    have := h2 v; omega
  obtain ⟨bv, e1, e2⟩ := externalTopology_isSome E.oE hv
  have := edges_le_vertices hov
  rw [makeTraversable, traversableLoop, e1]
  dsimp only
  rw [if_neg (by omega)]

/-- **C17** (6) When the loop is entered with a threshold of one (documented as the largest one), an exception is raised:
no component is larger than the whole mesh, and `fix_mesh` does not accept the empty result. -/
theorem C17_threshold_one_raises (E : Engine K) {rand : Nat → Nat → Nat → Nat} (hrand : ∀ i k n, 0 < n → rand i k n < n)
    {thr : K} (hthr : 1 ≤ thr) {m : Mesh K} {A : Tri → K} (hA : IsAreaOf m.p m.t A) (hnn : ∀ f ∈ m.t, 0 ≤ A f)
    (hpos : 0 < (m.t.map A).sum) {be : List (Nat × Nat)} {bv : List (K × K)}
    (hex : externalTopology E.oE m.p m.t = some (be, bv)) (hlt : bv.length < be.length) :
    makeTraversable E rand thr m = some none := by
  obtain ⟨res, h1, h2⟩ := deleteExterior_spec E.srtE (hrand 0) hA hnn hpos (zero_le_one.trans hthr)
  have hnil : res = [] := by
    rw [List.filter_eq_nil_iff.2] at h2
    · exact List.perm_nil.1 h2
    · intro f hf hlt
      have hlt := of_decide_eq_true hlt
      have h3 := componentArea_le hnn f
      have h4 : (m.t.map A).sum ≤ thr * (m.t.map A).sum := le_mul_of_one_le_left hpos.le hthr
      exact absurd hlt (not_lt.2 (h3.trans h4))
  rw [makeTraversable, traversableLoop, hex]
  dsimp only
  rw [if_pos hlt, traversablePass, h1]
  subst hnil
  rfl

end

/-- An engine for the examples: lexicographic orders, stable sorts, rounding half up; the area as quality. -/
def engineQ : Engine ℚ where
  oE := lexOrder
  oP := ptOrder
  oT := triOrder
  srtE := stableSort Nat lexOrder
  srtV := stableSort Nat natOrder
  rnd := rndQ
  ptol := 1 / 1000
  qual := faceVol

/-- The square with the triangle attached at a corner; the tiny triangle is deleted as too small, and one triangle at the
corner with four boundary edges goes as well. -/
def fanM : Mesh ℚ := ⟨fanP, fanT⟩

theorem fanP_extent : IsExtent fanP (21 / 4) := by
  refine ⟨⟨(21 / 4, 5), by simp [fanP], (0, 0), by simp [fanP], Or.inl (by norm_num)⟩, ?_⟩
  intro q hq q' hq'
  have : ∀ x ∈ fanP, 0 ≤ x.1 ∧ x.1 ≤ 21 / 4 ∧ 0 ≤ x.2 ∧ x.2 ≤ 21 / 4 := by decide +kernel
  have a := this q hq
  have b := this q' hq'
  constructor <;> rw [abs_le] <;> constructor <;> linarith [a.1, a.2.1, a.2.2.1, a.2.2.2, b.1, b.2.1, b.2.2.1, b.2.2.2]

theorem fanP_separated : Separated (21 / 4 * (1 / 1000)) fanP := by
  have : ∀ q ∈ fanP, ∀ q' ∈ fanP, |q.1 - q'.1| ≤ 21 / 4 * (1 / 1000) ∧ |q.2 - q'.2| ≤ 21 / 4 * (1 / 1000) → q = q' := by
    decide +kernel
  exact this

example : IsRounding engineQ.rnd ∧ 0 < engineQ.ptol ∧ ValidMesh fanM.p fanM.t ∧ IsExtent fanM.p (21 / 4) ∧
    Separated (21 / 4 * engineQ.ptol) fanM.p ∧
    makeTraversable engineQ (fun _ _ _ => 0) (1 / 20) fanM =
      some (some ⟨[(0, 0), (0, 1), (1, 0), (1, 1), (1, 2), (2, 1)], [⟨1, 0, 2⟩, ⟨4, 3, 5⟩]⟩) ∧
    makeTraversable engineQ (fun _ _ _ => 0) 1 fanM = some none :=
  ⟨rndQ_isRounding, by norm_num [engineQ], validMesh_of_bound (by decide), fanP_extent, fanP_separated,
    by decide +kernel, by decide +kernel⟩

example : (∀ f ∈ ([⟨1, 0, 2⟩, ⟨4, 3, 5⟩] : List Tri), Nondegenerate f) ∧ Conforming [⟨1, 0, 2⟩, ⟨4, 3, 5⟩] ∧
    IsBoundaryEdge [⟨1, 0, 2⟩, ⟨4, 3, 5⟩] 0 1 ∧ boundaryDegree [⟨1, 0, 2⟩, ⟨4, 3, 5⟩] 1 = 2 :=
  ⟨by decide, conforming_of_bound 6 (by decide) (by decide), by decide, by decide⟩

example : (externalTopology engineQ.oE fanM.p fanM.t).map (fun x => (x.1.length, x.2.length)) = some (10, 9) := by
  decide +kernel

/-- The unit square in two triangles. -/
def squareM : Mesh ℚ := ⟨[(0, 0), (0, 1), (1, 0), (1, 1)], [⟨1, 0, 2⟩, ⟨1, 2, 3⟩]⟩

theorem boundaryDegree_le_of_bound {t : List Tri} (n : Nat) (hv : ∀ f ∈ t, f.a < n ∧ f.b < n ∧ f.c < n)
    (h : ∀ v < n, boundaryDegree t v ≤ 2) : ∀ v, boundaryDegree t v ≤ 2 := by
  intro v
  by_cases hvn : v < n
  · exact h v hvn
  · by_contra hlt
    have hpos : 0 < boundaryDegree t v := by omega
    obtain ⟨u, hu⟩ := List.exists_mem_of_length_pos hpos
    obtain ⟨-, f, hf, he⟩ := IsBoundaryEdge.exists (mem_boundaryNeighbours.1 hu)
    obtain ⟨h1, h2, h3⟩ := hv f hf
    rcases he.1 with h | h | h <;> omega

example : ValidMesh squareM.p squareM.t ∧ (∀ f ∈ squareM.t, Nondegenerate f) ∧ ∀ v, boundaryDegree squareM.t v ≤ 2 :=
  ⟨validMesh_of_bound (by decide), by decide, boundaryDegree_le_of_bound 4 (by decide) (by decide)⟩

/-! ## C18 -/

section
variable {K : Type} [Field K] [LinearOrder K] [IsStrictOrderedRing K]

/-- **C18** (1) `delete_faces_connected_to_one_face` stops for every mesh and every limit; a limit of zero is rejected. -/
theorem C18_terminates (E : Engine K) (maxIter : Option Nat) (m : Mesh K) :
    (∃ r, deleteOneFace E maxIter m = some r) ∧ deleteOneFace E (some 0) m = some none := by
  refine ⟨?_, by simp [deleteOneFace]⟩
  rw [deleteOneFace]
  split
  · exact ⟨_, rfl⟩
  · exact oneFaceLoop_total E _ _ _ (by omega)

/-- **C18** (2) Full claim: with unlimited iterations no triangle of the result is connected to exactly one other
triangle. Here for results without degenerate triangles where each edge has at most two triangles (edges with more are
treated in `C18_no_single_neighbour`); `hd` holds whenever something was deleted, because `fix_mesh` removes repeated triangles. -/
theorem C18_no_single_neighbour_partial {E : Engine K} {m m' : Mesh K} (h : deleteOneFace E none m = some (some m'))
    (ht : ∀ f ∈ m'.t, Nondegenerate f) (hc : Conforming m'.t) (hd : m'.t.Pairwise fun f g => ¬ SameVertices f g) :
    ∀ c, ¬ HasOneNeighbour m'.t c := by
  intro c hone
  rw [deleteOneFace, if_neg (by simp)] at h
  have hnil := oneFaceLoop_exit h
  have hcl : c < m'.t.length := by
    obtain ⟨f, -, -, hf, -⟩ := hone
    exact (List.getElem?_eq_some_iff.1 hf).1
  have := (mem_blocksOfTwo_faces E.srtE m'.t c).2 ⟨hcl, (block_two_iff ht hc hd hcl).2 hone⟩
  rw [hnil] at this
  simp at this

/-- **C18** (3) A mesh without such a triangle is returned unchanged, for every limit other than zero. -/
theorem C18_unchanged (E : Engine K) {maxIter : Option Nat} (hi : maxIter ≠ some 0) {m : Mesh K}
    (ht : ∀ f ∈ m.t, Nondegenerate f) (hc : Conforming m.t) (hd : m.t.Pairwise fun f g => ¬ SameVertices f g)
    (h : ∀ c, ¬ HasOneNeighbour m.t c) : deleteOneFace E maxIter m = some (some m) := by
  rw [deleteOneFace, if_neg hi, oneFaceLoop, if_neg hi]
  have hnil : blocksOfTwo 0 (faceToFace E.srtE m.t).2 = [] := by
    rw [List.eq_nil_iff_forall_not_mem]
    intro c hcm
    obtain ⟨hcl, hb⟩ := (mem_blocksOfTwo_faces E.srtE m.t c).1 hcm
    exact h c ((block_two_iff ht hc hd hcl).1 hb)
  rw [hnil]

/-- **C18** (4) A single pass deletes exactly the triangles connected to exactly one other triangle and leaves the rest to
`fix_mesh`. -/
theorem C18_single_pass (E : Engine K) {m : Mesh K} (ht : ∀ f ∈ m.t, Nondegenerate f) (hc : Conforming m.t)
    (hd : m.t.Pairwise fun f g => ¬ SameVertices f g) (hone : ∃ c, HasOneNeighbour m.t c) :
    ∃ idx : List Nat, (∀ c, c ∈ idx ↔ HasOneNeighbour m.t c) ∧ deleteOneFace E (some 1) m =
      some (refix E m.p ((m.t.zipIdx.filter fun x => decide (x.2 ∉ idx)).map Prod.fst)) := by
  have hmem : ∀ c, c ∈ blocksOfTwo 0 (faceToFace E.srtE m.t).2 ↔ HasOneNeighbour m.t c := by
    intro c
    rw [mem_blocksOfTwo_faces]
    constructor
    · rintro ⟨hcl, hb⟩; exact (block_two_iff ht hc hd hcl).1 hb
    · intro hn
      have hcl : c < m.t.length := by
        obtain ⟨f, -, -, hf, -⟩ := hn
        exact (List.getElem?_eq_some_iff.1 hf).1
      exact ⟨hcl, (block_two_iff ht hc hd hcl).2 hn⟩
  refine ⟨_, hmem, ?_⟩
  obtain ⟨c, hcn⟩ := hone
  have hcm := (hmem c).2 hcn
  have hpos : 0 < m.t.length := by
    have := ((mem_blocksOfTwo_faces E.srtE m.t c).1 hcm).1
    omega
  rw [deleteOneFace, if_neg (by simp), oneFaceLoop, if_neg (by simp), ← deleteRows_eq]
  obtain ⟨n, hn⟩ : ∃ n, m.t.length = n + 1 := ⟨m.t.length - 1, by omega⟩
  split
  · rename_i hb; rw [hb] at hcm; simp at hcm
  · rename_i d ds hb
    rw [hb]
    cases hr : refix E m.p (deleteRows (d :: ds) m.t) with
    | none => rfl
    | some m' =>
      dsimp only
      rw [hn, oneFaceLoop, if_pos (by rfl)]

end

/-- Two triangles attached to each other and a third at the end of the chain. -/
def chainM : Mesh ℚ := ⟨[(0, 0), (1, 0), (0, 1), (1, 1), (2, 1), (1, 2)], [⟨0, 1, 2⟩, ⟨1, 3, 2⟩, ⟨2, 3, 5⟩]⟩

example : (∀ f ∈ chainM.t, Nondegenerate f) ∧ Conforming chainM.t ∧
    (chainM.t.Pairwise fun f g => ¬ SameVertices f g) ∧ HasOneNeighbour chainM.t 0 ∧
    deleteOneFace engineQ (some 1) chainM = some (some ⟨[(0, 1), (1, 0), (1, 1)], [⟨0, 1, 2⟩]⟩) ∧
    deleteOneFace engineQ none chainM = some (some ⟨[(0, 1), (1, 0), (1, 1)], [⟨0, 1, 2⟩]⟩) := by
  refine ⟨by decide, conforming_of_bound 6 (by decide) (by decide), ?_, ?_, by decide +kernel, by decide +kernel⟩
  · unfold SameVertices; decide
  · refine ⟨⟨0, 1, 2⟩, 1, ⟨1, 3, 2⟩, rfl, by decide, rfl, ⟨1, 2, by decide, by decide⟩, ?_⟩
    intro g' h' hne hg' ha
    match g', hne with
    | 1, _ => rfl
    | 2, _ =>
      exfalso
      cases hg'
      have : ¬ (0 < sharedEdges ⟨0, 1, 2⟩ ⟨2, 3, 5⟩) := by decide
      exact this ((adjacent_iff_shared (by decide) (by decide)).1 ha)
    | n + 3, _ => simp [chainM] at hg'

/-- **C18** counterexample to "removes dangling triangles only": a mesh of two triangles is deleted completely, as each is
connected to exactly one other. -/
theorem C18_two_triangles_erased :
    ∃ m : Mesh ℚ, m.t.length = 2 ∧ (∀ v, boundaryDegree m.t v ≤ 2) ∧ deleteOneFace engineQ none m = some (some ⟨[], []⟩) :=
  ⟨squareM, rfl, boundaryDegree_le_of_bound 4 (by decide) (by decide), by decide +kernel⟩

/-- Three triangles on one edge. -/
def bookM : Mesh ℚ := ⟨[(0, 0), (1, 0), (0, 1), (1, 1), (1, 2)], [⟨0, 1, 2⟩, ⟨0, 1, 3⟩, ⟨0, 1, 4⟩]⟩

/-- **C18** counterexample to "a mesh without singly connected triangles is returned unchanged": each of three triangles on one edge is
connected to the two others, but two of them are deleted, because the face table links only consecutive ones (C12). -/
theorem C18_three_on_edge_deleted :
    ∃ m : Mesh ℚ, (∀ f ∈ m.t, Nondegenerate f) ∧ (m.t.Pairwise fun f g => ¬ SameVertices f g) ∧
      (∀ c, ¬ HasOneNeighbour m.t c) ∧ m.t.length = 3 ∧ ∃ m', deleteOneFace engineQ none m = some (some m') ∧ m'.t.length = 1 := by
  refine ⟨bookM, by decide, by unfold SameVertices; decide, ?_, rfl, ⟨[(0, 0), (1, 0), (1, 1)], [⟨0, 1, 2⟩]⟩,
    by decide +kernel, rfl⟩
  have all : ∀ f ∈ bookM.t, ∀ g ∈ bookM.t, Adjacent f g := by
    intro f hf g hg
    refine ⟨0, 1, ?_, ?_⟩
    · revert f; decide
    · revert g; decide
  rintro c ⟨f, g, h, hf, hne, hg, -, hall⟩
  have hfm := List.mem_of_getElem? hf
  have key : ∀ g' : Nat, g' ≠ c → g' < 3 → g' = g := by
    intro g' h1 h2
    obtain ⟨x, hx⟩ : ∃ x, bookM.t[g']? = some x := ⟨bookM.t[g'], List.getElem?_eq_getElem h2⟩
    exact hall g' x h1 hx (all f hfm x (List.mem_of_getElem? hx))
  have hc : c < 3 := (List.getElem?_eq_some_iff.1 hf).1
  have h0 := key 0
  have h1 := key 1
  have h2 := key 2
  omega

example : (∀ f ∈ fanM.t.drop 2, Nondegenerate f) ∧ Conforming (fanM.t.drop 2) ∧
    ((fanM.t.drop 2).Pairwise fun f g => ¬ SameVertices f g) ∧ (∀ c, ¬ HasOneNeighbour (fanM.t.drop 2) c) := by
  refine ⟨by decide, conforming_of_bound 9 (by decide) (by decide), by unfold SameVertices; decide, ?_⟩
  have key : ¬ Adjacent ⟨3, 4, 5⟩ ⟨6, 7, 8⟩ := fun ha => by
    have : ¬ (0 < sharedEdges ⟨3, 4, 5⟩ ⟨6, 7, 8⟩) := by decide
    exact this ((adjacent_iff_shared (by decide) (by decide)).1 ha)
  rintro c ⟨f, g, h, hf, hne, hg, ha, -⟩
  match c, g with
  | 0, 0 => exact hne rfl
  | 1, 1 => exact hne rfl
  | 0, 1 => cases hf; cases hg; exact key ha
  | 1, 0 => cases hf; cases hg; exact key (Adjacent.symm ha)
  | _, n + 2 => simp [fanM, fanT] at hg
  | n + 2, _ => simp [fanM, fanT] at hf

/-! ## C19 -/

section
variable {K : Type} [Field K] [LinearOrder K] [IsStrictOrderedRing K]

/-- **C19** On a mesh without unused vertices and without degenerate triangles `delete_boundary_faces` returns. Every
triangle of the result is, up to the merging tolerance of `fix_mesh`, an input triangle that does not both touch the
boundary and have a quality below the limit; and every such input triangle is in the result. -/
theorem C19_delete_boundary_faces {E : Engine K} (hr : IsRounding E.rnd) (hpt : 0 < E.ptol) (minQual : K) {m : Mesh K}
    (hv : ValidMesh m.p m.t) (hp : m.p ≠ []) (hu : ∀ v < m.p.length, ∃ f ∈ m.t, HasVertex f v)
    (ht : ∀ f ∈ m.t, Nondegenerate f) {e : K} (he : IsExtent m.p e) :
    ∃ m', deleteBoundaryFaces E minQual m = some m' ∧
      (∀ g ∈ m'.t, ∃ f ∈ m.t, ¬ (TouchesBoundary m.t f ∧ ∃ q, E.qual m.p f = some q ∧ q < minQual) ∧
        CornersMatch (Within (e * E.ptol)) m.p f m'.p g) ∧
      (∀ f ∈ m.t, ¬ (TouchesBoundary m.t f ∧ ∃ q, E.qual m.p f = some q ∧ q < minQual) → ∃ g ∈ m'.t,
        CornersMatch (Within (e * E.ptol)) m.p f m'.p g) ∧
      (Separated (e * E.ptol) m.p → ∀ g ∈ m'.t, ∃ f ∈ m.t,
        ¬ (TouchesBoundary m.t f ∧ ∃ q, E.qual m.p f = some q ∧ q < minQual) ∧
        CornersMatch (fun x x' => x = x') m.p f m'.p g) := by
  obtain ⟨t', h1, h2⟩ := deleteBoundaryRows_spec E.oE E.srtV (E.qual m.p) minQual hv hu
  have hmem : ∀ f, f ∈ t' ↔ f ∈ m.t ∧ ¬ (TouchesBoundary m.t f ∧ ∃ q, E.qual m.p f = some q ∧ q < minQual) := by
    intro f
    rw [h2, List.mem_filter]
    apply and_congr_right
    intro _
    rw [Bool.not_eq_true', ← Bool.not_eq_true]
    apply not_congr
    simp only [Bool.and_eq_true, Bool.or_eq_true, List.contains_iff_mem, mem_flat_boundary E.oE ht]
    rw [and_comm]
    apply and_congr
    · constructor
      · rintro ((h | h) | h)
        · exact ⟨_, Or.inl rfl, h⟩
        · exact ⟨_, Or.inr (Or.inl rfl), h⟩
        · exact ⟨_, Or.inr (Or.inr rfl), h⟩
      · rintro ⟨v, rfl | rfl | rfl, h⟩
        · exact Or.inl (Or.inl h)
        · exact Or.inl (Or.inr h)
        · exact Or.inr h
    · cases E.qual m.p f with
      | none => simp [belowQual]
      | some q => simp [belowQual]
  have hv' : ValidMesh m.p t' := fun f hf => hv f ((hmem f).1 hf).1
  obtain ⟨R, hR⟩ := fixMesh_isSome E.rnd E.oP E.oT E.ptol true hp hv'
  have hm' : refix E m.p t' = some ⟨R.p, R.t⟩ := by rw [refix, hR]; rfl
  obtain ⟨g1, g2⟩ := refix_geometry hr hpt he.2 hv' hm'
  refine ⟨⟨R.p, R.t⟩, ?_, ?_, ?_, ?_⟩
  · rw [deleteBoundaryFaces, h1, Option.bind_eq_bind, Option.bind_some, hm']
  · intro g hg
    obtain ⟨f, hf, hc⟩ := g1 g hg
    exact ⟨f, ((hmem f).1 hf).1, ((hmem f).1 hf).2, CornersMatch.imp (fun x y h => h.2.2) hc⟩
  · intro f hf hbad
    obtain ⟨g, hg, hc⟩ := g2 f ((hmem f).2 ⟨hf, hbad⟩)
    exact ⟨g, hg, CornersMatch.imp (fun x y h => h.2.2) hc⟩
  · intro hs g hg
    obtain ⟨f, hf, hc⟩ := g1 g hg
    exact ⟨f, ((hmem f).1 hf).1, ((hmem f).1 hf).2, CornersMatch.imp (fun x y h => hs x h.1 y h.2.1 h.2.2) hc⟩

end

example : IsRounding engineQ.rnd ∧ 0 < engineQ.ptol ∧ ValidMesh fanM.p fanM.t ∧ fanM.p ≠ [] ∧
    (∀ v < fanM.p.length, ∃ f ∈ fanM.t, HasVertex f v) ∧ (∀ f ∈ fanM.t, Nondegenerate f) ∧ IsExtent fanM.p (21 / 4) ∧
    Separated (21 / 4 * engineQ.ptol) fanM.p ∧
    deleteBoundaryFaces engineQ (1 / 10) fanM =
      some ⟨[(0, 0), (0, 1), (1, 0), (1, 1), (1, 2), (2, 1)], [⟨1, 0, 2⟩, ⟨1, 2, 3⟩, ⟨4, 3, 5⟩]⟩ :=
  ⟨rndQ_isRounding, by norm_num [engineQ], validMesh_of_bound (by decide), by simp [fanM, fanP], by decide,
    fanT_nondegenerate, fanP_extent, fanP_separated, by decide +kernel⟩

end OM
