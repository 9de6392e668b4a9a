import Verif.Lemmas.CleanFl2
import Verif.Props.Smooth
import Verif.Props.SmoothFl
import Verif.Props.FixMeshFl
/-!
# C130: the cleaning passes and `mesh_clean` in rounded arithmetic (`oceanmesh/clean.py`)
-/
set_option linter.unusedSectionVars false
namespace OM
open Spec

section
variable {K : Type} [Field K] [LinearOrder K] [IsStrictOrderedRing K]

/-! ## Termination -/

/-- **C130** (1) The two loops and `mesh_clean` stop for every mesh, all parameters, every rounding rule and every way of adding up the areas
(`some none` = an exception). -/
theorem C130_terminates (E : EngineFl K) (len : K × K → K × K → K) (nodes : List (K × K) → Option (List Nat))
    (rand rand' : Nat → Nat → Nat → Nat) (a : CleanParams K) (maxIter : Option Nat) (m : Mesh K) :
    (∃ r, makeTraversableFl E rand a.minArea m = some r) ∧ (∃ r, deleteOneFaceFl E maxIter m = some r) ∧
      ∃ r, meshCleanFl E len nodes rand rand' a m = some r := by
  have t1 : ∀ (rand : Nat → Nat → Nat → Nat) (m : Mesh K), ∃ r, makeTraversableFl E rand a.minArea m = some r := fun rand m =>
    traversableLoopFl_total E rand a.minArea _ 0 m (by omega)
  have t2 : ∀ (maxIter : Option Nat) (m : Mesh K), ∃ r, deleteOneFaceFl E maxIter m = some r := by
    intro maxIter m
    rw [deleteOneFaceFl]
    split
    · exact ⟨_, rfl⟩
    · exact oneFaceLoopFl_total E _ _ _ (by omega)
  refine ⟨t1 rand m, t2 maxIter m, ?_⟩
  unfold meshCleanFl
  obtain ⟨r1, h1⟩ := t1 rand m
  rw [h1]
  cases r1 with
  | none => exact ⟨_, rfl⟩
  | some m1 =>
    dsimp only
    cases deleteBoundaryFacesFl E a.minQual m1 with
    | none => exact ⟨_, rfl⟩
    | some m2 =>
      dsimp only
      obtain ⟨r3, h3⟩ := t2 none m2
      rw [h3]
      cases r3 with
      | none => exact ⟨_, rfl⟩
      | some m3 =>
        dsimp only
        cases nodes m3.p with
        | none => exact ⟨_, rfl⟩
        | some ifix =>
          dsimp only
          cases laplacian2Fl E.fl len E.oE a.maxIter a.tol ifix m3 with
          | none => exact ⟨_, rfl⟩
          | some m4 =>
            dsimp only
            obtain ⟨r5, h5⟩ := t1 rand' m4
            rw [h5]
            cases r5 with
            | none => exact ⟨_, rfl⟩
            | some m5 => exact ⟨_, rfl⟩

/-! ## `make_mesh_boundaries_traversable` -/

/-- **C130** (2) If `make_mesh_boundaries_traversable` returns a mesh in which no triangle is degenerate and no edge belongs to more than two
triangles, every vertex on a boundary edge lies on exactly two boundary edges, for every rounding rule. -/
theorem C130_traversable {E : EngineFl K} {rand : Nat → Nat → Nat → Nat} {thr : K} {m m' : Mesh K}
    (h : makeTraversableFl E rand thr m = some (some m')) (ht : ∀ f ∈ m'.t, Nondegenerate f) (hc : Conforming m'.t) :
    ∀ u v, IsBoundaryEdge m'.t u v → boundaryDegree m'.t v = 2 := by
  intro u v huv
  have hexit := traversableLoopFl_exit h
  have hpos : 0 < boundaryDegree m'.t v :=
    List.length_pos_of_mem (mem_boundaryNeighbours.2 (IsBoundaryEdge.symm' huv))
  rw [← count_boundary E.oE ht v]
  refine exactly_two hexit ?_ ((mem_flat_boundary E.oE ht v).2 hpos)
  intro w hw
  have hp := (mem_flat_boundary E.oE ht w).1 hw
  rw [count_boundary E.oE ht w]
  obtain ⟨k, hk⟩ := boundary_degree_even E.oE m'.t ht hc w
  rw [degree_eq_boundaryDegree E.oE ht] at hk
  omega

/-- **C130** (3) Full claim: triangles are only removed. Proved: the vertices of the result are vertices of the input, nothing grows, and
every triangle of the result is an input triangle with each corner moved by at most the distance within which `fix_mesh` merges points
(tolerance times extent, and rounding errors of the coordinates) times the number of `fix_mesh` calls. -/
theorem C130_only_removes_partial {E : EngineFl K} {u M : K} (hR : Rounding E.fl) (hrel : RelError E.fl u) (h0 : 0 ≤ u) (hu : u ≤ 1 / 2)
    (hr : IsRounding E.rnd) (hpt : 0 < E.ptol) {rand : Nat → Nat → Nat → Nat}
    {thr : K} {m m' : Mesh K} (hv : ValidMesh m.p m.t) {e : K} (he : IsExtent m.p e) (hM : ∀ q ∈ m.p, |q.1| ≤ M ∧ |q.2| ≤ M)
    (h : makeTraversableFl E rand thr m = some (some m')) :
    (∀ q ∈ m'.p, q ∈ m.p) ∧ m'.p.length ≤ m.p.length ∧ m'.t.length ≤ m.t.length ∧
      ∀ g ∈ m'.t, ∃ f ∈ m.t,
        CornersMatch (Within ((m.p.length + m.t.length : Nat) * (2 * ((1 + u) ^ 3 * (e * E.ptol) + 5 * u * M)))) m.p f m'.p g := by
  have hM0 : 0 ≤ M := by
    obtain ⟨⟨q, hq, -⟩, -⟩ := he
    exact (abs_nonneg _).trans (hM q hq).1
  have hd : 0 ≤ mergeStep E.ptol u e M := by
    have := mul_nonneg (extent_nonneg he) hpt.le
    unfold mergeStep; positivity
  obtain ⟨n, hn, h1, h2, h3, h4, h5⟩ := traversableLoopFl_induct
    (P := fun n x => (∀ q ∈ x.p, q ∈ m.p) ∧ ValidMesh x.p x.t ∧ x.p.length ≤ m.p.length ∧ x.t.length ≤ m.t.length ∧
      ∀ g ∈ x.t, ∃ f ∈ m.t, CornersMatch (Within ((n : K) * (2 * mergeStep E.ptol u e M))) m.p f x.p g) (by
      rintro n k x x' ⟨a1, a2, a3, a4, a5⟩ hx
      obtain ⟨b1, b2, b3, -⟩ := traversablePassFl_progress hx
      obtain ⟨c1, c2⟩ := traversablePassFl_geometry hR hrel h0 hu hr hpt (e := e)
        (fun q hq q' hq' => he.2 q (a1 q hq) q' (a1 q' hq')) (fun q hq => hM q (a1 q hq)) a2 hx
      refine ⟨fun q hq => a1 q (c1 q hq), b3, b1.trans a3, b2.trans a4, fun g hg => ?_⟩
      obtain ⟨f, hf, hfg⟩ := c2 g hg
      obtain ⟨f0, hf0, hff⟩ := a5 f hf
      refine ⟨f0, hf0, CornersMatch.trans ?_ hff hfg⟩
      rintro x y z hxy ⟨w, ⟨-, -, hyw⟩, -, -, hwz⟩
      have := Within.trans' hxy (Within.trans' hyw hwz)
      refine Within.mono (le_of_eq ?_) this
      push_cast; ring)
    (n := 0) (m := m) ⟨fun q hq => hq, hv, le_refl _, le_refl _, fun g hg => ⟨g, hg,
      CornersMatch.rfl' (fun x => by constructor <;> simp) (hv g hg)⟩⟩ h
  refine ⟨h1, h3, h4, fun g hg => ?_⟩
  obtain ⟨f, hf, hfg⟩ := h5 g hg
  refine ⟨f, hf, CornersMatch.imp (fun x y hxy => Within.mono ?_ hxy) hfg⟩
  have hn' : n ≤ m.p.length + m.t.length := by omega
  exact mul_le_mul_of_nonneg_right (Nat.cast_le.2 hn') (by linarith)

/-- **C130** (4) If the vertices are further apart than that distance, every triangle of the result has exactly the corner points of an input
triangle. -/
theorem C130_only_removes_exact {E : EngineFl K} {u M : K} (hR : Rounding E.fl) (hrel : RelError E.fl u) (h0 : 0 ≤ u) (hu : u ≤ 1 / 2)
    (hr : IsRounding E.rnd) (hpt : 0 < E.ptol) {rand : Nat → Nat → Nat → Nat}
    {thr : K} {m m' : Mesh K} (hv : ValidMesh m.p m.t) {e : K} (he : IsExtent m.p e) (hM : ∀ q ∈ m.p, |q.1| ≤ M ∧ |q.2| ≤ M)
    (hs : Separated ((1 + u) ^ 3 * (e * E.ptol) + 5 * u * M) m.p) (h : makeTraversableFl E rand thr m = some (some m')) :
    ∀ g ∈ m'.t, ∃ f ∈ m.t, CornersMatch (fun x x' => x = x') m.p f m'.p g := by
  obtain ⟨n, hn, h1, h2, h5⟩ := traversableLoopFl_induct
    (P := fun _ x => (∀ q ∈ x.p, q ∈ m.p) ∧ ValidMesh x.p x.t ∧
      ∀ g ∈ x.t, ∃ f ∈ m.t, CornersMatch (fun a b => a = b) m.p f x.p g) (by
      rintro n k x x' ⟨a1, a2, a5⟩ hx
      obtain ⟨b1, b2, b3, -⟩ := traversablePassFl_progress hx
      obtain ⟨c1, c2⟩ := traversablePassFl_geometry hR hrel h0 hu hr hpt (e := e)
        (fun q hq q' hq' => he.2 q (a1 q hq) q' (a1 q' hq')) (fun q hq => hM q (a1 q hq)) a2 hx
      refine ⟨fun q hq => a1 q (c1 q hq), b3, fun g hg => ?_⟩
      obtain ⟨f, hf, hfg⟩ := c2 g hg
      obtain ⟨f0, hf0, hff⟩ := a5 f hf
      refine ⟨f0, hf0, CornersMatch.trans ?_ hff hfg⟩
      rintro x y z rfl ⟨w, ⟨w1, w2, hyw⟩, w3, w4, hwz⟩
      exact (hs x (a1 _ w1) w (a1 _ w2) hyw).trans (hs w (a1 _ w3) z (a1 _ w4) hwz))
    (n := 0) (m := m) ⟨fun q hq => hq, hv, fun g hg => ⟨g, hg, CornersMatch.rfl' (fun x => rfl) (hv g hg)⟩⟩ h
  exact h5

/-- **C130** (5) A mesh without a vertex on more than two boundary edges is returned unchanged; so is a mesh without a triangle connected to
exactly one other by `delete_faces_connected_to_one_face`. -/
theorem C130_unchanged (E : EngineFl K) (rand : Nat → Nat → Nat → Nat) (thr : K) {m : Mesh K} (ht : ∀ f ∈ m.t, Nondegenerate f) :
    (ValidMesh m.p m.t → (∀ v, boundaryDegree m.t v ≤ 2) → makeTraversableFl E rand thr m = some (some m)) ∧
      ∀ maxIter, maxIter ≠ some 0 → Conforming m.t → (m.t.Pairwise fun f g => ¬ SameVertices f g) → (∀ c, ¬ HasOneNeighbour m.t c) →
        deleteOneFaceFl E maxIter m = some (some m) := by
  constructor
  · intro hv h2
    have hov : overConnected (flatPairs (getBoundaryEdges E.oE m.t)) = [] := by
      rw [List.eq_nil_iff_forall_not_mem]
      intro v hvm
      rw [mem_overConnected, count_boundary E.oE ht] at hvm
      have := h2 v; omega
    obtain ⟨bv, e1, e2⟩ := externalTopology_isSome E.oE hv
    have := edges_le_vertices hov
    rw [makeTraversableFl, traversableLoopFl, e1]
    dsimp only
    rw [if_neg (by omega)]
  · intro maxIter hi hc hd h
    rw [deleteOneFaceFl, if_neg hi, oneFaceLoopFl, if_neg hi]
    have hnil : blocksOfTwo 0 (faceToFace E.srtE m.t).2 = [] := by
      rw [List.eq_nil_iff_forall_not_mem]
      intro c hcm
      obtain ⟨hcl, hb⟩ := (mem_blocksOfTwo_faces E.srtE m.t c).1 hcm
      exact h c ((block_two_iff ht hc hd hcl).1 hb)
    rw [hnil]

/-! ## `delete_exterior_faces` -/

/-- The total area is `T`; a component of area `S` is above the threshold by more than the rounding errors. -/
def Spec.ClearlyAbove (u η thr T S : K) : Prop := thr * ((1 + η) * T) < (1 - u) * ((1 - η) * S)

/-- The total area is `T`; a component of area `S` is below the threshold by at least the rounding errors. -/
def Spec.ClearlyBelow (u η thr T S : K) : Prop := (1 + u) * ((1 + η) * S) ≤ thr * ((1 - η) * T)

open Classical in
/-- **C130** (6) Full claim: `delete_exterior_faces` returns, in some order, exactly the triangles whose component has more than the given
fraction of the total area. Proved: it returns whole components, all those above the threshold by more than the rounding errors and
none below by as much. `areaErr u κ n` is the relative error of the sum of `n` areas, added up in any order; `κ` bounds the products in the area of
a triangle by its area. False at the threshold itself, see `C130_threshold_rounds`. -/
theorem C130_exterior_partial {E : EngineFl K} {u κ : K} (hrel : RelError E.fl u) (h0 : 0 ≤ u) (hu : u ≤ 1 / 128) (hs : SumsUp E.fl E.sum)
    (hκ : 0 ≤ κ) {rand : Nat → Nat → Nat} (hrand : ∀ k n, 0 < n → rand k n < n) {p : List (K × K)} {t : List Tri} {A : Tri → K}
    (hw : WellShaped p t A κ) (hnn : ∀ f ∈ t, 0 ≤ A f) (hpos : 0 < (t.map A).sum) (hη : areaErr u κ t.length < 1) {thr : K} (hthr : 0 ≤ thr) :
    ∃ res, ∃ kept : Tri → Prop, deleteExteriorFacesFl E rand p t thr = some res ∧ res.Perm (t.filter fun f => decide (kept f)) ∧
      (∀ f ∈ t, ClearlyAbove u (areaErr u κ t.length) thr (t.map A).sum (componentArea A t f) → kept f) ∧
      (∀ f ∈ t, ClearlyBelow u (areaErr u κ t.length) thr (t.map A).sum (componentArea A t f) → ¬ kept f) ∧
      ∀ f g, Connected t f g → (kept f ↔ kept g) := by
  set η := areaErr u κ t.length with hηd
  have h1u : 0 ≤ (1 + u) ^ t.length - 1 := by
    have := one_le_pow₀ (n := t.length) (show (1 : K) ≤ 1 + u by linarith); linarith
  have hη0 : 0 ≤ η := by rw [hηd, areaErr]; positivity
  have hκ1 : 3 * u * κ ≤ 1 := by
    have : 3 * u * κ ≤ η := by rw [hηd, areaErr]; have : 0 ≤ ((1 + u) ^ t.length - 1) * (1 + 3 * u * κ) := by positivity
                               linarith
    linarith
  have hsum : ∀ l : List Tri, l.Sublist t → ∃ v, areaSumFl E p l = some v ∧ |v - (l.map A).sum| ≤ η * (l.map A).sum := fun l hl =>
    areaSumFl_spec hrel h0 hu hs hκ hκ1 (fun f hf => hw f (hl.subset hf)) (fun f hf => hnn f (hl.subset hf)) hl.length_le
  let ar : List Tri → K := fun l => if hl : l.Sublist t then (hsum l hl).choose else 0
  have har : ∀ l : List Tri, l.Sublist t → areaSumFl E p l = some (ar l) ∧ |ar l - (l.map A).sum| ≤ η * (l.map A).sum := by
    intro l hl
    have : ar l = (hsum l hl).choose := dif_pos hl
    rw [this]
    exact (hsum l hl).choose_spec
  have hS : ∀ l : List Tri, l.Sublist t → 0 ≤ (l.map A).sum := fun l hl => sum_nonneg_list (by
    intro x hx; obtain ⟨f, hf, rfl⟩ := List.mem_map.1 hx; exact hnn f (hl.subset hf))
  have hdec := fun (l : List Tri) (hl : l.Sublist t) => exceedsFl_decides (an := ar l) (a := ar t) hrel h0 hu hη0 hη hthr (hS l hl) hpos (har l hl).2
    (har t (List.Sublist.refl t)).2
  obtain ⟨res, kept, g1, g2, g3, g4, g5⟩ := exteriorLoopFl_spec (E := E) hrand (p := p) (A := A) (a := ar t) (thr := thr) ar
    (ClearlyAbove u η thr (t.map A).sum) (ClearlyBelow u η thr (t.map A).sum)
    (fun x y hxy hx => lt_of_lt_of_le hx (mul_le_mul_of_nonneg_left (mul_le_mul_of_nonneg_left hxy (by linarith)) (by linarith)))
    t hnn (fun l hl => (har l hl).1) (fun l hl h => (hdec l hl).1 h) (fun l hl h => (hdec l hl).2 h)
    ((hdec [] (List.nil_sublist t)).2 (by
      simp only [List.map_nil, List.sum_nil, mul_zero]
      exact mul_nonneg hthr (mul_nonneg (by linarith) hpos.le)))
    (t.length + 2) 0 t [] (List.Sublist.refl t) (by omega)
  refine ⟨res, kept, ?_, by simpa using g2, g3, g4, g5⟩
  rw [deleteExteriorFacesFl, (har t (List.Sublist.refl t)).1]
  exact g1

open Classical in
/-- **C130** (7) If no component is as near the threshold as the rounding errors, exactly the triangles of the components above the threshold
are returned; so the result does not depend on the random numbers, on how equal rows are sorted, on the rounding rule or on the order in which areas
are added. -/
theorem C130_exterior_clear {E : EngineFl K} {u κ : K} (hrel : RelError E.fl u) (h0 : 0 ≤ u) (hu : u ≤ 1 / 128) (hs : SumsUp E.fl E.sum)
    (hκ : 0 ≤ κ) {rand : Nat → Nat → Nat} (hrand : ∀ k n, 0 < n → rand k n < n) {p : List (K × K)} {t : List Tri} {A : Tri → K}
    (hw : WellShaped p t A κ) (hnn : ∀ f ∈ t, 0 ≤ A f) (hpos : 0 < (t.map A).sum) (hη : areaErr u κ t.length < 1) {thr : K} (hthr : 0 ≤ thr)
    (hclear : ∀ f ∈ t, ClearlyAbove u (areaErr u κ t.length) thr (t.map A).sum (componentArea A t f) ∨
      ClearlyBelow u (areaErr u κ t.length) thr (t.map A).sum (componentArea A t f)) :
    ∃ res, deleteExteriorFacesFl E rand p t thr = some res ∧
      res.Perm (t.filter fun f => decide (thr * (t.map A).sum < componentArea A t f)) := by
  obtain ⟨res, kept, g1, g2, g3, g4, -⟩ := C130_exterior_partial hrel h0 hu hs hκ hrand hw hnn hpos hη hthr
  refine ⟨res, g1, g2.trans (List.Perm.of_eq ?_)⟩
  apply List.filter_congr
  intro f hf
  have h1u : 0 ≤ (1 + u) ^ t.length - 1 := by
    have := one_le_pow₀ (n := t.length) (show (1 : K) ≤ 1 + u by linarith); linarith
  have hη0 : 0 ≤ areaErr u κ t.length := by rw [areaErr]; positivity
  set η := areaErr u κ t.length
  set T := (t.map A).sum
  have hS : 0 ≤ componentArea A t f := by
    unfold componentArea
    exact sum_nonneg_list (by intro x hx; obtain ⟨g, hg, rfl⟩ := List.mem_map.1 hx; exact hnn g (List.mem_filter.1 hg).1)
  set S := componentArea A t f with hSd
  rcases hclear f hf with ha | hb
  · have hk := g3 f hf ha
    have : thr * T < S := by
      unfold ClearlyAbove at ha
      have k1 : thr * T ≤ thr * ((1 + η) * T) := mul_le_mul_of_nonneg_left (by nlinarith) hthr
      have k2 : (1 - u) * ((1 - η) * S) ≤ S := by
        have : (1 - η) * S ≤ S := by nlinarith
        have : 0 ≤ (1 - η) * S := mul_nonneg (by linarith) hS
        nlinarith
      linarith
    rw [decide_eq_true hk, decide_eq_true this]
  · have hk := g4 f hf hb
    have : ¬ thr * T < S := by
      unfold ClearlyBelow at hb
      have k1 : thr * ((1 - η) * T) ≤ thr * T := mul_le_mul_of_nonneg_left (by nlinarith) hthr
      have k2 : S ≤ (1 + u) * ((1 + η) * S) := by
        have : S ≤ (1 + η) * S := by nlinarith
        have : 0 ≤ (1 + η) * S := by positivity
        nlinarith
      rw [not_lt]; linarith
    rw [decide_eq_false hk, decide_eq_false this]

/-! ## `delete_boundary_faces` and `delete_faces_connected_to_one_face` -/

/-- **C130** (8) On a mesh without unused vertices and without degenerate triangles `delete_boundary_faces` returns. Every
triangle of the result is, up to the distance within which `fix_mesh` merges points, an input triangle that does not both touch the
boundary and have a (computed) quality below the limit; and every such input triangle is in the result. -/
theorem C130_boundary_faces {E : EngineFl K} {u M : K} (hR : Rounding E.fl) (hrel : RelError E.fl u) (h0 : 0 ≤ u) (hu : u ≤ 1 / 2)
    (hr : IsRounding E.rnd) (hpt : 0 < E.ptol) (minQual : K) {m : Mesh K}
    (hv : ValidMesh m.p m.t) (hp : m.p ≠ []) (hus : ∀ v < m.p.length, ∃ f ∈ m.t, HasVertex f v)
    (ht : ∀ f ∈ m.t, Nondegenerate f) {e : K} (he : IsExtent m.p e) (hM : ∀ q ∈ m.p, |q.1| ≤ M ∧ |q.2| ≤ M) :
    ∃ m', deleteBoundaryFacesFl E minQual m = some m' ∧
      (∀ g ∈ m'.t, ∃ f ∈ m.t, ¬ (TouchesBoundary m.t f ∧ ∃ q, E.qual m.p f = some q ∧ q < minQual) ∧
        CornersMatch (Within ((1 + u) ^ 3 * (e * E.ptol) + 5 * u * M)) m.p f m'.p g) ∧
      (∀ f ∈ m.t, ¬ (TouchesBoundary m.t f ∧ ∃ q, E.qual m.p f = some q ∧ q < minQual) → ∃ g ∈ m'.t,
        CornersMatch (Within ((1 + u) ^ 3 * (e * E.ptol) + 5 * u * M)) m.p f m'.p g) := by
  obtain ⟨t', h1, h2⟩ := deleteBoundaryRows_spec E.oE E.srtV (E.qual m.p) minQual hv hus
  have hmem : ∀ f, f ∈ t' ↔ f ∈ m.t ∧ ¬ (TouchesBoundary m.t f ∧ ∃ q, E.qual m.p f = some q ∧ q < minQual) := by
    intro f
    rw [h2, List.mem_filter]
    apply and_congr_right
    intro _
    rw [Bool.not_eq_true', ← Bool.not_eq_true]
    apply not_congr
    simp only [Bool.and_eq_true, Bool.or_eq_true, List.contains_iff_mem, mem_flat_boundary E.oE ht]
    rw [and_comm]
    apply and_congr
    · constructor
      · rintro ((h | h) | h)
        · exact ⟨_, Or.inl rfl, h⟩
        · exact ⟨_, Or.inr (Or.inl rfl), h⟩
        · exact ⟨_, Or.inr (Or.inr rfl), h⟩
      · rintro ⟨v, rfl | rfl | rfl, h⟩
        · exact Or.inl (Or.inl h)
        · exact Or.inl (Or.inr h)
        · exact Or.inr h
    · cases E.qual m.p f with
      | none => simp [belowQual]
      | some q => simp [belowQual]
  have hv' : ValidMesh m.p t' := fun f hf => hv f ((hmem f).1 hf).1
  obtain ⟨R, hRR⟩ := fixMeshFl_isSome E.fl E.rnd E.oP E.oT E.ptol true hp hv'
  have hm' : refixFl E m.p t' = some ⟨R.p, R.t⟩ := by rw [refixFl, hRR]; rfl
  obtain ⟨g1, g2⟩ := refixFl_geometry hR hrel h0 hu hr hpt he.2 hM hv' hm'
  refine ⟨⟨R.p, R.t⟩, ?_, ?_, ?_⟩
  · rw [deleteBoundaryFacesFl, h1, Option.bind_eq_bind, Option.bind_some, hm']
  · intro g hg
    obtain ⟨f, hf, hc⟩ := g1 g hg
    exact ⟨f, ((hmem f).1 hf).1, ((hmem f).1 hf).2, CornersMatch.imp (fun x y h => h.2.2) hc⟩
  · intro f hf hbad
    obtain ⟨g, hg, hc⟩ := g2 f ((hmem f).2 ⟨hf, hbad⟩)
    exact ⟨g, hg, CornersMatch.imp (fun x y h => h.2.2) hc⟩

/-- **C130** (9) With unlimited iterations no triangle of the result of `delete_faces_connected_to_one_face` is connected to exactly one other
triangle, for results without degenerate triangles where each edge has at most two triangles. -/
theorem C130_no_single_neighbour_partial {E : EngineFl K} {m m' : Mesh K} (h : deleteOneFaceFl E none m = some (some m'))
    (ht : ∀ f ∈ m'.t, Nondegenerate f) (hc : Conforming m'.t) (hd : m'.t.Pairwise fun f g => ¬ SameVertices f g) :
    ∀ c, ¬ HasOneNeighbour m'.t c := by
  intro c hone
  rw [deleteOneFaceFl, if_neg (by simp)] at h
  have hnil := oneFaceLoopFl_exit h
  have hcl : c < m'.t.length := by
    obtain ⟨f, -, -, hf, -⟩ := hone
    exact (List.getElem?_eq_some_iff.1 hf).1
  have := (mem_blocksOfTwo_faces E.srtE m'.t c).2 ⟨hcl, (block_two_iff ht hc hd hcl).2 hone⟩
  rw [hnil] at this
  simp at this

/-! ## `mesh_clean` -/

/-- **C130** (10) If `mesh_clean` returns, the result has valid indices, no unused vertex, no vertex twice and no two triangles with the
same vertices, for every rounding rule. -/
theorem C130_valid_mesh {E : EngineFl K} {len : K × K → K × K → K} {nodes : List (K × K) → Option (List Nat)}
    {rand rand' : Nat → Nat → Nat → Nat} {a : CleanParams K} {m m' : Mesh K} (h : meshCleanFl E len nodes rand rand' a m = some (some m')) :
    ValidMesh m'.p m'.t ∧ (∀ v < m'.p.length, ∃ f ∈ m'.t, HasVertex f v) ∧ (m'.t.Pairwise fun f g => ¬ SameVertices f g) ∧ m'.p.Nodup := by
  obtain ⟨m1, m2, m3, ifix, m4, m5, -, -, -, -, -, -, h6⟩ := meshCleanFl_stages h
  rw [refixFl, Option.map_eq_some_iff] at h6
  obtain ⟨R, hR, rfl⟩ := h6
  obtain ⟨g1, g2, g3, g4, -⟩ := C120_wellformed hR
  exact ⟨g1, g4 rfl, g3, g2⟩

/-- **C130** (11) Full claim: no triangle of the result has negative area. Proved for all triangles whose area is more than two rounding
errors of the products from which it is computed (for slivers see `C120_clockwise_result`). -/
theorem C130_orientation_partial {E : EngineFl K} {u : K} (hrel : RelError E.fl u) (h0 : 0 ≤ u) (hu : u ≤ 1 / 128)
    {len : K × K → K × K → K} {nodes : List (K × K) → Option (List Nat)}
    {rand rand' : Nat → Nat → Nat → Nat} {a : CleanParams K} {m m' : Mesh K} (h : meshCleanFl E len nodes rand rand' a m = some (some m')) :
    ∀ g ∈ m'.t, ∃ x y z, m'.p[g.a]? = some x ∧ m'.p[g.b]? = some y ∧ m'.p[g.c]? = some z ∧
      (2 * u * areaScale x y z < |signedArea x y z| → 2 * u * areaScale y x z < |signedArea x y z| → 0 < signedArea x y z) := by
  obtain ⟨m1, m2, m3, ifix, m4, m5, -, -, -, -, -, -, h6⟩ := meshCleanFl_stages h
  rw [refixFl, Option.map_eq_some_iff] at h6
  obtain ⟨R, hR, rfl⟩ := h6
  exact C120_orientation_partial hrel h0 hu hR

theorem mates_length_le (t : List Tri) (v : Nat) : (mates t v).length ≤ 6 * t.length := by
  induction t with
  | nil => simp [mates]
  | cons f t ih =>
    have e : mates (f :: t) v = ((if f.a = v then [f.b, f.c] else []) ++ (if f.b = v then [f.a, f.c] else []) ++
      (if f.c = v then [f.a, f.b] else [])) ++ mates t v := rfl
    rw [e, List.length_append, List.length_append, List.length_append, List.length_cons]
    split <;> split <;> split <;> simp <;> omega

theorem deleteBoundaryFacesFl_points {E : EngineFl K} {q : K} {m m' : Mesh K} (h : deleteBoundaryFacesFl E q m = some m') :
    (∀ x ∈ m'.p, x ∈ m.p) ∧ m'.t.length ≤ m.t.length := by
  rw [deleteBoundaryFacesFl, Option.bind_eq_bind, Option.bind_eq_some_iff] at h
  obtain ⟨t', e1, e2⟩ := h
  rw [deleteBoundaryRows, Option.bind_eq_bind, Option.bind_eq_some_iff] at e1
  obtain ⟨b, -, e1⟩ := e1
  rw [Option.bind_eq_bind, Option.bind_eq_some_iff] at e1
  obtain ⟨c, -, e1⟩ := e1
  cases e1
  have a2 := refixFl_shape e2
  exact ⟨a2.2.2.2.1, a2.2.2.2.2.1.trans (deleteRows_sublist _ _).length_le⟩

/-- **C130** (12) Full claim: the vertices of the result lie in the bounding box of the input. Proved with a margin: with `n` triangles,
coordinates of at most `M` and `i` smoothing iterations the box grows by at most `((1 + u) ^ ((6 n + 1) i) - 1) * M`. Without a margin it is false
(`C119_leaves_box` for the smoothing step). No triangles are added. -/
theorem C130_box_partial {E : EngineFl K} {u : K} (hrel : RelError E.fl u) (h0 : 0 ≤ u) {len : K × K → K × K → K}
    {nodes : List (K × K) → Option (List Nat)} {rand rand' : Nat → Nat → Nat → Nat} {a : CleanParams K} {m m' : Mesh K}
    (h : meshCleanFl E len nodes rand rand' a m = some (some m')) {pr : K × K → K} (hpr : pr = Prod.fst ∨ pr = Prod.snd) {lo hi M : K}
    (hb : ∀ q ∈ m.p, lo ≤ pr q ∧ pr q ≤ hi ∧ |pr q| ≤ M) :
    m'.t.length ≤ m.t.length ∧ ∀ q ∈ m'.p, lo - ((1 + u) ^ ((6 * m.t.length + 1) * a.maxIter) - 1) * M ≤ pr q ∧
      pr q ≤ hi + ((1 + u) ^ ((6 * m.t.length + 1) * a.maxIter) - 1) * M := by
  obtain ⟨m1, m2, m3, ifix, m4, m5, h1, h2, h3, h3', h4, h5, h6⟩ := meshCleanFl_stages h
  have a1 := makeTraversableFl_points h1
  have a2 := deleteBoundaryFacesFl_points h2
  have a3 := deleteOneFaceFl_points h3
  have a5 := makeTraversableFl_points h5
  have a6 := refixFl_shape h6
  have hT : m3.t.length ≤ m.t.length := a3.2.trans (a2.2.trans a1.2.2)
  have a4 : m4.t = m3.t := (C119_fixed hrel h0 h4).1
  constructor
  · have := a5.2.2; have := a6.2.2.2.2.1; rw [a4] at *; omega
  · intro q hq
    exact C119_box hrel h0 h4 (N := 6 * m.t.length) (fun v => (mates_length_le m3.t v).trans (by omega)) hpr
      (fun x hx => hb x (a1.1 x (a2.1 x (a3.1 x hx)))) q (a5.1 q (a6.2.2.2.1 q hq))

/-! ## Without rounding -/

theorem simpVolFl_id (p : List (K × K)) : ∀ t : List Tri, simpVolFl id p t = simpVol p t
  | [] => rfl
  | f :: t => by
    rw [simpVolFl, simpVol, simpVolFl_id p t, faceVol]
    cases p[f.a]? <;> cases p[f.b]? <;> cases p[f.c]? <;> cases simpVol p t <;> rfl

theorem areaSumFl_id {E : EngineFl K} (h1 : E.fl = id) (h2 : E.sum = List.sum) (p : List (K × K)) (t : List Tri) :
    areaSumFl E p t = areaSum p t := by rw [areaSumFl, h1, h2, simpVolFl_id]; rfl

theorem exteriorLoopFl_id {E : EngineFl K} (h1 : E.fl = id) (h2 : E.sum = List.sum) (rand : Nat → Nat → Nat) (p : List (K × K)) (a thr : K) :
    ∀ (fuel k : Nat) (t1 acc : List Tri) (an : K),
      exteriorLoopFl E rand p a thr fuel k t1 acc an = exteriorLoop E.srtE rand p a thr fuel k t1 acc an
  | 0, _, _, _, _ => rfl
  | fuel + 1, k, t1, acc, an => by
    have hx : ∀ x, exceedsFl E.fl x a thr = exceeds x a thr := fun x => by rw [h1]; rfl
    rw [exteriorLoopFl, exteriorLoop, hx]
    simp only [areaSumFl_id h1 h2, hx, exteriorLoopFl_id h1 h2 rand p a thr fuel]
    rfl

theorem deleteExteriorFacesFl_id {E : EngineFl K} (h1 : E.fl = id) (h2 : E.sum = List.sum) (rand : Nat → Nat → Nat) (p : List (K × K))
    (t : List Tri) (thr : K) : deleteExteriorFacesFl E rand p t thr = deleteExteriorFaces E.srtE rand p t thr := by
  rw [deleteExteriorFacesFl, deleteExteriorFaces, areaSumFl_id h1 h2]
  simp only [exteriorLoopFl_id h1 h2]
  rfl

theorem refixFl_id {E : EngineFl K} (h1 : E.fl = id) (p : List (K × K)) (t : List Tri) : refixFl E p t = refix E.toEngine p t := by
  rw [refixFl, h1, C120_exact]; rfl

theorem traversablePassFl_id {E : EngineFl K} (h1 : E.fl = id) (h2 : E.sum = List.sum) (rand : Nat → Nat → Nat) (thr : K) (m : Mesh K) :
    traversablePassFl E rand thr m = traversablePass E.toEngine rand thr m := by
  unfold traversablePassFl traversablePass
  simp only [deleteExteriorFacesFl_id h1 h2, refixFl_id h1]

theorem traversableLoopFl_id {E : EngineFl K} (h1 : E.fl = id) (h2 : E.sum = List.sum) (rand : Nat → Nat → Nat → Nat) (thr : K) :
    ∀ (fuel k : Nat) (m : Mesh K), traversableLoopFl E rand thr fuel k m = traversableLoop E.toEngine rand thr fuel k m
  | 0, _, _ => rfl
  | fuel + 1, k, m => by
    rw [traversableLoopFl, traversableLoop]
    simp only [traversablePassFl_id h1 h2, traversableLoopFl_id h1 h2 rand thr fuel]
    rfl

theorem oneFaceLoopFl_id {E : EngineFl K} (h1 : E.fl = id) : ∀ (fuel : Nat) (left : Option Nat) (m : Mesh K),
    oneFaceLoopFl E fuel left m = oneFaceLoop E.toEngine fuel left m
  | 0, _, _ => rfl
  | fuel + 1, left, m => by
    rw [oneFaceLoopFl, oneFaceLoop]
    simp only [refixFl_id h1, oneFaceLoopFl_id h1 fuel]
    rfl

/-- **C130** (13) Without rounding the passes and `mesh_clean` are those of C15 to C21. -/
theorem C130_exact {E : EngineFl K} (h1 : E.fl = id) (h2 : E.sum = List.sum) (len : K × K → K × K → K)
    (rand rand' : Nat → Nat → Nat → Nat) {a : CleanParams K} (hpf : a.pfix ≠ some []) (m : Mesh K) (maxIter : Option Nat) :
    makeTraversableFl E rand a.minArea m = makeTraversable E.toEngine rand a.minArea m ∧
      deleteOneFaceFl E maxIter m = deleteOneFace E.toEngine maxIter m ∧
      deleteBoundaryFacesFl E a.minQual m = deleteBoundaryFaces E.toEngine a.minQual m ∧
      meshCleanFl E len (fun p => fixedNodes p a.pfix) rand rand' a m = meshClean E.toEngine len rand rand' a m := by
  have t1 : ∀ rand (m : Mesh K), makeTraversableFl E rand a.minArea m = makeTraversable E.toEngine rand a.minArea m := fun rand m => by
    rw [makeTraversableFl, makeTraversable, traversableLoopFl_id h1 h2]
  have t2 : ∀ maxIter (m : Mesh K), deleteOneFaceFl E maxIter m = deleteOneFace E.toEngine maxIter m := fun maxIter m => by
    rw [deleteOneFaceFl, deleteOneFace, oneFaceLoopFl_id h1]
  have t3 : ∀ m : Mesh K, deleteBoundaryFacesFl E a.minQual m = deleteBoundaryFaces E.toEngine a.minQual m := fun m => by
    unfold deleteBoundaryFacesFl deleteBoundaryFaces
    simp only [refixFl_id h1]
  refine ⟨t1 _ _, t2 _ _, t3 _, ?_⟩
  unfold meshCleanFl meshClean
  simp only [t1, t2, t3, refixFl_id h1, h1]
  cases makeTraversable E.toEngine rand a.minArea m with
  | none => rfl
  | some r1 =>
    cases r1 with
    | none => rfl
    | some m1 =>
      dsimp only
      cases deleteBoundaryFaces E.toEngine a.minQual m1 with
      | none => rfl
      | some m2 =>
        dsimp only
        cases deleteOneFace E.toEngine none m2 with
        | none => rfl
        | some r3 =>
          cases r3 with
          | none => rfl
          | some m3 =>
            dsimp only
            cases hf : fixedNodes m3.p a.pfix with
            | none =>
              have : laplacian2 len E.oE a.maxIter a.tol a.pfix m3 = none := by
                unfold laplacian2
                rw [hf]
                dsimp only
                split
                · cases externalTopology E.oE m3.p m3.t <;> rfl
                · rfl
              rw [this]
            | some ifix =>
              simp only [C119_exact hpf hf]
              rfl

end

/-! ## Doubles -/

/-- The sum of an array from left to right, in doubles. -/
def leftSum : List ℚ → ℚ
  | [] => 0
  | x :: l => l.foldl (fun s y => roundDouble (s + y)) x

theorem leftSum_sumsUp : SumsUp roundDouble leftSum := by
  refine ⟨rfl, fun xs hne => ?_⟩
  cases xs with
  | nil => exact absurd rfl hne
  | cons x l =>
    have : ∀ (l pre : List ℚ) (s : ℚ), RoundedSum roundDouble pre s →
        RoundedSum roundDouble (pre ++ l) (l.foldl (fun s y => roundDouble (s + y)) s) := by
      intro l
      induction l with
      | nil => intro pre s h; simpa using h
      | cons y l ih =>
        intro pre s h
        have := ih (pre ++ [y]) (roundDouble (s + y)) (.add h (.single y) (List.Perm.refl _))
        simpa using this
    exact this l [x] x (.single x)

/-- The engine of the examples with doubles: the default tolerance of `fix_mesh`, sums from left to right. -/
def engineD : EngineFl ℚ := { engineQ with rnd := roundEven, ptol := 3961408125713217 / 2 ^ 94, fl := roundDouble, sum := leftSum }

/-- The hypotheses of the theorems hold, and the passes return what they return without rounding. -/
example : Rounding engineD.fl ∧ RelError engineD.fl (1 / 2 ^ 53) ∧ IsRounding engineD.rnd ∧ 0 < engineD.ptol ∧ SumsUp engineD.fl engineD.sum ∧
    ValidMesh fanM.p fanM.t ∧ IsExtent fanM.p (21 / 4) ∧ (∀ q ∈ fanM.p, |q.1| ≤ 6 ∧ |q.2| ≤ 6) ∧
    Separated ((1 + 1 / 2 ^ 53) ^ 3 * (21 / 4 * engineD.ptol) + 5 * (1 / 2 ^ 53) * 6) fanM.p ∧
    makeTraversableFl engineD (fun _ _ _ => 0) (1 / 20) fanM =
      some (some ⟨[(0, 0), (0, 1), (1, 0), (1, 1), (1, 2), (2, 1)], [⟨1, 0, 2⟩, ⟨4, 3, 5⟩]⟩) ∧
    deleteBoundaryFacesFl engineD (1 / 10) fanM =
      some ⟨[(0, 0), (0, 1), (1, 0), (1, 1), (1, 2), (2, 1)], [⟨1, 0, 2⟩, ⟨1, 2, 3⟩, ⟨4, 3, 5⟩]⟩ ∧
    deleteOneFaceFl engineD none chainM = some (some ⟨[(0, 1), (1, 0), (1, 1)], [⟨0, 1, 2⟩]⟩) := by
  refine ⟨C113_roundDouble.1, C113_roundDouble.2, roundEven_isRounding, by norm_num [engineD], leftSum_sumsUp, validMesh_of_bound (by decide),
    fanP_extent, by decide +kernel, ?_, by decide +kernel, by decide +kernel, by decide +kernel⟩
  have : ∀ q ∈ fanP, ∀ q' ∈ fanP, |q.1 - q'.1| ≤ (1 + 1 / 2 ^ 53) ^ 3 * (21 / 4 * (3961408125713217 / 2 ^ 94)) + 5 * (1 / 2 ^ 53) * 6 ∧
      |q.2 - q'.2| ≤ (1 + 1 / 2 ^ 53) ^ 3 * (21 / 4 * (3961408125713217 / 2 ^ 94)) + 5 * (1 / 2 ^ 53) * 6 → q = q' := by
    decide +kernel
  exact this

/-- `mesh_clean` in doubles: the vertex in the middle of the lattice moves to a rounded mean. -/
example : ∃ x : ℚ, IsDouble x ∧ x ≠ 4 / 3 ∧
    meshCleanFl engineD lenQ (fun _ => some []) (fun _ _ _ => 0) (fun _ _ _ => 0) cleanQ latticeM =
    some (some ⟨[(0, 1), (1, 0), (1, 2), (x, 1), (2, 0), (2, 1), (2, 2)],
      [⟨0, 1, 3⟩, ⟨2, 0, 3⟩, ⟨3, 1, 4⟩, ⟨2, 3, 6⟩, ⟨3, 4, 5⟩, ⟨3, 5, 6⟩]⟩) := by
  refine ⟨6004799503160661 / 2 ^ 52, ?_, by norm_num, by decide +kernel⟩
  exact ⟨6004799503160661, -52, by norm_num, by norm_num⟩

open Classical in
/-- The hypotheses about the areas: the triangles of the fan, threshold one twentieth. -/
example : WellShaped fanP fanT fanA 120 ∧ (∀ f ∈ fanT, 0 ≤ fanA f) ∧ 0 < (fanT.map fanA).sum ∧
    areaErr (1 / 2 ^ 53 : ℚ) 120 fanT.length < 1 / 10 ^ 12 ∧
    ClearlyAbove (1 / 2 ^ 53) (areaErr (1 / 2 ^ 53 : ℚ) 120 fanT.length) (1 / 20) (fanT.map fanA).sum (1 / 2) ∧
    ClearlyBelow (1 / 2 ^ 53) (areaErr (1 / 2 ^ 53 : ℚ) 120 fanT.length) (1 / 20) (fanT.map fanA).sum (1 / 32) ∧
    deleteExteriorFacesFl engineD (fun _ m => m - 1) fanP fanT (1 / 20) = some [⟨3, 4, 5⟩, ⟨0, 1, 2⟩, ⟨1, 3, 2⟩] := by
  refine ⟨?_, by decide +kernel, by decide +kernel, by norm_num [areaErr, fanT], ?_, ?_, by decide +kernel⟩
  · intro f hf
    simp only [fanT, List.mem_cons, List.not_mem_nil, or_false] at hf
    rcases hf with rfl | rfl | rfl | rfl <;>
      exact ⟨_, _, _, rfl, by norm_num [signedArea, fanA], by norm_num [areaScale, fanA]⟩
  · norm_num [ClearlyAbove, areaErr, fanT, fanA]
  · norm_num [ClearlyBelow, areaErr, fanT, fanA]

/-- The unit square in two triangles and a triangle apart, with a third of the area. -/
def thirdP : List (ℚ × ℚ) := [(0, 0), (1, 0), (0, 1), (1, 1), (3, 0), (4, 0), (3, 1)]

def thirdT : List Tri := [⟨0, 1, 2⟩, ⟨1, 3, 2⟩, ⟨4, 5, 6⟩]

/-- **C130** fails at the threshold: a component has a third of the area, which is more than the threshold (the double next to
a third, which is smaller), but the computed fraction is rounded to the threshold and the component is deleted. -/
theorem C130_threshold_rounds :
    ∃ (p : List (ℚ × ℚ)) (t : List Tri) (thr : ℚ), (∀ q ∈ p, IsDouble q.1 ∧ IsDouble q.2) ∧ IsDouble thr ∧ thr < 1 / 3 ∧
      deleteExteriorFaces (stableSort Nat lexOrder) (fun _ _ => 0) p t thr = some t ∧
      ∃ res, deleteExteriorFacesFl engineD (fun _ _ => 0) p t thr = some res ∧ res.length < t.length := by
  refine ⟨thirdP, thirdT, 6004799503160661 / 2 ^ 54, ?_, ⟨6004799503160661, -54, by norm_num, by norm_num⟩, by norm_num,
    by decide +kernel, [⟨0, 1, 2⟩, ⟨1, 3, 2⟩], by decide +kernel, by decide⟩
  have hd : ∀ n : ℤ, |n| ≤ 4 → IsDouble (n : ℚ) := fun n hn => ⟨n, 0, hn.trans (by norm_num), by norm_num⟩
  intro q hq
  have : ∀ q ∈ thirdP, ∃ a ∈ [(0 : ℤ), 1, 3, 4], ∃ b ∈ [(0 : ℤ), 1], q = ((a : ℚ), (b : ℚ)) := by decide +kernel
  obtain ⟨a, ha, b, hb, rfl⟩ := this q hq
  have k1 : ∀ a ∈ [(0 : ℤ), 1, 3, 4], |a| ≤ 4 := by decide
  have k2 : ∀ a ∈ [(0 : ℤ), 1], |a| ≤ 4 := by decide
  exact ⟨hd a (k1 a ha), hd b (k2 b hb)⟩

end OM
