import Verif.Props.InpolyRegion
import Verif.Props.Edges
/-!
# C101 for meshes: the inside test with the boundary edges of a mesh
-/
set_option linter.unusedSectionVars false
namespace OM.Spec
section
variable {K : Type} [Field K] [LinearOrder K]

/-- `c` are the corners of the triangle `x` of a mesh with the points `pts`. -/
def CornersOf (pts : List (K × K)) (x : Tri) (c : (K × K) × (K × K) × (K × K)) : Prop :=
  pts[x.a]? = some c.1 ∧ pts[x.b]? = some c.2.1 ∧ pts[x.c]? = some c.2.2

end
end OM.Spec

namespace OM
open Spec

theorem countP_forall₂ {α β : Type} {R : α → β → Prop} {p : α → Bool} {q : β → Bool} (hpq : ∀ x y, R x y → p x = q y) :
    ∀ {l : List α} {m : List β}, List.Forall₂ R l m → l.countP p = m.countP q
  | [], [], _ => rfl
  | x :: l, y :: m, h => by
    cases h with
    | cons h1 h2 => rw [List.countP_cons, List.countP_cons, countP_forall₂ hpq h2, hpq x y h1]

/-- The sides of a triangle of the table. -/
def indexSides (f : Tri) : List (Nat × Nat) := [(f.a, f.b), (f.b, f.c), (f.c, f.a)]

theorem indexSides_count {f : Tri} (hf : Nondegenerate f) {u v : Nat} (huv : u ≠ v) : edgeCount (indexSides f) u v = if HasEdge f u v then 1 else 0 := by
  obtain ⟨h1, h2, h3⟩ := hf
  simp only [edgeCount, indexSides, List.countP_cons, List.countP_nil, Prod.mk.injEq, decide_eq_true_eq]
  by_cases h : HasEdge f u v
  · rw [if_pos h]
    obtain ⟨-, h4, h5⟩ := h
    unfold HasVertex at h4 h5
    split_ifs <;> omega
  · rw [if_neg h]
    unfold HasEdge HasVertex at h
    split_ifs <;> omega

theorem edgeCount_indexSides {t : List Tri} (ht : ∀ f ∈ t, Nondegenerate f) {u v : Nat} (huv : u ≠ v) :
    edgeCount (t.flatMap indexSides) u v = edgeMultiplicity t u v := by
  induction t with
  | nil => rfl
  | cons f t ih =>
    have h1 := indexSides_count (ht f (by simp)) huv
    have h2 := ih fun g hg => ht g (List.mem_cons_of_mem _ hg)
    unfold edgeMultiplicity at h2 ⊢
    unfold edgeCount at h1 h2 ⊢
    rw [List.flatMap_cons, List.countP_append, h1, h2, List.filter_cons]
    split_ifs <;> simp_all <;> omega

theorem edgeCount_boundary (o : RowOrder (Nat × Nat)) {t : List Tri} (ht : ∀ f ∈ t, Nondegenerate f) {u v : Nat} (huv : u ≠ v) :
    edgeCount (getBoundaryEdges o t) u v = if edgeMultiplicity t u v = 1 then 1 else 0 := by
  obtain ⟨hn, hm⟩ := C01_boundary_edges_exact o t ht
  have key : ∀ u v : Nat, u < v → edgeCount (getBoundaryEdges o t) u v = if edgeMultiplicity t u v = 1 then 1 else 0 := by
    intro u v huv
    have e : edgeCount (getBoundaryEdges o t) u v = (getBoundaryEdges o t).count (u, v) := by
      unfold edgeCount List.count
      refine List.countP_congr fun e he => ?_
      obtain ⟨x, y⟩ := e
      have := ((hm x y).1 he).1
      simp only [decide_eq_true_eq, Prod.mk.injEq, beq_iff_eq]
      omega
    rw [e]
    by_cases h : (u, v) ∈ getBoundaryEdges o t
    · rw [List.count_eq_one_of_mem hn h, if_pos (show edgeMultiplicity t u v = 1 from ((hm u v).1 h).2)]
    · rw [List.count_eq_zero.2 h, if_neg (show ¬ edgeMultiplicity t u v = 1 from fun hb => h ((hm u v).2 ⟨huv, hb⟩))]
  rcases lt_or_gt_of_ne huv with h | h
  · exact key u v h
  · have e1 : edgeCount (getBoundaryEdges o t) u v = edgeCount (getBoundaryEdges o t) v u := by
      unfold edgeCount; exact List.countP_congr fun e _ => by simp only [decide_eq_true_eq]; tauto
    have e2 : edgeMultiplicity t u v = edgeMultiplicity t v u := by
      unfold edgeMultiplicity
      congr 1
      refine List.filter_congr fun f _ => ?_
      refine decide_eq_decide.2 ?_
      constructor <;> rintro ⟨a, b, c⟩ <;> exact ⟨a.symm, c, b⟩
    rw [e1, e2, key v u h]

section
variable {K : Type} [Field K] [LinearOrder K] [IsStrictOrderedRing K]

/-- An index edge and its end points. -/
def EndsOf (pts : List (K × K)) (e : Nat × Nat) (s : Seg K) : Prop := pts[e.1]? = some s.1 ∧ pts[e.2]? = some s.2

theorem segsOf_ends {pts : List (K × K)} : ∀ {es : List (Nat × Nat)} {segs : List (Seg K)}, segsOf pts es = some segs → List.Forall₂ (EndsOf pts) es segs := by
  intro es
  induction es with
  | nil => intro segs h; simp [segsOf, collectAll] at h; subst h; exact List.Forall₂.nil
  | cons e es ih =>
    intro segs h
    unfold segsOf at h
    rw [List.map_cons] at h
    cases ha : pts[e.1]? with
    | none => simp [ha, collectAll] at h
    | some a =>
      cases hb : pts[e.2]? with
      | none => simp [ha, hb, collectAll] at h
      | some b =>
        simp only [ha, hb, collectAll, Option.map_eq_some_iff] at h
        obtain ⟨r, hr, rfl⟩ := h
        exact List.Forall₂.cons ⟨ha, hb⟩ (ih hr)

theorem ends_of_corners {pts : List (K × K)} : ∀ {t : List Tri} {ts : List ((K × K) × (K × K) × (K × K))}, List.Forall₂ (CornersOf pts) t ts →
    List.Forall₂ (EndsOf pts) (t.flatMap indexSides) (ts.flatMap triSides)
  | [], [], _ => List.Forall₂.nil
  | x :: t, c :: ts, h => by
    cases h with
    | cons h1 h2 =>
      obtain ⟨a, b, c⟩ := h1
      exact List.Forall₂.cons ⟨a, b⟩ (List.Forall₂.cons ⟨b, c⟩ (List.Forall₂.cons ⟨c, a⟩ (ends_of_corners h2)))

/-- Counts of edges agree for indices and coordinates. -/
theorem edgeCount_ends {pts : List (K × K)} (hp : pts.Nodup) (a b : K × K) :
    (∃ u v, pts[u]? = some a ∧ pts[v]? = some b ∧ ∀ {es : List (Nat × Nat)} {segs : List (Seg K)}, List.Forall₂ (EndsOf pts) es segs → edgeCount segs a b = edgeCount es u v) ∨
      ∀ {es : List (Nat × Nat)} {segs : List (Seg K)}, List.Forall₂ (EndsOf pts) es segs → edgeCount segs a b = 0 := by
  have mem : ∀ {es : List (Nat × Nat)} {segs : List (Seg K)}, List.Forall₂ (EndsOf pts) es segs → ∀ s ∈ segs, s.1 ∈ pts ∧ s.2 ∈ pts := by
    intro es segs h
    induction h with
    | nil => simp
    | cons h1 _ ih =>
      intro s hs
      rcases List.mem_cons.1 hs with rfl | hs
      · exact ⟨List.mem_of_getElem? h1.1, List.mem_of_getElem? h1.2⟩
      · exact ih s hs
  by_cases hab : a ∈ pts ∧ b ∈ pts
  · obtain ⟨u, hu⟩ := List.mem_iff_getElem?.1 hab.1
    obtain ⟨v, hv⟩ := List.mem_iff_getElem?.1 hab.2
    have inj : ∀ {i j : Nat} {x : K × K}, pts[i]? = some x → pts[j]? = some x → i = j := by
      intro i j x hi hj
      obtain ⟨h1, h2⟩ := List.getElem?_eq_some_iff.1 hi
      obtain ⟨h3, h4⟩ := List.getElem?_eq_some_iff.1 hj
      exact (List.Nodup.getElem_inj_iff hp).1 (h2.trans h4.symm)
    refine .inl ⟨u, v, hu, hv, fun {es segs} h => (countP_forall₂ ?_ h).symm⟩
    rintro ⟨x, y⟩ ⟨p, q⟩ ⟨h1, h2⟩
    simp only [decide_eq_decide, Prod.mk.injEq]
    constructor
    · rintro (⟨rfl, rfl⟩ | ⟨rfl, rfl⟩)
      · exact .inl ⟨Option.some.inj (h1.symm.trans hu), Option.some.inj (h2.symm.trans hv)⟩
      · exact .inr ⟨Option.some.inj (h1.symm.trans hv), Option.some.inj (h2.symm.trans hu)⟩
    · rintro (⟨rfl, rfl⟩ | ⟨rfl, rfl⟩)
      · exact .inl ⟨inj h1 hu, inj h2 hv⟩
      · exact .inr ⟨inj h1 hv, inj h2 hu⟩
  · refine .inr fun {es segs} h => List.countP_eq_zero.2 fun s hs => ?_
    obtain ⟨m1, m2⟩ := mem h s hs
    simp only [decide_eq_true_eq]
    rintro (rfl | rfl)
    · exact hab ⟨m1, m2⟩
    · exact hab ⟨m2, m1⟩

theorem corners_nondegenerate {pts : List (K × K)} {t : List Tri} {ts : List ((K × K) × (K × K) × (K × K))} (hc : List.Forall₂ (CornersOf pts) t ts)
    (ha : ∀ c ∈ ts, turnOf c.1 c.2.1 c.2.2 ≠ 0) : ∀ f ∈ t, Nondegenerate f := by
  induction hc with
  | nil => simp
  | @cons x c t ts h1 _ ih =>
    intro f hf
    rcases List.mem_cons.1 hf with rfl | hf
    · have h := ha c (by simp)
      obtain ⟨a, b, d⟩ := h1
      refine ⟨fun e => h ?_, fun e => h ?_, fun e => h ?_⟩
      · rw [e, b] at a; rw [← Option.some.inj a]; unfold turnOf; ring
      · rw [e, d] at a; rw [← Option.some.inj a]; unfold turnOf; ring
      · rw [e, d] at b; rw [← Option.some.inj b]; unfold turnOf; ring
    · exact ih (fun c hc => ha c (List.mem_cons_of_mem _ hc)) f hf

/-- The boundary edges of a mesh bound the union of its triangles. -/
theorem mesh_triangulates (o : RowOrder (Nat × Nat)) {pts : List (K × K)} (hp : pts.Nodup) {t : List Tri} (hconf : Conforming t)
    {ts : List ((K × K) × (K × K) × (K × K))} (hc : List.Forall₂ (CornersOf pts) t ts) (ha : ∀ c ∈ ts, turnOf c.1 c.2.1 c.2.2 ≠ 0)
    (hd : ts.Pairwise fun s t => ∀ q, InTriangle q s.1 s.2.1 s.2.2 → ¬ InTriangle q t.1 t.2.1 t.2.2) {segs : List (Seg K)}
    (hs : segsOf pts (getBoundaryEdges o t) = some segs) : Triangulates ts segs := by
  have hnd := corners_nondegenerate hc ha
  have e1 := segsOf_ends hs
  have e2 := ends_of_corners hc
  have cnt : ∀ a b, a ≠ b → edgeCount segs a b % 2 = edgeCount (ts.flatMap triSides) a b % 2 ∧ edgeCount segs a b ≤ 1 := by
    intro a b hab
    rcases edgeCount_ends hp a b with ⟨u, v, hu, hv, h⟩ | h
    · have huv : u ≠ v := by rintro rfl; exact hab (Option.some.inj (hu.symm.trans hv))
      rw [h e1, h e2, edgeCount_boundary o hnd huv, edgeCount_indexSides hnd huv]
      have := hconf u v
      split_ifs <;> omega
    · rw [h e1, h e2]; omega
  refine ⟨ha, hd, fun e he hne => ?_, fun a b hab => (cnt a b hab).1⟩
  obtain ⟨c1, c2⟩ := cnt e.1 e.2 hne
  have c3 : 0 < edgeCount segs e.1 e.2 := List.countP_pos_iff.2 ⟨e, he, by simp⟩
  rcases edgeCount_pos (l := ts.flatMap triSides) (a := e.1) (b := e.2) (by omega) with h | h
  · obtain ⟨t, ht, h⟩ := List.mem_flatMap.1 h
    exact ⟨t, ht, .inl h⟩
  · obtain ⟨t, ht, h⟩ := List.mem_flatMap.1 h
    exact ⟨t, ht, .inr h⟩

/-- **C101**, meshes: with the boundary edges that `get_boundary_edges` finds in a conforming mesh, a point not reported on the boundary is inside exactly
if some triangle of the mesh contains it. -/
theorem C101_mesh {ftol : K} (hf : 0 ≤ ftol) (o : RowOrder (Nat × Nat)) {pts : List (K × K)} (hp : pts.Nodup) {t : List Tri} (hconf : Conforming t)
    {ts : List ((K × K) × (K × K) × (K × K))} (hc : List.Forall₂ (CornersOf pts) t ts) (ha : ∀ c ∈ ts, turnOf c.1 c.2.1 c.2.2 ≠ 0)
    (hd : ts.Pairwise fun s t => ∀ q, InTriangle q s.1 s.2.1 s.2.2 → ¬ InTriangle q t.1 t.2.1 t.2.2) {segs : List (Seg K)}
    (hs : segsOf pts (getBoundaryEdges o t) = some segs) {q : K × K} (hb : (cPoint ftol segs q).2 = false) :
    (cPoint ftol segs q).1 = true ↔ ∃ c ∈ ts, InClosedTriangle q c.1 c.2.1 c.2.2 :=
  C101_region_compiled hf (mesh_triangulates o hp hconf hc ha hd hs) hb

end

/-- The corners of a square and two triangles that share the diagonal, as in `twoTris`. -/
def squarePts : List (ℚ × ℚ) := [(0, 0), (1, 0), (0, 1), (1, 1)]

theorem twoTris_corners : List.Forall₂ (CornersOf squarePts) twoTris [((0, 0), (1, 0), (0, 1)), ((0, 1), (1, 0), (1, 1))] := by
  refine .cons ?_ (.cons ?_ .nil) <;> exact ⟨rfl, rfl, rfl⟩

-- A mesh that meets all hypotheses of C101_mesh, and the answers at two points.
example : squarePts.Nodup ∧ Conforming twoTris ∧
    (∀ c ∈ [(((0, 0), (1, 0), (0, 1)) : (ℚ × ℚ) × (ℚ × ℚ) × (ℚ × ℚ)), ((0, 1), (1, 0), (1, 1))], turnOf c.1 c.2.1 c.2.2 ≠ 0) ∧
    ([(((0, 0), (1, 0), (0, 1)) : (ℚ × ℚ) × (ℚ × ℚ) × (ℚ × ℚ)), ((0, 1), (1, 0), (1, 1))].Pairwise fun s t => ∀ q,
      InTriangle q s.1 s.2.1 s.2.2 → ¬ InTriangle q t.1 t.2.1 t.2.2) ∧
    segsOf squarePts (getBoundaryEdges lexOrder twoTris) = some [((0, 0), (1, 0)), ((0, 0), (0, 1)), ((1, 0), (1, 1)), ((0, 1), (1, 1))] ∧
    cPoint (1 / 1000) [((0, 0), (1, 0)), ((0, 0), (0, 1)), ((1, 0), (1, 1)), ((0, 1), (1, 1))] ((1 / 2, 1 / 2) : ℚ × ℚ) = (true, false) ∧
    cPoint (1 / 1000) [((0, 0), (1, 0)), ((0, 0), (0, 1)), ((1, 0), (1, 1)), ((0, 1), (1, 1))] ((3 / 2, 1 / 2) : ℚ × ℚ) = (false, false) := by
  refine ⟨by decide +kernel, ?_, by decide +kernel, ?_, by decide +kernel, by decide +kernel, by decide +kernel⟩
  · intro u v
    unfold edgeMultiplicity
    exact (List.length_filter_le _ _).trans (by decide)
  · refine List.pairwise_pair.2 fun q h1 h2 => ?_
    obtain ⟨u, v, w, hu, hv, hw, h, hx, hy⟩ := h1
    obtain ⟨u', v', w', hu', hv', hw', h', hx', hy'⟩ := h2
    simp only at hx hy hx' hy'
    linarith

end OM
