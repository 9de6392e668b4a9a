import Verif.Props.Numbering
import Verif.Props.Smooth
import Verif.Props.Quality
import Verif.Props.QualFl2
/-!
# C141: boundaries and cleaning passes do not depend on the numbering
-/
namespace OM
namespace Spec

/-- A mesh in which every vertex occurs once and is used, and every triangle occurs once and has three different corners. -/
def CleanTable {α : Type} (p : List α) (t : List Tri) : Prop :=
  p.Nodup ∧ (∀ v < p.length, ∃ f ∈ t, HasVertex f v) ∧ (t.Pairwise fun f g => ¬ SameVertices f g) ∧ ∀ f ∈ t, Nondegenerate f

/-- A quality that depends on the corner points only, not on their numbers and their order. -/
def GeometricQuality {K : Type} (qual : List (K × K) → Tri → Option K) : Prop :=
  ∀ p f p' g, CornersMatch (fun x y => x = y) p f p' g → qual p f = qual p' g

end Spec
open Spec
section
variable {α : Type}

/-- The points are two different corners of the triangle. -/
def cornerPair (p : List α) (f : Tri) (q r : α) : Prop := q ≠ r ∧ some q ∈ corners p f ∧ some r ∈ corners p f

/-- The points are joined by an edge that belongs to one triangle only. -/
def freeSide (p : List α) (t : List Tri) (q r : α) : Prop := ∃ f ∈ t, cornerPair p f q r ∧ ∀ g ∈ t, cornerPair p g q r → (corners p g).Perm (corners p f)

theorem mem_corners_iff {p : List α} (hp : p.Nodup) {i : Nat} {q : α} (hi : p[i]? = some q) (f : Tri) : some q ∈ corners p f ↔ HasVertex f i := by
  have hlt := (List.getElem?_eq_some_iff.1 hi).1
  have key : ∀ j, some q = p[j]? ↔ i = j := fun j => by
    rw [← hi]
    exact ⟨fun h => (List.getElem?_inj hlt hp).1 h, fun h => by rw [h]⟩
  simp only [corners, List.mem_cons, List.not_mem_nil, or_false, key, HasVertex]

theorem cornerPair_iff {p : List α} (hp : p.Nodup) {i j : Nat} {q r : α} (hi : p[i]? = some q) (hj : p[j]? = some r) (f : Tri) : cornerPair p f q r ↔ HasEdge f i j := by
  unfold cornerPair HasEdge
  rw [mem_corners_iff hp hi, mem_corners_iff hp hj]
  refine and_congr_left fun _ => not_congr ⟨?_, ?_⟩
  · rintro rfl
    exact (List.getElem?_inj (List.getElem?_eq_some_iff.1 hi).1 hp).1 (hi.trans hj.symm)
  · rintro rfl
    rw [hi] at hj
    exact Option.some.inj hj

theorem sameVertices_of_corners {p : List α} (hp : p.Nodup) {f g : Tri} (hf : ∀ v, HasVertex f v → v < p.length) (hg : ∀ v, HasVertex g v → v < p.length)
    (h : (corners p f).Perm (corners p g)) : SameVertices f g := by
  have e : ∀ f : Tri, corners p f = f.toList.map fun i => p[i]? := fun f => rfl
  rw [e, e] at h
  refine perm_of_map_perm (φ := fun i => p[i]?) ?_ h
  intro x hx y hy hxy
  have hlt : x < p.length := by
    rcases List.mem_append.1 hx with hx | hx
    · exact hf x ((hasVertex_iff_mem f x).2 hx)
    · exact hg x ((hasVertex_iff_mem g x).2 hx)
  exact (List.getElem?_inj hlt hp).1 hxy

theorem corners_of_sameVertices (p : List α) {f g : Tri} (h : SameVertices f g) : (corners p f).Perm (corners p g) := List.Perm.map (fun i => p[i]?) h

/-- Rows with the same corners are the same row. -/
theorem table_unique {t : List Tri} (hd : t.Pairwise fun f g => ¬ SameVertices f g) {f g : Tri} (hf : f ∈ t) (hg : g ∈ t) (h : SameVertices f g) : f = g := by
  by_contra hne
  have := (List.pairwise_iff_getElem.1 hd)
  obtain ⟨i, hi, rfl⟩ := List.getElem_of_mem hf
  obtain ⟨j, hj, rfl⟩ := List.getElem_of_mem hg
  rcases lt_trichotomy i j with hij | rfl | hij
  · exact this i j hi hj hij h
  · exact hne rfl
  · exact this j i hj hi hij h.symm

theorem table_nodup {t : List Tri} (hd : t.Pairwise fun f g => ¬ SameVertices f g) : t.Nodup :=
  hd.imp fun {f g} h (e : f = g) => h (e ▸ List.Perm.refl _)

/-- A boundary edge in terms of points. -/
theorem boundary_iff_free {p : List α} {t : List Tri} (hp : p.Nodup) (hv : ValidMesh p t) (hd : t.Pairwise fun f g => ¬ SameVertices f g) {i j : Nat} {q r : α}
    (hi : p[i]? = some q) (hj : p[j]? = some r) : IsBoundaryEdge t i j ↔ freeSide p t q r := by
  unfold IsBoundaryEdge edgeMultiplicity freeSide
  simp only [cornerPair_iff hp hi hj]
  rw [List.length_eq_one_iff]
  constructor
  · rintro ⟨f, hf⟩
    have hm : ∀ g, g ∈ t ∧ HasEdge g i j ↔ g = f := fun g => by
      have : g ∈ t.filter (fun f => decide (HasEdge f i j)) ↔ g ∈ [f] := by rw [hf]
      simpa [List.mem_filter] using this
    obtain ⟨h1, h2⟩ := (hm f).2 rfl
    exact ⟨f, h1, h2, fun g hg he => by rw [(hm g).1 ⟨hg, he⟩]⟩
  · rintro ⟨f, hf, he, hall⟩
    refine ⟨f, ?_⟩
    refine List.perm_singleton.1 ((List.perm_ext_iff_of_nodup ((table_nodup hd).filter _) (List.nodup_singleton f)).2 fun g => ?_)
    rw [List.mem_filter, List.mem_singleton, decide_eq_true_eq]
    constructor
    · rintro ⟨hg, hge⟩
      exact table_unique hd hg hf (sameVertices_of_corners hp (hv g hg) (hv f hf) (hall g hg hge))
    · rintro rfl
      exact ⟨hf, he⟩

theorem cornerPair_match {p p' : List α} {f g : Tri} (h : CornersMatch (fun x y => x = y) p f p' g) {q r : α} (hc : cornerPair p f q r) : cornerPair p' g q r :=
  ⟨hc.1, (cornersMatch_eq_perm h).subset hc.2.1, (cornersMatch_eq_perm h).subset hc.2.2⟩

theorem freeSide_drawing {p p' : List α} {t t' : List Tri} (h : SameDrawing p t p' t') {q r : α} (hf : freeSide p t q r) : freeSide p' t' q r := by
  obtain ⟨f, hft, hfc, hall⟩ := hf
  obtain ⟨g, hg, hm⟩ := h.2.1 f hft
  refine ⟨g, hg, cornerPair_match hm hfc, fun g' hg' hc => ?_⟩
  obtain ⟨f', hf', hm'⟩ := h.2.2 g' hg'
  exact (cornersMatch_eq_perm hm').symm.trans ((hall f' hf' (cornerPair_match (cornersMatch_eq_symm hm') hc)).trans (cornersMatch_eq_perm hm))

theorem freeSide_iff {p p' : List α} {t t' : List Tri} (h : SameDrawing p t p' t') (q r : α) : freeSide p t q r ↔ freeSide p' t' q r :=
  ⟨freeSide_drawing h, freeSide_drawing (drawing_symm h)⟩

/-- **C141** (4) The boundary edges of the same drawing are the same, by the points they join. -/
theorem C141_boundary {p p' : List α} {t t' : List Tri} (h : SameDrawing p t p' t') (hc : CleanTable p t) (hc' : CleanTable p' t') {i j i' j' : Nat} {q r : α}
    (hi : p[i]? = some q) (hj : p[j]? = some r) (hi' : p'[i']? = some q) (hj' : p'[j']? = some r) : IsBoundaryEdge t i j ↔ IsBoundaryEdge t' i' j' := by
  rw [boundary_iff_free hc.1 (drawing_valid h) hc.2.2.1 hi hj, boundary_iff_free hc'.1 (drawing_valid (drawing_symm h)) hc'.2.2.1 hi' hj', freeSide_iff h]

theorem boundary_vertex_valid {p : List α} {t : List Tri} (hv : ValidMesh p t) {u v : Nat} (h : IsBoundaryEdge t u v) : (∃ q, p[u]? = some q) ∧ ∃ r, p[v]? = some r := by
  obtain ⟨-, f, hf, hu, hw⟩ := IsBoundaryEdge.exists h
  exact ⟨⟨_, List.getElem?_eq_getElem (hv f hf u hu)⟩, ⟨_, List.getElem?_eq_getElem (hv f hf v hw)⟩⟩

theorem place_in {p p' : List α} (h : ∀ q, q ∈ p ↔ q ∈ p') {i : Nat} {q : α} (hi : p[i]? = some q) : ∃ j : Nat, p'[j]? = some q := by
  obtain ⟨j, hj, e⟩ := List.getElem_of_mem ((h q).1 (List.mem_of_getElem? hi))
  exact ⟨j, e ▸ List.getElem?_eq_getElem hj⟩

/-- Touching the boundary, in terms of points. -/
theorem touches_iff {p : List α} {t : List Tri} (hp : p.Nodup) (hv : ValidMesh p t) (hd : t.Pairwise fun f g => ¬ SameVertices f g) {f : Tri} :
    TouchesBoundary t f ↔ ∃ q r, some q ∈ corners p f ∧ q ∈ p ∧ r ∈ p ∧ freeSide p t q r := by
  unfold TouchesBoundary
  constructor
  · rintro ⟨v, hfv, hb⟩
    obtain ⟨w, hw⟩ := List.length_pos_iff_exists_mem.1 hb
    have hb := mem_boundaryNeighbours.1 hw
    obtain ⟨⟨q, hq⟩, ⟨r, hr⟩⟩ := boundary_vertex_valid hv hb
    exact ⟨q, r, (mem_corners_iff hp hq f).2 hfv, List.mem_of_getElem? hq, List.mem_of_getElem? hr, (boundary_iff_free hp hv hd hq hr).1 hb⟩
  · rintro ⟨q, r, h1, h2, h3, h4⟩
    obtain ⟨i, hi, rfl⟩ := List.getElem_of_mem h2
    obtain ⟨j, hj, rfl⟩ := List.getElem_of_mem h3
    have ei := List.getElem?_eq_getElem hi
    have ej := List.getElem?_eq_getElem hj
    exact ⟨i, (mem_corners_iff hp ei f).1 h1, List.length_pos_of_mem (mem_boundaryNeighbours.2 ((boundary_iff_free hp hv hd ei ej).2 h4))⟩

theorem touches_match {p p' : List α} {t t' : List Tri} (h : SameDrawing p t p' t') (hc : CleanTable p t) (hc' : CleanTable p' t') {f g : Tri}
    (hm : CornersMatch (fun x y => x = y) p f p' g) : TouchesBoundary t f ↔ TouchesBoundary t' g := by
  rw [touches_iff hc.1 (drawing_valid h) hc.2.2.1, touches_iff hc'.1 (drawing_valid (drawing_symm h)) hc'.2.2.1]
  simp only [h.1, freeSide_iff h, (cornersMatch_eq_perm hm).mem_iff]

/-- The number of boundary edges at a point. -/
theorem degree_le {p p' : List α} {t t' : List Tri} (h : SameDrawing p t p' t') (hc : CleanTable p t) (hc' : CleanTable p' t') {i i' : Nat} {q : α}
    (hi : p[i]? = some q) (hi' : p'[i']? = some q) : boundaryDegree t i ≤ boundaryDegree t' i' := by
  classical
  unfold boundaryDegree
  have hn : (boundaryNeighbours t i).Nodup := (List.nodup_dedup _).filter _
  have hval : ∀ w ∈ boundaryNeighbours t i, ∃ r, p[w]? = some r := fun w hw => (boundary_vertex_valid (drawing_valid h) (mem_boundaryNeighbours.1 hw)).2
  have hex : ∀ w, ∃ w', w ∈ boundaryNeighbours t i → ∃ r, p[w]? = some r ∧ p'[w']? = some r := fun w => by
    by_cases hw : w ∈ boundaryNeighbours t i
    · obtain ⟨r, hr⟩ := hval w hw
      obtain ⟨j, hj⟩ := place_in h.1 hr
      exact ⟨j, fun _ => ⟨r, hr, hj⟩⟩
    · exact ⟨0, fun h => absurd h hw⟩
  choose s hs using hex
  have hmap : ((boundaryNeighbours t i).map s).Nodup := by
    refine List.Nodup.map_on ?_ hn
    intro x hx y hy hxy
    obtain ⟨r, h1, h2⟩ := hs x hx
    obtain ⟨r', h3, h4⟩ := hs y hy
    rw [hxy, h4] at h2
    cases h2
    exact (List.getElem?_inj (List.getElem?_eq_some_iff.1 h1).1 hc.1).1 (h1.trans h3.symm)
  have hsub : (boundaryNeighbours t i).map s ⊆ boundaryNeighbours t' i' := by
    intro x hx
    obtain ⟨w, hw, rfl⟩ := List.mem_map.1 hx
    obtain ⟨r, h1, h2⟩ := hs w hw
    exact mem_boundaryNeighbours.2 ((C141_boundary h hc hc' hi h1 hi' h2).1 (mem_boundaryNeighbours.1 hw))
  have := (List.subperm_of_subset hmap hsub).length_le
  simpa using this

/-- **C141** (5) Every point has the same number of boundary edges. -/
theorem C141_boundary_degree {p p' : List α} {t t' : List Tri} (h : SameDrawing p t p' t') (hc : CleanTable p t) (hc' : CleanTable p' t') {i i' : Nat} {q : α}
    (hi : p[i]? = some q) (hi' : p'[i']? = some q) : boundaryDegree t i = boundaryDegree t' i' :=
  le_antisymm (degree_le h hc hc' hi hi') (degree_le (drawing_symm h) hc' hc hi' hi)

theorem conforming_drawing {p p' : List α} {t t' : List Tri} (h : SameDrawing p t p' t') (hc : CleanTable p t) (hc' : CleanTable p' t') (hcf : Conforming t) :
    Conforming t' := by
  classical
  intro u v
  unfold edgeMultiplicity
  have hv := drawing_valid h
  have hv' := drawing_valid (drawing_symm h)
  cases hl : t'.filter fun f => HasEdge f u v with
  | nil => simp
  | cons g0 _ =>
    have hm0 : g0 ∈ t'.filter fun f => HasEdge f u v := by rw [hl]; simp
    rw [← hl]
    obtain ⟨hg0, he0⟩ := List.mem_filter.1 hm0
    have he0 := of_decide_eq_true he0
    have hu := List.getElem?_eq_getElem (hv' g0 hg0 u he0.2.1)
    have hw := List.getElem?_eq_getElem (hv' g0 hg0 v he0.2.2)
    obtain ⟨i, hi⟩ := place_in (drawing_symm h).1 hu
    obtain ⟨j, hj⟩ := place_in (drawing_symm h).1 hw
    have hex : ∀ g, ∃ f, g ∈ t' → f ∈ t ∧ CornersMatch (fun x y => x = y) p f p' g := fun g => by
      by_cases hg : g ∈ t'
      · obtain ⟨f, hf, hm⟩ := h.2.2 g hg
        exact ⟨f, fun _ => ⟨hf, hm⟩⟩
      · exact ⟨g, fun h => absurd h hg⟩
    choose s hs using hex
    have hmap : ((t'.filter fun f => HasEdge f u v).map s).Nodup := by
      refine List.Nodup.map_on ?_ ((table_nodup hc'.2.2.1).filter _)
      intro x hx y hy hxy
      have hx := (List.mem_filter.1 hx).1
      have hy := (List.mem_filter.1 hy).1
      have h1 := cornersMatch_eq_perm (hs x hx).2
      have h2 := cornersMatch_eq_perm (hs y hy).2
      rw [hxy] at h1
      exact table_unique hc'.2.2.1 hx hy (sameVertices_of_corners hc'.1 (hv' x hx) (hv' y hy) (h1.symm.trans h2))
    have hsub : (t'.filter fun f => HasEdge f u v).map s ⊆ t.filter fun f => HasEdge f i j := by
      intro x hx
      obtain ⟨g, hg, rfl⟩ := List.mem_map.1 hx
      obtain ⟨hg, he⟩ := List.mem_filter.1 hg
      refine List.mem_filter.2 ⟨(hs g hg).1, decide_eq_true ?_⟩
      exact (cornerPair_iff hc.1 hi hj _).1 (cornerPair_match (cornersMatch_eq_symm (hs g hg).2) ((cornerPair_iff hc'.1 hu hw g).2 (of_decide_eq_true he)))
    have hle := (List.subperm_of_subset hmap hsub).length_le
    rw [List.length_map] at hle
    exact hle.trans (hcf i j)

theorem degree_bound {p p' : List α} {t t' : List Tri} (h : SameDrawing p t p' t') (hc : CleanTable p t) (hc' : CleanTable p' t') (h2 : ∀ v, boundaryDegree t v ≤ 2) :
    ∀ v, boundaryDegree t' v ≤ 2 := by
  intro v
  rcases Nat.eq_zero_or_pos (boundaryDegree t' v) with h0 | h0
  · omega
  · obtain ⟨w, hw⟩ := List.length_pos_iff_exists_mem.1 h0
    obtain ⟨⟨q, hq⟩, -⟩ := boundary_vertex_valid (drawing_valid (drawing_symm h)) (mem_boundaryNeighbours.1 hw)
    obtain ⟨j, hj⟩ := place_in (drawing_symm h).1 hq
    rw [← C141_boundary_degree h hc hc' hj hq]
    exact h2 j
end

section
variable {K : Type} [Field K] [LinearOrder K] [IsStrictOrderedRing K]

theorem refix_drawing {E : Engine K} (hr : IsRounding E.rnd) (hpt : 0 < E.ptol) {p p' : List (K × K)} {t t' : List Tri} {e : K} (he : IsExtent p e)
    (hsep : Separated (e * E.ptol) p) (hd : SameDrawing p t p' t') : ∃ m, refix E p t = some m ∧ refix E p' t' = some m := by
  obtain ⟨R, R', h1, h2, h3, h4, -⟩ := C141_exact_partial hr E.oP E.oT true hpt he hsep hd
  refine ⟨⟨R.p, R.t⟩, by rw [refix, h1]; rfl, ?_⟩
  rw [refix, h2, h3, h4]
  rfl

/-- The rows that `delete_boundary_faces` keeps. -/
theorem kept_rows (E : Engine K) (minQual : K) {m : Mesh K} (hv : ValidMesh m.p m.t) (hc : CleanTable m.p m.t) :
    ∃ t', deleteBoundaryRows E.oE E.srtV (E.qual m.p) minQual m.p m.t = some t' ∧
      ∀ f, f ∈ t' ↔ f ∈ m.t ∧ ¬ (TouchesBoundary m.t f ∧ ∃ q, E.qual m.p f = some q ∧ q < minQual) := by
  obtain ⟨t', h1, h2⟩ := deleteBoundaryRows_spec E.oE E.srtV (E.qual m.p) minQual hv hc.2.1
  refine ⟨t', h1, fun f => ?_⟩
  rw [h2, List.mem_filter]
  apply and_congr_right
  intro _
  rw [Bool.not_eq_true', ← Bool.not_eq_true]
  apply not_congr
  simp only [Bool.and_eq_true, Bool.or_eq_true, List.contains_iff_mem, mem_flat_boundary E.oE hc.2.2.2]
  rw [and_comm]
  apply and_congr
  · constructor
    · rintro ((h | h) | h)
      · exact ⟨_, Or.inl rfl, h⟩
      · exact ⟨_, Or.inr (Or.inl rfl), h⟩
      · exact ⟨_, Or.inr (Or.inr rfl), h⟩
    · rintro ⟨v, rfl | rfl | rfl, h⟩
      · exact Or.inl (Or.inl h)
      · exact Or.inl (Or.inr h)
      · exact Or.inr h
  · cases E.qual m.p f with
    | none => simp [belowQual]
    | some q => simp [belowQual]

/-- **C141** (6) `delete_boundary_faces` gives the same mesh, number for number, for every numbering of the same drawing. -/
theorem C141_delete_boundary_faces {E : Engine K} (hr : IsRounding E.rnd) (hpt : 0 < E.ptol) (hq : GeometricQuality E.qual) (minQual : K) {m m' : Mesh K} {e : K}
    (he : IsExtent m.p e) (hsep : Separated (e * E.ptol) m.p) (hd : SameDrawing m.p m.t m'.p m'.t) (hc : CleanTable m.p m.t) (hc' : CleanTable m'.p m'.t) :
    ∃ r, deleteBoundaryFaces E minQual m = some r ∧ deleteBoundaryFaces E minQual m' = some r := by
  obtain ⟨s, h1, h2⟩ := kept_rows E minQual (drawing_valid hd) hc
  obtain ⟨s', h1', h2'⟩ := kept_rows E minQual (drawing_valid (drawing_symm hd)) hc'
  have hds : SameDrawing m.p s m'.p s' := by
    refine ⟨hd.1, fun f hf => ?_, fun g hg => ?_⟩
    · obtain ⟨g, hg, hm⟩ := hd.2.1 f ((h2 f).1 hf).1
      refine ⟨g, (h2' g).2 ⟨hg, ?_⟩, hm⟩
      rw [← touches_match hd hc hc' hm, ← hq _ _ _ _ hm]
      exact ((h2 f).1 hf).2
    · obtain ⟨f, hf, hm⟩ := hd.2.2 g ((h2' g).1 hg).1
      refine ⟨f, (h2 f).2 ⟨hf, ?_⟩, hm⟩
      rw [touches_match hd hc hc' hm, hq _ _ _ _ hm]
      exact ((h2' g).1 hg).2
  obtain ⟨r, e1, e2⟩ := refix_drawing hr hpt he hsep hds
  exact ⟨r, by rw [deleteBoundaryFaces, h1, Option.bind_eq_bind, Option.bind_some, e1], by rw [deleteBoundaryFaces, h1', Option.bind_eq_bind, Option.bind_some, e2]⟩
end

/-! ### Triangles with one neighbour -/

section
variable {α : Type}

/-- The triangles have two corner points in common. -/
def sharePair (p : List α) (f g : Tri) : Prop := ∃ q r, cornerPair p f q r ∧ cornerPair p g q r

/-- Of the other triangles exactly one has two corner points in common with the triangle. -/
def oneSharing (p : List α) (t : List Tri) (f : Tri) : Prop :=
  ∃ h ∈ t, ¬ (corners p h).Perm (corners p f) ∧ sharePair p f h ∧ ∀ h' ∈ t, ¬ (corners p h').Perm (corners p f) → sharePair p f h' → (corners p h').Perm (corners p h)

theorem adjacent_iff_share {p : List α} {t : List Tri} (hp : p.Nodup) (hv : ValidMesh p t) {f g : Tri} (hf : f ∈ t) (hnf : Nondegenerate f) (hng : Nondegenerate g) :
    Adjacent f g ↔ sharePair p f g := by
  unfold Adjacent sharePair
  simp only [hasSide_iff_hasEdge hnf, hasSide_iff_hasEdge hng]
  constructor
  · rintro ⟨u, v, h1, h2⟩
    have hu := List.getElem?_eq_getElem (hv f hf u h1.2.1)
    have hw := List.getElem?_eq_getElem (hv f hf v h1.2.2)
    exact ⟨_, _, (cornerPair_iff hp hu hw f).2 h1, (cornerPair_iff hp hu hw g).2 h2⟩
  · rintro ⟨q, r, h1, h2⟩
    have get : ∀ x, some x ∈ corners p f → ∃ i, p[i]? = some x := fun x hx => by
      simp only [corners, List.mem_cons, List.not_mem_nil, or_false] at hx
      rcases hx with h | h | h <;> exact ⟨_, h.symm⟩
    obtain ⟨i, hi⟩ := get q h1.2.1
    obtain ⟨j, hj⟩ := get r h1.2.2
    exact ⟨i, j, (cornerPair_iff hp hi hj f).1 h1, (cornerPair_iff hp hi hj g).1 h2⟩

theorem oneNeighbour_iff {p : List α} {t : List Tri} (hv : ValidMesh p t) (hc : CleanTable p t) {c : Nat} {f : Tri} (hf : t[c]? = some f) :
    HasOneNeighbour t c ↔ oneSharing p t f := by
  obtain ⟨hp, -, hd, hn⟩ := hc
  have hft := List.mem_of_getElem? hf
  have hcl := (List.getElem?_eq_some_iff.1 hf).1
  have same : ∀ {g h : Tri}, g ∈ t → h ∈ t → (corners p g).Perm (corners p h) → g = h := fun hg hh e =>
    table_unique hd hg hh (sameVertices_of_corners hp (hv _ hg) (hv _ hh) e)
  have row : ∀ {i j : Nat} {h : Tri}, t[i]? = some h → t[j]? = some h → i = j := fun hi hj =>
    (List.getElem?_inj (List.getElem?_eq_some_iff.1 hi).1 (table_nodup hd)).1 (hi.trans hj.symm)
  have adj : ∀ {h : Tri}, h ∈ t → (Adjacent f h ↔ sharePair p f h) := fun hh => adjacent_iff_share hp hv hft (hn f hft) (hn _ hh)
  constructor
  · rintro ⟨f', g, h, hf', hne, hg, ha, hall⟩
    rw [hf] at hf'
    cases hf'
    have hht := List.mem_of_getElem? hg
    refine ⟨h, hht, fun e => hne ?_, (adj hht).1 ha, fun h' hh' hne' hs => ?_⟩
    · rw [same hht hft e] at hg
      exact row hg hf
    · obtain ⟨i, hi, e⟩ := List.getElem_of_mem hh'
      have hi' : t[i]? = some h' := e ▸ List.getElem?_eq_getElem hi
      have : i = g := hall i h' (fun hic => by
        subst hic
        rw [hf] at hi'
        cases hi'
        exact hne' (List.Perm.refl _)) hi' ((adj hh').2 hs)
      rw [this, hg] at hi'
      cases hi'
      exact List.Perm.refl _
  · rintro ⟨h, hh, hne, hs, hall⟩
    obtain ⟨g, hg, e⟩ := List.getElem_of_mem hh
    have hg' : t[g]? = some h := e ▸ List.getElem?_eq_getElem hg
    refine ⟨f, g, h, hf, fun hgc => ?_, hg', (adj hh).2 hs, fun g' h' hne' hh' ha => ?_⟩
    · subst hgc
      rw [hf] at hg'
      cases hg'
      exact hne (List.Perm.refl _)
    · have hm := List.mem_of_getElem? hh'
      have e := same hm hh (hall h' hm (fun e => hne' (by rw [same hm hft e] at hh'; exact row hh' hf)) ((adj hm).1 ha))
      rw [e] at hh'
      exact row hh' hg'

theorem oneSharing_match {p p' : List α} {t t' : List Tri} (h : SameDrawing p t p' t') {f g : Tri} (hm : CornersMatch (fun x y => x = y) p f p' g)
    (ho : oneSharing p t f) : oneSharing p' t' g := by
  obtain ⟨x, hx, h1, ⟨q, r, h2, h3⟩, h4⟩ := ho
  obtain ⟨y, hy, hxy⟩ := h.2.1 x hx
  have pf := cornersMatch_eq_perm hm
  have px := cornersMatch_eq_perm hxy
  refine ⟨y, hy, fun e => h1 (px.trans (e.trans pf.symm)), ⟨q, r, cornerPair_match hm h2, cornerPair_match hxy h3⟩, fun y' hy' hne hs => ?_⟩
  obtain ⟨x', hx', hxy'⟩ := h.2.2 y' hy'
  have px' := cornersMatch_eq_perm hxy'
  obtain ⟨q', r', h5, h6⟩ := hs
  exact px'.symm.trans ((h4 x' hx' (fun e => hne (px'.symm.trans (e.trans pf))) ⟨q', r', cornerPair_match (cornersMatch_eq_symm hm) h5,
    cornerPair_match (cornersMatch_eq_symm hxy') h6⟩).trans px)

theorem oneSharing_iff {p p' : List α} {t t' : List Tri} (h : SameDrawing p t p' t') {f g : Tri} (hm : CornersMatch (fun x y => x = y) p f p' g) :
    oneSharing p t f ↔ oneSharing p' t' g := ⟨oneSharing_match h hm, oneSharing_match (drawing_symm h) (cornersMatch_eq_symm hm)⟩

theorem exists_one_iff {p p' : List α} {t t' : List Tri} (h : SameDrawing p t p' t') (hc : CleanTable p t) (hc' : CleanTable p' t') (ho : ∃ c, HasOneNeighbour t c) :
    ∃ c, HasOneNeighbour t' c := by
  obtain ⟨c, hc1⟩ := ho
  obtain ⟨f, -, -, hf, -⟩ := id hc1
  obtain ⟨g, hg, hm⟩ := h.2.1 f (List.mem_of_getElem? hf)
  obtain ⟨j, hj, e⟩ := List.getElem_of_mem hg
  have hj' : t'[j]? = some g := e ▸ List.getElem?_eq_getElem hj
  exact ⟨j, (oneNeighbour_iff (drawing_valid (drawing_symm h)) hc' hj').2 ((oneSharing_iff h hm).1 ((oneNeighbour_iff (drawing_valid h) hc hf).1 hc1))⟩
end

section
variable {K : Type} [Field K] [LinearOrder K] [IsStrictOrderedRing K]

theorem oneFaceLoop_more (E : Engine K) : ∀ (n k : Nat) (left : Option Nat) (m : Mesh K) (r : Option (Mesh K)), oneFaceLoop E n left m = some r → oneFaceLoop E (n + k) left m = some r
  | 0, _, _, _, _, h => by simp [oneFaceLoop] at h
  | n + 1, k, left, m, r, h => by
    rw [Nat.add_right_comm, oneFaceLoop]
    rw [oneFaceLoop] at h
    split_ifs with hl
    · rwa [if_pos hl] at h
    · rw [if_neg hl] at h
      split
      · rename_i hb
        rw [hb] at h
        exact h
      · rename_i d ds hb
        rw [hb] at h
        split
        · rename_i hr
          simp only [hr] at h
          exact h
        · rename_i m' hr
          simp only [hr] at h
          exact oneFaceLoop_more E n k _ m' r h

/-- The rows left by a pass of `delete_faces_connected_to_one_face`. -/
theorem pass_rows (E : Engine K) {m : Mesh K} (hv : ValidMesh m.p m.t) (hc : CleanTable m.p m.t) (hcf : Conforming m.t) :
    (∀ c, c ∈ blocksOfTwo 0 (faceToFace E.srtE m.t).2 ↔ HasOneNeighbour m.t c) ∧
      ∀ f, f ∈ deleteRows (blocksOfTwo 0 (faceToFace E.srtE m.t).2) m.t ↔ f ∈ m.t ∧ ¬ oneSharing m.p m.t f := by
  classical
  have h1 : ∀ c, c ∈ blocksOfTwo 0 (faceToFace E.srtE m.t).2 ↔ HasOneNeighbour m.t c := by
    intro c
    rw [mem_blocksOfTwo_faces]
    constructor
    · rintro ⟨hcl, hb⟩; exact (block_two_iff hc.2.2.2 hcf hc.2.2.1 hcl).1 hb
    · intro ho
      have hcl : c < m.t.length := by
        obtain ⟨f, -, -, hf, -⟩ := ho
        exact (List.getElem?_eq_some_iff.1 hf).1
      exact ⟨hcl, (block_two_iff hc.2.2.2 hcf hc.2.2.1 hcl).2 ho⟩
  refine ⟨h1, fun f => ?_⟩
  rw [deleteRows_filter (P := fun f => decide (oneSharing m.p m.t f)) fun k f hf => by rw [h1, oneNeighbour_iff hv hc hf, decide_eq_true_eq]]
  simp

/-- **C141** (8) `delete_faces_connected_to_one_face` on the same drawing: if a triangle is deleted the results are the same mesh, number for number; otherwise both
meshes are returned as they are. -/
theorem C141_delete_one_face {E : Engine K} (hr : IsRounding E.rnd) (hpt : 0 < E.ptol) {maxIter : Option Nat} (hi : maxIter ≠ some 0) {m m' : Mesh K} {e : K}
    (he : IsExtent m.p e) (hsep : Separated (e * E.ptol) m.p) (hd : SameDrawing m.p m.t m'.p m'.t) (hc : CleanTable m.p m.t) (hc' : CleanTable m'.p m'.t)
    (hcf : Conforming m.t) :
    ((∃ c, HasOneNeighbour m.t c) ∧ deleteOneFace E maxIter m = deleteOneFace E maxIter m') ∨
      ((∀ c, ¬ HasOneNeighbour m.t c) ∧ deleteOneFace E maxIter m = some (some m) ∧ deleteOneFace E maxIter m' = some (some m')) := by
  have hcf' := conforming_drawing hd hc hc' hcf
  by_cases ho : ∃ c, HasOneNeighbour m.t c
  · refine .inl ⟨ho, ?_⟩
    obtain ⟨a1, a2⟩ := pass_rows E (drawing_valid hd) hc hcf
    obtain ⟨b1, b2⟩ := pass_rows E (drawing_valid (drawing_symm hd)) hc' hcf'
    have hds : SameDrawing m.p (deleteRows (blocksOfTwo 0 (faceToFace E.srtE m.t).2) m.t) m'.p (deleteRows (blocksOfTwo 0 (faceToFace E.srtE m'.t).2) m'.t) := by
      refine ⟨hd.1, fun f hf => ?_, fun g hg => ?_⟩
      · obtain ⟨g, hg, hm⟩ := hd.2.1 f ((a2 f).1 hf).1
        exact ⟨g, (b2 g).2 ⟨hg, fun h => ((a2 f).1 hf).2 ((oneSharing_iff hd hm).2 h)⟩, hm⟩
      · obtain ⟨f, hf, hm⟩ := hd.2.2 g ((b2 g).1 hg).1
        exact ⟨f, (a2 f).2 ⟨hf, fun h => ((b2 g).1 hg).2 ((oneSharing_iff hd hm).1 h)⟩, hm⟩
    obtain ⟨r, e1, e2⟩ := refix_drawing hr hpt he hsep hds
    obtain ⟨x, hx⟩ := C18_terminates E maxIter m |>.1
    obtain ⟨y, hy⟩ := C18_terminates E maxIter m' |>.1
    have step : ∀ {m : Mesh K} {x : Option (Mesh K)}, (∃ c, HasOneNeighbour m.t c) → (∀ c, c ∈ blocksOfTwo 0 (faceToFace E.srtE m.t).2 ↔ HasOneNeighbour m.t c) →
        refix E m.p (deleteRows (blocksOfTwo 0 (faceToFace E.srtE m.t).2) m.t) = some r → deleteOneFace E maxIter m = some x →
        oneFaceLoop E m.t.length (maxIter.map (· - 1)) r = some x := by
      intro m x ho h1 h2 hx
      rw [deleteOneFace, if_neg hi, oneFaceLoop, if_neg hi] at hx
      cases hb : blocksOfTwo 0 (faceToFace E.srtE m.t).2 with
      | nil =>
        obtain ⟨c, hc⟩ := ho
        have := (h1 c).2 hc
        rw [hb] at this
        simp at this
      | cons d ds =>
        rw [hb] at hx h2
        simp only [h2] at hx
        exact hx
    have hx' := oneFaceLoop_more E _ m'.t.length _ _ _ (step ho a1 e1 hx)
    have hy' := oneFaceLoop_more E _ m.t.length _ _ _ (step (exists_one_iff hd hc hc' ho) b1 e2 hy)
    rw [Nat.add_comm, hx'] at hy'
    rw [hx, hy]
    exact hy'
  · have ho' : ¬ ∃ c, HasOneNeighbour m'.t c := fun h => ho (exists_one_iff (drawing_symm hd) hc' hc h)
    rw [not_exists] at ho ho'
    exact .inr ⟨ho, C18_unchanged E hi hc.2.2.2 hcf hc.2.2.1 ho, C18_unchanged E hi hc'.2.2.2 hcf' hc'.2.2.1 ho'⟩
end

/-! ### Qualities, witnesses and examples -/

theorem perm_of_some {α : Type} {a b c x y z : α} (h : [some a, some b, some c].Perm [some x, some y, some z]) : [a, b, c].Perm [x, y, z] :=
  (List.map_perm_map_iff (l := [a, b, c]) (l' := [x, y, z]) (Option.some_injective _)).1 h

theorem triQual_perm {x y z x' y' z' : ℝ × ℝ} (h : [x, y, z].Perm [x', y', z']) : triQual x y z = triQual x' y' z' := by
  have s1 : ∀ p q r : ℝ × ℝ, triQual q p r = triQual p q r := fun p q r => (C11_quality_invariance_partial p q r 0).2.1
  have s2 : ∀ p q r : ℝ × ℝ, triQual p r q = triQual p q r := fun p q r => (C11_quality_invariance_partial p q r 0).2.2
  have h' := List.mem_permutations'.2 h
  simp only [List.permutations', List.permutations'Aux, List.flatMap_cons, List.flatMap_nil, List.map_cons, List.map_nil, List.append_nil, List.cons_append, List.nil_append,
    List.mem_cons, List.cons.injEq, and_true, List.not_mem_nil, or_false] at h'
  rcases h' with ⟨rfl, rfl, rfl⟩ | ⟨rfl, rfl, rfl⟩ | ⟨rfl, rfl, rfl⟩ | ⟨rfl, rfl, rfl⟩ | ⟨rfl, rfl, rfl⟩ | ⟨rfl, rfl, rfl⟩
  · rfl
  · rw [s1]
  · exact ((s1 x z y).trans (s2 x y z)).symm
  · rw [s2]
  · exact ((s2 y x z).trans (s1 x y z)).symm
  · exact ((s1 y z x).trans ((s2 y x z).trans (s1 x y z))).symm

/-- **C141** (9) The exact `simp_qual` is a quality of the points. -/
theorem C141_quality : GeometricQuality (faceQualFl (K := ℝ) id (rootFl id)) := by
  intro p f p' g h
  obtain ⟨x, y, z, x', y', z', h1, h2, rfl, rfl, rfl⟩ := cornersMatch_eq_symm (cornersMatch_eq_symm h)
  obtain ⟨a, b, c, -, -, -, h3, -⟩ := cornersMatch_eq_symm h
  rw [faceQualFl_corners h1, faceQualFl_corners h3, C131_exact, C131_exact]
  rw [h3] at h2
  exact (triQual_perm (perm_of_some h2)).symm

theorem cornersMatch_of_perm {α : Type} {p p' : List α} {f g : Tri} (hv : ∀ v, HasVertex f v → v < p.length) (h : (corners p f).Perm (corners p' g)) :
    CornersMatch (fun x y => x = y) p f p' g := by
  have ha := List.getElem?_eq_getElem (hv f.a (Or.inl rfl))
  have hb := List.getElem?_eq_getElem (hv f.b (Or.inr (Or.inl rfl)))
  have hc := List.getElem?_eq_getElem (hv f.c (Or.inr (Or.inr rfl)))
  generalize p[f.a]'(hv f.a (Or.inl rfl)) = x at ha
  generalize p[f.b]'(hv f.b (Or.inr (Or.inl rfl))) = y at hb
  generalize p[f.c]'(hv f.c (Or.inr (Or.inr rfl))) = z at hc
  have e : corners p f = [some x, some y, some z] := by unfold corners; rw [ha, hb, hc]
  exact ⟨_, _, _, _, _, _, e, e ▸ h.symm, rfl, rfl, rfl⟩

theorem drawing_of_check {α : Type} {p p' : List α} {t t' : List Tri} (h1 : ∀ q ∈ p, q ∈ p') (h2 : ∀ q ∈ p', q ∈ p) (hv : ValidMesh p t)
    (h3 : ∀ f ∈ t, ∃ g ∈ t', (corners p f).Perm (corners p' g)) (h4 : ∀ g ∈ t', ∃ f ∈ t, (corners p f).Perm (corners p' g)) : SameDrawing p t p' t' :=
  ⟨fun q => ⟨h1 q, h2 q⟩, fun f hf => let ⟨g, hg, h⟩ := h3 f hf; ⟨g, hg, cornersMatch_of_perm (hv f hf) h⟩,
    fun g hg => let ⟨f, hf, h⟩ := h4 g hg; ⟨f, hf, cornersMatch_of_perm (hv f hf) h⟩⟩

/-- The absolute area as quality. -/
def sizeEngine : Engine ℚ := { engineQ with qual := fun p f => (faceVol p f).map abs }

theorem sizeEngine_geometric : GeometricQuality sizeEngine.qual := by
  intro p f p' g h
  obtain ⟨x, y, z, x', y', z', h1, h2, rfl, rfl, rfl⟩ := h
  obtain ⟨a, b, c, -, -, -, h3, -⟩ := cornersMatch_eq_symm ⟨x, y, z, x, y, z, h1, h2, rfl, rfl, rfl⟩
  have vol : ∀ {p : List (ℚ × ℚ)} {f : Tri} {x y z : ℚ × ℚ}, corners p f = [some x, some y, some z] → sizeEngine.qual p f = some |signedArea x y z| := by
    intro p f x y z h
    simp only [corners, List.cons.injEq, and_true] at h
    simp only [sizeEngine, faceVol, h.1, h.2.1, h.2.2, Option.map_some, triVol_eq_signedArea]
  rw [vol h1, vol h3, Option.some.injEq]
  rw [h3] at h2
  exact (abs_signedArea_perm (perm_of_some h2)).symm

/-- Three triangles in a row. -/
def stripM : Mesh ℚ := ⟨[(0, 0), (1, 0), (0, 1), (1, 1), (0, 2)], [⟨0, 1, 2⟩, ⟨1, 3, 2⟩, ⟨2, 3, 4⟩]⟩

/-- The same drawing with other numbers, another order and other first corners. -/
def stripM' : Mesh ℚ := ⟨[(0, 2), (1, 1), (0, 1), (1, 0), (0, 0)], [⟨1, 0, 2⟩, ⟨3, 4, 2⟩, ⟨1, 2, 3⟩]⟩

theorem strip_drawing : SameDrawing stripM.p stripM.t stripM'.p stripM'.t :=
  drawing_of_check (by decide +kernel) (by decide +kernel) (validMesh_of_bound (by decide)) (by decide +kernel) (by decide +kernel)

theorem strip_clean : CleanTable stripM.p stripM.t ∧ CleanTable stripM'.p stripM'.t := by
  unfold CleanTable SameVertices
  refine ⟨⟨?_, ?_, ?_, ?_⟩, ⟨?_, ?_, ?_, ?_⟩⟩ <;> decide +kernel

theorem strip_extent : IsExtent stripM.p 2 := by
  refine ⟨⟨(0, 2), by simp [stripM], (0, 0), by simp [stripM], Or.inr (by norm_num)⟩, ?_⟩
  have : ∀ q ∈ stripM.p, ∀ q' ∈ stripM.p, |q.1 - q'.1| ≤ 2 ∧ |q.2 - q'.2| ≤ 2 := by decide +kernel
  exact this

theorem strip_separated : Separated (2 * sizeEngine.ptol) stripM.p := by
  have : ∀ q ∈ stripM.p, ∀ q' ∈ stripM.p, |q.1 - q'.1| ≤ 2 * (1 / 1000) ∧ |q.2 - q'.2| ≤ 2 * (1 / 1000) → q = q' := by decide +kernel
  exact this

example : IsRounding sizeEngine.rnd ∧ 0 < sizeEngine.ptol ∧ GeometricQuality sizeEngine.qual ∧ IsExtent stripM.p 2 ∧ Separated (2 * sizeEngine.ptol) stripM.p ∧
    SameDrawing stripM.p stripM.t stripM'.p stripM'.t ∧ CleanTable stripM.p stripM.t ∧ CleanTable stripM'.p stripM'.t ∧ (∀ v, boundaryDegree stripM.t v ≤ 2) ∧
    Conforming stripM.t :=
  ⟨rndQ_isRounding, by norm_num [sizeEngine, engineQ], sizeEngine_geometric, strip_extent, strip_separated, strip_drawing, strip_clean.1, strip_clean.2,
    boundaryDegree_le_of_bound 5 (by decide) (by decide), conforming_of_bound 5 (by decide) (by decide)⟩

example : deleteBoundaryFaces sizeEngine (1 / 10) stripM = deleteBoundaryFaces sizeEngine (1 / 10) stripM' ∧
    deleteBoundaryFaces sizeEngine (1 / 10) stripM' = some ⟨[(0, 0), (0, 1), (0, 2), (1, 0), (1, 1)], [⟨1, 0, 3⟩, ⟨2, 1, 4⟩, ⟨1, 3, 4⟩]⟩ ∧
    deleteOneFace sizeEngine (some 1) stripM = deleteOneFace sizeEngine (some 1) stripM' ∧
    (∃ r, deleteOneFace sizeEngine (some 1) stripM = some (some r) ∧ r.t.length = 1) := by
  refine ⟨by decide +kernel, by decide +kernel, by decide +kernel, ⟨⟨[(0, 1), (1, 0), (1, 1)], [⟨0, 1, 2⟩]⟩, by decide +kernel, rfl⟩⟩

/-- Two points that are closer than the tolerance. -/
def closeP : List (ℚ × ℚ) := [(0, 0), (1 / 10 ^ 14, 0), (1, 0), (0, 1)]

/-- The same points in another order. -/
def closeP' : List (ℚ × ℚ) := [(1 / 10 ^ 14, 0), (0, 0), (1, 0), (0, 1)]

/-- **C141** (3) Points closer than the tolerance: which of them is kept depends on the order in which they are given. -/
theorem C141_order_matters : SameDrawing closeP [⟨0, 2, 3⟩] closeP' [⟨1, 2, 3⟩] ∧
    ∃ R R', fixMesh roundEven ptOrder triOrder closeP [⟨0, 2, 3⟩] (3961408125713217 / 2 ^ 94) true = some R ∧
      fixMesh roundEven ptOrder triOrder closeP' [⟨1, 2, 3⟩] (3961408125713217 / 2 ^ 94) true = some R' ∧
      R.p = [(0, 0), (0, 1), (1, 0)] ∧ R'.p = [(1 / 10 ^ 14, 0), (0, 1), (1, 0)] := by
  refine ⟨drawing_of_check (by decide +kernel) (by decide +kernel) (validMesh_of_bound (by decide)) (by decide +kernel) (by decide +kernel),
    ⟨[(0, 0), (0, 1), (1, 0)], [⟨1, 0, 2⟩], [0, 1, 2]⟩, ⟨[(1 / 10 ^ 14, 0), (0, 1), (1, 0)], [⟨1, 0, 2⟩], [0, 1, 2]⟩, by decide +kernel, by decide +kernel, rfl, rfl⟩

/-- Two equal triangles that touch in a point. -/
def bowM : Mesh ℚ := ⟨[(-1, 1), (-1, -1), (0, 0), (1, -1), (1, 1)], [⟨0, 1, 2⟩, ⟨2, 3, 4⟩]⟩

/-- The rows exchanged. -/
def bowM' : Mesh ℚ := ⟨bowM.p, [⟨2, 3, 4⟩, ⟨0, 1, 2⟩]⟩

/-- **C141** (12) `delete_interior_faces` on its own does depend on the order of the rows: of two equal triangles that meet in a point the first in the table is
deleted. (`make_mesh_boundaries_traversable` calls it on a table in canonical order.) -/
theorem C141_interior_depends : SameDrawing bowM.p bowM.t bowM'.p bowM'.t ∧ CleanTable bowM.p bowM.t ∧ CleanTable bowM'.p bowM'.t ∧
    deleteInteriorFaces sizeEngine.oE sizeEngine.srtV (sizeEngine.qual bowM.p) bowM.p bowM.t = some ([⟨2, 3, 4⟩], [0]) ∧
    deleteInteriorFaces sizeEngine.oE sizeEngine.srtV (sizeEngine.qual bowM'.p) bowM'.p bowM'.t = some ([⟨0, 1, 2⟩], [0]) := by
  refine ⟨drawing_of_check (by decide +kernel) (by decide +kernel) (validMesh_of_bound (by decide)) (by decide +kernel) (by decide +kernel), ?_, ?_, ?_, ?_⟩
  · unfold CleanTable SameVertices
    refine ⟨?_, ?_, ?_, ?_⟩ <;> decide +kernel
  · unfold CleanTable SameVertices
    refine ⟨?_, ?_, ?_, ?_⟩ <;> decide +kernel
  · decide +kernel
  · decide +kernel

end OM
