import Verif.Props.Numbering3
import Verif.Props.Workflow
/-!
# C142: the cleaning functions commute with moving, turning, mirroring and scaling the mesh
-/
set_option linter.unusedSectionVars false
namespace OM
namespace Spec

/-- The second mesh is the image of the first under `T`, whatever the numbering, the order of the rows and of the corners. -/
def Moved {α β : Type} (T : α → β) (p : List α) (t : List Tri) (p' : List β) (t' : List Tri) : Prop := SameDrawing (p.map T) t p' t'

/-- `T` multiplies all distances by `s`. -/
def IsSimilarity {K : Type} [Field K] (T : K × K → K × K) (s : K) : Prop :=
  ∀ q r, ((T q).1 - (T r).1) ^ 2 + ((T q).2 - (T r).2) ^ 2 = s ^ 2 * ((q.1 - r.1) ^ 2 + (q.2 - r.2) ^ 2)

/-- A quality that is multiplied by `s` when the corners are moved by `T`. -/
def ScalesQuality {K : Type} [Field K] (T : K × K → K × K) (s : K) (qual : List (K × K) → Tri → Option K) : Prop := ∀ p f, qual (p.map T) f = (qual p f).map (s * ·)

end Spec
open Spec

section
variable {α β : Type}

theorem corners_map (T : α → β) (p : List α) (f : Tri) : corners (p.map T) f = (corners p f).map (Option.map T) := by
  simp [corners]

theorem match_trans {p p' p'' : List α} {f g k : Tri} (h : CornersMatch (fun x y => x = y) p f p' g) (h' : CornersMatch (fun x y => x = y) p' g p'' k) :
    CornersMatch (fun x y => x = y) p f p'' k :=
  cornersMatch_of_perm (cornersMatch_valid h) ((cornersMatch_eq_perm h).trans (cornersMatch_eq_perm h'))

theorem match_map (T : α → β) {p p' : List α} {f g : Tri} (h : CornersMatch (fun x y => x = y) p f p' g) :
    CornersMatch (fun x y => x = y) (p.map T) f (p'.map T) g := by
  refine cornersMatch_of_perm (fun v hv => ?_) ?_
  · rw [List.length_map]; exact cornersMatch_valid h v hv
  · rw [corners_map, corners_map]; exact (cornersMatch_eq_perm h).map _

theorem valid_map (T : α → β) {p : List α} {t : List Tri} (h : ValidMesh p t) : ValidMesh (p.map T) t := fun f hf v hv => by
  rw [List.length_map]; exact h f hf v hv

theorem map_valid {T : α → β} {p : List α} {t : List Tri} (h : ValidMesh (p.map T) t) : ValidMesh p t := fun f hf v hv => by
  have := h f hf v hv
  rwa [List.length_map] at this

/-- Meshes in which all points are used are the same drawing if their triangles are the same. -/
theorem drawing_of_rows {p p' : List α} {t t' : List Tri} (hu : ∀ v < p.length, ∃ f ∈ t, HasVertex f v) (hu' : ∀ v < p'.length, ∃ f ∈ t', HasVertex f v)
    (h : ∀ f ∈ t, ∃ g ∈ t', CornersMatch (fun x y => x = y) p f p' g) (h' : ∀ g ∈ t', ∃ f ∈ t, CornersMatch (fun x y => x = y) p f p' g) : SameDrawing p t p' t' := by
  have key : ∀ {p p' : List α} {t t' : List Tri}, (∀ v < p.length, ∃ f ∈ t, HasVertex f v) → (∀ f ∈ t, ∃ g ∈ t', CornersMatch (fun x y => x = y) p f p' g) →
      ∀ q ∈ p, q ∈ p' := by
    intro p p' t t' hu h q hq
    obtain ⟨i, hi, rfl⟩ := List.getElem_of_mem hq
    obtain ⟨f, hf, hv⟩ := hu i hi
    obtain ⟨g, hg, hm⟩ := h f hf
    have h1 : some p[i] ∈ corners p f := by
      rw [← List.getElem?_eq_getElem hi]
      rcases hv with rfl | rfl | rfl <;> simp [corners]
    have h2 := (cornersMatch_eq_perm hm).subset h1
    simp only [corners, List.mem_cons, List.not_mem_nil, or_false] at h2
    rcases h2 with h | h | h <;> exact List.mem_of_getElem? h.symm
  exact ⟨fun q => ⟨key hu h q, key hu' (fun g hg => let ⟨f, hf, hm⟩ := h' g hg; ⟨f, hf, cornersMatch_eq_symm hm⟩) q⟩, h, h'⟩
end

section
variable {K : Type} [Field K] [LinearOrder K] [IsStrictOrderedRing K]

theorem cleanTable_of_good {d : K} {p : List (K × K)} {t : List Tri} (h : GoodMesh d p t) : CleanTable p t := ⟨h.different, h.used, h.single, h.corners⟩

theorem cleanTable_map {T : K × K → K × K} {d : K} {p : List (K × K)} {t : List Tri} (h : GoodMesh d p t) (hT : ∀ q ∈ p, ∀ q' ∈ p, T q = T q' → q = q') :
    CleanTable (p.map T) t :=
  ⟨List.Nodup.map_on hT h.different, fun v hv => h.used v (by rwa [List.length_map] at hv), h.single, h.corners⟩

/-- `fix_mesh` leaves the triangles as they are if the points are further apart than the tolerance. -/
theorem refix_rows {E : Engine K} (hr : IsRounding E.rnd) (hpt : 0 < E.ptol) {p : List (K × K)} {t : List Tri} {m : Mesh K} {e : K} (he : FitsIn e p) (hn : p.Nodup)
    (hs : Separated (e * E.ptol) p) (hv : ValidMesh p t) (h : refix E p t = some m) :
    (∀ f ∈ t, ∃ g ∈ m.t, CornersMatch (fun x y => x = y) p f m.p g) ∧ ∀ g ∈ m.t, ∃ f ∈ t, CornersMatch (fun x y => x = y) p f m.p g := by
  obtain ⟨-, σ, hrel, hσ⟩ := refix_relabelled hr hpt he hn hs hv h
  have key : ∀ f ∈ t, ∀ g ∈ m.t, RowMatches σ g f → CornersMatch (fun x y => x = y) p f m.p g := by
    intro f hf g hg hm
    refine cornersMatch_of_perm (hv f hf) ?_
    have hb := (refix_shape h).1 g hg
    have := hm.map fun i => p[i]?
    simp only [List.map_cons, List.map_nil] at this
    rwa [← hσ _ (hb _ (.inl rfl)), ← hσ _ (hb _ (.inr (.inl rfl))), ← hσ _ (hb _ (.inr (.inr rfl)))] at this
  constructor
  · intro f hf
    obtain ⟨g, hg, hm⟩ := hrel.fwd f hf
    exact ⟨g, hg, key f hf g hg hm⟩
  · intro g hg
    obtain ⟨f, hf, hm⟩ := hrel.bwd g hg
    exact ⟨f, hf, key f hf g hg hm⟩

/-- **C142** (1) `fix_mesh` with `delete_unused=True` of the moved mesh is the moved result, for every map of the plane that leaves the points further apart than
the tolerance. -/
theorem C142_fix_mesh {E : Engine K} (hr : IsRounding E.rnd) (hpt : 0 < E.ptol) (T : K × K → K × K) {p p' : List (K × K)} {t t' : List Tri} {e e' : K}
    (he : FitsIn e p) (hn : p.Nodup) (hs : Separated (e * E.ptol) p) (he' : FitsIn e' p') (hn' : p'.Nodup) (hs' : Separated (e' * E.ptol) p')
    (hrows : (∀ f ∈ t, ∃ g ∈ t', CornersMatch (fun x y => x = y) (p.map T) f p' g) ∧ ∀ g ∈ t', ∃ f ∈ t, CornersMatch (fun x y => x = y) (p.map T) f p' g)
    {m m' : Mesh K} (h : refix E p t = some m) (h' : refix E p' t' = some m') : Moved T m.p m.t m'.p m'.t := by
  have hv : ValidMesh p t := map_valid fun f hf => let ⟨_, _, hm⟩ := hrows.1 f hf; cornersMatch_valid hm
  have hv' : ValidMesh p' t' := fun g hg => let ⟨_, _, hm⟩ := hrows.2 g hg; cornersMatch_valid (cornersMatch_eq_symm hm)
  obtain ⟨a1, a2⟩ := refix_rows hr hpt he hn hs hv h
  obtain ⟨b1, b2⟩ := refix_rows hr hpt he' hn' hs' hv' h'
  refine drawing_of_rows (fun v hv => (refix_shape h).2.1 v (by rwa [List.length_map] at hv)) (refix_shape h').2.1 (fun f hf => ?_) fun g hg => ?_
  · obtain ⟨f1, h1, m1⟩ := a2 f hf
    obtain ⟨g1, h2, m2⟩ := hrows.1 f1 h1
    obtain ⟨g, h3, m3⟩ := b1 g1 h2
    exact ⟨g, h3, match_trans (match_trans (cornersMatch_eq_symm (match_map T m1)) m2) m3⟩
  · obtain ⟨g1, h1, m1⟩ := b2 g hg
    obtain ⟨f1, h2, m2⟩ := hrows.2 g1 h1
    obtain ⟨f, h3, m3⟩ := a1 f1 h2
    exact ⟨f, h3, match_trans (match_trans (cornersMatch_eq_symm (match_map T m3)) m2) m1⟩

/-- **C142** (2) `delete_boundary_faces` of the moved mesh is the moved result, for every map that multiplies the qualities by `s`, if the limit is multiplied by `s`
as well. (`simp_qual` is multiplied by the factor of the lengths, see (7).) -/
theorem C142_boundary_faces {E : Engine K} (hr : IsRounding E.rnd) (hpt : 0 < E.ptol) (hq : GeometricQuality E.qual) {T : K × K → K × K} {s : K} (hs : 0 < s)
    (hT : ScalesQuality T s E.qual) (minQual : K) {m m' : Mesh K} {e e' : K} (hp : m.p ≠ []) (he : FitsIn e m.p) (hg : GoodMesh (e * E.ptol) m.p m.t)
    (he' : FitsIn e' m'.p) (hg' : GoodMesh (e' * E.ptol) m'.p m'.t) (hi : ∀ q ∈ m.p, ∀ q' ∈ m.p, T q = T q' → q = q') (hd : Moved T m.p m.t m'.p m'.t) :
    ∃ r r', deleteBoundaryFaces E minQual m = some r ∧ deleteBoundaryFaces E (s * minQual) m' = some r' ∧ Moved T r.p r.t r'.p r'.t := by
  have hc := cleanTable_of_good hg
  have hcT := cleanTable_map hg hi
  have hc' := cleanTable_of_good hg'
  obtain ⟨k, h1, h2⟩ := kept_rows E minQual hg.valid hc
  obtain ⟨k', h1', h2'⟩ := kept_rows E (s * minQual) hg'.valid hc'
  have hp' : m'.p ≠ [] := by
    intro h0
    obtain ⟨q, hq⟩ := List.exists_mem_of_ne_nil m.p hp
    have := (hd.1 (T q)).1 (List.mem_map_of_mem hq)
    rw [h0] at this
    simp at this
  obtain ⟨R, hR⟩ := C05_fix_mesh_returns E.rnd E.oP E.oT m.p k E.ptol true hp fun f hf => hg.valid f ((h2 f).1 hf).1
  obtain ⟨R', hR'⟩ := C05_fix_mesh_returns E.rnd E.oP E.oT m'.p k' E.ptol true hp' fun f hf => hg'.valid f ((h2' f).1 hf).1
  have h : refix E m.p k = some ⟨R.p, R.t⟩ := by rw [refix, hR]; rfl
  have h' : refix E m'.p k' = some ⟨R'.p, R'.t⟩ := by rw [refix, hR']; rfl
  refine ⟨_, _, by rw [deleteBoundaryFaces, h1, Option.bind_eq_bind, Option.bind_some, h], by rw [deleteBoundaryFaces, h1', Option.bind_eq_bind, Option.bind_some, h'], ?_⟩
  have hq' : ∀ {f g : Tri}, CornersMatch (fun x y => x = y) (m.p.map T) f m'.p g →
      ((∃ q, E.qual m'.p g = some q ∧ q < s * minQual) ↔ ∃ q, E.qual m.p f = some q ∧ q < minQual) := fun {f g} hm => by
    rw [← hq _ _ _ _ hm, hT]
    cases E.qual m.p f with
    | none => simp
    | some q => simp [mul_lt_mul_iff_right₀ hs]
  refine C142_fix_mesh hr hpt T he hg.different hg.apart he' hg'.different hg'.apart ⟨fun f hf => ?_, fun g hg => ?_⟩ h h'
  · obtain ⟨g, hg, hm⟩ := hd.2.1 f ((h2 f).1 hf).1
    refine ⟨g, (h2' g).2 ⟨hg, ?_⟩, hm⟩
    rw [← touches_match hd hcT hc' hm, hq' hm]
    exact ((h2 f).1 hf).2
  · obtain ⟨f, hf, hm⟩ := hd.2.2 g ((h2' g).1 hg).1
    refine ⟨f, (h2 f).2 ⟨hf, ?_⟩, hm⟩
    rw [touches_match hd hcT hc' hm, ← hq' hm]
    exact ((h2' g).1 hg).2

/-- Triangles with one neighbour, on moved points. -/
theorem oneSharing_map {T : K × K → K × K} {d : K} {p : List (K × K)} {t : List Tri} (hg : GoodMesh d p t) (hi : ∀ q ∈ p, ∀ q' ∈ p, T q = T q' → q = q') {f : Tri} (hf : f ∈ t) :
    oneSharing p t f ↔ oneSharing (p.map T) t f := by
  obtain ⟨j, hj, e⟩ := List.getElem_of_mem hf
  have hj' : t[j]? = some f := e ▸ List.getElem?_eq_getElem hj
  rw [← oneNeighbour_iff hg.valid (cleanTable_of_good hg) hj', oneNeighbour_iff (valid_map T hg.valid) (cleanTable_map hg hi) hj']

theorem oneFaceLoop_moved {E : Engine K} (hr : IsRounding E.rnd) (hpt : 0 < E.ptol) {T : K × K → K × K} {e e' : K} : ∀ (n n' : Nat) (left : Option Nat) {m m' r r' : Mesh K},
    FitsIn e m.p → GoodMesh (e * E.ptol) m.p m.t → FitsIn e' m'.p → GoodMesh (e' * E.ptol) m'.p m'.t → (∀ q ∈ m.p, ∀ q' ∈ m.p, T q = T q' → q = q') →
    Moved T m.p m.t m'.p m'.t → oneFaceLoop E n left m = some (some r) → oneFaceLoop E n' left m' = some (some r') → Moved T r.p r.t r'.p r'.t
  | 0, _, _, _, _, _, _, _, _, _, _, _, _, h, _ => by simp [oneFaceLoop] at h
  | _ + 1, 0, _, _, _, _, _, _, _, _, _, _, _, _, h => by simp [oneFaceLoop] at h
  | n + 1, n' + 1, left, m, m', r, r', he, hg, he', hg', hi, hd, h, h' => by
    rw [oneFaceLoop] at h h'
    split_ifs at h h' with hl
    · simp only [Option.some.injEq] at h h'
      subst h h'
      exact hd
    have hcT := cleanTable_map hg hi
    have hc' := cleanTable_of_good hg'
    obtain ⟨a1, a2⟩ := pass_rows E hg.valid (cleanTable_of_good hg) hg.conforming
    obtain ⟨b1, b2⟩ := pass_rows E hg'.valid hc' hg'.conforming
    have hex := exists_one_iff hd hcT hc'
    have hex' := exists_one_iff (drawing_symm hd) hc' hcT
    cases hb : blocksOfTwo 0 (faceToFace E.srtE m.t).2 with
    | nil =>
      have hb' : blocksOfTwo 0 (faceToFace E.srtE m'.t).2 = [] := by
        rw [List.eq_nil_iff_forall_not_mem]
        intro c hc
        obtain ⟨c', hc'⟩ := hex' ⟨c, (b1 c).1 hc⟩
        have := (a1 c').2 hc'
        rw [hb] at this
        simp at this
      rw [hb] at h
      rw [hb'] at h'
      simp only [Option.some.injEq] at h h'
      subst h h'
      exact hd
    | cons d ds =>
      cases hb' : blocksOfTwo 0 (faceToFace E.srtE m'.t).2 with
      | nil =>
        obtain ⟨c', hc'⟩ := hex ⟨d, (a1 d).1 (by rw [hb]; simp)⟩
        have := (b1 c').2 hc'
        rw [hb'] at this
        simp at this
      | cons d' ds' =>
        rw [hb] at h a2
        rw [hb'] at h' b2
        simp only at h h'
        cases hx : refix E m.p (deleteRows (d :: ds) m.t) with
        | none => rw [hx] at h; simp at h
        | some m1 =>
          cases hx' : refix E m'.p (deleteRows (d' :: ds') m'.t) with
          | none => rw [hx'] at h'; simp at h'
          | some m1' =>
            rw [hx] at h
            rw [hx'] at h'
            obtain ⟨g1, s1, -⟩ := refix_good hr hpt he hg (fun f hf => ((a2 f).1 hf).1) hx
            obtain ⟨g1', s1', -⟩ := refix_good hr hpt he' hg' (fun f hf => ((b2 f).1 hf).1) hx'
            refine oneFaceLoop_moved hr hpt n n' _ (fun q hq q' hq' => he q (s1 q hq) q' (s1 q' hq')) g1 (fun q hq q' hq' => he' q (s1' q hq) q' (s1' q' hq')) g1'
              (fun q hq q' hq' => hi q (s1 q hq) q' (s1 q' hq')) ?_ h h'
            refine C142_fix_mesh hr hpt T he hg.different hg.apart he' hg'.different hg'.apart ⟨fun f hf => ?_, fun g hgm => ?_⟩ hx hx'
            · obtain ⟨hft, hns⟩ := (a2 f).1 hf
              obtain ⟨g, hgt, hm⟩ := hd.2.1 f hft
              exact ⟨g, (b2 g).2 ⟨hgt, fun h => hns ((oneSharing_map hg hi hft).2 ((oneSharing_iff hd hm).2 h))⟩, hm⟩
            · obtain ⟨hgt, hns⟩ := (b2 g).1 hgm
              obtain ⟨f, hft, hm⟩ := hd.2.2 g hgt
              exact ⟨f, (a2 f).2 ⟨hft, fun h => hns ((oneSharing_iff hd hm).1 ((oneSharing_map hg hi hft).1 h))⟩, hm⟩

/-- On a good mesh `delete_faces_connected_to_one_face` does not raise. -/
theorem oneFaceLoop_good {E : Engine K} (hr : IsRounding E.rnd) (hpt : 0 < E.ptol) {e : K} : ∀ (n : Nat) (left : Option Nat) {m : Mesh K},
    FitsIn e m.p → GoodMesh (e * E.ptol) m.p m.t → oneFaceLoop E n left m ≠ some none
  | 0, _, _, _, _ => by simp [oneFaceLoop]
  | n + 1, left, m, he, hg => by
    rw [oneFaceLoop]
    split_ifs with hl
    · simp
    obtain ⟨a1, a2⟩ := pass_rows E hg.valid (cleanTable_of_good hg) hg.conforming
    cases hb : blocksOfTwo 0 (faceToFace E.srtE m.t).2 with
    | nil => simp
    | cons d ds =>
      rw [hb] at a2
      simp only
      have hp : m.p ≠ [] := by
        intro h0
        obtain ⟨f, -, -, hf, -⟩ := (a1 d).1 (by rw [hb]; simp)
        have := hg.valid f (List.mem_of_getElem? hf) f.a (.inl rfl)
        rw [h0] at this
        simp at this
      obtain ⟨R, hR⟩ := C05_fix_mesh_returns E.rnd E.oP E.oT m.p (deleteRows (d :: ds) m.t) E.ptol true hp fun f hf => hg.valid f ((a2 f).1 hf).1
      have hx : refix E m.p (deleteRows (d :: ds) m.t) = some ⟨R.p, R.t⟩ := by rw [refix, hR]; rfl
      rw [hx]
      obtain ⟨g1, s1, -⟩ := refix_good hr hpt he hg (fun f hf => ((a2 f).1 hf).1) hx
      exact oneFaceLoop_good hr hpt n _ (fun q hq q' hq' => he q (s1 q hq) q' (s1 q' hq')) g1

/-- **C142** (3) `delete_faces_connected_to_one_face` of the moved mesh is the moved result, for every map of the plane that leaves the points further apart than the
tolerance. -/
theorem C142_one_face {E : Engine K} (hr : IsRounding E.rnd) (hpt : 0 < E.ptol) {T : K × K → K × K} {maxIter : Option Nat} (h0 : maxIter ≠ some 0) {m m' : Mesh K}
    {e e' : K} (he : FitsIn e m.p) (hg : GoodMesh (e * E.ptol) m.p m.t) (he' : FitsIn e' m'.p) (hg' : GoodMesh (e' * E.ptol) m'.p m'.t)
    (hi : ∀ q ∈ m.p, ∀ q' ∈ m.p, T q = T q' → q = q') (hd : Moved T m.p m.t m'.p m'.t) :
    ∃ r r', deleteOneFace E maxIter m = some (some r) ∧ deleteOneFace E maxIter m' = some (some r') ∧ Moved T r.p r.t r'.p r'.t := by
  have key : ∀ {m : Mesh K} {e : K}, FitsIn e m.p → GoodMesh (e * E.ptol) m.p m.t → ∃ r, deleteOneFace E maxIter m = some (some r) := by
    intro m e he hg
    obtain ⟨⟨x, hx⟩, -⟩ := C18_terminates E maxIter m
    cases x with
    | some r => exact ⟨r, hx⟩
    | none =>
      rw [deleteOneFace, if_neg h0] at hx
      exact absurd hx (oneFaceLoop_good hr hpt _ _ he hg)
  obtain ⟨r, hr1⟩ := key he hg
  obtain ⟨r', hr2⟩ := key he' hg'
  refine ⟨r, r', hr1, hr2, ?_⟩
  rw [deleteOneFace, if_neg h0] at hr1 hr2
  exact oneFaceLoop_moved hr hpt _ _ maxIter he hg he' hg' hi hd hr1 hr2

/-- **C142** (4) `delete_exterior_faces` of the moved mesh keeps the moved triangles, whatever the random numbers, for every map that multiplies all areas by the same
factor. -/
theorem C142_exterior {srt srt' : KeySort (Nat × Nat) Nat lexOrder.le} {rand rand' : Nat → Nat → Nat} (hrand : ∀ k n, 0 < n → rand k n < n)
    (hrand' : ∀ k n, 0 < n → rand' k n < n) {T : K × K → K × K} {c : K} (hT : ∀ x y z, |signedArea (T x) (T y) (T z)| = c * |signedArea x y z|) (h0 : 0 < c)
    {p p' : List (K × K)} {t t' : List Tri} (hd : Moved T p t p' t') (hc : CleanTable p t) (hi : ∀ q ∈ p, ∀ q' ∈ p, T q = T q' → q = q') (hc' : CleanTable p' t')
    {A A' : Tri → K} (hA : IsAreaOf p t A) (hA' : IsAreaOf p' t' A') (hnn : ∀ f ∈ t, 0 ≤ A f) (hnn' : ∀ f ∈ t', 0 ≤ A' f) (hpos : 0 < (t.map A).sum)
    {thr : K} (hthr : 0 ≤ thr) :
    ∃ r r', deleteExteriorFaces srt rand p t thr = some r ∧ deleteExteriorFaces srt' rand' p' t' thr = some r' ∧ Moved T p r p' r' := by
  classical
  have hcT : CleanTable (p.map T) t := ⟨List.Nodup.map_on hi hc.1, fun v hv => hc.2.1 v (by rwa [List.length_map] at hv), hc.2.2⟩
  obtain ⟨s, hs, hinj, hp⟩ := row_map hd hcT hc'
  have hAA : ∀ f ∈ t, A' (s f) = c * A f := fun f hf => by
    obtain ⟨x, y, z, hx, ha⟩ := hA f hf
    obtain ⟨x', y', z', hx', ha'⟩ := hA' _ (hs f hf).1
    have := cornersMatch_eq_perm (hs f hf).2
    rw [corners_map, hx, hx'] at this
    have := abs_signedArea_perm (perm_of_some this)
    rw [hT, ← ha, ← ha', abs_of_nonneg (hnn f hf), abs_of_nonneg (hnn' _ (hs f hf).1)] at this
    exact this.symm
  have hsum : (t'.map A').sum = c * (t.map A).sum := by
    rw [← (hp.map A').sum_eq, List.map_map, ← List.sum_map_mul_left]
    congr 1
    exact List.map_congr_left hAA
  have hcomp : ∀ f ∈ t, componentArea A' t' (s f) = c * componentArea A t f := fun f hf => by
    unfold componentArea
    rw [← ((hp.filter _).map A').sum_eq, List.filter_map, List.map_map, ← List.sum_map_mul_left]
    congr 1
    have e : t.filter ((fun g => decide (Connected t' (s f) g)) ∘ s) = t.filter fun g => decide (Connected t f g) := by
      refine List.filter_congr fun g hg => ?_
      simp only [Function.comp, connected_map hd hcT hc' hs hinj hp hf hg]
    rw [e]
    exact List.map_congr_left fun g hg => hAA g (List.mem_filter.1 hg).1
  obtain ⟨r, h1, h2⟩ := deleteExterior_spec srt hrand hA hnn hpos hthr
  obtain ⟨r', h1', h2'⟩ := deleteExterior_spec srt' hrand' hA' hnn' (by rw [hsum]; exact mul_pos h0 hpos) hthr
  have hm : ∀ f, f ∈ r ↔ f ∈ t ∧ thr * (t.map A).sum < componentArea A t f := fun f => by
    rw [h2.mem_iff, List.mem_filter, decide_eq_true_eq]
  have hm' : ∀ f, f ∈ r' ↔ f ∈ t' ∧ thr * (c * (t.map A).sum) < componentArea A' t' f := fun f => by
    rw [h2'.mem_iff, List.mem_filter, decide_eq_true_eq, hsum]
  have hlt : ∀ f ∈ t, thr * (c * (t.map A).sum) < componentArea A' t' (s f) ↔ thr * (t.map A).sum < componentArea A t f := fun f hf => by
    rw [hcomp f hf, mul_left_comm, mul_lt_mul_iff_right₀ h0]
  refine ⟨r, r', h1, h1', hd.1, fun f hf => ?_, fun g hg => ?_⟩
  · obtain ⟨a, b⟩ := (hm f).1 hf
    exact ⟨s f, (hm' _).2 ⟨(hs f a).1, (hlt f a).2 b⟩, (hs f a).2⟩
  · obtain ⟨a, b⟩ := (hm' g).1 hg
    obtain ⟨f, hf, rfl⟩ := List.mem_map.1 (hp.mem_iff.2 a)
    exact ⟨f, (hm f).2 ⟨hf, (hlt f hf).1 b⟩, (hs f hf).2⟩

/-! ### Similarities -/

/-- **C142** (5) A map that multiplies distances by `s` multiplies areas by `s²`. -/
theorem C142_area {T : K × K → K × K} {s : K} (h : IsSimilarity T s) (x y z : K × K) : |signedArea (T x) (T y) (T z)| = s ^ 2 * |signedArea x y z| := by
  have heron : ∀ x y z : K × K, 16 * signedArea x y z ^ 2 = 4 * ((x.1 - y.1) ^ 2 + (x.2 - y.2) ^ 2) * ((x.1 - z.1) ^ 2 + (x.2 - z.2) ^ 2) -
      ((x.1 - y.1) ^ 2 + (x.2 - y.2) ^ 2 + ((x.1 - z.1) ^ 2 + (x.2 - z.2) ^ 2) - ((y.1 - z.1) ^ 2 + (y.2 - z.2) ^ 2)) ^ 2 := by
    intro x y z
    unfold signedArea
    ring
  have h1 : signedArea (T x) (T y) (T z) ^ 2 = (s ^ 2 * |signedArea x y z|) ^ 2 := by
    rw [mul_pow, sq_abs]
    have a := heron (T x) (T y) (T z)
    rw [h x y, h x z, h y z] at a
    have b := heron x y z
    linear_combination a / 16 - (s ^ 2) ^ 2 * b / 16
  rw [← sq_abs] at h1
  exact (pow_left_inj₀ (abs_nonneg _) (mul_nonneg (sq_nonneg s) (abs_nonneg _)) two_ne_zero).1 h1

theorem similarity_injective {T : K × K → K × K} {s : K} (h : IsSimilarity T s) (hs : s ≠ 0) {q r : K × K} (e : T q = T r) : q = r := by
  have := h q r
  rw [e, sub_self, sub_self] at this
  have h2 : (q.1 - r.1) ^ 2 + (q.2 - r.2) ^ 2 = 0 := by
    have : s ^ 2 * ((q.1 - r.1) ^ 2 + (q.2 - r.2) ^ 2) = 0 := by rw [← this]; ring
    exact (mul_eq_zero.1 this).resolve_left (pow_ne_zero 2 hs)
  have h3 := sq_nonneg (q.1 - r.1)
  have h4 := sq_nonneg (q.2 - r.2)
  exact Prod.ext (sub_eq_zero.1 (pow_eq_zero_iff two_ne_zero |>.1 (le_antisymm (by linarith) h3))) (sub_eq_zero.1 (pow_eq_zero_iff two_ne_zero |>.1 (le_antisymm (by linarith) h4)))

/-- **C142** (6) Shifting and scaling keep the points further apart than the tolerance. -/
theorem C142_scaling {s : K} (hs : 0 < s) (c : K × K) {p : List (K × K)} {e ptol : K} (he : FitsIn e p) (hsep : Separated (e * ptol) p) :
    IsSimilarity (fun q : K × K => (s * q.1 + c.1, s * q.2 + c.2)) s ∧ FitsIn (s * e) (p.map fun q => (s * q.1 + c.1, s * q.2 + c.2)) ∧
      Separated (s * e * ptol) (p.map fun q => (s * q.1 + c.1, s * q.2 + c.2)) := by
  have key : ∀ a b d : K, |s * a + d - (s * b + d)| = s * |a - b| := fun a b d => by
    rw [show s * a + d - (s * b + d) = s * (a - b) by ring, abs_mul, abs_of_pos hs]
  refine ⟨fun q r => by ring, ?_, ?_⟩
  · intro q hq q' hq'
    obtain ⟨x, hx, rfl⟩ := List.mem_map.1 hq
    obtain ⟨y, hy, rfl⟩ := List.mem_map.1 hq'
    simp only [key]
    exact ⟨mul_le_mul_of_nonneg_left (he x hx y hy).1 hs.le, mul_le_mul_of_nonneg_left (he x hx y hy).2 hs.le⟩
  · intro q hq q' hq' hw
    obtain ⟨x, hx, rfl⟩ := List.mem_map.1 hq
    obtain ⟨y, hy, rfl⟩ := List.mem_map.1 hq'
    simp only [Within, key, mul_assoc] at hw
    rw [hsep x hx y hy ⟨le_of_mul_le_mul_left hw.1 hs, le_of_mul_le_mul_left hw.2 hs⟩]
end

/-- **C142** (7) A similarity multiplies `simp_qual` by the factor of the lengths; a motion (`s = 1`) leaves it unchanged. -/
theorem C142_quality {T : ℝ × ℝ → ℝ × ℝ} {s : ℝ} (h : IsSimilarity T s) (hs : 0 < s) : ScalesQuality T s (faceQualFl (K := ℝ) id (rootFl id)) := by
  have hl : ∀ x y, edgeLength (T x) (T y) = s * edgeLength x y := fun x y => by
    unfold edgeLength
    rw [h y x, Real.sqrt_mul (sq_nonneg s), Real.sqrt_sq hs.le]
  have hq : ∀ x y z, triQual (T x) (T y) (T z) = (triQual x y z).map (s * ·) := fun x y z => by
    unfold triQual
    rw [hl, hl, hl, qualOfLengths_scale hs]
  intro p f
  unfold faceQualFl
  simp only [List.getElem?_map]
  cases p[f.a]? <;> cases p[f.b]? <;> cases p[f.c]? <;> try rfl
  simp only [Option.map_some, C131_exact, hq]

theorem eight_lt {a b c h : ℝ} (pa : 0 < a) (pb : 0 < b) (pc : 0 < c) (ha : a ≤ h) (hb : b ≤ a) (hc : c ≤ a) : 8 * (a * b * c) < h * (a + b + c) ^ 2 := by
  have e0 : 3 * (b + c) ≤ 2 * (a + b + c) := by linarith
  have e1 : 9 * (b * c) ≤ (a + b + c) ^ 2 := by
    have := pow_le_pow_left₀ (show 0 ≤ 3 * (b + c) by positivity) e0 2
    nlinarith [sq_nonneg (b - c)]
  have e2 : 0 < b * c := mul_pos pb pc
  calc 8 * (a * b * c) < a * (9 * (b * c)) := by nlinarith [mul_pos pa e2]
    _ ≤ a * (a + b + c) ^ 2 := mul_le_mul_of_nonneg_left e1 pa.le
    _ ≤ h * (a + b + c) ^ 2 := mul_le_mul_of_nonneg_right ha (sq_nonneg _)

/-- A triangle whose edges are at most `h` long has a quality (as computed) of less than `h`. -/
theorem quality_lt_size {x y z : ℝ × ℝ} {h : ℝ} (hxy : x ≠ y) (hxz : x ≠ z) (hyz : y ≠ z) (h1 : edgeLength x y ≤ h) (h2 : edgeLength x z ≤ h) (h3 : edgeLength y z ≤ h) :
    ∃ q, triQual x y z = some q ∧ q < h := by
  rw [C11_exact, if_neg (by simp [hxy, hxz, hyz])]
  refine ⟨_, rfl, ?_⟩
  have p1 : 0 < edgeLength x y := (Real.sqrt_nonneg _).lt_of_ne fun e => hxy ((edgeLength_eq_zero _ _).1 e.symm)
  have p2 : 0 < edgeLength x z := (Real.sqrt_nonneg _).lt_of_ne fun e => hxz ((edgeLength_eq_zero _ _).1 e.symm)
  have p3 : 0 < edgeLength y z := (Real.sqrt_nonneg _).lt_of_ne fun e => hyz ((edgeLength_eq_zero _ _).1 e.symm)
  have s1 := edgeLength_sq x y
  have s2 := edgeLength_sq x z
  have s3 := edgeLength_sq y z
  have hA : ∀ {u v w : ℝ}, 0 < u → 0 < v → (2 * w) ^ 2 ≤ u ^ 2 * v ^ 2 → 2 * |w| ≤ u * v := by
    intro u v w hu hv h
    have : (2 * |w|) ^ 2 ≤ (u * v) ^ 2 := by rw [mul_pow, sq_abs, ← mul_pow, mul_pow u]; exact h
    exact le_of_sq_le_sq this (mul_pos hu hv).le
  have a1 : 2 * |triVol x y z| ≤ edgeLength x y * edgeLength x z := hA p1 p2 (by
    rw [s1, s2]; unfold triVol
    nlinarith [sq_nonneg ((y.1 - x.1) * (z.1 - x.1) + (y.2 - x.2) * (z.2 - x.2))])
  have a2 : 2 * |triVol x y z| ≤ edgeLength x y * edgeLength y z := hA p1 p3 (by
    rw [s1, s3]; unfold triVol
    nlinarith [sq_nonneg ((y.1 - x.1) * (z.1 - y.1) + (y.2 - x.2) * (z.2 - y.2))])
  have a3 : 2 * |triVol x y z| ≤ edgeLength x z * edgeLength y z := hA p2 p3 (by
    rw [s2, s3]; unfold triVol
    nlinarith [sq_nonneg ((z.1 - x.1) * (z.1 - y.1) + (z.2 - x.2) * (z.2 - y.2))])
  generalize edgeLength x y = a at *
  generalize edgeLength x z = b at *
  generalize edgeLength y z = c at *
  have hn := abs_nonneg (triVol x y z)
  generalize |triVol x y z| = A at *
  have hpos : 0 < (a + b + c) ^ 2 * (a * b * c) := by positivity
  rw [div_lt_iff₀ hpos]
  have k1 : (2 * A) ^ 3 ≤ (a * b * c) ^ 2 := by
    have e1 : (2 * A) * (2 * A) ≤ (a * b) * (a * c) := mul_le_mul a1 a2 (by positivity) (by positivity)
    have e2 : (2 * A) * (2 * A) * (2 * A) ≤ (a * b) * (a * c) * (b * c) := mul_le_mul e1 a3 (by positivity) (by positivity)
    calc (2 * A) ^ 3 = (2 * A) * (2 * A) * (2 * A) := by ring
      _ ≤ _ := e2
      _ = (a * b * c) ^ 2 := by ring
  have k2 : 8 * (a * b * c) < h * (a + b + c) ^ 2 := by
    rcases le_total a b with hab | hab
    · rcases le_total b c with hbc | hbc
      · calc 8 * (a * b * c) = 8 * (c * a * b) := by ring
          _ < h * (c + a + b) ^ 2 := eight_lt p3 p1 p2 h3 (hab.trans hbc) hbc
          _ = _ := by ring
      · calc 8 * (a * b * c) = 8 * (b * a * c) := by ring
          _ < h * (b + a + c) ^ 2 := eight_lt p2 p1 p3 h2 hab hbc
          _ = _ := by ring
    · rcases le_total a c with hac | hac
      · calc 8 * (a * b * c) = 8 * (c * a * b) := by ring
          _ < h * (c + a + b) ^ 2 := eight_lt p3 p1 p2 h3 hac (hab.trans hac)
          _ = _ := by ring
      · exact eight_lt p1 p2 p3 h1 hab hac
  have k3 : 8 * (a * b * c) ^ 2 < h * (a + b + c) ^ 2 * (a * b * c) := by
    have := mul_lt_mul_of_pos_right k2 (show 0 < a * b * c by positivity)
    calc 8 * (a * b * c) ^ 2 = 8 * (a * b * c) * (a * b * c) := by ring
      _ < _ := this
  calc 64 * A ^ 3 = 8 * (2 * A) ^ 3 := by ring
    _ ≤ 8 * (a * b * c) ^ 2 := by linarith
    _ < h * (a + b + c) ^ 2 * (a * b * c) := k3
    _ = h * ((a + b + c) ^ 2 * (a * b * c)) := by ring

/-- **C142** (8) counterexample to the claim for scalings: `delete_boundary_faces` deletes every triangle on the boundary whose edges are not longer than the limit,
whatever its shape. With the default of `mesh_clean`, 0.01, and coordinates in degrees, these are all boundary triangles with edges of less than about a kilometre. -/
theorem C142_small_triangles_deleted {E : Engine ℝ} (hq : E.qual = faceQualFl id (rootFl id)) {d minQual : ℝ} {m : Mesh ℝ} (hg : GoodMesh d m.p m.t) :
    ∃ k, deleteBoundaryRows E.oE E.srtV (E.qual m.p) minQual m.p m.t = some k ∧
      ∀ f ∈ m.t, TouchesBoundary m.t f → (∀ x y, some x ∈ corners m.p f → some y ∈ corners m.p f → edgeLength x y ≤ minQual) → f ∉ k := by
  obtain ⟨k, h1, h2⟩ := kept_rows E minQual hg.valid (cleanTable_of_good hg)
  refine ⟨k, h1, fun f hf ht he hk => ((h2 f).1 hk).2 ⟨ht, ?_⟩⟩
  have get : ∀ v, HasVertex f v → ∃ x, m.p[v]? = some x := fun v hv => ⟨_, List.getElem?_eq_getElem (hg.valid f hf v hv)⟩
  obtain ⟨x, hx⟩ := get f.a (.inl rfl)
  obtain ⟨y, hy⟩ := get f.b (.inr (.inl rfl))
  obtain ⟨z, hz⟩ := get f.c (.inr (.inr rfl))
  have hc : corners m.p f = [some x, some y, some z] := by simp [corners, hx, hy, hz]
  have ne : ∀ {i j : Nat} {u v : ℝ × ℝ}, m.p[i]? = some u → m.p[j]? = some v → i ≠ j → u ≠ v := by
    rintro i j u v hi hj hij rfl
    exact hij ((List.getElem?_inj (List.getElem?_eq_some_iff.1 hi).1 hg.different).1 (hi.trans hj.symm))
  obtain ⟨n1, n2, n3⟩ := hg.corners f hf
  rw [hq, faceQualFl_corners hc, C131_exact]
  refine quality_lt_size (ne hx hy n1) (ne hx hz n2) (ne hy hz n3) (he x y ?_ ?_) (he x z ?_ ?_) (he y z ?_ ?_)
  all_goals rw [hc]; simp

end OM
