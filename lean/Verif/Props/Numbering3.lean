import Verif.Props.Numbering2
/-!
# C141: `mesh_clean` does not depend on the numbering
-/
namespace OM
open Spec
section
variable {α : Type}

theorem length_le_of_map {β γ : Type} {l : List β} {l' : List γ} (s : β → γ) (hn : l.Nodup) (hinj : ∀ x ∈ l, ∀ y ∈ l, s x = s y → x = y) (hs : ∀ x ∈ l, s x ∈ l') :
    l.length ≤ l'.length := by
  have h1 : (l.map s).Nodup := List.Nodup.map_on hinj hn
  have h2 : l.map s ⊆ l' := fun x hx => by
    obtain ⟨w, hw, rfl⟩ := List.mem_map.1 hx
    exact hs w hw
  have := (List.subperm_of_subset h1 h2).length_le
  simpa using this

/-- The numbers of the points in the other mesh. -/
theorem index_map {p p' : List α} (h : ∀ q, q ∈ p ↔ q ∈ p') (hp : p.Nodup) :
    ∃ s : Nat → Nat, (∀ i < p.length, p'[s i]? = p[i]?) ∧ ∀ i < p.length, ∀ j < p.length, s i = s j → i = j := by
  have hex : ∀ i, ∃ j : Nat, i < p.length → p'[j]? = p[i]? := fun i => by
    by_cases hi : i < p.length
    · obtain ⟨j, hj⟩ := place_in h (List.getElem?_eq_getElem hi)
      exact ⟨j, fun _ => by rw [hj, List.getElem?_eq_getElem hi]⟩
    · exact ⟨0, fun h => absurd h hi⟩
  choose s hs using hex
  refine ⟨s, hs, fun i hi j hj e => ?_⟩
  have h1 := hs i hi
  rw [e, hs j hj] at h1
  exact ((List.getElem?_inj hi hp).1 h1.symm)

/-- The rows of the other table. -/
theorem row_map {p p' : List α} {t t' : List Tri} (h : SameDrawing p t p' t') (hc : CleanTable p t) (hc' : CleanTable p' t') :
    ∃ s : Tri → Tri, (∀ f ∈ t, s f ∈ t' ∧ CornersMatch (fun x y => x = y) p f p' (s f)) ∧ (∀ f ∈ t, ∀ g ∈ t, s f = s g → f = g) ∧ (t.map s).Perm t' := by
  classical
  have hv := drawing_valid h
  have hv' := drawing_valid (drawing_symm h)
  have hex : ∀ f, ∃ g, f ∈ t → g ∈ t' ∧ CornersMatch (fun x y => x = y) p f p' g := fun f => by
    by_cases hf : f ∈ t
    · obtain ⟨g, hg, hm⟩ := h.2.1 f hf
      exact ⟨g, fun _ => ⟨hg, hm⟩⟩
    · exact ⟨f, fun h => absurd h hf⟩
  choose s hs using hex
  have hinj : ∀ f ∈ t, ∀ g ∈ t, s f = s g → f = g := fun x hx y hy hxy => by
    have h1 := cornersMatch_eq_perm (hs x hx).2
    have h2 := cornersMatch_eq_perm (hs y hy).2
    rw [hxy] at h1
    exact table_unique hc.2.2.1 hx hy (sameVertices_of_corners hc.1 (hv x hx) (hv y hy) (h1.trans h2.symm))
  refine ⟨s, hs, hinj, ?_⟩
  refine (List.perm_ext_iff_of_nodup (List.Nodup.map_on hinj (table_nodup hc.2.2.1)) (table_nodup hc'.2.2.1)).2 fun g => ?_
  constructor
  · intro hg
    obtain ⟨f, hf, rfl⟩ := List.mem_map.1 hg
    exact (hs f hf).1
  · intro hg
    obtain ⟨f, hf, hm⟩ := h.2.2 g hg
    refine List.mem_map.2 ⟨f, hf, ?_⟩
    exact table_unique hc'.2.2.1 (hs f hf).1 hg (sameVertices_of_corners hc'.1 (hv' _ (hs f hf).1) (hv' g hg)
      ((cornersMatch_eq_perm (hs f hf).2).symm.trans (cornersMatch_eq_perm hm)))

theorem share_match {p p' : List α} {f g f' g' : Tri} (h1 : CornersMatch (fun x y => x = y) p f p' f') (h2 : CornersMatch (fun x y => x = y) p g p' g') :
    sharePair p f g ↔ sharePair p' f' g' :=
  ⟨fun ⟨q, r, a, b⟩ => ⟨q, r, cornerPair_match h1 a, cornerPair_match h2 b⟩,
    fun ⟨q, r, a, b⟩ => ⟨q, r, cornerPair_match (cornersMatch_eq_symm h1) a, cornerPair_match (cornersMatch_eq_symm h2) b⟩⟩

/-- Components correspond. -/
theorem connected_map {p p' : List α} {t t' : List Tri} (h : SameDrawing p t p' t') (hc : CleanTable p t) (hc' : CleanTable p' t') {s : Tri → Tri}
    (hs : ∀ f ∈ t, s f ∈ t' ∧ CornersMatch (fun x y => x = y) p f p' (s f)) (hinj : ∀ f ∈ t, ∀ g ∈ t, s f = s g → f = g) (hp : (t.map s).Perm t')
    {f g : Tri} (hf : f ∈ t) (hg : g ∈ t) : Connected t f g ↔ Connected t' (s f) (s g) := by
  have hv := drawing_valid h
  have hv' := drawing_valid (drawing_symm h)
  have adj : ∀ {f g : Tri}, f ∈ t → g ∈ t → (Adjacent f g ↔ Adjacent (s f) (s g)) := fun {f g} hf hg => by
    rw [adjacent_iff_share hc.1 hv hf (hc.2.2.2 f hf) (hc.2.2.2 g hg),
      adjacent_iff_share hc'.1 hv' (hs f hf).1 (hc'.2.2.2 _ (hs f hf).1) (hc'.2.2.2 _ (hs g hg).1), share_match (hs f hf).2 (hs g hg).2]
  have mem : ∀ {x y : Tri}, Connected t x y → y ∈ t := fun h => by cases h <;> assumption
  constructor
  · intro hfg
    induction hfg with
    | refl hx => exact .refl (hs _ hx).1
    | step h1 h2 h3 ih => exact .step (ih (mem h1)) (hs _ h2).1 ((adj (mem h1) h2).1 h3)
  · intro hfg
    have key : ∀ x y, Connected t' x y → ∀ f ∈ t, s f = x → ∃ g ∈ t, s g = y ∧ Connected t f g := by
      intro x y hxy
      induction hxy with
      | refl _ => exact fun f hf e => ⟨f, hf, e, .refl hf⟩
      | step h1 h2 h3 ih =>
        intro f hf e
        obtain ⟨g, hg, rfl, hfg⟩ := ih f hf e
        obtain ⟨k, hk, rfl⟩ := List.mem_map.1 (hp.mem_iff.2 h2)
        exact ⟨k, hk, rfl, .step hfg hk ((adj hg hk).2 h3)⟩
    obtain ⟨g', hg', e, hc⟩ := key _ _ hfg f hf rfl
    rwa [hinj g' hg' g hg e] at hc

/-- The two numbers compared by `make_mesh_boundaries_traversable`. -/
theorem boundary_count_le (oE : RowOrder (Nat × Nat)) {p p' : List α} {t t' : List Tri} (h : SameDrawing p t p' t') (hc : CleanTable p t) (hc' : CleanTable p' t') :
    (getBoundaryEdges oE t).length ≤ (getBoundaryEdges oE t').length ∧
      (unique natOrder (flatPairs (getBoundaryEdges oE t))).length ≤ (unique natOrder (flatPairs (getBoundaryEdges oE t'))).length := by
  have hv := drawing_valid h
  obtain ⟨s, hs, hinj⟩ := index_map h.1 hc.1
  have edge : ∀ {u v : Nat}, IsBoundaryEdge t u v → u < p.length ∧ v < p.length ∧ IsBoundaryEdge t' (s u) (s v) := fun {u v} hb => by
    obtain ⟨⟨q, hq⟩, ⟨r, hr⟩⟩ := boundary_vertex_valid hv hb
    have hu := (List.getElem?_eq_some_iff.1 hq).1
    have hw := (List.getElem?_eq_some_iff.1 hr).1
    exact ⟨hu, hw, (C141_boundary h hc hc' hq hr ((hs u hu).trans hq) ((hs v hw).trans hr)).1 hb⟩
  constructor
  · refine length_le_of_map (fun e => if s e.1 < s e.2 then (s e.1, s e.2) else (s e.2, s e.1)) (boundary_nodup oE t) ?_ ?_
    · rintro ⟨u, v⟩ huv ⟨x, y⟩ hxy e
      obtain ⟨l1, b1⟩ := (mem_boundary_iff oE t hc.2.2.2 u v).1 huv
      obtain ⟨l2, b2⟩ := (mem_boundary_iff oE t hc.2.2.2 x y).1 hxy
      obtain ⟨hu, hv', -⟩ := edge b1
      obtain ⟨hx, hy, -⟩ := edge b2
      simp only at e
      split_ifs at e <;> simp only [Prod.mk.injEq] at e
      · rw [hinj _ hu _ hx e.1, hinj _ hv' _ hy e.2]
      · have e1 := hinj _ hu _ hy e.1; have e2 := hinj _ hv' _ hx e.2; omega
      · have e1 := hinj _ hv' _ hx e.1; have e2 := hinj _ hu _ hy e.2; omega
      · rw [hinj _ hu _ hx e.2, hinj _ hv' _ hy e.1]
    · rintro ⟨u, v⟩ huv
      obtain ⟨l1, b1⟩ := (mem_boundary_iff oE t hc.2.2.2 u v).1 huv
      obtain ⟨hu, hw, hb⟩ := edge b1
      have hne : s u ≠ s v := fun e => l1.ne (hinj u hu v hw e)
      simp only
      split_ifs with hlt
      · exact (mem_boundary_iff oE t' hc'.2.2.2 _ _).2 ⟨hlt, hb⟩
      · exact (mem_boundary_iff oE t' hc'.2.2.2 _ _).2 ⟨by omega, IsBoundaryEdge.symm' hb⟩
  · have val : ∀ v, 0 < boundaryDegree t v → v < p.length ∧ 0 < boundaryDegree t' (s v) := fun v hb => by
      obtain ⟨w, hw⟩ := List.length_pos_iff_exists_mem.1 hb
      obtain ⟨h1, -, h2⟩ := edge (mem_boundaryNeighbours.1 hw)
      exact ⟨h1, List.length_pos_of_mem (mem_boundaryNeighbours.2 h2)⟩
    refine length_le_of_map s (unique_nodup natOrder _) ?_ ?_
    · intro x hx y hy e
      rw [mem_unique, mem_flat_boundary oE hc.2.2.2] at hx hy
      exact hinj x (val x hx).1 y (val y hy).1 e
    · intro x hx
      rw [mem_unique, mem_flat_boundary oE hc.2.2.2] at hx
      rw [mem_unique, mem_flat_boundary oE hc'.2.2.2]
      exact (val x hx).2
end

section
variable {K : Type} [Field K] [LinearOrder K] [IsStrictOrderedRing K]

theorem area_match {p p' : List (K × K)} {t t' : List Tri} {A A' : Tri → K} (hA : IsAreaOf p t A) (hA' : IsAreaOf p' t' A') {f g : Tri} (hf : f ∈ t) (hg : g ∈ t')
    (h1 : 0 ≤ A f) (h2 : 0 ≤ A' g) (hm : CornersMatch (fun x y => x = y) p f p' g) : A f = A' g := by
  obtain ⟨x, y, z, hx, ha⟩ := hA f hf
  obtain ⟨x', y', z', hx', ha'⟩ := hA' g hg
  have := cornersMatch_eq_perm hm
  rw [hx, hx'] at this
  have := abs_signedArea_perm (perm_of_some this)
  rw [← ha, ← ha', abs_of_nonneg h1, abs_of_nonneg h2] at this
  exact this

/-- **C141** (7) `delete_exterior_faces` keeps the same triangles, whatever the numbering and the random numbers. -/
theorem C141_exterior {srt srt' : KeySort (Nat × Nat) Nat lexOrder.le} {rand rand' : Nat → Nat → Nat} (hrand : ∀ k n, 0 < n → rand k n < n)
    (hrand' : ∀ k n, 0 < n → rand' k n < n) {p p' : List (K × K)} {t t' : List Tri} (hd : SameDrawing p t p' t') (hc : CleanTable p t) (hc' : CleanTable p' t')
    {A A' : Tri → K} (hA : IsAreaOf p t A) (hA' : IsAreaOf p' t' A') (hnn : ∀ f ∈ t, 0 ≤ A f) (hnn' : ∀ f ∈ t', 0 ≤ A' f) (hpos : 0 < (t.map A).sum)
    {thr : K} (hthr : 0 ≤ thr) :
    ∃ r r', deleteExteriorFaces srt rand p t thr = some r ∧ deleteExteriorFaces srt' rand' p' t' thr = some r' ∧ SameDrawing p r p' r' := by
  classical
  obtain ⟨s, hs, hinj, hp⟩ := row_map hd hc hc'
  have hAA : ∀ f ∈ t, A' (s f) = A f := fun f hf => (area_match hA hA' hf (hs f hf).1 (hnn f hf) (hnn' _ (hs f hf).1) (hs f hf).2).symm
  have hsum : (t'.map A').sum = (t.map A).sum := by
    rw [← (hp.map A').sum_eq, List.map_map]
    congr 1
    exact List.map_congr_left hAA
  have hcomp : ∀ f ∈ t, componentArea A' t' (s f) = componentArea A t f := fun f hf => by
    unfold componentArea
    rw [← ((hp.filter _).map A').sum_eq, List.filter_map, List.map_map]
    congr 1
    have e : t.filter ((fun g => decide (Connected t' (s f) g)) ∘ s) = t.filter fun g => decide (Connected t f g) := by
      refine List.filter_congr fun g hg => ?_
      simp only [Function.comp, connected_map hd hc hc' hs hinj hp hf hg]
    rw [e]
    exact List.map_congr_left fun g hg => hAA g (List.mem_filter.1 hg).1
  obtain ⟨r, h1, h2⟩ := deleteExterior_spec srt hrand hA hnn hpos hthr
  obtain ⟨r', h1', h2'⟩ := deleteExterior_spec srt' hrand' hA' hnn' (by rw [hsum]; exact hpos) hthr
  have hm : ∀ f, f ∈ r ↔ f ∈ t ∧ thr * (t.map A).sum < componentArea A t f := fun f => by
    rw [h2.mem_iff, List.mem_filter, decide_eq_true_eq]
  have hm' : ∀ f, f ∈ r' ↔ f ∈ t' ∧ thr * (t.map A).sum < componentArea A' t' f := fun f => by
    rw [h2'.mem_iff, List.mem_filter, decide_eq_true_eq, hsum]
  refine ⟨r, r', h1, h1', hd.1, fun f hf => ?_, fun g hg => ?_⟩
  · obtain ⟨a, b⟩ := (hm f).1 hf
    exact ⟨s f, (hm' _).2 ⟨(hs f a).1, by rw [hcomp f a]; exact b⟩, (hs f a).2⟩
  · obtain ⟨a, b⟩ := (hm' g).1 hg
    obtain ⟨f, hf, rfl⟩ := List.mem_map.1 (hp.mem_iff.2 a)
    exact ⟨f, (hm f).2 ⟨hf, by rw [← hcomp f hf]; exact b⟩, (hs f hf).2⟩

theorem traversableLoop_more (E : Engine K) (rand : Nat → Nat → Nat → Nat) (thr : K) : ∀ (n k j : Nat) (m : Mesh K) (r : Option (Mesh K)),
    traversableLoop E rand thr n j m = some r → traversableLoop E rand thr (n + k) j m = some r
  | 0, _, _, _, _, h => by simp [traversableLoop] at h
  | n + 1, k, j, m, r, h => by
    rw [Nat.add_right_comm, traversableLoop]
    rw [traversableLoop] at h
    cases hx : externalTopology E.oE m.p m.t with
    | none => rw [hx] at h; exact h
    | some x =>
      obtain ⟨be, bv⟩ := x
      rw [hx] at h
      simp only at h ⊢
      split_ifs with hl
      · rw [if_pos hl] at h
        cases hp : traversablePass E (rand j) thr m with
        | none => rw [hp] at h; exact h
        | some m' =>
          rw [hp] at h
          exact traversableLoop_more E rand thr n k (j + 1) m' r h
      · rwa [if_neg hl] at h

/-- **C141** (10) `make_mesh_boundaries_traversable` of the same drawing, with counter-clockwise triangles: either both meshes are returned as they are, or the
results are the same, number for number. The random numbers of the first pass do not matter. -/
theorem C141_traversable {E : Engine K} (hr : IsRounding E.rnd) (hpt : 0 < E.ptol) {rand rand' : Nat → Nat → Nat → Nat} (hrand : ∀ k n, 0 < n → rand 0 k n < n)
    (hrand' : ∀ k n, 0 < n → rand' 0 k n < n) (hsame : ∀ i, 0 < i → rand i = rand' i) {m m' : Mesh K} {e : K} (he : IsExtent m.p e) (hsep : Separated (e * E.ptol) m.p)
    (hd : SameDrawing m.p m.t m'.p m'.t) (hc : CleanTable m.p m.t) (hc' : CleanTable m'.p m'.t) {A A' : Tri → K} (hA : IsAreaOf m.p m.t A) (hA' : IsAreaOf m'.p m'.t A')
    (hnn : ∀ f ∈ m.t, 0 ≤ A f) (hnn' : ∀ f ∈ m'.t, 0 ≤ A' f) (hpos : 0 < (m.t.map A).sum) {thr : K} (hthr : 0 ≤ thr) :
    (makeTraversable E rand thr m = some (some m) ∧ makeTraversable E rand' thr m' = some (some m')) ∨ makeTraversable E rand thr m = makeTraversable E rand' thr m' := by
  have hle := boundary_count_le E.oE hd hc hc'
  have hge := boundary_count_le E.oE (drawing_symm hd) hc' hc
  obtain ⟨bv, h1, h2⟩ := externalTopology_isSome E.oE (drawing_valid hd)
  obtain ⟨bv', h1', h2'⟩ := externalTopology_isSome E.oE (drawing_valid (drawing_symm hd))
  by_cases hlt : bv.length < (getBoundaryEdges E.oE m.t).length
  · right
    have hlt' : bv'.length < (getBoundaryEdges E.oE m'.t).length := by omega
    obtain ⟨r, r', e1, e2, hdr⟩ := C141_exterior (srt := E.srtE) (srt' := E.srtE) hrand hrand' hd hc hc' hA hA' hnn hnn' hpos hthr
    have hnil : r = [] ↔ r' = [] := by
      constructor
      · rintro rfl
        refine List.eq_nil_iff_forall_not_mem.2 fun g hg => ?_
        obtain ⟨f, hf, -⟩ := hdr.2.2 g hg
        simp at hf
      · rintro rfl
        refine List.eq_nil_iff_forall_not_mem.2 fun g hg => ?_
        obtain ⟨f, hf, -⟩ := hdr.2.1 g hg
        simp at hf
    obtain ⟨m1, e3, e4⟩ := refix_drawing hr hpt he hsep hdr
    have hpass : traversablePass E (rand 0) thr m = traversablePass E (rand' 0) thr m' := by
      unfold traversablePass
      rw [e1, e2]
      simp only [Option.bind_eq_bind, Option.bind_some]
      by_cases hn : r = []
      · rw [if_pos hn, if_pos (hnil.1 hn)]
      · rw [if_neg hn, if_neg (fun h => hn (hnil.2 h)), e3, e4]
    obtain ⟨x, hx⟩ := C17_terminates E rand thr m
    obtain ⟨y, hy⟩ := C17_terminates E rand' thr m'
    rw [hx, hy]
    rw [makeTraversable, traversableLoop, h1] at hx
    rw [makeTraversable, traversableLoop, h1'] at hy
    simp only [if_pos hlt] at hx
    simp only [if_pos hlt'] at hy
    rw [← hpass] at hy
    cases hp : traversablePass E (rand 0) thr m with
    | none =>
      rw [hp] at hx hy
      exact hx.symm.trans hy
    | some m2 =>
      rw [hp] at hx hy
      simp only at hx hy
      have hloop : ∀ (n j : Nat) (m : Mesh K), 0 < j → traversableLoop E rand thr n j m = traversableLoop E rand' thr n j m := by
        intro n
        induction n with
        | zero => intros; rfl
        | succ n ih =>
          intro j m hj
          rw [traversableLoop, traversableLoop, hsame j hj]
          simp only [fun m => ih (j + 1) m (Nat.succ_pos j)]
      rw [← hloop _ _ _ (by omega)] at hy
      have hx' := traversableLoop_more E rand thr _ (m'.p.length + m'.t.length) _ _ _ hx
      have hy' := traversableLoop_more E rand thr _ (m.p.length + m.t.length) _ _ _ hy
      rw [Nat.add_comm, hx'] at hy'
      exact hy'
  · left
    have hlt' : ¬ bv'.length < (getBoundaryEdges E.oE m'.t).length := by omega
    constructor
    · rw [makeTraversable, traversableLoop, h1]
      exact if_neg hlt
    · rw [makeTraversable, traversableLoop, h1']
      exact if_neg hlt'

/-- **C141** (11) Full claim: `mesh_clean` gives the same mesh, number for number, for every numbering of the same drawing. Proved for meshes of counter-clockwise
triangles whose points are further apart than the tolerance, where every vertex and triangle occurs once. Missing: points closer than the tolerance, where the
claim is false (`C141_order_matters`). -/
theorem C141_mesh_clean_partial {E : Engine K} (hr : IsRounding E.rnd) (hpt : 0 < E.ptol) (hq : GeometricQuality E.qual) (len : K × K → K × K → K)
    {rand rand' rand₂ : Nat → Nat → Nat → Nat} (hrand : ∀ k n, 0 < n → rand 0 k n < n) (hrand' : ∀ k n, 0 < n → rand' 0 k n < n) (hsame : ∀ i, 0 < i → rand i = rand' i)
    (a : CleanParams K) (ha : 0 ≤ a.minArea) {m m' : Mesh K} {e : K} (he : IsExtent m.p e) (hsep : Separated (e * E.ptol) m.p) (hd : SameDrawing m.p m.t m'.p m'.t)
    (hc : CleanTable m.p m.t) (hc' : CleanTable m'.p m'.t) {A A' : Tri → K} (hA : IsAreaOf m.p m.t A) (hA' : IsAreaOf m'.p m'.t A') (hnn : ∀ f ∈ m.t, 0 ≤ A f)
    (hnn' : ∀ f ∈ m'.t, 0 ≤ A' f) (hpos : 0 < (m.t.map A).sum) : meshClean E len rand rand₂ a m = meshClean E len rand' rand₂ a m' := by
  rcases C141_traversable hr hpt hrand hrand' hsame he hsep hd hc hc' hA hA' hnn hnn' hpos ha with ⟨e1, e2⟩ | e1
  · obtain ⟨r, e3, e4⟩ := C141_delete_boundary_faces hr hpt hq a.minQual he hsep hd hc hc'
    unfold meshClean
    simp only [e1, e2, e3, e4]
  · unfold meshClean
    rw [e1]
end

/-- The two triangles of `bowM` with other numbers and another order. -/
def bowTurned : Mesh ℚ := ⟨[(1, 1), (0, 0), (-1, -1), (1, -1), (-1, 1)], [⟨3, 0, 1⟩, ⟨2, 1, 4⟩]⟩

theorem bow_drawing : SameDrawing bowM.p bowM.t bowTurned.p bowTurned.t :=
  drawing_of_check (by decide +kernel) (by decide +kernel) (validMesh_of_bound (by decide)) (by decide +kernel) (by decide +kernel)

theorem bow_areas : IsAreaOf bowM.p bowM.t (fun _ => 1) ∧ IsAreaOf bowTurned.p bowTurned.t (fun _ => 1) := by
  constructor
  · intro f hf
    simp only [bowM, List.mem_cons, List.not_mem_nil, or_false] at hf
    rcases hf with rfl | rfl
    · exact ⟨_, _, _, rfl, by norm_num [signedArea]⟩
    · exact ⟨_, _, _, rfl, by norm_num [signedArea]⟩
  · intro f hf
    simp only [bowTurned, List.mem_cons, List.not_mem_nil, or_false] at hf
    rcases hf with rfl | rfl
    · exact ⟨_, _, _, rfl, by norm_num [signedArea]⟩
    · exact ⟨_, _, _, rfl, by norm_num [signedArea]⟩

example : SameDrawing bowM.p bowM.t bowTurned.p bowTurned.t ∧ CleanTable bowM.p bowM.t ∧ CleanTable bowTurned.p bowTurned.t ∧ IsAreaOf bowM.p bowM.t (fun _ => 1) ∧
    IsAreaOf bowTurned.p bowTurned.t (fun _ => 1) ∧ 0 < (bowM.t.map fun _ => (1 : ℚ)).sum ∧ IsExtent bowM.p 2 ∧ Separated (2 * sizeEngine.ptol) bowM.p ∧
    makeTraversable sizeEngine (fun _ _ _ => 0) (1 / 4) bowM = some (some ⟨[(0, 0), (1, -1), (1, 1)], [⟨0, 1, 2⟩]⟩) ∧
    makeTraversable sizeEngine (fun _ _ _ => 0) (1 / 4) bowTurned = some (some ⟨[(0, 0), (1, -1), (1, 1)], [⟨0, 1, 2⟩]⟩) := by
  refine ⟨bow_drawing, ?_, ?_, bow_areas.1, bow_areas.2, by norm_num [bowM], ?_, ?_, by decide +kernel, by decide +kernel⟩
  · unfold CleanTable SameVertices
    refine ⟨?_, ?_, ?_, ?_⟩ <;> decide +kernel
  · unfold CleanTable SameVertices
    refine ⟨?_, ?_, ?_, ?_⟩ <;> decide +kernel
  · refine ⟨⟨(1, 1), by simp [bowM], (-1, 1), by simp [bowM], Or.inl (by norm_num)⟩, ?_⟩
    have : ∀ q ∈ bowM.p, ∀ q' ∈ bowM.p, |q.1 - q'.1| ≤ 2 ∧ |q.2 - q'.2| ≤ 2 := by decide +kernel
    exact this
  · have : ∀ q ∈ bowM.p, ∀ q' ∈ bowM.p, |q.1 - q'.1| ≤ 2 * (1 / 1000) ∧ |q.2 - q'.2| ≤ 2 * (1 / 1000) → q = q' := by decide +kernel
    exact this

end OM
