import Verif.Props.Clean
import Verif.Props.Smooth
/-!
# C96, C97: the cleaning functions one after the other
-/
set_option linter.unusedSectionVars false

namespace OM.Spec

variable {K : Type} [Field K] [LinearOrder K]

/-- A mesh as one wants it: indices valid, all vertices used, different and further apart than `d`, triangles with three different corners,
counterclockwise, none repeated, at most two on an edge. -/
structure GoodMesh (d : K) (p : List (K × K)) (t : List Tri) : Prop where
  valid : ValidMesh p t
  used : ∀ v < p.length, ∃ f ∈ t, HasVertex f v
  different : p.Nodup
  apart : Separated d p
  corners : ∀ f ∈ t, Nondegenerate f
  single : t.Pairwise fun f g => ¬ SameVertices f g
  conforming : Conforming t
  ccw : ∀ f ∈ t, ∀ x y z, p[f.a]? = some x → p[f.b]? = some y → p[f.c]? = some z → 0 ≤ signedArea x y z

/-- Coordinates differ by at most `e`. -/
def FitsIn (e : K) (p : List (K × K)) : Prop := ∀ q ∈ p, ∀ q' ∈ p, |q.1 - q'.1| ≤ e ∧ |q.2 - q'.2| ≤ e

/-- Every vertex on a boundary edge lies on exactly two boundary edges. -/
def Traversable (t : List Tri) : Prop := ∀ u v, IsBoundaryEdge t u v → boundaryDegree t v = 2

/-- Every triangle of the new mesh has the corner points of a triangle of the old one. -/
def Inherits (p : List (K × K)) (t : List Tri) (p' : List (K × K)) (t' : List Tri) : Prop := ∀ g ∈ t', ∃ f ∈ t, (corners p' g).Perm (corners p f)

/-- The row of the new table has the corners of the row of the old one, if vertex `v` is called `σ v` in the old table. -/
def RowMatches (σ : Nat → Nat) (g f : Tri) : Prop := [f.a, f.b, f.c].Perm [σ g.a, σ g.b, σ g.c]

end OM.Spec

namespace OM
open Spec

/-! ## Counting along a relation -/

theorem length_le_of_rel {α β : Type} [DecidableEq β] (R : α → β → Prop) {A : List α} {B : List β} (hA : A.Nodup)
    (h1 : ∀ a ∈ A, ∃ b ∈ B, R a b) (h2 : ∀ a ∈ A, ∀ a' ∈ A, ∀ b, R a b → R a' b → a = a') : A.length ≤ B.length := by
  classical
  let φ : α → Option β := fun a => if h : ∃ b ∈ B, R a b then some h.choose else none
  have hφ : ∀ a ∈ A, ∃ b ∈ B, φ a = some b ∧ R a b := by
    intro a ha
    have h := h1 a ha
    exact ⟨h.choose, h.choose_spec.1, dif_pos h, h.choose_spec.2⟩
  have hn : (A.map φ).Nodup := by
    refine (List.nodup_map_iff_inj_on hA).2 fun a ha a' ha' h => ?_
    obtain ⟨b, -, e1, r1⟩ := hφ a ha
    obtain ⟨b', -, e2, r2⟩ := hφ a' ha'
    rw [e1, e2] at h
    cases h
    exact h2 a ha a' ha' b r1 r2
  have hs : A.map φ ⊆ B.map some := by
    intro x hx
    obtain ⟨a, ha, rfl⟩ := List.mem_map.1 hx
    obtain ⟨b, hb, e, -⟩ := hφ a ha
    rw [e]
    exact List.mem_map_of_mem hb
  have := (List.subperm_of_subset hn hs).length_le
  simpa using this

theorem sameVertices_hasVertex {f g : Tri} (h : SameVertices f g) (v : Nat) : HasVertex f v ↔ HasVertex g v := by
  rw [hasVertex_iff_mem, hasVertex_iff_mem]
  exact h.mem_iff

theorem nodup_of_single {t : List Tri} (h : t.Pairwise fun f g => ¬ SameVertices f g) : t.Nodup :=
  h.imp fun {f g} hfg e => hfg (by rw [e]; exact List.Perm.refl _)

theorem eq_of_single {t : List Tri} (h : t.Pairwise fun f g => ¬ SameVertices f g) {f g : Tri} (hf : f ∈ t) (hg : g ∈ t)
    (hs : SameVertices f g) : f = g := by
  by_contra hne
  have : Std.Symm fun f g : Tri => ¬ SameVertices f g := ⟨fun _ _ h1 h2 => h1 h2.symm⟩
  exact h.forall hf hg hne hs

/-! ## Relabelling -/

theorem RowMatches.hasVertex {σ : Nat → Nat} {g f : Tri} (h : RowMatches σ g f) (w : Nat) :
    HasVertex f w ↔ ∃ v, HasVertex g v ∧ σ v = w := by
  rw [hasVertex_iff_mem]
  rw [show f.toList = [f.a, f.b, f.c] from rfl, h.mem_iff]
  simp only [List.mem_cons, List.not_mem_nil, or_false]
  constructor
  · rintro (rfl | rfl | rfl)
    · exact ⟨_, .inl rfl, rfl⟩
    · exact ⟨_, .inr (.inl rfl), rfl⟩
    · exact ⟨_, .inr (.inr rfl), rfl⟩
  · rintro ⟨v, rfl | rfl | rfl, rfl⟩
    · exact .inl rfl
    · exact .inr (.inl rfl)
    · exact .inr (.inr rfl)

/-- The new table `t'` over `n` vertices is the old one `t` with other vertex numbers. -/
structure Relabelled (σ : Nat → Nat) (n : Nat) (t t' : List Tri) : Prop where
  bound : ∀ g ∈ t', ∀ v, HasVertex g v → v < n
  inj : ∀ u < n, ∀ v < n, σ u = σ v → u = v
  bwd : ∀ g ∈ t', ∃ f ∈ t, RowMatches σ g f
  fwd : ∀ f ∈ t, ∃ g ∈ t', RowMatches σ g f
  single : t'.Pairwise fun f g => ¬ SameVertices f g

theorem Relabelled.hasVertex {σ : Nat → Nat} {n : Nat} {t t' : List Tri} (h : Relabelled σ n t t') {g f : Tri} (hg : g ∈ t')
    (hm : RowMatches σ g f) {v : Nat} (hv : v < n) : HasVertex g v ↔ HasVertex f (σ v) := by
  rw [RowMatches.hasVertex hm]
  refine ⟨fun h => ⟨v, h, rfl⟩, ?_⟩
  rintro ⟨w, hw, e⟩
  rwa [← h.inj w (h.bound g hg w hw) v hv e]

theorem Relabelled.hasEdge {σ : Nat → Nat} {n : Nat} {t t' : List Tri} (h : Relabelled σ n t t') {g f : Tri} (hg : g ∈ t')
    (hm : RowMatches σ g f) {u v : Nat} (hu : u < n) (hv : v < n) : HasEdge g u v ↔ HasEdge f (σ u) (σ v) := by
  unfold HasEdge
  rw [h.hasVertex hg hm hu, h.hasVertex hg hm hv]
  refine and_congr_left fun _ => ⟨fun h1 h2 => h1 (h.inj u hu v hv h2), fun h1 h2 => h1 (by rw [h2])⟩

/-- Rows matching the same old row are equal. -/
theorem Relabelled.row_unique {σ : Nat → Nat} {n : Nat} {t t' : List Tri} (h : Relabelled σ n t t') {g g' f : Tri} (hg : g ∈ t') (hg' : g' ∈ t')
    (hm : RowMatches σ g f) (hm' : RowMatches σ g' f) : g = g' := by
  refine eq_of_single h.single hg hg' ?_
  have hp : ([g.a, g.b, g.c].map σ).Perm ([g'.a, g'.b, g'.c].map σ) := hm.symm.trans hm'
  refine perm_of_map_perm (fun x hx y hy e => ?_) hp
  have hb : ∀ z ∈ [g.a, g.b, g.c] ++ [g'.a, g'.b, g'.c], z < n := by
    intro z hz
    rcases List.mem_append.1 hz with hz | hz
    · exact h.bound g hg z ((hasVertex_iff_mem g z).2 hz)
    · exact h.bound g' hg' z ((hasVertex_iff_mem g' z).2 hz)
  exact h.inj x (hb x (by simp_all)) y (hb y (by simp_all)) e

theorem Relabelled.multiplicity_le {σ : Nat → Nat} {n : Nat} {t t' : List Tri} (h : Relabelled σ n t t') {u v : Nat} (hu : u < n) (hv : v < n) :
    edgeMultiplicity t' u v ≤ edgeMultiplicity t (σ u) (σ v) := by
  unfold edgeMultiplicity
  refine length_le_of_rel (RowMatches σ) ((nodup_of_single h.single).filter _) ?_ ?_
  · intro g hg
    obtain ⟨hg, he⟩ := List.mem_filter.1 hg
    obtain ⟨f, hf, hm⟩ := h.bwd g hg
    exact ⟨f, List.mem_filter.2 ⟨hf, by simpa using (h.hasEdge hg hm hu hv).1 (by simpa using he)⟩, hm⟩
  · intro g hg g' hg' f h1 h2
    exact h.row_unique (List.mem_filter.1 hg).1 (List.mem_filter.1 hg').1 h1 h2

theorem RowMatches.unique {σ : Nat → Nat} {g f f' : Tri} (h : RowMatches σ g f) (h' : RowMatches σ g f') : SameVertices f f' :=
  h.trans h'.symm

theorem Relabelled.multiplicity_eq {σ : Nat → Nat} {n : Nat} {t t' : List Tri} (h : Relabelled σ n t t')
    (hs : t.Pairwise fun f g => ¬ SameVertices f g) {u v : Nat} (hu : u < n) (hv : v < n) :
    edgeMultiplicity t' u v = edgeMultiplicity t (σ u) (σ v) := by
  refine le_antisymm (h.multiplicity_le hu hv) ?_
  unfold edgeMultiplicity
  refine length_le_of_rel (fun f g => g ∈ t' ∧ RowMatches σ g f) ((nodup_of_single hs).filter _) ?_ ?_
  · intro f hf
    obtain ⟨hf, he⟩ := List.mem_filter.1 hf
    obtain ⟨g, hg, hm⟩ := h.fwd f hf
    exact ⟨g, List.mem_filter.2 ⟨hg, by simpa using (h.hasEdge hg hm hu hv).2 (by simpa using he)⟩, hg, hm⟩
  · rintro f hf f' hf' g ⟨-, h1⟩ ⟨-, h2⟩
    exact eq_of_single hs (List.mem_filter.1 hf).1 (List.mem_filter.1 hf').1 (RowMatches.unique h1 h2)

theorem multiplicity_pos {t : List Tri} {u v : Nat} : 0 < edgeMultiplicity t u v ↔ ∃ f ∈ t, HasEdge f u v := by
  unfold edgeMultiplicity
  rw [List.length_pos_iff_exists_mem]
  simp [List.mem_filter]

theorem Relabelled.conforming {σ : Nat → Nat} {n : Nat} {t t0 t' : List Tri} (h : Relabelled σ n t t') (hc : Conforming t0)
    (hsub : ∀ f ∈ t, f ∈ t0) : Conforming t' := by
  have h' : ∀ u < n, ∀ v < n, edgeMultiplicity t' u v ≤ edgeMultiplicity t0 (σ u) (σ v) := by
    intro u hu v hv
    unfold edgeMultiplicity
    refine length_le_of_rel (RowMatches σ) ((nodup_of_single h.single).filter _) ?_ ?_
    · intro g hg
      obtain ⟨hg, he⟩ := List.mem_filter.1 hg
      obtain ⟨f, hf, hm⟩ := h.bwd g hg
      exact ⟨f, List.mem_filter.2 ⟨hsub f hf, by simpa using (h.hasEdge hg hm hu hv).1 (by simpa using he)⟩, hm⟩
    · intro g hg g' hg' f h1 h2
      exact h.row_unique (List.mem_filter.1 hg).1 (List.mem_filter.1 hg').1 h1 h2
  intro u v
  rcases Nat.eq_zero_or_pos (edgeMultiplicity t' u v) with h0 | h0
  · omega
  · obtain ⟨g, hg, he⟩ := multiplicity_pos.1 h0
    exact (h' u (h.bound g hg u he.2.1) v (h.bound g hg v he.2.2)).trans (hc _ _)

theorem Relabelled.degree_le {σ : Nat → Nat} {n : Nat} {t t' : List Tri} (h : Relabelled σ n t t')
    (hs : t.Pairwise fun f g => ¬ SameVertices f g) {v : Nat} (hv : v < n) : boundaryDegree t' v ≤ boundaryDegree t (σ v) := by
  unfold boundaryDegree
  have hlt : ∀ w ∈ boundaryNeighbours t' v, w < n := by
    intro w hw
    obtain ⟨-, g, hg, -, hgw⟩ := IsBoundaryEdge.exists (mem_boundaryNeighbours.1 hw)
    exact h.bound g hg w hgw
  refine length_le_of_rel (fun w b => b = σ w) ((List.nodup_dedup _).filter _) ?_ ?_
  · intro w hw
    refine ⟨σ w, mem_boundaryNeighbours.2 ?_, rfl⟩
    have := mem_boundaryNeighbours.1 hw
    unfold IsBoundaryEdge at this ⊢
    rw [← h.multiplicity_eq hs hv (hlt w hw), this]
  · rintro w hw w' hw' b rfl e
    exact h.inj w (hlt w hw) w' (hlt w' hw') e

theorem RowMatches.nondegenerate {σ : Nat → Nat} {g f : Tri} (h : RowMatches σ g f) (hf : Nondegenerate f) : Nondegenerate g := by
  have hn : [f.a, f.b, f.c].Nodup := by
    obtain ⟨h1, h2, h3⟩ := hf
    simp [h1, h2, h3]
  have := h.nodup_iff.1 hn
  simp only [List.nodup_cons, List.mem_cons, List.not_mem_nil, or_false, not_or, List.nodup_nil, not_false_eq_true, and_true] at this
  obtain ⟨⟨h1, h2⟩, h3⟩ := this
  exact ⟨fun e => h1 (by rw [e]), fun e => h2 (by rw [e]), fun e => h3 (by rw [e])⟩

section
variable {K : Type} [Field K] [LinearOrder K] [IsStrictOrderedRing K]

/-- Without merging, `fix_mesh` only changes vertex numbers. -/
theorem refix_relabelled {E : Engine K} (hr : IsRounding E.rnd) (hpt : 0 < E.ptol) {p : List (K × K)} {t : List Tri} {m : Mesh K} {e : K}
    (he : ∀ q ∈ p, ∀ q' ∈ p, |q.1 - q'.1| ≤ e ∧ |q.2 - q'.2| ≤ e) (hn : p.Nodup) (hs : Separated (e * E.ptol) p) (hv : ValidMesh p t)
    (h : refix E p t = some m) : m.p.Nodup ∧ ∃ σ, Relabelled σ m.p.length t m.t ∧ ∀ v < m.p.length, m.p[v]? = p[σ v]? := by
  obtain ⟨g1, g2⟩ := refix_geometry hr hpt he hv h
  obtain ⟨s1, s2, s3, s4, -, -⟩ := refix_shape h
  have hnd : m.p.Nodup := by
    rw [refix, Option.map_eq_some_iff] at h
    obtain ⟨R, hR, rfl⟩ := h
    obtain ⟨snap, -, hf, -, -, -⟩ := fixMesh_facts hR
    exact List.Nodup.of_map _ hf.keysNodup
  refine ⟨hnd, ?_⟩
  have hex : ∀ v : Nat, ∃ i : Nat, v < m.p.length → m.p[v]? = p[i]? := by
    intro v
    by_cases hv' : v < m.p.length
    · obtain ⟨i, hi⟩ := List.mem_iff_getElem?.1 (s4 _ (List.getElem_mem hv'))
      exact ⟨i, fun _ => by rw [hi, List.getElem?_eq_getElem hv']⟩
    · exact ⟨0, fun h => absurd h hv'⟩
  choose σ hσ using hex
  have hin : ∀ v < m.p.length, σ v < p.length := by
    intro v hv'
    have h1 := hσ v hv'
    rw [List.getElem?_eq_getElem hv'] at h1
    exact (List.getElem?_eq_some_iff.1 h1.symm).1
  have hpinj : ∀ i < p.length, ∀ j, p[i]? = p[j]? → i = j := fun i hi j h => (List.getElem?_inj hi hn).1 h
  have hmatch : ∀ g ∈ m.t, ∀ f ∈ t,
      CornersMatch (fun x x' => x ∈ p ∧ x' ∈ p ∧ Within (e * E.ptol) x x') p f m.p g → RowMatches σ g f := by
    rintro g hg f hf ⟨x, y, z, x', y', z', c1, c2, r1, r2, r3⟩
    have ex := hs x r1.1 x' r1.2.1 r1.2.2
    have ey := hs y r2.1 y' r2.2.1 r2.2.2
    have ez := hs z r3.1 z' r3.2.1 r3.2.2
    rw [← ex, ← ey, ← ez, ← c1] at c2
    have hb : ∀ w, HasVertex g w → m.p[w]? = p[σ w]? := fun w hw => hσ w (s1 g hg w hw)
    unfold corners at c2
    rw [hb g.a (.inl rfl), hb g.b (.inr (.inl rfl)), hb g.c (.inr (.inr rfl))] at c2
    have c3 : ([σ g.a, σ g.b, σ g.c].map fun i => p[i]?).Perm ([f.a, f.b, f.c].map fun i => p[i]?) := c2
    refine (perm_of_map_perm (fun i hi j hj hij => ?_) c3).symm
    have hlt : ∀ i ∈ [σ g.a, σ g.b, σ g.c] ++ [f.a, f.b, f.c], i < p.length := by
      intro i hi
      rcases List.mem_append.1 hi with hi | hi
      · simp only [List.mem_cons, List.not_mem_nil, or_false] at hi
        rcases hi with rfl | rfl | rfl
        · exact hin _ (s1 g hg _ (.inl rfl))
        · exact hin _ (s1 g hg _ (.inr (.inl rfl)))
        · exact hin _ (s1 g hg _ (.inr (.inr rfl)))
      · exact hv f hf i ((hasVertex_iff_mem f i).2 hi)
    exact hpinj i (hlt i (by simp_all)) j hij
  refine ⟨σ, ⟨s1, ?_, ?_, ?_, s3⟩, hσ⟩
  · intro u hu v hv' e
    refine (List.getElem?_inj hu hnd).1 ?_
    rw [hσ u hu, hσ v hv', e]
  · intro g hg
    obtain ⟨f, hf, hm⟩ := g1 g hg
    exact ⟨f, hf, hmatch g hg f hf hm⟩
  · intro f hf
    obtain ⟨g, hg, hm⟩ := g2 f hf
    exact ⟨g, hg, hmatch g hg f hf hm⟩

theorem refix_ccw {E : Engine K} {p : List (K × K)} {t : List Tri} {m : Mesh K} (h : refix E p t = some m) :
    ∀ f ∈ m.t, ∀ x y z, m.p[f.a]? = some x → m.p[f.b]? = some y → m.p[f.c]? = some z → 0 ≤ signedArea x y z := by
  rw [refix, Option.map_eq_some_iff] at h
  obtain ⟨R, hR, rfl⟩ := h
  intro f hf x y z hx hy hz
  obtain ⟨x', y', z', hx', hy', hz', h0⟩ := C07_fix_mesh_ccw hR f hf
  rw [hx] at hx'; rw [hy] at hy'; rw [hz] at hz'
  cases hx'; cases hy'; cases hz'
  exact h0

theorem Spec.Inherits.refl (p : List (K × K)) (t : List Tri) : Inherits p t p t := fun g hg => ⟨g, hg, List.Perm.refl _⟩

theorem Spec.Inherits.trans {p p' p'' : List (K × K)} {t t' t'' : List Tri} (h : Inherits p t p' t') (h' : Inherits p' t' p'' t'') : Inherits p t p'' t'' := by
  intro g hg
  obtain ⟨f, hf, h1⟩ := h' g hg
  obtain ⟨k, hk, h2⟩ := h f hf
  exact ⟨k, hk, h1.trans h2⟩

/-- `fix_mesh` on the rows `t'` of a table with different corners and at most two rows on an edge, with points further apart than its tolerance. -/
theorem refix_good_of {E : Engine K} (hr : IsRounding E.rnd) (hpt : 0 < E.ptol) {p : List (K × K)} {t t' : List Tri} {m : Mesh K} {e : K}
    (he : FitsIn e p) (hv : ValidMesh p t) (hnd : p.Nodup) (hap : Separated (e * E.ptol) p) (hco : ∀ f ∈ t, Nondegenerate f) (hcf : Conforming t)
    (hsub : ∀ f ∈ t', f ∈ t) (h : refix E p t' = some m) : GoodMesh (e * E.ptol) m.p m.t ∧ (∀ q ∈ m.p, q ∈ p) ∧ Inherits p t m.p m.t := by
  have hv : ValidMesh p t' := fun f hf => hv f (hsub f hf)
  obtain ⟨hnd, σ, hrel, hσ⟩ := refix_relabelled hr hpt he hnd hap hv h
  obtain ⟨s1, s2, s3, s4, -, -⟩ := refix_shape h
  refine ⟨⟨s1, s2, hnd, fun q hq q' hq' => hap q (s4 q hq) q' (s4 q' hq'), ?_, s3, hrel.conforming hcf hsub, refix_ccw h⟩, s4, ?_⟩
  · intro g hgm
    obtain ⟨f, hf, hm⟩ := hrel.bwd g hgm
    exact RowMatches.nondegenerate hm (hco f (hsub f hf))
  · intro g hgm
    obtain ⟨f, hf, hm⟩ := hrel.bwd g hgm
    refine ⟨f, hsub f hf, ?_⟩
    have hb := s1 g hgm
    have := (hm.map fun i => p[i]?).symm
    simp only [List.map_cons, List.map_nil] at this
    rwa [← hσ _ (hb _ (.inl rfl)), ← hσ _ (hb _ (.inr (.inl rfl))), ← hσ _ (hb _ (.inr (.inr rfl)))] at this

theorem refix_good {E : Engine K} (hr : IsRounding E.rnd) (hpt : 0 < E.ptol) {p : List (K × K)} {t t' : List Tri} {m : Mesh K} {e : K}
    (he : FitsIn e p) (hg : GoodMesh (e * E.ptol) p t) (hsub : ∀ f ∈ t', f ∈ t)
    (h : refix E p t' = some m) : GoodMesh (e * E.ptol) m.p m.t ∧ (∀ q ∈ m.p, q ∈ p) ∧ Inherits p t m.p m.t :=
  refix_good_of hr hpt he hg.valid hg.different hg.apart hg.corners hg.conforming hsub h

/-! ## Removing triangles with one neighbour -/

/-- `f` shares an edge with exactly one other triangle of the table. -/
def Ear (t : List Tri) (f : Tri) : Prop := ∃ h ∈ t, h ≠ f ∧ Adjacent f h ∧ ∀ h' ∈ t, h' ≠ f → Adjacent f h' → h' = h

theorem adjacent_of_edge {f g : Tri} {u v : Nat} (hf : HasEdge f u v) (hg : HasEdge g u v) : Adjacent f g := by
  have key : ∀ {f : Tri}, HasEdge f u v → HasSide f u v := by
    rintro f ⟨hne, hu, hv⟩
    rcases hu with rfl | rfl | rfl <;> rcases hv with rfl | rfl | rfl <;> simp [HasSide] at hne ⊢
  exact ⟨u, v, key hf, key hg⟩

theorem sameVertices_of_three {f g : Tri} {u v w : Nat} (huv : u ≠ v) (huw : u ≠ w) (hvw : v ≠ w)
    (h1 : HasVertex f u ∧ HasVertex f v ∧ HasVertex f w) (h2 : HasVertex g u ∧ HasVertex g v ∧ HasVertex g w) : SameVertices f g := by
  have key : ∀ {f : Tri}, HasVertex f u ∧ HasVertex f v ∧ HasVertex f w → [f.a, f.b, f.c].Perm [u, v, w] := by
    rintro f ⟨hu, hv, hw⟩
    have hsub : [u, v, w] ⊆ [f.a, f.b, f.c] := by
      intro x hx
      simp only [List.mem_cons, List.not_mem_nil, or_false] at hx
      rcases hx with rfl | rfl | rfl
      · exact (hasVertex_iff_mem f _).1 hu
      · exact (hasVertex_iff_mem f _).1 hv
      · exact (hasVertex_iff_mem f _).1 hw
    have hn : [u, v, w].Nodup := by simp [huv, huw, hvw]
    exact ((List.subperm_of_subset hn hsub).perm_of_length_le (by simp)).symm
  exact (key h1).trans (key h2).symm

theorem third_vertex {f : Tri} (hf : Nondegenerate f) {u v : Nat} (h : HasEdge f u v) :
    ∃ w, HasVertex f w ∧ w ≠ u ∧ w ≠ v ∧ ∀ x, HasVertex f x → x = u ∨ x = v ∨ x = w := by
  obtain ⟨hne, hu, hv⟩ := h
  obtain ⟨n1, n2, n3⟩ := hf
  rcases hu with rfl | rfl | rfl <;> rcases hv with rfl | rfl | rfl
  · exact absurd rfl hne
  · exact ⟨f.c, .inr (.inr rfl), Ne.symm n2, Ne.symm n3, fun x hx => hx⟩
  · exact ⟨f.b, .inr (.inl rfl), Ne.symm n1, n3, fun x hx => by rcases hx with h | h | h <;> simp [h]⟩
  · exact ⟨f.c, .inr (.inr rfl), Ne.symm n3, Ne.symm n2, fun x hx => by rcases hx with h | h | h <;> simp [h]⟩
  · exact absurd rfl hne
  · exact ⟨f.a, .inl rfl, n1, n2, fun x hx => by rcases hx with h | h | h <;> simp [h]⟩
  · exact ⟨f.b, .inr (.inl rfl), n3, Ne.symm n1, fun x hx => by rcases hx with h | h | h <;> simp [h]⟩
  · exact ⟨f.a, .inl rfl, n2, n1, fun x hx => by rcases hx with h | h | h <;> simp [h]⟩
  · exact absurd rfl hne

theorem multiplicity_one_unique {t : List Tri} {u v : Nat} (h : edgeMultiplicity t u v = 1) {f g : Tri} (hf : f ∈ t) (hg : g ∈ t)
    (h1 : HasEdge f u v) (h2 : HasEdge g u v) : f = g := by
  unfold edgeMultiplicity at h
  obtain ⟨x, hx⟩ := List.length_eq_one_iff.1 h
  have a : f ∈ t.filter fun f => decide (HasEdge f u v) := List.mem_filter.2 ⟨hf, by simpa using h1⟩
  have b : g ∈ t.filter fun f => decide (HasEdge f u v) := List.mem_filter.2 ⟨hg, by simpa using h2⟩
  rw [hx, List.mem_singleton] at a b
  rw [a, b]

/-- In a table without repeated rows an edge of `f` with more than one triangle has another triangle. -/
theorem exists_other {t : List Tri} (hn : t.Nodup) {u v : Nat} (h : 2 ≤ edgeMultiplicity t u v) (f : Tri) :
    ∃ g ∈ t, g ≠ f ∧ HasEdge g u v := by
  by_contra hno
  push Not at hno
  have hsub : (t.filter fun f => decide (HasEdge f u v)) ⊆ [f] := by
    intro g hg
    obtain ⟨hg, he⟩ := List.mem_filter.1 hg
    by_contra hne
    exact hno g hg (by simpa using hne) (by simpa using he)
  have := (List.subperm_of_subset (hn.filter _) hsub).length_le
  unfold edgeMultiplicity at h
  simp only [List.length_singleton] at this
  omega

/-- If only triangles with one neighbour are removed, no vertex gets more boundary edges. -/
theorem degree_remove_ears {t t' : List Tri} (ht : ∀ f ∈ t, Nondegenerate f) (hs : t.Pairwise fun f g => ¬ SameVertices f g)
    (hc : Conforming t) (hsub : t'.Sublist t) (hear : ∀ f ∈ t, f ∉ t' → Ear t f) (v : Nat) : boundaryDegree t' v ≤ boundaryDegree t v := by
  have hn := nodup_of_single hs
  have hle : ∀ w, edgeMultiplicity t' v w ≤ edgeMultiplicity t v w := fun w => (hsub.filter _).length_le
  -- the other two edges of a removed triangle at an edge with two triangles are boundary edges
  have hbd : ∀ f ∈ t, f ∉ t' → ∀ w, HasEdge f v w → edgeMultiplicity t v w = 2 → ∀ a, HasVertex f a → a ≠ v → a ≠ w →
      edgeMultiplicity t v a = 1 := by
    intro f hf hft w hw h2 a ha hav haw
    obtain ⟨h, hh, hne, hadj, huniq⟩ := hear f hf hft
    obtain ⟨g, hg, hgf, hge⟩ := exists_other hn (le_of_eq h2.symm) f
    have hgh := huniq g hg hgf (adjacent_of_edge hw hge)
    have hfa : HasEdge f v a := ⟨Ne.symm hav, hw.2.1, ha⟩
    have hpos : 0 < edgeMultiplicity t v a := multiplicity_pos.2 ⟨f, hf, hfa⟩
    by_contra hne1
    obtain ⟨g', hg', hgf', hge'⟩ := exists_other hn (by omega : 2 ≤ edgeMultiplicity t v a) f
    have hgh' := huniq g' hg' hgf' (adjacent_of_edge hfa hge')
    rw [hgh'] at hge'
    rw [hgh] at hge
    have := sameVertices_of_three hw.1 (Ne.symm hav) (Ne.symm haw) ⟨hw.2.1, hw.2.2, ha⟩ ⟨hge.2.1, hge.2.2, hge'.2.2⟩
    exact hne (eq_of_single hs hh hf this.symm)
  unfold boundaryDegree
  refine length_le_of_rel (fun w b => (edgeMultiplicity t v w = 1 ∧ b = w) ∨
    (edgeMultiplicity t v w = 2 ∧ ∃ f ∈ t, f ∉ t' ∧ HasEdge f v w ∧ HasVertex f b ∧ b ≠ v ∧ b ≠ w)) ((List.nodup_dedup _).filter _) ?_ ?_
  · intro w hw
    have hw1 : edgeMultiplicity t' v w = 1 := mem_boundaryNeighbours.1 hw
    have h1 := hle w
    have h2 := hc v w
    rcases (by omega : edgeMultiplicity t v w = 1 ∨ edgeMultiplicity t v w = 2) with h | h
    · exact ⟨w, mem_boundaryNeighbours.2 h, .inl ⟨h, rfl⟩⟩
    · have hex : ∃ f ∈ t, f ∉ t' ∧ HasEdge f v w := by
        by_contra hno
        push Not at hno
        have hss : (t.filter fun f => decide (HasEdge f v w)) ⊆ t'.filter fun f => decide (HasEdge f v w) := by
          intro f hf
          obtain ⟨hf, he⟩ := List.mem_filter.1 hf
          refine List.mem_filter.2 ⟨?_, he⟩
          by_contra hft
          exact hno f hf hft (by simpa using he)
        have := (List.subperm_of_subset (hn.filter _) hss).length_le
        unfold edgeMultiplicity at h hw1
        omega
      obtain ⟨f, hf, hft, he⟩ := hex
      obtain ⟨a, ha, hav, haw, -⟩ := third_vertex (ht f hf) he
      exact ⟨a, mem_boundaryNeighbours.2 (hbd f hf hft w he h a ha hav haw), .inr ⟨h, f, hf, hft, he, ha, hav, haw⟩⟩
  · have kept : ∀ w ∈ boundaryNeighbours t' v, ∃ f ∈ t', HasEdge f v w := by
      intro w hw
      have : edgeMultiplicity t' v w = 1 := mem_boundaryNeighbours.1 hw
      exact multiplicity_pos.1 (by omega)
    have mixed : ∀ w ∈ boundaryNeighbours t' v, ∀ w', edgeMultiplicity t v w = 1 →
        (edgeMultiplicity t v w' = 2 ∧ ∃ f ∈ t, f ∉ t' ∧ HasEdge f v w' ∧ HasVertex f w ∧ w ≠ v ∧ w ≠ w') → False := by
      rintro w hw w' h1 ⟨h2, f, hf, hft, he, ha, hav, haw⟩
      obtain ⟨f0, hf0, he0⟩ := kept w hw
      have := multiplicity_one_unique h1 hf (hsub.subset hf0) ⟨Ne.symm hav, he.2.1, ha⟩ he0
      exact hft (this ▸ hf0)
    rintro w hw w' hw' b (⟨h1, rfl⟩ | ⟨h1, r1⟩) (⟨h2, e⟩ | ⟨h2, r2⟩)
    · exact e
    · exact (mixed b hw w' h1 ⟨h2, r2⟩).elim
    · subst e
      exact (mixed b hw' w h2 ⟨h1, r1⟩).elim
    · obtain ⟨f, hf, hft, he, ha, hav, haw⟩ := r1
      obtain ⟨f', hf', hft', he', ha', -, haw'⟩ := r2
      have h3 := hbd f hf hft w he h1 b ha hav haw
      have := multiplicity_one_unique h3 hf hf' ⟨Ne.symm hav, he.2.1, ha⟩ ⟨Ne.symm hav, he'.2.1, ha'⟩
      subst this
      obtain ⟨c, -, -, -, hc3⟩ := third_vertex (ht f hf) (⟨Ne.symm hav, he.2.1, ha⟩ : HasEdge f v b)
      rcases hc3 w he.2.2 with h | h | h
      · exact absurd h (Ne.symm he.1)
      · exact absurd h.symm haw
      · rcases hc3 w' he'.2.2 with h' | h' | h'
        · exact absurd h' (Ne.symm he'.1)
        · exact absurd h'.symm haw'
        · rw [h, h']

theorem ear_of_one {t : List Tri} (hn : t.Nodup) {c : Nat} {f : Tri} (hc : t[c]? = some f) (h : HasOneNeighbour t c) : Ear t f := by
  obtain ⟨f', g, k, hf, hgc, hk, hadj, huniq⟩ := h
  rw [hc] at hf
  cases hf
  have hlt : g < t.length := (List.getElem?_eq_some_iff.1 hk).1
  refine ⟨k, List.mem_of_getElem? hk, ?_, hadj, ?_⟩
  · rintro rfl
    exact hgc ((List.getElem?_inj hlt hn).1 (hk.trans hc.symm))
  · intro h' hh' hne ha
    obtain ⟨g', hg'⟩ := List.mem_iff_getElem?.1 hh'
    have hg'c : g' ≠ c := by
      rintro rfl
      rw [hc] at hg'
      exact hne (Option.some.inj hg').symm
    have := huniq g' h' hg'c hg' ha
    rw [this, hk] at hg'
    exact (Option.some.inj hg').symm

theorem mem_deleteRows' {idx : List Nat} {t : List Tri} {f : Tri} : f ∈ deleteRows idx t ↔ ∃ c, t[c]? = some f ∧ c ∉ idx := by
  rw [deleteRows_eq, List.mem_map]
  constructor
  · rintro ⟨⟨g, c⟩, hx, rfl⟩
    obtain ⟨h1, h2⟩ := List.mem_filter.1 hx
    exact ⟨c, List.mem_zipIdx_iff_getElem?.1 h1, by simpa using h2⟩
  · rintro ⟨c, h1, h2⟩
    exact ⟨(f, c), List.mem_filter.2 ⟨List.mem_zipIdx_iff_getElem?.2 h1, by simpa using h2⟩, rfl⟩

/-! ## C96 -/

theorem extent_sub {p p' : List (K × K)} {e : K} (he : FitsIn e p) (h : ∀ q ∈ p', q ∈ p) : FitsIn e p' := fun q hq q' hq' => he q (h q hq) q' (h q' hq')

/-- **C96** `make_mesh_boundaries_traversable` makes a good mesh out of a good one, and every vertex on its boundary lies on exactly two boundary
edges. Its triangles are triangles of the given mesh. (Hypotheses on the mesh given only, unlike `C17_boundary_traversable`.) -/
theorem C96_traversable {E : Engine K} (hr : IsRounding E.rnd) (hpt : 0 < E.ptol) {rand : Nat → Nat → Nat → Nat} {thr : K} {m m' : Mesh K}
    {e : K} (he : FitsIn e m.p) (hg : GoodMesh (e * E.ptol) m.p m.t) (h : makeTraversable E rand thr m = some (some m')) :
    GoodMesh (e * E.ptol) m'.p m'.t ∧ Traversable m'.t ∧ (∀ q ∈ m'.p, q ∈ m.p) ∧ Inherits m.p m.t m'.p m'.t := by
  obtain ⟨n, -, h1, h2, h3⟩ := traversableLoop_induct
    (P := fun _ x => GoodMesh (e * E.ptol) x.p x.t ∧ (∀ q ∈ x.p, q ∈ m.p) ∧ Inherits m.p m.t x.p x.t) (by
      rintro n k x x' ⟨a1, a2, a3⟩ hx
      obtain ⟨t1, m1, idx, s1, -, s2, -, -, -, s6⟩ := traversablePass_stages hx
      obtain ⟨b1, b2, b3⟩ := refix_good hr hpt (extent_sub he a2) a1 (deleteExterior_shape s1).2 s2
      obtain ⟨c1, c2, c3⟩ := refix_good hr hpt (extent_sub he fun q hq => a2 q (b2 q hq)) b1
        (fun f hf => (deleteRows_sublist idx m1.t).subset hf) s6
      exact ⟨c1, fun q hq => a2 q (b2 q (c2 q hq)), (a3.trans b3).trans c3⟩)
    (n := 0) (m := m) ⟨hg, fun q hq => hq, .refl _ _⟩ h
  exact ⟨h1, C17_boundary_traversable h h1.corners h1.conforming, h2, h3⟩

theorem oneFaceLoop_induct' {E : Engine K} (P : Mesh K → Prop)
    (hP : ∀ m m', P m → refix E m.p (deleteRows (blocksOfTwo 0 (faceToFace E.srtE m.t).2) m.t) = some m' → P m') :
    ∀ {fuel : Nat} {left : Option Nat} {m m' : Mesh K}, P m → oneFaceLoop E fuel left m = some (some m') → P m'
  | 0, _, _, _, _, h => by simp [oneFaceLoop] at h
  | fuel + 1, left, m, m', hm, h => by
    rw [oneFaceLoop] at h
    split at h
    · cases h; exact hm
    · split at h
      · cases h; exact hm
      · rename_i d ds hb
        split at h
        · simp at h
        · rename_i m1 hm1
          exact oneFaceLoop_induct' P hP (hP m m1 hm (by rw [hb]; exact hm1)) h

theorem oneFace_pass {E : Engine K} (hr : IsRounding E.rnd) (hpt : 0 < E.ptol) {m m' : Mesh K} {e : K}
    (he : FitsIn e m.p) (hg : GoodMesh (e * E.ptol) m.p m.t)
    (h : refix E m.p (deleteRows (blocksOfTwo 0 (faceToFace E.srtE m.t).2) m.t) = some m') :
    GoodMesh (e * E.ptol) m'.p m'.t ∧ (∀ q ∈ m'.p, q ∈ m.p) ∧ Inherits m.p m.t m'.p m'.t ∧ ∀ b, (∀ v, boundaryDegree m.t v ≤ b) → ∀ v, boundaryDegree m'.t v ≤ b := by
  have hsub := deleteRows_sublist (blocksOfTwo 0 (faceToFace E.srtE m.t).2) m.t
  obtain ⟨h1, h2, h3⟩ := refix_good hr hpt he hg (fun f hf => hsub.subset hf) h
  refine ⟨h1, h2, h3, fun b hb v => ?_⟩
  have hv : ValidMesh m.p (deleteRows (blocksOfTwo 0 (faceToFace E.srtE m.t).2) m.t) := fun f hf => hg.valid f (hsub.subset hf)
  obtain ⟨-, σ, hrel, -⟩ := refix_relabelled hr hpt he hg.different hg.apart hv h
  have hn := nodup_of_single hg.single
  by_cases hvl : v < m'.p.length
  · refine (hrel.degree_le (hg.single.sublist hsub) hvl).trans ((degree_remove_ears hg.corners hg.single hg.conforming hsub ?_ _).trans (hb _))
    intro f hf hft
    obtain ⟨c, hc⟩ := List.mem_iff_getElem?.1 hf
    have hci : c ∈ blocksOfTwo 0 (faceToFace E.srtE m.t).2 := by
      by_contra hno
      exact hft (mem_deleteRows'.2 ⟨c, hc, hno⟩)
    obtain ⟨hcl, hb2⟩ := (mem_blocksOfTwo_faces E.srtE m.t c).1 hci
    exact ear_of_one hn hc ((block_two_iff hg.corners hg.conforming hg.single hcl).1 hb2)
  · have : boundaryDegree m'.t v = 0 := by
      by_contra hne
      obtain ⟨w, hw⟩ := List.exists_mem_of_length_pos (Nat.pos_of_ne_zero hne)
      obtain ⟨-, f, hf, hfv, -⟩ := IsBoundaryEdge.exists (mem_boundaryNeighbours.1 hw)
      exact hvl (h1.valid f hf v hfv)
    omega

theorem degree_le_of_traversable {t : List Tri} (h : Traversable t) (v : Nat) : boundaryDegree t v ≤ 2 := by
  rcases Nat.eq_zero_or_pos (boundaryDegree t v) with h0 | h0
  · omega
  · obtain ⟨w, hw⟩ := List.exists_mem_of_length_pos h0
    exact le_of_eq (h w v (IsBoundaryEdge.symm' (mem_boundaryNeighbours.1 hw)))

theorem traversable_of_degree_le (o : RowOrder (Nat × Nat)) {t : List Tri} (ht : ∀ f ∈ t, Nondegenerate f) (hc : Conforming t)
    (h : ∀ v, boundaryDegree t v ≤ 2) : Traversable t := by
  intro u v huv
  have hpos : 0 < boundaryDegree t v := List.length_pos_of_mem (mem_boundaryNeighbours.2 (IsBoundaryEdge.symm' huv))
  obtain ⟨k, hk⟩ := boundary_degree_even o t ht hc v
  rw [degree_eq_boundaryDegree o ht] at hk
  have := h v
  omega

/-- **C96** `delete_faces_connected_to_one_face` returns for every good mesh and every limit other than zero; the result is good; with unlimited
iterations no triangle of it is connected to exactly one other. -/
theorem C96_one_face {E : Engine K} (hr : IsRounding E.rnd) (hpt : 0 < E.ptol) {limit : Option Nat} (hl : limit ≠ some 0) {m : Mesh K} {e : K}
    (he : FitsIn e m.p) (hg : GoodMesh (e * E.ptol) m.p m.t) :
    ∃ m', deleteOneFace E limit m = some (some m') ∧ GoodMesh (e * E.ptol) m'.p m'.t ∧ (∀ q ∈ m'.p, q ∈ m.p) ∧ Inherits m.p m.t m'.p m'.t ∧
      (limit = none → ∀ c, ¬ HasOneNeighbour m'.t c) := by
  have total : ∀ (fuel : Nat) (left : Option Nat) (x : Mesh K), ValidMesh x.p x.t → x.t.length < fuel →
      ∃ m', oneFaceLoop E fuel left x = some (some m') := by
    intro fuel
    induction fuel with
    | zero => intro _ x _ h; omega
    | succ fuel ih =>
      intro left x hx hlt
      rw [oneFaceLoop]
      split
      · exact ⟨x, rfl⟩
      · split
        · exact ⟨x, rfl⟩
        · rename_i d ds hb
          have hd : d < x.t.length := ((mem_blocksOfTwo_faces E.srtE x.t d).1 (by rw [hb]; exact List.mem_cons_self)).1
          have hp : x.p ≠ [] := by
            intro h0
            have := hx x.t[d] (List.getElem_mem hd) _ (.inl rfl)
            rw [h0] at this
            simp at this
          have hx' : ValidMesh x.p (deleteRows (d :: ds) x.t) := fun f hf => hx f ((deleteRows_sublist _ _).subset hf)
          obtain ⟨R, hR⟩ := fixMesh_isSome E.rnd E.oP E.oT E.ptol true hp hx'
          have hre : refix E x.p (deleteRows (d :: ds) x.t) = some ⟨R.p, R.t⟩ := by rw [refix, hR]; rfl
          rw [hre]
          obtain ⟨s1, -, -, -, s5, -⟩ := refix_shape hre
          have := deleteRows_lt (idx := d :: ds) (t := x.t) List.mem_cons_self hd
          exact ih _ _ s1 (by simp only at s5 ⊢; omega)
  obtain ⟨m', hm'⟩ := total (m.t.length + 1) limit m hg.valid (by omega)
  have hdel : deleteOneFace E limit m = some (some m') := by rw [deleteOneFace, if_neg hl]; exact hm'
  obtain ⟨h1, h2, h3⟩ := oneFaceLoop_induct' (fun x => GoodMesh (e * E.ptol) x.p x.t ∧ (∀ q ∈ x.p, q ∈ m.p) ∧ Inherits m.p m.t x.p x.t) (by
    rintro x x' ⟨a1, a2, a3⟩ hx
    obtain ⟨b1, b2, b3, -⟩ := oneFace_pass hr hpt (extent_sub he a2) a1 hx
    exact ⟨b1, fun q hq => a2 q (b2 q hq), a3.trans b3⟩) ⟨hg, fun q hq => hq, .refl _ _⟩ hm'
  refine ⟨m', hdel, h1, h2, h3, ?_⟩
  rintro rfl
  exact C18_no_single_neighbour_partial hdel h1.corners h1.conforming h1.single

/-- **C96** `delete_boundary_faces` returns a good mesh for every good one. -/
theorem C96_boundary_faces {E : Engine K} (hr : IsRounding E.rnd) (hpt : 0 < E.ptol) (minQual : K) {m : Mesh K} (hp : m.p ≠ []) {e : K} (he : FitsIn e m.p)
    (hg : GoodMesh (e * E.ptol) m.p m.t) :
    ∃ m', deleteBoundaryFaces E minQual m = some m' ∧ GoodMesh (e * E.ptol) m'.p m'.t ∧ (∀ q ∈ m'.p, q ∈ m.p) ∧ Inherits m.p m.t m'.p m'.t := by
  obtain ⟨t', h1, h2⟩ := deleteBoundaryRows_spec E.oE E.srtV (E.qual m.p) minQual hg.valid hg.used
  have hsub : ∀ f ∈ t', f ∈ m.t := fun f hf => by rw [h2] at hf; exact (List.mem_filter.1 hf).1
  obtain ⟨R, hR⟩ := fixMesh_isSome E.rnd E.oP E.oT E.ptol true hp (fun f hf => hg.valid f (hsub f hf))
  have hm' : refix E m.p t' = some ⟨R.p, R.t⟩ := by rw [refix, hR]; rfl
  refine ⟨⟨R.p, R.t⟩, ?_, refix_good hr hpt he hg hsub hm'⟩
  rw [deleteBoundaryFaces, h1, Option.bind_eq_bind, Option.bind_some, hm']

/-! ## C97 -/

/-- **C97** `delete_faces_connected_to_one_face` gives no vertex more boundary edges than the largest number before; so boundaries stay
traversable. -/
theorem C97_one_face_keeps {E : Engine K} (hr : IsRounding E.rnd) (hpt : 0 < E.ptol) {limit : Option Nat} {m m' : Mesh K} {e : K}
    (he : FitsIn e m.p) (hg : GoodMesh (e * E.ptol) m.p m.t) (ht : Traversable m.t) (h : deleteOneFace E limit m = some (some m')) :
    Traversable m'.t := by
  rw [deleteOneFace] at h
  split at h
  · simp at h
  · obtain ⟨h1, -, h3⟩ := oneFaceLoop_induct' (fun x => GoodMesh (e * E.ptol) x.p x.t ∧ (∀ q ∈ x.p, q ∈ m.p) ∧ ∀ v, boundaryDegree x.t v ≤ 2) (by
      rintro x x' ⟨a1, a2, a3⟩ hx
      obtain ⟨b1, b2, -, b3⟩ := oneFace_pass hr hpt (extent_sub he a2) a1 hx
      exact ⟨b1, fun q hq => a2 q (b2 q hq), b3 2 a3⟩) ⟨hg, fun q hq => hq, degree_le_of_traversable ht⟩ h
    exact traversable_of_degree_le E.oE h1.corners h1.conforming h3

/-- **C97** The first two steps of the documented workflow, `make_mesh_boundaries_traversable` and then `delete_faces_connected_to_one_face`, give
for every good mesh (unless the first one raises) a good mesh with traversable boundaries in which no triangle is connected to exactly one
other, and whose triangles are triangles of the given mesh. -/
theorem C97_two_steps {E : Engine K} (hr : IsRounding E.rnd) (hpt : 0 < E.ptol) {rand : Nat → Nat → Nat → Nat} {thr : K} {m m1 : Mesh K} {e : K}
    (he : FitsIn e m.p) (hg : GoodMesh (e * E.ptol) m.p m.t) (h : makeTraversable E rand thr m = some (some m1)) :
    ∃ m2, deleteOneFace E none m1 = some (some m2) ∧ GoodMesh (e * E.ptol) m2.p m2.t ∧ Traversable m2.t ∧ (∀ c, ¬ HasOneNeighbour m2.t c) ∧
      Inherits m.p m.t m2.p m2.t := by
  obtain ⟨a1, a2, a3, a4⟩ := C96_traversable hr hpt he hg h
  have he1 := extent_sub he a3
  obtain ⟨m2, h2, b1, -, b2, b3⟩ := C96_one_face hr hpt (by simp : (none : Option Nat) ≠ some 0) he1 a1
  exact ⟨m2, h2, b1, C97_one_face_keeps hr hpt he1 a1 a2 h2, b3 rfl, a4.trans b2⟩

/-- **C97** `laplacian2` with any fixed points keeps the table, so all of this except the orientation and the distances. -/
theorem C97_smoothing_keeps {len : K × K → K × K → K} {oE : RowOrder (Nat × Nat)} {maxIter : Nat} {tol : K} {pfix : Option (List (K × K))}
    {m m' : Mesh K} (hp : m.p ≠ []) (h : laplacian2 len oE maxIter tol pfix m = some m') :
    m'.t = m.t ∧ m'.p.length = m.p.length ∧ (Traversable m.t → Traversable m'.t) ∧
      ((∀ c, ¬ HasOneNeighbour m.t c) → ∀ c, ¬ HasOneNeighbour m'.t c) := by
  obtain ⟨h1, h2, -⟩ := C20_fixed_vertices hp h
  exact ⟨h1, h2, by rw [h1]; exact id, by rw [h1]; exact id⟩

end

/-! ## The third step -/

/-- Two triangles with an inner vertex each, joined at a corner by a thin triangle. -/
def bridgeM : Mesh ℚ :=
  ⟨[(0, 0), (0, 9), (-9, 9), (-3, 6), (3 / 4, 9), (9, 0), (4, 3)],
    [⟨0, 1, 3⟩, ⟨1, 2, 3⟩, ⟨2, 0, 3⟩, ⟨0, 5, 6⟩, ⟨5, 4, 6⟩, ⟨4, 0, 6⟩, ⟨0, 4, 1⟩]⟩

/-- The same with one more triangle outside. -/
def bridgeEarM : Mesh ℚ :=
  ⟨[(0, 0), (0, 9), (-9, 9), (-3, 6), (3 / 4, 9), (9, 0), (4, 3), (9, 9)],
    [⟨0, 1, 3⟩, ⟨1, 2, 3⟩, ⟨2, 0, 3⟩, ⟨0, 5, 6⟩, ⟨5, 4, 6⟩, ⟨4, 0, 6⟩, ⟨0, 4, 1⟩, ⟨5, 7, 4⟩]⟩

theorem goodMesh_of_bound {d : ℚ} {p : List (ℚ × ℚ)} {t : List Tri} (h1 : ∀ f ∈ t, f.a < p.length ∧ f.b < p.length ∧ f.c < p.length)
    (h2 : ∀ v < p.length, ∃ f ∈ t, HasVertex f v) (h3 : p.Nodup) (h4 : ∀ q ∈ p, ∀ q' ∈ p, |q.1 - q'.1| ≤ d ∧ |q.2 - q'.2| ≤ d → q = q')
    (h5 : ∀ f ∈ t, Nondegenerate f) (h6 : t.Pairwise fun f g => ¬ [f.a, f.b, f.c].Perm [g.a, g.b, g.c])
    (h7 : ∀ u < p.length, ∀ v < p.length, edgeMultiplicity t u v ≤ 2)
    (h8 : ∀ f ∈ t, ((do let x ← p[f.a]?; let y ← p[f.b]?; let z ← p[f.c]?; some (decide (0 ≤ signedArea x y z))) : Option Bool) = some true) : GoodMesh d p t := by
  refine ⟨validMesh_of_bound h1, h2, h3, h4, h5, h6, conforming_of_bound _ h1 h7, ?_⟩
  intro f hf x y z hx hy hz
  have := h8 f hf
  simpa [hx, hy, hz] using this

theorem bridgeM_good : GoodMesh (18 * engineQ.ptol) bridgeM.p bridgeM.t := by
  refine goodMesh_of_bound ?_ ?_ ?_ ?_ ?_ ?_ ?_ ?_ <;> decide +kernel

theorem bridgeEarM_good : GoodMesh (18 * engineQ.ptol) bridgeEarM.p bridgeEarM.t := by
  refine goodMesh_of_bound ?_ ?_ ?_ ?_ ?_ ?_ ?_ ?_ <;> decide +kernel

theorem bridgeEarM_fits : FitsIn 18 bridgeEarM.p := by
  have : ∀ q ∈ bridgeEarM.p, ∀ q' ∈ bridgeEarM.p, |q.1 - q'.1| ≤ 18 ∧ |q.2 - q'.2| ≤ 18 := by decide +kernel
  exact this

theorem traversable_of_bound {t : List Tri} (n : Nat) (hv : ∀ f ∈ t, f.a < n ∧ f.b < n ∧ f.c < n)
    (h : ∀ u < n, ∀ v < n, IsBoundaryEdge t u v → boundaryDegree t v = 2) : Traversable t := by
  intro u v huv
  obtain ⟨-, f, hf, h1, h2⟩ := IsBoundaryEdge.exists huv
  obtain ⟨a, b, c⟩ := hv f hf
  refine h u ?_ v ?_ huv
  · rcases h1 with rfl | rfl | rfl <;> assumption
  · rcases h2 with rfl | rfl | rfl <;> assumption

theorem bridgeM_traversable : Traversable bridgeM.t := traversable_of_bound 7 (by decide) (by decide +kernel)

-- The steps of the workflow on the mesh with the additional triangle: it is deleted by the second one.
example : IsRounding engineQ.rnd ∧ 0 < engineQ.ptol ∧ bridgeEarM.p ≠ [] ∧
    makeTraversable engineQ (fun _ _ _ => 0) (1 / 20) bridgeEarM = some (some bridgeEarM) ∧
    (deleteOneFace engineQ none bridgeEarM).map (·.map fun m => m.t.length) = some (some 7) :=
  ⟨rndQ_isRounding, by norm_num [engineQ], by simp [bridgeEarM], by decide +kernel, by decide +kernel⟩

-- `laplacian2` moves the inner vertex of the wheel and keeps its traversable boundary.
example : (∀ f ∈ wheelM.t, Nondegenerate f) ∧ wheelM.p ≠ [] ∧ Traversable wheelM.t ∧
    laplacian2 lenQ lexOrder 20 (1 / 100) none wheelM = some ⟨[(0, 0), (1, 0), (1, 1), (0, 1), (1 / 2, 1 / 2)], wheelM.t⟩ :=
  ⟨by decide, by simp [wheelM], traversable_of_bound 5 (by decide) (by decide +kernel), by decide +kernel⟩

/-- **C97** fails for the third step of the documented workflow: `delete_boundary_faces` takes the thin triangle out of a good mesh with traversable
boundaries and without triangles connected to only one other, after which one vertex lies on four boundary edges. (Here with areas as qualities;
`simp_qual` gives about 0.11 for the thin triangle and more than 0.2 for the others, the documented limit is 0.15.) -/
theorem C97_boundary_faces_break :
    ∃ m m' : Mesh ℚ, GoodMesh (18 * engineQ.ptol) m.p m.t ∧ Traversable m.t ∧ deleteOneFace engineQ none m = some (some m) ∧
      deleteBoundaryFaces engineQ 5 m = some m' ∧ ¬ Traversable m'.t := by
  refine ⟨bridgeM, ⟨[(-9, 9), (-3, 6), (0, 0), (0, 9), (3 / 4, 9), (4, 3), (9, 0)],
    [⟨1, 0, 2⟩, ⟨0, 1, 3⟩, ⟨1, 2, 3⟩, ⟨4, 2, 5⟩, ⟨5, 2, 6⟩, ⟨4, 5, 6⟩]⟩, bridgeM_good, bridgeM_traversable, by decide +kernel,
    by decide +kernel, ?_⟩
  intro h
  have := h 0 2 (by decide)
  revert this
  decide

end OM
