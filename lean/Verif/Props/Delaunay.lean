import Verif.Spec.Triangulation
import Verif.Spec.Mesh
import Verif.Lemmas.Unique
import Mathlib.Tactic.Common
import Mathlib.Data.List.Nodup
import Mathlib.Data.Fin.VecNotation
/-! C74 (unique edges) and C75 (vertex numbers of the triangulation). -/
namespace OM
open Spec

/-! ## C74 -/

theorem mem_stdUnique {α : Type} [DecidableEq α] (l : List α) (x : α) : x ∈ stdUnique l ↔ x ∈ l := by
  induction l with
  | nil => simp [stdUnique]
  | cons a l ih =>
    cases l with
    | nil => simp [stdUnique]
    | cons b l =>
      rw [stdUnique]
      by_cases h : a = b
      · rw [if_pos h, ih, h]; simp
      · rw [if_neg h, List.mem_cons, ih, ← List.mem_cons]

theorem stdUnique_strict (l : List (Nat × Nat)) (h : l.Pairwise fun a b => lexOrder.le a b = true) :
    (stdUnique l).Pairwise fun a b => a.1 < b.1 ∨ (a.1 = b.1 ∧ a.2 < b.2) := by
  induction l with
  | nil => simp [stdUnique]
  | cons a l ih =>
    have h1 := List.pairwise_cons.1 h
    cases l with
    | nil => simp [stdUnique]
    | cons b l =>
      rw [stdUnique]
      by_cases hab : a = b
      · rw [if_pos hab]; exact ih h1.2
      · rw [if_neg hab]
        refine List.pairwise_cons.2 ⟨?_, ih h1.2⟩
        intro c hc
        rw [mem_stdUnique] at hc
        have h2 := h1.1 b (by simp)
        have h3 : lexOrder.le b c = true := by
          rcases List.mem_cons.1 hc with rfl | hc
          · simp [lexOrder]
          · exact (List.pairwise_cons.1 h1.2).1 c hc
        simp only [lexOrder, decide_eq_true_eq] at h2 h3
        have : a.1 ≠ b.1 ∨ a.2 ≠ b.2 := by
          by_contra hh; push Not at hh; exact hab (Prod.ext hh.1 hh.2)
        omega

/-- A strictly increasing list of pairs is determined by its elements. -/
theorem strict_ext {l m : List (Nat × Nat)} (hl : l.Pairwise fun a b => a.1 < b.1 ∨ (a.1 = b.1 ∧ a.2 < b.2))
    (hm : m.Pairwise fun a b => a.1 < b.1 ∨ (a.1 = b.1 ∧ a.2 < b.2)) (h : ∀ x, x ∈ l ↔ x ∈ m) : l = m := by
  induction l generalizing m with
  | nil =>
    cases m with
    | nil => rfl
    | cons b m => exact absurd ((h b).2 (by simp)) (by simp)
  | cons a l ih =>
    cases m with
    | nil => exact absurd ((h a).1 (by simp)) (by simp)
    | cons b m =>
      have hl1 := List.pairwise_cons.1 hl
      have hm1 := List.pairwise_cons.1 hm
      have hab : a = b := by
        rcases List.mem_cons.1 ((h a).1 (by simp)) with e | e
        · exact e
        rcases List.mem_cons.1 ((h b).2 (by simp)) with e' | e'
        · exact e'.symm
        have := hl1.1 b e'; have := hm1.1 a e
        omega
      subst hab
      refine congrArg _ (ih hl1.2 hm1.2 fun x => ?_)
      constructor
      · intro hx
        rcases List.mem_cons.1 ((h x).1 (List.mem_cons_of_mem _ hx)) with e | e
        · subst e; have := hl1.1 x hx; omega
        · exact e
      · intro hx
        rcases List.mem_cons.1 ((h x).2 (List.mem_cons_of_mem _ hx)) with e | e
        · subst e; have := hm1.1 x hx; omega
        · exact e

theorem edgePairs_flat (l : List (Nat × Nat)) : edgePairs (l.flatMap fun e => [e.1, e.2]) = some (l.map fun e => (min e.1 e.2, max e.1 e.2)) := by
  induction l with
  | nil => rfl
  | cons e l ih => simp [edgePairs, ih]

theorem getBars_isSome (t : List Tri) : ∃ b, getBars t = some b := by
  exact ⟨_, by rw [getBars, uniqueEdges, edgePairs_flat, Option.map_some]⟩

/-- **C74**: the result exists, is strictly increasing in lexicographic order, and contains `(u, v)` exactly if `u ≤ v` and some triangle has the side
between `u` and `v`, in either direction. -/
theorem C74_unique_edges (t : List Tri) :
    ∃ b, getBars t = some b ∧ (b.Pairwise fun e f => e.1 < f.1 ∨ (e.1 = f.1 ∧ e.2 < f.2)) ∧
      ∀ u v, (u, v) ∈ b ↔ u ≤ v ∧ ∃ f ∈ t, HasSide f u v := by
  refine ⟨_, by rw [getBars, uniqueEdges, edgePairs_flat, Option.map_some], ?_, ?_⟩
  · exact stdUnique_strict _ (sortBy_sorted _ lexOrder.total lexOrder.trans _)
  · intro u v
    rw [mem_stdUnique, (sortBy_perm _ _).mem_iff]
    simp only [List.map_append, List.map_map, List.mem_append, List.mem_map, Function.comp, Prod.mk.injEq, HasSide]
    constructor
    · rintro ((⟨f, hf, h1, h2⟩ | ⟨f, hf, h1, h2⟩) | ⟨f, hf, h1, h2⟩) <;> exact ⟨by omega, f, hf, by omega⟩
    · rintro ⟨h, f, hf, h1⟩
      have key : (min f.a f.b = u ∧ max f.a f.b = v) ∨ (min f.b f.c = u ∧ max f.b f.c = v) ∨ (min f.c f.a = u ∧ max f.c f.a = v) := by omega
      rcases key with k | k | k
      · exact Or.inl (Or.inl ⟨f, hf, k⟩)
      · exact Or.inl (Or.inr ⟨f, hf, k⟩)
      · exact Or.inr ⟨f, hf, k⟩

/-- **C74**: the result depends only on the set of undirected sides: order and orientation of the triangles do not matter. -/
theorem C74_independent (t t' : List Tri)
    (h : ∀ u v, (∃ f ∈ t, HasSide f u v) ↔ ∃ f ∈ t', HasSide f u v) : getBars t = getBars t' := by
  obtain ⟨b, e1, s1, m1⟩ := C74_unique_edges t
  obtain ⟨b', e2, s2, m2⟩ := C74_unique_edges t'
  rw [e1, e2]
  refine congrArg some (strict_ext s1 s2 ?_)
  rintro ⟨u, v⟩
  rw [m1, m2]
  rw [h]

/-- **C74**: an array with an odd number of entries cannot be read pair by pair; every even one can. -/
theorem C74_even (l : List Nat) : (∃ b, uniqueEdges l = some b) ↔ l.length % 2 = 0 := by
  have key : ∀ (n : Nat) (l : List Nat), l.length ≤ n → ((∃ b, edgePairs l = some b) ↔ l.length % 2 = 0) := by
    intro n
    induction n with
    | zero => intro l hl; have : l = [] := List.length_eq_zero_iff.1 (by omega); subst this; simp [edgePairs]
    | succ n ih =>
      intro l hl
      match l, hl with
      | [], _ => simp [edgePairs]
      | [_], _ => simp [edgePairs]
      | a :: b :: l, hl =>
        have := ih l (by simp only [List.length_cons] at hl; omega)
        simp only [edgePairs, Option.map_eq_some_iff, List.length_cons]
        have h2 : (l.length + 1 + 1) % 2 = l.length % 2 := by omega
        rw [h2, ← this]
        constructor
        · rintro ⟨c, x, hx, -⟩; exact ⟨x, hx⟩
        · rintro ⟨x, hx⟩; exact ⟨_, x, hx, rfl⟩
  rw [← key l.length l (Nat.le_refl _)]
  simp only [uniqueEdges, Option.map_eq_some_iff]
  constructor
  · rintro ⟨c, x, hx, -⟩; exact ⟨x, hx⟩
  · rintro ⟨x, hx⟩; exact ⟨_, x, hx, rfl⟩

example : getBars [⟨2, 1, 0⟩, ⟨1, 2, 3⟩] = some [(0, 1), (0, 2), (1, 2), (1, 3), (2, 3)] := by decide
example : getBars [⟨2, 1, 0⟩, ⟨1, 2, 3⟩] = getBars [⟨3, 2, 1⟩, ⟨0, 1, 2⟩] :=
  C74_independent _ _ (by
    intro u v
    have h1 : HasSide ⟨2, 1, 0⟩ u v ↔ HasSide ⟨0, 1, 2⟩ u v := by simp only [HasSide]; omega
    have h2 : HasSide ⟨1, 2, 3⟩ u v ↔ HasSide ⟨3, 2, 1⟩ u v := by simp only [HasSide]; omega
    simp only [List.mem_cons, List.not_mem_nil, or_false, exists_eq_or_imp, exists_eq_left, h1, h2]
    exact or_comm)

/-! ## C75 -/

variable {K : Type}

theorem renumberVertices_get (l : List (DVertex K)) (i k : Nat) :
    (renumberVertices i l)[k]? = l[k]?.map fun v => { v with info := i + k } := by
  induction l generalizing i k with
  | nil => simp [renumberVertices]
  | cons v l ih =>
    cases k with
    | zero => simp [renumberVertices]
    | succ k => simp only [renumberVertices, List.getElem?_cons_succ, ih]; congr 1; funext w; congr 1; omega

theorem renumberVertices_handle (l : List (DVertex K)) (i : Nat) : (renumberVertices i l).map (·.handle) = l.map (·.handle) := by
  induction l generalizing i with
  | nil => rfl
  | cons v l ih => simp [renumberVertices, ih]

theorem renumberVertices_point (l : List (DVertex K)) (i : Nat) : (renumberVertices i l).map (·.point) = l.map (·.point) := by
  induction l generalizing i with
  | nil => rfl
  | cons v l ih => simp [renumberVertices, ih]

theorem renumberVertices_placed (l : List (DVertex K)) (i : Nat) :
    (renumberVertices i l).map (fun v => (v.handle, v.point)) = l.map fun v => (v.handle, v.point) := by
  induction l generalizing i with
  | nil => rfl
  | cons v l ih => simp [renumberVertices, ih]

theorem renumberFaces_get (l : List DFace) (i k : Nat) : (renumberFaces i l)[k]? = l[k]?.map fun v => { v with info := i + k } := by
  induction l generalizing i k with
  | nil => simp [renumberFaces]
  | cons v l ih =>
    cases k with
    | zero => simp [renumberFaces]
    | succ k => simp only [renumberFaces, List.getElem?_cons_succ, ih]; congr 1; funext w; congr 1; omega

theorem renumberFaces_handle (l : List DFace) (i : Nat) : (renumberFaces i l).map (·.handle) = l.map (·.handle) := by
  induction l generalizing i with
  | nil => rfl
  | cons v l ih => simp [renumberFaces, ih]

theorem mem_renumberFaces {l : List DFace} {i : Nat} {f : DFace} (h : f ∈ renumberFaces i l) :
    ∃ g ∈ l, g.handle = f.handle ∧ g.corners = f.corners ∧ g.neighbours = f.neighbours := by
  induction l generalizing i with
  | nil => simp [renumberFaces] at h
  | cons v l ih =>
    rcases List.mem_cons.1 h with rfl | h
    · exact ⟨v, by simp, rfl, rfl, rfl⟩
    · obtain ⟨g, hg, h⟩ := ih h
      exact ⟨g, List.mem_cons_of_mem _ hg, h⟩

theorem vertices_wf {d : Triangulation K} (h : WellFormed d) : WellFormed (getFiniteVertices d).2 where
  handles := by simp only [getFiniteVertices, renumberVertices_handle]; exact h.handles
  points := by simp only [getFiniteVertices, renumberVertices_point]; exact h.points
  faceHandles := h.faceHandles
  corners := by simp only [getFiniteVertices, renumberVertices_handle]; exact h.corners
  neighbours := h.neighbours

/-- Setting the numbers of the faces. -/
def faceNumbered (d : Triangulation K) : Triangulation K := { d with faces := renumberFaces 0 d.faces }

theorem faceNumbered_wf {d : Triangulation K} (h : WellFormed d) : WellFormed (faceNumbered d) where
  handles := h.handles
  points := h.points
  faceHandles := by simp only [faceNumbered, renumberFaces_handle]; exact h.faceHandles
  corners := by
    intro f hf j
    obtain ⟨g, hg, -, h2, -⟩ := mem_renumberFaces hf
    rw [← h2]; exact h.corners g hg j
  neighbours := by
    intro f hf j k hk
    obtain ⟨g, hg, -, -, h2⟩ := mem_renumberFaces hf
    simp only [faceNumbered, renumberFaces_handle]
    exact h.neighbours g hg j k (by rw [h2]; exact hk)

theorem mapM_isSome {α β : Type} (f : α → Option β) (l : List α) (h : ∀ x ∈ l, ∃ y, f x = some y) : ∃ r, l.mapM f = some r := by
  induction l with
  | nil => exact ⟨[], rfl⟩
  | cons x l ih =>
    obtain ⟨y, hy⟩ := h x (by simp)
    obtain ⟨r, hr⟩ := ih fun z hz => h z (List.mem_cons_of_mem _ hz)
    exact ⟨y :: r, by rw [List.mapM_cons, hy, hr]; rfl⟩

theorem mapM_rows {α β : Type} {f : α → Option β} {l : List α} {r : List β} (h : l.mapM f = some r) :
    r.length = l.length ∧ ∀ (i : Nat) (x : α) (y : β), l[i]? = some x → r[i]? = some y → f x = some y := by
  induction l generalizing r with
  | nil =>
    have : r = [] := by simpa using h.symm
    subst this; simp
  | cons x l ih =>
    rw [List.mapM_cons] at h
    cases hx : f x with
    | none => rw [hx] at h; simp at h
    | some y =>
      cases hl : l.mapM f with
      | none => rw [hx, hl] at h; simp at h
      | some s =>
        rw [hx, hl] at h
        have : r = y :: s := by simpa using h.symm
        subst this
        obtain ⟨h1, h2⟩ := ih hl
        refine ⟨by simp [h1], ?_⟩
        intro i a b ha hb
        cases i with
        | zero =>
          simp only [List.getElem?_cons_zero, Option.some.injEq] at ha hb
          subst ha; subst hb; exact hx
        | succ i => exact h2 i a b (by simpa using ha) (by simpa using hb)

theorem find_vertex {l : List (DVertex K)} (hn : (l.map (·.handle)).Nodup) {v : DVertex K} (hv : v ∈ l) :
    l.find? (fun w => w.handle == v.handle) = some v := by
  induction l with
  | nil => simp at hv
  | cons w l ih =>
    rw [List.map_cons, List.nodup_cons] at hn
    rcases List.mem_cons.1 hv with rfl | hv
    · simp
    · have : w.handle ≠ v.handle := fun e => hn.1 (by rw [e]; exact List.mem_map_of_mem hv)
      rw [List.find?_cons_of_neg (by simpa using this)]
      exact ih hn.2 hv

theorem find_face {l : List DFace} (hn : (l.map (·.handle)).Nodup) {v : DFace} (hv : v ∈ l) :
    l.find? (fun w => w.handle == v.handle) = some v := by
  induction l with
  | nil => simp at hv
  | cons w l ih =>
    rw [List.map_cons, List.nodup_cons] at hn
    rcases List.mem_cons.1 hv with rfl | hv
    · simp
    · have : w.handle ≠ v.handle := fun e => hn.1 (by rw [e]; exact List.mem_map_of_mem hv)
      rw [List.find?_cons_of_neg (by simpa using this)]
      exact ih hn.2 hv

/-- The stored numbers of the vertices are their positions. -/
def Numbered (d : Triangulation K) : Prop := ∀ (k : Nat) (v : DVertex K), d.vertices[k]? = some v → v.info = k

theorem vertices_numbered (d : Triangulation K) : Numbered (getFiniteVertices d).2 := by
  intro k v hv
  simp only [getFiniteVertices, renumberVertices_get, Option.map_eq_some_iff] at hv
  obtain ⟨w, -, rfl⟩ := hv
  simp

theorem infoOf_corner {d : Triangulation K} (h : WellFormed d) {f : DFace} (hf : f ∈ d.faces) (j : Fin 3) :
    ∃ (k : Nat) (v : DVertex K), d.vertices[k]? = some v ∧ v.handle = f.corners j ∧ infoOf d.vertices (f.corners j) = some v.info := by
  obtain ⟨v, hv, hj⟩ := List.mem_map.1 (h.corners f hf j)
  obtain ⟨k, hk⟩ := List.mem_iff_getElem?.1 hv
  exact ⟨k, v, hk, hj, by rw [infoOf, ← hj, find_vertex h.handles hv]; rfl⟩

theorem faceRow_isSome {d : Triangulation K} (h : WellFormed d) {f : DFace} (hf : f ∈ d.faces) : ∃ r, faceRow d.vertices f = some r := by
  obtain ⟨_, v0, -, -, h0⟩ := infoOf_corner h hf 0
  obtain ⟨_, v1, -, -, h1⟩ := infoOf_corner h hf 1
  obtain ⟨_, v2, -, -, h2⟩ := infoOf_corner h hf 2
  exact ⟨⟨v0.info, v1.info, v2.info⟩, by simp [faceRow, h0, h1, h2]⟩

theorem cells_isSome {d : Triangulation K} (h : WellFormed d) : ∃ t, getFiniteCells d = some (t, faceNumbered d) := by
  obtain ⟨t, ht⟩ := mapM_isSome (faceRow d.vertices) d.faces fun f hf => faceRow_isSome h hf
  exact ⟨t, by simp [getFiniteCells, ht, faceNumbered]⟩

theorem cells_refer {d : Triangulation K} (h : WellFormed d) (hn : Numbered d) {t : List Tri} {d' : Triangulation K}
    (ht : getFiniteCells d = some (t, d')) : RefersTo d (d.vertices.map (·.point)) t := by
  cases hm : d.faces.mapM (faceRow d.vertices) with
  | none => simp [getFiniteCells, hm] at ht
  | some s =>
    have hst : s = t := by simp [getFiniteCells, hm] at ht; exact ht.1
    subst hst
    obtain ⟨h1, h2⟩ := mapM_rows hm
    refine ⟨h1, fun i f r hf hr => ?_⟩
    have hfm := List.mem_of_getElem? hf
    have hrow := h2 i f r hf hr
    obtain ⟨k0, v0, a0, b0, c0⟩ := infoOf_corner h hfm 0
    obtain ⟨k1, v1, a1, b1, c1⟩ := infoOf_corner h hfm 1
    obtain ⟨k2, v2, a2, b2, c2⟩ := infoOf_corner h hfm 2
    have hr' : (⟨v0.info, v1.info, v2.info⟩ : Tri) = r := by simpa [faceRow, c0, c1, c2] using hrow
    subst hr'
    refine ⟨v0.point, v1.point, v2.point, ⟨v0, List.mem_of_getElem? a0, b0, rfl⟩, ⟨v1, List.mem_of_getElem? a1, b1, rfl⟩,
      ⟨v2, List.mem_of_getElem? a2, b2, rfl⟩, ?_, ?_, ?_⟩
    · rw [hn k0 v0 a0, List.getElem?_map, a0]; rfl
    · rw [hn k1 v1 a1, List.getElem?_map, a1]; rfl
    · rw [hn k2 v2 a2, List.getElem?_map, a2]; rfl

theorem neighbourEntry_isSome {d : Triangulation K} (h : WellFormed d) {f : DFace} (hf : f ∈ d.faces) (j : Fin 3) :
    ∃ n, neighbourEntry d.faces (f.neighbours j) = some n := by
  cases hj : f.neighbours j with
  | none => exact ⟨-1, rfl⟩
  | some k =>
    obtain ⟨g, hg, rfl⟩ := List.mem_map.1 (h.neighbours f hf j k hj)
    exact ⟨g.info, by simp only [neighbourEntry, find_face h.faceHandles hg, Option.map_some]⟩

theorem neighbours_isSome {d : Triangulation K} (h : WellFormed d) : ∃ n, getFiniteFaceNeighbors d = some n := by
  refine mapM_isSome _ _ fun f hf => ?_
  obtain ⟨a, ha⟩ := neighbourEntry_isSome h hf 0
  obtain ⟨b, hb⟩ := neighbourEntry_isSome h hf 1
  obtain ⟨c, hc⟩ := neighbourEntry_isSome h hf 2
  exact ⟨(a, b, c), by simp [ha, hb, hc]⟩

/-! ### Histories -/

theorem any_handle {d : Triangulation K} {h : Nat} : d.vertices.any (fun v => v.handle == h) = true ↔ h ∈ d.vertices.map (·.handle) := by
  simp [List.any_eq_true, List.mem_map]

theorem removeLoop_wf {E : Cgal K} (L : CgalLaws E) {hs : List Nat} {l : List Nat} {d d' : Triangulation K} (h : WellFormed d)
    (hr : removeLoop E hs l d = some d') : WellFormed d' := by
  induction l generalizing d with
  | nil => have : d = d' := by simpa [removeLoop] using hr
           exact this ▸ h
  | cons i l ih =>
    rw [removeLoop] at hr
    cases hi : hs[i]? with
    | none => rw [hi] at hr; simp at hr
    | some k =>
      simp only [hi, Option.bind_eq_bind, Option.bind_some] at hr
      by_cases hk : d.vertices.any (fun v => v.handle == k) = true
      · rw [if_pos hk] at hr
        exact ih (L.remove_wf d k h (any_handle.1 hk)) hr
      · rw [if_neg hk] at hr; simp at hr

theorem moveLoop_wf {E : Cgal K} (L : CgalLaws E) {hs : List Nat} {l : List (Nat × (K × K))} {d d' : Triangulation K} (h : WellFormed d)
    (hr : moveLoop E hs l d = some d') : WellFormed d' := by
  induction l generalizing d with
  | nil => have : d = d' := by simpa [moveLoop] using hr
           exact this ▸ h
  | cons i l ih =>
    obtain ⟨i, q⟩ := i
    rw [moveLoop] at hr
    cases hi : hs[i]? with
    | none => rw [hi] at hr; simp at hr
    | some k =>
      simp only [hi, Option.bind_eq_bind, Option.bind_some] at hr
      by_cases hk : d.vertices.any (fun v => v.handle == k) = true
      · rw [if_pos hk] at hr
        exact ih (L.move_wf d k q h (any_handle.1 hk)) hr
      · rw [if_neg hk] at hr; simp at hr

theorem dtStep_wf {E : Cgal K} (L : CgalLaws E) {d d' : Triangulation K} (h : WellFormed d) {c : DtCall K} (hs : dtStep E d c = some d') :
    WellFormed d' := by
  cases c with
  | insert ps => have : dtInsert E d ps = d' := by simpa [dtStep] using hs
                 exact this ▸ L.insert_wf _ _ h
  | remove is => exact removeLoop_wf L h hs
  | move is ps =>
    simp only [dtStep, dtMove] at hs
    split at hs
    · exact moveLoop_wf L h hs
    · simp at hs
  | vertices => have : (getFiniteVertices d).2 = d' := by simpa [dtStep] using hs
                exact this ▸ vertices_wf h
  | cells =>
    obtain ⟨t, ht⟩ := cells_isSome h
    have : faceNumbered d = d' := by simpa [dtStep, ht] using hs
    exact this ▸ faceNumbered_wf h
  | neighbours =>
    obtain ⟨t, ht⟩ := neighbours_isSome h
    have : d = d' := by simpa [dtStep, ht] using hs
    exact this ▸ h

theorem foldl_none {E : Cgal K} (l : List (DtCall K)) : l.foldl (fun d c => d.bind fun d => dtStep E d c) none = none := by
  induction l with
  | nil => rfl
  | cons c l ih => exact ih

theorem history_wf_from {E : Cgal K} (L : CgalLaws E) {l : List (DtCall K)} {d d' : Triangulation K} (h : WellFormed d)
    (hs : l.foldl (fun d c => d.bind fun d => dtStep E d c) (some d) = some d') : WellFormed d' := by
  induction l generalizing d with
  | nil => have : d = d' := by simpa using hs
           exact this ▸ h
  | cons c l ih =>
    rw [List.foldl_cons, Option.bind_some] at hs
    cases hc : dtStep E d c with
    | none => rw [hc, foldl_none] at hs; simp at hs
    | some x => rw [hc] at hs; exact ih (dtStep_wf L h hc) hs

theorem empty_wf : WellFormed (⟨[], []⟩ : Triangulation K) := ⟨by simp, by simp, by simp, by simp, by simp⟩

theorem history_wf {E : Cgal K} (L : CgalLaws E) {l : List (DtCall K)} {d : Triangulation K} (hs : dtHistory E l = some d) : WellFormed d :=
  history_wf_from L empty_wf hs

/-- What reading calls keep. -/
structure SameMesh (d e : Triangulation K) : Prop where
  placed : e.vertices.map (fun v => (v.handle, v.point)) = d.vertices.map fun v => (v.handle, v.point)
  faces : e.faces.map (fun f => (f.handle, f.corners, f.neighbours)) = d.faces.map fun f => (f.handle, f.corners, f.neighbours)

theorem SameMesh.refl (d : Triangulation K) : SameMesh d d := ⟨rfl, rfl⟩

theorem SameMesh.trans {d e f : Triangulation K} (h : SameMesh d e) (h' : SameMesh e f) : SameMesh d f :=
  ⟨h'.placed.trans h.placed, h'.faces.trans h.faces⟩

theorem SameMesh.points {d e : Triangulation K} (h : SameMesh d e) : e.vertices.map (·.point) = d.vertices.map (·.point) := by
  have := congrArg (List.map Prod.snd) h.placed
  simpa [List.map_map, Function.comp_def] using this

theorem SameMesh.corner {d e : Triangulation K} (h : SameMesh d e) {f g : DFace} (hc : f.corners = g.corners) {j : Fin 3} {q : K × K}
    (hq : IsCorner e f j q) : IsCorner d g j q := by
  obtain ⟨v, hv, h1, h2⟩ := hq
  have : (v.handle, v.point) ∈ e.vertices.map fun v => (v.handle, v.point) := List.mem_map_of_mem hv
  rw [h.placed] at this
  obtain ⟨w, hw, e1⟩ := List.mem_map.1 this
  simp only [Prod.mk.injEq] at e1
  exact ⟨w, hw, by rw [e1.1, h1, hc], by rw [e1.2, h2]⟩

theorem SameMesh.face {d e : Triangulation K} (h : SameMesh d e) {i : Nat} {f : DFace} (hf : d.faces[i]? = some f) :
    ∃ g, e.faces[i]? = some g ∧ g.handle = f.handle ∧ g.corners = f.corners ∧ g.neighbours = f.neighbours := by
  have h1 := congrArg (fun l => l[i]?) h.faces
  simp only [List.getElem?_map, hf, Option.map_some] at h1
  cases hg : e.faces[i]? with
  | none => rw [hg] at h1; simp at h1
  | some g =>
    rw [hg] at h1
    simp only [Option.map_some, Option.some.injEq, Prod.mk.injEq] at h1
    exact ⟨g, rfl, h1.1, h1.2.1, h1.2.2⟩

theorem SameMesh.symm {d e : Triangulation K} (h : SameMesh d e) : SameMesh e d := ⟨h.placed.symm, h.faces.symm⟩

theorem SameMesh.length {d e : Triangulation K} (h : SameMesh d e) : e.faces.length = d.faces.length := by
  have := congrArg List.length h.faces
  simpa using this

theorem SameMesh.refers {d e : Triangulation K} (h : SameMesh d e) {p : List (K × K)} {t : List Tri} (hr : RefersTo e p t) : RefersTo d p t := by
  refine ⟨hr.1.trans h.length, fun i f r hf ht => ?_⟩
  obtain ⟨g, hg, -, hc, -⟩ := h.face hf
  obtain ⟨A, B, C, h1, h2, h3, h4⟩ := hr.2 i g r hg ht
  exact ⟨A, B, C, h.corner hc h1, h.corner hc h2, h.corner hc h3, h4⟩

theorem same_vertices (d : Triangulation K) : SameMesh d (getFiniteVertices d).2 := ⟨renumberVertices_placed _ _, rfl⟩

theorem same_faces (d : Triangulation K) : SameMesh d (faceNumbered d) := by
  refine ⟨rfl, ?_⟩
  have key : ∀ (l : List DFace) (i : Nat), (renumberFaces i l).map (fun f => (f.handle, f.corners, f.neighbours)) =
      l.map fun f => (f.handle, f.corners, f.neighbours) := by
    intro l
    induction l with
    | nil => intro i; rfl
    | cons f l ih => intro i; simp [renumberFaces, ih]
  exact key _ _

theorem read_step {E : Cgal K} {d : Triangulation K} (h : WellFormed d) (hn : Numbered d) {c : DtCall K} (hc : IsRead c) :
    ∃ e, dtStep E d c = some e ∧ WellFormed e ∧ Numbered e ∧ SameMesh d e := by
  rcases hc with rfl | rfl | rfl
  · exact ⟨_, rfl, vertices_wf h, vertices_numbered d, same_vertices d⟩
  · obtain ⟨t, ht⟩ := cells_isSome h
    exact ⟨faceNumbered d, by simp [dtStep, ht], faceNumbered_wf h, hn, same_faces d⟩
  · obtain ⟨n, ht⟩ := neighbours_isSome h
    exact ⟨d, by simp [dtStep, ht], h, hn, SameMesh.refl d⟩

theorem reads {E : Cgal K} {rs : List (DtCall K)} (hrs : ∀ c ∈ rs, IsRead c) {d : Triangulation K} (h : WellFormed d) (hn : Numbered d) :
    ∃ e, rs.foldl (fun d c => d.bind fun d => dtStep E d c) (some d) = some e ∧ WellFormed e ∧ Numbered e ∧ SameMesh d e := by
  induction rs generalizing d with
  | nil => exact ⟨d, rfl, h, hn, SameMesh.refl d⟩
  | cons c rs ih =>
    obtain ⟨e, h1, h2, h3, h4⟩ := read_step (E := E) h hn (hrs c (by simp))
    obtain ⟨f, k1, k2, k3, k4⟩ := ih (fun c hc => hrs c (List.mem_cons_of_mem _ hc)) h2 h3
    exact ⟨f, by rw [List.foldl_cons, Option.bind_some, h1]; exact k1, k2, k3, h4.trans k4⟩

/-- **C75**: take any history of calls on a new triangulation that does not run into undefined behaviour, then the vertex list, then any reading
calls, then the connectivity. It exists, has one row per face, and each row holds the positions of the corner points of its face in the vertex list.
The points of the list are different. -/
theorem C75_connectivity {E : Cgal K} (L : CgalLaws E) {l : List (DtCall K)} {d : Triangulation K} (hd : dtHistory E l = some d)
    {rs : List (DtCall K)} (hrs : ∀ c ∈ rs, IsRead c) :
    ∃ e t e', rs.foldl (fun d c => d.bind fun d => dtStep E d c) (some (getFiniteVertices d).2) = some e ∧
      getFiniteCells e = some (t, e') ∧ (getFiniteVertices d).1.Nodup ∧ RefersTo d (getFiniteVertices d).1 t := by
  have hwf := history_wf L hd
  obtain ⟨e, h1, h2, h3, h4⟩ := reads (E := E) hrs (vertices_wf hwf) (vertices_numbered d)
  obtain ⟨t, ht⟩ := cells_isSome h2
  have h5 := (same_vertices d).trans h4
  refine ⟨e, t, _, h1, ht, hwf.points, h5.refers ?_⟩
  have h6 := cells_refer h2 h3 ht
  rw [h5.points] at h6
  exact h6

/-- **C75**: `_get_topology` after any history: the points are different and the connectivity refers to them. -/
theorem C75_topology {E : Cgal K} (L : CgalLaws E) {l : List (DtCall K)} {d : Triangulation K} (hd : dtHistory E l = some d) :
    ∃ p t e, getTopology d = some (p, t, e) ∧ p.Nodup ∧ (∀ q, q ∈ p ↔ ∃ v ∈ d.vertices, v.point = q) ∧ RefersTo d p t := by
  obtain ⟨e, t, e', h1, h2, h3, h4⟩ := C75_connectivity L hd (rs := []) (by simp)
  have he : (getFiniteVertices d).2 = e := by simpa using h1
  subst he
  refine ⟨(getFiniteVertices d).1, t, e', ?_, h3, ?_, h4⟩
  · simp only [getTopology, h2, Option.bind_eq_bind, Option.bind_some]; rfl
  · intro q; simp [getFiniteVertices, List.mem_map]

/-- **C75**: after `_get_topology`, the neighbour table has one row per face; entries are -1 for infinite faces and positions of the neighbours
otherwise. -/
theorem C75_neighbours {E : Cgal K} (L : CgalLaws E) {l : List (DtCall K)} {d : Triangulation K} (hd : dtHistory E l = some d)
    {p : List (K × K)} {t : List Tri} {e : Triangulation K} (ht : getTopology d = some (p, t, e)) :
    ∃ n, getFiniteFaceNeighbors e = some n ∧ n.length = d.faces.length ∧
      ∀ (i : Nat) (f : DFace) (r : Int × Int × Int), d.faces[i]? = some f → n[i]? = some r → NeighbourIs d f 0 r.1 ∧ NeighbourIs d f 1 r.2.1 ∧ NeighbourIs d f 2 r.2.2 := by
  have hwf := history_wf L hd
  obtain ⟨t', h1⟩ := cells_isSome (vertices_wf hwf)
  have he : faceNumbered (getFiniteVertices d).2 = e := by
    simp only [getTopology, h1, Option.bind_eq_bind, Option.bind_some] at ht
    have := Option.some.inj ht
    exact (Prod.mk.inj (Prod.mk.inj this).2).2
  subst he
  have hsame := (same_vertices d).trans (same_faces (getFiniteVertices d).2)
  have hwe := faceNumbered_wf (vertices_wf hwf)
  obtain ⟨n, hn⟩ := neighbours_isSome hwe
  obtain ⟨g1, g2⟩ := mapM_rows hn
  refine ⟨n, hn, g1.trans hsame.length, fun i f r hf hr => ?_⟩
  obtain ⟨g, hg, -, -, hgn⟩ := hsame.face hf
  have hrow := g2 i g r hg hr
  have hgm := List.mem_of_getElem? hg
  obtain ⟨a, ha⟩ := neighbourEntry_isSome hwe hgm 0
  obtain ⟨b, hb⟩ := neighbourEntry_isSome hwe hgm 1
  obtain ⟨c, hc⟩ := neighbourEntry_isSome hwe hgm 2
  have hr' : (a, b, c) = r := by simpa [ha, hb, hc] using hrow
  subst hr'
  have key : ∀ (j : Fin 3) (x : Int), neighbourEntry (faceNumbered (getFiniteVertices d).2).faces (g.neighbours j) = some x → NeighbourIs d f j x := by
    intro j x hx
    rw [NeighbourIs, ← hgn]
    cases hj : g.neighbours j with
    | none => rw [hj] at hx; simp only [neighbourEntry, Option.some.injEq] at hx; exact hx.symm
    | some k =>
      rw [hj] at hx
      obtain ⟨u, hu, huk⟩ := List.mem_map.1 (hwe.neighbours g hgm j k hj)
      obtain ⟨m, hm⟩ := List.mem_iff_getElem?.1 hu
      rw [neighbourEntry, ← huk, find_face hwe.faceHandles hu] at hx
      simp only [Option.map_some, Option.some.injEq] at hx
      have hinfo : u.info = m := by
        simp only [faceNumbered, renumberFaces_get, Option.map_eq_some_iff] at hm
        obtain ⟨w, -, rfl⟩ := hm
        simp
      obtain ⟨w, hw, hwh, -, -⟩ := hsame.symm.face hm
      exact ⟨m, by rw [← hx, hinfo], w, hw, by rw [hwh, huk]⟩
  exact ⟨key 0 a ha, key 1 b hb, key 2 c hc⟩

/-! ### The points after each operation -/

theorem numberFrom_fst (l : List (K × K)) (i : Nat) : (numberFrom i l).map Prod.fst = l := by
  induction l generalizing i with
  | nil => rfl
  | cons q l ih => simp [numberFrom, ih]

/-- **C75**: insertion adds exactly the given points. -/
theorem C75_insert_points {E : Cgal K} (L : CgalLaws E) {l : List (DtCall K)} {d : Triangulation K} (hd : dtHistory E l = some d)
    (ps : List (K × K)) (q : K × K) :
    q ∈ (getFiniteVertices (dtInsert E d ps)).1 ↔ q ∈ (getFiniteVertices d).1 ∨ q ∈ ps := by
  have := L.insert_points d (numberFrom d.vertices.length ps) (history_wf L hd) q
  rw [numberFrom_fst] at this
  exact this

theorem mem_placed_iff {d : Triangulation K} {g : Nat} {q : K × K} :
    (g, q) ∈ placed d ↔ ∃ k : Nat, (d.vertices.map (·.handle))[k]? = some g ∧ (d.vertices.map (·.point))[k]? = some q := by
  rw [List.mem_iff_getElem?]
  refine exists_congr fun k => ?_
  simp only [placed, List.getElem?_map]
  cases d.vertices[k]? <;> simp

theorem handle_of_placed {d : Triangulation K} {g : Nat} : g ∈ d.vertices.map (·.handle) ↔ ∃ q, (g, q) ∈ placed d := by
  simp only [placed, List.mem_map, Prod.mk.injEq]
  constructor
  · rintro ⟨v, h1, h2⟩; exact ⟨_, v, h1, h2, rfl⟩
  · rintro ⟨_, v, h1, h2, -⟩; exact ⟨v, h1, h2⟩

theorem point_of_placed {d : Triangulation K} {q : K × K} : q ∈ d.vertices.map (·.point) ↔ ∃ g, (g, q) ∈ placed d := by
  simp only [placed, List.mem_map, Prod.mk.injEq]
  constructor
  · rintro ⟨v, h1, h2⟩; exact ⟨_, v, h1, rfl, h2⟩
  · rintro ⟨_, v, h1, -, h2⟩; exact ⟨v, h1, h2⟩

theorem nodup_index {α : Type} {l : List α} (hn : l.Nodup) {i j : Nat} {x : α} (hi : l[i]? = some x) (hj : l[j]? = some x) : i = j := by
  obtain ⟨h1, e1⟩ := List.getElem?_eq_some_iff.1 hi
  obtain ⟨h2, e2⟩ := List.getElem?_eq_some_iff.1 hj
  exact (List.Nodup.getElem_inj_iff hn).1 (e1.trans e2.symm)

theorem removeLoop_placed {E : Cgal K} (L : CgalLaws E) {hs : List Nat} {l : List Nat} {d d' : Triangulation K} (h : WellFormed d)
    (hr : removeLoop E hs l d = some d') (g : Nat) (q : K × K) :
    (g, q) ∈ placed d' ↔ (g, q) ∈ placed d ∧ ∀ i ∈ l, hs[i]? ≠ some g := by
  induction l generalizing d with
  | nil => have : d = d' := by simpa [removeLoop] using hr
           subst this; simp
  | cons i l ih =>
    rw [removeLoop] at hr
    cases hi : hs[i]? with
    | none => rw [hi] at hr; simp at hr
    | some k =>
      simp only [hi, Option.bind_eq_bind, Option.bind_some] at hr
      by_cases hk : d.vertices.any (fun v => v.handle == k) = true
      · rw [if_pos hk] at hr
        have hkm := any_handle.1 hk
        rw [ih (L.remove_wf d k h hkm) hr, L.remove_placed d k h hkm]
        simp only [List.mem_cons, forall_eq_or_imp, hi, ne_eq, Option.some.injEq, and_assoc, @eq_comm _ k g]
      · rw [if_neg hk] at hr; simp at hr

theorem removeLoop_isSome {E : Cgal K} (L : CgalLaws E) {hs : List Nat} (hhs : hs.Nodup) {l : List Nat} (hl : l.Nodup) {d : Triangulation K}
    (h : WellFormed d) (hp : ∀ i ∈ l, ∃ g, hs[i]? = some g ∧ g ∈ d.vertices.map (·.handle)) : ∃ d', removeLoop E hs l d = some d' := by
  induction l generalizing d with
  | nil => exact ⟨d, rfl⟩
  | cons i l ih =>
    obtain ⟨g, hg, hgm⟩ := hp i (by simp)
    rw [List.nodup_cons] at hl
    obtain ⟨d', hd'⟩ := ih hl.2 (L.remove_wf d g h hgm) (by
      intro j hj
      obtain ⟨k, hk, hkm⟩ := hp j (List.mem_cons_of_mem _ hj)
      refine ⟨k, hk, ?_⟩
      obtain ⟨q, hq⟩ := handle_of_placed.1 hkm
      refine handle_of_placed.2 ⟨q, (L.remove_placed d g h hgm k q).2 ⟨hq, ?_⟩⟩
      rintro rfl
      exact hl.1 (nodup_index hhs hg hk ▸ hj))
    exact ⟨d', by simp only [removeLoop, hg, Option.bind_eq_bind, Option.bind_some, if_pos (any_handle.2 hgm), hd']⟩

/-- **C75**: removing different positions of the vertex list succeeds and leaves exactly the points at the other positions. -/
theorem C75_remove_points {E : Cgal K} (L : CgalLaws E) {l : List (DtCall K)} {d : Triangulation K} (hd : dtHistory E l = some d)
    {is : List Nat} (hn : is.Nodup) (hr : ∀ i ∈ is, i < (getFiniteVertices d).1.length) :
    ∃ d', dtRemove E d is = some d' ∧
      ∀ q, q ∈ (getFiniteVertices d').1 ↔ ∃ i, i ∉ is ∧ (getFiniteVertices d).1[i]? = some q := by
  have hwf := history_wf L hd
  obtain ⟨d', hd'⟩ := removeLoop_isSome (E := E) L hwf.handles hn hwf (by
    intro i hi
    have h1 : i < d.vertices.length := by simpa [getFiniteVertices] using hr i hi
    have h2 : (d.vertices.map (·.handle))[i]? = some d.vertices[i].handle := by
      rw [List.getElem?_map, List.getElem?_eq_getElem h1]; rfl
    exact ⟨_, h2, List.mem_of_getElem? h2⟩)
  refine ⟨d', hd', fun q => ?_⟩
  simp only [getFiniteVertices]
  rw [point_of_placed]
  simp only [removeLoop_placed L hwf hd', mem_placed_iff]
  constructor
  · rintro ⟨g, ⟨k, h1, h2⟩, h3⟩
    exact ⟨k, fun hk => h3 k hk h1, h2⟩
  · rintro ⟨k, hk, h2⟩
    have hlt : k < d.vertices.length := by
      have := (List.getElem?_eq_some_iff.1 h2).1; simpa using this
    have h1 : (d.vertices.map (·.handle))[k]? = some d.vertices[k].handle := by
      rw [List.getElem?_map, List.getElem?_eq_getElem hlt]; rfl
    refine ⟨_, ⟨k, h1, h2⟩, fun i hi e => hk ?_⟩
    rw [nodup_index hwf.handles h1 e]; exact hi

theorem moveLoop_spec {E : Cgal K} (L : CgalLaws E) {hs : List Nat} (hhs : hs.Nodup) {l : List (Nat × (K × K))} (hl : (l.map Prod.fst).Nodup)
    (hq : (l.map Prod.snd).Nodup) {d : Triangulation K} (h : WellFormed d)
    (hp : ∀ x ∈ l, ∃ g, hs[x.1]? = some g ∧ g ∈ d.vertices.map (·.handle)) (hfree : ∀ x ∈ l, x.2 ∉ d.vertices.map (·.point)) :
    ∃ d', moveLoop E hs l d = some d' ∧ ∀ (g : Nat) (r : K × K), (g, r) ∈ placed d' ↔
      ((g, r) ∈ placed d ∧ ∀ x ∈ l, hs[x.1]? ≠ some g) ∨ ∃ x ∈ l, hs[x.1]? = some g ∧ r = x.2 := by
  induction l generalizing d with
  | nil => exact ⟨d, rfl, by simp⟩
  | cons x l ih =>
    obtain ⟨i, q⟩ := x
    obtain ⟨g, hg, hgm⟩ := hp (i, q) (by simp)
    simp only at hg
    rw [List.map_cons, List.nodup_cons] at hl hq
    have hqf : ∀ k, (k, q) ∈ placed d → k = g := fun k hk => absurd (point_of_placed.2 ⟨k, hk⟩) (hfree (i, q) (by simp))
    have hmv : ∀ k r, (k, r) ∈ placed (E.move d g q) ↔ ((k, r) ∈ placed d ∧ k ≠ g) ∨ (k = g ∧ r = q) := by
      intro k r
      rw [L.move_placed d g q h hgm]
      refine or_congr Iff.rfl ?_
      constructor
      · rintro ⟨a, b, -⟩; exact ⟨a, b⟩
      · rintro ⟨a, b⟩; exact ⟨a, b, hqf⟩
    obtain ⟨d', hd', hsp⟩ := ih hl.2 hq.2 (L.move_wf d g q h hgm) (by
      intro x hx
      obtain ⟨k, hk, hkm⟩ := hp x (List.mem_cons_of_mem _ hx)
      refine ⟨k, hk, ?_⟩
      obtain ⟨r, hr⟩ := handle_of_placed.1 hkm
      by_cases hkg : k = g
      · exact handle_of_placed.2 ⟨q, (hmv k q).2 (Or.inr ⟨hkg, rfl⟩)⟩
      · exact handle_of_placed.2 ⟨r, (hmv k r).2 (Or.inl ⟨hr, hkg⟩)⟩) (by
      intro x hx hmem
      obtain ⟨k, hk⟩ := point_of_placed.1 hmem
      rcases (hmv k x.2).1 hk with ⟨h1, -⟩ | ⟨-, h1⟩
      · exact hfree x (List.mem_cons_of_mem _ hx) (point_of_placed.2 ⟨k, h1⟩)
      · exact hq.1 (List.mem_map.2 ⟨x, hx, h1⟩))
    refine ⟨d', by simp only [moveLoop, hg, Option.bind_eq_bind, Option.bind_some, if_pos (any_handle.2 hgm), hd'], fun k r => ?_⟩
    rw [hsp, hmv]
    have hother : ∀ x ∈ l, hs[x.1]? ≠ some g := fun x hx e =>
      hl.1 (List.mem_map.2 ⟨x, hx, (nodup_index hhs hg e).symm⟩)
    constructor
    · rintro (⟨h1 | h1, h2⟩ | ⟨x, hx, h1, h2⟩)
      · refine Or.inl ⟨h1.1, fun x hx => ?_⟩
        rcases List.mem_cons.1 hx with rfl | hx
        · simp only [hg, ne_eq, Option.some.injEq]; exact fun e => h1.2 e.symm
        · exact h2 x hx
      · exact Or.inr ⟨(i, q), by simp, by simp only [hg, h1.1], h1.2⟩
      · exact Or.inr ⟨x, List.mem_cons_of_mem _ hx, h1, h2⟩
    · rintro (⟨h1, h2⟩ | ⟨x, hx, h1, h2⟩)
      · have hkg : k ≠ g := by
          rintro rfl; exact h2 (i, q) (by simp) hg
        exact Or.inl ⟨Or.inl ⟨h1, hkg⟩, fun x hx => h2 x (List.mem_cons_of_mem _ hx)⟩
      · rcases List.mem_cons.1 hx with rfl | hx
        · simp only [hg, Option.some.injEq] at h1
          subst h1
          exact Or.inl ⟨Or.inr ⟨rfl, h2⟩, hother⟩
        · exact Or.inr ⟨x, hx, h1, h2⟩

/-- **C75**: moving different positions of the vertex list to different new points, none of them occupied, succeeds; the points are then the targets
and the points at the other positions. -/
theorem C75_move_points {E : Cgal K} (L : CgalLaws E) {l : List (DtCall K)} {d : Triangulation K} (hd : dtHistory E l = some d)
    {is : List Nat} {ps : List (K × K)} (hlen : is.length = ps.length) (hn : is.Nodup) (hps : ps.Nodup)
    (hr : ∀ i ∈ is, i < (getFiniteVertices d).1.length) (hfree : ∀ q ∈ ps, q ∉ (getFiniteVertices d).1) :
    ∃ d', dtMove E d is ps = some d' ∧
      ∀ q, q ∈ (getFiniteVertices d').1 ↔ (∃ i, i ∉ is ∧ (getFiniteVertices d).1[i]? = some q) ∨ q ∈ ps := by
  have hwf := history_wf L hd
  have hf : (is.zip ps).map Prod.fst = is := List.map_fst_zip (by omega)
  have hs : (is.zip ps).map Prod.snd = ps := List.map_snd_zip (by omega)
  have hget : ∀ i, i < d.vertices.length → ∃ g, (d.vertices.map (·.handle))[i]? = some g := by
    intro i hi
    exact ⟨d.vertices[i].handle, by rw [List.getElem?_map, List.getElem?_eq_getElem hi]; rfl⟩
  obtain ⟨d', hd', hsp⟩ := moveLoop_spec (E := E) L hwf.handles (l := is.zip ps) (by rw [hf]; exact hn) (by rw [hs]; exact hps) hwf (by
    intro x hx
    have h1 : x.1 ∈ is := by rw [← hf]; exact List.mem_map_of_mem hx
    obtain ⟨_, h2⟩ := hget x.1 (by simpa [getFiniteVertices] using hr _ h1)
    exact ⟨_, h2, List.mem_of_getElem? h2⟩) (by
    intro x hx
    exact hfree _ (by rw [← hs]; exact List.mem_map_of_mem hx))
  refine ⟨d', by rw [dtMove, if_pos (by omega), hd'], fun q => ?_⟩
  have hp1 : q ∈ (getFiniteVertices d').1 ↔ ∃ g, (g, q) ∈ placed d' := point_of_placed
  rw [hp1]
  simp only [hsp, mem_placed_iff]
  constructor
  · rintro ⟨g, ⟨⟨k, h1, h2⟩, h3⟩ | ⟨x, hx, h1, h2⟩⟩
    · refine Or.inl ⟨k, fun hk => ?_, h2⟩
      rw [← hf] at hk
      obtain ⟨x, hx, rfl⟩ := List.mem_map.1 hk
      exact h3 x hx h1
    · refine Or.inr ?_
      rw [h2, ← hs]; exact List.mem_map_of_mem hx
  · rintro (⟨k, hk, h2⟩ | hq)
    · have hlt : k < d.vertices.length := by
        have := (List.getElem?_eq_some_iff.1 h2).1; simpa [getFiniteVertices] using this
      obtain ⟨g, h1⟩ := hget k hlt
      refine ⟨g, Or.inl ⟨⟨k, h1, h2⟩, fun x hx e => hk ?_⟩⟩
      rw [nodup_index hwf.handles h1 e, ← hf]; exact List.mem_map_of_mem hx
    · rw [← hs] at hq
      obtain ⟨x, hx, rfl⟩ := List.mem_map.1 hq
      have h1 : x.1 ∈ is := by rw [← hf]; exact List.mem_map_of_mem hx
      obtain ⟨g, h2⟩ := hget x.1 (by simpa [getFiniteVertices] using hr _ h1)
      exact ⟨g, Or.inr ⟨x, hx, h2, rfl⟩⟩

/-- **C75**: surplus positions are ignored; fewer positions than indices are read behind the end of the array (undefined behaviour, `none`). -/
theorem C75_move_lengths (E : Cgal K) (d : Triangulation K) (is : List Nat) (ps : List (K × K)) :
    (is.length ≤ ps.length → dtMove E d is ps = dtMove E d is (ps.take is.length)) ∧ (ps.length < is.length → dtMove E d is ps = none) := by
  constructor
  · intro h
    have hz : ∀ (a : List Nat) (b : List (K × K)), a.zip (b.take a.length) = a.zip b := by
      intro a
      induction a with
      | nil => intro b; simp
      | cons x a ih =>
        intro b
        cases b with
        | nil => simp
        | cons y b => simp [ih]
    rw [dtMove, dtMove, if_pos h, if_pos (by simp [h]), hz]
  · intro h
    rw [dtMove, if_neg (by omega)]

/-! ### An engine that meets the contract

Not a Delaunay triangulation, but an engine with the laws of `CgalLaws`: it shows that they are consistent, and is used in the examples. If there are
three or more vertices there is a single face over the first three, without neighbours. -/

section
variable [DecidableEq K]

def toyFaces : List (DVertex K) → List DFace
  | a :: b :: c :: _ => [⟨0, ![a.handle, b.handle, c.handle], fun _ => none, 0⟩]
  | _ => []

def toyFresh (vs : List (DVertex K)) : Nat := (vs.map (·.handle)).foldr (fun a b => max a b) 0 + 1

def toyInsertOne (vs : List (DVertex K)) (x : (K × K) × Nat) : List (DVertex K) :=
  if x.1 ∈ vs.map (·.point) then vs else vs ++ [⟨toyFresh vs, x.1, x.2⟩]

def toyCgal : Cgal K where
  insert d l := let vs := l.foldl toyInsertOne d.vertices; ⟨vs, toyFaces vs⟩
  remove d h := let vs := d.vertices.filter fun v => v.handle ≠ h; ⟨vs, toyFaces vs⟩
  move d h q :=
    let vs := if d.vertices.any (fun v => v.handle ≠ h ∧ v.point = q) then d.vertices.filter (fun v => v.handle ≠ h)
      else d.vertices.map fun v => if v.handle = h then { v with point := q } else v
    ⟨vs, toyFaces vs⟩

omit [DecidableEq K] in
theorem toyFaces_wf {vs : List (DVertex K)} (h1 : (vs.map (·.handle)).Nodup) (h2 : (vs.map (·.point)).Nodup) :
    WellFormed ⟨vs, toyFaces vs⟩ := by
  refine ⟨h1, h2, ?_, ?_, ?_⟩
  · match vs with
    | [] => simp [toyFaces]
    | [_] => simp [toyFaces]
    | [_, _] => simp [toyFaces]
    | _ :: _ :: _ :: _ => simp [toyFaces]
  · match vs with
    | [] => simp [toyFaces]
    | [_] => simp [toyFaces]
    | [_, _] => simp [toyFaces]
    | a :: b :: c :: l =>
      intro f hf j
      have hf : f = ⟨0, ![a.handle, b.handle, c.handle], fun _ => none, 0⟩ := by simpa [toyFaces] using hf
      subst hf
      match j with
      | 0 => simp
      | 1 => simp
      | 2 => simp
  · match vs with
    | [] => simp [toyFaces]
    | [_] => simp [toyFaces]
    | [_, _] => simp [toyFaces]
    | a :: b :: c :: l =>
      intro f hf j h hj
      have hf : f = ⟨0, ![a.handle, b.handle, c.handle], fun _ => none, 0⟩ := by simpa [toyFaces] using hf
      subst hf
      simp at hj

omit [DecidableEq K] in
theorem toyFresh_not_mem (vs : List (DVertex K)) : toyFresh vs ∉ vs.map (·.handle) := by
  have key : ∀ (l : List Nat) (x : Nat), x ∈ l → x ≤ l.foldr (fun a b => max a b) 0 := by
    intro l
    induction l with
    | nil => simp
    | cons a l ih =>
      intro x hx
      rw [List.foldr_cons]
      rcases List.mem_cons.1 hx with rfl | hx
      · exact le_max_left _ _
      · exact (ih x hx).trans (le_max_right _ _)
  intro h
  have := key _ _ h
  simp only [toyFresh] at this
  omega

theorem toyInsert_spec (l : List ((K × K) × Nat)) (vs : List (DVertex K)) (h1 : (vs.map (·.handle)).Nodup) (h2 : (vs.map (·.point)).Nodup) :
    ((l.foldl toyInsertOne vs).map (·.handle)).Nodup ∧ ((l.foldl toyInsertOne vs).map (·.point)).Nodup ∧
      ∀ q, q ∈ (l.foldl toyInsertOne vs).map (·.point) ↔ q ∈ vs.map (·.point) ∨ q ∈ l.map Prod.fst := by
  induction l generalizing vs with
  | nil => exact ⟨h1, h2, by simp⟩
  | cons x l ih =>
    rw [List.foldl_cons]
    by_cases hx : x.1 ∈ vs.map (·.point)
    · rw [toyInsertOne, if_pos hx]
      obtain ⟨a, b, c⟩ := ih vs h1 h2
      refine ⟨a, b, fun q => ?_⟩
      rw [c, List.map_cons, List.mem_cons]
      constructor
      · rintro (h | h); exacts [Or.inl h, Or.inr (Or.inr h)]
      · rintro (h | rfl | h); exacts [Or.inl h, Or.inl hx, Or.inr h]
    · rw [toyInsertOne, if_neg hx]
      obtain ⟨a, b, c⟩ := ih (vs ++ [⟨toyFresh vs, x.1, x.2⟩])
        (by rw [List.map_append, List.nodup_append]
            refine ⟨h1, by simp, ?_⟩
            intro y hy z hz e
            have : z = toyFresh vs := by simpa using hz
            subst this; subst e
            exact toyFresh_not_mem vs hy)
        (by rw [List.map_append, List.nodup_append]
            refine ⟨h2, by simp, ?_⟩
            intro y hy z hz e
            have : z = x.1 := by simpa using hz
            subst this; subst e
            exact hx hy)
      refine ⟨a, b, fun q => ?_⟩
      rw [c]
      simp only [List.map_append, List.map_cons, List.map_nil, List.mem_append, List.mem_cons, List.not_mem_nil, false_or, or_assoc]

theorem toyCgal_laws : CgalLaws (toyCgal : Cgal K) where
  insert_wf d l h := by
    obtain ⟨a, b, -⟩ := toyInsert_spec l d.vertices h.handles h.points
    exact toyFaces_wf a b
  insert_points d l h := (toyInsert_spec l d.vertices h.handles h.points).2.2
  remove_wf d k h _ := toyFaces_wf (h.handles.sublist (List.filter_sublist.map _)) (h.points.sublist (List.filter_sublist.map _))
  remove_placed d k h _ g q := by
    simp only [toyCgal, placed, List.mem_map, List.mem_filter, Prod.mk.injEq, decide_eq_true_eq]
    constructor
    · rintro ⟨v, ⟨h1, h2⟩, rfl, rfl⟩; exact ⟨⟨v, h1, rfl, rfl⟩, h2⟩
    · rintro ⟨⟨v, h1, rfl, rfl⟩, h2⟩; exact ⟨v, ⟨h1, h2⟩, rfl, rfl⟩
  move_wf d k q h hk := by
    simp only [toyCgal]
    by_cases hc : d.vertices.any (fun v => decide (v.handle ≠ k ∧ v.point = q)) = true
    · rw [if_pos hc]
      exact toyFaces_wf (h.handles.sublist (List.filter_sublist.map _)) (h.points.sublist (List.filter_sublist.map _))
    · rw [if_neg hc]
      simp only [List.any_eq_true, decide_eq_true_eq, not_exists, not_and] at hc
      refine toyFaces_wf ?_ ?_
      · rw [List.map_map]
        have : ((fun v : DVertex K => v.handle) ∘ fun v => if v.handle = k then { v with point := q } else v) = (·.handle) := by
          funext v; simp only [Function.comp]; split <;> rfl
        rw [this]; exact h.handles
      · rw [List.map_map]
        refine List.Nodup.map_on ?_ (List.Nodup.of_map _ h.points)
        intro v hv w hw e
        simp only [Function.comp] at e
        have inj : ∀ {v w : DVertex K}, v ∈ d.vertices → w ∈ d.vertices → v.point = w.point → v = w := fun hv hw e =>
          List.inj_on_of_nodup_map h.points hv hw e
        have injh : ∀ {v w : DVertex K}, v ∈ d.vertices → w ∈ d.vertices → v.handle = w.handle → v = w := fun hv hw e =>
          List.inj_on_of_nodup_map h.handles hv hw e
        by_cases h1 : v.handle = k <;> by_cases h2 : w.handle = k
        · exact injh hv hw (h1.trans h2.symm)
        · rw [if_pos h1, if_neg h2] at e
          exact absurd e.symm (hc w hw h2)
        · rw [if_neg h1, if_pos h2] at e
          exact absurd e (hc v hv h1)
        · rw [if_neg h1, if_neg h2] at e
          exact inj hv hw e
  move_placed d k q h hk g r := by
    simp only [toyCgal]
    obtain ⟨u, hu, huk⟩ := List.mem_map.1 hk
    by_cases hc : d.vertices.any (fun v => decide (v.handle ≠ k ∧ v.point = q)) = true
    · rw [if_pos hc]
      simp only [List.any_eq_true, decide_eq_true_eq] at hc
      obtain ⟨w, hw, hw1, hw2⟩ := hc
      simp only [placed, List.mem_map, List.mem_filter, Prod.mk.injEq, decide_eq_true_eq]
      constructor
      · rintro ⟨v, ⟨h1, h2⟩, rfl, rfl⟩; exact Or.inl ⟨⟨v, h1, rfl, rfl⟩, h2⟩
      · rintro (⟨⟨v, h1, rfl, rfl⟩, h2⟩ | ⟨-, -, h3⟩)
        · exact ⟨v, ⟨h1, h2⟩, rfl, rfl⟩
        · exact absurd (h3 w.handle ⟨w, hw, rfl, hw2⟩) hw1
    · rw [if_neg hc]
      simp only [List.any_eq_true, decide_eq_true_eq, not_exists, not_and] at hc
      simp only [placed, List.map_map, List.mem_map, Function.comp, Prod.mk.injEq]
      constructor
      · rintro ⟨v, h1, h2, h3⟩
        by_cases hv : v.handle = k
        · rw [if_pos hv] at h2 h3
          refine Or.inr ⟨by rw [← h2]; exact hv, h3.symm, ?_⟩
          rintro x ⟨y, hy, rfl, hyq⟩
          by_contra hyk
          exact hc y hy hyk hyq
        · rw [if_neg hv] at h2 h3
          exact Or.inl ⟨⟨v, h1, h2, h3⟩, by rw [← h2]; exact hv⟩
      · rintro (⟨⟨v, h1, rfl, rfl⟩, h2⟩ | ⟨rfl, rfl, -⟩)
        · exact ⟨v, h1, by rw [if_neg h2], by rw [if_neg h2]⟩
        · exact ⟨u, hu, by rw [if_pos huk]; exact huk, by rw [if_pos huk]⟩

end

/-- **C75** (why the vertex list has to be fetched first): after a removal, `get_finite_cells` without `get_finite_vertices` gives a table with
index 3 although only three vertices are left. With `_get_topology` the indices are right. -/
theorem C75_stale_without_vertices :
    ((dtHistory (toyCgal : Cgal Int) [.insert [(0, 0), (1, 0), (0, 1), (1, 1)], .remove [0]]).bind fun d =>
      (getFiniteCells d).map fun r => (r.1, d.vertices.length)) = some ([⟨1, 2, 3⟩], 3) ∧
    ((dtHistory (toyCgal : Cgal Int) [.insert [(0, 0), (1, 0), (0, 1), (1, 1)], .remove [0]]).bind fun d =>
      (getTopology d).map fun r => (r.1, r.2.1)) = some ([(1, 0), (0, 1), (1, 1)], [⟨0, 1, 2⟩]) := by
  refine ⟨?_, ?_⟩ <;> decide +kernel

/-- The theorems apply to a history with insertions (one of them of a point that is already there), a move, a removal and a read. -/
example : ∃ d p t e, dtHistory (toyCgal : Cgal Int)
      [.insert [(0, 0), (1, 0), (0, 1)], .insert [(1, 1), (0, 0)], .move [2] [(0, 2)], .cells, .remove [0]] = some d ∧
    getTopology d = some (p, t, e) ∧ RefersTo d p t ∧ p = [(1, 0), (0, 2), (1, 1)] ∧ t = [⟨0, 1, 2⟩] := by
  have hd : ∃ d, dtHistory (toyCgal : Cgal Int)
      [.insert [(0, 0), (1, 0), (0, 1)], .insert [(1, 1), (0, 0)], .move [2] [(0, 2)], .cells, .remove [0]] = some d ∧
      (getTopology d).map (fun r => (r.1, r.2.1)) = some ([(1, 0), (0, 2), (1, 1)], [⟨0, 1, 2⟩]) := ⟨_, rfl, by decide +kernel⟩
  obtain ⟨d, h1, h2⟩ := hd
  obtain ⟨p, t, e, k1, -, -, k2⟩ := C75_topology toyCgal_laws h1
  rw [k1] at h2
  simp only [Option.map_some, Option.some.injEq, Prod.mk.injEq] at h2
  exact ⟨d, p, t, e, h1, k1, k2, h2.1, h2.2⟩

-- a surplus position is ignored, a missing one is undefined
example : (((dtHistory (toyCgal : Cgal Int) [.insert [(0, 0), (1, 0)]]).bind fun d => dtMove toyCgal d [1] [(5, 5), (6, 6)]).map
    fun d => (getFiniteVertices d).1) = some [(0, 0), (5, 5)] ∧
    (((dtHistory (toyCgal : Cgal Int) [.insert [(0, 0), (1, 0)]]).bind fun d => dtMove toyCgal d [0, 1] [(5, 5)]).map
    fun d => (getFiniteVertices d).1) = none := by decide +kernel

end OM
