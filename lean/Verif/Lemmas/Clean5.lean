import Verif.Lemmas.Clean4
/-!
# Deleting rows, worst faces, interior and boundary faces
-/
set_option linter.unusedSectionVars false
namespace OM
open Spec

theorem deleteRowsFrom_eq (idx : List Nat) : ∀ (t : List Tri) (i : Nat),
    deleteRowsFrom idx i t = ((t.zipIdx i).filter fun x => decide (x.2 ∉ idx)).map Prod.fst
  | [], _ => rfl
  | f :: t, i => by
    rw [deleteRowsFrom, List.zipIdx_cons, deleteRowsFrom_eq idx t (i + 1)]
    by_cases h : i ∈ idx
    · rw [if_pos h, List.filter_cons_of_neg (by simpa using h)]
    · rw [if_neg h, List.filter_cons_of_pos (by simpa using h)]; rfl

theorem deleteRows_eq (idx : List Nat) (t : List Tri) :
    deleteRows idx t = (t.zipIdx.filter fun x => decide (x.2 ∉ idx)).map Prod.fst := deleteRowsFrom_eq idx t 0

theorem deleteRows_sublist (idx : List Nat) (t : List Tri) : (deleteRows idx t).Sublist t := by
  rw [deleteRows_eq]
  have := (List.filter_sublist (p := fun x : Tri × Nat => decide (x.2 ∉ idx)) (l := t.zipIdx)).map Prod.fst
  rwa [List.zipIdx_map_fst] at this

theorem deleteRows_nil (t : List Tri) : deleteRows [] t = t := by
  rw [deleteRows_eq, List.filter_eq_self.2 (by simp), List.zipIdx_map_fst]

theorem deleteRows_lt {idx : List Nat} {t : List Tri} {k : Nat} (hk : k ∈ idx) (hlt : k < t.length) :
    (deleteRows idx t).length < t.length := by
  rw [deleteRows_eq, List.length_map]
  have : (t.zipIdx.filter fun x => decide (x.2 ∉ idx)).length < t.zipIdx.length := by
    rw [List.length_filter_lt_length_iff_exists]
    refine ⟨(t[k], k), ?_, by simpa using hk⟩
    rw [List.mem_zipIdx_iff_getElem?]
    exact List.getElem?_eq_getElem hlt
  simpa using this

theorem deleteRowsFrom_filter (idx : List Nat) (P : Tri → Bool) : ∀ (t : List Tri) (i : Nat),
    (∀ (k : Nat) (f : Tri), t[k]? = some f → (i + k ∈ idx ↔ P f = true)) →
    deleteRowsFrom idx i t = t.filter fun f => !P f
  | [], _, _ => rfl
  | f :: t, i, h => by
    have ih := deleteRowsFrom_filter idx P t (i + 1) fun k g hk => by
      rw [← h (k + 1) g hk]; congr! 1; omega
    have h0 := h 0 f rfl
    rw [Nat.add_zero] at h0
    rw [deleteRowsFrom, ih]
    by_cases hi : i ∈ idx
    · rw [if_pos hi, List.filter_cons_of_neg (by simp [h0.1 hi])]
    · have : P f = false := by
        cases hP : P f
        · rfl
        · exact absurd (h0.2 hP) hi
      rw [if_neg hi, List.filter_cons_of_pos (by simp [this])]

theorem deleteRows_filter {idx : List Nat} {P : Tri → Bool} {t : List Tri}
    (h : ∀ (k : Nat) (f : Tri), t[k]? = some f → (k ∈ idx ↔ P f = true)) : deleteRows idx t = t.filter fun f => !P f :=
  deleteRowsFrom_filter idx P t 0 fun k f hk => by rw [Nat.zero_add]; exact h k f hk

/-! ## `argmin` -/

section
variable {K : Type} [Field K] [LinearOrder K]

/-- Position `k` holds NaN, or the smallest value and nothing is NaN. -/
def IsArgmin (l : List (Option K)) (k : Nat) : Prop :=
  l[k]? = some none ∨ ∃ m : K, l[k]? = some (some m) ∧ ∀ x ∈ l, ∃ y, x = some y ∧ m ≤ y

theorem argminGo_spec : ∀ (l pre : List (Option K)) (m : Option K) (best : Nat),
    pre[best]? = some m → (∀ v, m = some v → ∀ x ∈ pre, ∃ y, x = some y ∧ v ≤ y) →
    IsArgmin (pre ++ l) (argminGo m best pre.length l)
  | [], pre, m, best, hb, hmin => by
    rw [List.append_nil]
    cases m with
    | none => simp only [argminGo]; exact Or.inl hb
    | some v => simp only [argminGo]; exact Or.inr ⟨v, hb, hmin v rfl⟩
  | x :: l, pre, none, best, hb, hmin => by
    simp only [argminGo]
    left
    rw [List.getElem?_append_left (List.getElem?_eq_some_iff.1 hb).1]; exact hb
  | none :: l, pre, some v, best, hb, hmin => by
    simp only [argminGo]
    left
    rw [List.getElem?_append_right (le_refl _)]; simp
  | some x :: l, pre, some v, best, hb, hmin => by
    have e : pre ++ some x :: l = (pre ++ [some x]) ++ l := by simp
    have el : (pre ++ [some x]).length = pre.length + 1 := by simp
    simp only [argminGo]
    by_cases h : x < v
    · rw [if_pos h, e, ← el]
      apply argminGo_spec l (pre ++ [some x]) (some x) pre.length
      · rw [List.getElem?_append_right (le_refl _)]; simp
      · intro w hw y hy
        cases hw
        rcases List.mem_append.1 hy with hy | hy
        · obtain ⟨z, hz, hvz⟩ := hmin v rfl y hy
          exact ⟨z, hz, le_trans h.le hvz⟩
        · rw [List.mem_singleton] at hy; exact ⟨x, hy, le_refl _⟩
    · rw [if_neg h, e, ← el]
      apply argminGo_spec l (pre ++ [some x]) (some v) best
      · rw [List.getElem?_append_left (List.getElem?_eq_some_iff.1 hb).1]; exact hb
      · intro w hw y hy
        cases hw
        rcases List.mem_append.1 hy with hy | hy
        · exact hmin v rfl y hy
        · rw [List.mem_singleton] at hy; exact ⟨x, hy, not_lt.1 h⟩

theorem argmin_spec {l : List (Option K)} (hl : l ≠ []) : ∃ k, argmin l = some k ∧ IsArgmin l k := by
  cases l with
  | nil => exact absurd rfl hl
  | cons x l =>
    refine ⟨_, rfl, ?_⟩
    have := argminGo_spec l [x] x 0 rfl (by intro v hv y hy; rw [List.mem_singleton] at hy; exact ⟨v, hy.trans hv, le_refl _⟩)
    exact this

theorem IsArgmin.lt {l : List (Option K)} {k : Nat} (h : IsArgmin l k) : k < l.length := by
  rcases h with h | ⟨m, h, _⟩ <;> exact (List.getElem?_eq_some_iff.1 h).1

/-- Face `c` is one of `cand` and no other has a smaller quality (or its own quality is NaN). -/
def IsWorst (qual : Tri → Option K) (t : List Tri) (cand : List Nat) (c : Nat) : Prop :=
  c ∈ cand ∧ ∃ f, t[c]? = some f ∧ ∀ q, qual f = some q → ∀ c' ∈ cand, ∀ g, t[c']? = some g →
    ∃ q', qual g = some q' ∧ q ≤ q'

theorem worstFace_spec (qual : Tri → Option K) {t : List Tri} {cand : List Nat} (hne : cand ≠ [])
    (hlt : ∀ c ∈ cand, c < t.length) : ∃ c, worstFace qual t cand = some c ∧ IsWorst qual t cand c := by
  obtain ⟨rows, hrows⟩ := gather_isSome hlt
  have hrl := gather_length hrows
  have hrne : rows.map qual ≠ [] := by
    intro h
    rw [List.map_eq_nil_iff] at h
    rw [h] at hrl
    exact hne (List.length_eq_zero_iff.1 hrl.symm)
  obtain ⟨k, hk, hmin⟩ := argmin_spec hrne
  have hkl : k < cand.length := by
    have := hmin.lt; rw [List.length_map, hrl] at this; exact this
  refine ⟨cand[k], ?_, List.getElem_mem _, ?_⟩
  · simp only [worstFace, hrows, hk, Option.bind_eq_bind, Option.bind_some]
    exact List.getElem?_eq_getElem hkl
  · have hck : cand[k]? = some cand[k] := List.getElem?_eq_getElem hkl
    have hrk := gather_getElem? hrows hck
    have hlt' := hlt cand[k] (List.getElem_mem _)
    refine ⟨t[cand[k]], List.getElem?_eq_getElem hlt', ?_⟩
    intro q hq c' hc' g hg
    rw [List.getElem?_eq_getElem hlt'] at hrk
    have hqk : (rows.map qual)[k]? = some (some q) := by rw [List.getElem?_map, hrk]; simp [hq]
    rcases hmin with h | ⟨m, h, hall⟩
    · rw [hqk] at h; simp at h
    · rw [hqk] at h
      simp only [Option.some.injEq] at h
      subst h
      obtain ⟨j, hj⟩ := List.mem_iff_getElem?.1 hc'
      have hrj := gather_getElem? hrows hj
      rw [hg] at hrj
      have : qual g ∈ rows.map qual := List.mem_map.2 ⟨g, List.mem_of_getElem? hrj, rfl⟩
      obtain ⟨y, hy, hqy⟩ := hall _ this
      exact ⟨y, hy, hqy⟩

theorem pickFace_spec (qual : Tri → Option K) (etbv : List Nat) {t : List Tri} {conn : List Nat} (hne : conn ≠ [])
    (hlt : ∀ c ∈ conn, c < t.length) :
    ∃ c, pickFace qual etbv t conn = some c ∧ c ∈ conn ∧
      ((∀ k ∈ conn, onBoundary etbv t k = false) → IsWorst qual t conn c) ∧
      ((∃ k ∈ conn, onBoundary etbv t k = true) →
        IsWorst qual t (conn.filter (onBoundary etbv t)) c ∨ conn.filter (onBoundary etbv t) = [c]) := by
  rw [pickFace]
  match hm : conn.filter (onBoundary etbv t) with
  | [] =>
    obtain ⟨c, h1, h2⟩ := worstFace_spec qual hne hlt
    refine ⟨c, h1, h2.1, fun _ => h2, ?_⟩
    rintro ⟨k, hk, hb⟩
    have : k ∈ conn.filter (onBoundary etbv t) := List.mem_filter.2 ⟨hk, hb⟩
    rw [hm] at this; simp at this
  | [c] =>
    have hc : c ∈ conn.filter (onBoundary etbv t) := by rw [hm]; simp
    obtain ⟨h1, h2⟩ := List.mem_filter.1 hc
    refine ⟨c, rfl, h1, ?_, fun _ => Or.inr rfl⟩
    intro hall
    rw [hall c h1] at h2; simp at h2
  | a :: b :: r =>
    have hsub : ∀ c ∈ a :: b :: r, c ∈ conn ∧ onBoundary etbv t c = true := by
      intro c hc; rw [← hm] at hc; exact List.mem_filter.1 hc
    obtain ⟨c, h1, h2⟩ := worstFace_spec qual (t := t) (cand := a :: b :: r) (by simp) fun c hc => hlt c (hsub c hc).1
    refine ⟨c, h1, (hsub c h2.1).1, ?_, fun _ => Or.inl h2⟩
    intro hall
    have := hsub c h2.1
    rw [hall c this.1] at this; simp at this

theorem interiorPicks_spec (qual : Tri → Option K) (etbv : List Nat) {t : List Tri} {vtoc nne : List Nat} :
    ∀ (vs : List Nat), (∀ v ∈ vs, ∃ l, block vtoc nne v = some l ∧ l ≠ [] ∧
      ∀ k ∈ l, ∃ f, t[k]? = some f ∧ HasVertex f v) →
    ∃ idx, interiorPicks qual etbv t vtoc nne vs = some idx ∧
      List.Forall₂ (fun v c => ∃ l, block vtoc nne v = some l ∧ pickFace qual etbv t l = some c ∧ c ∈ l) vs idx
  | [], _ => ⟨[], rfl, .nil⟩
  | v :: vs, h => by
    obtain ⟨l, h1, h2, h3⟩ := h v (by simp)
    obtain ⟨c, hc, hcl, _⟩ := pickFace_spec qual etbv h2 (t := t) fun k hk => by
      obtain ⟨f, hf, _⟩ := h3 k hk; exact (List.getElem?_eq_some_iff.1 hf).1
    obtain ⟨idx, hi, hf⟩ := interiorPicks_spec qual etbv vs fun w hw => h w (List.mem_cons_of_mem _ hw)
    refine ⟨c :: idx, ?_, .cons ⟨l, h1, hc, hcl⟩ hf⟩
    rw [interiorPicks, h1]
    dsimp only
    rw [hc, hi]

end

/-! ## Boundary vertices -/

theorem mem_flatPairs {es : List (Nat × Nat)} {v : Nat} : v ∈ flatPairs es ↔ ∃ e ∈ es, v = e.1 ∨ v = e.2 := by
  induction es with
  | nil => simp [flatPairs]
  | cons e es ih => simp only [flatPairs, List.mem_cons, ih, exists_eq_or_imp, or_assoc]

theorem flatPairs_length (es : List (Nat × Nat)) : (flatPairs es).length = 2 * es.length := by
  induction es with
  | nil => rfl
  | cons e es ih => simp only [flatPairs, List.length_cons, ih]; omega

theorem count_flatPairs {es : List (Nat × Nat)} (h : ∀ e ∈ es, e.1 ≠ e.2) (v : Nat) :
    (flatPairs es).count v = degree es v := by
  induction es with
  | nil => rfl
  | cons e es ih =>
    have ih := ih fun x hx => h x (List.mem_cons_of_mem _ hx)
    have hne := h e (by simp)
    simp only [flatPairs, List.count_cons, ih, degree, List.filter_cons]
    by_cases h1 : e.1 = v
    · have h2 : ¬ e.2 = v := fun h2 => hne (h1.trans h2.symm)
      rw [if_pos (show decide (e.1 = v ∨ e.2 = v) = true by simp [h1])]
      simp [h1, h2]
    · by_cases h2 : e.2 = v
      · rw [if_pos (show decide (e.1 = v ∨ e.2 = v) = true by simp [h2])]
        simp [h1, h2]
      · rw [if_neg (show ¬ decide (e.1 = v ∨ e.2 = v) = true by simp [h1, h2])]
        simp [h1, h2]

theorem mem_getEdges {t : List Tri} {e : Nat × Nat} (h : e ∈ getEdges t) :
    ∃ f ∈ t, HasVertex f e.1 ∧ HasVertex f e.2 := by
  induction t with
  | nil => simp [getEdges] at h
  | cons f t ih =>
    simp only [getEdges, List.mem_cons] at h
    rcases h with rfl | rfl | rfl | h
    · exact ⟨f, by simp, by simp [HasVertex]⟩
    · exact ⟨f, by simp, by simp [HasVertex]⟩
    · exact ⟨f, by simp, by simp [HasVertex]⟩
    · obtain ⟨g, hg, hh⟩ := ih h
      exact ⟨g, List.mem_cons_of_mem _ hg, hh⟩

theorem boundary_vertex_used {o : RowOrder (Nat × Nat)} {t : List Tri} {v : Nat}
    (h : v ∈ flatPairs (getBoundaryEdges o t)) : ∃ f ∈ t, HasVertex f v := by
  obtain ⟨e, he, hv⟩ := mem_flatPairs.1 h
  have hc := (mem_boundary_iff_count o t e).1 he
  have : e ∈ (getEdges t).map sortPair := List.count_pos_iff.1 (by omega)
  obtain ⟨e', he', rfl⟩ := List.mem_map.1 this
  obtain ⟨f, hf, h1, h2⟩ := mem_getEdges he'
  refine ⟨f, hf, ?_⟩
  unfold sortPair at hv
  rcases Nat.le_total e'.1 e'.2 with hle | hle <;>
    simp only [Nat.min_eq_left, Nat.min_eq_right, Nat.max_eq_left, Nat.max_eq_right, hle] at hv <;>
    rcases hv with rfl | rfl <;> assumption

theorem externalTopology_isSome {α : Type} (o : RowOrder (Nat × Nat)) {p : List α} {t : List Tri} (h : ValidMesh p t) :
    ∃ bv, externalTopology o p t = some (getBoundaryEdges o t, bv) ∧
      bv.length = (unique natOrder (flatPairs (getBoundaryEdges o t))).length := by
  obtain ⟨bv, hbv⟩ := gather_isSome (l := p) (ix := unique natOrder (flatPairs (getBoundaryEdges o t))) (by
    intro v hv
    obtain ⟨f, hf, hfv⟩ := boundary_vertex_used ((mem_unique _ _ _).1 hv)
    exact h f hf v hfv)
  exact ⟨bv, by rw [externalTopology, hbv]; rfl, gather_length hbv⟩

theorem mem_overConnected {l : List Nat} {v : Nat} : v ∈ overConnected l ↔ 2 < l.count v := by
  simp only [overConnected, List.mem_map, List.mem_filter, decide_eq_true_eq]
  constructor
  · rintro ⟨⟨w, n⟩, ⟨h1, h2⟩, rfl⟩
    have := (mem_uniqueCounts natOrder l w n).1 h1
    dsimp only at *; omega
  · intro h
    exact ⟨(v, l.count v), ⟨(mem_uniqueCounts natOrder l v _).2 ⟨by omega, rfl⟩, h⟩, rfl⟩

/-! ## `delete_interior_faces` -/

section
variable {K : Type} [Field K] [LinearOrder K]

/-- What `delete_interior_faces` does on a mesh that uses exactly the vertices `0 … n-1`. -/
theorem deleteInterior_spec {α : Type} (oE : RowOrder (Nat × Nat)) (srtV : KeySort Nat Nat natOrder.le)
    (qual : Tri → Option K) {p : List α} {t : List Tri} (hv : ValidMesh p t)
    (hu : ∀ v < p.length, ∃ f ∈ t, HasVertex f v) :
    ∃ idx, deleteInteriorFaces oE srtV qual p t = some (deleteRows idx t, idx) ∧
      List.Forall₂ (fun v c => ∃ l, block (vertexToFace srtV t).1 (vertexToFace srtV t).2 v = some l ∧
          (∀ k, k ∈ l ↔ ∃ f, t[k]? = some f ∧ HasVertex f v) ∧
          pickFace qual (flatPairs (getBoundaryEdges oE t)) t l = some c ∧ c ∈ l)
        (overConnected (flatPairs (getBoundaryEdges oE t))) idx := by
  obtain ⟨bv, hb, _⟩ := externalTopology_isSome oE hv
  have hblock : ∀ v ∈ overConnected (flatPairs (getBoundaryEdges oE t)),
      ∃ l, block (vertexToFace srtV t).1 (vertexToFace srtV t).2 v = some l ∧
        (∀ k, k ∈ l ↔ ∃ f, t[k]? = some f ∧ HasVertex f v) ∧ l ≠ [] := by
    intro v hvo
    have hcount := mem_overConnected.1 hvo
    obtain ⟨f, hf, hfv⟩ := boundary_vertex_used (List.count_pos_iff.1 (show 0 < (flatPairs (getBoundaryEdges oE t)).count v by omega))
    obtain ⟨l, h1, h2, _⟩ := vertexToFace_block srtV (n := p.length) hv hu (hv f hf v hfv)
    refine ⟨l, h1, h2, ?_⟩
    obtain ⟨j, hj⟩ := List.mem_iff_getElem?.1 hf
    exact List.ne_nil_of_mem ((h2 j).2 ⟨f, hj, hfv⟩)
  obtain ⟨idx, h1, h2⟩ := interiorPicks_spec qual (flatPairs (getBoundaryEdges oE t)) (t := t)
    (overConnected (flatPairs (getBoundaryEdges oE t))) (fun v hvo => by
      obtain ⟨l, h1, h2, h3⟩ := hblock v hvo
      exact ⟨l, h1, h3, fun k hk => (h2 k).1 hk⟩)
  refine ⟨idx, ?_, ?_⟩
  · simp only [deleteInteriorFaces, hb, Option.bind_eq_bind, Option.bind_some, h1]
    rfl
  · have hall : ∀ v ∈ overConnected (flatPairs (getBoundaryEdges oE t)), ∀ c,
        (∃ l, block (vertexToFace srtV t).1 (vertexToFace srtV t).2 v = some l ∧
          pickFace qual (flatPairs (getBoundaryEdges oE t)) t l = some c ∧ c ∈ l) →
        ∃ l, block (vertexToFace srtV t).1 (vertexToFace srtV t).2 v = some l ∧
          (∀ k, k ∈ l ↔ ∃ f, t[k]? = some f ∧ HasVertex f v) ∧
          pickFace qual (flatPairs (getBoundaryEdges oE t)) t l = some c ∧ c ∈ l := by
      rintro v hvo c ⟨l, k1, k2, k3⟩
      obtain ⟨l', e1, e2, _⟩ := hblock v hvo
      rw [k1] at e1; cases e1
      exact ⟨l, k1, e2, k2, k3⟩
    clear h1 hblock
    generalize overConnected (flatPairs (getBoundaryEdges oE t)) = vs at h2 hall
    induction h2 with
    | nil => exact .nil
    | cons h _ ih =>
      exact .cons (hall _ (by simp) _ h) (ih fun v hv => hall v (List.mem_cons_of_mem _ hv))

/-! ## `delete_boundary_faces` -/

theorem boundaryFaceLists_spec {vtoe ptr : List Nat} {R : Nat → Nat → Prop} : ∀ (vs : List Nat),
    (∀ v ∈ vs, ∃ l, block vtoe ptr v = some l ∧ ∀ k, k ∈ l ↔ R v k) →
    ∃ r, boundaryFaceLists vtoe ptr vs = some r ∧ ∀ k, k ∈ r ↔ ∃ v ∈ vs, R v k
  | [], _ => ⟨[], rfl, by simp⟩
  | v :: vs, h => by
    obtain ⟨l, h1, h2⟩ := h v (by simp)
    obtain ⟨r, h3, h4⟩ := boundaryFaceLists_spec vs fun w hw => h w (List.mem_cons_of_mem _ hw)
    refine ⟨l ++ r, by rw [boundaryFaceLists, h1, h3], ?_⟩
    intro k
    simp [h2, h4]

theorem getBoundaryEntities_spec {α : Type} (oE : RowOrder (Nat × Nat)) (srtV : KeySort Nat Nat natOrder.le)
    {p : List α} {t : List Tri} (hv : ValidMesh p t) (hu : ∀ v < p.length, ∃ f ∈ t, HasVertex f v) :
    ∃ bele, getBoundaryEntities oE srtV p t = some bele ∧
      ∀ k, k ∈ bele ↔ ∃ f, t[k]? = some f ∧ ∃ v, HasVertex f v ∧ v ∈ flatPairs (getBoundaryEdges oE t) := by
  obtain ⟨bv, hb, _⟩ := externalTopology_isSome oE hv
  obtain ⟨r, h1, h2⟩ := boundaryFaceLists_spec (vtoe := (vertexToFace srtV t).1) (ptr := (vertexToFace srtV t).2)
    (R := fun v k => ∃ f, t[k]? = some f ∧ HasVertex f v) (unique natOrder (flatPairs (getBoundaryEdges oE t)))
    (fun v hvm => by
      obtain ⟨f, hf, hfv⟩ := boundary_vertex_used ((mem_unique _ _ _).1 hvm)
      obtain ⟨l, h1, h2, _⟩ := vertexToFace_block srtV (n := p.length) hv hu (hv f hf v hfv)
      exact ⟨l, h1, h2⟩)
  refine ⟨unique natOrder r, ?_, ?_⟩
  · simp only [getBoundaryEntities, hb, Option.bind_eq_bind, Option.bind_some, h1]
    rfl
  · intro k
    rw [mem_unique, h2]
    constructor
    · rintro ⟨v, hvm, f, hf, hfv⟩
      exact ⟨f, hf, v, hfv, (mem_unique _ _ _).1 hvm⟩
    · rintro ⟨f, hf, v, hfv, hvm⟩
      exact ⟨v, (mem_unique _ _ _).2 hvm, f, hf, hfv⟩

theorem mem_zip_gather {α : Type} {l : List α} {ix : List Nat} {rows : List α} (h : gather l ix = some rows) (k : Nat)
    (x : α) : (k, x) ∈ ix.zip rows ↔ k ∈ ix ∧ l[k]? = some x := by
  rw [List.mem_iff_getElem?]
  constructor
  · rintro ⟨j, hj⟩
    rw [List.getElem?_zip_eq_some] at hj
    have := gather_getElem? h hj.1
    exact ⟨List.mem_of_getElem? hj.1, this ▸ hj.2⟩
  · rintro ⟨h1, h2⟩
    obtain ⟨j, hj⟩ := List.mem_iff_getElem?.1 h1
    refine ⟨j, List.getElem?_zip_eq_some.2 ⟨hj, ?_⟩⟩
    rw [gather_getElem? h hj]; exact h2

theorem deleteBoundaryRows_spec {α : Type} (oE : RowOrder (Nat × Nat)) (srtV : KeySort Nat Nat natOrder.le)
    (qual : Tri → Option K) (minQual : K) {p : List α} {t : List Tri} (hv : ValidMesh p t)
    (hu : ∀ v < p.length, ∃ f ∈ t, HasVertex f v) :
    ∃ t', deleteBoundaryRows oE srtV qual minQual p t = some t' ∧
      t' = t.filter fun f => !(belowQual minQual (qual f) &&
        ((flatPairs (getBoundaryEdges oE t)).contains f.a || (flatPairs (getBoundaryEdges oE t)).contains f.b ||
          (flatPairs (getBoundaryEdges oE t)).contains f.c)) := by
  obtain ⟨bele, h1, h2⟩ := getBoundaryEntities_spec oE srtV hv hu
  obtain ⟨rows, h3⟩ := gather_isSome (l := t) (ix := bele) (fun k hk => by
    obtain ⟨f, hf, _⟩ := (h2 k).1 hk; exact (List.getElem?_eq_some_iff.1 hf).1)
  refine ⟨deleteRows (((bele.zip rows).filter fun x => belowQual minQual (qual x.2)).map Prod.fst) t, ?_, ?_⟩
  · simp only [deleteBoundaryRows, h1, h3, Option.bind_eq_bind, Option.bind_some]
    rfl
  · refine deleteRows_filter (P := fun f => belowQual minQual (qual f) &&
        ((flatPairs (getBoundaryEdges oE t)).contains f.a || (flatPairs (getBoundaryEdges oE t)).contains f.b ||
          (flatPairs (getBoundaryEdges oE t)).contains f.c)) ?_
    intro k f hf
    have hiff : k ∈ bele ↔ (f.a ∈ flatPairs (getBoundaryEdges oE t) ∨ f.b ∈ flatPairs (getBoundaryEdges oE t)) ∨
        f.c ∈ flatPairs (getBoundaryEdges oE t) := by
      rw [h2]
      constructor
      · rintro ⟨g, hg, v, hgv, hvm⟩
        rw [hf] at hg; cases hg
        rcases hgv with rfl | rfl | rfl
        · exact Or.inl (Or.inl hvm)
        · exact Or.inl (Or.inr hvm)
        · exact Or.inr hvm
      · rintro ((h | h) | h)
        · exact ⟨f, hf, _, Or.inl rfl, h⟩
        · exact ⟨f, hf, _, Or.inr (Or.inl rfl), h⟩
        · exact ⟨f, hf, _, Or.inr (Or.inr rfl), h⟩
    simp only [Bool.and_eq_true, Bool.or_eq_true, List.contains_iff_mem]
    rw [← hiff]
    simp only [List.mem_map, List.mem_filter]
    constructor
    · rintro ⟨⟨k', g⟩, ⟨hz, hq⟩, rfl⟩
      obtain ⟨hk, hg⟩ := (mem_zip_gather h3 k' g).1 hz
      dsimp only at *
      rw [hf] at hg; cases hg
      exact ⟨hq, hk⟩
    · rintro ⟨hq, hk⟩
      exact ⟨(k, f), ⟨(mem_zip_gather h3 k f).2 ⟨hk, hf⟩, hq⟩, rfl⟩

end

end OM
