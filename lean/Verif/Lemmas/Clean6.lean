import Verif.Lemmas.Clean5
/-!
# `fix_mesh` calls that remove nothing only renumber; boundary counts
-/
set_option linter.unusedSectionVars false
namespace OM
open Spec

theorem perm_of_unique_length {α : Type} [DecidableEq α] {o : RowOrder α} {l : List α}
    (h : (unique o l).length = l.length) : (unique o l).Perm l := by
  have hsub : unique o l ⊆ l := fun x hx => (mem_unique o l x).1 hx
  exact ((unique_nodup o l).subperm hsub).perm_of_length_le (le_of_eq h.symm)

/-- Renumber the corners. -/
def Tri.map (σ : Nat → Nat) (f : Tri) : Tri := ⟨σ f.a, σ f.b, σ f.c⟩

theorem sort_eq_of_perm {f g : Tri} (h : f.toList.Perm g.toList) : f.sort = g.sort :=
  sorted_tri_ext (Tri.sort_sorted f) (Tri.sort_sorted g) ((Tri.sort_perm f).trans (h.trans (Tri.sort_perm g).symm))

theorem map_toList (σ : Nat → Nat) (f : Tri) : (f.map σ).toList = f.toList.map σ := rfl

theorem sort_map_sort (σ : Nat → Nat) (f : Tri) : (f.sort.map σ).sort = (f.map σ).sort :=
  sort_eq_of_perm (by rw [map_toList, map_toList]; exact (Tri.sort_perm f).map σ)

section
variable {K : Type} [Field K] [LinearOrder K] [IsStrictOrderedRing K]

theorem uniqueInverse_getElem? {α : Type} [DecidableEq α] (o : RowOrder α) (l : List α) (i : Nat) :
    (uniqueInverse o l)[i]? = (l[i]?).map fun k => (unique o l).idxOf k := by
  rw [uniqueInverse, List.getElem?_map]

/-- The inverse index of a list without repetitions as an injective renumbering. -/
theorem inverse_facts {α : Type} [DecidableEq α] (o : RowOrder α) (keys : List α) (hkn : keys.Nodup) :
    ∃ τ : Nat → Nat, (∀ i j : Nat, (uniqueInverse o keys)[i]? = some j → τ i = j) ∧
      (∀ i < keys.length, τ i < (unique o keys).length) ∧
      ∀ i < keys.length, ∀ j < keys.length, τ i = τ j → i = j := by
  have hτ : ∀ i j : Nat, (uniqueInverse o keys)[i]? = some j → ((uniqueInverse o keys)[i]?).getD 0 = j := by
    intro i j hij; rw [hij]; rfl
  have hτk : ∀ (i : Nat) (k : α), keys[i]? = some k → ((uniqueInverse o keys)[i]?).getD 0 = (unique o keys).idxOf k := by
    intro i k hk; apply hτ; rw [uniqueInverse_getElem?, hk]; rfl
  refine ⟨fun i => ((uniqueInverse o keys)[i]?).getD 0, hτ, ?_, ?_⟩
  · intro i hi
    have hk : keys[i]? = some keys[i] := List.getElem?_eq_getElem hi
    show ((uniqueInverse o keys)[i]?).getD 0 < _
    rw [hτk _ _ hk]
    exact List.idxOf_lt_length_of_mem ((mem_unique _ _ _).2 (List.getElem_mem _))
  · intro i hi j hj hij
    have hki : keys[i]? = some keys[i] := List.getElem?_eq_getElem hi
    have hkj : keys[j]? = some keys[j] := List.getElem?_eq_getElem hj
    replace hij : ((uniqueInverse o keys)[i]?).getD 0 = ((uniqueInverse o keys)[j]?).getD 0 := hij
    rw [hτk _ _ hki, hτk _ _ hkj] at hij
    have := idxOf_inj_of_mem ((mem_unique o keys _).2 (List.getElem_mem _)) hij
      ((mem_unique o keys _).2 (List.getElem_mem _))
    exact (List.Nodup.getElem_inj_iff hkn).1 this

theorem mapTris_eq_map {g : Nat → Option Nat} {τ : Nat → Nat} {t t1 : List Tri} (h : mapTris g t = some t1)
    (hτ : ∀ i j, g i = some j → τ i = j) : t1 = t.map (Tri.map τ) := by
  have h2 := mapTris_forall₂ h
  clear h
  induction h2 with
  | nil => rfl
  | @cons f f' l l' h _ ih =>
    rw [List.map_cons, ih]
    congr 1
    rw [Tri.mapM_eq_some] at h
    obtain ⟨a', b', c'⟩ := f'
    simp only [Tri.map]
    rw [hτ _ _ h.1, hτ _ _ h.2.1, hτ _ _ h.2.2]

/-- A call of `fix_mesh` after which the numbers of vertices and triangles are the same only renumbers vertices and
reorders triangles and corners. -/
theorem fixMesh_iso {rnd : K → Int} {oP : RowOrder (Row K)} {oT : RowOrder Tri} {p : List (K × K)} {t : List Tri}
    {ptol : K} {R : FixResult K} (h : fixMesh rnd oP oT p t ptol true = some R) (hp : R.p.length = p.length)
    (ht : R.t.length = t.length) :
    ∃ σ : Nat → Nat, Function.Injective σ ∧ (R.t.map Tri.sort).Perm (t.map fun f => (f.map σ).sort) := by
  obtain ⟨snap, p1, t1, h1, h2, h3, h4⟩ := fixMesh_stages h
  rcases h4 with ⟨h4, _⟩ | ⟨_, h4, h5, _⟩
  · simp at h4
  set keys := p.map (snapRow rnd snap) with hkeys
  set t2 := unique oT (t1.map Tri.sort) with ht2
  set pix := unique natOrder (flatTris t2) with hpix
  have hkl : keys.length = p.length := by rw [hkeys, List.length_map]
  have l1 : p1.length = (unique oP keys).length := by
    rw [gather_length h2, uniqueIndex, List.length_map]
  have l2 : R.p.length = pix.length := gather_length h4
  have hpixlt : ∀ v ∈ pix, v < p1.length := gather_valid h4
  have hpixn : pix.Nodup := unique_nodup _ _
  have hpixle : pix.length ≤ p1.length := by
    have := (hpixn.subperm (l₂ := List.range p1.length) fun v hv => List.mem_range.2 (hpixlt v hv)).length_le
    simpa using this
  have hule : (unique oP keys).length ≤ keys.length := unique_length_le _ _
  have hkn : keys.Nodup := (perm_of_unique_length (o := oP) (l := keys) (by omega)).nodup_iff.1 (unique_nodup _ _)
  have hpixall : ∀ v < p1.length, v ∈ pix := by
    intro v hv
    have : pix.Perm (List.range p1.length) := (hpixn.subperm fun v hv => List.mem_range.2 (hpixlt v hv)).perm_of_length_le
      (by simp; omega)
    rw [this.mem_iff]; exact List.mem_range.2 hv
  have hp1 : p1.length = p.length := by omega
  -- the first renumbering
  obtain ⟨τ, hτ, hτlt', hτinj'⟩ := inverse_facts oP keys hkn
  rw [hkl] at hτlt' hτinj'
  have hτlt : ∀ i < p.length, τ i < p1.length := fun i hi => by rw [l1]; exact hτlt' i hi
  have hτinj := hτinj'
  let σ : Nat → Nat := fun v => if v < p.length then pix.idxOf (τ v) else v
  have hσlt : ∀ v < p.length, σ v = pix.idxOf (τ v) := fun v hv => if_pos hv
  have hvalid : ∀ f ∈ t, ∀ v, HasVertex f v → v < p.length := by
    intro f hf v hv
    obtain ⟨f', _, hm⟩ := forall₂_mem_left (mapTris_forall₂ h3) f hf
    rw [Tri.mapM_eq_some] at hm
    have : ∀ {i j}, (uniqueInverse oP keys)[i]? = some j → i < p.length := by
      intro i j hij
      have := (List.getElem?_eq_some_iff.1 hij).1
      rw [uniqueInverse, List.length_map, hkl] at this; exact this
    rcases hv with rfl | rfl | rfl
    · exact this hm.1
    · exact this hm.2.1
    · exact this hm.2.2
  refine ⟨σ, ?_, ?_⟩
  · intro u v huv
    by_cases hu : u < p.length
    · have hum := hpixall _ (hτlt u hu)
      by_cases hv : v < p.length
      · rw [hσlt u hu, hσlt v hv] at huv
        exact hτinj u hu v hv (idxOf_inj_of_mem hum huv (hpixall _ (hτlt v hv)))
      · rw [hσlt u hu] at huv
        have : σ v = v := if_neg hv
        rw [this] at huv
        have := List.idxOf_lt_length_of_mem hum
        omega
    · have hu' : σ u = u := if_neg hu
      by_cases hv : v < p.length
      · rw [hσlt v hv, hu'] at huv
        have := List.idxOf_lt_length_of_mem (hpixall _ (hτlt v hv))
        omega
      · have hv' : σ v = v := if_neg hv
        rw [hu', hv'] at huv; exact huv
  · have hflip : R.t.map Tri.sort = (t2.map (renum pix)).map Tri.sort := by
      have := flipTris_forall₂ h5
      generalize t2.map (renum pix) = t3 at this
      generalize R.t = t4 at this
      induction this with
      | nil => rfl
      | cons h _ ih => rw [List.map_cons, List.map_cons, ih, sort_eq_of_perm (flipTri_perm h)]
    have ht1 : t1 = t.map (Tri.map τ) := mapTris_eq_map h3 hτ
    have hlen2 : (unique oT (t1.map Tri.sort)).length = (t1.map Tri.sort).length := by
      have e1 : R.t.length = t2.length := by
        have := congrArg List.length hflip; simpa using this
      rw [← ht2, List.length_map, ht1, List.length_map]; omega
    have hperm2 := perm_of_unique_length hlen2
    rw [hflip]
    have hp3 : ((t2.map (renum pix)).map Tri.sort).Perm (((t1.map Tri.sort).map (renum pix)).map Tri.sort) :=
      (hperm2.map _).map _
    refine hp3.trans (List.Perm.of_eq ?_)
    rw [List.map_map, List.map_map, ht1, List.map_map]
    apply List.map_congr_left
    intro f hf
    have hv := hvalid f hf
    show (renum pix (Tri.sort (f.map τ))).sort = _
    have e1 : ∀ g : Tri, renum pix g = g.map (fun v => pix.idxOf v) := fun g => rfl
    rw [e1, sort_map_sort]
    congr 1
    show (⟨_, _, _⟩ : Tri) = ⟨_, _, _⟩
    rw [hσlt _ (hv _ (Or.inl rfl)), hσlt _ (hv _ (Or.inr (Or.inl rfl))), hσlt _ (hv _ (Or.inr (Or.inr rfl)))]
    rfl

end

/-! ## Boundary edges under renumbering -/

theorem getEdges_map (σ : Nat → Nat) : ∀ t : List Tri, getEdges (t.map (Tri.map σ)) = (getEdges t).map fun e => (σ e.1, σ e.2)
  | [] => rfl
  | f :: t => by
    simp only [List.map_cons, getEdges, getEdges_map σ t]; rfl

/-- The sorted sides depend only on the sorted rows. -/
theorem sides_perm {t t' : List Tri} (h : (t.map Tri.sort).Perm (t'.map Tri.sort)) :
    ((getEdges t).map sortPair).Perm ((getEdges t').map sortPair) := by
  have key : ∀ t : List Tri, ((getEdges t).map sortPair).Perm
      ((t.map Tri.sort).flatMap fun s => [(s.a, s.b), (s.a, s.c), (s.b, s.c)]) := by
    intro t
    induction t with
    | nil => exact List.Perm.refl _
    | cons f t ih =>
      have e2 : (getEdges (f :: t)).map sortPair = ([(f.a, f.b), (f.a, f.c), (f.b, f.c)].map sortPair) ++
        (getEdges t).map sortPair := rfl
      have e3 : (((f :: t).map Tri.sort).flatMap fun s => [(s.a, s.b), (s.a, s.c), (s.b, s.c)]) =
        [(f.sort.a, f.sort.b), (f.sort.a, f.sort.c), (f.sort.b, f.sort.c)] ++
          ((t.map Tri.sort).flatMap fun s => [(s.a, s.b), (s.a, s.c), (s.b, s.c)]) := rfl
      rw [e2, e3]
      exact (sortedSides_perm f).symm.append ih
  exact (key t).trans ((h.flatMap_right _).trans (key t').symm)

theorem sortPair_idem_map (σ : Nat → Nat) (e : Nat × Nat) :
    sortPair (σ (sortPair e).1, σ (sortPair e).2) = sortPair (σ e.1, σ e.2) := by
  obtain ⟨u, v⟩ := e
  unfold sortPair
  rcases Nat.le_total u v with h | h <;> simp only [Nat.min_eq_left, Nat.min_eq_right, Nat.max_eq_left, Nat.max_eq_right, h]
  rw [Nat.min_comm, Nat.max_comm]

theorem sortPair_inj {σ : Nat → Nat} (hσ : Function.Injective σ) {e e' : Nat × Nat}
    (h : sortPair (σ e.1, σ e.2) = sortPair (σ e'.1, σ e'.2)) (he : e.1 ≤ e.2) (he' : e'.1 ≤ e'.2) : e = e' := by
  obtain ⟨u, v⟩ := e
  obtain ⟨u', v'⟩ := e'
  unfold sortPair at h
  simp only [Prod.mk.injEq] at h he he' ⊢
  have : (σ u = σ u' ∧ σ v = σ v') ∨ (σ u = σ v' ∧ σ v = σ u') := by omega
  rcases this with ⟨h1, h2⟩ | ⟨h1, h2⟩
  · exact ⟨hσ h1, hσ h2⟩
  · have := hσ h1; have := hσ h2; omega

theorem count_map_injOn {α β : Type} [BEq α] [LawfulBEq α] [BEq β] [LawfulBEq β] {φ : α → β} {l : List α} {x : α} (hx : x ∈ l)
    (hinj : ∀ a ∈ l, ∀ b ∈ l, φ a = φ b → a = b) : (l.map φ).count (φ x) = l.count x := by
  rw [List.count, List.countP_map, List.count]
  apply List.countP_congr
  intro a ha
  simp only [Function.comp_apply, beq_iff_eq]
  exact ⟨fun h => hinj a ha x hx h, fun h => by rw [h]⟩

theorem boundary_perm_filter (o : RowOrder (Nat × Nat)) (t : List Tri) :
    (getBoundaryEdges o t).Perm (((getEdges t).map sortPair).filter fun e => decide (((getEdges t).map sortPair).count e = 1)) := by
  rw [List.perm_ext_iff_of_nodup (boundary_nodup o t)]
  · intro e
    rw [mem_boundary_iff_count, List.mem_filter, decide_eq_true_eq]
    constructor
    · intro h; exact ⟨List.count_pos_iff.1 (by omega), h⟩
    · exact fun h => h.2
  · rw [List.nodup_iff_count_le_one]
    intro e
    by_cases he : ((getEdges t).map sortPair).count e = 1
    · rw [List.count_filter (by simpa using he)]; omega
    · rw [List.count_eq_zero_of_not_mem]
      · omega
      · intro h; exact he (by simpa using (List.mem_filter.1 h).2)

theorem sortPair_le (e : Nat × Nat) : (sortPair e).1 ≤ (sortPair e).2 := by unfold sortPair; dsimp only; omega

/-- Renumbering carries boundary edges to boundary edges. -/
theorem boundary_renumber {o o' : RowOrder (Nat × Nat)} {t t' : List Tri} {σ : Nat → Nat} (hσ : Function.Injective σ)
    (h : (t'.map Tri.sort).Perm (t.map fun f => (f.map σ).sort)) :
    (getBoundaryEdges o' t').Perm ((getBoundaryEdges o t).map fun e => sortPair (σ e.1, σ e.2)) := by
  have h' : (t'.map Tri.sort).Perm ((t.map (Tri.map σ)).map Tri.sort) := by rw [List.map_map]; exact h
  have hL := sides_perm h'
  rw [getEdges_map, List.map_map] at hL
  have e1 : (getEdges t).map (sortPair ∘ fun e => (σ e.1, σ e.2)) =
      ((getEdges t).map sortPair).map fun e => sortPair (σ e.1, σ e.2) := by
    rw [List.map_map]; apply List.map_congr_left; intro e _
    exact (sortPair_idem_map σ e).symm
  rw [e1] at hL
  set L := (getEdges t).map sortPair with hLd
  have hle : ∀ e ∈ L, e.1 ≤ e.2 := by
    intro e he; obtain ⟨e', _, rfl⟩ := List.mem_map.1 he; exact sortPair_le e'
  refine (boundary_perm_filter o' t').trans ?_
  refine List.Perm.trans (l₂ := (L.map fun e => sortPair (σ e.1, σ e.2)).filter fun e =>
    decide ((L.map fun e => sortPair (σ e.1, σ e.2)).count e = 1)) ?_ ?_
  · refine (hL.filter _).trans (List.Perm.of_eq ?_)
    apply List.filter_congr
    intro e _
    rw [hL.count_eq]
  · rw [List.filter_map]
    refine List.Perm.map _ (List.Perm.trans ?_ (boundary_perm_filter o t).symm)
    refine List.Perm.of_eq (List.filter_congr ?_)
    intro e he
    simp only [Function.comp_apply]
    have hc := count_map_injOn (φ := fun e : Nat × Nat => sortPair (σ e.1, σ e.2)) he
      fun a ha b hb hab => sortPair_inj hσ hab (hle a ha) (hle b hb)
    rw [← hLd, hc]

theorem flatPairs_perm {l m : List (Nat × Nat)} (h : l.Perm m) : (flatPairs l).Perm (flatPairs m) := by
  have e : ∀ l : List (Nat × Nat), flatPairs l = l.flatMap fun e => [e.1, e.2] := by
    intro l; induction l with
    | nil => rfl
    | cons x l ih => rw [List.flatMap_cons, ← ih]; rfl
  rw [e, e]; exact h.flatMap_right _

theorem flatPairs_map_sortPair (σ : Nat → Nat) : ∀ l : List (Nat × Nat),
    (flatPairs (l.map fun e => sortPair (σ e.1, σ e.2))).Perm ((flatPairs l).map σ)
  | [] => List.Perm.refl _
  | e :: l => by
    have ih := flatPairs_map_sortPair σ l
    simp only [List.map_cons, flatPairs]
    unfold sortPair
    rcases Nat.le_total (σ e.1) (σ e.2) with h | h <;>
      simp only [Nat.min_eq_left, Nat.min_eq_right, Nat.max_eq_left, Nat.max_eq_right, h]
    · exact (ih.cons _).cons _
    · exact (List.Perm.swap _ _ _).trans ((ih.cons _).cons _)

theorem overConnected_renumber {o o' : RowOrder (Nat × Nat)} {t t' : List Tri} {σ : Nat → Nat}
    (hσ : Function.Injective σ) (h : (t'.map Tri.sort).Perm (t.map fun f => (f.map σ).sort))
    (h0 : overConnected (flatPairs (getBoundaryEdges o t)) = []) :
    overConnected (flatPairs (getBoundaryEdges o' t')) = [] := by
  have hp := (flatPairs_perm (boundary_renumber (o := o) (o' := o') hσ h)).trans (flatPairs_map_sortPair σ _)
  rw [List.eq_nil_iff_forall_not_mem] at h0 ⊢
  intro w hw
  rw [mem_overConnected, hp.count_eq] at hw
  have : w ∈ (flatPairs (getBoundaryEdges o t)).map σ := List.count_pos_iff.1 (by omega)
  obtain ⟨v, hv, rfl⟩ := List.mem_map.1 this
  rw [count_map_injOn hv fun a _ b _ hab => hσ hab] at hw
  exact h0 v (mem_overConnected.2 hw)

/-- Without over-connected vertices there are no more boundary edges than boundary vertices. -/
theorem edges_le_vertices {es : List (Nat × Nat)} (h : overConnected (flatPairs es) = []) :
    es.length ≤ (unique natOrder (flatPairs es)).length := by
  have hsum := sum_uniqueCounts natOrder (flatPairs es) (fun _ => true)
  rw [List.filter_eq_self.2 (by simp), List.countP_true, flatPairs_length] at hsum
  have hle : ∀ n ∈ (uniqueCounts natOrder (flatPairs es)).map Prod.snd, n ≤ 2 := by
    intro n hn
    obtain ⟨⟨v, m⟩, hm, rfl⟩ := List.mem_map.1 hn
    have h2 := (mem_uniqueCounts natOrder (flatPairs es) v m).1 hm
    by_contra hgt
    have : v ∈ overConnected (flatPairs es) := mem_overConnected.2 (by dsimp only at hgt; omega)
    rw [h] at this; simp at this
  have := List.sum_le_card_nsmul _ 2 hle
  rw [hsum, List.length_map, smul_eq_mul] at this
  rw [unique, List.length_map]
  omega

/-- With no more boundary edges than boundary vertices, and at least two edges at each boundary vertex, there are exactly
two at each. -/
theorem exactly_two {es : List (Nat × Nat)} (h : es.length ≤ (unique natOrder (flatPairs es)).length)
    (h2 : ∀ v ∈ flatPairs es, 2 ≤ (flatPairs es).count v) {v : Nat} (hv : v ∈ flatPairs es) :
    (flatPairs es).count v = 2 := by
  have hsum := sum_uniqueCounts natOrder (flatPairs es) (fun _ => true)
  rw [List.filter_eq_self.2 (by simp), List.countP_true, flatPairs_length] at hsum
  rw [unique, List.length_map] at h
  by_contra hne
  have hgt : 2 < (flatPairs es).count v := by have := h2 v hv; omega
  have hge : ∀ x ∈ uniqueCounts natOrder (flatPairs es), 2 ≤ x.2 := by
    intro x hx
    have := (mem_uniqueCounts natOrder (flatPairs es) x.1 x.2).1 hx
    rw [← this.2]
    exact h2 _ (List.count_pos_iff.1 (by omega))
  have hmem : (v, (flatPairs es).count v) ∈ uniqueCounts natOrder (flatPairs es) :=
    (mem_uniqueCounts natOrder _ _ _).2 ⟨by omega, rfl⟩
  have : ∀ r : List (Nat × Nat), (∀ x ∈ r, 2 ≤ x.2) → (∃ x ∈ r, 2 < x.2) → 2 * r.length < (r.map Prod.snd).sum := by
    intro r
    induction r with
    | nil => rintro _ ⟨x, hx, _⟩; simp at hx
    | cons y r ih =>
      intro hall hex
      simp only [List.length_cons, List.map_cons, List.sum_cons]
      have hy := hall y (by simp)
      have hrest : 2 * r.length ≤ (r.map Prod.snd).sum := by
        have := List.card_nsmul_le_sum (r.map Prod.snd) 2 (by
          intro n hn; obtain ⟨x, hx, rfl⟩ := List.mem_map.1 hn; exact hall x (List.mem_cons_of_mem _ hx))
        rw [List.length_map, smul_eq_mul] at this; omega
      obtain ⟨x, hx, hxg⟩ := hex
      rcases List.mem_cons.1 hx with rfl | hx
      · omega
      · have := ih (fun z hz => hall z (List.mem_cons_of_mem _ hz)) ⟨x, hx, hxg⟩
        omega
  have := this _ hge ⟨_, hmem, hgt⟩
  omega

end OM
