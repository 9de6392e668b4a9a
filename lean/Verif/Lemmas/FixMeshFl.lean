import Verif.Model.FixMeshFl
import Verif.Props.MergeFl
import Verif.Props.SimpVolFl
/-! Facts about the model of `fix_mesh` in rounded arithmetic. -/
set_option linter.unusedSectionVars false
namespace OM
open Spec

section
variable {α : Type} [DecidableEq α]

theorem unique_congr (o : RowOrder α) {l m : List α} (h : ∀ a, a ∈ l ↔ a ∈ m) : unique o l = unique o m := by
  have hp : (unique o l).Perm (unique o m) :=
    (List.perm_ext_iff_of_nodup (unique_nodup o l) (unique_nodup o m)).2 fun a => by rw [mem_unique, mem_unique, h]
  exact hp.eq_of_pairwise (fun a b _ _ hab hba => o.antisymm a b hab hba) (unique_sorted o l) (unique_sorted o m)

theorem unique_eq_self (o : RowOrder α) {l : List α} (hn : l.Nodup) (hs : l.Pairwise fun a b => o.le a b = true) : unique o l = l := by
  have hp : (unique o l).Perm l := (List.perm_ext_iff_of_nodup (unique_nodup o l) hn).2 fun a => mem_unique o l a
  exact hp.eq_of_pairwise (fun a b _ _ hab hba => o.antisymm a b hab hba) (unique_sorted o l) hs

theorem map_idxOf_self {l : List α} (hn : l.Nodup) : (l.map fun k => l.idxOf k) = List.range l.length := by
  apply List.ext_getElem?
  intro i
  rw [List.getElem?_map]
  by_cases hi : i < l.length
  · rw [List.getElem?_eq_getElem hi, List.getElem?_range hi, Option.map_some, hn.idxOf_getElem i hi]
  · rw [List.getElem?_eq_none (by omega), List.getElem?_eq_none (by simpa using hi)]; rfl

theorem gather_range {β : Type} (l : List β) : gather l (List.range l.length) = some l := by
  rw [gather_eq_some]
  apply List.ext_getElem?
  intro i
  rw [List.getElem?_map, List.getElem?_map]
  by_cases hi : i < l.length
  · rw [List.getElem?_range hi, Option.map_some, List.getElem?_eq_getElem hi, Option.map_some]
  · rw [List.getElem?_eq_none (by omega : l.length ≤ i), List.getElem?_eq_none (by simpa using hi)]; rfl

theorem mapTris_range {n : Nat} {t : List Tri} (h : ∀ f ∈ t, ∀ v, HasVertex f v → v < n) :
    mapTris (fun i => (List.range n)[i]?) t = some t := by
  induction t with
  | nil => rfl
  | cons f t ih =>
    have hf := h f (by simp)
    rw [mapTris, ih fun g hg => h g (by simp [hg])]
    simp only [Tri.mapM, List.getElem?_range (hf f.a (.inl rfl)), List.getElem?_range (hf f.b (.inr (.inl rfl))),
      List.getElem?_range (hf f.c (.inr (.inr rfl)))]

end

theorem Tri.sort_eq_self {f : Tri} (h : f.a ≤ f.b ∧ f.b ≤ f.c) : f.sort = f :=
  sorted_tri_ext f.sort_sorted h f.sort_perm

theorem Tri.sort_eq_of_perm {f g : Tri} (hg : g.a ≤ g.b ∧ g.b ≤ g.c) (h : f.toList.Perm g.toList) : f.sort = g :=
  sorted_tri_ext f.sort_sorted hg (f.sort_perm.trans h)

/-- The vertices in use are numbered from zero without gaps: renumbering changes nothing. -/
theorem renum_range {n : Nat} {f : Tri} (h : ∀ v, HasVertex f v → v < n) : renum (List.range n) f = f := by
  have e : ∀ v, v < n → (List.range n).idxOf v = v := fun v hv => by
    have := (List.nodup_range (n := n)).idxOf_getElem v (by simpa using hv)
    rwa [List.getElem_range] at this
  obtain ⟨a, b, c⟩ := f
  unfold renum
  simp only
  rw [e a (h a (.inl rfl)), e b (h b (.inr (.inl rfl))), e c (h c (.inr (.inr rfl)))]

theorem unique_flat_range {n : Nat} {t : List Tri} (hv : ∀ f ∈ t, ∀ v, HasVertex f v → v < n) (hu : ∀ v < n, ∃ f ∈ t, HasVertex f v) :
    unique natOrder (flatTris t) = List.range n := by
  rw [unique_congr natOrder (m := List.range n), unique_eq_self natOrder List.nodup_range]
  · refine (List.pairwise_le_range).imp ?_
    intro a b hab
    simpa [natOrder] using hab
  · intro a
    rw [mem_flatTris, List.mem_range]
    exact ⟨fun ⟨f, hf, h⟩ => hv f hf a h, hu a⟩

section
variable {K : Type} [Field K] [LinearOrder K] [IsStrictOrderedRing K]

theorem flipTriFl_perm {rnd : K → K} {p : List (K × K)} {f f' : Tri} (h : flipTriFl rnd p f = some f') : f'.toList.Perm f.toList := by
  unfold flipTriFl at h
  split at h
  · simp only [Option.some.injEq] at h
    subst h
    split
    · exact List.Perm.swap _ _ _
    · exact List.Perm.refl _
  · simp at h

theorem flipTrisFl_isSome {rnd : K → K} {p : List (K × K)} {t : List Tri} (hv : ValidMesh p t) : ∃ t', flipTrisFl rnd p t = some t' := by
  induction t with
  | nil => exact ⟨[], rfl⟩
  | cons f t ih =>
    obtain ⟨t', ht'⟩ := ih fun g hg => hv g (by simp [hg])
    have hf := hv f (by simp)
    refine ⟨(if triVolFl rnd (p[f.a]'(hf _ (.inl rfl))) (p[f.b]'(hf _ (.inr (.inl rfl)))) (p[f.c]'(hf _ (.inr (.inr rfl)))) < 0 then ⟨f.b, f.a, f.c⟩
      else f) :: t', ?_⟩
    rw [flipTrisFl, flipTriFl, List.getElem?_eq_getElem (hf _ (.inl rfl)), List.getElem?_eq_getElem (hf _ (.inr (.inl rfl))),
      List.getElem?_eq_getElem (hf _ (.inr (.inr rfl))), ht']

/-- Exchanging corners within the rows keeps all facts. -/
theorem perm_facts {key : K × K → Row K} {p p' : List (K × K)} {t t' t'' : List Tri}
    (hfacts : FixFacts key p t p' t') (hF : List.Forall₂ (fun f f' : Tri => f'.toList.Perm f.toList) t' t'') : FixFacts key p t p' t'' := by
  refine ⟨hfacts.keysNodup, hfacts.points, ?_, ?_, ?_, ?_, ?_, hfacts.lenP⟩
  · intro g hg v hv
    obtain ⟨f, hf, hfg⟩ := forall₂_mem_right hF g hg
    apply hfacts.valid f hf
    rw [hasVertex_iff_mem] at hv ⊢
    exact hfg.mem_iff.1 hv
  · refine forall₂_pairwise ?_ hF hfacts.distinct
    intro a b c d hab hcd hne hsame
    exact hne (hab.symm.trans (List.Perm.trans hsame hcd))
  · intro f hf
    obtain ⟨g, hg, hp⟩ := hfacts.fwd f hf
    obtain ⟨g', hg', hgg⟩ := forall₂_mem_left hF g hg
    exact ⟨g', hg', (hgg.map _).trans hp⟩
  · intro g' hg'
    obtain ⟨g, hg, hgg⟩ := forall₂_mem_right hF g' hg'
    obtain ⟨f, hf, hp⟩ := hfacts.bwd g hg
    exact ⟨f, hf, (hgg.map _).trans hp⟩
  · rw [← hF.length_eq]; exact hfacts.lenT

theorem flipTrisFl_perm {rnd : K → K} {p : List (K × K)} {t t' : List Tri} (h : flipTrisFl rnd p t = some t') :
    List.Forall₂ (fun f f' : Tri => f'.toList.Perm f.toList) t t' := (flipTrisFl_forall₂ h).imp fun _ _ => flipTriFl_perm

/-- The stages of a successful `fix_mesh`. -/
theorem fixMeshFl_stages {rnd : K → K} {rint : K → Int} {oP : RowOrder (Row K)} {oT : RowOrder Tri}
    {p : List (K × K)} {t : List Tri} {ptol : K} {du : Bool} {R : FixResult K}
    (h : fixMeshFl rnd rint oP oT p t ptol du = some R) :
    ∃ snap p1 t1, snapSizeFl rnd p ptol = some snap ∧
      gather p (uniqueIndex oP (p.map (snapRowFl rnd rint snap))) = some p1 ∧
      mapTris (fun i => (uniqueInverse oP (p.map (snapRowFl rnd rint snap)))[i]?) t = some t1 ∧
      ((du = false ∧ R.p = p1 ∧ flipTrisFl rnd p1 (unique oT (t1.map Tri.sort)) = some R.t ∧
          R.jx = uniqueInverse oP (p.map (snapRowFl rnd rint snap))) ∨
       (du = true ∧
          gather p1 (unique natOrder (flatTris (unique oT (t1.map Tri.sort)))) = some R.p ∧
          flipTrisFl rnd R.p ((unique oT (t1.map Tri.sort)).map
            (renum (unique natOrder (flatTris (unique oT (t1.map Tri.sort)))))) = some R.t ∧
          R.jx = uniqueInverse natOrder (flatTris (unique oT (t1.map Tri.sort))))) := by
  unfold fixMeshFl at h
  cases hm : mergeFl rnd rint oP p ptol with
  | none => rw [hm] at h; simp at h
  | some r =>
    obtain ⟨p1, jx⟩ := r
    rw [hm] at h
    obtain ⟨snap, hs, hg, rfl⟩ := mergeFl_eq_some hm
    simp only at h
    split at h
    · simp at h
    · rename_i t1 ht1
      refine ⟨snap, p1, t1, hs, hg, ht1, ?_⟩
      split at h
      · rename_i hd
        refine .inr ⟨hd, ?_⟩
        split at h
        · simp at h
        · rename_i p2 hp2
          split at h
          · simp at h
          · rename_i t4 ht4
            simp only [Option.some.injEq] at h
            subst h
            exact ⟨hp2, ht4, rfl⟩
      · rename_i hd
        refine .inl ⟨by simpa using hd, ?_⟩
        split at h
        · simp at h
        · rename_i t4 ht4
          simp only [Option.some.injEq] at h
          subst h
          exact ⟨rfl, ht4, rfl⟩

/-- The stages of `fix_mesh` with `delete_unused=False`, put together. -/
theorem fixMeshFl_false {rnd : K → K} {rint : K → Int} {oP : RowOrder (Row K)} {oT : RowOrder Tri}
    {p p1 : List (K × K)} {t t1 t4 : List Tri} {ptol snap : K} (hs : snapSizeFl rnd p ptol = some snap)
    (hg : gather p (uniqueIndex oP (p.map (snapRowFl rnd rint snap))) = some p1)
    (ht : mapTris (fun i => (uniqueInverse oP (p.map (snapRowFl rnd rint snap)))[i]?) t = some t1)
    (hf : flipTrisFl rnd p1 (unique oT (t1.map Tri.sort)) = some t4) :
    fixMeshFl rnd rint oP oT p t ptol false = some ⟨p1, t4, uniqueInverse oP (p.map (snapRowFl rnd rint snap))⟩ := by
  unfold fixMeshFl mergeFl
  simp only [hs, hg, ht, hf]
  simp

/-- The stages of `fix_mesh` with `delete_unused=True`, put together. -/
theorem fixMeshFl_true {rnd : K → K} {rint : K → Int} {oP : RowOrder (Row K)} {oT : RowOrder Tri}
    {p p1 p2 : List (K × K)} {t t1 t4 : List Tri} {ptol snap : K} (hs : snapSizeFl rnd p ptol = some snap)
    (hg : gather p (uniqueIndex oP (p.map (snapRowFl rnd rint snap))) = some p1)
    (ht : mapTris (fun i => (uniqueInverse oP (p.map (snapRowFl rnd rint snap)))[i]?) t = some t1)
    (hd : gather p1 (unique natOrder (flatTris (unique oT (t1.map Tri.sort)))) = some p2)
    (hf : flipTrisFl rnd p2 ((unique oT (t1.map Tri.sort)).map (renum (unique natOrder (flatTris (unique oT (t1.map Tri.sort)))))) = some t4) :
    fixMeshFl rnd rint oP oT p t ptol true = some ⟨p2, t4, uniqueInverse natOrder (flatTris (unique oT (t1.map Tri.sort)))⟩ := by
  have hf' : flipTrisFl rnd p2 ((unique oT (t1.map Tri.sort)).map fun f : Tri =>
        (⟨(unique natOrder (flatTris (unique oT (t1.map Tri.sort)))).idxOf f.a,
          (unique natOrder (flatTris (unique oT (t1.map Tri.sort)))).idxOf f.b,
          (unique natOrder (flatTris (unique oT (t1.map Tri.sort)))).idxOf f.c⟩ : Tri)) = some t4 := hf
  unfold fixMeshFl mergeFl
  simp only [hs, hg, ht, hd, hf', if_true]

theorem fixMeshFl_facts {rnd : K → K} {rint : K → Int} {oP : RowOrder (Row K)} {oT : RowOrder Tri}
    {p : List (K × K)} {t : List Tri} {ptol : K} {du : Bool} {R : FixResult K}
    (h : fixMeshFl rnd rint oP oT p t ptol du = some R) :
    ∃ snap, snapSizeFl rnd p ptol = some snap ∧ FixFacts (snapRowFl rnd rint snap) p t R.p R.t ∧
      (du = true → ∀ v < R.p.length, ∃ f ∈ R.t, HasVertex f v) ∧
      (du = false → mergeFl rnd rint oP p ptol = some (R.p, R.jx)) ∧
      (∃ t3, ValidMesh R.p t3 ∧ flipTrisFl rnd R.p t3 = some R.t) := by
  obtain ⟨snap, p1, t1, h1, h2, h3, h4⟩ := fixMeshFl_stages h
  have hm := merge_facts (oT := oT) h2 h3
  refine ⟨snap, h1, ?_⟩
  rcases h4 with ⟨hd, hp, ht, hj⟩ | ⟨hd, hp, ht, hj⟩
  · subst hd
    rw [hp]
    refine ⟨perm_facts hm.1 (flipTrisFl_perm ht), fun h => by simp at h, fun _ => ?_, _, hm.1.valid, ht⟩
    unfold mergeFl
    simp only [h1, h2, hj]
  · subst hd
    have hdrop := drop_facts hm.1 hp
    refine ⟨perm_facts hdrop.1 (flipTrisFl_perm ht), ?_, fun h => by simp at h, _, hdrop.1.valid, ht⟩
    intro _ v hv
    obtain ⟨f, hf, hfv⟩ := hdrop.2 v hv
    obtain ⟨g, hg, hfg⟩ := forall₂_mem_left (flipTrisFl_perm ht) f hf
    refine ⟨g, hg, ?_⟩
    rw [hasVertex_iff_mem] at hfv ⊢
    exact hfg.mem_iff.2 hfv

theorem fixMeshFl_isSome (rnd : K → K) (rint : K → Int) (oP : RowOrder (Row K)) (oT : RowOrder Tri)
    {p : List (K × K)} {t : List Tri} (ptol : K) (du : Bool) (hp : p ≠ []) (hv : ValidMesh p t) :
    ∃ R, fixMeshFl rnd rint oP oT p t ptol du = some R := by
  obtain ⟨snap, hs⟩ : ∃ snap, snapSizeFl rnd p ptol = some snap := by
    cases p with
    | nil => exact absurd rfl hp
    | cons q r => exact ⟨_, rfl⟩
  obtain ⟨p1, h1⟩ := merge_isSome (snapRowFl rnd rint snap) oP p
  obtain ⟨t1, h2⟩ := mapTris_isSome (g := fun i => (uniqueInverse oP (p.map (snapRowFl rnd rint snap)))[i]?) (t := t)
    (fun f hf v hfv => inverse_isSome (hv f hf v hfv))
  have hm := (merge_facts (oT := oT) h1 h2).1
  cases du with
  | false =>
    obtain ⟨t4, h4⟩ := flipTrisFl_isSome (rnd := rnd) hm.valid
    exact ⟨_, fixMeshFl_false hs h1 h2 h4⟩
  | true =>
    obtain ⟨p2, h3⟩ := gather_isSome (l := p1) (ix := unique natOrder (flatTris (unique oT (t1.map Tri.sort))))
      (by
        intro i hi
        obtain ⟨f, hf, hfv⟩ := (mem_flatTris _ _).1 ((mem_unique _ _ _).1 hi)
        exact hm.valid f hf i hfv)
    have hd := (drop_facts hm h3).1
    obtain ⟨t4, h4⟩ := flipTrisFl_isSome (rnd := rnd) hd.valid
    exact ⟨_, fixMeshFl_true hs h1 h2 h3 h4⟩

/-- The size of the snapping lattice is determined by the extent. -/
theorem snapSizeFl_extent {rnd : K → K} (hR : Rounding rnd) {p : List (K × K)} {ptol e : K} (he : IsExtent p e) :
    snapSizeFl rnd p ptol = some (rnd (rnd e * ptol)) := by
  cases p with
  | nil => obtain ⟨q, hq, -⟩ := he.1; simp at hq
  | cons q r =>
    have hm : max (spread q.1 (r.map Prod.fst)) (spread q.2 (r.map Prod.snd)) = e := by
      have := snapSize_eq one_pos he (snap := max (spread q.1 (r.map Prod.fst)) (spread q.2 (r.map Prod.snd)) * 1) rfl
      simpa using this
    simp only [snapSizeFl]
    rw [← hR.mono.map_max, hm]

/-- Points with the same snapped position are close. -/
theorem near_of_keyFl {rnd : K → K} {rint : K → Int} {u M : K} (hR : Rounding rnd) (hr : RelError rnd u) (h0 : 0 ≤ u) (hu : u ≤ 1 / 2)
    (hi : IsRounding rint) {p : List (K × K)} {ptol e snap : K} (hpt : 0 < ptol) (he : IsExtent p e)
    (hM : ∀ q ∈ p, |q.1| ≤ M ∧ |q.2| ≤ M) (hs : snapSizeFl rnd p ptol = some snap) {q q' : K × K} (hm : q ∈ p) (hm' : q' ∈ p)
    (key : snapRowFl rnd rint snap q = snapRowFl rnd rint snap q') : Within ((1 + u) ^ 3 * (e * ptol) + 5 * u * M) q q' := by
  obtain ⟨b1, b2⟩ := snapSizeFl_bounds hR hr h0 (by linarith) hpt he hs
  have he0 := extent_nonneg he
  rcases he0.eq_or_lt with hz | hpos
  · subst hz
    rw [extent_zero he hm hm']
    have hM0 : 0 ≤ M := (abs_nonneg _).trans (hM q' hm').1
    constructor <;> rw [sub_self, abs_zero] <;> positivity
  · have hs0 : 0 < snap := lt_of_lt_of_le (mul_pos (pow_pos (by linarith) 2) (mul_pos hpos hpt)) b1
    obtain ⟨c1, c2⟩ := close_of_keyFl hr h0 hu hi hs0 (hM q hm) (hM q' hm') key
    have : (1 + u) * snap ≤ (1 + u) ^ 3 * (e * ptol) := by
      calc (1 + u) * snap ≤ (1 + u) * ((1 + u) ^ 2 * (e * ptol)) := mul_le_mul_of_nonneg_left b2 (by linarith)
        _ = _ := by ring
    exact ⟨by linarith, by linarith⟩

/-! ### Repeated calls -/

theorem flipTrisFl_map {rnd : K → K} {p : List (K × K)} : ∀ {t t' : List Tri}, flipTrisFl rnd p t = some t' → t'.map some = t.map (flipTriFl rnd p) := by
  intro t t' h
  have := flipTrisFl_forall₂ h
  clear h
  induction this with
  | nil => rfl
  | cons h _ ih => rw [List.map_cons, List.map_cons, ih, h]

/-- The orientation step commutes with rearranging the rows. -/
theorem flipTrisFl_rearrange {rnd : K → K} {p : List (K × K)} {t s t' s' : List Tri} (hp : t.Perm s) (ht : flipTrisFl rnd p t = some t')
    (hs : flipTrisFl rnd p s = some s') : t'.Perm s' := by
  have := hp.map (flipTriFl rnd p)
  rw [← flipTrisFl_map ht, ← flipTrisFl_map hs] at this
  exact (List.map_perm_map_iff (Option.some_injective _)).1 this

/-- Choosing at increasing places keeps the order. -/
theorem gather_pairwise {α : Type} {r : α → α → Prop} {l l' : List α} {ix : List Nat} (h : gather l ix = some l') (hl : l.Pairwise r)
    (hx : ix.Pairwise (· < ·)) : l'.Pairwise r := by
  rw [List.pairwise_iff_getElem] at hl hx ⊢
  intro i j hi hj hij
  have hlen := gather_length h
  have gi := gather_getElem? h (List.getElem?_eq_getElem (by omega : i < ix.length))
  have gj := gather_getElem? h (List.getElem?_eq_getElem (by omega : j < ix.length))
  have hlt := hx i j (by omega) (by omega) hij
  have vi := gather_valid h _ (List.getElem_mem (by omega : i < ix.length))
  have vj := gather_valid h _ (List.getElem_mem (by omega : j < ix.length))
  rw [List.getElem?_eq_getElem hi, List.getElem?_eq_getElem vi, Option.some.injEq] at gi
  rw [List.getElem?_eq_getElem hj, List.getElem?_eq_getElem vj, Option.some.injEq] at gj
  rw [gi, gj]
  exact hl _ _ vi vj hlt

theorem sort_map_of_perm {t t' : List Tri} (hs : ∀ f ∈ t, f.a ≤ f.b ∧ f.b ≤ f.c)
    (h : List.Forall₂ (fun f f' : Tri => f'.toList.Perm f.toList) t t') : t'.map Tri.sort = t := by
  induction h with
  | nil => rfl
  | cons hf _ ih =>
    rw [List.map_cons, ih fun f hf => hs f (by simp [hf]), Tri.sort_eq_of_perm (hs _ (by simp)) hf]

theorem unique_lt (l : List Nat) : (unique natOrder l).Pairwise (· < ·) := by
  have h1 := unique_sorted natOrder l
  have h2 : (unique natOrder l).Pairwise (· ≠ ·) := unique_nodup natOrder l
  refine (h1.and h2).imp ?_
  rintro a b ⟨hab, hne⟩
  have : a ≤ b := by simpa [natOrder] using hab
  omega

/-- Renumbering by the sorted list of the vertices in use keeps the rows sorted. -/
theorem renum_sorted {ix : List Nat} (hx : ix.Pairwise (· < ·)) {f : Tri} (hf : f.a ≤ f.b ∧ f.b ≤ f.c) (hm : ∀ v, HasVertex f v → v ∈ ix) :
    (renum ix f).a ≤ (renum ix f).b ∧ (renum ix f).b ≤ (renum ix f).c := by
  have mono : ∀ a b, a ∈ ix → b ∈ ix → a ≤ b → ix.idxOf a ≤ ix.idxOf b := by
    intro a b ha hb hab
    by_contra hc
    have hlt : ix.idxOf b < ix.idxOf a := by omega
    have := List.pairwise_iff_getElem.1 hx _ _ (idxOf_lt hb) (idxOf_lt ha) hlt
    simp only [List.getElem_idxOf] at this
    omega
  exact ⟨mono _ _ (hm _ (.inl rfl)) (hm _ (.inr (.inl rfl))) hf.1, mono _ _ (hm _ (.inr (.inl rfl))) (hm _ (.inr (.inr rfl))) hf.2⟩

/-- `fix_mesh` of vertices that are in the order of their snapped positions, which are all different: nothing is merged. -/
theorem merge_sorted {key : K × K → Row K} {o : RowOrder (Row K)} {p : List (K × K)} (hn : (p.map key).Nodup)
    (hs : (p.map key).Pairwise fun a b => o.le a b = true) :
    gather p (uniqueIndex o (p.map key)) = some p ∧ uniqueInverse o (p.map key) = List.range p.length := by
  have e := unique_eq_self o hn hs
  unfold uniqueIndex uniqueInverse
  rw [e, map_idxOf_self hn, List.length_map]
  exact ⟨gather_range p, rfl⟩

/-- The vertices that `fix_mesh` returns are in the order of their snapped positions. -/
theorem fixMeshFl_order {rnd : K → K} {rint : K → Int} {oP : RowOrder (Row K)} {oT : RowOrder Tri}
    {p : List (K × K)} {t : List Tri} {ptol snap : K} {du : Bool} {R : FixResult K} (hs : snapSizeFl rnd p ptol = some snap)
    (h : fixMeshFl rnd rint oP oT p t ptol du = some R) :
    (R.p.map (snapRowFl rnd rint snap)).Pairwise fun a b => oP.le a b = true := by
  obtain ⟨snap', p1, t1, h1, h2, h3, h4⟩ := fixMeshFl_stages h
  obtain rfl : snap = snap' := Option.some.inj (hs.symm.trans h1)
  have hk : (p1.map (snapRowFl rnd rint snap)).Pairwise fun a b => oP.le a b = true := by
    rw [merged_keys h2]; exact unique_sorted _ _
  rcases h4 with ⟨hd, hp, ht, hj⟩ | ⟨hd, hp, ht, hj⟩
  · rw [hp]; exact hk
  · rw [List.pairwise_map] at hk ⊢
    exact gather_pairwise hp hk (unique_lt _)

/-- The rows that `fix_mesh` returns, sorted, are different; without `delete_unused` they are in the order of `unique_rows`. -/
theorem fixMeshFl_rows {rnd : K → K} {rint : K → Int} {oP : RowOrder (Row K)} {oT : RowOrder Tri}
    {p : List (K × K)} {t : List Tri} {ptol : K} {du : Bool} {R : FixResult K}
    (h : fixMeshFl rnd rint oP oT p t ptol du = some R) :
    (R.t.map Tri.sort).Nodup ∧ flipTrisFl rnd R.p (R.t.map Tri.sort) = some R.t ∧
      (du = false → unique oT (R.t.map Tri.sort) = R.t.map Tri.sort) := by
  obtain ⟨snap, p1, t1, h1, h2, h3, h4⟩ := fixMeshFl_stages h
  have hm := merge_facts (oT := oT) h2 h3
  rcases h4 with ⟨hd, hp, ht, hj⟩ | ⟨hd, hp, ht, hj⟩
  · have e := sort_map_of_perm hm.2 (flipTrisFl_perm ht)
    rw [e, hp]
    exact ⟨unique_nodup _ _, ht, fun _ => unique_eq_self _ (unique_nodup _ _) (unique_sorted _ _)⟩
  · have hsort : ∀ f ∈ (unique oT (t1.map Tri.sort)).map (renum (unique natOrder (flatTris (unique oT (t1.map Tri.sort))))), f.a ≤ f.b ∧ f.b ≤ f.c := by
      intro g hg
      obtain ⟨f, hf, rfl⟩ := List.mem_map.1 hg
      exact renum_sorted (unique_lt _) (hm.2 f hf) fun v hv => (mem_unique _ _ _).2 ((mem_flatTris _ _).2 ⟨f, hf, hv⟩)
    have e := sort_map_of_perm hsort (flipTrisFl_perm ht)
    rw [e]
    refine ⟨?_, ht, fun h' => by rw [hd] at h'; simp at h'⟩
    exact (drop_facts hm.1 hp).1.distinct.imp fun hne he => hne (by rw [he]; exact List.Perm.refl _)

/-- `fix_mesh` without `delete_unused`, where nothing is to be merged. -/
theorem again_false {rnd : K → K} {rint : K → Int} {oP : RowOrder (Row K)} {oT : RowOrder Tri} {p : List (K × K)} {t t' : List Tri} {ptol snap : K}
    (hs : snapSizeFl rnd p ptol = some snap) (hn : (p.map (snapRowFl rnd rint snap)).Nodup)
    (ho : (p.map (snapRowFl rnd rint snap)).Pairwise fun a b => oP.le a b = true) (hv : ValidMesh p t)
    (hf : flipTrisFl rnd p (unique oT (t.map Tri.sort)) = some t') :
    fixMeshFl rnd rint oP oT p t ptol false = some ⟨p, t', List.range p.length⟩ := by
  obtain ⟨hg, hi⟩ := merge_sorted hn ho
  have hm : mapTris (fun i => (uniqueInverse oP (p.map (snapRowFl rnd rint snap)))[i]?) t = some t := by
    rw [hi]; exact mapTris_range hv
  rw [fixMeshFl_false hs hg hm hf, hi]

/-- `fix_mesh` with `delete_unused`, where nothing is to be merged and nothing is unused. -/
theorem again_true {rnd : K → K} {rint : K → Int} {oP : RowOrder (Row K)} {oT : RowOrder Tri} {p : List (K × K)} {t t' : List Tri} {ptol snap : K}
    (hs : snapSizeFl rnd p ptol = some snap) (hn : (p.map (snapRowFl rnd rint snap)).Nodup)
    (ho : (p.map (snapRowFl rnd rint snap)).Pairwise fun a b => oP.le a b = true) (hv : ValidMesh p t) (hu : ∀ v < p.length, ∃ f ∈ t, HasVertex f v)
    (hf : flipTrisFl rnd p (unique oT (t.map Tri.sort)) = some t') :
    fixMeshFl rnd rint oP oT p t ptol true = some ⟨p, t', uniqueInverse natOrder (flatTris (unique oT (t.map Tri.sort)))⟩ := by
  obtain ⟨hg, hi⟩ := merge_sorted hn ho
  have hm : mapTris (fun i => (uniqueInverse oP (p.map (snapRowFl rnd rint snap)))[i]?) t = some t := by
    rw [hi]; exact mapTris_range hv
  have hv2 : ∀ f ∈ unique oT (t.map Tri.sort), ∀ v, HasVertex f v → v < p.length := by
    intro f hf v hfv
    obtain ⟨g, hg, rfl⟩ := List.mem_map.1 ((mem_unique _ _ _).1 hf)
    rw [hasVertex_iff_mem] at hfv
    exact hv g hg v ((hasVertex_iff_mem g v).2 (g.sort_perm.mem_iff.1 hfv))
  have hr : unique natOrder (flatTris (unique oT (t.map Tri.sort))) = List.range p.length := by
    refine unique_flat_range hv2 fun v hvl => ?_
    obtain ⟨f, hf, hfv⟩ := hu v hvl
    refine ⟨f.sort, (mem_unique _ _ _).2 (List.mem_map_of_mem hf), ?_⟩
    rw [hasVertex_iff_mem] at hfv ⊢
    exact f.sort_perm.mem_iff.2 hfv
  have hre : (unique oT (t.map Tri.sort)).map (renum (List.range p.length)) = unique oT (t.map Tri.sort) := by
    conv_rhs => rw [← List.map_id (unique oT (t.map Tri.sort))]
    exact List.map_congr_left fun f hf => renum_range (hv2 f hf)
  exact fixMeshFl_true hs hg hm (by rw [hr]; exact gather_range p) (by rw [hr, hre]; exact hf)

end
end OM
