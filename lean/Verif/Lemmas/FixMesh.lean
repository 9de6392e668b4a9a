import Verif.Model.FixMesh
import Verif.Spec.Geometry
import Verif.Lemmas.Unique
import Mathlib.Tactic.Ring
import Mathlib.Tactic.Linarith
import Mathlib.Tactic.FieldSimp
/-! Facts about the model of `oceanmesh/fix_mesh.py`. -/
set_option linter.unusedSectionVars false
namespace OM
open Spec

theorem gather_eq_some {α : Type} {l : List α} {ix : List Nat} {r : List α} :
    gather l ix = some r ↔ r.map some = ix.map (fun i => l[i]?) := by
  induction ix generalizing r with
  | nil => simp [gather]
  | cons i ix ih =>
    simp only [gather, List.map_cons]
    cases r with
    | nil =>
      split
      · simp
      · simp
    | cons y r =>
      simp only [List.map_cons, List.cons.injEq]
      rw [← ih]
      split
      · rename_i x s h1 h2
        rw [h1, h2]
        simp only [Option.some.injEq, List.cons.injEq]
        exact and_congr eq_comm Iff.rfl |>.trans (by constructor <;> (rintro ⟨a, b⟩; exact ⟨a, b⟩))
      · rename_i h
        constructor
        · intro h'; simp at h'
        · rintro ⟨h1, h2⟩
          exact absurd h2 (h _ _ h1.symm)

theorem gather_isSome {α : Type} {l : List α} {ix : List Nat} (h : ∀ i ∈ ix, i < l.length) :
    ∃ r, gather l ix = some r := by
  induction ix with
  | nil => exact ⟨[], rfl⟩
  | cons i ix ih =>
    obtain ⟨r, hr⟩ := ih (fun j hj => h j (List.mem_cons_of_mem _ hj))
    exact ⟨l[i]'(h i (by simp)) :: r, by simp [gather, hr, h i (by simp)]⟩

theorem gather_length {α : Type} {l : List α} {ix : List Nat} {r : List α} (h : gather l ix = some r) :
    r.length = ix.length := by
  have := congrArg List.length (gather_eq_some.1 h)
  simpa using this

theorem gather_getElem? {α : Type} {l : List α} {ix : List Nat} {r : List α} (h : gather l ix = some r)
    {k i : Nat} (hk : ix[k]? = some i) : r[k]? = l[i]? := by
  have h1 := congrArg (fun m => m[k]?) (gather_eq_some.1 h)
  simp only [List.getElem?_map, hk, Option.map_some] at h1
  cases hr : r[k]? with
  | none => rw [hr] at h1; simp at h1
  | some x => rw [hr] at h1; simpa using h1

theorem gather_subset {α : Type} {l : List α} {ix : List Nat} {r : List α} (h : gather l ix = some r) :
    ∀ x ∈ r, x ∈ l := by
  intro x hx
  have : some x ∈ r.map some := List.mem_map_of_mem hx
  rw [gather_eq_some.1 h] at this
  obtain ⟨i, _, hi⟩ := List.mem_map.1 this
  exact List.mem_of_getElem? hi

theorem gather_valid {α : Type} {l : List α} {ix : List Nat} {r : List α} (h : gather l ix = some r) :
    ∀ i ∈ ix, i < l.length := by
  intro i hi
  have : l[i]? ∈ ix.map (fun i => l[i]?) := List.mem_map_of_mem hi
  rw [← gather_eq_some.1 h] at this
  obtain ⟨x, _, hx⟩ := List.mem_map.1 this
  exact (List.getElem?_eq_some_iff.1 hx.symm).1

/-! ### Rows -/

theorem Tri.mapM_eq_some {g : Nat → Option Nat} {f f' : Tri} :
    f.mapM g = some f' ↔ g f.a = some f'.a ∧ g f.b = some f'.b ∧ g f.c = some f'.c := by
  unfold Tri.mapM
  cases f' 
  split
  · rename_i a b c h1 h2 h3
    rw [h1, h2, h3]; simp
  · rename_i h
    constructor
    · intro h'; simp at h'
    · rintro ⟨h1, h2, h3⟩; exact absurd h3 (h _ _ _ h1 h2)

theorem mapTris_forall₂ {g : Nat → Option Nat} {t t' : List Tri} (h : mapTris g t = some t') :
    List.Forall₂ (fun f f' => f.mapM g = some f') t t' := by
  induction t generalizing t' with
  | nil => simp [mapTris] at h; subst h; exact List.Forall₂.nil
  | cons f t ih =>
    simp only [mapTris] at h
    split at h
    · rename_i f' s h1 h2
      simp at h; subst h
      exact List.Forall₂.cons h1 (ih h2)
    · simp at h

theorem mapTris_isSome {g : Nat → Option Nat} {t : List Tri}
    (h : ∀ f ∈ t, ∀ v, HasVertex f v → (g v).isSome) : ∃ t', mapTris g t = some t' := by
  induction t with
  | nil => exact ⟨[], rfl⟩
  | cons f t ih =>
    obtain ⟨t', ht'⟩ := ih (fun f hf => h f (List.mem_cons_of_mem _ hf))
    obtain ⟨a, ha⟩ := Option.isSome_iff_exists.1 (h f (by simp) f.a (Or.inl rfl))
    obtain ⟨b, hb⟩ := Option.isSome_iff_exists.1 (h f (by simp) f.b (Or.inr (Or.inl rfl)))
    obtain ⟨c, hc⟩ := Option.isSome_iff_exists.1 (h f (by simp) f.c (Or.inr (Or.inr rfl)))
    exact ⟨⟨a, b, c⟩ :: t', by simp [mapTris, Tri.mapM, ha, hb, hc, ht']⟩

theorem Tri.sort_perm (f : Tri) : f.sort.toList.Perm f.toList := by
  obtain ⟨a, b, c⟩ := f
  have key : (Tri.sort ⟨a, b, c⟩).toList ∈
      [[a, b, c], [a, c, b], [b, a, c], [b, c, a], [c, a, b], [c, b, a]] := by
    simp only [Tri.sort, Tri.toList, List.mem_cons, List.cons.injEq, and_true, List.not_mem_nil, or_false]
    omega
  simp only [List.mem_cons, List.not_mem_nil, or_false] at key
  rcases key with h | h | h | h | h | h <;> rw [h] <;>
    (rw [List.perm_iff_count]; intro x; simp only [Tri.toList, List.count_cons, List.count_nil]; try omega)

theorem Tri.sort_sorted (f : Tri) : f.sort.a ≤ f.sort.b ∧ f.sort.b ≤ f.sort.c := by
  simp only [Tri.sort]; omega

theorem hasVertex_iff_mem (f : Tri) (v : Nat) : HasVertex f v ↔ v ∈ f.toList := by
  simp [HasVertex, Tri.toList]

/-- Sorted rows with the same corners are equal. -/
theorem sorted_tri_ext {f g : Tri} (hf : f.a ≤ f.b ∧ f.b ≤ f.c) (hg : g.a ≤ g.b ∧ g.b ≤ g.c)
    (h : f.toList.Perm g.toList) : f = g := by
  have h1 : f.toList.Pairwise (· ≤ ·) := by simp [Tri.toList]; omega
  have h2 : g.toList.Pairwise (· ≤ ·) := by simp [Tri.toList]; omega
  have := h.eq_of_pairwise (fun a b _ _ hab hba => Nat.le_antisymm hab hba) h1 h2
  simp only [Tri.toList, List.cons.injEq, and_true] at this
  obtain ⟨ha, hb, hc⟩ := this
  cases f; cases g; simp_all

theorem mem_flatTris (t : List Tri) (v : Nat) : v ∈ flatTris t ↔ ∃ f ∈ t, HasVertex f v := by
  simp only [flatTris, List.mem_flatMap, hasVertex_iff_mem]

section
variable {α : Type} [DecidableEq α]

theorem idxOf_getElem? {l : List α} {a : α} (h : a ∈ l) : l[l.idxOf a]? = some a := by
  rw [List.getElem?_eq_getElem (List.idxOf_lt_length_of_mem h)]
  simp

theorem idxOf_lt {l : List α} {a : α} (h : a ∈ l) : l.idxOf a < l.length := List.idxOf_lt_length_of_mem h

theorem idxOf_inj_of_mem {l : List α} {a b : α} (ha : a ∈ l) (h : l.idxOf a = l.idxOf b) (hb : b ∈ l) : a = b := by
  have h1 := idxOf_getElem? ha
  rw [h, idxOf_getElem? hb] at h1
  simpa using h1.symm

end

section
variable {K : Type} [Field K] [LinearOrder K]

theorem faceVol_eq_some {p : List (K × K)} {f : Tri} {v : K} :
    faceVol p f = some v ↔ ∃ x y z, p[f.a]? = some x ∧ p[f.b]? = some y ∧ p[f.c]? = some z ∧ triVol x y z = v := by
  unfold faceVol
  split
  · rename_i x y z h1 h2 h3
    rw [h1, h2, h3]
    simp
  · rename_i h
    constructor
    · intro h'; simp at h'
    · rintro ⟨x, y, z, h1, h2, h3, _⟩; exact absurd h3 (h x y z h1 h2)

theorem faceVol_isSome {p : List (K × K)} {f : Tri} (h : ∀ v, HasVertex f v → v < p.length) :
    ∃ v, faceVol p f = some v := by
  refine ⟨triVol (p[f.a]'(h _ (Or.inl rfl))) (p[f.b]'(h _ (Or.inr (Or.inl rfl))))
    (p[f.c]'(h _ (Or.inr (Or.inr rfl)))), ?_⟩
  rw [faceVol_eq_some]
  exact ⟨_, _, _, List.getElem?_eq_getElem _, List.getElem?_eq_getElem _, List.getElem?_eq_getElem _, rfl⟩

theorem flipTris_forall₂ {p : List (K × K)} {t t' : List Tri} (h : flipTris p t = some t') :
    List.Forall₂ (fun f f' => flipTri p f = some f') t t' := by
  induction t generalizing t' with
  | nil => simp [flipTris] at h; subst h; exact List.Forall₂.nil
  | cons f t ih =>
    simp only [flipTris] at h
    split at h
    · rename_i f' s h1 h2
      simp at h; subst h
      exact List.Forall₂.cons h1 (ih h2)
    · simp at h

theorem flipTris_isSome {p : List (K × K)} {t : List Tri} (h : ValidMesh p t) : ∃ t', flipTris p t = some t' := by
  induction t with
  | nil => exact ⟨[], rfl⟩
  | cons f t ih =>
    obtain ⟨t', ht'⟩ := ih (fun f hf => h f (List.mem_cons_of_mem _ hf))
    obtain ⟨v, hv⟩ := faceVol_isSome (h f (by simp))
    exact ⟨(if v < 0 then ⟨f.b, f.a, f.c⟩ else f) :: t', by simp [flipTris, flipTri, hv, ht']⟩

theorem flipTri_perm {p : List (K × K)} {f f' : Tri} (h : flipTri p f = some f') : f'.toList.Perm f.toList := by
  unfold flipTri at h
  split at h
  · simp at h
  · simp at h
    subst h
    split
    · exact List.Perm.swap _ _ _
    · exact List.Perm.refl _

theorem triVol_eq_signedArea (x y z : K × K) : triVol x y z = signedArea x y z := by
  unfold triVol signedArea
  ring

theorem signedArea_swap (x y z : K × K) : signedArea y x z = - signedArea x y z := by
  unfold signedArea; ring


/-- The renumbering of one row (`oceanmesh/fix_mesh.py:66-67`). -/
def renum (pix : List Nat) (f : Tri) : Tri := ⟨pix.idxOf f.a, pix.idxOf f.b, pix.idxOf f.c⟩

/-- The stages of a successful `fix_mesh`. -/
theorem fixMesh_stages {rnd : K → Int} {oP : RowOrder (Row K)} {oT : RowOrder Tri}
    {p : List (K × K)} {t : List Tri} {ptol : K} {du : Bool} {R : FixResult K}
    (h : fixMesh rnd oP oT p t ptol du = some R) :
    ∃ snap p1 t1, snapSize p ptol = some snap ∧
      gather p (uniqueIndex oP (p.map (snapRow rnd snap))) = some p1 ∧
      mapTris (fun i => (uniqueInverse oP (p.map (snapRow rnd snap)))[i]?) t = some t1 ∧
      ((du = false ∧ R.p = p1 ∧ flipTris p1 (unique oT (t1.map Tri.sort)) = some R.t ∧
          R.jx = uniqueInverse oP (p.map (snapRow rnd snap))) ∨
       (du = true ∧
          gather p1 (unique natOrder (flatTris (unique oT (t1.map Tri.sort)))) = some R.p ∧
          flipTris R.p ((unique oT (t1.map Tri.sort)).map
            (renum (unique natOrder (flatTris (unique oT (t1.map Tri.sort)))))) = some R.t ∧
          R.jx = uniqueInverse natOrder (flatTris (unique oT (t1.map Tri.sort))))) := by
  unfold fixMesh at h
  simp only [Option.bind_eq_bind, Option.bind_eq_some_iff] at h
  obtain ⟨snap, h1, p1, h2, t1, h3, h4⟩ := h
  refine ⟨snap, p1, t1, h1, h2, h3, ?_⟩
  split at h4
  · rename_i hd
    simp only [Option.bind_eq_some_iff] at h4
    obtain ⟨p2, h5, t4, h6, h7⟩ := h4
    cases h7
    exact Or.inr ⟨hd, h5, h6, rfl⟩
  · rename_i hd
    simp only [Option.bind_eq_some_iff] at h4
    obtain ⟨t4, h6, h7⟩ := h4
    cases h7
    exact Or.inl ⟨by simpa using hd, rfl, h6, rfl⟩

/-- After merging, the snapped positions of the kept points are the list of unique snapped positions. -/
theorem merged_keys {key : K × K → Row K} {o : RowOrder (Row K)} {p p1 : List (K × K)}
    (h : gather p (uniqueIndex o (p.map key)) = some p1) : p1.map key = unique o (p.map key) := by
  have h1 := gather_eq_some.1 h
  have h2 := congrArg (List.map (Option.map key)) h1
  have h3 : (p1.map key).map some = (unique o (p.map key)).map some := by
    rw [uniqueIndex, List.map_map, List.map_map, List.map_map] at h2
    rw [List.map_map]
    refine Eq.trans h2 ?_
    apply List.map_congr_left
    intro k hk
    have hk' := (mem_unique o _ k).1 hk
    have h4 := idxOf_getElem? hk'
    rw [List.getElem?_map] at h4
    simpa using h4
  exact List.map_injective_iff.2 (Option.some_injective _) h3

theorem merge_isSome (key : K × K → Row K) (o : RowOrder (Row K)) (p : List (K × K)) :
    ∃ p1, gather p (uniqueIndex o (p.map key)) = some p1 := by
  apply gather_isSome
  intro i hi
  obtain ⟨k, hk, rfl⟩ := List.mem_map.1 hi
  have := idxOf_lt ((mem_unique o _ k).1 hk)
  simpa using this

/-- The vertex map of the merge sends each vertex to one with the same snapped position. -/
theorem merge_inverse {key : K × K → Row K} {o : RowOrder (Row K)} {p p1 : List (K × K)}
    (h : gather p (uniqueIndex o (p.map key)) = some p1) {i j : Nat}
    (hij : (uniqueInverse o (p.map key))[i]? = some j) :
    j < p1.length ∧ (p1[j]?).map key = (p[i]?).map key := by
  have hk := merged_keys h
  unfold uniqueInverse at hij
  rw [List.getElem?_map, List.getElem?_map] at hij
  cases hp : p[i]? with
  | none => rw [hp] at hij; simp at hij
  | some q =>
    rw [hp] at hij
    simp only [Option.map_some, Option.some.injEq] at hij
    have hm : key q ∈ unique o (p.map key) :=
      (mem_unique o _ _).2 (List.mem_map_of_mem (List.mem_of_getElem? hp))
    have h1 := idxOf_getElem? hm
    rw [hij] at h1
    have hlt := idxOf_lt hm
    rw [hij, ← hk, List.length_map] at hlt
    refine ⟨hlt, ?_⟩
    rw [← hk, List.getElem?_map] at h1
    simpa using h1

theorem inverse_isSome {key : K × K → Row K} {o : RowOrder (Row K)} {p : List (K × K)} {i : Nat}
    (hi : i < p.length) : ((uniqueInverse o (p.map key))[i]?).isSome := by
  unfold uniqueInverse
  simp [hi]

/-- Corner keys: the snapped positions of the corners of a row. -/
def cornerKeys (key : K × K → Row K) (p : List (K × K)) (f : Tri) : List (Option (Row K)) :=
  f.toList.map fun i => (p[i]?).map key

theorem forall₂_mem_right {α β : Type} {R : α → β → Prop} {l : List α} {m : List β} (h : List.Forall₂ R l m) :
    ∀ y ∈ m, ∃ x ∈ l, R x y := by
  induction h with
  | nil => simp
  | cons hr _ ih =>
    intro y hy
    rcases List.mem_cons.1 hy with rfl | hy
    · exact ⟨_, by simp, hr⟩
    · obtain ⟨x, hx, hxy⟩ := ih y hy
      exact ⟨x, List.mem_cons_of_mem _ hx, hxy⟩

theorem forall₂_mem_left {α β : Type} {R : α → β → Prop} {l : List α} {m : List β} (h : List.Forall₂ R l m) :
    ∀ x ∈ l, ∃ y ∈ m, R x y := by
  induction h with
  | nil => simp
  | cons hr _ ih =>
    intro x hx
    rcases List.mem_cons.1 hx with rfl | hx
    · exact ⟨_, by simp, hr⟩
    · obtain ⟨y, hy, hxy⟩ := ih x hx
      exact ⟨y, List.mem_cons_of_mem _ hy, hxy⟩

theorem forall₂_pairwise {α β : Type} {R : α → β → Prop} {S : α → α → Prop} {S' : β → β → Prop}
    (hS : ∀ a b c d, R a b → R c d → S a c → S' b d)
    {l : List α} {m : List β} (h : List.Forall₂ R l m) (hl : l.Pairwise S) : m.Pairwise S' := by
  induction h with
  | nil => simp
  | cons hr hrest ih =>
    rw [List.pairwise_cons] at hl ⊢
    refine ⟨?_, ih hl.2⟩
    intro y hy
    obtain ⟨x, hx, hxy⟩ := forall₂_mem_right hrest y hy
    exact hS _ _ _ _ hr hxy (hl.1 x hx)

/-- What the final table of `fix_mesh` looks like: a vertex list whose snapped positions are pairwise different, rows
that are valid, represent the input rows, and have different corner sets. -/
structure FixFacts (key : K × K → Row K) (p : List (K × K)) (t : List Tri) (p' : List (K × K))
    (t' : List Tri) : Prop where
  keysNodup : (p'.map key).Nodup
  points : ∀ q ∈ p', q ∈ p
  valid : ValidMesh p' t'
  distinct : t'.Pairwise fun f g => ¬ SameVertices f g
  fwd : ∀ f ∈ t, ∃ g ∈ t', (cornerKeys key p' g).Perm (cornerKeys key p f)
  bwd : ∀ g ∈ t', ∃ f ∈ t, (cornerKeys key p' g).Perm (cornerKeys key p f)
  lenT : t'.length ≤ t.length
  lenP : p'.length ≤ p.length

/-- The merge and the removal of duplicate rows. -/
theorem merge_facts {key : K × K → Row K} {oP : RowOrder (Row K)} {oT : RowOrder Tri}
    {p p1 : List (K × K)} {t t1 : List Tri} (h1 : gather p (uniqueIndex oP (p.map key)) = some p1)
    (h2 : mapTris (fun i => (uniqueInverse oP (p.map key))[i]?) t = some t1) :
    FixFacts key p t p1 (unique oT (t1.map Tri.sort)) ∧
      ∀ f ∈ unique oT (t1.map Tri.sort), f.a ≤ f.b ∧ f.b ≤ f.c := by
  have hk := merged_keys h1
  have hF := mapTris_forall₂ h2
  have himg : ∀ f f', f.mapM (fun i => (uniqueInverse oP (p.map key))[i]?) = some f' →
      (∀ v, HasVertex f' v → v < p1.length) ∧ cornerKeys key p1 f' = cornerKeys key p f := by
    intro f f' hf
    obtain ⟨ha, hb, hc⟩ := Tri.mapM_eq_some.1 hf
    have ha := merge_inverse h1 ha
    have hb := merge_inverse h1 hb
    have hc := merge_inverse h1 hc
    refine ⟨?_, ?_⟩
    · rintro v (rfl | rfl | rfl)
      · exact ha.1
      · exact hb.1
      · exact hc.1
    · simp only [cornerKeys, Tri.toList, List.map_cons, List.map_nil, ha.2, hb.2, hc.2]
  have hmem : ∀ g, g ∈ unique oT (t1.map Tri.sort) ↔ ∃ f' ∈ t1, f'.sort = g := by
    intro g; rw [mem_unique, List.mem_map]
  have hsorted : ∀ f ∈ unique oT (t1.map Tri.sort), f.a ≤ f.b ∧ f.b ≤ f.c := by
    intro f hf
    obtain ⟨f', _, rfl⟩ := (hmem f).1 hf
    exact f'.sort_sorted
  refine ⟨⟨?_, gather_subset h1, ?_, ?_, ?_, ?_, ?_, ?_⟩, hsorted⟩
  · rw [hk]; exact unique_nodup _ _
  · intro g hg v hv
    obtain ⟨f', hf', rfl⟩ := (hmem g).1 hg
    obtain ⟨f, _, hff⟩ := forall₂_mem_right hF f' hf'
    apply (himg f f' hff).1
    rw [hasVertex_iff_mem] at hv ⊢
    exact f'.sort_perm.mem_iff.1 hv
  · have hn : (unique oT (t1.map Tri.sort)).Nodup := unique_nodup _ _
    refine List.Pairwise.imp_of_mem ?_ hn
    intro f g hf hg hne hsame
    exact hne (sorted_tri_ext (hsorted f hf) (hsorted g hg) hsame)
  · intro f hf
    obtain ⟨f', hf', hff⟩ := forall₂_mem_left hF f hf
    refine ⟨f'.sort, (hmem _).2 ⟨f', hf', rfl⟩, ?_⟩
    rw [← (himg f f' hff).2]
    exact f'.sort_perm.map _
  · intro g hg
    obtain ⟨f', hf', rfl⟩ := (hmem g).1 hg
    obtain ⟨f, hf, hff⟩ := forall₂_mem_right hF f' hf'
    refine ⟨f, hf, ?_⟩
    rw [← (himg f f' hff).2]
    exact f'.sort_perm.map _
  · have := unique_length_le oT (t1.map Tri.sort)
    rw [List.length_map, ← hF.length_eq] at this
    exact this
  · have := unique_length_le oP (p.map key)
    rw [← hk] at this
    simpa using this

/-- Dropping the unused vertices. -/
theorem drop_facts {key : K × K → Row K} {p p1 p2 : List (K × K)} {t t2 : List Tri}
    (hfacts : FixFacts key p t p1 t2) (h : gather p1 (unique natOrder (flatTris t2)) = some p2) :
    FixFacts key p t p2 (t2.map (renum (unique natOrder (flatTris t2)))) ∧
      ∀ v < p2.length, ∃ f ∈ t2.map (renum (unique natOrder (flatTris t2))), HasVertex f v := by
  generalize hpix : unique natOrder (flatTris t2) = pix at h
  have hn : pix.Nodup := hpix ▸ unique_nodup _ _
  have hmem : ∀ v, v ∈ pix ↔ ∃ f ∈ t2, HasVertex f v := by
    intro v; rw [← hpix, mem_unique, mem_flatTris]
  have hlen := gather_length h
  have hget : ∀ v ∈ pix, p2[pix.idxOf v]? = p1[v]? := fun v hv => gather_getElem? h (idxOf_getElem? hv)
  have hck : ∀ f ∈ t2, cornerKeys key p2 (renum pix f) = cornerKeys key p1 f := by
    intro f hf
    have ha := hget f.a ((hmem _).2 ⟨f, hf, Or.inl rfl⟩)
    have hb := hget f.b ((hmem _).2 ⟨f, hf, Or.inr (Or.inl rfl)⟩)
    have hc := hget f.c ((hmem _).2 ⟨f, hf, Or.inr (Or.inr rfl)⟩)
    simp only [cornerKeys, renum, Tri.toList, List.map_cons, List.map_nil, ha, hb, hc]
  refine ⟨⟨?_, ?_, ?_, ?_, ?_, ?_, ?_, ?_⟩, ?_⟩
  · -- keys stay different: injective choice from a list with different keys
    have h1 := gather_eq_some.1 h
    have h2 : (p2.map key).map some = pix.map fun i => (p1.map key)[i]? := by
      have := congrArg (List.map (Option.map key)) h1
      rw [List.map_map, List.map_map] at this
      rw [List.map_map]
      refine Eq.trans this (List.map_congr_left fun i _ => ?_)
      simp
    have h3 : ((p2.map key).map some).Nodup := by
      rw [h2]
      refine List.Nodup.map_on ?_ hn
      intro x hx y hy hxy
      have hvx := gather_valid h x hx
      have hvy := gather_valid h y hy
      rw [List.getElem?_eq_getElem (by simpa using hvx), List.getElem?_eq_getElem (by simpa using hvy)] at hxy
      exact (hfacts.keysNodup.getElem_inj_iff).1 (Option.some.inj hxy)
    exact List.Nodup.of_map _ h3
  · intro q hq; exact hfacts.points q (gather_subset h q hq)
  · intro g hg v hv
    obtain ⟨f, hf, rfl⟩ := List.mem_map.1 hg
    rw [hlen]
    rcases hv with rfl | rfl | rfl
    · exact idxOf_lt ((hmem _).2 ⟨f, hf, Or.inl rfl⟩)
    · exact idxOf_lt ((hmem _).2 ⟨f, hf, Or.inr (Or.inl rfl)⟩)
    · exact idxOf_lt ((hmem _).2 ⟨f, hf, Or.inr (Or.inr rfl)⟩)
  · rw [List.pairwise_map]
    refine List.Pairwise.imp_of_mem ?_ hfacts.distinct
    intro f g hf hg hne hsame
    apply hne
    have h1 : (f.toList.map pix.idxOf).Perm (g.toList.map pix.idxOf) := hsame
    have hfm : ∀ v ∈ f.toList, v ∈ pix := fun v hv => (hmem v).2 ⟨f, hf, (hasVertex_iff_mem f v).2 hv⟩
    have hgm : ∀ v ∈ g.toList, v ∈ pix := fun v hv => (hmem v).2 ⟨g, hg, (hasVertex_iff_mem g v).2 hv⟩
    have h2 := h1.map (fun i => pix[i]?)
    rw [List.map_map, List.map_map] at h2
    have e1 : f.toList.map ((fun i => pix[i]?) ∘ pix.idxOf) = f.toList.map some :=
      List.map_congr_left fun v hv => idxOf_getElem? (hfm v hv)
    have e2 : g.toList.map ((fun i => pix[i]?) ∘ pix.idxOf) = g.toList.map some :=
      List.map_congr_left fun v hv => idxOf_getElem? (hgm v hv)
    rw [e1, e2] at h2
    exact (List.map_perm_map_iff (Option.some_injective _)).1 h2
  · intro f hf
    obtain ⟨g, hg, hp⟩ := hfacts.fwd f hf
    exact ⟨renum pix g, List.mem_map_of_mem hg, by rw [hck g hg]; exact hp⟩
  · intro g' hg'
    obtain ⟨g, hg, rfl⟩ := List.mem_map.1 hg'
    obtain ⟨f, hf, hp⟩ := hfacts.bwd g hg
    exact ⟨f, hf, by rw [hck g hg]; exact hp⟩
  · simpa using hfacts.lenT
  · have : pix.length ≤ p1.length := by
      have hsub : pix.Subperm (List.range p1.length) :=
        List.subperm_of_subset hn fun v hv => List.mem_range.2 (gather_valid h v hv)
      simpa using hsub.length_le
    rw [hlen]; exact this.trans hfacts.lenP
  · intro v hv
    rw [hlen] at hv
    obtain ⟨f, hf, hfv⟩ := (hmem pix[v]).1 (List.getElem_mem hv)
    refine ⟨renum pix f, List.mem_map_of_mem hf, ?_⟩
    have hidx : pix.idxOf pix[v] = v := hn.idxOf_getElem v hv
    rw [← hidx]
    rcases hfv with h | h | h
    · exact Or.inl (by rw [h]; rfl)
    · exact Or.inr (Or.inl (by rw [h]; rfl))
    · exact Or.inr (Or.inr (by rw [h]; rfl))

/-- The orientation step keeps all facts. -/
theorem flip_facts {key : K × K → Row K} {p p' : List (K × K)} {t t' t'' : List Tri}
    (hfacts : FixFacts key p t p' t') (h : flipTris p' t' = some t'') : FixFacts key p t p' t'' := by
  have hF := flipTris_forall₂ h
  refine ⟨hfacts.keysNodup, hfacts.points, ?_, ?_, ?_, ?_, ?_, hfacts.lenP⟩
  · intro g hg v hv
    obtain ⟨f, hf, hfg⟩ := forall₂_mem_right hF g hg
    apply hfacts.valid f hf
    rw [hasVertex_iff_mem] at hv ⊢
    exact (flipTri_perm hfg).mem_iff.1 hv
  · refine forall₂_pairwise ?_ hF hfacts.distinct
    intro a b c d hab hcd hne hsame
    exact hne ((flipTri_perm hab).symm.trans (List.Perm.trans hsame (flipTri_perm hcd)))
  · intro f hf
    obtain ⟨g, hg, hp⟩ := hfacts.fwd f hf
    obtain ⟨g', hg', hgg⟩ := forall₂_mem_left hF g hg
    exact ⟨g', hg', ((flipTri_perm hgg).map _).trans hp⟩
  · intro g' hg'
    obtain ⟨g, hg, hgg⟩ := forall₂_mem_right hF g' hg'
    obtain ⟨f, hf, hp⟩ := hfacts.bwd g hg
    exact ⟨f, hf, ((flipTri_perm hgg).map _).trans hp⟩
  · rw [← hF.length_eq]; exact hfacts.lenT

end

end OM
