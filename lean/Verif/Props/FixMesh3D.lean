import Verif.Model.FixMesh3D
import Verif.Props.FixMesh
import Mathlib.Data.List.Perm.Basic
import Mathlib.Data.List.Permutation
import Mathlib.LinearAlgebra.Matrix.Determinant.Basic
/-!
# `fix_mesh` for tetrahedra (C155)
-/
set_option linter.unusedSectionVars false
namespace OM
open Spec
variable {K : Type} [Field K] [LinearOrder K] [IsStrictOrderedRing K]

/-- The signed volume of a tetrahedron: a sixth of the determinant of the edges from its first corner. -/
def Spec.signedVol (x y z w : K × K × K) : K :=
  Matrix.det !![y.1 - x.1, y.2.1 - x.2.1, y.2.2 - x.2.2; z.1 - x.1, z.2.1 - x.2.1, z.2.2 - x.2.2; w.1 - x.1, w.2.1 - x.2.1, w.2.2 - x.2.2] / 6

/-- Rows of four valid indices. -/
def Spec.ValidTets (n : Nat) (t : List (List Nat)) : Prop := ∀ f ∈ t, f.length = 4 ∧ ∀ v ∈ f, v < n

/-- The corners of the row `g` can be paired with those of `f` so that paired points are related. -/
def Spec.TetsMatch (R : K × K × K → K × K × K → Prop) (p : List (K × K × K)) (f : List Nat) (p' : List (K × K × K)) (g : List Nat) : Prop :=
  ∃ f', f.Perm f' ∧ List.Forall₂ (fun i j => ∃ x y, p[i]? = some x ∧ p'[j]? = some y ∧ R x y) f' g

/-- The points differ by at most `d` in each coordinate. -/
def Spec.Within3 (d : K) (q q' : K × K × K) : Prop := |q.1 - q'.1| ≤ d ∧ |q.2.1 - q'.2.1| ≤ d ∧ |q.2.2 - q'.2.2| ≤ d

/-- The smallest number that no difference of coordinates on an axis exceeds. -/
def Spec.IsExtent3 (p : List (K × K × K)) (e : K) : Prop :=
  (∀ q ∈ p, ∀ q' ∈ p, Within3 e q q') ∧ ∀ e', (∀ q ∈ p, ∀ q' ∈ p, Within3 e' q q') → e ≤ e'

theorem tetVol_eq (x y z w : K × K × K) : tetVol x y z w = signedVol x y z w := by
  simp only [tetVol, signedVol, Matrix.det_fin_three, Matrix.of_apply, Matrix.cons_val]
  ring

theorem signedVol_swap (x y z w : K × K × K) : signedVol y x z w = -signedVol x y z w := by
  rw [← tetVol_eq, ← tetVol_eq]
  simp only [tetVol]
  ring

theorem abs_signedVol_perm {x y z w x' y' z' w' : K × K × K} (h : [x', y', z', w'].Perm [x, y, z, w]) : |signedVol x' y' z' w'| = |signedVol x y z w| := by
  have h1 := List.mem_permutations'.2 h
  simp only [List.permutations', List.permutations'Aux, List.flatMap_cons, List.flatMap_nil, List.map_cons, List.map_nil, List.append_nil, List.cons_append, List.nil_append,
    List.mem_cons, List.cons.injEq, and_true, List.not_mem_nil, or_false] at h1
  have key : ∀ a b c d a' b' c' d' : K × K × K, a' = a ∧ b' = b ∧ c' = c ∧ d' = d → |signedVol a' b' c' d'| = |signedVol a b c d| := by
    rintro _ _ _ _ _ _ _ _ ⟨rfl, rfl, rfl, rfl⟩; rfl
  rcases h1 with h | h | h | h | h | h | h | h | h | h | h | h | h | h | h | h | h | h | h | h | h | h | h | h <;> rw [key _ _ _ _ _ _ _ _ h] <;>
    first
    | rfl
    | (rw [← tetVol_eq, ← tetVol_eq, abs_eq_abs]; simp only [tetVol]; first | (left; ring1) | (right; ring1))

/-! ## Rows -/

theorem gatherRows_forall₂ {jx : List Nat} : ∀ {t t' : List (List Nat)}, gatherRows jx t = some t' → List.Forall₂ (fun f f' => gather jx f = some f') t t'
  | [], t', h => by simp [gatherRows] at h; subst h; exact .nil
  | f :: t, t', h => by
    simp only [gatherRows] at h
    split at h
    · rename_i f' s h1 h2
      cases h
      exact .cons h1 (gatherRows_forall₂ h2)
    · cases h

theorem gatherRows_some {jx : List Nat} : ∀ {t : List (List Nat)}, (∃ t', gatherRows jx t = some t') ↔ ∀ f ∈ t, ∀ v ∈ f, v < jx.length
  | [] => by simp [gatherRows]
  | f :: t => by
    rw [List.forall_mem_cons, ← gatherRows_some (t := t)]
    constructor
    · rintro ⟨t', h⟩
      have h1 := gatherRows_forall₂ h
      simp only [gatherRows] at h
      split at h
      · rename_i f' s h1 h2
        exact ⟨gather_valid h1, s, h2⟩
      · cases h
    · rintro ⟨h1, t', h2⟩
      obtain ⟨f', h3⟩ := gather_isSome h1
      exact ⟨f' :: t', by simp [gatherRows, h2, h3]⟩

theorem flipTets_forall₂ {p : List (K × K × K)} : ∀ {t t' : List (List Nat)}, flipTets p t = some t' → List.Forall₂ (fun f f' => flipTet p f = some f') t t'
  | [], t', h => by simp [flipTets] at h; subst h; exact .nil
  | f :: t, t', h => by
    simp only [flipTets] at h
    split at h
    · rename_i f' s h1 h2
      cases h
      exact .cons h1 (flipTets_forall₂ h2)
    · cases h

theorem flipTets_isSome {p : List (K × K × K)} : ∀ {t : List (List Nat)}, ValidTets p.length t → ∃ t', flipTets p t = some t'
  | [], _ => ⟨[], rfl⟩
  | f :: t, h => by
    obtain ⟨t', ht⟩ := flipTets_isSome (t := t) fun g hg => h g (List.mem_cons_of_mem _ hg)
    obtain ⟨h4, hv⟩ := h f List.mem_cons_self
    match f, h4, hv with
    | [a, b, c, d], _, hv =>
      have ha := hv a (by simp)
      have hb := hv b (by simp)
      have hc := hv c (by simp)
      have hd := hv d (by simp)
      simp only [flipTets, flipTet, List.getElem?_eq_getElem ha, List.getElem?_eq_getElem hb, List.getElem?_eq_getElem hc, List.getElem?_eq_getElem hd, ht]
      exact ⟨_, rfl⟩

/-- What the flip does to a row: the same corners, with non-negative volume. -/
theorem flipTet_facts {p : List (K × K × K)} {f g : List Nat} (h : flipTet p f = some g) :
    g.Perm f ∧ ∃ a b c d x y z w, g = [a, b, c, d] ∧ p[a]? = some x ∧ p[b]? = some y ∧ p[c]? = some z ∧ p[d]? = some w ∧ 0 ≤ signedVol x y z w := by
  unfold flipTet at h
  split at h
  · rename_i a b c d
    split at h
    · rename_i x y z w hx hy hz hw
      simp only [Option.some.injEq] at h
      subst h
      split
      · rename_i hn
        rw [tetVol_eq] at hn
        exact ⟨.swap _ _ _, b, a, c, d, y, x, z, w, rfl, hy, hx, hz, hw, by rw [signedVol_swap]; linarith⟩
      · rename_i hn
        rw [tetVol_eq] at hn
        exact ⟨.rfl, a, b, c, d, x, y, z, w, rfl, hx, hy, hz, hw, not_lt.1 hn⟩
    · cases h
  · cases h

theorem pairwise_transfer {α β : Type} {S : α → β → Prop} {A : α → α → Prop} {B : β → β → Prop} (hs : ∀ a b c d, S a c → S b d → A a b → B c d) {l : List α} {m : List β}
    (h : List.Forall₂ S l m) (hl : l.Pairwise A) : m.Pairwise B := by
  induction h with
  | nil => exact .nil
  | cons h1 h2 ih =>
    rw [List.pairwise_cons] at hl ⊢
    refine ⟨fun y hy => ?_, ih hl.2⟩
    obtain ⟨x, hx, hxy⟩ := forall₂_mem_right h2 y hy
    exact hs _ _ _ _ h1 hxy (hl.1 x hx)

/-! ## Merging -/

section
variable {α β : Type} [DecidableEq β]

theorem merged_keys_gen {key : α → β} {o : RowOrder β} {p p1 : List α} (h : gather p (uniqueIndex o (p.map key)) = some p1) : p1.map key = unique o (p.map key) := by
  have h2 := congrArg (List.map (Option.map key)) (gather_eq_some.1 h)
  have h3 : (p1.map key).map some = (unique o (p.map key)).map some := by
    rw [uniqueIndex, List.map_map, List.map_map, List.map_map] at h2
    rw [List.map_map]
    refine Eq.trans h2 ?_
    apply List.map_congr_left
    intro k hk
    have h4 := idxOf_getElem? ((mem_unique o _ k).1 hk)
    rw [List.getElem?_map] at h4
    simpa using h4
  exact List.map_injective_iff.2 (Option.some_injective _) h3

theorem merge_isSome_gen (key : α → β) (o : RowOrder β) (p : List α) : ∃ p1, gather p (uniqueIndex o (p.map key)) = some p1 := by
  apply gather_isSome
  intro i hi
  obtain ⟨k, hk, rfl⟩ := List.mem_map.1 hi
  have := idxOf_lt ((mem_unique o _ k).1 hk)
  simpa using this

theorem merge_inverse_gen {key : α → β} {o : RowOrder β} {p p1 : List α} (h : gather p (uniqueIndex o (p.map key)) = some p1) {i j : Nat}
    (hij : (uniqueInverse o (p.map key))[i]? = some j) : ∃ x y, p[i]? = some x ∧ p1[j]? = some y ∧ key x = key y := by
  have hk := merged_keys_gen h
  unfold uniqueInverse at hij
  rw [List.getElem?_map, List.getElem?_map] at hij
  rcases hp : p[i]? with _ | q
  · rw [hp] at hij; cases hij
  · rw [hp] at hij
    simp only [Option.map_some, Option.some.injEq] at hij
    have hm : key q ∈ unique o (p.map key) := (mem_unique o _ _).2 (List.mem_map_of_mem (List.mem_of_getElem? hp))
    have h1 := idxOf_getElem? hm
    rw [hij, ← hk, List.getElem?_map, Option.map_eq_some_iff] at h1
    obtain ⟨y, hy, e⟩ := h1
    exact ⟨q, y, rfl, hy, e.symm⟩
end

theorem gather_forall₂ {α : Type} {l : List α} {ix : List Nat} {r : List α} (h : gather l ix = some r) : List.Forall₂ (fun i x => l[i]? = some x) ix r := by
  induction ix generalizing r with
  | nil => simp [gather] at h; subst h; exact .nil
  | cons i ix ih =>
    simp only [gather] at h
    split at h
    · rename_i x s h1 h2
      cases h
      exact .cons h1 (ih h2)
    · cases h

/-- What is known of the result: `key` is the snapped position. -/
structure TetFacts (key : K × K × K → Row3 K) (p : List (K × K × K)) (t : List (List Nat)) (q : List (K × K × K)) (s : List (List Nat)) : Prop where
  keysNodup : (q.map key).Nodup
  points : ∀ x ∈ q, x ∈ p
  valid : ValidTets q.length s
  distinct : s.Pairwise fun f g => ¬ f.Perm g
  fwd : ∀ f ∈ t, ∃ g ∈ s, TetsMatch (fun x y => key x = key y) p f q g
  bwd : ∀ g ∈ s, ∃ f ∈ t, TetsMatch (fun x y => key x = key y) p f q g
  oriented : ∀ g ∈ s, ∃ a b c d x y z w, g = [a, b, c, d] ∧ q[a]? = some x ∧ q[b]? = some y ∧ q[c]? = some z ∧ q[d]? = some w ∧ 0 ≤ signedVol x y z w

theorem match_perm {R : K × K × K → K × K × K → Prop} {p q : List (K × K × K)} {f g g' : List Nat} (h : TetsMatch R p f q g) (hg : g'.Perm g) : TetsMatch R p f q g' := by
  obtain ⟨f', h1, h2⟩ := h
  have h3 : Relation.Comp (List.Forall₂ _) List.Perm f' g' := ⟨g, h2, hg.symm⟩
  rw [List.forall₂_comp_perm_eq_perm_comp_forall₂] at h3
  obtain ⟨f'', h4, h5⟩ := h3
  exact ⟨f'', h1.trans h4, h5⟩

theorem sortBy_ext {l m : List Nat} (h : (sortBy natOrder.le l).Perm (sortBy natOrder.le m)) : sortBy natOrder.le l = sortBy natOrder.le m :=
  h.eq_of_pairwise (fun a b _ _ => natOrder.antisymm a b) (sortBy_sorted _ natOrder.total natOrder.trans l) (sortBy_sorted _ natOrder.total natOrder.trans m)

theorem fixMesh3_facts {rnd : K → Int} {oP : RowOrder (Row3 K)} {oT : RowOrder (List Nat)} {p : List (K × K × K)} {t : List (List Nat)} {ptol : K} {du : Bool}
    {R : List (K × K × K) × List (List Nat)} (h : fixMesh3 rnd oP oT p t ptol du = some R) :
    ∃ snap, snapSize3 p ptol = some snap ∧ TetFacts (snapRow3 rnd snap) p t R.1 R.2 ∧ (du = true → ∀ v < R.1.length, ∃ g ∈ R.2, v ∈ g) := by
  unfold fixMesh3 at h
  simp only [Option.bind_eq_bind, Option.bind_eq_some_iff] at h
  obtain ⟨snap, h1, p1, h2, t1, h3, h4⟩ := h
  refine ⟨snap, h1, ?_⟩
  set key := snapRow3 rnd snap with hkey
  have hk := merged_keys_gen h2
  have hF := gatherRows_forall₂ h3
  have hn1 : (p1.map key).Nodup := by rw [hk]; exact unique_nodup _ _
  have hp1 := gather_subset h2
  have hmem : ∀ g, g ∈ unique oT (t1.map (sortBy natOrder.le)) ↔ ∃ f' ∈ t1, sortBy natOrder.le f' = g := by
    intro g; rw [mem_unique, List.mem_map]
  have himg : ∀ f f', gather (uniqueInverse oP (p.map key)) f = some f' → TetsMatch (fun x y => key x = key y) p f p1 (sortBy natOrder.le f') := by
    intro f f' hf
    refine match_perm ⟨f, .rfl, ?_⟩ (sortBy_perm _ _)
    exact (gather_forall₂ hf).imp fun i j hij => merge_inverse_gen h2 hij
  have hfwd : ∀ f ∈ t, ∃ g ∈ unique oT (t1.map (sortBy natOrder.le)), TetsMatch (fun x y => key x = key y) p f p1 g := by
    intro f hf
    obtain ⟨f', hf', hff⟩ := forall₂_mem_left hF f hf
    exact ⟨_, (hmem _).2 ⟨f', hf', rfl⟩, himg f f' hff⟩
  have hbwd : ∀ g ∈ unique oT (t1.map (sortBy natOrder.le)), ∃ f ∈ t, TetsMatch (fun x y => key x = key y) p f p1 g := by
    intro g hg
    obtain ⟨f', hf', rfl⟩ := (hmem g).1 hg
    obtain ⟨f, hf, hff⟩ := forall₂_mem_right hF f' hf'
    exact ⟨f, hf, himg f f' hff⟩
  have hdist : (unique oT (t1.map (sortBy natOrder.le))).Pairwise fun f g => ¬ f.Perm g := by
    refine List.Pairwise.imp_of_mem ?_ (unique_nodup oT (t1.map (sortBy natOrder.le)))
    intro f g hf hg hne hp
    obtain ⟨f', -, rfl⟩ := (hmem f).1 hf
    obtain ⟨g', -, rfl⟩ := (hmem g).1 hg
    exact hne (sortBy_ext hp)
  have hval : ∀ g ∈ unique oT (t1.map (sortBy natOrder.le)), ∀ v ∈ g, v < p1.length := by
    intro g hg v hv
    obtain ⟨f, -, f', -, hm⟩ := hbwd g hg
    obtain ⟨i, -, x, y, -, hy, -⟩ := forall₂_mem_right hm v hv
    exact (List.getElem?_eq_some_iff.1 hy).1
  generalize unique oT (t1.map (sortBy natOrder.le)) = t2 at *
  -- the last step, for any table
  have last : ∀ {q : List (K × K × K)} {t3 t4 : List (List Nat)}, flipTets q t3 = some t4 →
      (∀ g ∈ t4, ∃ f ∈ t3, g.Perm f) ∧ (∀ f ∈ t3, ∃ g ∈ t4, g.Perm f) ∧ ValidTets q.length t4 ∧ ((t3.Pairwise fun f g => ¬ f.Perm g) → t4.Pairwise fun f g => ¬ f.Perm g) ∧
      ∀ g ∈ t4, ∃ a b c d x y z w, g = [a, b, c, d] ∧ q[a]? = some x ∧ q[b]? = some y ∧ q[c]? = some z ∧ q[d]? = some w ∧ 0 ≤ signedVol x y z w := by
    intro q t3 t4 h
    have hf := flipTets_forall₂ h
    refine ⟨fun g hg => ?_, fun f hm => ?_, fun g hg => ?_, fun hd => ?_, fun g hg => ?_⟩
    · obtain ⟨f, hm, e⟩ := forall₂_mem_right hf g hg
      exact ⟨f, hm, (flipTet_facts e).1⟩
    · obtain ⟨g, hm, e⟩ := forall₂_mem_left hf f hm
      exact ⟨g, hm, (flipTet_facts e).1⟩
    · obtain ⟨f, hm, e⟩ := forall₂_mem_right hf g hg
      obtain ⟨-, a, b, c, d, x, y, z, w, rfl, hx, hy, hz, hw, -⟩ := flipTet_facts e
      refine ⟨rfl, fun v hv => ?_⟩
      simp only [List.mem_cons, List.not_mem_nil, or_false] at hv
      rcases hv with rfl | rfl | rfl | rfl
      exacts [(List.getElem?_eq_some_iff.1 hx).1, (List.getElem?_eq_some_iff.1 hy).1, (List.getElem?_eq_some_iff.1 hz).1, (List.getElem?_eq_some_iff.1 hw).1]
    · exact pairwise_transfer (fun a b c d h1 h2 hn hp => hn ((flipTet_facts h1).1.symm.trans (hp.trans (flipTet_facts h2).1))) hf hd
    · obtain ⟨f, hm, e⟩ := forall₂_mem_right hf g hg
      exact (flipTet_facts e).2
  split at h4
  · simp only [Option.bind_eq_some_iff] at h4
    obtain ⟨p2, h5, t4, h6, h7⟩ := h4
    cases h7
    obtain ⟨l1, l2, l3, l4, l5⟩ := last h6
    have hpix : ∀ f ∈ t2, ∀ v ∈ f, v ∈ unique natOrder t2.flatten := fun f hf v hv => (mem_unique _ _ _).2 (List.mem_flatten.2 ⟨f, hf, hv⟩)
    have hmove : ∀ f ∈ t2, ∀ f0 ∈ t, TetsMatch (fun x y => key x = key y) p f0 p1 f → TetsMatch (fun x y => key x = key y) p f0 p2 (f.map (unique natOrder t2.flatten).idxOf) := by
      rintro f hf f0 - ⟨f', hp, hm⟩
      refine ⟨f', hp, ?_⟩
      rw [List.forall₂_map_right_iff]
      have hm' : List.Forall₂ (fun i j => j ∈ f ∧ ∃ x y, p[i]? = some x ∧ p1[j]? = some y ∧ key x = key y) f' f := by
        clear hp
        have hall : ∀ j ∈ f, j ∈ f := fun j hj => hj
        revert hall
        generalize hF : f = F at hm
        intro hall
        clear hF hf
        have : ∀ {a b : List Nat}, List.Forall₂ (fun i j => ∃ x y, p[i]? = some x ∧ p1[j]? = some y ∧ key x = key y) a b → (∀ j ∈ b, j ∈ F) →
            List.Forall₂ (fun i j => j ∈ F ∧ ∃ x y, p[i]? = some x ∧ p1[j]? = some y ∧ key x = key y) a b := by
          intro a b hab
          induction hab with
          | nil => exact fun _ => .nil
          | cons h1 _ ih => exact fun hb => .cons ⟨hb _ List.mem_cons_self, h1⟩ (ih fun j hj => hb j (List.mem_cons_of_mem _ hj))
        exact this hm hall
      refine hm'.imp ?_
      rintro i j ⟨hj, x, y, hx, hy, e⟩
      refine ⟨x, y, hx, ?_, e⟩
      rw [gather_getElem? h5 (idxOf_getElem? (hpix f hf j hj)), hy]
    refine ⟨⟨?_, fun x hx => hp1 x (gather_subset h5 x hx), l3, l4 ?_, ?_, ?_, l5⟩, ?_⟩
    · have h8 : (unique natOrder t2.flatten).Nodup := unique_nodup _ _
      rw [List.nodup_iff_injective_getElem] at hn1 h8 ⊢
      rintro ⟨i, hi⟩ ⟨j, hj⟩ hij
      simp only [List.length_map] at hi hj
      have hl := gather_length h5
      have gi := gather_getElem? h5 (k := i) (List.getElem?_eq_getElem (by omega))
      have gj := gather_getElem? h5 (k := j) (List.getElem?_eq_getElem (by omega))
      have vi := gather_valid h5 _ (List.getElem_mem (show i < (unique natOrder t2.flatten).length by omega))
      have vj := gather_valid h5 _ (List.getElem_mem (show j < (unique natOrder t2.flatten).length by omega))
      rw [List.getElem?_eq_getElem hi, List.getElem?_eq_getElem vi, Option.some.injEq] at gi
      rw [List.getElem?_eq_getElem hj, List.getElem?_eq_getElem vj, Option.some.injEq] at gj
      simp only [List.getElem_map, gi, gj] at hij
      have h9 := @hn1 ⟨_, by simpa using vi⟩ ⟨_, by simpa using vj⟩ (by simpa using hij)
      simp only [Fin.mk.injEq] at h9
      have h10 := @h8 ⟨i, by omega⟩ ⟨j, by omega⟩ h9
      simpa using h10
    · rw [List.pairwise_map]
      refine hdist.imp_of_mem ?_
      intro f g hf hg hne hp
      refine hne (perm_of_map_perm ?_ hp)
      intro x hx y hy hxy
      have hx' : x ∈ unique natOrder t2.flatten := by
        rcases List.mem_append.1 hx with hx | hx
        exacts [hpix f hf x hx, hpix g hg x hx]
      have hy' : y ∈ unique natOrder t2.flatten := by
        rcases List.mem_append.1 hy with hy | hy
        exacts [hpix f hf y hy, hpix g hg y hy]
      exact idxOf_inj_of_mem hx' hxy hy'
    · intro f0 hf0
      obtain ⟨g, hg, hm⟩ := hfwd f0 hf0
      obtain ⟨g', hg', hp⟩ := l2 _ (List.mem_map_of_mem hg)
      exact ⟨g', hg', match_perm (hmove g hg f0 hf0 hm) hp⟩
    · intro g hg
      obtain ⟨f, hf, hp⟩ := l1 g hg
      obtain ⟨f2, hf2, rfl⟩ := List.mem_map.1 hf
      obtain ⟨f0, hf0, hm⟩ := hbwd f2 hf2
      exact ⟨f0, hf0, match_perm (hmove f2 hf2 f0 hf0 hm) hp⟩
    · intro _ v hv
      have hl := gather_length h5
      dsimp only at hv
      have hm := (mem_unique natOrder _ _).1 (List.getElem_mem (show v < (unique natOrder t2.flatten).length by omega))
      obtain ⟨f, hf, hvf⟩ := List.mem_flatten.1 hm
      obtain ⟨g, hg, hp⟩ := l2 _ (List.mem_map_of_mem hf)
      refine ⟨g, hg, hp.mem_iff.2 (List.mem_map.2 ⟨_, hvf, ?_⟩)⟩
      exact (unique_nodup natOrder t2.flatten).idxOf_getElem v _
  · rename_i hd
    simp only [Option.bind_eq_some_iff] at h4
    obtain ⟨t4, h6, h7⟩ := h4
    cases h7
    obtain ⟨l1, l2, l3, l4, l5⟩ := last h6
    refine ⟨⟨hn1, hp1, l3, l4 hdist, ?_, ?_, l5⟩, fun e => absurd e hd⟩
    · intro f0 hf0
      obtain ⟨g, hg, hm⟩ := hfwd f0 hf0
      obtain ⟨g', hg', hp⟩ := l2 _ hg
      exact ⟨g', hg', match_perm hm hp⟩
    · intro g hg
      obtain ⟨f, hf, hp⟩ := l1 g hg
      obtain ⟨f0, hf0, hm⟩ := hbwd f hf
      exact ⟨f0, hf0, match_perm hm hp⟩

theorem spread_eq {x : K} {l : List K} : (∀ y ∈ x :: l, ∀ z ∈ x :: l, |y - z| ≤ spread x l) ∧ ∃ y ∈ x :: l, ∃ z ∈ x :: l, spread x l = y - z := by
  refine ⟨fun y hy z hz => ?_, _, foldl_max_mem x l, _, foldl_min_mem x l, rfl⟩
  unfold spread
  rw [abs_le]
  have h1 := le_foldl_max x l y hy
  have h2 := le_foldl_max x l z hz
  have h3 := foldl_min_le x l y hy
  have h4 := foldl_min_le x l z hz
  constructor <;> linarith

/-- The snapping distance is the extent times the tolerance. -/
theorem snapSize3_eq {p : List (K × K × K)} {ptol e snap : K} (he : IsExtent3 p e) (h : snapSize3 p ptol = some snap) : snap = e * ptol := by
  cases p with
  | nil => simp [snapSize3] at h
  | cons q0 r =>
    simp only [snapSize3, Option.some.injEq] at h
    rw [← h]
    congr 1
    have coord : ∀ c : K × K × K → K, (∀ q ∈ q0 :: r, ∀ q' ∈ q0 :: r, |c q - c q'| ≤ spread (c q0) (r.map c)) ∧
        ∃ q ∈ q0 :: r, ∃ q' ∈ q0 :: r, spread (c q0) (r.map c) = c q - c q' := by
      intro c
      obtain ⟨h1, y, hy, z, hz, h2⟩ := spread_eq (x := c q0) (l := r.map c)
      rw [← List.map_cons] at h1 hy hz
      obtain ⟨q, hq, rfl⟩ := List.mem_map.1 hy
      obtain ⟨q', hq', rfl⟩ := List.mem_map.1 hz
      exact ⟨fun q hq q' hq' => h1 _ (List.mem_map_of_mem hq) _ (List.mem_map_of_mem hq'), q, hq, q', hq', h2⟩
    obtain ⟨a1, qa, ha, qa', ha', a2⟩ := coord fun x => x.1
    obtain ⟨b1, qb, hb, qb', hb', b2⟩ := coord fun x => x.2.1
    obtain ⟨c1, qc, hc, qc', hc', c2⟩ := coord fun x => x.2.2
    apply le_antisymm
    · refine max_le ?_ (max_le ?_ ?_)
      · rw [a2]; exact (le_abs_self _).trans (he.1 _ ha _ ha').1
      · rw [b2]; exact (le_abs_self _).trans (he.1 _ hb _ hb').2.1
      · rw [c2]; exact (le_abs_self _).trans (he.1 _ hc _ hc').2.2
    · refine he.2 _ fun q hq q' hq' => ⟨?_, ?_, ?_⟩
      · exact (a1 q hq q' hq').trans (le_max_left _ _)
      · exact (b1 q hq q' hq').trans ((le_max_left _ _).trans (le_max_right _ _))
      · exact (c1 q hq q' hq').trans ((le_max_right _ _).trans (le_max_right _ _))

theorem close_of_key3 {rnd : K → Int} (hr : IsRounding rnd) {p : List (K × K × K)} {e ptol : K} (he : IsExtent3 p e) (hpt : 0 < ptol) {q q' : K × K × K} (hq : q ∈ p) (hq' : q' ∈ p)
    (h : snapRow3 rnd (e * ptol) q = snapRow3 rnd (e * ptol) q') : Within3 (e * ptol) q q' := by
  have h0 : 0 ≤ e := (abs_nonneg _).trans (he.1 q hq q hq).1
  rcases h0.eq_or_lt with h0 | h0
  · subst h0
    rw [zero_mul]
    exact he.1 q hq q' hq'
  · have hs := mul_pos h0 hpt
    have lift : ∀ x y : K, snapCoord rnd (e * ptol) x = snapCoord rnd (e * ptol) y → |x - y| ≤ e * ptol := fun x y hxy =>
      (same_snap_close hr hs (q := (x, 0)) (q' := (y, 0)) (by unfold snapRow; rw [if_neg hs.ne', if_neg hs.ne', hxy])).1
    unfold snapRow3 at h
    rw [if_neg hs.ne', if_neg hs.ne', Option.some.injEq] at h
    exact ⟨lift _ _ (congrArg Prod.fst h), lift _ _ (congrArg (fun x => x.2.1) h), lift _ _ (congrArg (fun x => x.2.2) h)⟩

/-! ## The theorems -/

/-- **C155** (1): for rows of four numbers, `fix_mesh` returns exactly if there are points and the numbers are valid. -/
theorem C155_returns (rnd : K → Int) (oP : RowOrder (Row3 K)) (oT : RowOrder (List Nat)) (p : List (K × K × K)) {t : List (List Nat)} (ht : ∀ f ∈ t, f.length = 4) (ptol : K)
    (du : Bool) : (∃ R, fixMesh3 rnd oP oT p t ptol du = some R) ↔ p ≠ [] ∧ ValidTets p.length t := by
  constructor
  · rintro ⟨R, h⟩
    unfold fixMesh3 at h
    simp only [Option.bind_eq_bind, Option.bind_eq_some_iff] at h
    obtain ⟨snap, h1, p1, h2, t1, h3, -⟩ := h
    refine ⟨fun e => by subst e; simp [snapSize3] at h1, fun f hf => ⟨ht f hf, fun v hv => ?_⟩⟩
    have := gatherRows_some.1 ⟨t1, h3⟩ f hf v hv
    simpa [uniqueInverse] using this
  · rintro ⟨hp, hv⟩
    obtain ⟨snap, h1⟩ : ∃ snap, snapSize3 p ptol = some snap := by
      cases p with
      | nil => exact absurd rfl hp
      | cons q r => exact ⟨_, rfl⟩
    obtain ⟨p1, h2⟩ := merge_isSome_gen (snapRow3 rnd snap) oP p
    obtain ⟨t1, h3⟩ := gatherRows_some (jx := uniqueInverse oP (p.map (snapRow3 rnd snap))) (t := t) |>.2 fun f hf v hvf => by
      simpa [uniqueInverse] using (hv f hf).2 v hvf
    have hv1 : ValidTets p1.length (unique oT (t1.map (sortBy natOrder.le))) := by
      intro g hg
      rw [mem_unique, List.mem_map] at hg
      obtain ⟨f', hf', rfl⟩ := hg
      obtain ⟨f, hf, hff⟩ := forall₂_mem_right (gatherRows_forall₂ h3) f' hf'
      refine ⟨by rw [(sortBy_perm _ _).length_eq, gather_length hff, ht f hf], fun v hvf => ?_⟩
      obtain ⟨i, -, hi⟩ := forall₂_mem_right (gather_forall₂ hff) v ((sortBy_perm _ _).mem_iff.1 hvf)
      obtain ⟨x, y, -, hy, -⟩ := merge_inverse_gen h2 hi
      exact (List.getElem?_eq_some_iff.1 hy).1
    unfold fixMesh3
    simp only [h1, h2, h3, Option.bind_eq_bind, Option.bind_some]
    generalize unique oT (t1.map (sortBy natOrder.le)) = t2 at *
    rcases du with _ | _
    · obtain ⟨t4, h4⟩ := flipTets_isSome hv1
      exact ⟨(p1, t4), by simp [h4]⟩
    · obtain ⟨p2, h5⟩ := gather_isSome (l := p1) (ix := unique natOrder t2.flatten) fun i hi => by
        obtain ⟨f, hf, hif⟩ := List.mem_flatten.1 ((mem_unique _ _ _).1 hi)
        exact (hv1 f hf).2 i hif
      obtain ⟨t4, h4⟩ := flipTets_isSome (p := p2) (t := t2.map fun f => f.map (unique natOrder t2.flatten).idxOf) fun g hg => by
        obtain ⟨f, hf, rfl⟩ := List.mem_map.1 hg
        refine ⟨by rw [List.length_map]; exact (hv1 f hf).1, fun v hvf => ?_⟩
        obtain ⟨w, hw, rfl⟩ := List.mem_map.1 hvf
        rw [gather_length h5]
        exact idxOf_lt ((mem_unique _ _ _).2 (List.mem_flatten.2 ⟨f, hf, hw⟩))
      exact ⟨(p2, t4), by simp [h4, h5]⟩

/-- **C155** (2): the result has different points, all of them points of the input, valid numbers, no two tetrahedra with the same corners, and with `delete_unused` no point
without tetrahedron. -/
theorem C155_wellformed {rnd : K → Int} {oP : RowOrder (Row3 K)} {oT : RowOrder (List Nat)} {p : List (K × K × K)} {t : List (List Nat)} {ptol : K} {du : Bool}
    {R : List (K × K × K) × List (List Nat)} (h : fixMesh3 rnd oP oT p t ptol du = some R) :
    R.1.Nodup ∧ (∀ q ∈ R.1, q ∈ p) ∧ ValidTets R.1.length R.2 ∧ (R.2.Pairwise fun f g => ¬ f.Perm g) ∧ (du = true → ∀ v < R.1.length, ∃ g ∈ R.2, v ∈ g) := by
  obtain ⟨snap, -, hf, hu⟩ := fixMesh3_facts h
  exact ⟨hf.keysNodup.of_map _, hf.points, hf.valid, hf.distinct, hu⟩

/-- **C155** (3): no tetrahedron of the result has negative volume. -/
theorem C155_oriented {rnd : K → Int} {oP : RowOrder (Row3 K)} {oT : RowOrder (List Nat)} {p : List (K × K × K)} {t : List (List Nat)} {ptol : K} {du : Bool}
    {R : List (K × K × K) × List (List Nat)} (h : fixMesh3 rnd oP oT p t ptol du = some R) :
    ∀ g ∈ R.2, ∃ a b c d x y z w, g = [a, b, c, d] ∧ R.1[a]? = some x ∧ R.1[b]? = some y ∧ R.1[c]? = some z ∧ R.1[d]? = some w ∧ 0 ≤ signedVol x y z w :=
  (fixMesh3_facts h).choose_spec.2.1.oriented

/-- **C155** (4): every tetrahedron of the input is represented in the result and every one of the result represents one of the input, with corners moved by at most the
tolerance times the extent. -/
theorem C155_geometry {rnd : K → Int} (hr : IsRounding rnd) {oP : RowOrder (Row3 K)} {oT : RowOrder (List Nat)} {p : List (K × K × K)} {t : List (List Nat)} {ptol e : K}
    {du : Bool} {R : List (K × K × K) × List (List Nat)} (hpt : 0 < ptol) (he : IsExtent3 p e) (h : fixMesh3 rnd oP oT p t ptol du = some R) :
    (∀ f ∈ t, ∃ g ∈ R.2, TetsMatch (Within3 (e * ptol)) p f R.1 g) ∧ ∀ g ∈ R.2, ∃ f ∈ t, TetsMatch (Within3 (e * ptol)) p f R.1 g := by
  obtain ⟨snap, hs, hf, -⟩ := fixMesh3_facts h
  rw [snapSize3_eq he hs] at hf
  have go : ∀ {f g}, TetsMatch (fun x y => snapRow3 rnd (e * ptol) x = snapRow3 rnd (e * ptol) y) p f R.1 g → TetsMatch (Within3 (e * ptol)) p f R.1 g := by
    rintro f g ⟨f', hp, hm⟩
    refine ⟨f', hp, hm.imp ?_⟩
    rintro i j ⟨x, y, hx, hy, hk⟩
    exact ⟨x, y, hx, hy, close_of_key3 hr he hpt (List.mem_of_getElem? hx) (hf.points y (List.mem_of_getElem? hy)) hk⟩
  refine ⟨fun f hft => ?_, fun g hg => ?_⟩
  · obtain ⟨g, hg, hm⟩ := hf.fwd f hft
    exact ⟨g, hg, go hm⟩
  · obtain ⟨f, hft, hm⟩ := hf.bwd g hg
    exact ⟨f, hft, go hm⟩

/-- **C155** (5): if different points are further apart than that, the tetrahedra are the same: each of the result has the corners of one of the input, and its volume up to
the sign. -/
theorem C155_exact {rnd : K → Int} (hr : IsRounding rnd) {oP : RowOrder (Row3 K)} {oT : RowOrder (List Nat)} {p : List (K × K × K)} {t : List (List Nat)} {ptol e : K}
    {du : Bool} {R : List (K × K × K) × List (List Nat)} (hpt : 0 < ptol) (he : IsExtent3 p e) (hsep : ∀ q ∈ p, ∀ q' ∈ p, Within3 (e * ptol) q q' → q = q')
    (h : fixMesh3 rnd oP oT p t ptol du = some R) :
    (∀ f ∈ t, ∃ g ∈ R.2, TetsMatch (fun x y => x = y) p f R.1 g) ∧ (∀ g ∈ R.2, ∃ f ∈ t, TetsMatch (fun x y => x = y) p f R.1 g) ∧
      ∀ f g x y z w x' y' z' w', TetsMatch (fun x y => x = y) p f R.1 g → g ∈ R.2 → f.map (p[·]?) = [some x, some y, some z, some w] →
        g.map (R.1[·]?) = [some x', some y', some z', some w'] → signedVol x' y' z' w' = |signedVol x y z w| := by
  obtain ⟨h1, h2⟩ := C155_geometry hr hpt he h
  have hpts := (C155_wellformed h).2.1
  have go : ∀ {f g}, TetsMatch (Within3 (e * ptol)) p f R.1 g → TetsMatch (fun x y => x = y) p f R.1 g := by
    rintro f g ⟨f', hp, hm⟩
    refine ⟨f', hp, hm.imp ?_⟩
    rintro i j ⟨x, y, hx, hy, hk⟩
    exact ⟨x, y, hx, hy, hsep x (List.mem_of_getElem? hx) y (hpts y (List.mem_of_getElem? hy)) hk⟩
  refine ⟨fun f hft => ?_, fun g hg => ?_, ?_⟩
  · obtain ⟨g, hg, hm⟩ := h1 f hft
    exact ⟨g, hg, go hm⟩
  · obtain ⟨f, hft, hm⟩ := h2 g hg
    exact ⟨f, hft, go hm⟩
  · rintro f g x y z w x' y' z' w' ⟨f', hp, hm⟩ hg hf hgm
    obtain ⟨a, b, c, d, x0, y0, z0, w0, rfl, ha, hb, hc, hd, hnn⟩ := C155_oriented h g hg
    simp only [List.map_cons, List.map_nil, ha, hb, hc, hd, List.cons.injEq, Option.some.injEq, and_true] at hgm
    obtain ⟨rfl, rfl, rfl, rfl⟩ := hgm
    have e1 : f'.map (p[·]?) = [a, b, c, d].map (R.1[·]?) := by
      have : ∀ {u v : List Nat}, List.Forall₂ (fun i j => ∃ x y, p[i]? = some x ∧ R.1[j]? = some y ∧ x = y) u v → u.map (p[·]?) = v.map (R.1[·]?) := by
        intro u v huv
        induction huv with
        | nil => rfl
        | cons h1 _ ih =>
          obtain ⟨x, y, hx, hy, rfl⟩ := h1
          rw [List.map_cons, List.map_cons, ih, hx, hy]
      exact this hm
    have e2 := hp.map (p[·]?)
    rw [hf, e1] at e2
    simp only [List.map_cons, List.map_nil, ha, hb, hc, hd] at e2
    rw [← abs_of_nonneg hnn]
    refine abs_signedVol_perm ?_
    have e3 : ([x0, y0, z0, w0].map some).Perm ([x, y, z, w].map some) := e2.symm
    exact perm_of_map_perm (fun x _ y _ hxy => by simpa using hxy) e3

/-! ## An example -/

/-- Lexicographic comparison of rows. -/
def listLe : List Nat → List Nat → Bool
  | [], _ => true
  | _ :: _, [] => false
  | a :: l, b :: m => decide (a < b) || (decide (a = b) && listLe l m)

theorem listLe_total : ∀ a b, (listLe a b || listLe b a) = true
  | [], _ => rfl
  | _ :: _, [] => rfl
  | a :: l, b :: m => by
    have := listLe_total l m
    rcases lt_trichotomy a b with h | h | h
    · simp [listLe, h]
    · subst h; simpa [listLe] using this
    · simp [listLe, h]

theorem listLe_trans : ∀ a b c, listLe a b = true → listLe b c = true → listLe a c = true
  | [], _, _ => fun _ _ => rfl
  | _ :: _, [], _ => nofun
  | _ :: _, _ :: _, [] => nofun
  | a :: l, b :: m, c :: n => by
    have := listLe_trans l m n
    simp only [listLe, Bool.or_eq_true, Bool.and_eq_true, decide_eq_true_eq]
    rintro (h1 | ⟨h1, h2⟩) (h3 | ⟨h3, h4⟩)
    · left; omega
    · left; omega
    · left; omega
    · exact Or.inr ⟨by omega, this h2 h4⟩

theorem listLe_antisymm : ∀ a b, listLe a b = true → listLe b a = true → a = b
  | [], [] => fun _ _ => rfl
  | [], _ :: _ => nofun
  | _ :: _, [] => nofun
  | a :: l, b :: m => by
    have := listLe_antisymm l m
    simp only [listLe, Bool.or_eq_true, Bool.and_eq_true, decide_eq_true_eq]
    rintro (h1 | ⟨h1, h2⟩) (h3 | ⟨h3, h4⟩)
    · omega
    · omega
    · omega
    · rw [h1, this h2 h4]

/-- Lexicographic order of rows. -/
def listOrder : RowOrder (List Nat) := ⟨listLe, listLe_total, listLe_trans, listLe_antisymm⟩

/-- Two tetrahedra on a common face, one of them twice with its corners in another order; point 5 is point 1 again and point 6 belongs to none. -/
def tetP : List (ℚ × ℚ × ℚ) := [(0, 0, 0), (1, 0, 0), (0, 1, 0), (0, 0, 1), (1, 1, 1), (1, 0, 0), (2, 2, 2)]
def tetT : List (List Nat) := [[0, 1, 2, 3], [4, 1, 2, 3], [0, 2, 5, 3]]

theorem tetT_valid : tetP ≠ [] ∧ ValidTets tetP.length tetT := by
  refine ⟨by decide, ?_⟩
  unfold ValidTets
  decide

theorem tetP_extent : IsExtent3 tetP 2 := by
  refine ⟨?_, fun e' h => ?_⟩
  · unfold Within3
    decide +kernel
  · have := (h (2, 2, 2) (by decide) (0, 0, 0) (by decide)).1
    norm_num at this
    exact this

theorem tetP_separated : ∀ q ∈ tetP, ∀ q' ∈ tetP, Within3 (2 * (1 / 100)) q q' → q = q' := by
  unfold Within3
  decide +kernel

/-- Lexicographic order of point rows. -/
def pt3Order : RowOrder (Row3 ℚ) :=
  let c : RowOrder (ℚ × Bool) := .prod .ofLinear .ofLinear
  .option (.prod c (.prod c c))

example : (∀ f ∈ tetT, f.length = 4) ∧ tetP ≠ [] ∧ ValidTets tetP.length tetT ∧ (0 : ℚ) < 1 / 100 ∧ IsExtent3 tetP 2 ∧ (∀ q ∈ tetP, ∀ q' ∈ tetP, Within3 (2 * (1 / 100)) q q' → q = q') ∧
    fixMesh3 rndQ pt3Order listOrder tetP tetT (1 / 100) true = some ([(0, 0, 0), (0, 0, 1), (0, 1, 0), (1, 0, 0), (1, 1, 1)], [[1, 0, 2, 3], [2, 1, 3, 4]]) :=
  ⟨by decide, tetT_valid.1, tetT_valid.2, by norm_num, tetP_extent, tetP_separated, by decide +kernel⟩

end OM
