import Verif.Lemmas.Clean3
import Verif.Lemmas.FixMesh3
import Verif.Spec.Geometry
import Mathlib.Algebra.Order.BigOperators.Group.List
/-!
# Deleting small components
-/
set_option linter.unusedSectionVars false
namespace OM
open Spec

theorem Connected.mem_right {t : List Tri} {f g : Tri} (h : Connected t f g) : g ∈ t := by cases h <;> assumption

theorem Connected.mem_left {t : List Tri} {f g : Tri} (h : Connected t f g) : f ∈ t := by
  induction h with
  | refl h => exact h
  | step _ _ _ ih => exact ih

theorem Connected.trans {t : List Tri} {f g h : Tri} (h1 : Connected t f g) (h2 : Connected t g h) : Connected t f h := by
  induction h2 with
  | refl _ => exact h1
  | step _ hm ha ih => exact ih.step hm ha

theorem Connected.symm {t : List Tri} {f g : Tri} (h : Connected t f g) : Connected t g f := by
  induction h with
  | refl h => exact .refl h
  | step h1 hm ha ih =>
    exact Connected.trans ((Connected.refl hm).step (Connected.mem_right h1) (Adjacent.symm ha)) ih

theorem Connected.mono {t t' : List Tri} (hsub : ∀ f ∈ t, f ∈ t') {f g : Tri} (h : Connected t f g) : Connected t' f g := by
  induction h with
  | refl h => exact .refl (hsub _ h)
  | step _ hm ha ih => exact ih.step (hsub _ hm) ha

/-- Connections survive in a part of the table that contains the whole component. -/
theorem Connected.restrict {t t' : List Tri} {f : Tri} (hall : ∀ g, Connected t f g → g ∈ t') {g : Tri}
    (h : Connected t f g) : Connected t' f g := by
  induction h with
  | refl h => exact .refl (hall _ (.refl h))
  | step h1 hm ha ih => exact ih.step (hall _ (h1.step hm ha)) ha

theorem selectRows_eq (b : Bool) (P : Tri → Bool) : ∀ (nflag : List Bool) (t : List Tri), nflag.length = t.length →
    (∀ (k : Nat) (g : Tri), t[k]? = some g → (nflag[k]? = some true ↔ P g = true)) →
    selectRows b nflag t = t.filter fun g => P g == b
  | [], [], _, _ => by simp [selectRows]
  | [], _ :: _, h, _ => by simp at h
  | _ :: _, [], h, _ => by simp at h
  | x :: nflag, f :: t, hl, h => by
    have ih := selectRows_eq b P nflag t (by simpa using hl) fun k g hk => h (k + 1) g hk
    have h0 := h 0 f rfl
    simp only [List.getElem?_cons_zero, Option.some.injEq] at h0
    have hx : x = P f := by
      cases x <;> cases hP : P f <;> simp_all
    rw [selectRows, ih, hx]
    by_cases hb : P f = b
    · rw [if_pos hb, List.filter_cons_of_pos (by simpa using hb)]
    · rw [if_neg hb, List.filter_cons_of_neg (by simpa using hb)]

section
variable {K : Type} [Field K] [LinearOrder K] [IsStrictOrderedRing K]

theorem simpVol_eq {p : List (K × K)} {A : Tri → K} : ∀ {t : List Tri}, IsAreaOf p t A → simpVol p t = some (t.map A)
  | [], _ => rfl
  | f :: t, h => by
    obtain ⟨x, y, z, h1, h2⟩ := h f (by simp)
    simp only [corners, List.cons.injEq, and_true] at h1
    have hv : faceVol p f = some (A f) := faceVol_eq_some.2 ⟨x, y, z, h1.1, h1.2.1, h1.2.2, by
      rw [triVol_eq_signedArea, h2]⟩
    rw [simpVol, hv, simpVol_eq (fun g hg => h g (List.mem_cons_of_mem _ hg))]
    rfl

theorem areaSum_eq {p : List (K × K)} {A : Tri → K} {t : List Tri} (h : IsAreaOf p t A) :
    areaSum p t = some (t.map A).sum := by rw [areaSum, simpVol_eq h]; rfl

theorem componentArea_congr {A : Tri → K} {t t' : List Tri} {f f' : Tri}
    (h : (t.filter fun g => @decide (Connected t f g) (Classical.dec _)).Perm
      (t'.filter fun g => @decide (Connected t' f' g) (Classical.dec _))) :
    componentArea A t f = componentArea A t' f' := (h.map A).sum_eq

open Classical in
theorem componentArea_le {A : Tri → K} {t : List Tri} (hnn : ∀ f ∈ t, 0 ≤ A f) (f : Tri) :
    componentArea A t f ≤ (t.map A).sum := by
  refine List.Sublist.sum_le_sum ((List.filter_sublist).map A) ?_
  intro a ha
  obtain ⟨g, hg, rfl⟩ := List.mem_map.1 ha
  exact hnn g hg

open Classical in
theorem exteriorLoop_spec (srt : KeySort (Nat × Nat) Nat lexOrder.le) {rand : Nat → Nat → Nat}
    (hrand : ∀ k n, 0 < n → rand k n < n) {p : List (K × K)} {A : Tri → K} {a thr : K} (ha : 0 < a) (hthr : 0 ≤ thr)
    (big : Tri → Prop) :
    ∀ (fuel k : Nat) (t1 acc : List Tri), IsAreaOf p t1 A → (∀ f ∈ t1, 0 ≤ A f) → t1.length < fuel →
      (∀ f ∈ t1, big f ↔ thr < componentArea A t1 f / a) →
      ∃ res, exteriorLoop srt rand p a thr fuel k t1 acc (t1.map A).sum = some res ∧
        res.Perm (acc ++ t1.filter fun f => decide (big f))
  | 0, _, _, _, _, _, h, _ => by omega
  | fuel + 1, k, t1, acc, hA, hnn, hfuel, hbig => by
    rw [exteriorLoop]
    by_cases hex : exceeds (t1.map A).sum a thr = true
    · rw [if_pos hex]
      have hex' : thr < (t1.map A).sum / a := by
        simp only [exceeds, decide_eq_true_eq] at hex; exact hex.2
      have hne : t1 ≠ [] := by
        rintro rfl
        simp at hex'; exact absurd hthr (not_le.2 hex')
      have hpos : 0 < t1.length := List.length_pos_iff.2 hne
      have hr := hrand k t1.length hpos
      obtain ⟨nflag, h1, h2, h3⟩ := depthFirstSearch_spec srt (List.getElem?_eq_getElem hr)
      rw [h1]
      dsimp only
      set f0 := t1[rand k t1.length] with hf0
      have hf0m : f0 ∈ t1 := List.getElem_mem _
      have hsel : ∀ b, selectRows b nflag t1 = t1.filter fun g => decide (Connected t1 f0 g) == b := fun b =>
        selectRows_eq b (fun g => decide (Connected t1 f0 g)) nflag t1 h2 fun k g hk => by
          rw [decide_eq_true_eq]; exact h3 k g hk
      have ht2 : selectRows true nflag t1 = t1.filter fun g => decide (Connected t1 f0 g) := by
        rw [hsel]; apply List.filter_congr; intro g _; simp
      have hrest : selectRows false nflag t1 = t1.filter fun g => !decide (Connected t1 f0 g) := by
        rw [hsel]; apply List.filter_congr; intro g _; simp
      rw [ht2, hrest]
      set t2 := t1.filter fun g => decide (Connected t1 f0 g) with ht2d
      set rest := t1.filter fun g => !decide (Connected t1 f0 g) with hrestd
      have hA2 : IsAreaOf p t2 A := fun f hf => hA f (List.mem_filter.1 hf).1
      have hAr : IsAreaOf p rest A := fun f hf => hA f (List.mem_filter.1 hf).1
      rw [areaSum_eq hA2, areaSum_eq hAr]
      dsimp only
      have hlen : rest.length < t1.length := by
        rw [hrestd, List.length_filter_lt_length_iff_exists]
        exact ⟨f0, hf0m, by simp [Connected.refl hf0m]⟩
      have hcomp2 : ∀ f ∈ t2, componentArea A t1 f = (t2.map A).sum := by
        intro f hf
        have hff : Connected t1 f0 f := by simpa using (List.mem_filter.1 hf).2
        unfold componentArea
        congr 2
        rw [ht2d]
        apply List.filter_congr
        intro g _
        congr 1
        exact propext ⟨fun h => Connected.trans hff h, fun h => Connected.trans (Connected.symm hff) h⟩
      have hcompr : ∀ f ∈ rest, componentArea A rest f = componentArea A t1 f := by
        intro f hf
        obtain ⟨hf1, hf2⟩ := List.mem_filter.1 hf
        have hf2 : ¬ Connected t1 f0 f := by simpa using hf2
        have hall : ∀ g, Connected t1 f g → g ∈ rest := by
          intro g hg
          refine List.mem_filter.2 ⟨Connected.mem_right hg, ?_⟩
          simp only [Bool.not_eq_true', decide_eq_false_iff_not]
          exact fun h => hf2 (Connected.trans h (Connected.symm hg))
        unfold componentArea
        congr 2
        rw [hrestd, List.filter_filter]
        apply List.filter_congr
        intro g hg
        rw [← hrestd]
        by_cases h : Connected t1 f g
        · have h' : Connected rest f g := Connected.restrict hall h
          have h'' : ¬ Connected t1 f0 g := fun hh => hf2 (Connected.trans hh (Connected.symm h))
          simp [h, h', h'']
        · have h' : ¬ Connected rest f g := fun hh =>
            h (Connected.mono (fun x hx => (List.mem_filter.1 hx).1) hh)
          simp [h, h']
      obtain ⟨res, k1, k2⟩ := exteriorLoop_spec srt hrand ha hthr big fuel (k + 1) rest
        (if exceeds (t2.map A).sum a thr then acc ++ t2 else acc) hAr (fun f hf => hnn f (List.mem_filter.1 hf).1)
        (by omega) (by
          intro f hf
          rw [hcompr f hf]
          exact hbig f (List.mem_filter.1 hf).1)
      refine ⟨res, k1, k2.trans ?_⟩
      have hsplit : t1.Perm (t2 ++ rest) := (List.filter_append_perm _ t1).symm
      have hsplit' := (hsplit.filter fun f => decide (big f))
      rw [List.filter_append] at hsplit'
      have hb2 : t2.filter (fun f => decide (big f)) = if exceeds (t2.map A).sum a thr then t2 else [] := by
        have hiff : ∀ f ∈ t2, (big f ↔ exceeds (t2.map A).sum a thr = true) := by
          intro f hf
          rw [hbig f (List.mem_filter.1 hf).1, hcomp2 f hf]
          simp [exceeds, ha.ne']
        by_cases hx : exceeds (t2.map A).sum a thr = true
        · rw [if_pos hx, List.filter_eq_self]
          intro f hf; simpa using (hiff f hf).2 hx
        · rw [if_neg hx, List.filter_eq_nil_iff]
          intro f hf; simpa using fun h => hx ((hiff f hf).1 h)
      rw [hb2] at hsplit'
      by_cases hx : exceeds (t2.map A).sum a thr = true
      · rw [if_pos hx] at hsplit' ⊢
        rw [List.append_assoc]
        exact List.Perm.append_left _ hsplit'.symm
      · rw [if_neg hx] at hsplit' ⊢
        exact List.Perm.append_left _ (by simpa using hsplit'.symm)
    · rw [if_neg hex]
      refine ⟨acc, rfl, ?_⟩
      have : t1.filter (fun f => decide (big f)) = [] := by
        rw [List.filter_eq_nil_iff]
        intro f hf hb
        have hb : big f := by simpa using hb
        apply hex
        have h1 := (hbig f hf).1 hb
        have h2 := componentArea_le hnn f
        simp only [exceeds, decide_eq_true_eq]
        exact ⟨ha.ne', lt_of_lt_of_le h1 (div_le_div_of_nonneg_right h2 ha.le)⟩
      rw [this, List.append_nil]

open Classical in
/-- `delete_exterior_faces` returns, up to order, the triangles of the large components. -/
theorem deleteExterior_spec (srt : KeySort (Nat × Nat) Nat lexOrder.le) {rand : Nat → Nat → Nat}
    (hrand : ∀ k n, 0 < n → rand k n < n) {p : List (K × K)} {t : List Tri} {A : Tri → K} (hA : IsAreaOf p t A)
    (hnn : ∀ f ∈ t, 0 ≤ A f) (hpos : 0 < (t.map A).sum) {thr : K} (hthr : 0 ≤ thr) :
    ∃ res, deleteExteriorFaces srt rand p t thr = some res ∧
      res.Perm (t.filter fun f => decide (thr * (t.map A).sum < componentArea A t f)) := by
  obtain ⟨res, h1, h2⟩ := exteriorLoop_spec srt hrand (p := p) (A := A) hpos hthr
    (fun f => thr * (t.map A).sum < componentArea A t f) (t.length + 2) 0 t [] hA hnn (by omega)
    (fun f _ => (lt_div_iff₀ hpos).symm)
  refine ⟨res, ?_, h2.trans (List.Perm.of_eq ?_)⟩
  swap
  · rw [List.nil_append]; apply List.filter_congr; intro f _; simp
  rw [deleteExteriorFaces, areaSum_eq hA]
  exact h1

end

end OM
