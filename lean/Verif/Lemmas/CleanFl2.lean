import Verif.Lemmas.CleanFl
import Verif.Props.SimpVolFl
/-!
# Rounded sums, and which components `delete_exterior_faces` keeps when areas are rounded
-/
set_option linter.unusedSectionVars false
namespace OM
open Spec

section
variable {K : Type} [Field K] [LinearOrder K] [IsStrictOrderedRing K]

/-- `v` is obtained from the numbers `xs` by rounded additions in some order and grouping. -/
inductive Spec.RoundedSum (fl : K → K) : List K → K → Prop
  | single (x : K) : RoundedSum fl [x] x
  | add {a b c : List K} {x y : K} : RoundedSum fl a x → RoundedSum fl b y → c.Perm (a ++ b) → RoundedSum fl c (fl (x + y))

/-- `sum` adds up the entries of an array by rounded additions in some order and grouping; the sum of an empty array is zero. -/
def Spec.SumsUp (fl : K → K) (sum : List K → K) : Prop := sum [] = 0 ∧ ∀ xs, xs ≠ [] → RoundedSum fl xs (sum xs)

theorem RoundedSum.ne_nil {fl : K → K} {xs : List K} {v : K} (h : RoundedSum fl xs v) : 1 ≤ xs.length := by
  induction h with
  | single x => simp
  | add _ _ hc i1 i2 => rw [hc.length_eq, List.length_append]; omega

theorem sum_nonneg_list {xs : List K} (h : ∀ x ∈ xs, 0 ≤ x) : 0 ≤ xs.sum := List.sum_nonneg h

/-- The error of a rounded sum of nonnegative numbers. -/
theorem roundedSum_close {fl : K → K} {u : K} (hr : RelError fl u) (h0 : 0 ≤ u) {xs : List K} {v : K} (h : RoundedSum fl xs v) :
    (∀ x ∈ xs, 0 ≤ x) → |v - xs.sum| ≤ ((1 + u) ^ xs.length - 1) * xs.sum := by
  induction h with
  | single x => intro hx; have := hx x (by simp); simp; nlinarith
  | @add a b c x y ha hb hc i1 i2 =>
    intro hx
    have hxa : ∀ x ∈ a, 0 ≤ x := fun z hz => hx z (hc.mem_iff.2 (List.mem_append_left _ hz))
    have hxb : ∀ x ∈ b, 0 ≤ x := fun z hz => hx z (hc.mem_iff.2 (List.mem_append_right _ hz))
    have j1 := i1 hxa
    have j2 := i2 hxb
    have sa := sum_nonneg_list hxa
    have sb := sum_nonneg_list hxb
    have na := RoundedSum.ne_nil ha
    have nb := RoundedSum.ne_nil hb
    rw [hc.sum_eq, hc.length_eq, List.sum_append, List.length_append]
    have h1 : (1 : K) ≤ 1 + u := by linarith
    set n := a.length + b.length with hn
    have pa : (1 + u) ^ a.length ≤ (1 + u) ^ (n - 1) := pow_le_pow_right₀ h1 (by omega)
    have pb : (1 + u) ^ b.length ≤ (1 + u) ^ (n - 1) := pow_le_pow_right₀ h1 (by omega)
    have pn : (1 + u) ^ n = (1 + u) ^ (n - 1) * (1 + u) := by rw [← pow_succ]; congr 1; omega
    set c := (1 + u) ^ (n - 1) with hcd
    have k1 : |x - a.sum| ≤ (c - 1) * a.sum := j1.trans (mul_le_mul_of_nonneg_right (by linarith) sa)
    have k2 : |y - b.sum| ≤ (c - 1) * b.sum := j2.trans (mul_le_mul_of_nonneg_right (by linarith) sb)
    have k3 : |x + y - (a.sum + b.sum)| ≤ (c - 1) * (a.sum + b.sum) := by
      have : x + y - (a.sum + b.sum) = (x - a.sum) + (y - b.sum) := by ring
      rw [this]; refine (abs_add_le _ _).trans ?_; linarith
    have k4 : |x + y| ≤ c * (a.sum + b.sum) := by
      have : x + y = (x + y - (a.sum + b.sum)) + (a.sum + b.sum) := by ring
      rw [this]; refine (abs_add_le _ _).trans ?_
      rw [abs_of_nonneg (add_nonneg sa sb)]; linarith
    have k5 := hr (x + y)
    have : fl (x + y) - (a.sum + b.sum) = (fl (x + y) - (x + y)) + (x + y - (a.sum + b.sum)) := by ring
    rw [this, pn]
    refine (abs_add_le _ _).trans ?_
    have k6 : u * |x + y| ≤ u * (c * (a.sum + b.sum)) := mul_le_mul_of_nonneg_left k4 h0
    have : (c * (1 + u) - 1) * (a.sum + b.sum) = u * (c * (a.sum + b.sum)) + (c - 1) * (a.sum + b.sum) := by ring
    rw [this]; linarith

/-- Every triangle has the area `A f`, and the sizes of the products from which it is computed are at most `κ` times the area. -/
def Spec.WellShaped (p : List (K × K)) (t : List Tri) (A : Tri → K) (κ : K) : Prop :=
  ∀ f ∈ t, ∃ x y z, corners p f = [some x, some y, some z] ∧ A f = signedArea x y z ∧ areaScale x y z ≤ κ * A f

theorem simpVolFl_spec {fl : K → K} {u κ : K} (hr : RelError fl u) (h0 : 0 ≤ u) (hu : u ≤ 1 / 128) {p : List (K × K)} {A : Tri → K} :
    ∀ {t : List Tri}, WellShaped p t A κ → ∃ r, simpVolFl fl p t = some r ∧
      List.Forall₂ (fun f v => |v - A f| ≤ 3 * u * κ * A f) t r
  | [], _ => ⟨[], rfl, .nil⟩
  | f :: t, h => by
    obtain ⟨r, h1, h2⟩ := simpVolFl_spec hr h0 hu fun g hg => h g (List.mem_cons_of_mem _ hg)
    obtain ⟨x, y, z, c1, c2, c3⟩ := h f (by simp)
    simp only [corners, List.cons.injEq, and_true] at c1
    refine ⟨triVolFl fl x y z :: r, ?_, .cons ?_ h2⟩
    · rw [simpVolFl, c1.1, c1.2.1, c1.2.2, h1]
    · rw [c2]
      refine (C115_error hr h0 hu x y z).trans ?_
      rw [mul_assoc (3 * u), ← c2]
      exact mul_le_mul_of_nonneg_left c3 (by linarith)

theorem forall₂_sum_err {A : Tri → K} {α : K} {t : List Tri} {r : List K} (h : List.Forall₂ (fun f v => |v - A f| ≤ α * A f) t r) :
    |r.sum - (t.map A).sum| ≤ α * (t.map A).sum := by
  induction h with
  | nil => simp
  | @cons f v t r h1 _ ih =>
    rw [List.map_cons, List.sum_cons, List.sum_cons, mul_add]
    have : v + r.sum - (A f + (t.map A).sum) = (v - A f) + (r.sum - (t.map A).sum) := by ring
    rw [this]
    exact (abs_add_le _ _).trans (add_le_add h1 ih)

/-- The relative error of a sum of `n` areas. -/
def areaErr (u κ : K) (n : Nat) : K := 3 * u * κ + ((1 + u) ^ n - 1) * (1 + 3 * u * κ)

theorem areaSumFl_spec {E : EngineFl K} {u κ : K} (hr : RelError E.fl u) (h0 : 0 ≤ u) (hu : u ≤ 1 / 128) (hs : SumsUp E.fl E.sum) (hκ : 0 ≤ κ)
    (hκ1 : 3 * u * κ ≤ 1) {p : List (K × K)} {A : Tri → K} {t : List Tri} (hw : WellShaped p t A κ) (hnn : ∀ f ∈ t, 0 ≤ A f) {n : Nat}
    (hn : t.length ≤ n) : ∃ v, areaSumFl E p t = some v ∧ |v - (t.map A).sum| ≤ areaErr u κ n * (t.map A).sum := by
  obtain ⟨r, h1, h2⟩ := simpVolFl_spec hr h0 hu hw
  refine ⟨E.sum r, by rw [areaSumFl, h1]; rfl, ?_⟩
  have hS : 0 ≤ (t.map A).sum := sum_nonneg_list (by
    intro x hx; obtain ⟨f, hf, rfl⟩ := List.mem_map.1 hx; exact hnn f hf)
  have hα : 0 ≤ 3 * u * κ := by positivity
  have hr0 : ∀ v ∈ r, 0 ≤ v := by
    intro v hv
    obtain ⟨f, hf, hfv⟩ := forall₂_mem_right h2 v hv
    have := (abs_le.1 hfv).1
    have := hnn f hf
    nlinarith
  have h3 := forall₂_sum_err h2
  have hlen : r.length ≤ n := by rw [← h2.length_eq]; exact hn
  have h4 : |E.sum r - r.sum| ≤ ((1 + u) ^ n - 1) * r.sum := by
    by_cases hne : r = []
    · subst hne; rw [hs.1]; simp
    · refine (roundedSum_close hr h0 (hs.2 r hne) hr0).trans (mul_le_mul_of_nonneg_right ?_ (sum_nonneg_list hr0))
      have : (1 + u) ^ r.length ≤ (1 + u) ^ n := pow_le_pow_right₀ (by linarith) hlen
      linarith
  have h5 : r.sum ≤ (1 + 3 * u * κ) * (t.map A).sum := by have := (abs_le.1 h3).2; linarith
  have h6 : 0 ≤ (1 + u) ^ n - 1 := by have := one_le_pow₀ (n := n) (show (1 : K) ≤ 1 + u by linarith); linarith
  have : E.sum r - (t.map A).sum = (E.sum r - r.sum) + (r.sum - (t.map A).sum) := by ring
  rw [this]
  refine (abs_add_le _ _).trans ?_
  have h7 := mul_le_mul_of_nonneg_left h5 h6
  unfold areaErr
  calc |E.sum r - r.sum| + |r.sum - (t.map A).sum| ≤ ((1 + u) ^ n - 1) * ((1 + 3 * u * κ) * (t.map A).sum) + 3 * u * κ * (t.map A).sum :=
      add_le_add (h4.trans h7) h3
    _ = _ := by ring

/-- The rounded quotient of two approximate areas, compared with the threshold. -/
theorem exceedsFl_decides {fl : K → K} {u η thr an a S T : K} (hr : RelError fl u) (h0 : 0 ≤ u) (hu : u ≤ 1 / 128) (hη : 0 ≤ η) (hη1 : η < 1)
    (hthr : 0 ≤ thr) (hS : 0 ≤ S) (hT : 0 < T) (h1 : |an - S| ≤ η * S) (h2 : |a - T| ≤ η * T) :
    (thr * ((1 + η) * T) < (1 - u) * ((1 - η) * S) → exceedsFl fl an a thr = true) ∧
      ((1 + u) * ((1 + η) * S) ≤ thr * ((1 - η) * T) → exceedsFl fl an a thr = false) := by
  obtain ⟨b1, b2⟩ := abs_le.1 h1
  obtain ⟨c1, c2⟩ := abs_le.1 h2
  have ha : 0 < a := by nlinarith
  have han : 0 ≤ an := by nlinarith
  have hq : 0 ≤ an / a := div_nonneg han ha.le
  have he := abs_le.1 (hr (an / a))
  rw [abs_of_nonneg hq] at he
  constructor
  · intro h
    simp only [exceedsFl, decide_eq_true_eq]
    refine ⟨ha.ne', lt_of_lt_of_le ?_ (show (1 - u) * (an / a) ≤ fl (an / a) by linarith [he.1])⟩
    rw [← mul_div_assoc, lt_div_iff₀ ha]
    have k1 : thr * a ≤ thr * ((1 + η) * T) := mul_le_mul_of_nonneg_left (by linarith) hthr
    have k2 : (1 - u) * ((1 - η) * S) ≤ (1 - u) * an := mul_le_mul_of_nonneg_left (by linarith) (by linarith)
    linarith
  · intro h
    simp only [exceedsFl, decide_eq_false_iff_not, not_and, not_lt]
    intro _
    refine le_trans (show fl (an / a) ≤ (1 + u) * (an / a) by linarith [he.2]) ?_
    rw [← mul_div_assoc, div_le_iff₀ ha]
    have k1 : thr * ((1 - η) * T) ≤ thr * a := mul_le_mul_of_nonneg_left (by linarith) hthr
    have k2 : (1 + u) * an ≤ (1 + u) * ((1 + η) * S) := mul_le_mul_of_nonneg_left (by linarith) (by linarith)
    linarith

open Classical in
/-- The loop keeps whole components: all that are clearly above the threshold (`hi`), none that is clearly below (`lo`). -/
theorem exteriorLoopFl_spec {E : EngineFl K} {rand : Nat → Nat → Nat} (hrand : ∀ k n, 0 < n → rand k n < n) {p : List (K × K)} {A : Tri → K} {a thr : K}
    (ar : List Tri → K) (hi lo : K → Prop) (hmono : ∀ x y, x ≤ y → hi x → hi y) (t : List Tri) (hnn : ∀ f ∈ t, 0 ≤ A f)
    (har : ∀ l, l.Sublist t → areaSumFl E p l = some (ar l))
    (hhi : ∀ l, l.Sublist t → hi (l.map A).sum → exceedsFl E.fl (ar l) a thr = true)
    (hlo : ∀ l, l.Sublist t → lo (l.map A).sum → exceedsFl E.fl (ar l) a thr = false)
    (hnil : exceedsFl E.fl (ar []) a thr = false) :
    ∀ (fuel k : Nat) (t1 acc : List Tri), t1.Sublist t → t1.length < fuel →
      ∃ res, ∃ kept : Tri → Prop, exteriorLoopFl E rand p a thr fuel k t1 acc (ar t1) = some res ∧
        res.Perm (acc ++ t1.filter fun f => decide (kept f)) ∧
        (∀ f ∈ t1, hi (componentArea A t1 f) → kept f) ∧ (∀ f ∈ t1, lo (componentArea A t1 f) → ¬ kept f) ∧
        (∀ f g, Connected t1 f g → (kept f ↔ kept g))
  | 0, _, _, _, _, h => by omega
  | fuel + 1, k, t1, acc, hsub, hfuel => by
    rw [exteriorLoopFl]
    by_cases hex : exceedsFl E.fl (ar t1) a thr = true
    · rw [if_pos hex]
      have hne : t1 ≠ [] := by
        rintro rfl
        rw [hnil] at hex; simp at hex
      have hpos : 0 < t1.length := List.length_pos_iff.2 hne
      have hr := hrand k t1.length hpos
      obtain ⟨nflag, h1, h2, h3⟩ := depthFirstSearch_spec E.srtE (List.getElem?_eq_getElem hr)
      rw [h1]
      dsimp only
      set f0 := t1[rand k t1.length] with hf0
      have hf0m : f0 ∈ t1 := List.getElem_mem _
      have hsel : ∀ b, selectRows b nflag t1 = t1.filter fun g => decide (Connected t1 f0 g) == b := fun b =>
        selectRows_eq b (fun g => decide (Connected t1 f0 g)) nflag t1 h2 fun k g hk => by
          rw [decide_eq_true_eq]; exact h3 k g hk
      have ht2 : selectRows true nflag t1 = t1.filter fun g => decide (Connected t1 f0 g) := by
        rw [hsel]; apply List.filter_congr; intro g _; simp
      have hrest : selectRows false nflag t1 = t1.filter fun g => !decide (Connected t1 f0 g) := by
        rw [hsel]; apply List.filter_congr; intro g _; simp
      rw [ht2, hrest]
      set t2 := t1.filter fun g => decide (Connected t1 f0 g) with ht2d
      set rest := t1.filter fun g => !decide (Connected t1 f0 g) with hrestd
      have hs2 : t2.Sublist t := List.filter_sublist.trans hsub
      have hsr : rest.Sublist t := List.filter_sublist.trans hsub
      rw [har t2 hs2, har rest hsr]
      dsimp only
      have hlen : rest.length < t1.length := by
        rw [hrestd, List.length_filter_lt_length_iff_exists]
        exact ⟨f0, hf0m, by simp [Connected.refl hf0m]⟩
      have hcomp2 : ∀ f ∈ t2, componentArea A t1 f = (t2.map A).sum := by
        intro f hf
        have hff : Connected t1 f0 f := by simpa using (List.mem_filter.1 hf).2
        unfold componentArea
        congr 2
        rw [ht2d]
        apply List.filter_congr
        intro g _
        congr 1
        exact propext ⟨fun h => Connected.trans hff h, fun h => Connected.trans (Connected.symm hff) h⟩
      have hin : ∀ f, f ∈ rest ↔ f ∈ t1 ∧ ¬ Connected t1 f0 f := by
        intro f; rw [hrestd, List.mem_filter]; simp
      have hall : ∀ f ∈ rest, ∀ g, Connected t1 f g → g ∈ rest := by
        intro f hf g hg
        obtain ⟨hf1, hf2⟩ := (hin f).1 hf
        exact (hin g).2 ⟨Connected.mem_right hg, fun h => hf2 (Connected.trans h (Connected.symm hg))⟩
      have hcompr : ∀ f ∈ rest, componentArea A rest f = componentArea A t1 f := by
        intro f hf
        obtain ⟨hf1, hf2⟩ := (hin f).1 hf
        unfold componentArea
        congr 2
        rw [hrestd, List.filter_filter]
        apply List.filter_congr
        intro g hg
        rw [← hrestd]
        by_cases h : Connected t1 f g
        · have h' : Connected rest f g := Connected.restrict (hall f hf) h
          have h'' : ¬ Connected t1 f0 g := fun hh => hf2 (Connected.trans hh (Connected.symm h))
          simp [h, h', h'']
        · have h' : ¬ Connected rest f g := fun hh =>
            h (Connected.mono (fun x hx => (List.mem_filter.1 hx).1) hh)
          simp [h, h']
      obtain ⟨res, kept, k1, k2, k3, k4, k5⟩ := exteriorLoopFl_spec hrand ar hi lo hmono t hnn har hhi hlo hnil fuel (k + 1) rest
        (if exceedsFl E.fl (ar t2) a thr then acc ++ t2 else acc) hsr (by omega)
      obtain ⟨kept', hk1, hk2⟩ : ∃ kept' : Tri → Prop, (∀ f, Connected t1 f0 f → (kept' f ↔ exceedsFl E.fl (ar t2) a thr = true)) ∧
          ∀ f, ¬ Connected t1 f0 f → (kept' f ↔ kept f) :=
        ⟨fun f => (Connected t1 f0 f ∧ exceedsFl E.fl (ar t2) a thr = true) ∨ (¬ Connected t1 f0 f ∧ kept f), fun f h => by simp [h], fun f h => by simp [h]⟩
      refine ⟨res, kept', k1, k2.trans ?_, ?_, ?_, ?_⟩
      · have hsplit : t1.Perm (t2 ++ rest) := (List.filter_append_perm _ t1).symm
        have hsplit' := (hsplit.filter fun f => decide (kept' f))
        rw [List.filter_append] at hsplit'
        have hbr : rest.filter (fun f => decide (kept' f)) =
            rest.filter fun f => decide (kept f) := by
          apply List.filter_congr
          intro f hf
          simp only [hk2 f ((hin f).1 hf).2]
        have hb2 : t2.filter (fun f => decide (kept' f)) =
            if exceedsFl E.fl (ar t2) a thr then t2 else [] := by
          have hc : ∀ f ∈ t2, Connected t1 f0 f := fun f hf => by simpa using (List.mem_filter.1 hf).2
          by_cases hx : exceedsFl E.fl (ar t2) a thr = true
          · rw [if_pos hx, List.filter_eq_self]
            intro f hf; simp [hk1 f (hc f hf), hx]
          · rw [if_neg hx, List.filter_eq_nil_iff]
            intro f hf; simp [hk1 f (hc f hf), hx]
        rw [hb2, hbr] at hsplit'
        by_cases hx : exceedsFl E.fl (ar t2) a thr = true
        · rw [if_pos hx] at hsplit' ⊢
          rw [List.append_assoc]
          exact List.Perm.append_left _ hsplit'.symm
        · rw [if_neg hx] at hsplit' ⊢
          exact List.Perm.append_left _ (by simpa using hsplit'.symm)
      · intro f hf hfh
        by_cases hc : Connected t1 f0 f
        · rw [hk1 f hc]
          rw [hcomp2 f (List.mem_filter.2 ⟨hf, by simpa using hc⟩)] at hfh
          exact hhi t2 hs2 hfh
        · rw [hk2 f hc]
          have hfr := (hin f).2 ⟨hf, hc⟩
          exact k3 f hfr (by rw [hcompr f hfr]; exact hfh)
      · intro f hf hfl
        by_cases hc : Connected t1 f0 f
        · rw [hk1 f hc]
          rw [hcomp2 f (List.mem_filter.2 ⟨hf, by simpa using hc⟩)] at hfl
          rw [hlo t2 hs2 hfl]; simp
        · rw [hk2 f hc]
          have hfr := (hin f).2 ⟨hf, hc⟩
          exact k4 f hfr (by rw [hcompr f hfr]; exact hfl)
      · intro f g hfg
        by_cases hc : Connected t1 f0 f
        · rw [hk1 f hc, hk1 g (Connected.trans hc hfg)]
        · have hc' : ¬ Connected t1 f0 g := fun h => hc (Connected.trans h (Connected.symm hfg))
          rw [hk2 f hc, hk2 g hc']
          have hfr := (hin f).2 ⟨Connected.mem_left hfg, hc⟩
          exact k5 f g (Connected.restrict (hall f hfr) hfg)
    · rw [if_neg hex]
      refine ⟨acc, fun _ => False, rfl, by simp, ?_, fun _ _ _ h => h, fun _ _ _ => Iff.rfl⟩
      intro f hf hfh
      exact hex (hhi t1 hsub (hmono _ _ (componentArea_le (fun g hg => hnn g (hsub.subset hg)) f) hfh))

end

end OM
