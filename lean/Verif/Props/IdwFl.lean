import Verif.Model.IdwFl
import Verif.Props.Idw
import Verif.Lemmas.Fac
import Verif.Lemmas.CleanFl2
import Verif.Props.CleanFl
import Verif.Props.GenerateFl
/-!
# C132: inverse-distance interpolation in rounded arithmetic
-/
set_option linter.unusedSectionVars false
namespace OM
open Spec

section
variable {K : Type} [Field K] [LinearOrder K] [IsStrictOrderedRing K]

/-- `dot` is a sum, in any order and grouping of rounded additions, of the products, each of them rounded or (fused operation) not. -/
def Spec.DotsUp (fl : K → K) (dot : List K → List K → K) : Prop :=
  ∀ xs ys, xs ≠ [] → xs.length = ys.length → ∃ qs, List.Forall₂ (fun (xy : K × K) q => q = fl (xy.1 * xy.2) ∨ q = xy.1 * xy.2) (xs.zip ys) qs ∧
    RoundedSum fl qs (dot xs ys)

/-- The functions of numpy: sums and scalar products as above, and a power with the relative error `u`. -/
structure Spec.GoodTools (T : IdwTools K) (P : K → K) (u : K) : Prop where
  rel : RelError T.fl u
  sums : SumsUp T.fl T.sum
  dots : DotsUp T.fl T.dot
  power : ∀ d, 0 < d → 0 < P d ∧ |T.pw d - P d| ≤ u * P d
  tiny : 0 < T.tiny

/-- The weighted mean of values `z` with multipliers `m` at distances `d` (triples `(d, m, z)`): `(Σ z m / d^p) / (Σ m / d^p)`. -/
def Spec.inverseDistanceMean (P : K → K) (nb : List (K × K × K)) : K :=
  (nb.map fun n => n.2.2 * (n.2.1 / P n.1)).sum / (nb.map fun n => n.2.1 / P n.1).sum

/-- A rounded sum of numbers that are not negative. -/
theorem roundedSum_fac {fl : K → K} {u : K} (hr : RelError fl u) (h0 : 0 ≤ u) (hu : u < 1) {xs : List K} {v : K} (h : RoundedSum fl xs v) :
    (∀ x ∈ xs, 0 ≤ x) → ∃ f, Fac u xs.length f ∧ v = xs.sum * f := by
  induction h with
  | single x => intro _; exact ⟨1, fac_one h0 hu _, by simp⟩
  | @add a b c x y ha hb hc i1 i2 =>
    intro hx
    have hxa : ∀ x ∈ a, 0 ≤ x := fun z hz => hx z (hc.mem_iff.2 (List.mem_append_left _ hz))
    have hxb : ∀ x ∈ b, 0 ≤ x := fun z hz => hx z (hc.mem_iff.2 (List.mem_append_right _ hz))
    obtain ⟨f, hf, ef⟩ := i1 hxa
    obtain ⟨g, hg, eg⟩ := i2 hxb
    have na := RoundedSum.ne_nil ha
    have nb := RoundedSum.ne_nil hb
    obtain ⟨k, hk, ek⟩ := Fac.sum h0 hu (n := a.length + b.length - 1) (hf.mono h0 hu (by omega)) (hg.mono h0 hu (by omega)) (List.sum_nonneg hxa) (List.sum_nonneg hxb)
    obtain ⟨l, hl, el⟩ := rnd_fac hr h0 hu (x + y)
    refine ⟨k * l, ?_, ?_⟩
    · have := hk.mul hu hl
      rw [hc.length_eq, List.length_append]
      rwa [show a.length + b.length - 1 + 1 = a.length + b.length by omega] at this
    · rw [el, ef, eg, ek, hc.sum_eq, List.sum_append]; ring

/-- A rounded sum of any numbers. -/
theorem roundedSum_abs {fl : K → K} {u : K} (hr : RelError fl u) (h0 : 0 ≤ u) {xs : List K} {v : K} (h : RoundedSum fl xs v) :
    |v - xs.sum| ≤ ((1 + u) ^ xs.length - 1) * (xs.map (|·|)).sum := by
  have nn : ∀ l : List K, 0 ≤ (l.map (|·|)).sum := fun l => List.sum_nonneg (by intro x hx; obtain ⟨y, _, rfl⟩ := List.mem_map.1 hx; exact abs_nonneg y)
  have tri : ∀ l : List K, |l.sum| ≤ (l.map (|·|)).sum := by
    intro l
    induction l with
    | nil => simp
    | cons x l ih => simp only [List.sum_cons, List.map_cons]; exact (abs_add_le _ _).trans (by linarith)
  induction h with
  | single x => simp; nlinarith [abs_nonneg x]
  | @add a b c x y ha hb hc i1 i2 =>
    have na := RoundedSum.ne_nil ha
    have nb := RoundedSum.ne_nil hb
    have sa := nn a
    have sb := nn b
    rw [hc.sum_eq, hc.length_eq, (hc.map _).sum_eq, List.map_append, List.sum_append, List.sum_append, List.length_append]
    have h1 : (1 : K) ≤ 1 + u := by linarith
    set n := a.length + b.length with hn
    have pa : (1 + u) ^ a.length ≤ (1 + u) ^ (n - 1) := pow_le_pow_right₀ h1 (by omega)
    have pb : (1 + u) ^ b.length ≤ (1 + u) ^ (n - 1) := pow_le_pow_right₀ h1 (by omega)
    have pn : (1 + u) ^ n = (1 + u) ^ (n - 1) * (1 + u) := by rw [← pow_succ]; congr 1; omega
    set c := (1 + u) ^ (n - 1) with hcd
    set A := (a.map (|·|)).sum
    set B := (b.map (|·|)).sum
    have k1 : |x - a.sum| ≤ (c - 1) * A := i1.trans (mul_le_mul_of_nonneg_right (by linarith) sa)
    have k2 : |y - b.sum| ≤ (c - 1) * B := i2.trans (mul_le_mul_of_nonneg_right (by linarith) sb)
    have k3 : |x + y - (a.sum + b.sum)| ≤ (c - 1) * (A + B) := by
      have : x + y - (a.sum + b.sum) = (x - a.sum) + (y - b.sum) := by ring
      rw [this]; refine (abs_add_le _ _).trans ?_; linarith
    have k4 : |x + y| ≤ c * (A + B) := by
      have e : x + y = (x + y - (a.sum + b.sum)) + (a.sum + b.sum) := by ring
      have e2 := (abs_add_le a.sum b.sum).trans (add_le_add (tri a) (tri b))
      rw [e]; refine (abs_add_le _ _).trans ?_
      linarith
    have k5 := hr (x + y)
    have : fl (x + y) - (a.sum + b.sum) = (fl (x + y) - (x + y)) + (x + y - (a.sum + b.sum)) := by ring
    rw [this, pn]
    refine (abs_add_le _ _).trans ?_
    have k6 : u * |x + y| ≤ u * (c * (A + B)) := mul_le_mul_of_nonneg_left k4 h0
    have : (c * (1 + u) - 1) * (A + B) = u * (c * (A + B)) + (c - 1) * (A + B) := by ring
    rw [this]; linarith

theorem one_add_pow_fac {u : K} (h0 : 0 ≤ u) (hu : u < 1) (n : Nat) : Fac u n ((1 + u) ^ n) := by
  refine ⟨?_, ?_⟩
  · exact pow_le_pow_left₀ (by linarith) (by linarith) n
  · rw [← mul_pow]
    exact pow_le_one₀ (mul_nonneg (by linarith) (by linarith)) (by nlinarith)

theorem power_fac {T : IdwTools K} {P : K → K} {u : K} (hT : GoodTools T P u) (h0 : 0 ≤ u) (hu : u < 1) {d : K} (hd : 0 < d) :
    ∃ f, Fac u 1 f ∧ T.pw d = P d * f := by
  obtain ⟨hp, he⟩ := hT.power d hd
  refine ⟨T.pw d / P d, ?_, (mul_div_cancel₀ _ hp.ne').symm⟩
  have h' : |T.pw d / P d - 1| ≤ u := by
    rw [div_sub_one hp.ne', abs_div, abs_of_pos hp, div_le_iff₀ hp]; exact he
  rw [abs_le] at h'
  refine ⟨by rw [pow_one]; linarith, ?_⟩
  rw [pow_one]
  nlinarith [mul_nonneg h0 h0, mul_le_mul_of_nonneg_right h'.2 (sub_nonneg.2 hu.le)]

theorem rawWeight_fac {T : IdwTools K} {P : K → K} {u : K} (hT : GoodTools T P u) (h0 : 0 ≤ u) (hu : u < 1) {n : K × K × K} (hd : 0 < n.1) :
    ∃ f, Fac u 3 f ∧ T.fl (T.fl (1 / T.pw n.1) * n.2.1) = n.2.1 / P n.1 * f := by
  obtain ⟨f, hf, ef⟩ := power_fac hT h0 hu hd
  obtain ⟨g, hg, eg⟩ := rnd_fac hT.rel h0 hu (1 / T.pw n.1)
  obtain ⟨k, hk, ek⟩ := rnd_fac hT.rel h0 hu (T.fl (1 / T.pw n.1) * n.2.1)
  refine ⟨f⁻¹ * g * k, ((hf.inv hu).mul hu hg).mul hu hk, ?_⟩
  have := (hT.power n.1 hd).1
  have := hf.pos hu
  rw [ek, eg, ef]
  field_simp

/-- The sum of the computed weights. -/
theorem rawWeights_sum {T : IdwTools K} {P : K → K} {u : K} (hT : GoodTools T P u) (h0 : 0 ≤ u) (hu : u < 1) : ∀ (nb : List (K × K × K)),
    (∀ n ∈ nb, 0 < n.1 ∧ 0 < n.2.1) → ∃ f, Fac u 3 f ∧ (rawWeightsFl T nb).sum = (nb.map fun n => n.2.1 / P n.1).sum * f ∧
      (∀ w ∈ rawWeightsFl T nb, 0 < w) ∧ 0 ≤ (nb.map fun n => n.2.1 / P n.1).sum := by
  intro nb
  induction nb with
  | nil => intro _; exact ⟨1, fac_one h0 hu 3, by simp [rawWeightsFl], by simp [rawWeightsFl], by simp⟩
  | cons n l ih =>
    intro h
    obtain ⟨f, hf, ef, hp, hs⟩ := ih fun m hm => h m (List.mem_cons_of_mem _ hm)
    obtain ⟨h1, h2⟩ := h n (by simp)
    obtain ⟨g, hg, eg⟩ := rawWeight_fac hT h0 hu h1
    have hP := (hT.power n.1 h1).1
    have hw : 0 < n.2.1 / P n.1 := div_pos h2 hP
    obtain ⟨k, hk, ek⟩ := Fac.sum h0 hu hg hf hw.le hs
    refine ⟨k, hk, ?_, ?_, ?_⟩
    · simp only [rawWeightsFl, List.map_cons, List.sum_cons] at ef ⊢
      rw [ef, eg, ek]
    · intro w hw'
      simp only [rawWeightsFl, List.map_cons, List.mem_cons] at hw'
      rcases hw' with rfl | hw'
      · rw [eg]; exact mul_pos hw (hg.pos hu)
      · exact hp w hw'
    · simp only [List.map_cons, List.sum_cons]; linarith

/-- The products of the scalar product against the exact ones: lists. -/
theorem dot_terms {T : IdwTools K} {P : K → K} {u : K} (hT : GoodTools T P u) (h0 : 0 ≤ u) (hu : u < 1) {S F W : K} {N : Nat} (hS : 0 < S) (hF : Fac u N F) (hW : W = S * F)
    {e : K} (he : ∀ f, Fac u (N + 5) f → |f - 1| ≤ e) :
    ∀ (nb : List (K × K × K)) (qs : List K), (∀ n ∈ nb, 0 < n.1 ∧ 0 < n.2.1) →
    List.Forall₂ (fun (xy : K × K) q => q = T.fl (xy.1 * xy.2) ∨ q = xy.1 * xy.2)
      (((rawWeightsFl T nb).map fun x => T.fl (x / W)).zip (nb.map fun n => n.2.2)) qs →
    |qs.sum - (nb.map fun n => n.2.2 * (n.2.1 / P n.1)).sum / S| ≤ e * ((nb.map fun n => |n.2.2| * (n.2.1 / P n.1)).sum / S) ∧
      (qs.map (|·|)).sum ≤ (1 + e) * ((nb.map fun n => |n.2.2| * (n.2.1 / P n.1)).sum / S) := by
  intro nb
  induction nb with
  | nil =>
    intro qs _ h
    simp only [rawWeightsFl, List.map_nil, List.zip_nil_left, List.forall₂_nil_left_iff] at h
    subst h
    simp
  | cons n l ih =>
    intro qs hpos h
    simp only [rawWeightsFl, List.map_cons, List.zip_cons_cons, List.forall₂_cons_left_iff] at h
    obtain ⟨q, qs', hq, hqs, rfl⟩ := h
    obtain ⟨i1, i2⟩ := ih qs' (fun m hm => hpos m (List.mem_cons_of_mem _ hm)) hqs
    obtain ⟨h1, h2⟩ := hpos n (by simp)
    obtain ⟨g, hg, eg⟩ := rawWeight_fac hT h0 hu h1
    have hP := (hT.power n.1 h1).1
    have hwp : 0 < n.2.1 / P n.1 := div_pos h2 hP
    obtain ⟨k, hk, ek⟩ := rnd_fac hT.rel h0 hu (n.2.1 / P n.1 * g / W)
    obtain ⟨m, hm, em⟩ : ∃ m, Fac u 1 m ∧ q = n.2.1 / P n.1 * g / W * k * n.2.2 * m := by
      rw [eg, ek] at hq
      rcases hq with hq | hq
      · obtain ⟨m, hm, em⟩ := rnd_fac hT.rel h0 hu (n.2.1 / P n.1 * g / W * k * n.2.2)
        exact ⟨m, hm, by rw [hq, em]⟩
      · exact ⟨1, fac_one h0 hu 1, by rw [hq, mul_one]⟩
    have hall : Fac u (N + 5) (F⁻¹ * (g * k * m)) := (hF.inv hu).mul hu ((hg.mul hu hk).mul hu hm)
    have herr := he _ hall
    have hFp := hF.pos hu
    have eq : q = n.2.2 * (n.2.1 / P n.1) / S * (F⁻¹ * (g * k * m)) := by
      rw [em, hW]; field_simp
    generalize F⁻¹ * (g * k * m) = f at *
    have hmag : |n.2.2 * (n.2.1 / P n.1) / S| = |n.2.2| * (n.2.1 / P n.1) / S := by
      rw [abs_div, abs_mul, abs_of_pos hwp, abs_of_pos hS]
    have hnn : 0 ≤ |n.2.2| * (n.2.1 / P n.1) / S := by positivity
    simp only [List.map_cons, List.sum_cons, add_div]
    generalize (l.map fun n => n.2.2 * (n.2.1 / P n.1)).sum / S = X at *
    generalize (l.map fun n => |n.2.2| * (n.2.1 / P n.1)).sum / S = Y at *
    generalize n.2.2 * (n.2.1 / P n.1) / S = x at *
    generalize |n.2.2| * (n.2.1 / P n.1) / S = y at *
    constructor
    · rw [eq, show x * f + qs'.sum - (x + X) = x * (f - 1) + (qs'.sum - X) by ring]
      refine (abs_add_le _ _).trans ?_
      rw [abs_mul, hmag]
      have := mul_le_mul_of_nonneg_left herr hnn
      linarith
    · rw [eq, abs_mul, hmag]
      have hf1 : |f| ≤ 1 + e := by
        have := abs_add_le (f - 1) 1
        simp only [sub_add_cancel, abs_one] at this
        linarith
      have := mul_le_mul_of_nonneg_left hf1 hnn
      linarith

/-- **C132** (1) The computed mean is a number and differs from the exact one by at most `3 (n + 4) u` times the mean of the absolute values, `n` neighbours, whatever the
order of summation. -/
theorem C132_error {T : IdwTools K} {P : K → K} {u : K} (hT : GoodTools T P u) (h0 : 0 ≤ u) {nb : List (K × K × K)} (hne : nb ≠ [])
    (hu : (nb.length + 8 : K) * u ≤ 1 / 10) (hpos : ∀ n ∈ nb, 0 < n.1 ∧ 0 < n.2.1) :
    ∃ v, weightedMeanFl T nb = some v ∧
      |v - inverseDistanceMean P nb| ≤ 3 * (nb.length + 4) * u * inverseDistanceMean P (nb.map fun n => (n.1, n.2.1, |n.2.2|)) := by
  have hlen : 1 ≤ nb.length := List.length_pos_iff.2 hne
  have hN : (1 : K) ≤ nb.length := by exact_mod_cast hlen
  have hu1 : u < 1 := by nlinarith
  obtain ⟨f, hf, ef, hwp, hs⟩ := rawWeights_sum hT h0 hu1 nb hpos
  have hS : 0 < (nb.map fun n => n.2.1 / P n.1).sum := by
    apply List.sum_pos
    · intro x hx
      obtain ⟨n, hn, rfl⟩ := List.mem_map.1 hx
      exact div_pos (hpos n hn).2 (hT.power _ (hpos n hn).1).1
    · simpa using hne
  have hwne : rawWeightsFl T nb ≠ [] := by simpa [rawWeightsFl] using hne
  obtain ⟨g, hg, eg⟩ := roundedSum_fac hT.rel h0 hu1 (hT.sums.2 _ hwne) fun w hw => (hwp w hw).le
  have hwl : (rawWeightsFl T nb).length = nb.length := by simp [rawWeightsFl]
  rw [hwl] at hg
  have hFac : Fac u (3 + nb.length) (f * g) := hf.mul hu1 hg
  have hWeq : T.sum (rawWeightsFl T nb) = (nb.map fun n => n.2.1 / P n.1).sum * (f * g) := by rw [eg, ef, mul_assoc]
  have hWpos : 0 < T.sum (rawWeightsFl T nb) := by rw [hWeq]; exact mul_pos hS (hFac.pos hu1)
  obtain ⟨qs, hqs, hdot⟩ := hT.dots ((rawWeightsFl T nb).map fun x => T.fl (x / T.sum (rawWeightsFl T nb))) (nb.map fun n => n.2.2) (by simpa using hwne)
    (by simp [hwl])
  have hql : qs.length = nb.length := by
    have := hqs.length_eq
    simp [hwl] at this
    exact this.symm
  obtain ⟨e1, e2⟩ := dot_terms hT h0 hu1 (e := 10 / 9 * (nb.length + 8) * u) hS hFac hWeq (by
    intro f' hf'
    have := hf'.err h0 (by push_cast; linarith) hu1
    push_cast at this
    have e : 10 / 9 * (3 + (nb.length : K) + 5) * u = 10 / 9 * (nb.length + 8) * u := by ring
    linarith) nb qs hpos hqs
  have e3 := roundedSum_abs hT.rel h0 hdot
  rw [hql] at e3
  have e4 := (one_add_pow_fac h0 hu1 nb.length).err h0 (by nlinarith) hu1
  refine ⟨T.dot ((rawWeightsFl T nb).map fun x => T.fl (x / T.sum (rawWeightsFl T nb))) (nb.map fun n => n.2.2), ?_, ?_⟩
  · unfold weightedMeanFl
    simp only
    rw [if_neg hWpos.ne']
  · have eqY : inverseDistanceMean P (nb.map fun n => (n.1, n.2.1, |n.2.2|)) =
        (nb.map fun n => |n.2.2| * (n.2.1 / P n.1)).sum / (nb.map fun n => n.2.1 / P n.1).sum := by
      unfold inverseDistanceMean
      simp only [List.map_map]
      rfl
    have hY : 0 ≤ (nb.map fun n => |n.2.2| * (n.2.1 / P n.1)).sum / (nb.map fun n => n.2.1 / P n.1).sum := by
      refine div_nonneg (List.sum_nonneg ?_) hS.le
      intro x hx
      obtain ⟨n, hn, rfl⟩ := List.mem_map.1 hx
      exact mul_nonneg (abs_nonneg _) (div_pos (hpos n hn).2 (hT.power _ (hpos n hn).1).1).le
    rw [eqY]
    unfold inverseDistanceMean
    generalize (nb.map fun n => |n.2.2| * (n.2.1 / P n.1)).sum / (nb.map fun n => n.2.1 / P n.1).sum = Y at *
    generalize (nb.map fun n => n.2.2 * (n.2.1 / P n.1)).sum / (nb.map fun n => n.2.1 / P n.1).sum = X at *
    generalize T.dot _ _ = v at *
    generalize (nb.length : K) = N at *
    rw [show v - X = (v - qs.sum) + (qs.sum - X) by ring]
    refine (abs_add_le _ _).trans ?_
    have hg1 : (1 + u) ^ nb.length - 1 ≤ 10 / 9 * N * u := (le_abs_self _).trans e4
    have hg0 : 0 ≤ 10 / 9 * N * u := by positivity
    have hqn : 0 ≤ (qs.map (|·|)).sum := List.sum_nonneg (by intro x hx; obtain ⟨y, _, rfl⟩ := List.mem_map.1 hx; exact abs_nonneg y)
    have e5 : |v - qs.sum| ≤ 10 / 9 * N * u * ((1 + 10 / 9 * (N + 8) * u) * Y) :=
      e3.trans (mul_le_mul hg1 e2 hqn hg0)
    have e6 : 1 + 10 / 9 * (N + 8) * u ≤ 10 / 9 := by linarith
    have e7 : 10 / 9 * N * u * ((1 + 10 / 9 * (N + 8) * u) * Y) ≤ 10 / 9 * N * u * (10 / 9 * Y) :=
      mul_le_mul_of_nonneg_left (mul_le_mul_of_nonneg_right e6 hY) hg0
    have e8 : 0 ≤ u * Y := mul_nonneg h0 hY
    have e9 : 0 ≤ N * (u * Y) := mul_nonneg (by linarith) e8
    nlinarith

end
end OM
