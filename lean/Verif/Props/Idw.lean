import Verif.Model.Idw
import Mathlib.Analysis.SpecialFunctions.Pow.Real
import Mathlib.Algebra.Order.BigOperators.Group.List
import Mathlib.Algebra.BigOperators.Ring.List
import Mathlib.Tactic.Linarith
import Mathlib.Tactic.FieldSimp
import Mathlib.Tactic.NormNum
/-!
# Properties of inverse-distance weighting (C35)
-/
namespace OM
set_option linter.unusedSectionVars false

section
variable {K : Type} [Field K] [LinearOrder K] [IsStrictOrderedRing K]

/-- A valid answer of the neighbour query: sorted by distance, distances not negative, indices in range. -/
structure ValidQuery (m : Nat) (nb : List (K × Nat)) : Prop where
  nonempty : nb ≠ []
  sorted : nb.Pairwise fun a b => a.1 ≤ b.1
  nonneg : ∀ n ∈ nb, 0 ≤ n.1
  inRange : ∀ n ∈ nb, n.2 < m

theorem neighbourData_spec {wts : Option (List K)} {z : List (Option K)} : ∀ {nb : List (K × Nat)} {r : List (K × K × K)},
    neighbourData wts z nb = some r → List.Forall₂ (fun n t => t.1 = n.1 ∧ z[n.2]? = some (some t.2.2) ∧
      multiplier wts n.2 = some t.2.1) nb r := by
  intro nb
  induction nb with
  | nil => intro r h; simp [neighbourData] at h; subst h; exact .nil
  | cons n l ih =>
    obtain ⟨d, ix⟩ := n
    intro r h
    unfold neighbourData at h
    split at h
    · rename_i v m r' h1 h2 h3
      rw [Option.some.injEq] at h
      subst h
      refine .cons ⟨rfl, ?_, ?_⟩ (ih h3)
      · unfold neighbourValue at h1
        rw [Option.join_eq_some_iff] at h1
        exact h1
      · exact h2
    · simp at h

theorem neighbourData_isSome {wts : Option (List K)} {z : List (Option K)} : ∀ {nb : List (K × Nat)},
    (∀ n ∈ nb, ∃ v, z[n.2]? = some (some v)) → (∀ w, wts = some w → ∀ n ∈ nb, ∃ m, w[n.2]? = some m) →
    ∃ r, neighbourData wts z nb = some r := by
  intro nb
  induction nb with
  | nil => intro _ _; exact ⟨[], rfl⟩
  | cons n l ih =>
    obtain ⟨d, ix⟩ := n
    intro hz hw
    obtain ⟨r, hr⟩ := ih (fun n hn => hz n (List.mem_cons_of_mem _ hn)) fun w h n hn => hw w h n (List.mem_cons_of_mem _ hn)
    obtain ⟨v, hv⟩ := hz (d, ix) List.mem_cons_self
    have hv' : neighbourValue z ix = some v := by simp only at hv; simp [neighbourValue, hv]
    cases wts with
    | none => exact ⟨(d, 1, v) :: r, by simp only [neighbourData, hv', hr, multiplier]⟩
    | some w =>
      obtain ⟨m, hm⟩ := hw w rfl (d, ix) List.mem_cons_self
      simp only at hm
      exact ⟨(d, m, v) :: r, by simp only [neighbourData, hv', hr, multiplier, hm]⟩

theorem sum_map_pos {A : Type} {f : A → K} : ∀ {l : List A}, l ≠ [] → (∀ a ∈ l, 0 < f a) → 0 < (l.map f).sum := by
  intro l
  induction l with
  | nil => intro h; exact absurd rfl h
  | cons a l ih =>
    intro _ h
    rw [List.map_cons, List.sum_cons]
    have h1 := h a List.mem_cons_self
    by_cases hl : l = []
    · subst hl; simpa using h1
    · exact add_pos h1 (ih hl fun b hb => h b (List.mem_cons_of_mem _ hb))

/-- A weighted mean lies between the bounds of the values. -/
theorem weightedMean_between {pw : K → K} {r : List (K × K × K)} (hr : r ≠ []) (hw : ∀ t ∈ r, 0 < pw t.1 ∧ 0 < t.2.1) {lo hi : K}
    (hb : ∀ t ∈ r, lo ≤ t.2.2 ∧ t.2.2 ≤ hi) : ∃ v, weightedMean pw r = some v ∧ lo ≤ v ∧ v ≤ hi := by
  have hpos : ∀ t ∈ r, 0 < 1 / pw t.1 * t.2.1 := fun t ht => mul_pos (one_div_pos.2 (hw t ht).1) (hw t ht).2
  have hW := sum_map_pos hr hpos
  set W := (r.map fun t => 1 / pw t.1 * t.2.1).sum with hWd
  have hone : (r.map fun t => 1 / pw t.1 * t.2.1 / W).sum = 1 := by
    have : (r.map fun t => 1 / pw t.1 * t.2.1 / W).sum = W / W := by
      rw [hWd]
      simp only [div_eq_mul_inv]
      rw [← List.sum_map_mul_right]
    rw [this, div_self hW.ne']
  refine ⟨_, by unfold weightedMean; simp only; rw [← hWd, if_neg hW.ne'], ?_, ?_⟩
  · calc lo = (r.map fun t => 1 / pw t.1 * t.2.1 / W * lo).sum := by
          rw [List.sum_map_mul_right, hone, one_mul]
      _ ≤ _ := List.sum_le_sum fun t ht =>
          mul_le_mul_of_nonneg_left (hb t ht).1 (div_nonneg (hpos t ht).le hW.le)
  · calc _ ≤ (r.map fun t => 1 / pw t.1 * t.2.1 / W * hi).sum := List.sum_le_sum fun t ht =>
          mul_le_mul_of_nonneg_left (hb t ht).2 (div_nonneg (hpos t ht).le hW.le)
      _ = hi := by rw [List.sum_map_mul_right, hone, one_mul]

/-- General form of C35 for any positive power function. -/
theorem idw_between {pw : K → K} (hpw : ∀ d, 0 < d → 0 < pw d) (nnear : Nat) (wts : Option (List K)) (z : List (Option K))
    (nb : List (K × Nat)) (hq : ValidQuery z.length nb) (hz : ∀ n ∈ nb, ∃ v, z[n.2]? = some (some v))
    (hw : ∀ w, wts = some w → ∀ n ∈ nb, ∃ m, w[n.2]? = some m ∧ 0 < m) :
    ∃ v, idwValue pw nnear wts z nb = some v ∧
      ∀ lo hi : K, (∀ n ∈ nb, ∀ u, z[n.2]? = some (some u) → lo ≤ u ∧ u ≤ hi) → lo ≤ v ∧ v ≤ hi := by
  cases nb with
  | nil => exact absurd rfl hq.nonempty
  | cons n l =>
    obtain ⟨d0, i0⟩ := n
    have single : ∃ v, neighbourValue z i0 = some v ∧ ∀ lo hi : K,
        (∀ n ∈ (d0, i0) :: l, ∀ u, z[n.2]? = some (some u) → lo ≤ u ∧ u ≤ hi) → lo ≤ v ∧ v ≤ hi := by
      obtain ⟨v, hv⟩ := hz _ List.mem_cons_self
      exact ⟨v, by simp only at hv; simp [neighbourValue, hv], fun lo hi h => h _ List.mem_cons_self v hv⟩
    unfold idwValue
    simp only
    split
    · exact single
    · split
      · exact single
      · rename_i _ hd
        push Not at hd
        obtain ⟨r, hr⟩ := neighbourData_isSome hz fun w h n hn => (hw w h n hn).imp fun _ hm => hm.1
        rw [hr]
        simp only
        have hs := neighbourData_spec hr
        have hrn : r ≠ [] := by
          intro h
          rw [h] at hs
          cases hs
        have hmem : ∀ t ∈ r, ∃ n ∈ (d0, i0) :: l, t.1 = n.1 ∧ z[n.2]? = some (some t.2.2) ∧
            multiplier wts n.2 = some t.2.1 := by
          intro t ht
          obtain ⟨k, hk, hk'⟩ := List.getElem_of_mem ht
          have hk2 : k < ((d0, i0) :: l).length := by rw [hs.length_eq]; exact hk
          refine ⟨((d0, i0) :: l)[k], List.getElem_mem hk2, ?_⟩
          have := List.Forall₂.get hs hk2 hk
          rw [List.get_eq_getElem, List.get_eq_getElem, hk'] at this
          exact this
        have hge : ∀ n ∈ (d0, i0) :: l, 0 < n.1 := by
          intro n hn
          have h0 : (0 : K) < 1 / 10000000000 := by norm_num
          rcases List.mem_cons.1 hn with h | h
          · rw [h]; exact h0.trans_le hd
          · exact (h0.trans_le hd).trans_le ((List.pairwise_cons.1 hq.sorted).1 n h)
        have hwpos : ∀ t ∈ r, 0 < pw t.1 ∧ 0 < t.2.1 := by
          intro t ht
          obtain ⟨n, hn, h1, _, h3⟩ := hmem t ht
          refine ⟨h1 ▸ hpw _ (hge n hn), ?_⟩
          cases wts with
          | none => simp only [multiplier, Option.some.injEq] at h3; rw [← h3]; exact zero_lt_one
          | some w =>
            obtain ⟨m, hm, hm0⟩ := hw w rfl n hn
            simp only [multiplier] at h3
            rw [h3] at hm
            exact Option.some.inj hm ▸ hm0
        obtain ⟨v, hv, -⟩ := weightedMean_between hrn hwpos (lo := (r.map fun t => t.2.2).min?.getD 0)
          (hi := (r.map fun t => t.2.2).max?.getD 0) (by
            intro t ht
            have hne : r.map (fun t => t.2.2) ≠ [] := by simpa using hrn
            constructor
            · cases hm : (r.map fun t => t.2.2).min? with
              | none => rw [List.min?_eq_none_iff] at hm; exact absurd hm hne
              | some a => exact (List.min?_eq_some_iff.1 hm).2 _ (List.mem_map_of_mem ht)
            · cases hm : (r.map fun t => t.2.2).max? with
              | none => rw [List.max?_eq_none_iff] at hm; exact absurd hm hne
              | some a => exact (List.max?_eq_some_iff.1 hm).2 _ (List.mem_map_of_mem ht))
        refine ⟨v, hv, fun lo hi hb => ?_⟩
        obtain ⟨v', hv', h1, h2⟩ := weightedMean_between hrn hwpos (lo := lo) (hi := hi) (by
          intro t ht
          obtain ⟨n, hn, _, h2, _⟩ := hmem t ht
          exact hb n hn _ h2)
        rw [hv, Option.some.injEq] at hv'
        exact hv' ▸ ⟨h1, h2⟩

end

section
open Real

/-- **C35**, bounds. For every number of neighbours, every real exponent and positive multipliers, and every valid neighbour query
with numbers as data, there is a value and it lies between all bounds of the data of the neighbours. -/
theorem C35_between (p : ℝ) (nnear : Nat) (wts : Option (List ℝ)) (z : List (Option ℝ)) (nb : List (ℝ × Nat))
    (hq : ValidQuery z.length nb) (hz : ∀ n ∈ nb, ∃ v, z[n.2]? = some (some v))
    (hw : ∀ w, wts = some w → ∀ n ∈ nb, ∃ m, w[n.2]? = some m ∧ 0 < m) :
    ∃ v, idwValue (fun d => d ^ p) nnear wts z nb = some v ∧
      ∀ lo hi : ℝ, (∀ n ∈ nb, ∀ u, z[n.2]? = some (some u) → lo ≤ u ∧ u ≤ hi) → lo ≤ v ∧ v ≤ hi :=
  idw_between (fun _ hd => rpow_pos_of_pos hd p) nnear wts z nb hq hz hw

/-- **C35**, constant data are reproduced. -/
theorem C35_constant (p : ℝ) (nnear : Nat) (wts : Option (List ℝ)) (z : List (Option ℝ)) (nb : List (ℝ × Nat)) (c : ℝ)
    (hq : ValidQuery z.length nb) (hz : ∀ n ∈ nb, z[n.2]? = some (some c))
    (hw : ∀ w, wts = some w → ∀ n ∈ nb, ∃ m, w[n.2]? = some m ∧ 0 < m) :
    idwValue (fun d => d ^ p) nnear wts z nb = some c := by
  obtain ⟨v, hv, hb⟩ := C35_between p nnear wts z nb hq (fun n hn => ⟨c, hz n hn⟩) hw
  have := hb c c fun n hn u hu => by
    rw [hz n hn] at hu
    exact Option.some.inj (Option.some.inj hu) ▸ ⟨le_refl _, le_refl _⟩
  rw [hv, le_antisymm this.2 this.1]

/-- **C35**, coincident points: if the nearest data point is closer than `1e-10`, its value is returned. -/
theorem C35_coincident (p : ℝ) (nnear : Nat) (wts : Option (List ℝ)) (z : List (Option ℝ)) (d : ℝ) (i : Nat) (l : List (ℝ × Nat))
    (v : ℝ) (hd : d < 1e-10) (hz : z[i]? = some (some v)) : idwValue (fun d => d ^ p) nnear wts z ((d, i) :: l) = some v := by
  have hd' : d < 1 / 10000000000 := by norm_num at hd ⊢; exact hd
  have hn : neighbourValue z i = some v := by simp [neighbourValue, hz]
  simp only [idwValue, hd', if_true, hn, ite_self]

/-- **C35**, form of the average (no multipliers): the value is the sum of `z / d^p` divided by the sum of `1 / d^p`. -/
theorem C35_formula (p : ℝ) (nnear : Nat) (z : List (Option ℝ)) (nb : List (ℝ × Nat)) (vs : List ℝ) (hn : nnear ≠ 1)
    (hq : ValidQuery z.length nb) (hd : ∀ n ∈ nb, 1e-10 ≤ n.1) (hz : nb.map (fun n => z[n.2]?) = vs.map fun v => some (some v)) :
    idwValue (fun d => d ^ p) nnear none z nb =
      some (((nb.zip vs).map fun t => t.2 / t.1.1 ^ p).sum / (nb.map fun n => 1 / n.1 ^ p).sum) := by
  have hdata : ∀ (nb : List (ℝ × Nat)) (vs : List ℝ), nb.map (fun n => z[n.2]?) = vs.map (fun v => some (some v)) →
      neighbourData none z nb = some ((nb.zip vs).map fun t => (t.1.1, 1, t.2)) := by
    intro nb
    induction nb with
    | nil => intro vs h; simp [neighbourData]
    | cons n l ih =>
      intro vs h
      cases vs with
      | nil => simp at h
      | cons v vs =>
        simp only [List.map_cons, List.cons.injEq] at h
        have hv : neighbourValue z n.2 = some v := by simp [neighbourValue, h.1]
        obtain ⟨d, ix⟩ := n
        simp only [neighbourData, hv, multiplier, ih vs h.2, List.zip_cons_cons, List.map_cons]
  have hlen : nb.length = vs.length := by
    have := congrArg List.length hz
    simpa using this
  have hW : (((nb.zip vs).map fun t => ((t.1.1, (1 : ℝ), t.2) : ℝ × ℝ × ℝ)).map fun n => 1 / n.1 ^ p * n.2.1).sum
      = (nb.map fun n => 1 / n.1 ^ p).sum := by
    rw [List.map_map]
    have : (nb.zip vs).map ((fun (n : ℝ × ℝ × ℝ) => 1 / n.1 ^ p * n.2.1) ∘ fun t => (t.1.1, 1, t.2))
        = ((nb.zip vs).map Prod.fst).map fun n => 1 / n.1 ^ p := by
      rw [List.map_map]
      exact List.map_congr_left fun t _ => by simp
    rw [this, List.map_fst_zip hlen.le]
  have hpos : 0 < (nb.map fun n => 1 / n.1 ^ p).sum := sum_map_pos hq.nonempty fun n h =>
    one_div_pos.2 (rpow_pos_of_pos (lt_of_lt_of_le (by norm_num) (hd n h)) p)
  have hmean : weightedMean (fun d => d ^ p) ((nb.zip vs).map fun t => (t.1.1, 1, t.2)) =
      some (((nb.zip vs).map fun t => t.2 / t.1.1 ^ p).sum / (nb.map fun n => 1 / n.1 ^ p).sum) := by
    unfold weightedMean
    simp only
    rw [hW, if_neg hpos.ne']
    congr 1
    rw [List.map_map, div_eq_mul_inv, ← List.sum_map_mul_right]
    congr 1
    refine List.map_congr_left fun t _ => ?_
    simp only [Function.comp_apply]
    ring
  cases hnb : nb with
  | nil => exact absurd hnb hq.nonempty
  | cons n l =>
    obtain ⟨d0, i0⟩ := n
    have h0 : ¬ d0 < 1 / 10000000000 := by
      have := hd (d0, i0) (by rw [hnb]; exact List.mem_cons_self)
      norm_num at this ⊢
      exact this
    have hdat := hdata nb vs hz
    rw [hnb] at hdat hmean
    simp only [idwValue, if_neg hn, if_neg h0, hdat]
    exact hmean

/-- **C35**, ratios: multiplying all distances by `c > 0` does not change the value, provided the points stay at least `1e-10` away
(closer points count as coincident, see `C35_threshold`). -/
theorem C35_ratios_partial (p : ℝ) (nnear : Nat) (wts : Option (List ℝ)) (z : List (Option ℝ)) (nb : List (ℝ × Nat)) (c : ℝ)
    (hc : 0 < c) (hd : ∀ n ∈ nb, 1e-10 ≤ n.1 ∧ 1e-10 ≤ c * n.1) :
    idwValue (fun d => d ^ p) nnear wts z (nb.map fun n => (c * n.1, n.2)) = idwValue (fun d => d ^ p) nnear wts z nb := by
  have hdata : ∀ nb : List (ℝ × Nat), neighbourData wts z (nb.map fun n => (c * n.1, n.2))
      = (neighbourData wts z nb).map fun r => r.map fun t => (c * t.1, t.2) := by
    intro nb
    induction nb with
    | nil => rfl
    | cons n l ih =>
      obtain ⟨d, ix⟩ := n
      simp only [List.map_cons, neighbourData, ih]
      generalize neighbourValue z ix = a
      generalize multiplier wts ix = b
      cases a <;> cases b <;> cases neighbourData wts z l <;> rfl
  have hmean : ∀ r : List (ℝ × ℝ × ℝ), (∀ t ∈ r, 0 ≤ t.1) →
      weightedMean (fun d => d ^ p) (r.map fun t => (c * t.1, t.2)) = weightedMean (fun d => d ^ p) r := by
    intro r hr
    have hcp : (0 : ℝ) < c ^ p := rpow_pos_of_pos hc p
    have e : ∀ t ∈ r, 1 / (c * t.1) ^ p * t.2.1 = (1 / c ^ p) * (1 / t.1 ^ p * t.2.1) := by
      intro t ht
      rw [mul_rpow hc.le (hr t ht), one_div_mul_eq_div, one_div_mul_eq_div, one_div_mul_eq_div, div_div, mul_comm (t.1 ^ p)]
    have hW : ((r.map fun t => (c * t.1, t.2)).map fun n => 1 / n.1 ^ p * n.2.1).sum
        = (1 / c ^ p) * (r.map fun n => 1 / n.1 ^ p * n.2.1).sum := by
      rw [List.map_map, ← List.sum_map_mul_left]
      congr 1
      exact List.map_congr_left fun t ht => e t ht
    unfold weightedMean
    simp only
    rw [hW]
    have hne : (1 : ℝ) / c ^ p ≠ 0 := (one_div_pos.2 hcp).ne'
    by_cases hz : (r.map fun n => 1 / n.1 ^ p * n.2.1).sum = 0
    · rw [hz, mul_zero, if_pos rfl, if_pos rfl]
    · rw [if_neg hz, if_neg (mul_ne_zero hne hz)]
      congr 1
      rw [List.map_map]
      congr 1
      refine List.map_congr_left fun t ht => ?_
      simp only [Function.comp_apply]
      rw [e t ht, mul_div_mul_left _ _ hne]
  cases nb with
  | nil => rfl
  | cons n l =>
    obtain ⟨d0, i0⟩ := n
    have h0 := hd (d0, i0) List.mem_cons_self
    have h1 : ¬ d0 < 1 / 10000000000 := by
      have := h0.1
      norm_num at this ⊢; exact this
    have h2 : ¬ c * d0 < 1 / 10000000000 := by
      have := h0.2
      norm_num at this ⊢; exact this
    have hdat := hdata ((d0, i0) :: l)
    rw [List.map_cons] at hdat ⊢
    simp only at hdat ⊢
    simp only [idwValue, if_neg h1, if_neg h2, hdat]
    cases hr : neighbourData wts z ((d0, i0) :: l) with
    | none => rfl
    | some r =>
      simp only [Option.map_some]
      rw [hmean r]
      intro t ht
      have hs := neighbourData_spec hr
      obtain ⟨k, hk, hk'⟩ := List.getElem_of_mem ht
      have hk2 : k < ((d0, i0) :: l).length := by rw [hs.length_eq]; exact hk
      have := (List.Forall₂.get hs hk2 hk).1
      rw [List.get_eq_getElem, List.get_eq_getElem, hk'] at this
      rw [this]
      have := (hd _ (List.getElem_mem hk2)).1
      exact le_trans (by norm_num) this

/-- **C35** fails for ratios of tiny distances: two points at distances 1 and 2 give the mean 4/3 of 0 and 4, the same points at
`1e-11` and `2e-11` give 0. -/
theorem C35_threshold : ∃ (z : List (Option ℝ)) (nb : List (ℝ × Nat)) (c : ℝ), 0 < c ∧ ValidQuery z.length nb ∧
    idwValue (fun d => d ^ (1 : ℝ)) 2 none z nb = some (4 / 3) ∧
    idwValue (fun d => d ^ (1 : ℝ)) 2 none z (nb.map fun n => (c * n.1, n.2)) = some 0 := by
  refine ⟨[some 0, some 4], [(1, 0), (2, 1)], 1e-11, by norm_num, ⟨by simp, by simp, by simp, by simp⟩, ?_, ?_⟩
  · rw [C35_formula 1 2 _ _ [0, 4] (by norm_num) ⟨by simp, by simp, by simp, by simp⟩ (by norm_num) (by simp)]
    norm_num
  · exact C35_coincident 1 2 none _ _ _ _ 0 (by norm_num) (by simp)

/-- **C35** fails if fewer data points exist than neighbours are asked for: the query then names an index out of range. -/
theorem C35_too_few_points (p d d' v : ℝ) (hd : 1e-10 ≤ d) :
    idwValue (fun d => d ^ p) 2 none [some v] [(d, 0), (d', 1)] = none := by
  have h1 : ¬ d < 1 / 10000000000 := by norm_num at hd ⊢; exact hd
  rw [idwValue]
  simp only [if_neg h1]
  simp [neighbourData, neighbourValue]

example : ValidQuery (K := ℝ) 3 [(1, 2), (3, 0)] := ⟨by simp, by norm_num, by simp, by simp⟩
example : ∀ n ∈ [((1 : ℝ), 2), (3, 0)], (1e-10 : ℝ) ≤ n.1 ∧ 1e-10 ≤ 7 * n.1 := by
  intro n hn; simp only [List.mem_cons, List.not_mem_nil, or_false] at hn
  rcases hn with rfl | rfl <;> norm_num
example : idwValue (K := ℚ) (fun d => d ^ 2) 3 (some [1, 2, 4]) [some 1, some 2, some 3] [(1, 2), (2, 0), (2, 1)] = some (53 / 19) := by
  decide +kernel

end
end OM
