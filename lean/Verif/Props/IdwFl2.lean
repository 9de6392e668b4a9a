import Verif.Props.IdwFl
import Verif.Props.BlendExact
/-!
# C132: values of the interpolation and of the blended grid in rounded arithmetic
-/
set_option linter.unusedSectionVars false
namespace OM
open Spec

section
variable {K : Type} [Field K] [LinearOrder K] [IsStrictOrderedRing K]

theorem inverseDistanceMean_between {P : K → K} {nb : List (K × K × K)} (hne : nb ≠ []) (hP : ∀ n ∈ nb, 0 < P n.1 ∧ 0 < n.2.1) {lo hi : K}
    (hb : ∀ n ∈ nb, lo ≤ n.2.2 ∧ n.2.2 ≤ hi) : lo ≤ inverseDistanceMean P nb ∧ inverseDistanceMean P nb ≤ hi := by
  have hS : 0 < (nb.map fun n => n.2.1 / P n.1).sum := sum_map_pos hne fun n hn => div_pos (hP n hn).2 (hP n hn).1
  unfold inverseDistanceMean
  rw [le_div_iff₀ hS, div_le_iff₀ hS, ← List.sum_map_mul_left, ← List.sum_map_mul_left]
  constructor <;> refine List.sum_le_sum fun n hn => ?_
  · exact mul_le_mul_of_nonneg_right (hb n hn).1 (div_pos (hP n hn).2 (hP n hn).1).le
  · exact mul_le_mul_of_nonneg_right (hb n hn).2 (div_pos (hP n hn).2 (hP n hn).1).le

/-- **C132** (2) The interpolated value is a number and lies between the bounds of the data of the neighbours, up to `3 (n + 4) u` times their largest
absolute value. -/
theorem C132_between {T : IdwTools K} {P : K → K} {u : K} (hT : GoodTools T P u) (h0 : 0 ≤ u) (nnear : Nat) (wts : Option (List K)) (z : List (Option K))
    (nb : List (K × Nat)) (hu : (nb.length + 8 : K) * u ≤ 1 / 10) (hq : ValidQuery z.length nb) (hw : ∀ w, wts = some w → ∀ n ∈ nb, ∃ m, w[n.2]? = some m ∧ 0 < m)
    {lo hi M : K} (hz : ∀ n ∈ nb, ∃ v, z[n.2]? = some (some v) ∧ lo ≤ v ∧ v ≤ hi ∧ |v| ≤ M) :
    ∃ v, idwValueFl T nnear wts z nb = some v ∧ lo - 3 * (nb.length + 4) * u * M ≤ v ∧ v ≤ hi + 3 * (nb.length + 4) * u * M := by
  cases nb with
  | nil => exact absurd rfl hq.nonempty
  | cons n l =>
    obtain ⟨d0, i0⟩ := n
    have single : ∃ v, neighbourValue z i0 = some v ∧ lo - 3 * ((((d0, i0) :: l).length : K) + 4) * u * M ≤ v ∧
        v ≤ hi + 3 * ((((d0, i0) :: l).length : K) + 4) * u * M := by
      obtain ⟨v, hv, h1, h2, h3⟩ := hz _ List.mem_cons_self
      have hM : 0 ≤ M := (abs_nonneg v).trans h3
      have : 0 ≤ 3 * ((((d0, i0) :: l).length : K) + 4) * u * M := by positivity
      exact ⟨v, by simp only at hv; simp [neighbourValue, hv], by linarith, by linarith⟩
    unfold idwValueFl
    simp only
    split
    · exact single
    · split
      · exact single
      · rename_i _ hd
        push Not at hd
        obtain ⟨r, hr⟩ := neighbourData_isSome (fun n hn => (hz n hn).imp fun _ h => h.1) fun w h n hn => (hw w h n hn).imp fun _ hm => hm.1
        rw [hr]
        simp only
        have hs := neighbourData_spec hr
        have hrn : r ≠ [] := by
          intro h
          rw [h] at hs
          cases hs
        have hmem : ∀ t ∈ r, ∃ n ∈ (d0, i0) :: l, t.1 = n.1 ∧ z[n.2]? = some (some t.2.2) ∧
            multiplier wts n.2 = some t.2.1 := by
          intro t ht
          obtain ⟨k, hk, hk'⟩ := List.getElem_of_mem ht
          have hk2 : k < ((d0, i0) :: l).length := by rw [hs.length_eq]; exact hk
          refine ⟨((d0, i0) :: l)[k], List.getElem_mem hk2, ?_⟩
          have := List.Forall₂.get hs hk2 hk
          rw [List.get_eq_getElem, List.get_eq_getElem, hk'] at this
          exact this
        have hge : ∀ n ∈ (d0, i0) :: l, 0 < n.1 := by
          intro n hn
          rcases List.mem_cons.1 hn with h | h
          · rw [h]; exact hT.tiny.trans_le hd
          · exact (hT.tiny.trans_le hd).trans_le ((List.pairwise_cons.1 hq.sorted).1 n h)
        have hpos : ∀ t ∈ r, 0 < t.1 ∧ 0 < t.2.1 := by
          intro t ht
          obtain ⟨n, hn, h1, _, h3⟩ := hmem t ht
          refine ⟨h1 ▸ hge n hn, ?_⟩
          cases wts with
          | none => simp only [multiplier, Option.some.injEq] at h3; rw [← h3]; exact zero_lt_one
          | some w =>
            obtain ⟨m, hm, hm0⟩ := hw w rfl n hn
            simp only [multiplier] at h3
            rw [h3] at hm
            exact Option.some.inj hm ▸ hm0
        have hval : ∀ t ∈ r, lo ≤ t.2.2 ∧ t.2.2 ≤ hi ∧ |t.2.2| ≤ M := by
          intro t ht
          obtain ⟨n, hn, _, h2, _⟩ := hmem t ht
          obtain ⟨v, hv, h⟩ := hz n hn
          rw [h2, Option.some.injEq, Option.some.injEq] at hv
          rw [hv]; exact h
        have hl : ((d0, i0) :: l).length = r.length := hs.length_eq
        rw [hl] at hu ⊢
        obtain ⟨v, hv, he⟩ := C132_error hT h0 hrn hu hpos
        have b1 := inverseDistanceMean_between (P := P) hrn (fun t ht => ⟨(hT.power _ (hpos t ht).1).1, (hpos t ht).2⟩) (lo := lo) (hi := hi)
          fun t ht => ⟨(hval t ht).1, (hval t ht).2.1⟩
        have b2 := (inverseDistanceMean_between (P := P) (nb := r.map fun n => (n.1, n.2.1, |n.2.2|)) (by simpa using hrn) (by
          intro t ht
          obtain ⟨t', ht', rfl⟩ := List.mem_map.1 ht
          exact ⟨(hT.power _ (hpos t' ht').1).1, (hpos t' ht').2⟩) (lo := 0) (hi := M) (by
          intro t ht
          obtain ⟨t', ht', rfl⟩ := List.mem_map.1 ht
          exact ⟨abs_nonneg _, (hval t' ht').2.2⟩)).2
        have hc : 0 ≤ 3 * ((r.length : K) + 4) * u := by positivity
        have b3 := he.trans (mul_le_mul_of_nonneg_left b2 hc)
        rw [abs_le] at b3
        exact ⟨v, hv, by linarith [b1.1, b3.1], by linarith [b1.2, b3.2]⟩

/-- The data of the neighbours: distance, multiplier (1 without multipliers) and value. -/
def Spec.NeighbourData (wts : Option (List K)) (z : List (Option K)) (nb : List (K × Nat)) (data : List (K × K × K)) : Prop :=
  List.Forall₂ (fun n t => t.1 = n.1 ∧ z[n.2]? = some (some t.2.2) ∧ ((wts = none ∧ t.2.1 = 1) ∨ ∃ w, wts = some w ∧ w[n.2]? = some t.2.1)) nb data

theorem neighbourData_complete {wts : Option (List K)} {z : List (Option K)} {nb : List (K × Nat)} {data : List (K × K × K)} (h : NeighbourData wts z nb data) :
    neighbourData wts z nb = some data := by
  unfold NeighbourData at h
  induction h with
  | nil => rfl
  | @cons n t l data h _ ih =>
    obtain ⟨d, i⟩ := n
    obtain ⟨d', m, v⟩ := t
    obtain ⟨h1, h2, h3⟩ := h
    simp only at h1 h2 h3
    have hm : multiplier wts i = some m := by
      rcases h3 with ⟨rfl, rfl⟩ | ⟨w, rfl, hw⟩
      · rfl
      · exact hw
    have hv : neighbourValue z i = some v := by simp [neighbourValue, h2]
    simp only [neighbourData, ih, hm, hv, h1]

/-- **C132** (2) The value away from the data points and with more than one neighbour. -/
theorem C132_value {T : IdwTools K} {P : K → K} {u : K} (hT : GoodTools T P u) (h0 : 0 ≤ u) {nnear : Nat} (hn : nnear ≠ 1) {wts : Option (List K)} {z : List (Option K)}
    {nb : List (K × Nat)} {data : List (K × K × K)} (hne : nb ≠ []) (hdata : NeighbourData wts z nb data) (hu : (nb.length + 8 : K) * u ≤ 1 / 10)
    (hd : ∀ n ∈ nb, T.tiny ≤ n.1) (hm : ∀ t ∈ data, 0 < t.2.1) :
    ∃ v, idwValueFl T nnear wts z nb = some v ∧
      |v - inverseDistanceMean P data| ≤ 3 * (nb.length + 4) * u * inverseDistanceMean P (data.map fun t => (t.1, t.2.1, |t.2.2|)) := by
  have hl : nb.length = data.length := hdata.length_eq
  have hdn : data ≠ [] := by rintro rfl; exact hne (List.length_eq_zero_iff.1 hl)
  rw [hl] at hu ⊢
  have hpos : ∀ t ∈ data, 0 < t.1 ∧ 0 < t.2.1 := by
    intro t ht
    obtain ⟨k, hk, rfl⟩ := List.getElem_of_mem ht
    have hk2 : k < nb.length := by rw [hl]; exact hk
    have h := (List.Forall₂.get hdata hk2 hk).1
    rw [List.get_eq_getElem, List.get_eq_getElem] at h
    exact ⟨h ▸ hT.tiny.trans_le (hd _ (List.getElem_mem hk2)), hm _ ht⟩
  obtain ⟨v, hv, he⟩ := C132_error hT h0 hdn hu hpos
  refine ⟨v, ?_, he⟩
  cases nb with
  | nil => exact absurd rfl hne
  | cons n l =>
    obtain ⟨d0, i0⟩ := n
    unfold idwValueFl
    simp only [if_neg hn, if_neg (not_lt.2 (hd _ List.mem_cons_self)), neighbourData_complete hdata]
    exact hv

/-- **C132** (2) If all multipliers are zero the result is NaN. -/
theorem C132_no_weight {T : IdwTools K} {u : K} (hr : RelError T.fl u) (hs : SumsUp T.fl T.sum) {nb : List (K × K × K)} (h : ∀ n ∈ nb, n.2.1 = 0) :
    weightedMeanFl T nb = none := by
  have h0 : T.fl 0 = 0 := by
    have := hr 0
    simpa using this
  have hw : ∀ w ∈ rawWeightsFl T nb, w = 0 := by
    intro w hw
    obtain ⟨n, hn, rfl⟩ := List.mem_map.1 hw
    rw [h n hn, mul_zero, h0]
  have key : ∀ {xs : List K} {v : K}, RoundedSum T.fl xs v → (∀ x ∈ xs, x = 0) → v = 0 := by
    intro xs v hv
    induction hv with
    | single x => intro h; exact h x (by simp)
    | @add a b c x y ha hb hc i1 i2 =>
      intro h
      rw [i1 fun z hz => h z (hc.mem_iff.2 (List.mem_append_left _ hz)), i2 fun z hz => h z (hc.mem_iff.2 (List.mem_append_right _ hz)), add_zero, h0]
  have hW : T.sum (rawWeightsFl T nb) = 0 := by
    by_cases he : rawWeightsFl T nb = []
    · rw [he]; exact hs.1
    · exact key (hs.2 _ he) hw
  unfold weightedMeanFl
  simp only [hW, if_true]

/-- **C132** (3) At a data point, and with one neighbour, the value is that of the data, exactly. -/
theorem C132_coincident (T : IdwTools K) (nnear : Nat) (wts : Option (List K)) (z : List (Option K)) (d : K) (i : Nat) (l : List (K × Nat)) (h : nnear = 1 ∨ d < T.tiny) :
    idwValueFl T nnear wts z ((d, i) :: l) = (z[i]?).join := by
  unfold idwValueFl neighbourValue
  rcases h with h | h
  · simp [h]
  · simp only [if_pos h]; split <;> rfl

/-- **C132** (4) A grid of positive sizes between `lo` and `hi`, with any number of marked nodes: after filling with `m` neighbours every size is between `lo - e hi` and
`hi + e hi` with `e = 3 (m + 4) u`, and those not marked have not changed. -/
theorem C132_fill {T : IdwTools K} {P : K → K} {u : K} (hT : GoodTools T P u) (h0 : 0 ≤ u) {m : Nat} (hu : (m + 8 : K) * u ≤ 1 / 10) (query : List (K × K) → K × K → List (K × Nat))
    (nodes : List ((K × K) × Option K)) {lo hi : K} (hlo : 0 < lo) (hv : ∀ n ∈ nodes, n.2 = some (-99999) ∨ ∃ v, n.2 = some v ∧ lo ≤ v ∧ v ≤ hi)
    (hquery : ∀ pts q, m ≤ pts.length → ValidQuery pts.length (query pts q) ∧ (query pts q).length = m)
    (hm : m ≤ (nodes.filter fun n => decide (n.2 ≠ some (-99999))).length) :
    List.Forall₂ (fun n o => ∃ v, o = some v ∧ lo - 3 * (m + 4) * u * hi ≤ v ∧ v ≤ hi + 3 * (m + 4) * u * hi ∧ (n.2 ≠ some (-99999) → n.2 = some v))
      nodes (fillMarkedFl T m query nodes) := by
  unfold fillMarkedFl
  rw [List.forall₂_map_right_iff, List.forall₂_same]
  intro n hn
  obtain ⟨hq, hl⟩ := hquery ((nodes.filter fun n : (K × K) × Option K => decide (n.2 ≠ some (-99999))).map Prod.fst) n.1 (by rw [List.length_map]; exact hm)
  rw [List.length_map] at hq
  clear hm
  by_cases hm : n.2 = some (-99999)
  · simp only [if_pos hm]
    obtain ⟨v, hv1, h1, h2⟩ := C132_between hT h0 m none ((nodes.filter fun n : (K × K) × Option K => decide (n.2 ≠ some (-99999))).map Prod.snd)
      (query ((nodes.filter fun n : (K × K) × Option K => decide (n.2 ≠ some (-99999))).map Prod.fst) n.1) (by rw [hl]; exact hu)
      (by rw [List.length_map]; exact hq) (by simp) (lo := lo) (hi := hi) (M := hi) (by
        intro k hk
        have hr := hq.inRange k hk
        have hmem := List.getElem_mem hr
        rw [List.mem_filter] at hmem
        rcases hv _ hmem.1 with h | ⟨v, h, h1, h2⟩
        · exact absurd h (of_decide_eq_true hmem.2)
        · refine ⟨v, ?_, h1, h2, by rw [abs_of_pos (hlo.trans_le h1)]; exact h2⟩
          rw [List.getElem?_map, List.getElem?_eq_getElem hr, Option.map_some, h])
    rw [hl] at h1 h2
    exact ⟨v, hv1, h1, h2, fun h => absurd hm h⟩
  · simp only [if_neg hm]
    rcases hv n hn with h | ⟨v, h, h1, h2⟩
    · exact absurd h hm
    · have : 0 ≤ 3 * ((m : K) + 4) * u * hi := by
        have := hlo.le.trans (h1.trans h2)
        positivity
      exact ⟨v, h, by linarith, by linarith, fun _ => h⟩

/-- **C132** (4) The value of a marked node is the interpolation of the others at that node. -/
theorem C132_fill_value {T : IdwTools K} {P : K → K} {u : K} (hT : GoodTools T P u) (h0 : 0 ≤ u) {m : Nat} (hm1 : m ≠ 1) (query : List (K × K) → K × K → List (K × Nat))
    (nodes : List ((K × K) × Option K)) {k : Nat} (hk : k < nodes.length) (hmark : nodes[k].2 = some (-99999)) {data : List (K × K × K)} (hdn : data ≠ [])
    (hdata : NeighbourData none ((nodes.filter fun n => decide (n.2 ≠ some (-99999))).map Prod.snd)
      (query ((nodes.filter fun n => decide (n.2 ≠ some (-99999))).map Prod.fst) nodes[k].1) data)
    (hu : (data.length + 8 : K) * u ≤ 1 / 10) (htiny : ∀ t ∈ data, T.tiny ≤ t.1) :
    ∃ v, (fillMarkedFl T m query nodes)[k]? = some (some v) ∧
      |v - inverseDistanceMean P data| ≤ 3 * (data.length + 4) * u * inverseDistanceMean P (data.map fun t => (t.1, t.2.1, |t.2.2|)) := by
  have hl := hdata.length_eq
  have hall : ∀ t ∈ data, 0 < t.2.1 := by
    intro t ht
    obtain ⟨j, hj, rfl⟩ := List.getElem_of_mem ht
    have h := (List.Forall₂.get hdata (hl ▸ hj) hj).2.2
    rw [List.get_eq_getElem, List.get_eq_getElem] at h
    rcases h with ⟨_, h⟩ | ⟨w, h, _⟩
    · rw [h]; exact zero_lt_one
    · simp at h
  obtain ⟨v, hv, he⟩ := C132_value hT h0 hm1 (by intro e; rw [e] at hl; exact hdn (List.length_eq_zero_iff.1 hl.symm)) hdata (by rw [hl]; exact hu) (by
    intro n hn
    obtain ⟨j, hj, rfl⟩ := List.getElem_of_mem hn
    have h := (List.Forall₂.get hdata hj (hl ▸ hj)).1
    rw [List.get_eq_getElem, List.get_eq_getElem] at h
    rw [← h]
    exact htiny _ (List.getElem_mem _)) hall
  rw [hl] at he
  refine ⟨v, ?_, he⟩
  unfold fillMarkedFl
  simp only
  rw [List.getElem?_map, List.getElem?_eq_getElem hk, Option.map_some, if_pos hmark, hv]

/-- **C132** (5) In particular the sizes stay positive, unless they spread over a factor of `1 / e`. -/
theorem C132_fill_positive {T : IdwTools K} {P : K → K} {u : K} (hT : GoodTools T P u) (h0 : 0 ≤ u) {m : Nat} (hu : (m + 8 : K) * u ≤ 1 / 10) (query : List (K × K) → K × K → List (K × Nat))
    (nodes : List ((K × K) × Option K)) {lo hi : K} (hlo : 0 < lo) (hspread : 3 * (m + 4) * u * hi < lo) (hv : ∀ n ∈ nodes, n.2 = some (-99999) ∨ ∃ v, n.2 = some v ∧ lo ≤ v ∧ v ≤ hi)
    (hquery : ∀ pts q, m ≤ pts.length → ValidQuery pts.length (query pts q) ∧ (query pts q).length = m)
    (hm : m ≤ (nodes.filter fun n => decide (n.2 ≠ some (-99999))).length) :
    ∀ o ∈ fillMarkedFl T m query nodes, ∃ v, o = some v ∧ 0 < v := by
  intro o ho
  have h := C132_fill hT h0 hu query nodes hlo hv hquery hm
  obtain ⟨k, hk, rfl⟩ := List.getElem_of_mem ho
  have hk2 : k < nodes.length := by rw [h.length_eq]; exact hk
  obtain ⟨v, e, h1, _⟩ := List.Forall₂.get h hk2 hk
  rw [List.get_eq_getElem] at e
  exact ⟨v, e, by linarith⟩

theorem amin_split {l : List (Option K)} (hl : l ≠ []) :
    (amin l = none ∧ none ∈ l) ∨ ∃ v, amin l = some v ∧ some v ∈ l ∧ ∀ u ∈ l, ∃ x, u = some x ∧ v ≤ x := by
  unfold amin
  cases hc : collectAll l with
  | none => exact Or.inl ⟨rfl, collectAll_eq_none.1 hc⟩
  | some r =>
    have e := collectAll_eq_some hc
    have hr : r ≠ [] := by rintro rfl; exact hl (by simpa using e)
    obtain ⟨m, h1, h2, h3⟩ := minElement_spec hr
    refine Or.inr ⟨m, h1, by rw [e]; exact List.mem_map_of_mem h2, fun u hu => ?_⟩
    rw [e] at hu
    obtain ⟨x, hx, rfl⟩ := List.mem_map.1 hu
    exact ⟨x, rfl, h3 x hx⟩

/-- **C132** (6) The smallest size that the blended grid announces is between the same bounds. -/
theorem C132_hmin {T : IdwTools K} {P : K → K} {u : K} (hT : GoodTools T P u) (h0 : 0 ≤ u) {m : Nat} (hu : (m + 8 : K) * u ≤ 1 / 10) (query : List (K × K) → K × K → List (K × Nat))
    (nodes : List ((K × K) × Option K)) (hne : nodes ≠ []) {lo hi : K} (hlo : 0 < lo) (hv : ∀ n ∈ nodes, n.2 = some (-99999) ∨ ∃ v, n.2 = some v ∧ lo ≤ v ∧ v ≤ hi)
    (hquery : ∀ pts q, m ≤ pts.length → ValidQuery pts.length (query pts q) ∧ (query pts q).length = m)
    (hm : m ≤ (nodes.filter fun n => decide (n.2 ≠ some (-99999))).length) :
    ∃ v, blendHminFl T m query nodes = some v ∧ lo - 3 * (m + 4) * u * hi ≤ v ∧ v ≤ hi + 3 * (m + 4) * u * hi ∧
      (∀ k (hk : k < nodes.length), nodes[k].2 = some (-99999) → ∃ x, (fillMarkedFl T m query nodes)[k]? = some (some x) ∧ v ≤ x) ∧
      ((∃ n ∈ nodes, n.2 = some (-99999)) → ∃ k, ∃ hk : k < nodes.length, nodes[k].2 = some (-99999) ∧ (fillMarkedFl T m query nodes)[k]? = some (some v)) := by
  have h := C132_fill hT h0 hu query nodes hlo hv hquery hm
  have hl := h.length_eq
  unfold blendHminFl
  simp only
  split
  · rename_i ha
    have hno : ∀ k (hk : k < nodes.length), nodes[k].2 ≠ some (-99999) := by
      intro k hk hk2
      have : (nodes[k], (fillMarkedFl T m query nodes)[k]'(hl ▸ hk)) ∈
          (nodes.zip (fillMarkedFl T m query nodes)).filter fun n => decide (n.1.2 = some (-99999)) := by
        rw [List.mem_filter]
        refine ⟨?_, by simpa using hk2⟩
        rw [List.mem_iff_getElem]
        exact ⟨k, by rw [List.length_zip, ← hl, min_self]; exact hk, by rw [List.getElem_zip]⟩
      rw [ha] at this
      simp at this
    have hb : ∀ o ∈ nodes.map Prod.snd, ∃ v, o = some v ∧ lo ≤ v ∧ v ≤ hi := by
      intro o ho
      obtain ⟨n, hn, rfl⟩ := List.mem_map.1 ho
      obtain ⟨k, hk, rfl⟩ := List.getElem_of_mem hn
      rcases hv _ hn with h | h
      · exact absurd h (hno k hk)
      · exact h
    rcases amin_split (l := nodes.map Prod.snd) (by simpa using hne) with ⟨_, h2⟩ | ⟨v, h1, h2, _⟩
    · obtain ⟨v, hv, _⟩ := hb _ h2
      simp at hv
    · obtain ⟨v', hv', h3, h4⟩ := hb _ h2
      obtain rfl := Option.some.inj hv'
      have : 0 ≤ 3 * ((m : K) + 4) * u * hi := by
        have := hlo.le.trans (h3.trans h4)
        positivity
      exact ⟨v, h1, by linarith, by linarith, fun k hk hk2 => absurd hk2 (hno k hk), fun ⟨n, hn, hn2⟩ => by
        obtain ⟨k, hk, rfl⟩ := List.getElem_of_mem hn
        exact absurd hn2 (hno k hk)⟩
  · rename_i ha
    have hb : ∀ o ∈ ((nodes.zip (fillMarkedFl T m query nodes)).filter fun n => decide (n.1.2 = some (-99999))).map Prod.snd,
        ∃ v, o = some v ∧ lo - 3 * (m + 4) * u * hi ≤ v ∧ v ≤ hi + 3 * (m + 4) * u * hi := by
      intro o ho
      obtain ⟨n, hn, rfl⟩ := List.mem_map.1 ho
      obtain ⟨k, hk, e⟩ := List.getElem_of_mem (List.mem_filter.1 hn).1
      rw [List.length_zip, ← hl, min_self] at hk
      obtain ⟨v, h1, h2, h3, _⟩ := List.Forall₂.get h hk (hl ▸ hk)
      rw [List.getElem_zip] at e
      rw [List.get_eq_getElem] at h1
      exact ⟨v, by rw [← e]; exact h1, h2, h3⟩
    rcases amin_split (l := ((nodes.zip (fillMarkedFl T m query nodes)).filter fun n : ((K × K) × Option K) × Option K => decide (n.1.2 = some (-99999))).map Prod.snd) (by simpa using ha) with
      ⟨_, h2⟩ | ⟨v, h1, h2, h5⟩
    · obtain ⟨v, hv, _⟩ := hb _ h2
      simp at hv
    · obtain ⟨v', hv', h3, h4⟩ := hb _ h2
      obtain rfl := Option.some.inj hv'
      refine ⟨v, h1, h3, h4, fun k hk hk2 => ?_, fun _ => ?_⟩
      swap
      · obtain ⟨n, hn, en⟩ := List.mem_map.1 h2
        obtain ⟨k, hk, e⟩ := List.getElem_of_mem (List.mem_filter.1 hn).1
        have hd := of_decide_eq_true (List.mem_filter.1 hn).2
        rw [List.length_zip, ← hl, min_self] at hk
        rw [List.getElem_zip] at e
        refine ⟨k, hk, by rw [← e] at hd; exact hd, ?_⟩
        rw [List.getElem?_eq_getElem (hl ▸ hk), ← en, ← e]
      have hk' : k < (fillMarkedFl T m query nodes).length := hl ▸ hk
      obtain ⟨x, hx, hvx⟩ := h5 ((fillMarkedFl T m query nodes)[k]) (List.mem_map.2 ⟨(nodes[k], (fillMarkedFl T m query nodes)[k]), by
        rw [List.mem_filter]
        refine ⟨?_, by simpa using hk2⟩
        rw [List.mem_iff_getElem]
        exact ⟨k, by rw [List.length_zip, ← hl, min_self]; exact hk, by rw [List.getElem_zip]⟩, rfl⟩)
      exact ⟨x, by rw [List.getElem?_eq_getElem hk', hx], hvx⟩

/-- A rounded sum of two numbers. -/
theorem roundedSum_single {fl : K → K} {x v : K} (h : RoundedSum fl [x] v) : v = x := by
  generalize hl : [x] = l at h
  cases h with
  | single y => simpa using hl.symm
  | add ha hb hc =>
    have := hc.length_eq
    have := RoundedSum.ne_nil ha
    have := RoundedSum.ne_nil hb
    rw [← hl] at *
    simp at *
    omega

theorem roundedSum_two {fl : K → K} {x y v : K} (h : RoundedSum fl [x, y] v) : v = fl (x + y) := by
  generalize hl : [x, y] = l at h
  cases h with
  | single y => simp at hl
  | @add a b c p q ha hb hc =>
    have h1 := hc.length_eq
    have h2 := RoundedSum.ne_nil ha
    have h3 := RoundedSum.ne_nil hb
    subst hl
    rw [List.length_append] at h1
    simp only [List.length_cons, List.length_nil] at h1
    obtain ⟨a', rfl⟩ := List.length_eq_one_iff.1 (show a.length = 1 by omega)
    obtain ⟨b', rfl⟩ := List.length_eq_one_iff.1 (show b.length = 1 by omega)
    have hs := hc.sum_eq
    simp at hs
    rw [roundedSum_single ha, roundedSum_single hb, hs]

end

/-- **C132** (7) Constant data are not reproduced: for doubles and every library that sums as above, two neighbours with the value 1 at the distances 1 and 9 (exponent 1)
give a value below 1 — out of the range of the data, where C35 has equality in exact arithmetic. -/
theorem C132_constant_partial (T : IdwTools ℚ) (hfl : T.fl = roundDouble) (hp : ∀ d, T.pw d = d) (hs : SumsUp T.fl T.sum) (hd : DotsUp T.fl T.dot) (ht : T.tiny ≤ 1) :
    idwValueFl T 2 none [some 1, some 1] [(1, 0), (9, 1)] = some (1 - 1 / 2 ^ 53) := by
  have hw : rawWeightsFl T [(1, 1, 1), (9, 1, 1)] = [1, roundDouble (1 / 9)] := by
    simp only [rawWeightsFl, List.map_cons, List.map_nil, hfl, hp]
    decide +kernel
  have hW : T.sum [1, roundDouble (1 / 9)] = roundDouble (1 + roundDouble (1 / 9)) := by
    rw [← hfl]
    exact roundedSum_two (hs.2 _ (by simp))
  have hdot : ∀ x y : ℚ, roundDouble x = x → roundDouble y = y → T.dot [x, y] [1, 1] = roundDouble (x + y) := by
    intro x y hx hy
    obtain ⟨qs, hq, hr⟩ := hd [x, y] [1, 1] (by simp) rfl
    simp only [List.zip_cons_cons, List.zip_nil_right, List.forall₂_cons_left_iff, List.forall₂_nil_left_iff, mul_one, hfl, hx, hy, or_self] at hq
    obtain ⟨a, _, rfl, ⟨b, _, rfl, rfl, rfl⟩, rfl⟩ := hq
    rw [← hfl]
    exact roundedSum_two hr
  have hnd : neighbourData none [some (1 : ℚ), some 1] [(1, 0), (9, 1)] = some [(1, 1, 1), (9, 1, 1)] := by decide +kernel
  unfold idwValueFl
  simp only [hnd, if_neg (not_lt.2 ht)]
  unfold weightedMeanFl
  simp only [hw, hW, List.map_cons, List.map_nil, hfl]
  rw [if_neg (by decide), if_neg (by decide +kernel), hdot _ _ (by decide +kernel) (by decide +kernel)]
  decide +kernel

/-- The arithmetic of doubles with sums from left to right and the exponent 1. -/
def idwToolsD : IdwTools ℚ where
  fl := roundDouble
  pw := id
  sum := leftSum
  dot := fun xs ys => leftSum ((xs.zip ys).map fun p => roundDouble (p.1 * p.2))
  tiny := roundDouble (1 / 10 ^ 10)

theorem idwToolsD_good : GoodTools idwToolsD id (1 / 2 ^ 53) where
  rel := C113_roundDouble.2
  sums := leftSum_sumsUp
  dots := by
    intro xs ys hx hl
    refine ⟨(xs.zip ys).map fun p : ℚ × ℚ => roundDouble (p.1 * p.2), ?_, leftSum_sumsUp.2 ((xs.zip ys).map fun p : ℚ × ℚ => roundDouble (p.1 * p.2)) ?_⟩
    · rw [List.forall₂_map_right_iff, List.forall₂_same]
      exact fun p _ => Or.inl rfl
    · cases xs with
      | nil => exact absurd rfl hx
      | cons x xs =>
        cases ys with
        | nil => simp at hl
        | cons y ys => simp
  power := by
    intro d hd
    refine ⟨hd, ?_⟩
    simp only [idwToolsD, id, sub_self, abs_zero]
    positivity
  tiny := by decide +kernel

/-- **C132** (8) For doubles and the six neighbours of `blend_into`: the error is at most `30 / 2^53` of the mean of the absolute values. -/
theorem C132_double {T : IdwTools ℚ} {P : ℚ → ℚ} (hT : GoodTools T P (1 / 2 ^ 53)) {nb : List (ℚ × ℚ × ℚ)} (hn : nb.length = 6) (hpos : ∀ n ∈ nb, 0 < n.1 ∧ 0 < n.2.1) :
    ∃ v, weightedMeanFl T nb = some v ∧ |v - inverseDistanceMean P nb| ≤ 30 / 2 ^ 53 * inverseDistanceMean P (nb.map fun n => (n.1, n.2.1, |n.2.2|)) := by
  obtain ⟨v, hv, he⟩ := C132_error hT (by norm_num) (nb := nb) (by rintro rfl; simp at hn) (by rw [hn]; norm_num) hpos
  refine ⟨v, hv, he.trans (le_of_eq ?_)⟩
  rw [hn]; norm_num

/-! ## Examples -/

/-- Six neighbours at different distances. -/
example : ∃ v, weightedMeanFl idwToolsD [(1, 1, 3), (2, 1, 5), (3, 1, 7), (4, 1, 2), (5, 1, 6), (6, 1, 4)] = some v ∧
    |v - 204 / 49| ≤ 30 / 2 ^ 53 * (204 / 49) := by
  have e1 : inverseDistanceMean id [((1 : ℚ), (1 : ℚ), (3 : ℚ)), (2, 1, 5), (3, 1, 7), (4, 1, 2), (5, 1, 6), (6, 1, 4)] = 204 / 49 := by
    norm_num [inverseDistanceMean]
  have e2 : inverseDistanceMean id (([((1 : ℚ), (1 : ℚ), (3 : ℚ)), (2, 1, 5), (3, 1, 7), (4, 1, 2), (5, 1, 6), (6, 1, 4)]).map fun n => (n.1, n.2.1, |n.2.2|)) = 204 / 49 := by
    norm_num [inverseDistanceMean]
  have := C132_double idwToolsD_good (nb := [(1, 1, 3), (2, 1, 5), (3, 1, 7), (4, 1, 2), (5, 1, 6), (6, 1, 4)]) rfl (by simp)
  rwa [e1, e2] at this

/-- A row of three nodes whose middle one is filled. -/
def rowD : List ((ℚ × ℚ) × Option ℚ) := [((0, 0), some 1), ((1, 0), some (-99999)), ((10, 0), some 1)]

def rowQuery (_ : List (ℚ × ℚ)) (_ : ℚ × ℚ) : List (ℚ × Nat) := [(1, 0), (9, 1)]

theorem rowQuery_valid (pts : List (ℚ × ℚ)) (q : ℚ × ℚ) (h : 2 ≤ pts.length) : ValidQuery pts.length (rowQuery pts q) ∧ (rowQuery pts q).length = 2 := by
  refine ⟨⟨by simp [rowQuery], by simp [rowQuery], by simp [rowQuery], ?_⟩, rfl⟩
  intro n hn
  simp only [rowQuery, List.mem_cons, List.not_mem_nil, or_false] at hn
  rcases hn with rfl | rfl
  · show 0 < pts.length; omega
  · show 1 < pts.length; omega

example : ∀ o ∈ fillMarkedFl idwToolsD 2 rowQuery rowD, ∃ v, o = some v ∧ 0 < v :=
  C132_fill_positive idwToolsD_good (by norm_num) (by norm_num) rowQuery rowD (lo := 1) (hi := 1) (by norm_num) (by norm_num) (by decide +kernel) rowQuery_valid (by decide)

example : ∃ v, (fillMarkedFl idwToolsD 2 rowQuery rowD)[1]? = some (some v) ∧ |v - 1| ≤ 18 / 2 ^ 53 := by
  have h := C132_fill_value idwToolsD_good (by norm_num) (m := 2) (by decide) rowQuery rowD (k := 1) (by decide) rfl (data := [(1, 1, 1), (9, 1, 1)]) (by simp)
    (by
      have e : (rowD.filter fun n => decide (n.2 ≠ some (-99999))) = [((0, 0), some 1), ((10, 0), some 1)] := by decide +kernel
      rw [e]
      exact .cons ⟨rfl, rfl, Or.inl ⟨rfl, rfl⟩⟩ (.cons ⟨rfl, rfl, Or.inl ⟨rfl, rfl⟩⟩ .nil))
    (by norm_num) (by decide +kernel)
  obtain ⟨v, hv, he⟩ := h
  refine ⟨v, hv, ?_⟩
  norm_num [inverseDistanceMean] at he ⊢
  linarith

example : weightedMeanFl idwToolsD [(1, 0, 3), (2, 0, 5)] = none := C132_no_weight C113_roundDouble.2 leftSum_sumsUp (by simp)

/-- The smallest size announced for a grid of ones is below one. -/
theorem C132_hmin_below_data : blendHminFl idwToolsD 2 rowQuery rowD = some (1 - 1 / 2 ^ 53) ∧ (∀ n ∈ rowD, n.2 = some (-99999) ∨ n.2 = some 1) := by
  constructor
  · decide +kernel
  · decide

example : idwValueFl idwToolsD 2 none [some 1, some 1] [(1, 0), (9, 1)] = some (1 - 1 / 2 ^ 53) :=
  C132_constant_partial idwToolsD rfl (fun _ => rfl) leftSum_sumsUp idwToolsD_good.dots (by decide +kernel)

example : idwValueFl idwToolsD 2 none [some 7, some 5] [(1 / 10 ^ 11, 1), (9, 0)] = some 5 := by
  rw [C132_coincident _ _ _ _ _ _ _ (Or.inr (by decide +kernel))]; rfl

end OM
