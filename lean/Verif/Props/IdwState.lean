import Verif.Model.IdwState
import Verif.Props.Idw
import Mathlib.Tactic.Linarith
import Mathlib.Tactic.NormNum
/-!
# Properties of the statistics of `Invdisttree` (C112)

`oceanmesh/idw.py:74-106`: the object counts the query points that were interpolated with weights and adds up their weights, so that the user can
print the average weights.
-/
namespace OM
set_option linter.unusedSectionVars false

namespace Spec

/-- The query point is interpolated with weights: more than one neighbour is asked for and the nearest one does not coincide with the point. -/
def IsWeighted {K : Type} [Field K] [LinearOrder K] (nnear : Nat) (nb : List (K × Nat)) : Prop :=
  nnear ≠ 1 ∧ ∀ n, nb.head? = some n → (1 : K) / 10 ^ 10 ≤ n.1

/-- The accumulated weights are numbers, not negative, one for each of `n` neighbours, and add up to the count. -/
def FairStats {K : Type} [Field K] [LinearOrder K] (n : Nat) (o : IdwObject K) : Prop :=
  ∃ r : List K, o.wsum = some (r.map some) ∧ r.length = n ∧ r.sum = (o.wn : K) ∧ ∀ x ∈ r, 0 ≤ x

end Spec

section
variable {K : Type} [Field K] [LinearOrder K] [IsStrictOrderedRing K]
open Spec

theorem collectAll_forall2 {A B : Type} (f : A → Option B) : ∀ (l : List A) (r : List B), collectAll (l.map f) = some r →
    List.Forall₂ (fun a b => f a = some b) l r := by
  intro l
  induction l with
  | nil => intro r h; simp [collectAll] at h; subst h; exact .nil
  | cons a l ih =>
    intro r h
    cases hf : f a with
    | none => simp [hf, collectAll] at h
    | some b =>
      simp only [List.map_cons, hf, collectAll, Option.map_eq_some_iff] at h
      obtain ⟨r', h1, h2⟩ := h
      subst h2
      exact .cons hf (ih r' h1)

theorem collectAll_none_of {A B : Type} (f : A → Option B) : ∀ (l : List A), collectAll (l.map f) = none → ∃ a ∈ l, f a = none := by
  intro l
  induction l with
  | nil => intro h; simp [collectAll] at h
  | cons a l ih =>
    intro h
    cases hf : f a with
    | none => exact ⟨a, List.mem_cons_self, hf⟩
    | some b =>
      simp only [List.map_cons, hf, collectAll, Option.map_eq_none_iff] at h
      obtain ⟨x, hx, hx'⟩ := ih h
      exact ⟨x, List.mem_cons_of_mem _ hx, hx'⟩

/-- The dot product of normalised weights and data. -/
theorem dot_go (W : K) (hW : W ≠ 0) (pw : K → K) (wts : Option (List K)) (z : List (Option K)) :
    ∀ (nb : List (K × Nat)) (w : List K) (vs : List (Option K)),
    List.Forall₂ (fun n x => (multiplier wts n.2).map (fun m => 1 / pw n.1 * m) = some x) nb w →
    List.Forall₂ (fun n v => z[n.2]? = some v) nb vs →
    optDot (w.map fun x => some (x / W)) vs =
      (neighbourData wts z nb).map fun r => (r.map fun n => 1 / pw n.1 * n.2.1 / W * n.2.2).sum := by
  intro nb
  induction nb with
  | nil => intro w vs h1 h2; cases h1; cases h2; rfl
  | cons n l ih =>
    intro w vs h1 h2
    obtain ⟨d, ix⟩ := n
    cases h1 with | cons a1 b1 => ?_
    cases h2 with | cons a2 b2 => ?_
    rename_i x w' v vs'
    simp only [Option.map_eq_some_iff] at a1
    obtain ⟨m, hm, hx⟩ := a1
    simp only at hm hx a2
    have := ih w' vs' b1 b2
    cases v with
    | none => simp [optDot, neighbourData, neighbourValue, a2]
    | some y =>
      simp only [List.map_cons, optDot, this, neighbourData, neighbourValue, a2, Option.join_some, hm]
      cases neighbourData wts z l with
      | none => rfl
      | some r => simp only [Option.map_some, List.map_cons, List.sum_cons, hx]

/-- The weights are those of the neighbours. -/
theorem raw_sum (pw : K → K) (wts : Option (List K)) (z : List (Option K)) : ∀ (nb : List (K × Nat)) (w : List K) (r : List (K × K × K)),
    List.Forall₂ (fun n x => (multiplier wts n.2).map (fun m => 1 / pw n.1 * m) = some x) nb w → neighbourData wts z nb = some r →
    (r.map fun n => 1 / pw n.1 * n.2.1).sum = w.sum := by
  intro nb
  induction nb with
  | nil => intro w r h1 h2; cases h1; simp [neighbourData] at h2; subst h2; rfl
  | cons n l ih =>
    intro w r h1 h2
    obtain ⟨d, ix⟩ := n
    cases h1 with | cons a1 b1 => ?_
    rename_i x w'
    unfold neighbourData at h2
    split at h2
    · rename_i v m r' e1 e2 e3
      cases h2
      simp only [e2, Option.map_some, Option.some.injEq] at a1
      rw [List.map_cons, List.sum_cons, List.sum_cons, ih w' r' b1 e3, a1]
    · cases h2

theorem optDot_nan : ∀ (l : List (Option K)) (vs : List (Option K)), l ≠ [] → (∀ x ∈ l, x = none) → optDot l vs = none := by
  intro l vs h1 h2
  cases l with
  | nil => exact absurd rfl h1
  | cons x l =>
    have := h2 x List.mem_cons_self
    subst this
    cases vs with
    | nil => rfl
    | cons v vs => cases v <;> rfl

/-- A query that does not raise gives the value of the interpolation, whatever the statistics are. -/
theorem idwQuery_value (pw : K → K) (nnear : Nat) (wts : Option (List K)) (o : IdwObject K) (nb : List (K × Nat)) (v : Option K)
    (h : (idwQuery pw nnear wts o nb).1 = some v) : v = idwValue pw nnear wts o.z nb := by
  cases nb with
  | nil => simp [idwQuery] at h
  | cons n l =>
    obtain ⟨d0, i0⟩ := n
    unfold idwQuery at h
    simp only at h
    split at h
    · rename_i hc
      simp only at h
      unfold idwValue
      simp only
      rw [← ite_or]
      rw [if_pos hc, neighbourValue, h]
      rfl
    · rename_i hc
      have key : ∀ w vs, rawWeights pw wts ((d0, i0) :: l) = some w →
          collectAll (((d0, i0) :: l).map fun n => o.z[n.2]?) = some vs →
          optDot (normalised w) vs = idwValue pw nnear wts o.z ((d0, i0) :: l) := by
        intro w vs hw hvs
        have f1 := collectAll_forall2 _ _ _ hw
        have f2 := collectAll_forall2 _ _ _ hvs
        unfold idwValue
        simp only
        rw [← ite_or, if_neg hc]
        by_cases hW : w.sum = 0
        · rw [optDot_nan]
          · cases hr : neighbourData wts o.z ((d0, i0) :: l) with
            | none => rfl
            | some r =>
              simp only [weightedMean]
              rw [raw_sum pw wts o.z _ _ _ f1 hr, if_pos hW]
          · intro he
            have : w = [] := by simpa [normalised] using he
            rw [this] at f1
            cases f1
          · intro x hx
            simp only [normalised, hW, if_true, List.mem_map] at hx
            obtain ⟨_, _, h⟩ := hx
            exact h.symm
        · have : normalised w = w.map fun x => some (x / w.sum) := by simp [normalised, hW]
          rw [this, dot_go w.sum hW pw wts o.z _ _ _ f1 f2]
          cases hr : neighbourData wts o.z ((d0, i0) :: l) with
          | none => rfl
          | some r =>
            simp only [weightedMean, Option.map_some]
            rw [raw_sum pw wts o.z _ _ _ f1 hr, if_neg hW]
      split at h
      · rename_i w vs hw hvs
        split at h
        · split at h
          · cases h
          · split at h
            · simp only [Option.some.injEq] at h
              rw [← h]; exact key w vs hw hvs
            · cases h
        · simp only [Option.some.injEq] at h
          rw [← h]; exact key w vs hw hvs
      · cases h

theorem idwQuery_z (pw : K → K) (nnear : Nat) (wts : Option (List K)) (o : IdwObject K) (nb : List (K × Nat)) :
    (idwQuery pw nnear wts o nb).2.z = o.z ∧ (idwQuery pw nnear wts o nb).2.stat = o.stat := by
  unfold idwQuery
  split
  · exact ⟨rfl, rfl⟩
  · split
    · exact ⟨rfl, rfl⟩
    · split
      · split
        · split
          · exact ⟨rfl, rfl⟩
          · split <;> exact ⟨rfl, rfl⟩
        · exact ⟨rfl, rfl⟩
      · exact ⟨rfl, rfl⟩

theorem idwLoop_values (pw : K → K) (nnear : Nat) (wts : Option (List K)) : ∀ (qs : List (List (K × Nat))) (o : IdwObject K)
    (r : List (Option K)), (idwLoop pw nnear wts o qs).1 = some r → r = qs.map (idwValue pw nnear wts o.z) := by
  intro qs
  induction qs with
  | nil => intro o r h; simp [idwLoop] at h; simp [h]
  | cons nb qs ih =>
    intro o r h
    unfold idwLoop at h
    split at h
    · cases h
    · rename_i v o' hq
      simp only [Option.map_eq_some_iff] at h
      obtain ⟨r', h1, h2⟩ := h
      have hz := (idwQuery_z pw nnear wts o nb).1
      have hv := idwQuery_value pw nnear wts o nb v (by rw [hq])
      rw [hq] at hz
      have := ih o' r' h1
      rw [← h2, this, hz, hv]
      rfl

/-- **C112**, values. Whatever happened to the object before, a call that does not raise returns the interpolation of C35 at every query point. -/
theorem C112_values (pw : K → K) (nnear : Nat) (wts : Option (List K)) (o : IdwObject K) (qs : List (List (K × Nat))) (r : List (Option K))
    (h : (idwCall pw nnear wts o qs).1 = some r) : r = qs.map (idwValue pw nnear wts o.z) := by
  have hz : (startStats nnear o).z = o.z := by unfold startStats; split <;> rfl
  rw [← hz]
  exact idwLoop_values pw nnear wts qs _ r h

/-- Normalised positive weights. -/
theorem normalised_fair {w : List K} (hne : w ≠ []) (hpos : ∀ x ∈ w, 0 < x) :
    ∃ u : List K, normalised w = u.map some ∧ u.length = w.length ∧ u.sum = 1 ∧ ∀ x ∈ u, 0 ≤ x := by
  have hW : 0 < w.sum := by
    have := sum_map_pos (f := fun x : K => x) hne hpos
    simpa using this
  refine ⟨w.map (· / w.sum), ?_, by simp, ?_, ?_⟩
  · simp [normalised, hW.ne', List.map_map, Function.comp_def]
  · have : (w.map (· / w.sum)).sum = w.sum / w.sum := by
      simp only [div_eq_mul_inv]
      rw [List.sum_map_mul_right]
      simp
    rw [this, div_self hW.ne']
  · intro x hx
    obtain ⟨y, hy, rfl⟩ := List.mem_map.1 hx
    exact div_nonneg (hpos y hy).le hW.le

theorem zip_add_fair : ∀ (r u : List K), r.length = u.length → (∀ x ∈ r, 0 ≤ x) → (∀ x ∈ u, 0 ≤ x) →
    ∃ t : List K, List.zipWith optAdd (r.map some) (u.map some) = t.map some ∧ t.length = r.length ∧ t.sum = r.sum + u.sum ∧ ∀ x ∈ t, 0 ≤ x := by
  intro r
  induction r with
  | nil => intro u h _ _; cases u with
    | nil => exact ⟨[], rfl, rfl, by simp, by simp⟩
    | cons _ _ => simp at h
  | cons a r ih =>
    intro u h h1 h2
    cases u with
    | nil => simp at h
    | cons b u =>
      obtain ⟨t, e1, e2, e3, e4⟩ := ih u (by simpa using h) (fun x hx => h1 x (List.mem_cons_of_mem _ hx)) fun x hx => h2 x (List.mem_cons_of_mem _ hx)
      refine ⟨(a + b) :: t, by simp [optAdd, e1], by simp [e2], by simp [e3]; ring, ?_⟩
      intro x hx
      rcases List.mem_cons.1 hx with rfl | hx
      · exact add_nonneg (h1 a List.mem_cons_self) (h2 b List.mem_cons_self)
      · exact e4 x hx

theorem rawWeights_pos {pw : K → K} (hpw : ∀ d, 0 < d → 0 < pw d) {wts : Option (List K)} (hw : ∀ w, wts = some w → ∀ m ∈ w, 0 < m)
    {nb : List (K × Nat)} (hnb : ∀ n ∈ nb, 0 < n.1) {w : List K} (h : rawWeights pw wts nb = some w) :
    w.length = nb.length ∧ ∀ x ∈ w, 0 < x := by
  have f := collectAll_forall2 _ _ _ h
  clear h
  induction f with
  | nil => simp
  | cons a b ih =>
    rename_i n x l w'
    obtain ⟨i1, i2⟩ := ih fun n hn => hnb n (List.mem_cons_of_mem _ hn)
    refine ⟨by simp [i1], ?_⟩
    intro y hy
    rcases List.mem_cons.1 hy with rfl | hy
    · simp only [Option.map_eq_some_iff] at a
      obtain ⟨m, hm, rfl⟩ := a
      refine mul_pos (one_div_pos.2 (hpw _ (hnb n List.mem_cons_self))) ?_
      cases wts with
      | none => simp only [multiplier, Option.some.injEq] at hm; rw [← hm]; exact zero_lt_one
      | some ws => exact hw ws rfl m (List.mem_of_getElem? hm)
    · exact i2 y hy

open Classical in
/-- One query: the statistics stay fair and the count grows by one exactly for a query with weights that does not raise. -/
theorem idwQuery_fair {pw : K → K} (hpw : ∀ d, 0 < d → 0 < pw d) {n : Nat} {wts : Option (List K)}
    (hw : ∀ w, wts = some w → ∀ m ∈ w, 0 < m) {o : IdwObject K} (ho : FairStats n o) {nb : List (K × Nat)} (hl : nb.length = n)
    (hs : nb.Pairwise fun a b => a.1 ≤ b.1) :
    FairStats n (idwQuery pw n wts o nb).2 ∧
      ((idwQuery pw n wts o nb).1 ≠ none → (idwQuery pw n wts o nb).2.wn = o.wn + if o.stat = true ∧ IsWeighted n nb then 1 else 0) := by
  cases nb with
  | nil => exact ⟨by simpa [idwQuery] using ho, by simp [idwQuery]⟩
  | cons q l =>
    obtain ⟨d0, i0⟩ := q
    have hW : IsWeighted n ((d0, i0) :: l) ↔ ¬ (n = 1 ∨ d0 < 1 / 10000000000) := by
      unfold IsWeighted
      push Not
      norm_num
    unfold idwQuery
    simp only
    split
    · rename_i hc
      refine ⟨ho, fun _ => ?_⟩
      rw [if_neg (fun h => hW.1 h.2 hc)]
      rfl
    · rename_i hc
      have hd : (0 : K) < d0 := by
        push Not at hc
        exact lt_of_lt_of_le (by norm_num) hc.2
      have hpos : ∀ q ∈ (d0, i0) :: l, 0 < q.1 := by
        intro q hq
        rcases List.mem_cons.1 hq with rfl | hq
        · exact hd
        · exact hd.trans_le ((List.pairwise_cons.1 hs).1 q hq)
      split
      · rename_i w vs hraw _
        obtain ⟨r, h1, h2, h3, h4⟩ := ho
        obtain ⟨w1, w2⟩ := rawWeights_pos hpw hw hpos hraw
        by_cases hst : o.stat = true
        · simp only [hst, if_true, h1, true_and]
          have hlen : (r.map some).length = w.length := by rw [w1, hl, List.length_map, h2]
          rw [if_pos hlen, if_pos (hW.2 hc)]
          refine ⟨?_, fun _ => rfl⟩
          obtain ⟨u, u1, u2, u3, u4⟩ := normalised_fair (w := w) (by intro h; rw [h] at w1; simp at w1) w2
          obtain ⟨t, t1, t2, t3, t4⟩ := zip_add_fair r u (by rw [u2, w1, hl, h2]) h4 u4
          refine ⟨t, ?_, by rw [t2, h2], ?_, t4⟩
          · simp only [u1, t1]
          · rw [t3, h3, u3]; push_cast; ring
        · rw [if_neg hst]
          refine ⟨⟨r, h1, h2, h3, h4⟩, fun _ => ?_⟩
          rw [if_neg (fun h => hst h.1)]
          rfl
      · exact ⟨ho, fun h => absurd rfl h⟩

open Classical in
theorem idwLoop_fair {pw : K → K} (hpw : ∀ d, 0 < d → 0 < pw d) {n : Nat} {wts : Option (List K)}
    (hw : ∀ w, wts = some w → ∀ m ∈ w, 0 < m) : ∀ (qs : List (List (K × Nat))) (o : IdwObject K), FairStats n o →
    (∀ nb ∈ qs, nb.length = n ∧ nb.Pairwise fun a b => a.1 ≤ b.1) →
    FairStats n (idwLoop pw n wts o qs).2 ∧
      ((idwLoop pw n wts o qs).1 ≠ none → (idwLoop pw n wts o qs).2.wn =
        o.wn + if o.stat = true then (qs.filter fun nb => decide (IsWeighted n nb)).length else 0) := by
  intro qs
  induction qs with
  | nil => intro o ho _; exact ⟨ho, fun _ => by simp [idwLoop]⟩
  | cons nb qs ih =>
    intro o ho h
    obtain ⟨hl, hs⟩ := h nb List.mem_cons_self
    obtain ⟨f1, f2⟩ := idwQuery_fair hpw hw ho hl hs
    obtain ⟨-, z2⟩ := idwQuery_z pw n wts o nb
    cases hq : idwQuery pw n wts o nb with
    | mk res o' =>
      rw [hq] at f1 f2 z2
      cases res with
      | none =>
        have : idwLoop pw n wts o (nb :: qs) = (none, o') := by simp only [idwLoop, hq]
        rw [this]
        exact ⟨f1, fun h => absurd rfl h⟩
      | some v =>
        have : idwLoop pw n wts o (nb :: qs) = ((idwLoop pw n wts o' qs).1.map (v :: ·), (idwLoop pw n wts o' qs).2) := by
          rw [idwLoop]; simp only [hq]
        rw [this]
        obtain ⟨g1, g2⟩ := ih o' f1 fun nb hnb => h nb (List.mem_cons_of_mem _ hnb)
        refine ⟨g1, fun hne => ?_⟩
        have hne' : (idwLoop pw n wts o' qs).1 ≠ none := by
          intro he
          simp [he] at hne
        have f2' := f2 (by simp)
        simp only at f2' z2 ⊢
        rw [g2 hne', f2', z2]
        by_cases hst : o.stat = true <;> by_cases hwt : IsWeighted n nb <;> simp [hst, hwt]
        ring

theorem startStats_fair {n : Nat} {o : IdwObject K} (ho : (o.wsum = none ∧ o.wn = 0) ∨ FairStats n o) : FairStats n (startStats n o) := by
  rcases ho with ⟨h1, h2⟩ | ho
  · refine ⟨List.replicate n 0, ?_, by simp, ?_, ?_⟩
    · simp [startStats, h1]
    · simp [startStats, h1, h2]
    · intro x hx
      rw [List.eq_of_mem_replicate hx]
  · obtain ⟨r, h1, h2⟩ := ho
    have : startStats n o = o := by simp [startStats, h1]
    rw [this]
    exact ⟨r, h1, h2⟩

/-- **C112**, construction: it raises exactly if points and data differ in number; a new object keeps data and flag and has counted nothing. -/
theorem C112_new (X : List (K × K)) (z : List (Option K)) (stat : Bool) :
    ((newIdw X z stat).isSome ↔ X.length = z.length) ∧
    ∀ o, newIdw X z stat = some o → o.z = z ∧ o.stat = stat ∧ o.wn = 0 ∧ o.wsum = none := by
  unfold newIdw
  split
  · rename_i h
    exact ⟨⟨fun _ => h, fun _ => rfl⟩, fun o ho => by cases ho; exact ⟨rfl, rfl, rfl, rfl⟩⟩
  · rename_i h
    exact ⟨⟨fun hs => by simp at hs, fun he => absurd he h⟩, fun o ho => by cases ho⟩

example : newIdw [((0 : ℚ), 0), (1, 0)] [some 3, none] true = some ⟨[some 3, none], true, 0, none⟩ ∧
    newIdw [((0 : ℚ), 0)] [some 3, none] true = none := by decide +kernel

/-- **C112**, average weights. After every history of calls with the same number of neighbours, whatever exceptions they raise because of indices,
the weights of an object that has been called are numbers that are not negative and add up to the count: the printed averages add up to one. The
neighbours are sorted and positive powers and multipliers are used. -/
theorem C112_average_weights {pw : K → K} (hpw : ∀ d, 0 < d → 0 < pw d) {n : Nat} (X : List (K × K)) (z : List (Option K)) (stat : Bool)
    (o : IdwObject K) (hnew : newIdw X z stat = some o) (c : IdwArgs K) (cs : List (IdwArgs K)) (hn : ∀ a ∈ c :: cs, a.nnear = n)
    (hw : ∀ a ∈ c :: cs, ∀ w, a.weights = some w → ∀ m ∈ w, 0 < m)
    (hq : ∀ a ∈ c :: cs, ∀ nb ∈ a.queries, nb.length = n ∧ nb.Pairwise fun x y => x.1 ≤ y.1) :
    FairStats n (idwHistory pw o (c :: cs)) := by
  have ho : (o.wsum = none ∧ o.wn = 0) ∨ FairStats n o := by
    unfold newIdw at hnew
    split at hnew
    · cases hnew; exact Or.inl ⟨rfl, rfl⟩
    · cases hnew
  clear hnew
  have step : ∀ (a : IdwArgs K) (o : IdwObject K), a ∈ c :: cs → ((o.wsum = none ∧ o.wn = 0) ∨ FairStats n o) →
      FairStats n (idwCall pw a.nnear a.weights o a.queries).2 := by
    intro a o ha ho
    rw [hn a ha]
    exact (idwLoop_fair hpw (hw a ha) a.queries _ (startStats_fair ho) (hq a ha)).1
  have rest : ∀ (l : List (IdwArgs K)) (o : IdwObject K), (∀ a ∈ l, a ∈ c :: cs) → FairStats n o → FairStats n (idwHistory pw o l) := by
    intro l
    induction l with
    | nil => intro o _ h; exact h
    | cons a l ih =>
      intro o hl h
      exact ih _ (fun b hb => hl b (List.mem_cons_of_mem _ hb)) (step a o (hl a List.mem_cons_self) (Or.inr h))
  exact rest cs _ (fun a ha => List.mem_cons_of_mem _ ha) (step c o List.mem_cons_self ho)

open Classical in
/-- **C112**, count. A call that does not raise adds to the count the number of its query points that are interpolated with weights, if statistics are
kept, and nothing otherwise. -/
theorem C112_count {pw : K → K} (hpw : ∀ d, 0 < d → 0 < pw d) {n : Nat} {wts : Option (List K)} (hw : ∀ w, wts = some w → ∀ m ∈ w, 0 < m)
    (o : IdwObject K) (ho : (o.wsum = none ∧ o.wn = 0) ∨ FairStats n o) (qs : List (List (K × Nat)))
    (hq : ∀ nb ∈ qs, nb.length = n ∧ nb.Pairwise fun a b => a.1 ≤ b.1) (h : (idwCall pw n wts o qs).1 ≠ none) :
    (idwCall pw n wts o qs).2.wn = o.wn + if o.stat = true then (qs.filter fun nb => decide (IsWeighted n nb)).length else 0 := by
  have h1 : (startStats n o).wn = o.wn := by unfold startStats; split <;> rfl
  have h2 : (startStats n o).stat = o.stat := by unfold startStats; split <;> rfl
  rw [← h1, ← h2]
  exact (idwLoop_fair hpw hw qs _ (startStats_fair ho) hq).2 h

/-- **C112** fails for the statistics when the number of neighbours changes: once weights for `m` neighbours have been stored, every call with another
number of neighbours raises at its first query point with weights, and that point is counted although its weights are not added. -/
theorem C112_other_number {pw : K → K} {n : Nat} (wts : Option (List K)) (o : IdwObject K) (hst : o.stat = true) (s : List (Option K))
    (hs : o.wsum = some s) (hn : s.length ≠ n) (nb : List (K × Nat)) (hl : nb.length = n) (hne : nb ≠ []) (hwt : IsWeighted n nb)
    (hz : ∀ q ∈ nb, q.2 < o.z.length) (hw : ∀ w, wts = some w → ∀ q ∈ nb, q.2 < w.length) (qs : List (List (K × Nat))) :
    idwCall pw n wts o (nb :: qs) = (none, { o with wn := o.wn + 1 }) := by
  have h1 : startStats n o = o := by simp [startStats, hs]
  cases nb with
  | nil => exact absurd rfl hne
  | cons q l =>
    obtain ⟨d0, i0⟩ := q
    have hc : ¬ (n = 1 ∨ d0 < 1 / 10000000000) := by
      obtain ⟨a, b⟩ := hwt
      have := b _ rfl
      push Not
      norm_num at this ⊢
      exact ⟨a, this⟩
    have e1 : ∃ w, rawWeights pw wts ((d0, i0) :: l) = some w := by
      cases h : rawWeights pw wts ((d0, i0) :: l) with
      | some w => exact ⟨w, rfl⟩
      | none =>
        obtain ⟨a, ha, he⟩ := collectAll_none_of _ _ h
        rw [Option.map_eq_none_iff] at he
        cases wts with
        | none => simp [multiplier] at he
        | some w => simp only [multiplier, List.getElem?_eq_none_iff] at he; exact absurd (hw w rfl a ha) (not_lt.2 he)
    have e2 : ∃ vs, collectAll (((d0, i0) :: l).map fun n => o.z[n.2]?) = some vs := by
      cases h : collectAll (((d0, i0) :: l).map fun n => o.z[n.2]?) with
      | some w => exact ⟨w, rfl⟩
      | none =>
        obtain ⟨a, ha, he⟩ := collectAll_none_of _ _ h
        rw [List.getElem?_eq_none_iff] at he
        exact absurd (hz a ha) (not_lt.2 he)
    obtain ⟨w, e1⟩ := e1
    obtain ⟨vs, e2⟩ := e2
    have hwl : w.length = n := by rw [← hl]; exact (collectAll_forall2 _ _ _ e1).length_eq.symm
    have hq : idwQuery pw n wts o ((d0, i0) :: l) = (none, { o with wn := o.wn + 1 }) := by
      unfold idwQuery
      simp only [if_neg hc, e1, e2, hst, if_true, hs]
      rw [if_neg (by rw [hwl]; exact hn)]
    unfold idwCall
    rw [h1, idwLoop]
    simp only [hq]

end

section
open Spec

/-- Three data points with statistics; first a call with two neighbours (one query point at a data point, one between), then one with three. -/
def idwExample : IdwObject ℚ := ⟨[some 1, some 3, some 8], true, 0, none⟩

example : newIdw [((0 : ℚ), (0 : ℚ)), (1, 0), (2, 0)] [some 1, some 3, some 8] true = some idwExample := by decide +kernel

/-- The first call: values 3 and `(1/(1/4) + 3/(3/4)) / (4 + 4/3) = 3/2`; one weighted point is counted. -/
example : idwCall (fun d => d) 2 none idwExample [[(0, 1), (1, 0)], [(1 / 4, 0), (3 / 4, 1)]] =
    (some [some 3, some (3 / 2)], ⟨[some 1, some 3, some 8], true, 1, some [some (3 / 4), some (1 / 4)]⟩) := by decide +kernel

/-- The second call with three neighbours raises, and the count is 2 although the weights add up to 1. -/
example : idwHistory (fun d => d) idwExample [⟨2, none, [[(0, 1), (1, 0)], [(1 / 4, 0), (3 / 4, 1)]]⟩,
    ⟨3, none, [[(1 / 4, 0), (3 / 4, 1), (7 / 4, 2)]]⟩] =
    ⟨[some 1, some 3, some 8], true, 2, some [some (3 / 4), some (1 / 4)]⟩ := by decide +kernel

example : FairStats 2 (idwHistory (fun d => d) idwExample [⟨2, none, [[(0, 1), (1, 0)], [(1 / 4, 0), (3 / 4, 1)]]⟩,
    ⟨2, some [1, 2, 3], [[(1 / 4, 0), (3 / 4, 7)]]⟩]) := by
  refine C112_average_weights (fun _ h => h) [(0, 0), (1, 0), (2, 0)] [some 1, some 3, some 8] true _ rfl _ _ ?_ ?_ ?_
  · simp
  · simp
  · simp; norm_num

end
end OM
