import Verif.Lemmas.GradLimit
import Mathlib.Algebra.Order.BigOperators.Group.Finset
/-! Invariants of the gradient limiter. -/
set_option linter.unusedSectionVars false
namespace OM
open Spec
variable {K : Type} [Field K] [LinearOrder K] [IsStrictOrderedRing K]

/-- The effect of one comparison: nothing, or one of the two nodes is lowered. -/
theorem relaxF_cases (g ftol : K) (iter : Int) (P : PS K) (o : Nat × Nat × K) :
    (relaxF g ftol iter P o = P ∧ (P.φ o.2.1 < P.φ o.1 → P.φ o.1 ≤ P.φ o.2.1 + o.2.2 * g + ftol) ∧
      (P.φ o.1 ≤ P.φ o.2.1 → P.φ o.2.1 ≤ P.φ o.1 + o.2.2 * g + ftol)) ∨
    (relaxF g ftol iter P o = P.lower iter o.1 (P.φ o.2.1 + o.2.2 * g) ∧ P.φ o.2.1 < P.φ o.1 ∧
      P.φ o.2.1 + o.2.2 * g + ftol < P.φ o.1) ∨
    (relaxF g ftol iter P o = P.lower iter o.2.1 (P.φ o.1 + o.2.2 * g) ∧ P.φ o.1 ≤ P.φ o.2.1 ∧
      P.φ o.1 + o.2.2 * g + ftol < P.φ o.2.1) := by
  unfold relaxF
  by_cases h1 : P.φ o.2.1 < P.φ o.1
  · rw [if_pos h1]
    by_cases h2 : P.φ o.2.1 + o.2.2 * g + ftol < P.φ o.1
    · rw [if_pos h2]; exact Or.inr (Or.inl ⟨rfl, h1, h2⟩)
    · rw [if_neg h2]; exact Or.inl ⟨rfl, fun _ => not_lt.1 h2, fun h => absurd h1 (not_lt.2 h)⟩
  · rw [if_neg h1]
    by_cases h2 : P.φ o.1 + o.2.2 * g + ftol < P.φ o.2.1
    · rw [if_pos h2]; exact Or.inr (Or.inr ⟨rfl, not_lt.1 h1, h2⟩)
    · rw [if_neg h2]; exact Or.inl ⟨rfl, fun h => absurd h h1, fun _ => not_lt.1 h2⟩

/-- A comparison is idle exactly if the pair respects the limit (for a non-negative limit). -/
theorem relaxF_idle {g ftol : K} {iter : Int} {P : PS K} {o : Nat × Nat × K}
    (h : |P.φ o.1 - P.φ o.2.1| ≤ o.2.2 * g + ftol) : relaxF g ftol iter P o = P := by
  rw [abs_le] at h
  rcases relaxF_cases g ftol iter P o with h1 | ⟨-, -, h2⟩ | ⟨-, -, h2⟩
  · exact h1.1
  · exact absurd h2 (by linarith [h.1, h.2])
  · exact absurd h2 (by linarith [h.1, h.2])

theorem relaxF_le {g ftol : K} (hf : 0 ≤ ftol) (iter : Int) (P : PS K) (o : Nat × Nat × K) (n : Nat) :
    (relaxF g ftol iter P o).φ n ≤ P.φ n := by
  rcases relaxF_cases g ftol iter P o with h | h | h
  · rw [h.1]
  · rw [h.1]
    unfold PS.lower
    by_cases hn : n = o.1
    · subst hn; simp only [Function.update_self]; linarith [h.2.2]
    · simp only [Function.update_of_ne hn]; exact le_refl _
  · rw [h.1]
    unfold PS.lower
    by_cases hn : n = o.2.1
    · subst hn; simp only [Function.update_self]; linarith [h.2.2]
    · simp only [Function.update_of_ne hn]; exact le_refl _

/-- Any set of values closed under limiting along the comparison is kept. -/
theorem relaxF_closed {g ftol : K} (E : Nat → K → Prop) (iter : Int) (P : PS K) (o : Nat × Nat × K)
    (h : ∀ n, E n (P.φ n)) (h12 : ∀ v, E o.2.1 v → E o.1 (v + o.2.2 * g))
    (h21 : ∀ v, E o.1 v → E o.2.1 (v + o.2.2 * g)) (n : Nat) : E n ((relaxF g ftol iter P o).φ n) := by
  rcases relaxF_cases g ftol iter P o with h1 | h1 | h1
  · rw [h1.1]; exact h n
  · rw [h1.1]
    unfold PS.lower
    by_cases hn : n = o.1
    · subst hn; simp only [Function.update_self]; exact h12 _ (h _)
    · simp only [Function.update_of_ne hn]; exact h n
  · rw [h1.1]
    unfold PS.lower
    by_cases hn : n = o.2.1
    · subst hn; simp only [Function.update_self]; exact h21 _ (h _)
    · simp only [Function.update_of_ne hn]; exact h n

/-- The lengths used in a sweep are one of the two given lengths. -/
theorem ops_len {d0 d1 : Nat} {elen elend : K} {l : List Nat} {o : Nat × Nat × K}
    (h : o ∈ l.flatMap (opsAt d0 d1 elen elend)) : o.2.2 = elen ∨ o.2.2 = elend := by
  obtain ⟨-, b, -, hb⟩ := mem_ops h
  cases b <;> simp_all

section loop
variable {d0 d1 d2 : Nat} {elen elend g ftol : K}

theorem loopF_le (hf : 0 ≤ ftol) (fuel iter : Nat) (P : PS K) (n : Nat) :
    (loopF d0 d1 d2 elen elend g ftol fuel iter P).1.φ n ≤ P.φ n := by
  obtain ⟨it, h, -⟩ := loopF_induct (d0 := d0) (d1 := d1) (d2 := d2) (elen := elen) (elend := elend) (g := g)
    (ftol := ftol) (fun _ Q => Q.φ n ≤ P.φ n) (by
      intro iter Q hQ _
      exact foldl_inv (fun Q : PS K => Q.φ n ≤ P.φ n) _ _ _ hQ
        (fun s o _ hs => (relaxF_le hf iter s o n).trans hs)) fuel iter P le_rfl
  exact h

/-- Families of admissible values closed under limiting stay admissible. -/
theorem loopF_closed (E : Nat → K → Prop)
    (hE : ∀ n m b, n < d0 * d1 * d2 → (m, b) ∈ neighbours d0 d1 n →
      (∀ v, E m v → E n (v + (if b then elend else elen) * g)) ∧ (∀ v, E n v → E m (v + (if b then elend else elen) * g)))
    (fuel iter : Nat) (P : PS K) (h : ∀ n, E n (P.φ n)) (n : Nat) :
    E n ((loopF d0 d1 d2 elen elend g ftol fuel iter P).1.φ n) := by
  obtain ⟨it, h, -⟩ := loopF_induct (d0 := d0) (d1 := d1) (d2 := d2) (elen := elen) (elend := elend) (g := g)
    (ftol := ftol) (fun _ Q => ∀ n, E n (Q.φ n)) (by
      intro iter Q hQ _
      refine foldl_inv (fun Q : PS K => ∀ n, E n (Q.φ n)) _ _ _ hQ ?_
      intro s o ho hs
      obtain ⟨h1, b, h2, h3⟩ := mem_ops ho
      have := hE o.1 o.2.1 b (mem_activeF.1 h1).1 h2
      rw [← h3] at this
      exact relaxF_closed E iter s o hs this.1 this.2) fuel iter P h
  exact h n

/-- The pair is within its limit, or one of the two is marked for the sweep after `iter`. -/
def PairOK (g ftol : K) (P : PS K) (iter : Int) (n m : Nat) (len : K) : Prop :=
  |P.φ n - P.φ m| ≤ len * g + ftol ∨ P.α n = iter ∨ P.α m = iter

/-- The convergence invariant for pairs that are compared from both sides. -/
theorem sweepF_pair {ops : List (Nat × Nat × K)} (iter : Int) (n m : Nat) (len : K) : ∀ (P : PS K),
    (PairOK g ftol P iter n m len ∨ (n, m, len) ∈ ops ∨ (m, n, len) ∈ ops) →
    PairOK g ftol (ops.foldl (relaxF g ftol iter) P) iter n m len := by
  induction ops with
  | nil => intro P h; simpa using h
  | cons o ops ih =>
    intro P h
    rw [List.foldl_cons]
    apply ih
    have keep : ∀ x v, (x = n ∨ x = m) → PairOK g ftol (P.lower iter x v) iter n m len := by
      rintro x v (rfl | rfl)
      · right; left; simp [PS.lower]
      · right; right; simp [PS.lower]
    have keep' : ∀ x v, PairOK g ftol P iter n m len → PairOK g ftol (P.lower iter x v) iter n m len := by
      intro x v hP
      by_cases hx : x = n ∨ x = m
      · exact keep x v hx
      · push Not at hx
        unfold PairOK PS.lower
        simp only [Function.update_of_ne hx.1.symm, Function.update_of_ne hx.2.symm]
        exact hP
    by_cases ho : o = (n, m, len) ∨ o = (m, n, len)
    · left
      rcases relaxF_cases g ftol iter P o with ⟨h1, h2, h3⟩ | ⟨h1, -⟩ | ⟨h1, -⟩
      · rw [h1]
        left
        rcases ho with rfl | rfl
        · dsimp only at h2 h3
          rcases lt_or_ge (P.φ m) (P.φ n) with hlt | hge
          · have := h2 hlt
            rw [abs_of_pos (by linarith)]; linarith
          · have := h3 hge
            rw [abs_of_nonpos (by linarith)]; linarith
        · dsimp only at h2 h3
          rcases lt_or_ge (P.φ n) (P.φ m) with hlt | hge
          · have := h2 hlt
            rw [abs_of_neg (by linarith)]; linarith
          · have := h3 hge
            rw [abs_of_nonneg (by linarith)]; linarith
      · rw [h1]; apply keep; rcases ho with rfl | rfl <;> simp
      · rw [h1]; apply keep; rcases ho with rfl | rfl <;> simp
    · push Not at ho
      rcases h with h | h | h
      · left
        rcases relaxF_cases g ftol iter P o with ⟨h1, -⟩ | ⟨h1, -⟩ | ⟨h1, -⟩
        · rw [h1]; exact h
        · rw [h1]; exact keep' _ _ h
        · rw [h1]; exact keep' _ _ h
      · right; left
        rcases List.mem_cons.1 h with h | h
        · exact absurd h.symm ho.1
        · exact h
      · right; right
        rcases List.mem_cons.1 h with h | h
        · exact absurd h.symm ho.2
        · exact h

theorem mem_ops_of {l : List Nat} {n m : Nat} {b : Bool} (hn : n ∈ l) (hm : (m, b) ∈ neighbours d0 d1 n) :
    (n, m, if b then elend else elen) ∈ l.flatMap (opsAt d0 d1 elen elend) :=
  List.mem_flatMap.2 ⟨n, hn, List.mem_map.2 ⟨(m, b), hm, rfl⟩⟩

/-- Pairs compared from both sides respect the limit when the loop has converged. -/
theorem loopF_converged {n m : Nat} {b : Bool} (hn : n < d0 * d1 * d2) (hm : m < d0 * d1 * d2)
    (h1 : (m, b) ∈ neighbours d0 d1 n) (h2 : (n, b) ∈ neighbours d0 d1 m) (fuel : Nat) (P : PS K)
    (hP : ∀ x < d0 * d1 * d2, P.α x = -1) (hc : (loopF d0 d1 d2 elen elend g ftol fuel 0 P).2 = true) :
    |(loopF d0 d1 d2 elen elend g ftol fuel 0 P).1.φ n - (loopF d0 d1 d2 elen elend g ftol fuel 0 P).1.φ m| ≤
      (if b then elend else elen) * g + ftol := by
  obtain ⟨it, h, hact⟩ := loopF_induct (d0 := d0) (d1 := d1) (d2 := d2) (elen := elen) (elend := elend) (g := g)
    (ftol := ftol) (fun iter Q => PairOK g ftol Q ((iter : Int) - 1) n m (if b then elend else elen)) (by
      intro iter Q hQ _
      unfold sweepF
      rw [show (((iter + 1 : Nat) : Int) - 1) = (iter : Int) by push_cast; ring]
      apply sweepF_pair
      rcases hQ with hQ | hQ | hQ
      · exact Or.inl (Or.inl hQ)
      · exact Or.inr (Or.inl (mem_ops_of (mem_activeF.2 ⟨hn, hQ⟩) h1))
      · exact Or.inr (Or.inr (mem_ops_of (mem_activeF.2 ⟨hm, hQ⟩) h2))) fuel 0 P
    (Or.inr (Or.inl (by simp [hP n hn])))
  have ha := hact hc
  rcases h with h | h | h
  · exact h
  · have := mem_activeF.2 ⟨hn, h⟩
    rw [ha] at this; simp at this
  · have := mem_activeF.2 ⟨hm, h⟩
    rw [ha] at this; simp at this

/-- A state in which all compared pairs are within their limits is not changed, and the loop stops after one sweep. -/
theorem loopF_idle (fuel iter : Nat) (P : PS K)
    (h : ∀ n m b, n < d0 * d1 * d2 → (m, b) ∈ neighbours d0 d1 n →
      |P.φ n - P.φ m| ≤ (if b then elend else elen) * g + ftol) :
    (loopF d0 d1 d2 elen elend g ftol fuel iter P).1 = P ∧
      ((∀ x < d0 * d1 * d2, P.α x < iter) → 2 ≤ fuel → (loopF d0 d1 d2 elen elend g ftol fuel iter P).2 = true) := by
  have hsw : ∀ iter, sweepF d0 d1 elen elend g ftol iter (activeF (d0 * d1 * d2) P iter) P = P := by
    intro iter
    unfold sweepF
    refine foldl_inv (fun Q : PS K => Q = P) _ _ _ rfl ?_
    rintro s o ho rfl
    obtain ⟨h1, b, h2, h3⟩ := mem_ops ho
    apply relaxF_idle
    rw [h3]
    exact h _ _ b (mem_activeF.1 h1).1 h2
  constructor
  · induction fuel generalizing iter with
    | zero => rfl
    | succ fuel ih =>
      unfold loopF
      split
      · rfl
      · rw [hsw]; exact ih (iter + 1)
  · intro hα h2
    obtain ⟨k, rfl⟩ : ∃ k, fuel = k + 2 := ⟨fuel - 2, by omega⟩
    unfold loopF
    split
    · rfl
    · rw [hsw]
      unfold loopF
      rw [if_pos]
      rw [List.eq_nil_iff_forall_not_mem]
      intro x hx
      have := mem_activeF.1 hx
      have h3 := hα x this.1
      have h4 := this.2
      push_cast at h4
      omega

/-- Sum of the values. -/
def PS.total (N : Nat) (P : PS K) : K := ∑ n ∈ Finset.range N, P.φ n

theorem total_lower {N x : Nat} (hx : x < N) (P : PS K) (iter : Int) (v : K) :
    (P.lower iter x v).total N = P.total N - (P.φ x - v) := by
  unfold PS.total PS.lower
  rw [Finset.sum_update_of_mem (Finset.mem_range.2 hx), ← Finset.erase_eq, ← Finset.add_sum_erase _ _ (Finset.mem_range.2 hx)]
  ring

/-- A sweep either changes nothing at all or lowers the sum by more than the tolerance. -/
theorem ops_progress {N : Nat} (hf : 0 ≤ ftol) (iter : Int) : ∀ (ops : List (Nat × Nat × K)) (P : PS K),
    (∀ o ∈ ops, o.1 < N ∧ o.2.1 < N) →
    (ops.foldl (relaxF g ftol iter) P = P ∨
      (ops.foldl (relaxF g ftol iter) P).total N < P.total N - ftol)
  | [], P, _ => Or.inl rfl
  | o :: ops, P, h => by
    rw [List.foldl_cons]
    have hrest := fun o' ho' => h o' (List.mem_cons_of_mem o ho')
    have ih := ops_progress hf iter ops (relaxF g ftol iter P o) hrest
    have ho := h o (by simp)
    rcases relaxF_cases g ftol iter P o with ⟨h1, -⟩ | ⟨h1, h2, h3⟩ | ⟨h1, h2, h3⟩
    · rw [h1] at ih ⊢; exact ih
    · right
      have ht := total_lower ho.1 P iter (P.φ o.2.1 + o.2.2 * g)
      rw [← h1] at ht
      rcases ih with ih | ih
      · rw [ih, ht]; linarith
      · linarith
    · right
      have ht := total_lower ho.2 P iter (P.φ o.1 + o.2.2 * g)
      rw [← h1] at ht
      rcases ih with ih | ih
      · rw [ih, ht]; linarith
      · linarith

/-- After `k` sweeps the loop has converged or the sum has dropped by `(k-1)·ftol`. -/
theorem loopF_progress (hf : 0 ≤ ftol) : ∀ (fuel iter : Nat) (P : PS K),
    (∀ x < d0 * d1 * d2, P.α x < iter) →
    (loopF d0 d1 d2 elen elend g ftol (fuel + 1) iter P).2 = true ∨
      (loopF d0 d1 d2 elen elend g ftol fuel iter P).1.total (d0 * d1 * d2) ≤ P.total (d0 * d1 * d2) - fuel * ftol
  | 0, iter, P, _ => by right; simp [loopF]
  | fuel + 1, iter, P, hα => by
    unfold loopF
    by_cases ha : activeF (d0 * d1 * d2) P iter = []
    · left; rw [if_pos ha]
    · rw [if_neg ha, if_neg ha]
      have hvalid : ∀ o ∈ (activeF (d0 * d1 * d2) P iter).flatMap (opsAt d0 d1 elen elend),
          o.1 < d0 * d1 * d2 ∧ o.2.1 < d0 * d1 * d2 := by
        intro o ho
        obtain ⟨h1, b, h2, -⟩ := mem_ops ho
        exact ⟨(mem_activeF.1 h1).1, neighbours_lt (mem_activeF.1 h1).1 _ h2⟩
      have hαn : ∀ x < d0 * d1 * d2,
          (sweepF d0 d1 elen elend g ftol iter (activeF (d0 * d1 * d2) P iter) P).α x < ((iter + 1 : Nat) : Int) := by
        unfold sweepF
        refine foldl_inv (fun Q : PS K => ∀ x < d0 * d1 * d2, Q.α x < ((iter + 1 : Nat) : Int)) _ _ _ ?_ ?_
        · intro x hx; have := hα x hx; push_cast; omega
        · intro Q o _ hQ x hx
          have low : ∀ y v, (Q.lower iter y v).α x < ((iter + 1 : Nat) : Int) := by
            intro y v
            unfold PS.lower
            by_cases hxy : x = y
            · subst hxy; simp
            · simp only [Function.update_of_ne hxy]; exact hQ x hx
          rcases relaxF_cases g ftol iter Q o with ⟨h1, -⟩ | ⟨h1, -⟩ | ⟨h1, -⟩
          · rw [h1]; exact hQ x hx
          · rw [h1]; exact low _ _
          · rw [h1]; exact low _ _
      have ih := loopF_progress hf fuel (iter + 1) _ hαn
      rcases ops_progress (g := g) hf iter _ P hvalid with h | h
      · left
        unfold loopF
        rw [if_pos]
        rw [List.eq_nil_iff_forall_not_mem]
        intro x hx
        have hx' := mem_activeF.1 hx
        unfold sweepF at hx'
        rw [h] at hx'
        have h3 := hα x hx'.1
        have h4 := hx'.2
        push_cast at h4
        omega
      · rcases ih with ih | ih
        · left; exact ih
        · right
          change (sweepF d0 d1 elen elend g ftol iter (activeF (d0 * d1 * d2) P iter) P).total _ < _ at h
          push_cast
          linarith

/-- Once converged, more iterations change nothing. -/
theorem loopF_stable : ∀ (fuel iter extra : Nat) (P : PS K),
    (loopF d0 d1 d2 elen elend g ftol fuel iter P).2 = true →
    loopF d0 d1 d2 elen elend g ftol (fuel + extra) iter P = loopF d0 d1 d2 elen elend g ftol fuel iter P
  | 0, iter, extra, P, h => by simp [loopF] at h
  | fuel + 1, iter, extra, P, h => by
    rw [show fuel + 1 + extra = (fuel + extra) + 1 by omega]
    unfold loopF at h ⊢
    by_cases ha : activeF (d0 * d1 * d2) P iter = []
    · rw [if_pos ha, if_pos ha]
    · rw [if_neg ha] at h
      rw [if_neg ha, if_neg ha]
      exact loopF_stable fuel (iter + 1) extra _ h

/-- With a positive tolerance and values bounded below, the loop converges. -/
theorem loopF_converges [Archimedean K] (hf : 0 < ftol) (P : PS K) (hP : ∀ x < d0 * d1 * d2, P.α x < 0) (lo : K)
    (hlo : ∀ fuel, ∀ x < d0 * d1 * d2, lo ≤ (loopF d0 d1 d2 elen elend g ftol fuel 0 P).1.φ x) :
    ∃ N, (loopF d0 d1 d2 elen elend g ftol N 0 P).2 = true := by
  obtain ⟨k, hk⟩ := Archimedean.arch (P.total (d0 * d1 * d2) - (d0 * d1 * d2 : Nat) * lo + 1) hf
  refine ⟨k + 1, ?_⟩
  rcases loopF_progress hf.le k 0 P (by simpa using hP) with h | h
  · exact h
  · exfalso
    have hsum : ((d0 * d1 * d2 : Nat) : K) * lo ≤
        (loopF d0 d1 d2 elen elend g ftol k 0 P).1.total (d0 * d1 * d2) := by
      unfold PS.total
      have := Finset.card_nsmul_le_sum (Finset.range (d0 * d1 * d2))
        (fun n => (loopF d0 d1 d2 elen elend g ftol k 0 P).1.φ n) lo (fun x hx => hlo k x (Finset.mem_range.1 hx))
      simpa [nsmul_eq_mul] using this
    rw [nsmul_eq_mul] at hk
    linarith

end loop
end OM
