import Verif.Model.GradLimitFl
import Verif.Lemmas.GradLimit2
/-! The gradient limiter for an abstract step `up` (by kind of neighbour) and an abstract tolerance `tol`. -/
set_option linter.unusedSectionVars false
namespace OM
open Spec
section
variable {K : Type} [Field K] [LinearOrder K]

/-- One comparison. -/
def relaxG (up : Bool → K → K) (tol : K → K) (iter : Int) (P : PS K) (o : Nat × Nat × Bool) : PS K :=
  if P.φ o.2.1 < P.φ o.1 then
    if tol (up o.2.2 (P.φ o.2.1)) < P.φ o.1 then P.lower iter o.1 (up o.2.2 (P.φ o.2.1)) else P
  else
    if tol (up o.2.2 (P.φ o.1)) < P.φ o.2.1 then P.lower iter o.2.1 (up o.2.2 (P.φ o.1)) else P

/-- The comparisons made for one node. -/
def opsG (d0 d1 : Nat) (n : Nat) : List (Nat × Nat × Bool) := (neighbours d0 d1 n).map fun x => (n, x.1, x.2)

/-- One sweep. -/
def sweepG (up : Bool → K → K) (tol : K → K) (d0 d1 : Nat) (iter : Nat) (l : List Nat) (P : PS K) : PS K :=
  (l.flatMap (opsG d0 d1)).foldl (relaxG up tol iter) P

/-- The outer loop. -/
def loopG (up : Bool → K → K) (tol : K → K) (d0 d1 d2 : Nat) : Nat → Nat → PS K → PS K × Bool
  | 0, _, P => (P, false)
  | fuel + 1, iter, P =>
    if activeF (d0 * d1 * d2) P iter = [] then (P, true)
    else loopG up tol d0 d1 d2 fuel (iter + 1) (sweepG up tol d0 d1 iter (activeF (d0 * d1 * d2) P iter) P)

/-- The step of the rounded limiter. -/
def upFl (rnd : K → K) (fused : Bool) (elen elend g : K) (b : Bool) (x : K) : K :=
  stepFl rnd fused g (if b then elend else elen) x

theorem relaxFl_toState {rnd : K → K} {fused : Bool} {elen elend g ftol : K} {iter : Int} {P : PS K} {N n1 n2 : Nat} {b : Bool}
    (h1 : n1 < N) (h2 : n2 < N) :
    relaxFl rnd fused g ftol iter (P.toState N) n1 n2 (if b then elend else elen) =
      some ((relaxG (upFl rnd fused elen elend g) (fun v => rnd (v + ftol)) iter P (n1, n2, b)).toState N) := by
  unfold relaxFl relaxG PS.toState
  dsimp only
  rw [range_map_get _ h1, range_map_get _ h2]
  dsimp only
  unfold upFl
  generalize (if b = true then elend else elen) = len
  split
  · split
    · rw [range_map_set, range_map_set]; rfl
    · rfl
  · split
    · rw [range_map_set, range_map_set]; rfl
    · rfl

theorem relaxAllFl_toState {rnd : K → K} {fused : Bool} {elen elend g ftol : K} {iter : Int} {N n : Nat} (hn : n < N) :
    ∀ (l : List (Nat × Bool)) (P : PS K), (∀ x ∈ l, x.1 < N) →
      relaxAllFl rnd fused elen elend g ftol iter n l (P.toState N) =
        some (((l.map fun x => (n, x.1, x.2)).foldl
          (relaxG (upFl rnd fused elen elend g) (fun v => rnd (v + ftol)) iter) P).toState N)
  | [], P, _ => rfl
  | (m, b) :: l, P, h => by
    unfold relaxAllFl
    rw [relaxFl_toState hn (h (m, b) (by simp))]
    exact relaxAllFl_toState hn l _ (fun x hx => h x (List.mem_cons_of_mem _ hx))

theorem sweepFl_toState {rnd : K → K} {fused : Bool} {d0 d1 d2 : Nat} {elen elend g ftol : K} {iter : Int} :
    ∀ (l : List Nat) (P : PS K), (∀ n ∈ l, n < d0 * d1 * d2) →
      sweepFl rnd fused d0 d1 elen elend g ftol iter l (P.toState (d0 * d1 * d2)) =
        some (((l.flatMap (opsG d0 d1)).foldl
          (relaxG (upFl rnd fused elen elend g) (fun v => rnd (v + ftol)) iter) P).toState (d0 * d1 * d2))
  | [], P, _ => rfl
  | n :: l, P, h => by
    unfold sweepFl
    rw [relaxAllFl_toState (h n (by simp)) _ _ (neighbours_lt (h n (by simp)))]
    rw [List.flatMap_cons, List.foldl_append]
    exact sweepFl_toState l _ (fun x hx => h x (List.mem_cons_of_mem _ hx))

theorem limitLoopFl_toState {rnd : K → K} {fused : Bool} {d0 d1 d2 : Nat} {elen elend g ftol : K} : ∀ (fuel iter : Nat) (P : PS K),
    limitLoopFl rnd fused d0 d1 elen elend g ftol fuel iter (P.toState (d0 * d1 * d2)) =
      some ((loopG (upFl rnd fused elen elend g) (fun v => rnd (v + ftol)) d0 d1 d2 fuel iter P).1.toState (d0 * d1 * d2),
        (loopG (upFl rnd fused elen elend g) (fun v => rnd (v + ftol)) d0 d1 d2 fuel iter P).2)
  | 0, iter, P => rfl
  | fuel + 1, iter, P => by
    unfold limitLoopFl loopG
    have hact : findIndices (P.toState (d0 * d1 * d2)).act ((iter : Int) - 1) = activeF (d0 * d1 * d2) P iter := rfl
    rw [hact]
    cases h : activeF (d0 * d1 * d2) P iter with
    | nil => rfl
    | cons a l =>
      dsimp only
      rw [← h]
      rw [sweepFl_toState _ _ (fun n hn => (mem_activeF.1 hn).1)]
      rw [if_neg (by rw [h]; simp)]
      exact limitLoopFl_toState fuel (iter + 1) _

variable {up : Bool → K → K} {tol : K → K} {d0 d1 d2 : Nat}

theorem relaxG_cases (up : Bool → K → K) (tol : K → K) (iter : Int) (P : PS K) (o : Nat × Nat × Bool) :
    (relaxG up tol iter P o = P ∧ (P.φ o.2.1 < P.φ o.1 → P.φ o.1 ≤ tol (up o.2.2 (P.φ o.2.1))) ∧
      (P.φ o.1 ≤ P.φ o.2.1 → P.φ o.2.1 ≤ tol (up o.2.2 (P.φ o.1)))) ∨
    (relaxG up tol iter P o = P.lower iter o.1 (up o.2.2 (P.φ o.2.1)) ∧ P.φ o.2.1 < P.φ o.1 ∧
      tol (up o.2.2 (P.φ o.2.1)) < P.φ o.1) ∨
    (relaxG up tol iter P o = P.lower iter o.2.1 (up o.2.2 (P.φ o.1)) ∧ P.φ o.1 ≤ P.φ o.2.1 ∧
      tol (up o.2.2 (P.φ o.1)) < P.φ o.2.1) := by
  unfold relaxG
  by_cases h1 : P.φ o.2.1 < P.φ o.1
  · rw [if_pos h1]
    by_cases h2 : tol (up o.2.2 (P.φ o.2.1)) < P.φ o.1
    · rw [if_pos h2]; exact Or.inr (Or.inl ⟨rfl, h1, h2⟩)
    · rw [if_neg h2]; exact Or.inl ⟨rfl, fun _ => not_lt.1 h2, fun h => absurd h1 (not_lt.2 h)⟩
  · rw [if_neg h1]
    by_cases h2 : tol (up o.2.2 (P.φ o.1)) < P.φ o.2.1
    · rw [if_pos h2]; exact Or.inr (Or.inr ⟨rfl, not_lt.1 h1, h2⟩)
    · rw [if_neg h2]; exact Or.inl ⟨rfl, fun h => absurd h h1, fun _ => not_lt.1 h2⟩

/-- Induction principle for the loop. -/
theorem loopG_induct (I : Nat → PS K → Prop)
    (hstep : ∀ iter P, I iter P → activeF (d0 * d1 * d2) P iter ≠ [] →
      I (iter + 1) (sweepG up tol d0 d1 iter (activeF (d0 * d1 * d2) P iter) P)) :
    ∀ (fuel iter : Nat) (P : PS K), I iter P →
      ∃ it, I it (loopG up tol d0 d1 d2 fuel iter P).1 ∧
        ((loopG up tol d0 d1 d2 fuel iter P).2 = true →
          activeF (d0 * d1 * d2) (loopG up tol d0 d1 d2 fuel iter P).1 it = [])
  | 0, iter, P, h => ⟨iter, h, by simp [loopG]⟩
  | fuel + 1, iter, P, h => by
    unfold loopG
    by_cases ha : activeF (d0 * d1 * d2) P iter = []
    · rw [if_pos ha]; exact ⟨iter, h, fun _ => ha⟩
    · rw [if_neg ha]
      exact loopG_induct I hstep fuel (iter + 1) _ (hstep iter P h ha)

theorem mem_opsG {l : List Nat} {o : Nat × Nat × Bool} (h : o ∈ l.flatMap (opsG d0 d1)) :
    o.1 ∈ l ∧ (o.2.1, o.2.2) ∈ neighbours d0 d1 o.1 := by
  obtain ⟨n, hn, ho⟩ := List.mem_flatMap.1 h
  obtain ⟨x, hx, rfl⟩ := List.mem_map.1 ho
  exact ⟨hn, hx⟩

theorem mem_opsG_of {l : List Nat} {n m : Nat} {b : Bool} (hn : n ∈ l) (hm : (m, b) ∈ neighbours d0 d1 n) :
    (n, m, b) ∈ l.flatMap (opsG d0 d1) :=
  List.mem_flatMap.2 ⟨n, hn, List.mem_map.2 ⟨(m, b), hm, rfl⟩⟩

/-- A property of all nodes kept by every lowering is kept by the loop. A node `n` is lowered to the step from a
neighbour `m` (in one of the two roles of a comparison). -/
theorem loopG_keeps (R : Nat → K → Prop)
    (hR : ∀ n m b, n < d0 * d1 * d2 → m < d0 * d1 * d2 → ((m, b) ∈ neighbours d0 d1 n ∨ (n, b) ∈ neighbours d0 d1 m) →
      ∀ x y, R n x → R m y → tol (up b y) < x → R n (up b y))
    (fuel iter : Nat) (P : PS K) (h : ∀ n < d0 * d1 * d2, R n (P.φ n)) :
    ∀ n < d0 * d1 * d2, R n ((loopG up tol d0 d1 d2 fuel iter P).1.φ n) := by
  obtain ⟨it, h, -⟩ := loopG_induct (up := up) (tol := tol) (d0 := d0) (d1 := d1) (d2 := d2)
    (fun _ Q => ∀ n < d0 * d1 * d2, R n (Q.φ n)) (by
      intro iter Q hQ _
      refine foldl_inv (fun Q : PS K => ∀ n < d0 * d1 * d2, R n (Q.φ n)) _ _ _ hQ ?_
      intro s o ho hs n hn
      obtain ⟨h1, h2⟩ := mem_opsG ho
      have ha := (mem_activeF.1 h1).1
      have hb := neighbours_lt ha _ h2
      rcases relaxG_cases up tol iter s o with ⟨e, -⟩ | ⟨e, -, hlt⟩ | ⟨e, -, hlt⟩
      · rw [e]; exact hs n hn
      · rw [e]
        unfold PS.lower
        by_cases hno : n = o.1
        · subst hno; simp only [Function.update_self]
          exact hR _ _ _ ha hb (Or.inl h2) _ _ (hs _ ha) (hs _ hb) hlt
        · simp only [Function.update_of_ne hno]; exact hs n hn
      · rw [e]
        unfold PS.lower
        by_cases hno : n = o.2.1
        · subst hno; simp only [Function.update_self]
          exact hR _ _ _ hb ha (Or.inr h2) _ _ (hs _ hb) (hs _ ha) hlt
        · simp only [Function.update_of_ne hno]; exact hs n hn) fuel iter P h
  exact h

/-- The pair is within its limit, or one of the two is marked for the sweep after `iter`. -/
def PairG (up : Bool → K → K) (tol : K → K) (P : PS K) (iter : Int) (n m : Nat) (b : Bool) : Prop :=
  ((P.φ m < P.φ n → P.φ n ≤ tol (up b (P.φ m))) ∧ (P.φ n < P.φ m → P.φ m ≤ tol (up b (P.φ n)))) ∨ P.α n = iter ∨ P.α m = iter

theorem sweepG_pair {ops : List (Nat × Nat × Bool)} (iter : Int) (n m : Nat) (b : Bool) : ∀ (P : PS K),
    (PairG up tol P iter n m b ∨ (n, m, b) ∈ ops ∨ (m, n, b) ∈ ops) →
    PairG up tol (ops.foldl (relaxG up tol iter) P) iter n m b := by
  induction ops with
  | nil => intro P h; simpa using h
  | cons o ops ih =>
    intro P h
    rw [List.foldl_cons]
    apply ih
    have keep : ∀ x v, (x = n ∨ x = m) → PairG up tol (P.lower iter x v) iter n m b := by
      rintro x v (rfl | rfl)
      · right; left; simp [PS.lower]
      · right; right; simp [PS.lower]
    have keep' : ∀ x v, PairG up tol P iter n m b → PairG up tol (P.lower iter x v) iter n m b := by
      intro x v hP
      by_cases hx : x = n ∨ x = m
      · exact keep x v hx
      · push Not at hx
        unfold PairG PS.lower
        simp only [Function.update_of_ne hx.1.symm, Function.update_of_ne hx.2.symm]
        exact hP
    by_cases ho : o = (n, m, b) ∨ o = (m, n, b)
    · left
      rcases relaxG_cases up tol iter P o with ⟨h1, h2, h3⟩ | ⟨h1, -⟩ | ⟨h1, -⟩
      · rw [h1]
        left
        rcases ho with rfl | rfl
        · exact ⟨h2, fun h => h3 h.le⟩
        · exact ⟨fun h => h3 h.le, h2⟩
      · rw [h1]; apply keep; rcases ho with rfl | rfl <;> simp
      · rw [h1]; apply keep; rcases ho with rfl | rfl <;> simp
    · push Not at ho
      rcases h with h | h | h
      · left
        rcases relaxG_cases up tol iter P o with ⟨h1, -⟩ | ⟨h1, -⟩ | ⟨h1, -⟩
        · rw [h1]; exact h
        · rw [h1]; exact keep' _ _ h
        · rw [h1]; exact keep' _ _ h
      · right; left
        rcases List.mem_cons.1 h with h | h
        · exact absurd h.symm ho.1
        · exact h
      · right; right
        rcases List.mem_cons.1 h with h | h
        · exact absurd h.symm ho.2
        · exact h

/-- Pairs compared from both sides respect the limit when the loop has converged. -/
theorem loopG_converged {n m : Nat} {b : Bool} (hn : n < d0 * d1 * d2) (hm : m < d0 * d1 * d2)
    (h1 : (m, b) ∈ neighbours d0 d1 n) (h2 : (n, b) ∈ neighbours d0 d1 m) (fuel : Nat) (P : PS K)
    (hP : ∀ x < d0 * d1 * d2, P.α x = -1) (hc : (loopG up tol d0 d1 d2 fuel 0 P).2 = true)
    (hlt : (loopG up tol d0 d1 d2 fuel 0 P).1.φ m < (loopG up tol d0 d1 d2 fuel 0 P).1.φ n) :
    (loopG up tol d0 d1 d2 fuel 0 P).1.φ n ≤ tol (up b ((loopG up tol d0 d1 d2 fuel 0 P).1.φ m)) := by
  obtain ⟨it, h, hact⟩ := loopG_induct (up := up) (tol := tol) (d0 := d0) (d1 := d1) (d2 := d2)
    (fun iter Q => PairG up tol Q ((iter : Int) - 1) n m b) (by
      intro iter Q hQ _
      unfold sweepG
      rw [show (((iter + 1 : Nat) : Int) - 1) = (iter : Int) by push_cast; ring]
      apply sweepG_pair
      rcases hQ with hQ | hQ | hQ
      · exact Or.inl (Or.inl hQ)
      · exact Or.inr (Or.inl (mem_opsG_of (mem_activeF.2 ⟨hn, hQ⟩) h1))
      · exact Or.inr (Or.inr (mem_opsG_of (mem_activeF.2 ⟨hm, hQ⟩) h2))) fuel 0 P
    (Or.inr (Or.inl (by simp [hP n hn])))
  have ha := hact hc
  rcases h with h | h | h
  · exact h.1 hlt
  · have := mem_activeF.2 ⟨hn, h⟩
    rw [ha] at this; simp at this
  · have := mem_activeF.2 ⟨hm, h⟩
    rw [ha] at this; simp at this

/-- A state in which all compared pairs are within their limits is not changed, and the loop stops after one sweep. -/
theorem loopG_idle (fuel iter : Nat) (P : PS K)
    (h : ∀ n m b, n < d0 * d1 * d2 → (m, b) ∈ neighbours d0 d1 n →
      P.φ n ≤ tol (up b (P.φ m)) ∧ P.φ m ≤ tol (up b (P.φ n))) :
    (loopG up tol d0 d1 d2 fuel iter P).1 = P ∧
      ((∀ x < d0 * d1 * d2, P.α x < iter) → 2 ≤ fuel → (loopG up tol d0 d1 d2 fuel iter P).2 = true) := by
  have hsw : ∀ iter, sweepG up tol d0 d1 iter (activeF (d0 * d1 * d2) P iter) P = P := by
    intro iter
    unfold sweepG
    refine foldl_inv (fun Q : PS K => Q = P) _ _ _ rfl ?_
    rintro s o ho rfl
    obtain ⟨h1, h2⟩ := mem_opsG ho
    have h3 := h _ _ _ (mem_activeF.1 h1).1 h2
    rcases relaxG_cases up tol iter s o with ⟨e, -⟩ | ⟨-, -, hl⟩ | ⟨-, -, hl⟩
    · exact e
    · exact absurd h3.1 (not_le.2 hl)
    · exact absurd h3.2 (not_le.2 hl)
  constructor
  · induction fuel generalizing iter with
    | zero => rfl
    | succ fuel ih =>
      unfold loopG
      split
      · rfl
      · rw [hsw]; exact ih (iter + 1)
  · intro hα h2
    obtain ⟨k, rfl⟩ : ∃ k, fuel = k + 2 := ⟨fuel - 2, by omega⟩
    unfold loopG
    split
    · rfl
    · rw [hsw]
      unfold loopG
      rw [if_pos]
      rw [List.eq_nil_iff_forall_not_mem]
      intro x hx
      have := mem_activeF.1 hx
      have h3 := hα x this.1
      have h4 := this.2
      push_cast at h4
      omega

/-- Sum of the ranks of the values. -/
def PS.rankSum (rank : K → Nat) (N : Nat) (P : PS K) : Nat := ∑ n ∈ Finset.range N, rank (P.φ n)

theorem rankSum_lower (rank : K → Nat) {N x : Nat} (hx : x < N) (P : PS K) (iter : Int) {v : K} (hv : rank v < rank (P.φ x)) :
    (P.lower iter x v).rankSum rank N < P.rankSum rank N := by
  unfold PS.rankSum PS.lower
  refine Finset.sum_lt_sum ?_ ⟨x, Finset.mem_range.2 hx, by simpa using hv⟩
  intro n _
  by_cases h : n = x
  · subst h; simpa using hv.le
  · simp [Function.update_of_ne h]

/-- A sweep either changes nothing at all or lowers the sum of the ranks. -/
theorem opsG_progress (rank : K → Nat) (R : K → Prop) {N : Nat} (iter : Int)
    (hR : ∀ b x y, R x → R y → tol (up b y) < x → R (up b y) ∧ rank (up b y) < rank x) :
    ∀ (ops : List (Nat × Nat × Bool)) (P : PS K), (∀ o ∈ ops, o.1 < N ∧ o.2.1 < N) → (∀ n < N, R (P.φ n)) →
    (ops.foldl (relaxG up tol iter) P = P ∨ (ops.foldl (relaxG up tol iter) P).rankSum rank N < P.rankSum rank N)
  | [], P, _, _ => Or.inl rfl
  | o :: ops, P, h, hP => by
    rw [List.foldl_cons]
    have hrest := fun o' ho' => h o' (List.mem_cons_of_mem o ho')
    have ho := h o (by simp)
    have low : ∀ x v, R v → ∀ n < N, R ((P.lower iter x v).φ n) := by
      intro x v hv n hn
      unfold PS.lower
      by_cases e : n = x
      · subst e; simpa using hv
      · simpa [Function.update_of_ne e] using hP n hn
    rcases relaxG_cases up tol iter P o with ⟨h1, -⟩ | ⟨h1, h2, h3⟩ | ⟨h1, h2, h3⟩
    · rw [h1]; exact opsG_progress rank R iter hR ops P hrest hP
    · right
      have hr := hR _ _ _ (hP _ ho.1) (hP _ ho.2) h3
      rw [h1]
      have ht := rankSum_lower rank ho.1 P iter hr.2
      rcases opsG_progress rank R iter hR ops _ hrest (low o.1 _ hr.1) with ih | ih
      · rw [ih]; exact ht
      · exact ih.trans ht
    · right
      have hr := hR _ _ _ (hP _ ho.2) (hP _ ho.1) h3
      rw [h1]
      have ht := rankSum_lower rank ho.2 P iter hr.2
      rcases opsG_progress rank R iter hR ops _ hrest (low o.2.1 _ hr.1) with ih | ih
      · rw [ih]; exact ht
      · exact ih.trans ht

/-- After as many sweeps as the sum of the ranks the loop has converged. -/
theorem loopG_converges (rank : K → Nat) (R : K → Prop)
    (hR : ∀ b x y, R x → R y → tol (up b y) < x → R (up b y) ∧ rank (up b y) < rank x) :
    ∀ (fuel iter : Nat) (P : PS K), (∀ x < d0 * d1 * d2, P.α x < iter) → (∀ n < d0 * d1 * d2, R (P.φ n)) →
      P.rankSum rank (d0 * d1 * d2) < fuel → (loopG up tol d0 d1 d2 (fuel + 1) iter P).2 = true
  | 0, iter, P, _, _, h => by omega
  | fuel + 1, iter, P, hα, hP, hf => by
    unfold loopG
    by_cases ha : activeF (d0 * d1 * d2) P iter = []
    · rw [if_pos ha]
    · rw [if_neg ha]
      have hvalid : ∀ o ∈ (activeF (d0 * d1 * d2) P iter).flatMap (opsG d0 d1),
          o.1 < d0 * d1 * d2 ∧ o.2.1 < d0 * d1 * d2 := by
        intro o ho
        obtain ⟨h1, h2⟩ := mem_opsG ho
        exact ⟨(mem_activeF.1 h1).1, neighbours_lt (mem_activeF.1 h1).1 _ h2⟩
      have hαn : ∀ x < d0 * d1 * d2,
          (sweepG up tol d0 d1 iter (activeF (d0 * d1 * d2) P iter) P).α x < ((iter + 1 : Nat) : Int) := by
        unfold sweepG
        refine foldl_inv (fun Q : PS K => ∀ x < d0 * d1 * d2, Q.α x < ((iter + 1 : Nat) : Int)) _ _ _ ?_ ?_
        · intro x hx; have := hα x hx; push_cast; omega
        · intro Q o _ hQ x hx
          have low : ∀ y v, (Q.lower iter y v).α x < ((iter + 1 : Nat) : Int) := by
            intro y v
            unfold PS.lower
            by_cases hxy : x = y
            · subst hxy; simp
            · simp only [Function.update_of_ne hxy]; exact hQ x hx
          rcases relaxG_cases up tol iter Q o with ⟨h1, -⟩ | ⟨h1, -⟩ | ⟨h1, -⟩
          · rw [h1]; exact hQ x hx
          · rw [h1]; exact low _ _
          · rw [h1]; exact low _ _
      have hRn : ∀ n < d0 * d1 * d2, R ((sweepG up tol d0 d1 iter (activeF (d0 * d1 * d2) P iter) P).φ n) := by
        unfold sweepG
        refine foldl_inv (fun Q : PS K => ∀ n < d0 * d1 * d2, R (Q.φ n)) _ _ _ hP ?_
        intro Q o ho hQ x hx
        have ho := hvalid o ho
        rcases relaxG_cases up tol iter Q o with ⟨h1, -⟩ | ⟨h1, -, hl⟩ | ⟨h1, -, hl⟩
        · rw [h1]; exact hQ x hx
        · rw [h1]
          unfold PS.lower
          by_cases hxy : x = o.1
          · subst hxy; simpa using (hR _ _ _ (hQ _ ho.1) (hQ _ ho.2) hl).1
          · simpa [Function.update_of_ne hxy] using hQ x hx
        · rw [h1]
          unfold PS.lower
          by_cases hxy : x = o.2.1
          · subst hxy; simpa using (hR _ _ _ (hQ _ ho.2) (hQ _ ho.1) hl).1
          · simpa [Function.update_of_ne hxy] using hQ x hx
      rcases opsG_progress rank R iter hR _ P hvalid hP with h | h
      · unfold loopG
        rw [if_pos]
        rw [List.eq_nil_iff_forall_not_mem]
        intro x hx
        have hx' := mem_activeF.1 hx
        unfold sweepG at hx'
        rw [h] at hx'
        have h3 := hα x hx'.1
        have h4 := hx'.2
        push_cast at h4
        omega
      · refine loopG_converges rank R hR fuel (iter + 1) _ hαn hRn ?_
        change (sweepG up tol d0 d1 iter (activeF (d0 * d1 * d2) P iter) P).rankSum rank _ < _ at h
        omega

/-- Once converged, more iterations change nothing. -/
theorem loopG_stable : ∀ (fuel iter extra : Nat) (P : PS K), (loopG up tol d0 d1 d2 fuel iter P).2 = true →
    loopG up tol d0 d1 d2 (fuel + extra) iter P = loopG up tol d0 d1 d2 fuel iter P
  | 0, iter, extra, P, h => by simp [loopG] at h
  | fuel + 1, iter, extra, P, h => by
    rw [show fuel + 1 + extra = (fuel + extra) + 1 by omega]
    unfold loopG at h ⊢
    by_cases ha : activeF (d0 * d1 * d2) P iter = []
    · rw [if_pos ha, if_pos ha]
    · rw [if_neg ha, if_neg ha]
      rw [if_neg ha] at h
      exact loopG_stable fuel (iter + 1) extra _ h

end
end OM
