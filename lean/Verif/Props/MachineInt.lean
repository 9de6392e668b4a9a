import Verif.Model.MachineInt
import Verif.Props.GradLimit
/-!
# C135: the gradient limiter with 32-bit integers
-/
set_option linter.unusedSectionVars false
namespace OM
open Spec

theorem cint_some {z : Int} (h1 : -2147483648 ≤ z) (h2 : z ≤ 2147483647) : cint z = some z := if_pos ⟨h1, h2⟩

theorem cint_none {z : Int} (h : 2147483647 < z) : cint z = none := if_neg fun hh => absurd hh.2 (not_le.2 h)

theorem toInt_id {z : Int} (h1 : -2147483648 ≤ z) (h2 : z ≤ 2147483647) : toInt z = z := by
  unfold toInt
  rw [Int.emod_eq_of_lt (by omega) (by omega)]
  omega

theorem toInt_range (z : Int) : -2147483648 ≤ toInt z ∧ toInt z ≤ 2147483647 := by
  unfold toInt
  have h1 := Int.emod_nonneg (z + 2147483648) (b := 4294967296) (by decide)
  have h2 := Int.emod_lt_of_pos (z + 2147483648) (b := 4294967296) (by decide)
  omega

/-! ## Indices -/

theorem posM_eq {d0 d1 d2 i j k : Nat} (hi : i < d0) (hj : j < d1) (hk : k < d2) (hP : d0 * d1 * d2 ≤ 2147483647) :
    posM d0 d1 ((k : Int) + 1) ((i : Int) + 1) ((j : Int) + 1) = some (nodeIndex d0 d1 i j k : Int) := by
  have hlt := nodeIndex_lt hi hj hk
  have e : nodeIndex d0 d1 i j k = k * d1 * d0 + j * d0 + i := by unfold nodeIndex; ring
  have hA : k * d1 ≤ k * d1 * d0 := Nat.le_mul_of_pos_right _ (by omega)
  have hk0 : k ≤ k * d1 := Nat.le_mul_of_pos_right _ (by omega)
  have hj0 : j ≤ j * d0 := Nat.le_mul_of_pos_right _ (by omega)
  rw [e] at hlt ⊢
  zify at hA hk0 hj0 hlt hP
  have n1 : (0 : Int) ≤ k := by omega
  have n2 : (0 : Int) ≤ j := by omega
  have n3 : (0 : Int) ≤ i := by omega
  unfold posM sub2indM
  simp only [csub, cmul, cadd, Int.add_sub_cancel]
  rw [cint_some (z := (k : Int)) (by omega) (by omega), Option.bind_eq_bind, Option.bind_some, cint_some (z := (k : Int) * d1) (by omega) (by omega)]
  simp only [Option.bind_eq_bind, Option.bind_some]
  rw [cint_some (z := (k : Int) * d1 * d0) (by omega) (by omega)]
  simp only [Option.bind_some]
  rw [cint_some (z := 1 + (k : Int) * d1 * d0) (by omega) (by omega)]
  simp only [Option.bind_some]
  rw [cint_some (z := (j : Int)) (by omega) (by omega)]
  simp only [Option.bind_some]
  rw [cint_some (z := (j : Int) * d0) (by omega) (by omega)]
  simp only [Option.bind_some]
  rw [cint_some (z := 1 + (k : Int) * d1 * d0 + (j : Int) * d0) (by omega) (by omega)]
  simp only [Option.bind_some]
  rw [cint_some (z := (i : Int)) (by omega) (by omega)]
  simp only [Option.bind_some]
  rw [cint_some (z := 1 + (k : Int) * d1 * d0 + (j : Int) * d0 + i) (by omega) (by omega)]
  simp only [Option.bind_some]
  rw [cint_some (by omega) (by omega)]
  push_cast
  congr 1
  ring

theorem ind2subM_eq {d0 d1 d2 i j k : Nat} (hi : i < d0) (hj : j < d1) (hk : k < d2) (hP : d0 * d1 * d2 ≤ 2147483647) :
    ind2subM ((nodeIndex d0 d1 i j k : Int) + 1) d0 d1 = some ((i : Int) + 1, (j : Int) + 1, (k : Int) + 1) := by
  have hlt := nodeIndex_lt hi hj hk
  have hs := ind2sub_nodeIndex (k := k) hi hj
  unfold ind2sub at hs
  simp only [Nat.add_sub_cancel, Prod.mk.injEq] at hs
  obtain ⟨h1, h2, h3⟩ := hs
  have hpos : 0 < d0 * d1 := Nat.mul_pos (by omega) (by omega)
  have hle : d0 * d1 ≤ d0 * d1 * d2 := Nat.le_mul_of_pos_right _ (by omega)
  have hd0 : d0 ≤ d0 * d1 := Nat.le_mul_of_pos_right _ (by omega)
  have hd1 : d1 ≤ d0 * d1 := Nat.le_mul_of_pos_left _ (by omega)
  have hd2 : d2 ≤ d0 * d1 * d2 := Nat.le_mul_of_pos_left _ hpos
  generalize hn : nodeIndex d0 d1 i j k = n at *
  unfold ind2subM
  simp only [csub, cmul, cadd, Int.add_sub_cancel, cmod, cdiv]
  rw [show ((d0 : Int) * d1) = ((d0 * d1 : Nat) : Int) by push_cast; rfl, cint_some (by omega) (by omega)]
  simp only [Option.bind_eq_bind, Option.bind_some]
  rw [cint_some (z := (n : Int)) (by omega) (by omega)]
  simp only [Option.bind_some]
  rw [if_neg (by omega), ← Int.ofNat_tdiv, ← Int.ofNat_tmod]
  rw [cint_some (z := ((n / (d0 * d1) : Nat) : Int)) (by omega) (by omega)]
  simp only [Option.map_some, Option.bind_some]
  rw [if_neg (by omega)]
  simp only [Option.bind_some]
  rw [cint_some (z := 1 + ((n / (d0 * d1) : Nat) : Int)) (by omega) (by omega)]
  simp only [Option.bind_some]
  rw [if_neg (by omega), ← Int.ofNat_tdiv, ← Int.ofNat_tmod]
  rw [cint_some (z := ((n % (d0 * d1) / d0 : Nat) : Int)) (by omega) (by omega)]
  simp only [Option.map_some, Option.bind_some]
  rw [cint_some (z := 1 + ((n % (d0 * d1) / d0 : Nat) : Int)) (by omega) (by omega)]
  simp only [Option.bind_some]
  rw [if_neg (by omega)]
  simp only [Option.bind_some]
  rw [cint_some (z := 1 + ((n % (d0 * d1) % d0 : Nat) : Int)) (by omega) (by omega)]
  simp only [Option.bind_some, pure, Option.some_inj, Prod.mk.injEq]
  omega

theorem neighboursM_eq {d0 d1 d2 n : Nat} (hn : n < d0 * d1 * d2) (hP : d0 * d1 * d2 ≤ 2147483647) (h0 : d0 < 2147483647) (h1 : d1 < 2147483647) :
    neighboursM d0 d1 n = some ((neighbours d0 d1 n).map fun x => ((x.1 : Int), x.2)) := by
  obtain ⟨i, j, k, hi, hj, hk, rfl⟩ := exists_nodeIndex hn
  rw [neighbours_eq hi hj]
  have P := fun (i j : Nat) (hi : i < d0) (hj : j < d1) => posM_eq hi hj hk hP
  have sb : ∀ {α β : Type} (a : α) (f : α → Option β), (some a >>= f) = f a := fun _ _ => rfl
  have e1 : min ((j : Int) + 1 + 1) d1 = ((min (j + 1) (d1 - 1) : Nat) : Int) + 1 := by omega
  have e2 : max ((j : Int) + 1 - 1) 1 = ((j - 1 : Nat) : Int) + 1 := by omega
  have e3 : min ((i : Int) + 1 + 1) d0 = ((min (i + 1) (d0 - 1) : Nat) : Int) + 1 := by omega
  have e4 : max ((i : Int) + 1 - 1) 1 = ((i - 1 : Nat) : Int) + 1 := by omega
  have c0 : cadd (nodeIndex d0 d1 i j k : Int) 1 = some ((nodeIndex d0 d1 i j k : Int) + 1) := cint_some (by omega) (by omega)
  have c1 : cadd ((j : Int) + 1) 1 = some ((j : Int) + 1 + 1) := cint_some (by omega) (by omega)
  have c2 : csub ((j : Int) + 1) 1 = some ((j : Int) + 1 - 1) := cint_some (by omega) (by omega)
  have c3 : cadd ((i : Int) + 1) 1 = some ((i : Int) + 1 + 1) := cint_some (by omega) (by omega)
  have c4 : csub ((i : Int) + 1) 1 = some ((i : Int) + 1 - 1) := cint_some (by omega) (by omega)
  unfold neighboursM
  rw [c0, sb, ind2subM_eq hi hj hk hP, sb]
  dsimp only
  rw [c1, sb, c2, sb, c3, sb, c4, sb, e1, e2, e3, e4, P i _ hi (by omega), sb, P i (j - 1) hi (by omega), sb, P (min (i + 1) (d0 - 1)) j (by omega) hj, sb, P (i - 1) j (by omega) hj, sb,
    P (min (i + 1) (d0 - 1)) (min (j + 1) (d1 - 1)) (by omega) (by omega), sb, P (i - 1) (min (j + 1) (d1 - 1)) (by omega) (by omega), sb, P (i - 1) (j - 1) (by omega) (by omega), sb, sb]
  rfl

/-! ## Loops -/

section
variable {K : Type} [Field K] [LinearOrder K]

theorem relaxM_eq (dfdx ftol : K) (iter : Int) (S : LimState K) (hS : S.act.length = S.f.length) (n1 n2 : Nat) (len : K) :
    relaxM dfdx ftol iter S n1 n2 len = relax dfdx ftol iter S n1 n2 len := by
  unfold relaxM relax storeM
  rw [if_neg (by omega)]
  simp only [Int.toNat_natCast, hS, and_self]
  cases h1 : S.f[n1]? with
  | none => rfl
  | some a =>
    cases h2 : S.f[n2]? with
    | none => rfl
    | some b =>
      simp only
      rw [if_pos (List.getElem?_eq_some_iff.1 h1).1, if_pos (List.getElem?_eq_some_iff.1 h2).1]

theorem relax_lengths {dfdx ftol : K} {iter : Int} {S S' : LimState K} {n1 n2 : Nat} {len : K} (h : relax dfdx ftol iter S n1 n2 len = some S') :
    S'.f.length = S.f.length ∧ S'.act.length = S.act.length := by
  unfold relax at h
  split at h
  · simp only at h
    split at h <;> split at h <;> cases h <;> simp
  · cases h

theorem relaxAllM_eq (elen elend dfdx ftol : K) (iter : Int) (n : Nat) : ∀ (l : List (Nat × Bool)) (S : LimState K), S.act.length = S.f.length →
    relaxAllM elen elend dfdx ftol iter n (l.map fun x => ((x.1 : Int), x.2)) S = relaxAll elen elend dfdx ftol iter n l S
  | [], S, _ => rfl
  | (m, d) :: r, S, h => by
    rw [List.map_cons, relaxAllM, relaxAll, relaxM_eq _ _ _ _ h]
    cases e : relax dfdx ftol iter S n m (if d = true then elend else elen) with
    | none => rfl
    | some S' =>
      obtain ⟨e1, e2⟩ := relax_lengths e
      exact relaxAllM_eq elen elend dfdx ftol iter n r S' (by rw [e1, e2, h])

theorem relaxAll_lengths {elen elend dfdx ftol : K} {iter : Int} {n : Nat} : ∀ {l : List (Nat × Bool)} {S S' : LimState K}, relaxAll elen elend dfdx ftol iter n l S = some S' →
    S'.f.length = S.f.length ∧ S'.act.length = S.act.length
  | [], S, S', h => by cases h; exact ⟨rfl, rfl⟩
  | (m, d) :: r, S, S', h => by
    rw [relaxAll] at h
    cases e : relax dfdx ftol iter S n m (if d = true then elend else elen) with
    | none => rw [e] at h; cases h
    | some S2 =>
      rw [e] at h
      obtain ⟨e1, e2⟩ := relax_lengths e
      obtain ⟨e3, e4⟩ := relaxAll_lengths h
      exact ⟨e3.trans e1, e4.trans e2⟩

variable {d0 d1 d2 : Nat}

theorem sweepM_eq (hP : d0 * d1 * d2 ≤ 2147483647) (h0 : d0 < 2147483647) (h1 : d1 < 2147483647) (elen elend dfdx ftol : K) (iter : Int) : ∀ (l : List Nat) (S : LimState K),
    (∀ n ∈ l, n < d0 * d1 * d2) → S.act.length = S.f.length →
    sweepM d0 d1 elen elend dfdx ftol iter (l.map fun (n : Nat) => (n : Int)) S = sweep d0 d1 elen elend dfdx ftol iter l S
  | [], S, _, _ => rfl
  | n :: r, S, hl, h => by
    rw [List.map_cons, sweepM, sweep, neighboursM_eq (hl n (by simp)) hP h0 h1]
    simp only
    rw [relaxAllM_eq _ _ _ _ _ _ _ _ h]
    cases e : relaxAll elen elend dfdx ftol iter n (neighbours d0 d1 n) S with
    | none => rfl
    | some S' =>
      obtain ⟨e1, e2⟩ := relaxAll_lengths e
      exact sweepM_eq hP h0 h1 elen elend dfdx ftol iter r S' (fun m hm => hl m (List.mem_cons_of_mem _ hm)) (by rw [e1, e2, h])

theorem sweep_lengths {elen elend dfdx ftol : K} {iter : Int} : ∀ {l : List Nat} {S S' : LimState K}, sweep d0 d1 elen elend dfdx ftol iter l S = some S' →
    S'.f.length = S.f.length ∧ S'.act.length = S.act.length
  | [], S, S', h => by cases h; exact ⟨rfl, rfl⟩
  | n :: r, S, S', h => by
    rw [sweep] at h
    cases e : relaxAll elen elend dfdx ftol iter n (neighbours d0 d1 n) S with
    | none => rw [e] at h; cases h
    | some S2 =>
      rw [e] at h
      obtain ⟨e1, e2⟩ := relaxAll_lengths e
      obtain ⟨e3, e4⟩ := sweep_lengths h
      exact ⟨e3.trans e1, e4.trans e2⟩

theorem findIndicesM_eq {l : List Int} (hl : l.length ≤ 2147483647) (v : Int) : findIndicesM l v = (findIndices l v).map fun (n : Nat) => (n : Int) := by
  unfold findIndicesM
  refine List.map_congr_left fun n hn => toInt_id (by omega) ?_
  have := (List.getElem?_eq_some_iff.1 (mem_findIndices.1 hn)).1
  omega

theorem limitLoopM_nil {e0 e1 : Int} {elen elend dfdx ftol : K} {fuel : Nat} {iter prev next : Int} {S : LimState K} (hp : csub iter 1 = some prev) (hn : cadd iter 1 = some next)
    (hf : findIndicesM S.act prev = []) : limitLoopM e0 e1 elen elend dfdx ftol (fuel + 1) iter S = some S := by
  simp only [limitLoopM, hp, hn, hf]

theorem limitLoopM_cons {e0 e1 : Int} {elen elend dfdx ftol : K} {fuel : Nat} {iter prev next : Int} {S : LimState K} {L : List Int} (hp : csub iter 1 = some prev) (hn : cadd iter 1 = some next)
    (hf : findIndicesM S.act prev = L) (hL : L ≠ []) : limitLoopM e0 e1 elen elend dfdx ftol (fuel + 1) iter S =
      (sweepM e0 e1 elen elend dfdx ftol iter L S).bind fun S' => limitLoopM e0 e1 elen elend dfdx ftol fuel next S' := by
  cases L with
  | nil => exact absurd rfl hL
  | cons a l =>
    simp only [limitLoopM, hp, hn, hf]
    cases sweepM e0 e1 elen elend dfdx ftol iter (a :: l) S <;> rfl

theorem limitLoop_nil {e0 e1 : Nat} {elen elend dfdx ftol : K} {fuel iter : Nat} {S : LimState K} (hf : findIndices S.act ((iter : Int) - 1) = []) :
    limitLoop e0 e1 elen elend dfdx ftol (fuel + 1) iter S = some (S, true) := by
  simp only [limitLoop, hf]

theorem limitLoop_cons {e0 e1 : Nat} {elen elend dfdx ftol : K} {fuel iter : Nat} {S : LimState K} {L : List Nat} (hf : findIndices S.act ((iter : Int) - 1) = L) (hL : L ≠ []) :
    limitLoop e0 e1 elen elend dfdx ftol (fuel + 1) iter S = (sweep e0 e1 elen elend dfdx ftol iter L S).bind fun S' => limitLoop e0 e1 elen elend dfdx ftol fuel (iter + 1) S' := by
  cases L with
  | nil => exact absurd rfl hL
  | cons a l =>
    simp only [limitLoop, hf]
    cases sweep e0 e1 elen elend dfdx ftol iter (a :: l) S <;> rfl

theorem limitLoopM_eq (hP : d0 * d1 * d2 ≤ 2147483647) (h0 : d0 < 2147483647) (h1 : d1 < 2147483647) (elen elend dfdx ftol : K) (fuel : Nat) : ∀ (iter : Nat) (S : LimState K),
    (iter : Int) + fuel ≤ 2147483647 → S.act.length = S.f.length → S.f.length = d0 * d1 * d2 →
    limitLoopM d0 d1 elen elend dfdx ftol fuel iter S = (limitLoop d0 d1 elen elend dfdx ftol fuel iter S).map Prod.fst := by
  induction fuel with
  | zero => exact fun iter S hi h hf => rfl
  | succ fuel IH =>
    intro iter S hi h hf
    have hp : csub (iter : Int) 1 = some ((iter : Int) - 1) := cint_some (by omega) (by omega)
    have hn : cadd (iter : Int) 1 = some ((iter + 1 : Nat) : Int) := by rw [cadd, cint_some (by omega) (by omega), Nat.cast_succ]
    have hfi := findIndicesM_eq (l := S.act) (by omega) ((iter : Int) - 1)
    by_cases hL : findIndices S.act ((iter : Int) - 1) = []
    · rw [limitLoop_nil hL, limitLoopM_nil hp hn (by rw [hfi, hL]; rfl)]
      rfl
    · have hs := sweepM_eq hP h0 h1 elen elend dfdx ftol iter (findIndices S.act ((iter : Int) - 1)) S (by
        intro n hn
        have := (List.getElem?_eq_some_iff.1 (mem_findIndices.1 hn)).1
        omega) h
      rw [limitLoop_cons rfl hL, limitLoopM_cons hp hn hfi (by simpa using hL), hs]
      obtain ⟨r, e2⟩ : ∃ r, sweep d0 d1 elen elend dfdx ftol iter (findIndices S.act ((iter : Int) - 1)) S = r := ⟨_, rfl⟩
      rw [e2]
      cases r with
      | none => rfl
      | some S' =>
        obtain ⟨e3, e4⟩ := sweep_lengths e2
        rw [Option.bind_some, Option.bind_some]
        exact IH (iter + 1) S' (by push_cast; push_cast at hi; omega) (by rw [e3, e4, h]) (by rw [e3, hf])

/-- **C135** (1) For fields of less than 2^31 nodes with less than 2^31 - 1 rows and columns the limiter with 32-bit integers returns what the limiter with unbounded integers returns. -/
theorem C135_limiter (sq2 sqEps : K) (hP : d0 * d1 * d2 ≤ 2147483647) (h0 : d0 < 2147483647) (h1 : d1 < 2147483647) (h2 : d2 ≤ 2147483647) (elen dfdx : K) (imax : Nat)
    (himax : imax ≤ 2147483647) {ffun : List K} (hf : ffun.length = d0 * d1 * d2) :
    gradientLimitM sq2 sqEps [(d0 : Int), (d1 : Int), (d2 : Int)] elen dfdx imax ffun = gradientLimit sq2 sqEps d0 d1 d2 elen dfdx imax ffun := by
  unfold gradientLimitM
  simp only [List.map_cons, List.map_nil]
  rw [toInt_id (z := (ffun.length : Int)) (by omega) (by omega), toInt_id (z := (d0 : Int)) (by omega) (by omega), toInt_id (z := (d1 : Int)) (by omega) (by omega),
    toInt_id (z := (d2 : Int)) (by omega) (by omega), if_neg (by omega), cint_some (by omega) (by omega)]
  simp only [Int.toNat_natCast, List.take_length]
  unfold limitRunM gradientLimit gradientLimitRun
  simp only [Int.toNat_natCast]
  cases hm : minElement ffun with
  | none =>
    have : ffun = [] := by cases ffun with
      | nil => rfl
      | cons a l => simp [minElement] at hm
    subst this
    simp only [cmul]
    cases e1 : cint ((d0 : Int) * d1) with
    | none => rfl
    | some p =>
      simp only [Option.bind_eq_bind, Option.bind_some]
      cases e2 : cint (p * (d2 : Int)) with
      | none => rfl
      | some q => simp
  | some m =>
    have hpos : 0 < d0 * d1 * d2 := by
      rw [← hf]
      cases ffun with
      | nil => simp [minElement] at hm
      | cons a l => simp
    have hle : d0 * d1 ≤ d0 * d1 * d2 := Nat.le_mul_of_pos_right _ (Nat.pos_of_mul_pos_left hpos)
    have c1 : cmul (d0 : Int) d1 = some ((d0 * d1 : Nat) : Int) := by
      rw [cmul, cint_some] <;> push_cast <;> [rfl; skip; skip] <;> zify at hle hP <;> nlinarith [Int.natCast_nonneg (d0 * d1)]
    have c2 : cmul ((d0 * d1 : Nat) : Int) d2 = some ((d0 * d1 * d2 : Nat) : Int) := by
      rw [cmul, show ((d0 * d1 : Nat) : Int) * d2 = ((d0 * d1 * d2 : Nat) : Int) by push_cast; rfl, cint_some (by omega) (by omega)]
    rw [c1, Option.bind_eq_bind, Option.bind_some, c2]
    simp only [Option.bind_eq_bind, Option.bind_some]
    rw [if_neg (by omega), Int.toNat_natCast]
    have := limitLoopM_eq hP h0 h1 elen (elen * sq2) dfdx (m * sqEps) imax 0 ⟨ffun, List.replicate (d0 * d1 * d2) (-1)⟩ (by omega) (by simp [hf]) hf
    rw [Nat.cast_zero] at this
    rw [this]
    cases limitLoop d0 d1 elen (elen * sq2) dfdx (m * sqEps) imax 0 ⟨ffun, List.replicate (d0 * d1 * d2) (-1)⟩ with
    | none => rfl
    | some r => rfl

/-- **C135** (2) With 2^31 nodes or more the number of nodes overflows, whatever the field is. -/
theorem C135_limiter_overflow (sq2 sqEps : K) (hP : 2147483648 ≤ d0 * d1 * d2) (h0 : d0 ≤ 2147483647) (h1 : d1 ≤ 2147483647) (h2 : d2 ≤ 2147483647) (elen dfdx : K) (imax : Int) (ffun : List K) :
    gradientLimitM sq2 sqEps [(d0 : Int), (d1 : Int), (d2 : Int)] elen dfdx imax ffun = none := by
  unfold gradientLimitM
  simp only [List.map_cons, List.map_nil]
  split
  · rfl
  · rw [toInt_id (z := (d0 : Int)) (by omega) (by omega), toInt_id (z := (d1 : Int)) (by omega) (by omega), toInt_id (z := (d2 : Int)) (by omega) (by omega)]
    cases cint imax with
    | none => rfl
    | some imax =>
      simp only
      unfold limitRunM cmul
      by_cases h : d0 * d1 ≤ 2147483647
      · rw [show ((d0 : Int) * d1) = ((d0 * d1 : Nat) : Int) by push_cast; rfl, cint_some (by omega) (by omega), Option.bind_eq_bind, Option.bind_some,
          show (((d0 * d1 : Nat) : Int) * d2) = ((d0 * d1 * d2 : Nat) : Int) by push_cast; rfl, cint_none (by omega)]
        rfl
      · rw [show ((d0 : Int) * d1) = ((d0 * d1 : Nat) : Int) by push_cast; rfl, cint_none (by omega)]
        rfl

theorem sweepM_none (e0 e1 : Int) (elen elend dfdx ftol : K) (iter : Int) {n : Int} (hn : neighboursM e0 e1 n = none) : ∀ (l : List Int) (S : LimState K), n ∈ l → sweepM e0 e1 elen elend dfdx ftol iter l S = none
  | [], S, h => by cases h
  | m :: r, S, h => by
    rw [sweepM]
    cases e : neighboursM e0 e1 m with
    | none => rfl
    | some l =>
      simp only
      cases relaxAllM elen elend dfdx ftol iter m l S with
      | none => rfl
      | some S' =>
        rcases List.mem_cons.1 h with rfl | h
        · rw [hn] at e; cases e
        · exact sweepM_none e0 e1 elen elend dfdx ftol iter hn r S' h

/-- **C135** (3) A single row or column of 2^31 - 1 nodes overflows at its last node, where the number of the next node is computed before it is limited. -/
theorem C135_limiter_line (sq2 sqEps : K) (hd : (d0 = 2147483647 ∧ d1 = 1) ∨ (d0 = 1 ∧ d1 = 2147483647)) (elen dfdx : K) (imax : Nat) (himax : 1 ≤ imax) (ffun : List K) :
    gradientLimitM sq2 sqEps [(d0 : Int), (d1 : Int), 1] elen dfdx imax ffun = none := by
  unfold gradientLimitM
  simp only [List.map_cons, List.map_nil]
  split
  · rfl
  · rw [toInt_id (z := (d0 : Int)) (by omega) (by omega), toInt_id (z := (d1 : Int)) (by omega) (by omega), toInt_id (z := 1) (by omega) (by omega)]
    cases hi : cint (imax : Int) with
    | none => rfl
    | some im =>
      have : im = imax := by
        unfold cint at hi
        split at hi <;> cases hi
        rfl
      subst this
      simp only
      obtain ⟨fuel, rfl⟩ : ∃ n, imax = n + 1 := ⟨imax - 1, by omega⟩
      have hn : neighboursM (d0 : Int) d1 2147483646 = none := by
        rcases hd with ⟨rfl, rfl⟩ | ⟨rfl, rfl⟩ <;> decide +kernel
      have hp : (cmul (d0 : Int) d1).bind (fun p => cmul p 1) = some 2147483647 := by
        rcases hd with ⟨rfl, rfl⟩ | ⟨rfl, rfl⟩ <;> decide +kernel
      unfold limitRunM
      cases e1 : cmul (d0 : Int) d1 with
      | none => rfl
      | some p =>
        rw [e1, Option.bind_some] at hp
        simp only [Option.bind_eq_bind, Option.bind_some]
        rw [hp, Option.bind_some, if_neg (by omega)]
        cases minElement (ffun.take (toInt ffun.length).toNat) with
        | none => rfl
        | some m =>
          rw [Option.bind_some, Int.toNat_natCast, limitLoopM]
          have e3 : csub 0 1 = some (-1) := by decide
          have e4 : cadd 0 1 = some 1 := by decide
          rw [e3, e4]
          simp only
          have hm : (2147483646 : Int) ∈ findIndicesM (List.replicate (2147483647 : Int).toNat (-1)) (-1) := by
            unfold findIndicesM
            refine List.mem_map.2 ⟨2147483646, mem_findIndices.2 ?_, by decide +kernel⟩
            rw [List.getElem?_replicate, if_pos (by decide)]
          generalize hL : findIndicesM (List.replicate (2147483647 : Int).toNat (-1)) (-1) = L at hm
          cases L with
          | nil => cases hm
          | cons a l =>
            simp only
            rw [sweepM_none _ _ _ _ _ _ _ hn _ _ hm]
            rfl

/-- **C135** (4) So for a field of matching size, and at least one iteration, 32 bits are enough exactly if there are less than 2^31 nodes and less than 2^31 - 1 rows and columns. -/
theorem C135_limiter_iff [IsStrictOrderedRing K] (sq2 sqEps : K) (p0 : 0 < d0) (p1 : 0 < d1) (p2 : 0 < d2) (h0 : d0 ≤ 2147483647) (h1 : d1 ≤ 2147483647) (h2 : d2 ≤ 2147483647) (elen dfdx : K) {imax : Nat}
    (himax : 1 ≤ imax) (himax2 : imax ≤ 2147483647) {ffun : List K} (hf : ffun.length = d0 * d1 * d2) :
    (gradientLimitM sq2 sqEps [(d0 : Int), (d1 : Int), (d2 : Int)] elen dfdx imax ffun).isSome ↔ d0 * d1 * d2 < 2147483648 ∧ d0 < 2147483647 ∧ d1 < 2147483647 := by
  constructor
  · intro hs
    have hP : d0 * d1 * d2 < 2147483648 := by
      by_contra h
      rw [C135_limiter_overflow sq2 sqEps (by omega) h0 h1 h2] at hs
      cases hs
    have one : ∀ a b : Nat, 0 < a → 0 < b → 2147483647 * (a * b) < 2147483648 → a = 1 ∧ b = 1 := by
      intro a b ha hb h
      have : a * b = 1 := by
        have := Nat.mul_pos ha hb
        omega
      exact ⟨Nat.eq_one_of_mul_eq_one_right this, Nat.eq_one_of_mul_eq_one_left this⟩
    refine ⟨hP, ?_, ?_⟩
    · by_contra h
      obtain rfl : d0 = 2147483647 := by omega
      obtain ⟨rfl, rfl⟩ := one d1 d2 p1 p2 (by rw [← Nat.mul_assoc]; exact hP)
      have := C135_limiter_line sq2 sqEps (d0 := 2147483647) (d1 := 1) (Or.inl ⟨rfl, rfl⟩) elen dfdx imax himax ffun
      rw [Nat.cast_one] at hs this
      rw [this] at hs
      cases hs
    · by_contra h
      obtain rfl : d1 = 2147483647 := by omega
      obtain ⟨rfl, rfl⟩ := one d0 d2 p0 p2 (by rw [← Nat.mul_assoc, Nat.mul_comm 2147483647]; exact hP)
      have := C135_limiter_line sq2 sqEps (d0 := 1) (d1 := 2147483647) (Or.inr ⟨rfl, rfl⟩) elen dfdx imax himax ffun
      rw [Nat.cast_one] at hs this
      rw [this] at hs
      cases hs
  · rintro ⟨hP, q0, q1⟩
    rw [C135_limiter sq2 sqEps (by omega) q0 q1 h2 elen dfdx imax himax2 hf]
    have hne : ffun ≠ [] := by
      rintro rfl
      have := Nat.mul_pos (Nat.mul_pos p0 p1) p2
      simp only [List.length_nil] at hf
      omega
    obtain ⟨out, ho, _⟩ := C26_limiter_total sq2 sqEps elen dfdx imax hf hne
    rw [ho]
    rfl

end

example : gradientLimitM sq2D sqEpsD [2, 2, 1] 1 1 10 [1, 5, 5, 5] = gradientLimit sq2D sqEpsD 2 2 1 1 1 10 [1, 5, 5, 5] :=
  C135_limiter sq2D sqEpsD (d0 := 2) (d1 := 2) (d2 := 1) (by decide) (by decide) (by decide) (by decide) 1 1 10 (by decide) rfl

example (f : List ℚ) : gradientLimitM sq2D sqEpsD [46341, 46341, 1] 1 1 10 f = none :=
  C135_limiter_overflow sq2D sqEpsD (d0 := 46341) (d1 := 46341) (d2 := 1) (by decide) (by decide) (by decide) (by decide) 1 1 10 f

example (f : List ℚ) : gradientLimitM sq2D sqEpsD [1, 2147483647, 1] 1 1 10 f = none :=
  C135_limiter_line sq2D sqEpsD (d0 := 1) (d1 := 2147483647) (Or.inr ⟨rfl, rfl⟩) 1 1 10 (by decide) f

example : (gradientLimitM sq2D sqEpsD [2, 2, 1] 1 1 10 [1, 5, 5, 5]).isSome :=
  (C135_limiter_iff sq2D sqEpsD (d0 := 2) (d1 := 2) (d2 := 1) (by decide) (by decide) (by decide) (by decide) (by decide) (by decide) 1 1 (imax := 10) (by decide) (by decide) rfl).2 (by decide)

end OM
