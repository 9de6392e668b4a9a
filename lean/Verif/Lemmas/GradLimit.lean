import Verif.Model.GradLimit
import Verif.Spec.GridNodes
import Verif.Lemmas.Orders
import Mathlib.Algebra.Order.Archimedean.Basic
import Mathlib.Algebra.BigOperators.Group.Finset.Basic
import Mathlib.Tactic.Linarith
import Mathlib.Tactic.Ring
/-! Lemmas about the gradient limiter. -/
set_option linter.unusedSectionVars false
namespace OM
open Spec

/-! ### Index maps -/

theorem nodeIndex_lt {d0 d1 d2 i j k : Nat} (hi : i < d0) (hj : j < d1) (hk : k < d2) :
    nodeIndex d0 d1 i j k < d0 * d1 * d2 := by
  unfold nodeIndex
  have h1 : j + d1 * k < d1 * d2 := by
    calc j + d1 * k < d1 + d1 * k := by omega
      _ = d1 * (k + 1) := by ring
      _ ≤ d1 * d2 := Nat.mul_le_mul_left _ hk
  calc i + d0 * (j + d1 * k) < d0 + d0 * (j + d1 * k) := by omega
    _ = d0 * (j + d1 * k + 1) := by ring
    _ ≤ d0 * (d1 * d2) := Nat.mul_le_mul_left _ h1
    _ = d0 * d1 * d2 := by ring

theorem ind2sub_nodeIndex {d0 d1 i j k : Nat} (hi : i < d0) (hj : j < d1) :
    ind2sub (nodeIndex d0 d1 i j k + 1) d0 d1 = (i + 1, j + 1, k + 1) := by
  unfold ind2sub nodeIndex
  have h1 : i + d0 * (j + d1 * k) = (i + d0 * j) + d0 * d1 * k := by ring
  have h2 : i + d0 * j < d0 * d1 := by
    calc i + d0 * j < d0 + d0 * j := by omega
      _ = d0 * (j + 1) := by ring
      _ ≤ d0 * d1 := Nat.mul_le_mul_left _ hj
  simp only [Nat.add_sub_cancel]
  rw [h1, Nat.add_mul_mod_self_left, Nat.mod_eq_of_lt h2, Nat.add_mul_mod_self_left, Nat.mod_eq_of_lt hi,
    Nat.add_mul_div_left _ _ (by omega), Nat.div_eq_of_lt hi, Nat.add_mul_div_left _ _ (by omega), Nat.div_eq_of_lt h2]
  simp only [Nat.zero_add, Nat.add_comm]

theorem sub2ind_eq (d0 d1 a b k : Nat) : sub2ind a b (k + 1) d0 d1 - 1 = nodeIndex d0 d1 (a - 1) (b - 1) k := by
  unfold sub2ind nodeIndex
  have : 1 + (k + 1 - 1) * d1 * d0 + (b - 1) * d0 + (a - 1) = 1 + (a - 1 + d0 * (b - 1 + d1 * k)) := by
    rw [Nat.add_sub_cancel]; ring
  rw [this, Nat.add_sub_cancel_left]

theorem exists_nodeIndex {d0 d1 d2 n : Nat} (h : n < d0 * d1 * d2) :
    ∃ i j k, i < d0 ∧ j < d1 ∧ k < d2 ∧ n = nodeIndex d0 d1 i j k := by
  have h0 : 0 < d0 := by rcases Nat.eq_zero_or_pos d0 with h0 | h0; (simp [h0] at h); exact h0
  have h1 : 0 < d1 := by rcases Nat.eq_zero_or_pos d1 with h1 | h1; (simp [h1] at h); exact h1
  refine ⟨n % d0, n / d0 % d1, n / d0 / d1, Nat.mod_lt _ h0, Nat.mod_lt _ h1, ?_, ?_⟩
  · rw [Nat.div_div_eq_div_mul]
    exact Nat.div_lt_of_lt_mul h
  · unfold nodeIndex
    rw [Nat.mod_add_div, Nat.mod_add_div]

theorem nodeIndex_inj {d0 d1 i j k i' j' k' : Nat} (hi : i < d0) (hj : j < d1) (hi' : i' < d0) (hj' : j' < d1)
    (h : nodeIndex d0 d1 i j k = nodeIndex d0 d1 i' j' k') : i = i' ∧ j = j' ∧ k = k' := by
  have h1 := ind2sub_nodeIndex (k := k) hi hj
  rw [h, ind2sub_nodeIndex hi' hj'] at h1
  simp only [Prod.mk.injEq] at h1
  omega

theorem neighbours_eq {d0 d1 i j k : Nat} (hi : i < d0) (hj : j < d1) :
    neighbours d0 d1 (nodeIndex d0 d1 i j k) =
      [(nodeIndex d0 d1 i (min (j + 1) (d1 - 1)) k, false), (nodeIndex d0 d1 i (j - 1) k, false),
       (nodeIndex d0 d1 (min (i + 1) (d0 - 1)) j k, false), (nodeIndex d0 d1 (i - 1) j k, false),
       (nodeIndex d0 d1 (min (i + 1) (d0 - 1)) (min (j + 1) (d1 - 1)) k, true),
       (nodeIndex d0 d1 (i - 1) (min (j + 1) (d1 - 1)) k, true),
       (nodeIndex d0 d1 (i - 1) (j - 1) k, true),
       (nodeIndex d0 d1 (min (i + 1) (d0 - 1)) (min (j + 1) (d1 - 1)) k, true)] := by
  unfold neighbours
  rw [ind2sub_nodeIndex hi hj]
  dsimp only
  simp only [sub2ind_eq]
  have e1 : min (j + 1 + 1) d1 - 1 = min (j + 1) (d1 - 1) := by omega
  have e2 : max (j + 1 - 1) 1 - 1 = j - 1 := by omega
  have e3 : min (i + 1 + 1) d0 - 1 = min (i + 1) (d0 - 1) := by omega
  have e4 : max (i + 1 - 1) 1 - 1 = i - 1 := by omega
  rw [e1, e2, e3, e4, Nat.add_sub_cancel, Nat.add_sub_cancel]

theorem neighbours_lt {d0 d1 d2 n : Nat} (h : n < d0 * d1 * d2) : ∀ x ∈ neighbours d0 d1 n, x.1 < d0 * d1 * d2 := by
  obtain ⟨i, j, k, hi, hj, hk, rfl⟩ := exists_nodeIndex h
  rw [neighbours_eq hi hj]
  intro x hx
  simp only [List.mem_cons, List.not_mem_nil, or_false] at hx
  rcases hx with rfl | rfl | rfl | rfl | rfl | rfl | rfl | rfl <;> exact nodeIndex_lt (by omega) (by omega) hk

/-- What the neighbour list contains: nodes at orthogonal or diagonal distance, the node itself, or (at the border)
orthogonal neighbours with the diagonal length. -/
theorem neighbours_kind {d0 d1 d2 n : Nat} (h : n < d0 * d1 * d2) {m : Nat} {b : Bool} (hm : (m, b) ∈ neighbours d0 d1 n) :
    m = n ∨ Orthogonal d0 d1 d2 n m ∨ (b = true ∧ (MainDiagonal d0 d1 d2 n m ∨ AntiDiagonal d0 d1 d2 n m)) := by
  obtain ⟨i, j, k, hi, hj, hk, rfl⟩ := exists_nodeIndex h
  rw [neighbours_eq hi hj] at hm
  have build : ∀ {rel : Nat → Nat → Nat → Nat → Prop} (i' j' : Nat), i' < d0 → j' < d1 → rel i j i' j' →
      InLayer rel d0 d1 d2 (nodeIndex d0 d1 i j k) (nodeIndex d0 d1 i' j' k) :=
    fun i' j' hi' hj' hr => ⟨i, j, i', j', k, hi, hj, hi', hj', hk, rfl, rfl, hr⟩
  have cls : ∀ (i' j' : Nat) (b : Bool), i' < d0 → j' < d1 → i' ≤ i + 1 → i ≤ i' + 1 → j' ≤ j + 1 → j ≤ j' + 1 →
      (b = false → i = i' ∨ j = j') →
      nodeIndex d0 d1 i' j' k = nodeIndex d0 d1 i j k ∨ Orthogonal d0 d1 d2 (nodeIndex d0 d1 i j k) (nodeIndex d0 d1 i' j' k) ∨
        (b = true ∧ (MainDiagonal d0 d1 d2 (nodeIndex d0 d1 i j k) (nodeIndex d0 d1 i' j' k) ∨
          AntiDiagonal d0 d1 d2 (nodeIndex d0 d1 i j k) (nodeIndex d0 d1 i' j' k))) := by
    intro i' j' b hi' hj' h1 h2 h3 h4 hb
    by_cases e : i' = i
    · by_cases e' : j' = j
      · left; rw [e, e']
      · right; left; exact build i' j' hi' hj' (by omega)
    · by_cases e' : j' = j
      · right; left; exact build i' j' hi' hj' (by omega)
      · right; right
        have hbt : b = true := by
          cases b
          · rcases hb rfl with h | h
            · exact absurd h.symm e
            · exact absurd h.symm e'
          · rfl
        refine ⟨hbt, ?_⟩
        by_cases hmain : (i' = i + 1 ∧ j' = j + 1) ∨ (i = i' + 1 ∧ j = j' + 1)
        · left; exact build i' j' hi' hj' hmain
        · right; exact build i' j' hi' hj' (by omega)
  simp only [List.mem_cons, List.not_mem_nil, or_false, Prod.mk.injEq] at hm
  rcases hm with ⟨rfl, rfl⟩ | ⟨rfl, rfl⟩ | ⟨rfl, rfl⟩ | ⟨rfl, rfl⟩ | ⟨rfl, rfl⟩ | ⟨rfl, rfl⟩ | ⟨rfl, rfl⟩ | ⟨rfl, rfl⟩ <;>
    exact cls _ _ _ (by omega) (by omega) (by omega) (by omega) (by omega) (by omega) (by simp)

theorem orthogonal_mem {d0 d1 d2 n m : Nat} (h : Orthogonal d0 d1 d2 n m) : (m, false) ∈ neighbours d0 d1 n := by
  obtain ⟨i, j, i', j', k, hi, hj, hi', hj', hk, rfl, rfl, h⟩ := h
  rw [neighbours_eq hi hj]
  simp only [List.mem_cons, Prod.mk.injEq, and_true]
  rcases h with ⟨rfl, rfl | rfl⟩ | ⟨rfl, rfl | rfl⟩
  · left; congr 1; omega
  · right; left; congr 1
  · right; right; left; congr 1; omega
  · right; right; right; left; congr 1

theorem mainDiagonal_mem {d0 d1 d2 n m : Nat} (h : MainDiagonal d0 d1 d2 n m) : (m, true) ∈ neighbours d0 d1 n := by
  obtain ⟨i, j, i', j', k, hi, hj, hi', hj', hk, rfl, rfl, h⟩ := h
  rw [neighbours_eq hi hj]
  simp only [List.mem_cons, Prod.mk.injEq, and_true]
  rcases h with ⟨rfl, rfl⟩ | ⟨rfl, rfl⟩
  · right; right; right; right; left; congr 1 <;> omega
  · right; right; right; right; right; right; left; congr 1

theorem InLayer.symm {rel : Nat → Nat → Nat → Nat → Prop} (hr : ∀ i j i' j', rel i j i' j' → rel i' j' i j)
    {d0 d1 d2 n m : Nat} (h : InLayer rel d0 d1 d2 n m) : InLayer rel d0 d1 d2 m n := by
  obtain ⟨i, j, i', j', k, hi, hj, hi', hj', hk, h1, h2, h⟩ := h
  exact ⟨i', j', i, j, k, hi', hj', hi, hj, hk, h2, h1, hr _ _ _ _ h⟩

theorem InLayer.lt_left {rel : Nat → Nat → Nat → Nat → Prop} {d0 d1 d2 n m : Nat} (h : InLayer rel d0 d1 d2 n m) :
    n < d0 * d1 * d2 := by
  obtain ⟨i, j, i', j', k, hi, hj, hi', hj', hk, rfl, rfl, h⟩ := h
  exact nodeIndex_lt hi hj hk

theorem Orthogonal.symm {d0 d1 d2 n m : Nat} : Orthogonal d0 d1 d2 n m → Orthogonal d0 d1 d2 m n :=
  InLayer.symm (by omega)
theorem MainDiagonal.symm {d0 d1 d2 n m : Nat} : MainDiagonal d0 d1 d2 n m → MainDiagonal d0 d1 d2 m n :=
  InLayer.symm (by omega)
theorem AntiDiagonal.symm {d0 d1 d2 n m : Nat} : AntiDiagonal d0 d1 d2 n m → AntiDiagonal d0 d1 d2 m n :=
  InLayer.symm (by omega)

/-! ### The limiter on functions instead of arrays -/

section
variable {K : Type} [Field K] [LinearOrder K]

/-- Values and activity marks as functions. -/
structure PS (K : Type) where
  φ : Nat → K
  α : Nat → Int

/-- Set the value of node `x` and mark it. -/
def PS.lower (P : PS K) (iter : Int) (x : Nat) (v : K) : PS K := ⟨Function.update P.φ x v, Function.update P.α x iter⟩

/-- One comparison. -/
def relaxF (g ftol : K) (iter : Int) (P : PS K) (o : Nat × Nat × K) : PS K :=
  if P.φ o.2.1 < P.φ o.1 then
    if P.φ o.2.1 + o.2.2 * g + ftol < P.φ o.1 then P.lower iter o.1 (P.φ o.2.1 + o.2.2 * g) else P
  else
    if P.φ o.1 + o.2.2 * g + ftol < P.φ o.2.1 then P.lower iter o.2.1 (P.φ o.1 + o.2.2 * g) else P

/-- The arrays of a state with `N` nodes. -/
def PS.toState (N : Nat) (P : PS K) : LimState K := ⟨(List.range N).map P.φ, (List.range N).map P.α⟩

theorem range_map_set {β : Type} (φ : Nat → β) (N x : Nat) (v : β) :
    ((List.range N).map φ).set x v = (List.range N).map (Function.update φ x v) := by
  apply List.ext_getElem (by simp)
  intro n h1 h2
  simp only [List.getElem_set, List.getElem_map, List.getElem_range, Function.update_apply]
  by_cases h : x = n
  · simp [h]
  · simp [h, Ne.symm h]

theorem range_map_get {β : Type} (φ : Nat → β) {N n : Nat} (h : n < N) : ((List.range N).map φ)[n]? = some (φ n) := by
  simp [h]

theorem relax_toState {g ftol : K} {iter : Int} {P : PS K} {N n1 n2 : Nat} {len : K} (h1 : n1 < N) (h2 : n2 < N) :
    relax g ftol iter (P.toState N) n1 n2 len = some ((relaxF g ftol iter P (n1, n2, len)).toState N) := by
  unfold relax relaxF PS.toState
  dsimp only
  rw [range_map_get _ h1, range_map_get _ h2]
  dsimp only
  split
  · split
    · rw [range_map_set, range_map_set]; rfl
    · rfl
  · split
    · rw [range_map_set, range_map_set]; rfl
    · rfl

/-- The comparisons made for one node. -/
def opsAt (d0 d1 : Nat) (elen elend : K) (n : Nat) : List (Nat × Nat × K) :=
  (neighbours d0 d1 n).map fun x => (n, x.1, if x.2 then elend else elen)

theorem relaxAll_toState {elen elend g ftol : K} {iter : Int} {N n : Nat} (hn : n < N) :
    ∀ (l : List (Nat × Bool)) (P : PS K), (∀ x ∈ l, x.1 < N) →
      relaxAll elen elend g ftol iter n l (P.toState N) =
        some (((l.map fun x => (n, x.1, if x.2 then elend else elen)).foldl (relaxF g ftol iter) P).toState N)
  | [], P, _ => rfl
  | (m, b) :: l, P, h => by
    unfold relaxAll
    rw [relax_toState hn (h (m, b) (by simp))]
    exact relaxAll_toState hn l _ (fun x hx => h x (List.mem_cons_of_mem _ hx))

theorem sweep_toState {d0 d1 d2 : Nat} {elen elend g ftol : K} {iter : Int} :
    ∀ (l : List Nat) (P : PS K), (∀ n ∈ l, n < d0 * d1 * d2) →
      sweep d0 d1 elen elend g ftol iter l (P.toState (d0 * d1 * d2)) =
        some (((l.flatMap (opsAt d0 d1 elen elend)).foldl (relaxF g ftol iter) P).toState (d0 * d1 * d2))
  | [], P, _ => rfl
  | n :: l, P, h => by
    unfold sweep
    rw [relaxAll_toState (h n (by simp)) _ _ (neighbours_lt (h n (by simp)))]
    rw [List.flatMap_cons, List.foldl_append]
    exact sweep_toState l _ (fun x hx => h x (List.mem_cons_of_mem _ hx))

theorem mem_findIndicesFrom (v : Int) : ∀ (l : List Int) (i n : Nat),
    n ∈ findIndicesFrom i v l ↔ ∃ k, n = i + k ∧ l[k]? = some v
  | [], i, n => by simp [findIndicesFrom]
  | a :: l, i, n => by
    unfold findIndicesFrom
    have ih := mem_findIndicesFrom v l (i + 1) n
    have key : (∃ k, n = i + k ∧ (a :: l)[k]? = some v) ↔ (n = i ∧ a = v) ∨ ∃ k, n = i + 1 + k ∧ l[k]? = some v := by
      constructor
      · rintro ⟨k, rfl, hk⟩
        cases k with
        | zero => left; simpa using hk
        | succ k => right; exact ⟨k, by omega, by simpa using hk⟩
      · rintro (⟨rfl, rfl⟩ | ⟨k, rfl, hk⟩)
        · exact ⟨0, rfl, rfl⟩
        · exact ⟨k + 1, by omega, by simpa using hk⟩
    rw [key]
    split
    · rename_i h
      rw [List.mem_cons, ih]; simp [h]
    · rename_i h
      rw [ih]; simp [h]

theorem mem_findIndices {l : List Int} {v : Int} {n : Nat} : n ∈ findIndices l v ↔ l[n]? = some v := by
  unfold findIndices
  rw [mem_findIndicesFrom]
  constructor
  · rintro ⟨k, rfl, h⟩; simpa using h
  · intro h; exact ⟨n, by simp, h⟩

/-- The nodes to be processed in sweep `iter`. -/
def activeF (N : Nat) (P : PS K) (iter : Nat) : List Nat := findIndices ((List.range N).map P.α) ((iter : Int) - 1)

theorem mem_activeF {N : Nat} {P : PS K} {iter n : Nat} : n ∈ activeF N P iter ↔ n < N ∧ P.α n = (iter : Int) - 1 := by
  unfold activeF
  rw [mem_findIndices]
  by_cases h : n < N <;> simp [h]

/-- One sweep on functions. -/
def sweepF (d0 d1 : Nat) (elen elend g ftol : K) (iter : Nat) (l : List Nat) (P : PS K) : PS K :=
  (l.flatMap (opsAt d0 d1 elen elend)).foldl (relaxF g ftol iter) P

/-- The outer loop on functions. -/
def loopF (d0 d1 d2 : Nat) (elen elend g ftol : K) : Nat → Nat → PS K → PS K × Bool
  | 0, _, P => (P, false)
  | fuel + 1, iter, P =>
    if activeF (d0 * d1 * d2) P iter = [] then (P, true)
    else loopF d0 d1 d2 elen elend g ftol fuel (iter + 1)
      (sweepF d0 d1 elen elend g ftol iter (activeF (d0 * d1 * d2) P iter) P)

theorem limitLoop_toState {d0 d1 d2 : Nat} {elen elend g ftol : K} : ∀ (fuel iter : Nat) (P : PS K),
    limitLoop d0 d1 elen elend g ftol fuel iter (P.toState (d0 * d1 * d2)) =
      some ((loopF d0 d1 d2 elen elend g ftol fuel iter P).1.toState (d0 * d1 * d2),
        (loopF d0 d1 d2 elen elend g ftol fuel iter P).2)
  | 0, iter, P => rfl
  | fuel + 1, iter, P => by
    unfold limitLoop loopF
    have hact : findIndices (P.toState (d0 * d1 * d2)).act ((iter : Int) - 1) = activeF (d0 * d1 * d2) P iter := rfl
    rw [hact]
    cases h : activeF (d0 * d1 * d2) P iter with
    | nil => rfl
    | cons a l =>
      dsimp only
      rw [← h]
      rw [sweep_toState _ _ (fun n hn => (mem_activeF.1 hn).1)]
      rw [if_neg (by rw [h]; simp)]
      exact limitLoop_toState fuel (iter + 1) _

/-- Induction principle for the loop. -/
theorem loopF_induct {d0 d1 d2 : Nat} {elen elend g ftol : K} (I : Nat → PS K → Prop)
    (hstep : ∀ iter P, I iter P → activeF (d0 * d1 * d2) P iter ≠ [] →
      I (iter + 1) (sweepF d0 d1 elen elend g ftol iter (activeF (d0 * d1 * d2) P iter) P)) :
    ∀ (fuel iter : Nat) (P : PS K), I iter P →
      ∃ it, I it (loopF d0 d1 d2 elen elend g ftol fuel iter P).1 ∧
        ((loopF d0 d1 d2 elen elend g ftol fuel iter P).2 = true →
          activeF (d0 * d1 * d2) (loopF d0 d1 d2 elen elend g ftol fuel iter P).1 it = [])
  | 0, iter, P, h => ⟨iter, h, by simp [loopF]⟩
  | fuel + 1, iter, P, h => by
    unfold loopF
    by_cases ha : activeF (d0 * d1 * d2) P iter = []
    · rw [if_pos ha]; exact ⟨iter, h, fun _ => ha⟩
    · rw [if_neg ha]
      exact loopF_induct I hstep fuel (iter + 1) _ (hstep iter P h ha)

/-- Members of the operation list of a sweep. -/
theorem mem_ops {d0 d1 : Nat} {elen elend : K} {l : List Nat} {o : Nat × Nat × K}
    (h : o ∈ l.flatMap (opsAt d0 d1 elen elend)) :
    o.1 ∈ l ∧ ∃ b, (o.2.1, b) ∈ neighbours d0 d1 o.1 ∧ o.2.2 = if b then elend else elen := by
  obtain ⟨n, hn, ho⟩ := List.mem_flatMap.1 h
  obtain ⟨x, hx, rfl⟩ := List.mem_map.1 ho
  exact ⟨hn, x.2, hx, rfl⟩

theorem foldl_inv {σ ω : Type} (I : σ → Prop) (step : σ → ω → σ) : ∀ (l : List ω) (s : σ), I s →
    (∀ s, ∀ o ∈ l, I s → I (step s o)) → I (l.foldl step s)
  | [], s, h, _ => h
  | o :: l, s, h, hs => by
    rw [List.foldl_cons]
    exact foldl_inv I step l _ (hs s o (by simp) h) (fun s o' ho' => hs s o' (List.mem_cons_of_mem _ ho'))

end
end OM
