import Verif.Lemmas.GradLimit2
import Mathlib.Tactic.NormNum
import Mathlib.Data.Rat.Floor
/-!
# Properties C23 – C27 (`oceanmesh/cpp/HamiltonJacobi.cpp`)

`sq2` and `sqEps` stand for the constants `std::sqrt(2.0)` and `std::sqrt(1e-9)`; the theorems hold for all values with
`1 ≤ sq2` and `0 ≤ sqEps`. The witnesses use the exact IEEE doubles.
-/
set_option linter.unusedSectionVars false
namespace OM
open Spec
variable {K : Type} [Field K] [LinearOrder K] [IsStrictOrderedRing K]

/-- The double nearest to the square root of two. -/
def sq2D : ℚ := 6369051672525773 / 4503599627370496
/-- The double nearest to the square root of 1e-9. -/
def sqEpsD : ℚ := 4666698134970813 / 147573952589676412928

/-- Initial state. -/
def initPS (f : List K) : PS K := ⟨fun n => f.getD n 0, fun _ => -1⟩

theorem range_map_getD (f : List K) : (List.range f.length).map (fun n => f.getD n 0) = f := by
  apply List.ext_getElem (by simp)
  intro n h1 h2
  simp [List.getD, List.getElem?_eq_getElem h2]

theorem minElement_spec {f : List K} (hf : f ≠ []) : ∃ m, minElement f = some m ∧ m ∈ f ∧ ∀ x ∈ f, m ≤ x := by
  cases f with
  | nil => exact absurd rfl hf
  | cons x l => exact ⟨_, rfl, foldl_min_mem x l, foldl_min_le x l⟩

theorem run_eq (sq2 sqEps : K) {d0 d1 d2 : Nat} (elen g : K) (imax : Nat) {f : List K}
    (hl : f.length = d0 * d1 * d2) {m : K} (hm : minElement f = some m) :
    gradientLimitRun sq2 sqEps d0 d1 d2 elen g imax f =
      some ((List.range (d0 * d1 * d2)).map (loopF d0 d1 d2 elen (elen * sq2) g (m * sqEps) imax 0 (initPS f)).1.φ,
        (loopF d0 d1 d2 elen (elen * sq2) g (m * sqEps) imax 0 (initPS f)).2) := by
  unfold gradientLimitRun
  rw [hm]
  dsimp only
  have : (⟨f, List.replicate (d0 * d1 * d2) (-1)⟩ : LimState K) = (initPS f).toState (d0 * d1 * d2) := by
    unfold PS.toState initPS
    rw [← hl]
    dsimp only
    rw [range_map_getD]
    congr 1
    simp [List.map_const']
  rw [this, limitLoop_toState]
  rfl

/-- Values of a returned field in terms of the functional loop. -/
theorem run_entry {sq2 sqEps : K} {d0 d1 d2 : Nat} {elen g : K} {imax : Nat} {f out : List K} {c : Bool}
    (hl : f.length = d0 * d1 * d2) {m : K} (hm : minElement f = some m)
    (h : gradientLimitRun sq2 sqEps d0 d1 d2 elen g imax f = some (out, c)) :
    c = (loopF d0 d1 d2 elen (elen * sq2) g (m * sqEps) imax 0 (initPS f)).2 ∧ out.length = f.length ∧
    ∀ n < d0 * d1 * d2, out[n]? =
      some ((loopF d0 d1 d2 elen (elen * sq2) g (m * sqEps) imax 0 (initPS f)).1.φ n) := by
  rw [run_eq sq2 sqEps elen g imax hl hm] at h
  simp only [Option.some.injEq, Prod.mk.injEq] at h
  obtain ⟨rfl, rfl⟩ := h
  refine ⟨rfl, by simp [hl], ?_⟩
  intro n hn
  simp [hn]

theorem getD_of {f : List K} {n : Nat} {x : K} (h : f[n]? = some x) : (initPS f).φ n = x := by
  simp [initPS, List.getD, h]

theorem getD_self {f : List K} {n : Nat} (h : n < f.length) : f[n]? = some ((initPS f).φ n) := by
  simp [initPS, List.getD, List.getElem?_eq_getElem h]

theorem run_ne_nil {f : List K} {sq2 sqEps : K} {d0 d1 d2 : Nat} {elen g : K} {imax : Nat} {out : List K} {c : Bool}
    (h : gradientLimitRun sq2 sqEps d0 d1 d2 elen g imax f = some (out, c)) : f ≠ [] := by
  rintro rfl
  simp [gradientLimitRun, minElement] at h

theorem limit_run {f : List K} {sq2 sqEps : K} {d0 d1 d2 : Nat} {elen g : K} {imax : Nat} {out : List K}
    (h : gradientLimit sq2 sqEps d0 d1 d2 elen g imax f = some out) :
    ∃ c, gradientLimitRun sq2 sqEps d0 d1 d2 elen g imax f = some (out, c) := by
  unfold gradientLimit at h
  obtain ⟨⟨o, c⟩, h1, rfl⟩ := Option.map_eq_some_iff.1 h
  exact ⟨c, h1⟩

/-- **C26** (1) All positions used for a node lie inside the array, and the 1-based column-major index maps are inverse
to each other. -/
theorem C26_indices_in_range (d0 d1 d2 : Nat) :
    (∀ n < d0 * d1 * d2, ∀ x ∈ neighbours d0 d1 n, x.1 < d0 * d1 * d2) ∧
      (∀ i j k, 1 ≤ i → i ≤ d0 → 1 ≤ j → j ≤ d1 → 1 ≤ k → k ≤ d2 →
        1 ≤ sub2ind i j k d0 d1 ∧ sub2ind i j k d0 d1 ≤ d0 * d1 * d2 ∧
          ind2sub (sub2ind i j k d0 d1) d0 d1 = (i, j, k)) ∧
      (∀ n, 1 ≤ n → n ≤ d0 * d1 * d2 →
        sub2ind (ind2sub n d0 d1).1 (ind2sub n d0 d1).2.1 (ind2sub n d0 d1).2.2 d0 d1 = n ∧
        1 ≤ (ind2sub n d0 d1).1 ∧ (ind2sub n d0 d1).1 ≤ d0 ∧ 1 ≤ (ind2sub n d0 d1).2.1 ∧
        (ind2sub n d0 d1).2.1 ≤ d1 ∧ 1 ≤ (ind2sub n d0 d1).2.2 ∧ (ind2sub n d0 d1).2.2 ≤ d2) := by
  have key : ∀ a b k, sub2ind a b (k + 1) d0 d1 = nodeIndex d0 d1 (a - 1) (b - 1) k + 1 := by
    intro a b k
    have h := sub2ind_eq d0 d1 a b k
    have : 1 ≤ sub2ind a b (k + 1) d0 d1 := by unfold sub2ind; omega
    omega
  refine ⟨fun n hn => neighbours_lt hn, ?_, ?_⟩
  · intro i j k hi hi' hj hj' hk hk'
    obtain ⟨k, rfl⟩ : ∃ k', k = k' + 1 := ⟨k - 1, by omega⟩
    rw [key]
    have := nodeIndex_lt (d0 := d0) (d1 := d1) (d2 := d2) (i := i - 1) (j := j - 1) (k := k) (by omega) (by omega) (by omega)
    refine ⟨by omega, by omega, ?_⟩
    rw [ind2sub_nodeIndex (by omega) (by omega)]
    simp only [Prod.mk.injEq, and_true]
    omega
  · intro n hn hn'
    obtain ⟨i, j, k, hi, hj, hk, h⟩ := exists_nodeIndex (d0 := d0) (d1 := d1) (d2 := d2) (n := n - 1) (by omega)
    obtain rfl : n = nodeIndex d0 d1 i j k + 1 := by omega
    rw [ind2sub_nodeIndex hi hj]
    dsimp only
    rw [key]
    refine ⟨by simp, by omega, by omega, by omega, by omega, by omega, by omega⟩

example : ind2sub 5 2 3 = (1, 3, 1) ∧ sub2ind 1 3 1 2 3 = 5 := by decide

/-- **C26** (2) The limiter never leaves the arrays: it returns a field of the same size for every non-empty field of
matching size. -/
theorem C26_limiter_total (sq2 sqEps : K) {d0 d1 d2 : Nat} (elen g : K) (imax : Nat) {f : List K}
    (hl : f.length = d0 * d1 * d2) (hne : f ≠ []) :
    ∃ out, gradientLimit sq2 sqEps d0 d1 d2 elen g imax f = some out ∧ out.length = f.length := by
  obtain ⟨m, hm, -, -⟩ := minElement_spec hne
  unfold gradientLimit
  rw [run_eq sq2 sqEps elen g imax hl hm]
  exact ⟨_, rfl, by simp [hl]⟩

example : ∃ out, gradientLimit sq2D sqEpsD 2 2 1 1 1 10 [1, 5, 5, 5] = some out ∧ out.length = 4 :=
  C26_limiter_total _ _ _ _ _ rfl (by simp)

/-- **C23** The limiter only lowers values, never below the smallest input value nor below the lower envelope (the
smallest value that can be forced on a node along grid paths), and keeps the smallest value where it was. For fields of
non-negative sizes, every iteration limit. -/
theorem C23_limiter_lowers {sq2 sqEps : K} {d0 d1 d2 : Nat} {elen g : K} {imax : Nat} {f out : List K}
    (hl : f.length = d0 * d1 * d2) (hs2 : 1 ≤ sq2) (hse : 0 ≤ sqEps) (helen : 0 ≤ elen) (hg : 0 ≤ g)
    (hpos : ∀ x ∈ f, 0 ≤ x) (h : gradientLimit sq2 sqEps d0 d1 d2 elen g imax f = some out)
    {n : Nat} {x y : K} (hx : f[n]? = some x) (hy : out[n]? = some y) :
    y ≤ x ∧ (∃ v, Forced f d0 d1 d2 elen (elen * sq2) g n v ∧ v ≤ y) ∧ (∀ lo, (∀ z ∈ f, lo ≤ z) → lo ≤ y) ∧
      ((∀ z ∈ f, x ≤ z) → y = x) := by
  obtain ⟨c, h⟩ := limit_run h
  obtain ⟨m, hm, hmm, hml⟩ := minElement_spec (run_ne_nil h)
  obtain ⟨-, -, he⟩ := run_entry hl hm h
  have hn : n < d0 * d1 * d2 := by rw [← hl]; exact (List.getElem?_eq_some_iff.1 hx).1
  have hftol : 0 ≤ m * sqEps := mul_nonneg (hpos m hmm) hse
  have hd : elen ≤ elen * sq2 := le_mul_of_one_le_right helen hs2
  have hlen : ∀ b : Bool, 0 ≤ (if b then elen * sq2 else elen) * g := by
    intro b; cases b <;> simp <;> [exact mul_nonneg helen hg; exact mul_nonneg (helen.trans hd) hg]
  rw [he n hn] at hy
  simp only [Option.some.injEq] at hy
  have hle : y ≤ x := by
    rw [← hy, ← getD_of hx]; exact loopF_le hftol _ _ _ _
  have hlo : ∀ lo, (∀ z ∈ f, lo ≤ z) → lo ≤ y := by
    intro lo hlo
    have := loopF_closed (d0 := d0) (d1 := d1) (d2 := d2) (elen := elen) (elend := elen * sq2) (g := g)
      (ftol := m * sqEps) (fun n v => n < d0 * d1 * d2 → lo ≤ v) (by
        intro a b bb ha hb
        have hb' := neighbours_lt ha _ hb
        exact ⟨fun v hv _ => by linarith [hv hb', hlen bb], fun v hv _ => by linarith [hv ha, hlen bb]⟩)
      imax 0 (initPS f) (by
        intro a ha
        exact hlo _ (List.mem_of_getElem? (getD_self (by rw [hl]; exact ha)))) n hn
    rw [← hy]; exact this
  refine ⟨hle, ?_, hlo, fun hmin => le_antisymm hle (hlo x hmin)⟩
  have := loopF_closed (d0 := d0) (d1 := d1) (d2 := d2) (elen := elen) (elend := elen * sq2) (g := g)
      (ftol := m * sqEps)
      (fun n v => n < d0 * d1 * d2 → ∃ w, Forced f d0 d1 d2 elen (elen * sq2) g n w ∧ w ≤ v) (by
        intro a b bb ha hb
        have hb' := neighbours_lt ha _ hb
        have step : ∀ {p q : Nat}, (q = p ∨ Orthogonal d0 d1 d2 p q ∨
            (bb = true ∧ (MainDiagonal d0 d1 d2 p q ∨ AntiDiagonal d0 d1 d2 p q))) → ∀ v,
            (∃ w, Forced f d0 d1 d2 elen (elen * sq2) g p w ∧ w ≤ v) →
            ∃ w, Forced f d0 d1 d2 elen (elen * sq2) g q w ∧ w ≤ v + (if bb then elen * sq2 else elen) * g := by
          rintro p q hpq v ⟨w, hw, hwv⟩
          have hbb : elen * g ≤ (if bb then elen * sq2 else elen) * g := by
            cases bb <;> simp
            exact mul_le_mul_of_nonneg_right hd hg
          rcases hpq with rfl | ho | ⟨rfl, hdg⟩
          · exact ⟨w, hw, by linarith [hlen bb]⟩
          · exact ⟨_, hw.orth ho, by linarith⟩
          · exact ⟨_, hw.diag hdg, by simp only [if_true]; linarith⟩
        have hk := neighbours_kind ha hb
        refine ⟨fun v hv _ => step ?_ v (hv hb'), fun v hv _ => step hk v (hv ha)⟩
        rcases hk with rfl | ho | ⟨hb1, hdg | hdg⟩
        · exact Or.inl rfl
        · exact Or.inr (Or.inl (Orthogonal.symm ho))
        · exact Or.inr (Or.inr ⟨hb1, Or.inl (MainDiagonal.symm hdg)⟩)
        · exact Or.inr (Or.inr ⟨hb1, Or.inr (AntiDiagonal.symm hdg)⟩))
      imax 0 (initPS f) (by
        intro a ha
        exact ⟨_, .start (getD_self (by rw [hl]; exact ha)), le_rfl⟩) n hn
  rw [← hy]; exact this

example : (1 : ℚ) ≤ sq2D ∧ 0 ≤ sqEpsD ∧ (∀ x ∈ ([1, 5, 5, 5] : List ℚ), 0 ≤ x) ∧
    gradientLimit sq2D sqEpsD 2 2 1 1 1 10 [1, 5, 5, 5] = some [1, 2, 2, 1 + sq2D] := by
  decide +kernel

/-- Why C23 asks for non-negative sizes: with a negative minimum the tolerance is negative and values are raised. -/
theorem C23_negative_field_raised : gradientLimit sq2D sqEpsD 1 2 1 1 1 1 [-1, -1 / 100000] = some [-1, 0] := by
  decide +kernel

/-- **C24** Full claim: after convergence all eight neighbours respect the gradation. Proved: horizontal, vertical and
(1,1)-diagonal neighbours, for every field on which the loop leaves through its convergence test. Missing: the other
diagonal, where the claim is false (`C24_antidiagonal_violated`). -/
theorem C24_converged_graded_partial {sq2 sqEps : K} {d0 d1 d2 : Nat} {elen g : K} {imax : Nat} {f out : List K}
    (hl : f.length = d0 * d1 * d2) (h : gradientLimitRun sq2 sqEps d0 d1 d2 elen g imax f = some (out, true))
    {m : K} (hm : m ∈ f) (hml : ∀ x ∈ f, m ≤ x) :
    (∀ a b, Orthogonal d0 d1 d2 a b → EntriesWithin out (elen * g + m * sqEps) a b) ∧
      (∀ a b, MainDiagonal d0 d1 d2 a b → EntriesWithin out (elen * sq2 * g + m * sqEps) a b) := by
  obtain ⟨m', hm', hmm, hml'⟩ := minElement_spec (run_ne_nil h)
  obtain rfl : m = m' := le_antisymm (hml _ hmm) (hml' _ hm)
  obtain ⟨hc, -, he⟩ := run_entry hl hm' h
  constructor
  · intro a b hab
    have ha := InLayer.lt_left hab
    have hb := InLayer.lt_left (Orthogonal.symm hab)
    exact ⟨_, _, he a ha, he b hb, loopF_converged (b := false) ha hb (orthogonal_mem hab) (orthogonal_mem (Orthogonal.symm hab))
      imax (initPS f) (fun _ _ => rfl) hc.symm⟩
  · intro a b hab
    have ha := InLayer.lt_left hab
    have hb := InLayer.lt_left (MainDiagonal.symm hab)
    exact ⟨_, _, he a ha, he b hb, loopF_converged (b := true) ha hb (mainDiagonal_mem hab) (mainDiagonal_mem (MainDiagonal.symm hab))
      imax (initPS f) (fun _ _ => rfl) hc.symm⟩

/-- **C24** What remains true on the other diagonal: the difference is at most that of two orthogonal steps. -/
theorem C24_antidiagonal_bound_partial {sq2 sqEps : K} {d0 d1 d2 : Nat} {elen g : K} {imax : Nat} {f out : List K}
    (hl : f.length = d0 * d1 * d2) (h : gradientLimitRun sq2 sqEps d0 d1 d2 elen g imax f = some (out, true))
    {m : K} (hm : m ∈ f) (hml : ∀ x ∈ f, m ≤ x) {a b : Nat} (hab : AntiDiagonal d0 d1 d2 a b) :
    EntriesWithin out (2 * (elen * g + m * sqEps)) a b := by
  have horth := (C24_converged_graded_partial hl h hm hml).1
  obtain ⟨i, j, i', j', k, hi, hj, hi', hj', hk, rfl, rfl, hr⟩ := hab
  have h1 : Orthogonal d0 d1 d2 (nodeIndex d0 d1 i j k) (nodeIndex d0 d1 i' j k) :=
    ⟨i, j, i', j, k, hi, hj, hi', hj, hk, rfl, rfl, by omega⟩
  have h2 : Orthogonal d0 d1 d2 (nodeIndex d0 d1 i' j k) (nodeIndex d0 d1 i' j' k) :=
    ⟨i', j, i', j', k, hi', hj, hi', hj', hk, rfl, rfl, by omega⟩
  obtain ⟨x, y, hx, hy, hxy⟩ := horth _ _ h1
  obtain ⟨y', z, hy', hz, hyz⟩ := horth _ _ h2
  obtain rfl : y = y' := by rw [hy] at hy'; simpa using hy'
  refine ⟨x, z, hx, hz, ?_⟩
  calc |x - z| = |(x - y) + (y - z)| := by congr 1; ring
    _ ≤ |x - y| + |y - z| := abs_add_le _ _
    _ ≤ _ := by linarith

/-- A 3×3 field with a single small value in one corner. -/
def cornerField : List ℚ := [4, 4, 4, 4, 4, 4, 1, 4, 4]
/-- Its converged result. -/
def cornerLimited : List ℚ := [3, 2 + sq2D, 4, 2, 1 + sq2D, 2 + sq2D, 1, 2, 3]

example : gradientLimitRun sq2D sqEpsD 3 3 1 1 1 10000 cornerField = some (cornerLimited, true) ∧
    (1 : ℚ) ∈ cornerField ∧ (∀ x ∈ cornerField, 1 ≤ x) := by
  decide +kernel

/-- **C24** counterexample: on the 3×3 field the limiter converges, but the anti-diagonal neighbours 2 and 4 differ by
more than the gradation times their distance plus the tolerance. -/
theorem C24_antidiagonal_violated :
    gradientLimitRun sq2D sqEpsD 3 3 1 1 1 10000 cornerField = some (cornerLimited, true) ∧
      AntiDiagonal 3 3 1 2 4 ∧ ¬ EntriesWithin cornerLimited (1 * sq2D * 1 + 1 * sqEpsD) 2 4 := by
  refine ⟨by decide +kernel, ⟨2, 0, 1, 1, 0, by decide, by decide, by decide, by decide, by decide, rfl, rfl, by omega⟩, ?_⟩
  rintro ⟨x, y, hx, hy, hxy⟩
  have hx' : x = 4 := by simpa [cornerLimited] using hx.symm
  have hy' : y = 1 + sq2D := by simpa [cornerLimited] using hy.symm
  subst hx' hy'
  revert hxy
  decide +kernel

/-- **C25** (1) A field that respects the gradation (up to the tolerance) on all eight neighbours is returned unchanged,
and one sweep shows it. -/
theorem C25_graded_unchanged {sq2 sqEps : K} {d0 d1 d2 : Nat} {elen g : K} (imax : Nat) {f : List K}
    (hl : f.length = d0 * d1 * d2) (hs2 : 1 ≤ sq2) (hse : 0 ≤ sqEps) (helen : 0 ≤ elen) (hg : 0 ≤ g)
    {m : K} (hm : m ∈ f) (hml : ∀ x ∈ f, m ≤ x) (hm0 : 0 ≤ m)
    (hgr : Graded f d0 d1 d2 elen (elen * sq2) g (m * sqEps)) :
    gradientLimit sq2 sqEps d0 d1 d2 elen g imax f = some f ∧
      (2 ≤ imax → gradientLimitRun sq2 sqEps d0 d1 d2 elen g imax f = some (f, true)) := by
  obtain ⟨m', hm', hmm, hml'⟩ := minElement_spec (List.ne_nil_of_mem hm)
  obtain rfl : m = m' := le_antisymm (hml _ hmm) (hml' _ hm)
  have hftol : 0 ≤ m * sqEps := mul_nonneg hm0 hse
  have hd : elen ≤ elen * sq2 := le_mul_of_one_le_right helen hs2
  have hlen : ∀ b : Bool, 0 ≤ (if b then elen * sq2 else elen) * g := by
    intro b; cases b <;> simp <;> [exact mul_nonneg helen hg; exact mul_nonneg (helen.trans hd) hg]
  have idle := loopF_idle (d0 := d0) (d1 := d1) (d2 := d2) (elen := elen) (elend := elen * sq2) (g := g)
    (ftol := m * sqEps) imax 0 (initPS f) (by
      intro a b bb ha hb
      have hb' := neighbours_lt ha _ hb
      have ea := getD_self (f := f) (by rw [hl]; exact ha)
      have eb := getD_self (f := f) (by rw [hl]; exact hb')
      rcases neighbours_kind ha hb with rfl | ho | ⟨rfl, hdg⟩
      · simp only [sub_self, abs_zero]; linarith [hlen bb]
      · obtain ⟨x, y, hx, hy, hxy⟩ := hgr.1 a b ho
        rw [getD_of hx, getD_of hy]
        refine hxy.trans ?_
        have : elen * g ≤ (if bb then elen * sq2 else elen) * g := by
          cases bb <;> simp
          exact mul_le_mul_of_nonneg_right hd hg
        linarith
      · obtain ⟨x, y, hx, hy, hxy⟩ := hgr.2 a b hdg
        rw [getD_of hx, getD_of hy]
        simpa using hxy)
  have hrun := run_eq sq2 sqEps elen g imax hl hm'
  rw [idle.1] at hrun
  have hf : (List.range (d0 * d1 * d2)).map (initPS f).φ = f := by rw [← hl]; exact range_map_getD f
  rw [hf] at hrun
  refine ⟨by unfold gradientLimit; rw [hrun]; rfl, ?_⟩
  intro h2
  rw [hrun, idle.2 (by intro x _; simp [initPS]) h2]

/-- A 1×2 field within the gradation. -/
example : Graded ([1, 2] : List ℚ) 1 2 1 1 (1 * sq2D) 1 (1 * sqEpsD) := by
  have hD : (0 : ℚ) ≤ 1 * sqEpsD := by decide +kernel
  constructor
  · rintro n m ⟨i, j, i', j', k, hi, hj, hi', hj', hk, rfl, rfl, h⟩
    obtain rfl : i = 0 := by omega
    obtain rfl : i' = 0 := by omega
    obtain rfl : k = 0 := by omega
    obtain ⟨rfl, rfl⟩ | ⟨rfl, rfl⟩ : (j = 0 ∧ j' = 1) ∨ (j = 1 ∧ j' = 0) := by omega
    · exact ⟨1, 2, rfl, rfl, by rw [abs_le]; constructor <;> linarith⟩
    · exact ⟨2, 1, rfl, rfl, by rw [abs_le]; constructor <;> linarith⟩
  · rintro n m (⟨i, j, i', j', k, hi, hj, hi', hj', hk, rfl, rfl, h⟩ | ⟨i, j, i', j', k, hi, hj, hi', hj', hk, rfl, rfl, h⟩) <;>
      omega

/-- **C25** counterexample to the second half of the claim: limiting a converged field again changes it (the missing
diagonal direction of C24). -/
theorem C25_converged_not_fixed :
    gradientLimitRun sq2D sqEpsD 3 3 1 1 1 10000 cornerField = some (cornerLimited, true) ∧
      gradientLimit sq2D sqEpsD 3 3 1 1 1 10000 cornerLimited = some [3, 2 + sq2D, 1 + 2 * sq2D, 2, 1 + sq2D, 2 + sq2D, 1, 2, 3] ∧
      (1 + 2 * sq2D ≠ 4) := by
  decide +kernel

/-- **C27** For positive sizes there is an iteration limit beyond which the loop ends by convergence and the result no
longer changes. -/
theorem C27_limiter_converges [Archimedean K] {sq2 sqEps : K} {d0 d1 d2 : Nat} {elen g : K} {f : List K}
    (hl : f.length = d0 * d1 * d2) (hne : f ≠ []) (hs2 : 1 ≤ sq2) (hse : 0 < sqEps) (helen : 0 ≤ elen) (hg : 0 ≤ g)
    (hpos : ∀ x ∈ f, 0 < x) :
    ∃ N out, ∀ imax, N ≤ imax → gradientLimitRun sq2 sqEps d0 d1 d2 elen g imax f = some (out, true) := by
  obtain ⟨m, hm, hmm, hml⟩ := minElement_spec hne
  have hftol : 0 < m * sqEps := mul_pos (hpos m hmm) hse
  obtain ⟨N, hN⟩ := loopF_converges (d0 := d0) (d1 := d1) (d2 := d2) (elen := elen) (elend := elen * sq2) (g := g)
    hftol (initPS f) (by intro x _; simp [initPS]) m (by
      intro fuel x hx
      have e := run_eq sq2 sqEps elen g fuel hl hm
      have h1 : gradientLimit sq2 sqEps d0 d1 d2 elen g fuel f = some ((List.range (d0 * d1 * d2)).map
          (loopF d0 d1 d2 elen (elen * sq2) g (m * sqEps) fuel 0 (initPS f)).1.φ) := by
        unfold gradientLimit; rw [e]; rfl
      exact (C23_lo hl hs2 hse.le helen hg (fun z hz => (hpos z hz).le) h1
        (getD_self (by rw [hl]; exact hx)) (by simp [hx]) m hml))
  refine ⟨N, (List.range (d0 * d1 * d2)).map
    (loopF d0 d1 d2 elen (elen * sq2) g (m * sqEps) N 0 (initPS f)).1.φ, ?_⟩
  intro imax hi
  obtain ⟨k, rfl⟩ : ∃ k, imax = N + k := ⟨imax - N, by omega⟩
  rw [run_eq sq2 sqEps elen g (N + k) hl hm, loopF_stable N 0 k _ hN, hN]
where
  C23_lo {sq2 sqEps : K} {d0 d1 d2 : Nat} {elen g : K} {imax : Nat} {f out : List K}
    (hl : f.length = d0 * d1 * d2) (hs2 : 1 ≤ sq2) (hse : 0 ≤ sqEps) (helen : 0 ≤ elen) (hg : 0 ≤ g)
    (hpos : ∀ x ∈ f, 0 ≤ x) (h : gradientLimit sq2 sqEps d0 d1 d2 elen g imax f = some out)
    {n : Nat} {x y : K} (hx : f[n]? = some x) (hy : out[n]? = some y) (lo : K) (hlo : ∀ z ∈ f, lo ≤ z) : lo ≤ y :=
    (C23_limiter_lowers hl hs2 hse helen hg hpos h hx hy).2.2.1 lo hlo

example : ([1, 5, 5, 5] : List ℚ).length = 2 * 2 * 1 ∧ (0 : ℚ) < sqEpsD ∧ (∀ x ∈ ([1, 5, 5, 5] : List ℚ), 0 < x) := by
  decide +kernel

end OM
