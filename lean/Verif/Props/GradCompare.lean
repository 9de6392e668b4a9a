import Verif.Props.GradLimit
/-!
# C143: comparing limited fields
-/
set_option linter.unusedSectionVars false
namespace OM
namespace Spec
variable {K : Type} [Field K] [LinearOrder K]

/-- `Pressed f … n v`: a path of horizontal, vertical and (1,1)-diagonal steps leads from some node to `n`, and `v` is the value at its start plus, for each
step, the gradation times its length and `tol`. -/
inductive Pressed (f : List K) (d0 d1 d2 : Nat) (elen elend g tol : K) : Nat → K → Prop
  | start {n : Nat} {x : K} : f[n]? = some x → Pressed f d0 d1 d2 elen elend g tol n x
  | orth {n m : Nat} {v : K} : Pressed f d0 d1 d2 elen elend g tol n v → Orthogonal d0 d1 d2 n m → Pressed f d0 d1 d2 elen elend g tol m (v + (elen * g + tol))
  | diag {n m : Nat} {v : K} : Pressed f d0 d1 d2 elen elend g tol n v → MainDiagonal d0 d1 d2 n m → Pressed f d0 d1 d2 elen elend g tol m (v + (elend * g + tol))

/-- `τ` takes neighbours of the second lattice to neighbours of the first. -/
def KeepsNeighbours (d0 d1 d2 e0 e1 e2 : Nat) (τ : Nat → Nat) : Prop :=
  (∀ a b, Orthogonal e0 e1 e2 a b → Orthogonal d0 d1 d2 (τ a) (τ b)) ∧
    ∀ a b, MainDiagonal e0 e1 e2 a b ∨ AntiDiagonal e0 e1 e2 a b → MainDiagonal d0 d1 d2 (τ a) (τ b) ∨ AntiDiagonal d0 d1 d2 (τ a) (τ b)

/-- The node `(i, j)` of a lattice with `d0` rows mirrored to `(d0 - 1 - i, j)`. -/
def mirrored (d0 n : Nat) : Nat := (d0 - 1 - n % d0) + d0 * (n / d0)

/-- The node `(i, j)` of a layer with `d0` rows and `d1` columns as node `(j, i)` of the transposed layer. -/
def transposed (d0 d1 n : Nat) : Nat := n / d0 % d1 + d1 * (n % d0 + d0 * (n / (d0 * d1)))

end Spec
open Spec
section
variable {K : Type} [Field K] [LinearOrder K] [IsStrictOrderedRing K]

/-- **C143** (1) Every graded field that is nowhere larger than the given field is nowhere larger than the limited field, however many iterations are
allowed; `τ` may be a change of the numbering. -/
theorem C143_largest {sq2 sqEps : K} {d0 d1 d2 e0 e1 e2 : Nat} {elen g : K} {imax : Nat} {f out h : List K} (hl : f.length = e0 * e1 * e2) (hs2 : 1 ≤ sq2) (hse : 0 ≤ sqEps)
    (helen : 0 ≤ elen) (hg : 0 ≤ g) (hpos : ∀ x ∈ f, 0 ≤ x) (hrun : gradientLimit sq2 sqEps e0 e1 e2 elen g imax f = some out) {τ : Nat → Nat}
    (hτ : KeepsNeighbours d0 d1 d2 e0 e1 e2 τ) (hgr : Graded h d0 d1 d2 elen (elen * sq2) g 0)
    (hle : ∀ n x y, h[τ n]? = some x → f[n]? = some y → x ≤ y) {n : Nat} {x y : K} (hx : h[τ n]? = some x) (hy : out[n]? = some y) : x ≤ y := by
  have hlen : out.length = f.length := by
    have hne : f ≠ [] := by
      rintro rfl
      simp [gradientLimit, gradientLimitRun, minElement] at hrun
    obtain ⟨o, h1, h2⟩ := C26_limiter_total sq2 sqEps elen g imax hl hne
    rw [hrun, Option.some.injEq] at h1
    rw [h1, h2]
  have hn : n < f.length := by rw [← hlen]; exact (List.getElem?_eq_some_iff.1 hy).1
  obtain ⟨-, ⟨v, hv, hvy⟩, -⟩ := C23_limiter_lowers hl hs2 hse helen hg hpos hrun (List.getElem?_eq_getElem hn) hy
  refine le_trans ?_ hvy
  clear hvy hy hn
  have within : ∀ {d : K} {a b : Nat} {v x : K}, EntriesWithin h (d + 0) a b → (∀ y, h[a]? = some y → y ≤ v) → h[b]? = some x → x ≤ v + d := by
    intro d a b v x hw hv hx
    obtain ⟨p, q, hp, hq, hpq⟩ := hw
    rw [hx, Option.some.injEq] at hq
    subst hq
    have := hv p hp
    have := (abs_le.1 hpq).1
    linarith
  induction hv generalizing x with
  | start h1 => exact hle _ _ _ hx h1
  | orth _ ho ih => exact within (hgr.1 _ _ (hτ.1 _ _ ho)) (fun y hy => ih hy) hx
  | diag _ ho ih => exact within (hgr.2 _ _ (hτ.2 _ _ ho)) (fun y hy => ih hy) hx

/-- **C143** (2) After convergence the limited field is nowhere larger than the given values continued along any path of horizontal, vertical and
(1,1)-diagonal steps, with the tolerance of the limiter for each step. -/
theorem C143_paths {sq2 sqEps : K} {d0 d1 d2 : Nat} {elen g : K} {imax : Nat} {f out : List K} (hl : f.length = d0 * d1 * d2) (hs2 : 1 ≤ sq2) (hse : 0 ≤ sqEps)
    (helen : 0 ≤ elen) (hg : 0 ≤ g) (hpos : ∀ x ∈ f, 0 ≤ x) (hrun : gradientLimitRun sq2 sqEps d0 d1 d2 elen g imax f = some (out, true)) {m : K} (hm : m ∈ f)
    (hml : ∀ x ∈ f, m ≤ x) {n : Nat} {v y : K} (hv : Pressed f d0 d1 d2 elen (elen * sq2) g (m * sqEps) n v) (hy : out[n]? = some y) : y ≤ v := by
  obtain ⟨h1, h2⟩ := C24_converged_graded_partial hl hrun hm hml
  have hlim : gradientLimit sq2 sqEps d0 d1 d2 elen g imax f = some out := by simp [gradientLimit, hrun]
  have within : ∀ {d : K} {a b : Nat} {v x : K}, EntriesWithin out d a b → (∀ y, out[a]? = some y → y ≤ v) → out[b]? = some x → x ≤ v + d := by
    intro d a b v x hw hv hx
    obtain ⟨p, q, hp, hq, hpq⟩ := hw
    rw [hx, Option.some.injEq] at hq
    subst hq
    have := hv p hp
    have := (abs_le.1 hpq).1
    linarith
  induction hv generalizing y with
  | start hx => exact (C23_limiter_lowers hl hs2 hse helen hg hpos hlim hx hy).1
  | orth _ ho ih => exact within (h1 _ _ ho) (fun y hy => ih hy) hy
  | diag _ ho ih => exact within (h2 _ _ ho) (fun y hy => ih hy) hy

/-- **C143** (3) Comparison: a converged limited field is nowhere larger than the limited field of a larger field, also after mirroring or transposing, if the
gradation of the second is larger by the factor `2 / sq2` and the tolerance. -/
theorem C143_comparison {sq2 sqEps : K} {d0 d1 d2 e0 e1 e2 : Nat} {elen g g' : K} {imax imax' : Nat} {f out f' out' : List K} (hl : f.length = d0 * d1 * d2)
    (hl' : f'.length = e0 * e1 * e2) (hs2 : 1 ≤ sq2) (hs2' : sq2 ≤ 2) (hse : 0 ≤ sqEps) (helen : 0 < elen) (hg : 0 ≤ g) (hpos : ∀ x ∈ f, 0 ≤ x) (hpos' : ∀ x ∈ f', 0 ≤ x)
    (hrun : gradientLimitRun sq2 sqEps d0 d1 d2 elen g imax f = some (out, true)) (hrun' : gradientLimit sq2 sqEps e0 e1 e2 elen g' imax' f' = some out')
    {m : K} (hm : m ∈ f) (hml : ∀ x ∈ f, m ≤ x) (hgg : 2 * (g + m * sqEps / elen) ≤ g' * sq2) {τ : Nat → Nat} (hτ : KeepsNeighbours d0 d1 d2 e0 e1 e2 τ)
    (hle : ∀ n x y, f[τ n]? = some x → f'[n]? = some y → x ≤ y) {n : Nat} {x y : K} (hx : out[τ n]? = some x) (hy : out'[n]? = some y) : x ≤ y := by
  have hm0 : 0 ≤ m := hpos m hm
  have ht : 0 ≤ m * sqEps := mul_nonneg hm0 hse
  have htl : elen * (m * sqEps / elen) = m * sqEps := mul_div_cancel₀ _ helen.ne'
  have hd : 0 ≤ m * sqEps / elen := div_nonneg ht helen.le
  have hg1 : g + m * sqEps / elen ≤ g' := by
    by_contra hc
    push Not at hc
    have : g' * sq2 < 2 * (g + m * sqEps / elen) := by nlinarith
    linarith
  have hlim : gradientLimit sq2 sqEps d0 d1 d2 elen g imax f = some out := by simp [gradientLimit, hrun]
  have hne : f ≠ [] := List.ne_nil_of_mem hm
  have hlen : out.length = f.length := by
    obtain ⟨o, h1, h2⟩ := C26_limiter_total sq2 sqEps elen g imax hl hne
    rw [hlim, Option.some.injEq] at h1
    rw [h1, h2]
  obtain ⟨h1, h2⟩ := C24_converged_graded_partial hl hrun hm hml
  refine C143_largest hl' hs2 hse helen.le (by linarith) hpos' hrun' hτ ⟨fun a b hab => ?_, fun a b hab => ?_⟩ (fun k u v hu hv => ?_) hx hy
  · obtain ⟨p, q, hp, hq, hpq⟩ := h1 a b hab
    refine ⟨p, q, hp, hq, hpq.trans ?_⟩
    nlinarith
  · have key : elen * (g + m * sqEps / elen) * 2 ≤ elen * sq2 * g' := by nlinarith
    rcases hab with hab | hab
    · obtain ⟨p, q, hp, hq, hpq⟩ := h2 a b hab
      refine ⟨p, q, hp, hq, hpq.trans ?_⟩
      have : elen * sq2 * (g + m * sqEps / elen) ≤ elen * sq2 * g' := mul_le_mul_of_nonneg_left hg1 (by positivity)
      have e : elen * sq2 * (g + m * sqEps / elen) = elen * sq2 * g + sq2 * (m * sqEps) := by rw [mul_add]; congr 1; rw [mul_comm elen sq2, mul_assoc, htl]
      have : m * sqEps ≤ sq2 * (m * sqEps) := le_mul_of_one_le_left ht hs2
      linarith
    · obtain ⟨p, q, hp, hq, hpq⟩ := C24_antidiagonal_bound_partial hl hrun hm hml hab
      refine ⟨p, q, hp, hq, hpq.trans ?_⟩
      have e : elen * (g + m * sqEps / elen) * 2 = 2 * (elen * g + m * sqEps) := by rw [mul_add, htl]; ring
      linarith
  · have hk : τ k < f.length := by rw [← hlen]; exact (List.getElem?_eq_some_iff.1 hu).1
    have hfk := List.getElem?_eq_getElem hk
    exact ((C23_limiter_lowers hl hs2 hse helen.le hg hpos hlim hfk hu).1).trans (hle k _ _ hfk hv)

/-! ## Mirroring and transposing -/

theorem node_parts {d0 d1 i j k : Nat} (hi : i < d0) : nodeIndex d0 d1 i j k % d0 = i ∧ nodeIndex d0 d1 i j k / d0 = j + d1 * k := by
  unfold nodeIndex
  have h0 : 0 < d0 := by omega
  exact ⟨by rw [Nat.add_mul_mod_self_left, Nat.mod_eq_of_lt hi], by rw [Nat.add_mul_div_left _ _ h0, Nat.div_eq_of_lt hi, Nat.zero_add]⟩

theorem mirrored_node {d0 d1 i j k : Nat} (hi : i < d0) : mirrored d0 (nodeIndex d0 d1 i j k) = nodeIndex d0 d1 (d0 - 1 - i) j k := by
  obtain ⟨h1, h2⟩ := node_parts (d1 := d1) (j := j) (k := k) hi
  rw [mirrored, h1, h2, nodeIndex]

theorem transposed_node {d0 d1 i j k : Nat} (hi : i < d0) (hj : j < d1) : transposed d0 d1 (nodeIndex d0 d1 i j k) = nodeIndex d1 d0 j i k := by
  obtain ⟨h1, h2⟩ := node_parts (d1 := d1) (j := j) (k := k) hi
  have h0 : 0 < d1 := by omega
  rw [transposed, ← Nat.div_div_eq_div_mul, h1, h2, Nat.add_mul_mod_self_left, Nat.mod_eq_of_lt hj, Nat.add_mul_div_left _ _ h0, Nat.div_eq_of_lt hj, Nat.zero_add, nodeIndex]

/-- **C143** (4) Mirroring and transposing take neighbours to neighbours. -/
theorem C143_symmetries (d0 d1 d2 : Nat) : KeepsNeighbours d0 d1 d2 d0 d1 d2 (mirrored d0) ∧ KeepsNeighbours d0 d1 d2 d1 d0 d2 (transposed d1 d0) ∧
    KeepsNeighbours d0 d1 d2 d0 d1 d2 id := by
  refine ⟨⟨?_, ?_⟩, ⟨?_, ?_⟩, ⟨fun _ _ h => h, fun _ _ h => h⟩⟩
  · rintro a b ⟨i, j, i', j', k, hi, hj, hi', hj', hk, rfl, rfl, h⟩
    refine ⟨d0 - 1 - i, j, d0 - 1 - i', j', k, by omega, hj, by omega, hj', hk, mirrored_node hi, mirrored_node hi', by omega⟩
  · rintro a b (⟨i, j, i', j', k, hi, hj, hi', hj', hk, rfl, rfl, h⟩ | ⟨i, j, i', j', k, hi, hj, hi', hj', hk, rfl, rfl, h⟩)
    · exact .inr ⟨d0 - 1 - i, j, d0 - 1 - i', j', k, by omega, hj, by omega, hj', hk, mirrored_node hi, mirrored_node hi', by omega⟩
    · exact .inl ⟨d0 - 1 - i, j, d0 - 1 - i', j', k, by omega, hj, by omega, hj', hk, mirrored_node hi, mirrored_node hi', by omega⟩
  · rintro a b ⟨i, j, i', j', k, hi, hj, hi', hj', hk, rfl, rfl, h⟩
    refine ⟨j, i, j', i', k, hj, hi, hj', hi', hk, transposed_node hi hj, transposed_node hi' hj', by omega⟩
  · rintro a b (⟨i, j, i', j', k, hi, hj, hi', hj', hk, rfl, rfl, h⟩ | ⟨i, j, i', j', k, hi, hj, hi', hj', hk, rfl, rfl, h⟩)
    · exact .inl ⟨j, i, j', i', k, hj, hi, hj', hi', hk, transposed_node hi hj, transposed_node hi' hj', by omega⟩
    · exact .inr ⟨j, i, j', i', k, hj, hi, hj', hi', hk, transposed_node hi hj, transposed_node hi' hj', by omega⟩

/-! ## Change of unit -/

theorem relax_scale {c : K} (hc : 0 < c) {g ftol : K} {iter : Int} {S : LimState K} {n1 n2 : Nat} {len : K} :
    relax g (c * ftol) iter ⟨S.f.map (c * ·), S.act⟩ n1 n2 (c * len) = (relax g ftol iter S n1 n2 len).map fun S => ⟨S.f.map (c * ·), S.act⟩ := by
  unfold relax
  simp only [List.getElem?_map]
  rcases S.f[n1]? with _ | a <;> rcases S.f[n2]? with _ | b <;> simp only [Option.map_none, Option.map_some]
  have e1 : c * b + c * len * g = c * (b + len * g) := by ring
  have e2 : c * a + c * len * g = c * (a + len * g) := by ring
  have e3 : c * (b + len * g) + c * ftol = c * (b + len * g + ftol) := by ring
  have e4 : c * (a + len * g) + c * ftol = c * (a + len * g + ftol) := by ring
  simp only [e1, e2, e3, e4, mul_lt_mul_iff_right₀ hc]
  split_ifs <;> simp [List.map_set]

theorem relaxAll_scale {c : K} (hc : 0 < c) {elen elend g ftol : K} {iter : Int} {n : Nat} : ∀ (l : List (Nat × Bool)) (S : LimState K),
    relaxAll (c * elen) (c * elend) g (c * ftol) iter n l ⟨S.f.map (c * ·), S.act⟩ = (relaxAll elen elend g ftol iter n l S).map fun S => ⟨S.f.map (c * ·), S.act⟩
  | [], S => rfl
  | (m, diag) :: r, S => by
    unfold relaxAll
    rw [show (if diag then c * elend else c * elen) = c * (if diag then elend else elen) by split_ifs <;> rfl, relax_scale hc]
    cases relax g ftol iter S n m (if diag = true then elend else elen) with
    | none => rfl
    | some S' => exact relaxAll_scale hc r S'

theorem sweep_scale {c : K} (hc : 0 < c) {d0 d1 : Nat} {elen elend g ftol : K} {iter : Int} : ∀ (l : List Nat) (S : LimState K),
    sweep d0 d1 (c * elen) (c * elend) g (c * ftol) iter l ⟨S.f.map (c * ·), S.act⟩ = (sweep d0 d1 elen elend g ftol iter l S).map fun S => ⟨S.f.map (c * ·), S.act⟩
  | [], S => rfl
  | n :: r, S => by
    unfold sweep
    rw [relaxAll_scale hc]
    cases relaxAll elen elend g ftol iter n (neighbours d0 d1 n) S with
    | none => rfl
    | some S' => exact sweep_scale hc r S'

theorem limitLoop_scale {c : K} (hc : 0 < c) {d0 d1 : Nat} {elen elend g ftol : K} : ∀ (fuel iter : Nat) (S : LimState K),
    limitLoop d0 d1 (c * elen) (c * elend) g (c * ftol) fuel iter ⟨S.f.map (c * ·), S.act⟩ =
      (limitLoop d0 d1 elen elend g ftol fuel iter S).map fun r => (⟨r.1.f.map (c * ·), r.1.act⟩, r.2)
  | 0, _, S => rfl
  | fuel + 1, iter, S => by
    unfold limitLoop
    dsimp only
    split
    · rfl
    · rw [sweep_scale hc]
      split
      · rename_i h
        rw [Option.map_eq_none_iff] at h
        simp [h]
      · rename_i S' h
        obtain ⟨S'', h1, rfl⟩ := Option.map_eq_some_iff.1 h
        rw [h1]
        exact limitLoop_scale hc fuel (iter + 1) S''

/-- **C143** (5) Change of unit: sizes and spacing in another unit give the limited sizes in that unit, in as many iterations. -/
theorem C143_unit {c : K} (hc : 0 < c) (sq2 sqEps : K) (d0 d1 d2 : Nat) (elen g : K) (imax : Nat) (f : List K) :
    gradientLimitRun sq2 sqEps d0 d1 d2 (c * elen) g imax (f.map (c * ·)) = (gradientLimitRun sq2 sqEps d0 d1 d2 elen g imax f).map fun r => (r.1.map (c * ·), r.2) := by
  have hmin : ∀ (l : List K) (x : K), (l.map (c * ·)).foldl min (c * x) = c * l.foldl min x := by
    intro l
    induction l with
    | nil => intro x; rfl
    | cons y l ih =>
      intro x
      rw [List.map_cons, List.foldl_cons, ← mul_min_of_nonneg _ _ hc.le, ih, List.foldl_cons]
  unfold gradientLimitRun
  cases f with
  | nil => rfl
  | cons x l =>
    simp only [List.map_cons, minElement, hmin]
    have := limitLoop_scale hc (d0 := d0) (d1 := d1) (elen := elen) (elend := elen * sq2) (g := g) (ftol := l.foldl min x * sqEps) imax 0
      ⟨x :: l, List.replicate (d0 * d1 * d2) (-1)⟩
    rw [show c * elen * sq2 = c * (elen * sq2) by ring, show c * l.foldl min x * sqEps = c * (l.foldl min x * sqEps) by ring]
    simp only [List.map_cons] at this
    rw [this]
    cases limitLoop d0 d1 elen (elen * sq2) g (l.foldl min x * sqEps) imax 0 ⟨x :: l, List.replicate (d0 * d1 * d2) (-1)⟩ with
    | none => rfl
    | some r => rfl

end

/-- **C143** (6) Mirroring does change the result: a small value at node (2, 2) of a 3×3 field is felt at (0, 0) along the diagonal, one at node (0, 2) is not felt
at (2, 0). -/
theorem C143_mirror_matters : ∃ out out' : List ℚ, gradientLimitRun sq2D sqEpsD 3 3 1 1 1 10000 cornerField = some (out, true) ∧
    gradientLimitRun sq2D sqEpsD 3 3 1 1 1 10000 ((List.range 9).map fun n => cornerField.getD (mirrored 3 n) 0) = some (out', true) ∧
    out' ≠ (List.range 9).map fun n => out.getD (mirrored 3 n) 0 :=
  ⟨cornerLimited, [1 + 2 * sq2D, 2 + sq2D, 3, 2 + sq2D, 1 + sq2D, 2, 3, 2, 1], by decide +kernel, by decide +kernel, by decide +kernel⟩

/-! ## Examples -/

theorem compare_ex_graded : Graded ([1, 2] : List ℚ) 1 2 1 1 (1 * sq2D) 1 0 := by
  constructor
  · rintro n m ⟨i, j, i', j', k, hi, hj, hi', hj', hk, rfl, rfl, h⟩
    obtain rfl : i = 0 := by omega
    obtain rfl : i' = 0 := by omega
    obtain rfl : k = 0 := by omega
    obtain ⟨rfl, rfl⟩ | ⟨rfl, rfl⟩ : (j = 0 ∧ j' = 1) ∨ (j = 1 ∧ j' = 0) := by omega
    · exact ⟨1, 2, rfl, rfl, by norm_num⟩
    · exact ⟨2, 1, rfl, rfl, by norm_num⟩
  · rintro n m (⟨i, j, i', j', k, hi, hj, hi', hj', hk, rfl, rfl, h⟩ | ⟨i, j, i', j', k, hi, hj, hi', hj', hk, rfl, rfl, h⟩) <;> omega

/-- (1) The field 1, 2 is graded and below 1, 5, so the limited field is at least 2 at the second node. -/
example {y : ℚ} {out : List ℚ} (h : gradientLimit sq2D sqEpsD 1 2 1 1 1 10 [1, 5] = some out) (hy : out[1]? = some y) : 2 ≤ y :=
  C143_largest (f := [1, 5]) (h := [1, 2]) (n := 1) (d0 := 1) (d1 := 2) (d2 := 1) rfl (by decide +kernel) (by decide +kernel) (by norm_num) (by norm_num)
    (by decide +kernel) h (C143_symmetries 1 2 1).2.2 compare_ex_graded (by
      rintro (_ | _ | n) x y hx hy
      · simp at hx hy; linarith
      · simp at hx hy; linarith
      · simp at hx) rfl hy
example : gradientLimit sq2D sqEpsD 1 2 1 1 1 10 [1, 5] = some [1, 2] := by decide +kernel

/-- (2) Two vertical steps from node 6 to node 0 of the 3×3 field. -/
example : Pressed cornerField 3 3 1 1 (1 * sq2D) 1 (1 * sqEpsD) 0 (1 + (1 * 1 + 1 * sqEpsD) + (1 * 1 + 1 * sqEpsD)) :=
  .orth (n := 3) (.orth (n := 6) (.start rfl) ⟨0, 2, 0, 1, 0, by decide, by decide, by decide, by decide, by decide, rfl, rfl, by decide⟩)
    ⟨0, 1, 0, 0, 0, by decide, by decide, by decide, by decide, by decide, rfl, rfl, by decide⟩
example {v : ℚ} (h : Pressed cornerField 3 3 1 1 (1 * sq2D) 1 (1 * sqEpsD) 0 v) : 3 ≤ v :=
  C143_paths (out := cornerLimited) (n := 0) (imax := 10000) rfl (by decide +kernel) (by decide +kernel) (by norm_num) (by norm_num) (by decide +kernel)
    (by decide +kernel) (m := 1) (by decide +kernel) (by decide +kernel) h rfl

/-- (3) The limited field compared with that of the mirrored field and gradation 2 instead of 1. -/
example {n : Nat} {x y : ℚ} {out' : List ℚ}
    (h : gradientLimit sq2D sqEpsD 3 3 1 1 2 10000 ((List.range 9).map fun n => cornerField.getD (mirrored 3 n) 0) = some out')
    (hx : cornerLimited[mirrored 3 n]? = some x) (hy : out'[n]? = some y) : x ≤ y :=
  C143_comparison (f := cornerField) (imax := 10000) (d0 := 3) (d1 := 3) (d2 := 1) (g := 1) rfl (by simp) (by decide +kernel) (by decide +kernel) (by decide +kernel)
    (by norm_num) (by norm_num) (by decide +kernel) (by decide +kernel) (by decide +kernel) h (m := 1) (by decide +kernel) (by decide +kernel) (by decide +kernel)
    (C143_symmetries 3 3 1).1 (by
      intro n x y hx hy
      obtain ⟨hn, rfl⟩ := List.getElem?_eq_some_iff.1 hy
      rw [List.getElem_map, List.getElem_range, List.getD_eq_getElem?_getD, hx]
      rfl) hx hy
example : (gradientLimit sq2D sqEpsD 3 3 1 1 2 10000 ((List.range 9).map fun n => cornerField.getD (mirrored 3 n) 0)).isSome := by decide +kernel

/-- (4) Nodes 1 and 5 of a 2×3 layer are (1, 0) and (1, 2); mirrored 0 and 4, transposed 3 and 5. -/
example : mirrored 2 1 = 0 ∧ mirrored 2 5 = 4 ∧ transposed 2 3 1 = 3 ∧ transposed 2 3 5 = 5 := by decide

/-- (5) Kilometres and metres. -/
example : gradientLimitRun sq2D sqEpsD 2 2 1 (1000 * 1) 1 10 ([1, 5, 5, 5].map ((1000 : ℚ) * ·)) = some ([1000, 2000, 2000, 1000 * (1 + sq2D)], true) := by
  rw [C143_unit (by norm_num)]
  decide +kernel

end OM
