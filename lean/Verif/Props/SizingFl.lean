import Verif.Model.SizingFl
import Verif.Lemmas.Fac
import Verif.Props.GradLimitFl
import Verif.Props.GridFl
import Mathlib.Analysis.Real.Sqrt
import Mathlib.Tactic
/-!
# C128: sizes and their evaluation in rounded arithmetic
-/
set_option linter.unusedSectionVars false

namespace OM
open Spec

namespace Spec
variable {K : Type} [Field K] [LinearOrder K]

/-- The number that linear interpolation in a cell gives without rounding, at the fractions `s` and `t`. -/
def blend (s t v00 v01 v10 v11 : K) : K :=
  (1 - s) * ((1 - t) * v00 + t * v01) + s * ((1 - t) * v10 + t * v11)

/-- The axis has its nodes in order. -/
def InOrder (x : Nat → K) (n : Nat) : Prop := ∀ i, i < n → x i ≤ x (i + 1)

/-- The point is inside the lattice. -/
def OnLattice (G : InterpFl K) (p : K × K) : Prop :=
  (G.x 0 ≤ p.1 ∧ p.1 ≤ G.x (G.n + 1)) ∧ (G.y 0 ≤ p.2 ∧ p.2 ≤ G.y (G.m + 1))

end Spec

section
variable {K : Type} [Field K] [LinearOrder K] [IsStrictOrderedRing K]

theorem filter_range_prefix (p : Nat → Bool) (hp : ∀ k, p (k + 1) = true → p k = true) (n k : Nat) (hk : k < n) :
    p k = true ↔ k < ((List.range n).filter p).length := by
  have down : ∀ a b, a ≤ b → p b = true → p a = true := by
    intro a b hab
    induction hab with
    | refl => exact id
    | step _ ih => exact fun h => ih (hp _ h)
  induction n with
  | zero => omega
  | succ n ih =>
    rw [List.range_succ, List.filter_append, List.length_append]
    have hle : ((List.range n).filter p).length ≤ n := by
      simpa using List.length_filter_le p (List.range n)
    by_cases hn : p n = true
    · have hall : (List.range n).filter p = List.range n := by
        rw [List.filter_eq_self]
        intro a ha
        exact down a n (List.mem_range.1 ha).le hn
      simp only [hall, List.length_range, List.filter_cons, hn, if_true, List.filter_nil, List.length_singleton]
      exact ⟨fun _ => hk, fun _ => down k n (by omega) hn⟩
    · have hn' : p n = false := by simpa using hn
      simp only [List.filter_cons, hn', List.filter_nil, List.length_nil, Nat.add_zero]
      rcases Nat.lt_succ_iff_lt_or_eq.1 hk with h | rfl
      · simpa using ih h
      · simp [hn', hle]

theorem InOrder_le {x : Nat → K} {n : Nat} (h : InOrder x n) {i j : Nat} (hij : i ≤ j) (hj : j ≤ n) : x i ≤ x j := by
  induction hij with
  | refl => exact le_rfl
  | @step m _ ih => exact (ih (by omega)).trans (h m (by omega))

theorem intervalFl_le (x : Nat → K) (n : Nat) (q : K) : intervalFl x n q ≤ n := by
  unfold intervalFl
  simpa using List.length_filter_le (fun i => decide (x (i + 1) ≤ q)) (List.range n)

theorem intervalFl_iff {x : Nat → K} {n : Nat} (h : InOrder x (n + 1)) (q : K) (k : Nat) (hk : k < n) :
    x (k + 1) ≤ q ↔ k < intervalFl x n q := by
  unfold intervalFl
  -- beyond the nodes the predicate is replaced by one that stays closed downwards
  have e : (List.range n).filter (fun i => decide (x (i + 1) ≤ q)) = (List.range n).filter (fun i => decide (i < n ∧ x (i + 1) ≤ q)) := by
    apply List.filter_congr
    intro a ha
    simp [List.mem_range.1 ha]
  rw [e, ← filter_range_prefix (fun i => decide (i < n ∧ x (i + 1) ≤ q)) _ n k hk]
  · simp [hk]
  · intro i hi
    simp only [decide_eq_true_eq] at hi ⊢
    exact ⟨by omega, (h (i + 1) (by omega)).trans hi.2⟩

theorem intervalFl_cell {x : Nat → K} {n : Nat} (h : InOrder x (n + 1)) {q : K} (h0 : x 0 ≤ q) (h1 : q ≤ x (n + 1)) :
    x (intervalFl x n q) ≤ q ∧ q ≤ x (intervalFl x n q + 1) := by
  have hle := intervalFl_le x n q
  constructor
  · rcases Nat.eq_zero_or_pos (intervalFl x n q) with e | e
    · rw [e]; exact h0
    · have := (intervalFl_iff h q (intervalFl x n q - 1) (by omega)).2 (by omega)
      rwa [Nat.sub_add_cancel e] at this
  · rcases hle.eq_or_lt with e | e
    · rw [e]; exact h1
    · by_contra hc
      have := (intervalFl_iff h q (intervalFl x n q) e).1 (not_le.1 hc).le
      omega

theorem fracFl_mem {rnd : K → K} (hR : Rounding rnd) (h1 : rnd 1 = 1) {a b q : K} (ha : a ≤ q) (hb : q ≤ b) :
    0 ≤ fracFl rnd a b q ∧ fracFl rnd a b q ≤ 1 := by
  unfold fracFl
  split_ifs with hz
  · exact ⟨le_rfl, zero_le_one⟩
  · have hN : 0 ≤ rnd (q - a) := by rw [← hR.zero]; exact hR.mono (by linarith)
    have hND : rnd (q - a) ≤ rnd (b - a) := hR.mono (by linarith)
    have hD : 0 < rnd (b - a) := lt_of_le_of_ne (hN.trans hND) (Ne.symm hz)
    constructor
    · rw [← hR.zero]; exact hR.mono (div_nonneg hN hD.le)
    · rw [← h1]; exact hR.mono ((div_le_one hD).2 (by rw [h1] at *; exact hND))

/-- A product of a value and two weights, each computed with rounding. -/
theorem rnd_term {rnd : K → K} {u : K} (hr : RelError rnd u) (h0 : 0 ≤ u) (hu : u < 1) (v w z f g : K) {n m : Nat} (hf : Fac u n f) (hg : Fac u m g) :
    ∃ r, Fac u (n + m + 2) r ∧ rnd (rnd (v * (w * f)) * (z * g)) = v * w * z * r := by
  obtain ⟨r1, hr1, e1⟩ := rnd_fac hr h0 hu (v * (w * f))
  obtain ⟨r2, hr2, e2⟩ := rnd_fac hr h0 hu (rnd (v * (w * f)) * (z * g))
  refine ⟨f * r1 * g * r2, ?_, ?_⟩
  · exact ((((hf.mul hu hr1).mul hu hg).mul hu hr2)).mono h0 hu (by omega)
  · rw [e2, e1]; ring

theorem rnd_sum {rnd : K → K} {u : K} (hr : RelError rnd u) (h0 : 0 ≤ u) (hu : u < 1) {a b f g : K} {n m : Nat} (hf : Fac u n f) (hg : Fac u m g)
    (hmn : m ≤ n) (ha : 0 ≤ a) (hb : 0 ≤ b) : ∃ r, Fac u (n + 1) r ∧ rnd (a * f + b * g) = (a + b) * r := by
  obtain ⟨r, h, e⟩ := Fac.sum h0 hu hf (hg.mono h0 hu hmn) ha hb
  obtain ⟨r', h', e'⟩ := rnd_fac hr h0 hu (a * f + b * g)
  exact ⟨r * r', h.mul hu h', by rw [e', e]; ring⟩

theorem bilinearFl_fac {rnd : K → K} {u : K} (hr : RelError rnd u) (h0 : 0 ≤ u) (hu : u < 1) {s t v00 v01 v10 v11 : K}
    (hs : 0 ≤ s ∧ s ≤ 1) (ht : 0 ≤ t ∧ t ≤ 1) (h00 : 0 ≤ v00) (h01 : 0 ≤ v01) (h10 : 0 ≤ v10) (h11 : 0 ≤ v11) :
    ∃ r, Fac u 7 r ∧ bilinearFl rnd s t v00 v01 v10 v11 = blend s t v00 v01 v10 v11 * r := by
  have hs' : 0 ≤ 1 - s := by linarith [hs.2]
  have ht' : 0 ≤ 1 - t := by linarith [ht.2]
  obtain ⟨f, hf, ef⟩ := rnd_fac hr h0 hu (1 - s)
  obtain ⟨g, hg, eg⟩ := rnd_fac hr h0 hu (1 - t)
  have one := fac_one h0 hu 0
  obtain ⟨a, ha, ea⟩ := rnd_term hr h0 hu v00 (1 - s) (1 - t) f g hf hg
  obtain ⟨b, hb, eb⟩ := rnd_term hr h0 hu v01 (1 - s) t f 1 hf one
  obtain ⟨c, hc, ec⟩ := rnd_term hr h0 hu v10 s (1 - t) 1 g one hg
  obtain ⟨d, hd, ed⟩ := rnd_term hr h0 hu v11 s t 1 1 one one
  rw [mul_one] at eb ec ed
  rw [mul_one] at ed
  have pa : 0 ≤ v00 * (1 - s) * (1 - t) := mul_nonneg (mul_nonneg h00 hs') ht'
  have pb : 0 ≤ v01 * (1 - s) * t := mul_nonneg (mul_nonneg h01 hs') ht.1
  have pc : 0 ≤ v10 * s * (1 - t) := mul_nonneg (mul_nonneg h10 hs.1) ht'
  have pd : 0 ≤ v11 * s * t := mul_nonneg (mul_nonneg h11 hs.1) ht.1
  obtain ⟨r1, hr1, e1⟩ := rnd_sum hr h0 hu ha hb (by omega) pa pb
  obtain ⟨r2, hr2, e2⟩ := rnd_sum hr h0 hu hr1 hc (by omega) (add_nonneg pa pb) pc
  obtain ⟨r3, hr3, e3⟩ := rnd_sum hr h0 hu hr2 hd (by omega) (add_nonneg (add_nonneg pa pb) pc) pd
  refine ⟨r3, hr3.mono h0 hu (by omega), ?_⟩
  simp only [bilinearFl, ef, eg, ea, eb, ec, ed, e1, e2, e3, blend]
  ring

theorem blend_mem {s t v00 v01 v10 v11 lo hi : K} (hs : 0 ≤ s ∧ s ≤ 1) (ht : 0 ≤ t ∧ t ≤ 1) (h00 : lo ≤ v00 ∧ v00 ≤ hi) (h01 : lo ≤ v01 ∧ v01 ≤ hi)
    (h10 : lo ≤ v10 ∧ v10 ≤ hi) (h11 : lo ≤ v11 ∧ v11 ≤ hi) :
    lo ≤ blend s t v00 v01 v10 v11 ∧ blend s t v00 v01 v10 v11 ≤ hi := by
  have key : ∀ {w a b : K}, 0 ≤ w ∧ w ≤ 1 → lo ≤ a ∧ a ≤ hi → lo ≤ b ∧ b ≤ hi → lo ≤ (1 - w) * a + w * b ∧ (1 - w) * a + w * b ≤ hi := by
    intro w a b hw ha hb
    constructor
    · nlinarith [mul_nonneg (sub_nonneg.2 hw.2) (sub_nonneg.2 ha.1), mul_nonneg hw.1 (sub_nonneg.2 hb.1)]
    · nlinarith [mul_nonneg (sub_nonneg.2 hw.2) (sub_nonneg.2 ha.2), mul_nonneg hw.1 (sub_nonneg.2 hb.2)]
  exact key hs (key ht h00 h01) (key ht h10 h11)

/-- Inside the lattice the size is that of the cell that contains the point. -/
theorem InterpFl.eval_cell {G : InterpFl K} (rnd : K → K) (hx : InOrder G.x (G.n + 1)) (hy : InOrder G.y (G.m + 1)) {p : K × K} (hp : OnLattice G p) :
    ∃ i j, i ≤ G.n ∧ j ≤ G.m ∧ (G.x i ≤ p.1 ∧ p.1 ≤ G.x (i + 1)) ∧ (G.y j ≤ p.2 ∧ p.2 ≤ G.y (j + 1)) ∧
      G.eval rnd p = bilinearFl rnd (fracFl rnd (G.x i) (G.x (i + 1)) p.1) (fracFl rnd (G.y j) (G.y (j + 1)) p.2) (G.v i j) (G.v i (j + 1)) (G.v (i + 1) j)
        (G.v (i + 1) (j + 1)) := by
  refine ⟨intervalFl G.x G.n p.1, intervalFl G.y G.m p.2, intervalFl_le _ _ _, intervalFl_le _ _ _, intervalFl_cell hx hp.1.1 hp.1.2,
    intervalFl_cell hy hp.2.1 hp.2.2, ?_⟩
  unfold InterpFl.eval
  cases G.fill with
  | none => rfl
  | some f => simp only []; rw [if_pos ⟨hp.1.1, hp.1.2, hp.2.1, hp.2.2⟩]

/-- Between the nodes the size leaves the range of the sizes at the nodes by seven roundings at most, even when nodes coincide. -/
theorem C128_range {rnd : K → K} {u : K} (hR : Rounding rnd) (h1 : rnd 1 = 1) (hr : RelError rnd u) (h0 : 0 ≤ u) (hu : u < 1) {G : InterpFl K}
    (hx : InOrder G.x (G.n + 1)) (hy : InOrder G.y (G.m + 1)) {lo hi : K} (hlo : 0 ≤ lo)
    (hv : ∀ i j, i ≤ G.n + 1 → j ≤ G.m + 1 → lo ≤ G.v i j ∧ G.v i j ≤ hi) {p : K × K} (hp : OnLattice G p) :
    lo * (1 - u) ^ 7 ≤ G.eval rnd p ∧ G.eval rnd p * (1 - u) ^ 7 ≤ hi := by
  obtain ⟨i, j, hi', hj', hpx, hpy, e⟩ := InterpFl.eval_cell rnd hx hy hp
  have a := hv i j (by omega) (by omega)
  have b := hv i (j + 1) (by omega) (by omega)
  have c := hv (i + 1) j (by omega) (by omega)
  have d := hv (i + 1) (j + 1) (by omega) (by omega)
  have hs := fracFl_mem hR h1 hpx.1 hpx.2
  have ht := fracFl_mem hR h1 hpy.1 hpy.2
  obtain ⟨r, hr7, er⟩ := bilinearFl_fac hr h0 hu hs ht (hlo.trans a.1) (hlo.trans b.1) (hlo.trans c.1) (hlo.trans d.1)
  have hb := blend_mem hs ht a b c d
  rw [e, er]
  have hb0 := hlo.trans hb.1
  constructor
  · exact mul_le_mul hb.1 hr7.1 (pow_nonneg (by linarith) 7) hb0
  · calc _ = blend _ _ _ _ _ _ * (r * (1 - u) ^ 7) := by ring
      _ ≤ blend _ _ _ _ _ _ * 1 := mul_le_mul_of_nonneg_left hr7.2 hb0
      _ ≤ hi := by rw [mul_one]; exact hb.2

theorem fracFl_start {rnd : K → K} (hR : Rounding rnd) (a b : K) : fracFl rnd a b a = 0 := by
  unfold fracFl
  split_ifs
  · rfl
  · rw [sub_self, hR.zero, zero_div, hR.zero]

theorem rnd_ne_zero {rnd : K → K} {u : K} (hr : RelError rnd u) (hu : u < 1) {z : K} (hz : z ≠ 0) : rnd z ≠ 0 := by
  intro h
  have := hr z
  rw [h, zero_sub, abs_neg] at this
  have hpos : 0 < |z| := abs_pos.2 hz
  nlinarith

theorem fracFl_end {rnd : K → K} {u : K} (h1 : rnd 1 = 1) (hr : RelError rnd u) (hu : u < 1) {a b : K} (hab : a < b) : fracFl rnd a b b = 1 := by
  have := rnd_ne_zero hr hu (sub_pos.2 hab).ne'
  unfold fracFl
  rw [if_neg this, div_self this, h1]

/-- Which interval a node is looked up in. -/
theorem intervalFl_node {x : Nat → K} {n : Nat} (h : ∀ i, i < n + 1 → x i < x (i + 1)) {k : Nat} (hk : k ≤ n + 1) :
    intervalFl x n (x k) = min k n := by
  have ho : InOrder x (n + 1) := fun i hi => (h i hi).le
  have hle := intervalFl_le x n (x k)
  have hstrict : ∀ i j, i < j → j ≤ n + 1 → x i < x j := by
    intro i j hij hj
    exact lt_of_lt_of_le (h i (by omega)) (InOrder_le ho (by omega) hj)
  have up : ∀ c, c < n → c + 1 ≤ k → c < intervalFl x n (x k) := fun c hc hck => (intervalFl_iff ho (x k) c hc).1 (InOrder_le ho hck hk)
  have dn : ∀ c, c < n → k < c + 1 → ¬ c < intervalFl x n (x k) := fun c hc hck hh =>
    absurd ((intervalFl_iff ho (x k) c hc).2 hh) (not_le.2 (hstrict k (c + 1) hck (by omega)))
  rcases Nat.lt_or_ge k n with hkn | hkn
  · have h2 := dn k hkn (by omega)
    rcases Nat.eq_zero_or_pos k with rfl | hpos
    · omega
    · have h3 := up (k - 1) (by omega) (by omega)
      omega
  · rcases Nat.eq_zero_or_pos n with rfl | hpos
    · omega
    · have h3 := up (n - 1) (by omega) (by omega)
      omega

theorem fracFl_node {rnd : K → K} {u : K} (hR : Rounding rnd) (h1 : rnd 1 = 1) (hr : RelError rnd u) (hu : u < 1) {x : Nat → K} {n : Nat}
    (h : ∀ i, i < n + 1 → x i < x (i + 1)) {k : Nat} (hk : k ≤ n + 1) :
    (k ≤ n ∧ intervalFl x n (x k) = k ∧ fracFl rnd (x k) (x (k + 1)) (x k) = 0) ∨
    (k = n + 1 ∧ intervalFl x n (x k) = n ∧ fracFl rnd (x n) (x (n + 1)) (x k) = 1) := by
  have e := intervalFl_node h hk
  rcases Nat.lt_or_ge n k with hc | hc
  · obtain rfl : k = n + 1 := by omega
    exact Or.inr ⟨rfl, by omega, fracFl_end h1 hr hu (h n (by omega))⟩
  · exact Or.inl ⟨hc, by omega, fracFl_start hR _ _⟩

/-- At the nodes of a lattice the size is the stored one, without error. -/
theorem C128_nodes {rnd : K → K} {u : K} (hR : Rounding rnd) (h1 : rnd 1 = 1) (hr : RelError rnd u) (hu : u < 1) {G : InterpFl K}
    (hx : ∀ i, i < G.n + 1 → G.x i < G.x (i + 1)) (hy : ∀ i, i < G.m + 1 → G.y i < G.y (i + 1))
    (hv : ∀ i j, i ≤ G.n + 1 → j ≤ G.m + 1 → rnd (G.v i j) = G.v i j) {i j : Nat} (hi : i ≤ G.n + 1) (hj : j ≤ G.m + 1) :
    G.eval rnd (G.x i, G.y j) = G.v i j := by
  have hxo : InOrder G.x (G.n + 1) := fun i hi => (hx i hi).le
  have hyo : InOrder G.y (G.m + 1) := fun i hi => (hy i hi).le
  have hin : G.x 0 ≤ G.x i ∧ G.x i ≤ G.x (G.n + 1) ∧ G.y 0 ≤ G.y j ∧ G.y j ≤ G.y (G.m + 1) :=
    ⟨InOrder_le hxo (Nat.zero_le i) hi, InOrder_le hxo hi le_rfl, InOrder_le hyo (Nat.zero_le j) hj, InOrder_le hyo hj le_rfl⟩
  have key : bilinearFl rnd (fracFl rnd (G.x (intervalFl G.x G.n (G.x i))) (G.x (intervalFl G.x G.n (G.x i) + 1)) (G.x i))
      (fracFl rnd (G.y (intervalFl G.y G.m (G.y j))) (G.y (intervalFl G.y G.m (G.y j) + 1)) (G.y j))
      (G.v (intervalFl G.x G.n (G.x i)) (intervalFl G.y G.m (G.y j))) (G.v (intervalFl G.x G.n (G.x i)) (intervalFl G.y G.m (G.y j) + 1))
      (G.v (intervalFl G.x G.n (G.x i) + 1) (intervalFl G.y G.m (G.y j))) (G.v (intervalFl G.x G.n (G.x i) + 1) (intervalFl G.y G.m (G.y j) + 1)) =
      G.v i j := by
    have z := hR.zero
    have hvij := hv i j hi hj
    rcases fracFl_node hR h1 hr hu hx hi with ⟨_, a, b⟩ | ⟨rfl, a, b⟩ <;> rcases fracFl_node hR h1 hr hu hy hj with ⟨_, c, d⟩ | ⟨rfl, c, d⟩ <;>
      (rw [a, c, b, d]; simp [bilinearFl, z, h1, hvij])
  unfold InterpFl.eval
  cases hf : G.fill with
  | none => exact key
  | some f => simp only []; rw [if_pos hin]; exact key

theorem fracFl_fac {rnd : K → K} {u : K} (hr : RelError rnd u) (h0 : 0 ≤ u) (hu : u < 1) {a b q : K} (hab : a < b) :
    ∃ r, Fac u 3 r ∧ fracFl rnd a b q = (q - a) / (b - a) * r := by
  have hne := rnd_ne_zero hr hu (sub_pos.2 hab).ne'
  obtain ⟨f, hf, ef⟩ := rnd_fac hr h0 hu (q - a)
  obtain ⟨g, hg, eg⟩ := rnd_fac hr h0 hu (b - a)
  obtain ⟨k, hk, ek⟩ := rnd_fac hr h0 hu (rnd (q - a) / rnd (b - a))
  refine ⟨f * g⁻¹ * k, (hf.mul hu (hg.inv hu)).mul hu hk, ?_⟩
  unfold fracFl
  rw [if_neg hne, ek, ef, eg]
  have h1 : b - a ≠ 0 := (sub_pos.2 hab).ne'
  have h2 : g ≠ 0 := (hg.pos hu).ne'
  field_simp

theorem fracFl_err {rnd : K → K} {u : K} (hr : RelError rnd u) (h0 : 0 ≤ u) (hu : u ≤ 1 / 100) {a b q : K} (hab : a < b) (ha : a ≤ q) (hb : q ≤ b) :
    |fracFl rnd a b q - (q - a) / (b - a)| ≤ 10 / 3 * u := by
  obtain ⟨r, hr3, e⟩ := fracFl_fac hr h0 (by linarith) (q := q) hab
  have h := hr3.err h0 (by push_cast; linarith) (by linarith)
  push_cast at h
  have hf : 0 ≤ (q - a) / (b - a) := div_nonneg (by linarith) (by linarith)
  have hf1 : (q - a) / (b - a) ≤ 1 := (div_le_one (by linarith)).2 (by linarith)
  rw [e, show (q - a) / (b - a) * r - (q - a) / (b - a) = (q - a) / (b - a) * (r - 1) by ring, abs_mul, abs_of_nonneg hf]
  have := mul_le_mul hf1 h (abs_nonneg _) zero_le_one
  linarith

theorem abs_lerp_le {w w' a b D e : K} (hw : |w' - w| ≤ e) (hab : |b - a| ≤ D) : |((1 - w') * a + w' * b) - ((1 - w) * a + w * b)| ≤ e * D := by
  rw [show ((1 - w') * a + w' * b) - ((1 - w) * a + w * b) = (w' - w) * (b - a) by ring, abs_mul]
  exact mul_le_mul hw hab (abs_nonneg _) ((abs_nonneg _).trans hw)

theorem blend_diff {s t s' t' v00 v01 v10 v11 lo hi e : K} (hs : 0 ≤ s ∧ s ≤ 1) (ht' : 0 ≤ t' ∧ t' ≤ 1) (hss : |s' - s| ≤ e) (htt : |t' - t| ≤ e)
    (h00 : lo ≤ v00 ∧ v00 ≤ hi) (h01 : lo ≤ v01 ∧ v01 ≤ hi) (h10 : lo ≤ v10 ∧ v10 ≤ hi) (h11 : lo ≤ v11 ∧ v11 ≤ hi) :
    |blend s' t' v00 v01 v10 v11 - blend s t v00 v01 v10 v11| ≤ 2 * e * (hi - lo) := by
  have d01 : |v01 - v00| ≤ hi - lo := abs_le.2 ⟨by linarith [h00.2, h01.1], by linarith [h00.1, h01.2]⟩
  have d11 : |v11 - v10| ≤ hi - lo := abs_le.2 ⟨by linarith [h10.2, h11.1], by linarith [h10.1, h11.2]⟩
  have A := abs_lerp_le htt d01
  have B := abs_lerp_le htt d11
  have mem : ∀ {a b : K}, lo ≤ a ∧ a ≤ hi → lo ≤ b ∧ b ≤ hi → lo ≤ (1 - t') * a + t' * b ∧ (1 - t') * a + t' * b ≤ hi := by
    intro a b ha hb
    constructor
    · nlinarith [mul_nonneg (sub_nonneg.2 ht'.2) (sub_nonneg.2 ha.1), mul_nonneg ht'.1 (sub_nonneg.2 hb.1)]
    · nlinarith [mul_nonneg (sub_nonneg.2 ht'.2) (sub_nonneg.2 ha.2), mul_nonneg ht'.1 (sub_nonneg.2 hb.2)]
  have m0 := mem h00 h01
  have m1 := mem h10 h11
  have C := abs_lerp_le hss (show |((1 - t') * v10 + t' * v11) - ((1 - t') * v00 + t' * v01)| ≤ hi - lo from
    abs_le.2 ⟨by linarith [m0.2, m1.1], by linarith [m0.1, m1.2]⟩)
  rw [abs_le] at A B C ⊢
  unfold blend
  constructor
  · nlinarith [mul_le_mul_of_nonneg_left A.1 (sub_nonneg.2 hs.2), mul_le_mul_of_nonneg_left B.1 hs.1, C.1]
  · nlinarith [mul_le_mul_of_nonneg_left A.2 (sub_nonneg.2 hs.2), mul_le_mul_of_nonneg_left B.2 hs.1, C.2]

/-- Inside the lattice the size differs from the one of exact linear interpolation in the cell by a few roundings of the largest size. -/
theorem C128_interp_error {rnd : K → K} {u : K} (hR : Rounding rnd) (h1 : rnd 1 = 1) (hr : RelError rnd u) (h0 : 0 ≤ u) (hu : u ≤ 1 / 100) {G : InterpFl K}
    (hx : ∀ i, i < G.n + 1 → G.x i < G.x (i + 1)) (hy : ∀ i, i < G.m + 1 → G.y i < G.y (i + 1)) {lo hi : K} (hlo : 0 ≤ lo)
    (hv : ∀ i j, i ≤ G.n + 1 → j ≤ G.m + 1 → lo ≤ G.v i j ∧ G.v i j ≤ hi) {p : K × K} (hp : OnLattice G p) :
    ∃ i j, i ≤ G.n ∧ j ≤ G.m ∧ (G.x i ≤ p.1 ∧ p.1 ≤ G.x (i + 1)) ∧ (G.y j ≤ p.2 ∧ p.2 ≤ G.y (j + 1)) ∧
      |G.eval rnd p - blend ((p.1 - G.x i) / (G.x (i + 1) - G.x i)) ((p.2 - G.y j) / (G.y (j + 1) - G.y j)) (G.v i j) (G.v i (j + 1)) (G.v (i + 1) j)
        (G.v (i + 1) (j + 1))| ≤ 8 * u * hi + 7 * u * (hi - lo) := by
  obtain ⟨i, j, hi', hj', hpx, hpy, e⟩ := InterpFl.eval_cell rnd (fun i hi => (hx i hi).le) (fun i hi => (hy i hi).le) hp
  refine ⟨i, j, hi', hj', hpx, hpy, ?_⟩
  have a := hv i j (by omega) (by omega)
  have b := hv i (j + 1) (by omega) (by omega)
  have c := hv (i + 1) j (by omega) (by omega)
  have d := hv (i + 1) (j + 1) (by omega) (by omega)
  have hs := fracFl_mem hR h1 hpx.1 hpx.2
  have ht := fracFl_mem hR h1 hpy.1 hpy.2
  have hxi := hx i (by omega)
  have hyj := hy j (by omega)
  have hs0 : 0 ≤ (p.1 - G.x i) / (G.x (i + 1) - G.x i) ∧ (p.1 - G.x i) / (G.x (i + 1) - G.x i) ≤ 1 :=
    ⟨div_nonneg (by linarith [hpx.1]) (by linarith), (div_le_one (by linarith)).2 (by linarith [hpx.2])⟩
  have D := blend_diff hs0 ht (fracFl_err hr h0 hu hxi hpx.1 hpx.2) (fracFl_err hr h0 hu hyj hpy.1 hpy.2) a b c d
  obtain ⟨r, hr7, er⟩ := bilinearFl_fac hr h0 (by linarith) hs ht (hlo.trans a.1) (hlo.trans b.1) (hlo.trans c.1) (hlo.trans d.1)
  have hb := blend_mem hs ht a b c d
  have h7 := hr7.err h0 (by push_cast; linarith) (by linarith)
  push_cast at h7
  rw [e, er]
  have E : |blend (fracFl rnd (G.x i) (G.x (i + 1)) p.1) (fracFl rnd (G.y j) (G.y (j + 1)) p.2) (G.v i j) (G.v i (j + 1)) (G.v (i + 1) j)
        (G.v (i + 1) (j + 1)) * r - blend (fracFl rnd (G.x i) (G.x (i + 1)) p.1) (fracFl rnd (G.y j) (G.y (j + 1)) p.2) (G.v i j) (G.v i (j + 1)) (G.v (i + 1) j)
        (G.v (i + 1) (j + 1))| ≤ hi * (10 / 9 * 7 * u) := by
    rw [show ∀ B : K, B * r - B = B * (r - 1) from fun B => by ring, abs_mul, abs_of_nonneg (hlo.trans hb.1)]
    exact mul_le_mul hb.2 h7 (abs_nonneg _) ((hlo.trans hb.1).trans hb.2)
  have hhi : 0 ≤ hi := (hlo.trans hb.1).trans hb.2
  have hll : 0 ≤ hi - lo := by linarith [hb.1, hb.2]
  have := abs_sub_le (blend (fracFl rnd (G.x i) (G.x (i + 1)) p.1) (fracFl rnd (G.y j) (G.y (j + 1)) p.2) (G.v i j) (G.v i (j + 1)) (G.v (i + 1) j)
        (G.v (i + 1) (j + 1)) * r) _ _ |>.trans (add_le_add E D)
  nlinarith [mul_nonneg h0 hhi, mul_nonneg h0 hll]

/-! ## the sizes at the nodes -/

theorem capMax_le_self (mx : Option K) (v : K) : capMax mx v ≤ v := by
  cases mx with
  | none => exact le_rfl
  | some x => simp only [capMax]; split_ifs with h
              · exact h.le
              · exact le_rfl

theorem capMax_eq_min (m v : K) : capMax (some m) v = min m v := by
  simp only [capMax]
  split_ifs with h
  · rw [min_eq_left h.le]
  · rw [min_eq_right (not_lt.1 h)]

/-- Sizes from distances: never below the size at the feature, never above the largest size, never smaller at a greater distance. -/
theorem C128_distance {rnd : K → K} (hR : Rounding rnd) {h rate : K} (hh : rnd h = h) (hrate : 0 ≤ rate) {mx : Option K} (hmx : ∀ m, mx = some m → h ≤ m) :
    (∀ d, 0 ≤ d → h ≤ distSizeFl rnd h rate mx d) ∧ (∀ m d, mx = some m → distSizeFl rnd h rate mx d ≤ m) ∧
      (∀ d d', d ≤ d' → distSizeFl rnd h rate mx d ≤ distSizeFl rnd h rate mx d') ∧ distSizeFl rnd h rate mx 0 = h := by
  have low : ∀ d, 0 ≤ d → h ≤ rnd (h + rnd (d * rate)) := by
    intro d hd
    have : 0 ≤ rnd (d * rate) := by rw [← hR.zero]; exact hR.mono (mul_nonneg hd hrate)
    calc h = rnd h := hh.symm
      _ ≤ _ := hR.mono (by linarith)
  have mono : ∀ d d', d ≤ d' → rnd (h + rnd (d * rate)) ≤ rnd (h + rnd (d' * rate)) := by
    intro d d' hd
    have := hR.mono (mul_le_mul_of_nonneg_right hd hrate)
    exact hR.mono (by linarith)
  have atz : rnd (h + rnd (0 * rate)) = h := by rw [zero_mul, hR.zero, add_zero, hh]
  unfold distSizeFl
  cases mx with
  | none => exact ⟨low, fun m _ (e : none = some m) => (Option.some_ne_none m e.symm).elim, mono, atz⟩
  | some m =>
    simp only [capMax_eq_min]
    refine ⟨fun d hd => le_min (hmx m rfl) (low d hd), ?_, fun d d' hd => min_le_min le_rfl (mono d d' hd), ?_⟩
    · intro m' d e
      cases e
      exact min_le_left _ _
    · rw [atz]; exact min_eq_right (hmx m rfl)

/-- The size from a distance is within three roundings of the exact one. -/
theorem C128_distance_error {rnd : K → K} {u : K} (hr : RelError rnd u) (h0 : 0 ≤ u) (hu : u ≤ 1 / 100) {h rate d : K} (hh : 0 ≤ h) (hrate : 0 ≤ rate)
    (hd : 0 ≤ d) : |distSizeFl rnd h rate none d - (h + d * rate)| ≤ 3 * u * (h + d * rate) ∧
      ∀ m, |distSizeFl rnd h rate (some m) d - min m (h + d * rate)| ≤ 3 * u * (h + d * rate) := by
  have hu1 : u < 1 := by linarith
  obtain ⟨f, hf, ef⟩ := rnd_fac hr h0 hu1 (d * rate)
  obtain ⟨r, hr2, er⟩ := rnd_sum hr h0 hu1 (fac_one h0 hu1 1) hf le_rfl hh (mul_nonneg hd hrate)
  have he := hr2.err h0 (by push_cast; linarith) hu1
  push_cast at he
  have hp : 0 ≤ h + d * rate := add_nonneg hh (mul_nonneg hd hrate)
  have key : |rnd (h + rnd (d * rate)) - (h + d * rate)| ≤ 3 * u * (h + d * rate) := by
    rw [ef]
    rw [mul_one] at er
    rw [er, show (h + d * rate) * r - (h + d * rate) = (h + d * rate) * (r - 1) by ring, abs_mul, abs_of_nonneg hp]
    nlinarith [mul_le_mul_of_nonneg_left he hp, mul_nonneg h0 hp]
  refine ⟨key, fun m => ?_⟩
  rw [distSizeFl, capMax_eq_min]
  refine le_trans ?_ key
  rw [min_comm m, min_comm m]
  exact abs_min_sub_min_le_max _ _ _ _ |>.trans (by simp)

/-- Sizes from depths: never smaller for a greater depth, and depths up to one metre count as one metre. -/
theorem C128_wave {rnd rsqrt : K → K} (hR : Rounding rnd) (hs : Monotone rsqrt) {period gravity wl scale : K} (hp : 0 ≤ period) (hg : 0 ≤ gravity) (hw : 0 ≤ wl)
    (hsc : 0 ≤ scale) : (∀ z z', |z| ≤ |z'| → waveSizeFl rnd rsqrt period gravity wl scale z ≤ waveSizeFl rnd rsqrt period gravity wl scale z') ∧
      ∀ z, |z| ≤ 1 → waveSizeFl rnd rsqrt period gravity wl scale z = waveSizeFl rnd rsqrt period gravity wl scale 1 := by
  have e : ∀ z : K, |if |z| < 1 then 1 else z| = max 1 |z| := by
    intro z
    split_ifs with h
    · rw [abs_one, max_eq_left h.le]
    · rw [max_eq_right (not_lt.1 h)]
  constructor
  · intro z z' hz
    unfold waveSizeFl
    rw [e, e]
    have h1 : gravity * max 1 |z| ≤ gravity * max 1 |z'| := mul_le_mul_of_nonneg_left (max_le_max le_rfl hz) hg
    exact hR.mono (div_le_div_of_nonneg_right (hR.mono (div_le_div_of_nonneg_right (hR.mono (mul_le_mul_of_nonneg_left (hs (hR.mono h1)) hp)) hw)) hsc)
  · intro z hz
    unfold waveSizeFl
    rw [e, e, abs_one, max_eq_left hz, max_self]

/-- Sizes from slopes: smaller for steeper slopes and larger for deeper water. -/
theorem C128_slope {rnd : K → K} {u : K} (hR : Rounding rnd) (hr : RelError rnd u) (h0 : 0 ≤ u) (hu : u < 1) {twoPi eps sp scale : K} (hpi : 0 ≤ twoPi) (heps : 0 < eps) (hsp : 0 ≤ sp)
    (hsc : 0 ≤ scale) :
    (∀ z s s', 0 ≤ s → s ≤ s' → slopeSizeFl rnd twoPi eps sp scale z s' ≤ slopeSizeFl rnd twoPi eps sp scale z s) ∧
      (∀ z z' s, 0 ≤ s → z' ≤ z → slopeSizeFl rnd twoPi eps sp scale z s ≤ slopeSizeFl rnd twoPi eps sp scale z' s) ∧
      ∀ z s, -1 ≤ z → slopeSizeFl rnd twoPi eps sp scale z s = slopeSizeFl rnd twoPi eps sp scale (-1) s := by
  have nn : ∀ {a : K}, 0 ≤ a → 0 ≤ rnd a := fun h => by rw [← hR.zero]; exact hR.mono h
  have pos : ∀ {s : K}, 0 ≤ s → 0 < rnd (s + eps) := by
    intro s hs
    exact lt_of_le_of_ne (nn (by linarith)) (Ne.symm (rnd_ne_zero hr hu (by linarith : 0 < s + eps).ne'))
  have c0 : 0 ≤ rnd (twoPi / sp) := nn (div_nonneg hpi hsp)
  refine ⟨?_, ?_, ?_⟩
  · intro z s s' hs hss
    unfold slopeSizeFl
    refine hR.mono (div_le_div_of_nonneg_right (hR.mono ?_) hsc)
    exact div_le_div_of_nonneg_left (nn (mul_nonneg c0 (abs_nonneg _))) (pos hs) (hR.mono (by linarith))
  · intro z z' s hs hz
    unfold slopeSizeFl
    refine hR.mono (div_le_div_of_nonneg_right (hR.mono (div_le_div_of_nonneg_right (hR.mono (mul_le_mul_of_nonneg_left ?_ c0)) (pos hs).le)) hsc)
    have a : min z' (-1) ≤ min z (-1) := min_le_min hz le_rfl
    have b : min z (-1) ≤ -1 := min_le_right _ _
    rw [abs_of_nonpos (by linarith), abs_of_nonpos (by linarith)]
    linarith
  · intro z s hz
    unfold slopeSizeFl
    rw [min_eq_right hz, min_self]

/-- The size from a slope is within six roundings of the exact one. -/
theorem C128_slope_error {rnd : K → K} {u : K} (hr : RelError rnd u) (h0 : 0 ≤ u) (hu : u ≤ 1 / 100) {twoPi eps sp scale z s : K} (hpi : 0 ≤ twoPi) (heps : 0 < eps)
    (hsp : 0 ≤ sp) (hsc : 0 ≤ scale) (hs : 0 ≤ s) :
    |slopeSizeFl rnd twoPi eps sp scale z s - twoPi / sp * |min z (-1)| / (s + eps) / scale| ≤ 6 * u * (twoPi / sp * |min z (-1)| / (s + eps) / scale) := by
  have hu1 : u < 1 := by linarith
  obtain ⟨f, hf, ef⟩ := rnd_fac hr h0 hu1 (twoPi / sp)
  obtain ⟨g, hg, eg⟩ := rnd_fac hr h0 hu1 (s + eps)
  obtain ⟨a, ha, ea⟩ := rnd_fac hr h0 hu1 (rnd (twoPi / sp) * |min z (-1)|)
  obtain ⟨b, hb, eb⟩ := rnd_fac hr h0 hu1 (rnd (rnd (twoPi / sp) * |min z (-1)|) / rnd (s + eps))
  obtain ⟨c, hc, ec⟩ := rnd_fac hr h0 hu1 (rnd (rnd (rnd (twoPi / sp) * |min z (-1)|) / rnd (s + eps)) / scale)
  have hF : Fac u 5 (f * a * g⁻¹ * b * c) := (((hf.mul hu1 ha).mul hu1 (hg.inv hu1)).mul hu1 hb).mul hu1 hc
  have hE := hF.err h0 (by push_cast; linarith) hu1
  push_cast at hE
  have hX : 0 ≤ twoPi / sp * |min z (-1)| / (s + eps) / scale :=
    div_nonneg (div_nonneg (mul_nonneg (div_nonneg hpi hsp) (abs_nonneg _)) (by linarith)) hsc
  have e : slopeSizeFl rnd twoPi eps sp scale z s = twoPi / sp * |min z (-1)| / (s + eps) / scale * (f * a * g⁻¹ * b * c) := by
    unfold slopeSizeFl
    rw [ec, eb, ea, ef, eg]
    simp only [div_eq_mul_inv, mul_inv]
    ring
  rw [e, show ∀ X F : K, X * F - X = X * (F - 1) from fun X F => by ring, abs_mul, abs_of_nonneg hX]
  nlinarith [mul_le_mul_of_nonneg_left hE hX, mul_nonneg h0 hX]

/-- Sizes from the widths of features: never smaller farther from the medial points or from the shore, within four roundings of the exact ones. -/
theorem C128_feature {rnd : K → K} {u : K} (hR : Rounding rnd) (hr : RelError rnd u) (h0 : 0 ≤ u) (hu : u ≤ 1 / 100) {r : K} (hr0 : 0 < r) :
    (∀ a a' d d', a ≤ a' → |d| ≤ |d'| → featureSizeFl rnd r a d ≤ featureSizeFl rnd r a' d') ∧
      ∀ a d, 0 ≤ a → |featureSizeFl rnd r a d - 2 * (a + |d|) / r| ≤ 4 * u * (2 * (a + |d|) / r) := by
  have hu1 : u < 1 := by linarith
  constructor
  · intro a a' d d' ha hd
    unfold featureSizeFl
    exact hR.mono (div_le_div_of_nonneg_right (hR.mono (mul_le_mul_of_nonneg_left (hR.mono (add_le_add ha hd)) (by norm_num))) hr0.le)
  · intro a d ha
    obtain ⟨f, hf, ef⟩ := rnd_fac hr h0 hu1 (a + |d|)
    obtain ⟨g, hg, eg⟩ := rnd_fac hr h0 hu1 (2 * rnd (a + |d|))
    obtain ⟨k, hk, ek⟩ := rnd_fac hr h0 hu1 (rnd (2 * rnd (a + |d|)) / r)
    have hE := ((hf.mul hu1 hg).mul hu1 hk).err h0 (by push_cast; linarith) hu1
    push_cast at hE
    have hX : 0 ≤ 2 * (a + |d|) / r := div_nonneg (mul_nonneg (by norm_num) (add_nonneg ha (abs_nonneg _))) hr0.le
    have e : featureSizeFl rnd r a d = 2 * (a + |d|) / r * (f * g * k) := by
      unfold featureSizeFl
      rw [ek, eg, ef]; ring
    rw [e, show ∀ X F : K, X * F - X = X * (F - 1) from fun X F => by ring, abs_mul, abs_of_nonneg hX]
    nlinarith [mul_le_mul_of_nonneg_left hE hX, mul_nonneg h0 hX]

/-- The limits are met without error: nothing is above the upper one, nothing below the lower one unless the upper one is, and sizes between the
limits stay. -/
theorem C128_limits (mn mx : Option K) (v : K) :
    (∀ b, mx = some b → limitsFl mn mx v ≤ b) ∧ (∀ a, mn = some a → (∀ b, mx = some b → a ≤ b) → a ≤ limitsFl mn mx v) ∧
      ((∀ a, mn = some a → a ≤ v) → (∀ b, mx = some b → v ≤ b) → limitsFl mn mx v = v) := by
  cases mn <;> cases mx <;> simp only [limitsFl] <;> refine ⟨?_, ?_, ?_⟩ <;> simp <;> intros <;> (try split_ifs) <;>
    first | linarith | (exfalso; linarith) | rfl

end

/-- The size from a depth is within six roundings of `period · √(gravity · depth) / wl / scale`. -/
theorem C128_wave_error {rnd : ℝ → ℝ} {u : ℝ} (hr : RelError rnd u) (h0 : 0 ≤ u) (hu : u ≤ 1 / 100) {period gravity wl scale z : ℝ} (hp : 0 ≤ period) (hg : 0 ≤ gravity)
    (hw : 0 ≤ wl) (hsc : 0 ≤ scale) :
    |waveSizeFl rnd (fun x => rnd (Real.sqrt x)) period gravity wl scale z - period * Real.sqrt (gravity * max 1 |z|) / wl / scale| ≤
      6 * u * (period * Real.sqrt (gravity * max 1 |z|) / wl / scale) := by
  have e0 : |if |z| < 1 then 1 else z| = max 1 |z| := by
    split_ifs with h
    · rw [abs_one, max_eq_left h.le]
    · rw [max_eq_right (not_lt.1 h)]
  have hu1 : u < 1 := by linarith
  obtain ⟨f, hf, ef⟩ := rnd_fac hr h0 hu1 (gravity * max 1 |z|)
  have hZ : 0 ≤ gravity * max 1 |z| := mul_nonneg hg (le_max_of_le_left zero_le_one)
  have hsf : Fac u 1 (Real.sqrt f) := by
    have hfp := hf.pos hu1
    have h1 := hf.1
    have h2 := hf.2
    rw [pow_one] at h1 h2
    have hq := Real.sq_sqrt hfp.le
    have hqn := Real.sqrt_nonneg f
    constructor
    · rw [pow_one]
      exact Real.le_sqrt_of_sq_le (by nlinarith)
    · rw [pow_one]
      have : (Real.sqrt f * (1 - u)) ^ 2 ≤ 1 ^ 2 := by rw [mul_pow, hq]; nlinarith
      exact le_of_sq_le_sq this zero_le_one
  obtain ⟨g, hg', eg⟩ := rnd_fac hr h0 hu1 (Real.sqrt (rnd (gravity * max 1 |z|)))
  obtain ⟨a, ha, ea⟩ := rnd_fac hr h0 hu1 (period * rnd (Real.sqrt (rnd (gravity * max 1 |z|))))
  obtain ⟨b, hb, eb⟩ := rnd_fac hr h0 hu1 (rnd (period * rnd (Real.sqrt (rnd (gravity * max 1 |z|)))) / wl)
  obtain ⟨c, hc, ec⟩ := rnd_fac hr h0 hu1 (rnd (rnd (period * rnd (Real.sqrt (rnd (gravity * max 1 |z|)))) / wl) / scale)
  have hE := ((((hsf.mul hu1 hg').mul hu1 ha).mul hu1 hb).mul hu1 hc).err h0 (by push_cast; linarith) hu1
  push_cast at hE
  have hX : 0 ≤ period * Real.sqrt (gravity * max 1 |z|) / wl / scale := div_nonneg (div_nonneg (mul_nonneg hp (Real.sqrt_nonneg _)) hw) hsc
  have e : waveSizeFl rnd (fun x => rnd (Real.sqrt x)) period gravity wl scale z =
      period * Real.sqrt (gravity * max 1 |z|) / wl / scale * (Real.sqrt f * g * a * b * c) := by
    unfold waveSizeFl
    rw [e0]
    simp only []
    rw [ec, eb, ea, eg, ef, Real.sqrt_mul hZ]
    ring
  rw [e, show ∀ X F : ℝ, X * F - X = X * (F - 1) from fun X F => by ring, abs_mul, abs_of_nonneg hX]
  nlinarith [mul_le_mul_of_nonneg_left hE hX, mul_nonneg h0 hX]

/-- In doubles: from sizes of at least `lo` at the nodes come sizes above `lo · (1 − 2⁻⁵⁰)` everywhere on the lattice,
and from sizes of at most `hi` sizes below `hi / (1 − 2⁻⁵⁰)`. -/
theorem C128_doubles {K : Type} [Field K] [LinearOrder K] [IsStrictOrderedRing K] [FloorRing K] {G : InterpFl K} (hx : InOrder G.x (G.n + 1))
    (hy : InOrder G.y (G.m + 1)) {lo hi : K} (hlo : 0 < lo) (hv : ∀ i j, i ≤ G.n + 1 → j ≤ G.m + 1 → lo ≤ G.v i j ∧ G.v i j ≤ hi) {p : K × K}
    (hp : OnLattice G p) : lo * (1 - 1 / 2 ^ 50) ≤ G.eval roundDouble p ∧ 0 < G.eval roundDouble p ∧ G.eval roundDouble p * (1 - 1 / 2 ^ 50) ≤ hi := by
  obtain ⟨hR, hr⟩ := C113_roundDouble (K := K)
  have h1 : roundDouble (1 : K) = 1 := roundDouble_of_isDouble ⟨1, 0, by norm_num, by norm_num⟩
  obtain ⟨a, b⟩ := C128_range hR h1 hr (by positivity) (by norm_num) hx hy hlo.le hv hp
  have hc : (1 - 1 / 2 ^ 50 : K) ≤ (1 - 1 / 2 ^ 53) ^ 7 := by norm_num
  have hA : lo * (1 - 1 / 2 ^ 50) ≤ G.eval roundDouble p := (mul_le_mul_of_nonneg_left hc hlo.le).trans a
  have hpos : 0 < G.eval roundDouble p := lt_of_lt_of_le (mul_pos hlo (by norm_num)) hA
  exact ⟨hA, hpos, (mul_le_mul_of_nonneg_left hc hpos.le).trans b⟩

/-- The lattice with nodes 0 and 7 on both axes and the size 1 everywhere. -/
def sevenGrid : InterpFl ℚ := { n := 0, m := 0, x := fun i => 7 * i, y := fun i => 7 * i, v := fun _ _ => 1, fill := none }

/-- Rounding does take sizes below all sizes at the nodes: with the size 1 everywhere the size at the point `(3, 1)` is below 1. -/
theorem C128_below : ∃ G : InterpFl ℚ, (∀ i j, G.v i j = 1) ∧ InOrder G.x (G.n + 1) ∧ InOrder G.y (G.m + 1) ∧ ∃ p, IsDouble p.1 ∧ IsDouble p.2 ∧ OnLattice G p ∧
    G.eval roundDouble p < 1 :=
  ⟨sevenGrid, fun _ _ => rfl, fun i _ => by simp [sevenGrid], fun i _ => by simp [sevenGrid], (3, 1), ⟨3, 0, by norm_num, by norm_num⟩,
    ⟨1, 0, by norm_num, by norm_num⟩, by norm_num [OnLattice, sevenGrid], by decide +kernel⟩

/-- Three by two nodes, with sizes that grow to the right and upwards. -/
def tiltGrid : InterpFl ℚ := { n := 1, m := 0, x := fun i => 2 * i, y := fun i => 3 * i, v := fun i j => 1 + i + j, fill := some 999999 }

theorem tiltGrid_values (i j : Nat) (hi : i ≤ tiltGrid.n + 1) (hj : j ≤ tiltGrid.m + 1) : 1 ≤ tiltGrid.v i j ∧ tiltGrid.v i j ≤ 4 := by
  have hi' : i ≤ 2 := hi
  have hj' : j ≤ 1 := hj
  have a : ((i : ℚ)) ≤ 2 := by exact_mod_cast hi'
  have b : ((j : ℚ)) ≤ 1 := by exact_mod_cast hj'
  have c : (0 : ℚ) ≤ i := Nat.cast_nonneg i
  have d : (0 : ℚ) ≤ j := Nat.cast_nonneg j
  constructor <;> simp only [tiltGrid] <;> linarith

theorem tiltGrid_x (i : Nat) (_ : i < tiltGrid.n + 1) : tiltGrid.x i < tiltGrid.x (i + 1) := by
  simp only [tiltGrid]; push_cast; linarith

theorem tiltGrid_y (i : Nat) (_ : i < tiltGrid.m + 1) : tiltGrid.y i < tiltGrid.y (i + 1) := by
  simp only [tiltGrid]; push_cast; linarith

example : tiltGrid.eval roundDouble (3, 2) * (1 - 1 / 2 ^ 53) ^ 7 ≤ 4 :=
  (C128_range C113_roundDouble.1 roundDouble_one C113_roundDouble.2 (by norm_num) (by norm_num) (fun i hi => (tiltGrid_x i hi).le)
    (fun i hi => (tiltGrid_y i hi).le) (by norm_num : (0 : ℚ) ≤ 1) tiltGrid_values (p := (3, 2)) (by norm_num [OnLattice, tiltGrid])).2

example : 0 < tiltGrid.eval roundDouble (3, 2) :=
  (C128_doubles (fun i hi => (tiltGrid_x i hi).le) (fun i hi => (tiltGrid_y i hi).le) (by norm_num : (0 : ℚ) < 1) tiltGrid_values (p := (3, 2))
    (by norm_num [OnLattice, tiltGrid])).2.1

theorem tiltGrid_stored (i j : Nat) (hi : i ≤ tiltGrid.n + 1) (hj : j ≤ tiltGrid.m + 1) : roundDouble (tiltGrid.v i j) = tiltGrid.v i j := by
  have hi' : i ≤ 2 := hi
  have hj' : j ≤ 1 := hj
  refine roundDouble_of_isDouble ⟨1 + i + j, 0, ?_, by simp [tiltGrid]⟩
  rw [abs_of_nonneg (by omega)]
  omega

example : tiltGrid.eval roundDouble (tiltGrid.x 2, tiltGrid.y 1) = 4 :=
  (C128_nodes C113_roundDouble.1 roundDouble_one C113_roundDouble.2 (by norm_num) tiltGrid_x tiltGrid_y tiltGrid_stored (i := 2) (j := 1) le_rfl
    le_rfl).trans (by norm_num [tiltGrid])

example : ∃ i j, i ≤ 1 ∧ j ≤ 0 ∧ (tiltGrid.x i ≤ 3 ∧ (3 : ℚ) ≤ tiltGrid.x (i + 1)) ∧ (tiltGrid.y j ≤ 2 ∧ (2 : ℚ) ≤ tiltGrid.y (j + 1)) ∧
    |tiltGrid.eval roundDouble (3, 2) - blend ((3 - tiltGrid.x i) / (tiltGrid.x (i + 1) - tiltGrid.x i)) ((2 - tiltGrid.y j) / (tiltGrid.y (j + 1) - tiltGrid.y j))
      (tiltGrid.v i j) (tiltGrid.v i (j + 1)) (tiltGrid.v (i + 1) j) (tiltGrid.v (i + 1) (j + 1))| ≤ 8 * (1 / 2 ^ 53) * 4 + 7 * (1 / 2 ^ 53) * (4 - 1) :=
  C128_interp_error C113_roundDouble.1 roundDouble_one C113_roundDouble.2 (by norm_num) (by norm_num) tiltGrid_x tiltGrid_y (by norm_num) tiltGrid_values
    (p := (3, 2)) (by norm_num [OnLattice, tiltGrid])

example : distSizeFl roundDouble (3 : ℚ) (3 / 20) (some 5) 100 ≤ 5 ∧ distSizeFl roundDouble (3 : ℚ) (3 / 20) (some 5) 0 = 3 :=
  have h := C128_distance (rnd := roundDouble) C113_roundDouble.1 (h := (3 : ℚ)) (rate := 3 / 20)
    (roundDouble_of_isDouble ⟨3, 0, by norm_num, by norm_num⟩) (by norm_num) (mx := some 5) (fun m e => by cases e; norm_num)
  ⟨h.2.1 5 100 rfl, h.2.2.2⟩

example : |distSizeFl roundDouble (3 : ℚ) (3 / 20) none 7 - (3 + 7 * (3 / 20))| ≤ 3 * (1 / 2 ^ 53) * (3 + 7 * (3 / 20)) :=
  (C128_distance_error C113_roundDouble.2 (by norm_num) (by norm_num) (by norm_num) (by norm_num) (by norm_num)).1

example : waveSizeFl roundDouble id (44712 : ℚ) 10 30 111000 (-5) ≤ waveSizeFl roundDouble id 44712 10 30 111000 50 :=
  (C128_wave C113_roundDouble.1 monotone_id (by norm_num) (by norm_num) (by norm_num) (by norm_num)).1 _ _ (by norm_num [abs_of_pos])

example : |waveSizeFl roundDouble (fun x => roundDouble (Real.sqrt x)) 44712 10 30 111000 (-5) - 44712 * Real.sqrt (10 * max 1 |(-5 : ℝ)|) / 30 / 111000| ≤
    6 * (1 / 2 ^ 53) * (44712 * Real.sqrt (10 * max 1 |(-5 : ℝ)|) / 30 / 111000) :=
  C128_wave_error C113_roundDouble.2 (by norm_num) (by norm_num) (by norm_num) (by norm_num) (by norm_num) (by norm_num)

example : slopeSizeFl roundDouble (44 / 7 : ℚ) (1 / 10 ^ 10) 20 111000 (-50) 2 ≤ slopeSizeFl roundDouble (44 / 7) (1 / 10 ^ 10) 20 111000 (-50) (1 / 10) :=
  (C128_slope C113_roundDouble.1 C113_roundDouble.2 (by norm_num) (by norm_num) (by norm_num) (by norm_num) (by norm_num) (by norm_num)).1 _ _ _ (by norm_num)
    (by norm_num)

example : |slopeSizeFl roundDouble (44 / 7 : ℚ) (1 / 10 ^ 10) 20 111000 (-50) 2 - 44 / 7 / 20 * |min (-50) (-1)| / (2 + 1 / 10 ^ 10) / 111000| ≤
    6 * (1 / 2 ^ 53) * (44 / 7 / 20 * |min (-50) (-1)| / (2 + 1 / 10 ^ 10) / 111000) :=
  C128_slope_error C113_roundDouble.2 (by norm_num) (by norm_num) (by norm_num) (by norm_num) (by norm_num) (by norm_num) (by norm_num)

example : |featureSizeFl roundDouble (3 : ℚ) 2 (-5) - 2 * (2 + |(-5)|) / 3| ≤ 4 * (1 / 2 ^ 53) * (2 * (2 + |(-5)|) / 3) :=
  (C128_feature C113_roundDouble.1 C113_roundDouble.2 (by norm_num) (by norm_num) (by norm_num)).2 2 (-5) (by norm_num)

example : limitsFl (some (1 : ℚ)) (some 3) 7 ≤ 3 := (C128_limits (some (1 : ℚ)) (some 3) 7).1 3 rfl

end OM
