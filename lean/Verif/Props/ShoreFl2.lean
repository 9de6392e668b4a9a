import Verif.Props.ShoreFl
import Verif.Lemmas.Densify
import Verif.Props.IdwFl2
/-!
# C133: densifying and areas in rounded arithmetic
-/
set_option linter.unusedSectionVars false
namespace OM
open Spec

section
variable {K : Type} [Field K] [LinearOrder K] [IsStrictOrderedRing K] [FloorRing K]

/-- As `Densified`, with steps of at most `d` between the points and inserted points that are within `e` of a point of the segment. -/
inductive Spec.DensifiedUpTo (c d e : K) : List (Option (K × K)) → List Bool → List (Option (K × K)) → Prop
  | last (r : Option (K × K)) (m : Bool) : DensifiedUpTo c d e [r] [m] [r]
  | keep (a b : Option (K × K)) (l : List (Option (K × K))) (m mb : Bool) (ms : List Bool) (out : List (Option (K × K)))
      (h : mb = false ∨ a = none ∨ b = none) (rest : DensifiedUpTo c d e (b :: l) (mb :: ms) out) :
      DensifiedUpTo c d e (a :: b :: l) (m :: mb :: ms) (a :: out)
  | split (a b : K × K) (mid : List (K × K)) (l : List (Option (K × K))) (m : Bool) (ms : List Bool) (out : List (Option (K × K)))
      (hfew : (mid.length : K) * c ≤ max |b.1 - a.1| |b.2 - a.2|) (hstep : (a :: mid ++ [b]).IsChain fun p q => |q.1 - p.1| ≤ d ∧ |q.2 - p.2| ≤ d)
      (hon : ∀ q ∈ mid, ∃ q', OnSegment a b q' ∧ NearBy e q q') (rest : DensifiedUpTo c d e (some b :: l) (true :: ms) out) :
      DensifiedUpTo c d e (some a :: some b :: l) (m :: true :: ms) (some a :: mid.map some ++ out)

theorem Spec.DensifiedUpTo.sublist {c d e : K} {poly out : List (Option (K × K))} {ins : List Bool} (h : DensifiedUpTo c d e poly ins out) :
    poly.Sublist out := by
  induction h with
  | last r m => exact List.Sublist.refl _
  | keep a b l m mb ms out h rest ih => exact ih.cons_cons a
  | split a b mid l m ms out hfew hstep hon rest ih =>
    rw [List.cons_append]
    exact (ih.trans (List.sublist_append_right _ _)).cons_cons (some a)

/-- All rows the loop writes. -/
def fillRowsFl (fl : K → K) : List (Option (K × K)) → List Nat → List (Option (K × K))
  | a :: b :: l, ni :: nin => segRowsFl fl a b ni ++ fillRowsFl fl (b :: l) nin
  | _, _ => []

theorem segRowsFl_length (fl : K → K) (a b : Option (K × K)) (ni : Nat) : (segRowsFl fl a b ni).length = ni + 1 := by
  unfold segRowsFl
  split
  · rename_i h; simp [h]
  · cases a <;> cases b <;> simp

theorem fillLoopFl_spec (fl : K → K) : ∀ (poly : List (Option (K × K))) (nin : List Nat) (buf : List (Option (K × K))) (n : Nat),
    nin.length + 1 = poly.length → buf.length = n + (nin.sum + poly.length) →
    ∃ z, fillLoopFl fl buf n poly nin = some (buf.take n ++ fillRowsFl fl poly nin ++ [z])
  | [], nin, buf, n, h, _ => by simp at h
  | [r], nin, buf, n, h, hb => by
    have hn : nin = [] := by simpa using h
    subst hn
    simp only [List.sum_nil, List.length_cons, List.length_nil, Nat.zero_add] at hb
    have hlt : n < buf.length := by omega
    refine ⟨buf[n], ?_⟩
    have : buf = buf.take n ++ [buf[n]] := by
      conv_lhs => rw [← List.take_append_drop n buf, List.drop_eq_getElem_cons hlt]
      rw [List.drop_eq_nil_of_le (by omega)]
    simp only [fillLoopFl, fillRowsFl, List.append_nil]
    exact congrArg some this
  | a :: b :: l, [], buf, n, h, _ => by simp at h
  | a :: b :: l, ni :: nin, buf, n, h, hb => by
    have hlen := segRowsFl_length fl a b ni
    have hfit : n + (segRowsFl fl a b ni).length ≤ buf.length := by
      rw [hlen, hb]; simp only [List.sum_cons, List.length_cons]; omega
    rw [fillLoopFl, writeAt_spec hfit]
    obtain ⟨z, hz⟩ := fillLoopFl_spec fl (b :: l) nin (buf.take n ++ segRowsFl fl a b ni ++ buf.drop (n + (segRowsFl fl a b ni).length))
      (n + ni + 1) (by simpa using h) (by
        simp only [List.length_append, List.length_take, List.length_drop, hlen]
        rw [hlen] at hfit
        simp only [List.sum_cons, List.length_cons] at hb ⊢
        omega)
    refine ⟨z, ?_⟩
    simp only
    rw [hz, List.take_append_of_le_length (by
      simp only [List.length_append, List.length_take, hlen]; rw [hlen] at hfit; omega)]
    rw [List.take_of_length_le (by
      simp only [List.length_append, List.length_take, hlen]; omega), fillRowsFl]
    simp [List.append_assoc]

theorem segExtrasFl_length (fl : K → K) (d : K) : ∀ (poly : List (Option (K × K))) (ins : List Bool), ins.length = poly.length → poly ≠ [] →
    (segExtrasFl fl d poly ins).length + 1 = poly.length
  | [], _, _, h => absurd rfl h
  | [r], [m], _, _ => by simp [segExtrasFl]
  | [r], [], h, _ => by simp at h
  | [r], _ :: _ :: _, h, _ => by simp at h
  | a :: b :: l, [], h, _ => by simp at h
  | a :: b :: l, [_], h, _ => by simp at h
  | a :: b :: l, _ :: mb :: ms, h, _ => by
    have := segExtrasFl_length fl d (b :: l) (mb :: ms) (by simpa using h) (by simp)
    simp only [segExtrasFl, List.length_cons] at this ⊢
    omega

/-- The number of points is large enough, up to rounding. -/
theorem segExtraFl_bound {fl : K → K} {u : K} (hr : RelError fl u) (h0 : 0 ≤ u) (hu : u ≤ 1 / 100) {d : K} (hd : 0 < d) (a b : K × K) :
    |b.1 - a.1| ≤ d * (1 + 3 * u) * ((segExtraFl fl d (some a) (some b) true : K) + 1) ∧
      |b.2 - a.2| ≤ d * (1 + 3 * u) * ((segExtraFl fl d (some a) (some b) true : K) + 1) := by
  have e : segExtraFl fl d (some a) (some b) true = (⌈fl (max |fl (b.2 - a.2)| |fl (b.1 - a.1)| / d)⌉ - 1).toNat := by
    simp [segExtraFl]
  rw [e]
  set X := max |fl (b.2 - a.2)| |fl (b.1 - a.1)| with hX
  have hX0 : 0 ≤ X := le_max_of_le_left (abs_nonneg _)
  have hn : fl (X / d) ≤ (((⌈fl (X / d)⌉ - 1).toNat : K) + 1) := by
    have h2 : fl (X / d) ≤ (⌈fl (X / d)⌉ : K) := Int.le_ceil _
    have h3 : (⌈fl (X / d)⌉ : Int) ≤ (((⌈fl (X / d)⌉ - 1).toNat : Int) + 1) := by omega
    have h4 : ((⌈fl (X / d)⌉ : Int) : K) ≤ ((((⌈fl (X / d)⌉ - 1).toNat : Int) + 1 : Int) : K) := by exact_mod_cast h3
    refine h2.trans (h4.trans (le_of_eq ?_))
    push_cast
    rfl
  have hXd : 0 ≤ X / d := div_nonneg hX0 hd.le
  have hlow : X / d * (1 - u) ≤ fl (X / d) := by
    have := hr (X / d)
    rw [abs_of_nonneg hXd, abs_le] at this
    linarith [this.1]
  have hXn : X * (1 - u) ≤ d * (((⌈fl (X / d)⌉ - 1).toNat : K) + 1) := by
    have := mul_le_mul_of_nonneg_left (hlow.trans hn) hd.le
    rwa [← mul_assoc, mul_div_cancel₀ _ hd.ne'] at this
  have key : ∀ t : K, |fl t| ≤ X → |t| ≤ d * (1 + 3 * u) * (((⌈fl (X / d)⌉ - 1).toNat : K) + 1) := by
    intro t ht
    generalize (((⌈fl (X / d)⌉ - 1).toNat : K) + 1) = n at *
    have h1 : |t| * (1 - u) ≤ |fl t| := by
      have h := hr t
      have : |t| ≤ |fl t| + |fl t - t| := by
        have := abs_sub_abs_le_abs_sub t (fl t)
        rw [abs_sub_comm t (fl t)] at this
        linarith
      linarith
    have h2 : |t| * (1 - u) * (1 - u) ≤ d * n := (mul_le_mul_of_nonneg_right (h1.trans ht) (by linarith)).trans hXn
    have h3 : (1 : K) ≤ (1 - u) * (1 - u) * (1 + 3 * u) := by nlinarith [mul_nonneg h0 h0, mul_nonneg h0 (mul_nonneg h0 h0)]
    have h4 := mul_le_mul_of_nonneg_right h2 (show 0 ≤ 1 + 3 * u by linarith)
    have h5 := mul_le_mul_of_nonneg_left h3 (abs_nonneg t)
    nlinarith
  exact ⟨key _ (le_max_right _ _), key _ (le_max_left _ _)⟩

/-- It is not too large. -/
theorem segExtraFl_few {fl : K → K} {u : K} (hr : RelError fl u) (h0 : 0 ≤ u) (hu : u ≤ 1 / 100) {d : K} (hd : 0 < d) (a b : K × K) :
    (segExtraFl fl d (some a) (some b) true : K) * (d / (1 + 3 * u)) ≤ max |b.1 - a.1| |b.2 - a.2| := by
  have e : segExtraFl fl d (some a) (some b) true = (⌈fl (max |fl (b.2 - a.2)| |fl (b.1 - a.1)| / d)⌉ - 1).toNat := by
    simp [segExtraFl]
  rw [e]
  have hm : 0 ≤ max |b.1 - a.1| |b.2 - a.2| := le_max_of_le_left (abs_nonneg _)
  have hX : max |fl (b.2 - a.2)| |fl (b.1 - a.1)| ≤ max |b.1 - a.1| |b.2 - a.2| * (1 + u) := by
    have key : ∀ t : K, |fl t| ≤ |t| * (1 + u) := by
      intro t
      have := abs_add_le (fl t - t) t
      rw [sub_add_cancel] at this
      linarith [hr t]
    exact max_le ((key _).trans (mul_le_mul_of_nonneg_right (le_max_right _ _) (by linarith))) ((key _).trans (mul_le_mul_of_nonneg_right (le_max_left _ _) (by linarith)))
  generalize max |fl (b.2 - a.2)| |fl (b.1 - a.1)| = X at *
  generalize max |b.1 - a.1| |b.2 - a.2| = m at *
  rcases le_or_gt (⌈fl (X / d)⌉ - 1) 0 with h | h
  · rw [Int.toNat_of_nonpos h, Nat.cast_zero, zero_mul]
    exact hm
  · have h1 : (((⌈fl (X / d)⌉ - 1).toNat : ℤ) : K) < fl (X / d) := by
      rw [Int.toNat_of_nonneg h.le]
      have := Int.ceil_lt_add_one (fl (X / d))
      push_cast
      linarith
    rw [Int.cast_natCast] at h1
    generalize ((⌈fl (X / d)⌉ - 1).toNat : K) = n at *
    have h2 := hr (X / d)
    have hpos : 0 ≤ X / d ∨ X / d < 0 := le_or_gt _ _
    have h3 : fl (X / d) ≤ m / d * (1 + 3 * u) := by
      have h4 : X / d ≤ m * (1 + u) / d := div_le_div_of_nonneg_right hX hd.le
      have h5 : m * (1 + u) / d = m / d * (1 + u) := by ring
      have h6 : 0 ≤ m / d := div_nonneg hm hd.le
      rcases hpos with hpos | hpos
      · rw [abs_of_nonneg hpos] at h2
        have := (abs_le.1 h2).2
        rw [h5] at h4
        have h7 := mul_le_mul_of_nonneg_right h4 (show 0 ≤ 1 + u by linarith)
        nlinarith [mul_nonneg h6 h0, mul_nonneg (mul_nonneg h6 h0) (show 0 ≤ 1 - u by linarith)]
      · rw [abs_of_neg hpos] at h2
        have := (abs_le.1 h2).2
        nlinarith [mul_nonneg h6 h0]
    have h8 : (0 : K) < 1 + 3 * u := by linarith
    rw [← mul_div_assoc, div_le_iff₀ h8]
    have h9 := mul_le_mul_of_nonneg_right (h1.le.trans h3) hd.le
    rwa [show m / d * (1 + 3 * u) * d = m * (1 + 3 * u) * (d / d) by ring, div_self hd.ne', mul_one] at h9

theorem rangePointFl_zero {fl : K → K} (hR : Rounding fl) {a : K × K} (ha : Representable fl a) (b : K × K) (N : Nat) : rangePointFl fl a b N 0 = a := by
  unfold rangePointFl
  refine Prod.ext ?_ ?_
  · simp [hR.zero, ha.1]
  · simp [hR.zero, ha.2]

/-- One coordinate of an inserted point. -/
theorem range_coord {fl : K → K} {u : K} (hr : RelError fl u) (h0 : 0 ≤ u) (hu : u ≤ 1 / 100) {x y M : K} (hx : |x| ≤ M) (hy : |y| ≤ M) {n k : Nat} (hk : k ≤ n + 1) :
    |fl (fl (fl (fl (1 / (((n + 2 : Nat) : K) - 1)) * fl (y - x)) * (k : K)) + x) - (1 / (((n + 2 : Nat) : K) - 1) * (y - x) * (k : K) + x)| ≤ 11 * u * M := by
  have hu1 : u < 1 := by linarith
  have hM : 0 ≤ M := (abs_nonneg x).trans hx
  have eN : (((n + 2 : Nat) : K) - 1) = (n : K) + 1 := by push_cast; ring
  rw [eN]
  have hn : (0 : K) < (n : K) + 1 := by positivity
  have hk' : (k : K) ≤ (n : K) + 1 := by exact_mod_cast hk
  obtain ⟨f1, hf1, e1⟩ := rnd_fac hr h0 hu1 (1 / ((n : K) + 1))
  obtain ⟨f2, hf2, e2⟩ := rnd_fac hr h0 hu1 (y - x)
  obtain ⟨f3, hf3, e3⟩ := rnd_fac hr h0 hu1 (fl (1 / ((n : K) + 1)) * fl (y - x))
  obtain ⟨f4, hf4, e4⟩ := rnd_fac hr h0 hu1 (fl (fl (1 / ((n : K) + 1)) * fl (y - x)) * (k : K))
  have hall : Fac u 4 (f1 * f2 * f3 * f4) := ((hf1.mul hu1 hf2).mul hu1 hf3).mul hu1 hf4
  have herr := hall.err h0 (by norm_num; linarith) hu1
  have ew : fl (fl (fl (1 / ((n : K) + 1)) * fl (y - x)) * (k : K)) = (1 / ((n : K) + 1) * (y - x) * k) * (f1 * f2 * f3 * f4) := by
    rw [e4, e3, e2, e1]; ring
  rw [ew]
  generalize f1 * f2 * f3 * f4 = f at herr
  set Δ := 1 / ((n : K) + 1) * (y - x) * k with hΔ
  have ht : 0 ≤ (k : K) / ((n : K) + 1) ∧ (k : K) / ((n : K) + 1) ≤ 1 := ⟨by positivity, (div_le_one hn).2 hk'⟩
  have eΔ : Δ = (k : K) / ((n : K) + 1) * (y - x) := by rw [hΔ]; ring
  generalize (k : K) / ((n : K) + 1) = t at ht eΔ
  have hyx : |y - x| ≤ 2 * M := (abs_sub _ _).trans (by linarith)
  have hD : |Δ| ≤ 2 * M := by
    rw [eΔ, abs_mul, abs_of_nonneg ht.1]
    nlinarith [abs_nonneg (y - x), ht.2]
  have hQ : |Δ + x| ≤ M := by
    rw [eΔ, show t * (y - x) + x = t * y + (1 - t) * x by ring]
    refine (abs_add_le _ _).trans ?_
    rw [abs_mul, abs_mul, abs_of_nonneg ht.1, abs_of_nonneg (show 0 ≤ 1 - t by linarith [ht.2])]
    nlinarith [mul_le_mul_of_nonneg_left hy ht.1, mul_le_mul_of_nonneg_left hx (show 0 ≤ 1 - t by linarith [ht.2])]
  have herr' : |f - 1| ≤ 10 / 9 * 4 * u := by push_cast at herr; exact herr
  have hd : |Δ * f - Δ| ≤ 80 / 9 * u * M := by
    rw [show Δ * f - Δ = Δ * (f - 1) by ring, abs_mul]
    calc |Δ| * |f - 1| ≤ 2 * M * (10 / 9 * 4 * u) := mul_le_mul hD herr' (abs_nonneg _) (by positivity)
      _ = 80 / 9 * u * M := by ring
  have huM : u * M ≤ 1 / 100 * M := mul_le_mul_of_nonneg_right hu hM
  have hS : |Δ * f + x| ≤ 11 / 10 * M := by
    rw [show Δ * f + x = (Δ * f - Δ) + (Δ + x) by ring]
    refine (abs_add_le _ _).trans ?_
    linarith
  have hlast := hr (Δ * f + x)
  have hl2 : u * |Δ * f + x| ≤ u * (11 / 10 * M) := mul_le_mul_of_nonneg_left hS h0
  rw [show fl (Δ * f + x) - (Δ + x) = (fl (Δ * f + x) - (Δ * f + x)) + (Δ * f - Δ) by ring]
  refine (abs_add_le _ _).trans ?_
  nlinarith [mul_nonneg h0 hM]

theorem rangePointFl_near {fl : K → K} {u : K} (hr : RelError fl u) (h0 : 0 ≤ u) (hu : u ≤ 1 / 100) {a b : K × K} {M : K} (ha : |a.1| ≤ M ∧ |a.2| ≤ M) (hb : |b.1| ≤ M ∧ |b.2| ≤ M)
    {n k : Nat} (hk : k ≤ n + 1) : NearBy (11 * u * M) (rangePointFl fl a b (n + 2) k) (rangePoint a b (n + 2) k) :=
  ⟨range_coord hr h0 hu ha.1 hb.1 hk, range_coord hr h0 hu ha.2 hb.2 hk⟩

/-- The rows written for one segment, and the point after it. -/
theorem segRowsFl_split {fl : K → K} {u : K} (hR : Rounding fl) (hr : RelError fl u) (h0 : 0 ≤ u) (hu : u ≤ 1 / 100) {d : K} (hd : 0 < d) {a b : K × K} {M : K} (hrep : Representable fl a)
    (ha : |a.1| ≤ M ∧ |a.2| ≤ M) (hb : |b.1| ≤ M ∧ |b.2| ≤ M) :
    ∃ mid : List (K × K), segRowsFl fl (some a) (some b) (segExtraFl fl d (some a) (some b) true) = some a :: mid.map some ∧
      (mid.length : K) * (d / (1 + 3 * u)) ≤ max |b.1 - a.1| |b.2 - a.2| ∧ ((a :: mid ++ [b]).IsChain fun p q => |q.1 - p.1| ≤ d * (1 + 3 * u) + 22 * u * M ∧ |q.2 - p.2| ≤ d * (1 + 3 * u) + 22 * u * M) ∧
      ∀ q ∈ mid, ∃ q', OnSegment a b q' ∧ NearBy (11 * u * M) q q' := by
  obtain ⟨h1, h2⟩ := segExtraFl_bound hr h0 hu hd a b
  have h3 := segExtraFl_few hr h0 hu hd a b
  generalize segExtraFl fl d (some a) (some b) true = ni at h1 h2 h3
  have hM : 0 ≤ M := (abs_nonneg _).trans ha.1
  -- the points, with the end point itself at the end
  let g : Nat → K × K := fun k => if k = ni + 1 then b else rangePointFl fl a b (ni + 2) k
  have hg : ∀ k, k ≤ ni + 1 → NearBy (11 * u * M) (g k) (rangePoint a b (ni + 2) k) := by
    intro k hk
    by_cases e : k = ni + 1
    · simp only [g, if_pos e]
      rw [e, rangePoint_end]
      exact ⟨by simp; positivity, by simp; positivity⟩
    · simp only [g, if_neg e]
      exact rangePointFl_near hr h0 hu ha hb hk
  have hall : ((List.range (ni + 2)).map g).IsChain
      fun p q => |q.1 - p.1| ≤ d * (1 + 3 * u) + 22 * u * M ∧ |q.2 - p.2| ≤ d * (1 + 3 * u) + 22 * u * M := by
    rw [List.isChain_map, List.isChain_iff_getElem]
    intro i hi
    simp only [List.getElem_range]
    simp only [List.length_range] at hi
    have s := rangePoint_step (d := d * (1 + 3 * u)) h1 h2 i
    have n1 := hg i (by omega)
    have n2 := hg (i + 1) (by omega)
    constructor
    · have t1 := abs_le.1 s.1
      have t2 := abs_le.1 n1.1
      have t3 := abs_le.1 n2.1
      rw [abs_le]
      constructor <;> linarith [t1.1, t1.2, t2.1, t2.2, t3.1, t3.2]
    · have t1 := abs_le.1 s.2
      have t2 := abs_le.1 n1.2
      have t3 := abs_le.1 n2.2
      rw [abs_le]
      constructor <;> linarith [t1.1, t1.2, t2.1, t2.2, t3.1, t3.2]
  refine ⟨(List.range ni).map fun k => rangePointFl fl a b (ni + 2) (k + 1), ?_, by simpa using h3, ?_, ?_⟩
  · unfold segRowsFl
    split
    · rename_i h; simp [h]
    · simp only
      rw [List.range_succ_eq_map, List.map_cons, rangePointFl_zero hR hrep, List.map_map, List.map_map]
      rfl
  · have e : (List.range (ni + 2)).map g = a :: ((List.range ni).map fun k => rangePointFl fl a b (ni + 2) (k + 1)) ++ [b] := by
      rw [List.range_succ, List.map_append, List.map_cons, List.map_nil, List.range_succ_eq_map, List.map_cons, List.map_map]
      have g0 : g 0 = a := by simp only [g]; rw [if_neg (by omega), rangePointFl_zero hR hrep]
      have g1 : g (ni + 1) = b := by simp [g]
      rw [g0, g1]
      congr 2
      apply List.map_congr_left
      intro k hk
      rw [List.mem_range] at hk
      simp only [Function.comp_apply, Nat.succ_eq_add_one, g]
      rw [if_neg (by omega)]
    rw [e] at hall
    exact hall
  · intro q hq
    obtain ⟨k, hk, rfl⟩ := List.mem_map.1 hq
    rw [List.mem_range] at hk
    exact ⟨_, rangePoint_on a b (by omega), rangePointFl_near hr h0 hu ha hb (by omega)⟩

theorem fillRowsFl_spec {fl : K → K} {u : K} (hR : Rounding fl) (hr : RelError fl u) (h0 : 0 ≤ u) (hu : u ≤ 1 / 100) {d : K} (hd : 0 < d) {M : K} :
    ∀ (poly : List (Option (K × K))) (ins : List Bool) (r : Option (K × K)), (∀ p, some p ∈ poly → Representable fl p ∧ |p.1| ≤ M ∧ |p.2| ≤ M) →
    ins.length = poly.length → poly.getLast? = some r →
    DensifiedUpTo (d / (1 + 3 * u)) (d * (1 + 3 * u) + 22 * u * M) (11 * u * M) poly ins (fillRowsFl fl poly (segExtrasFl fl d poly ins) ++ [r])
  | [], _, _, _, _, h => by simp at h
  | [x], [], _, _, h, _ => by simp at h
  | [x], _ :: _ :: _, _, _, h, _ => by simp at h
  | [x], [m], r, _, _, hr => by
    simp only [List.getLast?_singleton, Option.some.injEq] at hr
    subst hr
    exact DensifiedUpTo.last x m
  | a :: b :: l, [], _, _, h, _ => by simp at h
  | a :: b :: l, [_], _, _, h, _ => by simp at h
  | a :: b :: l, m :: mb :: ms, r, hp, h, hlast => by
    have ih := fillRowsFl_spec hR hr h0 hu hd (b :: l) (mb :: ms) r (fun p h => hp p (List.mem_cons_of_mem _ h)) (by simpa using h) (by rw [← hlast, List.getLast?_cons_cons])
    rw [segExtrasFl, fillRowsFl]
    by_cases hk : mb = false ∨ a = none ∨ b = none
    · have e : segExtraFl fl d a b mb = 0 := by
        unfold segExtraFl
        rcases hk with hk | hk | hk
        · rw [if_pos hk]
        · subst hk; split <;> rfl
        · subst hk; split
          · rfl
          · cases a <;> rfl
      have e2 : segRowsFl fl a b (segExtraFl fl d a b mb) = [a] := by rw [e]; simp [segRowsFl]
      rw [e2]
      exact DensifiedUpTo.keep a b l m mb ms _ hk ih
    · push Not at hk
      obtain ⟨k1, k2, k3⟩ := hk
      obtain ⟨a, rfl⟩ := Option.ne_none_iff_exists'.1 k2
      obtain ⟨b, rfl⟩ := Option.ne_none_iff_exists'.1 k3
      have k1 : mb = true := by simpa using k1
      subst k1
      obtain ⟨hra, hba⟩ := hp a (by simp)
      obtain ⟨_, hbb⟩ := hp b (by simp)
      obtain ⟨mid, e, hfew, hstep, hon⟩ := segRowsFl_split hR hr h0 hu hd hra hba hbb
      rw [e, List.append_assoc]
      exact DensifiedUpTo.split a b mid l m ms _ hfew hstep hon ih

/-- If nothing is to be inserted the rows are those of the array. -/
theorem fillRowsFl_zero (fl : K → K) : ∀ (poly : List (Option (K × K))) (nin : List Nat) (r : Option (K × K)), nin.length + 1 = poly.length →
    poly.getLast? = some r → nin.sum = 0 → fillRowsFl fl poly nin ++ [r] = poly
  | [], nin, _, h, _, _ => by simp at h
  | [x], nin, r, h, hr, _ => by
    simp only [List.getLast?_singleton, Option.some.injEq] at hr
    simp [fillRowsFl, hr]
  | a :: b :: l, [], _, h, _, _ => by simp at h
  | a :: b :: l, ni :: nin, r, h, hr, hs => by
    rw [List.sum_cons, Nat.add_eq_zero_iff] at hs
    have ih := fillRowsFl_zero fl (b :: l) nin r (by simpa using h) (by rw [← hr, List.getLast?_cons_cons]) hs.2
    rw [fillRowsFl, hs.1, List.append_assoc, ih]
    simp [segRowsFl]

/-- **C133** (5) Densifying: all points are kept as they are, in order; inserted points are within `11 u M` of the segment; the steps are at most `d (1 + 3 u) + 22 u M`,
`M` a bound for the coordinates. -/
theorem C133_densify_partial {fl : K → K} {u : K} (hR : Rounding fl) (hr : RelError fl u) (h0 : 0 ≤ u) (hu : u ≤ 1 / 100) {d : K} (hd : 0 < d) {M : K} {poly : List (Option (K × K))} {ins : List Bool}
    (hp : ∀ p, some p ∈ poly → Representable fl p ∧ |p.1| ≤ M ∧ |p.2| ≤ M) (hlen : ins.length = poly.length) (hne : poly ≠ []) :
    ∃ out, densifyFl fl d poly ins = some out ∧ DensifiedUpTo (d / (1 + 3 * u)) (d * (1 + 3 * u) + 22 * u * M) (11 * u * M) poly ins out ∧ poly.Sublist out := by
  obtain ⟨r, hlast⟩ : ∃ r, poly.getLast? = some r := ⟨_, List.getLast?_eq_some_getLast hne⟩
  have hn := segExtrasFl_length fl d poly ins hlen hne
  have hsp := fillRowsFl_spec hR hr h0 hu hd poly ins r hp hlen hlast
  refine ⟨_, ?_, hsp, hsp.sublist⟩
  unfold densifyFl
  simp only
  split
  · rename_i h0
    rw [fillRowsFl_zero fl poly _ r hn hlast h0]
  · obtain ⟨z, hz⟩ := fillLoopFl_spec fl poly (segExtrasFl fl d poly ins)
      (List.replicate ((segExtrasFl fl d poly ins).sum + poly.length) none) 0 hn (by simp)
    rw [hz, hlast]
    simp only
    rw [writeAt_spec (by simp)]
    simp

theorem length_roll {α : Type} (l : List α) : (roll l).length = l.length := by
  unfold roll
  cases h : l.getLast? with
  | none => rw [List.getLast?_eq_none_iff] at h; simp [h]
  | some x =>
    have hne : l ≠ [] := by rintro rfl; simp at h
    have := List.length_pos_iff.2 hne
    simp
    omega

theorem mem_roll {α : Type} {l : List α} {x : α} (h : x ∈ roll l) : x ∈ l := by
  unfold roll at h
  cases hl : l.getLast? with
  | none => rw [hl] at h; simp at h
  | some y =>
    rw [hl] at h
    rcases List.mem_cons.1 h with rfl | h
    · exact List.mem_of_getLast? hl
    · exact List.mem_of_mem_dropLast h

/-- The products of a scalar product. -/
theorem products_near {fl : K → K} {u : K} (hr : RelError fl u) (h0 : 0 ≤ u) : ∀ (l : List (K × K)) (qs : List K),
    List.Forall₂ (fun (xy : K × K) q => q = fl (xy.1 * xy.2) ∨ q = xy.1 * xy.2) l qs →
    |qs.sum - (l.map fun p => p.1 * p.2).sum| ≤ u * (l.map fun p => |p.1 * p.2|).sum ∧ (qs.map (|·|)).sum ≤ (1 + u) * (l.map fun p => |p.1 * p.2|).sum := by
  intro l
  induction l with
  | nil =>
    intro qs h
    rw [List.forall₂_nil_left_iff] at h
    subst h
    simp
  | cons p l ih =>
    intro qs h
    rw [List.forall₂_cons_left_iff] at h
    obtain ⟨q, qs', hq, hqs, rfl⟩ := h
    obtain ⟨i1, i2⟩ := ih qs' hqs
    have hq' : |q - p.1 * p.2| ≤ u * |p.1 * p.2| := by
      rcases hq with rfl | rfl
      · exact hr _
      · rw [sub_self, abs_zero]; positivity
    have hq2 : |q| ≤ (1 + u) * |p.1 * p.2| := by
      have := abs_add_le (q - p.1 * p.2) (p.1 * p.2)
      rw [sub_add_cancel] at this
      linarith
    simp only [List.sum_cons, List.map_cons]
    constructor
    · rw [show q + qs'.sum - (p.1 * p.2 + (l.map fun p => p.1 * p.2).sum) = (q - p.1 * p.2) + (qs'.sum - (l.map fun p => p.1 * p.2).sum) by ring]
      refine (abs_add_le _ _).trans ?_
      linarith
    · linarith

/-- A scalar product. -/
theorem dot_near {fl : K → K} {u : K} (hr : RelError fl u) (h0 : 0 ≤ u) {dt : List K → List K → K} (hd : DotsUp fl dt) {x y : List K} (hx : x ≠ []) (hl : x.length = y.length) :
    |dt x y - dot x y| ≤ ((1 + u) ^ (x.length + 1) - 1) * ((x.zip y).map fun p => |p.1 * p.2|).sum := by
  obtain ⟨qs, hq, hs⟩ := hd x y hx hl
  obtain ⟨a1, a2⟩ := products_near hr h0 _ _ hq
  have a3 := roundedSum_abs hr h0 hs
  have hql : qs.length = x.length := by
    have := hq.length_eq
    rw [List.length_zip, ← hl, min_self] at this
    exact this.symm
  rw [hql] at a3
  have e : dot x y = ((x.zip y).map fun p => p.1 * p.2).sum := by
    unfold dot
    rw [List.zip, List.map_zipWith]
  rw [e]
  have hc : 1 ≤ (1 + u) ^ x.length := one_le_pow₀ (by linarith)
  have hS : 0 ≤ ((x.zip y).map fun p => |p.1 * p.2|).sum := List.sum_nonneg (by intro t ht; obtain ⟨p, _, rfl⟩ := List.mem_map.1 ht; exact abs_nonneg _)
  have a4 := mul_le_mul_of_nonneg_left a2 (show 0 ≤ (1 + u) ^ x.length - 1 by linarith)
  rw [show dt x y - ((x.zip y).map fun p => p.1 * p.2).sum = (dt x y - qs.sum) + (qs.sum - ((x.zip y).map fun p => p.1 * p.2).sum) by ring, pow_succ]
  refine (abs_add_le _ _).trans ?_
  nlinarith

/-- **C133** (6) The area of a polygon with `n` corners is wrong by at most `2 n (n + 3) u M²`, `M` a bound for the coordinates, whatever the order of summation. -/
theorem C133_area_error {fl : K → K} {u : K} (hr : RelError fl u) (h0 : 0 ≤ u) {dt : List K → List K → K} (hd : DotsUp fl dt) {x y : List K} (hx : x ≠ []) (hl : x.length = y.length)
    (hu : (x.length + 3 : K) * u ≤ 1 / 10) {M : K} (hxM : ∀ t ∈ x, |t| ≤ M) (hyM : ∀ t ∈ y, |t| ≤ M) :
    ∃ A A', polyAreaFl fl dt x y = some A' ∧ polyArea x y = some A ∧ |A' - A| ≤ 2 * x.length * (x.length + 3) * u * M ^ 2 := by
  have hM : 0 ≤ M := by
    obtain ⟨t, ht⟩ := List.exists_mem_of_ne_nil x hx
    exact (abs_nonneg t).trans (hxM t ht)
  have hy : y ≠ [] := by rintro rfl; simp at hl; exact hx hl
  have hlen : 1 ≤ x.length := List.length_pos_iff.2 hx
  have hN : (1 : K) ≤ x.length := by exact_mod_cast hlen
  have hu1 : u < 1 := by nlinarith
  have bound : ∀ a b : List K, a.length = x.length → (∀ t ∈ a, |t| ≤ M) → (∀ t ∈ b, |t| ≤ M) → ((a.zip b).map fun p => |p.1 * p.2|).sum ≤ x.length * M ^ 2 ∧
      0 ≤ ((a.zip b).map fun p => |p.1 * p.2|).sum := by
    intro a b ha h1 h2
    have hnn : 0 ≤ ((a.zip b).map fun p => |p.1 * p.2|).sum := List.sum_nonneg (by intro t ht; obtain ⟨p, _, rfl⟩ := List.mem_map.1 ht; exact abs_nonneg _)
    refine ⟨?_, hnn⟩
    have := List.sum_le_card_nsmul ((a.zip b).map fun p => |p.1 * p.2|) (M ^ 2) (by
      intro t ht
      obtain ⟨p, hp, rfl⟩ := List.mem_map.1 ht
      obtain ⟨h3, h4⟩ := List.of_mem_zip hp
      rw [abs_mul, pow_two]
      exact mul_le_mul (h1 _ h3) (h2 _ h4) (abs_nonneg _) hM)
    refine this.trans ?_
    rw [nsmul_eq_mul, List.length_map, List.length_zip]
    refine mul_le_mul_of_nonneg_right ?_ (by positivity)
    exact_mod_cast (min_le_left _ _).trans ha.le
  have d1 := dot_near hr h0 hd hx (y := roll y) (by rw [length_roll]; exact hl)
  have d2 := dot_near hr h0 hd hy (y := roll x) (by rw [length_roll]; exact hl.symm)
  rw [← hl] at d2
  obtain ⟨s1, s1'⟩ := bound x (roll y) rfl hxM fun t ht => hyM t (mem_roll ht)
  obtain ⟨s2, s2'⟩ := bound y (roll x) hl.symm hyM fun t ht => hxM t (mem_roll ht)
  have habs : ∀ a b : List K, |dot a b| ≤ ((a.zip b).map fun p => |p.1 * p.2|).sum := by
    intro a b
    have e : dot a b = ((a.zip b).map fun p => p.1 * p.2).sum := by
      unfold dot
      rw [List.zip, List.map_zipWith]
    rw [e]
    generalize a.zip b = l
    induction l with
    | nil => simp
    | cons p l ih => simp only [List.map_cons, List.sum_cons]; exact (abs_add_le _ _).trans (by linarith)
  have b1 := habs x (roll y)
  have b2 := habs y (roll x)
  refine ⟨1 / 2 * |dot x (roll y) - dot y (roll x)|, fl (1 / 2 * |fl (dt x (roll y) - dt y (roll x))|), by rw [polyAreaFl, if_pos hl], by rw [polyArea, if_pos hl], ?_⟩
  have hc := (one_add_pow_fac h0 hu1 (x.length + 3)).err h0 (by push_cast; exact hu) hu1
  have hc' := (le_abs_self _).trans hc
  push_cast at hc'
  have hcc : 1 ≤ (1 + u) ^ (x.length + 1) := one_le_pow₀ (by linarith)
  rw [show x.length + 3 = x.length + 1 + 2 by ring, pow_add] at hc'
  generalize (1 + u) ^ (x.length + 1) = c at *
  generalize ((x.zip (roll y)).map fun p => |p.1 * p.2|).sum = S1 at *
  generalize ((y.zip (roll x)).map fun p => |p.1 * p.2|).sum = S2 at *
  generalize dt x (roll y) = p' at *
  generalize dt y (roll x) = q' at *
  generalize dot x (roll y) = p at *
  generalize dot y (roll x) = q at *
  have e1 := hr (p' - q')
  have e2 := hr (1 / 2 * |fl (p' - q')|)
  generalize fl (p' - q') = F at *
  generalize fl (1 / 2 * |F|) = A' at *
  have f1 : |p' - q' - (p - q)| ≤ (c - 1) * (S1 + S2) := by
    rw [show p' - q' - (p - q) = (p' - p) - (q' - q) by ring]
    refine (abs_sub _ _).trans ?_
    linarith
  have f2 : |p' - q'| ≤ c * (S1 + S2) := by
    have t1 := abs_add_le (p' - q' - (p - q)) (p - q)
    rw [sub_add_cancel] at t1
    have t2 := abs_sub p q
    linarith
  have f3 : |F - (p - q)| ≤ (c * (1 + u) - 1) * (S1 + S2) := by
    rw [show F - (p - q) = (F - (p' - q')) + (p' - q' - (p - q)) by ring]
    refine (abs_add_le _ _).trans ?_
    have := mul_le_mul_of_nonneg_left f2 h0
    linarith
  have f4 : |F| ≤ c * (1 + u) * (S1 + S2) := by
    have t1 := abs_add_le (F - (p - q)) (p - q)
    rw [sub_add_cancel] at t1
    have t2 := abs_sub p q
    linarith
  have f5 : abs (1 / 2 * |F| - 1 / 2 * |p - q|) ≤ 1 / 2 * ((c * (1 + u) - 1) * (S1 + S2)) := by
    rw [← mul_sub, abs_mul, abs_of_pos (show (0 : K) < 1 / 2 by norm_num)]
    exact mul_le_mul_of_nonneg_left ((abs_abs_sub_abs_le _ _).trans f3) (by norm_num)
  rw [abs_mul, abs_abs, abs_of_pos (show (0 : K) < 1 / 2 by norm_num)] at e2
  have f6 := mul_le_mul_of_nonneg_left f4 h0
  have f7 : abs (A' - 1 / 2 * |p - q|) ≤ 1 / 2 * ((c * (1 + u) ^ 2 - 1) * (S1 + S2)) := by
    rw [show A' - 1 / 2 * |p - q| = (A' - 1 / 2 * |F|) + (1 / 2 * |F| - 1 / 2 * |p - q|) by ring]
    refine (abs_add_le _ _).trans ?_
    nlinarith
  refine f7.trans ?_
  have hSS : S1 + S2 ≤ 2 * x.length * M ^ 2 := by linarith
  have hSS0 : 0 ≤ S1 + S2 := by linarith
  have g1 := mul_le_mul hc' hSS hSS0 (show 0 ≤ 10 / 9 * ((x.length : K) + 3) * u by positivity)
  have g2 : 0 ≤ (x.length : K) * ((x.length + 3) * u) * M ^ 2 := by positivity
  nlinarith

/-- **C133** (7) The area is not negative. -/
theorem C133_area_nonneg {fl : K → K} (hf : Rounding fl) {dt : List K → List K → K} {x y : List K} {A : K} (h : polyAreaFl fl dt x y = some A) : 0 ≤ A := by
  unfold polyAreaFl at h
  split at h
  · rw [Option.some_inj] at h
    rw [← h, ← hf.zero]
    exact hf.mono (by positivity)
  · cases h

end

/-- **C133** (8) Negation, in doubles: the points inserted in a line of 49 degrees with a spacing of 1 leave a gap larger than 1. -/
theorem C133_gap_exceeded : ∃ (pts : List (Option (ℚ × ℚ))) (flags : List Bool) (out : List (Option (ℚ × ℚ))) (a b : ℚ × ℚ),
    (∀ p, some p ∈ pts → Representable roundDouble p) ∧ densifyFl roundDouble 1 pts flags = some out ∧ [some a, some b] <:+: out ∧ a.2 = b.2 ∧ 1 < b.1 - a.1 := by
  have h : ∃ out, densifyFl roundDouble 1 [some (0, 0), some ((49 : ℚ), 0)] [true, true] = some out ∧ out.drop 48 = [some (6755399441055743 / 140737488355328, 0), some (49, 0)] := by
    cases e : densifyFl roundDouble 1 [some (0, 0), some ((49 : ℚ), 0)] [true, true] with
    | none => exact absurd e (by decide +kernel)
    | some out =>
      refine ⟨out, rfl, ?_⟩
      have : (densifyFl roundDouble 1 [some (0, 0), some ((49 : ℚ), 0)] [true, true]).map (·.drop 48) = some [some (6755399441055743 / 140737488355328, 0), some (49, 0)] := by decide +kernel
      rw [e, Option.map_some, Option.some_inj] at this
      exact this
  obtain ⟨out, h1, h2⟩ := h
  refine ⟨[some (0, 0), some (49, 0)], [true, true], out, (6755399441055743 / 140737488355328, 0), (49, 0), ?_, h1, ?_, rfl, by norm_num⟩
  · intro p hp
    rcases List.mem_cons.1 hp with h | h
    · rw [Option.some_inj] at h
      subst h
      exact ⟨by decide +kernel, by decide +kernel⟩
    · rw [List.mem_singleton, Option.some_inj] at h
      subst h
      exact ⟨by decide +kernel, by decide +kernel⟩
  · rw [← h2]
    exact (List.drop_suffix _ _).isInfix

/-- The corners of a square. -/
def squareAt (x y s : ℚ) : List ℚ × List ℚ := ([x, x + s, x + s, x], [y, y, y + s, y + s])

/-- **C133** (9) Negation, in doubles with sums from left to right: the area depends on where the polygon lies. Squares of side `2^-23` and `5 / 2^21`: the area is exact at the origin; at (180, 45) the
first has area 0 and the second is too large by more than a quarter. -/
theorem C133_area_cancels : (polyAreaFl roundDouble idwToolsD.dot (squareAt 0 0 (1 / 2 ^ 23)).1 (squareAt 0 0 (1 / 2 ^ 23)).2 = some ((1 / 2 ^ 23) ^ 2) ∧
      polyAreaFl roundDouble idwToolsD.dot (squareAt 180 45 (1 / 2 ^ 23)).1 (squareAt 180 45 (1 / 2 ^ 23)).2 = some 0) ∧
    ∃ A, polyAreaFl roundDouble idwToolsD.dot (squareAt 180 45 (5 / 2 ^ 21)).1 (squareAt 180 45 (5 / 2 ^ 21)).2 = some A ∧ 5 / 4 * (5 / 2 ^ 21) ^ 2 < A :=
  ⟨⟨by decide +kernel, by decide +kernel⟩, 1 / 137438953472, by decide +kernel, by norm_num⟩

/-! ## Examples -/

example : ∃ out, densifyFl roundDouble (roundDouble (1 / 10)) [some (0, 0), some (1, roundDouble (1 / 3)), none, some (2, 2), some (3, 5)] [true, true, true, false, true] = some out ∧
    DensifiedUpTo (roundDouble (1 / 10) / (1 + 3 * (1 / 2 ^ 53))) (roundDouble (1 / 10) * (1 + 3 * (1 / 2 ^ 53)) + 22 * (1 / 2 ^ 53) * 5) (11 * (1 / 2 ^ 53) * (5 : ℚ))
      [some (0, 0), some (1, roundDouble (1 / 3)), none, some (2, 2), some (3, 5)] [true, true, true, false, true] out ∧
    [some (0, 0), some (1, roundDouble (1 / 3)), none, some (2, 2), some (3, 5)].Sublist out := by
  refine C133_densify_partial C113_roundDouble.1 C113_roundDouble.2 (by norm_num) (by norm_num) (by decide +kernel) ?_ rfl (by simp)
  intro p hp
  simp only [List.mem_cons, Option.some_inj, reduceCtorEq, List.not_mem_nil, or_false, false_or] at hp
  rcases hp with rfl | rfl | rfl | rfl <;> exact ⟨⟨by decide +kernel, by decide +kernel⟩, by decide +kernel, by decide +kernel⟩

example : ∃ A A', polyAreaFl roundDouble idwToolsD.dot (squareAt 180 45 (1 / 2 ^ 23)).1 (squareAt 180 45 (1 / 2 ^ 23)).2 = some A' ∧
    polyArea (squareAt 180 45 (1 / 2 ^ 23)).1 (squareAt 180 45 (1 / 2 ^ 23)).2 = some A ∧ |A' - A| ≤ 2 * 4 * (4 + 3) * (1 / 2 ^ 53) * 181 ^ 2 := by
  have := C133_area_error C113_roundDouble.2 (by norm_num) idwToolsD_good.dots (x := (squareAt 180 45 (1 / 2 ^ 23)).1) (y := (squareAt 180 45 (1 / 2 ^ 23)).2) (by simp [squareAt]) rfl
    (by simp [squareAt]; norm_num) (M := 181) (by decide +kernel) (by decide +kernel)
  exact_mod_cast this

example : (0 : ℚ) ≤ 1 / 137438953472 :=
  C133_area_nonneg C113_roundDouble.1 (dt := idwToolsD.dot) (x := (squareAt 180 45 (5 / 2 ^ 21)).1) (y := (squareAt 180 45 (5 / 2 ^ 21)).2) (by decide +kernel)

end OM
