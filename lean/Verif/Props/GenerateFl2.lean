import Verif.Props.GenerateFl
import Verif.Lemmas.Double
/-!
# C125: forces, kept triangles, projection and result of `generate_mesh` in floating-point arithmetic
-/
set_option linter.unusedSectionVars false
namespace OM
open Spec

section
variable {K : Type} [Field K] [LinearOrder K]

/-! ### Forces -/

theorem medianFl_isMedian {fl : K → K} {l : List K} {m : K} (h : medianFl fl l = some m) : IsRoundedMedian fl l m := by
  have hlen := (sortBy_perm (fun a b : K => decide (a ≤ b)) l).length_eq
  unfold medianFl at h
  dsimp only at h
  rw [hlen] at h
  cases h1 : (sortBy (fun a b : K => decide (a ≤ b)) l)[(l.length - 1) / 2]? with
  | none => simp [h1] at h
  | some a =>
    cases h2 : (sortBy (fun a b : K => decide (a ≤ b)) l)[l.length / 2]? with
    | none => simp [h1, h2] at h
    | some b =>
      rw [h1, h2] at h
      refine ⟨_, a, b, sortBy_perm _ _, sortBy_le_sorted l, h1, h2, ?_⟩
      have h := Option.some.inj h
      by_cases ho : l.length % 2 = 1
      · rw [if_pos ho] at h
        exact Or.inl ⟨ho, h.symm⟩
      · rw [if_neg ho] at h
        exact Or.inr ⟨by omega, h.symm⟩

theorem medianFl_isSome {fl : K → K} {l : List K} (h : l ≠ []) : ∃ m, medianFl fl l = some m := by
  have hlen := (sortBy_perm (fun a b : K => decide (a ≤ b)) l).length_eq
  have hl : 0 < l.length := List.length_pos_iff.2 h
  unfold medianFl
  dsimp only
  rw [hlen, List.getElem?_eq_getElem (by omega), List.getElem?_eq_getElem (by omega)]
  exact ⟨_, rfl⟩

theorem barSizesFl_length {fl : K → K} {fh : List (K × K) → Option (List (Float64 K))} {stereo : Option ((K × K → K × K) × (K → Float64 K))}
    {mids : List (K × K)} {h0 : List (Float64 K)} (h : barSizesFl fl fh stereo mids = some h0) : h0.length = mids.length := by
  unfold barSizesFl at h
  cases stereo with
  | none =>
    simp only [Option.bind_eq_some_iff] at h
    obtain ⟨a, -, h2⟩ := h
    split at h2 <;> simp_all
  | some s =>
    simp only [Option.bind_eq_some_iff] at h
    obtain ⟨a, -, h2⟩ := h
    split at h2
    · have := Option.some.inj h2; subst this; simp [*]
    · simp at h2

theorem repairSizesFl_eq {fl : K → K} {h0 : List (Float64 K)} {sz : List K} (h : repairSizesFl fl h0 = some sz) :
    ∃ m, IsRoundedMedian fl (h0.filterMap Float64.positive) m ∧ sz = h0.map (Float64.orElse m) := by
  unfold repairSizesFl at h
  cases hm : medianFl fl (h0.filterMap Float64.positive) with
  | none => simp [hm] at h
  | some m => exact ⟨m, medianFl_isMedian hm, by simpa [hm] using h.symm⟩

theorem vertexEntries_eq (v : Nat) (part : K × K → K) (l : List ((Nat × Nat) × (K × K))) :
    vertexEntries v part l = signedAt v (l.map fun x => (x.1, part x.2)) := by
  induction l with
  | nil => rfl
  | cons x l ih => obtain ⟨e, f⟩ := x; simp [vertexEntries, ih, signedAt]

/-- The stages of `computeForcesFl`. -/
theorem computeForcesFl_stages {fl sqrt : K → K} {eps mult : K} {fh : List (K × K) → Option (List (Float64 K))}
    {stereo : Option ((K × K → K × K) × (K → Float64 K))} {p : List (K × K)} {t : List Tri} {F : List (K × K)}
    (h : computeForcesFl fl sqrt eps mult fh stereo p t = some F) :
    ∃ (bars : List (Nat × Nat)) (h0 : List (Float64 K)) (sz : List K) (mL mh : K),
      getBars t = some bars ∧ (∀ e ∈ bars, e.1 < p.length ∧ e.2 < p.length) ∧
      barSizesFl fl fh stereo (bars.map fun e => barMidFl fl (vertexAt p e.1, vertexAt p e.2)) = some h0 ∧ repairSizesFl fl h0 = some sz ∧
      medianFl fl (bars.map fun e => barLengthFl fl sqrt eps (vertexAt p e.1, vertexAt p e.2)) = some mL ∧ medianFl fl sz = some mh ∧
      F = (List.range p.length).map fun v =>
        (addUpFl fl (vertexEntries v Prod.fst (bars.zip (List.zipWith (barForceFl fl)
          (List.zipWith (barFactorFl fl mult (fl (mL / mh))) (bars.map fun e => barLengthFl fl sqrt eps (vertexAt p e.1, vertexAt p e.2)) sz)
          (bars.map fun e => (vertexAt p e.1, vertexAt p e.2))))),
         addUpFl fl (vertexEntries v Prod.snd (bars.zip (List.zipWith (barForceFl fl)
          (List.zipWith (barFactorFl fl mult (fl (mL / mh))) (bars.map fun e => barLengthFl fl sqrt eps (vertexAt p e.1, vertexAt p e.2)) sz)
          (bars.map fun e => (vertexAt p e.1, vertexAt p e.2)))))) := by
  simp only [computeForcesFl, Option.bind_eq_bind, Option.bind_eq_some_iff] at h
  obtain ⟨bars, h1, ends, h2, h0, h3, sz, h4, mL, h5, mh, h6, h7⟩ := h
  obtain ⟨rfl, h8⟩ := barEnds_eq h2
  simp only [List.map_map, Function.comp_def] at h3 h5 h7
  exact ⟨bars, h0, sz, mL, mh, h1, h8, h3, h4, h5, h6, by simpa using h7.symm⟩

variable [IsStrictOrderedRing K]

theorem barFactorFl_nonneg {fl : K → K} (hR : Rounding fl) {mult ratio L h : K} (hL : 0 ≤ L) : 0 ≤ barFactorFl fl mult ratio L h := by
  unfold barFactorFl
  refine rnd_nonneg hR (div_nonneg ?_ hL)
  split
  · exact le_rfl
  · rename_i h; exact not_lt.1 h

theorem barLengthFl_pos {fl sqrt : K → K} (hs : ∀ x, 0 ≤ sqrt x) {eps : K} (he : 0 < eps) (e : (K × K) × (K × K)) : 0 < barLengthFl fl sqrt eps e := by
  unfold barLengthFl
  dsimp only
  split
  · exact he
  · rename_i h
    exact lt_of_le_of_ne (hs _) (Ne.symm h)

theorem signedAt_sum (v : Nat) (l : List ((Nat × Nat) × K)) :
    (signedAt v l).sum = (l.map fun x => (if x.1.1 = v then x.2 else 0) + (if x.1.2 = v then -x.2 else 0)).sum := by
  induction l with
  | nil => rfl
  | cons x l ih =>
    obtain ⟨e, f⟩ := x
    simp only [signedAt] at ih
    simp only [signedAt, List.flatMap_cons, List.sum_append, List.map_cons, List.sum_cons]
    rw [← ih]
    split <;> split <;> simp

theorem signedAt_abs_sum (v : Nat) (l : List ((Nat × Nat) × K)) :
    ((signedAt v l).map fun y => |y|).sum = (l.map fun x => (if x.1.1 = v then |x.2| else 0) + (if x.1.2 = v then |x.2| else 0)).sum := by
  induction l with
  | nil => rfl
  | cons x l ih =>
    obtain ⟨e, f⟩ := x
    simp only [signedAt] at ih
    simp only [signedAt, List.flatMap_cons, List.map_append, List.sum_append, List.map_cons, List.sum_cons]
    rw [← ih]
    split <;> split <;> simp

theorem sum_range_abs {l : List ((Nat × Nat) × K)} {n : Nat} (h : ∀ x ∈ l, x.1.1 < n ∧ x.1.2 < n) :
    ((List.range n).map fun v => (l.map fun x => (if x.1.1 = v then |x.2| else 0) + (if x.1.2 = v then |x.2| else 0)).sum).sum =
      2 * (l.map fun x => |x.2|).sum := by
  induction l with
  | nil => simp
  | cons x l ih =>
    simp only [List.map_cons, List.sum_cons]
    rw [List.sum_map_add, ih fun y hy => h y (List.mem_cons_of_mem _ hy), List.sum_map_add, sum_range_single, sum_range_single]
    have := h x List.mem_cons_self
    simp only [this.1, this.2, if_true]
    ring

theorem roundedSum_err {fl : K → K} {u : K} (hr : RelError fl u) (hu : 0 ≤ u) (l : List K) :
    |roundedSum fl l - l.sum| ≤ ((1 + u) ^ l.length - 1) * (l.map fun y => |y|).sum := by
  have := sumFl_err hr hu l 0 0 0 1 le_rfl (by simp) (by simp)
  simpa [sumFl, roundedSum] using this

theorem roundedSums_balance {fl : K → K} {u : K} (hr : RelError fl u) (hu : 0 ≤ u) {l : List ((Nat × Nat) × K)} {n N : Nat}
    (h : ∀ x ∈ l, x.1.1 < n ∧ x.1.2 < n) (hN : ∀ v < n, (signedAt v l).length ≤ N) :
    |((List.range n).map fun v => roundedSum fl (signedAt v l)).sum| ≤ ((1 + u) ^ N - 1) * (2 * (l.map fun x => |x.2|).sum) := by
  have h0 : ((List.range n).map fun v => (signedAt v l).sum).sum = 0 := by
    have := sum_range_zero (l := l.map fun x => (x.1.1, x.1.2, x.2)) (n := n) (by
      intro x hx
      obtain ⟨y, hy, rfl⟩ := List.mem_map.1 hx
      exact h y hy)
    simp only [List.map_map, Function.comp_def] at this
    simpa only [signedAt_sum] using this
  have h1 := sum_range_abs h
  have key : ∀ ns : List Nat, (∀ v ∈ ns, v < n) → |(ns.map fun v => roundedSum fl (signedAt v l)).sum - (ns.map fun v => (signedAt v l).sum).sum| ≤
      ((1 + u) ^ N - 1) * (ns.map fun v => ((signedAt v l).map fun y => |y|).sum).sum := by
    intro ns
    induction ns with
    | nil => simp
    | cons v ns ih =>
      intro hv
      have i1 := ih fun w hw => hv w (List.mem_cons_of_mem _ hw)
      have i2 := roundedSum_err hr hu (signedAt v l)
      have i3 : ((1 + u) ^ (signedAt v l).length - 1) ≤ (1 + u) ^ N - 1 := by
        have := pow_le_pow_right₀ (by linarith : (1 : K) ≤ 1 + u) (hN v (hv v (by simp)))
        linarith
      have i4 : 0 ≤ ((signedAt v l).map fun y => |y|).sum := by
        refine List.sum_nonneg fun x hx => ?_
        obtain ⟨y, -, rfl⟩ := List.mem_map.1 hx
        exact abs_nonneg y
      have i5 := mul_le_mul_of_nonneg_right i3 i4
      simp only [List.map_cons, List.sum_cons]
      rw [abs_le] at *
      constructor <;> nlinarith [i1.1, i1.2, i2.1, i2.2]
  have := key (List.range n) (fun v hv => List.mem_range.1 hv)
  rw [h0, sub_zero] at this
  simp only [signedAt_abs_sum] at this
  rwa [h1] at this

theorem forcesFl_zip (fl : K → K) (p : List (K × K)) (bars : List (Nat × Nat)) (c : List K) (hl : c.length = bars.length) (part : K × K → K) :
    (bars.zip (List.zipWith (barForceFl fl) c (bars.map fun e => (vertexAt p e.1, vertexAt p e.2)))).map (fun x => (x.1, part x.2)) =
      (bars.zip c).map fun x => (x.1, part (barForceFl fl x.2 (vertexAt p x.1.1, vertexAt p x.1.2))) := by
  induction bars generalizing c with
  | nil => simp
  | cons e l ih => cases c with
    | nil => simp at hl
    | cons c0 c => simp [ih c (by simpa using hl)]

/-- **C125** (forces): whatever the sizing function is, each side of a triangle has one non-negative factor for both ends; the force of the side has the
direction of the side coordinate by coordinate: the sign is right and the error is at most two rounding errors. The force at a vertex is the sum,
rounded after each addition, of the forces of its sides. The forces add up to zero up to rounding errors: at most `(1 + u)^N - 1` times the sum of
the absolute values, if at most `N` sides meet in a vertex. -/
theorem C125_forces {fl sqrt : K → K} (hR : Rounding fl) {u : K} (hr : RelError fl u) (hu : 0 ≤ u) {eps mult : K}
    {fh : List (K × K) → Option (List (Float64 K))} {stereo : Option ((K × K → K × K) × (K → Float64 K))} {p : List (K × K)} {t : List Tri}
    {F : List (K × K)} (hs : ∀ x, 0 ≤ sqrt x) (he : 0 < eps) (h : computeForcesFl fl sqrt eps mult fh stereo p t = some F) :
    ∃ (bars : List (Nat × Nat)) (c : List K) (gx gy : List ((Nat × Nat) × K)), c.length = bars.length ∧ (∀ x ∈ c, 0 ≤ x) ∧
      (bars.Pairwise fun e f => e.1 < f.1 ∨ (e.1 = f.1 ∧ e.2 < f.2)) ∧ (∀ u v, (u, v) ∈ bars ↔ u ≤ v ∧ ∃ f ∈ t, HasSide f u v) ∧
      gx.map Prod.fst = bars ∧ gy.map Prod.fst = bars ∧
      (∀ (i : Nat) (e : Nat × Nat) (k x y : K), bars[i]? = some e → c[i]? = some k → gx[i]? = some (e, x) → gy[i]? = some (e, y) →
        ∀ (a b : K × K), a = vertexAt p e.1 → b = vertexAt p e.2 →
          0 ≤ x * (a.1 - b.1) ∧ (a.1 = b.1 → x = 0) ∧ |x - k * (a.1 - b.1)| ≤ (2 * u + u * u) * (k * |a.1 - b.1|) ∧
          0 ≤ y * (a.2 - b.2) ∧ (a.2 = b.2 → y = 0) ∧ |y - k * (a.2 - b.2)| ≤ (2 * u + u * u) * (k * |a.2 - b.2|)) ∧
      F = (List.range p.length).map (fun v => (roundedSum fl (signedAt v gx), roundedSum fl (signedAt v gy))) ∧
      (∀ N : Nat, (∀ v < p.length, (signedAt v gx).length ≤ N) → |(F.map Prod.fst).sum| ≤ ((1 + u) ^ N - 1) * (2 * (gx.map fun x => |x.2|).sum)) ∧
      ∀ N : Nat, (∀ v < p.length, (signedAt v gy).length ≤ N) → |(F.map Prod.snd).sum| ≤ ((1 + u) ^ N - 1) * (2 * (gy.map fun x => |x.2|).sum) := by
  obtain ⟨bars, h0, sz, mL, mh, h1, h2, h3, h4, h5, h6, rfl⟩ := computeForcesFl_stages h
  obtain ⟨b, hb, hb1, hb2⟩ := C74_unique_edges t
  obtain rfl : bars = b := Option.some.inj (h1.symm.trans hb)
  have hlen : sz.length = bars.length := by
    obtain ⟨m, -, rfl⟩ := repairSizesFl_eq h4
    rw [List.length_map, barSizesFl_length h3, List.length_map]
  obtain ⟨c, hc⟩ : ∃ c, c = List.zipWith (barFactorFl fl mult (fl (mL / mh))) (bars.map fun e => barLengthFl fl sqrt eps (vertexAt p e.1, vertexAt p e.2)) sz := ⟨_, rfl⟩
  have hcl : c.length = bars.length := by rw [hc]; simp [hlen]
  have hc0 : ∀ x ∈ c, 0 ≤ x := by
    intro x hx
    rw [hc, List.mem_iff_getElem?] at hx
    obtain ⟨i, hi⟩ := hx
    rw [List.getElem?_zipWith, List.getElem?_map] at hi
    cases hbi : bars[i]? with
    | none => simp [hbi] at hi
    | some e =>
      cases hsi : sz[i]? with
      | none => simp [hbi, hsi] at hi
      | some y =>
        simp only [hbi, hsi, Option.map_some, Option.some.injEq] at hi
        rw [← hi]
        exact barFactorFl_nonneg hR (barLengthFl_pos hs he _).le
  rw [← hc]
  simp only [vertexEntries_eq, forcesFl_zip fl p bars c hcl]
  have fst : ∀ part : K × K → K, ((bars.zip c).map fun x => (x.1, part (barForceFl fl x.2 (vertexAt p x.1.1, vertexAt p x.1.2)))).map Prod.fst = bars := by
    intro part
    rw [List.map_map]
    have : (Prod.fst ∘ fun x : (Nat × Nat) × K => (x.1, part (barForceFl fl x.2 (vertexAt p x.1.1, vertexAt p x.1.2)))) = Prod.fst := rfl
    rw [this, List.map_fst_zip (by omega)]
  have one : ∀ k a b : K, 0 ≤ k → 0 ≤ fl (k * fl (a - b)) * (a - b) ∧ (a = b → fl (k * fl (a - b)) = 0) ∧
      |fl (k * fl (a - b)) - k * (a - b)| ≤ (2 * u + u * u) * (k * |a - b|) := by
    intro k a b hk
    refine ⟨?_, ?_, ?_⟩
    · rcases le_total 0 (a - b) with hab | hab
      · exact mul_nonneg (rnd_nonneg hR (mul_nonneg hk (rnd_nonneg hR hab))) hab
      · exact mul_nonneg_of_nonpos_of_nonpos (rnd_nonpos hR (mul_nonpos_of_nonneg_of_nonpos hk (rnd_nonpos hR hab))) hab
    · rintro rfl
      rw [sub_self, hR.zero, mul_zero, hR.zero]
    · have e1 := hr (a - b)
      have e2 := hr (k * fl (a - b))
      have e3 : |k * fl (a - b) - k * (a - b)| ≤ k * (u * |a - b|) := by
        rw [← mul_sub, abs_mul, abs_of_nonneg hk]
        exact mul_le_mul_of_nonneg_left e1 hk
      have e4 : |k * fl (a - b)| ≤ k * ((1 + u) * |a - b|) := by
        rw [abs_mul, abs_of_nonneg hk]
        refine mul_le_mul_of_nonneg_left ?_ hk
        have := abs_sub_abs_le_abs_sub (fl (a - b)) (a - b)
        linarith
      have e5 := mul_le_mul_of_nonneg_left e4 hu
      have e6 := abs_sub_le (fl (k * fl (a - b))) (k * fl (a - b)) (k * (a - b))
      calc _ ≤ _ := e6
        _ ≤ u * (k * ((1 + u) * |a - b|)) + k * (u * |a - b|) := by linarith
        _ = (2 * u + u * u) * (k * |a - b|) := by ring
  have bal : ∀ part : K × K → K, ∀ N : Nat,
      (∀ v < p.length, (signedAt v ((bars.zip c).map fun x => (x.1, part (barForceFl fl x.2 (vertexAt p x.1.1, vertexAt p x.1.2))))).length ≤ N) →
      |((List.range p.length).map fun v => roundedSum fl (signedAt v ((bars.zip c).map fun x => (x.1, part (barForceFl fl x.2 (vertexAt p x.1.1, vertexAt p x.1.2)))))).sum| ≤
        ((1 + u) ^ N - 1) * (2 * (((bars.zip c).map fun x => (x.1, part (barForceFl fl x.2 (vertexAt p x.1.1, vertexAt p x.1.2)))).map fun x => |x.2|).sum) := by
    intro part N hN
    refine roundedSums_balance hr hu ?_ hN
    intro x hx
    obtain ⟨y, hy, rfl⟩ := List.mem_map.1 hx
    exact h2 _ (List.of_mem_zip (a := y.1) (b := y.2) hy).1
  refine ⟨bars, c, (bars.zip c).map fun x => (x.1, (barForceFl fl x.2 (vertexAt p x.1.1, vertexAt p x.1.2)).1),
    (bars.zip c).map fun x => (x.1, (barForceFl fl x.2 (vertexAt p x.1.1, vertexAt p x.1.2)).2), hcl, hc0, hb1, hb2, fst Prod.fst, fst Prod.snd, ?_, rfl, ?_, ?_⟩
  · rintro i e k x y hbi hci hx hy a b rfl rfl
    have hz : (bars.zip c)[i]? = some (e, k) := List.getElem?_zip_eq_some.2 ⟨hbi, hci⟩
    rw [List.getElem?_map, hz, Option.map_some, Option.some.injEq, Prod.mk.injEq] at hx hy
    have hk := hc0 k (List.mem_of_getElem? hci)
    rw [← hx.2, ← hy.2]
    have o1 := one k (vertexAt p e.1).1 (vertexAt p e.2).1 hk
    have o2 := one k (vertexAt p e.1).2 (vertexAt p e.2).2 hk
    exact ⟨o1.1, o1.2.1, o1.2.2, o2.1, o2.2.1, o2.2.2⟩
  · intro N hN
    have := bal Prod.fst N hN
    simp only [List.map_map, Function.comp_def] at this ⊢
    exact this
  · intro N hN
    have := bal Prod.snd N hN
    simp only [List.map_map, Function.comp_def] at this ⊢
    exact this

/-- **C125** (formula of the forces): for a sizing function that works point by point. Lengths, sizes, medians, desired lengths and forces are those of
Persson and Strang with every operation rounded; a bar that is not shorter than its computed desired length exerts no force. -/
theorem C125_force_formula {fl sqrt : K → K} {eps mult : K} {fh : List (K × K) → Option (List (Float64 K))} {g : K × K → Float64 K}
    {p : List (K × K)} {t : List Tri} {F : List (K × K)} (hg : Pointwise fh g) (h : computeForcesFl fl sqrt eps mult fh none p t = some F) :
    ∃ (bars : List (Nat × Nat)) (len size : Nat × Nat → K) (mg mL mh : K) (k : Nat × Nat → K),
      (bars.Pairwise fun e f => e.1 < f.1 ∨ (e.1 = f.1 ∧ e.2 < f.2)) ∧ (∀ u v, (u, v) ∈ bars ↔ u ≤ v ∧ ∃ f ∈ t, HasSide f u v) ∧
      (∀ e ∈ bars, e.1 < p.length ∧ e.2 < p.length) ∧ (∀ e, IsRoundedLength fl sqrt eps (vertexAt p e.1) (vertexAt p e.2) (len e)) ∧
      IsRoundedMedian fl (bars.filterMap fun e => usable (g (roundedMiddle fl (vertexAt p e.1) (vertexAt p e.2)))) mg ∧
      (∀ e y, g (roundedMiddle fl (vertexAt p e.1) (vertexAt p e.2)) = .fin y → 0 < y → size e = y) ∧
      (∀ e, (∀ y, g (roundedMiddle fl (vertexAt p e.1) (vertexAt p e.2)) = .fin y → y ≤ 0) → size e = mg) ∧
      IsRoundedMedian fl (bars.map len) mL ∧ IsRoundedMedian fl (bars.map size) mh ∧
      (∀ e, k e = fl (max (fl (fl (fl (size e * mult) * fl (mL / mh)) - len e)) 0 / len e)) ∧
      F = (List.range p.length).map fun v =>
        (roundedSum fl (signedAt v (bars.map fun e => (e, fl (k e * fl ((vertexAt p e.1).1 - (vertexAt p e.2).1))))),
         roundedSum fl (signedAt v (bars.map fun e => (e, fl (k e * fl ((vertexAt p e.1).2 - (vertexAt p e.2).2)))))) := by
  obtain ⟨bars, h0, sz, mL, mh, h1, h2, h3, h4, h5, h6, rfl⟩ := computeForcesFl_stages h
  obtain ⟨b, hb, hb1, hb2⟩ := C74_unique_edges t
  obtain rfl : bars = b := Option.some.inj (h1.symm.trans hb)
  have hh0 : h0 = (bars.map fun e => barMidFl fl (vertexAt p e.1, vertexAt p e.2)).map g := by
    simp only [barSizesFl, Option.bind_eq_some_iff] at h3
    obtain ⟨a, k1, k2⟩ := h3
    split at k2
    · rw [← Option.some.inj k2]; exact hg _ _ k1
    · simp at k2
  subst hh0
  obtain ⟨mg, hmg, rfl⟩ := repairSizesFl_eq h4
  simp only [List.map_map, List.filterMap_map, Function.comp_def, positive_eq_usable] at h6 hmg ⊢
  refine ⟨bars, fun e => barLengthFl fl sqrt eps (vertexAt p e.1, vertexAt p e.2),
    fun e => (g (barMidFl fl (vertexAt p e.1, vertexAt p e.2))).orElse mg, mg, mL, mh, fun e => barFactorFl fl mult (fl (mL / mh))
      (barLengthFl fl sqrt eps (vertexAt p e.1, vertexAt p e.2)) ((g (barMidFl fl (vertexAt p e.1, vertexAt p e.2))).orElse mg),
    hb1, hb2, h2, fun e => ⟨fun he => if_neg he, fun he => if_pos he⟩, hmg, ?_, ?_, medianFl_isMedian h5, medianFl_isMedian h6, ?_, ?_⟩
  · intro e y he hy
    have : g (barMidFl fl (vertexAt p e.1, vertexAt p e.2)) = .fin y := he
    simp [this, Float64.orElse, Float64.positive, hy]
  · intro e he
    have he' : ∀ y, g (barMidFl fl (vertexAt p e.1, vertexAt p e.2)) = .fin y → y ≤ 0 := he
    cases hc : g (barMidFl fl (vertexAt p e.1, vertexAt p e.2)) with
    | fin x => simp [hc, Float64.orElse, Float64.positive, not_lt.2 (he' x hc)]
    | nan => simp [hc, Float64.orElse, Float64.positive]
    | posInf => simp [hc, Float64.orElse, Float64.positive]
    | negInf => simp [hc, Float64.orElse, Float64.positive]
  · intro e
    simp only [barFactorFl]
    congr 2
    rcases lt_or_ge (fl (fl (fl ((g (barMidFl fl (vertexAt p e.1, vertexAt p e.2))).orElse mg * mult) * fl (mL / mh)) -
      barLengthFl fl sqrt eps (vertexAt p e.1, vertexAt p e.2))) 0 with hl | hl
    · rw [if_pos hl, max_eq_right hl.le]
    · rw [if_neg (not_lt.2 hl), max_eq_left hl]
  · rw [zipWith_map_map, zipWith_map_map, zip_self_map]
    simp only [vertexEntries_eq, List.map_map]
    rfl

/-! ### Kept triangles and result -/

theorem centroidsFl_eq {fl : K → K} {p : List (K × K)} {t : List Tri} {c : List (K × K)} (h : centroidsFl fl p t = some c) :
    c = t.map (fun f => roundedCentroid fl (vertexAt p f.a) (vertexAt p f.b) (vertexAt p f.c)) ∧ ValidMesh p t := by
  induction t generalizing c with
  | nil => simp_all [centroidsFl, ValidMesh]
  | cons f l ih =>
    simp only [centroidsFl, Option.bind_eq_bind, Option.bind_eq_some_iff] at h
    obtain ⟨x, h1, y, h2, z, h3, r, h4, h5⟩ := h
    obtain ⟨i1, i2⟩ := ih h4
    have h5 := Option.some.inj h5
    subst h5
    subst i1
    refine ⟨by simp [vertexAt, h1, h2, h3]; rfl, ?_⟩
    intro g hg v hv
    rcases List.mem_cons.1 hg with rfl | hg
    · rcases hv with rfl | rfl | rfl
      · exact (List.getElem?_eq_some_iff.1 h1).1
      · exact (List.getElem?_eq_some_iff.1 h2).1
      · exact (List.getElem?_eq_some_iff.1 h3).1
    · exact i2 g hg v hv

theorem removeOutsideFl_mem {fl : K → K} {fd : List (K × K) → Option (List K)} {f : K × K → K} (hf : Pointwise fd f) {geps : K} {p : List (K × K)}
    {t r : List Tri} (h : removeTrianglesOutsideFl fl fd geps p t = some r) : ValidMesh p t ∧ ∀ x, x ∈ r ↔ x ∈ t ∧
      ∃ a b c, corners p x = [some a, some b, some c] ∧ f (roundedCentroid fl a b c) < -geps := by
  simp only [removeTrianglesOutsideFl, Option.bind_eq_bind, Option.bind_eq_some_iff] at h
  obtain ⟨c, h1, d, h2, h3⟩ := h
  obtain ⟨rfl, hv⟩ := centroidsFl_eq h1
  obtain rfl := hf _ _ h2
  simp only [List.map_map, Function.comp_def] at h3
  have e := maskRows_map (fun x : Tri => decide (f (roundedCentroid fl (vertexAt p x.a) (vertexAt p x.b) (vertexAt p x.c)) < -geps)) id t
  rw [List.map_id, List.map_id, h3] at e
  obtain rfl := Option.some.inj e
  refine ⟨hv, fun x => ?_⟩
  rw [List.mem_filter, decide_eq_true_eq]
  refine and_congr_right fun hx => ?_
  have hc := corners_valid hv hx
  constructor
  · exact fun h => ⟨_, _, _, hc, h⟩
  · rintro ⟨a, b, c, h1, h2⟩
    rw [hc] at h1
    simp only [List.cons.injEq, Option.some.injEq, and_true] at h1
    obtain ⟨rfl, rfl, rfl⟩ := h1
    exact h2

/-- **C125** (kept triangles): exactly `max_iter` triangulations were made, the first one of the given points; in every iteration the triangles kept are exactly those whose
computed centroid lies inside by more than the tolerance, and those of the last iteration are given to `fix_mesh`. For every rounding rule. -/
theorem C125_kept {S : GenFl K} {f : K × K → K} (hf : Pointwise S.fd f) {maxIter : Nat} {p : List (K × K)} {m : FixResult K} {l : List (GenIter K)}
    (h : generateMeshFl S maxIter p = some (m, l)) :
    l.length = maxIter ∧ (∃ r l', l = r :: l' ∧ r.inserted = p) ∧
      (∀ r ∈ l, (∃ e, getTopology (dtInsert S.cgal ⟨[], []⟩ r.inserted) = some (r.vertices, r.triangles, e)) ∧ ValidMesh r.points r.kept ∧
        ∀ x, x ∈ r.kept ↔ x ∈ r.triangles ∧ ∃ a b c, corners r.points x = [some a, some b, some c] ∧ f (roundedCentroid S.fl a b c) < -S.geps) ∧
      ∃ r, l.getLast? = some r ∧ fixMeshFl S.fl S.rnd S.oP S.oT r.points r.kept S.ptol true = some m := by
  obtain ⟨n, rfl, -, h⟩ := generateMeshFl_loop h
  obtain ⟨a1, a2, a3, a4, a5⟩ := genLoopFl_trace h
  refine ⟨a1, a2, ?_, a5⟩
  intro r hr
  obtain ⟨-, b2, -, b4⟩ := genFirstFl_stages (a3 r hr)
  obtain ⟨c1, c2⟩ := removeOutsideFl_mem hf b4
  exact ⟨b2, fun g hg => c1 g ((c2 g).1 hg).1, c2⟩

theorem centroidFl_coord {fl : K → K} {u M : K} (hr : RelError fl u) (h0 : 0 ≤ u) (hu : u ≤ 1 / 8) {x y z : K} (hx : |x| ≤ M) (hy : |y| ≤ M) (hz : |z| ≤ M) :
    |fl (fl (fl (x + y) + z) / 3) - (x + y + z) / 3| ≤ 3 * u * M := by
  have hM : 0 ≤ M := (abs_nonneg x).trans hx
  have s1 := abs_add_le x y
  have e1 : |fl (x + y) - (x + y)| ≤ u * (2 * M) := (hr _).trans (mul_le_mul_of_nonneg_left (by linarith) h0)
  have a1 : |fl (x + y)| ≤ (1 + u) * (2 * M) := by
    have := abs_sub_abs_le_abs_sub (fl (x + y)) (x + y); linarith
  have s2 := abs_add_le (fl (x + y)) z
  have e2 : |fl (fl (x + y) + z) - (fl (x + y) + z)| ≤ u * (3 * M + u * (2 * M)) := (hr _).trans (mul_le_mul_of_nonneg_left (by linarith) h0)
  have d2 : |fl (fl (x + y) + z) - (x + y + z)| ≤ u * (5 * M + u * (2 * M)) := by
    have := abs_sub_le (fl (fl (x + y) + z)) (fl (x + y) + z) (x + y + z)
    have e : fl (x + y) + z - (x + y + z) = fl (x + y) - (x + y) := by ring
    rw [e] at this
    linarith
  have s3 := abs_add_three x y z
  have a2 : |fl (fl (x + y) + z)| ≤ 3 * M + u * (5 * M + u * (2 * M)) := by
    have := abs_sub_abs_le_abs_sub (fl (fl (x + y) + z)) (x + y + z); linarith
  have e3 := hr (fl (fl (x + y) + z) / 3)
  have t3 : |(3 : K)| = 3 := abs_of_pos (by norm_num)
  rw [abs_div, t3] at e3
  have d3 : |fl (fl (x + y) + z) / 3 - (x + y + z) / 3| ≤ u * (5 * M + u * (2 * M)) / 3 := by
    rw [← sub_div, abs_div, t3]
    exact div_le_div_of_nonneg_right d2 (by norm_num)
  have := abs_sub_le (fl (fl (fl (x + y) + z) / 3)) (fl (fl (x + y) + z) / 3) ((x + y + z) / 3)
  have e3' := mul_le_mul_of_nonneg_left a2 h0
  have uM : 0 ≤ u * M := mul_nonneg h0 hM
  have u1 : u * (u * M) ≤ 1 / 8 * (u * M) := mul_le_mul_of_nonneg_right hu uM
  have u2 : u * (u * (u * M)) ≤ 1 / 8 * (1 / 8 * (u * M)) := by
    have := mul_le_mul_of_nonneg_left u1 h0
    have h3 := mul_le_mul_of_nonneg_right hu (by positivity : (0 : K) ≤ 1 / 8 * (u * M))
    linarith
  nlinarith

/-- The computed centroid differs from the centroid by at most three rounding errors of the coordinates. -/
theorem C125_centroid_error {fl : K → K} {u M : K} (hr : RelError fl u) (h0 : 0 ≤ u) (hu : u ≤ 1 / 8) {x y z : K × K} (hx : |x.1| ≤ M ∧ |x.2| ≤ M)
    (hy : |y.1| ≤ M ∧ |y.2| ≤ M) (hz : |z.1| ≤ M ∧ |z.2| ≤ M) : Within (3 * u * M) (roundedCentroid fl x y z) (centroid x y z) :=
  ⟨centroidFl_coord hr h0 hu hx.1 hy.1 hz.1, centroidFl_coord hr h0 hu hx.2 hy.2 hz.2⟩

/-- **C125** (result): full claim: the returned triangles have their centroid inside by the tolerance. Proved up to the merging tolerance of `fix_mesh` and the
rounding errors of the coordinates, for a distance function that changes by at most `c` per unit. -/
theorem C125_result_partial {S : GenFl K} {u M : K} (hR : Rounding S.fl) (hr : RelError S.fl u) (h0 : 0 ≤ u) (hu : u ≤ 1 / 8) (hi : IsRounding S.rnd)
    {f : K × K → K} (hf : Pointwise S.fd f) (hpt : 0 < S.ptol) {maxIter : Nat} {p : List (K × K)} {m : FixResult K} {l : List (GenIter K)}
    (h : generateMeshFl S maxIter p = some (m, l)) {c : K} (hc : 0 ≤ c) (hlip : ∀ x y d, Within d x y → f y ≤ f x + c * d) :
    ∃ r, l.getLast? = some r ∧ ∀ e, IsExtent r.points e → (∀ q ∈ r.points, |q.1| ≤ M ∧ |q.2| ≤ M) → ∀ g ∈ m.t, ∃ x y z,
      corners m.p g = [some x, some y, some z] ∧ f (centroid x y z) < -S.geps + c * ((1 + u) ^ 3 * (e * S.ptol) + 8 * u * M) := by
  obtain ⟨-, -, a3, r, a4, a5⟩ := C125_kept hf h
  refine ⟨r, a4, fun e he hM g hg => ?_⟩
  obtain ⟨-, hv, c3⟩ := a3 r (List.mem_of_getLast? a4)
  obtain ⟨t, ht, x, y, z, x', y', z', d1, d2, d3, d4, d5⟩ :=
    (C120_geometry_partial hR hr h0 (hu.trans (by norm_num)) hi hpt he hM hv a5).2 g hg
  obtain ⟨-, x0, y0, z0, e1, e2⟩ := (c3 t).1 ht
  rw [d1] at e1
  simp only [List.cons.injEq, Option.some.injEq, and_true] at e1
  obtain ⟨rfl, rfl, rfl⟩ := e1
  have hcor := corners_valid (C120_wellformed a5).1 hg
  refine ⟨_, _, _, hcor, ?_⟩
  rw [hcor] at d2
  have hperm : [vertexAt m.p g.a, vertexAt m.p g.b, vertexAt m.p g.c].Perm [x', y', z'] := by
    have : ([vertexAt m.p g.a, vertexAt m.p g.b, vertexAt m.p g.c].map some).Perm ([x', y', z'].map some) := d2
    exact (List.map_perm_map_iff (Option.some_injective _)).1 this
  rw [centroid_perm hperm]
  have hmem : ∀ w, some w ∈ corners r.points t → w ∈ r.points := by
    intro w hw
    simp only [corners, List.mem_cons, List.not_mem_nil, or_false] at hw
    rcases hw with hw | hw | hw <;> exact List.mem_of_getElem? hw.symm
  have w1 := hlip _ _ _ (C125_centroid_error hr h0 hu (hM x (hmem x (by rw [d1]; simp))) (hM y (hmem y (by rw [d1]; simp))) (hM z (hmem z (by rw [d1]; simp))))
  have w2 := hlip (centroid x y z) (centroid x' y' z') _ (centroid_within d3 d4 d5)
  have : c * ((1 + u) ^ 3 * (e * S.ptol) + 8 * u * M) = c * ((1 + u) ^ 3 * (e * S.ptol) + 5 * u * M) + c * (3 * u * M) := by ring
  rw [this]
  linarith

/-- **C125** (well formed): the returned mesh has valid indices, no vertex twice, no unused vertex and no two triangles with the same vertices, and its
vertices are vertices of the last triangulation or fixed points, bit for bit. For every rounding rule, without assumptions on the functions and on CGAL. -/
theorem C125_wellformed {S : GenFl K} {maxIter : Nat} {p : List (K × K)} {m : FixResult K} {l : List (GenIter K)}
    (h : generateMeshFl S maxIter p = some (m, l)) :
    ValidMesh m.p m.t ∧ m.p.Nodup ∧ (∀ v < m.p.length, ∃ f ∈ m.t, HasVertex f v) ∧ (m.t.Pairwise fun f g => ¬ SameVertices f g) ∧
      ∃ r, l.getLast? = some r ∧ ∀ q ∈ m.p, q ∈ r.vertices ∨ q ∈ S.pfix := by
  obtain ⟨n, -, -, h'⟩ := generateMeshFl_loop h
  obtain ⟨-, -, a3, -, r, a5, a6⟩ := genLoopFl_trace h'
  obtain ⟨w1, w2, w3, w4, w5, -⟩ := C120_wellformed a6
  refine ⟨w1, w2, w4 rfl, w3, r, a5, fun q hq => ?_⟩
  obtain ⟨-, -, ⟨locked, ix, -, -, hplace⟩, -⟩ := genFirstFl_stages (a3 r (List.mem_of_getLast? a5))
  exact placeFixedFl_subset hplace q (w5 q hq)

/-- **C125** (orientation): full claim: all returned triangles are counterclockwise. Proved for those whose area is more than two rounding errors of the
products. -/
theorem C125_orientation_partial {S : GenFl K} {u : K} (hr : RelError S.fl u) (h0 : 0 ≤ u) (hu : u ≤ 1 / 128) {maxIter : Nat} {p : List (K × K)}
    {m : FixResult K} {l : List (GenIter K)} (h : generateMeshFl S maxIter p = some (m, l)) :
    ∀ g ∈ m.t, ∃ x y z, m.p[g.a]? = some x ∧ m.p[g.b]? = some y ∧ m.p[g.c]? = some z ∧
      (2 * u * areaScale x y z < |signedArea x y z| → 2 * u * areaScale y x z < |signedArea x y z| → 0 < signedArea x y z) := by
  obtain ⟨n, -, -, h'⟩ := generateMeshFl_loop h
  obtain ⟨-, -, -, -, r, -, a6⟩ := genLoopFl_trace h'
  exact C120_orientation_partial hr h0 hu a6

/-! ### Projection -/

/-- **C125** (projection): points that are not outside are not touched; a point outside whose coordinates are rounded numbers is moved against the
computed gradient: no coordinate moves in the wrong direction, and a coordinate with computed derivative zero stays as it is. -/
theorem C125_projection {fl : K → K} (hR : Rounding fl) {fd : List (K × K) → Option (List K)} {f : K × K → K} (hf : Pointwise fd f) {deps : K} (hd : 0 < deps)
    {p p' : List (K × K)} (hp : RoundedPoints fl p) (h : projectPointsBackFl fl fd deps p = some p') :
    p'.length = p.length ∧ RoundedPoints fl p' ∧ ∀ (i : Nat) (q q' : K × K), p[i]? = some q → p'[i]? = some q' → (f q ≤ 0 → q' = q) ∧
      (0 < f q → ∃ gx gy, gx = fl (fl (f (fl (q.1 + deps), q.2) - f q) / deps) ∧ gy = fl (fl (f (q.1, fl (q.2 + deps)) - f q) / deps) ∧
        (0 ≤ gx → q'.1 ≤ q.1) ∧ (gx ≤ 0 → q.1 ≤ q'.1) ∧ (0 ≤ gy → q'.2 ≤ q.2) ∧ (gy ≤ 0 → q.2 ≤ q'.2)) := by
  obtain rfl := projectFl_eq hf h
  refine ⟨by simp, ?_, ?_⟩
  · intro q hq
    obtain ⟨x, hx, rfl⟩ := List.mem_map.1 hq
    split
    · exact ⟨hR.idem _, hR.idem _⟩
    · exact hp x hx
  · intro i q q' hq hq'
    rw [List.getElem?_map, hq, Option.map_some, Option.some.injEq] at hq'
    subst hq'
    have hrq := hp q (List.mem_of_getElem? hq)
    refine ⟨fun h0 => if_neg (not_lt.2 h0), fun h0 => ?_⟩
    rw [if_pos h0]
    have hg : gradFlOf fl f deps q = (fl (fl (f (fl (q.1 + deps), q.2) - f q) / deps), fl (fl (f (q.1, fl (q.2 + deps)) - f q) / deps)) := by
      simp only [gradFlOf, add_zero, hrq.1, hrq.2]
    rw [hg]
    refine ⟨_, _, rfl, rfl, ?_⟩
    generalize fl (fl (f (fl (q.1 + deps), q.2) - f q) / deps) = a
    generalize fl (fl (f (q.1, fl (q.2 + deps)) - f q) / deps) = b
    simp only [projectPointFl]
    have hs : 0 < (if fl (fl (a * a) + fl (b * b)) < deps then deps else fl (fl (a * a) + fl (b * b))) := by
      split
      · exact hd
      · rename_i h; linarith [not_lt.1 h]
    generalize (if fl (fl (a * a) + fl (b * b)) < deps then deps else fl (fl (a * a) + fl (b * b))) = s at hs
    have up : ∀ x c : K, fl x = x → 0 ≤ c → fl (x - fl (fl (f q * c) / s)) ≤ x := by
      intro x c hx hc
      have h1 : 0 ≤ fl (fl (f q * c) / s) := rnd_nonneg hR (div_nonneg (rnd_nonneg hR (mul_nonneg h0.le hc)) hs.le)
      have h2 := hR.mono (show x - fl (fl (f q * c) / s) ≤ x by linarith)
      rwa [hx] at h2
    have dn : ∀ x c : K, fl x = x → c ≤ 0 → x ≤ fl (x - fl (fl (f q * c) / s)) := by
      intro x c hx hc
      have h1 : fl (fl (f q * c) / s) ≤ 0 :=
        rnd_nonpos hR (div_nonpos_of_nonpos_of_nonneg (rnd_nonpos hR (mul_nonpos_of_nonneg_of_nonpos h0.le hc)) hs.le)
      have h2 := hR.mono (show x ≤ x - fl (fl (f q * c) / s) by linarith)
      rwa [hx] at h2
    exact ⟨up _ _ hrq.1, dn _ _ hrq.1, up _ _ hrq.2, dn _ _ hrq.2⟩

end
end OM
