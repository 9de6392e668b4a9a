import Verif.Spec.Generator
import Verif.Props.Delaunay
/-!
# C70: the forces of the mesh generator
-/
set_option linter.unusedSectionVars false
namespace OM
open Spec
section
variable {K : Type} [Field K] [LinearOrder K]

theorem sortBy_le_sorted (l : List K) : (sortBy (fun a b : K => decide (a ≤ b)) l).Pairwise (· ≤ ·) := by
  have := sortBy_sorted (fun a b : K => decide (a ≤ b)) (fun a b => by simpa using le_total a b) (fun a b c => by simpa using le_trans) l
  exact this.imp (by simp)

theorem median_isMedian {l : List K} {m : K} (h : median l = some m) : IsMedian l m := by
  have hlen := (sortBy_perm (fun a b : K => decide (a ≤ b)) l).length_eq
  unfold median at h
  dsimp only at h
  rw [hlen] at h
  cases h1 : (sortBy (fun a b : K => decide (a ≤ b)) l)[(l.length - 1) / 2]? with
  | none => simp [h1] at h
  | some a =>
    cases h2 : (sortBy (fun a b : K => decide (a ≤ b)) l)[l.length / 2]? with
    | none => simp [h1, h2] at h
    | some b =>
      rw [h1, h2] at h
      exact ⟨_, a, b, sortBy_perm _ _, sortBy_le_sorted l, h1, h2, by simpa using h.symm⟩

theorem median_isSome {l : List K} (h : l ≠ []) : ∃ m, median l = some m := by
  have hlen := (sortBy_perm (fun a b : K => decide (a ≤ b)) l).length_eq
  have hl : 0 < l.length := List.length_pos_iff.2 h
  unfold median
  dsimp only
  rw [hlen, List.getElem?_eq_getElem (by omega), List.getElem?_eq_getElem (by omega)]
  exact ⟨_, rfl⟩

theorem median_nil : median ([] : List K) = none := rfl

theorem isMedian_pos [IsStrictOrderedRing K] {l : List K} {m : K} (h : IsMedian l m) (hp : ∀ x ∈ l, 0 < x) : 0 < m := by
  obtain ⟨s, a, b, h1, -, h3, h4, rfl⟩ := h
  have ha := hp a (h1.mem_iff.1 (List.mem_of_getElem? h3))
  have hb := hp b (h1.mem_iff.1 (List.mem_of_getElem? h4))
  positivity

theorem barEnds_eq {p : List (K × K)} {bars : List (Nat × Nat)} {r : List ((K × K) × (K × K))} (h : barEnds p bars = some r) :
    r = bars.map (fun e => (vertexAt p e.1, vertexAt p e.2)) ∧ ∀ e ∈ bars, e.1 < p.length ∧ e.2 < p.length := by
  induction bars generalizing r with
  | nil => simp_all [barEnds]
  | cons e l ih =>
    simp only [barEnds, Option.bind_eq_bind, Option.bind_eq_some_iff] at h
    obtain ⟨a, h1, b, h2, r', h3, h4⟩ := h
    obtain ⟨i1, i2⟩ := ih h3
    have h4 : (a, b) :: r' = r := by simpa using h4
    subst h4
    subst i1
    refine ⟨by simp [vertexAt, h1, h2], ?_⟩
    intro f hf
    rcases List.mem_cons.1 hf with rfl | hf
    · exact ⟨(List.getElem?_eq_some_iff.1 h1).1, (List.getElem?_eq_some_iff.1 h2).1⟩
    · exact i2 f hf

theorem forceAt_fst (v : Nat) (l : List ((Nat × Nat) × (K × K))) :
    (forceAt v l).1 = (l.map fun x => (if x.1.1 = v then x.2.1 else 0) + (if x.1.2 = v then -x.2.1 else 0)).sum := by
  induction l with
  | nil => simp [forceAt]
  | cons x l ih => obtain ⟨e, f⟩ := x; simp [forceAt, ih]

theorem forceAt_snd (v : Nat) (l : List ((Nat × Nat) × (K × K))) :
    (forceAt v l).2 = (l.map fun x => (if x.1.1 = v then x.2.2 else 0) + (if x.1.2 = v then -x.2.2 else 0)).sum := by
  induction l with
  | nil => simp [forceAt]
  | cons x l ih => obtain ⟨e, f⟩ := x; simp [forceAt, ih]

theorem sum_range_single (n a : Nat) (f : K) : ((List.range n).map fun v => if a = v then f else 0).sum = if a < n then f else 0 := by
  induction n with
  | zero => simp
  | succ n ih =>
    rw [List.range_succ, List.map_append, List.sum_append, ih]
    by_cases h : a < n
    · have : a ≠ n := by omega
      simp [h, this, Nat.lt_succ_of_lt h]
    · by_cases h2 : a = n
      · simp [h2]
      · have : ¬ a < n + 1 := by omega
        simp [h, h2, this]

theorem sum_range_zero {l : List (Nat × Nat × K)} {n : Nat} (h : ∀ x ∈ l, x.1 < n ∧ x.2.1 < n) :
    ((List.range n).map fun v => (l.map fun x => (if x.1 = v then x.2.2 else 0) + (if x.2.1 = v then -x.2.2 else 0)).sum).sum = 0 := by
  induction l with
  | nil => simp
  | cons x l ih =>
    simp only [List.map_cons, List.sum_cons]
    rw [List.sum_map_add, ih fun y hy => h y (List.mem_cons_of_mem _ hy), List.sum_map_add, sum_range_single, sum_range_single]
    have := h x List.mem_cons_self
    simp [this.1, this.2]

theorem forces_sum_zero {l : List ((Nat × Nat) × (K × K))} {n : Nat} (h : ∀ x ∈ l, x.1.1 < n ∧ x.1.2 < n) :
    (((List.range n).map fun v => forceAt v l).map Prod.fst).sum = 0 ∧ (((List.range n).map fun v => forceAt v l).map Prod.snd).sum = 0 := by
  simp only [List.map_map, Function.comp_def, forceAt_fst, forceAt_snd]
  have h1 := sum_range_zero (l := l.map fun x => (x.1.1, x.1.2, x.2.1)) (n := n) (by
    intro x hx
    obtain ⟨y, hy, rfl⟩ := List.mem_map.1 hx
    exact h y hy)
  have h2 := sum_range_zero (l := l.map fun x => (x.1.1, x.1.2, x.2.2)) (n := n) (by
    intro x hx
    obtain ⟨y, hy, rfl⟩ := List.mem_map.1 hx
    exact h y hy)
  simp only [List.map_map, Function.comp_def] at h1 h2
  exact ⟨h1, h2⟩

/-- The stages of `computeForces`. -/
theorem computeForces_stages {sqrt : K → K} {eps mult : K} {fh : List (K × K) → Option (List (Float64 K))}
    {stereo : Option ((K × K → K × K) × (K → Float64 K))} {p : List (K × K)} {t : List Tri} {F : List (K × K)}
    (h : computeForces sqrt eps mult fh stereo p t = some F) :
    ∃ (bars : List (Nat × Nat)) (h0 : List (Float64 K)) (sz : List K) (mL mh : K),
      getBars t = some bars ∧ (∀ e ∈ bars, e.1 < p.length ∧ e.2 < p.length) ∧
      barSizes fh stereo (bars.map fun e => barMid (vertexAt p e.1, vertexAt p e.2)) = some h0 ∧ repairSizes h0 = some sz ∧
      median (bars.map fun e => barLength sqrt eps (vertexAt p e.1, vertexAt p e.2)) = some mL ∧ median sz = some mh ∧
      F = (List.range p.length).map fun v => forceAt v (bars.zip (List.zipWith
        (fun (c : K) (e : (K × K) × (K × K)) => (c * (e.1.1 - e.2.1), c * (e.1.2 - e.2.2)))
        (List.zipWith (barFactor (mult * (mL / mh))) (bars.map fun e => barLength sqrt eps (vertexAt p e.1, vertexAt p e.2)) sz)
        (bars.map fun e => (vertexAt p e.1, vertexAt p e.2)))) := by
  simp only [computeForces, Option.bind_eq_bind, Option.bind_eq_some_iff] at h
  obtain ⟨bars, h1, ends, h2, h0, h3, sz, h4, mL, h5, mh, h6, h7⟩ := h
  obtain ⟨rfl, h8⟩ := barEnds_eq h2
  simp only [List.map_map, Function.comp_def] at h3 h5 h7
  exact ⟨bars, h0, sz, mL, mh, h1, h8, h3, h4, h5, h6, by simpa using h7.symm⟩

theorem barSizes_length {fh : List (K × K) → Option (List (Float64 K))} {stereo : Option ((K × K → K × K) × (K → Float64 K))}
    {mids : List (K × K)} {h0 : List (Float64 K)} (h : barSizes fh stereo mids = some h0) : h0.length = mids.length := by
  unfold barSizes at h
  cases stereo with
  | none =>
    simp only [Option.bind_eq_some_iff] at h
    obtain ⟨a, -, h2⟩ := h
    split at h2 <;> simp_all
  | some s =>
    simp only [Option.bind_eq_some_iff] at h
    obtain ⟨a, -, h2⟩ := h
    split at h2
    · have := Option.some.inj h2; subst this; simp [*]
    · simp at h2

theorem repairSizes_eq {h0 : List (Float64 K)} {sz : List K} (h : repairSizes h0 = some sz) :
    ∃ m, IsMedian (h0.filterMap Float64.positive) m ∧ sz = h0.map (Float64.orElse m) := by
  unfold repairSizes at h
  cases hm : median (h0.filterMap Float64.positive) with
  | none => simp [hm] at h
  | some m => exact ⟨m, median_isMedian hm, by simpa [hm] using h.symm⟩

theorem repairSizes_pos [IsStrictOrderedRing K] {h0 : List (Float64 K)} {sz : List K} (h : repairSizes h0 = some sz) :
    sz.length = h0.length ∧ ∀ x ∈ sz, 0 < x := by
  obtain ⟨m, hm, rfl⟩ := repairSizes_eq h
  have pos : ∀ (x : Float64 K) (y : K), x.positive = some y → 0 < y := by
    intro x y hx
    cases x <;> simp [Float64.positive] at hx
    exact hx.2 ▸ hx.1
  refine ⟨by simp, ?_⟩
  intro x hx
  obtain ⟨y, hy, rfl⟩ := List.mem_map.1 hx
  have hm0 : 0 < m := isMedian_pos hm (by
    intro z hz
    obtain ⟨w, -, hw⟩ := List.mem_filterMap.1 hz
    exact pos w z hw)
  cases h : y.positive with
  | none => simpa [Float64.orElse, h] using hm0
  | some z => simpa [Float64.orElse, h] using pos y z h

/-- **C70** (balance): whatever the sizing function and the triangles are, if the forces are computed then there is one for each vertex and they add up
to zero. -/
theorem C70_balanced {sqrt : K → K} {eps mult : K} {fh : List (K × K) → Option (List (Float64 K))}
    {stereo : Option ((K × K → K × K) × (K → Float64 K))} {p : List (K × K)} {t : List Tri} {F : List (K × K)}
    (h : computeForces sqrt eps mult fh stereo p t = some F) :
    F.length = p.length ∧ (F.map Prod.fst).sum = 0 ∧ (F.map Prod.snd).sum = 0 := by
  obtain ⟨bars, h0, sz, mL, mh, -, h2, -, -, -, -, rfl⟩ := computeForces_stages h
  refine ⟨by simp, forces_sum_zero ?_⟩
  intro x hx
  exact h2 _ (List.of_mem_zip (a := x.1) (b := x.2) hx).1

theorem zip_map_map {α β γ : Type} (f : α → β) (g : α → γ) (l : List α) : (l.map f).zip (l.map g) = l.map fun x => (f x, g x) := by
  induction l with
  | nil => rfl
  | cons x l ih => simp [ih]

theorem zip_self_map {α γ : Type} (g : α → γ) (l : List α) : l.zip (l.map g) = l.map fun x => (x, g x) := by
  simpa using zip_map_map id g l

theorem zipWith_map_map {α β γ δ : Type} (h : β → γ → δ) (f : α → β) (g : α → γ) (l : List α) :
    List.zipWith h (l.map f) (l.map g) = l.map fun x => h (f x) (g x) := by
  induction l with
  | nil => rfl
  | cons x l ih => simp [ih]

theorem barLength_pos [IsStrictOrderedRing K] {sqrt : K → K} (hs : ∀ x, 0 ≤ sqrt x) {eps : K} (he : 0 < eps) (e : (K × K) × (K × K)) :
    0 < barLength sqrt eps e := by
  unfold barLength
  dsimp only
  split
  · exact he
  · rename_i h
    exact lt_of_le_of_ne (hs _) (Ne.symm h)

/-- The force in a bar as a multiple of its vector, by the formula of Persson and Strang: `max(L0 - L, 0) / L`. -/
theorem barFactor_eq (scale L h : K) : barFactor scale L h = max (h * scale - L) 0 / L := by
  unfold barFactor
  dsimp only
  rcases lt_or_ge (h * scale - L) 0 with hl | hl
  · rw [if_pos hl, max_eq_right hl.le]
  · rw [if_neg (not_lt.2 hl), max_eq_left hl]

theorem forces_general [IsStrictOrderedRing K] {sqrt : K → K} {eps mult : K} {fh : List (K × K) → Option (List (Float64 K))}
    {stereo : Option ((K × K → K × K) × (K → Float64 K))} {p : List (K × K)} {t : List Tri} {F : List (K × K)}
    (hs : ∀ x, 0 ≤ sqrt x) (he : 0 < eps)
    (h : computeForces sqrt eps mult fh stereo p t = some F) :
    ∃ (bars : List (Nat × Nat)) (c : List K), c.length = bars.length ∧ (∀ x ∈ c, 0 ≤ x) ∧
      (bars.Pairwise fun e f => e.1 < f.1 ∨ (e.1 = f.1 ∧ e.2 < f.2)) ∧ (∀ u v, (u, v) ∈ bars ↔ u ≤ v ∧ ∃ f ∈ t, HasSide f u v) ∧
      ∀ v < p.length, F[v]? = some
        (((bars.zip c).map fun x => x.2 * awayFromOther v x.1 (vertexAt p x.1.1).1 (vertexAt p x.1.2).1).sum,
          ((bars.zip c).map fun x => x.2 * awayFromOther v x.1 (vertexAt p x.1.1).2 (vertexAt p x.1.2).2).sum) := by
  obtain ⟨bars, h0, sz, mL, mh, h1, h2, h3, h4, h5, h6, rfl⟩ := computeForces_stages h
  obtain ⟨b, hb, hb1, hb2⟩ := C74_unique_edges t
  obtain rfl : bars = b := Option.some.inj (h1.symm.trans hb)
  have hlen : sz.length = bars.length := by
    rw [(repairSizes_pos h4).1, barSizes_length h3, List.length_map]
  refine ⟨bars, List.zipWith (barFactor (mult * (mL / mh))) (bars.map fun e => barLength sqrt eps (vertexAt p e.1, vertexAt p e.2)) sz, ?_, ?_, hb1, hb2, ?_⟩
  · simp [hlen]
  · intro x hx
    rw [List.mem_iff_getElem?] at hx
    obtain ⟨i, hi⟩ := hx
    rw [List.getElem?_zipWith] at hi
    rw [List.getElem?_map] at hi
    cases hbi : bars[i]? with
    | none => simp [hbi] at hi
    | some e =>
      cases hsi : sz[i]? with
      | none => simp [hbi, hsi] at hi
      | some y =>
        simp only [hbi, hsi, Option.map_some, Option.some.injEq] at hi
        rw [← hi, barFactor_eq]
        exact div_nonneg (le_max_right _ _) (barLength_pos hs he _).le
  · intro v hv
    generalize List.zipWith (barFactor (mult * (mL / mh))) (bars.map fun e => barLength sqrt eps (vertexAt p e.1, vertexAt p e.2)) sz = c
    rw [List.getElem?_map, List.getElem?_range hv, Option.map_some, Option.some.injEq]
    have key : bars.zip (List.zipWith (fun (c : K) (e : (K × K) × (K × K)) => (c * (e.1.1 - e.2.1), c * (e.1.2 - e.2.2))) c
        (bars.map fun e => (vertexAt p e.1, vertexAt p e.2))) =
        (bars.zip c).map fun x => (x.1, (x.2 * ((vertexAt p x.1.1).1 - (vertexAt p x.1.2).1), x.2 * ((vertexAt p x.1.1).2 - (vertexAt p x.1.2).2))) := by
      clear * -
      induction bars generalizing c with
      | nil => simp
      | cons e l ih => cases c with
        | nil => simp
        | cons c0 c => simp [ih]
    rw [key]
    refine Prod.ext ?_ ?_
    · rw [forceAt_fst, List.map_map]
      congr 1
      refine List.map_congr_left fun x _ => ?_
      simp only [Function.comp, awayFromOther, mul_add, mul_ite, mul_zero]
      congr 1
      split <;> ring
    · rw [forceAt_snd, List.map_map]
      congr 1
      refine List.map_congr_left fun x _ => ?_
      simp only [Function.comp, awayFromOther, mul_add, mul_ite, mul_zero]
      congr 1
      split <;> ring

/-- **C70** (repulsion): whatever the sizing function is, the force at vertex `v` is the sum over the sides of triangles at `v` of a non-negative multiple
(the same at both ends) of the vector from the other end to `v`. So no bar attracts its ends. -/
theorem C70_repulsive [IsStrictOrderedRing K] {sqrt : K → K} {eps mult : K} {fh : List (K × K) → Option (List (Float64 K))}
    {stereo : Option ((K × K → K × K) × (K → Float64 K))} {p : List (K × K)} {t : List Tri} {F : List (K × K)}
    (hs : ∀ x, 0 ≤ sqrt x) (he : 0 < eps)
    (h : computeForces sqrt eps mult fh stereo p t = some F) :
    ∃ (bars : List (Nat × Nat)) (c : List K), c.length = bars.length ∧ (∀ x ∈ c, 0 ≤ x) ∧ bars.Nodup ∧
      (∀ u v, (u, v) ∈ bars ↔ u ≤ v ∧ ∃ f ∈ t, HasSide f u v) ∧
      ∀ v < p.length, F[v]? = some
        (((bars.zip c).map fun x => x.2 * awayFromOther v x.1 (vertexAt p x.1.1).1 (vertexAt p x.1.2).1).sum,
          ((bars.zip c).map fun x => x.2 * awayFromOther v x.1 (vertexAt p x.1.1).2 (vertexAt p x.1.2).2).sum) := by
  obtain ⟨bars, c, h1, h2, h3, h4, h5⟩ := forces_general hs he h
  refine ⟨bars, c, h1, h2, h3.imp ?_, h4, h5⟩
  rintro ⟨a, b⟩ ⟨a', b'⟩ h' he
  simp only [Prod.mk.injEq] at he
  omega

theorem positive_eq_usable (x : Float64 K) : x.positive = usable x := by cases x <;> rfl

theorem forces_pointwise [IsStrictOrderedRing K] {sqrt : K → K} {eps mult : K} {fh : List (K × K) → Option (List (Float64 K))}
    {stereo : Option ((K × K → K × K) × (K → Float64 K))} {g : K × K → Float64 K} {p : List (K × K)} {t : List Tri} {F : List (K × K)}
    (hg : Pointwise (barSizes fh stereo) g) (h : computeForces sqrt eps mult fh stereo p t = some F) :
    ∃ (bars : List (Nat × Nat)) (len size : Nat × Nat → K) (mg mL mh : K),
      (bars.Pairwise fun e f => e.1 < f.1 ∨ (e.1 = f.1 ∧ e.2 < f.2)) ∧ (∀ u v, (u, v) ∈ bars ↔ u ≤ v ∧ ∃ f ∈ t, HasSide f u v) ∧
      (∀ e ∈ bars, e.1 < p.length ∧ e.2 < p.length) ∧
      (∀ e, sqrt (sqDist (vertexAt p e.1) (vertexAt p e.2)) ≠ 0 → len e = sqrt (sqDist (vertexAt p e.1) (vertexAt p e.2))) ∧
      (∀ e, sqrt (sqDist (vertexAt p e.1) (vertexAt p e.2)) = 0 → len e = eps) ∧
      IsMedian (bars.filterMap fun e => usable (g (middle (vertexAt p e.1) (vertexAt p e.2)))) mg ∧
      (∀ e y, g (middle (vertexAt p e.1) (vertexAt p e.2)) = .fin y → 0 < y → size e = y) ∧
      (∀ e, (∀ y, g (middle (vertexAt p e.1) (vertexAt p e.2)) = .fin y → y ≤ 0) → size e = mg) ∧
      IsMedian (bars.map len) mL ∧ IsMedian (bars.map size) mh ∧
      ∀ v < p.length, F[v]? = some
        ((bars.map fun e => max (size e * (mult * (mL / mh)) - len e) 0 / len e * awayFromOther v e (vertexAt p e.1).1 (vertexAt p e.2).1).sum,
          (bars.map fun e => max (size e * (mult * (mL / mh)) - len e) 0 / len e * awayFromOther v e (vertexAt p e.1).2 (vertexAt p e.2).2).sum) := by
  obtain ⟨bars, h0, sz, mL, mh, h1, h2, h3, h4, h5, h6, rfl⟩ := computeForces_stages h
  obtain ⟨b, hb, hb1, hb2⟩ := C74_unique_edges t
  obtain rfl : bars = b := Option.some.inj (h1.symm.trans hb)
  obtain rfl := hg _ _ h3
  obtain ⟨mg, hmg, rfl⟩ := repairSizes_eq h4
  simp only [List.map_map, List.filterMap_map, Function.comp_def, positive_eq_usable] at h6 hmg ⊢
  refine ⟨bars, fun e => barLength sqrt eps (vertexAt p e.1, vertexAt p e.2), fun e => (g (barMid (vertexAt p e.1, vertexAt p e.2))).orElse mg, mg, mL, mh,
    hb1, hb2, h2, ?_, ?_, hmg, ?_, ?_, median_isMedian h5, median_isMedian h6, ?_⟩
  · intro e he
    exact if_neg he
  · intro e he
    exact if_pos he
  · intro e y he hy
    have : g (barMid (vertexAt p e.1, vertexAt p e.2)) = .fin y := he
    simp [this, Float64.orElse, Float64.positive, hy]
  · intro e he
    have he' : ∀ y, g (barMid (vertexAt p e.1, vertexAt p e.2)) = .fin y → y ≤ 0 := he
    cases hc : g (barMid (vertexAt p e.1, vertexAt p e.2)) with
    | fin x => simp [hc, Float64.orElse, Float64.positive, not_lt.2 (he' x hc)]
    | nan => simp [hc, Float64.orElse, Float64.positive]
    | posInf => simp [hc, Float64.orElse, Float64.positive]
    | negInf => simp [hc, Float64.orElse, Float64.positive]
  · intro v hv
    rw [List.getElem?_map, List.getElem?_range hv, Option.map_some, Option.some.injEq, zipWith_map_map, zipWith_map_map, zip_self_map]
    refine Prod.ext ?_ ?_
    · rw [forceAt_fst, List.map_map]
      congr 1
      refine List.map_congr_left fun x _ => ?_
      simp only [Function.comp, awayFromOther, mul_add, mul_ite, mul_zero, barFactor_eq]
      congr 1
      split <;> ring
    · rw [forceAt_snd, List.map_map]
      congr 1
      refine List.map_congr_left fun x _ => ?_
      simp only [Function.comp, awayFromOther, mul_add, mul_ite, mul_zero, barFactor_eq]
      congr 1
      split <;> ring

theorem barSizes_pointwise {fh : List (K × K) → Option (List (Float64 K))} {g : K × K → Float64 K} (hg : Pointwise fh g) :
    Pointwise (barSizes fh none) g := by
  intro l r h
  simp only [barSizes, Option.bind_eq_some_iff] at h
  obtain ⟨a, h1, h2⟩ := h
  split at h2
  · exact (Option.some.inj h2) ▸ hg _ _ h1
  · simp at h2

theorem barSizes_pointwise_stereo {fh : List (K × K) → Option (List (Float64 K))} {g : K × K → Float64 K} (hg : Pointwise fh g)
    (toLL : K × K → K × K) (dist : K → Float64 K) :
    Pointwise (barSizes fh (some (toLL, dist))) fun q => (g (toLL q)).mul (dist (toLL q).2) := by
  intro l r h
  simp only [barSizes, Option.bind_eq_some_iff] at h
  obtain ⟨a, h1, h2⟩ := h
  split at h2
  · obtain rfl := hg _ _ h1
    rw [← Option.some.inj h2, List.map_map]
    clear * -
    induction l with
    | nil => rfl
    | cons x l ih => simpa using ih
  · simp at h2

/-- **C70** (formula): for a sizing function that works point by point. The bars are the sides of the triangles, each once; the length of a bar of
length zero is replaced by `eps`; sizes at the midpoints that are not finite and positive are replaced by the median of the others; the
desired length is the size times `mult` times the ratio of the medians; the force in a bar is the desired length minus the length if that is positive. -/
theorem C70_forces [IsStrictOrderedRing K] {sqrt : K → K} {eps mult : K} {fh : List (K × K) → Option (List (Float64 K))}
    {g : K × K → Float64 K} {p : List (K × K)} {t : List Tri} {F : List (K × K)}
    (hg : Pointwise fh g) (h : computeForces sqrt eps mult fh none p t = some F) :
    ∃ (bars : List (Nat × Nat)) (len size : Nat × Nat → K) (mg mL mh : K),
      (bars.Pairwise fun e f => e.1 < f.1 ∨ (e.1 = f.1 ∧ e.2 < f.2)) ∧ (∀ u v, (u, v) ∈ bars ↔ u ≤ v ∧ ∃ f ∈ t, HasSide f u v) ∧
      (∀ e ∈ bars, e.1 < p.length ∧ e.2 < p.length) ∧
      (∀ e, sqrt (sqDist (vertexAt p e.1) (vertexAt p e.2)) ≠ 0 → len e = sqrt (sqDist (vertexAt p e.1) (vertexAt p e.2))) ∧
      (∀ e, sqrt (sqDist (vertexAt p e.1) (vertexAt p e.2)) = 0 → len e = eps) ∧
      IsMedian (bars.filterMap fun e => usable (g (middle (vertexAt p e.1) (vertexAt p e.2)))) mg ∧
      (∀ e y, g (middle (vertexAt p e.1) (vertexAt p e.2)) = .fin y → 0 < y → size e = y) ∧
      (∀ e, (∀ y, g (middle (vertexAt p e.1) (vertexAt p e.2)) = .fin y → y ≤ 0) → size e = mg) ∧
      IsMedian (bars.map len) mL ∧ IsMedian (bars.map size) mh ∧
      ∀ v < p.length, F[v]? = some
        ((bars.map fun e => max (size e * (mult * (mL / mh)) - len e) 0 / len e * awayFromOther v e (vertexAt p e.1).1 (vertexAt p e.2).1).sum,
          (bars.map fun e => max (size e * (mult * (mL / mh)) - len e) 0 / len e * awayFromOther v e (vertexAt p e.1).2 (vertexAt p e.2).2).sum) :=
  forces_pointwise (barSizes_pointwise hg) h

/-- **C70** (formula in stereographic coordinates): the same with the size taken at the midpoint in degrees, multiplied by the distortion at its
latitude. -/
theorem C70_forces_stereo [IsStrictOrderedRing K] {sqrt : K → K} {eps mult : K} {fh : List (K × K) → Option (List (Float64 K))}
    {g : K × K → Float64 K} {toLL : K × K → K × K} {dist : K → Float64 K} {p : List (K × K)} {t : List Tri} {F : List (K × K)}
    (hg : Pointwise fh g) (h : computeForces sqrt eps mult fh (some (toLL, dist)) p t = some F) :
    ∃ (bars : List (Nat × Nat)) (len size : Nat × Nat → K) (mg mL mh : K) (G : Nat × Nat → Float64 K),
      (∀ e, G e = (g (toLL (middle (vertexAt p e.1) (vertexAt p e.2)))).mul (dist (toLL (middle (vertexAt p e.1) (vertexAt p e.2))).2)) ∧
      (bars.Pairwise fun e f => e.1 < f.1 ∨ (e.1 = f.1 ∧ e.2 < f.2)) ∧ (∀ u v, (u, v) ∈ bars ↔ u ≤ v ∧ ∃ f ∈ t, HasSide f u v) ∧
      (∀ e ∈ bars, e.1 < p.length ∧ e.2 < p.length) ∧
      (∀ e, sqrt (sqDist (vertexAt p e.1) (vertexAt p e.2)) ≠ 0 → len e = sqrt (sqDist (vertexAt p e.1) (vertexAt p e.2))) ∧
      (∀ e, sqrt (sqDist (vertexAt p e.1) (vertexAt p e.2)) = 0 → len e = eps) ∧
      IsMedian (bars.filterMap fun e => usable (G e)) mg ∧ (∀ e y, G e = .fin y → 0 < y → size e = y) ∧
      (∀ e, (∀ y, G e = .fin y → y ≤ 0) → size e = mg) ∧ IsMedian (bars.map len) mL ∧ IsMedian (bars.map size) mh ∧
      ∀ v < p.length, F[v]? = some
        ((bars.map fun e => max (size e * (mult * (mL / mh)) - len e) 0 / len e * awayFromOther v e (vertexAt p e.1).1 (vertexAt p e.2).1).sum,
          (bars.map fun e => max (size e * (mult * (mL / mh)) - len e) 0 / len e * awayFromOther v e (vertexAt p e.1).2 (vertexAt p e.2).2).sum) := by
  obtain ⟨bars, len, size, mg, mL, mh, hh⟩ := forces_pointwise (barSizes_pointwise_stereo hg toLL dist) h
  exact ⟨bars, len, size, mg, mL, mh, fun e => (g (toLL (middle (vertexAt p e.1) (vertexAt p e.2)))).mul (dist (toLL (middle (vertexAt p e.1) (vertexAt p e.2))).2), fun e => rfl, hh⟩

/-! ### Only the ratios of the sizes matter -/

theorem insertBy_mul [IsStrictOrderedRing K] {c : K} (hc : 0 < c) (x : K) (l : List K) :
    insertBy (fun a b : K => decide (a ≤ b)) (c * x) (l.map (c * ·)) = (insertBy (fun a b : K => decide (a ≤ b)) x l).map (c * ·) := by
  induction l with
  | nil => rfl
  | cons y l ih =>
    have : (c * x ≤ c * y) ↔ x ≤ y := mul_le_mul_iff_right₀ hc
    by_cases h : x ≤ y
    · simp [insertBy, this, h]
    · simp [insertBy, this, h, ih]

theorem sortBy_mul [IsStrictOrderedRing K] {c : K} (hc : 0 < c) (l : List K) :
    sortBy (fun a b : K => decide (a ≤ b)) (l.map (c * ·)) = (sortBy (fun a b : K => decide (a ≤ b)) l).map (c * ·) := by
  induction l with
  | nil => rfl
  | cons y l ih => rw [List.map_cons, sortBy, ih, insertBy_mul hc, sortBy]

theorem median_mul [IsStrictOrderedRing K] {c : K} (hc : 0 < c) (l : List K) : median (l.map (c * ·)) = (median l).map (c * ·) := by
  unfold median
  dsimp only
  rw [sortBy_mul hc]
  simp only [List.length_map, List.getElem?_map]
  cases (sortBy (fun a b : K => decide (a ≤ b)) l)[((sortBy (fun a b : K => decide (a ≤ b)) l).length - 1) / 2]? with
  | none => rfl
  | some a =>
    cases (sortBy (fun a b : K => decide (a ≤ b)) l)[(sortBy (fun a b : K => decide (a ≤ b)) l).length / 2]? with
    | none => rfl
    | some b => exact congrArg some (by ring)

theorem positive_scaled [IsStrictOrderedRing K] {c : K} (hc : 0 < c) (x : Float64 K) : (scaled c x).positive = x.positive.map (c * ·) := by
  cases x with
  | fin x =>
    by_cases h : 0 < x
    · simp [scaled, Float64.positive, h, hc]
    · simp [scaled, Float64.positive, h, hc]
  | nan => rfl
  | posInf => rfl
  | negInf => rfl

theorem repairSizes_scaled [IsStrictOrderedRing K] {c : K} (hc : 0 < c) (h : List (Float64 K)) :
    repairSizes (h.map (scaled c)) = (repairSizes h).map fun s => s.map (c * ·) := by
  have h1 : (h.map (scaled c)).filterMap Float64.positive = (h.filterMap Float64.positive).map (c * ·) := by
    rw [List.filterMap_map, List.map_filterMap]
    congr 1
    funext x
    exact positive_scaled hc x
  unfold repairSizes
  rw [h1, median_mul hc]
  cases median (h.filterMap Float64.positive) with
  | none => rfl
  | some m =>
    simp only [Option.map_some, List.map_map, Option.some.injEq]
    refine List.map_congr_left fun x _ => ?_
    simp only [Function.comp, Float64.orElse, positive_scaled hc]
    cases x.positive <;> rfl

theorem scaled_mul [IsStrictOrderedRing K] {c : K} (hc : 0 < c) (x y : Float64 K) : (scaled c x).mul y = scaled c (x.mul y) := by
  cases x with
  | fin x =>
    have h1 : (0 < c * x) = (0 < x) := propext (mul_pos_iff_of_pos_left hc)
    have h2 : (c * x < 0) = (x < 0) := propext ⟨fun h => by
      by_contra h3
      exact absurd (mul_nonneg hc.le (not_lt.1 h3)) (not_le.2 h), fun h => mul_neg_of_pos_of_neg hc h⟩
    cases y with
    | fin y => simp [scaled, Float64.mul, mul_assoc]
    | nan => rfl
    | posInf => simp only [scaled, Float64.mul, h1, h2]; split <;> [rfl; (split <;> rfl)]
    | negInf => simp only [scaled, Float64.mul, h1, h2]; split <;> [rfl; (split <;> rfl)]
  | nan => rfl
  | posInf =>
    cases y with
    | fin y => simp only [scaled, Float64.mul]; split <;> [rfl; (split <;> rfl)]
    | _ => rfl
  | negInf =>
    cases y with
    | fin y => simp only [scaled, Float64.mul]; split <;> [rfl; (split <;> rfl)]
    | _ => rfl

theorem barSizes_scaled [IsStrictOrderedRing K] {c : K} (hc : 0 < c) (fh : List (K × K) → Option (List (Float64 K)))
    (stereo : Option ((K × K → K × K) × (K → Float64 K))) (mids : List (K × K)) :
    barSizes (fun l => (fh l).map fun r => r.map (scaled c)) stereo mids = (barSizes fh stereo mids).map fun r => r.map (scaled c) := by
  unfold barSizes
  cases stereo with
  | none =>
    dsimp only
    cases fh mids with
    | none => rfl
    | some h =>
      simp only [Option.map_some, Option.bind_some, List.length_map]
      split <;> rfl
  | some s =>
    dsimp only
    cases fh (mids.map s.1) with
    | none => rfl
    | some h =>
      simp only [Option.map_some, Option.bind_some, List.length_map]
      split
      · simp only [Option.map_some, Option.some.injEq, List.zipWith_map_left, List.map_zipWith, scaled_mul hc]
      · rfl

/-- **C70** (scale): only the ratios of the sizes matter: multiplying the sizing function by a positive number does not change the forces. -/
theorem C70_scale_free [IsStrictOrderedRing K] {c : K} (hc : 0 < c) (sqrt : K → K) (eps mult : K) (fh : List (K × K) → Option (List (Float64 K)))
    (stereo : Option ((K × K → K × K) × (K → Float64 K))) (p : List (K × K)) (t : List Tri) :
    computeForces sqrt eps mult (fun l => (fh l).map fun r => r.map (scaled c)) stereo p t = computeForces sqrt eps mult fh stereo p t := by
  unfold computeForces
  simp only [Option.bind_eq_bind, barSizes_scaled hc]
  cases getBars t with
  | none => rfl
  | some bars =>
    simp only [Option.bind_some]
    cases barEnds p bars with
    | none => rfl
    | some ends =>
      simp only [Option.bind_some]
      cases barSizes fh stereo (ends.map barMid) with
      | none => rfl
      | some h =>
        simp only [Option.map_some, Option.bind_some, repairSizes_scaled hc]
        cases hr : repairSizes h with
        | none => rfl
        | some sz =>
          simp only [Option.map_some, Option.bind_some, median_mul hc]
          cases median (ends.map (barLength sqrt eps)) with
          | none => rfl
          | some mL =>
            cases hm : median sz with
            | none => rfl
            | some mh =>
              have h0 : 0 < mh := isMedian_pos (median_isMedian hm) (repairSizes_pos hr).2
              simp only [Option.map_some, Option.bind_some, List.zipWith_map_right]
              have : ∀ L h : K, barFactor (mult * (mL / (c * mh))) L (c * h) = barFactor (mult * (mL / mh)) L h := by
                intro L h
                have : c * h * (mult * (mL / (c * mh))) = h * (mult * (mL / mh)) := by field_simp
                simp only [barFactor, this]
              simp only [this]

/-- **C70** (rejection): without a finite positive size at a midpoint an exception is raised. -/
theorem C70_no_valid_size {sqrt : K → K} {eps mult : K} {fh : List (K × K) → Option (List (Float64 K))} {g : K × K → Float64 K}
    (hg : Pointwise fh g) (hn : ∀ q y, g q = .fin y → y ≤ 0) (p : List (K × K)) (t : List Tri) :
    computeForces sqrt eps mult fh none p t = none := by
  by_contra hne
  obtain ⟨F, h⟩ := Option.ne_none_iff_exists'.1 hne
  obtain ⟨bars, h0, sz, mL, mh, h1, h2, h3, h4, h5, h6, rfl⟩ := computeForces_stages h
  obtain rfl := barSizes_pointwise hg _ _ h3
  have : ((bars.map fun e => barMid (vertexAt p e.1, vertexAt p e.2)).map g).filterMap Float64.positive = [] := by
    rw [List.filterMap_eq_nil_iff]
    intro x hx
    obtain ⟨q, -, rfl⟩ := List.mem_map.1 hx
    cases hc : g q with
    | fin y => simp [Float64.positive, not_lt.2 (hn q y hc)]
    | _ => rfl
  rw [repairSizes, this] at h4
  simp [median_nil] at h4

end

/-- A triangle with sides 3, 4 and 5. -/
def forceP : List (ℚ × ℚ) := [(0, 0), (3, 0), (0, 4)]

/-- A square root on the squares that occur in the examples. -/
def sqrtQ (x : ℚ) : ℚ := if x = 9 then 3 else if x = 16 then 4 else if x = 25 then 5 else 0

/-- Sizes: missing at one midpoint, larger to the right. -/
def sizeQ (q : ℚ × ℚ) : Float64 ℚ := if q.2 = 2 ∧ q.1 = 0 then .nan else .fin (1 + q.1)

example : computeForces sqrtQ 1 (6 / 5) (fun l => some (l.map sizeQ)) none forceP [⟨0, 1, 2⟩] = some [(-9 / 5, -4 / 5), (9 / 5, 0), (0, 4 / 5)] := by
  decide +kernel

example : ([(-9 / 5, -4 / 5), (9 / 5, 0), (0, 4 / 5)] : List (ℚ × ℚ)).length = forceP.length ∧
    (([(-9 / 5, -4 / 5), (9 / 5, 0), (0, 4 / 5)] : List (ℚ × ℚ)).map Prod.fst).sum = 0 ∧ (([(-9 / 5, -4 / 5), (9 / 5, 0), (0, 4 / 5)] : List (ℚ × ℚ)).map Prod.snd).sum = 0 :=
  C70_balanced (sqrt := sqrtQ) (eps := 1) (mult := 6 / 5) (fh := fun l => some (l.map sizeQ)) (stereo := none) (t := [⟨0, 1, 2⟩]) (by decide +kernel)

example := C70_repulsive (sqrt := sqrtQ) (eps := 1) (mult := 6 / 5) (fh := fun l => some (l.map sizeQ)) (stereo := none) (p := forceP) (t := [⟨0, 1, 2⟩])
  (F := [(-9 / 5, -4 / 5), (9 / 5, 0), (0, 4 / 5)]) (fun x => by unfold sqrtQ; split <;> [norm_num; (split <;> [norm_num; (split <;> norm_num)])]) (by norm_num) (by decide +kernel)

example := C70_forces (sqrt := sqrtQ) (eps := 1) (mult := 6 / 5) (fh := fun l => some (l.map sizeQ)) (g := sizeQ) (p := forceP) (t := [⟨0, 1, 2⟩])
  (F := [(-9 / 5, -4 / 5), (9 / 5, 0), (0, 4 / 5)]) (fun l r h => (Option.some.inj h).symm) (by decide +kernel)

example := C70_forces_stereo (sqrt := sqrtQ) (eps := 1) (mult := 6 / 5) (fh := fun l => some (l.map sizeQ)) (g := sizeQ) (toLL := fun q => (q.1, q.2 * 10))
  (dist := fun y => .fin (1 / (1 + y))) (p := forceP) (t := [⟨0, 1, 2⟩]) (F := ((computeForces sqrtQ 1 (6 / 5) (fun l => some (l.map sizeQ))
    (some (fun q => (q.1, q.2 * 10), fun y => .fin (1 / (1 + y)))) forceP [⟨0, 1, 2⟩]).get (by decide +kernel)))
  (fun l r h => (Option.some.inj h).symm) (by simp)

example : computeForces sqrtQ 1 (6 / 5) (fun l => some (l.map fun _ => Float64.fin (0 : ℚ))) none forceP [⟨0, 1, 2⟩] = none :=
  C70_no_valid_size (g := fun _ => .fin 0) (fun l r h => (Option.some.inj h).symm) (fun q y h => by cases h; rfl) _ _

end OM
