import Verif.Props.Inpoly

/-!
# C95: the even-odd answer does not depend on the ray

Both kernels count the edges right of the point. The answer is the same for every other path to the outside: it changes at every proper crossing
of an edge and nowhere else.
-/

namespace OM.Spec

section
variable {K : Type} [Field K] [LinearOrder K]

/-- The segments `p q` and `a b` have no common point. -/
def Apart (p q a b : K × K) : Prop := ∀ z : K × K, OnClosedSegment z p q → ¬ OnClosedSegment z a b

/-- The segments `p q` and `a b` cross in one point that is an end of neither. -/
def CrossProperly (p q a b : K × K) : Prop :=
  (∃ s t : K, 0 < s ∧ s < 1 ∧ 0 < t ∧ t < 1 ∧ p.1 + s * (q.1 - p.1) = a.1 + t * (b.1 - a.1) ∧
      p.2 + s * (q.2 - p.2) = a.2 + t * (b.2 - a.2)) ∧
    (q.1 - p.1) * (b.2 - a.2) ≠ (q.2 - p.2) * (b.1 - a.1)

/-- The path through the points `path` meets the edges only in `n` proper crossings. -/
inductive MeetsProperly (edges : List ((K × K) × (K × K))) : List (K × K) → Nat → Prop
  | single (p : K × K) : MeetsProperly edges [p] 0
  | step (p q : K × K) (rest : List (K × K)) (n : Nat) (crossed uncrossed : List ((K × K) × (K × K)))
      (split : List.Perm edges (crossed ++ uncrossed)) (proper : ∀ e ∈ crossed, CrossProperly p q e.1 e.2)
      (free : ∀ e ∈ uncrossed, Apart p q e.1 e.2) (later : MeetsProperly edges (q :: rest) n) :
      MeetsProperly edges (p :: q :: rest) (crossed.length + n)
end

end OM.Spec

namespace OM

open OM.Spec
set_option linter.unusedSectionVars false

section
variable {K : Type} [Field K] [LinearOrder K] [IsStrictOrderedRing K]

/-! ## One edge and one step -/

theorem onSegment_convex {u w z a b : K × K} (hu : OnClosedSegment u a b) (hw : OnClosedSegment w a b) (hz : OnClosedSegment z u w) :
    OnClosedSegment z a b := by
  obtain ⟨s, hs0, hs1, hs2, hs3⟩ := hu
  obtain ⟨t, ht0, ht1, ht2, ht3⟩ := hw
  obtain ⟨r, hr0, hr1, hr2, hr3⟩ := hz
  have e : s + r * (t - s) = (1 - r) * s + r * t := by ring
  refine ⟨s + r * (t - s), ?_, ?_, ?_, ?_⟩
  · rw [e]; exact add_nonneg (mul_nonneg (by linarith) hs0) (mul_nonneg hr0 ht0)
  · rw [e]
    have h1 : (1 - r) * s ≤ (1 - r) * 1 := mul_le_mul_of_nonneg_left hs1 (by linarith)
    have h2 : r * t ≤ r * 1 := mul_le_mul_of_nonneg_left ht1 hr0
    linarith
  · rw [hr2, hs2, ht2]; ring
  · rw [hr3, hs3, ht3]; ring

theorem onSegment_between {p q z : K × K} (h : p.2 < q.2) (h1 : p.2 ≤ z.2) (h2 : z.2 ≤ q.2) (h0 : sideOf p q z = 0) : OnClosedSegment z p q := by
  rcases lt_or_eq_of_le h2 with h2 | h2
  · exact onSegment_of_side (.inl ⟨h1, h2⟩) h0
  · refine ⟨1, zero_le_one, le_rfl, ?_, by rw [h2]; ring⟩
    unfold sideOf at h0
    rw [h2] at h0
    have h3 : (q.2 - p.2) * (q.1 - z.1) = 0 := by linarith
    rcases mul_eq_zero.1 h3 with h3 | h3 <;> linarith

/-- Points of an edge that is apart from `p q`, at heights between those of `p` and `q`, are on the same side of `p q`. -/
theorem same_side {p q a b u w : K × K} (h : p.2 < q.2) (ha : Apart p q a b) (hu : OnClosedSegment u a b) (hw : OnClosedSegment w a b)
    (u1 : p.2 ≤ u.2) (u2 : u.2 ≤ q.2) (w1 : p.2 ≤ w.2) (w2 : w.2 ≤ q.2) (hs : sideOf p q u < 0) : sideOf p q w < 0 := by
  by_contra hn
  have hn := not_lt.1 hn
  have hd : 0 < sideOf p q w - sideOf p q u := by linarith
  let r : K := - sideOf p q u / (sideOf p q w - sideOf p q u)
  have r0 : 0 ≤ r := div_nonneg (by linarith) hd.le
  have r1 : r ≤ 1 := by rw [div_le_one hd]; linarith
  let z : K × K := (u.1 + r * (w.1 - u.1), u.2 + r * (w.2 - u.2))
  have hz : OnClosedSegment z u w := ⟨r, r0, r1, rfl, rfl⟩
  have ez : z.2 = (1 - r) * u.2 + r * w.2 := by show u.2 + r * (w.2 - u.2) = _; ring
  have z1 : p.2 ≤ z.2 := by
    rw [ez]
    have h1 : (1 - r) * p.2 ≤ (1 - r) * u.2 := mul_le_mul_of_nonneg_left u1 (by linarith)
    have h2 : r * p.2 ≤ r * w.2 := mul_le_mul_of_nonneg_left w1 r0
    linarith
  have z2 : z.2 ≤ q.2 := by
    rw [ez]
    have h1 : (1 - r) * u.2 ≤ (1 - r) * q.2 := mul_le_mul_of_nonneg_left u2 (by linarith)
    have h2 : r * w.2 ≤ r * q.2 := mul_le_mul_of_nonneg_left w2 r0
    linarith
  have e : sideOf p q z = sideOf p q u + r * (sideOf p q w - sideOf p q u) := by
    show (q.1 - p.1) * (u.2 + r * (w.2 - u.2) - p.2) - (q.2 - p.2) * (u.1 + r * (w.1 - u.1) - p.1) = _
    unfold sideOf; ring
  have h0 : sideOf p q z = 0 := by
    rw [e]
    show _ + - sideOf p q u / (sideOf p q w - sideOf p q u) * (sideOf p q w - sideOf p q u) = 0
    rw [div_mul_cancel₀ _ hd.ne']; ring
  exact ha z (onSegment_between h z1 z2 h0) (onSegment_convex hu hw hz)

/-- The point of the edge at the height of `q`. -/
def atHeight (q : K × K) (s : Seg K) : K × K := (s.1.1 + (q.2 - s.1.2) * (s.2.1 - s.1.1) / (s.2.2 - s.1.2), q.2)

theorem atHeight_on {q : K × K} {s : Seg K} (hs : (s.1.2 ≤ q.2 ∧ q.2 < s.2.2) ∨ (s.2.2 ≤ q.2 ∧ q.2 < s.1.2)) :
    OnClosedSegment (atHeight q s) s.1 s.2 := by
  refine onSegment_of_side hs ?_
  have hne : s.2.2 - s.1.2 ≠ 0 := by
    intro h0
    have : s.2.2 = s.1.2 := by linarith
    rcases hs with ⟨h1, h2⟩ | ⟨h1, h2⟩ <;> (rw [this] at *; exact absurd h1 (not_le.2 h2))
  simp only [sideOf, atHeight]
  field_simp
  ring

theorem crossesRight_atHeight (q : K × K) (s : Seg K) :
    crossesRight q s = ((decide (q.2 < s.1.2) != decide (q.2 < s.2.2)) && decide (q.1 < (atHeight q s).1)) := rfl

/-- The vertex is right of the step `p q`, in its half-open vertical span. -/
def sweeps (p q v : K × K) : Bool := (decide (p.2 < v.2) && !decide (q.2 < v.2)) && decide (sideOf p q v < 0)

theorem edge_apart {p q : K × K} (h : p.2 ≤ q.2) {s : Seg K} (ha : Apart p q s.1 s.2) :
    (crossesRight p s ^^ crossesRight q s) = (sweeps p q s.1 ^^ sweeps p q s.2) := by
  rcases lt_or_eq_of_le h with h | h
  · -- all points of the edge in the strip are on one side
    have key : ∃ c : Bool, ∀ u, OnClosedSegment u s.1 s.2 → p.2 ≤ u.2 → u.2 ≤ q.2 → decide (sideOf p q u < 0) = c := by
      by_cases hex : ∃ u, OnClosedSegment u s.1 s.2 ∧ p.2 ≤ u.2 ∧ u.2 ≤ q.2 ∧ sideOf p q u < 0
      · obtain ⟨u, h1, h2, h3, h4⟩ := hex
        exact ⟨true, fun w w1 w2 w3 => decide_eq_true (same_side h ha h1 w1 h2 h3 w2 w3 h4)⟩
      · exact ⟨false, fun w w1 w2 w3 => decide_eq_false fun hc => hex ⟨w, w1, w2, w3, hc⟩⟩
    obtain ⟨c, hc⟩ := key
    have eP : crossesRight p s = ((decide (p.2 < s.1.2) != decide (p.2 < s.2.2)) && c) := by
      rw [crossesRight_atHeight]
      cases hs : (decide (p.2 < s.1.2) != decide (p.2 < s.2.2))
      · rfl
      · have h1 := hc (atHeight p s) (atHeight_on ((straddle_iff p s).1 hs)) le_rfl h.le
        rw [Bool.true_and, Bool.true_and, ← h1, decide_eq_decide]
        have : sideOf p q (atHeight p s) = (q.2 - p.2) * (p.1 - (atHeight p s).1) := by
          simp only [sideOf, atHeight]; ring
        rw [this, mul_neg_iff]
        constructor
        · intro h2; exact .inl ⟨by linarith, by linarith⟩
        · rintro (⟨_, h2⟩ | ⟨h2, _⟩) <;> linarith
    have eQ : crossesRight q s = ((decide (q.2 < s.1.2) != decide (q.2 < s.2.2)) && c) := by
      rw [crossesRight_atHeight]
      cases hs : (decide (q.2 < s.1.2) != decide (q.2 < s.2.2))
      · rfl
      · have h1 := hc (atHeight q s) (atHeight_on ((straddle_iff q s).1 hs)) h.le le_rfl
        rw [Bool.true_and, Bool.true_and, ← h1, decide_eq_decide]
        have : sideOf p q (atHeight q s) = (q.2 - p.2) * (q.1 - (atHeight q s).1) := by
          simp only [sideOf, atHeight]; ring
        rw [this, mul_neg_iff]
        constructor
        · intro h2; exact .inl ⟨by linarith, by linarith⟩
        · rintro (⟨_, h2⟩ | ⟨h2, _⟩) <;> linarith
    have ends : ∀ v, OnClosedSegment v s.1 s.2 → sweeps p q v = ((decide (p.2 < v.2) && !decide (q.2 < v.2)) && c) := by
      intro v hv
      unfold sweeps
      by_cases h1 : p.2 < v.2
      · by_cases h2 : q.2 < v.2
        · simp [h2]
        · rw [hc v hv h1.le (not_lt.1 h2)]
      · simp [h1]
    rw [eP, eQ, ends s.1 ⟨0, le_rfl, zero_le_one, by ring, by ring⟩, ends s.2 ⟨1, zero_le_one, le_rfl, by ring, by ring⟩]
    have m1 : q.2 < s.1.2 → p.2 < s.1.2 := fun h1 => h.trans h1
    have m2 : q.2 < s.2.2 → p.2 < s.2.2 := fun h1 => h.trans h1
    by_cases a1 : p.2 < s.1.2 <;> by_cases a2 : q.2 < s.1.2 <;> by_cases a3 : p.2 < s.2.2 <;> by_cases a4 : q.2 < s.2.2 <;>
      first
        | (exfalso; exact a1 (m1 a2))
        | (exfalso; exact a3 (m2 a4))
        | (simp only [a1, a2, a3, a4, decide_true, decide_false]; cases c <;> rfl)
  · have hsw : ∀ v, sweeps p q v = false := by
      intro v
      unfold sweeps
      rw [h]
      cases decide (q.2 < v.2) <;> rfl
    rw [hsw, hsw, Bool.xor_false, crossesRight_atHeight, crossesRight_atHeight, h]
    cases hs : (decide (q.2 < s.1.2) != decide (q.2 < s.2.2))
    · rfl
    · have hX : atHeight p s = atHeight q s := by unfold atHeight; rw [h]
      rw [hX, Bool.true_and, Bool.true_and]
      have hon := atHeight_on ((straddle_iff q s).1 hs)
      have hne : ∀ t : K, 0 ≤ t → t ≤ 1 → (atHeight q s).1 ≠ p.1 + t * (q.1 - p.1) := fun t t0 t1 ht =>
        ha _ ⟨t, t0, t1, ht, by show q.2 = _; rw [h]; ring⟩ hon
      have h0 : p.1 = q.1 ∨ p.1 ≠ q.1 := eq_or_ne _ _
      rcases h0 with h0 | h0
      · rw [h0, Bool.xor_self]
      · have hd : q.1 - p.1 ≠ 0 := fun h1 => h0 (by linarith)
        have ht := hne (((atHeight q s).1 - p.1) / (q.1 - p.1))
        rw [div_mul_cancel₀ _ hd] at ht
        have : decide (p.1 < (atHeight q s).1) = decide (q.1 < (atHeight q s).1) := by
          rw [decide_eq_decide]
          by_contra hcon
          rcases lt_or_gt_of_ne h0 with h1 | h1
          · have a : p.1 < (atHeight q s).1 ∧ (atHeight q s).1 ≤ q.1 := by
              by_contra hh
              refine hcon ⟨fun h2 => ?_, fun h2 => h1.trans h2⟩
              by_contra h3
              exact hh ⟨h2, not_lt.1 h3⟩
            exact ht (div_nonneg (by linarith) (by linarith)) (by rw [div_le_one (by linarith)]; linarith) (by ring)
          · have a : q.1 < (atHeight q s).1 ∧ (atHeight q s).1 ≤ p.1 := by
              by_contra hh
              refine hcon ⟨fun h2 => h1.trans h2, fun h2 => ?_⟩
              by_contra h3
              exact hh ⟨h2, not_lt.1 h3⟩
            exact ht (div_nonneg_of_nonpos (by linarith) (by linarith)) (by rw [div_le_one_of_neg (by linarith)]; linarith) (by ring)
        rw [this, Bool.xor_self]

theorem edge_proper {p q : K × K} (h : p.2 ≤ q.2) {e : Seg K} (hc : CrossProperly p q e.1 e.2) :
    (crossesRight p e ^^ crossesRight q e) = !(sweeps p q e.1 ^^ sweeps p q e.2) := by
  obtain ⟨a, b⟩ := e
  obtain ⟨⟨s, t, s0, s1, t0, t1, hx, hy⟩, hne⟩ := hc
  simp only at hx hy hne
  let d : K := (q.1 - p.1) * (b.2 - a.2) - (q.2 - p.2) * (b.1 - a.1)
  have hd : d ≠ 0 := sub_ne_zero.2 hne
  have ax : a.1 = p.1 + s * (q.1 - p.1) - t * (b.1 - a.1) := by linarith
  have ay : a.2 = p.2 + s * (q.2 - p.2) - t * (b.2 - a.2) := by linarith
  have dA : sideOf p q a = -(t * d) := by
    have e1 : a.1 - p.1 = s * (q.1 - p.1) - t * (b.1 - a.1) := by linarith
    have e2 : a.2 - p.2 = s * (q.2 - p.2) - t * (b.2 - a.2) := by linarith
    unfold sideOf; rw [e1, e2]; show _ = -(t * (_ - _)); ring
  have dB : sideOf p q b = (1 - t) * d := by
    have e1 : b.1 - p.1 = s * (q.1 - p.1) + (1 - t) * (b.1 - a.1) := by linarith
    have e2 : b.2 - p.2 = s * (q.2 - p.2) + (1 - t) * (b.2 - a.2) := by linarith
    unfold sideOf; rw [e1, e2]; show _ = (1 - t) * (_ - _); ring
  have dP : sideOf a b p = s * d := by
    have e1 : p.1 - a.1 = t * (b.1 - a.1) - s * (q.1 - p.1) := by linarith
    have e2 : p.2 - a.2 = t * (b.2 - a.2) - s * (q.2 - p.2) := by linarith
    unfold sideOf; rw [e1, e2]; show _ = s * (_ - _); ring
  have dQ : sideOf a b q = -((1 - s) * d) := by
    have e1 : q.1 - a.1 = t * (b.1 - a.1) + (1 - s) * (q.1 - p.1) := by linarith
    have e2 : q.2 - a.2 = t * (b.2 - a.2) + (1 - s) * (q.2 - p.2) := by linarith
    unfold sideOf; rw [e1, e2]; show _ = -((1 - s) * (_ - _)); ring
  have sP : 0 < sideOf a b p ↔ 0 < d := by rw [dP]; exact mul_pos_iff_of_pos_left s0
  have sP' : sideOf a b p < 0 ↔ d < 0 := by
    rw [dP, mul_neg_iff]
    exact ⟨fun h => h.elim (·.2) (fun h => absurd h.1 (not_lt.2 s0.le)), fun h => .inl ⟨s0, h⟩⟩
  have sQ : 0 < sideOf a b q ↔ d < 0 := by
    rw [dQ, neg_pos, mul_neg_iff]
    exact ⟨fun h => h.elim (·.2) (fun h => absurd h.1 (by linarith)), fun h => .inl ⟨by linarith, h⟩⟩
  have sQ' : sideOf a b q < 0 ↔ 0 < d := by rw [dQ, neg_lt_zero]; exact mul_pos_iff_of_pos_left (by linarith)
  have sA : sideOf p q a < 0 ↔ 0 < d := by rw [dA, neg_lt_zero]; exact mul_pos_iff_of_pos_left t0
  have sB : sideOf p q b < 0 ↔ d < 0 := by
    rw [dB, mul_neg_iff]
    exact ⟨fun h => h.elim (·.2) (fun h => absurd h.1 (by linarith)), fun h => .inl ⟨by linarith, h⟩⟩
  have up : ∀ v : K × K, a.2 ≤ v.2 → v.2 < b.2 → crossesRight v (a, b) = decide (0 < sideOf a b v) := fun v h1 h2 => by
    rw [← Bool.coe_iff_coe, crossesRight_up h1 h2, decide_eq_true_eq]
  have down : ∀ v : K × K, b.2 ≤ v.2 → v.2 < a.2 → crossesRight v (a, b) = decide (sideOf a b v < 0) := fun v h1 h2 => by
    rw [← Bool.coe_iff_coe, crossesRight_down h1 h2, decide_eq_true_eq]
  have no : ∀ v : K × K, decide (v.2 < a.2) = decide (v.2 < b.2) → crossesRight v (a, b) = false := fun v h1 => by
    rw [crossesRight_atHeight]; simp only [h1, bne_self_eq_false, Bool.false_and]
  have hcr : ∀ v : K × K, crossesRight v (a, b) = if v.2 < a.2 then (if v.2 < b.2 then false else decide (sideOf a b v < 0)) else
      (if v.2 < b.2 then decide (0 < sideOf a b v) else false) := by
    intro v
    by_cases h1 : v.2 < a.2 <;> by_cases h2 : v.2 < b.2
    · simp only [h1, h2, if_true]; exact no v (by simp [h1, h2])
    · simp only [h1, h2, if_true, if_false]; exact down v (not_lt.1 h2) h1
    · simp only [h1, h2, if_true, if_false]; exact up v (not_lt.1 h1) h2
    · simp only [h1, h2, if_false]; exact no v (by simp [h1, h2])
  -- heights of the common point
  have za : a.2 + t * (b.2 - a.2) = (1 - t) * a.2 + t * b.2 := by ring
  have zp : p.2 + s * (q.2 - p.2) = (1 - s) * p.2 + s * q.2 := by ring
  have hz := hy
  rw [za, zp] at hz
  have lo : ¬ (a.2 ≤ p.2 ∧ b.2 ≤ p.2 ∧ (a.2 < p.2 ∨ b.2 < p.2 ∨ p.2 < q.2)) := by
    rintro ⟨h1, h2, h3⟩
    have k1 := mul_le_mul_of_nonneg_left h1 (by linarith : 0 ≤ 1 - t)
    have k2 := mul_le_mul_of_nonneg_left h2 t0.le
    have k3 := mul_le_mul_of_nonneg_left h s0.le
    rcases h3 with h3 | h3 | h3
    · have := mul_lt_mul_of_pos_left h3 (by linarith : 0 < 1 - t); linarith
    · have := mul_lt_mul_of_pos_left h3 t0; linarith
    · have := mul_lt_mul_of_pos_left h3 s0; linarith
  have hi : ¬ (q.2 ≤ a.2 ∧ q.2 ≤ b.2 ∧ (q.2 < a.2 ∨ q.2 < b.2 ∨ p.2 < q.2)) := by
    rintro ⟨h1, h2, h3⟩
    have k1 := mul_le_mul_of_nonneg_left h1 (by linarith : 0 ≤ 1 - t)
    have k2 := mul_le_mul_of_nonneg_left h2 t0.le
    have k3 := mul_le_mul_of_nonneg_left h (by linarith : 0 ≤ 1 - s)
    rcases h3 with h3 | h3 | h3
    · have := mul_lt_mul_of_pos_left h3 (by linarith : 0 < 1 - t); linarith
    · have := mul_lt_mul_of_pos_left h3 t0; linarith
    · have := mul_lt_mul_of_pos_left h3 (by linarith : 0 < 1 - s); linarith
  have flat : p.2 = q.2 → a.2 ≠ b.2 := by
    intro h1 h2
    exact hne (by rw [h1, h2]; ring)
  rw [hcr, hcr]
  unfold sweeps
  simp only [sP, sP', sQ, sQ', sA, sB]
  have hdd : d < 0 ↔ ¬ 0 < d := ⟨fun h => not_lt.2 h.le, fun h => lt_of_le_of_ne (not_lt.1 h) hd⟩
  simp only [hdd]
  rcases lt_or_eq_of_le h with hpq | hpq
  · by_cases a1 : p.2 < a.2 <;> by_cases a2 : q.2 < a.2 <;> by_cases a3 : p.2 < b.2 <;> by_cases a4 : q.2 < b.2 <;>
      first
        | (exfalso; exact lo ⟨not_lt.1 a1, not_lt.1 a3, .inr (.inr hpq)⟩)
        | (exfalso; exact hi ⟨a2.le, a4.le, .inr (.inr hpq)⟩)
        | (exfalso; exact a1 (hpq.trans a2))
        | (exfalso; exact a3 (hpq.trans a4))
        | (simp only [a1, a2, a3, a4]; by_cases hd : 0 < d <;> simp [hd])
  · have hf := flat hpq
    rw [hpq] at lo ⊢
    by_cases a2 : q.2 < a.2 <;> by_cases a4 : q.2 < b.2
    · exact absurd ⟨a2.le, a4.le, .inl a2⟩ hi
    · by_cases hd : 0 < d <;> simp [hd, a2, a4]
    · by_cases hd : 0 < d <;> simp [hd, a2, a4]
    · exfalso
      have b2 := not_lt.1 a2
      have b4 := not_lt.1 a4
      rcases lt_or_eq_of_le b2 with h1 | h1
      · exact lo ⟨b2, b4, .inl h1⟩
      · rcases lt_or_eq_of_le b4 with h2 | h2
        · exact lo ⟨b2, b4, .inr (.inl h2)⟩
        · exact hf (h1.trans h2.symm)

theorem Spec.CrossProperly.symm {p q a b : K × K} (h : CrossProperly p q a b) : CrossProperly q p a b := by
  obtain ⟨⟨s, t, s0, s1, t0, t1, hx, hy⟩, hne⟩ := h
  refine ⟨⟨1 - s, t, by linarith, by linarith, t0, t1, ?_, ?_⟩, fun h => hne (by linarith)⟩
  · rw [← hx]; ring
  · rw [← hy]; ring

theorem Spec.Apart.symm {p q a b : K × K} (h : Apart p q a b) : Apart q p a b := by
  rintro z ⟨t, t0, t1, hx, hy⟩
  exact h z ⟨1 - t, by linarith, by linarith, by rw [hx]; ring, by rw [hy]; ring⟩

/-! ## Parities -/

theorem parity_pair {A : Type} (F G : A → Bool) : ∀ (crossed uncrossed : List A), (∀ e ∈ crossed, F e = !G e) → (∀ e ∈ uncrossed, F e = G e) →
    ((crossed ++ uncrossed).countP F + (crossed ++ uncrossed).countP G) % 2 = crossed.length % 2 := by
  intro crossed
  induction crossed with
  | nil =>
    intro uncrossed _ h
    rw [List.nil_append, List.countP_congr (fun e he => by rw [h e he] : ∀ e ∈ uncrossed, F e = true ↔ G e = true)]
    simp only [List.length_nil]; omega
  | cons e crossed ih =>
    intro uncrossed h1 h2
    have := ih uncrossed (fun e he => h1 e (List.mem_cons_of_mem _ he)) h2
    have h3 := h1 e List.mem_cons_self
    simp only [List.cons_append, List.countP_cons, h3, List.length_cons]
    cases G e
    · simp only [Bool.not_false, if_true, Bool.false_eq_true, if_false]; omega
    · simp only [Bool.not_true, if_true, Bool.false_eq_true, if_false]; omega

theorem countP_xor {A : Type} (f g : A → Bool) (l : List A) : (l.countP f + l.countP g) % 2 = (l.countP fun e => f e ^^ g e) % 2 := by
  induction l with
  | nil => rfl
  | cons e l ih =>
    simp only [List.countP_cons]
    cases f e <;> cases g e <;> simp <;> omega

/-- One step of a path. -/
theorem step_parity {segs crossed uncrossed : List (Seg K)} (he : EvenDegrees segs) (hp : List.Perm segs (crossed ++ uncrossed)) {p q : K × K}
    (h1 : ∀ e ∈ crossed, CrossProperly p q e.1 e.2) (h2 : ∀ e ∈ uncrossed, Apart p q e.1 e.2) :
    (segs.countP (crossesRight p) + segs.countP (crossesRight q)) % 2 = crossed.length % 2 := by
  wlog h : p.2 ≤ q.2 generalizing p q
  · rw [add_comm]
    exact this (fun e he => (h1 e he).symm) (fun e he => (h2 e he).symm) (le_of_not_ge h)
  have hpar := parity_pair (fun e : Seg K => crossesRight p e ^^ crossesRight q e) (fun e => sweeps p q e.1 != sweeps p q e.2) crossed uncrossed
    (fun e he => edge_proper h (h1 e he)) (fun e he => edge_apart h (h2 e he))
  rw [← hp.countP_eq, ← hp.countP_eq] at hpar
  have hev : (segs.countP fun e : Seg K => sweeps p q e.1 != sweeps p q e.2) % 2 = 0 := Nat.even_iff.1 (even_straddle segs he (sweeps p q))
  rw [countP_xor]
  omega

/-- Along a path. -/
theorem path_parity {segs : List (Seg K)} (he : EvenDegrees segs) {path : List (K × K)} {n : Nat} (h : MeetsProperly segs path n) :
    ∀ p rest, path = p :: rest →
      (segs.countP (crossesRight p) + segs.countP (crossesRight ((p :: rest).getLast (List.cons_ne_nil _ _)))) % 2 = n % 2 := by
  induction h with
  | single p =>
    intro p' rest hpath
    obtain ⟨rfl, rfl⟩ := List.cons.inj hpath
    simp only [List.getLast_singleton]; omega
  | step p q rest n crossed uncrossed split proper free _ ih =>
    intro p' rest' hpath
    obtain ⟨rfl, rfl⟩ := List.cons.inj hpath
    have h1 := ih q rest rfl
    have h2 := step_parity he split proper free
    rw [List.getLast_cons (List.cons_ne_nil q rest)]
    omega

/-! ## C95 -/

/-- **C95**, compiled kernel: along a path that meets the edges of closed rings only in proper crossings, the answer changes at every crossing and
nowhere else. Its ends may be anywhere where no boundary is reported. -/
theorem C95_path_compiled {ftol : K} (hf : 0 ≤ ftol) {segs : List (Seg K)} (he : EvenDegrees segs) {p : K × K} {rest : List (K × K)} {n : Nat}
    (hpath : MeetsProperly segs (p :: rest) n) (h1 : (cPoint ftol segs p).2 = false)
    (h2 : (cPoint ftol segs ((p :: rest).getLast (List.cons_ne_nil _ _))).2 = false) :
    (cPoint ftol segs p).1 = ((cPoint ftol segs ((p :: rest).getLast (List.cons_ne_nil _ _))).1 ^^ (n % 2 == 1)) := by
  have h := path_parity he hpath p rest rfl
  simp only [cPoint_eq] at h1 h2 ⊢
  have hc : ∀ v, segs.countP (cCount ftol v) = segs.countP (crossesRight v) := fun v =>
    List.countP_congr fun s _ => by rw [cCount_eq hf]
  rw [h1, h2, Bool.false_or, Bool.false_or, hc, hc, ← h, ← parity_add]
  congr 1
  omega

/-- **C95**, compiled kernel: the answer is the parity of the crossings on any path to a point outside of the box of the polygon, not only of
those right of the point. -/
theorem C95_even_odd_compiled {ftol : K} (hf : 0 ≤ ftol) {segs : List (Seg K)} (he : EvenDegrees segs) {p : K × K} {rest : List (K × K)} {n : Nat}
    (hpath : MeetsProperly segs (p :: rest) n) (h1 : (cPoint ftol segs p).2 = false)
    (h2 : OutsideBy ftol ((p :: rest).getLast (List.cons_ne_nil _ _)) (endPoints segs)) : (cPoint ftol segs p).1 = (n % 2 == 1) := by
  have h3 := (C51_outside_box hf 3 segs _ h2).2 he
  rw [C95_path_compiled hf he hpath h1 (by rw [h3]), h3, Bool.false_xor]

theorem pyHit_of_flag {ftol : K} {n : Nat} (hn : 3 ≤ n) {segs : List (Seg K)} {q : K × K} (hb : (pyPoint ftol n segs q).2 = false) :
    segs.any (pyHit ftol q) = false ∨ pyReject ftol q segs := by
  rw [pyPoint_eq] at hb
  split at hb
  · rename_i hc
    rcases hc with hc | hc | hc
    · left; rw [hc]; rfl
    · omega
    · exact .inr hc
  · exact .inl hb

/-- **C95**, Python kernel: the same for closed rings if neither end of the path is level with a nearly horizontal edge. (Such edges
are skipped; how the answer changes then is in `C51_flat_edges`.) -/
theorem C95_path_python_partial {ftol : K} (hf : 0 ≤ ftol) {m : Nat} (hm : 3 ≤ m) {segs : List (Seg K)} (he : EvenDegrees segs)
    {p : K × K} {rest : List (K × K)} {n : Nat}
    (hpath : MeetsProperly segs (p :: rest) n) (hflat : ∀ s ∈ segs, LevelClear ftol 0 p.2 s)
    (hflat' : ∀ s ∈ segs, LevelClear ftol 0 ((p :: rest).getLast (List.cons_ne_nil _ _)).2 s) (h1 : (pyPoint ftol m segs p).2 = false)
    (h2 : (pyPoint ftol m segs ((p :: rest).getLast (List.cons_ne_nil _ _))).2 = false) :
    (pyPoint ftol m segs p).1 = ((pyPoint ftol m segs ((p :: rest).getLast (List.cons_ne_nil _ _))).1 ^^ (n % 2 == 1)) := by
  have h := path_parity he hpath p rest rfl
  rw [pyPoint_parity hf hm he hflat (pyHit_of_flag hm h1), pyPoint_parity hf hm he hflat' (pyHit_of_flag hm h2), ← h, ← parity_add]
  congr 1
  omega

/-- **C95**, Python kernel: the answer at a point that is not level with a nearly horizontal edge is the parity of the crossings on any path to a point
outside of the box of the polygon. -/
theorem C95_even_odd_python_partial {ftol : K} (hf : 0 ≤ ftol) {m : Nat} (hm : 3 ≤ m) {segs : List (Seg K)} (he : EvenDegrees segs)
    {p : K × K} {rest : List (K × K)} {n : Nat} (hpath : MeetsProperly segs (p :: rest) n) (hflat : ∀ s ∈ segs, LevelClear ftol 0 p.2 s)
    (h1 : (pyPoint ftol m segs p).2 = false)
    (h2 : OutsideBy ftol ((p :: rest).getLast (List.cons_ne_nil _ _)) (endPoints segs)) : (pyPoint ftol m segs p).1 = (n % 2 == 1) := by
  have h := path_parity he hpath p rest rfl
  have h3 := Nat.even_iff.1 (even_of_reject hf (even_straddle segs he) ((pyReject_iff _ _ _).2 h2))
  rw [pyPoint_parity hf hm he hflat (pyHit_of_flag hm h1)]
  congr 1
  omega

end

/-! ## Examples -/

theorem apart_of_line {p q a b : ℚ × ℚ} (u v w : ℚ) (h1 : u * p.1 + v * p.2 < w) (h2 : u * q.1 + v * q.2 < w)
    (h3 : w ≤ u * a.1 + v * a.2) (h4 : w ≤ u * b.1 + v * b.2) : Apart p q a b := by
  rintro z ⟨s, s0, s1, hx, hy⟩ ⟨t, t0, t1, kx, ky⟩
  have e1 : u * z.1 + v * z.2 = (1 - s) * (u * p.1 + v * p.2) + s * (u * q.1 + v * q.2) := by rw [hx, hy]; ring
  have e2 : u * z.1 + v * z.2 = (1 - t) * (u * a.1 + v * a.2) + t * (u * b.1 + v * b.2) := by rw [kx, ky]; ring
  have k1 : w ≤ u * z.1 + v * z.2 := by
    rw [e2]
    have := mul_le_mul_of_nonneg_left h3 (by linarith : 0 ≤ 1 - t)
    have := mul_le_mul_of_nonneg_left h4 t0
    linarith
  have k2 : u * z.1 + v * z.2 < w := by
    rw [e1]
    rcases eq_or_lt_of_le s0 with h | h
    · rw [← h]; linarith
    · have := mul_le_mul_of_nonneg_left h1.le (by linarith : 0 ≤ 1 - s)
      have := mul_lt_mul_of_pos_left h2 h
      linarith
  linarith

/-- A square with a square hole. A path from the hole, slanted over the right edge of the hole and then level over the right edge of the square,
makes two crossings: the hole is outside. -/
theorem pathEx : MeetsProperly (outerRing ++ holeRing) [(4, 4), (7, 5), (12, 5)] 2 := by
  refine .step (4, 4) (7, 5) [(12, 5)] 1 [((6, 3), (6, 6))]
    [((0, 0), (9, 0)), ((9, 0), (9, 9)), ((9, 9), (0, 9)), ((0, 9), (0, 0)), ((3, 3), (6, 3)), ((6, 6), (3, 6)), ((3, 6), (3, 3))]
    (by decide +kernel) ?_ ?_ (.step (7, 5) (12, 5) [] 0 [((9, 0), (9, 9))]
    [((0, 0), (9, 0)), ((9, 9), (0, 9)), ((0, 9), (0, 0)), ((3, 3), (6, 3)), ((6, 3), (6, 6)), ((6, 6), (3, 6)), ((3, 6), (3, 3))]
    (by decide +kernel) ?_ ?_ (.single _))
  · intro e he
    simp only [List.mem_singleton] at he
    subst he
    exact ⟨⟨2 / 3, 5 / 9, by norm_num, by norm_num, by norm_num, by norm_num, by norm_num, by norm_num⟩, by norm_num⟩
  · intro e he
    simp only [List.mem_cons, List.not_mem_nil, or_false] at he
    rcases he with rfl | rfl | rfl | rfl | rfl | rfl | rfl
    · exact apart_of_line 0 (-1) 0 (by norm_num) (by norm_num) (by norm_num) (by norm_num)
    · exact apart_of_line 1 0 9 (by norm_num) (by norm_num) (by norm_num) (by norm_num)
    · exact apart_of_line 0 1 9 (by norm_num) (by norm_num) (by norm_num) (by norm_num)
    · exact apart_of_line (-1) 0 0 (by norm_num) (by norm_num) (by norm_num) (by norm_num)
    · exact apart_of_line 0 (-1) (-3) (by norm_num) (by norm_num) (by norm_num) (by norm_num)
    · exact apart_of_line 0 1 6 (by norm_num) (by norm_num) (by norm_num) (by norm_num)
    · exact apart_of_line (-1) 0 (-3) (by norm_num) (by norm_num) (by norm_num) (by norm_num)
  · intro e he
    simp only [List.mem_singleton] at he
    subst he
    exact ⟨⟨2 / 5, 5 / 9, by norm_num, by norm_num, by norm_num, by norm_num, by norm_num, by norm_num⟩, by norm_num⟩
  · intro e he
    simp only [List.mem_cons, List.not_mem_nil, or_false] at he
    rcases he with rfl | rfl | rfl | rfl | rfl | rfl | rfl
    · exact apart_of_line 0 (-1) 0 (by norm_num) (by norm_num) (by norm_num) (by norm_num)
    · exact apart_of_line 0 1 9 (by norm_num) (by norm_num) (by norm_num) (by norm_num)
    · exact apart_of_line (-1) 0 0 (by norm_num) (by norm_num) (by norm_num) (by norm_num)
    · exact apart_of_line 0 (-1) (-3) (by norm_num) (by norm_num) (by norm_num) (by norm_num)
    · exact apart_of_line (-1) 0 (-6) (by norm_num) (by norm_num) (by norm_num) (by norm_num)
    · exact apart_of_line 0 1 6 (by norm_num) (by norm_num) (by norm_num) (by norm_num)
    · exact apart_of_line (-1) 0 (-3) (by norm_num) (by norm_num) (by norm_num) (by norm_num)

-- The other hypotheses for this path: nothing is reported on the boundary, the last point is outside of the box, no edge is nearly horizontal.
example : (cPoint (1 / 1000) (outerRing ++ holeRing) (4, 4)).2 = false ∧ (pyPoint (1 / 1000) 8 (outerRing ++ holeRing) (4, 4)).2 = false ∧
    (cPoint (1 / 1000) (outerRing ++ holeRing) (12, 5)).2 = false := by
  refine ⟨?_, ?_, ?_⟩ <;> decide +kernel
example : OutsideBy (1 / 1000 : ℚ) (12, 5) (endPoints (outerRing ++ holeRing)) := by
  right; left
  intro p hp
  simp only [outerRing, holeRing, endPoints, List.cons_append, List.nil_append, List.flatMap_cons, List.flatMap_nil, List.mem_cons,
    List.not_mem_nil, or_false] at hp
  rcases hp with rfl | rfl | rfl | rfl | rfl | rfl | rfl | rfl | rfl | rfl | rfl | rfl | rfl | rfl | rfl | rfl <;> norm_num
example : ∀ s ∈ outerRing ++ holeRing, LevelClear (1 / 1000) 0 4 s ∧ LevelClear (1 / 1000) 0 5 s := by unfold LevelClear; decide +kernel
example : (cPoint (1 / 1000) (outerRing ++ holeRing) (4, 4)).1 = false ∧ (cPoint (1 / 1000) (outerRing ++ holeRing) (7, 5)).1 = true := by
  refine ⟨?_, ?_⟩ <;> decide +kernel
example : EvenDegrees (outerRing ++ holeRing) := by
  intro v
  by_cases hv : v ∈ ([(0, 0), (9, 0), (9, 9), (0, 9), (3, 3), (6, 3), (6, 6), (3, 6)] : List (ℚ × ℚ))
  · simp only [List.mem_cons, List.not_mem_nil, or_false] at hv
    rcases hv with rfl | rfl | rfl | rfl | rfl | rfl | rfl | rfl <;> decide +kernel
  · simp only [List.mem_cons, List.not_mem_nil, or_false, not_or] at hv
    obtain ⟨h1, h2, h3, h4, h5, h6, h7, h8⟩ := hv
    simp only [endCount, outerRing, holeRing, List.cons_append, List.nil_append, List.countP_cons, List.countP_nil, decide_eq_true_eq, Ne.symm h1,
      Ne.symm h2, Ne.symm h3, Ne.symm h4, Ne.symm h5, Ne.symm h6, Ne.symm h7, Ne.symm h8, if_false]
    exact Even.zero

end OM
