import Verif.Model.ShoreFl
import Verif.Lemmas.QuarterFl
import Verif.Lemmas.Fac
import Verif.Props.Polys
import Verif.Props.GradLimitFl
/-!
# C133: corner cutting in rounded arithmetic
-/
set_option linter.unusedSectionVars false
namespace OM
open Spec

section
variable {K : Type} [Field K] [LinearOrder K] [IsStrictOrderedRing K]

/-- Three quarters and one quarter of a number of the format, each rounded, add up to it. Proved for doubles (`C133_quarters`). -/
def Spec.KeepsQuarters (fl : K → K) : Prop := ∀ x, fl x = x → fl (fl (x * (3 / 4)) + fl (x * (1 / 4))) = x

/-- Both coordinates are numbers of the format. -/
def Spec.Representable (fl : K → K) (p : K × K) : Prop := fl p.1 = p.1 ∧ fl p.2 = p.2

/-- Both coordinates differ by at most `e`. -/
def Spec.NearBy (e : K) (p q : K × K) : Prop := |p.1 - q.1| ≤ e ∧ |p.2 - q.2| ≤ e

/-- **C133** (1) Doubles have that property: the rounding errors of the two products always cancel. -/
theorem C133_quarters [FloorRing K] : KeepsQuarters (roundDouble : K → K) := fun _ h => quarters_double h

theorem quarters_between {fl : K → K} (hR : Rounding fl) (hq : KeepsQuarters fl) {x y : K} (hx : fl x = x) (hy : fl y = y) :
    min x y ≤ fl (fl (x * (3 / 4)) + fl (y * (1 / 4))) ∧ fl (fl (x * (3 / 4)) + fl (y * (1 / 4))) ≤ max x y := by
  have key : ∀ m, fl m = m → (m ≤ x → m ≤ y → m ≤ fl (fl (x * (3 / 4)) + fl (y * (1 / 4)))) ∧
      (x ≤ m → y ≤ m → fl (fl (x * (3 / 4)) + fl (y * (1 / 4))) ≤ m) := by
    intro m hm
    refine ⟨fun h1 h2 => ?_, fun h1 h2 => ?_⟩
    · conv_lhs => rw [← hq m hm]
      exact hR.mono (add_le_add (hR.mono (by linarith)) (hR.mono (by linarith)))
    · conv_rhs => rw [← hq m hm]
      exact hR.mono (add_le_add (hR.mono (by linarith)) (hR.mono (by linarith)))
  constructor
  · exact (key _ (by rcases min_choice x y with h | h <;> rw [h] <;> assumption)).1 (min_le_left _ _) (min_le_right _ _)
  · exact (key _ (by rcases max_choice x y with h | h <;> rw [h] <;> assumption)).2 (le_max_left _ _) (le_max_right _ _)

theorem quarters_error {fl : K → K} {u : K} (hr : RelError fl u) (h0 : 0 ≤ u) (hu : u ≤ 1) {x y x' y' M e : K} (hx : |x| ≤ M) (hy : |y| ≤ M)
    (ex : |x - x'| ≤ e) (ey : |y - y'| ≤ e) :
    |fl (fl (x * (3 / 4)) + fl (y * (1 / 4))) - (x' * (3 / 4) + y' * (1 / 4))| ≤ e + 3 * u * M := by
  have hM : 0 ≤ M := (abs_nonneg x).trans hx
  have a1 := hr (x * (3 / 4))
  have a2 := hr (y * (1 / 4))
  have a3 := hr (fl (x * (3 / 4)) + fl (y * (1 / 4)))
  rw [abs_mul, abs_of_pos (show (0 : K) < 3 / 4 by norm_num)] at a1
  rw [abs_mul, abs_of_pos (show (0 : K) < 1 / 4 by norm_num)] at a2
  have b1 : u * (|x| * (3 / 4)) ≤ u * (M * (3 / 4)) := mul_le_mul_of_nonneg_left (by linarith) h0
  have b2 : u * (|y| * (1 / 4)) ≤ u * (M * (1 / 4)) := mul_le_mul_of_nonneg_left (by linarith) h0
  generalize fl (fl (x * (3 / 4)) + fl (y * (1 / 4))) = v at *
  generalize fl (x * (3 / 4)) = p at *
  generalize fl (y * (1 / 4)) = q at *
  have huM : u * M ≤ M := by nlinarith
  have hpq : |p + q| ≤ 2 * M := by
    rw [abs_le] at a1 a2 hx hy ⊢
    constructor <;> linarith [a1.1, a1.2, a2.1, a2.2, hx.1, hx.2, hy.1, hy.2]
  have b3 : u * |p + q| ≤ u * (2 * M) := mul_le_mul_of_nonneg_left hpq h0
  rw [abs_le] at a1 a2 a3 ex ey ⊢
  constructor <;> linarith [a1.1, a1.2, a2.1, a2.2, a3.1, a3.2, ex.1, ex.2, ey.1, ey.2]

theorem cutFl_self {fl : K → K} (hq : KeepsQuarters fl) {c : K × K} (h : Representable fl c) : cutFl fl c c = c :=
  Prod.ext (hq _ h.1) (hq _ h.2)

theorem cutFl_representable {fl : K → K} (hR : Rounding fl) (a b : K × K) : Representable fl (cutFl fl a b) := ⟨hR.idem _, hR.idem _⟩

theorem chaikinFromFl_length (fl : K → K) (prev : K × K) : ∀ l : List (K × K), (chaikinFromFl fl prev l).length = 2 * l.length
  | [] => rfl
  | [c] => rfl
  | c :: d :: l => by
    rw [chaikinFromFl, List.length_cons, List.length_cons, chaikinFromFl_length fl c (d :: l)]
    simp only [List.length_cons]; omega

theorem chaikinFromFl_mem {fl : K → K} : ∀ (l : List (K × K)) (prev q : K × K), q ∈ chaikinFromFl fl prev l →
    ∃ a ∈ prev :: l, ∃ b ∈ prev :: l, q = cutFl fl a b
  | [], _, q, hq => by simp [chaikinFromFl] at hq
  | [x], prev, q, hq => by
    simp only [chaikinFromFl, List.mem_cons, List.not_mem_nil, or_false] at hq
    rcases hq with rfl | rfl
    · exact ⟨x, by simp, prev, by simp, rfl⟩
    · exact ⟨x, by simp, x, by simp, rfl⟩
  | x :: y :: l, prev, q, hq => by
    rw [chaikinFromFl, List.mem_cons, List.mem_cons] at hq
    rcases hq with rfl | rfl | hq
    · exact ⟨x, by simp, prev, by simp, rfl⟩
    · exact ⟨x, by simp, y, by simp, rfl⟩
    · obtain ⟨a, ha, b, hb, e⟩ := chaikinFromFl_mem (y :: l) x q hq
      exact ⟨a, List.mem_cons_of_mem _ ha, b, List.mem_cons_of_mem _ hb, e⟩

theorem chaikinFromFl_last {fl : K → K} (hq : KeepsQuarters fl) : ∀ (l : List (K × K)) (prev : K × K), (∀ c ∈ l, Representable fl c) →
    (chaikinFromFl fl prev l).getLast? = l.getLast?
  | [], _, _ => rfl
  | [c], prev, h => by simp [chaikinFromFl, cutFl_self hq (h c (by simp))]
  | c :: d :: l, prev, h => by
    have hne : chaikinFromFl fl c (d :: l) ≠ [] := by
      intro h
      have := chaikinFromFl_length fl c (d :: l)
      rw [h] at this
      simp at this
    rw [chaikinFromFl, List.getLast?_cons_cons (l := l) (a := c) (b := d), ← chaikinFromFl_last hq (d :: l) c fun z hz => h z (List.mem_cons_of_mem _ hz)]
    obtain ⟨x, xs, hx⟩ := List.exists_cons_of_ne_nil hne
    rw [hx, List.getLast?_cons_cons, List.getLast?_cons_cons]

theorem cutFl_near {fl : K → K} {u : K} (hr : RelError fl u) (h0 : 0 ≤ u) (hu : u ≤ 1) {a b a' b' : K × K} {M e : K} (ha : |a.1| ≤ M ∧ |a.2| ≤ M) (hb : |b.1| ≤ M ∧ |b.2| ≤ M)
    (ea : NearBy e a a') (eb : NearBy e b b') : NearBy (e + 3 * u * M) (cutFl fl a b) (cut a' b') :=
  ⟨quarters_error hr h0 hu ha.1 hb.1 ea.1 eb.1, quarters_error hr h0 hu ha.2 hb.2 ea.2 eb.2⟩

theorem chaikinFromFl_near {fl : K → K} {u : K} (hr : RelError fl u) (h0 : 0 ≤ u) (hu : u ≤ 1) {M e : K} : ∀ {l l' : List (K × K)} {p p' : K × K},
    List.Forall₂ (NearBy e) l l' → NearBy e p p' → (|p.1| ≤ M ∧ |p.2| ≤ M) → (∀ q ∈ l, |q.1| ≤ M ∧ |q.2| ≤ M) →
    List.Forall₂ (NearBy (e + 3 * u * M)) (chaikinFromFl fl p l) (chaikinFrom p' l')
  | [], _, p, p', h, _, _, _ => by
    cases h
    exact .nil
  | [c], _, p, p', h, hp, bp, bl => by
    cases h with
    | cons h1 h2 =>
      cases h2
      have bc := bl c (by simp)
      exact .cons (cutFl_near hr h0 hu bc bp h1 hp) (.cons (cutFl_near hr h0 hu bc bc h1 h1) .nil)
  | c :: d :: l, _, p, p', h, hp, bp, bl => by
    cases h with
    | cons h1 h2 =>
      cases h2 with
      | cons h2 h3 =>
        have bc := bl c (by simp)
        have bd := bl d (by simp)
        exact .cons (cutFl_near hr h0 hu bc bp h1 hp) (.cons (cutFl_near hr h0 hu bc bd h1 h2)
          (chaikinFromFl_near hr h0 hu (.cons h2 h3) h1 bc fun q hq => bl q (List.mem_cons_of_mem _ hq)))

/-- The bounding box of a list of points keeps another. -/
def Spec.BoxKept (l r : List (K × K)) : Prop := ∀ lo hi : K × K, (∀ q ∈ l, (lo.1 ≤ q.1 ∧ q.1 ≤ hi.1) ∧ lo.2 ≤ q.2 ∧ q.2 ≤ hi.2) →
  ∀ q ∈ r, (lo.1 ≤ q.1 ∧ q.1 ≤ hi.1) ∧ lo.2 ≤ q.2 ∧ q.2 ≤ hi.2

theorem chaikinFromFl_box {fl : K → K} (hR : Rounding fl) (hq : KeepsQuarters fl) {p : K × K} {l : List (K × K)} (hl : ∀ c ∈ p :: l, Representable fl c) :
    BoxKept (p :: l) (chaikinFromFl fl p (p :: l)) := by
  intro lo hi h q hmem
  obtain ⟨a, ha, b, hb, rfl⟩ := chaikinFromFl_mem _ _ _ hmem
  have ha' : a ∈ p :: l := by simpa using ha
  have hb' : b ∈ p :: l := by simpa using hb
  have r1 := hl a ha'
  have r2 := hl b hb'
  obtain ⟨⟨a1, a2⟩, a3, a4⟩ := h a ha'
  obtain ⟨⟨b1, b2⟩, b3, b4⟩ := h b hb'
  obtain ⟨x1, x2⟩ := quarters_between hR hq r1.1 r2.1
  obtain ⟨y1, y2⟩ := quarters_between hR hq r1.2 r2.2
  exact ⟨⟨(le_min a1 b1).trans x1, x2.trans (max_le a2 b2)⟩, (le_min a3 b3).trans y1, y2.trans (max_le a4 b4)⟩

theorem chaikinFl_spec {fl : K → K} {u : K} (hR : Rounding fl) (hr : RelError fl u) (h0 : 0 ≤ u) (hu : u ≤ 1) (hq : KeepsQuarters fl) {M : K} :
    ∀ (n : Nat) (p : K × K) (l l' : List (K × K)) (e : K), (∀ c ∈ p :: l, Representable fl c) → (∀ c ∈ p :: l, |c.1| ≤ M ∧ |c.2| ≤ M) →
    List.Forall₂ (NearBy e) (p :: l) l' →
    ∃ r r', chaikinFl fl n (p :: l) = some r ∧ chaikin n l' = some r' ∧ r.length = 2 ^ n * (l.length + 1) ∧ r.head? = some p ∧ r.getLast? = (p :: l).getLast? ∧
      BoxKept (p :: l) r ∧ (∀ c ∈ r, Representable fl c) ∧ List.Forall₂ (NearBy (e + n * (3 * u * M))) r r'
  | 0, p, l, l', e, hl, _, hn => ⟨p :: l, l', rfl, by rw [chaikin], by simp, rfl, rfl, fun _ _ h => h, hl, by simpa using hn⟩
  | n + 1, p, l, l', e, hl, hb, hn => by
    have hhead : (chaikinFromFl fl p (p :: l)).head? = some p := by
      have hp := cutFl_self hq (hl p (by simp))
      cases l with
      | nil => simp [chaikinFromFl, hp]
      | cons d l => simp [chaikinFromFl, hp]
    cases hn with
    | @cons _ p' _ l' hp hn =>
      have hnear := chaikinFromFl_near hr h0 hu (.cons hp hn) hp (hb p (by simp)) hb
      have hrep : ∀ c ∈ chaikinFromFl fl p (p :: l), Representable fl c := by
        intro c hc
        obtain ⟨a, _, b, _, rfl⟩ := chaikinFromFl_mem _ _ _ hc
        exact cutFl_representable hR a b
      have hbox := chaikinFromFl_box hR hq hl
      have hbd : ∀ c ∈ chaikinFromFl fl p (p :: l), |c.1| ≤ M ∧ |c.2| ≤ M := by
        intro c hc
        obtain ⟨⟨h1, h2⟩, h3, h4⟩ := hbox (-M, -M) (M, M) (fun q hq => by
          obtain ⟨h1, h2⟩ := hb q hq
          rw [abs_le] at h1 h2
          exact ⟨h1, h2⟩) c hc
        exact ⟨abs_le.2 ⟨h1, h2⟩, abs_le.2 ⟨h3, h4⟩⟩
      have hlast := chaikinFromFl_last hq (p :: l) p hl
      have hlen := chaikinFromFl_length fl p (p :: l)
      cases hx : chaikinFromFl fl p (p :: l) with
      | nil => rw [hx] at hhead; simp at hhead
      | cons q m =>
        rw [hx] at hhead hlen hnear hrep hbd hbox hlast
        simp only [List.head?_cons, Option.some.injEq] at hhead
        subst hhead
        obtain ⟨r, r', h1, h1', h2, h3, h4, h5, h6, h7⟩ := chaikinFl_spec hR hr h0 hu hq n q m _ _ hrep hbd hnear
        refine ⟨r, r', ?_, ?_, ?_, h3, ?_, ?_, h6, ?_⟩
        · rw [chaikinFl, hx]; exact h1
        · rw [chaikin]; exact h1'
        · simp only [List.length_cons] at hlen
          rw [h2, hlen, pow_succ]; ring
        · rw [h4, hlast]
        · intro lo hi h
          exact h5 lo hi (hbox lo hi h)
        · rw [show e + ((n + 1 : Nat) : K) * (3 * u * M) = e + 3 * u * M + n * (3 * u * M) by push_cast; ring]
          exact h7

/-- **C133** (2) Corner cutting of points of the format, `n` refinements: number of points, first and last point and the bounding box as without rounding, all coordinates within
`3 n u M` of the exact ones, `M` a bound for the coordinates. -/
theorem C133_corner_cutting {fl : K → K} {u : K} (hR : Rounding fl) (hr : RelError fl u) (h0 : 0 ≤ u) (hu : u ≤ 1) (hq : KeepsQuarters fl) {M : K} (n : Nat) (p : K × K) (l : List (K × K))
    (hl : ∀ c ∈ p :: l, Representable fl c) (hb : ∀ c ∈ p :: l, |c.1| ≤ M ∧ |c.2| ≤ M) :
    ∃ r r', chaikinFl fl n (p :: l) = some r ∧ chaikin n (p :: l) = some r' ∧ r.length = 2 ^ n * (l.length + 1) ∧ r.head? = some p ∧ r.getLast? = (p :: l).getLast? ∧
      BoxKept (p :: l) r ∧ (∀ c ∈ r, Representable fl c) ∧ List.Forall₂ (NearBy (n * (3 * u * M))) r r' := by
  have := chaikinFl_spec hR hr h0 hu hq n p l (p :: l) 0 hl hb (List.forall₂_same.2 fun c _ => ⟨by simp, by simp⟩)
  simpa only [zero_add] using this

/-- **C133** (3) A list without points raises, no refinement returns the list. -/
theorem C133_corner_cutting_empty (fl : K → K) (n : Nat) : chaikinFl fl (n + 1) [] = none ∧ ∀ l : List (K × K), chaikinFl fl 0 l = some l :=
  ⟨rfl, fun l => by rw [chaikinFl]⟩

/-- **C133** (4) A whole shoreline: each feature is refined, closed rings stay closed, nothing leaves the box. -/
theorem C133_smooth_shoreline {fl : K → K} {u : K} (hR : Rounding fl) (hr : RelError fl u) (h0 : 0 ≤ u) (hu : u ≤ 1) (hq : KeepsQuarters fl) {M : K} (n : Nat) (fs : List (List (K × K)))
    (hne : fs ≠ []) (hf : ∀ f ∈ fs, f ≠ [] ∧ ∀ c ∈ f, Representable fl c ∧ |c.1| ≤ M ∧ |c.2| ≤ M) :
    ∃ rs, smoothShorelineFl fl n (joinNaN fs) = some (joinNaN rs) ∧
      List.Forall₂ (fun f r => r.length = 2 ^ n * f.length ∧ r.head? = f.head? ∧ r.getLast? = f.getLast? ∧ BoxKept f r ∧
        ∃ r', chaikin n f = some r' ∧ List.Forall₂ (NearBy (n * (3 * u * M))) r r') fs rs := by
  apply collect_features hne fun f h => (hf f h).1
  intro f hfm
  cases f with
  | nil => exact absurd rfl (hf _ hfm).1
  | cons p l =>
    obtain ⟨r, r', h1, h1', h2, h3, h4, h5, _, h7⟩ := C133_corner_cutting hR hr h0 hu hq n p l (fun c hc => ((hf _ hfm).2 c hc).1) fun c hc => ((hf _ hfm).2 c hc).2
    exact ⟨r, h1, h2, h3, h4, h5, r', h1', h7⟩

end

/-! ## Examples -/

/-- One tenth and other numbers, as doubles. -/
def coastD : List (ℚ × ℚ) := [(roundDouble (1 / 10), 0), (roundDouble (1 / 3), roundDouble (1 / 7)), (2, -1)]

example : ∃ r r', chaikinFl roundDouble 5 coastD = some r ∧ chaikin 5 coastD = some r' ∧ r.length = 96 ∧ r.head? = some (roundDouble (1 / 10), 0) ∧ r.getLast? = some (2, -1) ∧
    List.Forall₂ (NearBy (5 * (3 * (1 / 2 ^ 53) * 2))) r r' := by
  obtain ⟨r, r', h1, h2, h3, h4, h5, _, _, h8⟩ := C133_corner_cutting (K := ℚ) C113_roundDouble.1 C113_roundDouble.2 (by norm_num) (by norm_num) C133_quarters (M := 2) 5 (roundDouble (1 / 10), 0)
    [(roundDouble (1 / 3), roundDouble (1 / 7)), (2, -1)] (by unfold Representable; decide +kernel) (by decide +kernel)
  exact ⟨r, r', h1, h2, h3, h4, h5, by exact_mod_cast h8⟩

example : ∃ rs, smoothShorelineFl roundDouble 2 (joinNaN [coastD, [(0, 0), (1, 0), (0, 1), (0, 0)]]) = some (joinNaN rs) ∧ rs.map List.length = [12, 16] := by
  obtain ⟨rs, h1, h2⟩ := C133_smooth_shoreline (K := ℚ) C113_roundDouble.1 C113_roundDouble.2 (by norm_num) (by norm_num) C133_quarters (M := 2) 2 [coastD, [(0, 0), (1, 0), (0, 1), (0, 0)]] (by simp)
    (by unfold Representable; decide +kernel)
  refine ⟨rs, h1, ?_⟩
  rw [List.forall₂_cons_left_iff] at h2
  obtain ⟨r1, rs1, a, h3, rfl⟩ := h2
  rw [List.forall₂_cons_left_iff] at h3
  obtain ⟨r2, rs2, b, h4, rfl⟩ := h3
  rw [List.forall₂_nil_left_iff] at h4
  subst h4
  simp [a.1, b.1, coastD]

end OM
