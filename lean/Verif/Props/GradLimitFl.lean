import Verif.Props.GradLimit
import Verif.Lemmas.GradLimitFl
import Verif.Lemmas.Double
import Verif.Spec.Rounding
import Verif.Props.Export
/-!
# Property C113 (`oceanmesh/cpp/HamiltonJacobi.cpp` with rounded arithmetic)

The theorems C23 – C27 about the gradient limiter, without the assumption of exact arithmetic: for every rounding rule that keeps the order,
with or without fused multiply-add.
-/
set_option linter.unusedSectionVars false
namespace OM
open Spec
section
variable {K : Type} [Field K] [LinearOrder K] [IsStrictOrderedRing K]

/-! ### Without rounding the model is the exact one -/

theorem relaxFl_id (fused : Bool) (g ftol : K) (iter : Int) (S : LimState K) (n1 n2 : Nat) (len : K) :
    relaxFl id fused g ftol iter S n1 n2 len = relax g ftol iter S n1 n2 len := by
  unfold relaxFl relax stepFl
  simp only [id_eq, ite_self]
  cases S.f[n1]? <;> cases S.f[n2]? <;> rfl

theorem relaxAllFl_id (fused : Bool) (elen elend g ftol : K) (iter : Int) (n : Nat) :
    ∀ (l : List (Nat × Bool)) (S : LimState K),
      relaxAllFl id fused elen elend g ftol iter n l S = relaxAll elen elend g ftol iter n l S
  | [], S => rfl
  | (m, b) :: l, S => by
    unfold relaxAllFl relaxAll
    rw [relaxFl_id]
    cases relax g ftol iter S n m (if b then elend else elen) with
    | none => rfl
    | some S' => exact relaxAllFl_id fused elen elend g ftol iter n l _

theorem sweepFl_id (fused : Bool) (d0 d1 : Nat) (elen elend g ftol : K) (iter : Int) :
    ∀ (l : List Nat) (S : LimState K), sweepFl id fused d0 d1 elen elend g ftol iter l S = sweep d0 d1 elen elend g ftol iter l S
  | [], S => rfl
  | n :: l, S => by
    unfold sweepFl sweep
    rw [relaxAllFl_id]
    cases relaxAll elen elend g ftol iter n (neighbours d0 d1 n) S with
    | none => rfl
    | some S' => exact sweepFl_id fused d0 d1 elen elend g ftol iter l _

theorem limitLoopFl_id (fused : Bool) (d0 d1 : Nat) (elen elend g ftol : K) : ∀ (fuel iter : Nat) (S : LimState K),
    limitLoopFl id fused d0 d1 elen elend g ftol fuel iter S = limitLoop d0 d1 elen elend g ftol fuel iter S
  | 0, iter, S => rfl
  | fuel + 1, iter, S => by
    unfold limitLoopFl limitLoop
    cases findIndices S.act ((iter : Int) - 1) with
    | nil => rfl
    | cons a l =>
      dsimp only
      rw [sweepFl_id]
      cases sweep d0 d1 elen elend g ftol iter (a :: l) S with
      | none => rfl
      | some S' => exact limitLoopFl_id fused d0 d1 elen elend g ftol fuel (iter + 1) _

/-- **C113** (1) Without rounding the program is the one of C23 – C27. -/
theorem C113_exact (fused : Bool) (sq2 sqEps : K) (d0 d1 d2 : Nat) (elen g : K) (imax : Nat) (f : List K) :
    gradientLimitFlRun id fused sq2 sqEps d0 d1 d2 elen g imax f = gradientLimitRun sq2 sqEps d0 d1 d2 elen g imax f := by
  unfold gradientLimitFlRun gradientLimitRun
  cases minElement f with
  | none => rfl
  | some m =>
    dsimp only
    rw [limitLoopFl_id]
    rfl

example : gradientLimitFlRun id true sq2D sqEpsD 2 2 1 1 1 10 [1, 5, 5, 5] = some ([1, 2, 2, 1 + sq2D], true) := by
  rw [C113_exact]; decide +kernel

/-! ### The run in terms of the functional loop -/

theorem runFl_eq (rnd : K → K) (fused : Bool) (sq2 sqEps : K) {d0 d1 d2 : Nat} (elen g : K) (imax : Nat) {f : List K}
    (hl : f.length = d0 * d1 * d2) {m : K} (hm : minElement f = some m) :
    gradientLimitFlRun rnd fused sq2 sqEps d0 d1 d2 elen g imax f =
      some ((List.range (d0 * d1 * d2)).map (loopG (upFl rnd fused elen (rnd (elen * sq2)) g)
          (fun v => rnd (v + rnd (m * sqEps))) d0 d1 d2 imax 0 (initPS f)).1.φ,
        (loopG (upFl rnd fused elen (rnd (elen * sq2)) g) (fun v => rnd (v + rnd (m * sqEps))) d0 d1 d2 imax 0 (initPS f)).2) := by
  unfold gradientLimitFlRun
  rw [hm]
  dsimp only
  have : (⟨f, List.replicate (d0 * d1 * d2) (-1)⟩ : LimState K) = (initPS f).toState (d0 * d1 * d2) := by
    unfold PS.toState initPS
    rw [← hl]
    dsimp only
    rw [range_map_getD]
    congr 1
    simp [List.map_const']
  rw [this, limitLoopFl_toState]
  rfl

theorem runFl_entry {rnd : K → K} {fused : Bool} {sq2 sqEps : K} {d0 d1 d2 : Nat} {elen g : K} {imax : Nat} {f out : List K} {c : Bool}
    (hl : f.length = d0 * d1 * d2) {m : K} (hm : minElement f = some m)
    (h : gradientLimitFlRun rnd fused sq2 sqEps d0 d1 d2 elen g imax f = some (out, c)) :
    c = (loopG (upFl rnd fused elen (rnd (elen * sq2)) g) (fun v => rnd (v + rnd (m * sqEps))) d0 d1 d2 imax 0 (initPS f)).2 ∧
    ∀ n < d0 * d1 * d2, out[n]? =
      some ((loopG (upFl rnd fused elen (rnd (elen * sq2)) g) (fun v => rnd (v + rnd (m * sqEps))) d0 d1 d2 imax 0
        (initPS f)).1.φ n) := by
  rw [runFl_eq rnd fused sq2 sqEps elen g imax hl hm] at h
  simp only [Option.some.injEq, Prod.mk.injEq] at h
  obtain ⟨rfl, rfl⟩ := h
  refine ⟨rfl, ?_⟩
  intro n hn
  simp [hn]

theorem runFl_ne_nil {rnd : K → K} {fused : Bool} {f : List K} {sq2 sqEps : K} {d0 d1 d2 : Nat} {elen g : K} {imax : Nat} {out : List K}
    {c : Bool} (h : gradientLimitFlRun rnd fused sq2 sqEps d0 d1 d2 elen g imax f = some (out, c)) : f ≠ [] := by
  rintro rfl
  simp [gradientLimitFlRun, minElement] at h

/-- **C113** (2) The limiter returns a field of the same size for every non-empty field of matching size, whatever the rounding. -/
theorem C113_total (rnd : K → K) (fused : Bool) (sq2 sqEps : K) {d0 d1 d2 : Nat} (elen g : K) (imax : Nat) {f : List K}
    (hl : f.length = d0 * d1 * d2) (hne : f ≠ []) :
    ∃ out c, gradientLimitFlRun rnd fused sq2 sqEps d0 d1 d2 elen g imax f = some (out, c) ∧ out.length = f.length := by
  obtain ⟨m, hm, -, -⟩ := minElement_spec hne
  rw [runFl_eq rnd fused sq2 sqEps elen g imax hl hm]
  exact ⟨_, _, rfl, by simp [hl]⟩

example : ∃ out c, gradientLimitFlRun (fun x : ℚ => x + 1) true sq2D sqEpsD 2 2 1 1 1 10 [1, 5, 5, 5] = some (out, c) ∧ out.length = 4 :=
  C113_total _ _ _ _ _ _ _ rfl (by simp)

/-! ### Properties of the rounded step -/

section step
variable {rnd : K → K} (hr : Rounding rnd) {fused : Bool} {g len : K}
include hr

theorem Rounding.nonneg {x : K} (hx : 0 ≤ x) : 0 ≤ rnd x := by rw [← hr.zero]; exact hr.mono hx

theorem stepFl_increment (fused : Bool) (hlen : 0 ≤ len) (hg : 0 ≤ g) : 0 ≤ (if fused then len * g else rnd (len * g)) := by
  cases fused
  · exact Rounding.nonneg hr (mul_nonneg hlen hg)
  · exact mul_nonneg hlen hg

theorem stepFl_ge (hlen : 0 ≤ len) (hg : 0 ≤ g) {x : K} (hx : rnd x = x) : x ≤ stepFl rnd fused g len x := by
  unfold stepFl
  calc x = rnd x := hx.symm
    _ ≤ _ := hr.mono (le_add_of_nonneg_right (stepFl_increment hr fused hlen hg))

theorem stepFl_rep (x : K) : rnd (stepFl rnd fused g len x) = stepFl rnd fused g len x := hr.idem _

theorem stepFl_mono {x y : K} (h : x ≤ y) : stepFl rnd fused g len x ≤ stepFl rnd fused g len y := by
  unfold stepFl; exact hr.mono (by linarith)

theorem stepFl_mono_len {len' : K} (hg : 0 ≤ g) (h : len ≤ len') (x : K) :
    stepFl rnd fused g len x ≤ stepFl rnd fused g len' x := by
  unfold stepFl
  refine hr.mono ?_
  have h1 := mul_le_mul_of_nonneg_right h hg
  cases fused
  · have := hr.mono h1
    simp only [Bool.false_eq_true, if_false]; linarith
  · simp only [if_true]; linarith

theorem tolFl_ge {ftol v : K} (hf : 0 ≤ ftol) (hv : rnd v = v) : v ≤ rnd (v + ftol) := by
  calc v = rnd v := hv.symm
    _ ≤ _ := hr.mono (by linarith)

theorem elend_ge {elen sq2 : K} (hel : rnd elen = elen) (hs2 : 1 ≤ sq2) (he : 0 ≤ elen) : elen ≤ rnd (elen * sq2) := by
  calc elen = rnd elen := hel.symm
    _ ≤ _ := hr.mono (le_mul_of_one_le_right he hs2)

end step

/-- **C113** (3) For every rounding rule, field of non-negative rounded sizes and iteration limit: the limiter only lowers values, returns
rounded values, stays above the smallest input value and above the lower envelope (computed with the same rounding), and keeps the smallest
value where it was. -/
theorem C113_lowers {rnd : K → K} (hr : Rounding rnd) {fused : Bool} {sq2 sqEps : K} {d0 d1 d2 : Nat} {elen g : K} {imax : Nat}
    {f out : List K} {c : Bool} (hl : f.length = d0 * d1 * d2) (hs2 : 1 ≤ sq2) (hse : 0 ≤ sqEps) (helen : 0 ≤ elen) (hel : rnd elen = elen)
    (hg : 0 ≤ g) (hpos : ∀ x ∈ f, 0 ≤ x ∧ rnd x = x)
    (h : gradientLimitFlRun rnd fused sq2 sqEps d0 d1 d2 elen g imax f = some (out, c))
    {n : Nat} {x y : K} (hx : f[n]? = some x) (hy : out[n]? = some y) :
    y ≤ x ∧ rnd y = y ∧
      (∃ v, ForcedBy f d0 d1 d2 (fun v => rnd (v + if fused then elen * g else rnd (elen * g)))
        (fun v => rnd (v + if fused then rnd (elen * sq2) * g else rnd (rnd (elen * sq2) * g))) n v ∧ v ≤ y) ∧
      (∀ lo, (∀ z ∈ f, lo ≤ z) → lo ≤ y) ∧ ((∀ z ∈ f, x ≤ z) → y = x) := by
  obtain ⟨m, hm, hmm, hml⟩ := minElement_spec (runFl_ne_nil h)
  obtain ⟨-, he⟩ := runFl_entry hl hm h
  have hn : n < d0 * d1 * d2 := by rw [← hl]; exact (List.getElem?_eq_some_iff.1 hx).1
  have hftol : 0 ≤ rnd (m * sqEps) := Rounding.nonneg hr (mul_nonneg (hpos m hmm).1 hse)
  have hd := elend_ge hr hel hs2 helen
  have hlen : ∀ b : Bool, 0 ≤ (if b then rnd (elen * sq2) else elen) := by
    intro b; cases b <;> simp <;> [exact helen; exact helen.trans hd]
  rw [he n hn] at hy
  simp only [Option.some.injEq] at hy
  have mem : ∀ a < d0 * d1 * d2, (initPS f).φ a ∈ f := fun a ha => List.mem_of_getElem? (getD_self (by rw [hl]; exact ha))
  have hrep : ∀ a < d0 * d1 * d2, rnd ((loopG (upFl rnd fused elen (rnd (elen * sq2)) g) (fun v => rnd (v + rnd (m * sqEps))) d0 d1 d2
      imax 0 (initPS f)).1.φ a) = (loopG (upFl rnd fused elen (rnd (elen * sq2)) g) (fun v => rnd (v + rnd (m * sqEps))) d0 d1 d2
      imax 0 (initPS f)).1.φ a :=
    loopG_keeps (fun _ v => rnd v = v) (by intro a b bb _ _ _ x y _ _ _; exact stepFl_rep hr _) imax 0 _
      (fun a ha => (hpos _ (mem a ha)).2)
  have hle : y ≤ x := by
    rw [← hy]
    have := loopG_keeps (up := upFl rnd fused elen (rnd (elen * sq2)) g) (tol := fun v => rnd (v + rnd (m * sqEps)))
      (d0 := d0) (d1 := d1) (d2 := d2) (fun a v => v ≤ (initPS f).φ a) (by
        intro a b bb _ _ _ x y hx _ hlt
        exact (tolFl_ge hr hftol (stepFl_rep hr _)).trans (hlt.le.trans hx)) imax 0 (initPS f) (fun _ _ => le_rfl) n hn
    rw [getD_of hx] at this
    exact this
  have hlo : ∀ lo, (∀ z ∈ f, lo ≤ z) → lo ≤ y := by
    intro lo hlo
    rw [← hy]
    exact (loopG_keeps (up := upFl rnd fused elen (rnd (elen * sq2)) g) (tol := fun v => rnd (v + rnd (m * sqEps)))
      (d0 := d0) (d1 := d1) (d2 := d2) (fun _ v => lo ≤ v ∧ rnd v = v) (by
        intro a b bb _ _ _ x y _ hy _
        exact ⟨hy.1.trans (stepFl_ge hr (hlen bb) hg hy.2), stepFl_rep hr _⟩) imax 0 (initPS f)
      (fun a ha => ⟨hlo _ (mem a ha), (hpos _ (mem a ha)).2⟩) n hn).1
  refine ⟨hle, by rw [← hy]; exact hrep n hn, ?_, hlo, fun hmin => le_antisymm hle (hlo x hmin)⟩
  rw [← hy]
  refine (loopG_keeps (up := upFl rnd fused elen (rnd (elen * sq2)) g) (tol := fun v => rnd (v + rnd (m * sqEps)))
      (d0 := d0) (d1 := d1) (d2 := d2) (fun a v => (∃ w, ForcedBy f d0 d1 d2 (fun v => rnd (v + if fused then elen * g else rnd (elen * g)))
        (fun v => rnd (v + if fused then rnd (elen * sq2) * g else rnd (rnd (elen * sq2) * g))) a w ∧ w ≤ v) ∧ rnd v = v) ?_
      imax 0 (initPS f) ?_ n hn).1
  · rintro a b bb ha hb hab x y - ⟨⟨w, hw, hwy⟩, hyr⟩ -
    refine ⟨?_, stepFl_rep hr _⟩
    have hk : a = b ∨ Orthogonal d0 d1 d2 b a ∨ (bb = true ∧ (MainDiagonal d0 d1 d2 b a ∨ AntiDiagonal d0 d1 d2 b a)) := by
      rcases hab with hab | hab
      · rcases neighbours_kind ha hab with rfl | ho | ⟨h1, h2 | h2⟩
        · exact Or.inl rfl
        · exact Or.inr (Or.inl (Orthogonal.symm ho))
        · exact Or.inr (Or.inr ⟨h1, Or.inl (MainDiagonal.symm h2)⟩)
        · exact Or.inr (Or.inr ⟨h1, Or.inr (AntiDiagonal.symm h2)⟩)
      · exact neighbours_kind hb hab
    rcases hk with rfl | ho | ⟨rfl, hdg⟩
    · exact ⟨w, hw, hwy.trans (stepFl_ge hr (hlen bb) hg hyr)⟩
    · refine ⟨_, hw.orth ho, ?_⟩
      refine (stepFl_mono hr (fused := fused) (g := g) (len := elen) hwy).trans ?_
      refine stepFl_mono_len hr hg ?_ y
      cases bb <;> simp
      exact hd
    · exact ⟨_, hw.diag hdg, stepFl_mono hr (fused := fused) (g := g) (len := rnd (elen * sq2)) hwy⟩
  · intro a ha
    exact ⟨⟨_, .start (getD_self (by rw [hl]; exact ha)), le_rfl⟩, (hpos _ (mem a ha)).2⟩

/-- **C113** (4) Where the loop leaves through its convergence test, of two horizontal, vertical or (1,1)-diagonal neighbours the larger
value is at most the smaller one plus the rounded step plus the rounded tolerance. (The other diagonal violates it already in exact
arithmetic: `C24_antidiagonal_violated`.) -/
theorem C113_converged_partial {rnd : K → K} (hr : Rounding rnd) {fused : Bool} {sq2 sqEps : K} {d0 d1 d2 : Nat} {elen g : K} {imax : Nat}
    {f out : List K} (hl : f.length = d0 * d1 * d2) (hs2 : 1 ≤ sq2) (hse : 0 ≤ sqEps) (helen : 0 ≤ elen) (hel : rnd elen = elen)
    (hg : 0 ≤ g) (hpos : ∀ x ∈ f, 0 ≤ x ∧ rnd x = x)
    (h : gradientLimitFlRun rnd fused sq2 sqEps d0 d1 d2 elen g imax f = some (out, true)) {m : K} (hm : m ∈ f) (hml : ∀ x ∈ f, m ≤ x) :
    (∀ a b, Orthogonal d0 d1 d2 a b →
      EntriesBound out (fun y => rnd (rnd (y + if fused then elen * g else rnd (elen * g)) + rnd (m * sqEps))) a b) ∧
    (∀ a b, MainDiagonal d0 d1 d2 a b →
      EntriesBound out (fun y => rnd (rnd (y + if fused then rnd (elen * sq2) * g else rnd (rnd (elen * sq2) * g)) + rnd (m * sqEps)))
        a b) := by
  obtain ⟨m', hm', hmm, hml'⟩ := minElement_spec (runFl_ne_nil h)
  obtain rfl : m = m' := le_antisymm (hml _ hmm) (hml' _ hm)
  obtain ⟨hc, he⟩ := runFl_entry hl hm' h
  have hftol : 0 ≤ rnd (m * sqEps) := Rounding.nonneg hr (mul_nonneg (hpos m hmm).1 hse)
  have hd := elend_ge hr hel hs2 helen
  have hlen : ∀ b : Bool, 0 ≤ (if b then rnd (elen * sq2) else elen) := by
    intro b; cases b <;> simp <;> [exact helen; exact helen.trans hd]
  have hrep : ∀ a < d0 * d1 * d2, rnd ((loopG (upFl rnd fused elen (rnd (elen * sq2)) g) (fun v => rnd (v + rnd (m * sqEps))) d0 d1 d2
      imax 0 (initPS f)).1.φ a) = (loopG (upFl rnd fused elen (rnd (elen * sq2)) g) (fun v => rnd (v + rnd (m * sqEps))) d0 d1 d2
      imax 0 (initPS f)).1.φ a :=
    loopG_keeps (fun _ v => rnd v = v) (by intro a b bb _ _ _ x y _ _ _; exact stepFl_rep hr _) imax 0 _
      (fun a ha => (hpos _ (List.mem_of_getElem? (getD_self (by rw [hl]; exact ha)))).2)
  have one : ∀ (bb : Bool) (a b : Nat), a < d0 * d1 * d2 → b < d0 * d1 * d2 → (b, bb) ∈ neighbours d0 d1 a →
      (a, bb) ∈ neighbours d0 d1 b → ∀ P, P = (loopG (upFl rnd fused elen (rnd (elen * sq2)) g) (fun v => rnd (v + rnd (m * sqEps)))
        d0 d1 d2 imax 0 (initPS f)).1 →
        P.φ a ≤ rnd (stepFl rnd fused g (if bb then rnd (elen * sq2) else elen) (P.φ b) + rnd (m * sqEps)) := by
    rintro bb a b ha hb h1 h2 P rfl
    rcases lt_or_ge ((loopG (upFl rnd fused elen (rnd (elen * sq2)) g) (fun v => rnd (v + rnd (m * sqEps)))
        d0 d1 d2 imax 0 (initPS f)).1.φ b) ((loopG (upFl rnd fused elen (rnd (elen * sq2)) g) (fun v => rnd (v + rnd (m * sqEps)))
        d0 d1 d2 imax 0 (initPS f)).1.φ a) with hlt | hge
    · exact loopG_converged ha hb h1 h2 imax (initPS f) (fun _ _ => rfl) hc.symm hlt
    · exact hge.trans ((stepFl_ge hr (hlen bb) hg (hrep b hb)).trans (tolFl_ge hr hftol (stepFl_rep hr _)))
  constructor
  · intro a b hab
    have ha := InLayer.lt_left hab
    have hb := InLayer.lt_left (Orthogonal.symm hab)
    exact ⟨_, _, he a ha, he b hb, one false a b ha hb (orthogonal_mem hab) (orthogonal_mem (Orthogonal.symm hab)) _ rfl,
      one false b a hb ha (orthogonal_mem (Orthogonal.symm hab)) (orthogonal_mem hab) _ rfl⟩
  · intro a b hab
    have ha := InLayer.lt_left hab
    have hb := InLayer.lt_left (MainDiagonal.symm hab)
    exact ⟨_, _, he a ha, he b hb, one true a b ha hb (mainDiagonal_mem hab) (mainDiagonal_mem (MainDiagonal.symm hab)) _ rfl,
      one true b a hb ha (mainDiagonal_mem (MainDiagonal.symm hab)) (mainDiagonal_mem hab) _ rfl⟩

theorem RelError.le {rnd : K → K} {u : K} (hu : RelError rnd u) {x : K} (hx : 0 ≤ x) : rnd x ≤ (1 + u) * x := by
  have := hu x
  rw [abs_of_nonneg hx] at this
  have := (abs_le.1 this).2
  linarith

theorem stepFl_error {rnd : K → K} (hr : Rounding rnd) {u : K} (hu0 : 0 ≤ u) (hu : RelError rnd u) {fused : Bool} {len g y t : K}
    (hlen : 0 ≤ len) (hg : 0 ≤ g) (hy : 0 ≤ y) (ht : 0 ≤ t) :
    rnd (rnd (y + if fused then len * g else rnd (len * g)) + rnd t) ≤ (1 + u) ^ 3 * (y + len * g + t) := by
  have h1 : (if fused then len * g else rnd (len * g)) ≤ (1 + u) * (len * g) := by
    have h0 := mul_nonneg hlen hg
    cases fused
    · exact RelError.le hu h0
    · simp only [if_true]; nlinarith
  have h0 := stepFl_increment hr fused hlen hg
  have h2 : rnd (y + if fused then len * g else rnd (len * g)) ≤ (1 + u) ^ 2 * (y + len * g) := by
    refine (RelError.le hu (by linarith)).trans ?_
    have hlg := mul_nonneg hlen hg
    have : (y + if fused then len * g else rnd (len * g)) ≤ (1 + u) * (y + len * g) := by nlinarith
    calc _ ≤ (1 + u) * ((1 + u) * (y + len * g)) := mul_le_mul_of_nonneg_left this (by linarith)
      _ = _ := by ring
  have h3 : rnd t ≤ (1 + u) ^ 2 * t := by
    refine (RelError.le hu ht).trans (mul_le_mul_of_nonneg_right ?_ ht)
    nlinarith
  have h4 : 0 ≤ rnd (y + if fused then len * g else rnd (len * g)) + rnd t :=
    add_nonneg (Rounding.nonneg hr (by linarith)) (Rounding.nonneg hr ht)
  refine (RelError.le hu h4).trans ?_
  calc _ ≤ (1 + u) * ((1 + u) ^ 2 * (y + len * g) + (1 + u) ^ 2 * t) := mul_le_mul_of_nonneg_left (by linarith) (by linarith)
    _ = _ := by ring

/-- **C113** (5) With a relative rounding error of at most `u`, the converged field respects the gradation up to a factor `(1 + u)^3`, or
`(1 + u)^4` along the (1,1)-diagonal: `x ≤ (1 + u)^3 (y + elen·g + tol)`. -/
theorem C113_converged_error_partial {rnd : K → K} (hr : Rounding rnd) {u : K} (hu0 : 0 ≤ u) (hu : RelError rnd u) {fused : Bool}
    {sq2 sqEps : K} {d0 d1 d2 : Nat} {elen g : K} {imax : Nat}
    {f out : List K} (hl : f.length = d0 * d1 * d2) (hs2 : 1 ≤ sq2) (hse : 0 ≤ sqEps) (helen : 0 ≤ elen) (hel : rnd elen = elen)
    (hg : 0 ≤ g) (hpos : ∀ x ∈ f, 0 ≤ x ∧ rnd x = x)
    (h : gradientLimitFlRun rnd fused sq2 sqEps d0 d1 d2 elen g imax f = some (out, true)) {m : K} (hm : m ∈ f) (hml : ∀ x ∈ f, m ≤ x) :
    (∀ a b, Orthogonal d0 d1 d2 a b → EntriesBound out (fun y => (1 + u) ^ 3 * (y + elen * g + m * sqEps)) a b) ∧
    (∀ a b, MainDiagonal d0 d1 d2 a b → EntriesBound out (fun y => (1 + u) ^ 4 * (y + elen * sq2 * g + m * sqEps)) a b) := by
  obtain ⟨h1, h2⟩ := C113_converged_partial hr hl hs2 hse helen hel hg hpos h hm hml
  have hm0 := (hpos m hm).1
  have ht := mul_nonneg hm0 hse
  have nonneg : ∀ {a : Nat} {x : K}, out[a]? = some x → 0 ≤ x := by
    intro a x hx
    obtain ⟨m', hm', -, -⟩ := minElement_spec (runFl_ne_nil h)
    have hlen := runFl_eq rnd fused sq2 sqEps elen g imax hl hm'
    rw [hlen] at h
    have ho : out.length = f.length := by
      simp only [Option.some.injEq, Prod.mk.injEq] at h
      rw [← h.1]; simp [hl]
    have ha : a < f.length := by rw [← ho]; exact (List.getElem?_eq_some_iff.1 hx).1
    rw [← hlen] at h
    exact (C113_lowers hr hl hs2 hse helen hel hg hpos h (List.getElem?_eq_getElem ha) hx).2.2.2.1 0 (fun z hz => (hpos z hz).1)
  constructor
  · intro a b hab
    obtain ⟨x, y, hx, hy, hxy, hyx⟩ := h1 a b hab
    exact ⟨x, y, hx, hy, hxy.trans (stepFl_error hr hu0 hu helen hg (nonneg hy) ht),
      hyx.trans (stepFl_error hr hu0 hu helen hg (nonneg hx) ht)⟩
  · intro a b hab
    obtain ⟨x, y, hx, hy, hxy, hyx⟩ := h2 a b hab
    have hs : 0 ≤ elen * sq2 := mul_nonneg helen (by linarith)
    have hd0 : 0 ≤ rnd (elen * sq2) := Rounding.nonneg hr hs
    have key : ∀ z, 0 ≤ z → (1 + u) ^ 3 * (z + rnd (elen * sq2) * g + m * sqEps) ≤ (1 + u) ^ 4 * (z + elen * sq2 * g + m * sqEps) := by
      intro z hz
      have e1 : rnd (elen * sq2) * g ≤ (1 + u) * (elen * sq2) * g := mul_le_mul_of_nonneg_right (RelError.le hu hs) hg
      have e2 : z + rnd (elen * sq2) * g + m * sqEps ≤ (1 + u) * (z + elen * sq2 * g + m * sqEps) := by
        nlinarith
      calc _ ≤ (1 + u) ^ 3 * ((1 + u) * (z + elen * sq2 * g + m * sqEps)) := mul_le_mul_of_nonneg_left e2 (by positivity)
        _ = _ := by ring
    exact ⟨x, y, hx, hy, (hxy.trans (stepFl_error hr hu0 hu hd0 hg (nonneg hy) ht)).trans (key y (nonneg hy)),
      (hyx.trans (stepFl_error hr hu0 hu hd0 hg (nonneg hx) ht)).trans (key x (nonneg hx))⟩

/-- **C113** (6) A field that respects the rounded gradation on all eight neighbours is returned unchanged. -/
theorem C113_unchanged {rnd : K → K} (hr : Rounding rnd) {fused : Bool} {sq2 sqEps : K} {d0 d1 d2 : Nat} {elen g : K} (imax : Nat)
    {f : List K} (hl : f.length = d0 * d1 * d2) (hs2 : 1 ≤ sq2) (hse : 0 ≤ sqEps) (helen : 0 ≤ elen) (hel : rnd elen = elen)
    (hg : 0 ≤ g) (hpos : ∀ x ∈ f, 0 ≤ x ∧ rnd x = x) {m : K} (hm : m ∈ f) (hml : ∀ x ∈ f, m ≤ x)
    (horth : ∀ a b, Orthogonal d0 d1 d2 a b →
      EntriesBound f (fun y => rnd (rnd (y + if fused then elen * g else rnd (elen * g)) + rnd (m * sqEps))) a b)
    (hdiag : ∀ a b, MainDiagonal d0 d1 d2 a b ∨ AntiDiagonal d0 d1 d2 a b →
      EntriesBound f (fun y => rnd (rnd (y + if fused then rnd (elen * sq2) * g else rnd (rnd (elen * sq2) * g)) + rnd (m * sqEps)))
        a b) :
    (gradientLimitFlRun rnd fused sq2 sqEps d0 d1 d2 elen g imax f).map Prod.fst = some f ∧
      (2 ≤ imax → gradientLimitFlRun rnd fused sq2 sqEps d0 d1 d2 elen g imax f = some (f, true)) := by
  obtain ⟨m', hm', hmm, hml'⟩ := minElement_spec (List.ne_nil_of_mem hm)
  obtain rfl : m = m' := le_antisymm (hml _ hmm) (hml' _ hm)
  have hftol : 0 ≤ rnd (m * sqEps) := Rounding.nonneg hr (mul_nonneg (hpos m hmm).1 hse)
  have hd := elend_ge hr hel hs2 helen
  have hlen : ∀ b : Bool, 0 ≤ (if b then rnd (elen * sq2) else elen) := by
    intro b; cases b <;> simp <;> [exact helen; exact helen.trans hd]
  have mem : ∀ a < d0 * d1 * d2, (initPS f).φ a ∈ f := fun a ha => List.mem_of_getElem? (getD_self (by rw [hl]; exact ha))
  have idle := loopG_idle (up := upFl rnd fused elen (rnd (elen * sq2)) g) (tol := fun v => rnd (v + rnd (m * sqEps)))
    (d0 := d0) (d1 := d1) (d2 := d2) imax 0 (initPS f) (by
      intro a b bb ha hb
      have hb' := neighbours_lt ha _ hb
      rcases neighbours_kind ha hb with rfl | ho | ⟨rfl, hdg⟩
      · have := (stepFl_ge hr (fused := fused) (hlen bb) hg (hpos _ (mem b ha)).2).trans (tolFl_ge hr hftol (stepFl_rep hr _))
        exact ⟨this, this⟩
      · obtain ⟨x, y, hx, hy, hxy, hyx⟩ := horth a b ho
        rw [getD_of hx, getD_of hy]
        have up : ∀ z, stepFl rnd fused g elen z ≤ upFl rnd fused elen (rnd (elen * sq2)) g bb z := by
          intro z
          refine stepFl_mono_len hr hg ?_ z
          cases bb <;> simp
          exact hd
        exact ⟨hxy.trans (hr.mono (by have := up y; unfold stepFl at this; linarith)),
          hyx.trans (hr.mono (by have := up x; unfold stepFl at this; linarith))⟩
      · obtain ⟨x, y, hx, hy, hxy, hyx⟩ := hdiag a b hdg
        rw [getD_of hx, getD_of hy]
        exact ⟨hxy, hyx⟩)
  have hrun := runFl_eq rnd fused sq2 sqEps elen g imax hl hm'
  rw [idle.1] at hrun
  have hf : (List.range (d0 * d1 * d2)).map (initPS f).φ = f := by rw [← hl]; exact range_map_getD f
  rw [hf] at hrun
  refine ⟨by rw [hrun]; rfl, ?_⟩
  intro h2
  rw [hrun, idle.2 (by intro x _; simp [initPS]) h2]

/-- **C113** (7) If there are finitely many rounded numbers between the smallest and the largest value, the loop ends by convergence once the
iteration limit is large enough, and the result no longer changes. -/
theorem C113_converges {rnd : K → K} (hr : Rounding rnd) (fused : Bool) {sq2 sqEps : K} {d0 d1 d2 : Nat} {elen g : K}
    {f : List K} (hl : f.length = d0 * d1 * d2) (hne : f ≠ []) (hs2 : 1 ≤ sq2) (hse : 0 ≤ sqEps) (helen : 0 ≤ elen) (hel : rnd elen = elen)
    (hg : 0 ≤ g) (hpos : ∀ x ∈ f, 0 ≤ x ∧ rnd x = x) {lo hi : K} (hlo : ∀ x ∈ f, lo ≤ x) (hhi : ∀ x ∈ f, x ≤ hi)
    (hfin : {x : K | lo ≤ x ∧ x ≤ hi ∧ rnd x = x}.Finite) :
    ∃ N out, ∀ imax, N ≤ imax → gradientLimitFlRun rnd fused sq2 sqEps d0 d1 d2 elen g imax f = some (out, true) := by
  obtain ⟨m, hm, hmm, hml⟩ := minElement_spec hne
  have hftol : 0 ≤ rnd (m * sqEps) := Rounding.nonneg hr (mul_nonneg (hpos m hmm).1 hse)
  have hd := elend_ge hr hel hs2 helen
  have hlen : ∀ b : Bool, 0 ≤ (if b then rnd (elen * sq2) else elen) := by
    intro b; cases b <;> simp <;> [exact helen; exact helen.trans hd]
  have mem : ∀ a < d0 * d1 * d2, (initPS f).φ a ∈ f := fun a ha => List.mem_of_getElem? (getD_self (by rw [hl]; exact ha))
  have conv := loopG_converges (up := upFl rnd fused elen (rnd (elen * sq2)) g) (tol := fun v => rnd (v + rnd (m * sqEps)))
    (d0 := d0) (d1 := d1) (d2 := d2) (fun v => (hfin.toFinset.filter (· < v)).card)
    (fun v => lo ≤ v ∧ v ≤ hi ∧ rnd v = v) (by
      rintro b x y ⟨hx1, hx2, hx3⟩ ⟨hy1, hy2, hy3⟩ hlt
      have hlt' : upFl rnd fused elen (rnd (elen * sq2)) g b y < x := lt_of_le_of_lt (tolFl_ge hr hftol (stepFl_rep hr _)) hlt
      have hR : lo ≤ upFl rnd fused elen (rnd (elen * sq2)) g b y ∧ upFl rnd fused elen (rnd (elen * sq2)) g b y ≤ hi ∧
          rnd (upFl rnd fused elen (rnd (elen * sq2)) g b y) = upFl rnd fused elen (rnd (elen * sq2)) g b y :=
        ⟨hy1.trans (stepFl_ge hr (hlen b) hg hy3), hlt'.le.trans hx2, stepFl_rep hr _⟩
      refine ⟨hR, Finset.card_lt_card ?_⟩
      refine Finset.ssubset_iff_of_subset (fun z hz => ?_) |>.2 ⟨upFl rnd fused elen (rnd (elen * sq2)) g b y, ?_, ?_⟩
      · rw [Finset.mem_filter] at hz ⊢
        exact ⟨hz.1, hz.2.trans hlt'⟩
      · rw [Finset.mem_filter]
        exact ⟨hfin.mem_toFinset.2 hR, hlt'⟩
      · simp)
    _ 0 (initPS f) (by intro x _; simp [initPS]) (fun a ha => ⟨hlo _ (mem a ha), hhi _ (mem a ha), (hpos _ (mem a ha)).2⟩)
    (Nat.lt_succ_self _)
  obtain ⟨N, hN⟩ : ∃ N, (loopG (upFl rnd fused elen (rnd (elen * sq2)) g) (fun v => rnd (v + rnd (m * sqEps))) d0 d1 d2 N 0
      (initPS f)).2 = true := ⟨_, conv⟩
  refine ⟨N, (List.range (d0 * d1 * d2)).map (loopG (upFl rnd fused elen (rnd (elen * sq2)) g) (fun v => rnd (v + rnd (m * sqEps)))
    d0 d1 d2 N 0 (initPS f)).1.φ, ?_⟩
  intro imax hi'
  rw [runFl_eq rnd fused sq2 sqEps elen g imax hl hm]
  obtain ⟨k, rfl⟩ := Nat.exists_eq_add_of_le hi'
  rw [loopG_stable _ 0 k _ hN, hN]

/-! ### Doubles -/

variable [FloorRing K]

/-- **C113** (8) Rounding to 53 binary digits, ties to even, is such a rounding rule, with relative error at most `2^(-53)`. -/
theorem C113_roundDouble : Rounding (roundDouble : K → K) ∧ RelError (roundDouble : K → K) (1 / 2 ^ 53) :=
  ⟨⟨roundDouble_monotone, roundDouble_idem, roundDouble_zero⟩, roundDouble_error⟩

theorem roundEven_nearest (x : K) (j : Int) : |(roundEven x : K) - x| ≤ |(j : K) - x| := by
  have h := roundEven_near x
  by_cases hj : j = roundEven x
  · rw [hj]
  · have h1 : (1 : K) ≤ |(j : K) - roundEven x| := by
      have : (1 : Int) ≤ |j - roundEven x| := Int.one_le_abs (sub_ne_zero.2 hj)
      exact_mod_cast this
    have h2 : |(j : K) - roundEven x| ≤ |(j : K) - x| + |(roundEven x : K) - x| := by
      rw [show (j : K) - roundEven x = ((j : K) - x) - (roundEven x - x) by ring]
      exact abs_sub _ _
    linarith

/-- A number with 53 digits between two powers of two is a multiple of the unit in the last place. -/
theorem isDouble_multiple {d : K} (hd : IsDouble d) {e : Int} (h1 : (2 : K) ^ e ≤ d) : ∃ j : Int, d = j * 2 ^ (e - 52) := by
  obtain ⟨k, f, hk, rfl⟩ := hd
  rcases le_or_gt (e - 52) f with hf | hf
  · refine ⟨k * 2 ^ (f - (e - 52)).toNat, ?_⟩
    push_cast
    rw [mul_assoc, ← zpow_natCast, Int.toNat_of_nonneg (by omega), ← zpow_add₀ (by norm_num)]
    congr 2; ring
  · refine ⟨2 ^ 52, ?_⟩
    rw [two52]
    refine le_antisymm ?_ h1
    calc (k : K) * 2 ^ f ≤ ((2 ^ 53 : Int) : K) * 2 ^ f := by
          refine mul_le_mul_of_nonneg_right ?_ (two_zpow_pos f).le
          exact_mod_cast (le_abs_self k).trans hk
      _ ≤ ((2 ^ 53 : Int) : K) * 2 ^ ((e - 1) - 52) := by
          refine mul_le_mul_of_nonneg_left ?_ (by positivity)
          exact zpow_le_zpow_right₀ (by norm_num) (by omega)
      _ = 2 ^ e := by rw [two53]; congr 1; ring

theorem isDouble_neg {d : K} (hd : IsDouble d) : IsDouble (-d) := by
  obtain ⟨k, f, hk, rfl⟩ := hd
  exact ⟨-k, f, by rwa [abs_neg], by push_cast; ring⟩

theorem roundDouble_nearest_pos {x : K} (hx : 0 < x) : IsDouble (roundDouble x) ∧ ∀ d, IsDouble d →
    |roundDouble x - x| ≤ |d - x| ∧
      (|roundDouble x - x| = |d - x| → d ≠ roundDouble x →
        ∃ k e : Int, Even k ∧ 2 ^ 52 ≤ |k| ∧ |k| ≤ 2 ^ 53 ∧ roundDouble x = k * 2 ^ e) := by
  obtain ⟨k, hk, hk1, hk2, -⟩ := roundDouble_pos hx
  have hkabs : |k| = k := abs_of_nonneg (le_trans (by norm_num) hk1)
  refine ⟨⟨k, _, by rw [hkabs]; exact hk2, hk⟩, ?_⟩
  have hlo : (2 : K) ^ Int.log 2 x ≤ x := by
    have := Int.zpow_log_le_self (b := 2) (R := K) (by norm_num) hx; simpa using this
  have hhi : x < (2 : K) ^ (Int.log 2 x + 1) := by
    have := Int.lt_zpow_succ_log_self (b := 2) (R := K) (by norm_num) x; simpa using this
  have hu := two_zpow_pos (K := K) (Int.log 2 x - 52)
  have hform : roundDouble x = (roundEven (x / 2 ^ (Int.log 2 x - 52)) : K) * 2 ^ (Int.log 2 x - 52) := by
    unfold roundDouble
    dsimp only
    rw [abs_of_pos hx, if_neg (not_lt.2 hx.le)]
  have hkr : k = roundEven (x / 2 ^ (Int.log 2 x - 52)) := by
    rw [hform] at hk
    exact_mod_cast (mul_right_cancel₀ hu.ne' hk).symm
  have scale : ∀ j : Int, |(j : K) * 2 ^ (Int.log 2 x - 52) - x| = |(j : K) - x / 2 ^ (Int.log 2 x - 52)| * 2 ^ (Int.log 2 x - 52) := by
    intro j
    have e : (j : K) * 2 ^ (Int.log 2 x - 52) - x = (j - x / 2 ^ (Int.log 2 x - 52)) * 2 ^ (Int.log 2 x - 52) := by field_simp
    rw [e, abs_mul, abs_of_pos hu]
  have near : ∀ j : Int, |roundDouble x - x| ≤ |(j : K) * 2 ^ (Int.log 2 x - 52) - x| := by
    intro j
    rw [hform, scale, scale]
    exact mul_le_mul_of_nonneg_right (roundEven_nearest _ j) hu.le
  intro d hd
  rcases lt_or_ge d (2 ^ Int.log 2 x) with h | h
  · have n := near (2 ^ 52)
    rw [two52, abs_of_nonpos (show (2 : K) ^ Int.log 2 x - x ≤ 0 by linarith)] at n
    have e : |d - x| = x - d := by rw [abs_of_neg (by linarith)]; ring
    rw [e]
    exact ⟨by linarith, fun he => by exfalso; linarith⟩
  · obtain ⟨j, rfl⟩ := isDouble_multiple hd h
    refine ⟨near j, fun he hne => ⟨k, _, ?_, by rw [hkabs]; exact hk1, by rw [hkabs]; exact hk2, hk⟩⟩
    rw [hkr]
    apply roundEven_tie
    rw [hform, scale, scale] at he
    have he := mul_right_cancel₀ hu.ne' he
    have hne' : j ≠ roundEven (x / 2 ^ (Int.log 2 x - 52)) := by
      rintro rfl; exact hne hform.symm
    have h1 : (1 : K) ≤ |(j : K) - roundEven (x / 2 ^ (Int.log 2 x - 52))| := by
      have : (1 : Int) ≤ |j - roundEven (x / 2 ^ (Int.log 2 x - 52))| := Int.one_le_abs (sub_ne_zero.2 hne')
      exact_mod_cast this
    have h2 := roundEven_near (x / (2 : K) ^ (Int.log 2 x - 52))
    have h3 : |(j : K) - roundEven (x / 2 ^ (Int.log 2 x - 52))| ≤
        |(j : K) - x / 2 ^ (Int.log 2 x - 52)| + |(roundEven (x / 2 ^ (Int.log 2 x - 52)) : K) - x / 2 ^ (Int.log 2 x - 52)| := by
      rw [show (j : K) - roundEven (x / 2 ^ (Int.log 2 x - 52)) =
        ((j : K) - x / 2 ^ (Int.log 2 x - 52)) - (roundEven (x / 2 ^ (Int.log 2 x - 52)) - x / 2 ^ (Int.log 2 x - 52)) by ring]
      exact abs_sub _ _
    linarith

/-- **C113** (8b) `roundDouble` gives a nearest number with 53 binary digits; of two that are equally near, one with an even last digit. -/
theorem C113_nearest (x : K) : IsDouble (roundDouble x) ∧ ∀ d, IsDouble d →
    |roundDouble x - x| ≤ |d - x| ∧
      (|roundDouble x - x| = |d - x| → d ≠ roundDouble x →
        ∃ k e : Int, Even k ∧ 2 ^ 52 ≤ |k| ∧ |k| ≤ 2 ^ 53 ∧ roundDouble x = k * 2 ^ e) := by
  rcases lt_trichotomy x 0 with hx | rfl | hx
  · obtain ⟨h1, h2⟩ := roundDouble_nearest_pos (x := -x) (by linarith)
    rw [roundDouble_neg] at h1 h2
    refine ⟨by simpa using isDouble_neg h1, fun d hd => ?_⟩
    obtain ⟨h3, h4⟩ := h2 (-d) (isDouble_neg hd)
    have e1 : |-roundDouble x - -x| = |roundDouble x - x| := by rw [← abs_neg]; congr 1; ring
    have e2 : |-d - -x| = |d - x| := by rw [← abs_neg]; congr 1; ring
    rw [e1, e2] at h3 h4
    refine ⟨h3, fun he hne => ?_⟩
    obtain ⟨k, e, h5, h6, h7, h8⟩ := h4 he (fun h => hne (neg_injective h))
    exact ⟨-k, e, h5.neg, by rwa [abs_neg], by rwa [abs_neg], by push_cast; linarith⟩
  · rw [roundDouble_zero]
    refine ⟨⟨0, 0, by norm_num, by simp⟩, fun d _ => ⟨by simp, fun h hne => ?_⟩⟩
    simp only [sub_self, abs_zero, sub_zero] at h
    exact absurd (abs_eq_zero.1 h.symm) hne
  · exact roundDouble_nearest_pos hx

example : IsDouble (3 / 2 : ℚ) ∧ roundDouble (3 / 2 : ℚ) = 3 / 2 ∧ roundDouble (1 + 1 / 2 ^ 53 : ℚ) = 1 ∧
    roundDouble (1 + 3 / 2 ^ 53 : ℚ) = 1 + 4 / 2 ^ 53 := by
  refine ⟨⟨3, -1, by norm_num, by norm_num⟩, by decide +kernel⟩

/-- **C113** (9) In double arithmetic the limiter converges on every field of positive doubles. -/
theorem C113_doubles_converge (fused : Bool) {sq2 sqEps : K} {d0 d1 d2 : Nat} {elen g : K} {f : List K} (hl : f.length = d0 * d1 * d2)
    (hne : f ≠ []) (hs2 : 1 ≤ sq2) (hse : 0 ≤ sqEps) (helen : 0 ≤ elen) (hel : roundDouble elen = elen) (hg : 0 ≤ g)
    (hpos : ∀ x ∈ f, 0 < x ∧ roundDouble x = x) :
    ∃ N out, ∀ imax, N ≤ imax → gradientLimitFlRun roundDouble fused sq2 sqEps d0 d1 d2 elen g imax f = some (out, true) := by
  obtain ⟨m, -, hmm, hml⟩ := minElement_spec hne
  have hmax : ∃ M, ∀ x ∈ f, x ≤ M := by
    clear hl hne hpos hmm hml
    induction f with
    | nil => exact ⟨0, by simp⟩
    | cons a l ih =>
      obtain ⟨M, hM⟩ := ih
      exact ⟨max a M, fun x hx => (List.mem_cons.1 hx).elim (fun h => h ▸ le_max_left _ _) (fun h => (hM x h).trans (le_max_right _ _))⟩
  obtain ⟨M, hM⟩ := hmax
  exact C113_converges C113_roundDouble.1 fused hl hne hs2 hse helen hel hg (fun x hx => ⟨(hpos x hx).1.le, (hpos x hx).2⟩) hml hM
    (doubles_finite (hpos m hmm).1)

end

/-- One tenth as a double. -/
def tenthD : ℚ := 3602879701896397 / 36028797018963968

example : roundDouble (1 / 10 : ℚ) = tenthD ∧ roundDouble (tenthD + tenthD * 2) = 3 / 10 + 2 / 45035996273704960 := by decide +kernel

/-- The doubles nearest to 1.1 and to 1.1414…. -/
def elevenTenthsD : ℚ := 2476979795053773 / 2251799813685248
/-- The double computed for `1 + 0.1·√2`. -/
def cornerD : ℚ := 5140504794623073 / 4503599627370496

/-- The limiter in double arithmetic on a 2×2 field with `elen = 0.1` and `g = 1`. -/
theorem limitDoubles_run : gradientLimitFlRun roundDouble false sq2D sqEpsD 2 2 1 tenthD 1 10 [1, 5, 5, 5] =
    some ([1, elevenTenthsD, elevenTenthsD, cornerD], true) := by decide +kernel

theorem limitDoubles_hyp : (1 : ℚ) ≤ sq2D ∧ 0 ≤ sqEpsD ∧ 0 ≤ tenthD ∧ roundDouble tenthD = tenthD ∧
    ∀ x ∈ ([1, 5, 5, 5] : List ℚ), 0 < x ∧ roundDouble x = x := by decide +kernel

example : elevenTenthsD ≤ 5 ∧ roundDouble elevenTenthsD = elevenTenthsD :=
  have h := C113_lowers (C113_roundDouble (K := ℚ)).1 rfl limitDoubles_hyp.1 limitDoubles_hyp.2.1 limitDoubles_hyp.2.2.1
    limitDoubles_hyp.2.2.2.1 zero_le_one (fun x hx => ⟨(limitDoubles_hyp.2.2.2.2 x hx).1.le, (limitDoubles_hyp.2.2.2.2 x hx).2⟩)
    limitDoubles_run (n := 1) rfl rfl
  ⟨h.1, h.2.1⟩

example : EntriesBound [1, elevenTenthsD, elevenTenthsD, cornerD]
    (fun y => (1 + 1 / 2 ^ 53) ^ 3 * (y + tenthD * 1 + 1 * sqEpsD)) 0 1 :=
  (C113_converged_error_partial (C113_roundDouble (K := ℚ)).1 (by norm_num) C113_roundDouble.2 rfl limitDoubles_hyp.1 limitDoubles_hyp.2.1
    limitDoubles_hyp.2.2.1 limitDoubles_hyp.2.2.2.1 zero_le_one
    (fun x hx => ⟨(limitDoubles_hyp.2.2.2.2 x hx).1.le, (limitDoubles_hyp.2.2.2.2 x hx).2⟩) limitDoubles_run (m := 1) (by simp)
    (by decide +kernel)).1 0 1 ⟨0, 0, 1, 0, 0, by decide, by decide, by decide, by decide, by decide, rfl, rfl, by omega⟩

example : ∃ N out, ∀ imax, N ≤ imax → gradientLimitFlRun roundDouble true sq2D sqEpsD 2 2 1 tenthD 1 imax [1, 5, 5, 5] = some (out, true) :=
  C113_doubles_converge true rfl (by simp) limitDoubles_hyp.1 limitDoubles_hyp.2.1 limitDoubles_hyp.2.2.1 limitDoubles_hyp.2.2.2.1
    zero_le_one limitDoubles_hyp.2.2.2.2

/-- On a 1×4 field with `elen = 0.1` the result in double arithmetic differs from the exact one: the theorems above are not about the same
values as C23 – C27. -/
theorem C113_rounding_matters :
    gradientLimitFlRun roundDouble false sq2D sqEpsD 1 4 1 tenthD 1 10 [1 / 2, 5, 5, 5] ≠
      gradientLimitRun sq2D sqEpsD 1 4 1 tenthD 1 10 [1 / 2, 5, 5, 5] := by decide +kernel

/-- A 1×2 field of doubles within the rounded gradation. -/
example : gradientLimitFlRun roundDouble false sq2D sqEpsD 1 2 1 tenthD 1 10 [1, elevenTenthsD] = some ([1, elevenTenthsD], true) := by
  have h : (∀ x ∈ ([1, elevenTenthsD] : List ℚ), 0 ≤ x ∧ roundDouble x = x) ∧ (∀ x ∈ ([1, elevenTenthsD] : List ℚ), 1 ≤ x) ∧
      1 ≤ roundDouble (roundDouble (elevenTenthsD + roundDouble (tenthD * 1)) + roundDouble (1 * sqEpsD)) ∧
      elevenTenthsD ≤ roundDouble (roundDouble (1 + roundDouble (tenthD * 1)) + roundDouble (1 * sqEpsD)) := by decide +kernel
  refine (C113_unchanged (C113_roundDouble (K := ℚ)).1 10 rfl limitDoubles_hyp.1 limitDoubles_hyp.2.1 limitDoubles_hyp.2.2.1
    limitDoubles_hyp.2.2.2.1 zero_le_one h.1 (m := 1) (by simp) h.2.1 ?_ ?_).2 (by norm_num)
  · rintro n m ⟨i, j, i', j', k, hi, hj, hi', hj', hk, rfl, rfl, hr⟩
    obtain rfl : i = 0 := by omega
    obtain rfl : i' = 0 := by omega
    obtain rfl : k = 0 := by omega
    obtain ⟨rfl, rfl⟩ | ⟨rfl, rfl⟩ : (j = 0 ∧ j' = 1) ∨ (j = 1 ∧ j' = 0) := by omega
    · exact ⟨1, elevenTenthsD, rfl, rfl, h.2.2.1, h.2.2.2⟩
    · exact ⟨elevenTenthsD, 1, rfl, rfl, h.2.2.2, h.2.2.1⟩
  · rintro n m (⟨i, j, i', j', k, hi, hj, hi', hj', hk, rfl, rfl, h⟩ | ⟨i, j, i', j', k, hi, hj, hi', hj', hk, rfl, rfl, h⟩) <;>
      omega

end OM
