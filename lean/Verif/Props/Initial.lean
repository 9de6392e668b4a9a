import Verif.Props.Projection
import Mathlib.Algebra.Order.Floor.Semiring
/-!
# C71: the initial points
-/
set_option linter.unusedSectionVars false
namespace OM
open Spec
section
variable {K : Type} [Field K] [LinearOrder K] [IsStrictOrderedRing K] [FloorRing K]

theorem mem_latticeLine {lo hi h : K} (hh : 0 < h) (x : K) : x ∈ latticeLine lo hi h ↔ ∃ i : Nat, x = nodeAt lo h i ∧ x < hi + h := by
  simp only [latticeLine, List.mem_map, List.mem_range, nodeAt]
  constructor
  · rintro ⟨i, hi', rfl⟩
    refine ⟨i, rfl, ?_⟩
    have := Nat.lt_ceil.1 hi'
    rw [lt_div_iff₀ hh] at this
    linarith
  · rintro ⟨i, rfl, hx⟩
    refine ⟨i, Nat.lt_ceil.2 ?_, rfl⟩
    rw [lt_div_iff₀ hh]
    linarith

theorem latticeLine_nodup {lo hi h : K} (hh : 0 < h) : (latticeLine lo hi h).Nodup := by
  unfold latticeLine
  refine List.Nodup.map ?_ List.nodup_range
  intro i j hij
  have h1 : (i : K) * h = (j : K) * h := by simpa using hij
  exact Nat.cast_injective (mul_right_cancel₀ hh.ne' h1)

theorem mem_latticePoints {b : Box K} {h : K} (hh : 0 < h) (q : K × K) : q ∈ latticePoints b h ↔ IsLatticePoint b h q := by
  simp only [latticePoints, List.mem_flatMap, List.mem_map, IsLatticePoint]
  constructor
  · rintro ⟨x, hx, y, hy, rfl⟩
    obtain ⟨i, h1, h2⟩ := (mem_latticeLine hh x).1 hx
    obtain ⟨j, h3, h4⟩ := (mem_latticeLine hh y).1 hy
    exact ⟨i, j, by rw [h1, h3], h2, h4⟩
  · rintro ⟨i, j, rfl, h1, h2⟩
    exact ⟨_, (mem_latticeLine hh _).2 ⟨i, rfl, h1⟩, _, (mem_latticeLine hh _).2 ⟨j, rfl, h2⟩, rfl⟩

theorem latticePoints_nodup {b : Box K} {h : K} (hh : 0 < h) : (latticePoints b h).Nodup := by
  unfold latticePoints
  rw [List.nodup_flatMap]
  refine ⟨fun x _ => (latticeLine_nodup hh).map fun a b h => by simpa using h, ?_⟩
  refine (latticeLine_nodup hh).imp ?_
  intro x y hxy q hq hq'
  obtain ⟨_, -, rfl⟩ := List.mem_map.1 hq
  obtain ⟨_, -, h2⟩ := List.mem_map.1 hq'
  simp only [Prod.mk.injEq] at h2
  exact hxy h2.1.symm

end

section
variable {K : Type} [Field K] [LinearOrder K]

/-- Order of the sizes that are not NaN. -/
def Float64.leq : Float64 K → Float64 K → Prop
  | .fin x, .fin y => x ≤ y
  | .fin _, .posInf => True
  | .posInf, .posInf => True
  | _, _ => False

theorem min2_leq {m : K} {x y : Float64 K} (hx : x.atLeast m = true) (hy : y.atLeast m = true) :
    (x.min2 y).atLeast m = true ∧ (x.min2 y).leq x ∧ (x.min2 y).leq y := by
  cases x <;> cases y <;> simp_all [Float64.atLeast, Float64.min2, Float64.leq]

theorem leq_trans {x y z : Float64 K} (h1 : x.leq y) (h2 : y.leq z) : x.leq z := by
  cases x <;> cases y <;> cases z <;> simp_all [Float64.leq]
  exact h1.trans h2

theorem foldl_min2 {m : K} {l : List (Float64 K)} {x : Float64 K} (hx : x.atLeast m = true) (hl : ∀ y ∈ l, y.atLeast m = true) :
    (l.foldl Float64.min2 x).atLeast m = true ∧ (l.foldl Float64.min2 x).leq x ∧ ∀ y ∈ l, (l.foldl Float64.min2 x).leq y := by
  induction l generalizing x with
  | nil =>
    refine ⟨hx, ?_, by simp⟩
    cases x <;> simp_all [Float64.leq, Float64.atLeast]
  | cons y l ih =>
    obtain ⟨a1, a2, a3⟩ := min2_leq hx (hl y List.mem_cons_self)
    obtain ⟨b1, b2, b3⟩ := ih (x := x.min2 y) a1 fun z hz => hl z (List.mem_cons_of_mem _ hz)
    refine ⟨b1, leq_trans b2 a2, ?_⟩
    intro z hz
    rcases List.mem_cons.1 hz with rfl | hz
    · exact leq_trans b2 a3
    · exact b3 z hz

theorem foldl_min2_mem {m : K} {l : List (Float64 K)} {x : Float64 K} (hx : x.atLeast m = true) (hl : ∀ y ∈ l, y.atLeast m = true) :
    l.foldl Float64.min2 x = x ∨ l.foldl Float64.min2 x ∈ l := by
  induction l generalizing x with
  | nil => exact Or.inl rfl
  | cons y l ih =>
    have hy := hl y List.mem_cons_self
    have h2 : x.min2 y = x ∨ x.min2 y = y := by
      cases x with
      | fin a =>
        cases y with
        | fin b =>
          rcases le_total a b with h | h
          · exact Or.inl (by simp [Float64.min2, h])
          · exact Or.inr (by simp [Float64.min2, h])
        | nan => simp [Float64.atLeast] at hy
        | posInf => exact Or.inl rfl
        | negInf => simp [Float64.atLeast] at hy
      | nan => simp [Float64.atLeast] at hx
      | posInf => exact Or.inr rfl
      | negInf => simp [Float64.atLeast] at hx
    rcases ih (x := x.min2 y) (min2_leq hx hy).1 fun z hz => hl z (List.mem_cons_of_mem _ hz) with h | h
    · rw [List.foldl_cons, h]
      rcases h2 with h2 | h2
      · exact Or.inl h2
      · exact Or.inr (by rw [h2]; exact List.mem_cons_self)
    · exact Or.inr (List.mem_cons_of_mem _ h)

theorem smallestSize_spec {m : K} {r0 : List (Float64 K)} {s : Float64 K} (h : smallestSize m r0 = some s) :
    s ∈ r0 ∧ s.atLeast m = true ∧ ∀ y ∈ r0, y.atLeast m = true → s.leq y := by
  unfold smallestSize at h
  cases hf : r0.filter (Float64.atLeast m) with
  | nil => simp [hf] at h
  | cons x l =>
    rw [hf] at h
    obtain rfl := Option.some.inj h
    have hmem : ∀ y ∈ x :: l, y ∈ r0 ∧ y.atLeast m = true := fun y hy => by rw [← hf] at hy; exact List.mem_filter.1 hy
    have hx := (hmem x List.mem_cons_self).2
    have hl : ∀ y ∈ l, y.atLeast m = true := fun y hy => (hmem y (List.mem_cons_of_mem _ hy)).2
    obtain ⟨h1, h2, h3⟩ := foldl_min2 hx hl
    refine ⟨?_, h1, ?_⟩
    · rcases foldl_min2_mem hx hl with h | h
      · rw [h]; exact (hmem x List.mem_cons_self).1
      · exact (hmem _ (List.mem_cons_of_mem _ h)).1
    · intro y hy hy'
      have : y ∈ x :: l := by rw [← hf]; exact List.mem_filter.2 ⟨hy, hy'⟩
      rcases List.mem_cons.1 this with rfl | h
      · exact h2
      · exact h3 y h

theorem smallestSize_none {m : K} {r0 : List (Float64 K)} : smallestSize m r0 = none ↔ ∀ y ∈ r0, y.atLeast m = false := by
  unfold smallestSize
  cases hf : r0.filter (Float64.atLeast m) with
  | nil => simpa [List.filter_eq_nil_iff] using hf
  | cons x l =>
    have : x ∈ r0.filter (Float64.atLeast m) := by rw [hf]; exact List.mem_cons_self
    obtain ⟨h1, h2⟩ := List.mem_filter.1 this
    simp only [reduceCtorEq, false_iff, not_forall]
    exact ⟨x, h1, by simp [h2]⟩

/-- The last steps of `initialPoints`, for candidates `p` with sizes `r0`. -/
theorem initial_common [IsStrictOrderedRing K] {fd : List (K × K) → Option (List K)} {f : K × K → K} (hf : Pointwise fd f) {h geps : K} (hh : 0 < h)
    {rand : Nat → K} {p : List (K × K)} {r0 : List (Float64 K)} {s : Float64 K} {p1 p2 : List (K × K)} {d : List K}
    (hs : smallestSize h r0 = some s)
    (h1 : maskRows ((List.range r0.length).zipWith (fun i r => keepRandom (rand i) s r) r0) p = some p1) (hd : fd p1 = some d)
    (h2 : maskRows (d.map fun x => decide (x < geps)) p1 = some p2) :
    p2.Sublist p ∧ (∀ q ∈ p2, f q < geps) ∧
      ((∀ i, rand i < 1) → ∀ (i : Nat) (q : K × K) (x : K), p[i]? = some q → r0[i]? = some (.fin x) → h ≤ x →
        (∀ y, Float64.fin y ∈ r0 → h ≤ y → x ≤ y) → f q < geps → q ∈ p2) := by
  obtain rfl := hf _ _ hd
  rw [List.map_map] at h2
  refine ⟨(maskRows_sublist h2).trans (maskRows_sublist h1), ?_, ?_⟩
  · intro q hq
    obtain ⟨i, h3, h4⟩ := (mem_maskRows h2 q).1 hq
    rw [List.getElem?_map, h4] at h3
    simpa using h3
  · intro hr i q x hp hx hhx hmin hfq
    have hfst : q ∈ p1 := by
      refine (mem_maskRows h1 q).2 ⟨i, ?_, hp⟩
      have hi : i < r0.length := (List.getElem?_eq_some_iff.1 hx).1
      rw [List.getElem?_zipWith, List.getElem?_range hi, hx]
      simp only [Option.some.injEq]
      obtain ⟨s1, s2, s3⟩ := smallestSize_spec hs
      have hx0 : 0 < x := lt_of_lt_of_le hh hhx
      have hsx : s = .fin x := by
        have hle := s3 (.fin x) (List.mem_of_getElem? hx) (by simpa [Float64.atLeast] using hhx)
        cases s with
        | fin m =>
          have h5 : m ≤ x := hle
          have h6 : h ≤ m := by simpa [Float64.atLeast] using s2
          rw [le_antisymm h5 (hmin m s1 h6)]
        | nan => exact hle.elim
        | posInf => exact hle.elim
        | negInf => exact hle.elim
      subst hsx
      simp only [keepRandom]
      rw [if_neg hx0.ne', div_self (by positivity)]
      simpa using hr i
    obtain ⟨j, hj⟩ := List.mem_iff_getElem?.1 hfst
    refine (mem_maskRows h2 q).2 ⟨j, ?_, hj⟩
    rw [List.getElem?_map, hj]
    simpa using hfq

/-- **C71**: the initial points are the fixed points followed by different lattice points at which the signed distance is below the tolerance. A lattice
point with the smallest of all sizes that are not below the minimum edge length is always among them if its distance is below the tolerance,
whatever random numbers in `[0, 1)` are drawn. -/
theorem C71_initial_points [IsStrictOrderedRing K] [FloorRing K] {h geps : K} (hh : 0 < h) {b : Box K} {fh : List (K × K) → Option (List (Float64 K))}
    {g : K × K → Float64 K} (hg : Pointwise fh g) {fd : List (K × K) → Option (List K)} {f : K × K → K} (hf : Pointwise fd f) {rand : Nat → K}
    {pfix r : List (K × K)} (hr : initialPoints h geps b fh fd rand pfix none = some r) :
    ∃ l, r = pfix ++ l ∧ l.Nodup ∧ (∀ q ∈ l, IsLatticePoint b h q ∧ f q < geps) ∧
      ((∀ i, rand i < 1) → ∀ (q : K × K) (x : K), IsLatticePoint b h q → g q = .fin x → h ≤ x →
        (∀ (q' : K × K) (y : K), IsLatticePoint b h q' → g q' = .fin y → h ≤ y → x ≤ y) → f q < geps → q ∈ l) := by
  simp only [initialPoints, initialFrom, Option.bind_eq_bind, Option.bind_eq_some_iff] at hr
  obtain ⟨⟨p, r0⟩, h1, s, h2, h3⟩ := hr
  obtain ⟨r0', h4, h5⟩ := Option.map_eq_some_iff.1 h1
  simp only [Prod.mk.injEq] at h5
  obtain ⟨rfl, rfl⟩ := h5
  obtain rfl := hg _ _ h4
  dsimp only at h2 h3
  split at h3
  · simp only [Option.bind_eq_some_iff] at h3
    obtain ⟨p1, h6, d, h7, p2, h8, h9⟩ := h3
    obtain ⟨a1, a2, a3⟩ := initial_common hf hh h2 h6 h7 h8
    refine ⟨p2, (Option.some.inj h9).symm, a1.nodup (latticePoints_nodup hh), ?_, ?_⟩
    · exact fun q hq => ⟨(mem_latticePoints hh q).1 (a1.subset hq), a2 q hq⟩
    · intro hrand q x hq hx hhx hmin hfq
      obtain ⟨i, hi⟩ := List.mem_iff_getElem?.1 ((mem_latticePoints hh q).2 hq)
      refine a3 hrand i q x hi (by rw [List.getElem?_map, hi, Option.map_some, hx]) hhx ?_ hfq
      intro y hy hhy
      obtain ⟨q', hq', hy'⟩ := List.mem_map.1 hy
      exact hmin q' y ((mem_latticePoints hh q').1 hq') hy' hhy
  · simp at h3

/-- **C71** (rejection): if the size is below the minimum edge length (or NaN) at every lattice point, an exception is raised. -/
theorem C71_too_small [IsStrictOrderedRing K] [FloorRing K] {h geps : K} (hh : 0 < h) {b : Box K} {fh : List (K × K) → Option (List (Float64 K))}
    {g : K × K → Float64 K} (hg : Pointwise fh g) (fd : List (K × K) → Option (List K)) (rand : Nat → K) (pfix : List (K × K))
    (hs : ∀ q, IsLatticePoint b h q → g q ≠ .posInf ∧ ∀ x, g q = .fin x → x < h) : initialPoints h geps b fh fd rand pfix none = none := by
  by_contra hne
  obtain ⟨r, hr⟩ := Option.ne_none_iff_exists'.1 hne
  simp only [initialPoints, initialFrom, Option.bind_eq_bind, Option.bind_eq_some_iff] at hr
  obtain ⟨⟨p, r0⟩, h1, s, h2, -⟩ := hr
  obtain ⟨r0', h4, h5⟩ := Option.map_eq_some_iff.1 h1
  simp only [Prod.mk.injEq] at h5
  obtain ⟨rfl, rfl⟩ := h5
  obtain rfl := hg _ _ h4
  have : smallestSize h ((latticePoints b h).map g) = none := by
    rw [smallestSize_none]
    intro y hy
    obtain ⟨q, hq, rfl⟩ := List.mem_map.1 hy
    obtain ⟨a1, a2⟩ := hs q ((mem_latticePoints hh q).1 hq)
    cases hc : g q with
    | fin x => simpa [Float64.atLeast] using a2 x hc
    | nan => rfl
    | posInf => exact absurd hc a1
    | negInf => rfl
  rw [this] at h2
  simp at h2

/-- **C71** (stereographic): the initial points are the fixed points followed by projections of lattice points in degrees between -180 and 180 and
between -89 and 89, with signed distance below the tolerance. -/
theorem C71_initial_stereo [IsStrictOrderedRing K] [FloorRing K] {h geps : K} (hh : 0 < h) {b : Box K} {fh : List (K × K) → Option (List (Float64 K))}
    {fd : List (K × K) → Option (List K)} {f : K × K → K} (hf : Pointwise fd f) {rand : Nat → K} {proj back : K × K → K × K} {dist : K → Float64 K}
    {pfix r : List (K × K)} (hr : initialPoints h geps b fh fd rand pfix (some (proj, back, dist)) = some r) :
    ∃ l, r = pfix ++ l ∧ ∀ q ∈ l, f q < geps ∧ ∃ q0, q = proj q0 ∧ IsLatticePoint ⟨-180, 180, -89, 89⟩ h q0 := by
  simp only [initialPoints, initialFrom, Option.bind_eq_bind, Option.bind_eq_some_iff] at hr
  obtain ⟨⟨p, r0⟩, h1, s, h2, h3⟩ := hr
  obtain ⟨r0', h4, h5⟩ := Option.map_eq_some_iff.1 h1
  simp only [Prod.mk.injEq] at h5
  obtain ⟨rfl, rfl⟩ := h5
  dsimp only at h2 h3
  split at h3
  · simp only [Option.bind_eq_some_iff] at h3
    obtain ⟨p1, h6, d, h7, p2, h8, h9⟩ := h3
    obtain ⟨a1, a2, a3⟩ := initial_common hf hh h2 h6 h7 h8
    refine ⟨p2, (Option.some.inj h9).symm, fun q hq => ⟨a2 q hq, ?_⟩⟩
    obtain ⟨q0, hq0, rfl⟩ := List.mem_map.1 (a1.subset hq)
    exact ⟨q0, rfl, (mem_latticePoints hh q0).1 hq0⟩
  · simp at h3

end

/-- Sizes growing to the right. -/
def growing (q : ℚ × ℚ) : Float64 ℚ := if q.1 < 0 then .nan else .fin (1 + q.1)

/-- The half plane below a diagonal. -/
def diagonalFd (q : ℚ × ℚ) : ℚ := q.1 + q.2 - 2

example : initialPoints (1 / 2) (1 / 1000) ⟨0, 1, 0, 1⟩ (fun l => some (l.map growing)) (fun l => some (l.map diagonalFd)) (fun i => ((i % 2 : Nat) : ℚ) / 2) [(1 / 3, 1 / 3)] none =
    some [(1 / 3, 1 / 3), (0, 0), (0, 1 / 2), (0, 1), (1 / 2, 1 / 2), (1, 0), (1, 1)] := by decide +kernel

example := C71_initial_points (h := 1 / 2) (geps := 1 / 1000) (by norm_num) (b := ⟨0, 1, 0, 1⟩) (fh := fun l => some (l.map growing)) (g := growing)
  (fun l r h => (Option.some.inj h).symm) (fd := fun l => some (l.map diagonalFd)) (f := diagonalFd) (fun l r h => (Option.some.inj h).symm)
  (rand := fun i => ((i % 2 : Nat) : ℚ) / 2) (pfix := [(1 / 3, 1 / 3)])
  (r := [(1 / 3, 1 / 3), (0, 0), (0, 1 / 2), (0, 1), (1 / 2, 1 / 2), (1, 0), (1, 1)]) (by decide +kernel)

example : initialPoints (1 / 2 : ℚ) (1 / 1000) ⟨0, 1, 0, 1⟩ (fun l => some (l.map fun q => .fin (q.1 / 4))) (fun l => some (l.map diagonalFd)) (fun _ => 0) [] none = none :=
  C71_too_small (by norm_num) (g := fun q => .fin (q.1 / 4)) (fun l r h => (Option.some.inj h).symm) _ _ _ (by
    rintro q ⟨i, j, -, h1, -⟩
    refine ⟨by simp, ?_⟩
    intro x hx
    cases hx
    norm_num at h1
    linarith)

/-- **C71** (disagreement): the lattice goes on behind the box if its size is not a multiple of the step: an initial point can lie outside of the
bounding box (and inside the domain, if the signed distance function says so). -/
theorem C71_outside_box : ∃ (fd : List (ℚ × ℚ) → Option (List ℚ)) (q : ℚ × ℚ) (r : List (ℚ × ℚ)),
    initialPoints (3 / 4) (1 / 1000) ⟨0, 1, 0, 1⟩ (fun l => some (l.map fun _ => .fin 1)) fd (fun _ => 0) [] none = some r ∧ q ∈ r ∧ (1 : ℚ) < q.1 :=
  ⟨fun l => some (l.map diagonalFd), (3 / 2, 0), [(0, 0), (0, 3 / 4), (0, 3 / 2), (3 / 4, 0), (3 / 4, 3 / 4), (3 / 2, 0)], by decide +kernel, by simp, by norm_num⟩

example := C71_initial_stereo (h := 60) (geps := 1 / 1000) (by norm_num) (b := ⟨0, 1, 0, 1⟩) (fh := fun l => some (l.map fun _ => Float64.fin 100))
  (fd := fun l => some (l.map diagonalFd)) (f := diagonalFd) (fun l r h => (Option.some.inj h).symm) (rand := fun _ => (0 : ℚ))
  (proj := fun q => (q.1 / 100, q.2 / 100)) (back := fun q => (q.1 * 100, q.2 * 100)) (dist := fun _ => .fin 2) (pfix := [])
  (r := (initialPoints (60 : ℚ) (1 / 1000) ⟨0, 1, 0, 1⟩ (fun l => some (l.map fun _ => Float64.fin 100)) (fun l => some (l.map diagonalFd)) (fun _ => 0) []
    (some (fun q => (q.1 / 100, q.2 / 100), fun q => (q.1 * 100, q.2 * 100), fun _ => .fin 2))).get (by decide +kernel)) (by simp)

end OM
