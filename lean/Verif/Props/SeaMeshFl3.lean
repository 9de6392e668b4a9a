import Verif.Props.SeaMeshFl2
/-!
# C126: executions in doubles
-/
set_option linter.unusedSectionVars false
namespace OM
open Spec

/-- The compiled test (or the one in Python) with the tolerance of the code, as a double. -/
def toolsD (compiled : Bool) : SdfTools ℚ := ⟨⟨compiled, false, false, none⟩, fun _ => none, fun _ => none, roundDouble (5 / 10 ^ 14), nearQ⟩

theorem shoresD (compiled : Bool) : ShoresFl roundDouble (1 / 2 ^ 53) 180 (toolsD compiled) farIsland bigBox bigTris seaTris where
  rounding := C113_roundDouble.1
  relError := C113_roundDouble.2
  unit := by norm_num
  ftol := by
    have : (0 : ℚ) ≤ roundDouble (5 / 10 ^ 14) ∧ (roundDouble (5 / 10 ^ 14) : ℚ) ≤ 180 := by decide +kernel
    exact this
  innerClosed := shoresQ.innerClosed
  boxClosed := shoresQ.boxClosed
  boxSome := shoresQ.boxSome
  stored := by
    have : ∀ f ∈ farIsland ++ bigBox, ∀ q ∈ f, roundDouble q.1 = q.1 ∧ roundDouble q.2 = q.2 ∧ |q.1| ≤ 180 ∧ |q.2| ≤ 180 := by decide +kernel
    exact this
  boxRegion := shoresQ.boxRegion
  sea := shoresQ.sea

/-- A point beyond the edge on one side. -/
theorem not_near_side {r : ℚ} {q a b : ℚ × ℚ}
    (h : (a.1 + r < q.1 ∧ b.1 + r < q.1) ∨ (q.1 + r < a.1 ∧ q.1 + r < b.1) ∨ (a.2 + r < q.2 ∧ b.2 + r < q.2) ∨ (q.2 + r < a.2 ∧ q.2 + r < b.2)) :
    ¬ NearSegment r q a b := by
  rintro ⟨z, ⟨t, t0, t1, e1, e2⟩, hle⟩
  have n1 := abs_nonneg (q.1 - z.1)
  have n2 := abs_nonneg (q.2 - z.2)
  have l1 := abs_le.1 (le_refl |q.1 - z.1|)
  have l2 := abs_le.1 (le_refl |q.2 - z.2|)
  have lo : ∀ x y c : ℚ, c < x → c < y → c < x + t * (y - x) := fun x y c h1 h2 => by
    rcases t0.lt_or_eq with h | h
    · nlinarith [mul_lt_mul_of_pos_left h2 h, mul_le_mul_of_nonneg_left h1.le (sub_nonneg.2 t1)]
    · rw [← h]; linarith
  have hi : ∀ x y c : ℚ, x < c → y < c → x + t * (y - x) < c := fun x y c h1 h2 => by
    rcases t0.lt_or_eq with h | h
    · nlinarith [mul_lt_mul_of_pos_left h2 h, mul_le_mul_of_nonneg_left h1.le (sub_nonneg.2 t1)]
    · rw [← h]; linarith
  rcases h with ⟨h1, h2⟩ | ⟨h1, h2⟩ | ⟨h1, h2⟩ | ⟨h1, h2⟩
  · have := hi a.1 b.1 (q.1 - r) (by linarith) (by linarith); linarith
  · have := lo a.1 b.1 (q.1 + r) (by linarith) (by linarith); linarith
  · have := hi a.2 b.2 (q.2 - r) (by linarith) (by linarith); linarith
  · have := lo a.2 b.2 (q.2 + r) (by linarith) (by linarith); linarith

theorem beyond_side {r : Seg ℚ → ℚ} {q : ℚ × ℚ} {edges : List (Seg ℚ)}
    (h : ∀ s ∈ edges, (s.1.1 + r s < q.1 ∧ s.2.1 + r s < q.1) ∨ (q.1 + r s < s.1.1 ∧ q.1 + r s < s.2.1) ∨ (s.1.2 + r s < q.2 ∧ s.2.2 + r s < q.2) ∨
      (q.2 + r s < s.1.2 ∧ q.2 + r s < s.2.2)) : BeyondReach r q edges := fun s hs => not_near_side (h s hs)

/-- A centroid of the execution, away from the edges for both tests. -/
theorem seaD_beyond (compiled : Bool) : TestSafe (toolsD compiled) (1 / 2 ^ 53) 180 (6 * (1 / 2 ^ 53) * 180) ((13 / 3, -4 / 3) : ℚ × ℚ)
    ((farIsland ++ bigBox).flatMap segments) := by
  refine ⟨?_, fun _ => by clear * -; unfold LevelClear; revert compiled; decide +kernel⟩
  apply beyond_side
  cases compiled <;> unfold testReach pyReach <;> decide +kernel

def seaFuncsD (compiled : Bool) : (List (QueryPoint ℚ) → Option (List ℚ)) × (List (QueryPoint ℚ) → Option (List ℚ)) :=
  match signedDistanceFunctionFl roundDouble true (toolsD compiled) (joinNaN farIsland) (joinNaN bigBox) false with
  | some f => f
  | none => (fun _ => none, fun _ => none)

theorem seaFuncsD_eq (compiled : Bool) : signedDistanceFunctionFl roundDouble true (toolsD compiled) (joinNaN farIsland) (joinNaN bigBox) false =
    some ((seaFuncsD compiled).1, (seaFuncsD compiled).2) := by
  obtain ⟨f, c, h, -⟩ := C126_pointwise roundDouble true (toolsD compiled) shoresQ.innerClosed shoresQ.boxClosed shoresQ.boxSome false
  unfold seaFuncsD
  rw [h]

theorem nearD_nearly (compiled : Bool) : NearlyNearest (fun p q : ℚ × ℚ => |p.1 - q.1| + |p.2 - q.2|) (farIsland ++ bigBox).flatten 0
    ((toolsD compiled).near (farIsland ++ bigBox).flatten) := by
  intro q
  have h := nearQ_nearest (l := (farIsland ++ bigBox).flatten) (by simp [farIsland])
  obtain ⟨⟨v, hv, e⟩, hle⟩ := h.2.2 q
  exact ⟨(NearestDistance_pos h q).1, ⟨v, hv, by rw [sub_zero, one_mul]; exact e.ge⟩, fun v hv => by rw [add_zero, one_mul]; exact hle v hv⟩

theorem taxi_stable : DistanceStable (fun p q : ℚ × ℚ => |p.1 - q.1| + |p.2 - q.2|) := by
  intro x y v
  have h1 := abs_sub_le x.1 y.1 v.1
  have h2 := abs_sub_le x.2 y.2 v.2
  simp only
  linarith

def seaGenD (compiled : Bool) : GenFl ℚ :=
  { wheelGen with
    fd := onFinite (seaFuncsD compiled).1
    ptol := 3961408125713217 / 2 ^ 94
    fl := roundDouble
    sq := fun a b => roundDouble (roundDouble (a * a) + roundDouble (b * b)) }

-- A point of the sea, one of the island, one outside, one that is not finite.
example : (seaFuncsD true).1 [(some (1 / 2), some (1 / 2)), (some (41 / 2), some (41 / 2)), (none, some 1), (some 40, some 3)] =
    some [-39, 1, 1000000000000, 36] := by decide +kernel
example : (seaFuncsD false).1 [(some (1 / 2), some (1 / 2)), (some (41 / 2), some (41 / 2)), (none, some 1), (some 40, some 3)] =
    some [-39, 1, 1000000000000, 36] := by decide +kernel
example := C126_exact (K := ℚ) true toolsQ (joinNaN farIsland) (joinNaN bigBox) false
example := C126_sign (shoresD true) (fun q => (nearD_nearly true q).1) (seaFuncsD_eq true) [(1 / 2, 1 / 2)]
example := C126_tests (shoresD false) true (q := (1, 1)) (by
    have : roundDouble (1 : ℚ) = 1 ∧ roundDouble (1 : ℚ) = 1 ∧ |(1 : ℚ)| ≤ 2 * 180 ∧ |(1 : ℚ)| ≤ 2 * 180 := by decide +kernel
    exact this) (by refine ⟨?_, fun _ => by unfold LevelClear; decide +kernel⟩; apply beyond_side; unfold testReach pyReach; decide +kernel)

theorem seaRunD_some : ∀ compiled, (generateMeshFl (seaGenD compiled) 2 wheelStart).isSome := by decide +kernel

/-- In the first iteration of the execution the triangle with the centroid `(13/3, -4/3)` is kept, as `C126_kept` says. -/
example (compiled : Bool) : ∃ R, generateMeshFl (seaGenD compiled) 2 wheelStart = some R ∧ ∃ r ∈ R.2, (⟨1, 2, 3⟩ : Tri) ∈ r.kept := by
  obtain ⟨⟨m, l⟩, h⟩ := Option.isSome_iff_exists.1 (seaRunD_some compiled)
  have h0 : ((generateMeshFl (seaGenD compiled) 2 wheelStart).bind fun R => R.2.head?.map fun r => (r.triangles, r.points)) =
      some ([⟨1, 2, 3⟩, ⟨0, 2, 3⟩, ⟨0, 3, 4⟩, ⟨0, 4, 5⟩, ⟨0, 5, 2⟩], [(5, 5), (4, -4), (0, 0), (9, 0), (10, 9), (1, 11)]) := by
    clear h; revert compiled; decide +kernel
  rw [h] at h0
  obtain ⟨r, hr, e⟩ : ∃ r, l.head? = some r ∧ _ := by simpa using h0
  have hrl : r ∈ l := List.mem_of_head? hr
  refine ⟨_, h, r, hrl, ?_⟩
  have e1 : r.triangles = [⟨1, 2, 3⟩, ⟨0, 2, 3⟩, ⟨0, 3, 4⟩, ⟨0, 4, 5⟩, ⟨0, 5, 2⟩] := by simpa using e.1
  have e2 : r.points = [(5, 5), (4, -4), (0, 0), (9, 0), (10, 9), (1, 11)] := by simpa using e.2
  have hc : centroid ((4, -4) : ℚ × ℚ) (0, 0) (9, 0) = (13 / 3, -4 / 3) := by decide +kernel
  refine (C126_kept (shoresD compiled) (seaFuncsD_eq compiled) (S := seaGenD compiled) (ρ := 0) (by norm_num) taxi_stable (nearD_nearly compiled) rfl rfl
    (by norm_num [seaGenD, wheelGen, genQ]) h r hrl ⟨1, 2, 3⟩ (by rw [e1]; simp) (4, -4) (0, 0) (9, 0) (by rw [e2]; rfl) (by norm_num) (by norm_num)
    (by norm_num) (by rw [hc]; exact seaD_beyond compiled)).2 ?_ ?_ ?_
  · rw [hc]
    exact ⟨((-30, -30), (30, -30), (30, 30)), by simp [bigTris], 77 / 180, 17 / 180, 43 / 90, by norm_num, by norm_num, by norm_num, by norm_num, by norm_num,
      by norm_num⟩
  · rw [hc]
    exact ⟨((-30, -30), (30, -30), (20, 20)), by simp [seaTris], 299 / 900, 17 / 180, 43 / 75, by norm_num, by norm_num, by norm_num, by norm_num, by norm_num,
      by norm_num⟩
  · rw [hc]
    have : ∀ v ∈ (farIsland ++ bigBox).flatten, (1 / 1000 : ℚ) < (1 - 0) * (|13 / 3 - v.1| + |-4 / 3 - v.2| - 6 * (1 / 2 ^ 53) * 180) := by decide +kernel
    exact this

example : ∃ m l, generateMeshFl (seaGenD true) 2 wheelStart = some (m, l) ∧ ∃ r, l.getLast? = some r ∧
    ((∀ q ∈ r.points, |q.1| ≤ 180 ∧ |q.2| ≤ 180) → ∀ e, IsExtent r.points e → ∀ g ∈ m.t, ∃ x y z, corners m.p g = [some x, some y, some z] ∧
      (BeyondReach (fun _ => 15 / 10 ^ 11) (centroid x y z) ((farIsland ++ bigBox).flatMap segments) →
        InRegion bigTris (centroid x y z) ∧ InRegion seaTris (centroid x y z))) := by
  obtain ⟨⟨m, l⟩, h⟩ := Option.isSome_iff_exists.1 (seaRunD_some true)
  exact ⟨m, l, h, C126_degrees ⟨rfl, rfl⟩ rfl (shoresD true) (seaFuncsD_eq true) (fun q => (nearD_nearly true q).1) (S := seaGenD true) rfl rfl
    (by norm_num [seaGenD, wheelGen, genQ]) rndQ_isRounding rfl h⟩

-- The points of the last iteration are in the range, and the mesh has five triangles.
example : (generateMeshFl (seaGenD true) 2 wheelStart).any (fun R => R.1.t.length == 5 && R.2.all fun r => r.points.all fun q =>
    decide (|q.1| ≤ 180 ∧ |q.2| ≤ 180)) = true := by decide +kernel

example : ∃ m l, generateMeshFl (seaGenD false) 2 wheelStart = some (m, l) ∧ ∃ r, l.getLast? = some r := by
  obtain ⟨⟨m, l⟩, h⟩ := Option.isSome_iff_exists.1 (seaRunD_some false)
  obtain ⟨r, hr, -⟩ := C126_mesh (shoresD false) (seaFuncsD_eq false) (fun q => (nearD_nearly false q).1) (S := seaGenD false) rfl rfl
    (by norm_num [seaGenD, wheelGen, genQ]) rndQ_isRounding (by norm_num [seaGenD]) h
  exact ⟨m, l, h, r, hr⟩

-- The test in Python: the edges are long enough, and no edge is nearly but not exactly flat.
example : ∃ m l, generateMeshFl (seaGenD false) 2 wheelStart = some (m, l) ∧ ∃ r, l.getLast? = some r ∧
    ((∀ q ∈ r.points, |q.1| ≤ 180 ∧ |q.2| ≤ 180) → ∀ e, IsExtent r.points e → ∀ g ∈ m.t, ∃ x y z, corners m.p g = [some x, some y, some z] ∧
      (BeyondReach (fun _ => 3 / 10 ^ 10) (centroid x y z) ((farIsland ++ bigBox).flatMap segments) →
        (∀ s ∈ (farIsland ++ bigBox).flatMap segments, LevelClear (6 / 10 ^ 14) (15 / 10 ^ 11) (centroid x y z).2 s) →
        InRegion bigTris (centroid x y z) ∧ InRegion seaTris (centroid x y z))) := by
  obtain ⟨⟨m, l⟩, h⟩ := Option.isSome_iff_exists.1 (seaRunD_some false)
  exact ⟨m, l, h, C126_degrees_python (fun h => by cases h.2) rfl (shoresD false) (by decide +kernel) (seaFuncsD_eq false) (fun q => (nearD_nearly false q).1)
    (S := seaGenD false) rfl rfl (by norm_num [seaGenD, wheelGen, genQ]) rndQ_isRounding rfl h⟩

/-! ## A run with generated start points -/

/-- The fixed points are a corner of the island and a point of the sea. -/
def seaGenFix : GenFl ℚ :=
  { genQ [(20, 20), (1, 1)] false with
    fd := onFinite (seaFuncsD true).1
    fl := roundDouble
    sq := fun a b => roundDouble (roundDouble (a * a) + roundDouble (b * b)) }

/-- The start points: no lattice point is farther inside the island than the tolerance. -/
def seaStart : List (ℚ × ℚ) := [(20, 20), (1, 1), (19, 19), (19, 20), (20, 19), (20, 20)]

theorem seaStart_eq : initialFl roundDouble 1 (1 / 1000) ⟨19, 20, 19, 20⟩ oneFh seaGenFix.fd (fun _ => 0) seaGenFix.pfix = some seaStart := by decide +kernel

theorem seaFixRun_some : (generateMeshFl seaGenFix 2 seaStart).isSome := by decide +kernel

theorem seaFix_beyond : TestSafe (toolsD true) (1 / 2 ^ 53) 180 0 ((1, 1) : ℚ × ℚ) ((farIsland ++ bigBox).flatMap segments) := by
  refine ⟨?_, fun h => absurd ⟨rfl, rfl⟩ h⟩
  apply beyond_side
  unfold testReach pyReach
  decide +kernel

example : ∃ m l, generateMeshFl seaGenFix 2 seaStart = some (m, l) ∧ l.length = 2 ∧ ∀ r ∈ l, ((20, 20) : ℚ × ℚ) ∈ r.points ∧ (1, 1) ∈ r.points := by
  obtain ⟨⟨m, l⟩, h⟩ := Option.isSome_iff_exists.1 seaFixRun_some
  have hl : (generateMeshFl seaGenFix 2 seaStart).map (fun R => R.2.length) = some 2 := by clear h; decide +kernel
  obtain ⟨hRd, hrd⟩ := C113_roundDouble (K := ℚ)
  have := (C126_run (shoresD true) (by decide +kernel) (fun _ => roundDouble_pos_of_pos) (seaFuncsD_eq true) (by simp) (nearD_nearly true) (S := seaGenFix)
    rfl rfl (C125_square_sums hRd hrd (by norm_num)).1 toyCgal_laws (by
      intro q hq
      simp only [seaGenFix, genQ, List.mem_cons, List.not_mem_nil, or_false] at hq
      rcases hq with rfl | rfl
      · exact ⟨by decide +kernel, .inl (by simp [farIsland])⟩
      · refine ⟨by decide +kernel, .inr ⟨?_, seaFix_beyond, ?_, ?_⟩⟩
        · have : (roundDouble (1 : ℚ) = 1 ∧ roundDouble (1 : ℚ) = 1 ∧ |(1 : ℚ)| ≤ 2 * 180 ∧ |(1 : ℚ)| ≤ 2 * 180) := by decide +kernel
          exact this
        · exact ⟨((-30, -30), (30, -30), (30, 30)), by simp [bigTris], 29 / 60, 0, 31 / 60, by norm_num, by norm_num, by norm_num, by norm_num, by norm_num,
            by norm_num⟩
        · exact ⟨((-30, -30), (30, -30), (20, 20)), by simp [seaTris], 19 / 50, 0, 31 / 50, by norm_num, by norm_num, by norm_num, by norm_num, by norm_num,
            by norm_num⟩)
    (by norm_num) (g := fun _ => .fin 1) (fun pts y hy => by simp only [oneFh, Option.some.injEq] at hy; exact hy.symm) seaStart_eq h).2
  refine ⟨m, l, h, ?_, fun r hr => ⟨(this r hr).2.2 _ ?_, (this r hr).2.2 _ ?_⟩⟩
  · rw [h] at hl; simpa using hl
  · simp [seaGenFix, genQ]
  · simp [seaGenFix, genQ]

end OM
