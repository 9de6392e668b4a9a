import Verif.Lemmas.Smooth
import Verif.Props.Clean
/-!
# Properties C20, C21 (`laplacian2`, `mesh_clean`)
-/
set_option linter.unusedSectionVars false
namespace OM
open Spec

section
variable {K : Type} [Field K] [LinearOrder K] [IsStrictOrderedRing K]

theorem sum_halfplane {a b c : K} : ∀ (qs : List (K × K)), (∀ q ∈ qs, a * q.1 + b * q.2 ≤ c) →
    a * (qs.map Prod.fst).sum + b * (qs.map Prod.snd).sum ≤ c * (qs.length : K)
  | [], _ => by simp
  | q :: qs, h => by
    have h1 := h q (List.mem_cons_self ..)
    have h2 := sum_halfplane qs fun x hx => h x (List.mem_cons_of_mem _ hx)
    simp only [List.map_cons, List.sum_cons, List.length_cons, Nat.cast_add, Nat.cast_one]
    linarith

theorem smoothRows_halfplane {a b c : K} {es : List (Nat × Nat)} {bnd : List Nat} {p p' : List (K × K)}
    (hw : ∀ v < p.length, rowWeight es v ≠ 0) (h : smoothRows es bnd p 0 p = some p')
    (hp : ∀ q ∈ p, a * q.1 + b * q.2 ≤ c) : ∀ q ∈ p', a * q.1 + b * q.2 ≤ c := by
  intro q' hq'
  obtain ⟨v, hv⟩ := List.mem_iff_getElem?.1 hq'
  have hvl : v < p.length := by
    have := (List.getElem?_eq_some_iff.1 hv).1
    rwa [smoothRows_length h] at this
  have hq := List.getElem?_eq_getElem hvl
  obtain ⟨h1, h2⟩ := smoothRows_spec h v _ q' hq hv
  rw [Nat.zero_add] at h1 h2
  by_cases hb : v ∈ bnd
  · rw [h1 hb]; exact hp _ (List.getElem_mem hvl)
  · obtain ⟨s, hs, e⟩ := h2 hb
    obtain ⟨qs, g1, g2, g3⟩ := rowSum_spec hs
    have hall : ∀ q ∈ qs, a * q.1 + b * q.2 ≤ c := by
      intro q hq
      obtain ⟨w, -, hw⟩ := forall₂_mem_right g1 q hq
      exact hp q (List.mem_of_getElem? hw)
    have := sum_halfplane qs hall
    rw [← g2, ← g3, ← g1.length_eq, ← rowWeight_eq] at this
    have hpos : (0 : K) < (rowWeight es v : K) := Nat.cast_pos.2 (Nat.pos_of_ne_zero (hw v hvl))
    rw [e]
    dsimp only
    rw [← mul_div_assoc, ← mul_div_assoc, ← add_div, div_le_iff₀ hpos]
    exact this

theorem smoothLoop_halfplane {a b c : K} {len : K × K → K × K → K} {tol : K} {es edge : List (Nat × Nat)} {bnd : List Nat} :
    ∀ {n : Nat} {p p' : List (K × K)}, (∀ v < p.length, rowWeight es v ≠ 0) →
      smoothLoop len tol es edge bnd n p = some p' → (∀ q ∈ p, a * q.1 + b * q.2 ≤ c) →
      ∀ q ∈ p', a * q.1 + b * q.2 ≤ c
  | 0, p, p', _, h, hp => by cases h; exact hp
  | n + 1, p, p', hw, h, hp => by
    rw [smoothLoop] at h
    split at h
    · cases h
    · rename_i p1 hp1
      have h1 := smoothRows_halfplane hw hp1 hp
      split at h
      · cases h
      · split at h
        · cases h; exact h1
        · exact smoothLoop_halfplane (by rw [smoothRows_length hp1]; exact hw) h h1

/-! ## C20 -/

/-- **C20** (1) On a mesh with valid indices `laplacian2` returns, unless an empty list of fixed points is given. -/
theorem C20_returns (len : K × K → K × K → K) (oE : RowOrder (Nat × Nat)) (maxIter : Nat) (tol : K)
    {pfix : Option (List (K × K))} (hpf : pfix ≠ some []) {m : Mesh K} (hv : ValidMesh m.p m.t) (hp : m.p ≠ []) :
    ∃ m', laplacian2 len oE maxIter tol pfix m = some m' := by
  have hall : (smoothEntries m.t).all (fun e => decide (e.1 < m.p.length)) = true :=
    List.all_eq_true.2 fun e he => by simpa using (mem_smoothEntries hv e he).1
  obtain ⟨bv, hex, -⟩ := externalTopology_isSome oE hv
  obtain ⟨ifix, hfix⟩ : ∃ ifix, fixedNodes m.p pfix = some ifix := by
    cases pfix with
    | none => exact ⟨[], rfl⟩
    | some qs => obtain ⟨is, h, -⟩ := closestNodes_spec hp qs; exact ⟨is, h⟩
  unfold laplacian2
  dsimp only
  rw [if_pos hall, hex, hfix]
  dsimp only
  split
  · exact ⟨m, rfl⟩
  · rename_i hz
    rw [if_neg (fun h => hpf h.1)]
    have hne : m.t ≠ [] := by
      intro h0
      apply hz
      rw [h0]
      refine List.any_eq_true.2 ⟨0, List.mem_range.2 (List.length_pos_iff.2 hp), by rfl⟩
    obtain ⟨p', hp'⟩ := smoothLoop_isSome (len := len) (tol := tol) (bnd := unique natOrder (flatPairs (getBoundaryEdges oE m.t)) ++ ifix)
      hne (n := maxIter) hv
    rw [hp']
    exact ⟨_, rfl⟩

/-- **C20** (2) Every run of `laplacian2` on a mesh without degenerate triangles and unused vertices: the triangles are the
same; there are at most `max_iter` steps, in each of which the boundary vertices and the vertices nearest to the fixed points
stay and every other vertex moves to the mean of the other corners of its triangles; the run ends after the first step in
which no edge grows by the fraction `tol`, or after `max_iter` steps. -/
theorem C20_laplacian_steps {len : K × K → K × K → K} {oE : RowOrder (Nat × Nat)} {maxIter : Nat} {tol : K}
    {pfix : Option (List (K × K))} {qs : List (K × K)} (hpf : (pfix = none ∧ qs = []) ∨ pfix = some qs) {m m' : Mesh K}
    (ht : ∀ f ∈ m.t, Nondegenerate f) (hu : ∀ v < m.p.length, ∃ f ∈ m.t, HasVertex f v) (hp : m.p ≠ [])
    (h : laplacian2 len oE maxIter tol pfix m = some m') :
    m'.t = m.t ∧ ∃ ifix, List.Forall₂ (IsNearest m.p) qs ifix ∧ ((maxIter = 0 ∧ m'.p = m.p) ∨ ∃ j p1, j < maxIter ∧
      Steps (fun x y => SmoothingStep m.t (fun v => 0 < boundaryDegree m.t v ∨ v ∈ ifix) x y ∧
        ¬ Settled len tol m.t x y) j m.p p1 ∧
      SmoothingStep m.t (fun v => 0 < boundaryDegree m.t v ∨ v ∈ ifix) p1 m'.p ∧
      (Settled len tol m.t p1 m'.p ∨ (¬ Settled len tol m.t p1 m'.p ∧ j + 1 = maxIter))) := by
  obtain ⟨h1, ifix, h2, h3⟩ := laplacian2_cases ht h
  refine ⟨h1, ifix, ?_, ?_⟩
  · rcases hpf with ⟨rfl, rfl⟩ | rfl
    · cases h2; exact .nil
    · obtain ⟨is, h4, h5⟩ := closestNodes_spec hp qs
      rw [fixedNodes, h4] at h2
      cases h2; exact h5
  · rcases h3 with ⟨⟨v, hv, hno⟩, -⟩ | ⟨-, h3⟩
    · obtain ⟨f, hf, hfv⟩ := hu v hv
      exact absurd hfv (hno f hf)
    · exact h3

/-- **C20** (2') Every run of `laplacian2` on any mesh without unused vertices, with degenerate triangles too: as (2), but a
vertex is kept when it is an end of a side that occurs once among the three sides of every triangle, and every other vertex
moves to the mean over all positions where it occurs of the two vertices next to it. -/
theorem C20_laplacian_steps_all {len : K × K → K × K → K} {oE : RowOrder (Nat × Nat)} {maxIter : Nat} {tol : K}
    {pfix : Option (List (K × K))} {qs : List (K × K)} (hpf : (pfix = none ∧ qs = []) ∨ pfix = some qs) {m m' : Mesh K}
    (hu : ∀ v < m.p.length, ∃ f ∈ m.t, HasVertex f v) (hp : m.p ≠ [])
    (h : laplacian2 len oE maxIter tol pfix m = some m') :
    m'.t = m.t ∧ ∃ ifix, List.Forall₂ (IsNearest m.p) qs ifix ∧ ((maxIter = 0 ∧ m'.p = m.p) ∨ ∃ j p1, j < maxIter ∧
      Steps (fun x y => MovesToMean (mates m.t) (fun v => (∃ w, sideCount m.t v w = 1) ∨ v ∈ ifix) x y ∧
        ¬ Settled len tol m.t x y) j m.p p1 ∧
      MovesToMean (mates m.t) (fun v => (∃ w, sideCount m.t v w = 1) ∨ v ∈ ifix) p1 m'.p ∧
      (Settled len tol m.t p1 m'.p ∨ (¬ Settled len tol m.t p1 m'.p ∧ j + 1 = maxIter))) := by
  obtain ⟨h1, ifix, h2, h3⟩ := laplacian2_all h
  refine ⟨h1, ifix, ?_, ?_⟩
  · rcases hpf with ⟨rfl, rfl⟩ | rfl
    · cases h2; exact .nil
    · obtain ⟨is, h4, h5⟩ := closestNodes_spec hp qs
      rw [fixedNodes, h4] at h2
      cases h2; exact h5
  · rcases h3 with ⟨⟨v, hv, hno⟩, -⟩ | ⟨-, h3⟩
    · obtain ⟨f, hf, hfv⟩ := hu v hv
      exact absurd hfv (hno f hf)
    · exact h3

theorem steps_fixed {nb : Nat → List Nat} {fixed : Nat → Prop} {Q : List (K × K) → List (K × K) → Prop} {v : Nat} (hv : fixed v)
    {n : Nat} {p p' : List (K × K)} (h : Steps (fun x y => MovesToMean nb fixed x y ∧ Q x y) n p p') :
    p'.length = p.length ∧ p'[v]? = p[v]? := by
  induction h with
  | zero => exact ⟨rfl, rfl⟩
  | succ h1 _ ih => exact ⟨ih.1.trans h1.1.1, ih.2.trans (smoothingStep_fixed hv h1.1)⟩
where
  smoothingStep_fixed {v : Nat} (hv : fixed v) {x y : List (K × K)} (h : MovesToMean nb fixed x y) : y[v]? = x[v]? := by
    by_cases hl : v < x.length
    · have hl' : v < y.length := by rw [h.1]; exact hl
      rw [List.getElem?_eq_getElem hl, List.getElem?_eq_getElem hl']
      rw [(h.2 v _ _ (List.getElem?_eq_getElem hl) (List.getElem?_eq_getElem hl')).1 hv]
    · have hl' : ¬ v < y.length := by rw [h.1]; exact hl
      rw [List.getElem?_eq_none (not_lt.1 hl), List.getElem?_eq_none (not_lt.1 hl')]

/-- **C20** (3) The vertices nearest to the fixed points and the ends of sides that occur once do not move, for every mesh;
without degenerate triangles the latter are the boundary vertices. Numbers of vertices and the triangles stay the same. -/
theorem C20_fixed_vertices {len : K × K → K × K → K} {oE : RowOrder (Nat × Nat)} {maxIter : Nat} {tol : K}
    {pfix : Option (List (K × K))} {m m' : Mesh K} (hp : m.p ≠ [])
    (h : laplacian2 len oE maxIter tol pfix m = some m') :
    m'.t = m.t ∧ m'.p.length = m.p.length ∧ (∀ v w, sideCount m.t v w = 1 → m'.p[v]? = m.p[v]?) ∧
      ((∀ f ∈ m.t, Nondegenerate f) → ∀ v, 0 < boundaryDegree m.t v → m'.p[v]? = m.p[v]?) ∧
      (∀ qs, pfix = some qs → ∀ q ∈ qs, ∃ i, IsNearest m.p q i ∧ m'.p[i]? = m.p[i]?) := by
  obtain ⟨h1, ifix, h2, h3⟩ := laplacian2_all h
  have hfix : ∀ qs, pfix = some qs → ∀ q ∈ qs, ∃ i, IsNearest m.p q i ∧ i ∈ ifix := by
    rintro qs rfl q hq
    obtain ⟨is, h4, h5⟩ := closestNodes_spec hp qs
    rw [fixedNodes, h4] at h2
    cases h2
    obtain ⟨i, hi, hn⟩ := forall₂_mem_left h5 q hq
    exact ⟨i, hn, hi⟩
  have key : m'.p.length = m.p.length ∧ ∀ v, ((∃ w, sideCount m.t v w = 1) ∨ v ∈ ifix) → m'.p[v]? = m.p[v]? := by
    rcases h3 with ⟨-, rfl⟩ | ⟨-, ⟨-, e⟩ | ⟨j, p1, -, g1, g2, -⟩⟩
    · exact ⟨rfl, fun _ _ => rfl⟩
    · rw [e]; exact ⟨rfl, fun _ _ => rfl⟩
    · have hl : p1.length = m.p.length := by
        clear g2
        generalize m.p = p at g1
        induction g1 with
        | zero => rfl
        | succ hh _ ih => exact ih.trans hh.1.1
      exact ⟨g2.1.trans hl, fun v hv => (steps_fixed.smoothingStep_fixed hv g2).trans (steps_fixed hv g1).2⟩
  refine ⟨h1, key.1, fun v w hv => key.2 v (Or.inl ⟨w, hv⟩), fun ht v hv => key.2 v (Or.inl ?_), fun qs hqs q hq => ?_⟩
  · rw [← mem_flat_boundary_all oE, mem_flat_boundary oE ht]; exact hv
  obtain ⟨i, hn, hi⟩ := hfix qs hqs q hq
  exact ⟨i, hn, key.2 i (Or.inr hi)⟩

/-- **C20** (4) Every half plane (so the convex hull, so the bounding box) containing all vertices before contains them
afterwards, for every mesh and any number of iterations. -/
theorem C20_hull {len : K × K → K × K → K} {oE : RowOrder (Nat × Nat)} {maxIter : Nat} {tol : K}
    {pfix : Option (List (K × K))} {m m' : Mesh K} (h : laplacian2 len oE maxIter tol pfix m = some m') {a b c : K}
    (hp : ∀ q ∈ m.p, a * q.1 + b * q.2 ≤ c) : ∀ q ∈ m'.p, a * q.1 + b * q.2 ≤ c := by
  unfold laplacian2 at h
  dsimp only at h
  split at h
  · split at h
    · split at h
      · cases h; exact hp
      · rename_i hz
        split at h
        · cases h
        · rw [Option.map_eq_some_iff] at h
          obtain ⟨p', hp', rfl⟩ := h
          refine smoothLoop_halfplane ?_ hp' hp
          intro v hv h0
          exact hz (List.any_eq_true.2 ⟨v, List.mem_range.2 hv, by simpa using h0⟩)
    · cases h
  · cases h

/-- **C20** (5) A mesh with an unused vertex is returned unchanged. -/
theorem C20_unused_vertex_unchanged {len : K × K → K × K → K} {oE : RowOrder (Nat × Nat)} {maxIter : Nat} {tol : K}
    {pfix : Option (List (K × K))} {m m' : Mesh K} {v : Nat} (hv : v < m.p.length)
    (hno : ∀ f ∈ m.t, ¬ HasVertex f v) (h : laplacian2 len oE maxIter tol pfix m = some m') : m' = m := by
  obtain ⟨-, ifix, -, h3⟩ := laplacian2_all h
  rcases h3 with ⟨-, rfl⟩ | ⟨hu, -⟩
  · rfl
  · obtain ⟨f, hf, hfv⟩ := hu v hv
    exact absurd hfv (hno f hf)

end

/-- A square around one interior vertex that is not in its centre. -/
def wheelM : Mesh ℚ := ⟨[(0, 0), (1, 0), (1, 1), (0, 1), (1 / 4, 1 / 4)], [⟨0, 1, 4⟩, ⟨1, 2, 4⟩, ⟨2, 3, 4⟩, ⟨3, 0, 4⟩]⟩

/-- A length for the examples (the sum of the coordinate differences, at least `1/1000`). -/
def lenQ (x y : ℚ × ℚ) : ℚ := max (1 / 1000) (|x.1 - y.1| + |x.2 - y.2|)

example : (∀ f ∈ wheelM.t, Nondegenerate f) ∧ ValidMesh wheelM.p wheelM.t ∧ wheelM.p ≠ [] ∧
    (∀ v < wheelM.p.length, ∃ f ∈ wheelM.t, HasVertex f v) ∧ boundaryDegree wheelM.t 0 = 2 ∧
    boundaryDegree wheelM.t 4 = 0 ∧
    laplacian2 lenQ lexOrder 20 (1 / 100) (some [(9 / 10, 9 / 10)]) wheelM =
      some ⟨[(0, 0), (1, 0), (1, 1), (0, 1), (1 / 2, 1 / 2)], wheelM.t⟩ :=
  ⟨by decide, validMesh_of_bound (by decide), by simp [wheelM], by decide, by decide, by decide, by decide +kernel⟩

example : laplacian2 lenQ lexOrder 20 (1 / 100) (some [(1 / 3, 1 / 3)]) wheelM = some wheelM := by decide +kernel

example : (∀ f ∈ wheelM.t, Nondegenerate f) ∧ 5 < (wheelM.p ++ [(7, 7)]).length ∧ (∀ f ∈ wheelM.t, ¬ HasVertex f 5) ∧
    laplacian2 lenQ lexOrder 20 (1 / 100) none ⟨wheelM.p ++ [(7, 7)], wheelM.t⟩ = some ⟨wheelM.p ++ [(7, 7)], wheelM.t⟩ :=
  ⟨by decide, by decide, by decide, by decide +kernel⟩

/-- A square with two triangles and a third one, folded to a side that sticks out at one corner. -/
def foldedM : Mesh ℚ := ⟨[(0, 0), (1, 0), (1, 1), (0, 1), (2, 2)], [⟨0, 1, 2⟩, ⟨0, 2, 3⟩, ⟨2, 4, 2⟩]⟩

example : ValidMesh foldedM.p foldedM.t ∧ foldedM.p ≠ [] ∧ (∀ v < foldedM.p.length, ∃ f ∈ foldedM.t, HasVertex f v) ∧
    sideCount foldedM.t 0 1 = 1 ∧ sideCount foldedM.t 2 4 = 2 ∧ mates foldedM.t 2 = [0, 1, 0, 3, 4, 2, 2, 4] ∧
    mates foldedM.t 4 = [2, 2] ∧
    laplacian2 lenQ lexOrder 1 (1 / 100) none foldedM = some ⟨[(0, 0), (1, 0), (1, 1), (0, 1), (1, 1)], foldedM.t⟩ :=
  ⟨validMesh_of_bound (by decide), by simp [foldedM], by decide, by decide, by decide, by decide, by decide, by decide +kernel⟩

/-- **C20** With a degenerate triangle a boundary vertex can move: the code takes a side of a triangle `(u, v, u)` for a side
of two triangles. -/
theorem C20_degenerate_boundary_moves :
    ∃ (m m' : Mesh ℚ) (v : Nat), ValidMesh m.p m.t ∧ 0 < boundaryDegree m.t v ∧
      laplacian2 lenQ lexOrder 1 (1 / 100) none m = some m' ∧ m'.p[v]? ≠ m.p[v]? :=
  ⟨foldedM, ⟨[(0, 0), (1, 0), (1, 1), (0, 1), (1, 1)], foldedM.t⟩, 4, validMesh_of_bound (by decide), by decide,
    by decide +kernel, by decide +kernel⟩

/-- **C20** An empty list of fixed points raises an exception on a mesh that is smoothed without it. -/
theorem C20_empty_pfix_raises :
    ∃ m : Mesh ℚ, ValidMesh m.p m.t ∧ (laplacian2 lenQ lexOrder 20 (1 / 100) none m).isSome = true ∧
      laplacian2 lenQ lexOrder 20 (1 / 100) (some []) m = none :=
  ⟨wheelM, validMesh_of_bound (by decide), by decide +kernel, by decide +kernel⟩

/-! ## C21 -/

section
variable {K : Type} [Field K] [LinearOrder K] [IsStrictOrderedRing K]

/-- **C21** (1) `mesh_clean` terminates for every mesh and all parameters (`some none` = it raises an exception). -/
theorem C21_terminates (E : Engine K) (len : K × K → K × K → K) (rand rand' : Nat → Nat → Nat → Nat) (a : CleanParams K)
    (m : Mesh K) : ∃ r, meshClean E len rand rand' a m = some r := by
  unfold meshClean
  obtain ⟨r1, h1⟩ := C17_terminates E rand a.minArea m
  rw [h1]
  cases r1 with
  | none => exact ⟨_, rfl⟩
  | some m1 =>
    dsimp only
    cases deleteBoundaryFaces E a.minQual m1 with
    | none => exact ⟨_, rfl⟩
    | some m2 =>
      dsimp only
      obtain ⟨r3, h3⟩ := (C18_terminates E none m2).1
      rw [h3]
      cases r3 with
      | none => exact ⟨_, rfl⟩
      | some m3 =>
        dsimp only
        cases laplacian2 len E.oE a.maxIter a.tol a.pfix m3 with
        | none => exact ⟨_, rfl⟩
        | some m4 =>
          dsimp only
          obtain ⟨r5, h5⟩ := C17_terminates E rand' a.minArea m4
          rw [h5]
          cases r5 with
          | none => exact ⟨_, rfl⟩
          | some m5 => exact ⟨_, rfl⟩

theorem meshClean_stages {E : Engine K} {len : K × K → K × K → K} {rand rand' : Nat → Nat → Nat → Nat} {a : CleanParams K}
    {m m' : Mesh K} (h : meshClean E len rand rand' a m = some (some m')) :
    ∃ m1 m2 m3 m4 m5, makeTraversable E rand a.minArea m = some (some m1) ∧ deleteBoundaryFaces E a.minQual m1 = some m2 ∧
      deleteOneFace E none m2 = some (some m3) ∧ laplacian2 len E.oE a.maxIter a.tol a.pfix m3 = some m4 ∧
      makeTraversable E rand' a.minArea m4 = some (some m5) ∧ refix E m5.p m5.t = some m' := by
  unfold meshClean at h
  split at h
  · cases h
  · cases h
  · rename_i m1 h1
    split at h
    · cases h
    · rename_i m2 h2
      split at h
      · cases h
      · cases h
      · rename_i m3 h3
        split at h
        · cases h
        · rename_i m4 h4
          split at h
          · cases h
          · cases h
          · rename_i m5 h5
            rw [Option.some.injEq] at h
            exact ⟨m1, m2, m3, m4, m5, h1, h2, h3, h4, h5, h⟩

theorem makeTraversable_points {E : Engine K} {rand : Nat → Nat → Nat → Nat} {thr : K} {m m' : Mesh K}
    (h : makeTraversable E rand thr m = some (some m')) :
    (∀ q ∈ m'.p, q ∈ m.p) ∧ m'.p.length ≤ m.p.length ∧ m'.t.length ≤ m.t.length := by
  obtain ⟨n, -, h1⟩ := traversableLoop_induct (P := fun _ (x : Mesh K) => (∀ q ∈ x.p, q ∈ m.p) ∧
      x.p.length ≤ m.p.length ∧ x.t.length ≤ m.t.length) (by
    rintro n k x x' ⟨a1, a2, a3⟩ hx
    obtain ⟨b1, b2, -, -⟩ := traversablePass_progress hx
    obtain ⟨t1, m1, idx, -, -, c1, -, -, -, c2⟩ := traversablePass_stages hx
    have d1 := (refix_shape c1).2.2.2.1
    have d2 := (refix_shape c2).2.2.2.1
    exact ⟨fun q hq => a1 q (d1 q (d2 q hq)), b1.trans a2, b2.trans a3⟩)
    (n := 0) (m := m) ⟨fun q hq => hq, le_refl _, le_refl _⟩ h
  exact h1

theorem deleteOneFace_points {E : Engine K} {m m' : Mesh K} (h : deleteOneFace E none m = some (some m')) :
    (∀ q ∈ m'.p, q ∈ m.p) ∧ m'.t.length ≤ m.t.length := by
  rw [deleteOneFace, if_neg (by simp)] at h
  obtain ⟨n, -, h1⟩ := oneFaceLoop_induct (P := fun _ (x : Mesh K) => (∀ q ∈ x.p, q ∈ m.p) ∧ x.t.length ≤ m.t.length) (by
    rintro n x x' idx ⟨a1, a2⟩ hx
    have := refix_shape hx
    refine ⟨fun q hq => a1 q (this.2.2.2.1 q hq), this.2.2.2.2.1.trans ?_⟩
    exact (deleteRows_sublist _ _).length_le.trans a2) (n := 0) ⟨fun q hq => hq, le_refl _⟩ h
  exact h1

/-- **C21** (2) If `mesh_clean` returns, the result has valid indices, no unused vertex, no two triangles with the same
vertices, and no triangle of negative area. -/
theorem C21_valid_mesh {E : Engine K} {len : K × K → K × K → K} {rand rand' : Nat → Nat → Nat → Nat} {a : CleanParams K}
    {m m' : Mesh K} (h : meshClean E len rand rand' a m = some (some m')) :
    ValidMesh m'.p m'.t ∧ (∀ v < m'.p.length, ∃ f ∈ m'.t, HasVertex f v) ∧
      (m'.t.Pairwise fun f g => ¬ SameVertices f g) ∧
      ∀ g ∈ m'.t, ∃ x y z, m'.p[g.a]? = some x ∧ m'.p[g.b]? = some y ∧ m'.p[g.c]? = some z ∧ 0 ≤ signedArea x y z := by
  obtain ⟨m1, m2, m3, m4, m5, -, -, -, -, -, h6⟩ := meshClean_stages h
  obtain ⟨g1, g2, g3, -⟩ := refix_shape h6
  refine ⟨g1, g2, g3, ?_⟩
  rw [refix, Option.map_eq_some_iff] at h6
  obtain ⟨R, hR, rfl⟩ := h6
  exact C07_fix_mesh_ccw hR

/-- **C21** (3) `mesh_clean` adds no triangles, and all vertices of the result lie in every half plane that contains the
input vertices (so in their convex hull and bounding box). -/
theorem C21_inside_input {E : Engine K} {len : K × K → K × K → K} {rand rand' : Nat → Nat → Nat → Nat}
    {a : CleanParams K} {m m' : Mesh K} (h : meshClean E len rand rand' a m = some (some m')) :
    m'.t.length ≤ m.t.length ∧
      ∀ α β γ : K, (∀ q ∈ m.p, α * q.1 + β * q.2 ≤ γ) → ∀ q ∈ m'.p, α * q.1 + β * q.2 ≤ γ := by
  obtain ⟨m1, m2, m3, m4, m5, h1, h2, h3, h4, h5, h6⟩ := meshClean_stages h
  have a1 := makeTraversable_points h1
  obtain ⟨t', e1, e2⟩ : ∃ t', t'.length ≤ m1.t.length ∧ refix E m1.p t' = some m2 := by
    rw [deleteBoundaryFaces, Option.bind_eq_bind, Option.bind_eq_some_iff] at h2
    obtain ⟨t', e1, e2⟩ := h2
    refine ⟨t', ?_, e2⟩
    rw [deleteBoundaryRows, Option.bind_eq_bind, Option.bind_eq_some_iff] at e1
    obtain ⟨b, -, e1⟩ := e1
    rw [Option.bind_eq_bind, Option.bind_eq_some_iff] at e1
    obtain ⟨c, -, e1⟩ := e1
    cases e1
    exact (deleteRows_sublist _ _).length_le
  have a2 := refix_shape e2
  have a3 := deleteOneFace_points h3
  have a4 : m4.t = m3.t := by
    unfold laplacian2 at h4
    dsimp only at h4
    split at h4
    · split at h4
      · split at h4
        · cases h4; rfl
        · split at h4
          · cases h4
          · rw [Option.map_eq_some_iff] at h4
            obtain ⟨p', -, rfl⟩ := h4
            rfl
      · cases h4
    · cases h4
  have a5 := makeTraversable_points h5
  have a6 := refix_shape h6
  constructor
  · have := a1.2.2; have := a2.2.2.2.2.1; have := a3.2; have := a5.2.2; have := a6.2.2.2.2.1
    rw [a4] at *
    omega
  · intro α β γ hp
    have g3 : ∀ q ∈ m3.p, α * q.1 + β * q.2 ≤ γ :=
      fun q hq => hp q (a1.1 q (a2.2.2.2.1 q (a3.1 q hq)))
    have g4 := C20_hull h4 g3
    exact fun q hq => g4 q (a5.1 q (a6.2.2.2.1 q hq))

end

/-- A lattice of 3×3 vertices with two triangles per cell, the middle vertex out of place. -/
def latticeM : Mesh ℚ :=
  ⟨[(0, 0), (1, 0), (2, 0), (0, 1), (5 / 4, 1), (2, 1), (0, 2), (1, 2), (2, 2)],
    [⟨0, 1, 3⟩, ⟨1, 4, 3⟩, ⟨1, 2, 4⟩, ⟨2, 5, 4⟩, ⟨3, 4, 7⟩, ⟨3, 7, 6⟩, ⟨4, 5, 8⟩, ⟨4, 8, 7⟩]⟩

def cleanQ : CleanParams ℚ := ⟨1 / 100, 1 / 20, 20, 1 / 100, none⟩

example : meshClean engineQ lenQ (fun _ _ _ => 0) (fun _ _ _ => 0) cleanQ latticeM =
    some (some ⟨[(0, 1), (1, 0), (1, 2), (4 / 3, 1), (2, 0), (2, 1), (2, 2)],
      [⟨0, 1, 3⟩, ⟨2, 0, 3⟩, ⟨3, 1, 4⟩, ⟨2, 3, 6⟩, ⟨3, 4, 5⟩, ⟨3, 5, 6⟩]⟩) := by decide +kernel

/-- **C21** The restriction to runs that return matters: on the unit square in two triangles `mesh_clean` raises an
exception, because `delete_faces_connected_to_one_face` leaves nothing to smooth. -/
theorem C21_two_triangles_raise :
    ∃ m : Mesh ℚ, ValidMesh m.p m.t ∧ m.t.length = 2 ∧ (∀ v, boundaryDegree m.t v ≤ 2) ∧
      meshClean engineQ lenQ (fun _ _ _ => 0) (fun _ _ _ => 0) cleanQ m = some none :=
  ⟨squareM, validMesh_of_bound (by decide), rfl, boundaryDegree_le_of_bound 4 (by decide) (by decide), by decide +kernel⟩

end OM
