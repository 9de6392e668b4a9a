import Verif.Props.Generate
import Verif.Props.Delaunay
/-!
# C69, C83: fixed points and locked boundaries in `generate_mesh`
-/
set_option linter.unusedSectionVars false
namespace OM
open Spec
section
variable {K : Type} [Field K] [LinearOrder K]

/-! ### The nearest vertex -/

theorem argMin_spec {l : List K} {i : Nat} {y : K} (h : argMin l = some (i, y)) :
    l[i]? = some y ∧ ∀ (j : Nat) (z : K), l[j]? = some z → y ≤ z ∧ (j < i → y < z) := by
  induction l generalizing i y with
  | nil => simp [argMin] at h
  | cons x l ih =>
    rw [argMin] at h
    cases hl : argMin l with
    | none =>
      rw [hl] at h
      have h := Option.some.inj h
      simp only [Prod.mk.injEq] at h
      obtain ⟨rfl, rfl⟩ := h
      have : l = [] := by
        cases l with
        | nil => rfl
        | cons a l =>
          rw [argMin] at hl
          cases h2 : argMin l with
          | none => rw [h2] at hl; simp at hl
          | some r => rw [h2] at hl; obtain ⟨r1, r2⟩ := r; dsimp only at hl; split at hl <;> simp at hl
      subst this
      refine ⟨rfl, fun j z hz => ?_⟩
      cases j with
      | zero => have : x = z := by simpa using hz
                subst this; exact ⟨le_refl _, fun h => absurd h (by omega)⟩
      | succ j => simp at hz
    | some r =>
      obtain ⟨k, w⟩ := r
      obtain ⟨i1, i2⟩ := ih hl
      rw [hl] at h
      dsimp only at h
      split at h
      · rename_i hle
        have h := Option.some.inj h
        simp only [Prod.mk.injEq] at h
        obtain ⟨rfl, rfl⟩ := h
        refine ⟨rfl, fun j z hz => ⟨?_, fun h => absurd h (by omega)⟩⟩
        cases j with
        | zero => have : x = z := by simpa using hz
                  exact this.le
        | succ j => exact hle.trans (i2 j z (by simpa using hz)).1
      · rename_i hlt
        have h := Option.some.inj h
        simp only [Prod.mk.injEq] at h
        obtain ⟨rfl, rfl⟩ := h
        refine ⟨by simpa using i1, fun j z hz => ?_⟩
        cases j with
        | zero =>
          have : x = z := by simpa using hz
          subst this
          exact ⟨(not_le.1 hlt).le, fun _ => not_le.1 hlt⟩
        | succ j =>
          have := i2 j z (by simpa using hz)
          exact ⟨this.1, fun hj => this.2 (by omega)⟩

theorem argMin_isSome {l : List K} (h : l ≠ []) : ∃ r, argMin l = some r := by
  cases l with
  | nil => exact absurd rfl h
  | cons x l =>
    rw [argMin]
    cases argMin l with
    | none => exact ⟨_, rfl⟩
    | some r => obtain ⟨r1, r2⟩ := r; dsimp only; split <;> exact ⟨_, rfl⟩

theorem isNearest_unique {p : List (K × K)} {q : K × K} {i j : Nat} (hi : IsNearest p q i) (hj : IsNearest p q j) : i = j := by
  obtain ⟨x, h1, h2⟩ := hi
  obtain ⟨y, h3, h4⟩ := hj
  rcases lt_trichotomy i j with h | h | h
  · exact absurd ((h4 i x h1).2 h) (not_lt.2 (h2 j y h3).1)
  · exact h
  · exact absurd ((h2 j y h3).2 h) (not_lt.2 (h4 i x h1).1)

/-- The search returns the first of the nearest vertices. -/
theorem nearestVertex_iff {q : K × K} {p : List (K × K)} {i : Nat} : nearestVertex q p = some i ↔ IsNearest p q i := by
  have key : ∀ i, nearestVertex q p = some i → IsNearest p q i := by
    intro i h
    obtain ⟨⟨i', y⟩, h1, rfl⟩ := Option.map_eq_some_iff.1 h
    obtain ⟨h2, h3⟩ := argMin_spec h1
    rw [dist2, List.getElem?_map, Option.map_eq_some_iff] at h2
    obtain ⟨x, hx, rfl⟩ := h2
    refine ⟨x, hx, fun j z hz => ?_⟩
    have := h3 j _ (by rw [dist2, List.getElem?_map, hz, Option.map_some])
    simp only [pow_two]
    exact this
  refine ⟨key i, fun h => ?_⟩
  obtain ⟨x, hx, -⟩ := id h
  have hne : dist2 q p ≠ [] := by
    intro h0
    rw [dist2, List.map_eq_nil_iff] at h0
    subst h0; simp at hx
  obtain ⟨r, hr⟩ := argMin_isSome hne
  have : nearestVertex q p = some r.1 := by rw [nearestVertex, hr, Option.map_some]
  rw [this, isNearest_unique (key _ this) h]

/-- The nearest vertex to a point that is a vertex is at the point. -/
theorem isNearest_mem [IsStrictOrderedRing K] {p : List (K × K)} {q : K × K} {i : Nat} (h : IsNearest p q i) (hq : q ∈ p) : p[i]? = some q := by
  obtain ⟨x, hx, h⟩ := h
  obtain ⟨j, hj⟩ := List.mem_iff_getElem?.1 hq
  have := (h j q hj).1
  simp only [sub_self] at this
  have e1 : (x.1 - q.1) ^ 2 = 0 := by nlinarith [sq_nonneg (x.1 - q.1), sq_nonneg (x.2 - q.2)]
  have e2 : (x.2 - q.2) ^ 2 = 0 := by nlinarith [sq_nonneg (x.1 - q.1), sq_nonneg (x.2 - q.2)]
  rw [hx, Prod.ext (sub_eq_zero.1 (pow_eq_zero_iff (two_ne_zero) |>.1 e1)) (sub_eq_zero.1 (pow_eq_zero_iff (two_ne_zero) |>.1 e2))]

/-! ### Placing the fixed points -/

theorem placeFixed_cons {q : K × K} {l p : List (K × K)} {R : List Nat × List (K × K)} (h : placeFixed (q :: l) p = some R) :
    ∃ i r p', nearestVertex q p = some i ∧ placeFixed l (p.set i q) = some (r, p') ∧ R = (i :: r, p') := by
  simp only [placeFixed, Option.bind_eq_bind, Option.bind_eq_some_iff] at h
  obtain ⟨i, h1, ⟨r, p'⟩, h2, h3⟩ := h
  exact ⟨i, r, p', h1, h2, (Option.some.inj h3).symm⟩

/-- One index for each fixed point; vertices at other indices stay. -/
theorem placeFixed_facts {l p p' : List (K × K)} {ix : List Nat} (h : placeFixed l p = some (ix, p')) :
    ix.length = l.length ∧ p'.length = p.length ∧ (∀ i ∈ ix, i < p.length) ∧ ∀ i, i ∉ ix → p'[i]? = p[i]? := by
  induction l generalizing p ix with
  | nil =>
    simp only [placeFixed, Option.some.injEq, Prod.mk.injEq] at h
    obtain ⟨rfl, rfl⟩ := h
    simp
  | cons q l ih =>
    obtain ⟨i, r, p1, h1, h2, h3⟩ := placeFixed_cons h
    simp only [Prod.mk.injEq] at h3
    obtain ⟨rfl, rfl⟩ := h3
    obtain ⟨a1, a2, a3, a4⟩ := ih h2
    obtain ⟨x, hx, -⟩ := nearestVertex_iff.1 h1
    rw [List.length_set] at a2
    refine ⟨by simp [a1], a2, ?_, ?_⟩
    · intro j hj
      rcases List.mem_cons.1 hj with rfl | hj
      · exact (List.getElem?_eq_some_iff.1 hx).1
      · simpa using a3 j hj
    · intro j hj
      rw [List.mem_cons, not_or] at hj
      rw [a4 j hj.2, List.getElem?_set_ne (Ne.symm hj.1)]

/-- If the indices found are different, every fixed point is where its index says. -/
theorem placeFixed_nodup {l p p' : List (K × K)} {ix : List Nat} (h : placeFixed l p = some (ix, p')) (hn : ix.Nodup) :
    ix.map (fun i => p'[i]?) = l.map some := by
  induction l generalizing p ix with
  | nil =>
    simp only [placeFixed, Option.some.injEq, Prod.mk.injEq] at h
    obtain ⟨rfl, rfl⟩ := h
    simp
  | cons q l ih =>
    obtain ⟨i, r, p1, h1, h2, h3⟩ := placeFixed_cons h
    simp only [Prod.mk.injEq] at h3
    obtain ⟨rfl, rfl⟩ := h3
    rw [List.nodup_cons] at hn
    rw [List.map_cons, List.map_cons, ih h2 hn.2, (placeFixed_facts h2).2.2.2 i hn.1]
    obtain ⟨x, hx, -⟩ := nearestVertex_iff.1 h1
    rw [List.getElem?_set_self (List.getElem?_eq_some_iff.1 hx).1]

/-- If the fixed points are vertices, nothing is changed and the indices are those of the fixed points. -/
theorem placeFixed_mem [IsStrictOrderedRing K] {l p p' : List (K × K)} {ix : List Nat} (h : placeFixed l p = some (ix, p')) (hl : ∀ q ∈ l, q ∈ p) :
    p' = p ∧ ix.map (fun i => p[i]?) = l.map some := by
  induction l generalizing p ix with
  | nil =>
    simp only [placeFixed, Option.some.injEq, Prod.mk.injEq] at h
    obtain ⟨rfl, rfl⟩ := h
    simp
  | cons q l ih =>
    obtain ⟨i, r, p1, h1, h2, h3⟩ := placeFixed_cons h
    simp only [Prod.mk.injEq] at h3
    obtain ⟨rfl, rfl⟩ := h3
    have hi := isNearest_mem (nearestVertex_iff.1 h1) (hl q (by simp))
    have hset : p.set i q = p := by
      obtain ⟨hlt, he⟩ := List.getElem?_eq_some_iff.1 hi
      rw [← he]; exact List.set_getElem_self hlt
    rw [hset] at h2
    obtain ⟨rfl, h4⟩ := ih h2 fun x hx => hl x (List.mem_cons_of_mem _ hx)
    exact ⟨rfl, by rw [List.map_cons, List.map_cons, h4, hi]⟩

/-- A condition on the vertices only: the first nearest vertices of the fixed points are different, and each fixed point is nearer to its vertex than
to the other fixed points. Then the indices found are these vertices. -/
theorem placeFixed_apart {l p p' : List (K × K)} {ix : List Nat} (h : placeFixed l p = some (ix, p')) {n : K × K → Nat}
    (hn : ∀ q ∈ l, IsNearest p q (n q)) (hd : (l.map n).Nodup)
    (ha : ∀ q ∈ l, ∀ q' ∈ l, n q ≠ n q' → ∀ x, p[n q]? = some x → sqDist x q < sqDist q' q) : ix = l.map n := by
  induction l generalizing p ix with
  | nil =>
    simp only [placeFixed, Option.some.injEq, Prod.mk.injEq] at h
    obtain ⟨rfl, rfl⟩ := h
    simp
  | cons q l ih =>
    obtain ⟨i, r, p1, h1, h2, h3⟩ := placeFixed_cons h
    simp only [Prod.mk.injEq] at h3
    obtain ⟨rfl, rfl⟩ := h3
    rw [List.map_cons, List.nodup_cons] at hd
    have hi : i = n q := isNearest_unique (nearestVertex_iff.1 h1) (hn q (by simp))
    subst hi
    have hne : ∀ q' ∈ l, n q' ≠ n q := fun q' hq' e => hd.1 (by rw [← e]; exact List.mem_map_of_mem hq')
    rw [List.map_cons, ih h2 ?_ hd.2 ?_]
    · intro q' hq'
      obtain ⟨x, hx, hmin⟩ := hn q' (List.mem_cons_of_mem _ hq')
      refine ⟨x, by rw [List.getElem?_set_ne (Ne.symm (hne q' hq'))]; exact hx, fun j y hy => ?_⟩
      by_cases hj : j = n q
      · subst hj
        obtain ⟨x0, hx0, -⟩ := hn q (by simp)
        rw [List.getElem?_set_self (List.getElem?_eq_some_iff.1 hx0).1] at hy
        obtain rfl := Option.some.inj hy
        have := ha q' (List.mem_cons_of_mem _ hq') q (by simp) (hne q' hq') x hx
        simp only [sqDist] at this
        exact ⟨this.le, fun _ => this⟩
      · rw [List.getElem?_set_ne (Ne.symm hj)] at hy
        exact hmin j y hy
    · intro q1 h1' q2 h2' h12 x hx
      rw [List.getElem?_set_ne (Ne.symm (hne q1 h1'))] at hx
      exact ha q1 (List.mem_cons_of_mem _ h1') q2 (List.mem_cons_of_mem _ h2') h12 x hx

/-! ### Moving -/

theorem movePoints_length {dt : K} {fixed : List Nat} {p F : List (K × K)} (h : F.length = p.length) : (movePoints dt fixed p F).length = p.length := by
  simp [movePoints, h]

theorem movePoints_fixed {dt : K} {fixed : List Nat} {p F : List (K × K)} (h : F.length = p.length) {i : Nat} (hi : i ∈ fixed) {q : K × K}
    (hq : p[i]? = some q) : (movePoints dt fixed p F)[i]? = some q := by
  have hlt := (List.getElem?_eq_some_iff.1 hq).1
  have hF : F[i]? = some F[i] := List.getElem?_eq_getElem (by omega)
  simp only [movePoints, List.getElem?_zipWith, List.getElem?_range hlt, List.getElem?_zip_eq_some (z := (q, F[i])) |>.2 ⟨hq, hF⟩]
  simp [hi]

theorem movePoints_free {dt : K} {fixed : List Nat} {p F : List (K × K)} {i : Nat} (hi : i ∉ fixed) {q g : K × K}
    (hq : p[i]? = some q) (hg : F[i]? = some g) : (movePoints dt fixed p F)[i]? = some (q.1 + dt * g.1, q.2 + dt * g.2) := by
  have hlt := (List.getElem?_eq_some_iff.1 hq).1
  simp only [movePoints, List.getElem?_zipWith, List.getElem?_range hlt, List.getElem?_zip_eq_some (z := (q, g)) |>.2 ⟨hq, hg⟩]
  simp [hi]

/-- Between two triangulations the points at fixed indices that are not outside stay. -/
theorem genSecond_fixed {S : GenSetup K} {f : K × K → K} (hf : Pointwise S.fd f) {r : GenIter K} {p' : List (K × K)} (h : genSecond S r = some p')
    {i : Nat} (hi : i ∈ r.fixed) {q : K × K} (hq : r.points[i]? = some q) (hin : f q ≤ 0) : p'[i]? = some q := by
  simp only [genSecond, Option.bind_eq_bind, Option.bind_eq_some_iff] at h
  obtain ⟨F, h1, h2⟩ := h
  obtain rfl := project_eq hf h2
  rw [List.getElem?_map, movePoints_fixed (C70_balanced h1).1 hi hq, Option.map_some, if_neg (not_lt.2 hin)]

/-- What a triangulation of the inserted points contains. -/
theorem topology_points {E : Cgal K} (L : CgalLaws E) {p v : List (K × K)} {t : List Tri} {e : Triangulation K}
    (h : getTopology (dtInsert E ⟨[], []⟩ p) = some (v, t, e)) : v.Nodup ∧ ∀ q, q ∈ v ↔ q ∈ p := by
  have hv : v = (dtInsert E ⟨[], []⟩ p).vertices.map (·.point) := by
    simp only [getTopology, Option.bind_eq_bind, Option.bind_eq_some_iff] at h
    obtain ⟨s, -, h2⟩ := h
    have h2 := Option.some.inj h2
    simp only [Prod.mk.injEq] at h2
    rw [← h2.1]; rfl
  have hnum : ∀ (l : List (K × K)) (k : Nat), (numberFrom k l).map Prod.fst = l := by
    intro l
    induction l with
    | nil => intro k; rfl
    | cons x l ih => intro k; simp [numberFrom, ih]
  subst hv
  refine ⟨(L.insert_wf _ _ empty_wf).points, fun q => ?_⟩
  rw [dtInsert, L.insert_points _ _ empty_wf, hnum]
  simp

/-- **C69** (one iteration): in every iteration one vertex is moved to each fixed point. If the vertices found are different, all fixed points are
among the points with their exact coordinates, and if they are not outside they are inserted into the next triangulation. -/
theorem C69_iteration [IsStrictOrderedRing K] {S : GenSetup K} {maxIter : Nat} {p : List (K × K)} {m : FixResult K} {l : List (GenIter K)}
    (h : generateMesh S maxIter p = some (m, l)) {k : Nat} {r : GenIter K} (hr : l[k]? = some r) :
    ∃ ix : List Nat, ix.length = S.pfix.length ∧ (∀ i ∈ ix, i ∈ r.fixed) ∧ r.points.length = r.vertices.length ∧
      (∀ i, i ∉ ix → r.points[i]? = r.vertices[i]?) ∧
      ((S.pfix.Nodup ∧ ∃ n : K × K → Nat, (∀ q ∈ S.pfix, IsNearest r.vertices q (n q)) ∧ (S.pfix.map n).Nodup ∧
        ∀ q ∈ S.pfix, ∀ q' ∈ S.pfix, q ≠ q' → ∀ x, r.vertices[n q]? = some x → sqDist x q < sqDist q' q) → ix.Nodup) ∧
      (ix.Nodup → ix.map (fun i => r.points[i]?) = S.pfix.map some ∧
        ∀ (f : K × K → K), Pointwise S.fd f → (∀ q ∈ S.pfix, f q ≤ 0) → ∀ r', l[k + 1]? = some r' → ∀ q ∈ S.pfix, q ∈ r'.inserted) := by
  obtain ⟨n, -, -, h'⟩ := generateMesh_loop h
  obtain ⟨-, -, a3, a4, -⟩ := genLoop_trace h'
  obtain ⟨-, -, ⟨locked, ix, hfix, -, hplace⟩, -⟩ := genFirst_stages (a3 r (List.mem_of_getElem? hr))
  obtain ⟨b1, b2, b3, b4⟩ := placeFixed_facts hplace
  have hmem : ∀ i ∈ ix, i ∈ r.fixed := fun i hi => by rw [hfix]; exact List.mem_append_right _ hi
  refine ⟨ix, b1, hmem, b2, b4, ?_, ?_⟩
  · rintro ⟨hnd, n, c1, c2, c3⟩
    rw [placeFixed_apart hplace c1 c2 fun q hq q' hq' hne => c3 q hq q' hq' fun e => hne (by rw [e])]
    exact c2
  · intro hn
    have hpts := placeFixed_nodup hplace hn
    refine ⟨hpts, fun f hf hin r' hr' q hq => ?_⟩
    have : some q ∈ ix.map (fun i => r.points[i]?) := by rw [hpts]; exact List.mem_map_of_mem hq
    obtain ⟨i, hi, hiq⟩ := List.mem_map.1 this
    exact List.mem_of_getElem? (genSecond_fixed hf (a4 k r r' hr hr') (hmem i hi) hiq (hin q hq))

/-- **C69** (all iterations): if the fixed points are not outside and are among the start points (as they are when the start points are generated), or
if different vertices are moved to them in the first iteration, then in every iteration every fixed point is among the points of the
triangulation with its exact coordinates, for every triangulation engine, sizing function and number of iterations. From the second iteration on (from
the first one in the first case) no vertex is moved when the fixed points are placed. -/
theorem C69_all_iterations [IsStrictOrderedRing K] {S : GenSetup K} (L : CgalLaws S.cgal) {f : K × K → K} (hf : Pointwise S.fd f)
    (hin : ∀ q ∈ S.pfix, f q ≤ 0) {maxIter : Nat} {p : List (K × K)} {m : FixResult K} {l : List (GenIter K)}
    (h : generateMesh S maxIter p = some (m, l))
    (hp : (∀ q ∈ S.pfix, q ∈ p) ∨ ∃ (r : GenIter K) (l' : List (GenIter K)) (ix : List Nat), l = r :: l' ∧ placeFixed S.pfix r.vertices = some (ix, r.points) ∧ ix.Nodup) :
    (∀ r ∈ l, ∀ q ∈ S.pfix, q ∈ r.points) ∧
      ∀ (k : Nat) (r : GenIter K), l[k]? = some r → (∀ q ∈ S.pfix, q ∈ p) ∨ 0 < k → (∀ q ∈ S.pfix, q ∈ r.vertices) ∧ r.points = r.vertices := by
  obtain ⟨n, -, -, h'⟩ := generateMesh_loop h
  obtain ⟨-, ⟨r0, l0, hl0, hp0⟩, a3, a4, -⟩ := genLoop_trace h'
  have one : ∀ r ∈ l, (∀ q ∈ S.pfix, q ∈ r.inserted) → (∀ q ∈ S.pfix, q ∈ r.vertices) ∧ r.points = r.vertices := by
    intro r hr hins
    obtain ⟨-, ⟨e, ht⟩, ⟨locked, ix, -, -, hplace⟩, -⟩ := genFirst_stages (a3 r hr)
    have hv : ∀ q ∈ S.pfix, q ∈ r.vertices := fun q hq => ((topology_points L ht).2 q).2 (hins q hq)
    exact ⟨hv, (placeFixed_mem hplace hv).1⟩
  have step : ∀ r ∈ l, (∀ q ∈ S.pfix, q ∈ r.points) → ∀ ix locked, r.fixed = locked ++ ix → ix.map (fun i => r.points[i]?) = S.pfix.map some →
      ∀ p', genSecond S r = some p' → ∀ q ∈ S.pfix, q ∈ p' := by
    intro r hr _ ix locked hfix hix p' hp' q hq
    have : some q ∈ ix.map (fun i => r.points[i]?) := by rw [hix]; exact List.mem_map_of_mem hq
    obtain ⟨i, hi, hiq⟩ := List.mem_map.1 this
    exact List.mem_of_getElem? (genSecond_fixed hf hp' (by rw [hfix]; exact List.mem_append_right _ hi) hiq (hin q hq))
  have steps : ∀ r ∈ l, (∀ q ∈ S.pfix, q ∈ r.inserted) → ∀ p', genSecond S r = some p' → ∀ q ∈ S.pfix, q ∈ p' := by
    intro r hr hins
    obtain ⟨-, ⟨e, ht⟩, ⟨locked, ix, hfix, -, hplace⟩, -⟩ := genFirst_stages (a3 r hr)
    obtain ⟨hv, hpv⟩ := one r hr hins
    exact step r hr (by rw [hpv]; exact hv) ix locked hfix (by rw [hpv]; exact (placeFixed_mem hplace hv).2)
  have later : (∀ q ∈ S.pfix, q ∈ p) → ∀ (k : Nat) (r : GenIter K), l[k]? = some r → ∀ q ∈ S.pfix, q ∈ r.inserted := by
    intro hpp k r hr
    exact trace_induct (P := fun p => ∀ q ∈ S.pfix, q ∈ p)
      (fun r' hr' => by
        have : r0 = r' := by rw [hl0] at hr'; simpa using hr'
        rw [← this, hp0]; exact hpp)
      (fun r' p' hr' hP h2 => steps r' hr' hP p' h2) a4 r (List.mem_of_getElem? hr)
  have later2 : ∀ (k : Nat) (r : GenIter K), l[k]? = some r → (∀ q ∈ S.pfix, q ∈ p) ∨ 0 < k → ∀ q ∈ S.pfix, q ∈ r.inserted := by
    rcases hp with hpp | ⟨r1, l1, ix, hl1, hplace, hn⟩
    · exact fun k r hr _ => later hpp k r hr
    · intro k
      induction k with
      | zero =>
        intro r hr hk
        rcases hk with hk | hk
        · exact later hk 0 r hr
        · omega
      | succ k ih =>
        intro r hr _
        have hk : k < l.length := by have := (List.getElem?_eq_some_iff.1 hr).1; omega
        have hr' := List.getElem?_eq_getElem hk
        have h2 := a4 k _ _ hr' hr
        cases k with
        | succ k => exact steps _ (List.getElem_mem hk) (ih _ hr' (Or.inr (by omega))) _ h2
        | zero =>
          have e1 : l[0] = r1 := by subst hl1; rfl
          rw [e1] at h2
          have hr1 : r1 ∈ l := by rw [hl1]; simp
          obtain ⟨-, -, ⟨locked, ix', hfix, -, hplace'⟩, -⟩ := genFirst_stages (a3 r1 hr1)
          rw [hplace] at hplace'
          have := Option.some.inj hplace'
          simp only [Prod.mk.injEq, and_true] at this
          subst this
          have hpts := placeFixed_nodup hplace hn
          refine step r1 hr1 ?_ ix locked hfix hpts _ h2
          intro q hq
          have : some q ∈ ix.map (fun i => r1.points[i]?) := by rw [hpts]; exact List.mem_map_of_mem hq
          obtain ⟨i, hi, hiq⟩ := List.mem_map.1 this
          exact List.mem_of_getElem? hiq
  refine ⟨?_, fun k r hr hk => one r (List.mem_of_getElem? hr) (later2 k r hr hk)⟩
  intro r hr q hq
  obtain ⟨k, hk⟩ := List.mem_iff_getElem?.1 hr
  by_cases hc : (∀ q ∈ S.pfix, q ∈ p) ∨ 0 < k
  · obtain ⟨c1, c2⟩ := one r hr (later2 k r hk hc)
    rw [c2]; exact c1 q hq
  · rw [not_or] at hc
    obtain rfl : k = 0 := by omega
    rcases hp with hp | ⟨r1, l1, ix, hl1, hplace, hn⟩
    · exact absurd hp hc.1
    · have : r1 = r := by rw [hl1] at hk; simpa using hk
      subst this
      have hpts := placeFixed_nodup hplace hn
      have : some q ∈ ix.map (fun i => r1.points[i]?) := by rw [hpts]; exact List.mem_map_of_mem hq
      obtain ⟨i, hi, hiq⟩ := List.mem_map.1 this
      exact List.mem_of_getElem? hiq

/-- **C69** (generated start points): without the option `points` the first hypothesis holds. -/
theorem C69_generated_start [IsStrictOrderedRing K] [FloorRing K] {S : GenSetup K} (L : CgalLaws S.cgal) {f : K × K → K} (hf : Pointwise S.fd f)
    (hin : ∀ q ∈ S.pfix, f q ≤ 0) {h0 : K} {b : Box K} {rand : Nat → K} {st : Option ((K × K → K × K) × (K × K → K × K) × (K → Float64 K))}
    {p : List (K × K)} (hs : startPoints S h0 b rand st none = some p) {maxIter : Nat} {m : FixResult K} {l : List (GenIter K)}
    (h : generateMesh S maxIter p = some (m, l)) : ∀ r ∈ l, r.points = r.vertices ∧ ∀ q ∈ S.pfix, q ∈ r.points := by
  have hp : ∀ q ∈ S.pfix, q ∈ p := by
    simp only [startPoints, initialPoints, initialFrom] at hs
    rcases st with _ | ⟨proj, back, dist⟩ <;>
    · simp only [Option.bind_eq_bind, Option.bind_eq_some_iff] at hs
      obtain ⟨⟨p1, r0⟩, -, s, -, h3⟩ := hs
      dsimp only at h3
      split at h3
      · simp only [Option.bind_eq_some_iff] at h3
        obtain ⟨kept, -, d, -, kept', -, h4⟩ := h3
        have h4 := Option.some.inj h4
        intro q hq
        rw [← h4]; exact List.mem_append_left _ hq
      · simp at h3
  obtain ⟨a1, a2⟩ := C69_all_iterations L hf hin h (Or.inl hp)
  intro r hr
  obtain ⟨k, hk⟩ := List.mem_iff_getElem?.1 hr
  exact ⟨(a2 k r hk (Or.inl hp)).2, a1 r hr⟩

/-- **C69** (result): if the points of the last iteration are further apart than the merging tolerance, a point of the last iteration is a vertex of the
returned mesh exactly if it is a corner of a kept triangle. In particular a fixed point is returned if one of its triangles is kept. -/
theorem C69_result [IsStrictOrderedRing K] {S : GenSetup K} {f : K × K → K} (hf : Pointwise S.fd f) (hr : IsRounding S.rnd) (hpt : 0 < S.ptol)
    {maxIter : Nat} {p : List (K × K)} {m : FixResult K} {l : List (GenIter K)}
    (h : generateMesh S maxIter p = some (m, l)) :
    ∃ r, l.getLast? = some r ∧ ∀ e, IsExtent r.points e → Separated (e * S.ptol) r.points →
      ∀ q, q ∈ m.p ↔ ∃ t ∈ r.kept, some q ∈ corners r.points t := by
  obtain ⟨r, hl, hres⟩ := C68_result_exact hf hr hpt h
  refine ⟨r, hl, fun e he hsep q => ?_⟩
  obtain ⟨-, hrep, hrep'⟩ := hres e he hsep
  obtain ⟨-, -, -, r', hl', hfix⟩ := C68_kept hf h
  obtain rfl : r = r' := Option.some.inj (hl.symm.trans hl')
  have hwf := C05_fix_mesh_wellformed hfix
  constructor
  · intro hq
    obtain ⟨v, hv⟩ := List.mem_iff_getElem?.1 hq
    obtain ⟨g, hg, hgv⟩ := hwf.2.2 rfl v (List.getElem?_eq_some_iff.1 hv).1
    obtain ⟨t, ht, x, y, z, x', y', z', d1, d2, rfl, rfl, rfl⟩ := hrep' g hg
    refine ⟨t, ht, ?_⟩
    rw [d1, ← d2.mem_iff, ← hv]
    rcases hgv with rfl | rfl | rfl <;> simp [corners]
  · rintro ⟨t, ht, hq⟩
    obtain ⟨g, hg, x, y, z, x', y', z', d1, d2, rfl, rfl, rfl⟩ := hrep t ht
    rw [d1, ← d2.mem_iff] at hq
    simp only [corners, List.mem_cons, List.not_mem_nil, or_false] at hq
    rcases hq with hq | hq | hq <;> exact List.mem_of_getElem? hq.symm

/-! ### Locked boundary -/

theorem nearestVertices_mem {p l : List (K × K)} {ix : List Nat} (h : nearestVertices p l = some ix) {q : K × K} (hq : q ∈ l) :
    ∃ i ∈ ix, IsNearest p q i := by
  induction l generalizing ix with
  | nil => simp at hq
  | cons x l ih =>
    simp only [nearestVertices, Option.bind_eq_bind, Option.bind_eq_some_iff] at h
    obtain ⟨i, h1, r, h2, h3⟩ := h
    have h3 := Option.some.inj h3
    subst h3
    rcases List.mem_cons.1 hq with rfl | hq
    · exact ⟨i, by simp, nearestVertex_iff.1 h1⟩
    · obtain ⟨j, hj, hn⟩ := ih h2 hq
      exact ⟨j, List.mem_cons_of_mem _ hj, hn⟩

/-- **C83**: with `lock_boundary` every vertex on the boundary of the triangulation (before triangles are removed) that is not outside of the domain
keeps its place: it has the same position in the array given to the next triangulation and is one of its vertices. -/
theorem C83_locked_boundary [IsStrictOrderedRing K] {S : GenSetup K} (L : CgalLaws S.cgal) {f : K × K → K} (hf : Pointwise S.fd f)
    (hlock : S.lock = true) {maxIter : Nat} {p : List (K × K)} {m : FixResult K} {l : List (GenIter K)}
    (h : generateMesh S maxIter p = some (m, l)) {k : Nat} {r r' : GenIter K} (hr : l[k]? = some r) (hr' : l[k + 1]? = some r')
    (hnd : ∀ t ∈ r.triangles, Nondegenerate t) {i : Nat} (hi : 0 < boundaryDegree r.triangles i) {q : K × K} (hq : r.points[i]? = some q) (hin : f q ≤ 0) :
    r'.inserted[i]? = some q ∧ q ∈ r'.vertices := by
  obtain ⟨n, -, -, h'⟩ := generateMesh_loop h
  obtain ⟨-, -, a3, a4, -⟩ := genLoop_trace h'
  obtain ⟨-, ⟨e, ht⟩, ⟨locked, ix, hfix, hlk, hplace⟩, -⟩ := genFirst_stages (a3 r (List.mem_of_getElem? hr))
  rw [if_pos hlock, Option.bind_eq_some_iff] at hlk
  obtain ⟨b, hb, hlk⟩ := hlk
  rw [externalTopology, Option.map_eq_some_iff] at hb
  obtain ⟨bp, hg, rfl⟩ := hb
  have hmem : i ∈ unique natOrder (flatPairs (getBoundaryEdges S.oE r.triangles)) := (mem_unique _ _ _).2 ((mem_flat_boundary _ hnd i).2 hi)
  have hlt := gather_valid hg i hmem
  have hv := List.getElem?_eq_getElem hlt
  obtain ⟨k', hk'⟩ := List.mem_iff_getElem?.1 hmem
  have hbp : r.vertices[i] ∈ bp := List.mem_of_getElem? ((gather_getElem? hg hk').trans hv)
  obtain ⟨j, hj, hn⟩ := nearestVertices_mem hlk hbp
  have hji := nodup_index (topology_points L ht).1 (isNearest_mem hn (List.getElem_mem hlt)) hv
  subst hji
  have hres := genSecond_fixed hf (a4 k r r' hr hr') (by rw [hfix]; exact List.mem_append_left _ hj) hq hin
  refine ⟨hres, ?_⟩
  obtain ⟨-, ⟨e', ht'⟩, -⟩ := genFirst_stages (a3 r' (List.mem_of_getElem? hr'))
  exact ((topology_points L ht').2 q).2 (List.mem_of_getElem? hres)

/-- **C83** (without fixed points): then these are the vertices of the triangulation themselves. -/
theorem C83_points {S : GenSetup K} (hp : S.pfix = []) {maxIter : Nat} {p : List (K × K)} {m : FixResult K} {l : List (GenIter K)}
    (h : generateMesh S maxIter p = some (m, l)) : ∀ r ∈ l, r.points = r.vertices := by
  obtain ⟨n, -, -, h'⟩ := generateMesh_loop h
  obtain ⟨-, -, a3, -, -⟩ := genLoop_trace h'
  intro r hr
  obtain ⟨-, -, ⟨locked, ix, -, -, hplace⟩, -⟩ := genFirst_stages (a3 r hr)
  rw [hp] at hplace
  simp only [placeFixed, Option.some.injEq, Prod.mk.injEq] at hplace
  exact hplace.2.symm

/-- **C69, C83** (converse): a vertex that is neither locked nor moved to a fixed point is moved by the pseudo time step times the force on it, and not
projected if it is not outside after that. -/
theorem C83_free_vertices {S : GenSetup K} {f : K × K → K} (hf : Pointwise S.fd f) {maxIter : Nat} {p : List (K × K)} {m : FixResult K} {l : List (GenIter K)}
    (h : generateMesh S maxIter p = some (m, l)) {k : Nat} {r r' : GenIter K} (hr : l[k]? = some r) (hr' : l[k + 1]? = some r') :
    r'.inserted.length = r.points.length ∧
    ∃ F, computeForces S.sqrt S.eps S.mult S.fh S.stereo r.points r.kept = some F ∧ ∀ i, i ∉ r.fixed → ∀ q g, r.points[i]? = some q → F[i]? = some g →
      f (q.1 + S.dt * g.1, q.2 + S.dt * g.2) ≤ 0 → r'.inserted[i]? = some (q.1 + S.dt * g.1, q.2 + S.dt * g.2) := by
  obtain ⟨n, -, -, h'⟩ := generateMesh_loop h
  obtain ⟨-, -, a3, a4, -⟩ := genLoop_trace h'
  have h2 := a4 k r r' hr hr'
  simp only [genSecond, Option.bind_eq_bind, Option.bind_eq_some_iff] at h2
  obtain ⟨F, h3, h4⟩ := h2
  rw [project_eq hf h4]
  refine ⟨by rw [List.length_map, movePoints_length (C70_balanced h3).1], F, h3, ?_⟩
  intro i hi q g hq hg hin
  rw [List.getElem?_map, movePoints_free hi hq hg, Option.map_some, if_neg (not_lt.2 hin)]

end

/-! ### Executions -/

/-- The half plane `x + y ≤ 30`. -/
def slopeFd (q : ℚ × ℚ) : ℚ := q.1 + q.2 - 30

/-- Options with the toy triangulation (one triangle of the first three points). -/
def genQ (pfix : List (ℚ × ℚ)) (lock : Bool) : GenSetup ℚ where
  cgal := toyCgal
  oE := lexOrder
  rnd := rndQ
  oP := ptOrder
  oT := triOrder
  ptol := 1 / 1000
  sqrt := fun x => x
  eps := 1
  mult := 6 / 5
  fh := fun l => some (l.map fun _ => .fin 1)
  fd := fun l => some (l.map slopeFd)
  stereo := none
  geps := 1 / 1000
  deps := 1 / 100
  dt := 1 / 5
  pfix := pfix
  lock := lock

theorem genQ_fd (pfix : List (ℚ × ℚ)) (lock : Bool) : Pointwise (genQ pfix lock).fd slopeFd := fun _ _ h => (Option.some.inj h).symm

deriving instance DecidableEq for FixResult
deriving instance DecidableEq for GenIter

/-- The execution with the fixed point `(1, 1)` and two iterations. -/
def runQ : FixResult ℚ × List (GenIter ℚ) :=
  (⟨[(-1 / 25, 57 / 5), (1, 1), (11132 / 1025, -98 / 1025)], [⟨0, 1, 2⟩], [0, 1, 2]⟩,
    [⟨[(1, 1), (10, 0), (0, 11)], [(1, 1), (10, 0), (0, 11)], [⟨0, 1, 2⟩], [(1, 1), (10, 0), (0, 11)], [0], [⟨0, 1, 2⟩]⟩,
     ⟨[(1, 1), (11132 / 1025, -98 / 1025), (-1 / 25, 57 / 5)], [(1, 1), (11132 / 1025, -98 / 1025), (-1 / 25, 57 / 5)], [⟨0, 1, 2⟩],
      [(1, 1), (11132 / 1025, -98 / 1025), (-1 / 25, 57 / 5)], [0], [⟨0, 1, 2⟩]⟩])

theorem runQ_eq : generateMesh (genQ [(1, 1)] false) 2 [(1, 1), (10, 0), (0, 11)] = some (runQ.1, runQ.2) := by decide +kernel

example := C68_kept (genQ_fd _ _) runQ_eq

example := C69_iteration runQ_eq (k := 0) rfl

example := C69_all_iterations (S := genQ [(1, 1)] false) toyCgal_laws (genQ_fd _ _) (by simp [genQ, slopeFd]; norm_num) runQ_eq (Or.inl (by simp [genQ]))

/-- Start points generated for the box `[0, 1] × [0, 1]` with step 1; the fixed point comes first. -/
theorem startQ_eq : startPoints (genQ [(1, 1)] false) 1 ⟨0, 1, 0, 1⟩ (fun _ => 0) none none = some [(1, 1), (0, 0), (0, 1), (1, 0), (1, 1)] := by
  decide +kernel

example : ∃ R, generateMesh (genQ [(1, 1)] false) 2 [(1, 1), (0, 0), (0, 1), (1, 0), (1, 1)] = some R ∧ ∀ r ∈ R.2, r.points = r.vertices ∧ (1, 1) ∈ r.points := by
  have h : (generateMesh (genQ [(1, 1)] false) 2 [(1, 1), (0, 0), (0, 1), (1, 0), (1, 1)]).isSome := by decide +kernel
  obtain ⟨R, hR⟩ := Option.isSome_iff_exists.1 h
  refine ⟨R, hR, fun r hr => ?_⟩
  obtain ⟨a, b⟩ := C69_generated_start (S := genQ [(1, 1)] false) toyCgal_laws (genQ_fd _ _) (by simp [genQ, slopeFd]; norm_num) startQ_eq hR r hr
  exact ⟨a, b _ (by simp [genQ])⟩

/-- The distance function changes by at most two per unit of the maximum norm. -/
theorem slopeFd_lip : ∀ (x y : ℚ × ℚ) (d : ℚ), Within d x y → slopeFd y ≤ slopeFd x + 2 * d := by
  intro x y d h
  simp only [Within, abs_le] at h
  simp only [slopeFd]
  linarith [h.1.1, h.2.1]

example := C68_result (S := genQ [(1, 1)] false) (genQ_fd _ _) rndQ_isRounding (by norm_num [genQ]) runQ_eq (by norm_num) slopeFd_lip

/-- The hypotheses of the exact form hold for this execution. -/
example : (∀ g ∈ runQ.1.t, InsideBy slopeFd (1 / 1000) runQ.1.p g) ∧ (1, 1) ∈ runQ.1.p := by
  have he : IsExtent ([(1, 1), (11132 / 1025, -98 / 1025), (-1 / 25, 57 / 5)] : List (ℚ × ℚ)) (11783 / 1025) := by
    refine ⟨⟨(11132 / 1025, -98 / 1025), by simp, (-1 / 25, 57 / 5), by simp, Or.inr (by norm_num [abs_of_neg])⟩, ?_⟩
    intro q hq q' hq'
    simp only [List.mem_cons, List.not_mem_nil, or_false] at hq hq'
    rcases hq with rfl | rfl | rfl <;> rcases hq' with rfl | rfl | rfl <;> norm_num [abs_le]
  have hs : Separated (11783 / 1025 * (1 / 1000)) ([(1, 1), (11132 / 1025, -98 / 1025), (-1 / 25, 57 / 5)] : List (ℚ × ℚ)) := by
    intro q hq q' hq' h
    simp only [List.mem_cons, List.not_mem_nil, or_false] at hq hq'
    rcases hq with rfl | rfl | rfl <;> rcases hq' with rfl | rfl | rfl <;> first | rfl | (norm_num [Within, abs_le] at h)
  obtain ⟨r, h1, h2⟩ := C68_result_exact (S := genQ [(1, 1)] false) (genQ_fd _ _) rndQ_isRounding (by norm_num [genQ]) runQ_eq
  obtain ⟨r2, k1, k2⟩ := C69_result (S := genQ [(1, 1)] false) (genQ_fd _ _) rndQ_isRounding (by norm_num [genQ]) runQ_eq
  have e : r = runQ.2[1] := (Option.some.inj h1).symm
  have e2 : r2 = runQ.2[1] := (Option.some.inj k1).symm
  subst e e2
  exact ⟨(h2 _ he hs).1, (k2 _ he hs (1, 1)).2 ⟨⟨0, 1, 2⟩, by simp [runQ], by simp [runQ, corners]⟩⟩

/-- The execution with a locked boundary. -/
def runLocked : FixResult ℚ × List (GenIter ℚ) :=
  (⟨[(0, 11), (1, 1), (10, 0)], [⟨0, 1, 2⟩], [0, 1, 2]⟩,
    [⟨[(1, 1), (10, 0), (0, 11), (7, 7)], [(1, 1), (10, 0), (0, 11), (7, 7)], [⟨0, 1, 2⟩], [(1, 1), (10, 0), (0, 11), (7, 7)], [0, 1, 2], [⟨0, 1, 2⟩]⟩,
     ⟨[(1, 1), (10, 0), (0, 11), (7, 7)], [(1, 1), (10, 0), (0, 11), (7, 7)], [⟨0, 1, 2⟩], [(1, 1), (10, 0), (0, 11), (7, 7)], [0, 1, 2], [⟨0, 1, 2⟩]⟩])

theorem runLocked_eq : generateMesh (genQ [] true) 2 [(1, 1), (10, 0), (0, 11), (7, 7)] = some (runLocked.1, runLocked.2) := by decide +kernel

example := C83_locked_boundary (S := genQ [] true) toyCgal_laws (genQ_fd _ _) rfl runLocked_eq (k := 0) rfl rfl
  (by intro t ht; simp only [List.mem_singleton] at ht; subst ht; decide) (i := 1) (by decide +kernel) (q := (10, 0)) rfl (by norm_num [slopeFd])

example := C83_points (S := genQ [] true) rfl runLocked_eq

/-- Without the option the vertex 1 moves. -/
example := C83_free_vertices (genQ_fd _ _) runQ_eq (k := 0) rfl rfl

example : runQ.2[1].inserted[1]? ≠ runQ.2[0].points[1]? := by decide +kernel

/-- **C69** (disagreement): the nearest vertices of the two fixed points are different, but the search for the second one already sees the vertex moved to
the first one: the same vertex is moved again and the first fixed point is not in the mesh. -/
theorem C69_fixed_point_lost : ∃ (S : GenSetup ℚ) (p : List (ℚ × ℚ)) (q q' : ℚ × ℚ) (r : GenIter ℚ) (m : FixResult ℚ), CgalLaws S.cgal ∧ S.pfix = [q, q'] ∧
    generateMesh S 1 p = some (m, [r]) ∧ IsNearest r.vertices q 0 ∧ IsNearest r.vertices q' 1 ∧ q ∉ r.points ∧ q ∉ m.p := by
  refine ⟨genQ [(49 / 10, 0), (51 / 10, 0)] false, [(0, 0), (10, 0), (0, 10)], (49 / 10, 0), (51 / 10, 0),
    ⟨[(0, 0), (10, 0), (0, 10)], [(0, 0), (10, 0), (0, 10)], [⟨0, 1, 2⟩], [(51 / 10, 0), (10, 0), (0, 10)], [0, 0], [⟨0, 1, 2⟩]⟩,
    ⟨[(0, 10), (51 / 10, 0), (10, 0)], [⟨0, 1, 2⟩], [0, 1, 2]⟩, toyCgal_laws, rfl, by decide +kernel, ?_, ?_, ?_, ?_⟩
  · exact nearestVertex_iff.1 (by decide +kernel)
  · exact nearestVertex_iff.1 (by decide +kernel)
  · decide +kernel
  · decide +kernel

/-- **C69** (limit): a fixed point outside of the domain is projected onto the boundary between two iterations. It is in the last points again only
because a vertex is moved to it after the triangulation. -/
theorem C69_outside_moved : ∃ (S : GenSetup ℚ) (p : List (ℚ × ℚ)) (q : ℚ × ℚ) (r r' : GenIter ℚ) (m : FixResult ℚ), S.pfix = [q] ∧ q ∈ p ∧
    generateMesh S 2 p = some (m, [r, r']) ∧ q ∈ r.points ∧ q ∉ r'.vertices ∧ q ∈ r'.points := by
  refine ⟨genQ [(20, 12)] false, [(20, 12), (10, 0), (0, 11)], (20, 12),
    ⟨[(20, 12), (10, 0), (0, 11)], [(20, 12), (10, 0), (0, 11)], [⟨0, 1, 2⟩], [(20, 12), (10, 0), (0, 11)], [0], [⟨0, 1, 2⟩]⟩,
    ⟨[(19, 11), (11326 / 1105, -6601 / 5525), (-718 / 1105, 64724 / 5525)], [(19, 11), (11326 / 1105, -6601 / 5525), (-718 / 1105, 64724 / 5525)],
      [⟨0, 1, 2⟩], [(20, 12), (11326 / 1105, -6601 / 5525), (-718 / 1105, 64724 / 5525)], [0], [⟨0, 1, 2⟩]⟩,
    ⟨[(-718 / 1105, 64724 / 5525), (11326 / 1105, -6601 / 5525), (20, 12)], [⟨0, 1, 2⟩], [0, 1, 2]⟩, rfl, ?_, ?_, ?_, ?_, ?_⟩
  all_goals decide +kernel

end OM
