import Verif.Model.GenerateFl
import Verif.Spec.GenerateFl
import Verif.Props.GenerateTotal
import Verif.Props.FixMeshFl
import Verif.Props.SmoothFl
/-!
# C125: `generate_mesh` in floating-point arithmetic
-/
set_option linter.unusedSectionVars false
namespace OM
open Spec

section
variable {K : Type} [Field K] [LinearOrder K]

/-! ### The record of the iterations -/

theorem genFirstFl_stages {S : GenFl K} {p : List (K × K)} {r : GenIter K} (h : genFirstFl S p = some r) :
    r.inserted = p ∧ (∃ e, getTopology (dtInsert S.cgal ⟨[], []⟩ p) = some (r.vertices, r.triangles, e)) ∧
    (∃ locked ix, r.fixed = locked ++ ix ∧
      (if S.lock then (externalTopology S.oE r.vertices r.triangles).bind fun b => nearestVerticesFl S.fl S.sq r.vertices b.2 else some []) = some locked ∧
      placeFixedFl S.fl S.sq S.pfix r.vertices = some (ix, r.points)) ∧
    removeTrianglesOutsideFl S.fl S.fd S.geps r.points r.triangles = some r.kept := by
  simp only [genFirstFl, Option.bind_eq_bind, Option.bind_eq_some_iff] at h
  obtain ⟨⟨v, t, e⟩, h1, h⟩ := h
  by_cases hl : S.lock = true
  · simp only [hl, if_true, Option.bind_eq_some_iff] at h
    obtain ⟨locked, h2, ⟨ix, p'⟩, h3, kept, h4, h5⟩ := h
    have h5 := Option.some.inj h5
    subst h5
    refine ⟨rfl, ⟨e, h1⟩, ⟨locked, ix, rfl, ?_, h3⟩, h4⟩
    rw [if_pos hl]; exact Option.bind_eq_some_iff.2 h2
  · rw [if_neg hl] at h
    simp only [Option.bind_eq_some_iff] at h
    obtain ⟨locked, h2, ⟨ix, p'⟩, h3, kept, h4, h5⟩ := h
    have h5 := Option.some.inj h5
    subst h5
    exact ⟨rfl, ⟨e, h1⟩, ⟨locked, ix, rfl, by rw [if_neg hl]; exact h2, h3⟩, h4⟩

theorem genLoopFl_trace {S : GenFl K} {n : Nat} {p : List (K × K)} {m : FixResult K} {l : List (GenIter K)} (h : genLoopFl S n p = some (m, l)) :
    l.length = n + 1 ∧ (∃ r l', l = r :: l' ∧ r.inserted = p) ∧ (∀ r ∈ l, genFirstFl S r.inserted = some r) ∧
      (∀ (k : Nat) (r r' : GenIter K), l[k]? = some r → l[k + 1]? = some r' → genSecondFl S r = some r'.inserted) ∧
      ∃ r, l.getLast? = some r ∧ fixMeshFl S.fl S.rnd S.oP S.oT r.points r.kept S.ptol true = some m := by
  induction n generalizing p m l with
  | zero =>
    simp only [genLoopFl, Option.bind_eq_bind, Option.bind_eq_some_iff] at h
    obtain ⟨r, h1, m', h2, h3⟩ := h
    have h3 := Option.some.inj h3
    simp only [Prod.mk.injEq] at h3
    obtain ⟨rfl, rfl⟩ := h3
    have hi := (genFirstFl_stages h1).1
    refine ⟨rfl, ⟨r, [], rfl, hi⟩, ?_, ?_, r, rfl, h2⟩
    · intro r' hr'
      obtain rfl : r' = r := by simpa using hr'
      rw [hi]; exact h1
    · intro k r1 r2 _ h2'
      simp at h2'
  | succ n ih =>
    simp only [genLoopFl, Option.bind_eq_bind, Option.bind_eq_some_iff] at h
    obtain ⟨r, h1, p', h2, ⟨m', l'⟩, h3, h4⟩ := h
    have h4 := Option.some.inj h4
    simp only [Prod.mk.injEq] at h4
    obtain ⟨rfl, rfl⟩ := h4
    have hi := (genFirstFl_stages h1).1
    obtain ⟨a1, ⟨r1, l1, rfl, a2⟩, a3, a4, r2, a5, a6⟩ := ih h3
    refine ⟨by simp only [List.length_cons] at a1 ⊢; omega, ⟨r, _, rfl, hi⟩, ?_, ?_, r2, ?_, a6⟩
    · intro r' hr'
      rcases List.mem_cons.1 hr' with rfl | hr'
      · rw [hi]; exact h1
      · exact a3 r' hr'
    · intro k x x' hx hx'
      cases k with
      | zero =>
        obtain rfl : r = x := by simpa using hx
        obtain rfl : r1 = x' := by simpa using hx'
        rw [a2]; exact h2
      | succ k => exact a4 k x x' (by simpa using hx) (by simpa using hx')
    · simpa using a5

theorem generateMeshFl_loop {S : GenFl K} {maxIter : Nat} {p : List (K × K)} {R : FixResult K × List (GenIter K)}
    (h : generateMeshFl S maxIter p = some R) : ∃ n, maxIter = n + 1 ∧ p ≠ [] ∧ genLoopFl S n p = some R := by
  unfold generateMeshFl at h
  cases maxIter with
  | zero => simp at h
  | succ n =>
    dsimp only at h
    split at h
    · simp at h
    · rename_i hp
      exact ⟨n, rfl, fun h0 => hp (by simp [h0]), h⟩

/-! ### Without rounding -/

theorem medianFl_id [CharZero K] (l : List K) : medianFl id l = median l := by
  have hlen := (sortBy_perm (fun a b : K => decide (a ≤ b)) l).length_eq
  unfold medianFl median
  dsimp only
  rw [hlen]
  by_cases ho : l.length % 2 = 1
  · have : (l.length - 1) / 2 = l.length / 2 := by omega
    rw [this]
    cases (sortBy (fun a b : K => decide (a ≤ b)) l)[l.length / 2]? with
    | none => rfl
    | some a => simp [ho]
  · cases (sortBy (fun a b : K => decide (a ≤ b)) l)[(l.length - 1) / 2]? <;> cases (sortBy (fun a b : K => decide (a ≤ b)) l)[l.length / 2]? <;> simp [ho]

theorem foldl_add_eq (l : List K) (a : K) : l.foldl (fun a x => id (a + x)) a = a + l.sum := by
  induction l generalizing a with
  | nil => simp
  | cons x l ih => rw [List.foldl_cons, ih, List.sum_cons, id, add_assoc]

theorem vertexEntries_sum (v : Nat) (part : K × K → K) (l : List ((Nat × Nat) × (K × K))) :
    (vertexEntries v part l).sum = (l.map fun x => (if x.1.1 = v then part x.2 else 0) + (if x.1.2 = v then -part x.2 else 0)).sum := by
  induction l with
  | nil => rfl
  | cons x l ih =>
    obtain ⟨e, f⟩ := x
    simp only [vertexEntries, List.sum_append, ih, List.map_cons, List.sum_cons]
    split <;> split <;> simp

theorem addUpFl_id (v : Nat) (l : List ((Nat × Nat) × (K × K))) :
    (addUpFl id (vertexEntries v Prod.fst l), addUpFl id (vertexEntries v Prod.snd l)) = forceAt v l := by
  refine Prod.ext ?_ ?_
  · rw [forceAt_fst, ← vertexEntries_sum v Prod.fst]
    exact (foldl_add_eq _ _).trans (zero_add _)
  · rw [forceAt_snd, ← vertexEntries_sum v Prod.snd]
    exact (foldl_add_eq _ _).trans (zero_add _)

theorem computeForcesFl_id [CharZero K] (sqrt : K → K) (eps mult : K) (fh : List (K × K) → Option (List (Float64 K)))
    (stereo : Option ((K × K → K × K) × (K → Float64 K))) (p : List (K × K)) (t : List Tri) :
    computeForcesFl id sqrt eps mult fh stereo p t = computeForces sqrt eps mult fh stereo p t := by
  have hL : barLengthFl id sqrt eps = barLength sqrt eps := by
    funext e
    simp only [barLengthFl, barLength, barVecFl, id, pow_two]
    rfl
  have hM : barMidFl (K := K) id = barMid := rfl
  have hS : barSizesFl id fh stereo = barSizes fh stereo := by
    funext mids
    unfold barSizesFl barSizes
    have : ∀ x : Float64 K, x.round id = x := fun x => by cases x <;> rfl
    simp only [this]
    rfl
  have hR : repairSizesFl (K := K) id = repairSizes := by
    funext h
    unfold repairSizesFl repairSizes
    rw [medianFl_id]
    rfl
  have hc : ∀ a b L h : K, barFactorFl id mult (id (a / b)) L h = barFactor (mult * (a / b)) L h := by
    intro a b L h
    simp only [barFactorFl, barFactor, id, mul_assoc]
  have hF : barForceFl (K := K) id = fun c e => (c * (e.1.1 - e.2.1), c * (e.1.2 - e.2.2)) := rfl
  have hc' : ∀ a b : K, barFactorFl id mult (id (a / b)) = barFactor (mult * (a / b)) := fun a b => by funext L h; exact hc a b L h
  simp only [computeForcesFl, computeForces, hL, hM, hS, hR, medianFl_id, hc', hF, addUpFl_id]

theorem projectPointsBackFl_id (fd : List (K × K) → Option (List K)) (deps : K) (p : List (K × K)) :
    projectPointsBackFl id fd deps p = projectPointsBack fd deps p := by
  have hg : gradientsFl id fd deps = gradients fd deps := by
    funext q d
    simp only [gradientsFl, gradients, id, add_zero]
  have ho : outsideGradientsFl id fd deps = outsideGradients fd deps := by
    funext ix p q d dq
    simp only [outsideGradientsFl, outsideGradients, hg]
    rfl
  have hp : projectPointFl id deps = projectPoint deps := by
    funext q d g
    simp only [projectPointFl, projectPoint, id, pow_two]
  simp only [projectPointsBackFl, projectPointsBack, ho, hp]

theorem movePointsFl_id (dt : K) (fixed : List Nat) (p F : List (K × K)) : movePointsFl id dt fixed p F = movePoints dt fixed p F := by
  unfold movePointsFl movePoints
  congr 1
  funext i x
  by_cases hi : i ∈ fixed <;> simp [hi]

theorem nearestVertexFl_id (q : K × K) (p : List (K × K)) : nearestVertexFl id (fun a b => a * a + b * b) q p = nearestVertex q p := rfl

theorem nearestVerticesFl_id (p : List (K × K)) : ∀ l : List (K × K), nearestVerticesFl id (fun a b => a * a + b * b) p l = nearestVertices p l
  | [] => rfl
  | q :: l => by simp only [nearestVerticesFl, nearestVertices, nearestVertexFl_id, nearestVerticesFl_id p l]

theorem placeFixedFl_id : ∀ l p : List (K × K), placeFixedFl id (fun a b => a * a + b * b) l p = placeFixed l p
  | [], _ => rfl
  | q :: l, p => by
    simp only [placeFixedFl, placeFixed, nearestVertexFl_id]
    cases nearestVertex q p with
    | none => rfl
    | some i => simp only [Option.bind_eq_bind, Option.bind_some, placeFixedFl_id l (p.set i q)]

theorem centroidsFl_id (p : List (K × K)) : ∀ t : List Tri, centroidsFl id p t = centroids p t
  | [] => rfl
  | f :: t => by simp only [centroidsFl, centroids, centroidsFl_id p t]; rfl

/-- **C125** Without rounding errors this is the exact model. -/
theorem C125_exact [IsStrictOrderedRing K] (S : GenFl K) (hfl : S.fl = id) (hsq : S.sq = fun a b => a * a + b * b) (maxIter : Nat) (p : List (K × K)) :
    generateMeshFl S maxIter p = generateMesh S.toGenSetup maxIter p := by
  have h1 : ∀ p, genFirstFl S p = genFirst S.toGenSetup p := by
    intro p
    simp only [genFirstFl, genFirst, hfl, hsq, nearestVerticesFl_id, placeFixedFl_id, removeTrianglesOutsideFl, removeTrianglesOutside, centroidsFl_id]
  have h2 : ∀ r, genSecondFl S r = genSecond S.toGenSetup r := by
    intro r
    simp only [genSecondFl, genSecond, hfl, computeForcesFl_id, movePointsFl_id, projectPointsBackFl_id]
  have h3 : ∀ n p, genLoopFl S n p = genLoop S.toGenSetup n p := by
    intro n
    induction n with
    | zero => intro p; simp only [genLoopFl, genLoop, h1, hfl, C120_exact]
    | succ n ih => intro p; simp only [genLoopFl, genLoop, h1, h2, ih]
  unfold generateMeshFl generateMesh
  cases maxIter with
  | zero => rfl
  | succ n => simp only [h3]

end

section
variable {K : Type} [Field K] [LinearOrder K] [IsStrictOrderedRing K]

/-! ### Points that are found again -/

theorem rnd_eq_zero {fl : K → K} {u : K} (hr : RelError fl u) (hu : u < 1) {x : K} (h : fl x = 0) : x = 0 := by
  have := hr x
  rw [h, zero_sub, abs_neg] at this
  by_contra hx
  have hx := abs_pos.2 hx
  nlinarith

theorem rnd_nonneg {fl : K → K} (hR : Rounding fl) {x : K} (h : 0 ≤ x) : 0 ≤ fl x := by
  have := hR.mono h
  rwa [hR.zero] at this

theorem rnd_nonpos {fl : K → K} (hR : Rounding fl) {x : K} (h : x ≤ 0) : fl x ≤ 0 := by
  have := hR.mono h
  rwa [hR.zero] at this

theorem rnd_pos_of {fl : K → K} (hR : Rounding fl) {u : K} (hr : RelError fl u) (hu : u < 1) {x : K} (h : 0 < x) : 0 < fl x :=
  lt_of_le_of_ne (rnd_nonneg hR h.le) fun h0 => h.ne' (rnd_eq_zero hr hu h0.symm)

/-- The sums of squares of numpy, with and without fused multiply-add, are of this kind. -/
theorem C125_square_sums {fl : K → K} (hR : Rounding fl) {u : K} (hr : RelError fl u) (hu : u < 1) :
    IsSquareSum (fun a b => fl (fl (a * a) + fl (b * b))) ∧ IsSquareSum (fun a b => fl (a * a + fl (b * b))) ∧
      IsSquareSum (fun a b => fl (fl (a * a) + b * b)) := by
  have key : ∀ P Q : K → K, (∀ x, 0 ≤ P x ∧ (P x = 0 ↔ x = 0)) → (∀ x, 0 ≤ Q x ∧ (Q x = 0 ↔ x = 0)) → IsSquareSum fun a b => fl (P a + Q b) := by
    intro P Q hP hQ a b
    have h1 := (hP a).1
    have h2 := (hQ b).1
    refine ⟨rnd_nonneg hR (by linarith), fun h => ?_, ?_⟩
    · have := rnd_eq_zero hr hu h
      exact ⟨(hP a).2.1 (by linarith), (hQ b).2.1 (by linarith)⟩
    · rintro ⟨rfl, rfl⟩
      show fl (P 0 + Q 0) = 0
      rw [(hP 0).2.2 rfl, (hQ 0).2.2 rfl, add_zero, hR.zero]
  have k1 : ∀ x : K, 0 ≤ fl (x * x) ∧ (fl (x * x) = 0 ↔ x = 0) := fun x =>
    ⟨rnd_nonneg hR (mul_self_nonneg x), fun h => mul_self_eq_zero.1 (rnd_eq_zero hr hu h), fun h => by rw [h, mul_zero, hR.zero]⟩
  have k2 : ∀ x : K, 0 ≤ x * x ∧ (x * x = 0 ↔ x = 0) := fun x => ⟨mul_self_nonneg x, mul_self_eq_zero⟩
  exact ⟨key _ _ k1 k1, key _ _ k2 k1, key _ _ k1 k2⟩

theorem nearestVertexFl_mem {fl : K → K} {sq : K → K → K} (hR : Rounding fl) {u : K} (hr : RelError fl u) (hu : u < 1) (hs : IsSquareSum sq)
    {q : K × K} {p : List (K × K)} {i : Nat} (h : nearestVertexFl fl sq q p = some i) : i < p.length ∧ (q ∈ p → p[i]? = some q) := by
  obtain ⟨⟨i', y⟩, h1, rfl⟩ := Option.map_eq_some_iff.1 h
  obtain ⟨h2, h3⟩ := argMin_spec h1
  rw [List.getElem?_map, Option.map_eq_some_iff] at h2
  obtain ⟨x, hx, rfl⟩ := h2
  refine ⟨(List.getElem?_eq_some_iff.1 hx).1, fun hq => ?_⟩
  obtain ⟨j, hj⟩ := List.mem_iff_getElem?.1 hq
  have h4 := (h3 j _ (by rw [List.getElem?_map, hj, Option.map_some])).1
  rw [sub_self, sub_self, hR.zero, (hs 0 0).2.2 ⟨rfl, rfl⟩] at h4
  obtain ⟨e1, e2⟩ := (hs _ _).2.1 (le_antisymm h4 (hs _ _).1)
  dsimp only
  rw [hx, Prod.ext (sub_eq_zero.1 (rnd_eq_zero hr hu e1)) (sub_eq_zero.1 (rnd_eq_zero hr hu e2))]

theorem placeFixedFl_cons {fl : K → K} {sq : K → K → K} {q : K × K} {l p : List (K × K)} {R : List Nat × List (K × K)}
    (h : placeFixedFl fl sq (q :: l) p = some R) :
    ∃ i r p', nearestVertexFl fl sq q p = some i ∧ placeFixedFl fl sq l (p.set i q) = some (r, p') ∧ R = (i :: r, p') := by
  simp only [placeFixedFl, Option.bind_eq_bind, Option.bind_eq_some_iff] at h
  obtain ⟨i, h1, ⟨r, p'⟩, h2, h3⟩ := h
  exact ⟨i, r, p', h1, h2, (Option.some.inj h3).symm⟩

theorem nearestVertexFl_lt {fl : K → K} {sq : K → K → K} {q : K × K} {p : List (K × K)} {i : Nat} (h : nearestVertexFl fl sq q p = some i) :
    i < p.length := by
  obtain ⟨⟨i', y⟩, h1, rfl⟩ := Option.map_eq_some_iff.1 h
  obtain ⟨h2, -⟩ := argMin_spec h1
  simpa using (List.getElem?_eq_some_iff.1 h2).1

theorem placeFixedFl_facts {fl : K → K} {sq : K → K → K} {l p p' : List (K × K)} {ix : List Nat} (h : placeFixedFl fl sq l p = some (ix, p')) :
    ix.length = l.length ∧ p'.length = p.length ∧ (∀ i ∈ ix, i < p.length) ∧ ∀ i, i ∉ ix → p'[i]? = p[i]? := by
  induction l generalizing p ix with
  | nil =>
    simp only [placeFixedFl, Option.some.injEq, Prod.mk.injEq] at h
    obtain ⟨rfl, rfl⟩ := h
    simp
  | cons q l ih =>
    obtain ⟨i, r, p1, h1, h2, h3⟩ := placeFixedFl_cons h
    simp only [Prod.mk.injEq] at h3
    obtain ⟨rfl, rfl⟩ := h3
    obtain ⟨a1, a2, a3, a4⟩ := ih h2
    have hlt := nearestVertexFl_lt h1
    refine ⟨by simp [a1], by simpa using a2, ?_, ?_⟩
    · intro j hj
      rcases List.mem_cons.1 hj with rfl | hj
      · exact hlt
      · simpa using a3 j hj
    · intro j hj
      rw [List.mem_cons, not_or] at hj
      rw [a4 j hj.2, List.getElem?_set_ne (Ne.symm hj.1)]

theorem placeFixedFl_nodup {fl : K → K} {sq : K → K → K} {l p p' : List (K × K)} {ix : List Nat} (h : placeFixedFl fl sq l p = some (ix, p'))
    (hn : ix.Nodup) : ix.map (fun i => p'[i]?) = l.map some := by
  induction l generalizing p ix with
  | nil =>
    simp only [placeFixedFl, Option.some.injEq, Prod.mk.injEq] at h
    obtain ⟨rfl, rfl⟩ := h
    simp
  | cons q l ih =>
    obtain ⟨i, r, p1, h1, h2, h3⟩ := placeFixedFl_cons h
    simp only [Prod.mk.injEq] at h3
    obtain ⟨rfl, rfl⟩ := h3
    rw [List.nodup_cons] at hn
    rw [List.map_cons, List.map_cons, ih h2 hn.2, (placeFixedFl_facts h2).2.2.2 i hn.1]
    simp [List.getElem?_set_self (nearestVertexFl_lt h1)]

theorem placeFixedFl_mem {fl : K → K} {sq : K → K → K} (hR : Rounding fl) {u : K} (hr : RelError fl u) (hu : u < 1) (hs : IsSquareSum sq)
    {l p p' : List (K × K)} {ix : List Nat} (h : placeFixedFl fl sq l p = some (ix, p')) (hl : ∀ q ∈ l, q ∈ p) :
    p' = p ∧ ix.map (fun i => p[i]?) = l.map some := by
  induction l generalizing p ix with
  | nil =>
    simp only [placeFixedFl, Option.some.injEq, Prod.mk.injEq] at h
    obtain ⟨rfl, rfl⟩ := h
    simp
  | cons q l ih =>
    obtain ⟨i, r, p1, h1, h2, h3⟩ := placeFixedFl_cons h
    simp only [Prod.mk.injEq] at h3
    obtain ⟨rfl, rfl⟩ := h3
    have hi := (nearestVertexFl_mem hR hr hu hs h1).2 (hl q (by simp))
    have hset : p.set i q = p := by
      obtain ⟨hlt, he⟩ := List.getElem?_eq_some_iff.1 hi
      rw [← he, List.set_getElem_self]
    rw [hset] at h2
    obtain ⟨b1, b2⟩ := ih h2 fun x hx => hl x (List.mem_cons_of_mem _ hx)
    exact ⟨b1, by rw [List.map_cons, List.map_cons, b2, hi]⟩

theorem placeFixedFl_subset {fl : K → K} {sq : K → K → K} : ∀ {l p p' : List (K × K)} {ix : List Nat}, placeFixedFl fl sq l p = some (ix, p') →
    ∀ q ∈ p', q ∈ p ∨ q ∈ l
  | [], p, p', ix, h, q, hq => by
    simp only [placeFixedFl, Option.some.injEq, Prod.mk.injEq] at h
    obtain ⟨-, rfl⟩ := h
    exact Or.inl hq
  | x :: l, p, p', ix, h, q, hq => by
    obtain ⟨i, r, p1, -, h2, h3⟩ := placeFixedFl_cons h
    simp only [Prod.mk.injEq] at h3
    obtain ⟨-, rfl⟩ := h3
    rcases placeFixedFl_subset h2 q hq with h | h
    · rcases List.mem_or_eq_of_mem_set h with h | rfl
      · exact Or.inl h
      · exact Or.inr (by simp)
    · exact Or.inr (List.mem_cons_of_mem _ h)

theorem nearestVerticesFl_mem {fl : K → K} {sq : K → K → K} {p : List (K × K)} : ∀ {l : List (K × K)} {ix : List Nat},
    nearestVerticesFl fl sq p l = some ix → ∀ q ∈ l, ∃ i ∈ ix, nearestVertexFl fl sq q p = some i
  | [], _, _, q, hq => by simp at hq
  | x :: l, ix, h, q, hq => by
    simp only [nearestVerticesFl, Option.bind_eq_bind, Option.bind_eq_some_iff] at h
    obtain ⟨i, h1, r, h2, h3⟩ := h
    have h3 := Option.some.inj h3
    subst h3
    rcases List.mem_cons.1 hq with rfl | hq
    · exact ⟨i, by simp, h1⟩
    · obtain ⟨j, hj, hn⟩ := nearestVerticesFl_mem h2 q hq
      exact ⟨j, List.mem_cons_of_mem _ hj, hn⟩

/-! ### Projection and movement -/

/-- The rounded finite differences of `f`. -/
def gradFlOf (fl : K → K) (f : K × K → K) (deps : K) (q : K × K) : K × K :=
  (fl (fl (f (fl (q.1 + deps), fl (q.2 + 0)) - f q) / deps), fl (fl (f (fl (q.1 + 0), fl (q.2 + deps)) - f q) / deps))

theorem gradientsFl_eq {fl : K → K} {fd : List (K × K) → Option (List K)} {f : K × K → K} (hf : Pointwise fd f) {deps : K} {q g : List (K × K)}
    (h : gradientsFl fl fd deps q (q.map f) = some g) : g = q.map (gradFlOf fl f deps) := by
  simp only [gradientsFl, Option.bind_eq_bind, Option.bind_eq_some_iff] at h
  obtain ⟨gx, h1, gy, h2, h3⟩ := h
  obtain rfl := hf _ _ h1
  obtain rfl := hf _ _ h2
  split at h3
  · have h3 := Option.some.inj h3
    rw [← h3]
    clear * -
    induction q with
    | nil => rfl
    | cons x l ih => simpa [gradFlOf] using ih
  · simp at h3

theorem projectFl_eq {fl : K → K} {fd : List (K × K) → Option (List K)} {f : K × K → K} (hf : Pointwise fd f) {deps : K} {p p' : List (K × K)}
    (h : projectPointsBackFl fl fd deps p = some p') :
    p' = p.map fun q => if 0 < f q then projectPointFl fl deps q (f q) (gradFlOf fl f deps q) else q := by
  simp only [projectPointsBackFl, Option.bind_eq_bind, Option.bind_eq_some_iff] at h
  obtain ⟨d, h1, h2⟩ := h
  obtain rfl := hf _ _ h1
  split at h2
  · simp only [Option.bind_eq_some_iff, List.map_map, Function.comp_def] at h2
    obtain ⟨q, h3, dq, h4, g, h5, h6⟩ := h2
    have e3 := maskRows_map (fun x => decide (0 < f x)) id p
    rw [List.map_id, List.map_id, h3] at e3
    obtain rfl := Option.some.inj e3
    rw [maskRows_map (fun x => decide (0 < f x)) f p] at h4
    obtain rfl := Option.some.inj h4
    have hg : g = (p.filter fun x => decide (0 < f x)).map (gradFlOf fl f deps) := by
      cases hc : gradientsFl fl fd deps (p.filter fun x => decide (0 < f x)) ((p.filter fun x => decide (0 < f x)).map f) with
      | some g' =>
        rw [outsideGradientsFl, hc] at h5
        obtain rfl := Option.some.inj h5
        exact gradientsFl_eq hf hc
      | none =>
        rw [outsideGradientsFl, hc] at h5
        obtain ⟨g', h7, h8⟩ := Option.bind_eq_some_iff.1 h5
        obtain rfl := gradientsFl_eq hf h7
        rw [maskRows_map (fun x => decide (0 < f x)) (gradFlOf fl f deps) p] at h8
        exact (Option.some.inj h8).symm
    subst hg
    have h6 := Option.some.inj h6
    rw [← h6]
    have : List.zipWith (fun (x : (K × K) × K) g => projectPointFl fl deps x.1 x.2 g)
        ((p.filter fun x => decide (0 < f x)).zip ((p.filter fun x => decide (0 < f x)).map f))
        ((p.filter fun x => decide (0 < f x)).map (gradFlOf fl f deps)) =
        (p.filter fun x => decide (0 < f x)).map fun q => projectPointFl fl deps q (f q) (gradFlOf fl f deps q) := by
      generalize (p.filter fun x => decide (0 < f x)) = l
      clear * -
      induction l with
      | nil => rfl
      | cons x l ih => simpa using ih
    rw [this, replaceRows_map (fun x => decide (0 < f x))]
    simp only [decide_eq_true_eq]
  · rename_i hn
    have hn : ∀ q ∈ p, ¬ 0 < f q := by simpa using hn
    have h2 : p = p' := Option.some.inj h2
    rw [← h2]
    conv_lhs => rw [← List.map_id p]
    exact List.map_congr_left fun q hq => by simp [hn q hq]

theorem computeForcesFl_length {fl sqrt : K → K} {eps mult : K} {fh : List (K × K) → Option (List (Float64 K))}
    {stereo : Option ((K × K → K × K) × (K → Float64 K))} {p : List (K × K)} {t : List Tri} {F : List (K × K)}
    (h : computeForcesFl fl sqrt eps mult fh stereo p t = some F) : F.length = p.length := by
  simp only [computeForcesFl, Option.bind_eq_bind, Option.bind_eq_some_iff] at h
  obtain ⟨bars, h1, ends, h2, h0, h3, sz, h4, mL, h5, mh, h6, h7⟩ := h
  have h7 := Option.some.inj h7
  rw [← h7]
  simp

theorem movePointsFl_at {fl : K → K} {dt : K} {fixed : List Nat} {p F : List (K × K)} {i : Nat} {q g : K × K}
    (hq : p[i]? = some q) (hg : F[i]? = some g) : (movePointsFl fl dt fixed p F)[i]? =
      some (if i ∈ fixed then (fl (q.1 + fl (dt * 0)), fl (q.2 + fl (dt * 0))) else (fl (q.1 + fl (dt * g.1)), fl (q.2 + fl (dt * g.2)))) := by
  have hlt := (List.getElem?_eq_some_iff.1 hq).1
  simp only [movePointsFl, List.getElem?_zipWith, List.getElem?_range hlt, List.getElem?_zip_eq_some (z := (q, g)) |>.2 ⟨hq, hg⟩]
  by_cases hi : i ∈ fixed <;> simp [hi]

theorem movePointsFl_rounded {fl : K → K} (hR : Rounding fl) (dt : K) (fixed : List Nat) (p F : List (K × K)) :
    RoundedPoints fl (movePointsFl fl dt fixed p F) := by
  intro q hq
  obtain ⟨i, hi⟩ := List.mem_iff_getElem?.1 hq
  rw [movePointsFl, List.getElem?_zipWith] at hi
  cases h1 : (List.range p.length)[i]? with
  | none => simp [h1] at hi
  | some j =>
    cases h2 : (p.zip F)[i]? with
    | none => simp [h1, h2] at hi
    | some x =>
      simp only [h1, h2, Option.some.injEq] at hi
      rw [← hi]
      exact ⟨hR.idem _, hR.idem _⟩

/-- The points for the next iteration are rounded. -/
theorem genSecondFl_rounded {S : GenFl K} (hR : Rounding S.fl) {f : K × K → K} (hf : Pointwise S.fd f) {r : GenIter K} {p' : List (K × K)}
    (h : genSecondFl S r = some p') : RoundedPoints S.fl p' := by
  simp only [genSecondFl, Option.bind_eq_bind, Option.bind_eq_some_iff] at h
  obtain ⟨F, h1, h2⟩ := h
  obtain rfl := projectFl_eq hf h2
  intro q hq
  obtain ⟨x, hx, rfl⟩ := List.mem_map.1 hq
  split
  · exact ⟨hR.idem _, hR.idem _⟩
  · exact movePointsFl_rounded hR _ _ _ _ x hx

theorem genSecondFl_fixed {S : GenFl K} (hR : Rounding S.fl) {f : K × K → K} (hf : Pointwise S.fd f) {r : GenIter K} {p' : List (K × K)}
    (h : genSecondFl S r = some p') {i : Nat} (hi : i ∈ r.fixed) {q : K × K} (hq : r.points[i]? = some q) (hrq : S.fl q.1 = q.1 ∧ S.fl q.2 = q.2)
    (hin : f q ≤ 0) : p'[i]? = some q := by
  simp only [genSecondFl, Option.bind_eq_bind, Option.bind_eq_some_iff] at h
  obtain ⟨F, h1, h2⟩ := h
  obtain rfl := projectFl_eq hf h2
  have hl := computeForcesFl_length h1
  have hlt := (List.getElem?_eq_some_iff.1 hq).1
  have hF : F[i]? = some F[i] := List.getElem?_eq_getElem (by omega)
  rw [List.getElem?_map, movePointsFl_at hq hF, if_pos hi, mul_zero, hR.zero, add_zero, add_zero, hrq.1, hrq.2]
  simp [not_lt.2 hin]

theorem traceFl_induct {S : GenFl K} {l : List (GenIter K)} {P : List (K × K) → Prop}
    (h0 : ∀ r, l[0]? = some r → P r.inserted)
    (hstep : ∀ (r : GenIter K) (p : List (K × K)), r ∈ l → P r.inserted → genSecondFl S r = some p → P p)
    (hs : ∀ (k : Nat) (r r' : GenIter K), l[k]? = some r → l[k + 1]? = some r' → genSecondFl S r = some r'.inserted) :
    ∀ r ∈ l, P r.inserted := by
  have : ∀ (k : Nat) (r : GenIter K), l[k]? = some r → P r.inserted := by
    intro k
    induction k with
    | zero => exact h0
    | succ k ih =>
      intro r hr
      have hk : k < l.length := by have := (List.getElem?_eq_some_iff.1 hr).1; omega
      have hr' := List.getElem?_eq_getElem hk
      exact hstep _ _ (List.getElem_mem hk) (ih _ hr') (hs k _ _ hr' hr)
  intro r hr
  obtain ⟨k, hk⟩ := List.mem_iff_getElem?.1 hr
  exact this k r hk

theorem fixedFl_loop {S : GenFl K} (hR : Rounding S.fl) {u : K} (hr : RelError S.fl u) (hu : u < 1) (hs : IsSquareSum S.sq) (L : CgalLaws S.cgal)
    {f : K × K → K} (hf : Pointwise S.fd f) (hin : ∀ q ∈ S.pfix, f q ≤ 0) {n : Nat} {p : List (K × K)} (hp : RoundedPoints S.fl p)
    (hpfix : ∀ q ∈ S.pfix, q ∈ p) {m : FixResult K} {l : List (GenIter K)} (h : genLoopFl S n p = some (m, l)) :
    ∀ r ∈ l, RoundedPoints S.fl r.points ∧ r.points = r.vertices ∧ ∀ q ∈ S.pfix, q ∈ r.points := by
  obtain ⟨-, ⟨r0, l0, hl0, hp0⟩, a3, a4, -⟩ := genLoopFl_trace h
  have one : ∀ r ∈ l, (∀ q ∈ S.pfix, q ∈ r.inserted) → (∀ q ∈ S.pfix, q ∈ r.vertices) ∧ r.points = r.vertices ∧
      ∃ locked ix, r.fixed = locked ++ ix ∧ ix.map (fun i => r.points[i]?) = S.pfix.map some := by
    intro r hrl hins
    obtain ⟨-, ⟨e, ht⟩, ⟨locked, ix, hfix, -, hplace⟩, -⟩ := genFirstFl_stages (a3 r hrl)
    have hv : ∀ q ∈ S.pfix, q ∈ r.vertices := fun q hq => ((topology_points L ht).2 q).2 (hins q hq)
    obtain ⟨c1, c2⟩ := placeFixedFl_mem hR hr hu hs hplace hv
    exact ⟨hv, c1, locked, ix, hfix, by rw [c1]; exact c2⟩
  have all : ∀ r ∈ l, RoundedPoints S.fl r.inserted ∧ ∀ q ∈ S.pfix, q ∈ r.inserted := by
    refine traceFl_induct (P := fun p => RoundedPoints S.fl p ∧ ∀ q ∈ S.pfix, q ∈ p) ?_ ?_ a4
    · intro r' hr'
      have : r0 = r' := by rw [hl0] at hr'; simpa using hr'
      rw [← this, hp0]
      exact ⟨hp, hpfix⟩
    · rintro r p' hrl ⟨-, hP⟩ h2
      obtain ⟨-, -, locked, ix, hfix, hix⟩ := one r hrl hP
      refine ⟨genSecondFl_rounded hR hf h2, fun q hq => ?_⟩
      have : some q ∈ ix.map (fun i => r.points[i]?) := by rw [hix]; exact List.mem_map_of_mem hq
      obtain ⟨i, hi, hiq⟩ := List.mem_map.1 this
      exact List.mem_of_getElem? (genSecondFl_fixed hR hf h2 (by rw [hfix]; exact List.mem_append_right _ hi) hiq (hp q (hpfix q hq)) (hin q hq))
  intro r hrl
  obtain ⟨b1, b2⟩ := all r hrl
  obtain ⟨c1, c2, -⟩ := one r hrl b2
  obtain ⟨-, ⟨e, ht⟩, -⟩ := genFirstFl_stages (a3 r hrl)
  rw [c2]
  exact ⟨fun q hq => b1 q (((topology_points L ht).2 q).1 hq), rfl, c1⟩

/-- **C125** (fixed points): with start points that are rounded numbers and contain the fixed points (as generated start points do), and fixed points that are not
outside, every fixed point is in every iteration a vertex of the triangulation with its exact coordinates, and no vertex is moved when the fixed
points are placed. Rounding never moves a fixed point. -/
theorem C125_fixed_points {S : GenFl K} (hR : Rounding S.fl) {u : K} (hr : RelError S.fl u) (hu : u < 1) (hs : IsSquareSum S.sq) (L : CgalLaws S.cgal)
    {f : K × K → K} (hf : Pointwise S.fd f) (hin : ∀ q ∈ S.pfix, f q ≤ 0) {maxIter : Nat} {p : List (K × K)} (hp : RoundedPoints S.fl p)
    (hpfix : ∀ q ∈ S.pfix, q ∈ p) {m : FixResult K} {l : List (GenIter K)} (h : generateMeshFl S maxIter p = some (m, l)) :
    ∀ r ∈ l, RoundedPoints S.fl r.points ∧ r.points = r.vertices ∧ ∀ q ∈ S.pfix, q ∈ r.points := by
  obtain ⟨n, -, -, h'⟩ := generateMeshFl_loop h
  exact fixedFl_loop hR hr hu hs L hf hin hp hpfix h'

/-- **C125** (fixed points, given start points): if in the first iteration different vertices are moved to the fixed points, they are among the points of
all iterations with their exact coordinates; later no vertex is moved when they are placed. -/
theorem C125_given_points {S : GenFl K} (hR : Rounding S.fl) {u : K} (hr : RelError S.fl u) (hu : u < 1) (hs : IsSquareSum S.sq) (L : CgalLaws S.cgal)
    {f : K × K → K} (hf : Pointwise S.fd f) (hin : ∀ q ∈ S.pfix, f q ≤ 0) {maxIter : Nat} {p : List (K × K)} (hpfix : RoundedPoints S.fl S.pfix)
    {m : FixResult K} {r0 : GenIter K} {l : List (GenIter K)} (h : generateMeshFl S maxIter p = some (m, r0 :: l)) {ix : List Nat}
    (hix : placeFixedFl S.fl S.sq S.pfix r0.vertices = some (ix, r0.points)) (hn : ix.Nodup) :
    (∀ q ∈ S.pfix, q ∈ r0.points) ∧ ∀ r ∈ l, RoundedPoints S.fl r.points ∧ r.points = r.vertices ∧ ∀ q ∈ S.pfix, q ∈ r.points := by
  obtain ⟨n, -, -, h'⟩ := generateMeshFl_loop h
  have hpts := placeFixedFl_nodup hix hn
  have hmem : ∀ q ∈ S.pfix, ∃ i ∈ ix, r0.points[i]? = some q := by
    intro q hq
    have : some q ∈ ix.map (fun i => r0.points[i]?) := by rw [hpts]; exact List.mem_map_of_mem hq
    obtain ⟨i, hi, hiq⟩ := List.mem_map.1 this
    exact ⟨i, hi, hiq⟩
  refine ⟨fun q hq => ?_, ?_⟩
  · obtain ⟨i, -, hi⟩ := hmem q hq
    exact List.mem_of_getElem? hi
  cases n with
  | zero =>
    have := (genLoopFl_trace h').1
    have : l = [] := by simpa using this
    simp [this]
  | succ n =>
    simp only [genLoopFl, Option.bind_eq_bind, Option.bind_eq_some_iff] at h'
    obtain ⟨r, h1, p', h2, ⟨m', l'⟩, h3, h4⟩ := h'
    have h4 := Option.some.inj h4
    simp only [Prod.mk.injEq, List.cons.injEq] at h4
    obtain ⟨rfl, rfl, rfl⟩ := h4
    obtain ⟨-, -, ⟨locked, ix', hfix, -, hplace⟩, -⟩ := genFirstFl_stages h1
    rw [hix] at hplace
    have := Option.some.inj hplace
    simp only [Prod.mk.injEq, and_true] at this
    subst this
    refine fixedFl_loop hR hr hu hs L hf hin (genSecondFl_rounded hR hf h2) (fun q hq => ?_) h3
    obtain ⟨i, hi, hiq⟩ := hmem q hq
    exact List.mem_of_getElem? (genSecondFl_fixed hR hf h2 (by rw [hfix]; exact List.mem_append_right _ hi) hiq (hpfix q hq) (hin q hq))

/-- **C125** (locked boundary): with `lock_boundary` and start points that are rounded numbers every vertex on the boundary of the triangulation that is not
outside keeps its place exactly. -/
theorem C125_locked_boundary {S : GenFl K} (hR : Rounding S.fl) {u : K} (hr : RelError S.fl u) (hu : u < 1) (hs : IsSquareSum S.sq) (L : CgalLaws S.cgal)
    {f : K × K → K} (hf : Pointwise S.fd f) (hlock : S.lock = true) (hpfix : RoundedPoints S.fl S.pfix) {maxIter : Nat} {p : List (K × K)}
    (hp : RoundedPoints S.fl p) {m : FixResult K} {l : List (GenIter K)} (h : generateMeshFl S maxIter p = some (m, l))
    {k : Nat} {r r' : GenIter K} (hrk : l[k]? = some r) (hrk' : l[k + 1]? = some r')
    (hnd : ∀ t ∈ r.triangles, Nondegenerate t) {i : Nat} (hi : 0 < boundaryDegree r.triangles i) {q : K × K} (hq : r.points[i]? = some q) (hin : f q ≤ 0) :
    r'.inserted[i]? = some q ∧ q ∈ r'.vertices := by
  obtain ⟨n, -, -, h'⟩ := generateMeshFl_loop h
  obtain ⟨-, ⟨r0, l0, hl0, hp0⟩, a3, a4, -⟩ := genLoopFl_trace h'
  have hrl := List.mem_of_getElem? hrk
  obtain ⟨-, ⟨e, ht⟩, ⟨locked, ix, hfix, hlk, hplace⟩, -⟩ := genFirstFl_stages (a3 r hrl)
  have hins : RoundedPoints S.fl r.inserted := by
    refine traceFl_induct (P := fun p => RoundedPoints S.fl p) ?_ (fun r' p' _ _ h2 => genSecondFl_rounded hR hf h2) a4 r hrl
    intro r' hr'
    have : r0 = r' := by rw [hl0] at hr'; simpa using hr'
    rw [← this, hp0]
    exact hp
  have hrq : S.fl q.1 = q.1 ∧ S.fl q.2 = q.2 := by
    rcases placeFixedFl_subset hplace q (List.mem_of_getElem? hq) with hv | hv
    · exact hins q (((topology_points L ht).2 q).1 hv)
    · exact hpfix q hv
  rw [if_pos hlock, Option.bind_eq_some_iff] at hlk
  obtain ⟨b, hb, hlk⟩ := hlk
  rw [externalTopology, Option.map_eq_some_iff] at hb
  obtain ⟨bp, hg, rfl⟩ := hb
  have hmem : i ∈ unique natOrder (flatPairs (getBoundaryEdges S.oE r.triangles)) := (mem_unique _ _ _).2 ((mem_flat_boundary _ hnd i).2 hi)
  have hlt := gather_valid hg i hmem
  have hv := List.getElem?_eq_getElem hlt
  obtain ⟨k', hk'⟩ := List.mem_iff_getElem?.1 hmem
  have hbp : r.vertices[i] ∈ bp := List.mem_of_getElem? ((gather_getElem? hg hk').trans hv)
  obtain ⟨j, hj, hn⟩ := nearestVerticesFl_mem hlk _ hbp
  have hji := nodup_index (topology_points L ht).1 ((nearestVertexFl_mem hR hr hu hs hn).2 (List.getElem_mem hlt)) hv
  subst hji
  have hres := genSecondFl_fixed hR hf (a4 k r r' hrk hrk') (by rw [hfix]; exact List.mem_append_left _ hj) hq hrq hin
  refine ⟨hres, ?_⟩
  obtain ⟨-, ⟨e', ht'⟩, -⟩ := genFirstFl_stages (a3 r' (List.mem_of_getElem? hrk'))
  exact ((topology_points L ht').2 q).2 (List.mem_of_getElem? hres)

end
end OM
