import Verif.Props.MovingSea
import Verif.Props.Moving
import Verif.Props.GenerateTotal
import Verif.Props.EndToEnd
/-!
# C146: the mesh generator in other places and units
-/
set_option linter.unusedSectionVars false
namespace OM
namespace Spec
variable {K : Type} [Field K] [LinearOrder K]

/-- The record of an iteration with all points moved by `f`; the triangles and indices are the same. -/
def iterMoved (f : K × K → K × K) (r : GenIter K) : GenIter K :=
  ⟨r.inserted.map f, r.vertices.map f, r.triangles, r.points.map f, r.fixed, r.kept⟩

/-- A triangulation with all points moved by `f`. -/
def triangulationMoved (f : K × K → K × K) (d : Triangulation K) : Triangulation K := ⟨d.vertices.map fun v => { v with point := f v.point }, d.faces⟩

/-- The square of the difference quotients of `δ` at `x` with step `s`. -/
def steepness (δ : K × K → K) (s : K) (x : K × K) : K := ((δ (x.1 + s, x.2) - δ x) / s) ^ 2 + ((δ (x.1, x.2 + s) - δ x) / s) ^ 2

/-- The generator `S'` has the domain, the sizes, the fixed points, the tolerances and the triangulation of `S`, seen with another origin and in another unit. -/
structure SameInUnit (c : K) (t : K × K) (S S' : GenSetup K) : Prop where
  cgal : ∀ l : List ((K × K) × Nat), S'.cgal.insert ⟨[], []⟩ (l.map fun x => (inUnit c t x.1, x.2)) = triangulationMoved (inUnit c t) (S.cgal.insert ⟨[], []⟩ l)
  edges : S'.oE = S.oE
  root : ∀ x, S'.sqrt (c ^ 2 * x) = c * S.sqrt x
  eps : S'.eps = c * S.eps
  mult : S'.mult = S.mult
  sizes : ∀ l, S'.fh (l.map (inUnit c t)) = (S.fh l).map fun r => r.map (scaled c)
  domain : ∀ l, S'.fd (l.map (inUnit c t)) = (S.fd l).map fun r => r.map (c * ·)
  plane : S.stereo = none ∧ S'.stereo = none
  geps : S'.geps = c * S.geps
  deps : S'.deps = c * S.deps
  dt : S'.dt = S.dt
  pfix : S'.pfix = S.pfix.map (inUnit c t)
  lock : S'.lock = S.lock

/-- The unit is the same, or the signed distance is a function that is steep outside: its difference quotients do not reach the lower limit put on them. -/
def SteepOutside (c : K) (S : GenSetup K) : Prop :=
  c = 1 ∨ ∃ δ : K × K → K, (∀ l, S.fd l = some (l.map δ)) ∧ ∀ x, 0 < δ x → S.deps ≤ steepness δ S.deps x ∧ c * S.deps ≤ steepness δ S.deps x

end Spec
open Spec
section
variable {K : Type} [Field K] [LinearOrder K] [IsStrictOrderedRing K]

theorem maskRows_rows {α β : Type} (f : α → β) : ∀ (m : List Bool) (l : List α), maskRows m (l.map f) = (maskRows m l).map (List.map f)
  | [], [] => rfl
  | [], _ :: _ => rfl
  | _ :: _, [] => rfl
  | b :: m, x :: l => by
    simp only [List.map_cons, maskRows, maskRows_rows f m l, Option.map_map]
    congr 1
    funext r
    cases b <;> simp

theorem barEnds_map (f : K × K → K × K) (p : List (K × K)) : ∀ l, barEnds (p.map f) l = (barEnds p l).map (List.map fun e => (f e.1, f e.2))
  | [] => rfl
  | e :: l => by
    simp only [barEnds, List.getElem?_map, barEnds_map f p l]
    cases p[e.1]? <;> cases p[e.2]? <;> cases barEnds p l <;> rfl

theorem gather_map {α β : Type} (f : α → β) (l : List α) : ∀ ix, gather (l.map f) ix = (gather l ix).map (List.map f)
  | [] => rfl
  | i :: ix => by
    simp only [gather, List.getElem?_map, gather_map f l ix]
    cases l[i]? <;> cases gather l ix <;> rfl

theorem barLength_unit {c : K} (hc : 0 < c) (t : K × K) {sqrt sqrt' : K → K} (hs : ∀ x, sqrt' (c ^ 2 * x) = c * sqrt x) (eps : K) (e : (K × K) × (K × K)) :
    barLength sqrt' (c * eps) (inUnit c t e.1, inUnit c t e.2) = c * barLength sqrt eps e := by
  simp only [barLength, inUnit, shift_sub]
  rw [show ∀ x y : K, (c * x) ^ 2 + (c * y) ^ 2 = c ^ 2 * (x ^ 2 + y ^ 2) from fun x y => by ring, hs]
  simp only [mul_eq_zero, hc.ne', false_or]
  split_ifs <;> rfl

theorem barMid_unit (c : K) (t : K × K) (e : (K × K) × (K × K)) : barMid (inUnit c t e.1, inUnit c t e.2) = inUnit c t (barMid e) := by
  simp only [barMid, inUnit, Prod.mk.injEq]
  constructor <;> ring

theorem barFactor_unit {c : K} (hc : 0 < c) (s L h : K) : barFactor s (c * L) (c * h) = barFactor s L h := by
  have e : c * h * s - c * L = c * (h * s - L) := by ring
  have h0 : (c * (h * s - L) < 0) = (h * s - L < 0) := propext (by rw [← mul_lt_mul_iff_right₀ hc (b := h * s - L) (c := 0), mul_zero])
  simp only [barFactor, e, h0]
  split_ifs
  · simp
  · rw [mul_div_mul_left _ _ hc.ne']

theorem forceAt_unit (c : K) (v : Nat) : ∀ l : List ((Nat × Nat) × (K × K)), forceAt v (l.map fun x => (x.1, (c * x.2.1, c * x.2.2))) = (c * (forceAt v l).1, c * (forceAt v l).2)
  | [] => by simp [forceAt]
  | x :: l => by
    simp only [List.map_cons, forceAt, forceAt_unit c v l, Prod.mk.injEq]
    constructor <;> split_ifs <;> ring

theorem zip_map_snd {α β γ : Type} (f : β → γ) (l : List α) (m : List β) : l.zip (m.map f) = (l.zip m).map fun x => (x.1, f x.2) := by
  rw [List.zip_map_right]
  rfl

/-- **C146** (1) The forces are measured in the new unit. -/
theorem C146_forces {c : K} (hc : 0 < c) (t : K × K) {sqrt sqrt' : K → K} (hs : ∀ x, sqrt' (c ^ 2 * x) = c * sqrt x) (eps mult : K)
    {fh fh' : List (K × K) → Option (List (Float64 K))} (hf : ∀ l, fh' (l.map (inUnit c t)) = (fh l).map fun r => r.map (scaled c)) (p : List (K × K)) (tr : List Tri) :
    computeForces sqrt' (c * eps) mult fh' none (p.map (inUnit c t)) tr = (computeForces sqrt eps mult fh none p tr).map fun F => F.map fun x => (c * x.1, c * x.2) := by
  unfold computeForces
  simp only [Option.bind_eq_bind, Option.pure_def]
  cases getBars tr with
  | none => rfl
  | some bars =>
    simp only [Option.bind_some, barEnds_map]
    cases barEnds p bars with
    | none => rfl
    | some ends =>
      simp only [Option.bind_some, Option.map_some, List.map_map]
      have h1 : barMid ∘ (fun e : (K × K) × (K × K) => (inUnit c t e.1, inUnit c t e.2)) = inUnit c t ∘ barMid := funext fun e => barMid_unit c t e
      have h2 : barLength sqrt' (c * eps) ∘ (fun e : (K × K) × (K × K) => (inUnit c t e.1, inUnit c t e.2)) = (c * ·) ∘ barLength sqrt eps :=
        funext fun e => barLength_unit hc t hs eps e
      have h3 : barSizes fh' none (ends.map (inUnit c t ∘ barMid)) = (barSizes fh none (ends.map barMid)).map fun r => r.map (scaled c) := by
        simp only [barSizes, ← List.map_map, hf]
        cases fh (ends.map barMid) with
        | none => rfl
        | some h => simp only [Option.map_some, Option.bind_some, List.length_map]; split_ifs <;> rfl
      rw [h1, h2, h3]
      cases barSizes fh none (ends.map barMid) with
      | none => rfl
      | some h =>
        simp only [Option.map_some, Option.bind_some, repairSizes_scaled hc]
        cases repairSizes h with
        | none => rfl
        | some h =>
          simp only [Option.map_some, Option.bind_some, ← List.map_map, median_mul hc]
          cases median (ends.map (barLength sqrt eps)) with
          | none => rfl
          | some mL =>
            simp only [Option.map_some, Option.bind_some]
            cases median h with
            | none => rfl
            | some mh =>
              simp only [Option.map_some, Option.bind_some, mul_div_mul_left _ _ hc.ne', List.length_map, Option.some.injEq]
              have e1 : List.zipWith (barFactor (mult * (mL / mh))) (List.map (c * ·) (ends.map (barLength sqrt eps))) (h.map (c * ·)) =
                  List.zipWith (barFactor (mult * (mL / mh))) (ends.map (barLength sqrt eps)) h := by
                rw [List.zipWith_map]
                simp only [barFactor_unit hc]
              rw [e1, List.map_map]
              refine List.map_congr_left fun v _ => ?_
              simp only [Function.comp_apply]
              rw [← forceAt_unit, ← zip_map_snd (fun x : K × K => (c * x.1, c * x.2)), List.map_zipWith, List.zipWith_map_right]
              congr 3
              funext a e
              simp only [inUnit, shift_sub, Prod.mk.injEq]
              constructor <;> ring

/-! ## Projection -/

theorem gradients_unit {c : K} (hc : 0 < c) (t : K × K) {fd fd' : List (K × K) → Option (List K)} (hf : ∀ l, fd' (l.map (inUnit c t)) = (fd l).map fun r => r.map (c * ·))
    (deps : K) (q : List (K × K)) (d : List K) : gradients fd' (c * deps) (q.map (inUnit c t)) (d.map (c * ·)) = gradients fd deps q d := by
  have e1 : (q.map (inUnit c t)).map (fun x => (x.1 + c * deps, x.2)) = (q.map fun x => (x.1 + deps, x.2)).map (inUnit c t) := by
    rw [List.map_map, List.map_map]
    refine List.map_congr_left fun x _ => ?_
    simp only [Function.comp_apply, inUnit, Prod.mk.injEq, and_true]
    ring
  have e2 : (q.map (inUnit c t)).map (fun x => (x.1, x.2 + c * deps)) = (q.map fun x => (x.1, x.2 + deps)).map (inUnit c t) := by
    rw [List.map_map, List.map_map]
    refine List.map_congr_left fun x _ => ?_
    simp only [Function.comp_apply, inUnit, Prod.mk.injEq, true_and]
    ring
  have e3 : ∀ a b : K, (c * a - c * b) / (c * deps) = (a - b) / deps := fun a b => by rw [← mul_sub, mul_div_mul_left _ _ hc.ne']
  simp only [gradients, e1, e2, hf, Option.bind_eq_bind]
  cases fd (q.map fun x => (x.1 + deps, x.2)) <;> cases fd (q.map fun x => (x.1, x.2 + deps)) <;> try rfl
  simp only [Option.map_some, Option.bind_some, List.length_map, List.zipWith_map, e3]

theorem replaceRows_rows {α β : Type} (f : α → β) : ∀ (m : List Bool) (l r : List α), replaceRows m (l.map f) (r.map f) = (replaceRows m l r).map f
  | [], l, r => by simp [replaceRows]
  | true :: m, [], r => by simp [replaceRows]
  | true :: m, x :: l, [] => by simp [replaceRows]
  | true :: m, x :: l, y :: r => by simp [replaceRows, replaceRows_rows f m l r]
  | false :: m, [], r => by simp [replaceRows]
  | false :: m, x :: l, r => by simp [replaceRows, replaceRows_rows f m l r]

theorem projectPoint_unit {c : K} (t : K × K) {deps : K} (q : K × K) (d : K) {g : K × K}
    (h : c = 1 ∨ (deps ≤ g.1 ^ 2 + g.2 ^ 2 ∧ c * deps ≤ g.1 ^ 2 + g.2 ^ 2)) : projectPoint (c * deps) (inUnit c t q) (c * d) g = inUnit c t (projectPoint deps q d g) := by
  rcases h with rfl | ⟨h1, h2⟩
  · simp only [projectPoint, inUnit, one_mul, Prod.mk.injEq]
    constructor <;> ring
  · simp only [projectPoint, inUnit, if_neg (not_lt.2 h1), if_neg (not_lt.2 h2), Prod.mk.injEq]
    constructor <;> ring

theorem inUnit_back {c : K} (hc : 0 < c) (t y : K × K) : inUnit c t ((y.1 - t.1) / c, (y.2 - t.2) / c) = y := by
  simp only [inUnit, mul_div_cancel₀ _ hc.ne', sub_add_cancel]

theorem outsideGradients_unit {c : K} (hc : 0 < c) (t : K × K) {fd fd' : List (K × K) → Option (List K)}
    (hf : ∀ l, fd' (l.map (inUnit c t)) = (fd l).map fun r => r.map (c * ·)) (deps : K) (ix : List Bool) (p q : List (K × K)) (d dq : List K) :
    outsideGradients fd' (c * deps) ix (p.map (inUnit c t)) (q.map (inUnit c t)) (d.map (c * ·)) (dq.map (c * ·)) = outsideGradients fd deps ix p q d dq := by
  unfold outsideGradients
  rw [gradients_unit hc t hf, gradients_unit hc t hf]

/-- **C146** (2) Points outside are brought back to the same place. -/
theorem C146_projection {c : K} (hc : 0 < c) (t : K × K) {S S' : GenSetup K} (hS : SameInUnit c t S S') (hst : SteepOutside c S) (p : List (K × K)) :
    projectPointsBack S'.fd S'.deps (p.map (inUnit c t)) = (projectPointsBack S.fd S.deps p).map (List.map (inUnit c t)) := by
  rw [hS.deps]
  rcases hst with rfl | ⟨δ, h1, h2⟩
  · simp only [projectPointsBack, hS.domain, Option.bind_eq_bind]
    cases S.fd p with
    | none => rfl
    | some d =>
      have e : (d.map ((1 : K) * ·)).map (fun x => decide (0 < x)) = d.map fun x => decide (0 < x) := by simp
      simp only [Option.map_some, Option.bind_some, e, maskRows_rows]
      split_ifs
      · cases maskRows (d.map fun x => decide (0 < x)) p with
        | none => rfl
        | some q =>
          cases maskRows (d.map fun x => decide (0 < x)) d with
          | none => rfl
          | some dq =>
            simp only [Option.map_some, Option.bind_some]
            rw [outsideGradients_unit hc t hS.domain]
            cases outsideGradients S.fd S.deps (d.map fun x => decide (0 < x)) p q d dq with
            | none => rfl
            | some g =>
              simp only [Option.bind_some, Option.pure_def, Option.map_some, Option.some.injEq]
              rw [← replaceRows_rows, List.map_zipWith, List.zip_map, List.zipWith_map_left]
              simp only [Prod.map, projectPoint_unit t _ _ (Or.inl rfl)]
      · rfl
  · have h1' : Total S'.fd fun y => c * δ ((y.1 - t.1) / c, (y.2 - t.2) / c) := fun l => by
      have := hS.domain (l.map fun y => ((y.1 - t.1) / c, (y.2 - t.2) / c))
      rw [List.map_map, show (inUnit c t ∘ fun y : K × K => ((y.1 - t.1) / c, (y.2 - t.2) / c)) = id from funext fun y => inUnit_back hc t y, List.map_id, h1] at this
      rw [this, Option.map_some, List.map_map, List.map_map]
      rfl
    have hT : Total S.fd δ := h1
    obtain ⟨r, hr⟩ := project_isSome hT S.deps p
    obtain ⟨r', hr'⟩ := project_isSome h1' (c * S.deps) (p.map (inUnit c t))
    rw [hr, hr', Option.map_some, project_eq hT.pointwise hr, project_eq h1'.pointwise hr', List.map_map, List.map_map]
    congr 1
    refine List.map_congr_left fun x _ => ?_
    have back : ∀ y : K × K, (((inUnit c t y).1 - t.1) / c, ((inUnit c t y).2 - t.2) / c) = y := fun y => by
      simp only [inUnit, add_sub_cancel_right, mul_div_cancel_left₀ _ hc.ne']
    have hg : gradOf (fun y : K × K => c * δ ((y.1 - t.1) / c, (y.2 - t.2) / c)) (c * S.deps) (inUnit c t x) = gradOf δ S.deps x := by
      have b1 := back (x.1 + S.deps, x.2)
      have b2 := back (x.1, x.2 + S.deps)
      have b3 := back x
      simp only [inUnit, mul_add, add_right_comm _ (c * S.deps) _] at b1 b2 b3
      simp only [gradOf, inUnit, b1, b2, b3, ← mul_sub, mul_div_mul_left _ _ hc.ne']
    simp only [Function.comp_apply, hg, back, mul_pos_iff_of_pos_left hc]
    split_ifs with h
    · exact projectPoint_unit t x (δ x) (Or.inr (h2 x h))
    · rfl

/-! ## One iteration -/

theorem nearestVertex_unit {c : K} (hc : 0 < c) (t q : K × K) (p : List (K × K)) : nearestVertex (inUnit c t q) (p.map (inUnit c t)) = nearestVertex q p := by
  have e : dist2 (inUnit c t q) (p.map (inUnit c t)) = (dist2 q p).map (c ^ 2 * ·) := by
    simp only [dist2, List.map_map]
    refine List.map_congr_left fun x _ => ?_
    simp only [Function.comp_apply, inUnit, shift_sub]
    ring
  have h : ∀ l : List K, argMin (l.map (c ^ 2 * ·)) = (argMin l).map fun x => (x.1, c ^ 2 * x.2) := by
    intro l
    induction l with
    | nil => rfl
    | cons x l ih =>
      simp only [List.map_cons, argMin, ih]
      cases argMin l with
      | none => rfl
      | some y =>
        simp only [Option.map_some, mul_le_mul_iff_right₀ (pow_pos hc 2)]
        split_ifs <;> rfl
  rw [nearestVertex, nearestVertex, e, h, Option.map_map]
  rfl

theorem nearestVertices_unit {c : K} (hc : 0 < c) (t : K × K) (p : List (K × K)) : ∀ l, nearestVertices (p.map (inUnit c t)) (l.map (inUnit c t)) = nearestVertices p l
  | [] => rfl
  | q :: l => by simp only [List.map_cons, nearestVertices, nearestVertex_unit hc, nearestVertices_unit hc t p l]

theorem placeFixed_unit {c : K} (hc : 0 < c) (t : K × K) : ∀ l p, placeFixed (l.map (inUnit c t)) (p.map (inUnit c t)) = (placeFixed l p).map fun r => (r.1, r.2.map (inUnit c t))
  | [], p => rfl
  | q :: l, p => by
    simp only [List.map_cons, placeFixed, nearestVertex_unit hc, Option.bind_eq_bind]
    cases nearestVertex q p with
    | none => rfl
    | some i =>
      simp only [Option.bind_some, ← List.map_set, placeFixed_unit hc t l]
      cases placeFixed l (p.set i q) <;> rfl

theorem centroids_unit (c : K) (t : K × K) [CharZero K] (p : List (K × K)) : ∀ l, centroids (p.map (inUnit c t)) l = (centroids p l).map (List.map (inUnit c t))
  | [] => rfl
  | f :: l => by
    simp only [centroids, List.getElem?_map, centroids_unit c t p l, Option.bind_eq_bind]
    cases p[f.a]? <;> cases p[f.b]? <;> cases p[f.c]? <;> cases centroids p l <;> try rfl
    simp only [Option.map_some, Option.bind_some, Option.pure_def, List.map_cons, inUnit, Option.some.injEq, List.cons.injEq, Prod.mk.injEq, and_true]
    constructor <;> ring

theorem removeTriangles_unit {c : K} (hc : 0 < c) (t : K × K) {fd fd' : List (K × K) → Option (List K)} (hf : ∀ l, fd' (l.map (inUnit c t)) = (fd l).map fun r => r.map (c * ·))
    (geps : K) (p : List (K × K)) (tr : List Tri) : removeTrianglesOutside fd' (c * geps) (p.map (inUnit c t)) tr = removeTrianglesOutside fd geps p tr := by
  simp only [removeTrianglesOutside, centroids_unit, Option.bind_eq_bind]
  cases centroids p tr with
  | none => rfl
  | some l =>
    simp only [Option.map_some, Option.bind_some, hf]
    cases fd l with
    | none => rfl
    | some d =>
      simp only [Option.map_some, Option.bind_some, List.map_map]
      congr 1
      refine List.map_congr_left fun x _ => ?_
      simp only [Function.comp_apply, ← mul_neg, mul_lt_mul_iff_right₀ hc]

theorem numberFrom_map (f : K × K → K × K) : ∀ (l : List (K × K)) (n : Nat), numberFrom n (l.map f) = (numberFrom n l).map fun x => (f x.1, x.2)
  | [], _ => rfl
  | p :: l, n => by simp only [List.map_cons, numberFrom, numberFrom_map f l]

theorem getTopology_moved (f : K × K → K × K) (d : Triangulation K) :
    getTopology (triangulationMoved f d) = (getTopology d).map fun r => (r.1.map f, r.2.1, triangulationMoved f r.2.2) := by
  have h1 : ∀ (l : List (DVertex K)) i, renumberVertices i (l.map fun v => { v with point := f v.point }) = (renumberVertices i l).map fun v => { v with point := f v.point } := by
    intro l
    induction l with
    | nil => intro i; rfl
    | cons v l ih => intro i; simp only [List.map_cons, renumberVertices, ih]
  have h2 : ∀ (l : List (DVertex K)) h, infoOf (l.map fun v => { v with point := f v.point }) h = infoOf l h := by
    intro l h
    simp only [infoOf, List.find?_map, Option.map_map]
    rfl
  have h3 : ∀ (l : List (DVertex K)), faceRow (l.map fun v => { v with point := f v.point }) = faceRow l := fun l => by
    funext g
    simp only [faceRow, h2]
  simp only [getTopology, getFiniteVertices, triangulationMoved, h1, getFiniteCells, h3, Option.bind_eq_bind, List.map_map]
  cases d.faces.mapM (faceRow (renumberVertices 0 d.vertices)) with
  | none => rfl
  | some l => simp only [Option.bind_some, Option.pure_def, Option.map_some, List.map_map]; rfl

/-- **C146** (3) The first part of an iteration gives the same triangles, the same fixed indices and the moved points. -/
theorem C146_first {c : K} (hc : 0 < c) (t : K × K) {S S' : GenSetup K} (hS : SameInUnit c t S S') (p : List (K × K)) :
    genFirst S' (p.map (inUnit c t)) = (genFirst S p).map (iterMoved (inUnit c t)) := by
  simp only [genFirst, dtInsert, List.length_nil, numberFrom_map, hS.cgal, getTopology_moved, Option.bind_eq_bind, hS.lock, hS.edges, hS.pfix, hS.geps]
  cases getTopology (S.cgal.insert ⟨[], []⟩ (numberFrom 0 p)) with
  | none => rfl
  | some r =>
    have hl : ((externalTopology S.oE (r.1.map (inUnit c t)) r.2.1).bind fun b => nearestVertices (r.1.map (inUnit c t)) b.2) =
        (externalTopology S.oE r.1 r.2.1).bind fun b => nearestVertices r.1 b.2 := by
      simp only [externalTopology, gather_map, Option.map_map]
      cases gather r.1 (unique natOrder (flatPairs (getBoundaryEdges S.oE r.2.1))) with
      | none => rfl
      | some v => simp only [Option.map_some, Option.bind_some, Function.comp_apply, nearestVertices_unit hc]
    have hk : ∀ locked : List Nat,
        ((placeFixed (S.pfix.map (inUnit c t)) (r.1.map (inUnit c t))).bind fun x =>
          (removeTrianglesOutside S'.fd (c * S.geps) x.2 r.2.1).bind fun kept =>
            some (⟨p.map (inUnit c t), r.1.map (inUnit c t), r.2.1, x.2, locked ++ x.1, kept⟩ : GenIter K)) =
          ((placeFixed S.pfix r.1).bind fun x =>
            (removeTrianglesOutside S.fd S.geps x.2 r.2.1).bind fun kept =>
              some (⟨p, r.1, r.2.1, x.2, locked ++ x.1, kept⟩ : GenIter K)).map (iterMoved (inUnit c t)) := by
      intro locked
      rw [placeFixed_unit hc]
      cases placeFixed S.pfix r.1 with
      | none => rfl
      | some x =>
        simp only [Option.map_some, Option.bind_some, removeTriangles_unit hc t hS.domain]
        cases removeTrianglesOutside S.fd S.geps x.2 r.2.1 with
        | none => rfl
        | some kept => simp only [Option.bind_some, Option.map_some, iterMoved]
    simp only [Option.map_some, Option.bind_some, hl, Option.pure_def, hk]
    cases S.lock with
    | false => rfl
    | true =>
      simp only [if_true]
      cases (externalTopology S.oE r.1 r.2.1).bind fun b => nearestVertices r.1 b.2 with
      | none => rfl
      | some locked => rfl

theorem movePoints_unit (c : K) (t : K × K) (dt : K) (fixed : List Nat) (p F : List (K × K)) :
    movePoints dt fixed (p.map (inUnit c t)) (F.map fun x => (c * x.1, c * x.2)) = (movePoints dt fixed p F).map (inUnit c t) := by
  simp only [movePoints, List.length_map, List.zip_map, List.zipWith_map_right, List.map_zipWith]
  congr 1
  funext i x
  split_ifs
  · rfl
  · simp only [Prod.map, inUnit, Prod.mk.injEq]
    constructor <;> ring

/-- **C146** (4) The second part of an iteration gives the moved points. -/
theorem C146_second {c : K} (hc : 0 < c) (t : K × K) {S S' : GenSetup K} (hS : SameInUnit c t S S') (hst : SteepOutside c S) (r : GenIter K) :
    genSecond S' (iterMoved (inUnit c t) r) = (genSecond S r).map (List.map (inUnit c t)) := by
  simp only [genSecond, iterMoved, hS.plane.1, hS.plane.2, hS.eps, hS.mult, hS.dt, C146_forces hc t hS.root S.eps S.mult hS.sizes, Option.bind_eq_bind]
  cases computeForces S.sqrt S.eps S.mult S.fh none r.points r.kept with
  | none => rfl
  | some F => simp only [Option.map_some, Option.bind_some, movePoints_unit, C146_projection hc t hS hst]

theorem fixMesh_valid {rnd : K → Int} {oP : RowOrder (Row K)} {oT : RowOrder Tri} {p : List (K × K)} {t : List Tri} {ptol : K} {du : Bool} {R : FixResult K}
    (h : fixMesh rnd oP oT p t ptol du = some R) : p ≠ [] ∧ ValidMesh p t := by
  simp only [fixMesh, Option.bind_eq_bind, Option.bind_eq_some_iff] at h
  obtain ⟨snap, h1, p1, -, t1, h2, -⟩ := h
  refine ⟨fun h0 => by rw [h0] at h1; simp [snapSize] at h1, fun f hf v hv => ?_⟩
  by_contra hlt
  have hn : (uniqueInverse oP (p.map (snapRow rnd snap)))[v]? = none := by
    rw [List.getElem?_eq_none_iff, uniqueInverse, List.length_map, List.length_map]
    exact not_lt.1 hlt
  obtain ⟨g, -, hg⟩ := forall2_left (mapTris_forall₂ h2) f hf
  simp only [Tri.mapM] at hg
  split at hg
  · rename_i a b c ha hb hc
    rcases hv with rfl | rfl | rfl
    · rw [hn] at ha; simp at ha
    · rw [hn] at hb; simp at hb
    · rw [hn] at hc; simp at hc
  · simp at hg

theorem fixMesh_isSome_map {f : K × K → K × K} (rnd rnd' : K → Int) (oP oP' : RowOrder (Row K)) (oT oT' : RowOrder Tri) (p : List (K × K)) (t : List Tri) (ptol ptol' : K) (du : Bool) :
    (fixMesh rnd' oP' oT' (p.map f) t ptol' du).isSome = (fixMesh rnd oP oT p t ptol du).isSome := by
  rw [Bool.eq_iff_iff]
  constructor
  · intro h
    obtain ⟨R, hR⟩ := Option.isSome_iff_exists.1 h
    obtain ⟨h1, h2⟩ := fixMesh_valid hR
    obtain ⟨R', hR'⟩ := fixMesh_isSome rnd oP oT ptol du (fun h0 => h1 (by rw [h0]; rfl)) (map_valid h2)
    rw [hR']; rfl
  · intro h
    obtain ⟨R, hR⟩ := Option.isSome_iff_exists.1 h
    obtain ⟨h1, h2⟩ := fixMesh_valid hR
    obtain ⟨R', hR'⟩ := fixMesh_isSome rnd' oP' oT' ptol' du (p := p.map f) (by simpa using h1) (valid_map f h2)
    rw [hR']; rfl

theorem genLoop_last (S : GenSetup K) (p : List (K × K)) :
    (genLoop S 0 p).map Prod.snd = (genFirst S p).bind fun r => (fixMesh S.rnd S.oP S.oT r.points r.kept S.ptol true).map fun _ => [r] := by
  rw [genLoop]
  cases genFirst S p with
  | none => rfl
  | some r =>
    simp only [Option.bind_eq_bind, Option.bind_some]
    cases fixMesh S.rnd S.oP S.oT r.points r.kept S.ptol true <;> rfl

theorem genLoop_more (S : GenSetup K) (n : Nat) (p : List (K × K)) :
    (genLoop S (n + 1) p).map Prod.snd = (genFirst S p).bind fun r => (genSecond S r).bind fun q => ((genLoop S n q).map Prod.snd).map fun l => r :: l := by
  rw [genLoop]
  cases genFirst S p with
  | none => rfl
  | some r =>
    simp only [Option.bind_eq_bind, Option.bind_some]
    cases genSecond S r with
    | none => rfl
    | some q =>
      simp only [Option.bind_some]
      cases genLoop S n q <;> rfl

theorem map_const_of_isSome {α β γ : Type} {a : Option α} {b : Option β} (h : a.isSome = b.isSome) (x : γ) : (a.map fun _ => x) = b.map fun _ => x := by
  cases a <;> cases b <;> simp at h ⊢

theorem genLoop_unit {c : K} (hc : 0 < c) (t : K × K) {S S' : GenSetup K} (hS : SameInUnit c t S S') (hst : SteepOutside c S) (n : Nat) (p : List (K × K)) :
    (genLoop S' n (p.map (inUnit c t))).map Prod.snd = ((genLoop S n p).map Prod.snd).map (List.map (iterMoved (inUnit c t))) := by
  induction n generalizing p with
  | zero =>
    rw [genLoop_last, genLoop_last, C146_first hc t hS]
    cases genFirst S p with
    | none => rfl
    | some r =>
      have := fixMesh_isSome_map (f := inUnit c t) S.rnd S'.rnd S.oP S'.oP S.oT S'.oT r.points r.kept S.ptol S'.ptol true
      have h := map_const_of_isSome this [iterMoved (inUnit c t) r]
      simp only [Option.map_some, Option.bind_some, Option.map_map, Function.comp_def, List.map_cons, List.map_nil]
      exact h
  | succ n ih =>
    rw [genLoop_more, genLoop_more, C146_first hc t hS]
    cases genFirst S p with
    | none => rfl
    | some r =>
      simp only [Option.map_some, Option.bind_some]
      rw [C146_second hc t hS hst]
      cases genSecond S r with
      | none => rfl
      | some q =>
        simp only [Option.map_some, Option.bind_some]
        rw [ih q]
        simp only [Option.map_map, Function.comp_def, List.map_cons]

/-- **C146** (5) All iterations of the mesh generator are the same, seen with another origin and in another unit; it returns in one place and unit exactly if it does in
the other. -/
theorem C146_iterations {c : K} (hc : 0 < c) (t : K × K) {S S' : GenSetup K} (hS : SameInUnit c t S S') (hst : SteepOutside c S) (maxIter : Nat) (p : List (K × K)) :
    (generateMesh S' maxIter (p.map (inUnit c t))).map Prod.snd = (generateMesh S maxIter p).map fun r => r.2.map (iterMoved (inUnit c t)) := by
  cases maxIter with
  | zero => rfl
  | succ n =>
    simp only [generateMesh, List.length_map]
    split_ifs
    · rfl
    · rw [genLoop_unit hc t hS hst n p, Option.map_map]
      rfl

theorem match_self {α : Type} {p : List α} {t : List Tri} (h : ValidMesh p t) {f : Tri} (hf : f ∈ t) : CornersMatch (fun x y => x = y) p f p f := by
  have e : ∀ v, HasVertex f v → ∃ x, p[v]? = some x := fun v hv => ⟨_, List.getElem?_eq_getElem (h f hf v hv)⟩
  obtain ⟨x, hx⟩ := e f.a (.inl rfl)
  obtain ⟨y, hy⟩ := e f.b (.inr (.inl rfl))
  obtain ⟨z, hz⟩ := e f.c (.inr (.inr rfl))
  have hc : corners p f = [some x, some y, some z] := by simp [corners, hx, hy, hz]
  exact ⟨x, y, z, x, y, z, hc, by rw [hc], rfl, rfl, rfl⟩

/-- **C146** (6) The returned meshes are the same drawing, seen with another origin and in another unit, if the points of the last iteration are further apart than
the merging distance of `fix_mesh` (numbers and order can differ, `fix_mesh` sorts by bytes). -/
theorem C146_mesh {c : K} (hc : 0 < c) (t : K × K) {S S' : GenSetup K} (hS : SameInUnit c t S S') (hst : SteepOutside c S) (hfix : S'.rnd = S.rnd ∧ S'.oP = S.oP ∧ S'.oT = S.oT ∧ S'.ptol = S.ptol)
    (hr : IsRounding S.rnd) (hpt : 0 < S.ptol) {maxIter : Nat} {p : List (K × K)} {m : FixResult K} {l : List (GenIter K)} (h : generateMesh S maxIter p = some (m, l))
    {r : GenIter K} (hl : l.getLast? = some r) {e : K} (he : FitsIn e r.points) (hn : r.points.Nodup) (hs : Separated (e * S.ptol) r.points) :
    ∃ m' l', generateMesh S' maxIter (p.map (inUnit c t)) = some (m', l') ∧ Moved (inUnit c t) m.p m.t m'.p m'.t := by
  have hi := C146_iterations hc t hS hst maxIter p
  rw [h, Option.map_some] at hi
  obtain ⟨⟨m', l'⟩, h', e'⟩ := Option.map_eq_some_iff.1 hi
  refine ⟨m', l', h', ?_⟩
  dsimp only at e'
  obtain ⟨n, -, -, hloop⟩ := generateMesh_loop h
  obtain ⟨n', -, -, hloop'⟩ := generateMesh_loop h'
  obtain ⟨-, -, -, -, r1, hr1, hm⟩ := genLoop_trace hloop
  obtain ⟨-, -, -, -, r2, hr2, hm'⟩ := genLoop_trace hloop'
  rw [hl, Option.some.injEq] at hr1
  subst hr1
  rw [e', List.getLast?_map, hl, Option.map_some, Option.some.injEq] at hr2
  subst hr2
  rw [hfix.1, hfix.2.1, hfix.2.2.1, hfix.2.2.2] at hm'
  let E : Engine K := ⟨lexOrder, S.oP, S.oT, stableSort Nat lexOrder, stableSort Nat natOrder, S.rnd, S.ptol, fun _ _ => none⟩
  have a : refix E r.points r.kept = some ⟨m.p, m.t⟩ := by simp only [refix, E, hm, Option.map_some]
  have b : refix E (r.points.map (inUnit c t)) r.kept = some ⟨m'.p, m'.t⟩ := by
    simp only [iterMoved] at hm'
    simp only [refix, E, hm', Option.map_some]
  have hv := valid_map (inUnit c t) (fixMesh_valid hm).2
  obtain ⟨-, hf', hs'⟩ := C142_scaling hc t he hs
  have hinj : Function.Injective (inUnit c t) := fun x y hxy => by
    simp only [inUnit, Prod.mk.injEq, add_left_inj, mul_right_inj' hc.ne'] at hxy
    exact Prod.ext hxy.1 hxy.2
  exact C142_fix_mesh (E := E) hr hpt (inUnit c t) he hn hs hf' (hn.map hinj) hs'
    ⟨fun f hf => ⟨f, hf, match_self hv hf⟩, fun f hf => ⟨f, hf, match_self hv hf⟩⟩ a b

/-! ## Initial points -/

variable [FloorRing K]

theorem latticeLine_unit {c : K} (hc : 0 < c) (t lo hi h : K) : latticeLine (c * lo + t) (c * hi + t) (c * h) = (latticeLine lo hi h).map fun x => c * x + t := by
  have e : (c * hi + t + c * h - (c * lo + t)) / (c * h) = (hi + h - lo) / h := by
    rw [show c * hi + t + c * h - (c * lo + t) = c * (hi + h - lo) by ring, mul_div_mul_left _ _ hc.ne']
  rw [latticeLine, latticeLine, e, List.map_map]
  refine List.map_congr_left fun i _ => ?_
  simp only [Function.comp_apply]
  ring

theorem latticePoints_unit {c : K} (hc : 0 < c) (t : K × K) (b : Box K) (h : K) : latticePoints (boxInUnit c t b) (c * h) = (latticePoints b h).map (inUnit c t) := by
  simp only [latticePoints, boxInUnit, latticeLine_unit hc, List.flatMap_map, List.map_flatMap, List.map_map]
  rfl

theorem atLeast_scaled {c : K} (hc : 0 < c) (m : K) (x : Float64 K) : (scaled c x).atLeast (c * m) = x.atLeast m := by
  cases x <;> simp [scaled, Float64.atLeast, mul_le_mul_iff_right₀ hc]

theorem min2_scaled {c : K} (hc : 0 < c) (x y : Float64 K) : (scaled c x).min2 (scaled c y) = scaled c (x.min2 y) := by
  cases x <;> cases y <;> simp [scaled, Float64.min2, mul_min_of_nonneg _ _ hc.le]

theorem foldl_min2_scaled {c : K} (hc : 0 < c) : ∀ (l : List (Float64 K)) (x : Float64 K), (l.map (scaled c)).foldl Float64.min2 (scaled c x) = scaled c (l.foldl Float64.min2 x)
  | [], _ => rfl
  | y :: l, x => by rw [List.map_cons, List.foldl_cons, List.foldl_cons, min2_scaled hc, foldl_min2_scaled hc l]

theorem smallestSize_scaled {c : K} (hc : 0 < c) (m : K) (l : List (Float64 K)) : smallestSize (c * m) (l.map (scaled c)) = (smallestSize m l).map (scaled c) := by
  have e : (l.map (scaled c)).filter (Float64.atLeast (c * m)) = (l.filter (Float64.atLeast m)).map (scaled c) := by
    rw [List.filter_map]
    congr 2
    funext x
    exact atLeast_scaled hc m x
  rw [smallestSize, smallestSize, e]
  cases l.filter (Float64.atLeast m) with
  | nil => rfl
  | cons x r => simp only [List.map_cons, foldl_min2_scaled hc, Option.map_some]

theorem keepRandom_scaled {c : K} (hc : 0 < c) (u : K) (m x : Float64 K) : keepRandom u (scaled c m) (scaled c x) = keepRandom u m x := by
  cases m <;> cases x <;> simp [scaled, keepRandom, hc.ne', mul_pow, mul_div_mul_left _ _ (pow_ne_zero 2 hc.ne')]

/-- **C146** (7) The start points are the same, seen with another origin and in another unit; they are not found in one place and unit exactly if they are not in the
other. -/
theorem C146_start {c : K} (hc : 0 < c) (t : K × K) {S S' : GenSetup K} (hS : SameInUnit c t S S') (h : K) (b : Box K) (rand : Nat → K) (points : Option (List (K × K))) :
    startPoints S' (c * h) (boxInUnit c t b) rand none (points.map (List.map (inUnit c t))) = (startPoints S h b rand none points).map (List.map (inUnit c t)) := by
  cases points with
  | some p => rfl
  | none =>
    simp only [Option.map_none, startPoints, initialPoints, latticePoints_unit hc, initialFrom, hS.sizes, hS.geps, hS.pfix, Option.bind_eq_bind]
    cases S.fh (latticePoints b h) with
    | none => rfl
    | some r0 =>
      simp only [Option.map_some, Option.bind_some, smallestSize_scaled hc]
      cases smallestSize h r0 with
      | none => rfl
      | some r0m =>
        simp only [Option.map_some, Option.bind_some, List.length_map, List.zipWith_map_right, keepRandom_scaled hc, maskRows_rows]
        split_ifs
        · cases maskRows (List.zipWith (fun i r => keepRandom (rand i) r0m r) (List.range r0.length) r0) (latticePoints b h) with
          | none => rfl
          | some p1 =>
            simp only [Option.map_some, Option.bind_some, hS.domain]
            cases S.fd p1 with
            | none => rfl
            | some d =>
              have e : (d.map (c * ·)).map (fun x => decide (x < c * S.geps)) = d.map fun x => decide (x < S.geps) := by
                rw [List.map_map]
                exact List.map_congr_left fun x _ => by simp only [Function.comp_apply, mul_lt_mul_iff_right₀ hc]
              simp only [Option.map_some, Option.bind_some, e, maskRows_rows]
              cases maskRows (d.map fun x => decide (x < S.geps)) p1 with
              | none => rfl
              | some p2 => simp only [Option.map_some, Option.bind_some, Option.pure_def, List.map_append]
        · rfl

end

/-- **C146** The projection depends on the unit where the distance function is flat: the lower limit of the squared gradient is a constant without a unit. The
distance to the half plane `x <= 0` divided by ten, at the point with `x = 1`: in the old unit the point is brought to the half plane, in a unit a hundred times
smaller, where all lengths and the step are multiplied by 100, it stays outside. -/
theorem C146_projection_unit :
    projectPointsBack (fun l => some (l.map fun x : ℚ × ℚ => x.1 / 10)) (1 / 1000) [(1, 0)] = some [(0, 0)] ∧
      projectPointsBack (fun l => some (l.map fun x : ℚ × ℚ => x.1 / 10)) (100 * (1 / 1000)) [(100, 0)] = some [(90, 0)] := by
  decide +kernel

/-! ## Examples -/

theorem toyInsert_map {f : ℚ × ℚ → ℚ × ℚ} (hf : Function.Injective f) : ∀ (l : List ((ℚ × ℚ) × Nat)) (vs : List (DVertex ℚ)),
    (l.map fun x => (f x.1, x.2)).foldl toyInsertOne (vs.map fun v => { v with point := f v.point }) = (l.foldl toyInsertOne vs).map fun v => { v with point := f v.point }
  | [], _ => rfl
  | x :: l, vs => by
    have e : toyInsertOne (vs.map fun v => { v with point := f v.point }) (f x.1, x.2) = (toyInsertOne vs x).map fun v => { v with point := f v.point } := by
      have h1 : f x.1 ∈ (vs.map fun v => ({ v with point := f v.point } : DVertex ℚ)).map (·.point) ↔ x.1 ∈ vs.map (·.point) := by
        simp only [List.map_map, List.mem_map, Function.comp_apply, hf.eq_iff]
      have h2 : toyFresh (vs.map fun v => ({ v with point := f v.point } : DVertex ℚ)) = toyFresh vs := by
        simp only [toyFresh, List.map_map]
        rfl
      simp only [toyInsertOne, h1, h2]
      split_ifs
      · rfl
      · simp
    rw [List.map_cons, List.foldl_cons, List.foldl_cons, e, toyInsert_map hf l]

/-- The generator of the examples in a unit a hundred times smaller and with another origin. -/
def wheelGen100 : GenSetup ℚ :=
  { wheelGen with
    sqrt := fun x => x / 100
    eps := 100 * wheelGen.eps
    fh := fun l => some (l.map fun _ => .fin 100)
    fd := fun l => some (l.map fun y => 100 * slopeFd ((y.1 - 5) / 100, (y.2 - 7) / 100))
    geps := 100 * wheelGen.geps
    deps := 100 * wheelGen.deps }

theorem wheel100 : SameInUnit 100 (5, 7) wheelGen wheelGen100 where
  cgal l := by
    have hf : Function.Injective (inUnit (100 : ℚ) (5, 7)) := fun x y h => by
      simp only [inUnit, Prod.mk.injEq] at h
      exact Prod.ext (by linarith [h.1]) (by linarith [h.2])
    have h := toyInsert_map hf l []
    simp only [List.map_nil] at h
    simp only [wheelGen100, wheelGen, wheelCgal, triangulationMoved, h, List.map_map]
    rfl
  edges := rfl
  root x := by simp only [wheelGen100, wheelGen, genQ]; ring
  eps := rfl
  mult := rfl
  sizes l := by
    simp only [wheelGen100, wheelGen, genQ, List.map_map, Option.map_some, Option.some.injEq]
    refine List.map_congr_left fun x _ => ?_
    simp [scaled]
  domain l := by
    simp only [wheelGen100, wheelGen, genQ, List.map_map, Option.map_some, Option.some.injEq]
    refine List.map_congr_left fun x _ => ?_
    simp only [Function.comp_apply, inUnit, slopeFd]
    ring
  plane := ⟨rfl, rfl⟩
  geps := rfl
  deps := rfl
  dt := rfl
  pfix := rfl
  lock := rfl

theorem wheel_steep : SteepOutside 100 wheelGen := by
  refine Or.inr ⟨slopeFd, fun _ => rfl, fun x _ => ?_⟩
  simp only [steepness, slopeFd, wheelGen, genQ]
  constructor <;> ring_nf <;> norm_num

example := C146_iterations (by norm_num) _ wheel100 wheel_steep 2 wheelStart
example := C146_projection (by norm_num) _ wheel100 wheel_steep wheelStart
example := C146_first (by norm_num) _ wheel100 wheelStart
example (r : GenIter ℚ) := C146_second (by norm_num) _ wheel100 wheel_steep r
example := C146_forces (by norm_num) _ wheel100.root 1 1 wheel100.sizes wheelStart [⟨0, 1, 2⟩]
example := C146_start (by norm_num) _ wheel100 (1 : ℚ) ⟨0, 1, 0, 1⟩ (fun _ => 0) none

/-- The execution of `wheelRun` in the smaller unit. -/
example : ∃ m' l', generateMesh wheelGen100 2 (wheelStart.map (inUnit 100 (5, 7))) = some (m', l') ∧ Moved (inUnit 100 (5, 7)) wheelRun.1.p wheelRun.1.t m'.p m'.t :=
  C146_mesh (by norm_num) _ wheel100 wheel_steep ⟨rfl, rfl, rfl, rfl⟩ rndQ_isRounding (by norm_num [wheelGen, genQ]) wheelRun_eq rfl (e := 17)
    (by unfold FitsIn; decide +kernel) (by decide +kernel) (by unfold Separated Within; decide +kernel)

end OM
