import Verif.Props.MovingSizes
import Verif.Props.MovingGen
import Verif.Props.SeaMesh
/-!
# C149: from shoreline and sizes to the mesh, in other places and units
-/
set_option linter.unusedSectionVars false
namespace OM

namespace Spec
variable {K : Type} [Field K] [LinearOrder K]

/-- The generator uses the same tools and options, its lengths in another unit and with another origin; nothing is said about domain and sizes. -/
structure SameTools (c : K) (t : K × K) (S S' : GenSetup K) : Prop where
  cgal : ∀ l : List ((K × K) × Nat), S'.cgal.insert ⟨[], []⟩ (l.map fun x => (inUnit c t x.1, x.2)) = triangulationMoved (inUnit c t) (S.cgal.insert ⟨[], []⟩ l)
  edges : S'.oE = S.oE
  root : ∀ x, S'.sqrt (c ^ 2 * x) = c * S.sqrt x
  eps : S'.eps = c * S.eps
  mult : S'.mult = S.mult
  plane : S.stereo = none ∧ S'.stereo = none
  geps : S'.geps = c * S.geps
  deps : S'.deps = c * S.deps
  dt : S'.dt = S.dt
  pfix : S'.pfix = S.pfix.map (inUnit c t)
  lock : S'.lock = S.lock

end Spec
open Spec
section
variable {K C : Type} [Field K] [LinearOrder K] [IsStrictOrderedRing K] [FloorRing K]

/-- `fh = edge_length.eval` of a `Grid` applied to an array of points (`oceanmesh/mesh_generator.py:785`, `oceanmesh/grid.py:502-525`); `none`: raises because no
interpolant was built. -/
def gridSizes (g : Grid K C) (l : List (K × K)) : Option (List (Float64 K)) := g.interp.map fun e => l.map fun q =>
  match g.evalWith e q with
  | some x => .fin x
  | none => .nan

/-- **C149** the sizes given to the generator are the values of the interpolant, one for each point and in their order: a number where it is a number, NaN where it is
not. -/
theorem C149_eval {g : Grid K C} {l : List (K × K)} {r : List (Float64 K)} (h : gridSizes g l = some r) : r.length = l.length ∧ ∀ (i : Nat) (q : K × K), l[i]? = some q →
    ∃ v, g.evalAt q = some v ∧ (∀ x, r[i]? = some (Float64.fin x) ↔ v = some x) ∧ (r[i]? = some Float64.nan ↔ v = none) := by
  obtain ⟨e, he, rfl⟩ := Option.map_eq_some_iff.1 h
  refine ⟨List.length_map _, fun i q hq => ⟨g.evalWith e q, by rw [Grid.evalAt, he]; rfl, ?_⟩⟩
  rw [List.getElem?_map, hq]
  simp only [Option.map_some, Option.some.injEq]
  cases g.evalWith e q with
  | none => exact ⟨fun x => ⟨nofun, nofun⟩, ⟨fun _ => rfl, fun _ => rfl⟩⟩
  | some v => exact ⟨fun x => by simp, ⟨nofun, nofun⟩⟩

theorem gridSizes_unit {c : K} (hc : 0 < c) (t : K × K) {g : Grid K C} (hg : g.interp = some true) (l : List (K × K)) :
    gridSizes (sizesInUnit c t g) (l.map (inUnit c t)) = (gridSizes g l).map fun r => r.map (scaled c) := by
  have hi : (sizesInUnit c t g).interp = g.interp := rfl
  simp only [gridSizes, hi, hg, Option.map_some, List.map_map, Option.some.injEq]
  refine List.map_congr_left fun q _ => ?_
  have := C148_values hc t g q (by rw [hg]; intro h; cases h)
  simp only [Grid.evalAt, hi, hg, Option.map_some, Option.some.injEq] at this
  simp only [Function.comp_apply, this]
  cases g.evalWith true q <;> rfl

/-- What the theorems assume about a shoreline in two places and units. -/
structure SameShore (c : K) (t : K × K) (T T' : SdfTools K) (inner box : List (List (K × K))) : Prop where
  cfg : T'.cfg = T.cfg
  compiled : T.cfg.env = none ∧ T.cfg.compiled = true
  ftol : T'.ftol = c * T.ftol
  near : ∀ l q, T'.near (l.map (inUnit c t)) (inUnit c t q) = c * T.near l q
  innerClosed : ∀ f ∈ inner, ClosedTwice f
  boxClosed : ∀ f ∈ box, ClosedTwice f
  boxSome : box ≠ []

/-- **C149** (1): the domain of a shoreline and the sizes of a grid that extrapolates, both with another origin and in another unit, are the same for the generator. -/
theorem C149_setup {c : K} (hc : 0 < c) (t : K × K) {S S' : GenSetup K} (hS : SameTools c t S S') {T T' : SdfTools K} {inner box : List (List (K × K))}
    (hT : SameShore c t T T' inner box) {invert : Bool} {func cov func' cov' : List (QueryPoint K) → Option (List K)}
    (hd : signedDistanceFunction T (joinNaN inner) (joinNaN box) invert = some (func, cov))
    (hd' : signedDistanceFunction T' (joinNaN (inner.map fun f => f.map (inUnit c t))) (joinNaN (box.map fun f => f.map (inUnit c t))) invert = some (func', cov'))
    {g : Grid K C} (hg : g.interp = some true) :
    SameInUnit c t { S with fh := gridSizes g, fd := onFinite func } { S' with fh := gridSizes (sizesInUnit c t g), fd := onFinite func' } where
  cgal := hS.cgal
  edges := hS.edges
  root := hS.root
  eps := hS.eps
  mult := hS.mult
  sizes := gridSizes_unit hc t hg
  domain l := by
    obtain ⟨f, k, f', k', h1, h2, h3, -⟩ := C145_distance hc t hT.cfg hT.compiled hT.ftol hT.near hT.innerClosed hT.boxClosed hT.boxSome invert
    obtain ⟨rfl, rfl⟩ := Prod.mk.inj (Option.some.inj (hd.symm.trans h1))
    obtain ⟨rfl, rfl⟩ := Prod.mk.inj (Option.some.inj (hd'.symm.trans h2))
    have := h3 l
    simp only [onFinite, List.map_map]
    exact this
  plane := hS.plane
  geps := hS.geps
  deps := hS.deps
  dt := hS.dt
  pfix := hS.pfix
  lock := hS.lock

/-- **C149** (2): the sizes from distances to points, limited in their gradation, with another origin and in another unit; they extrapolate. -/
theorem C149_sizes_partial {c : K} (hc : 0 < c) (t : K × K) {near : Grid K C → K × K → Nat × Nat}
    {fmm : (n m : Nat) → K → K → (Fin n → Fin m → Bool) → Option (Fin n → Fin m → K)}
    (hnear : ∀ g p, near (sizesInUnit c t g) (inUnit c t p) = near g p)
    (hfmm : ∀ n m dx dy mask, fmm n m (c * dx) (c * dy) mask = (fmm n m dx dy mask).map fun d i j => c * d i j)
    {box : Box K} (hb : NotGlobe box) (hb' : NotGlobe (boxInUnit c t box)) {h0 coarsen rate : K} {mx : Option K} {crs : C} {points : List (K × K)}
    (hok : ∀ g, mkGrid box (h0 * coarsen) none crs (some h0) (.scalar (some 0)) true = some g →
      fmm g.nx g.ny g.dx g.dy (fun i j => points.any fun p => decide (near g p = (i.val, j.val))) ≠ none)
    (M : StereoMaps K) (sq2 sqEps gradation : K) :
    (distanceSizing near fmm (boxInUnit c t box) (c * h0) coarsen rate (mx.map (c * ·)) crs (points.map (inUnit c t))).bind
        (fun g => enforceGradation M sq2 sqEps g gradation crs false) =
      ((distanceSizing near fmm box h0 coarsen rate mx crs points).bind fun g => enforceGradation M sq2 sqEps g gradation crs false).map (sizesInUnit c t) ∧
    ∀ g ∈ (distanceSizing near fmm box h0 coarsen rate mx crs points).bind fun g => enforceGradation M sq2 sqEps g gradation crs false, g.interp = some true := by
  have hdist : ∀ g ∈ distanceSizing near fmm box h0 coarsen rate mx crs points, g.box = box ∧ g.extrapolate = true := by
    intro g hg
    simp only [distanceSizing, mkGrid, Option.mem_def] at hg
    split at hg
    · cases hg
    · rename_i g0 h0'
      split at h0'
      · rw [← Option.some.inj h0'] at hg
        rw [← Option.some.inj hg]
        exact ⟨rfl, rfl⟩
      · cases h0'
  constructor
  · rw [C148_distance_partial hc t hnear hfmm hb hb' hok]
    cases h : distanceSizing near fmm box h0 coarsen rate mx crs points with
    | none => rfl
    | some g =>
      have := (hdist g h).1
      simp only [Option.map_some, Option.bind_some]
      exact C148_gradation hc t M sq2 sqEps (by rw [this]; exact hb) (by rw [this]; exact hb') gradation crs
  · intro G hG
    obtain ⟨g, hg, hG⟩ := Option.bind_eq_some_iff.1 hG
    have he := (hdist g hg).2
    simp only [enforceGradation] at hG
    split at hG
    · cases hG
    split at hG
    · cases hG
    cases hl : limitVals sq2 sqEps g.dx gradation g.vals with
    | none => rw [hl] at hG; cases hG
    | some v =>
      rw [hl] at hG
      simp only [Bool.false_eq_true, if_false, mkGrid] at hG
      split at hG
      · rw [← Option.some.inj hG]
        simp only [Grid.buildInterpolant, he]
      · cases hG

/-- **C149** (3): start points and iterations of the generator for the domain of a shoreline and the sizes of a grid, both moved: everything is moved, nothing else
changes, and the generator raises in one place exactly if it does in the other. -/
theorem C149_shift (t : K × K) {S : GenSetup K} (hplane : S.stereo = none)
    (hcgal : ∀ l : List ((K × K) × Nat), S.cgal.insert ⟨[], []⟩ (l.map fun x => (inUnit 1 t x.1, x.2)) = triangulationMoved (inUnit 1 t) (S.cgal.insert ⟨[], []⟩ l))
    {T : SdfTools K} {inner box : List (List (K × K))} (hT : SameShore 1 t T T inner box) {invert : Bool} {func cov func' cov' : List (QueryPoint K) → Option (List K)}
    (hd : signedDistanceFunction T (joinNaN inner) (joinNaN box) invert = some (func, cov))
    (hd' : signedDistanceFunction T (joinNaN (inner.map fun f => f.map (inUnit 1 t))) (joinNaN (box.map fun f => f.map (inUnit 1 t))) invert = some (func', cov'))
    {g : Grid K C} (hg : g.interp = some true) (b : Box K) (h : K) (rand : Nat → K) (maxIter : Nat) :
    let A : GenSetup K := { S with fh := gridSizes g, fd := onFinite func }
    let B : GenSetup K := { S with fh := gridSizes (sizesInUnit 1 t g), fd := onFinite func', pfix := S.pfix.map (inUnit 1 t) }
    startPoints B h (boxInUnit 1 t b) rand none none = (startPoints A h b rand none none).map (List.map (inUnit 1 t)) ∧
      ((startPoints B h (boxInUnit 1 t b) rand none none).bind (generateMesh B maxIter)).map Prod.snd =
        ((startPoints A h b rand none none).bind (generateMesh A maxIter)).map fun r => r.2.map (iterMoved (inUnit 1 t)) := by
  intro A B
  have hS : SameTools 1 t S { S with pfix := S.pfix.map (inUnit 1 t) } :=
    ⟨hcgal, rfl, fun x => by rw [one_pow, one_mul, one_mul], (one_mul _).symm, rfl, ⟨hplane, hplane⟩, (one_mul _).symm, (one_mul _).symm, rfl, rfl, rfl⟩
  have hAB : SameInUnit 1 t A B := C149_setup one_pos t hS hT hd hd' hg
  have h1 := C146_start one_pos t hAB h b rand none
  rw [one_mul, Option.map_none] at h1
  refine ⟨h1, ?_⟩
  rw [h1]
  cases startPoints A h b rand none none with
  | none => rfl
  | some p => exact C146_iterations one_pos t hAB (.inl rfl) maxIter p

/-- The calls of a script (`README.md:320-323,390-391`, with `distance_sizing_from_point_function` as the sizing function): the domain of a shoreline, sizes growing with
the distance from points, limited in their gradation, and the mesh generator; the points and triangles of all iterations. -/
def shoreMesh (S : GenSetup K) (T : SdfTools K) (near : Grid K C → K × K → Nat × Nat) (fmm : (n m : Nat) → K → K → (Fin n → Fin m → Bool) → Option (Fin n → Fin m → K))
    (M : StereoMaps K) (sq2 sqEps : K) (invert : Bool) (h0 coarsen rate : K) (mx : Option K) (gradation : K) (crs : C) (h : K) (rand : Nat → K) (maxIter : Nat)
    (inner boubox : List (Option (K × K))) (region domain : Box K) (points pfix : List (K × K)) : Option (List (GenIter K)) := do
  let d ← signedDistanceFunction T inner boubox invert
  let e ← distanceSizing near fmm region h0 coarsen rate mx crs points
  let g ← enforceGradation M sq2 sqEps e gradation crs false
  let A : GenSetup K := { S with fh := gridSizes g, fd := onFinite d.1, pfix := pfix }
  let p ← startPoints A h domain rand none none
  let r ← generateMesh A maxIter p
  pure r.2

theorem gradation_interp {g G : Grid K C} {M : StereoMaps K} {sq2 sqEps gradation : K} {crs : C} (he : g.extrapolate = true)
    (hG : enforceGradation M sq2 sqEps g gradation crs false = some G) : G.interp = some true := by
  simp only [enforceGradation] at hG
  split at hG
  · cases hG
  split at hG
  · cases hG
  cases hl : limitVals sq2 sqEps g.dx gradation g.vals with
  | none => rw [hl] at hG; cases hG
  | some v =>
    rw [hl] at hG
    simp only [Bool.false_eq_true, if_false, mkGrid] at hG
    split at hG
    · rw [← Option.some.inj hG]
      simp only [Grid.buildInterpolant, he]
    · cases hG

theorem distanceSizing_box {near : Grid K C → K × K → Nat × Nat} {fmm : (n m : Nat) → K → K → (Fin n → Fin m → Bool) → Option (Fin n → Fin m → K)}
    {box : Box K} {h0 coarsen rate : K} {mx : Option K} {crs : C} {points : List (K × K)} {g : Grid K C}
    (hg : distanceSizing near fmm box h0 coarsen rate mx crs points = some g) : g.box = box ∧ g.extrapolate = true := by
  simp only [distanceSizing, mkGrid] at hg
  split at hg
  · cases hg
  · rename_i g0 h0'
    split at h0'
    · rw [← Option.some.inj h0'] at hg
      rw [← Option.some.inj hg]
      exact ⟨rfl, rfl⟩
    · cases h0'

theorem sizes_shift (t : K × K) {near : Grid K C → K × K → Nat × Nat} (hnear : ∀ g p, near (sizesInUnit 1 t g) (inUnit 1 t p) = near g p)
    (fmm : (n m : Nat) → K → K → (Fin n → Fin m → Bool) → Option (Fin n → Fin m → K)) {box : Box K} (hb : NotGlobe box) (hb' : NotGlobe (boxInUnit 1 t box))
    (h0 coarsen rate : K) (mx : Option K) (crs : C) (points : List (K × K)) (M : StereoMaps K) (sq2 sqEps gradation : K) :
    (distanceSizing near fmm (boxInUnit 1 t box) h0 coarsen rate mx crs (points.map (inUnit 1 t))).bind (fun g => enforceGradation M sq2 sqEps g gradation crs false) =
      ((distanceSizing near fmm box h0 coarsen rate mx crs points).bind fun g => enforceGradation M sq2 sqEps g gradation crs false).map (sizesInUnit 1 t) ∧
    ∀ g, ((distanceSizing near fmm box h0 coarsen rate mx crs points).bind fun g => enforceGradation M sq2 sqEps g gradation crs false) = some g → g.interp = some true := by
  constructor
  · rw [C148_distance_shift t hnear hb hb']
    cases h : distanceSizing near fmm box h0 coarsen rate mx crs points with
    | none => rfl
    | some g =>
      have := (distanceSizing_box h).1
      simp only [Option.map_some, Option.bind_some]
      exact C148_gradation one_pos t M sq2 sqEps (by rw [this]; exact hb) (by rw [this]; exact hb') gradation crs
  · intro G hG
    obtain ⟨g, hg, hG⟩ := Option.bind_eq_some_iff.1 hG
    exact gradation_interp (distanceSizing_box hg).2 hG

/-- **C149** (5): a whole script in another place, whether the distance solver fails or not: everything is moved, and it raises in one place exactly if it does in
the other. -/
theorem C149_script (t : K × K) {S : GenSetup K} (hplane : S.stereo = none)
    (hcgal : ∀ l : List ((K × K) × Nat), S.cgal.insert ⟨[], []⟩ (l.map fun x => (inUnit 1 t x.1, x.2)) = triangulationMoved (inUnit 1 t) (S.cgal.insert ⟨[], []⟩ l))
    {T : SdfTools K} {inner box : List (List (K × K))} (hT : SameShore 1 t T T inner box) {near : Grid K C → K × K → Nat × Nat}
    (hnear : ∀ g p, near (sizesInUnit 1 t g) (inUnit 1 t p) = near g p) (fmm : (n m : Nat) → K → K → (Fin n → Fin m → Bool) → Option (Fin n → Fin m → K))
    (M : StereoMaps K) (sq2 sqEps : K) (invert : Bool) (h0 coarsen rate : K) (mx : Option K) (gradation : K) (crs : C) (h : K) (rand : Nat → K) (maxIter : Nat)
    {region : Box K} (hb : NotGlobe region) (hb' : NotGlobe (boxInUnit 1 t region)) (domain : Box K) (points pfix : List (K × K)) :
    shoreMesh S T near fmm M sq2 sqEps invert h0 coarsen rate mx gradation crs h rand maxIter (joinNaN (inner.map fun f => f.map (inUnit 1 t)))
        (joinNaN (box.map fun f => f.map (inUnit 1 t))) (boxInUnit 1 t region) (boxInUnit 1 t domain) (points.map (inUnit 1 t)) (pfix.map (inUnit 1 t)) =
      (shoreMesh S T near fmm M sq2 sqEps invert h0 coarsen rate mx gradation crs h rand maxIter (joinNaN inner) (joinNaN box) region domain points pfix).map
        (List.map (iterMoved (inUnit 1 t))) := by
  obtain ⟨func, cov, func', cov', hd, hd', -⟩ := C145_distance one_pos t hT.cfg hT.compiled hT.ftol hT.near hT.innerClosed hT.boxClosed hT.boxSome invert
  obtain ⟨hs, hi⟩ := sizes_shift t hnear fmm hb hb' h0 coarsen rate mx crs points M sq2 sqEps gradation
  simp only [shoreMesh, hd, hd', Option.bind_eq_bind, Option.bind_some, Option.pure_def]
  rw [← Option.bind_assoc, ← Option.bind_assoc, hs]
  cases hg : (distanceSizing near fmm region h0 coarsen rate mx crs points).bind fun g => enforceGradation M sq2 sqEps g gradation crs false with
  | none => rfl
  | some g =>
    have := (C149_shift (C := C) t (S := { S with pfix := pfix }) hplane hcgal hT hd hd' (hi g hg) domain h rand maxIter).2
    have hm : ∀ {α β : Type} (o : Option (α × β)), (o.bind fun r => some r.2) = o.map Prod.snd := fun o => by cases o <;> rfl
    simp only [Option.map_some, Option.bind_some, ← Option.bind_assoc, hm]
    have hb2 : ∀ {α β γ : Type} (o : Option α) (f : α → Option β) (k : β → γ), (o.bind fun a => (f a).map k) = (o.bind f).map k := fun o _ _ => by cases o <;> rfl
    rw [hb2, hb2, Option.map_map]
    exact this

/-- **C149** (4): in another unit, too, the start points and the first triangulation, its fixed points and the triangles removed outside are the same (the
projection of points outside is not, `C146_projection_unit`). -/
theorem C149_unit_partial {c : K} (hc : 0 < c) (t : K × K) {S S' : GenSetup K} (hS : SameTools c t S S') {T T' : SdfTools K} {inner box : List (List (K × K))}
    (hT : SameShore c t T T' inner box) {invert : Bool} {func cov func' cov' : List (QueryPoint K) → Option (List K)}
    (hd : signedDistanceFunction T (joinNaN inner) (joinNaN box) invert = some (func, cov))
    (hd' : signedDistanceFunction T' (joinNaN (inner.map fun f => f.map (inUnit c t))) (joinNaN (box.map fun f => f.map (inUnit c t))) invert = some (func', cov'))
    {g : Grid K C} (hg : g.interp = some true) (b : Box K) (h : K) (rand : Nat → K) :
    let A : GenSetup K := { S with fh := gridSizes g, fd := onFinite func }
    let B : GenSetup K := { S' with fh := gridSizes (sizesInUnit c t g), fd := onFinite func' }
    startPoints B (c * h) (boxInUnit c t b) rand none none = (startPoints A h b rand none none).map (List.map (inUnit c t)) ∧
      (startPoints B (c * h) (boxInUnit c t b) rand none none).bind (genFirst B) =
        ((startPoints A h b rand none none).bind (genFirst A)).map (iterMoved (inUnit c t)) := by
  intro A B
  have hAB : SameInUnit c t A B := C149_setup hc t hS hT hd hd' hg
  have h1 := C146_start hc t hAB h b rand none
  rw [Option.map_none] at h1
  refine ⟨h1, ?_⟩
  rw [h1]
  cases startPoints A h b rand none none with
  | none => rfl
  | some p => exact C146_first hc t hAB p

end

/-! ## Examples -/

example : gridSizes sizesQ [(1 / 2, 1 / 2), (0, 0)] = some [.fin 4, .fin 1] := by decide +kernel
example := C149_eval (g := sizesQ) (l := [(1 / 2, 1 / 2), (0, 0)]) (r := [.fin 4, .fin 1]) (by decide +kernel)

/-- The shoreline of the examples in another place. -/
theorem shore_moved (t : ℚ × ℚ) : SameShore 1 t toolsQ toolsQ farIsland bigBox :=
  ⟨rfl, by decide, (one_mul _).symm, fun l q => nearQ_shift one_pos t q l, shoresQ.innerClosed, shoresQ.boxClosed, shoresQ.boxSome⟩

example (t : ℚ × ℚ) : ∃ func cov func' cov', signedDistanceFunction toolsQ (joinNaN farIsland) (joinNaN bigBox) false = some (func, cov) ∧
    signedDistanceFunction toolsQ (joinNaN (farIsland.map fun f => f.map (inUnit 1 t))) (joinNaN (bigBox.map fun f => f.map (inUnit 1 t))) false = some (func', cov') := by
  obtain ⟨f, k, f', k', h1, h2, -⟩ := C145_distance one_pos t (T := toolsQ) (T' := toolsQ) rfl (by decide) (one_mul _).symm (fun l q => nearQ_shift one_pos t q l)
    shoresQ.innerClosed shoresQ.boxClosed shoresQ.boxSome false
  exact ⟨f, k, f', k', h1, h2⟩

example (t : ℚ × ℚ) {func' cov' : List (QueryPoint ℚ) → Option (List ℚ)}
    (hd' : signedDistanceFunction toolsQ (joinNaN (farIsland.map fun f => f.map (inUnit 1 t))) (joinNaN (bigBox.map fun f => f.map (inUnit 1 t))) false = some (func', cov')) :=
  C149_shift t (S := wheelGen) rfl (fun l => by
    have hf : Function.Injective (inUnit (1 : ℚ) t) := fun x y h => by
      simp only [inUnit, Prod.mk.injEq] at h
      exact Prod.ext (by linarith [h.1]) (by linarith [h.2])
    have h := toyInsert_map hf l []
    simp only [List.map_nil] at h
    simp only [wheelGen, wheelCgal, triangulationMoved, h, List.map_map]
    rfl) (shore_moved t) seaFuncs_eq hd' (g := sizesQ) rfl ⟨-30, 30, -30, 30⟩ 1 (fun _ => 0) 2

/-- The tools of the examples in another place and in a unit a hundred times smaller. -/
theorem tools_moved : SameTools 100 (5, 7) wheelGen wheelGen100 :=
  ⟨wheel100.cgal, wheel100.edges, wheel100.root, wheel100.eps, wheel100.mult, wheel100.plane, wheel100.geps, wheel100.deps, wheel100.dt, wheel100.pfix, wheel100.lock⟩

theorem shore_moved100 : SameShore 100 (5, 7) toolsQ (toolsIn 100) farIsland bigBox :=
  ⟨rfl, by decide, rfl, fun l q => nearQ_shift (by norm_num) (5, 7) q l, shoresQ.innerClosed, shoresQ.boxClosed, shoresQ.boxSome⟩

example {func' cov' : List (QueryPoint ℚ) → Option (List ℚ)}
    (hd' : signedDistanceFunction (toolsIn 100) (joinNaN (farIsland.map fun f => f.map (inUnit 100 (5, 7)))) (joinNaN (bigBox.map fun f => f.map (inUnit 100 (5, 7)))) false =
      some (func', cov')) :=
  C149_unit_partial (by norm_num) (5, 7) tools_moved shore_moved100 seaFuncs_eq hd' (g := sizesQ) rfl ⟨-30, 30, -30, 30⟩ 1 fun _ => 0

example {func' cov' : List (QueryPoint ℚ) → Option (List ℚ)}
    (hd' : signedDistanceFunction (toolsIn 100) (joinNaN (farIsland.map fun f => f.map (inUnit 100 (5, 7)))) (joinNaN (bigBox.map fun f => f.map (inUnit 100 (5, 7)))) false =
      some (func', cov')) :=
  C149_setup (by norm_num) (5, 7) tools_moved shore_moved100 seaFuncs_eq hd' (g := sizesQ) rfl

example := C149_sizes_partial (c := (1000 : ℚ)) (by norm_num) (5, 7) (C := Unit) (near := fun _ _ => (0, 0)) (fmm := fun _ _ dx _ _ => some fun i _ => i.val * dx)
  (fun _ _ => rfl) (fun _ _ _ _ _ => by simp only [Option.map_some]; congr 1; funext i j; ring) sizesQ_place.1 sizesQ_place.2 (h0 := 1) (coarsen := 1) (rate := 1 / 5)
  (mx := some 2) (crs := ()) (points := [(0, 0)]) (fun _ _ h => by cases h) ⟨3, id, id⟩ sq2D sqEpsD (1 / 5)

example := C149_script (K := ℚ) (5, 7) (S := wheelGen) rfl (fun l => by
    have hf : Function.Injective (inUnit (1 : ℚ) (5, 7)) := fun x y h => by
      simp only [inUnit, Prod.mk.injEq] at h
      exact Prod.ext (by linarith [h.1]) (by linarith [h.2])
    have h := toyInsert_map hf l []
    simp only [List.map_nil] at h
    simp only [wheelGen, wheelCgal, triangulationMoved, h, List.map_map]
    rfl) (shore_moved (5, 7)) (C := Unit) (near := fun _ _ => (0, 0)) (fun _ _ => rfl) (fun _ _ _ _ _ => none) ⟨3, id, id⟩ sq2D sqEpsD false 1 1 (1 / 5) (some 2) (1 / 5) () 1
  (fun _ => 0) 2 (region := ⟨-30, 30, -30, 30⟩) (by unfold NotGlobe; decide +kernel) (by unfold NotGlobe; decide +kernel) ⟨-30, 30, -30, 30⟩ [(0, 0)] [(1, 1)]

/-- The script of the example gives a mesh. -/
example : (shoreMesh (C := Unit) wheelGen toolsQ (fun _ _ => (0, 0)) (fun _ _ _ _ _ => none) ⟨3, id, id⟩ sq2D sqEpsD false 10 1 (1 / 5) (some 20) (1 / 5) () 10 (fun _ => 0) 1
    (joinNaN farIsland) (joinNaN bigBox) ⟨-30, 30, -30, 30⟩ ⟨-30, 30, -30, 30⟩ [(0, 0)] [(1, 1)]).isSome = true := by decide +kernel

end OM
