import Verif.Props.BlendMoved
import Verif.Props.SeaMoved
import Verif.Props.Multimesh
/-!
# Nested domains and their meshes in another place (C153)

The domains of `generate_multiscale_mesh` are moved by a vector. Numbers are exact.
-/
set_option linter.unusedSectionVars false
namespace OM
open Spec
section
variable {K C : Type} [Field K] [LinearOrder K] [IsStrictOrderedRing K] [FloorRing K]

/-- A domain carried to another place: its box is moved, and at a point it has the value it had before at the place the point came from. -/
def Spec.movedDomain (t : K × K) (d : Domain K (K × K) C) : Domain K (K × K) C :=
  ⟨⟨d.box.xmin + t.1, d.box.xmax + t.1, d.box.ymin + t.2, d.box.ymax + t.2⟩, fun q => d.func (q.1 - t.1, q.2 - t.2),
    d.covering.map fun f q => f (q.1 - t.1, q.2 - t.2), d.crs, d.stereo⟩

/-- The call for a nest in another place: the same tools and options, the sizes are the old ones at the moved points. -/
structure Spec.SameNest (t : K × K) (c c' : NestCall K) : Prop where
  tools : SameTools 1 t c.setup c'.setup
  sizes : ∀ l, c'.setup.fh (l.map (movedPoint t)) = c.setup.fh l
  finest : c'.h = c.h
  random : c'.rand = c.rand
  plane : c.stereo = none ∧ c'.stereo = none
  merging : c'.setup.rnd = c.setup.rnd ∧ c'.setup.oP = c.setup.oP ∧ c'.setup.oT = c.setup.oT ∧ c'.setup.ptol = c.setup.ptol

theorem coverDomain_moved (t : K × K) (d : Domain K (K × K) C) : coverDomain (movedDomain t d) = movedDomain t (coverDomain d) := by
  rcases h : d.covering with _ | f <;> simp [coverDomain, movedDomain, h]

theorem firstCrs_moved (t : K × K) (l : List (Domain K (K × K) C)) : firstCrs (l.map (movedDomain t)) = firstCrs l := by
  simp only [firstCrs, List.filterMap_map]
  rfl

theorem listMin_moved (t x : K) (l : List K) : listMin (x + t) (l.map (· + t)) = listMin x l + t := by
  have := listMin_shift t l x
  simpa only [one_mul] using this

theorem listMax_moved (t x : K) (l : List K) : listMax (x + t) (l.map (· + t)) = listMax x l + t := by
  have := listMax_shift t l x
  simpa only [one_mul] using this

theorem computeBbox_moved (t : K × K) (l : List (Domain K (K × K) C)) :
    computeBbox (l.map (movedDomain t)) = (computeBbox l).map fun b => ⟨b.xmin + t.1, b.xmax + t.1, b.ymin + t.2, b.ymax + t.2⟩ := by
  rcases l with _ | ⟨d, l⟩
  · rfl
  · simp only [List.map_cons, computeBbox, List.map_map, Option.map_some, Option.some.injEq]
    have e1 := listMin_moved t.1 d.box.xmin (l.map (·.box.xmin))
    have e2 := listMax_moved t.1 d.box.xmax (l.map (·.box.xmax))
    have e3 := listMin_moved t.2 d.box.ymin (l.map (·.box.ymin))
    have e4 := listMax_moved t.2 d.box.ymax (l.map (·.box.ymax))
    rw [List.map_map] at e1 e2 e3 e4
    rw [← e1, ← e2, ← e3, ← e4]
    rfl

theorem combine_moved (t : K × K) {ev ev' : K × K → Option (Option K)} (h : ∀ q, ev' q = ev (q.1 - t.1, q.2 - t.2)) (l : List (Domain K (K × K) C)) :
    combine ev' (l.map (movedDomain t)) = (combine ev l).map (movedDomain t) := by
  have he : ev' = fun q => ev (q.1 - t.1, q.2 - t.2) := funext h
  have ha : (l.map (movedDomain t)).any (·.stereo) = l.any (·.stereo) := by rw [List.any_map]; rfl
  simp only [combine, computeBbox_moved, firstCrs_moved, ha, Option.map_map, he]
  rfl

theorem unionDomain_moved (t : K × K) (l : List (Domain K (K × K) C)) : unionDomain (l.map (movedDomain t)) = (unionDomain l).map (movedDomain t) := by
  refine combine_moved t (fun q => ?_) l
  rw [List.map_map]
  rfl

theorem differenceDomain_moved (t : K × K) (l : List (Domain K (K × K) C)) :
    differenceDomain (l.map (movedDomain t)) = (differenceDomain l).map (movedDomain t) := by
  refine combine_moved t (fun q => ?_) l
  rcases l with _ | ⟨d, l⟩
  · rfl
  · simp only [List.map_cons, differenceEvals, List.map_map]
    rfl

theorem intersectionDomain_moved (t : K × K) (l : List (Domain K (K × K) C)) :
    intersectionDomain (l.map (movedDomain t)) = (intersectionDomain l).map (movedDomain t) := by
  refine combine_moved t (fun q => ?_) l
  rw [List.map_map]
  rfl

/-- **C153** (1): union, intersection and difference of moved domains are the moved union, intersection and difference; they raise if these raise. -/
theorem C153_operations (t : K × K) (l : List (Domain K (K × K) C)) :
    unionDomain (l.map (movedDomain t)) = (unionDomain l).map (movedDomain t) ∧
      intersectionDomain (l.map (movedDomain t)) = (intersectionDomain l).map (movedDomain t) ∧
      differenceDomain (l.map (movedDomain t)) = (differenceDomain l).map (movedDomain t) :=
  ⟨unionDomain_moved t l, intersectionDomain_moved t l, differenceDomain_moved t l⟩

theorem nests_moved (t : K × K) : ∀ l : List (Domain K (K × K) C), nests (l.map (movedDomain t)) = (nests l).map (List.map (movedDomain t))
  | [] => rfl
  | d :: l => by
    have hc : (l.map (movedDomain t)).map coverDomain = (l.map coverDomain).map (movedDomain t) := by
      rw [List.map_map, List.map_map]
      exact List.map_congr_left fun d _ => coverDomain_moved t d
    have hd := differenceDomain_moved t (d :: l.map coverDomain)
    rw [List.map_cons] at hd
    simp only [List.map_cons, nests, hc, hd, nests_moved t l]
    rcases differenceDomain (d :: l.map coverDomain) with _ | n <;> rcases nests l with _ | r <;> rfl

/-- **C153** (2): the nests and the union that `multiscale_signed_distance_function` makes of moved domains are the moved nests and the moved union; it raises in
one place exactly if it does in the other. -/
theorem C153_domains (t : K × K) (l : List (Domain K (K × K) C)) :
    multiscaleSdf (l.map (movedDomain t)) = (multiscaleSdf l).map fun r => (movedDomain t r.1, r.2.map (movedDomain t)) := by
  simp only [multiscaleSdf, List.length_map, nests_moved]
  split
  · rcases nests l with _ | ns
    · rfl
    · simp only [Option.map_some, unionDomain_moved, Option.map_map]
      rfl
  · rfl

theorem domainArray_moved (t : K × K) (d : Domain K (K × K) C) (l : List (K × K)) : domainArray (movedDomain t d) (l.map (movedPoint t)) = domainArray d l := by
  simp only [domainArray, List.map_map]
  refine congrArg collectAll (List.map_congr_left fun q _ => ?_)
  simp only [Function.comp_apply, movedDomain, movedPoint, add_sub_cancel_right]

theorem scaled_one (x : Float64 K) : scaled 1 x = x := by cases x <;> simp [scaled]

/-- The generator call for a nest, as `nestMesh` makes it. -/
def nestSetup (d : Domain K (K × K) C) (c : NestCall K) : GenSetup K := { c.setup with fd := domainArray d, geps := 1 / 1000 * c.h }

theorem nestSetup_moved {t : K × K} {c c' : NestCall K} (h : SameNest t c c') (d : Domain K (K × K) C) :
    SameInUnit 1 t (nestSetup d c) (nestSetup (movedDomain t d) c') where
  cgal := h.tools.cgal
  edges := h.tools.edges
  root := h.tools.root
  eps := h.tools.eps
  mult := h.tools.mult
  sizes l := by
    have hp : inUnit 1 t = movedPoint t := funext fun q => (movedPoint_unit t q).symm
    have hs : (scaled 1 : Float64 K → Float64 K) = id := funext scaled_one
    change c'.setup.fh _ = (c.setup.fh l).map _
    rw [hp, h.sizes, hs]
    cases c.setup.fh l <;> simp
  domain l := by
    have hp : inUnit 1 t = movedPoint t := funext fun q => (movedPoint_unit t q).symm
    change domainArray _ _ = (domainArray d l).map _
    rw [hp, domainArray_moved]
    cases domainArray d l <;> simp
  plane := h.tools.plane
  geps := by simp only [nestSetup, h.finest, one_mul]
  deps := h.tools.deps
  dt := h.tools.dt
  pfix := h.tools.pfix
  lock := h.tools.lock

theorem nestMesh_eq (maxIter : Nat) (d : Domain K (K × K) C) (c : NestCall K) :
    nestMesh maxIter d c = if 0 < c.h then (startPoints (nestSetup d c) c.h d.box c.rand c.stereo none).bind fun p => (generateMesh (nestSetup d c) maxIter p).map Prod.fst
      else none := rfl

/-- The start points of a nest and the iterations made from them, or nothing if the call raises. -/
def nestRun (maxIter : Nat) (d : Domain K (K × K) C) (c : NestCall K) : Option (List (K × K) × FixResult K × List (GenIter K)) :=
  if 0 < c.h then (startPoints (nestSetup d c) c.h d.box c.rand c.stereo none).bind fun p => (generateMesh (nestSetup d c) maxIter p).map fun r => (p, r)
  else none

/-- `nestRun` is the run whose result `nestMesh` returns. -/
theorem nestRun_mesh (maxIter : Nat) (d : Domain K (K × K) C) (c : NestCall K) : (nestRun maxIter d c).map (fun r => r.2.1) = nestMesh maxIter d c := by
  rw [nestMesh_eq, nestRun]
  split
  · cases startPoints (nestSetup d c) c.h d.box c.rand c.stereo none with
    | none => rfl
    | some p =>
      simp only [Option.bind_some, Option.map_map, Function.comp_def]
  · rfl

theorem nestStart_moved {t : K × K} {c c' : NestCall K} (h : SameNest t c c') (d : Domain K (K × K) C) :
    startPoints (nestSetup (movedDomain t d) c') c'.h (movedDomain t d).box c'.rand c'.stereo none =
      (startPoints (nestSetup d c) c.h d.box c.rand c.stereo none).map (List.map (movedPoint t)) := by
  have hp : inUnit 1 t = movedPoint t := funext fun q => (movedPoint_unit t q).symm
  have hb : (movedDomain t d).box = boxInUnit 1 t d.box := by simp [movedDomain, boxInUnit]
  have := C146_start one_pos t (nestSetup_moved h d) c.h d.box c.rand none
  rw [one_mul, Option.map_none, hp, ← hb] at this
  rw [h.finest, h.random, h.plane.1, h.plane.2, this]

/-- **C153** (3): the start points and all iterations of the mesh of a nest are moved with the domain and the sizes, nothing else changes, and the call raises in one
place exactly if it does in the other. -/
theorem C153_nest {t : K × K} {c c' : NestCall K} (h : SameNest t c c') (d : Domain K (K × K) C) (maxIter : Nat) :
    (nestRun maxIter (movedDomain t d) c').map (fun r => (r.1, r.2.2)) =
      (nestRun maxIter d c).map fun r => (r.1.map (movedPoint t), r.2.2.map (iterMoved (movedPoint t))) := by
  have hp : inUnit 1 t = movedPoint t := funext fun q => (movedPoint_unit t q).symm
  rw [nestRun, nestRun, nestStart_moved h d, h.finest]
  generalize startPoints (nestSetup d c) c.h d.box c.rand c.stereo none = o
  have key := fun p => C146_iterations one_pos t (nestSetup_moved h d) (.inl rfl) maxIter p
  rw [hp] at key
  generalize generateMesh (nestSetup (movedDomain t d) c') maxIter = G' at key ⊢
  generalize generateMesh (nestSetup d c) maxIter = G at key ⊢
  split
  · cases o with
    | none => simp only [Option.map_none, Option.bind_none]
    | some p =>
      have e := congrArg (Option.map fun l => (p.map (movedPoint t), l)) (key p)
      simp only [Option.map_some, Option.bind_some, Option.map_map, Function.comp_def] at e ⊢
      exact e
  · simp only [Option.map_none]

/-- **C153** (4): the meshes of the nests of moved domains exist exactly if those of the domains exist. -/
theorem C153_nests_raise {t : K × K} (maxIter : Nat) : ∀ (ns : List (Domain K (K × K) C)) (calls calls' : List (NestCall K)),
    List.Forall₂ (SameNest t) calls calls' → (nestMeshes maxIter (ns.map (movedDomain t)) calls').isSome = (nestMeshes maxIter ns calls).isSome
  | [], _, _, _ => rfl
  | _ :: _, [], _, h => by cases h; rfl
  | d :: ns, c :: cs, _, .cons (b := c') (l₂ := cs') h hl => by
    have ih := C153_nests_raise maxIter ns cs cs' hl
    have h1 : (nestMesh maxIter (movedDomain t d) c').isSome = (nestMesh maxIter d c).isSome := by
      have := congrArg Option.isSome (C153_nest h d maxIter)
      rw [← nestRun_mesh, ← nestRun_mesh]
      simpa only [Option.isSome_map] using this
    simp only [List.map_cons, nestMeshes]
    rcases ha : nestMesh maxIter (movedDomain t d) c' with _ | a <;> rcases hb : nestMesh maxIter d c with _ | b <;> rw [ha, hb] at h1
    · rfl
    · cases h1
    · cases h1
    · rcases he : nestMeshes maxIter (ns.map (movedDomain t)) cs' with _ | e <;> rcases hf : nestMeshes maxIter ns cs with _ | f <;> rw [he, hf] at ih
      · rfl
      · cases ih
      · cases ih
      · rfl

/-- **C153** (5): the mesh of a nest of moved domains is the moved mesh, if the points of the last iteration are further apart than the merging distance of `fix_mesh`
(numbers and order can differ). -/
theorem C153_nest_mesh_partial {t : K × K} {c c' : NestCall K} (h : SameNest t c c') (d : Domain K (K × K) C) (hr : IsRounding c.setup.rnd) (hpt : 0 < c.setup.ptol)
    {maxIter : Nat} {p : List (K × K)} {m : FixResult K} {l : List (GenIter K)} (hm : nestRun maxIter d c = some (p, m, l)) {r : GenIter K}
    (hl : l.getLast? = some r) {e : K} (he : FitsIn e r.points) (hn : r.points.Nodup) (hs : Separated (e * c.setup.ptol) r.points) :
    nestMesh maxIter d c = some m ∧ ∃ m', nestMesh maxIter (movedDomain t d) c' = some m' ∧ Moved (movedPoint t) m.p m.t m'.p m'.t := by
  have hp : inUnit 1 t = movedPoint t := funext fun q => (movedPoint_unit t q).symm
  refine ⟨by rw [← nestRun_mesh, hm]; rfl, ?_⟩
  unfold nestRun at hm
  split at hm
  · rename_i hh
    obtain ⟨p0, h0, h1⟩ := Option.bind_eq_some_iff.1 hm
    obtain ⟨⟨m0, l0⟩, h2, h3⟩ := Option.map_eq_some_iff.1 h1
    simp only [Prod.mk.injEq] at h3
    obtain ⟨rfl, rfl, rfl⟩ := h3
    obtain ⟨m', l', h4, h5⟩ := C146_mesh one_pos t (nestSetup_moved h d) (.inl rfl) h.merging hr hpt h2 hl he hn hs
    refine ⟨m', ?_, by rw [← hp]; exact h5⟩
    rw [nestMesh_eq, h.finest, if_pos hh, ← h.finest, nestStart_moved h d, h0, Option.map_some, Option.bind_some, ← hp, h4]
    rfl
  · cases hm

/-- The blended sizes given to the generator at an array of points (`oceanmesh/edgefx.py:1014-1027`, `oceanmesh/mesh_generator.py:717-725`): the first call of the
function that `multiscale_sizing_function` returns. -/
def blendedSizes (gs : List (Grid K C)) (l : List (K × K)) : Option (List (Float64 K)) :=
  some (l.map fun q => match (multiscaleFunc gs q).2 with | some v => .fin v | none => .nan)

/-- **C153** (6): the final run, started from the moved points of the nests in the same order with the moved grids as sizes: all iterations are moved. Missing: the order
in which `fix_mesh` returns the points of a nest depends on the bytes of the coordinates, so the points can come in another order. -/
theorem C153_final_partial {t : K × K} {S S' : GenSetup K} (hS : SameTools 1 t S S') {gs : List (Grid K C)} (hn : ∀ g ∈ gs, NeverGlobe t g) (u : Domain K (K × K) C)
    (hs : List K) (blendIter : Nat) (p : List (K × K)) :
    (generateMesh { blendSetup S' (movedDomain t u) hs with fh := blendedSizes (gs.map (movedGrid t)) } blendIter (p.map (movedPoint t))).map Prod.snd =
      (generateMesh { blendSetup S u hs with fh := blendedSizes gs } blendIter p).map fun r => r.2.map (iterMoved (movedPoint t)) := by
  have hp : inUnit 1 t = movedPoint t := funext fun q => (movedPoint_unit t q).symm
  have h : SameInUnit 1 t ({ blendSetup S u hs with fh := blendedSizes gs } : GenSetup K)
      { blendSetup S' (movedDomain t u) hs with fh := blendedSizes (gs.map (movedGrid t)) } :=
    { cgal := hS.cgal
      edges := hS.edges
      root := hS.root
      eps := hS.eps
      mult := hS.mult
      sizes := fun l => by
        have hs : (scaled 1 : Float64 K → Float64 K) = id := funext scaled_one
        simp only [blendedSizes, hp, hs, List.map_map, Option.map_some, Option.some.injEq, List.map_id]
        exact List.map_congr_left fun q _ => by simp only [Function.comp_apply, C152_sizes_partial hn]
      domain := fun l => by
        change domainArray _ _ = (domainArray u l).map _
        rw [hp, domainArray_moved]
        cases domainArray u l <;> simp
      plane := hS.plane
      geps := (one_mul _).symm
      deps := hS.deps
      dt := hS.dt
      pfix := hS.pfix
      lock := rfl }
  have := C146_iterations one_pos t h (.inl rfl) blendIter p
  rw [hp] at this
  exact this

end

/-! ## Examples -/

theorem movedPoint_injective (t : ℚ × ℚ) : Function.Injective (movedPoint t) := fun x y h => by
  simp only [movedPoint, Prod.mk.injEq, add_left_inj] at h
  exact Prod.ext h.1 h.2

/-- The calls of the example with their fixed points moved. -/
def callsMoved (t : ℚ × ℚ) : List (NestCall ℚ) := callsQ.map fun c => { c with setup := { c.setup with pfix := c.setup.pfix.map (movedPoint t) } }

theorem genQ_tools (t : ℚ × ℚ) (fix : List (ℚ × ℚ)) (fh : List (ℚ × ℚ) → Option (List (Float64 ℚ))) :
    SameTools 1 t { genQ fix false with fh := fh } { genQ (fix.map (movedPoint t)) false with fh := fh } where
  cgal l := by
    have hp : inUnit 1 t = movedPoint t := funext fun q => (movedPoint_unit t q).symm
    have h := toyInsert_map (movedPoint_injective t) l []
    simp only [List.map_nil] at h
    have hf : ∀ vs : List (DVertex ℚ), toyFaces (vs.map fun v => { v with point := movedPoint t v.point }) = toyFaces vs := fun vs => by
      rcases vs with _ | ⟨a, _ | ⟨b, _ | ⟨c, vs⟩⟩⟩ <;> rfl
    simp only [genQ, toyCgal, triangulationMoved, hp, h, hf]
  edges := rfl
  root x := by simp [genQ]
  eps := (one_mul _).symm
  mult := rfl
  plane := ⟨rfl, rfl⟩
  geps := (one_mul _).symm
  deps := (one_mul _).symm
  dt := rfl
  pfix := by
    have hp : inUnit 1 t = movedPoint t := funext fun q => (movedPoint_unit t q).symm
    rw [hp]
    rfl
  lock := rfl

theorem callsMoved_same (t : ℚ × ℚ) : List.Forall₂ (SameNest t) callsQ (callsMoved t) :=
  .cons ⟨genQ_tools t _ _, fun l => congrArg some (by rw [List.map_map]; rfl), rfl, rfl, ⟨rfl, rfl⟩, ⟨rfl, rfl, rfl, rfl⟩⟩
    (.cons ⟨genQ_tools t _ _, fun l => congrArg some (by rw [List.map_map]; rfl), rfl, rfl, ⟨rfl, rfl⟩, ⟨rfl, rfl, rfl, rfl⟩⟩ .nil)

example : ((multiscaleSdf nestedQ).map fun r => r.2.length) = some 2 ∧
    ((multiscaleSdf (nestedQ.map (movedDomain (3, 7)))).map fun r => (r.1.box.xmin, r.1.func (4, 8))) = some (3, some (some (-1))) := by decide +kernel
example (t : ℚ × ℚ) : ((multiscaleSdf nestedQ).bind fun r => nestMeshes 1 (r.2.map (movedDomain t)) (callsMoved t)).isSome = true := by
  obtain ⟨u, ns, h1, h2, -⟩ := multiscaleMesh_parts multiscaleMesh_example
  rw [h1, Option.bind_some, C153_nests_raise 1 ns callsQ (callsMoved t) (callsMoved_same t), h2]
  rfl
example (t : ℚ × ℚ) := C153_final_partial (genQ_tools t [] fun l => some (l.map fun _ => .fin 20)) (gs := [coarseEx]) (t := t)

end OM
