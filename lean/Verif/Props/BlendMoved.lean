import Verif.Props.MovingSizes
import Verif.Props.BlendList
/-!
# Several sizing grids in another place (C152)

`sizesInUnit 1 t` is the grid moved by `t`. Numbers are exact. The tree query of the inverse-distance interpolation is assumed not to depend on the place
(`query` at moved points gives the same distances and indices).
-/
set_option linter.unusedSectionVars false
namespace OM
open Spec
section
variable {K C : Type} [Field K] [LinearOrder K] [IsStrictOrderedRing K] [FloorRing K]

/-- A grid carried to another place: only its box changes. -/
def Spec.movedGrid (t : K × K) (g : Grid K C) : Grid K C :=
  { g with box := ⟨g.box.xmin + t.1, g.box.xmax + t.1, g.box.ymin + t.2, g.box.ymax + t.2⟩ }

/-- A point carried to another place. -/
def Spec.movedPoint (t q : K × K) : K × K := (q.1 + t.1, q.2 + t.2)

/-- The neighbours found in moved points at a moved point are those found before. -/
def Spec.QueryMoves (t : K × K) (query : List (K × K) → K × K → List (K × Nat)) : Prop :=
  ∀ pts q, query (pts.map (movedPoint t)) (movedPoint t q) = query pts q

/-- Neither here nor there the grid is taken for the globe. -/
def Spec.NeverGlobe (t : K × K) (g : Grid K C) : Prop :=
  ¬ (|g.box.xmin| = 180 ∧ |g.box.xmax| = 180) ∧ ¬ (|g.box.xmin + t.1| = 180 ∧ |g.box.xmax + t.1| = 180)

theorem movedGrid_unit (t : K × K) (g : Grid K C) : movedGrid t g = sizesInUnit 1 t g := by
  obtain ⟨b, dx, dy, nx, ny, v, h, e, c, i⟩ := g
  simp [movedGrid, sizesInUnit, boxInUnit]

theorem movedPoint_unit (t q : K × K) : movedPoint t q = inUnit 1 t q := by simp [movedPoint, inUnit]

theorem one_mul_map (v : Option K) : v.map ((1 : K) * ·) = v := by cases v <;> simp

theorem outside_moved (t : K × K) (g : Grid K C) (q : K × K) : (movedGrid t g).outside (movedPoint t q) = g.outside q := by
  rw [movedGrid_unit, movedPoint_unit, outside_unit one_pos]

theorem linearAt_moved (t : K × K) (g : Grid K C) (q : K × K) : (movedGrid t g).linearAt (movedPoint t q) = g.linearAt q := by
  rw [movedGrid_unit, movedPoint_unit, linearAt_unit one_pos, one_mul_map]

theorem nearestAt_moved (t : K × K) (g : Grid K C) (q : K × K) : (movedGrid t g).nearestAt (movedPoint t q) = g.nearestAt q := by
  rw [movedGrid_unit, movedPoint_unit, nearestAt_unit one_pos, one_mul_map]

theorem node_moved (t : K × K) (g : Grid K C) (i j : Nat) :
    ((movedGrid t g).xAt i, (movedGrid t g).yAt j) = movedPoint t (g.xAt i, g.yAt j) := by
  rw [movedGrid_unit, movedPoint_unit, node_unit one_pos]

theorem evalWith_moved (t : K × K) (g : Grid K C) (e : Bool) (q : K × K) : (movedGrid t g).evalWith e (movedPoint t q) = g.evalWith e q := by
  simp only [Grid.evalWith, outside_moved, linearAt_moved]

theorem mergedValue_moved (t : K × K) (g g2 : Grid K C) : (movedGrid t g).mergedValue (movedGrid t g2) = g.mergedValue g2 := by
  funext i j
  have he : (movedGrid t g).extrapolate = g.extrapolate := rfl
  simp only [Grid.mergedValue, Grid.sourceValue, node_moved, nearestAt_moved, outside_moved, he]
  rfl

theorem overlaps_moved (t : K × K) (g g2 : Grid K C) : (movedGrid t g).overlaps (movedGrid t g2) = g.overlaps g2 := by
  simp only [Grid.overlaps, movedGrid, add_lt_add_iff_right]

theorem interpolateTo_moved (t : K × K) (g g2 : Grid K C) :
    (movedGrid t g).interpolateTo (movedGrid t g2) = (g.interpolateTo g2).map (movedGrid t) := by
  simp only [Grid.interpolateTo, overlaps_moved, mergedValue_moved]
  split <;> rfl

theorem padded_moved (t : K × K) (g : Grid K C) (w : Nat) : (movedGrid t g).padded w = movedGrid t (g.padded w) := by
  simp only [Grid.padded, movedGrid]
  congr 2 <;> ring

theorem buildInterpolant_moved {t : K × K} {g : Grid K C} (h : NeverGlobe t g) :
    (movedGrid t g).buildInterpolant = movedGrid t g.buildInterpolant := by
  have h1 : cyclicBox g.box = false := notGlobe_cyclic h.1
  have h2 : cyclicBox (movedGrid t g).box = false := notGlobe_cyclic h.2
  simp only [Grid.buildInterpolant, cyclicVals, h1, h2, Bool.false_eq_true, if_false]
  rfl

theorem filledVals_moved {t : K × K} {query : List (K × K) → K × K → List (K × Nat)} (hq : QueryMoves t query) (pw : K → K) (nnear : Nat) (g : Grid K C) :
    (movedGrid t g).filledVals pw nnear query = g.filledVals pw nnear query := by
  funext i j
  have hk : ((movedGrid t g).known.map fun n => ((movedGrid t g).xAt n.1, (movedGrid t g).yAt n.2)) =
      (g.known.map fun n => (g.xAt n.1, g.yAt n.2)).map (movedPoint t) := by
    rw [List.map_map]
    exact List.map_congr_left fun n _ => node_moved t g n.1 n.2
  simp only [Grid.filledVals]
  rw [hk, node_moved, hq]
  rfl

/-- **C152** (1): blending a moved fine grid into a moved coarse grid gives the moved blended grid, and fails if blending fails. -/
theorem C152_blend {t : K × K} {query : List (K × K) → K × K → List (K × Nat)} (hq : QueryMoves t query) (pw : K → K) (nnear w : Nat) (g coarse : Grid K C) :
    (movedGrid t g).blendInto pw nnear query w (movedGrid t coarse) = (g.blendInto pw nnear query w coarse).map (movedGrid t) := by
  have hb : ((movedGrid t coarse).box.xmin < (movedGrid t g).box.xmin ∧ (movedGrid t g).box.xmax < (movedGrid t coarse).box.xmax ∧
      (movedGrid t coarse).box.ymin < (movedGrid t g).box.ymin ∧ (movedGrid t g).box.ymax < (movedGrid t coarse).box.ymax) ↔
      (coarse.box.xmin < g.box.xmin ∧ g.box.xmax < coarse.box.xmax ∧ coarse.box.ymin < g.box.ymin ∧ g.box.ymax < coarse.box.ymax) := by
    simp only [movedGrid, add_lt_add_iff_right]
  simp only [Grid.blendInto, hb, padded_moved, interpolateTo_moved]
  split
  · rcases hc : (g.padded w).interpolateTo coarse with _ | c
    · rfl
    · simp only [Option.map_some]
      have h1 : (movedGrid t c).asked = c.asked := rfl
      have h2 : (movedGrid t c).known = c.known := rfl
      rw [filledVals_moved hq, h1, h2]
      by_cases ha : c.asked = []
      · rw [if_pos ha]; exact (if_pos ha).trans rfl
      · rw [if_neg ha]
        refine (if_neg ha).trans ?_
        by_cases hk : c.known.length < nnear
        · rw [if_pos hk]; exact (if_pos hk).trans rfl
        · rw [if_neg hk]; exact (if_neg hk).trans rfl
  · rfl

theorem blendInto_box {pw : K → K} {nnear w : Nat} {query : List (K × K) → K × K → List (K × Nat)} {g coarse c : Grid K C}
    (h : g.blendInto pw nnear query w coarse = some c) : c.box = coarse.box := by
  unfold Grid.blendInto at h
  split at h
  · rcases hc : (g.padded w).interpolateTo coarse with _ | d
    · rw [hc] at h; cases h
    · rw [hc] at h
      have hd : d.box = coarse.box := by
        unfold Grid.interpolateTo at hc
        split at hc
        · cases hc; rfl
        · cases hc
      dsimp only at h
      split at h
      · cases h; exact hd
      · split at h
        · cases h
        · cases h; exact hd
  · cases h; rfl

theorem blendAll_moved {t : K × K} {query : List (K × K) → K × K → List (K × Nat)} (hq : QueryMoves t query) (pw : K → K) (nnear : Nat)
    {width : Grid K C → Nat} (hw : ∀ g, width (movedGrid t g) = width g) : ∀ (l : List (Grid K C)) (coarse : Grid K C), NeverGlobe t coarse →
    blendAll pw nnear query width (movedGrid t coarse) (l.map (movedGrid t)) = (blendAll pw nnear query width coarse l).map (movedGrid t)
  | [], _, _ => rfl
  | f :: l, coarse, hn => by
    have hf : ({ movedGrid t f with extrapolate := false } : Grid K C) = movedGrid t { f with extrapolate := false } := rfl
    simp only [List.map_cons, blendAll, hw, hf, C152_blend hq]
    rcases hb : Grid.blendInto pw nnear query (width f) { f with extrapolate := false } coarse with _ | c
    · rfl
    · simp only [Option.map_some]
      have hbox := blendInto_box hb
      have hn' : NeverGlobe t ({ c with extrapolate := true } : Grid K C) := by
        unfold NeverGlobe at hn ⊢
        dsimp only
        rw [hbox]
        exact hn
      have he : ({ movedGrid t c with extrapolate := true } : Grid K C) = movedGrid t { c with extrapolate := true } := rfl
      rw [he, buildInterpolant_moved hn']
      exact blendAll_moved hq pw nnear hw l _ hn'

theorem blendList_moved {t : K × K} {query : List (K × K) → K × K → List (K × Nat)} (hq : QueryMoves t query) (pw : K → K) (nnear : Nat)
    {width : Grid K C → Nat} (hw : ∀ g, width (movedGrid t g) = width g) : ∀ l : List (Grid K C), (∀ g ∈ l, NeverGlobe t g) →
    blendList pw nnear query width (l.map (movedGrid t)) = (blendList pw nnear query width l).map (List.map (movedGrid t))
  | [], _ => rfl
  | [_], _ => rfl
  | g :: f :: l, hn => by
    have h1 := blendAll_moved hq pw nnear hw (f :: l) g (hn g (by simp))
    have h2 := blendList_moved hq pw nnear hw (f :: l) fun x hx => hn x (List.mem_cons_of_mem _ hx)
    simp only [List.map_cons] at h1 h2
    simp only [List.map_cons, blendList, h1, h2]
    rcases blendAll pw nnear query width g (f :: l) with _ | c <;> rcases blendList pw nnear query width (f :: l) with _ | r <;> rfl

theorem descending_moved (t : K × K) : ∀ l : List (Grid K C), descending (l.map (movedGrid t)) = descending l
  | [] => rfl
  | [_] => rfl
  | g :: f :: l => by
    have h := descending_moved t (f :: l)
    simp only [List.map_cons] at h
    simp only [List.map_cons, descending, h]
    rfl

/-- **C152** (2): `multiscale_sizing_function` for moved grids prepares the moved grids, and fails if it fails, if no grid is taken for the globe. -/
theorem C152_grids_partial {t : K × K} {query : List (K × K) → K × K → List (K × Nat)} (hq : QueryMoves t query) (pw : K → K) (nnear : Nat) (blendWidth : K)
    (hasUnits : C → Bool) {l : List (Grid K C)} (hn : ∀ g ∈ l, NeverGlobe t g) :
    multiscaleGrids pw nnear query blendWidth hasUnits (l.map (movedGrid t)) =
      (multiscaleGrids pw nnear query blendWidth hasUnits l).map (List.map (movedGrid t)) := by
  simp only [multiscaleGrids, descending_moved]
  split
  · exact blendList_moved hq pw nnear (fun _ => rfl) l hn
  · rfl

theorem funcLoop_moved {t : K × K} (q : K × K) : ∀ (l : List (Grid K C)) (i : Nat) (h : Option K), (∀ g ∈ l, NeverGlobe t g) →
    funcLoop (movedPoint t q) i h (l.map (movedGrid t)) = ((funcLoop q i h l).1.map (movedGrid t), (funcLoop q i h l).2)
  | [], _, _, _ => rfl
  | g :: l, i, h, hn => by
    have hg : NeverGlobe t ({ g with extrapolate := decide (i = 0) } : Grid K C) := hn g (by simp)
    have he : ({ movedGrid t g with extrapolate := decide (i = 0) } : Grid K C) = movedGrid t { g with extrapolate := decide (i = 0) } := rfl
    simp only [List.map_cons, funcLoop, he, buildInterpolant_moved hg, evalWith_moved, funcLoop_moved q l _ _ fun x hx => hn x (List.mem_cons_of_mem _ hx)]

/-- **C152** (3): the returned function gives at a moved point the size it gave before, and leaves its grids in the moved state. -/
theorem C152_sizes_partial {t : K × K} {l : List (Grid K C)} (hn : ∀ g ∈ l, NeverGlobe t g) (q : K × K) :
    multiscaleFunc (l.map (movedGrid t)) (movedPoint t q) = ((multiscaleFunc l q).1.map (movedGrid t), (multiscaleFunc l q).2) :=
  funcLoop_moved q l 0 _ hn

theorem blendAll_box {pw : K → K} {nnear : Nat} {query : List (K × K) → K × K → List (K × Nat)} {width : Grid K C → Nat} :
    ∀ (l : List (Grid K C)) (coarse c : Grid K C), blendAll pw nnear query width coarse l = some c → c.box = coarse.box
  | [], _, _, h => by cases h; rfl
  | f :: l, coarse, c, h => by
    simp only [blendAll] at h
    rcases hb : Grid.blendInto pw nnear query (width f) { f with extrapolate := false } coarse with _ | d
    · rw [hb] at h; cases h
    · rw [hb] at h
      dsimp only at h
      have hd : c.box = (Grid.buildInterpolant { d with extrapolate := true }).box := blendAll_box l _ c h
      have hd' : c.box = d.box := hd
      rw [hd', blendInto_box hb]

theorem blendList_never {t : K × K} {pw : K → K} {nnear : Nat} {query : List (K × K) → K × K → List (K × Nat)} {width : Grid K C → Nat} :
    ∀ (l rs : List (Grid K C)), (∀ g ∈ l, NeverGlobe t g) → blendList pw nnear query width l = some rs → ∀ r ∈ rs, NeverGlobe t r
  | [], _, _, h => by cases h
  | [g], _, hn, h => by
    cases h
    intro r hr
    rw [List.mem_singleton] at hr
    subst hr
    exact hn g (by simp)
  | g :: f :: l, rs, hn, h => by
    simp only [blendList] at h
    rcases h1 : blendAll pw nnear query width g (f :: l) with _ | c
    · rw [h1] at h; cases h
    · rcases h2 : blendList pw nnear query width (f :: l) with _ | r2
      · rw [h1, h2] at h; cases h
      · rw [h1, h2] at h
        cases h
        intro r hr
        rcases List.mem_cons.1 hr with rfl | hr
        · have := hn g (by simp)
          unfold NeverGlobe at this ⊢
          rw [blendAll_box _ _ _ h1]
          exact this
        · exact blendList_never (f :: l) r2 (fun x hx => hn x (List.mem_cons_of_mem _ hx)) h2 r hr

/-- **C152** (4): preparing and asking together, as one call of `multiscale_sizing_function` and one of the function it returns: the size at a moved point
from the moved grids is the size from the grids. `none`: the preparation raises. -/
theorem C152_multiscale_partial {t : K × K} {query : List (K × K) → K × K → List (K × Nat)} (hq : QueryMoves t query) (pw : K → K) (nnear : Nat)
    (blendWidth : K) (hasUnits : C → Bool) {l : List (Grid K C)} (hn : ∀ g ∈ l, NeverGlobe t g) (q : K × K) :
    (multiscaleGrids pw nnear query blendWidth hasUnits (l.map (movedGrid t))).map (fun gs => (multiscaleFunc gs (movedPoint t q)).2) =
      (multiscaleGrids pw nnear query blendWidth hasUnits l).map fun gs => (multiscaleFunc gs q).2 := by
  rw [C152_grids_partial hq pw nnear blendWidth hasUnits hn]
  rcases h : multiscaleGrids pw nnear query blendWidth hasUnits l with _ | rs
  · rfl
  · have hr : ∀ r ∈ rs, NeverGlobe t r := by
      unfold multiscaleGrids at h
      split at h
      · exact blendList_never l rs hn h
      · cases h
    simp only [Option.map_some, C152_sizes_partial hr]

theorem alignedVals_moved [DecidableEq C] {t : K × K} (tr : C → C → K × K → K × K) {base other : Grid K C} (hc : other.crs = base.crs) :
    alignedVals tr (movedGrid t base) (movedGrid t other) = alignedVals tr base other := by
  have hc' : (movedGrid t other).crs = (movedGrid t base).crs := hc
  simp only [alignedVals, if_pos hc, if_pos hc', overlaps_moved, mergedValue_moved]
  rfl

/-- The second half of `compute_minimum`, once the values are aligned. -/
def finishMinimum (base : Grid K C) (o : Option (List (Fin base.nx → Fin base.ny → Option K))) : Option (Grid K C) :=
  o.bind fun arrs => (minElement ((allVals (minReduce base.vals arrs)).filterMap fun v => v.filter fun x => decide (0 < x))).map fun h =>
    Grid.buildInterpolant { base with vals := minReduce base.vals arrs, hmin := some h, extrapolate := true, interp := none }

theorem computeMinimum_finish [DecidableEq C] (tr : C → C → K × K → K × K) (base : Grid K C) (others : List (Grid K C)) :
    computeMinimum tr (base :: others) = finishMinimum base (collectAll (others.map (alignedVals tr base))) := by
  simp only [computeMinimum, finishMinimum]
  rcases collectAll (others.map (alignedVals tr base)) with _ | arrs
  · rfl
  · dsimp only [Option.bind_some]
    split <;> rename_i heq <;> rw [heq] <;> rfl

theorem finishMinimum_moved {t : K × K} {base : Grid K C} (hn : NeverGlobe t base) (o : Option (List (Fin base.nx → Fin base.ny → Option K))) :
    finishMinimum (movedGrid t base) o = (finishMinimum base o).map (movedGrid t) := by
  rcases o with _ | arrs
  · rfl
  · have hv : allVals (minReduce (movedGrid t base).vals arrs) = allVals (minReduce base.vals arrs) := rfl
    simp only [finishMinimum, Option.bind_some, hv, Option.map_map]
    refine congrArg (fun f => Option.map f _) (funext fun h => ?_)
    have hb : NeverGlobe t ({ base with vals := minReduce base.vals arrs, hmin := some h, extrapolate := true, interp := none } : Grid K C) := hn
    exact buildInterpolant_moved hb

/-- **C152** (5): the minimum of moved grids is the moved minimum, and fails if it fails, if all grids are in one coordinate system and the first is not
taken for the globe. -/
theorem C152_minimum_partial [DecidableEq C] {t : K × K} (tr : C → C → K × K → K × K) {base : Grid K C} {others : List (Grid K C)}
    (hc : ∀ g ∈ others, g.crs = base.crs) (hn : NeverGlobe t base) :
    computeMinimum tr ((base :: others).map (movedGrid t)) = (computeMinimum tr (base :: others)).map (movedGrid t) := by
  have ha : (others.map (movedGrid t)).map (alignedVals tr (movedGrid t base)) = others.map (alignedVals tr base) := by
    rw [List.map_map]
    exact List.map_congr_left fun g hg => alignedVals_moved tr (hc g hg)
  have e1 := computeMinimum_finish tr base others
  have e2 := computeMinimum_finish tr (movedGrid t base) (others.map (movedGrid t))
  rw [List.map_cons, e1, e2, ha]
  exact finishMinimum_moved hn _

/-! ## Findings and examples -/

/-- A grid of 360 degrees whose values differ at its ends. -/
def aroundEx : Grid ℚ Nat := ⟨⟨-180, 180, -1, 1⟩, 180, 2, 3, 2, fun i _ => some ((i : Nat) + 1), some 1, true, 0, none⟩

/-- Finding: for a grid that reaches from −180 to 180 degrees the two ends are exchanged, for the same grid somewhere else they are not, so moving it by one
degree changes the size at its ends. -/
theorem C152_globe_place : (multiscaleFunc [aroundEx] (-180, 0)).2 = some 3 ∧
    (multiscaleFunc [movedGrid (1, 0) aroundEx] (movedPoint (1, 0) (-180, 0))).2 = some 1 := by decide +kernel

/-- Finding: the size is at most 999999 in any unit. A grid in millimetres gives another size than the same grid in metres. -/
theorem C152_sizes_unit : ∃ g : Grid ℚ Nat, (multiscaleFunc [g] (0, 0)).2 = some 2000 ∧
    (multiscaleFunc [sizesInUnit 1000 (0, 0) g] (inUnit 1000 (0, 0) (0, 0))).2 = some 999999 :=
  ⟨⟨⟨0, 1, 0, 1⟩, 1, 1, 2, 2, fun _ _ => some 2000, some 2000, true, 0, none⟩, by decide +kernel⟩

theorem sqDist_moves (t p q : ℚ × ℚ) : sqDist (movedPoint t p) (movedPoint t q) = sqDist p q := by
  simp only [sqDist, movedPoint, add_sub_add_right_eq_sub]

/-- The distances and numbers of the nearest point do not depend on the place. -/
theorem nearestIndex_moves (t q : ℚ × ℚ) : ∀ (pts : List (ℚ × ℚ)) (k : Nat) (b : Option (ℚ × Nat)),
    nearestIndex (movedPoint t q) k b (pts.map (movedPoint t)) = nearestIndex q k b pts
  | [], _, none => rfl
  | [], _, some _ => rfl
  | p :: l, k, none => by
    simp only [List.map_cons, nearestIndex, sqDist_moves]
    exact nearestIndex_moves t q l _ _
  | p :: l, k, some b => by
    simp only [List.map_cons, nearestIndex, sqDist_moves]
    exact nearestIndex_moves t q l _ _

example : QueryMoves (10, 20) (fun (pts : List (ℚ × ℚ)) q => nearestIndex q 0 none pts) := fun pts q => nearestIndex_moves (10, 20) q pts 0 none
example : (∀ g ∈ [coarseEx, fineEx, innerEx], NeverGlobe (10, 20) g) ∧
    (multiscaleGrids id 1 (fun pts q => nearestIndex q 0 none pts) (1 / 4) (fun _ => true) [coarseEx, fineEx, innerEx]).isSome = true := by
  refine ⟨?_, by decide +kernel⟩
  intro g hg
  simp only [List.mem_cons, List.not_mem_nil, or_false] at hg
  rcases hg with rfl | rfl | rfl <;> unfold NeverGlobe <;> decide +kernel
example : (fineEx.blendInto id 1 (fun pts q => nearestIndex q 0 none pts) 1 coarseEx).isSome = true ∧
    ((movedGrid (10, 20) fineEx).blendInto id 1 (fun pts q => nearestIndex q 0 none pts) 1 (movedGrid (10, 20) coarseEx)).map (fun c => c.box.xmin) =
      some (coarseEx.box.xmin + 10) := by decide +kernel
example : (∀ g ∈ [fineEx], g.crs = coarseEx.crs) ∧ NeverGlobe (10, 20) coarseEx ∧
    ((computeMinimum (fun _ _ q => q) [coarseEx, fineEx]).map fun g => g.hmin) = some (some 1) := by
  refine ⟨fun g hg => by rw [List.mem_singleton] at hg; subst hg; rfl, by unfold NeverGlobe; decide +kernel, by decide +kernel⟩

end
end OM
