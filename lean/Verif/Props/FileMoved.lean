import Verif.Props.SeaMoved
import Verif.Props.ShoreMoved
/-!
# C151: from the file to the mesh in another place
-/
set_option linter.unusedSectionVars false
namespace OM
open Spec
section
variable {K C G H : Type} [Field K] [LinearOrder K] [IsStrictOrderedRing K] [FloorRing K]

theorem joinNaN_rows (c : K) (t : K × K) : ∀ fs : List (List (K × K)), rowsInUnit c t (joinNaN fs) = joinNaN (fs.map fun f => f.map (inUnit c t))
  | [] => rfl
  | f :: fs => by
    have := joinNaN_rows c t fs
    simp only [rowsInUnit] at this
    simp [rowsInUnit, joinNaN, this]

/-- The calls of a script (`README.md:286-287,320-323,390-391`): the shoreline of a region is read from a file, then as in `shoreMesh`, with the box of the shoreline. -/
def fileMesh (L : ShapeLib K G) (mask : Box K → Option (K × K) → Bool) (a : ShoreArgs K) (S : GenSetup K) (T : SdfTools K) (near : Grid K C → K × K → Nat × Nat)
    (fmm : (n m : Nat) → K → K → (Fin n → Fin m → Bool) → Option (Fin n → Fin m → K)) (M : StereoMaps K) (sq2 sqEps : K) (invert : Bool) (coarsen rate : K)
    (mx : Option K) (gradation : K) (crs : C) (h : K) (rand : Nat → K) (maxIter : Nat) (e : Extent K) (fs : List (Feature K)) (points pfix : List (K × K)) :
    Option (List (GenIter K)) := do
  let x ← shoreline L mask a e fs
  shoreMesh S T near fmm M sq2 sqEps invert a.h0 coarsen rate mx gradation crs h rand maxIter x.2.inner x.2.boubox x.1 x.1 points pfix

/-- **C151** (7): from the file to the mesh in another place. Everything is moved, and the script raises in one place exactly if it does in the other. -/
theorem C151_file_partial {t : K × K} {L : ShapeLib K G} {L' : ShapeLib K H} {m : G → H} (hL : SameShapes 1 t L L' m) (hring : RingsClosed L)
    {mask mask' : Box K → Option (K × K) → Bool} (hm : ∀ b p, mask' (boxInUnit 1 t b) (p.map (inUnit 1 t)) = mask b p) {a : ShoreArgs K} (ha : a.stereo = false)
    {e : Extent K} {fs : List (Feature K)} (hf : ∀ g ∈ fs, ∀ q ∈ g.coords, q.1 + t.1 = q.2 + t.2 ↔ q.1 = q.2)
    (hclosed : ∀ f ∈ fs, ∃ p g, f.coords = p :: g ++ [p] ∧ p.1 ≠ p.2) (hb : ∀ bb b, regionShape e = some (bb, b) → NotGlobe b ∧ NotGlobe (boxInUnit 1 t b))
    {S : GenSetup K} (hplane : S.stereo = none)
    (hcgal : ∀ l : List ((K × K) × Nat), S.cgal.insert ⟨[], []⟩ (l.map fun x => (inUnit 1 t x.1, x.2)) = triangulationMoved (inUnit 1 t) (S.cgal.insert ⟨[], []⟩ l))
    {T : SdfTools K} (hT : T.cfg.env = none ∧ T.cfg.compiled = true) (hTnear : ∀ l q, T.near (l.map (inUnit 1 t)) (inUnit 1 t q) = T.near l q)
    {near : Grid K C → K × K → Nat × Nat} (hnear : ∀ g p, near (sizesInUnit 1 t g) (inUnit 1 t p) = near g p)
    (fmm : (n m : Nat) → K → K → (Fin n → Fin m → Bool) → Option (Fin n → Fin m → K)) (M : StereoMaps K) (sq2 sqEps : K) (invert : Bool) (coarsen rate : K) (mx : Option K)
    (gradation : K) (crs : C) (h : K) (rand : Nat → K) (maxIter : Nat) (points pfix : List (K × K)) :
    fileMesh L' mask' a S T near fmm M sq2 sqEps invert coarsen rate mx gradation crs h rand maxIter (regionInUnit 1 t e) (fs.map (featureInUnit 1 t))
        (points.map (inUnit 1 t)) (pfix.map (inUnit 1 t)) =
      (fileMesh L mask a S T near fmm M sq2 sqEps invert coarsen rate mx gradation crs h rand maxIter e fs points pfix).map (List.map (iterMoved (inUnit 1 t))) := by
  simp only [fileMesh, C151_shoreline_partial hL hm ha e hf, Option.bind_eq_bind]
  cases hs : shoreline L mask a e fs with
  | none => rfl
  | some x =>
    obtain ⟨b, s⟩ := x
    obtain ⟨⟨fi, hi, hic⟩, -, ⟨fb, hb', hbc⟩⟩ := C90_rings_closed_partial hring hclosed hs
    obtain ⟨hg, hg'⟩ : NotGlobe b ∧ NotGlobe (boxInUnit 1 t b) := by
      obtain ⟨-, -, -, bb, b0, h1, -, -, h2⟩ := shoreline_steps hs
      obtain ⟨p1, bb', p2, p3, p4, -, h3, -⟩ := shorelineSteps_parts h2
      rw [ha, if_neg (by decide)] at h3
      obtain ⟨-, rfl⟩ := Prod.mk.inj (Option.some.inj h3)
      exact hb bb b0 h1
    simp only [Option.map_some, Option.bind_some, shoreInUnit, hi, hb', joinNaN_rows]
    by_cases hne : fb = []
    · subst hne
      have : getPolyEdges [] = none := by decide
      simp [shoreMesh, signedDistanceFunction, joinNaN, this]
    · have hT' : SameShore 1 t T T fi fb := ⟨rfl, hT, (one_mul _).symm, fun l q => by rw [hTnear, one_mul], hic, hbc, hne⟩
      exact C149_script t hplane hcgal hT' hnear fmm M sq2 sqEps invert a.h0 coarsen rate mx gradation crs h rand maxIter hg hg' b points pfix

end

/-! ## Example -/

example := C151_file_partial (t := (20, 30)) (boxLib_moved one_pos (20, 30)) boxLib_closed (mask := fun b p => p.any fun q => decide (b.xmin ≤ q.1))
  (mask' := fun b p => p.any fun q => decide (b.xmin ≤ q.1)) (fun b p => by cases p <;> simp [inUnit, boxInUnit]) (a := ⟨1, 1, 4, true, false⟩) rfl
  (e := .tuple [0, 10, 0, 8]) (fs := [fileRect 5 2 1 1, fileRect (-3) 1 5 7]) (by decide +kernel)
  (by
    intro f hf
    simp only [List.mem_cons, List.not_mem_nil, or_false] at hf
    rcases hf with rfl | rfl
    · exact ⟨(5, 2), [(6, 2), (6, 3), (5, 3)], by decide +kernel, by decide +kernel⟩
    · exact ⟨(-3, 1), [(2, 1), (2, 8), (-3, 8)], by decide +kernel, by decide +kernel⟩)
  (by
    intro bb b h
    obtain ⟨-, rfl⟩ := Prod.mk.inj (Option.some.inj h)
    constructor <;> · unfold NotGlobe; decide +kernel)
  (S := wheelGen) rfl (fun l => by
    have hf : Function.Injective (inUnit (1 : ℚ) (20, 30)) := fun x y h => by
      simp only [inUnit, Prod.mk.injEq] at h
      exact Prod.ext (by linarith [h.1]) (by linarith [h.2])
    have h := toyInsert_map hf l []
    simp only [List.map_nil] at h
    simp only [wheelGen, wheelCgal, triangulationMoved, h, List.map_map]
    rfl) (T := toolsQ) (by decide) (fun l q => (nearQ_shift one_pos (20, 30) q l).trans (one_mul _)) (C := Unit) (near := fun _ _ => (0, 0)) (fun _ _ => rfl) (fun _ _ _ _ _ => none)
  ⟨3, id, id⟩ sq2D sqEpsD false 1 (1 / 5) (some 2) (1 / 5) () 1 (fun _ => 0) 2 [(0, 0)] [(1, 1)]

end OM
