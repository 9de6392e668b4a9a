import Verif.Props.Initial
import Verif.Props.Shoreline
import Verif.Props.Blend
/-!
# Details of the start points, the outline of the region and the padded grid (C71, C90, C36)
-/
set_option linter.unusedSectionVars false
namespace OM
open Spec
section
variable {K : Type} [Field K] [LinearOrder K] [IsStrictOrderedRing K]

/-- **C71** (exceptions): if sizes and distances can be computed, the initial points are missing exactly if no lattice point has a size that is
infinite or not below the minimum edge length. -/
theorem C71_raises_iff [FloorRing K] {h geps : K} (hh : 0 < h) {b : Box K} (g : K × K → Float64 K) (f : K × K → K) (rand : Nat → K) (pfix : List (K × K)) :
    initialPoints h geps b (fun l => some (l.map g)) (fun l => some (l.map f)) rand pfix none = none ↔
      ∀ q, IsLatticePoint b h q → g q ≠ .posInf ∧ ∀ x, g q = .fin x → x < h := by
  constructor
  · intro hn
    by_contra hc
    push Not at hc
    obtain ⟨q, hq, hc⟩ := hc
    have hne : smallestSize h ((latticePoints b h).map g) ≠ none := by
      intro h0
      have := smallestSize_none.1 h0 (g q) (List.mem_map.2 ⟨q, (mem_latticePoints hh q).2 hq, rfl⟩)
      cases hgq : g q with
      | fin x =>
        obtain ⟨y, hy, hle⟩ := hc (by rw [hgq]; simp)
        rw [hgq] at hy this
        cases hy
        simp [Float64.atLeast] at this
        linarith
      | posInf => rw [hgq] at this; simp [Float64.atLeast] at this
      | nan => obtain ⟨y, hy, -⟩ := hc (by rw [hgq]; simp); rw [hgq] at hy; cases hy
      | negInf => obtain ⟨y, hy, -⟩ := hc (by rw [hgq]; simp); rw [hgq] at hy; cases hy
    obtain ⟨s, hs⟩ := Option.ne_none_iff_exists'.1 hne
    simp only [initialPoints, initialFrom, Option.map_some, Option.bind_eq_bind, Option.bind_some, hs, List.length_map, if_true] at hn
    obtain ⟨p1, h1⟩ := maskRows_isSome (m := List.zipWith (fun i r => keepRandom (rand i) s r) (List.range (latticePoints b h).length)
      ((latticePoints b h).map g)) (l := latticePoints b h) (by simp)
    rw [h1] at hn
    obtain ⟨p2, h2⟩ := maskRows_isSome (m := (p1.map f).map fun x => decide (x < geps)) (l := p1) (by simp)
    simp only [Option.bind_some] at hn
    rw [h2] at hn
    simp at hn
  · intro hs
    exact C71_too_small hh (g := g) (fun l r hr => (Option.some.inj hr).symm) _ rand pfix hs

/-- **C36** (box): if the last node of each axis of the grid is at the upper corner of its box, then the same is true of the padded grid, and node
`(i + w, j + w)` of the padded grid is where node `(i, j)` of the grid is. -/
theorem C36_padded_box {C : Type} (g : Grid K C) (w : Nat) (hx : nodeAt g.box.xmin g.dx (g.nx - 1) = g.box.xmax)
    (hy : nodeAt g.box.ymin g.dy (g.ny - 1) = g.box.ymax) (hnx : 0 < g.nx) (hny : 0 < g.ny) :
    nodeAt (g.padded w).box.xmin (g.padded w).dx ((g.padded w).nx - 1) = (g.padded w).box.xmax ∧
    nodeAt (g.padded w).box.ymin (g.padded w).dy ((g.padded w).ny - 1) = (g.padded w).box.ymax ∧
    ∀ i j, nodeAt (g.padded w).box.xmin (g.padded w).dx (i + w) = nodeAt g.box.xmin g.dx i ∧
      nodeAt (g.padded w).box.ymin (g.padded w).dy (j + w) = nodeAt g.box.ymin g.dy j := by
  obtain ⟨a, ha⟩ := Nat.exists_eq_succ_of_ne_zero hnx.ne'
  obtain ⟨c, hc⟩ := Nat.exists_eq_succ_of_ne_zero hny.ne'
  rw [ha] at hx
  rw [hc] at hy
  simp only [nodeAt, Grid.padded, ha, hc, Nat.succ_eq_add_one, Nat.add_sub_cancel] at hx hy ⊢
  rw [show a + 1 + 2 * w - 1 = a + 2 * w by omega, show c + 1 + 2 * w - 1 = c + 2 * w by omega]
  refine ⟨?_, ?_, fun i j => ⟨?_, ?_⟩⟩
  · push_cast; rw [← hx]; ring
  · push_cast; rw [← hy]; ring
  · push_cast; ring
  · push_cast; ring

end

example : initialPoints (1 : ℚ) 0 ⟨0, 1, 0, 1⟩ (fun l => some (l.map fun _ => .posInf)) (fun l => some (l.map fun _ => 0)) (fun _ => 0) [(3, 4)] none =
    some [(3, 4)] := by decide +kernel

example : initialPoints (1 : ℚ) 0 ⟨0, 1, 0, 1⟩ (fun l => some (l.map fun q => .fin q.1)) (fun l => some (l.map fun _ => 0)) (fun _ => 0) [] none ≠ none :=
  fun h => by
    have := ((C71_raises_iff (K := ℚ) (by norm_num) _ _ _ _).1 h (1, 1) ⟨1, 1, by decide +kernel, by decide +kernel, by decide +kernel⟩).2 1 rfl
    norm_num at this

example := C36_padded_box (K := ℚ) (C := Nat) ⟨⟨0, 2, 5, 8⟩, 1, 3, 3, 2, fun _ _ => some 1, none, false, 0, none⟩ 2 (by norm_num [nodeAt]) (by norm_num [nodeAt])
  (by norm_num) (by norm_num)

/-- A library for the examples that knows one polygon operation only: a polygon is the list of its points. -/
def pointLib : ShapeLib ℚ (List (ℚ × ℚ)) where
  polygon l := some l
  valid _ := true
  repaired g := [g]
  contains _ _ := false
  overlaps _ _ := false
  inter a _ := a
  diff a _ := a
  isEmpty _ := false
  parts g := some [g]
  exterior g := some g
  area _ := 0
  areaLonLat _ := 0

/-- **C90** (outline, example): without shorelines the outline of the region of one by a half is handed to the library with points half of the given
spacing apart. -/
theorem C90_outline_spacing : (classifyAll pointLib (fun _ _ => true) ⟨0, 1, 0, 1 / 2⟩ [] [] (1 / 2) 4 false).map Shore.boubox =
    some ([(0, 0), (1 / 4, 0), (1 / 2, 0), (3 / 4, 0), (1, 0), (1, 1 / 4), (1, 1 / 2), (3 / 4, 1 / 2), (1 / 2, 1 / 2), (1 / 4, 1 / 2), (0, 1 / 2),
      (0, 1 / 4), (0, 0), (0, 0)].map some ++ [none]) := by decide +kernel

end OM
