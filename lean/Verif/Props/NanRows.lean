import Verif.Props.ShoreSdf
/-!
# C102: the numbers put in place of NaN rows
-/
set_option linter.unusedSectionVars false
namespace OM
open Spec
section
variable {K : Type} [Field K] [LinearOrder K] [IsStrictOrderedRing K]

theorem segsOf_replaced (r : K × K) {arr : List (Option (K × K))} : ∀ {es : List (Int × Int)} {segs : List (Seg K)},
    es.map (fun e => (pointAt arr e.1, pointAt arr e.2)) = segs.map (fun s => (some s.1, some s.2)) →
      segsOf (arr.map fun o => o.getD r) (es.map fun e => (e.1.toNat, e.2.toNat)) = some segs
  | [], segs, h => by
    obtain rfl : segs = [] := by simpa using h.symm
    rfl
  | e :: es, [], h => by simp at h
  | e :: es, s :: segs, h => by
    simp only [List.map_cons, List.cons.injEq, Prod.mk.injEq] at h
    obtain ⟨⟨h1, h2⟩, h3⟩ := h
    have ih := segsOf_replaced r h3
    have row : ∀ {i : Int} {p : K × K}, pointAt arr i = some p → (arr.map fun o => o.getD r)[i.toNat]? = some p := by
      intro i p hp
      unfold pointAt at hp
      split at hp
      · cases hr : arr[i.toNat]? with
        | none => simp [hr] at hp
        | some o => cases o <;> simp_all
      · simp at hp
    unfold segsOf at ih ⊢
    simp only [List.map_cons, row h1, row h2, collectAll, ih]
    rfl

/-- **C102** The edges of an array of features with points never refer to the rows of NaN: whatever numbers replace these rows, the test sees the same segments. -/
theorem C102_nan_rows_unread {fs : List (List (K × K))} (hne : fs ≠ []) (hfs : ∀ f ∈ fs, f ≠ []) {es : List (Int × Int)}
    (hes : getPolyEdges ((joinNaN fs).map Option.isNone) = some es) (r : K × K) :
    segsOf ((joinNaN fs).map fun o => o.getD r) (es.map fun e => (e.1.toNat, e.2.toNat)) =
      some (fs.flatMap fun f => segments f.dropLast ++ closing f) := by
  obtain ⟨es', h1, h2⟩ := C04_poly_edges_exact fs hne hfs
  obtain rfl : es = es' := Option.some.inj (hes.symm.trans h1)
  exact segsOf_replaced r h2

/-- **C102** An edge without length, as between two rows of NaN after each other, changes no answer of the compiled test. -/
theorem C102_degenerate_ignored (ftol : K) (p q : K × K) (l m : List (Seg K)) : cPoint ftol (l ++ (p, p) :: m) q = cPoint ftol (l ++ m) q := by
  have hloop : ∀ (l : List (Seg K)) (i : Bool), cLoop ftol q (l ++ (p, p) :: m) i = cLoop ftol q (l ++ m) i := by
    intro l
    induction l with
    | nil =>
      intro i
      have h1 : cOnSegment ftol q (p, p) = false := by simp [cOnSegment]
      have h2 : cCross q (p, p) = false := by
        simp only [cCross, Bool.or_self, Bool.and_eq_false_iff]
        exact .inl (by simpa using lt_or_ge q.2 p.2)
      simp [cLoop, h1, h2]
    | cons s l ih => intro i; simp only [List.cons_append, cLoop, ih]
  simp only [cPoint, hloop]

end

/-- A square far from the origin. -/
def farSquare : List (ℚ × ℚ) := [(10, 10), (11, 10), (11, 11), (10, 11), (10, 10), (10, 10)]

example : segsOf ((joinNaN [farSquare]).map fun o => o.getD (7, 7)) ([(0, 1), (1, 2), (2, 3), (3, 4), (5, 0)].map fun e : Int × Int => (e.1.toNat, e.2.toNat)) =
    some ([farSquare].flatMap fun f => segments f.dropLast ++ closing f) :=
  C102_nan_rows_unread (by simp) (by simp [farSquare]) (by decide +kernel) _

example : cPoint (1 / 1000) ([((0, 0), (4, 0)), ((4, 0), (0, 4))] ++ ((1, 1), (1, 1)) :: [((0, 4), (0, 0))]) ((1, 1) : ℚ × ℚ) = (true, false) := by
  rw [C102_degenerate_ignored]
  decide +kernel

/-- Two rows of NaN after each other: the square and the origin, where the NaN rows are put. -/
example : ((getPolyEdges ((joinNaN [farSquare, []]).map Option.isNone)).bind fun e =>
    insideMask toolsQ (joinNaN [farSquare, []]) e [(some 0, some 0), (some (21 / 2), some (21 / 2))]) = some [false, true] := by
  decide +kernel

/-- **C102** A row of NaN at the beginning: the edge refers to row -1 and the test raises. -/
theorem C102_leading_nan :
    ((getPolyEdges ((joinNaN [[], farSquare]).map Option.isNone)).bind fun e => insideMask toolsQ (joinNaN [[], farSquare]) e [(some 0, some 0)]) = none := by
  decide +kernel

end OM
