import Verif.Model.Plots
import Mathlib.Algebra.Order.Field.Basic
import Mathlib.Tactic.Ring
import Mathlib.Tactic.NormNum
import Mathlib.Data.Rat.Floor
/-!
# Plots draw what they are given (C159)
-/
set_option linter.unusedSectionVars false
namespace OM
namespace Spec
end Spec
open Spec

/-- The lines of a plot with their styles, in the order of drawing. -/
def Spec.linesOf {K P : Type} : List (PlotCall K P) → List (List P × String)
  | [] => []
  | .line p s :: l => (p, s) :: linesOf l
  | _ :: l => linesOf l

/-- The legends of a plot. -/
def Spec.legendsOf {K P : Type} : List (PlotCall K P) → List (List (Nat × String))
  | [] => []
  | .legend e :: l => e :: legendsOf l
  | _ :: l => legendsOf l

/-- The coloured cells of a plot. -/
def Spec.cellsOf {K P : Type} : List (PlotCall K P) → List (List (List ((K × K) × Option K)))
  | [] => []
  | .pcolor c :: l => c :: cellsOf l
  | _ :: l => cellsOf l

section
variable {K P : Type}

theorem linesOf_append (l m : List (PlotCall K P)) : linesOf (l ++ m) = linesOf l ++ linesOf m := by
  induction l with
  | nil => rfl
  | cons a l ih => cases a <;> simp [linesOf, ih]

theorem legendsOf_append (l m : List (PlotCall K P)) : legendsOf (l ++ m) = legendsOf l ++ legendsOf m := by
  induction l with
  | nil => rfl
  | cons a l ih => cases a <;> simp [legendsOf, ih]

theorem cellsOf_append (l m : List (PlotCall K P)) : cellsOf (l ++ m) = cellsOf l ++ cellsOf m := by
  induction l with
  | nil => rfl
  | cons a l ih => cases a <;> simp [cellsOf, ih]

theorem linesOf_opt {A : Type} (f : A → PlotCall K P) (h : ∀ a, linesOf [f a] = []) (o : Option A) : linesOf (optCall f o) = [] := by
  cases o
  · rfl
  · exact h _

theorem legendsOf_opt {A : Type} (f : A → PlotCall K P) (h : ∀ a, legendsOf [f a] = []) (o : Option A) : legendsOf (optCall f o) = [] := by
  cases o
  · rfl
  · exact h _

theorem mem_optCall {A : Type} {f : A → PlotCall K P} {o : Option A} {c : PlotCall K P} : c ∈ optCall f o ↔ ∃ a, o = some a ∧ c = f a := by
  cases o <;> simp [optCall]

theorem last_two (l : List (PlotCall K P)) (c d : PlotCall K P) : ∃ m, l ++ [c] ++ [d] = m ++ [c, d] := ⟨l, by simp⟩

theorem some_in_between (l r t : List (PlotCall K P)) (c : PlotCall K P) : ∃ m, some (l ++ [c] ++ r ++ t) = some (m ++ (c :: r) ++ t) := ⟨l, by simp⟩

variable [Sub K]

/-- **C159** (1): the plot of a shoreline has exactly the lines of its mainland and its inner polygons, where there are any, and of its outline. -/
theorem C159_shoreline_lines (mainland inner boubox : List P) (bbox : Box K) (a : PlotArgs K) :
    linesOf (shorelinePlot mainland inner boubox bbox a) =
      (if mainland = [] then [] else [(mainland, "k-")]) ++ (if inner = [] then [] else [(inner, "r-")]) ++ [(boubox, "g--")] := by
  unfold shorelinePlot
  simp only [linesOf_append]
  rw [linesOf_opt _ (fun _ => rfl), linesOf_opt _ (fun _ => rfl), linesOf_opt _ (fun _ => rfl), linesOf_opt _ (fun _ => rfl)]
  have e1 : linesOf (if a.newAxes = true then [PlotCall.subplots (K := K) (P := P)] else []) = [] := by split <;> rfl
  have e2 : linesOf (if a.show = true then [PlotCall.show (K := K) (P := P)] else []) = [] := by split <;> rfl
  rw [e1, e2]
  cases mainland <;> cases inner <;> simp [linesOf]

/-- **C159** (2): with mainland or inner polygons there is one legend, in which each line has the name of what it shows; with the outline only there is none. -/
theorem C159_shoreline_legend (mainland inner boubox : List P) (bbox : Box K) (a : PlotArgs K) :
    (mainland = [] ∧ inner = [] → legendsOf (shorelinePlot mainland inner boubox bbox a) = []) ∧
    (mainland ≠ [] ∨ inner ≠ [] → ∃ L, legendsOf (shorelinePlot mainland inner boubox bbox a) = [L] ∧
      L.map (fun e => (linesOf (shorelinePlot mainland inner boubox bbox a))[e.1]?) = (linesOf (shorelinePlot mainland inner boubox bbox a)).map some ∧
      ∀ e ∈ L, ∃ s, (linesOf (shorelinePlot mainland inner boubox bbox a))[e.1]? = some (s, (if e.2 = "mainland" then "k-" else if e.2 = "inner" then "r-" else "g--")) ∧
        s = (if e.2 = "mainland" then mainland else if e.2 = "inner" then inner else boubox)) := by
  have hl := C159_shoreline_lines mainland inner boubox bbox a
  have hg : legendsOf (shorelinePlot mainland inner boubox bbox a) =
      if mainland = [] then (if inner = [] then [] else [[(0, "inner"), (1, "outer")]])
      else if inner = [] then [[(0, "mainland"), (1, "outer")]] else [[(0, "mainland"), (1, "inner"), (2, "outer")]] := by
    clear hl
    unfold shorelinePlot
    simp only [legendsOf_append]
    rw [legendsOf_opt _ (fun _ => rfl), legendsOf_opt _ (fun _ => rfl), legendsOf_opt _ (fun _ => rfl), legendsOf_opt _ (fun _ => rfl)]
    have e1 : legendsOf (if a.newAxes = true then [PlotCall.subplots (K := K) (P := P)] else []) = [] := by split <;> rfl
    have e2 : legendsOf (if a.show = true then [PlotCall.show (K := K) (P := P)] else []) = [] := by split <;> rfl
    rw [e1, e2]
    cases mainland <;> cases inner <;> simp [legendsOf]
  rw [hl, hg]
  constructor
  · rintro ⟨rfl, rfl⟩
    simp
  · intro h
    by_cases h1 : mainland = [] <;> by_cases h2 : inner = []
    · exact absurd h (by simp [h1, h2])
    all_goals
      simp only [h1, h2, if_true, if_false]
      refine ⟨_, rfl, by simp, ?_⟩
      intro e he
      simp only [List.mem_cons, List.not_mem_nil, or_false] at he
      rcases he with rfl | rfl | rfl <;> simp

/-- **C159** (3): files are written exactly if a name is given, windows opened exactly if wanted. -/
theorem C159_shoreline_output (mainland inner boubox : List P) (bbox : Box K) (a : PlotArgs K) :
    (∀ f, .save f ∈ shorelinePlot mainland inner boubox bbox a ↔ a.fileName = some f) ∧ (.show ∈ shorelinePlot mainland inner boubox bbox a ↔ a.show = true) := by
  unfold shorelinePlot
  constructor
  · intro f
    simp only [List.mem_append, mem_optCall]
    cases mainland <;> cases inner <;> cases a.newAxes <;> cases a.show <;> simp
  · simp only [List.mem_append, mem_optCall]
    cases mainland <;> cases inner <;> cases a.newAxes <;> cases a.show <;> simp

/-- Finding: limits of the axes are never set, neither those of the box nor those given. -/
theorem C159_limits_ignored (mainland inner boubox : List P) (bbox : Box K) (a : PlotArgs K) (xl yl : Option (K × K)) :
    shorelinePlot mainland inner boubox bbox { a with xlim := xl, ylim := yl } = shorelinePlot mainland inner boubox bbox a ∧
      (∀ l, .xlim l ∉ shorelinePlot mainland inner boubox bbox a) ∧ ∀ l, .ylim l ∉ shorelinePlot mainland inner boubox bbox a := by
  refine ⟨rfl, ?_⟩
  unfold shorelinePlot
  constructor <;> intro l <;> simp only [List.mem_append, mem_optCall] <;> cases mainland <;> cases inner <;> cases a.newAxes <;> cases a.show <;> simp

/-- Finding: if both are wanted, the file is written after the window was shown (and closed), not before as for grids (`C159_grid_output`). -/
theorem C159_shown_before_saved (mainland inner boubox : List P) (bbox : Box K) (a : PlotArgs K) (hs : a.show = true) {f : String} (hf : a.fileName = some f) :
    ∃ l, shorelinePlot mainland inner boubox bbox a = l ++ [.show, .save f] := by
  unfold shorelinePlot
  rw [hs, hf]
  exact last_two _ _ _

end

section
variable {K P C : Type} [Field K] [LinearOrder K] [FloorRing K]

theorem mem_sliceIndices {c : Nat} (hc : 0 < c) (n i : Nat) : i ∈ sliceIndices c n ↔ c ∣ i ∧ i < n := by
  unfold sliceIndices
  simp only [List.mem_map, List.mem_range]
  constructor
  · rintro ⟨k, hk, rfl⟩
    refine ⟨⟨k, by ring⟩, ?_⟩
    have := (Nat.lt_div_iff_mul_lt hc).1 hk
    omega
  · rintro ⟨⟨k, rfl⟩, h⟩
    refine ⟨k, (Nat.lt_div_iff_mul_lt hc).2 ?_, by ring⟩
    have : k * c = c * k := by ring
    omega

theorem sliceIndices_nodup {c : Nat} (hc : 0 < c) (n : Nat) : (sliceIndices c n).Nodup :=
  List.nodup_range.map fun a b h => Nat.eq_of_mul_eq_mul_right hc h

theorem mem_entries {α : Type} {n : Nat} {f : Fin n → α} {ix : List Nat} {x : α} : x ∈ entries n f ix ↔ ∃ i : Fin n, i.val ∈ ix ∧ f i = x := by
  unfold entries
  simp only [List.mem_filterMap]
  constructor
  · rintro ⟨i, hi, h⟩
    split at h
    · rename_i hlt
      exact ⟨⟨i, hlt⟩, hi, Option.some.inj h⟩
    · cases h
  · rintro ⟨i, hi, h⟩
    exact ⟨i.val, hi, by rw [dif_pos i.isLt, ← h]⟩

theorem entries_length {α : Type} {n : Nat} {f : Fin n → α} : ∀ {ix : List Nat}, (∀ i ∈ ix, i < n) → (entries n f ix).length = ix.length
  | [], _ => rfl
  | i :: ix, h => by
    have hi := h i List.mem_cons_self
    have ih := entries_length (f := f) (ix := ix) fun j hj => h j (List.mem_cons_of_mem _ hj)
    unfold entries at ih ⊢
    rw [List.filterMap_cons_some (by rw [dif_pos hi]), List.length_cons, List.length_cons, ih]

/-- **C159** (8): the hatched rectangle in the plot of a shoreline reaches from corner to corner of the box. -/
theorem C159_shoreline_box (mainland inner boubox : List P) (bbox : Box K) (a : PlotArgs K) (x y w h : K) :
    .patch x y w h ∈ shorelinePlot mainland inner boubox bbox a ↔ x = bbox.xmin ∧ y = bbox.ymin ∧ x + w = bbox.xmax ∧ y + h = bbox.ymax := by
  unfold shorelinePlot
  have e : .patch x y w h ∈ shorelinePlot mainland inner boubox bbox a ↔ x = bbox.xmin ∧ y = bbox.ymin ∧ w = bbox.xmax - bbox.xmin ∧ h = bbox.ymax - bbox.ymin := by
    unfold shorelinePlot
    simp only [List.mem_append, mem_optCall]
    cases mainland <;> cases inner <;> cases a.newAxes <;> cases a.show <;> simp
  refine e.trans ⟨?_, ?_⟩
  · rintro ⟨rfl, rfl, rfl, rfl⟩
    exact ⟨rfl, rfl, by ring, by ring⟩
  · rintro ⟨rfl, rfl, h3, h4⟩
    exact ⟨rfl, rfl, by rw [← h3]; ring, by rw [← h4]; ring⟩

/-- **C159** (4): the plot of a grid raises exactly for the coarsening factor zero; otherwise it colours the nodes whose numbers in both directions are multiples of the factor, each
at its place and by its value, with as many rows and columns as there are such numbers. -/
theorem C159_grid (stereo : K × K → K × K) (g : Grid K C) (c : Nat) (bar : Bool) (lab : Option String) (a : PlotArgs K) :
    ((gridPlot (P := P) stereo g c bar lab a).isSome ↔ c ≠ 0) ∧
    ∀ l, gridPlot (P := P) stereo g c bar lab a = some l → ∃ cells, cellsOf l = [cells] ∧
      cells.length = ((List.range g.nx).filter fun i => decide (c ∣ i)).length ∧ (∀ row ∈ cells, row.length = ((List.range g.ny).filter fun j => decide (c ∣ j)).length) ∧
      ∀ q v, (∃ row ∈ cells, (q, v) ∈ row) ↔ ∃ (i : Fin g.nx) (j : Fin g.ny), c ∣ i.val ∧ c ∣ j.val ∧ q = stereo (g.xAt i, g.yAt j) ∧ v = g.vals i j := by
  unfold gridPlot
  by_cases hc : c = 0
  · rw [if_pos hc]
    exact ⟨by simp [hc], fun l hl => by cases hl⟩
  · rw [if_neg hc]
    have hc' := Nat.pos_of_ne_zero hc
    have hlen : ∀ n, (sliceIndices c n).length = ((List.range n).filter fun i => decide (c ∣ i)).length := fun n =>
      ((List.perm_ext_iff_of_nodup (sliceIndices_nodup hc' n) (List.nodup_range.filter _)).2 fun i => by
        rw [mem_sliceIndices hc', List.mem_filter, List.mem_range, decide_eq_true_eq, and_comm]).length_eq
    refine ⟨by simp [hc], fun l hl => ?_⟩
    cases hl
    refine ⟨entries g.nx (fun i => entries g.ny (fun j => (stereo (g.xAt i, g.yAt j), g.vals i j)) (sliceIndices c g.ny)) (sliceIndices c g.nx), ?_, ?_, ?_, ?_⟩
    · obtain ⟨ax, x, y, t, f, sh, xl, yl⟩ := a
      simp only [cellsOf_append]
      have e : ∀ {A : Type} (F : A → PlotCall K P) (o : Option A), (∀ x, cellsOf [F x] = []) → cellsOf (optCall F o) = [] := fun F o h => by cases o; rfl; exact h _
      rw [e _ x fun _ => rfl, e _ y fun _ => rfl, e _ t fun _ => rfl, e _ xl fun _ => rfl, e _ yl fun _ => rfl, e _ f fun _ => rfl]
      have e1 : ∀ b : Bool, cellsOf (if b = true then [PlotCall.subplots (K := K) (P := P)] else []) = [] := fun b => by cases b <;> rfl
      have e2 : ∀ b : Bool, cellsOf (if b = true then [PlotCall.show (K := K) (P := P)] else []) = [] := fun b => by cases b <;> rfl
      have e3 : ∀ b : Bool, cellsOf (if b = true then [PlotCall.colorbar (K := K) (P := P) lab] else []) = [] := fun b => by cases b <;> rfl
      rw [e1, e2, e3]
      rfl
    · rw [entries_length fun i hi => ((mem_sliceIndices hc' _ _).1 hi).2, hlen]
    · intro row hrow
      obtain ⟨i, -, rfl⟩ := mem_entries.1 hrow
      rw [entries_length fun j hj => ((mem_sliceIndices hc' _ _).1 hj).2, hlen]
    · intro q v
      constructor
      · rintro ⟨row, hrow, hqv⟩
        obtain ⟨i, hi, rfl⟩ := mem_entries.1 hrow
        obtain ⟨j, hj, e⟩ := mem_entries.1 hqv
        cases e
        exact ⟨i, j, ((mem_sliceIndices hc' _ _).1 hi).1, ((mem_sliceIndices hc' _ _).1 hj).1, rfl, rfl⟩
      · rintro ⟨i, j, hi, hj, rfl, rfl⟩
        exact ⟨_, mem_entries.2 ⟨i, (mem_sliceIndices hc' _ _).2 ⟨hi, i.isLt⟩, rfl⟩, mem_entries.2 ⟨j, (mem_sliceIndices hc' _ _).2 ⟨hj, j.isLt⟩, rfl⟩⟩

/-- **C159** (5): for grids the file is written before the window is shown. -/
theorem C159_grid_output (stereo : K × K → K × K) (g : Grid K C) {c : Nat} (hc : c ≠ 0) (bar : Bool) (lab : Option String) (a : PlotArgs K) (hs : a.show = true) {f : String}
    (hf : a.fileName = some f) : ∃ l, gridPlot (P := P) stereo g c bar lab a = some (l ++ [.save f, .show]) := by
  unfold gridPlot
  rw [if_neg hc, hs, hf]
  obtain ⟨m, hm⟩ := last_two (K := K) (P := P) _ (.save f) .show
  exact ⟨m, congrArg some hm⟩

/-- Finding: a colour map for a DEM raises, whatever else is given. -/
theorem C159_dem_cmap (stereo : K × K → K × K) (g : Grid K C) (c : Nat) (bar : Bool) (lab : Option String) (a : PlotArgs K) :
    demPlot (P := P) stereo g c bar lab true a = none := rfl

/-- Finding: a DEM with a file name is saved before its axes are labelled and its colour bar is drawn. -/
theorem C159_dem_saved_early (stereo : K × K → K × K) (g : Grid K C) {c : Nat} (hc : c ≠ 0) (bar : Bool) (lab : Option String) (a : PlotArgs K) {f : String} (hf : a.fileName = some f) :
    ∃ l, demPlot (P := P) stereo g c bar lab false a =
      some (l ++ [.save f, .xlabel "X-coordinate", .ylabel "Y-coordinate", .aspect, .colorbar (some "Topobathymetric depth (m)")] ++ if a.show then [.show] else []) := by
  unfold demPlot gridPlot
  rw [if_neg (by simp), if_neg hc, hf]
  simp only [Option.map_some, hf, optCall, Bool.false_eq_true, if_false, List.append_nil]
  exact some_in_between _ _ _ _

/-- **C159** (6): edges are drawn as segments between the points they name, or it raises. -/
theorem C159_edges (poly : List P) (edges : List (Nat × Nat)) :
    ((drawEdges (K := K) poly edges).isSome ↔ ∀ e ∈ edges, e.1 < poly.length ∧ e.2 < poly.length) ∧
    ∀ l, drawEdges (K := K) poly edges = some l → ∃ s, l = [.subplots, .segments s, .show] ∧ List.Forall₂ (fun e x => poly[e.1]? = some x.1 ∧ poly[e.2]? = some x.2) edges s := by
  unfold drawEdges
  rw [Option.isSome_map]
  have key : ∀ es : List (Nat × Nat), ((es.mapM fun (e : Nat × Nat) => match poly[e.1]?, poly[e.2]? with
      | some x, some y => some (x, y)
      | _, _ => none).isSome ↔ ∀ e ∈ es, e.1 < poly.length ∧ e.2 < poly.length) ∧
      ∀ s, (es.mapM fun (e : Nat × Nat) => match poly[e.1]?, poly[e.2]? with
      | some x, some y => some (x, y)
      | _, _ => none) = some s → List.Forall₂ (fun e x => poly[e.1]? = some x.1 ∧ poly[e.2]? = some x.2) es s := by
    intro es
    induction es with
    | nil => exact ⟨by simp, fun s hs => by simp at hs; subst hs; exact .nil⟩
    | cons e es ih =>
      rw [List.mapM_cons]
      by_cases h1 : e.1 < poly.length
      · by_cases h2 : e.2 < poly.length
        · simp only [List.getElem?_eq_getElem h1, List.getElem?_eq_getElem h2, Option.bind_eq_bind, Option.bind_some]
          constructor
          · rw [List.forall_mem_cons, ← ih.1]
            simp only [h1, h2, and_self, true_and, Option.pure_def]
            cases (es.mapM _ : Option (List (P × P))) <;> simp
          · intro s hs
            rw [Option.bind_eq_some_iff] at hs
            obtain ⟨s', h3, h4⟩ := hs
            cases h4
            exact .cons ⟨List.getElem?_eq_getElem h1, List.getElem?_eq_getElem h2⟩ (ih.2 _ h3)
        · rw [List.getElem?_eq_none (not_lt.1 h2)]
          cases poly[e.1]? <;> simp [h2]
      · rw [List.getElem?_eq_none (not_lt.1 h1)]
        simp [h1]
  refine ⟨(key edges).1, fun l hl => ?_⟩
  rw [Option.map_eq_some_iff] at hl
  obtain ⟨s, hs, rfl⟩ := hl
  exact ⟨s, rfl, (key edges).2 s hs⟩

/-- **C159** (7): the plot of a domain shows exactly the samples whose distance is less than `0.0001`, with their distances. -/
theorem C159_level [IsStrictOrderedRing K] (p : List P) (d : P → K) (fileName : Option String) :
    ∃ s, PlotCall.scatter s ∈ levelPlot p d fileName ∧ ∀ x, x ∈ s ↔ x.1 ∈ p ∧ |d x.1| < 1 / 10000 ∧ x.2 = d x.1 := by
  refine ⟨_, by unfold levelPlot; exact List.mem_append_left _ (List.mem_cons_of_mem _ List.mem_cons_self), ?_⟩
  rintro ⟨q, v⟩
  simp only [List.mem_map, List.mem_filter, Bool.and_eq_true, decide_eq_true_eq, abs_lt, Prod.mk.injEq]
  constructor
  · rintro ⟨q', ⟨h1, h2⟩, rfl, rfl⟩
    exact ⟨h1, h2, rfl⟩
  · rintro ⟨h1, h2, rfl⟩
    exact ⟨q, ⟨h1, h2⟩, rfl, rfl⟩

/-- **C159** (8): the plot of a grid has a colour bar exactly if it is wanted or labelled, and the bar has that label. -/
theorem C159_grid_bar (stereo : K × K → K × K) (g : Grid K C) {c : Nat} (bar : Bool) (lab : Option String) (a : PlotArgs K) {l : List (PlotCall K P)}
    (h : gridPlot (P := P) stereo g c bar lab a = some l) (x : Option String) : PlotCall.colorbar x ∈ l ↔ (bar = true ∨ lab ≠ none) ∧ x = lab := by
  have no : ∀ {A : Type} (f : A → PlotCall K P) (o : Option A), (∀ y, PlotCall.colorbar x ≠ f y) → PlotCall.colorbar x ∉ optCall f o := by
    intro A f o hf
    cases o with
    | none => simp [optCall]
    | some y => simpa [optCall] using hf y
  unfold gridPlot at h
  split at h
  · cases h
  · injection h with h
    subst h
    simp only [List.mem_append, no PlotCall.xlabel a.xlabel (by simp), no PlotCall.ylabel a.ylabel (by simp), no PlotCall.title a.title (by simp),
      no PlotCall.xlim a.xlim (by simp), no PlotCall.ylim a.ylim (by simp), no PlotCall.save a.fileName (by simp), or_false]
    have h1 : PlotCall.colorbar x ∉ (if a.newAxes = true then [PlotCall.subplots] else [] : List (PlotCall K P)) := by split <;> simp
    have h2 : PlotCall.colorbar x ∉ (if a.show = true then [PlotCall.show] else [] : List (PlotCall K P)) := by split <;> simp
    simp only [h1, h2, or_false, false_or]
    cases lab <;> cases bar <;> simp

/-- **C159** (9): the plot of a domain is either shown or, if a file is named, written to that file. -/
theorem C159_level_output (p : List P) (d : P → K) (fileName : Option String) :
    (PlotCall.show ∈ levelPlot p d fileName ↔ fileName = none) ∧ ∀ f, PlotCall.save f ∈ levelPlot p d fileName ↔ fileName = some f := by
  unfold levelPlot
  cases fileName with
  | none => simp
  | some g => simp [eq_comm]

end

/-! ## Examples -/

/-- Arguments for a plot into a window and a file. -/
def plotEx : PlotArgs ℚ := ⟨true, none, some "y", none, some "a.png", true, some (0, 1), none⟩

-- A shoreline without mainland: its inner polygon has the first line, which the legend names.
example : linesOf (shorelinePlot ([] : List Nat) [1, 2] [3] (⟨0, 1, 0, 1⟩ : Box ℚ) plotEx) = [([1, 2], "r-"), ([3], "g--")] ∧
    legendsOf (shorelinePlot ([] : List Nat) [1, 2] [3] (⟨0, 1, 0, 1⟩ : Box ℚ) plotEx) = [[(0, "inner"), (1, "outer")]] ∧ plotEx.show = true ∧ plotEx.fileName = some "a.png" ∧
    ([1, 2] : List Nat) ≠ [] := ⟨rfl, rfl, rfl, rfl, by decide⟩

-- Every second node of a grid with three by two nodes.
example : (gridPlot (P := Nat) id (⟨⟨0, 2, 0, 1⟩, 1, 1, 3, 2, fun i j => some (10 * i.val + j.val : ℚ), none, true, (), none⟩ : Grid ℚ Unit) 2 false none plotEx).map cellsOf =
    some [[[((0, 0), some 0)], [((2, 0), some 20)]]] := by decide +kernel

example : (drawEdges (K := ℚ) [5, 6, 7] [(0, 1), (2, 0)]).isSome ∧ (2 : Nat) ≠ 0 ∧ |(1 / 20000 : ℚ)| < 1 / 10000 := ⟨rfl, by decide, by norm_num⟩

/-- A grid with three by two nodes. -/
def plotGridEx : Grid ℚ Unit := ⟨⟨0, 2, 0, 1⟩, 1, 1, 3, 2, fun i j => some (10 * i.val + j.val : ℚ), none, true, (), none⟩

-- A grid with a labelled colour bar, a domain written to a file.
example : ∃ l, gridPlot (P := Nat) id plotGridEx 2 false (some "m") plotEx = some l ∧ PlotCall.colorbar (some "m") ∈ l := by
  obtain ⟨l, h⟩ := C159_grid_output (P := Nat) id plotGridEx (c := 2) (by decide) false (some "m") plotEx rfl (f := "a.png") rfl
  exact ⟨_, h, (C159_grid_bar _ _ _ _ _ h _).2 ⟨Or.inr (by simp), rfl⟩⟩
example : PlotCall.save "a.png" ∈ levelPlot [(1 : Nat), 2] (fun q => (q : ℚ)) (some "a.png") := ((C159_level_output _ _ _).2 _).2 rfl

end OM
