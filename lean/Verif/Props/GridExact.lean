import Verif.Props.Globe
/-!
# C33, C34 for all grids

`interpolate_to` and `compute_minimum` for every source grid, with the rule for ties, with NaN, with the mark -999, with extrapolation and for boxes
around the globe.
-/
set_option linter.unusedSectionVars false

namespace OM

namespace Spec
variable {K C : Type} [Field K] [LinearOrder K]

/-- Node `k` of `n` is the one whose cell of one spacing holds the coordinate; the cell is open on the left and closed on the right, so that the lower
of two nodes at equal distance is taken; the first and last cell reach to infinity. -/
def CellOf (x0 d : K) (n : Nat) (x : K) (k : Nat) : Prop :=
  k < n ∧ (k = 0 ∨ nodeAt x0 d k - d / 2 < x) ∧ (k + 1 = n ∨ x ≤ nodeAt x0 d k + d / 2)

/-- The source grid gives its value at the point: it extrapolates, or the point is within the lattice and the value is not the mark -999. -/
def GivesValue (g : Grid K C) (q : K × K) (v : Option K) : Prop :=
  g.extrapolate = true ∨ (InLattice g.box.xmin g.dx g.nx g.box.ymin |g.dy| g.ny q ∧ v ≠ some (-999))

/-- The boxes have common inner points. -/
def BoxesMeet (b c : Box K) : Prop := b.xmin < c.xmax ∧ c.xmin < b.xmax ∧ b.ymin < c.ymax ∧ c.ymin < b.ymax

/-- What another grid contributes to a node of the base grid. In the same coordinate system the value of the node whose cell holds the node of the base
grid, or the base value where the other grid gives none. In another system the interpolated value, taken at the node with the exchanged meridian. -/
def GridOffer [FloorRing K] (tr : C → C → K × K → K × K) (base other : Grid K C) (i : Fin base.nx) (j : Fin base.ny) (v : Option K) : Prop :=
  (other.crs = base.crs → ∃ (k : Fin other.nx) (l : Fin other.ny),
    CellOf other.box.xmin other.dx other.nx (base.xAt i) k ∧ CellOf other.box.ymin other.dy other.ny (base.yAt j) l ∧
    (GivesValue other (base.xAt i, base.yAt j) (other.vals k l) → v = other.vals k l) ∧
    (¬ GivesValue other (base.xAt i, base.yAt j) (other.vals k l) → v = base.vals i j)) ∧
  (other.crs ≠ base.crs → other.evalAt (tr base.crs other.crs (base.xAt (rowAfter base.box i), base.yAt j)) = some v)

/-- The other grid cannot be brought to the lattice of the base grid. -/
def NotAlignable (base other : Grid K C) : Prop :=
  (other.crs = base.crs ∧ ¬ BoxesMeet other.box base.box) ∨ (other.crs ≠ base.crs ∧ other.interp = none)

end Spec

open Spec

section
variable {K C : Type} [Field K] [LinearOrder K] [IsStrictOrderedRing K] [FloorRing K]

theorem cell_unique {x0 d x : K} {n k l : Nat} (hd : 0 < d) (hk : CellOf x0 d n x k) (hl : CellOf x0 d n x l) : k = l := by
  have key : ∀ {k l : Nat}, CellOf x0 d n x k → CellOf x0 d n x l → ¬ k < l := by
    intro k l hk hl h
    have h1 := hk.2.2.resolve_left (by have := hl.1; omega)
    have h2 := hl.2.1.resolve_left (by omega)
    have h3 : (k : K) + 1 ≤ l := by exact_mod_cast h
    simp only [nodeAt] at h1 h2
    nlinarith
  have := key hk hl
  have := key hl hk
  omega

theorem cell_nearest {x0 d x : K} {n k : Nat} (hd : 0 < d) (hk : CellOf x0 d n x k) : NearestOnAxis x0 d n x k := by
  refine ⟨hk.1, fun l hl => ?_⟩
  rcases lt_trichotomy l k with h | h | h
  · have h1 := hk.2.1.resolve_left (by omega)
    have h3 : (l : K) + 1 ≤ k := by exact_mod_cast h
    simp only [nodeAt] at h1 ⊢
    have h4 : (l : K) * d + d ≤ k * d := by nlinarith
    rw [abs_le]
    rw [abs_of_nonneg (by linarith)]
    constructor <;> linarith
  · rw [h]
  · have h1 := hk.2.2.resolve_left (by omega)
    have h3 : (k : K) + 1 ≤ l := by exact_mod_cast h
    simp only [nodeAt] at h1 ⊢
    have h4 : (k : K) * d + d ≤ l * d := by nlinarith
    rw [abs_le]
    rw [abs_of_nonpos (by linarith)]
    constructor <;> linarith

theorem nearerNode_cell {x0 d : K} {n : Nat} {x : K} (hd : 0 < d) (hn : 0 < n) :
    ∃ c, axisCell x0 d n x = some c ∧ CellOf x0 d n x (nearerNode c) := by
  match n, hn with
  | 1, _ =>
    refine ⟨_, rfl, (nearerNode _).isLt, ?_, ?_⟩
    · left; have := (nearerNode ((0 : Fin 1), (0 : Fin 1), (0 : K))).isLt; omega
    · left; have := (nearerNode ((0 : Fin 1), (0 : Fin 1), (0 : K))).isLt; omega
  | n + 2, _ =>
    refine ⟨_, rfl, (nearerNode _).isLt, ?_⟩
    unfold nearerNode
    simp only
    have hfl : (⌊(x - x0) / d⌋ : K) * d ≤ x - x0 := by
      have := Int.floor_le ((x - x0) / d)
      rwa [le_div_iff₀ hd] at this
    have hfu : x - x0 < ((⌊(x - x0) / d⌋ : K) + 1) * d := by
      have := Int.lt_floor_add_one ((x - x0) / d)
      rwa [div_lt_iff₀ hd] at this
    have key : ∀ (f : Int) (i : Nat), (f : K) * d ≤ x - x0 → x - x0 < ((f : K) + 1) * d → i = min f.toNat n →
        ((x - (x0 + (i : K) * d)) / d ≤ 1 / 2 → (i = 0 ∨ nodeAt x0 d i - d / 2 < x) ∧ (i + 1 = n + 2 ∨ x ≤ nodeAt x0 d i + d / 2)) ∧
        (¬ (x - (x0 + (i : K) * d)) / d ≤ 1 / 2 →
          (i + 1 = 0 ∨ nodeAt x0 d (i + 1) - d / 2 < x) ∧ (i + 1 + 1 = n + 2 ∨ x ≤ nodeAt x0 d (i + 1) + d / 2)) := by
      intro f i hfl hfu hi
      have hi : i = 0 ∧ f ≤ 0 ∨ (i = n ∧ (n : Int) ≤ f) ∨ (i : Int) = f ∧ 0 < f ∧ f < n := by omega
      constructor
      · intro hs
        have hs' : x - (x0 + (i : K) * d) ≤ 1 / 2 * d := by rwa [div_le_iff₀ hd] at hs
        simp only [nodeAt]
        refine ⟨?_, Or.inr (by linarith)⟩
        rcases hi with ⟨h, -⟩ | ⟨h, h1⟩ | ⟨h, h1, h2⟩
        · left; exact h
        · right
          have : (n : K) ≤ f := by exact_mod_cast h1
          rw [h]
          nlinarith
        · right
          have : (i : K) = f := by exact_mod_cast h
          rw [this]
          linarith
      · intro hs
        have hs' : 1 / 2 * d < x - (x0 + (i : K) * d) := by
          rw [not_le, lt_div_iff₀ hd] at hs
          exact hs
        simp only [nodeAt]
        refine ⟨Or.inr (by push_cast; linarith), ?_⟩
        rcases hi with ⟨h, h1⟩ | ⟨h, h1⟩ | ⟨h, h1, h2⟩
        · right
          have : (f : K) ≤ 0 := by exact_mod_cast h1
          rw [h]
          push_cast
          nlinarith
        · left; omega
        · right
          have : (i : K) = f := by exact_mod_cast h
          push_cast
          rw [this]
          linarith
    have := key _ _ hfl hfu rfl
    split
    · rename_i hs
      exact this.1 hs
    · rename_i hs
      exact this.2 hs

theorem nearestAt_cell (g : Grid K C) (q : K × K) (hdx : 0 < g.dx) (hdy : 0 < g.dy) (hn : 0 < g.nx) (hm : 0 < g.ny) :
    ∃ (k : Fin g.nx) (l : Fin g.ny), CellOf g.box.xmin g.dx g.nx q.1 k ∧ CellOf g.box.ymin g.dy g.ny q.2 l ∧ g.nearestAt q = g.vals k l := by
  obtain ⟨c, hc, hc'⟩ := nearerNode_cell (x0 := g.box.xmin) (x := q.1) hdx hn
  obtain ⟨d, hd, hd'⟩ := nearerNode_cell (x0 := g.box.ymin) (x := q.2) hdy hm
  refine ⟨nearerNode c, nearerNode d, hc', hd', ?_⟩
  simp only [Grid.nearestAt, abs_of_pos hdy, hc, hd]

theorem overlaps_iff (g g2 : Grid K C) : g.overlaps g2 = true ↔ BoxesMeet g.box g2.box := by
  simp [Grid.overlaps, BoxesMeet, and_assoc]

theorem mergedValue_cell (g g2 : Grid K C) (hdx : 0 < g.dx) (hdy : 0 < g.dy) (hn : 0 < g.nx) (hm : 0 < g.ny) (i : Fin g2.nx) (j : Fin g2.ny) :
    ∃ (k : Fin g.nx) (l : Fin g.ny), CellOf g.box.xmin g.dx g.nx (g2.xAt i) k ∧ CellOf g.box.ymin g.dy g.ny (g2.yAt j) l ∧
      (GivesValue g (g2.xAt i, g2.yAt j) (g.vals k l) → g.mergedValue g2 i j = g.vals k l) ∧
      (¬ GivesValue g (g2.xAt i, g2.yAt j) (g.vals k l) → g.mergedValue g2 i j = g2.vals i j) := by
  obtain ⟨k, l, h1, h2, h3⟩ := nearestAt_cell g (g2.xAt i, g2.yAt j) hdx hdy hn hm
  refine ⟨k, l, h1, h2, fun h => ?_, fun h => ?_⟩
  · rcases h with h | ⟨h, h'⟩
    · simp [Grid.mergedValue, Grid.sourceValue, h, h3]
    · have ho := (outside_false hn hm).2 h
      simp [Grid.mergedValue, Grid.sourceValue, ho, h3, h']
  · unfold GivesValue at h
    push Not at h
    obtain ⟨he, h⟩ := h
    have he' : g.extrapolate = false := by simpa using he
    by_cases hl : InLattice g.box.xmin g.dx g.nx g.box.ymin |g.dy| g.ny (g2.xAt i, g2.yAt j)
    · have ho := (outside_false hn hm).2 hl
      simp [Grid.mergedValue, Grid.sourceValue, ho, h3, h hl, he']
    · have ho : g.outside (g2.xAt i, g2.yAt j) = true := by
        by_contra hc
        exact hl ((outside_false hn hm).1 (by simpa using hc))
      simp [Grid.mergedValue, Grid.sourceValue, ho, he']

/-- **C33**, all grids. `interpolate_to` raises iff the boxes have no common inner points. Otherwise the result is the target grid with new values, without
extrapolation and interpolant; the value at a node is that of the source node whose cell holds it, if the source gives a value there, and the old one otherwise. -/
theorem C33_exact (g g2 : Grid K C) (hdx : 0 < g.dx) (hdy : 0 < g.dy) (hn : 0 < g.nx) (hm : 0 < g.ny) :
    (g.interpolateTo g2 = none ↔ ¬ BoxesMeet g.box g2.box) ∧
    (BoxesMeet g.box g2.box → ∃ w, g.interpolateTo g2 = some { g2 with vals := w, extrapolate := false, interp := none } ∧
      ∀ (i : Fin g2.nx) (j : Fin g2.ny), ∃ (k : Fin g.nx) (l : Fin g.ny),
        CellOf g.box.xmin g.dx g.nx (g2.xAt i) k ∧ CellOf g.box.ymin g.dy g.ny (g2.yAt j) l ∧
        (GivesValue g (g2.xAt i, g2.yAt j) (g.vals k l) → w i j = g.vals k l) ∧
        (¬ GivesValue g (g2.xAt i, g2.yAt j) (g.vals k l) → w i j = g2.vals i j)) := by
  constructor
  · rw [← overlaps_iff]
    unfold Grid.interpolateTo
    split <;> simp_all
  · intro h
    refine ⟨g.mergedValue g2, ?_, fun i j => mergedValue_cell g g2 hdx hdy hn hm i j⟩
    rw [← overlaps_iff] at h
    simp [Grid.interpolateTo, h]

variable [DecidableEq C]

theorem aligned_contributes {tr : C → C → K × K → K × K} {base other : Grid K C} {a : Fin base.nx → Fin base.ny → Option K}
    (h : alignedVals tr base other = some a) (hdx : 0 < other.dx) (hdy : 0 < other.dy) (hn : 0 < other.nx) (hm : 0 < other.ny)
    (i : Fin base.nx) (j : Fin base.ny) : GridOffer tr base other i j (a i j) := by
  unfold alignedVals at h
  split at h
  · rename_i hcrs
    split at h
    · simp only [Option.some.injEq] at h
      refine ⟨fun _ => ?_, fun hne => absurd hcrs hne⟩
      rw [← h]
      exact mergedValue_cell other base hdx hdy hn hm i j
    · simp at h
  · rename_i hcrs
    refine ⟨fun h' => absurd h' hcrs, fun _ => ?_⟩
    rw [Option.map_eq_some_iff] at h
    obtain ⟨e, he, h⟩ := h
    rw [← h, cyclicVals_rowAfter]
    simp [Grid.evalAt, he]

theorem aligned_none {tr : C → C → K × K → K × K} {base other : Grid K C} : alignedVals tr base other = none ↔ NotAlignable base other := by
  unfold alignedVals NotAlignable
  rw [← overlaps_iff]
  split
  · rename_i h
    split <;> simp_all
  · rename_i h
    simp [h]

theorem contributes_unique {tr : C → C → K × K → K × K} {base other : Grid K C} {i : Fin base.nx} {j : Fin base.ny} {v w : Option K}
    (hdx : 0 < other.dx) (hdy : 0 < other.dy) (h1 : GridOffer tr base other i j v) (h2 : GridOffer tr base other i j w) : v = w := by
  by_cases hc : other.crs = base.crs
  · obtain ⟨k, l, hk, hl, ha, hb⟩ := h1.1 hc
    obtain ⟨k', l', hk', hl', ha', hb'⟩ := h2.1 hc
    have e1 : k = k' := Fin.ext (cell_unique hdx hk hk')
    have e2 : l = l' := Fin.ext (cell_unique hdy hl hl')
    subst e1 e2
    by_cases hg : GivesValue other (base.xAt i, base.yAt j) (other.vals k l)
    · rw [ha hg, ha' hg]
    · rw [hb hg, hb' hg]
  · have := h1.2 hc
    rw [h2.2 hc] at this
    simpa using this.symm

/-- **C34**, all grids. The result is the base grid with new values, the smallest positive value as minimum, extrapolation and an interpolant. Before the
exchange of meridians the value of a node is NaN iff the base value or one of the contributions is, and otherwise the smallest of them. -/
theorem C34_exact {tr : C → C → K × K → K × K} {base : Grid K C} {others : List (Grid K C)} {g : Grid K C}
    (h : computeMinimum tr (base :: others) = some g) (hval : ∀ o ∈ others, 0 < o.dx ∧ 0 < o.dy ∧ 0 < o.nx ∧ 0 < o.ny) :
    ∃ (w : Fin base.nx → Fin base.ny → Option K) (lo : K),
      g = { base with vals := fun i j => w (rowAfter base.box i) j, hmin := some lo, extrapolate := true, interp := some true } ∧
      IsLeast {x | 0 < x ∧ ∃ i j, w i j = some x} lo ∧
      ∀ i j, (w i j = none ↔ base.vals i j = none ∨ ∃ o ∈ others, GridOffer tr base o i j none) ∧
        ∀ x, w i j = some x ↔ (base.vals i j ≠ none ∧ ∀ o ∈ others, ¬ GridOffer tr base o i j none) ∧
          IsLeast {z | base.vals i j = some z ∨ ∃ o ∈ others, GridOffer tr base o i j (some z)} x := by
  obtain ⟨arrs, lo, h1, h2, h3⟩ := computeMinimum_some h
  have hmem : ∀ a ∈ arrs, ∃ o ∈ others, alignedVals tr base o = some a := by
    intro a ha
    have : some a ∈ others.map (alignedVals tr base) := by rw [h1]; exact List.mem_map_of_mem ha
    simpa using this
  have hmem' : ∀ o ∈ others, ∃ a ∈ arrs, alignedVals tr base o = some a := by
    intro o ho
    have : alignedVals tr base o ∈ arrs.map some := by rw [← h1]; exact List.mem_map_of_mem ho
    simpa [eq_comm] using this
  have hcon : ∀ (i : Fin base.nx) (j : Fin base.ny) (v : Option K), (∃ a ∈ arrs, a i j = v) ↔ ∃ o ∈ others, GridOffer tr base o i j v := by
    intro i j v
    constructor
    · rintro ⟨a, ha, rfl⟩
      obtain ⟨o, ho, hoa⟩ := hmem a ha
      have hv := hval o ho
      exact ⟨o, ho, aligned_contributes hoa hv.1 hv.2.1 hv.2.2.1 hv.2.2.2 i j⟩
    · rintro ⟨o, ho, hc⟩
      obtain ⟨a, ha, hoa⟩ := hmem' o ho
      have hv := hval o ho
      exact ⟨a, ha, contributes_unique hv.1 hv.2.1 (aligned_contributes hoa hv.1 hv.2.1 hv.2.2.1 hv.2.2.2 i j) hc⟩
  refine ⟨minReduce base.vals arrs, lo, ?_, ?_, fun i j => ?_⟩
  · rw [h3]
    congr 1
    funext i j
    rw [cyclicVals_rowAfter]
  · have := minElement_isLeast h2
    have e : {x : K | 0 < x ∧ ∃ i j, minReduce base.vals arrs i j = some x} =
        {y | y ∈ (allVals (minReduce base.vals arrs)).filterMap fun v => v.filter fun x => decide (0 < x)} := by
      ext z
      exact mem_positives.symm
    rw [e]
    exact this
  · have hnone : minReduce base.vals arrs i j = none ↔ base.vals i j = none ∨ ∃ a ∈ arrs, a i j = none := by
      rw [minReduce_eq]
      constructor
      · intro hn
        by_contra hc
        push Not at hc
        have := foldl_optMin_isSome (fun (w : Fin base.nx → Fin base.ny → Option K) => w i j) arrs (base.vals i j)
          (Option.isSome_iff_ne_none.2 hc.1) fun a ha => Option.isSome_iff_ne_none.2 (hc.2 a ha)
        rw [hn] at this
        simp at this
      · intro hn
        by_contra hc
        obtain ⟨x, hx⟩ := Option.ne_none_iff_exists'.1 hc
        obtain ⟨y, hy, -, hall, -⟩ := foldl_optMin (fun (w : Fin base.nx → Fin base.ny → Option K) => w i j) arrs _ _ hx
        rcases hn with hn | ⟨a, ha, hn⟩
        · rw [hn] at hy; simp at hy
        · obtain ⟨z, hz, -⟩ := hall a ha
          rw [hn] at hz; simp at hz
    have hleast : ∀ x, minReduce base.vals arrs i j = some x →
        IsLeast {z | base.vals i j = some z ∨ ∃ o ∈ others, GridOffer tr base o i j (some z)} x := by
      intro x hx
      rw [minReduce_eq] at hx
      obtain ⟨y, hy, hxy, hall, hz'⟩ := foldl_optMin (fun (w : Fin base.nx → Fin base.ny → Option K) => w i j) arrs _ _ hx
      constructor
      · rcases hz' with h' | ⟨w, hw, hw'⟩
        · exact Or.inl (h' ▸ hy)
        · exact Or.inr ((hcon i j (some x)).1 ⟨w, hw, hw'⟩)
      · rintro u (hu | hu)
        · rw [hy] at hu; exact Option.some.inj hu ▸ hxy
        · obtain ⟨a, ha, hau⟩ := (hcon i j (some u)).2 hu
          obtain ⟨y', hy', hxy'⟩ := hall a ha
          simp only [hau] at hy'
          exact Option.some.inj hy' ▸ hxy'
    rw [hnone, hcon i j none]
    refine ⟨Iff.rfl, fun x => ⟨fun hx => ⟨?_, hleast x hx⟩, ?_⟩⟩
    · have : ¬ (base.vals i j = none ∨ ∃ o ∈ others, GridOffer tr base o i j none) := by
        rw [← hcon i j none, ← hnone, hx]; simp
      push Not at this
      exact this
    · rintro ⟨hn, hx⟩
      have : minReduce base.vals arrs i j ≠ none := by
        rw [ne_eq, hnone, hcon i j none]
        push Not
        exact hn
      obtain ⟨y, hy⟩ := Option.ne_none_iff_exists'.1 this
      rw [hy, (hleast y hy).unique hx]

/-- **C34**, failure, all grids: `compute_minimum` raises iff another grid cannot be aligned, or there is no node at which the base value and all
contributions are positive numbers. -/
theorem C34_fails_iff (tr : C → C → K × K → K × K) (base : Grid K C) (others : List (Grid K C))
    (hval : ∀ o ∈ others, 0 < o.dx ∧ 0 < o.dy ∧ 0 < o.nx ∧ 0 < o.ny) :
    computeMinimum tr (base :: others) = none ↔ (∃ o ∈ others, NotAlignable base o) ∨
      ¬ ∃ i j, (∃ x, base.vals i j = some x ∧ 0 < x) ∧ ∀ o ∈ others, ∃ x, GridOffer tr base o i j (some x) ∧ 0 < x := by
  by_cases hal : ∃ o ∈ others, NotAlignable base o
  · simp only [hal, true_or, iff_true]
    obtain ⟨o, ho, hna⟩ := hal
    have : collectAll (others.map (alignedVals tr base)) = none :=
      collect_none.2 (List.mem_map.2 ⟨o, ho, aligned_none.2 hna⟩)
    rw [computeMinimum, this]
  · simp only [hal, false_or]
    cases hc : computeMinimum tr (base :: others) with
    | some g =>
      simp only [reduceCtorEq, false_iff, not_not]
      obtain ⟨w, lo, -, ⟨⟨hlo, i, j, hij⟩, -⟩, hw⟩ := C34_exact hc hval
      obtain ⟨⟨hb, hn⟩, hl⟩ := ((hw i j).2 lo).1 hij
      refine ⟨i, j, ?_, fun o ho => ?_⟩
      · obtain ⟨x, hx⟩ := Option.ne_none_iff_exists'.1 hb
        exact ⟨x, hx, hlo.trans_le (hl.2 (Or.inl hx))⟩
      · have hne : alignedVals tr base o ≠ none := fun hx => hal ⟨o, ho, aligned_none.1 hx⟩
        obtain ⟨a, ha⟩ := Option.ne_none_iff_exists'.1 hne
        have hv := hval o ho
        have hca := aligned_contributes ha hv.1 hv.2.1 hv.2.2.1 hv.2.2.2 i j
        cases hx : a i j with
        | none => rw [hx] at hca; exact absurd hca (hn o ho)
        | some x => rw [hx] at hca; exact ⟨x, hca, hlo.trans_le (hl.2 (Or.inr ⟨o, ho, hca⟩))⟩
    | none =>
      simp only [true_iff]
      rintro ⟨i, j, ⟨x, hx, hx0⟩, hall⟩
      have hcol : ∃ r, collectAll (others.map (alignedVals tr base)) = some r := by
        cases hcc : collectAll (others.map (alignedVals tr base)) with
        | none =>
          obtain ⟨o, ho, hoa⟩ := List.mem_map.1 (collect_none.1 hcc)
          exact absurd ⟨o, ho, aligned_none.1 hoa⟩ hal
        | some r => exact ⟨r, rfl⟩
      obtain ⟨r, hr⟩ := hcol
      rw [computeMinimum, hr] at hc
      simp only at hc
      split at hc
      · rename_i hme
        rw [minElement_none] at hme
        have hr' := collect_some hr
        have hmem : ∀ a ∈ r, ∃ y, a i j = some y ∧ 0 < y := by
          intro a ha
          have : some a ∈ others.map (alignedVals tr base) := by rw [hr']; exact List.mem_map_of_mem ha
          obtain ⟨o, ho, hoa⟩ := List.mem_map.1 this
          have hv := hval o ho
          obtain ⟨y, hy, hy0⟩ := hall o ho
          exact ⟨y, contributes_unique hv.1 hv.2.1 (aligned_contributes hoa hv.1 hv.2.1 hv.2.2.1 hv.2.2.2 i j) hy, hy0⟩
        have hs : (minReduce base.vals r i j).isSome := by
          rw [minReduce_eq]
          refine foldl_optMin_isSome (fun (w : Fin base.nx → Fin base.ny → Option K) => w i j) r _ (by rw [hx]; rfl) ?_
          intro a ha
          obtain ⟨y, hy, _⟩ := hmem a ha
          rw [hy]; rfl
        obtain ⟨y, hy⟩ := Option.isSome_iff_exists.1 hs
        have hy0 : 0 < y := by
          have hy' := hy
          rw [minReduce_eq] at hy'
          obtain ⟨z, hz, _, _, h'⟩ := foldl_optMin (fun (w : Fin base.nx → Fin base.ny → Option K) => w i j) r _ _ hy'
          rcases h' with h' | ⟨w, hw, hw'⟩
          · rw [h']; rw [hx] at hz; exact Option.some.inj hz ▸ hx0
          · obtain ⟨u, hu, hu0⟩ := hmem w hw
            rw [hw'] at hu; exact Option.some.inj hu ▸ hu0
        have hin : y ∈ (allVals (minReduce base.vals r)).filterMap (fun v => v.filter fun x => decide (0 < x)) :=
          mem_positives.2 ⟨hy0, i, j, hy⟩
        rw [hme] at hin
        simp at hin
      · simp at hc

end

/-! ## Examples -/

/-- A tie: the point in the middle of two nodes belongs to the lower one. -/
example : CellOf (0 : ℚ) 1 3 (1 / 2) 0 ∧ ¬ CellOf (0 : ℚ) 1 3 (1 / 2) 1 ∧ CellOf (0 : ℚ) 1 3 7 2 ∧ CellOf (0 : ℚ) 1 3 (-7) 0 := by
  unfold CellOf nodeAt; norm_num
example : BoxesMeet gridEx.box targetEx.box ∧ 0 < gridEx.dx ∧ 0 < gridEx.dy ∧ 0 < gridEx.nx ∧ 0 < gridEx.ny := by
  unfold BoxesMeet; decide +kernel
/-- The target node on the last node of the source gets its value, the one behind it keeps its own. -/
example : (gridEx.interpolateTo targetEx).map (fun r => allVals r.vals) =
    some [some 0, some 10, some 2, some 12, some 77, some 77] := by decide +kernel
/-- A NaN of the base grid and one of the other grid. -/
def nanBase : Grid ℚ Nat := ⟨⟨0, 2, 0, 1⟩, 1, 1, 3, 2, fun i j => if i = 0 then none else some (5 + (j : ℚ)), none, false, 0, none⟩
/-- The other grid, with a NaN at its last column. -/
def nanOther : Grid ℚ Nat := ⟨⟨0, 2, 0, 1⟩, 1, 1, 3, 2, fun i _ => if i = 2 then none else some 4, none, false, 0, none⟩
example : (computeMinimum (fun _ _ q => q) [nanBase, nanOther]).map (fun r => (allVals r.vals, r.hmin)) =
    some ([none, none, some 4, some 4, none, none], some 4) := by decide +kernel
example : computeMinimum (fun _ _ q => q) [nanBase, { nanOther with box := ⟨2, 4, 0, 1⟩ }] = none ∧
    NotAlignable nanBase { nanOther with box := ⟨2, 4, 0, 1⟩ } := by
  refine ⟨by decide +kernel, Or.inl ⟨rfl, ?_⟩⟩
  unfold BoxesMeet; decide +kernel

end OM
