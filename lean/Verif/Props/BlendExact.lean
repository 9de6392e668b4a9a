import Verif.Props.Blend
import Verif.Props.GridExact
import Verif.Props.SdfExact
/-!
# C36 for all grids

`blend_into` for every pair of grids where the fine one fits, with NaN, with the marks -999 and -99999 and with fine grids that extrapolate: when it
raises, the value of every node, and `hmin`.
-/
set_option linter.unusedSectionVars false

namespace OM

namespace Spec
variable {K C : Type} [Field K] [LinearOrder K]

/-- The value `v` of node `(k, l)` of the fine grid surrounded by `w` rows and columns of the mark -99999. -/
def PaddedValue (w : Nat) (g : Grid K C) (k l : Nat) (v : Option K) : Prop :=
  (∃ (a : Fin g.nx) (b : Fin g.ny), k = a + w ∧ l = b + w ∧ v = g.vals a b) ∨
  ((k < w ∨ w + g.nx ≤ k ∨ l < w ∨ w + g.ny ≤ l) ∧ v = some (-99999))

/-- The fine grid with its padding gives its value at the point: it extrapolates, or the point is within the padded lattice and the value is not the
mark -999. -/
def GivesPadded (w : Nat) (g : Grid K C) (q : K × K) (v : Option K) : Prop :=
  g.extrapolate = true ∨ (InLattice (g.box.xmin - g.dx * w) g.dx (g.nx + 2 * w) (g.box.ymin - g.dy * w) g.dy (g.ny + 2 * w) q ∧ v ≠ some (-999))

/-- The value of a coarse node before the padding is filled: that of the padded node whose cell holds it, or the coarse value where the padded grid gives
none. -/
def Overlaid [FloorRing K] (w : Nat) (g coarse : Grid K C) (i : Fin coarse.nx) (j : Fin coarse.ny) (u : Option K) : Prop :=
  ∃ k l v, CellOf (g.box.xmin - g.dx * w) g.dx (g.nx + 2 * w) (coarse.xAt i) k ∧
    CellOf (g.box.ymin - g.dy * w) g.dy (g.ny + 2 * w) (coarse.yAt j) l ∧ PaddedValue w g k l v ∧
    (GivesPadded w g (coarse.xAt i, coarse.yAt j) v → u = v) ∧ (¬ GivesPadded w g (coarse.xAt i, coarse.yAt j) v → u = coarse.vals i j)

/-- The fine box lies strictly within the coarse one and is not inverted. -/
def FitsInto (b c : Box K) : Prop :=
  c.xmin < b.xmin ∧ b.xmin ≤ b.xmax ∧ b.xmax < c.xmax ∧ c.ymin < b.ymin ∧ b.ymin ≤ b.ymax ∧ b.ymax < c.ymax

/-- The smallest of the values of the nodes with the property; NaN if one of them is. -/
def LeastOf {n m : Nat} (P : Fin n → Fin m → Prop) (W : Fin n → Fin m → Option K) (h : Option K) : Prop :=
  (h = none ∧ ∃ i j, P i j ∧ W i j = none) ∨
  (∃ v, h = some v ∧ (∃ i j, P i j ∧ W i j = some v) ∧ ∀ i j, P i j → ∃ u, W i j = some u ∧ v ≤ u)

end Spec

open Spec

variable {K C : Type} [Field K] [LinearOrder K] [IsStrictOrderedRing K] [FloorRing K]

theorem padVals_paddedValue (w : Nat) (g : Grid K C) (k : Fin (g.nx + 2 * w)) (l : Fin (g.ny + 2 * w)) :
    PaddedValue w g k l (padVals w g.vals k l) := by
  unfold padVals
  split
  · rename_i h
    exact Or.inl ⟨⟨k - w, by omega⟩, ⟨l - w, by omega⟩, by simp only; omega, by simp only; omega, rfl⟩
  · rename_i h
    exact Or.inr ⟨by omega, rfl⟩

theorem overlaid_merged (w : Nat) (g coarse : Grid K C) (hdx : 0 < g.dx) (hdy : 0 < g.dy) (hn : 0 < g.nx) (hm : 0 < g.ny) (i : Fin coarse.nx)
    (j : Fin coarse.ny) : Overlaid w g coarse i j ((g.padded w).mergedValue coarse i j) := by
  obtain ⟨k, l, h1, h2, h3, h4⟩ := mergedValue_cell (g.padded w) coarse hdx hdy (by show 0 < g.nx + 2 * w; omega) (by show 0 < g.ny + 2 * w; omega) i j
  have e : GivesValue (g.padded w) (coarse.xAt i, coarse.yAt j) ((g.padded w).vals k l) ↔
      GivesPadded w g (coarse.xAt i, coarse.yAt j) ((g.padded w).vals k l) := by
    unfold GivesValue GivesPadded
    show (_ ∨ InLattice _ g.dx _ _ |g.dy| _ _ ∧ _) ↔ _
    rw [abs_of_pos hdy]; rfl
  exact ⟨k, l, _, h1, h2, padVals_paddedValue w g k l, fun h => h3 (e.2 h), fun h => h4 fun h' => h (e.1 h')⟩

theorem mem_allNodes (g : Grid K C) (n : Fin g.nx × Fin g.ny) : n ∈ g.nodes := by
  obtain ⟨i, j⟩ := n
  simp [Grid.nodes]

theorem nodup_nodes (g : Grid K C) : g.nodes.Nodup := by
  have h : g.nodes = (List.finRange g.nx) ×ˢ (List.finRange g.ny) := rfl
  rw [h]
  exact (List.nodup_finRange _).product (List.nodup_finRange _)

theorem mem_known (g : Grid K C) (n : Fin g.nx × Fin g.ny) : n ∈ g.known ↔ g.vals n.1 n.2 ≠ some (-99999) := by
  simp [Grid.known, mem_allNodes]

theorem mem_asked (g : Grid K C) (n : Fin g.nx × Fin g.ny) : n ∈ g.asked ↔ g.vals n.1 n.2 = some (-99999) := by
  simp [Grid.asked, mem_allNodes]

theorem asked_nil_iff (g : Grid K C) : g.asked = [] ↔ ∀ i j, g.vals i j ≠ some (-99999) := by
  rw [List.eq_nil_iff_forall_not_mem]
  constructor
  · intro h i j hij
    exact h (i, j) ((mem_asked g _).2 hij)
  · intro h n hn
    exact h _ _ ((mem_asked g n).1 hn)

theorem amin_cases {l : List (Option K)} (hl : l ≠ []) :
    (amin l = none ∧ none ∈ l) ∨ ∃ v, amin l = some v ∧ some v ∈ l ∧ ∀ u ∈ l, ∃ x, u = some x ∧ v ≤ x := by
  unfold amin
  cases hc : collectAll l with
  | none => exact Or.inl ⟨rfl, collectAll_eq_none.1 hc⟩
  | some r =>
    have e := collectAll_eq_some hc
    have hr : r ≠ [] := by rintro rfl; exact hl (by simpa using e)
    obtain ⟨m, h1, h2, h3⟩ := minElement_spec hr
    refine Or.inr ⟨m, h1, by rw [e]; exact List.mem_map_of_mem h2, fun u hu => ?_⟩
    rw [e] at hu
    obtain ⟨x, hx, rfl⟩ := List.mem_map.1 hu
    exact ⟨x, rfl, h3 x hx⟩

theorem leastOf_map {n m : Nat} {P : Fin n → Fin m → Prop} {W : Fin n → Fin m → Option K} {l : List (Fin n × Fin m)} (hl : l ≠ [])
    (h : ∀ p, p ∈ l ↔ P p.1 p.2) : LeastOf P W (amin (l.map fun p => W p.1 p.2)) := by
  rcases amin_cases (l := l.map fun p => W p.1 p.2) (by simpa using hl) with ⟨h1, h2⟩ | ⟨v, h1, h2, h3⟩
  · obtain ⟨p, hp, e⟩ := List.mem_map.1 h2
    exact Or.inl ⟨h1, p.1, p.2, (h p).1 hp, e⟩
  · obtain ⟨p, hp, e⟩ := List.mem_map.1 h2
    exact Or.inr ⟨v, h1, ⟨p.1, p.2, (h p).1 hp, e⟩, fun i j hij => h3 _ (List.mem_map.2 ⟨(i, j), (h (i, j)).2 hij, rfl⟩)⟩

theorem allVals_eq_map (g : Grid K C) (W : Fin g.nx → Fin g.ny → Option K) : allVals W = g.nodes.map fun p => W p.1 p.2 := by
  simp [allVals, Grid.nodes, List.map_flatMap, Function.comp_def]

theorem interpolateTo_padded {w : Nat} {g coarse : Grid K C} (hfit : FitsInto g.box coarse.box) (hdx : 0 < g.dx) (hdy : 0 < g.dy) :
    (g.padded w).interpolateTo coarse =
      some { coarse with vals := (g.padded w).mergedValue coarse, extrapolate := false, interp := none } := by
  obtain ⟨h1, h2, h3, h4, h5, h6⟩ := hfit
  have a : 0 ≤ g.dx * w := mul_nonneg hdx.le (Nat.cast_nonneg w)
  have b : 0 ≤ g.dy * w := mul_nonneg hdy.le (Nat.cast_nonneg w)
  have hm : (g.padded w).overlaps coarse = true := by
    rw [overlaps_iff]
    refine ⟨?_, ?_, ?_, ?_⟩ <;> simp only [Grid.padded] <;> linarith
  unfold Grid.interpolateTo
  rw [if_pos hm]

/-- **C36**, for all grids. If the fine box fits, lay the padded fine grid over the coarse one: every coarse node takes the value of the padded node whose
cell holds it wherever the padded grid gives a value (everywhere if the fine grid extrapolates). Then `blend_into` raises exactly if some node carries
the mark -99999 and fewer nodes than neighbours do not. Otherwise the nodes without the mark keep their overlaid value (also NaN), those with the mark
get the inverse-distance interpolation of the others, which is between bounds of the values it uses, and `hmin` is the smallest value of the nodes
that had the mark, or of all nodes if there are none. -/
theorem C36_exact {pw : K → K} (hpw : ∀ d, 0 < d → 0 < pw d) {nnear : Nat} {query : List (K × K) → K × K → List (K × Nat)}
    (hquery : ∀ pts q, nnear ≤ pts.length → ValidQuery pts.length (query pts q)) {w : Nat} {g coarse : Grid K C} (hfit : FitsInto g.box coarse.box)
    (hdx : 0 < g.dx) (hdy : 0 < g.dy) (hn : 0 < g.nx) (hm : 0 < g.ny) (hcn : 0 < coarse.nx) (hcm : 0 < coarse.ny) :
    ∃ (M : Fin coarse.nx → Fin coarse.ny → Option K) (ns : List (Fin coarse.nx × Fin coarse.ny)),
      (∀ i j, Overlaid w g coarse i j (M i j)) ∧ ns.Nodup ∧ (∀ n, n ∈ ns ↔ M n.1 n.2 ≠ some (-99999)) ∧
      (g.blendInto pw nnear query w coarse = none ↔ (∃ i j, M i j = some (-99999)) ∧ ns.length < nnear) ∧
      ∀ r, g.blendInto pw nnear query w coarse = some r →
        ∃ W, r = { coarse with vals := W, hmin := r.hmin, extrapolate := false, interp := none } ∧
          (∀ i j, M i j ≠ some (-99999) → W i j = M i j) ∧
          (∀ i j, M i j = some (-99999) → nnear ≤ ns.length ∧
            (∃ nb, nb = query (ns.map fun n => (coarse.xAt n.1, coarse.yAt n.2)) (coarse.xAt i, coarse.yAt j) ∧
              W i j = idwValue pw nnear none (ns.map fun n => M n.1 n.2) nb ∧
              ((∀ p ∈ nb, ∀ n, ns[p.2]? = some n → (M n.1 n.2).isSome) → ∃ v, W i j = some v ∧
                ∀ lo hi : K, (∀ p ∈ nb, ∀ n u, ns[p.2]? = some n → M n.1 n.2 = some u → lo ≤ u ∧ u ≤ hi) → lo ≤ v ∧ v ≤ hi))) ∧
          ((∃ i j, M i j = some (-99999)) → LeastOf (fun i j => M i j = some (-99999)) W r.hmin) ∧
          ((∀ i j, M i j ≠ some (-99999)) → LeastOf (fun _ _ => True) W r.hmin) := by
  have hint := interpolateTo_padded (w := w) hfit hdx hdy
  have hf : coarse.box.xmin < g.box.xmin ∧ g.box.xmax < coarse.box.xmax ∧ coarse.box.ymin < g.box.ymin ∧ g.box.ymax < coarse.box.ymax :=
    ⟨hfit.1, hfit.2.2.1, hfit.2.2.2.1, hfit.2.2.2.2.2⟩
  set c : Grid K C := { coarse with vals := (g.padded w).mergedValue coarse, extrapolate := false, interp := none } with hc
  refine ⟨c.vals, c.known, fun i j => overlaid_merged w g coarse hdx hdy hn hm i j, (nodup_nodes c).filter _, mem_known c, ?_, ?_⟩
  · unfold Grid.blendInto
    rw [if_pos hf, hint]
    simp only
    by_cases ha : c.asked = []
    · simp only [ha, if_true, reduceCtorEq, false_iff, not_and]
      rintro ⟨i, j, hij⟩
      exact absurd hij ((asked_nil_iff c).1 ha i j)
    · have hex : ∃ i j, c.vals i j = some (-99999) := by
        by_contra hne
        push Not at hne
        exact ha ((asked_nil_iff c).2 hne)
      rw [if_neg ha]
      constructor
      · intro h
        split at h
        · rename_i hl; exact ⟨hex, hl⟩
        · simp at h
      · rintro ⟨-, hl⟩
        rw [if_pos hl]
  · intro r hr
    obtain ⟨h1, h2, h3⟩ := blendInto_some hf hr
    rw [← hc] at h1 h2 h3
    refine ⟨c.filledVals pw nnear query, h1, fun i j h => if_neg h, fun i j h => ?_, fun hex => ?_, fun hno => ?_⟩
    · have hne : c.asked ≠ [] := fun e => (asked_nil_iff c).1 e i j h
      have hlen : nnear ≤ c.known.length := h2.resolve_left hne
      have hW : c.filledVals pw nnear query i j = idwValue pw nnear none (c.known.map fun n => c.vals n.1 n.2)
          (query (c.known.map fun n => (c.xAt n.1, c.yAt n.2)) (c.xAt i, c.yAt j)) := if_pos h
      refine ⟨hlen, _, rfl, hW, fun hs => ?_⟩
      have hv := hquery (c.known.map fun n => (c.xAt n.1, c.yAt n.2)) (c.xAt i, c.yAt j) (by simpa using hlen)
      rw [List.length_map] at hv
      have key : ∀ p ∈ query (c.known.map fun n => (c.xAt n.1, c.yAt n.2)) (c.xAt i, c.yAt j), ∃ n u, c.known[p.2]? = some n ∧ c.vals n.1 n.2 = some u := by
        intro p hp
        have hlt := hv.inRange p hp
        have e : c.known[p.2]? = some c.known[p.2] := List.getElem?_eq_getElem hlt
        exact ⟨_, _, e, (Option.some_get (hs p hp _ e)).symm⟩
      obtain ⟨v, hv1, hv2⟩ := idw_between hpw nnear none (c.known.map fun n => c.vals n.1 n.2)
        (query (c.known.map fun n => (c.xAt n.1, c.yAt n.2)) (c.xAt i, c.yAt j)) (by simpa using hv)
        (fun p hp => by
          obtain ⟨n, u, e1, e2⟩ := key p hp
          exact ⟨u, by rw [List.getElem?_map, e1]; simp [e2]⟩)
        (fun _ h => by simp at h)
      refine ⟨v, hW.trans hv1, fun lo hi hb => hv2 lo hi fun p hp u hu => ?_⟩
      obtain ⟨n, u', e1, e2⟩ := key p hp
      rw [List.getElem?_map, e1] at hu
      have hu' : c.vals n.1 n.2 = some u := by simpa using hu
      exact hb p hp n u e1 hu'
    · obtain ⟨i, j, hij⟩ := hex
      have hne : c.asked ≠ [] := fun e => (asked_nil_iff c).1 e i j hij
      rw [h3, if_neg hne]
      exact leastOf_map hne (mem_asked c)
    · have ha := (asked_nil_iff c).2 hno
      rw [h3, if_pos ha]
      have e : (fun i j => c.filledVals pw nnear query i j) = c.vals := by
        funext i j
        exact if_neg (hno i j)
      have e' : c.filledVals pw nnear query = c.vals := e
      rw [e', allVals_eq_map c]
      refine leastOf_map ?_ (fun p => by simp [mem_allNodes])
      intro h0
      have := mem_allNodes c (⟨0, hcn⟩, ⟨0, hcm⟩)
      rw [h0] at this
      simp at this

/-- A fine grid with a NaN value that extrapolates. -/
def fineNan : Grid ℚ Nat :=
  ⟨⟨2, 4, 2, 4⟩, 1, 1, 3, 3, fun i j => if i = (1 : Fin 3) ∧ j = (1 : Fin 3) then none else some 5, none, true, 0, none⟩

example : FitsInto fineNan.box coarseEx.box ∧ 0 < fineNan.dx ∧ 0 < fineNan.dy ∧ 0 < fineNan.nx ∧ 0 < fineNan.ny ∧ 0 < coarseEx.nx ∧ 0 < coarseEx.ny := by
  refine ⟨⟨?_, ?_, ?_, ?_, ?_, ?_⟩, ?_, ?_, ?_, ?_, ?_, ?_⟩ <;> decide +kernel

/-- The NaN stays, and the outermost nodes, all given the padding mark, are filled with the fine value. With ten neighbours the same call raises. -/
example : (fineNan.blendInto id 1 (fun pts q => nearestIndex q 0 none pts) 1 coarseEx).map (fun r => (r.hmin, (allVals r.vals).count none,
      (allVals r.vals).head?)) = some (some 5, 1, some (some 5)) ∧
    (fineNan.blendInto id 10 (fun pts q => nearestIndex q 0 none pts) 1 coarseEx).isNone = true := by decide +kernel

end OM
