import Verif.Model.Blend
import Verif.Props.GridMin
import Verif.Props.Idw
/-!
# Properties of `blend_into` (C36) and `multiscale_sizing_function` (C37)
-/
namespace OM
open Spec
set_option linter.unusedSectionVars false

section
variable {K C : Type} [Field K] [LinearOrder K] [IsStrictOrderedRing K] [FloorRing K]

/-! ## C36 -/

theorem nearestAt_axis (g : Grid K C) (q : K × K) (hdx : 0 < g.dx) (hdy : 0 < g.dy) (hn : 0 < g.nx) (hm : 0 < g.ny) :
    ∃ (k : Fin g.nx) (l : Fin g.ny), NearestOnAxis g.box.xmin g.dx g.nx q.1 k ∧ NearestOnAxis g.box.ymin g.dy g.ny q.2 l ∧
      g.nearestAt q = g.vals k l := by
  obtain ⟨c, hc, hc'⟩ := nearerNode_spec (x0 := g.box.xmin) (x := q.1) hdx hn
  obtain ⟨d, hd, hd'⟩ := nearerNode_spec (x0 := g.box.ymin) (x := q.2) hdy hm
  refine ⟨nearerNode c, nearerNode d, hc', hd', ?_⟩
  simp only [Grid.nearestAt, abs_of_pos hdy, hc, hd]

theorem nodeAt_pad (x0 d : K) (w k : Nat) : nodeAt (x0 - d * w) d (k + w) = nodeAt x0 d k := by
  simp only [nodeAt]; push_cast; ring

/-- A point of the unpadded axis has its nearest padded node among the unpadded ones. -/
theorem nearest_unpadded {x0 d x : K} {n w k : Nat} (hd : 0 < d) (hx : OnAxis x0 d n x)
    (hk : NearestOnAxis (x0 - d * w) d (n + 2 * w) x k) :
    w ≤ k ∧ k < w + n ∧ NearestOnAxis x0 d n x (k - w) := by
  obtain ⟨hn, h0, h1⟩ := hx
  have hw : w ≤ k := by
    by_contra hc
    push Not at hc
    have h2 := hk.2 (0 + w) (by omega)
    rw [nodeAt_pad] at h2
    have h3 : nodeAt (x0 - d * w) d k < x0 := by
      have : (k : K) + 1 ≤ w := by exact_mod_cast hc
      simp only [nodeAt]; nlinarith
    have h4 : nodeAt x0 d 0 = x0 := by simp [nodeAt]
    rw [h4, abs_of_nonneg (by linarith), abs_of_nonneg (by linarith)] at h2
    linarith
  have hw2 : k < w + n := by
    by_contra hc
    push Not at hc
    have h2 := hk.2 (n - 1 + w) (by omega)
    rw [nodeAt_pad] at h2
    have h3 : nodeAt x0 d (n - 1) < nodeAt (x0 - d * w) d k := by
      rw [← nodeAt_pad x0 d w (n - 1)]
      have : ((n - 1 + w : Nat) : K) + 1 ≤ k := by exact_mod_cast (by omega : n - 1 + w + 1 ≤ k)
      simp only [nodeAt]; nlinarith
    rw [abs_of_nonpos (by linarith), abs_of_nonpos (by linarith)] at h2
    linarith
  refine ⟨hw, hw2, by omega, fun m hm => ?_⟩
  have h2 := hk.2 (m + w) (by omega)
  rw [nodeAt_pad] at h2
  have : nodeAt x0 d (k - w) = nodeAt (x0 - d * w) d k := by
    rw [← nodeAt_pad x0 d w (k - w), Nat.sub_add_cancel hw]
  rw [this]
  exact h2

theorem onAxis_pad {x0 d x : K} {n w : Nat} (hd : 0 < d) (hx : OnAxis x0 d n x) : OnAxis (x0 - d * w) d (n + 2 * w) x := by
  obtain ⟨hn, h0, h1⟩ := hx
  have hw : 0 ≤ d * (w : K) := by positivity
  refine ⟨by omega, by linarith, h1.trans ?_⟩
  rw [← nodeAt_pad x0 d w (n - 1)]
  have : ((n - 1 + w : Nat) : K) ≤ ((n + 2 * w - 1 : Nat) : K) := by exact_mod_cast (by omega)
  simp only [nodeAt]
  nlinarith

theorem padVals_cases {n m w : Nat} (vals : Fin n → Fin m → Option K) (i : Fin (n + 2 * w)) (j : Fin (m + 2 * w)) :
    padVals w vals i j = some (-99999) ∨ ∃ k l, padVals w vals i j = vals k l := by
  unfold padVals
  split
  · exact Or.inr ⟨_, _, rfl⟩
  · exact Or.inl rfl

theorem padVals_inner {n m w : Nat} (vals : Fin n → Fin m → Option K) (i : Fin (n + 2 * w)) (j : Fin (m + 2 * w))
    (hi : w ≤ i.val ∧ i.val < w + n) (hj : w ≤ j.val ∧ j.val < w + m) :
    padVals w vals i j = vals ⟨i - w, by omega⟩ ⟨j - w, by omega⟩ := by
  unfold padVals
  rw [dif_pos ⟨hi, hj⟩]

theorem mem_nodes (g : Grid K C) (n : Fin g.nx × Fin g.ny) : n ∈ g.nodes := by
  simp [Grid.nodes]

theorem filled_of_asked_nil (pw : K → K) (nnear : Nat) (query : List (K × K) → K × K → List (K × Nat)) (c : Grid K C)
    (h : c.asked = []) : c.filledVals pw nnear query = c.vals := by
  funext i j
  have : ¬ c.vals i j = some (-99999) := by
    intro hc
    have : (i, j) ∈ c.asked := List.mem_filter.2 ⟨mem_nodes c _, by simpa using hc⟩
    rw [h] at this
    simp at this
  unfold Grid.filledVals
  rw [if_neg this]

/-- What a successful blend of a grid that fits computed. -/
theorem blendInto_some {pw : K → K} {nnear : Nat} {query : List (K × K) → K × K → List (K × Nat)} {w : Nat}
    {g coarse r : Grid K C} (hfit : coarse.box.xmin < g.box.xmin ∧ g.box.xmax < coarse.box.xmax ∧
      coarse.box.ymin < g.box.ymin ∧ g.box.ymax < coarse.box.ymax) (h : g.blendInto pw nnear query w coarse = some r) :
    let c : Grid K C := { coarse with vals := (g.padded w).mergedValue coarse, extrapolate := false, interp := none }
    r = { c with vals := c.filledVals pw nnear query, hmin := r.hmin } ∧ (c.asked = [] ∨ nnear ≤ c.known.length) ∧
      r.hmin = if c.asked = [] then amin (allVals c.vals)
        else amin (c.asked.map fun n => c.filledVals pw nnear query n.1 n.2) := by
  intro c
  unfold Grid.blendInto at h
  rw [if_pos hfit] at h
  split at h
  · simp at h
  · rename_i c' hc'
    have hcc : c' = c := by
      unfold Grid.interpolateTo at hc'
      split at hc'
      · exact (Option.some.inj hc').symm
      · simp at hc'
    subst hcc
    split at h
    · rename_i ha
      have := Option.some.inj h
      refine ⟨?_, Or.inl ha, ?_⟩
      · rw [← this, filled_of_asked_nil _ _ _ _ ha]
      · rw [← this, if_pos ha]
    · rename_i ha
      split at h
      · simp at h
      · rename_i hk
        have := Option.some.inj h
        refine ⟨by rw [← this], Or.inr (by omega), by rw [← this, if_neg ha]⟩

/-- **C36**, no fit: if the fine box is not strictly inside the coarse box, the coarse grid is returned unchanged. -/
theorem C36_no_fit (pw : K → K) (nnear : Nat) (query : List (K × K) → K × K → List (K × Nat)) (w : Nat) (g coarse : Grid K C)
    (h : ¬ (coarse.box.xmin < g.box.xmin ∧ g.box.xmax < coarse.box.xmax ∧ coarse.box.ymin < g.box.ymin ∧
      g.box.ymax < coarse.box.ymax)) : g.blendInto pw nnear query w coarse = some coarse := by
  unfold Grid.blendInto
  rw [if_neg h]

/-- **C36**. A fine grid that fits, does not extrapolate, holds numbers other than the marks -999 and -99999, blended into a coarse
grid of numbers other than -99999: the result has the lattice of the coarse grid. Nodes in the fine lattice get the value of a
nearest fine node, nodes outside the padded lattice keep the coarse value, and all values, in particular those of the padding
zone, stay within the range of both grids.
Missing: extrapolating fine grids, NaN and the marks, where it fails (`C36_extrapolate_overwrites`), and the minimum `hmin`
(`C36_hmin_wrong`). -/
theorem C36_blend_partial {pw : K → K} (hpw : ∀ d, 0 < d → 0 < pw d) {nnear : Nat}
    {query : List (K × K) → K × K → List (K × Nat)}
    (hquery : ∀ pts q, nnear ≤ pts.length → ValidQuery pts.length (query pts q)) {w : Nat} {g coarse r : Grid K C}
    (hfit : coarse.box.xmin < g.box.xmin ∧ g.box.xmax < coarse.box.xmax ∧ coarse.box.ymin < g.box.ymin ∧
      g.box.ymax < coarse.box.ymax)
    (hdx : 0 < g.dx) (hdy : 0 < g.dy) (hn : 0 < g.nx) (hm : 0 < g.ny) (he : g.extrapolate = false)
    (hfine : ∀ i j, ∃ v, g.vals i j = some v ∧ v ≠ -999 ∧ v ≠ -99999)
    (hcoarse : ∀ i j, ∃ v, coarse.vals i j = some v ∧ v ≠ -99999)
    (h : g.blendInto pw nnear query w coarse = some r) :
    ∃ W, r = { coarse with vals := W, hmin := r.hmin, extrapolate := false, interp := none } ∧
      ∀ (i : Fin coarse.nx) (j : Fin coarse.ny),
        (InLattice g.box.xmin g.dx g.nx g.box.ymin g.dy g.ny (coarse.xAt i, coarse.yAt j) →
          ∃ (k : Fin g.nx) (l : Fin g.ny),
            NearestNode g.box.xmin g.dx g.nx g.box.ymin g.dy g.ny (coarse.xAt i, coarse.yAt j) k l ∧ W i j = g.vals k l) ∧
        (¬ InLattice (g.box.xmin - g.dx * w) g.dx (g.nx + 2 * w) (g.box.ymin - g.dy * w) g.dy (g.ny + 2 * w)
            (coarse.xAt i, coarse.yAt j) → W i j = coarse.vals i j) ∧
        ∃ v, W i j = some v ∧ ∀ lo hi : K, (∀ k l u, g.vals k l = some u → lo ≤ u ∧ u ≤ hi) →
          (∀ k l u, coarse.vals k l = some u → lo ≤ u ∧ u ≤ hi) → lo ≤ v ∧ v ≤ hi := by
  have hady : |g.dy| = g.dy := abs_of_pos hdy
  obtain ⟨hr, hlen, -⟩ := blendInto_some hfit h
  set P := g.padded w with hP
  set c : Grid K C := { coarse with vals := P.mergedValue coarse, extrapolate := false, interp := none } with hc
  have hPn : 0 < P.nx := by show 0 < g.nx + 2 * w; omega
  have hPm : 0 < P.ny := by show 0 < g.ny + 2 * w; omega
  have hPe : P.extrapolate = false := he
  -- a merged value is the coarse one, the padding mark, or a fine one; with the nearest padded node
  have merged : ∀ (i : Fin coarse.nx) (j : Fin coarse.ny),
      (P.outside (coarse.xAt i, coarse.yAt j) = true ∧ c.vals i j = coarse.vals i j) ∨
      (P.outside (coarse.xAt i, coarse.yAt j) = false ∧ ∃ (k : Fin P.nx) (l : Fin P.ny),
        NearestOnAxis P.box.xmin P.dx P.nx (coarse.xAt i) k ∧ NearestOnAxis P.box.ymin P.dy P.ny (coarse.yAt j) l ∧
        c.vals i j = P.vals k l) := by
    intro i j
    cases ho : P.outside (coarse.xAt i, coarse.yAt j) with
    | true =>
      left
      refine ⟨rfl, ?_⟩
      show P.mergedValue coarse i j = _
      simp [Grid.mergedValue, Grid.sourceValue, ho, hPe]
    | false =>
      right
      obtain ⟨k, l, h1, h2, h3⟩ := nearestAt_axis P (coarse.xAt i, coarse.yAt j) hdx hdy hPn hPm
      refine ⟨rfl, k, l, h1, h2, ?_⟩
      show P.mergedValue coarse i j = _
      have hne : P.vals k l ≠ some (-999) := by
        rcases padVals_cases g.vals k l with h' | ⟨k', l', h'⟩
        · rw [show P.vals k l = some (-99999) from h']
          intro h''
          have := Option.some.inj h''
          norm_num at this
        · rw [show P.vals k l = g.vals k' l' from h']
          obtain ⟨v, hv, hv', -⟩ := hfine k' l'
          rw [hv]
          intro h''
          exact hv' (Option.some.inj h'')
      simp [Grid.mergedValue, Grid.sourceValue, ho, h3, hne]
  have cases3 : ∀ (i : Fin c.nx) (j : Fin c.ny), c.vals i j = some (-99999) ∨
      ∃ v, c.vals i j = some v ∧ v ≠ -99999 ∧ ((∃ k l, g.vals k l = some v) ∨ ∃ k l, coarse.vals k l = some v) := by
    intro i j
    rcases merged i j with ⟨-, h'⟩ | ⟨-, k, l, -, -, h'⟩
    · right
      obtain ⟨v, hv, hv'⟩ := hcoarse i j
      exact ⟨v, h'.trans hv, hv', Or.inr ⟨i, j, hv⟩⟩
    · rcases padVals_cases g.vals k l with h'' | ⟨k', l', h''⟩
      · exact Or.inl (h'.trans h'')
      · obtain ⟨v, hv, -, hv'⟩ := hfine k' l'
        exact Or.inr ⟨v, (h'.trans h'').trans hv, hv', Or.inl ⟨k', l', hv⟩⟩
  refine ⟨c.filledVals pw nnear query, hr, fun i j => ⟨fun hq => ?_, fun hq => ?_, ?_⟩⟩
  · have hq' : InLattice P.box.xmin P.dx P.nx P.box.ymin |P.dy| P.ny (coarse.xAt i, coarse.yAt j) :=
      ⟨onAxis_pad hdx hq.1, by
        rw [show P.dy = g.dy from rfl, hady]
        exact onAxis_pad hdy hq.2⟩
    have ho := (outside_false hPn hPm).2 hq'
    rcases merged i j with ⟨h', -⟩ | ⟨-, k, l, h1, h2, h3⟩
    · rw [ho] at h'; simp at h'
    · obtain ⟨a1, a2, a3⟩ := nearest_unpadded hdx hq.1 h1
      obtain ⟨b1, b2, b3⟩ := nearest_unpadded hdy hq.2 h2
      refine ⟨⟨k - w, by omega⟩, ⟨l - w, by omega⟩, nearest_both a3 b3, ?_⟩
      have hv : c.vals i j = g.vals ⟨k - w, by omega⟩ ⟨l - w, by omega⟩ :=
        h3.trans (padVals_inner g.vals k l ⟨a1, a2⟩ ⟨b1, b2⟩)
      obtain ⟨v, hv1, -, hv2⟩ := hfine ⟨k - w, by omega⟩ ⟨l - w, by omega⟩
      have : ¬ c.vals i j = some (-99999) := by
        rw [hv, hv1]; intro h''; exact hv2 (Option.some.inj h'')
      unfold Grid.filledVals
      rw [if_neg this]
      exact hv
  · have ho : P.outside (coarse.xAt i, coarse.yAt j) = true := by
      by_contra hcn
      have := (outside_false hPn hPm).1 (by simpa using hcn)
      rw [show P.dy = g.dy from rfl, hady] at this
      exact hq this
    rcases merged i j with ⟨-, h'⟩ | ⟨h', -⟩
    · obtain ⟨v, hv, hv'⟩ := hcoarse i j
      have : ¬ c.vals i j = some (-99999) := by
        rw [h', hv]; intro h''; exact hv' (Option.some.inj h'')
      unfold Grid.filledVals
      rw [if_neg this]
      exact h'
    · rw [ho] at h'; simp at h'
  · unfold Grid.filledVals
    split
    · rename_i hask
      have hlen' : nnear ≤ c.known.length := by
        rcases hlen with h' | h'
        · have : (i, j) ∈ c.asked := List.mem_filter.2 ⟨mem_nodes c _, by simpa using hask⟩
          rw [h'] at this
          simp at this
        · exact h'
      have hvq := hquery (c.known.map fun n => (c.xAt n.1, c.yAt n.2)) (c.xAt i, c.yAt j) (by simpa using hlen')
      have hval : ∀ k, k < c.known.length → ∃ v, (c.known.map fun n => c.vals n.1 n.2)[k]? = some (some v) ∧
          ((∃ k l, g.vals k l = some v) ∨ ∃ k l, coarse.vals k l = some v) := by
        intro k hk
        have hm := List.getElem_mem hk
        have hne : c.vals c.known[k].1 c.known[k].2 ≠ some (-99999) := by
          have := (List.mem_filter.1 hm).2
          simpa using this
        rcases cases3 c.known[k].1 c.known[k].2 with h' | ⟨v, hv, -, hv'⟩
        · exact absurd h' hne
        · refine ⟨v, ?_, hv'⟩
          rw [List.getElem?_map, List.getElem?_eq_getElem hk]
          simp [hv]
      have hin : ∀ n ∈ query (c.known.map fun n => (c.xAt n.1, c.yAt n.2)) (c.xAt i, c.yAt j), n.2 < c.known.length := by
        intro n hn'
        have := hvq.inRange n hn'
        simpa using this
      obtain ⟨v, hv, hb⟩ := idw_between hpw nnear none (c.known.map fun n => c.vals n.1 n.2) _
        (by simpa using hvq) (fun n hn' => (hval n.2 (hin n hn')).imp fun _ h' => h'.1) (by simp)
      refine ⟨v, hv, fun lo hi hf hco => hb lo hi fun n hn' u hu => ?_⟩
      obtain ⟨u', hu', hu''⟩ := hval n.2 (hin n hn')
      rw [hu] at hu'
      have : u = u' := Option.some.inj (Option.some.inj hu')
      subst this
      rcases hu'' with ⟨k, l, h'⟩ | ⟨k, l, h'⟩
      · exact hf k l u h'
      · exact hco k l u h'
    · rename_i hask
      rcases cases3 i j with h' | ⟨v, hv, -, hv'⟩
      · exact absurd h' hask
      · refine ⟨v, hv, fun lo hi hf hco => ?_⟩
        rcases hv' with ⟨k, l, h'⟩ | ⟨k, l, h'⟩
        · exact hf k l v h'
        · exact hco k l v h'

/-- The nearest point only (for concrete runs with one neighbour, where the distance is not used). -/
def nearestIndex (q : ℚ × ℚ) : Nat → Option (ℚ × Nat) → List (ℚ × ℚ) → List (ℚ × Nat)
  | _, none, [] => []
  | _, some b, [] => [b]
  | i, none, p :: l => nearestIndex q (i + 1) (some (sqDist p q, i)) l
  | i, some b, p :: l => nearestIndex q (i + 1) (if sqDist p q < b.1 then some (sqDist p q, i) else some b) l

/-- A fine grid of 3 by 3 nodes: 1 in the middle, 5 around. -/
def fineEx : Grid ℚ Nat := ⟨⟨2, 4, 2, 4⟩, 1, 1, 3, 3, fun i j => if i = 1 ∧ j = 1 then some 1 else some 5, none, false, 0, none⟩

/-- A coarse grid of 7 by 7 nodes with value 10. -/
def coarseEx : Grid ℚ Nat := ⟨⟨0, 6, 0, 6⟩, 1, 1, 7, 7, fun _ _ => some 10, none, false, 0, none⟩

/-- **C36** fails for `hmin`: it is the smallest value of the padding zone only, here 5, while the blended grid contains 1. -/
theorem C36_hmin_wrong :
    (fineEx.blendInto id 1 (fun pts q => nearestIndex q 0 none pts) 1 coarseEx).map (fun r => (r.hmin, amin (allVals r.vals)))
      = some (some 5, some 1) := by decide +kernel

/-- **C36** fails for fine grids that extrapolate: the corner node, outside the padding, gets the fine value 5 instead of its
coarse value 10. -/
theorem C36_extrapolate_overwrites :
    (Grid.blendInto id 1 (fun pts q => nearestIndex q 0 none pts) 1 { fineEx with extrapolate := true } coarseEx).map
      (fun r => (allVals r.vals).head?) = some (some (some 5)) := by decide +kernel

example : coarseEx.box.xmin < fineEx.box.xmin ∧ fineEx.box.xmax < coarseEx.box.xmax ∧ coarseEx.box.ymin < fineEx.box.ymin ∧
    fineEx.box.ymax < coarseEx.box.ymax := by decide +kernel
example : ∀ i j, ∃ v, fineEx.vals i j = some v ∧ v ≠ -999 ∧ v ≠ -99999 := by
  intro i j
  by_cases h : i = (1 : Fin 3) ∧ j = (1 : Fin 3)
  · exact ⟨1, if_pos h, by norm_num, by norm_num⟩
  · exact ⟨5, if_neg h, by norm_num, by norm_num⟩
example : (fineEx.blendInto id 1 (fun pts q => nearestIndex q 0 none pts) 1 coarseEx).isSome = true := by decide +kernel

/-! ## C37 -/

/-- The value grid number `k` contributes at a point: it extrapolates only if it is the first. -/
def Contributes (gs : List (Grid K C)) (q : K × K) (k : Nat) (v : Option K) : Prop :=
  ∃ g, gs[k]? = some g ∧ (Grid.buildInterpolant { g with extrapolate := decide (k = 0) }).evalAt q = some v

theorem funcLoop_value (q : K × K) : ∀ (gs : List (Grid K C)) (i : Nat) (h : Option K),
    (funcLoop q i h gs).2 = (gs.zipIdx i).foldl (fun a p => optMin a
      ((Grid.buildInterpolant { p.1 with extrapolate := decide (p.2 = 0) }).evalWith (decide (p.2 = 0)) q)) h := by
  intro gs
  induction gs with
  | nil => intro i h; rfl
  | cons g l ih =>
    intro i h
    rw [funcLoop]
    simp only [ih, List.zipIdx_cons, List.foldl_cons]
    rw [optMin_comm]

/-- **C37**, minimum. If every grid gives a number at the point, the value is the smallest of these numbers and 999999. -/
theorem C37_minimum_partial (gs : List (Grid K C)) (q : K × K) (hnum : ∀ k, k < gs.length → ∃ x : K, Contributes gs q k (some x)) :
    ∃ v, (multiscaleFunc gs q).2 = some v ∧ IsLeast {x | x = 999999 ∨ ∃ k, Contributes gs q k (some x)} v := by
  unfold multiscaleFunc
  rw [funcLoop_value]
  have hev : ∀ (g : Grid K C) (b : Bool), (Grid.buildInterpolant { g with extrapolate := b }).evalAt q
      = some ((Grid.buildInterpolant { g with extrapolate := b }).evalWith b q) := fun g b => rfl
  have hs := foldl_optMin_isSome (fun (p : Grid K C × Nat) =>
    (Grid.buildInterpolant { p.1 with extrapolate := decide (p.2 = 0) }).evalWith (decide (p.2 = 0)) q) (gs.zipIdx 0)
    (some 999999) rfl (by
      intro p hp
      obtain ⟨g, k⟩ := p
      have hk := List.mem_zipIdx_iff_getElem?.1 hp
      have hk' : k < gs.length := by
        by_contra hc
        simp only at hk
        rw [List.getElem?_eq_none (by omega)] at hk
        simp at hk
      obtain ⟨x, g', hg', hx⟩ := hnum k hk'
      simp only at hk
      rw [hk] at hg'
      have := Option.some.inj hg'
      subst this
      rw [hev] at hx
      simp only
      rw [Option.some.inj hx]; rfl)
  obtain ⟨v, hv⟩ := Option.isSome_iff_exists.1 hs
  obtain ⟨y, hy, hvy, hall, hmem⟩ := foldl_optMin _ _ _ _ hv
  refine ⟨v, hv, ?_, ?_⟩
  · rcases hmem with h' | ⟨p, hp, h'⟩
    · left; rw [h', ← Option.some.inj hy]
    · right
      refine ⟨p.2, p.1, List.mem_zipIdx_iff_getElem?.1 hp, ?_⟩
      rw [hev, h']
  · rintro x (hx | ⟨k, g, hg, hx⟩)
    · rw [hx, Option.some.inj hy]; exact hvy
    · obtain ⟨z, hz, hvz⟩ := hall (g, k) (List.mem_zipIdx_iff_getElem?.2 hg)
      rw [hev] at hx
      simp only at hz
      rw [hz] at hx
      rw [← Option.some.inj (Option.some.inj hx)]
      exact hvz

theorem buildInterpolant_noncyclic (g : Grid K C) (h : ¬ (|g.box.xmin| = 180 ∧ |g.box.xmax| = 180)) :
    g.buildInterpolant = { g with interp := some g.extrapolate } := by
  have hc : cyclicBox g.box = false := by
    unfold cyclicBox
    rw [← Bool.not_eq_true]
    simpa using h
  simp [Grid.buildInterpolant, cyclicVals, hc]

theorem funcLoop_state (q q' : K × K) : ∀ (gs : List (Grid K C)) (i : Nat) (h h' : Option K),
    (∀ g ∈ gs, ¬ (|g.box.xmin| = 180 ∧ |g.box.xmax| = 180)) →
    (funcLoop q' i h (funcLoop q i h' gs).1).2 = (funcLoop q' i h gs).2 ∧
      ∀ g ∈ (funcLoop q i h' gs).1, ¬ (|g.box.xmin| = 180 ∧ |g.box.xmax| = 180) := by
  intro gs
  induction gs with
  | nil => intro i h h' _; exact ⟨rfl, by simp [funcLoop]⟩
  | cons g l ih =>
    intro i h h' hg
    have h0 := hg g List.mem_cons_self
    have hl := fun g hgl => hg g (List.mem_cons_of_mem _ hgl)
    constructor
    · simp only [funcLoop]
      have e : ∀ b : Bool, Grid.buildInterpolant { (Grid.buildInterpolant { g with extrapolate := b }) with extrapolate := b }
          = Grid.buildInterpolant { g with extrapolate := b } := by
        intro b
        rw [buildInterpolant_noncyclic { g with extrapolate := b } h0]
        exact buildInterpolant_noncyclic { g with extrapolate := b, interp := some b } h0
      rw [e]
      exact (ih (i + 1) _ _ hl).1
    · intro g' hg'
      simp only [funcLoop, List.mem_cons] at hg'
      rcases hg' with h1 | h1
      · rw [h1]; exact h0
      · exact (ih (i + 1) h _ hl).2 g' h1

/-- **C37**, repetition. If no grid reaches around the globe, the value at a point is the same after any earlier evaluations. -/
theorem C37_repeatable_partial (gs : List (Grid K C)) (hg : ∀ g ∈ gs, ¬ (|g.box.xmin| = 180 ∧ |g.box.xmax| = 180))
    (qs : List (K × K)) (q : K × K) :
    (multiscaleFunc (qs.foldl (fun s p => (multiscaleFunc s p).1) gs) q).2 = (multiscaleFunc gs q).2 := by
  induction qs generalizing gs with
  | nil => rfl
  | cons p l ih =>
    rw [List.foldl_cons]
    obtain ⟨h1, h2⟩ := funcLoop_state p q gs 0 (some 999999) (some 999999) hg
    exact (ih (multiscaleFunc gs p).1 h2).trans h1

/-- **C37**, order: a list with a grid coarser than its predecessor is rejected. -/
theorem C37_order_rejected (pw : K → K) (nnear : Nat) (query : List (K × K) → K × K → List (K × Nat)) (bw : K)
    (hasUnits : C → Bool) (gs : List (Grid K C)) (k : Nat) (g f : Grid K C) (hg : gs[k]? = some g) (hf : gs[k + 1]? = some f)
    (h : g.dx < f.dx) : multiscaleGrids pw nnear query bw hasUnits gs = none := by
  have hd : ∀ (gs : List (Grid K C)) (k : Nat), gs[k]? = some g → gs[k + 1]? = some f → descending gs = false := by
    intro gs
    induction gs with
    | nil => intro k h1; simp at h1
    | cons a l ih =>
      intro k h1 h2
      cases l with
      | nil => simp at h2
      | cons b l =>
        cases k with
        | zero =>
          simp at h1 h2
          subst h1 h2
          simp [descending, h]
        | succ k =>
          simp only [List.getElem?_cons_succ] at h1 h2
          rw [descending, ih k h1 h2, Bool.and_false]
  unfold multiscaleGrids
  rw [hd gs k hg hf]
  simp

/-- **C37**, shape: otherwise the result, if there is one, has one grid for each given grid, with the same box, spacings and
coordinate system. -/
theorem C37_same_lattices (pw : K → K) (nnear : Nat) (query : List (K × K) → K × K → List (K × Nat)) (bw : K)
    (hasUnits : C → Bool) (gs rs : List (Grid K C)) (h : multiscaleGrids pw nnear query bw hasUnits gs = some rs) :
    List.Forall₂ (fun g r => r.box = g.box ∧ r.dx = g.dx ∧ r.dy = g.dy ∧ r.nx = g.nx ∧ r.ny = g.ny ∧ r.crs = g.crs) gs rs := by
  have hb : ∀ (w : Nat) (f c r : Grid K C), f.blendInto pw nnear query w c = some r →
      r.box = c.box ∧ r.dx = c.dx ∧ r.dy = c.dy ∧ r.nx = c.nx ∧ r.ny = c.ny ∧ r.crs = c.crs := by
    intro w f c r hr
    by_cases hfit : c.box.xmin < f.box.xmin ∧ f.box.xmax < c.box.xmax ∧ c.box.ymin < f.box.ymin ∧ f.box.ymax < c.box.ymax
    · obtain ⟨h1, -⟩ := blendInto_some hfit hr
      rw [h1]
      exact ⟨rfl, rfl, rfl, rfl, rfl, rfl⟩
    · rw [C36_no_fit pw nnear query w f c hfit] at hr
      rw [← Option.some.inj hr]
      exact ⟨rfl, rfl, rfl, rfl, rfl, rfl⟩
  have ha : ∀ (width : Grid K C → Nat) (l : List (Grid K C)) (c r : Grid K C), blendAll pw nnear query width c l = some r →
      r.box = c.box ∧ r.dx = c.dx ∧ r.dy = c.dy ∧ r.nx = c.nx ∧ r.ny = c.ny ∧ r.crs = c.crs := by
    intro width l
    induction l with
    | nil => intro c r hr; rw [← Option.some.inj hr]; exact ⟨rfl, rfl, rfl, rfl, rfl, rfl⟩
    | cons f l ih =>
      intro c r hr
      rw [blendAll] at hr
      split at hr
      · simp at hr
      · rename_i c' hc'
        obtain ⟨a1, a2, a3, a4, a5, a6⟩ := hb _ _ _ _ hc'
        obtain ⟨b1, b2, b3, b4, b5, b6⟩ := ih _ _ hr
        exact ⟨b1.trans a1, b2.trans a2, b3.trans a3, b4.trans a4, b5.trans a5, b6.trans a6⟩
  have hl : ∀ (width : Grid K C → Nat) (gs rs : List (Grid K C)), blendList pw nnear query width gs = some rs →
      List.Forall₂ (fun g r => r.box = g.box ∧ r.dx = g.dx ∧ r.dy = g.dy ∧ r.nx = g.nx ∧ r.ny = g.ny ∧ r.crs = g.crs) gs rs := by
    intro width gs
    induction gs with
    | nil => intro rs hr; simp [blendList] at hr
    | cons g l ih =>
      intro rs hr
      cases l with
      | nil =>
        rw [blendList] at hr
        rw [← Option.some.inj hr]
        exact .cons ⟨rfl, rfl, rfl, rfl, rfl, rfl⟩ .nil
      | cons f l =>
        rw [blendList] at hr
        split at hr
        · rename_i c r' h1 h2
          rw [← Option.some.inj hr]
          exact .cons (ha _ _ _ _ h1) (ih _ h2)
        · simp at hr
  unfold multiscaleGrids at h
  split at h
  · exact hl _ _ _ h
  · simp at h

/-- **C37** fails around the globe: two evaluations at the same point give 2 and then 0. -/
theorem C37_not_repeatable : ∃ (gs : List (Grid ℚ Nat)) (q : ℚ × ℚ),
    (multiscaleFunc gs q).2 = some 2 ∧ (multiscaleFunc (multiscaleFunc gs q).1 q).2 = some 0 :=
  ⟨[globeEx], (-180, 0), by decide +kernel, by decide +kernel⟩

/-- **C37** fails: the value can exceed a given sizing function. A coarse grid with value 1 is overwritten by the value 5 of a fine
grid: at the middle of the fine grid the coarse sizing asks for 1, the multiscale function gives 5. -/
theorem C37_exceeds_coarse : ∃ (coarse fine : Grid ℚ Nat) (q : ℚ × ℚ),
    coarse.buildInterpolant.evalAt q = some (some 1) ∧
    (multiscaleGrids id 1 (fun pts q => nearestIndex q 0 none pts) 0 (fun _ => true) [coarse, fine]).map
      (fun gs => (multiscaleFunc gs q).2) = some (some 5) := by
  refine ⟨{ coarseEx with vals := fun _ _ => some 1 }, { fineEx with vals := fun _ _ => some 5 }, (3, 3), ?_, ?_⟩ <;> decide +kernel

example : ∀ k, k < [gridEx, targetEx].length → ∃ x, Contributes [gridEx, targetEx] (1 / 2, 1 / 4) k (some x) := by
  intro k hk
  match k, hk with
  | 0, _ => exact ⟨3, gridEx, rfl, by decide +kernel⟩
  | 1, _ => exact ⟨77, targetEx, rfl, by decide +kernel⟩
example : (multiscaleFunc [gridEx, targetEx] (1 / 2, 1 / 4)).2 = some 3 := by decide +kernel
example : ∀ g ∈ [gridEx, targetEx], ¬ (|g.box.xmin| = 180 ∧ |g.box.xmax| = 180) := by
  intro g hg
  simp only [List.mem_cons, List.not_mem_nil, or_false] at hg
  rcases hg with rfl | rfl <;> decide +kernel

/-- **C37**, two grids: the coarse grid of the result has the values of the fine grid in the lattice of that grid, its own values outside the
padding, and values in the common range elsewhere, also if the fine grid was an extrapolating one; the padding is the largest whole number of
fine cells (in metres, 111000 per degree) that fits into the blend width. The fine grid keeps its values.
Missing: longer lists (there the blended grid of one step is the coarse grid of the next), NaN, the marks and boxes around the globe. -/
theorem C37_two_grids_partial {pw : K → K} (hpw : ∀ d, 0 < d → 0 < pw d) {nnear : Nat}
    {query : List (K × K) → K × K → List (K × Nat)}
    (hquery : ∀ pts q, nnear ≤ pts.length → ValidQuery pts.length (query pts q)) {bw : K} (hbw : 0 ≤ bw) {hasUnits : C → Bool}
    {g coarse : Grid K C} {rs : List (Grid K C)}
    (hfit : coarse.box.xmin < g.box.xmin ∧ g.box.xmax < coarse.box.xmax ∧ coarse.box.ymin < g.box.ymin ∧
      g.box.ymax < coarse.box.ymax)
    (hdx : 0 < g.dx) (hdy : 0 < g.dy) (hn : 0 < g.nx) (hm : 0 < g.ny)
    (hglobe : ¬ (|coarse.box.xmin| = 180 ∧ |coarse.box.xmax| = 180))
    (hfine : ∀ i j, ∃ v, g.vals i j = some v ∧ v ≠ -999 ∧ v ≠ -99999)
    (hcoarse : ∀ i j, ∃ v, coarse.vals i j = some v ∧ v ≠ -99999)
    (h : multiscaleGrids pw nnear query bw hasUnits [coarse, g] = some rs) :
    ∃ (w : Nat) (W : Fin coarse.nx → Fin coarse.ny → Option K) (hm' : Option K),
      rs = [{ coarse with vals := W, hmin := hm', extrapolate := true, interp := some true }, { g with extrapolate := true }] ∧
      (hasUnits g.crs = true → w * g.dx ≤ bw ∧ bw < (w + 1) * g.dx) ∧
      (hasUnits g.crs = false → w * (g.dx * 111000) ≤ bw ∧ bw < (w + 1) * (g.dx * 111000)) ∧
      ∀ (i : Fin coarse.nx) (j : Fin coarse.ny),
        (InLattice g.box.xmin g.dx g.nx g.box.ymin g.dy g.ny (coarse.xAt i, coarse.yAt j) →
          ∃ (k : Fin g.nx) (l : Fin g.ny),
            NearestNode g.box.xmin g.dx g.nx g.box.ymin g.dy g.ny (coarse.xAt i, coarse.yAt j) k l ∧ W i j = g.vals k l) ∧
        (¬ InLattice (g.box.xmin - g.dx * w) g.dx (g.nx + 2 * w) (g.box.ymin - g.dy * w) g.dy (g.ny + 2 * w)
            (coarse.xAt i, coarse.yAt j) → W i j = coarse.vals i j) ∧
        ∃ v, W i j = some v ∧ ∀ lo hi : K, (∀ k l u, g.vals k l = some u → lo ≤ u ∧ u ≤ hi) →
          (∀ k l u, coarse.vals k l = some u → lo ≤ u ∧ u ≤ hi) → lo ≤ v ∧ v ≤ hi := by
  unfold multiscaleGrids at h
  split at h
  · rw [blendList] at h
    simp only [blendAll, blendList] at h
    cases hb : Grid.blendInto pw nnear query (blendCells bw hasUnits g) { g with extrapolate := false } coarse with
    | none => rw [hb] at h; simp at h
    | some r =>
      rw [hb] at h
      simp only [Option.some.injEq] at h
      obtain ⟨W, hr, hW⟩ := C36_blend_partial hpw hquery (g := { g with extrapolate := false }) hfit hdx hdy hn hm rfl hfine hcoarse hb
      have hfloor : ∀ d : K, 0 < d → (⌊bw / d⌋.toNat : K) * d ≤ bw ∧ bw < ((⌊bw / d⌋.toNat : K) + 1) * d := by
        intro d hd
        have h0 : 0 ≤ ⌊bw / d⌋ := Int.floor_nonneg.2 (div_nonneg hbw hd.le)
        have hc : (⌊bw / d⌋.toNat : K) = (⌊bw / d⌋ : K) := by
          have := Int.toNat_of_nonneg h0
          exact_mod_cast congrArg (Int.cast (R := K)) this
        rw [hc, ← le_div_iff₀ hd, ← div_lt_iff₀ hd]
        exact ⟨Int.floor_le _, Int.lt_floor_add_one _⟩
      refine ⟨blendCells bw hasUnits g, W, r.hmin, ?_, ?_, ?_, hW⟩
      · rw [← h, hr]
        simp only [List.cons.injEq, and_true]
        exact buildInterpolant_noncyclic _ (by exact hglobe)
      · intro hu
        simp only [blendCells, hu, if_true]
        exact hfloor _ hdx
      · intro hu
        simp only [blendCells, hu, Bool.false_eq_true, if_false]
        exact hfloor _ (by positivity)
  · simp at h

-- The grids of the C36 example also go through here, with a fine grid that extrapolates and a blend width of one and a half cells.
example : (multiscaleGrids id 1 (fun pts q => nearestIndex q 0 none pts) (fineEx.dx * 3 / 2) (fun _ => true)
    [coarseEx, { fineEx with extrapolate := true }]).isSome = true := by decide +kernel

end
end OM
