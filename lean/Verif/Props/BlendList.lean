import Verif.Props.Blend
/-!
# C37 for lists of any length
-/
set_option linter.unusedSectionVars false
namespace OM
section
variable {K C : Type} [Field K] [LinearOrder K] [IsStrictOrderedRing K] [FloorRing K]

namespace Spec

/-- The box of the fine grid lies strictly in that of the coarse one. -/
def StrictlyInside (f c : Box K) : Prop := c.xmin < f.xmin ∧ f.xmax < c.xmax ∧ c.ymin < f.ymin ∧ f.ymax < c.ymax

/-- A grid of sizes: positive numbers on a lattice with nodes. -/
def SizeGrid (g : Grid K C) : Prop := 0 < g.dx ∧ 0 < g.dy ∧ 0 < g.nx ∧ 0 < g.ny ∧ ∀ i j, ∃ v, g.vals i j = some v ∧ 0 < v

/-- The number of cells of width `d` that fit into the blend width. -/
def PaddingOf (bw : K) (hasUnits : C → Bool) (f : Grid K C) (w : Nat) : Prop :=
  let d := if hasUnits f.crs then f.dx else f.dx * 111000
  w * d ≤ bw ∧ bw < (w + 1) * d

/-- The fine grid has no influence on the size at a point: it is not blended, or the point is outside its padded lattice. -/
def Untouched (bw : K) (hasUnits : C → Bool) (c : Box K) (f : Grid K C) (q : K × K) : Prop :=
  StrictlyInside f.box c → ∃ w : Nat, PaddingOf bw hasUnits f w ∧
    ¬ InLattice (f.box.xmin - f.dx * w) f.dx (f.nx + 2 * w) (f.box.ymin - f.dy * w) f.dy (f.ny + 2 * w) q

/-- What the sizes of a grid should be after the finer ones were blended into it: outside all paddings the old ones; in the lattice of a finer grid and outside the paddings of those
that follow the size of a nearest node of that grid; everywhere in the common range. -/
def BlendedSizes (bw : K) (hasUnits : C → Bool) (c : Grid K C) (fs : List (Grid K C)) (W : Fin c.nx → Fin c.ny → Option K) : Prop :=
  ∀ (i : Fin c.nx) (j : Fin c.ny),
    ((∀ f ∈ fs, Untouched bw hasUnits c.box f (c.xAt i, c.yAt j)) → W i j = c.vals i j) ∧
    (∀ (l1 l2 : List (Grid K C)) (f : Grid K C), fs = l1 ++ f :: l2 → StrictlyInside f.box c.box →
      InLattice f.box.xmin f.dx f.nx f.box.ymin f.dy f.ny (c.xAt i, c.yAt j) →
      (∀ f' ∈ l2, Untouched bw hasUnits c.box f' (c.xAt i, c.yAt j)) →
      ∃ (k : Fin f.nx) (l : Fin f.ny), NearestNode f.box.xmin f.dx f.nx f.box.ymin f.dy f.ny (c.xAt i, c.yAt j) k l ∧ W i j = f.vals k l) ∧
    ∃ v, W i j = some v ∧ 0 < v ∧ ∀ lo hi : K, (∀ f ∈ fs, ∀ k l u, f.vals k l = some u → lo ≤ u ∧ u ≤ hi) →
      (∀ k l u, c.vals k l = some u → lo ≤ u ∧ u ≤ hi) → lo ≤ v ∧ v ≤ hi

end Spec
open Spec

theorem padding_unique {bw : K} {hasUnits : C → Bool} {f : Grid K C} (hdx : 0 < f.dx) {w w' : Nat} (h : PaddingOf bw hasUnits f w)
    (h' : PaddingOf bw hasUnits f w') : w = w' := by
  unfold PaddingOf at h h'
  simp only at h h'
  have hd : 0 < (if hasUnits f.crs then f.dx else f.dx * 111000) := by split <;> positivity
  set d := (if hasUnits f.crs then f.dx else f.dx * 111000) with hdd
  have h1 : (w : K) < w' + 1 := lt_of_mul_lt_mul_right (h.1.trans_lt h'.2) hd.le
  have h2 : (w' : K) < w + 1 := lt_of_mul_lt_mul_right (h'.1.trans_lt h.2) hd.le
  have h1' : w < w' + 1 := by exact_mod_cast h1
  have h2' : w' < w + 1 := by exact_mod_cast h2
  omega

theorem padding_blendCells {bw : K} (hbw : 0 ≤ bw) {hasUnits : C → Bool} {f : Grid K C} (hdx : 0 < f.dx) :
    PaddingOf bw hasUnits f (blendCells bw hasUnits f) := by
  unfold PaddingOf blendCells
  simp only
  have hd : 0 < (if hasUnits f.crs then f.dx else f.dx * 111000) := by split <;> positivity
  set d := (if hasUnits f.crs then f.dx else f.dx * 111000) with hdd
  have h0 : 0 ≤ ⌊bw / d⌋ := Int.floor_nonneg.2 (div_nonneg hbw hd.le)
  have hc : (⌊bw / d⌋.toNat : K) = (⌊bw / d⌋ : K) := by
    have := Int.toNat_of_nonneg h0
    exact_mod_cast congrArg (Int.cast (R := K)) this
  rw [hc, ← le_div_iff₀ hd, ← div_lt_iff₀ hd]
  exact ⟨Int.floor_le _, Int.lt_floor_add_one _⟩

theorem blendedSizes_nil (bw : K) (hasUnits : C → Bool) {c : Grid K C} (hp : ∀ i j, ∃ v, c.vals i j = some v ∧ 0 < v) :
    BlendedSizes bw hasUnits c [] c.vals := by
  intro i j
  refine ⟨fun _ => rfl, fun l1 l2 f h => absurd h (by simp), ?_⟩
  obtain ⟨v, hv, hv0⟩ := hp i j
  exact ⟨v, hv, hv0, fun lo hi _ h2 => h2 _ _ _ hv⟩

theorem sizes_between {n m : Nat} (V : Fin n → Fin m → Option K) (hV : ∀ i j, ∃ v, V i j = some v ∧ 0 < v) (i : Fin n) (j : Fin m) :
    ∃ lo hi : K, 0 < lo ∧ ∀ k l u, V k l = some u → lo ≤ u ∧ u ≤ hi := by
  choose v hv hv0 using hV
  haveI : Nonempty (Fin n × Fin m) := ⟨(i, j)⟩
  obtain ⟨a, ha⟩ := Finite.exists_min fun p : Fin n × Fin m => v p.1 p.2
  obtain ⟨b, hb⟩ := Finite.exists_max fun p : Fin n × Fin m => v p.1 p.2
  refine ⟨v a.1 a.2, v b.1 b.2, hv0 _ _, fun k l u hu => ?_⟩
  have e1 : v k l = u := Option.some.inj ((hv k l).symm.trans hu)
  exact e1 ▸ ⟨ha (k, l), hb (k, l)⟩

/-- One grid blended after the other. -/
theorem blendedSizes_cons {bw : K} {hasUnits : C → Bool} {c f : Grid K C} {l : List (Grid K C)} {W W' : Fin c.nx → Fin c.ny → Option K}
    {hm : Option K} {e : Bool} {it : Option Bool} (h1 : BlendedSizes bw hasUnits c [f] W)
    (h2 : BlendedSizes bw hasUnits { c with vals := W, hmin := hm, extrapolate := e, interp := it } l W') : BlendedSizes bw hasUnits c (f :: l) W' := by
  intro i j
  obtain ⟨a1, b1, v1, hv1, p1, r1⟩ := h1 i j
  obtain ⟨a2, b2, v2, hv2, p2, r2⟩ := h2 i j
  refine ⟨fun hu => ?_, fun l1 l2 g hg hfit hin hun => ?_, v2, hv2, p2, fun lo hi hf hc => ?_⟩
  · rw [← a1 fun g hg => by rw [List.mem_singleton.1 hg]; exact hu f List.mem_cons_self]
    exact a2 fun g hg => hu g (List.mem_cons_of_mem _ hg)
  · cases l1 with
    | nil =>
      simp only [List.nil_append, List.cons.injEq] at hg
      obtain ⟨rfl, rfl⟩ := hg
      obtain ⟨k, m, hn, hk⟩ := b1 [] [] f rfl hfit hin (by simp)
      exact ⟨k, m, hn, (a2 hun).trans hk⟩
    | cons x l1 =>
      simp only [List.cons_append, List.cons.injEq] at hg
      obtain ⟨rfl, rfl⟩ := hg
      exact b2 l1 l2 g rfl hfit hin hun
  · refine r2 lo hi (fun g hg => hf g (List.mem_cons_of_mem _ hg)) fun k m u hu => ?_
    obtain ⟨-, -, v, hv, -, hr⟩ := h1 k m
    have e1 : v = u := Option.some.inj (hv.symm.trans hu)
    exact e1 ▸ hr lo hi (fun g hg => by rw [List.mem_singleton.1 hg]; exact hf f List.mem_cons_self) hc

theorem blendAll_sizes {pw : K → K} (hpw : ∀ d, 0 < d → 0 < pw d) {nnear : Nat} {query : List (K × K) → K × K → List (K × Nat)}
    (hquery : ∀ pts q, nnear ≤ pts.length → ValidQuery pts.length (query pts q)) {bw : K} (hbw : 0 ≤ bw) {hasUnits : C → Bool} (fs : List (Grid K C)) :
    ∀ {c r : Grid K C}, ¬ (|c.box.xmin| = 180 ∧ |c.box.xmax| = 180) → (∀ i j, ∃ v, c.vals i j = some v ∧ 0 < v) → (∀ f ∈ fs, SizeGrid f) →
      blendAll pw nnear query (blendCells bw hasUnits) c fs = some r →
      ∃ (W : Fin c.nx → Fin c.ny → Option K) (hm : Option K) (e : Bool) (it : Option Bool),
        r = { c with vals := W, hmin := hm, extrapolate := e, interp := it } ∧ (fs ≠ [] → e = true ∧ it = some true) ∧ (fs = [] → r = c) ∧
        BlendedSizes bw hasUnits c fs W := by
  induction fs with
  | nil =>
    intro c r _ hp _ h
    cases h
    exact ⟨c.vals, c.hmin, c.extrapolate, c.interp, rfl, by simp, fun _ => rfl, blendedSizes_nil bw hasUnits hp⟩
  | cons f l ih =>
    intro c r hg hp hf h
    obtain ⟨hdx, hdy, hn, hm, hfv⟩ := hf f List.mem_cons_self
    have hpad := padding_blendCells hbw (hasUnits := hasUnits) hdx
    rw [blendAll] at h
    cases hb : Grid.blendInto pw nnear query (blendCells bw hasUnits f) { f with extrapolate := false } c with
    | none => rw [hb] at h; simp at h
    | some c1 =>
      rw [hb] at h
      simp only at h
      obtain ⟨W, hm1, hc1, hW⟩ : ∃ (W : Fin c.nx → Fin c.ny → Option K) (hm1 : Option K),
          Grid.buildInterpolant { c1 with extrapolate := true } = { c with vals := W, hmin := hm1, extrapolate := true, interp := some true } ∧
            BlendedSizes bw hasUnits c [f] W := by
        by_cases hfit : StrictlyInside f.box c.box
        · obtain ⟨W, hr, hW⟩ := C36_blend_partial hpw hquery (g := { f with extrapolate := false }) hfit hdx hdy hn hm rfl
            (fun i j => by
              obtain ⟨v, hv, h0⟩ := hfv i j
              exact ⟨v, hv, by linarith, by linarith⟩)
            (fun i j => by
              obtain ⟨v, hv, h0⟩ := hp i j
              exact ⟨v, hv, by linarith⟩) hb
          refine ⟨W, c1.hmin, ?_, fun i j => ?_⟩
          · rw [hr]
            exact buildInterpolant_noncyclic _ (by exact hg)
          · obtain ⟨t1, t2, v, hv, t3⟩ := hW i j
            refine ⟨fun hu => ?_, fun l1 l2 g hgl _ hin _ => ?_, v, hv, ?_, fun lo hi hlo hc => ?_⟩
            · obtain ⟨w, hw, ho⟩ := hu f List.mem_cons_self hfit
              rw [padding_unique hdx hw hpad] at ho
              exact t2 ho
            · have e1 : f = g := by
                cases l1 with
                | nil => simp only [List.nil_append, List.cons.injEq] at hgl; exact hgl.1
                | cons x l1 => simp at hgl
              subst e1
              exact t1 hin
            · obtain ⟨lo1, hi1, p1, q1⟩ := sizes_between f.vals hfv ⟨0, hn⟩ ⟨0, hm⟩
              obtain ⟨lo2, hi2, p2, q2⟩ := sizes_between c.vals hp i j
              refine lt_of_lt_of_le (lt_min p1 p2) (t3 (min lo1 lo2) (max hi1 hi2) (fun k l u hu => ?_) (fun k l u hu => ?_)).1
              · exact ⟨(min_le_left _ _).trans (q1 k l u hu).1, (q1 k l u hu).2.trans (le_max_left _ _)⟩
              · exact ⟨(min_le_right _ _).trans (q2 k l u hu).1, (q2 k l u hu).2.trans (le_max_right _ _)⟩
            · obtain ⟨a, b⟩ := t3 lo hi (hlo f List.mem_cons_self) hc
              exact ⟨a, b⟩
        · rw [C36_no_fit pw nnear query _ { f with extrapolate := false } c hfit] at hb
          cases hb
          refine ⟨c.vals, c.hmin, buildInterpolant_noncyclic _ (by exact hg), fun i j => ?_⟩
          obtain ⟨v, hv, hv0⟩ := hp i j
          refine ⟨fun _ => rfl, fun l1 l2 g hgl hfit' => ?_, v, hv, hv0, fun lo hi _ h2 => h2 _ _ _ hv⟩
          have e1 : f = g := by
            cases l1 with
            | nil => simp only [List.nil_append, List.cons.injEq] at hgl; exact hgl.1
            | cons x l1 => simp at hgl
          exact absurd (e1 ▸ hfit') hfit
      rw [hc1] at h
      obtain ⟨W', hm', e', it', hr', hne, hnil, hW'⟩ := ih (c := { c with vals := W, hmin := hm1, extrapolate := true, interp := some true }) hg
        (fun i j => by obtain ⟨-, -, v, hv, hv0, -⟩ := hW i j; exact ⟨v, hv, hv0⟩) (fun g hgl => hf g (List.mem_cons_of_mem _ hgl)) h
      refine ⟨W', hm', e', it', hr', fun _ => ?_, by simp, blendedSizes_cons hW hW'⟩
      by_cases hl : l = []
      · have := hr'.symm.trans (hnil hl)
        injection this with _ _ _ _ _ _ _ e1 _ e2
        exact ⟨e1, e2⟩
      · exact hne hl

/-- **C37**, lists of any length, of grids of positive sizes, the coarsest of which (all but the last) do not reach around the globe: the returned list has the same lattices; the
last grid keeps its sizes, and each other grid has the sizes it should have after the finer ones of the list have been blended into it, one after the other. Boxes that do not fit
are skipped, extrapolating grids are allowed.
Missing: NaN, sizes that are not positive (the marks), boxes around the globe. -/
theorem C37_lists_partial {pw : K → K} (hpw : ∀ d, 0 < d → 0 < pw d) {nnear : Nat} {query : List (K × K) → K × K → List (K × Nat)}
    (hquery : ∀ pts q, nnear ≤ pts.length → ValidQuery pts.length (query pts q)) {bw : K} (hbw : 0 ≤ bw) {hasUnits : C → Bool} {gs rs : List (Grid K C)}
    (hs : ∀ g ∈ gs, SizeGrid g) (hg : ∀ g ∈ gs.dropLast, ¬ (|g.box.xmin| = 180 ∧ |g.box.xmax| = 180))
    (h : multiscaleGrids pw nnear query bw hasUnits gs = some rs) :
    rs.length = gs.length ∧ ∀ (k : Nat) (g r : Grid K C), gs[k]? = some g → rs[k]? = some r →
      ∃ (W : Fin g.nx → Fin g.ny → Option K) (hm : Option K) (it : Option Bool),
        r = { g with vals := W, hmin := hm, extrapolate := true, interp := it } ∧ (k + 1 = gs.length → r = { g with extrapolate := true }) ∧
          BlendedSizes bw hasUnits g (gs.drop (k + 1)) W := by
  unfold multiscaleGrids at h
  split at h
  swap
  · simp at h
  rename_i hd
  clear hd
  induction gs generalizing rs with
  | nil => simp [blendList] at h
  | cons g l ih =>
    cases l with
    | nil =>
      simp only [blendList, Option.some.injEq] at h
      subst h
      refine ⟨rfl, fun k g' r hk hr => ?_⟩
      cases k with
      | succ k => simp at hk
      | zero =>
        simp only [List.getElem?_cons_zero, Option.some.injEq] at hk hr
        subst hk hr
        exact ⟨g.vals, g.hmin, g.interp, rfl, fun _ => rfl, blendedSizes_nil bw hasUnits (hs g List.mem_cons_self).2.2.2.2⟩
    | cons f l =>
      rw [blendList] at h
      cases hc : blendAll pw nnear query (blendCells bw hasUnits) g (f :: l) with
      | none => rw [hc] at h; simp at h
      | some c =>
        cases hl : blendList pw nnear query (blendCells bw hasUnits) (f :: l) with
        | none => rw [hc, hl] at h; simp at h
        | some rs' =>
          rw [hc, hl] at h
          simp only [Option.some.injEq] at h
          subst h
          obtain ⟨i1, i2⟩ := ih (fun x hx => hs x (List.mem_cons_of_mem _ hx)) (fun x hx => hg x (by
            rw [List.dropLast_cons_cons]; exact List.mem_cons_of_mem _ hx)) hl
          refine ⟨by simp [i1], fun k g' r hk hr => ?_⟩
          cases k with
          | zero =>
            simp only [List.getElem?_cons_zero, Option.some.injEq] at hk hr
            subst hk hr
            obtain ⟨W, hm, e, it, h1, h2, -, h3⟩ := blendAll_sizes hpw hquery hbw (f :: l) (hg g (by rw [List.dropLast_cons_cons]; exact List.mem_cons_self))
              (hs g List.mem_cons_self).2.2.2.2 (fun x hx => hs x (List.mem_cons_of_mem _ hx)) hc
            obtain ⟨rfl, -⟩ := h2 (by simp)
            exact ⟨W, hm, it, h1, fun he => absurd he (by simp), h3⟩
          | succ k =>
            obtain ⟨W, hm, it, h1, h2, h3⟩ := i2 k g' r (by simpa using hk) (by simpa using hr)
            exact ⟨W, hm, it, h1, fun he => h2 (by simpa using he), h3⟩

/-- **C37**, sizes of the function: with lists as in `C37_lists_partial` whose sizes lie between two numbers, all stored sizes do. -/
theorem C37_lists_range {pw : K → K} (hpw : ∀ d, 0 < d → 0 < pw d) {nnear : Nat} {query : List (K × K) → K × K → List (K × Nat)}
    (hquery : ∀ pts q, nnear ≤ pts.length → ValidQuery pts.length (query pts q)) {bw : K} (hbw : 0 ≤ bw) {hasUnits : C → Bool} {gs rs : List (Grid K C)}
    (hs : ∀ g ∈ gs, SizeGrid g) (hg : ∀ g ∈ gs.dropLast, ¬ (|g.box.xmin| = 180 ∧ |g.box.xmax| = 180))
    (h : multiscaleGrids pw nnear query bw hasUnits gs = some rs) {lo hi : K}
    (hr : ∀ g ∈ gs, ∀ i j u, g.vals i j = some u → lo ≤ u ∧ u ≤ hi) :
    ∀ r ∈ rs, ∀ i j, ∃ v, r.vals i j = some v ∧ 0 < v ∧ lo ≤ v ∧ v ≤ hi := by
  obtain ⟨h1, h2⟩ := C37_lists_partial hpw hquery hbw hs hg h
  intro r hrr
  obtain ⟨k, hk, rfl⟩ := List.getElem_of_mem hrr
  have hk' : k < gs.length := h1 ▸ hk
  obtain ⟨W, hm, it, e, -, hW⟩ := h2 k gs[k] rs[k] (List.getElem?_eq_getElem hk') (List.getElem?_eq_getElem hk)
  rw [e]
  intro i j
  obtain ⟨-, -, v, hv, h0, hlh⟩ := hW i j
  exact ⟨v, hv, h0, hlh lo hi (fun f hf => hr f (List.mem_of_mem_drop hf)) (hr _ (List.getElem_mem hk'))⟩

end

open Spec

/-- Three grids in one another: sizes 10, 5 (1 in the middle) and 2. -/
def innerEx : Grid ℚ Nat := ⟨⟨11 / 4, 13 / 4, 11 / 4, 13 / 4⟩, 1 / 4, 1 / 4, 3, 3, fun _ _ => some 2, none, true, 0, none⟩

theorem nearestIndex_valid (q : ℚ × ℚ) (pts : List (ℚ × ℚ)) : ∀ (i : Nat) (b : Option (ℚ × Nat)), (∀ x, b = some x → 0 ≤ x.1 ∧ x.2 < i) →
    (b.isSome ∨ pts ≠ []) → ∃ x, nearestIndex q i b pts = [x] ∧ 0 ≤ x.1 ∧ x.2 < i + pts.length := by
  have hsq : ∀ p : ℚ × ℚ, 0 ≤ sqDist p q := fun p => by unfold sqDist; positivity
  induction pts with
  | nil =>
    intro i b hb h
    cases b with
    | none => simp at h
    | some x => exact ⟨x, rfl, (hb x rfl).1, by simpa using (hb x rfl).2⟩
  | cons p l ih =>
    intro i b hb _
    cases b with
    | none =>
      obtain ⟨x, h1, h2, h3⟩ := ih (i + 1) (some (sqDist p q, i)) (fun x hx => by cases hx; exact ⟨hsq p, Nat.lt_succ_self i⟩) (by simp)
      exact ⟨x, h1, h2, by simp only [List.length_cons]; omega⟩
    | some y =>
      obtain ⟨x, h1, h2, h3⟩ := ih (i + 1) (if sqDist p q < y.1 then some (sqDist p q, i) else some y) (fun x hx => by
        split at hx
        · cases hx; exact ⟨hsq p, Nat.lt_succ_self i⟩
        · cases hx; exact ⟨(hb y rfl).1, (hb y rfl).2.trans (Nat.lt_succ_self i)⟩) (by split <;> simp)
      exact ⟨x, h1, h2, by simp only [List.length_cons]; omega⟩

/-- The query used in the examples meets the hypothesis on queries. -/
theorem nearestIndex_query (pts : List (ℚ × ℚ)) (q : ℚ × ℚ) (h : 1 ≤ pts.length) : ValidQuery pts.length (nearestIndex q 0 none pts) := by
  obtain ⟨x, h1, h2, h3⟩ := nearestIndex_valid q pts 0 none (by simp) (Or.inr (by rintro rfl; simp at h))
  rw [h1]
  constructor <;> simp_all

theorem threeEx_sizes : ∀ g ∈ [coarseEx, fineEx, innerEx], Spec.SizeGrid g := by
  intro g hg
  simp only [List.mem_cons, List.not_mem_nil, or_false] at hg
  rcases hg with rfl | rfl | rfl
  all_goals refine ⟨by decide +kernel, by decide +kernel, by decide +kernel, by decide +kernel, ?_⟩
  all_goals intro i j
  · exact ⟨10, rfl, by norm_num⟩
  · by_cases h : i = (1 : Fin 3) ∧ j = (1 : Fin 3)
    · exact ⟨1, if_pos h, by norm_num⟩
    · exact ⟨5, if_neg h, by norm_num⟩
  · exact ⟨2, rfl, by norm_num⟩

example : (∀ g ∈ [coarseEx, fineEx, innerEx], ¬ (|g.box.xmin| = 180 ∧ |g.box.xmax| = 180)) ∧
    StrictlyInside fineEx.box coarseEx.box ∧ StrictlyInside innerEx.box coarseEx.box ∧ StrictlyInside innerEx.box fineEx.box ∧
    (multiscaleGrids id 1 (fun pts q => nearestIndex q 0 none pts) (1 / 4) (fun _ => true) [coarseEx, fineEx, innerEx]).isSome = true := by
  refine ⟨?_, ?_, ?_, ?_, by decide +kernel⟩
  · intro g hg
    simp only [List.mem_cons, List.not_mem_nil, or_false] at hg
    rcases hg with rfl | rfl | rfl <;> decide +kernel
  all_goals refine ⟨?_, ?_, ?_, ?_⟩ <;> decide +kernel
-- All hypotheses of `C37_lists_partial` together; the middle of the coarsest grid gets the size of the finest.
example : ∃ rs, multiscaleGrids id 1 (fun pts q => nearestIndex q 0 none pts) (1 / 4) (fun _ => true) [coarseEx, fineEx, innerEx] = some rs ∧ rs.length = 3 ∧
    (rs.head?.map fun r => (allVals r.vals)[24]?) = some (some (some 2)) := by
  obtain ⟨rs, hr⟩ := Option.isSome_iff_exists.1 (show (multiscaleGrids id 1 (fun pts q => nearestIndex q 0 none pts) (1 / 4) (fun _ => true)
    [coarseEx, fineEx, innerEx]).isSome = true by decide +kernel)
  refine ⟨rs, hr, (C37_lists_partial (fun d hd => hd) nearestIndex_query (by norm_num) threeEx_sizes (by
    intro g hg
    simp only [List.dropLast_cons_cons, List.dropLast_singleton, List.mem_cons, List.not_mem_nil, or_false] at hg
    rcases hg with rfl | rfl <;> decide +kernel) hr).1, ?_⟩
  have : (multiscaleGrids id 1 (fun pts q => nearestIndex q 0 none pts) (1 / 4) (fun _ => true) [coarseEx, fineEx, innerEx]).map
      (fun rs => rs.head?.map fun r => (allVals r.vals)[24]?) = some (some (some (some 2))) := by decide +kernel
  rw [hr] at this
  exact Option.some.inj this
end OM
