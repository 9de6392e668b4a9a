import Verif.Model.Edgefx
import Verif.Spec.Band
import Verif.Props.Blend
import Verif.Props.GradLimit
/-!
# C28, C29, C38, C40, C79: bounds, gradation, distance sizing, finite differences
-/
namespace OM
open Spec
set_option linter.unusedSectionVars false

section
variable {K C : Type} [Field K] [LinearOrder K] [IsStrictOrderedRing K] [FloorRing K]

/-! ## C29 bounds by elevation -/

/-- The bounds one after the other at one node. -/
def boundsAt (z v : Option K) (bs : List (Band K)) : Option K :=
  bs.foldl (fun v b => boundNode b.minH b.maxH b.minZ b.maxZ z v) v

theorem boundsLoop_valid {n m : Nat} (elev : Fin n → Fin m → Option K) : ∀ (bs : List (Band K)) (vals : Fin n → Fin m → Option K),
    (∀ b ∈ bs, b.Valid) → boundsLoop elev (bs.map Band.numbers) vals = (fun i j => boundsAt (elev i j) (vals i j) bs, false) := by
  intro bs
  induction bs with
  | nil => intro vals _; rfl
  | cons b bs ih =>
    intro vals hv
    have hb := hv b List.mem_cons_self
    rw [List.map_cons, Band.numbers, boundsLoop, if_pos hb.1, if_pos hb.2, ih _ fun c hc => hv c (List.mem_cons_of_mem _ hc)]
    rfl

theorem boundsLoop_invalid {n m : Nat} (elev : Fin n → Fin m → Option K) : ∀ (bs : List (List K)) (vals : Fin n → Fin m → Option K),
    (∃ l ∈ bs, ∀ b : Band K, b.Valid → b.numbers ≠ l) → (boundsLoop elev bs vals).2 = true := by
  intro bs
  induction bs with
  | nil => rintro vals ⟨l, hl, -⟩; simp at hl
  | cons x bs ih =>
    rintro vals ⟨l, hl, hb⟩
    unfold boundsLoop
    split
    · rename_i h; simp at h
    · rename_i vals' a b c d bs' h
      have e := List.cons.inj h
      split
      · split
        · rename_i h1 h2
          refine ih _ ⟨l, ?_, hb⟩ |> fun h' => by rw [← e.2]; exact h'
          rcases List.mem_cons.1 hl with h3 | h3
          · exact absurd (show (⟨a, b, c, d⟩ : Band K).numbers = l by rw [h3, e.1]; rfl) (hb _ ⟨h1, h2⟩)
          · exact h3
        · rfl
      · rfl
    · rfl

/-- On a covered elevation a bound is the projection to its interval. -/
theorem boundNode_covers {b : Band K} (hb : b.Valid) {z : K} (hz : b.Covers z) (v : K) :
    boundNode b.minH b.maxH b.minZ b.maxZ (some z) (some v) = some (max b.minH (min b.maxH v)) := by
  have h1 := hb.1
  unfold boundNode
  simp only [hz.1, hz.2, true_and]
  split
  · rename_i h; rw [max_eq_left (by rw [min_eq_right (by order)]; exact h.le)]
  · rename_i h
    push Not at h
    split
    · rename_i h'; rw [min_eq_left h', max_eq_right h1.le]
    · rename_i h'
      push Not at h'
      rw [min_eq_right h'.le, max_eq_right h]

theorem boundNode_not_covers {b : Band K} {z : K} (hz : ¬ b.Covers z) (v : Option K) :
    boundNode b.minH b.maxH b.minZ b.maxZ (some z) v = v := by
  have h1 : ∀ p : Prop, ¬ (b.minZ < z ∧ z ≤ b.maxZ ∧ p) := fun p h => hz ⟨h.1, h.2.1⟩
  unfold boundNode
  cases v <;> simp [h1]

theorem boundsAt_nan_elev (v : Option K) (bs : List (Band K)) : boundsAt none v bs = v := by
  induction bs with
  | nil => rfl
  | cons b bs ih => exact ih

theorem boundsAt_nan_value (z : Option K) (bs : List (Band K)) : boundsAt z none bs = none := by
  have : ∀ b : Band K, boundNode b.minH b.maxH b.minZ b.maxZ z none = none := by intro b; cases z <;> rfl
  induction bs with
  | nil => rfl
  | cons b bs ih =>
    show boundsAt z (boundNode b.minH b.maxH b.minZ b.maxZ z none) bs = none
    rw [this, ih]

theorem project_project (l h a b x : K) :
    max l (min h (max a (min b x))) = max (max l (min h a)) (min (max l (min h b)) x) := by
  rw [min_max_distrib_left, min_max_distrib_right, min_assoc]
  apply le_antisymm
  · refine max_le (by simp) (max_le (by simp) ?_)
    exact le_max_of_le_right (le_max_right _ _)
  · refine max_le (max_le (by simp) (by simp)) (max_le ?_ (by simp))
    exact le_max_of_le_left (min_le_left _ _)

theorem boundsAt_project {bs : List (Band K)} (hv : ∀ b ∈ bs, b.Valid) (z : K) :
    (∀ v, boundsAt (some z) v bs = v) ∨ ∃ a b, a ≤ b ∧ ∀ v, boundsAt (some z) (some v) bs = some (max a (min b v)) := by
  induction bs using List.reverseRecOn with
  | nil => exact Or.inl fun v => rfl
  | append_singleton bs c ih =>
    have hc := hv c (by simp)
    have e : ∀ v, boundsAt (some z) v (bs ++ [c]) = boundNode c.minH c.maxH c.minZ c.maxZ (some z) (boundsAt (some z) v bs) := by
      intro v; simp [boundsAt, List.foldl_append]
    by_cases hz : c.Covers z
    · right
      rcases ih fun b hb => hv b (by simp [hb]) with h | ⟨a, b, hab, h⟩
      · exact ⟨c.minH, c.maxH, hc.1.le, fun v => by rw [e, h, boundNode_covers hc hz]⟩
      · refine ⟨max c.minH (min c.maxH a), max c.minH (min c.maxH b), ?_, fun v => ?_⟩
        · exact max_le_max le_rfl (min_le_min le_rfl hab)
        · rw [e, h, boundNode_covers hc hz, project_project]
    · rcases ih fun b hb => hv b (by simp [hb]) with h | ⟨a, b, hab, h⟩
      · exact Or.inl fun v => by rw [e, h, boundNode_not_covers hz]
      · exact Or.inr ⟨a, b, hab, fun v => by rw [e, h, boundNode_not_covers hz]⟩

theorem boundsAt_idempotent {bs : List (Band K)} (hv : ∀ b ∈ bs, b.Valid) (z v : Option K) :
    boundsAt z (boundsAt z v bs) bs = boundsAt z v bs := by
  cases z with
  | none => simp only [boundsAt_nan_elev]
  | some z =>
    cases v with
    | none => simp only [boundsAt_nan_value]
    | some v =>
      rcases boundsAt_project hv z with h | ⟨a, b, hab, h⟩
      · rw [h, h]
      · rw [h, h]
        rcases le_total b v with h1 | h1 <;> rcases le_total a v with h2 | h2 <;>
          simp [h1, h2, hab]

theorem boundsAt_spec {bs : List (Band K)} (hv : ∀ b ∈ bs, b.Valid) (z v : K) :
    ∃ v', boundsAt (some z) (some v) bs = some v' ∧ ((∀ b ∈ bs, ¬ b.Covers z) → v' = v) ∧
      (∀ pre b post, bs = pre ++ b :: post → b.Covers z → (∀ c ∈ post, ¬ c.Covers z) → b.Admits v') ∧
      ((∀ b ∈ bs, b.Covers z → b.Admits v) → v' = v) := by
  induction bs using List.reverseRecOn with
  | nil => exact ⟨v, rfl, fun _ => rfl, fun pre b post h => by simp at h, fun _ => rfl⟩
  | append_singleton bs c ih =>
    obtain ⟨v', h1, h2, h3, h4⟩ := ih fun b hb => hv b (by simp [hb])
    have hc := hv c (by simp)
    have e : boundsAt (some z) (some v) (bs ++ [c]) = boundNode c.minH c.maxH c.minZ c.maxZ (some z) (some v') := by
      rw [← h1]; simp [boundsAt, List.foldl_append]
    by_cases hz : c.Covers z
    · rw [e, boundNode_covers hc hz]
      have hcH := hc.1.le
      refine ⟨_, rfl, fun h => absurd hz (h c (by simp)), fun pre b post hs hb hpost => ?_, fun h => ?_⟩
      · rcases List.eq_nil_or_concat post with rfl | ⟨post', x, rfl⟩
        · have := (List.append_inj' hs rfl).2
          rw [← (List.cons.inj this).1]
          exact ⟨le_max_left _ _, max_le hcH (min_le_left _ _)⟩
        · have hs' : bs ++ [c] = (pre ++ b :: post') ++ [x] := by rw [hs]; simp
          have := (List.append_inj' hs' rfl).2
          rw [← (List.cons.inj this).1] at hpost
          exact absurd hz (hpost c (by simp))
      · have hv' := h4 fun b hb => h b (by simp [hb])
        subst hv'
        have := h c (by simp) hz
        rw [min_eq_right this.2, max_eq_right this.1]
    · rw [e, boundNode_not_covers hz]
      refine ⟨v', rfl, fun h => h2 fun b hb => h b (by simp [hb]), fun pre b post hs hb hpost => ?_, fun h =>
        h4 fun b hb => h b (by simp [hb])⟩
      rcases List.eq_nil_or_concat post with rfl | ⟨post', x, rfl⟩
      · have := (List.append_inj' hs rfl).2
        rw [← (List.cons.inj this).1] at hb
        exact absurd hb hz
      · have hs' : bs ++ [c] = (pre ++ b :: post') ++ [x] := by rw [hs]; simp
        exact h3 pre b post' (List.append_inj' hs' rfl).1 hb fun y hy => hpost y (by simp [hy])

theorem enforceBounds_valid {g dem : Grid K C} {bs : List (Band K)} (hv : ∀ b ∈ bs, b.Valid)
    (hg : ¬ (|g.box.xmin| = 180 ∧ |g.box.xmax| = 180)) {e : Bool} (he : dem.interp = some e) :
    enforceBounds g dem (bs.map Band.numbers) =
      ({ g with vals := fun i j => boundsAt (dem.evalWith e (g.xAt i, g.yAt j)) (g.vals i j) bs, interp := some g.extrapolate }, false) := by
  unfold enforceBounds Grid.evalNodes
  rw [he]
  simp only [Option.map_some]
  rw [boundsLoop_valid _ _ _ hv]
  simp only [Bool.false_eq_true, if_false]
  rw [buildInterpolant_noncyclic]
  exact hg

/-- **C29**. For a grid that does not reach around the globe, valid bands and a DEM with interpolant: the grid keeps everything but its
values. At a node of a number and with a numeric elevation the new value is within the limits of the last band that covers the
elevation; it is the old one if no band covers the elevation, or if it respects all bands that do. NaN stays NaN, and nothing changes
where the elevation is NaN.
Missing: grids around the globe (`C29_globe_fails`). The lower end of a band does not belong to it (`C29_lower_end`). -/
theorem C29_bounds_partial {g dem : Grid K C} {bs : List (Band K)} (hv : ∀ b ∈ bs, b.Valid)
    (hg : ¬ (|g.box.xmin| = 180 ∧ |g.box.xmax| = 180)) (hdem : dem.interp.isSome) :
    ∃ W, enforceBounds g dem (bs.map Band.numbers) = ({ g with vals := W, interp := some g.extrapolate }, false) ∧
      ∀ (i : Fin g.nx) (j : Fin g.ny),
        (g.vals i j = none → W i j = none) ∧
        (dem.evalAt (g.xAt i, g.yAt j) = some none → W i j = g.vals i j) ∧
        ∀ z v, dem.evalAt (g.xAt i, g.yAt j) = some (some z) → g.vals i j = some v →
          ∃ v', W i j = some v' ∧ ((∀ b ∈ bs, ¬ b.Covers z) → v' = v) ∧
            (∀ pre b post, bs = pre ++ b :: post → b.Covers z → (∀ c ∈ post, ¬ c.Covers z) → b.Admits v') ∧
            ((∀ b ∈ bs, b.Covers z → b.Admits v) → v' = v) := by
  obtain ⟨e, he⟩ := Option.isSome_iff_exists.1 hdem
  have hev : ∀ q, dem.evalAt q = some (dem.evalWith e q) := fun q => by rw [Grid.evalAt, he]; rfl
  refine ⟨_, enforceBounds_valid hv hg he, fun i j => ⟨fun h => ?_, fun h => ?_, fun z v hz hval => ?_⟩⟩
  · simp only [h, boundsAt_nan_value]
  · rw [hev] at h
    simp only [Option.some.inj h, boundsAt_nan_elev]
  · rw [hev] at hz
    simp only [Option.some.inj hz, hval]
    exact boundsAt_spec hv z v

/-- **C29**, repetition: applying the same bands again changes nothing. -/
theorem C29_idempotent_partial {g dem : Grid K C} {bs : List (Band K)} (hv : ∀ b ∈ bs, b.Valid)
    (hg : ¬ (|g.box.xmin| = 180 ∧ |g.box.xmax| = 180)) (hdem : dem.interp.isSome) :
    enforceBounds (enforceBounds g dem (bs.map Band.numbers)).1 dem (bs.map Band.numbers) = enforceBounds g dem (bs.map Band.numbers) := by
  obtain ⟨e, he⟩ := Option.isSome_iff_exists.1 hdem
  rw [enforceBounds_valid hv hg he, enforceBounds_valid hv (by exact hg) he]
  congr 2
  funext i j
  exact boundsAt_idempotent hv _ _

/-- **C29**, invalid bounds: if one entry of the list is not a valid band an exception is raised; the grid keeps its lattice and
interpolant, and its values too if the first entry is invalid. -/
theorem C29_invalid_rejected (g dem : Grid K C) (bounds : List (List K)) (h : ∃ l ∈ bounds, ∀ b : Band K, b.Valid → b.numbers ≠ l) :
    (enforceBounds g dem bounds).2 = true ∧ (∃ W, (enforceBounds g dem bounds).1 = { g with vals := W }) ∧
      ((∀ l ∈ bounds.head?, ∀ b : Band K, b.Valid → b.numbers ≠ l) → (enforceBounds g dem bounds).1 = g) := by
  unfold enforceBounds
  cases he : dem.evalNodes g with
  | none => exact ⟨rfl, ⟨g.vals, rfl⟩, fun _ => rfl⟩
  | some elev =>
    have hr := boundsLoop_invalid elev bounds g.vals h
    simp only [hr, if_true]
    refine ⟨trivial, ⟨_, rfl⟩, fun hh => ?_⟩
    cases bounds with
    | nil => obtain ⟨l, hl, -⟩ := h; simp at hl
    | cons x bs =>
      have hx := hh x (by simp)
      have : (boundsLoop elev (x :: bs) g.vals).1 = g.vals := by
        unfold boundsLoop
        split
        · rename_i h'; simp at h'
        · rename_i vals' a b c d bs' h'
          have e := (List.cons.inj h').1
          split
          · split
            · rename_i h1 h2
              exact absurd (show (⟨a, b, c, d⟩ : Band K).numbers = x by rw [e]; rfl) (hx _ ⟨h1, h2⟩)
            · rfl
          · rfl
        · rfl
      rw [this]

/-- **C29** fails: an invalid entry after a valid one raises, but the grid has been modified: a size 3 became 2. -/
theorem C29_invalid_modifies : ∃ (g dem : Grid ℚ Nat) (bounds : List (List ℚ)), (enforceBounds g dem bounds).2 = true ∧
    allVals g.vals = [some 3] ∧ allVals (enforceBounds g dem bounds).1.vals = [some 2] :=
  ⟨⟨⟨0, 0, 0, 0⟩, 1, 1, 1, 1, fun _ _ => some 3, none, false, 0, none⟩,
    ⟨⟨0, 0, 0, 0⟩, 1, 1, 1, 1, fun _ _ => some (-5), none, false, 0, some false⟩, [[1, 2, -10, 0], [1, 2]],
    by decide +kernel, by decide +kernel, by decide +kernel⟩

/-- **C29**, the lower end: a node exactly at the lower elevation of a band keeps its size 3 beyond the limits 1 and 2. -/
theorem C29_lower_end : ∃ g dem : Grid ℚ Nat, dem.evalAt (g.xAt 0, g.yAt 0) = some (some (-10)) ∧
    allVals (enforceBounds g dem [[1, 2, -10, 0]]).1.vals = [some 3] :=
  ⟨⟨⟨0, 0, 0, 0⟩, 1, 1, 1, 1, fun _ _ => some 3, none, false, 0, none⟩,
    ⟨⟨0, 0, 0, 0⟩, 1, 1, 1, 1, fun _ _ => some (-10), none, false, 0, some false⟩, by decide +kernel, by decide +kernel⟩

/-- **C29** fails around the globe: without any band the values 1, 2, 3 become 3, 2, 1, and 1, 2, 3 again at the next call. -/
theorem C29_globe_fails : ∃ g dem : Grid ℚ Nat, dem.interp.isSome ∧ allVals g.vals = [some 1, some 2, some 3] ∧
    allVals (enforceBounds g dem []).1.vals = [some 3, some 2, some 1] ∧
    allVals (enforceBounds (enforceBounds g dem []).1 dem []).1.vals = [some 1, some 2, some 3] :=
  ⟨⟨⟨-180, 180, 0, 0⟩, 180, 1, 3, 1, fun i _ => some ((i : ℚ) + 1), none, false, 0, none⟩, gridEx.buildInterpolant,
    rfl, by decide +kernel, by decide +kernel, by decide +kernel⟩

example : ∀ b ∈ [(⟨1, 2, -10, 0⟩ : Band ℚ), ⟨5, 6, 0, 10⟩], b.Valid := by
  simp only [List.mem_cons, List.not_mem_nil, or_false, forall_eq_or_imp, forall_eq, Band.Valid]
  norm_num
example : ¬ (|gridEx.box.xmin| = 180 ∧ |gridEx.box.xmax| = 180) := by decide +kernel
example : gridEx.buildInterpolant.interp.isSome = true := rfl

/-! ## C28 gradation -/

theorem getElem?_blocks {α β : Type} {n : Nat} (h : α → Fin n → β) : ∀ (l : List α) (j : Nat) (i : Fin n),
    (l.flatMap fun a => (List.finRange n).map (h a))[i.val + n * j]? = (l[j]?).map fun a => h a i := by
  intro l
  induction l with
  | nil => intro j i; simp
  | cons a l ih =>
    intro j i
    have hi := i.isLt
    rw [List.flatMap_cons]
    cases j with
    | zero =>
      rw [List.getElem?_append_left (by simp)]
      simp
    | succ j =>
      rw [List.getElem?_append_right (by simp; nlinarith)]
      have e : i.val + n * (j + 1) - ((List.finRange n).map (h a)).length = i.val + n * j := by
        simp only [List.length_map, List.length_finRange]
        rw [Nat.mul_succ]
        omega
      rw [e, ih j i]
      simp

theorem length_blocks {α β : Type} {n : Nat} (h : α → Fin n → β) (l : List α) :
    (l.flatMap fun a => (List.finRange n).map (h a)).length = n * l.length := by
  induction l with
  | nil => simp
  | cons a l ih => rw [List.flatMap_cons, List.length_append, ih]; simp; ring

theorem flattenF_spec {n m : Nat} {vals : Fin n → Fin m → Option K} {f : List K} (h : flattenF vals = some f) :
    f.length = n * m ∧ ∀ (i : Fin n) (j : Fin m), vals i j = f[nodeIndex n m i j 0]? := by
  have h1 := collect_some h
  have hl := congrArg List.length h1
  rw [length_blocks (fun j i => vals i j)] at hl
  simp only [List.length_finRange, List.length_map] at hl
  refine ⟨hl.symm, fun i j => ?_⟩
  have h2 := getElem?_blocks (fun (j : Fin m) (i : Fin n) => vals i j) (List.finRange m) j i
  rw [h1] at h2
  have e : nodeIndex n m i j 0 = i.val + n * j.val := by simp [nodeIndex]
  have hj : (List.finRange m)[j.val]? = some j := by simp
  rw [hj, List.getElem?_map] at h2
  rw [e]
  cases hf : f[i.val + n * j.val]? with
  | none => rw [hf] at h2; simp at h2
  | some x =>
    rw [hf] at h2
    simpa using h2.symm

theorem flattenF_some {n m : Nat} {vals : Fin n → Fin m → Option K} (h : ∀ i j, (vals i j).isSome) :
    ∃ f, flattenF vals = some f := by
  cases hf : flattenF vals with
  | some f => exact ⟨f, rfl⟩
  | none =>
    have := collect_none.1 hf
    simp only [List.mem_flatMap, List.mem_map] at this
    obtain ⟨j, -, i, -, hij⟩ := this
    have := h i j
    rw [hij] at this
    simp at this

theorem limitVals_spec {sq2 sqEps elen gr : K} {n m : Nat} {vals W : Fin n → Fin m → Option K}
    (h : limitVals sq2 sqEps elen gr vals = some W) :
    ∃ f out, f.length = n * m * 1 ∧ (∀ (i : Fin n) (j : Fin m), vals i j = f[nodeIndex n m i j 0]?) ∧
      gradientLimit sq2 sqEps n m 1 elen gr 10000 f = some out ∧ out.length = f.length ∧
      ∀ (i : Fin n) (j : Fin m), W i j = out[nodeIndex n m i j 0]? := by
  unfold limitVals at h
  cases hf : flattenF vals with
  | none => rw [hf] at h; simp at h
  | some f =>
    rw [hf] at h
    simp only at h
    obtain ⟨hl, hv⟩ := flattenF_spec hf
    cases ho : gradientLimit sq2 sqEps n m 1 elen gr 10000 f with
    | none => rw [ho] at h; simp at h
    | some out =>
      rw [ho] at h
      simp only [reshapeF] at h
      split at h
      · rename_i hlen
        have := Option.some.inj h
        refine ⟨f, out, by rw [hl, mul_one], hv, ho, by rw [hl, hlen], fun i j => ?_⟩
        rw [← this]
        simp only [nodeIndex, mul_zero, add_zero]
        rw [List.getElem?_eq_getElem]
      · simp at h

theorem limitVals_some (sq2 sqEps elen gr : K) {n m : Nat} (hn : 0 < n) (hm : 0 < m) {vals : Fin n → Fin m → Option K}
    (h : ∀ i j, (vals i j).isSome) : ∃ W, limitVals sq2 sqEps elen gr vals = some W := by
  obtain ⟨f, hf⟩ := flattenF_some h
  obtain ⟨hl, -⟩ := flattenF_spec hf
  have hne : f ≠ [] := by
    rintro rfl
    simp only [List.length_nil] at hl
    have := Nat.mul_pos hn hm
    omega
  obtain ⟨out, ho, hol⟩ := C26_limiter_total sq2 sqEps elen gr 10000 (d0 := n) (d1 := m) (d2 := 1) (by rw [hl, mul_one]) hne
  have hlen : out.length = n * m := by rw [hol, hl]
  have : limitVals sq2 sqEps elen gr vals = reshapeF n m out := by
    unfold limitVals
    rw [hf]
    simp only
    rw [ho]
  rw [this]
  exact ⟨_, dif_pos hlen⟩

/-- **C28**, rejection of negative gradation and unequal spacings. -/
theorem C28_rejects (M : StereoMaps K) (sq2 sqEps : K) (g : Grid K C) (gr : K) (crs : C) (stereo : Bool) (h : gr < 0 ∨ g.dx ≠ g.dy) :
    enforceGradation M sq2 sqEps g gr crs stereo = none := by
  unfold enforceGradation
  rcases h with h | h
  · rw [if_pos h]
  · split
    · rfl
    · rfl

/-- **C28**, lattice: with or without the correction at the pole, the result has the box, spacing and shape of the given grid. Its
coordinate system is the argument `crs`, not that of the grid. -/
theorem C28_same_lattice {M : StereoMaps K} {sq2 sqEps : K} {g r : Grid K C} {gr : K} {crs : C} {stereo : Bool}
    (h : enforceGradation M sq2 sqEps g gr crs stereo = some r) :
    r.box = g.box ∧ r.dx = g.dx ∧ r.dy = g.dy ∧ r.nx = g.nx ∧ r.ny = g.ny ∧ r.hmin = g.hmin ∧ r.extrapolate = g.extrapolate ∧
      r.crs = crs ∧ r.interp = some g.extrapolate := by
  unfold enforceGradation at h
  split at h
  · simp at h
  · split at h
    · simp at h
    · rename_i hd
      push Not at hd
      split at h
      · simp at h
      · split at h
        · simp at h
        · rename_i vals _
          rw [Option.map_eq_some_iff] at h
          obtain ⟨r', hr', rfl⟩ := h
          unfold mkGrid at hr'
          simp only [Option.getD_none] at hr'
          split at hr'
          · rw [← Option.some.inj hr']
            exact ⟨rfl, rfl, hd, rfl, rfl, rfl, rfl, rfl, rfl⟩
          · simp at hr'

/-- **C28**, values: without the correction at the pole and for a box that does not reach around the globe, the values of the result
are the output of the limiter on the column-major list of the old values, put back at the same nodes.
Missing: boxes around the globe (`C28_globe_rows_exchanged`); grids with NaN are not covered by the model of the limiter. -/
theorem C28_values_partial {M : StereoMaps K} {sq2 sqEps : K} {g r : Grid K C} {gr : K} {crs : C}
    (hg : ¬ (|g.box.xmin| = 180 ∧ |g.box.xmax| = 180)) (h : enforceGradation M sq2 sqEps g gr crs false = some r) :
    ∃ W f out, r = ⟨g.box, g.dx, g.dy, g.nx, g.ny, W, g.hmin, g.extrapolate, crs, some g.extrapolate⟩ ∧
      f.length = g.nx * g.ny * 1 ∧ (∀ (i : Fin g.nx) (j : Fin g.ny), g.vals i j = f[nodeIndex g.nx g.ny i j 0]?) ∧
      gradientLimit sq2 sqEps g.nx g.ny 1 g.dx gr 10000 f = some out ∧ out.length = f.length ∧
      ∀ (i : Fin g.nx) (j : Fin g.ny), W i j = out[nodeIndex g.nx g.ny i j 0]? := by
  unfold enforceGradation at h
  split at h
  · simp at h
  · split at h
    · simp at h
    · rename_i hd
      push Not at hd
      split at h
      · simp at h
      · rename_i tmp htmp
        obtain ⟨f, out, h1, h2, h3, h4, h5⟩ := limitVals_spec htmp
        simp only [Bool.false_eq_true, if_false] at h
        rw [Option.map_eq_some_iff] at h
        obtain ⟨r', hr', rfl⟩ := h
        unfold mkGrid at hr'
        simp only [Option.getD_none] at hr'
        split at hr'
        · have hr := Option.some.inj hr'
          refine ⟨tmp, f, out, ?_, h1, h2, h3, h4, h5⟩
          rw [← hr, buildInterpolant_noncyclic _ (by exact hg), hd]
        · simp at hr'

/-- **C28**, success: on a non-empty grid of numbers with a box in order and equal positive spacings a grid is returned. -/
theorem C28_succeeds (M : StereoMaps K) (sq2 sqEps : K) {g : Grid K C} {gr : K} (crs : C) (hgr : 0 ≤ gr) (hdx : 0 < g.dx)
    (hd : g.dx = g.dy) (hx : g.box.xmin ≤ g.box.xmax) (hy : g.box.ymin ≤ g.box.ymax) (hn : 0 < g.nx) (hm : 0 < g.ny)
    (hv : ∀ i j, (g.vals i j).isSome) : (enforceGradation M sq2 sqEps g gr crs false).isSome := by
  obtain ⟨W, hW⟩ := limitVals_some sq2 sqEps g.dx gr hn hm hv
  unfold enforceGradation
  rw [if_neg (by simpa using hgr), if_neg (by simpa using hd), hW]
  simp [mkGrid, gridChecks, hx, hy, hdx]

/-- **C28**, limiting: for sizes that are not negative the result is nowhere larger than the given size and nowhere smaller than the
smallest given size. -/
theorem C28_lowered_partial {M : StereoMaps K} {sq2 sqEps : K} {g : Grid K C} {gr : K} {crs : C} {W : Fin g.nx → Fin g.ny → Option K}
    (hs2 : 1 ≤ sq2) (hse : 0 ≤ sqEps) (hdx : 0 ≤ g.dx) (hg : ¬ (|g.box.xmin| = 180 ∧ |g.box.xmax| = 180))
    (hpos : ∀ i j v, g.vals i j = some v → 0 ≤ v)
    (h : enforceGradation M sq2 sqEps g gr crs false =
      some ⟨g.box, g.dx, g.dy, g.nx, g.ny, W, g.hmin, g.extrapolate, crs, some g.extrapolate⟩) (i : Fin g.nx) (j : Fin g.ny) :
    ∃ x y, g.vals i j = some x ∧ W i j = some y ∧ y ≤ x ∧ ∀ lo, (∀ k l v, g.vals k l = some v → lo ≤ v) → lo ≤ y := by
  obtain ⟨W', f, out, hr, h1, h2, h3, h4, h5⟩ := C28_values_partial hg h
  have hW : W = W' := by injection hr
  subst hW
  have hgr : 0 ≤ gr := by
    by_contra hc
    rw [C28_rejects M sq2 sqEps g gr crs false (Or.inl (by simpa using hc))] at h
    simp at h
  -- every entry of the list is the value of a node
  have hmem : ∀ v ∈ f, ∃ k l, g.vals k l = some v := by
    intro v hv
    obtain ⟨p, hp, rfl⟩ := List.getElem_of_mem hv
    have hn : 0 < g.nx := by
      by_contra hc
      have : g.nx = 0 := by omega
      rw [h1, this] at hp
      simp at hp
    have hp' : p < g.nx * g.ny := by rw [h1, mul_one] at hp; exact hp
    refine ⟨⟨p % g.nx, Nat.mod_lt _ hn⟩, ⟨p / g.nx, Nat.div_lt_of_lt_mul hp'⟩, ?_⟩
    rw [h2]
    have : nodeIndex g.nx g.ny (p % g.nx) (p / g.nx) 0 = p := by
      simp only [nodeIndex, mul_zero, add_zero]
      exact Nat.mod_add_div p g.nx
    rw [this, List.getElem?_eq_getElem hp]
  have hlt : nodeIndex g.nx g.ny i j 0 < f.length := by
    rw [h1]
    have hi := i.isLt
    have hj := j.isLt
    simp only [nodeIndex, mul_zero, add_zero, mul_one]
    calc i.val + g.nx * j.val < g.nx + g.nx * j.val := by omega
      _ = g.nx * (j.val + 1) := by ring
      _ ≤ g.nx * g.ny := Nat.mul_le_mul_left _ hj
  have hx := List.getElem?_eq_getElem hlt
  have hy := List.getElem?_eq_getElem (h4 ▸ hlt : nodeIndex g.nx g.ny i j 0 < out.length)
  obtain ⟨c1, -, c3, -⟩ := C23_limiter_lowers h1 hs2 hse hdx hgr
    (fun v hv => by obtain ⟨k, l, hk⟩ := hmem v hv; exact hpos k l v hk) h3 hx hy
  refine ⟨_, _, (h2 i j).trans hx, (h5 i j).trans hy, c1, fun lo hlo => c3 lo fun v hv => ?_⟩
  obtain ⟨k, l, hk⟩ := hmem v hv
  exact hlo k l v hk

/-- Parameters for concrete runs without the correction at the pole. -/
def noStereo : StereoMaps ℚ := ⟨3, id, id⟩

/-- **C28** fails around the globe: sizes 1, 2, 3 respect the gradation, but the first and the last row are exchanged. -/
theorem C28_globe_rows_exchanged : ∃ g : Grid ℚ Nat, allVals g.vals = [some 1, some 2, some 3] ∧
    (enforceGradation noStereo sq2D sqEpsD g 1 0 false).map (fun r => allVals r.vals) = some [some 3, some 2, some 1] :=
  ⟨⟨⟨-180, 180, 0, 0⟩, 180, 180, 3, 1, fun i _ => some ((i : ℚ) + 1), none, false, 0, none⟩, by decide +kernel, by decide +kernel⟩

/-- A grid of 2 by 3 nodes with a size jump. -/
def jumpEx : Grid ℚ Nat := ⟨⟨0, 1, 0, 2⟩, 1, 1, 2, 3, fun i j => if i = 0 ∧ j = 0 then some 1 else some 9, some 1, true, 7, none⟩

example : (enforceGradation noStereo sq2D sqEpsD jumpEx (1 / 4) 0 false).map (fun r => allVals r.vals) =
    some [some 1, some (5 / 4), some (6 / 4), some (5 / 4), some (1 + sq2D / 4), some (5 / 4 + sq2D / 4)] := by decide +kernel
example : (enforceGradation noStereo sq2D sqEpsD jumpEx (1 / 4) 0 false).isSome :=
  C28_succeeds noStereo sq2D sqEpsD 0 (by norm_num) (by decide +kernel) rfl (by decide +kernel) (by decide +kernel) (by decide)
    (by decide) (by
      intro i j
      simp only [jumpEx]
      split <;> rfl)
example : ¬ (|jumpEx.box.xmin| = 180 ∧ |jumpEx.box.xmax| = 180) := by decide +kernel

end
end OM
