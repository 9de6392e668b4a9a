import Verif.Lemmas.Inpoly
import Mathlib.Data.Rat.Floor
/-!
# C49–C51: the point-in-polygon kernels
-/
namespace OM
open Spec
set_option linter.unusedSectionVars false

/-- `l'` lists the edges of `l` in another order, some of them reversed. -/
def Spec.SameEdges {V : Type} (l l' : List (V × V)) : Prop :=
  ∃ m, l.Perm m ∧ List.Forall₂ (fun a b => b = a ∨ b = a.swap) m l'

/-- `q` is more than `d` away from the smallest box of the points, in one coordinate. -/
def Spec.OutsideBy {K : Type} [Field K] [LinearOrder K] (d : K) (q : K × K) (pts : List (K × K)) : Prop :=
  (∀ p ∈ pts, q.1 < p.1 - d) ∨ (∀ p ∈ pts, p.1 + d < q.1) ∨ (∀ p ∈ pts, q.2 < p.2 - d) ∨ (∀ p ∈ pts, p.2 + d < q.2)

/-- The end points of the edges. -/
def Spec.endPoints {V : Type} (l : List (V × V)) : List V := l.flatMap fun e => [e.1, e.2]

section
variable {K : Type} [Field K] [LinearOrder K] [IsStrictOrderedRing K]

theorem pyReject_iff (ftol : K) (q : K × K) (segs : List (Seg K)) : pyReject ftol q segs ↔ OutsideBy ftol q (endPoints segs) := by
  have : ∀ P : K × K → Prop, (∀ p ∈ endPoints segs, P p) ↔ ∀ s ∈ segs, P s.1 ∧ P s.2 := by
    intro P
    simp only [endPoints, List.mem_flatMap, List.mem_cons, List.not_mem_nil, or_false, forall_exists_index, and_imp]
    exact ⟨fun h s hs => ⟨h _ s hs (.inl rfl), h _ s hs (.inr rfl)⟩, fun h p s hs hp => hp.elim (· ▸ (h s hs).1) (· ▸ (h s hs).2)⟩
  unfold pyReject OutsideBy
  rw [this, this, this, this]

/-! ## C49 -/

theorem any_sameEdges {V : Type} {f : V × V → Bool} (hf : ∀ e, f e.swap = f e) {l l' : List (V × V)} (h : SameEdges l l') :
    l'.any f = l.any f ∧ l'.countP f = l.countP f ∧ (l' = [] ↔ l = []) := by
  obtain ⟨m, hp, h2⟩ := h
  have h1 : l'.any f = m.any f ∧ l'.countP f = m.countP f ∧ (l' = [] ↔ m = []) := by
    induction h2 generalizing l with
    | nil => simp
    | cons hab _ ih =>
      obtain ⟨i1, i2, -⟩ := ih (List.Perm.refl _)
      rcases hab with rfl | rfl
      · simp [i1, i2, List.countP_cons]
      · simp [i1, i2, List.countP_cons, hf]
  refine ⟨h1.1.trans ?_, h1.2.1.trans (hp.countP_eq f).symm, h1.2.2.trans ?_⟩
  · rw [Bool.eq_iff_iff]
    simp [hp.mem_iff]
  · exact ⟨fun h => by rw [h] at hp; exact hp.eq_nil, fun h => by rw [h] at hp; exact hp.symm.eq_nil⟩

theorem mem_endPoints_sameEdges {V : Type} {l l' : List (V × V)} (h : SameEdges l l') (p : V) : p ∈ endPoints l' ↔ p ∈ endPoints l := by
  obtain ⟨m, hp, h2⟩ := h
  have h1 : p ∈ endPoints l' ↔ p ∈ endPoints m := by
    unfold endPoints
    induction h2 generalizing l with
    | nil => simp
    | cons hab _ ih =>
      have := ih (List.Perm.refl _)
      rcases hab with rfl | rfl
      · simp only [List.flatMap_cons, List.mem_append, this]
      · simp only [List.flatMap_cons, List.mem_append, this, List.mem_cons, List.not_mem_nil, or_false, Prod.fst_swap, Prod.snd_swap]
        tauto
  rw [h1]
  unfold endPoints
  simp [hp.mem_iff]

/-- **C49**, Python: order and direction of the edges do not matter. -/
theorem C49_python (ftol : K) (n : Nat) {l l' : List (Seg K)} (h : SameEdges l l') (q : K × K) :
    pyPoint ftol n l' q = pyPoint ftol n l q := by
  have hs := fun s => hits_swap ftol q s
  obtain ⟨h1, -, h3⟩ := any_sameEdges (fun s => (hs s).1) h
  obtain ⟨-, h2, -⟩ := any_sameEdges (fun s => (hs s).2.1) h
  have h4 : pyReject ftol q l' ↔ pyReject ftol q l := by
    rw [pyReject_iff, pyReject_iff]
    unfold OutsideBy
    simp only [mem_endPoints_sameEdges h]
  rw [pyPoint_eq, pyPoint_eq, h1, h2]
  classical
  by_cases hc : l = [] ∨ n < 3 ∨ pyReject ftol q l
  · rw [if_pos hc, if_pos (by rwa [h3, h4])]
  · rw [if_neg hc, if_neg (by rwa [h3, h4])]

/-- **C49**, compiled: order and direction of the edges do not matter. -/
theorem C49_compiled (ftol : K) {l l' : List (Seg K)} (h : SameEdges l l') (q : K × K) : cPoint ftol l' q = cPoint ftol l q := by
  have hs := fun s => hits_swap ftol q s
  obtain ⟨h1, -, -⟩ := any_sameEdges (fun s => (hs s).2.2.1) h
  obtain ⟨-, h2, -⟩ := any_sameEdges (fun s => (hs s).2.2.2) h
  rw [cPoint_eq, cPoint_eq, h1, h2]

/-! ## C50 -/

/-- **C50**: with tolerance zero both kernels agree on every point if every vertex has an even number of edge ends and there are at least
three vertices. (With two vertices they need not agree: `C50_two_vertices`.) -/
theorem C50_agree_partial {node : List (K × K)} {es : List (Nat × Nat)} {segs : List (Seg K)} (h : segsOf node es = some segs)
    (he : EvenDegrees es) (hn : 3 ≤ node.length) (q : K × K) : pyPoint 0 node.length segs q = cPoint 0 segs q := by
  have hhit : pyHit (0 : K) q = cHit 0 q := by
    funext s
    rw [Bool.eq_iff_iff, pyHit_zero, cHit_zero]
  have hcnt : pyCount (0 : K) q = cCount 0 q := by
    funext s
    rw [pyCount_eq le_rfl q s (LevelClear_zero 0 _ s), cCount_eq le_rfl]
  rw [pyPoint_eq, cPoint_eq, hhit, hcnt]
  split
  · rename_i hc
    rcases hc with hc | hc | hc
    · subst hc; simp
    · omega
    · have h1 : segs.any (cHit 0 q) = false := by
        rw [List.any_eq_false]
        intro s hs
        rw [cHit_of_reject hc hs]; simp
      have h2 := even_of_reject le_rfl (even_straddle_segs h he) hc
      rw [← List.countP_congr (fun s _ => by rw [cCount_eq le_rfl] : ∀ s ∈ segs, cCount (0 : K) q s = true ↔ crossesRight q s = true)] at h2
      rw [h1, Nat.even_iff.1 h2]
      rfl
  · rfl

/-! ## C51 -/

theorem parity_add (a b : Nat) : ((a + b) % 2 == 1) = ((a % 2 == 1) ^^ (b % 2 == 1)) := by
  rcases Nat.mod_two_eq_zero_or_one a with h1 | h1 <;> rcases Nat.mod_two_eq_zero_or_one b with h2 | h2 <;> rw [Nat.add_mod, h1, h2] <;> rfl

/-- **C51**, compiled kernel: for a point that is not reported on the boundary, the answer for several rings together is the exclusive-or of
the answers for the rings. -/
theorem C51_xor_compiled (ftol : K) (rings : List (List (Seg K))) (q : K × K) (hb : (cPoint ftol rings.flatten q).2 = false) :
    (cPoint ftol rings.flatten q).1 = (rings.map fun r => (cPoint ftol r q).1).foldr xor false := by
  simp only [cPoint_eq] at *
  rw [hb, Bool.false_or]
  have hz : ∀ r ∈ rings, r.any (cHit ftol q) = false := by
    intro r hr
    rw [List.any_eq_false] at hb ⊢
    exact fun s hs => hb s (List.mem_flatten.2 ⟨r, hr, hs⟩)
  clear hb
  induction rings with
  | nil => rfl
  | cons r rings ih =>
    rw [List.flatten_cons, List.countP_append, List.map_cons, List.foldr_cons, ← ih fun r hr => hz r (List.mem_cons_of_mem _ hr),
      hz r List.mem_cons_self, Bool.false_or]
    exact parity_add _ _

theorem pyPoint_parity {ftol : K} (hf : 0 ≤ ftol) {n : Nat} (hn : 3 ≤ n) {segs : List (Seg K)} (he : EvenDegrees segs) {q : K × K}
    (hflat : ∀ s ∈ segs, LevelClear ftol 0 q.2 s) (hh : segs.any (pyHit ftol q) = false ∨ pyReject ftol q segs) :
    (pyPoint ftol n segs q).1 = (segs.countP (crossesRight q) % 2 == 1) := by
  have hcnt : segs.countP (pyCount ftol q) = segs.countP (crossesRight q) :=
    List.countP_congr fun s hs => by rw [pyCount_eq hf q s (hflat s hs)]
  rw [pyPoint_eq, hcnt]
  split
  · rename_i hc
    rcases hc with hc | hc | hc
    · subst hc; rfl
    · omega
    · rw [Nat.even_iff.1 (even_of_reject hf (even_straddle segs he) hc)]; rfl
  · rename_i hc
    push Not at hc
    rcases hh with hh | hh
    · rw [hh]; rfl
    · exact absurd hh hc.2.2

/-- **C51**, Python kernel: the same for closed rings and points that are not level with a nearly horizontal edge. (Such edges are
skipped; how the answer changes then is in `C51_flat_edges`.) -/
theorem C51_xor_python_partial {ftol : K} (hf : 0 ≤ ftol) {n : Nat} (hn : 3 ≤ n) (rings : List (List (Seg K)))
    (he : ∀ r ∈ rings, EvenDegrees r) (q : K × K) (hflat : ∀ r ∈ rings, ∀ s ∈ r, LevelClear ftol 0 q.2 s)
    (hb : (pyPoint ftol n rings.flatten q).2 = false) :
    (pyPoint ftol n rings.flatten q).1 = (rings.map fun r => (pyPoint ftol n r q).1).foldr xor false := by
  have heF : EvenDegrees rings.flatten := by
    intro v
    unfold endCount
    clear hb hflat
    induction rings with
    | nil => exact Even.zero
    | cons r rings ih =>
      have h1 := he r List.mem_cons_self v
      have h2 := ih fun r hr => he r (List.mem_cons_of_mem _ hr)
      unfold endCount at h1
      simp only [List.flatten_cons, List.countP_append]
      rw [add_add_add_comm]
      exact h1.add h2
  have hflatF : ∀ s ∈ rings.flatten, LevelClear ftol 0 q.2 s := by
    intro s hs
    obtain ⟨r, hr, hs⟩ := List.mem_flatten.1 hs
    exact hflat r hr s hs
  have hF : rings.flatten.any (pyHit ftol q) = false ∨ pyReject ftol q rings.flatten := by
    rw [pyPoint_eq] at hb
    split at hb
    · rename_i hc
      rcases hc with hc | hc | hc
      · left; rw [hc]; rfl
      · omega
      · exact .inr hc
    · exact .inl hb
  have hR : ∀ r ∈ rings, r.any (pyHit ftol q) = false ∨ pyReject ftol q r := by
    intro r hr
    rcases hF with h | h
    · left
      rw [List.any_eq_false] at h ⊢
      exact fun s hs => h s (List.mem_flatten.2 ⟨r, hr, hs⟩)
    · right
      have hsub : ∀ s ∈ r, s ∈ rings.flatten := fun s hs => List.mem_flatten.2 ⟨r, hr, hs⟩
      rcases h with h | h | h | h
      · exact .inl fun s hs => h s (hsub s hs)
      · exact .inr (.inl fun s hs => h s (hsub s hs))
      · exact .inr (.inr (.inl fun s hs => h s (hsub s hs)))
      · exact .inr (.inr (.inr fun s hs => h s (hsub s hs)))
  rw [pyPoint_parity hf hn heF hflatF hF]
  have hm : (rings.map fun r => (pyPoint ftol n r q).1) = rings.map fun r => (r.countP (crossesRight q) % 2 == 1) :=
    List.map_congr_left fun r hr => pyPoint_parity hf hn (he r hr) (hflat r hr) (hR r hr)
  rw [hm]
  clear hm hR hF heF hflatF hb hflat he
  induction rings with
  | nil => rfl
  | cons r rings ih =>
    rw [List.flatten_cons, List.countP_append, List.map_cons, List.foldr_cons, ← ih]
    exact parity_add _ _

/-- **C51**: points farther than the tolerance outside of the box of a closed polygon are outside, for both kernels. The Python kernel needs
no closed polygon for that. -/
theorem C51_outside_box {ftol : K} (hf : 0 ≤ ftol) (n : Nat) (segs : List (Seg K)) (q : K × K)
    (hq : OutsideBy ftol q (endPoints segs)) :
    pyPoint ftol n segs q = (false, false) ∧ (EvenDegrees segs → cPoint ftol segs q = (false, false)) := by
  rw [← pyReject_iff] at hq
  constructor
  · rw [pyPoint_eq, if_pos (.inr (.inr hq))]
  · intro he
    have h1 : segs.any (cHit ftol q) = false := by
      rw [List.any_eq_false]
      intro s hs
      rw [cHit_of_reject hq hs]; simp
    have h2 := even_of_reject hf (even_straddle segs he) hq
    rw [← List.countP_congr (fun s _ => by rw [cCount_eq hf] : ∀ s ∈ segs, cCount ftol q s = true ↔ crossesRight q s = true)] at h2
    rw [cPoint_eq, h1, Nat.even_iff.1 h2]
    rfl

/-- **C51**: points of an edge are reported on the boundary and inside by both kernels; and whatever is reported on the boundary is reported
inside. -/
theorem C51_boundary {ftol : K} (hf : 0 ≤ ftol) {n : Nat} (hn : 3 ≤ n) (segs : List (Seg K)) (q : K × K) :
    ((∃ s ∈ segs, s.1 ≠ s.2 ∧ OnClosedSegment q s.1 s.2) → pyPoint ftol n segs q = (true, true) ∧ cPoint ftol segs q = (true, true)) ∧
      ((pyPoint ftol n segs q).2 = true → (pyPoint ftol n segs q).1 = true) ∧
      ((cPoint ftol segs q).2 = true → (cPoint ftol segs q).1 = true) := by
  refine ⟨?_, ?_, ?_⟩
  · rintro ⟨s, hs, hne, ho⟩
    obtain ⟨h1, h2⟩ := pyHit_of_onSegment hf hne ho
    have a1 : segs.any (pyHit ftol q) = true := List.any_eq_true.2 ⟨s, hs, h1⟩
    have a2 : segs.any (cHit ftol q) = true := List.any_eq_true.2 ⟨s, hs, h2⟩
    refine ⟨?_, by rw [cPoint_eq, a2]; rfl⟩
    rw [pyPoint_eq, if_neg, a1]
    · rfl
    · rintro (h | h | h)
      · rw [h] at hs; simp at hs
      · omega
      · obtain ⟨r1, r2, r3, r4⟩ := onSegment_range ho
        rcases h with h | h | h | h
        · have : q.1 < min s.1.1 s.2.1 := lt_min (by linarith [(h s hs).1]) (by linarith [(h s hs).2])
          linarith
        · have : max s.1.1 s.2.1 < q.1 := max_lt (by linarith [(h s hs).1]) (by linarith [(h s hs).2])
          linarith
        · have : q.2 < min s.1.2 s.2.2 := lt_min (by linarith [(h s hs).1]) (by linarith [(h s hs).2])
          linarith
        · have : max s.1.2 s.2.2 < q.2 := max_lt (by linarith [(h s hs).1]) (by linarith [(h s hs).2])
          linarith
  · rw [pyPoint_eq]
    split
    · simp
    · intro h; simp only at h ⊢; rw [h]; rfl
  · rw [cPoint_eq]
    intro h; simp only at h ⊢; rw [h]; rfl

/-- **C51**: with tolerance zero the boundary answer is exact for both kernels. -/
theorem C51_boundary_exact {n : Nat} (hn : 3 ≤ n) (segs : List (Seg K)) (q : K × K) :
    ((pyPoint 0 n segs q).2 = true ↔ ∃ s ∈ segs, s.1 ≠ s.2 ∧ OnClosedSegment q s.1 s.2) ∧
      ((cPoint 0 segs q).2 = true ↔ ∃ s ∈ segs, s.1 ≠ s.2 ∧ OnClosedSegment q s.1 s.2) := by
  obtain ⟨h1, -, -⟩ := C51_boundary (le_refl (0 : K)) hn segs q
  refine ⟨⟨fun h => ?_, fun h => by rw [(h1 h).1]⟩, ⟨fun h => ?_, fun h => by rw [(h1 h).2]⟩⟩
  · rw [pyPoint_eq] at h
    split at h
    · simp at h
    · obtain ⟨s, hs, hh⟩ := List.any_eq_true.1 h
      exact ⟨s, hs, (pyHit_zero q s).1 hh⟩
  · rw [cPoint_eq] at h
    obtain ⟨s, hs, hh⟩ := List.any_eq_true.1 h
    exact ⟨s, hs, (cHit_zero q s).1 hh⟩

/-- **C51**: for a triangle with area, the answer of the compiled kernel for points not reported on the boundary is the geometric one; for the
Python kernel too if the point is not level with a nearly horizontal edge. -/
theorem C51_triangle {ftol : K} (hf : 0 ≤ ftol) {n : Nat} (hn : 3 ≤ n) (a b c q : K × K)
    (harea : (b.1 - a.1) * (c.2 - a.2) - (b.2 - a.2) * (c.1 - a.1) ≠ 0) :
    ((cPoint ftol [(a, b), (b, c), (c, a)] q).2 = false →
        ((cPoint ftol [(a, b), (b, c), (c, a)] q).1 = true ↔ InTriangle q a b c)) ∧
      ((∀ s ∈ [(a, b), (b, c), (c, a)], LevelClear ftol 0 q.2 s) → (pyPoint ftol n [(a, b), (b, c), (c, a)] q).2 = false →
        ((pyPoint ftol n [(a, b), (b, c), (c, a)] q).1 = true ↔ InTriangle q a b c)) := by
  have hab : a ≠ b := by rintro rfl; apply harea; ring
  have hbc : b ≠ c := by rintro rfl; apply harea; ring
  have hca : c ≠ a := by rintro rfl; apply harea; ring
  obtain ⟨hB, -, -⟩ := C51_boundary hf hn [(a, b), (b, c), (c, a)] q
  have hoff : (cPoint ftol [(a, b), (b, c), (c, a)] q).2 = false ∨ (pyPoint ftol n [(a, b), (b, c), (c, a)] q).2 = false →
      ¬ OnClosedSegment q a b ∧ ¬ OnClosedSegment q b c ∧ ¬ OnClosedSegment q c a := by
    intro h
    refine ⟨fun ho => ?_, fun ho => ?_, fun ho => ?_⟩
    · have := hB ⟨(a, b), by simp, hab, ho⟩
      rw [this.1, this.2] at h; simp at h
    · have := hB ⟨(b, c), by simp, hbc, ho⟩
      rw [this.1, this.2] at h; simp at h
    · have := hB ⟨(c, a), by simp, hca, ho⟩
      rw [this.1, this.2] at h; simp at h
  constructor
  · intro h
    obtain ⟨n1, n2, n3⟩ := hoff (.inl h)
    rw [← triangle_parity harea n1 n2 n3]
    rw [cPoint_eq] at h ⊢
    simp only at h ⊢
    rw [h, Bool.false_or, beq_iff_eq]
    rw [List.countP_congr (fun s _ => by rw [cCount_eq hf] : ∀ s ∈ [(a, b), (b, c), (c, a)], cCount ftol q s = true ↔ crossesRight q s = true)]
  · intro hflat h
    obtain ⟨n1, n2, n3⟩ := hoff (.inr h)
    rw [← triangle_parity harea n1 n2 n3]
    have he : EvenDegrees [(a, b), (b, c), (c, a)] := by
      intro v
      unfold endCount
      simp only [List.countP_cons, List.countP_nil, decide_eq_true_eq]
      by_cases h1 : a = v <;> by_cases h2 : b = v <;> by_cases h3 : c = v <;> simp [h1, h2, h3, Nat.even_iff]
    rw [pyPoint_parity hf hn he hflat, beq_iff_eq]
    rw [pyPoint_eq] at h
    split at h
    · rename_i hc
      rcases hc with hc | hc | hc
      · simp at hc
      · omega
      · exact .inr hc
    · exact .inl h
end

/-- A square with a square hole, as two rings. -/
def outerRing : List (Seg ℚ) := [((0, 0), (9, 0)), ((9, 0), (9, 9)), ((9, 9), (0, 9)), ((0, 9), (0, 0))]
/-- The ring of the hole. -/
def holeRing : List (Seg ℚ) := [((3, 3), (6, 3)), ((6, 3), (6, 6)), ((6, 6), (3, 6)), ((3, 6), (3, 3))]

-- In the square, in the hole, on the hole's border, beside.
example : (pyPoint (1 / 1000) 8 (outerRing ++ holeRing) (1, 1), pyPoint (1 / 1000) 8 (outerRing ++ holeRing) (4, 4),
    pyPoint (1 / 1000) 8 (outerRing ++ holeRing) (3, 4), pyPoint (1 / 1000) 8 (outerRing ++ holeRing) (10, 4)) =
    ((true, false), (false, false), (true, true), (false, false)) := by decide +kernel
example : (cPoint (1 / 1000) (outerRing ++ holeRing) (1, 1), cPoint (1 / 1000) (outerRing ++ holeRing) (4, 4),
    cPoint (1 / 1000) (outerRing ++ holeRing) (3, 4), cPoint (1 / 1000) (outerRing ++ holeRing) (10, 4)) =
    ((true, false), (false, false), (true, true), (false, false)) := by decide +kernel
-- Rings are even; no edge is nearly horizontal.
example : EvenDegrees [(0, 1), (1, 2), (2, 0)] := by
  intro v
  unfold endCount
  simp only [List.countP_cons, List.countP_nil, decide_eq_true_eq]
  by_cases h1 : 0 = v <;> by_cases h2 : 1 = v <;> by_cases h3 : 2 = v <;> simp [h1, h2, h3, Nat.even_iff] <;> omega
example : ∀ s ∈ holeRing, LevelClear (1 / 1000) 0 4 s := by unfold LevelClear; decide +kernel
example : segsOf [((0 : ℚ), (0 : ℚ)), (4, 0), (0, 4)] [(0, 1), (1, 2), (2, 0)] = some [((0, 0), (4, 0)), ((4, 0), (0, 4)), ((0, 4), (0, 0))] := by
  decide +kernel
-- Another order, two edges reversed.
example : SameEdges holeRing [((6, 3), (6, 6)), ((6, 3), (3, 3)), ((6, 6), (3, 6)), ((3, 3), (3, 6))] :=
  ⟨[((6, 3), (6, 6)), ((3, 3), (6, 3)), ((6, 6), (3, 6)), ((3, 6), (3, 3))], List.Perm.swap _ _ _,
    .cons (.inl rfl) (.cons (.inr rfl) (.cons (.inl rfl) (.cons (.inr rfl) .nil)))⟩
example : cPoint (0 : ℚ) [((0, 0), (4, 0)), ((4, 0), (0, 4)), ((0, 4), (0, 0))] (1, 1) = (true, false) ∧
    InTriangle ((1 : ℚ), (1 : ℚ)) (0, 0) (4, 0) (0, 4) := ⟨by decide +kernel, 1 / 2, 1 / 4, 1 / 4, by norm_num, by norm_num, by norm_num, by norm_num, by norm_num, by norm_num⟩

/-- **C50** fails for two vertices: the edges there and back are even, and the middle of the segment is on the boundary for the compiled
kernel only. -/
theorem C50_two_vertices : pyPoint (0 : ℚ) 2 [((0, 0), (2, 2)), ((2, 2), (0, 0))] (1, 1) = (false, false) ∧
    cPoint (0 : ℚ) [((0, 0), (2, 2)), ((2, 2), (0, 0))] (1, 1) = (true, true) := by decide +kernel

/-- A hexagon with one edge that rises only by `1e-14`, less than the default tolerance `5e-14`. -/
def flatHexagon : List (Seg ℚ) :=
  [((0, 0), (3, 0)), ((3, 0), (3, 1 / 2)), ((3, 1 / 2), (2, 1 / 2 + 1 / 10 ^ 14)), ((2, 1 / 2 + 1 / 10 ^ 14), (2, 1)), ((2, 1), (0, 1)), ((0, 1), (0, 0))]

-- The point `(1/2, 2/5)` is not level with the nearly flat edge.
example : ∀ s ∈ flatHexagon, LevelClear (5 / 10 ^ 14) 0 (2 / 5) s := by unfold LevelClear; decide +kernel

/-- **C51** fails for the Python kernel with the default tolerance: the inner point `(1/2, 1/2 + 0.5e-14)` is not near the boundary, but
called outside, since the edge right of it is skipped. The compiled kernel says inside; a point slightly higher is inside for both. -/
theorem C51_flat_edge_skipped :
    pyPoint (5 / 10 ^ 14) 6 flatHexagon (1 / 2, 1 / 2 + 1 / (2 * 10 ^ 14)) = (false, false) ∧
      cPoint (5 / 10 ^ 14) flatHexagon (1 / 2, 1 / 2 + 1 / (2 * 10 ^ 14)) = (true, false) ∧
      pyPoint (5 / 10 ^ 14) 6 flatHexagon (1 / 2, 1 / 2 + 2 / 10 ^ 14) = (true, false) := by decide +kernel

end OM
