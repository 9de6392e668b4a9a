import Verif.Props.Shoreline
import Verif.Props.Initial
/-!
# C90: the bounding polygon of a `Shoreline`; C71: when there are initial points
-/
set_option linter.unusedSectionVars false
namespace OM
open Spec

section
variable {K : Type} [Field K] [LinearOrder K] [IsStrictOrderedRing K] {G : Type}

/-- The domain that is left after the classification is the first one without the mainland. -/
theorem classify_domain {P : Type} (E : ShapeEngine P G K) (areaMin : K) : ∀ (ps : List P) (st : ShoreState P G), ∃ ms,
    (ps.foldl (classifyStep E areaMin false) st).mainland = st.mainland ++ ms ∧ (ps.foldl (classifyStep E areaMin false) st).dom = (ms.map E.polygon).foldl E.difference st.dom
  | [], st => ⟨[], by simp, rfl⟩
  | p :: ps, st => by
    obtain ⟨ms, h1, h2⟩ := classify_domain E areaMin ps (classifyStep E areaMin false st p)
    rw [List.foldl_cons, h1, h2]
    unfold classifyStep
    split
    · split
      · exact ⟨ms, rfl, rfl⟩
      · exact ⟨ms, rfl, rfl⟩
    · split
      · rw [if_neg (by simp)]
        exact ⟨p :: ms, by simp, rfl⟩
      · exact ⟨ms, rfl, rfl⟩

theorem ring_exteriors {L : ShapeLib K G} {parts : List G} {rings : List (List (Option (K × K)))} (h : List.Forall₂ (fun g r => ringRows L g = some r) parts rings) :
    ∃ exts, List.Forall₂ (fun g x => L.exterior g = some x) parts exts ∧ rings.flatten = joinNaN (exts.map fun x => x ++ x.take 1) ∧ ∀ x ∈ exts, x ≠ [] := by
  induction h with
  | nil => exact ⟨[], .nil, rfl, by simp⟩
  | cons hx _ ih =>
    obtain ⟨exts, e1, e2, e3⟩ := ih
    unfold ringRows at hx
    split at hx
    · rename_i x l hl
      obtain rfl := Option.some.inj hx
      refine ⟨(x :: l) :: exts, .cons hl e1, ?_, ?_⟩
      · rw [List.flatten_cons, e2]
        simp [joinNaN]
      · intro y hy
        rcases List.mem_cons.1 hy with rfl | hy
        · simp
        · exact e3 y hy
    · simp at hx

/-- **C90** (bounding polygon): the domain is the polygon of the region, or of its box if the region has no corners, run through in one of the two
directions with steps of at most a quarter of `h0` where `contains_points` answers yes, minus the polygons of all features stored as mainland; the array
`boubox` holds the outer rings of its parts, each with its first point once more. -/
theorem C90_outline [FloorRing K] {L : ShapeLib K G} {mask : Box K → Option (K × K) → Bool} {a : ShoreArgs K} (hst : a.stereo = false) {e : Extent K}
    {fs : List (Feature K)} {b' : Box K} {s : Shore K} (h : shoreline L mask a e fs = some (b', s)) :
    ∃ bb cs bd B ms gs D parts exts, regionShape e = some (bb, b') ∧ (bb = [] ∧ cs = createBoubox b' ∨ bb ≠ [] ∧ (cs = bb ∨ cs = bb.reverse)) ∧
      Densified (a.h0 / 4) (cs.map some) (cs.map fun q => mask b' (some q)) bd ∧ L.polygon (bd.filterMap id) = some B ∧
      s.mainland = joinNaN ms ∧ List.Forall₂ (fun m g => L.polygon m.dropLast = some g) ms gs ∧ D = gs.foldl L.diff B ∧ L.parts D = some parts ∧
      List.Forall₂ (fun g x => L.exterior g = some x) parts exts ∧ s.boubox = joinNaN (exts.map fun x => x ++ x.take 1) ∧ ∀ x ∈ exts, x ≠ [] := by
  obtain ⟨hh, -, -, bb, b, hreg, -, -, h⟩ := shoreline_steps h
  obtain ⟨p1, bb', p2, p3, p4, -, hb, -, -, -, h6⟩ := shorelineSteps_parts h
  rw [hst, if_neg (by simp), Option.some.injEq, Prod.mk.injEq] at hb
  obtain ⟨rfl, rfl⟩ := hb
  simp only [classifyAll, Option.bind_eq_bind, Option.bind_eq_some_iff] at h6
  obtain ⟨cs, h1, bd, h2, B, h3, ps, h4, parts, h5, rings, h7, h8⟩ := h6
  obtain rfl := (Option.some.inj h8).symm
  rw [hst] at h5 ⊢
  obtain ⟨ms, d1, d2⟩ := classify_domain (shoreEngine L false) (a.mult * (a.h0 / 2) ^ 2) ps ⟨B, [], []⟩
  change (classifyShoreline _ _ _ _ _).mainland = _ at d1
  change (classifyShoreline _ _ _ _ _).dom = _ at d2
  have hcs : bb = [] ∧ cs = createBoubox b ∨ bb ≠ [] ∧ (cs = bb ∨ cs = bb.reverse) := by
    unfold orientBoubox at h1
    split at h1
    · rename_i h0
      exact .inl ⟨List.length_eq_zero_iff.1 h0, (Option.some.inj h1).symm⟩
    · rename_i h0
      obtain ⟨c, -, rfl⟩ := Option.map_eq_some_iff.1 h1
      refine .inr ⟨fun e => h0 (by simp [e]), ?_⟩
      cases c <;> simp
  have hne : cs ≠ [] := by
    rcases hcs with ⟨-, rfl⟩ | ⟨h0, rfl | rfl⟩
    · simp [createBoubox]
    · exact h0
    · simpa using h0
  have hdens : Densified (a.h0 / 4) (cs.map some) (cs.map fun q => mask b (some q)) bd := by
    obtain ⟨out, o1, o2, -⟩ := C55_densify (d := a.h0 / 2 / 2) (by positivity) (poly := cs.map some) (ins := (cs.map some).map (mask b)) (by simp) (by simpa using hne)
    rw [o1, Option.some.injEq] at h2
    subst h2
    rw [List.map_map] at o2
    rwa [show a.h0 / 2 / 2 = a.h0 / 4 by ring] at o2
  have hps := collect_forall h4
  obtain ⟨exts, e1, e2, e3⟩ := ring_exteriors (collect_forall h7)
  refine ⟨bb, cs, bd, B, ms.map Prod.fst, ms.map Prod.snd, _, parts, exts, hreg, hcs, hdens, h3, ?_, ?_, ?_, h5, e1, e2, e3⟩
  · dsimp only
    rw [d1, ← flatten_close, List.map_map, List.nil_append]
    rfl
  · have hsub : ∀ x ∈ ms, x ∈ ps := fun x hx => (classify_members (shoreEngine L false) (a.mult * (a.h0 / 2) ^ 2) false B ps).2 x (by rw [d1]; simpa using hx)
    rw [List.forall₂_map_left_iff, List.forall₂_map_right_iff, List.forall₂_same]
    intro x hx
    obtain ⟨f, -, hf⟩ := forall2_right hps x (hsub x hx)
    obtain ⟨g, hg, rfl⟩ := Option.map_eq_some_iff.1 hf
    exact hg
  · rw [d2]
    rfl

end

section
variable {K : Type} [Field K] [LinearOrder K]

/-- **C71** (when there are initial points): with sizes and signed distances for all points an exception is raised exactly if the size is below the minimum
edge length, `-inf` or NaN at every lattice point. -/
theorem C71_raises_iff [IsStrictOrderedRing K] [FloorRing K] {h geps : K} (hh : 0 < h) (b : Box K) (g : K × K → Float64 K) (f : K × K → K) (rand : Nat → K) (pfix : List (K × K)) :
    initialPoints h geps b (fun l => some (l.map g)) (fun l => some (l.map f)) rand pfix none = none ↔
      ∀ q, IsLatticePoint b h q → g q ≠ .posInf ∧ ∀ x, g q = .fin x → x < h := by
  constructor
  · intro hn q hq
    by_contra hc
    have hne : smallestSize h ((latticePoints b h).map g) ≠ none := fun e => by
      rw [smallestSize_none] at e
      have := e (g q) (List.mem_map_of_mem ((mem_latticePoints hh q).2 hq))
      apply hc
      cases hg : g q with
      | fin x => rw [hg] at this; simpa [Float64.atLeast] using this
      | nan => simp
      | posInf => rw [hg] at this; simp [Float64.atLeast] at this
      | negInf => simp
    obtain ⟨m, hm⟩ := Option.ne_none_iff_exists'.1 hne
    obtain ⟨p1, h1⟩ := maskRows_isSome (m := (List.range ((latticePoints b h).map g).length).zipWith (fun i r => keepRandom (rand i) m r) ((latticePoints b h).map g))
      (l := latticePoints b h) (by simp)
    obtain ⟨p2, h2⟩ := maskRows_isSome (m := (p1.map f).map fun x => decide (x < geps)) (l := p1) (by simp)
    have : initialPoints h geps b (fun l => some (l.map g)) (fun l => some (l.map f)) rand pfix none = some (pfix ++ p2) := by
      simp only [initialPoints, initialFrom, Option.bind_eq_bind, Option.map_some, Option.bind_some, hm, List.length_map, if_true]
      rw [List.length_map] at h1
      rw [h1, Option.bind_some, h2]
      rfl
    rw [this] at hn
    cases hn
  · exact C71_too_small hh (fun l r e => (Option.some.inj e).symm) _ rand pfix

end

-- Sizes 1/4 everywhere, and infinite at one point.
example : initialPoints (1 / 2 : ℚ) (1 / 1000) ⟨0, 1, 0, 1⟩ (fun l => some (l.map fun _ => .fin (1 / 4))) (fun l => some (l.map fun _ => -1)) (fun _ => 0) [] none = none ∧
    (initialPoints (1 / 2 : ℚ) (1 / 1000) ⟨0, 1, 0, 1⟩ (fun l => some (l.map fun q => if q = (1, 1) then .posInf else .fin (1 / 4))) (fun l => some (l.map fun _ => -1)) (fun _ => 0) []
      none).isSome = true := by decide +kernel

example : ∃ b s, shoreline boxLib (fun _ _ => false) ⟨1, 1, 4, false, false⟩ (.tuple [0, 10, 0, 8]) fileFeatures = some (b, s) ∧
    ∃ ms : List (List (ℚ × ℚ)), s.mainland = joinNaN ms ∧ ms.length = 1 := by
  obtain ⟨⟨b, s⟩, h1, h2⟩ := Option.map_eq_some_iff.1 fileFeatures_shoreline
  simp only [Prod.mk.injEq] at h2
  exact ⟨b, s, h1, _, h2.2.1, rfl⟩

end OM
