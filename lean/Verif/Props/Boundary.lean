import Verif.Lemmas.Boundary
import Verif.Lemmas.Clean8
import Verif.Lemmas.Stable
import Verif.Props.Clean
import Verif.Props.Edges
/-!
# Property C22 (`identify_ocean_boundary_sections`)
-/
set_option linter.unusedSectionVars false
namespace OM
open Spec

section
variable {K : Type} [LinearOrder K]

/-- **C22**, what holds for every mesh: whenever the function returns, both ends of every section are boundary vertices of the mesh,
visited by the boundary walk, whose depth is a number at or below the threshold. -/
theorem C22_section_ends_deep (oE : RowOrder (Nat × Nat)) (t : List Tri) (ht : ∀ f ∈ t, Nondegenerate f)
    (depths : List (Option K)) (depthThr : K) (minNodes : Int) (secs : List (Nat × Nat))
    (h : oceanSections oE t depths depthThr minNodes = some secs) :
    ∀ s ∈ secs, ∀ v, v = s.1 ∨ v = s.2 →
      (∃ u, IsBoundaryEdge t u v ∨ IsBoundaryEdge t v u) ∧ ∃ d, depths[v]? = some (some d) ∧ d ≤ depthThr := by
  unfold oceanSections at h
  split at h
  · cases h
  rename_i edges he
  simp only at h
  split at h
  · cases h
  rename_i ds hds
  intro s hs v hv
  obtain ⟨a, b, hab, ha, hb⟩ := mapSections_mem h s hs
  have hall := scanStops_mem (thr := minNodes) (P := fun k => k ∈ depthStops depthThr 0 ds)
    (stops := depthStops depthThr 0 ds) (st := ⟨true, none, none, []⟩) (fun _ hk => hk) (by simp) (by simp) (by simp) _ hab
  have key : ∀ k, k ∈ depthStops depthThr 0 ds → (firstOccurrences [] (flatPairs edges))[k]? = some v →
      (∃ u, IsBoundaryEdge t u v ∨ IsBoundaryEdge t v u) ∧ ∃ d, depths[v]? = some (some d) ∧ d ≤ depthThr := by
    intro k hk hkv
    constructor
    · have hm := ((mem_firstOccurrences _ _ _).1 (List.mem_of_getElem? hkv)).1
      obtain ⟨e, hee, hev⟩ := mem_flatPairs.1 hm
      have hbne : getBoundaryEdges oE t ≠ [] := by
        intro h0
        unfold getWindedBoundaryEdges at he
        rw [h0] at he
        simp [windStart] at he
      obtain ⟨e0, he0⟩ := List.exists_mem_of_ne_nil _ hbne
      obtain ⟨e', res, w, h1, _, _, h4, _⟩ := C03_winded_is_trail oE t ht none
        ⟨e0.1, e0.2, ((mem_boundary_iff oE t ht e0.1 e0.2).1 he0).2⟩
      rw [he] at h1
      cases h1
      have h5 := (h4 e hee).2
      rcases hev with rfl | rfl
      · exact ⟨e.2, Or.inr h5⟩
      · exact ⟨e.1, Or.inl h5⟩
    · rw [depthStops_eq] at hk
      simp only [List.mem_map, List.mem_filter, List.mem_range, Nat.zero_add, exists_eq_right] at hk
      rw [gather_getElem? hds hkv] at hk
      obtain ⟨_, hk⟩ := hk
      cases hx : depths[v]? with
      | none => rw [hx] at hk; simp at hk
      | some o =>
        rw [hx] at hk
        cases o with
        | none => simp [isDeep] at hk
        | some d => exact ⟨d, rfl, by simpa [isDeep] using hk⟩
  rcases hv with rfl | rfl
  · exact key a (hall.1 a rfl) ha
  · exact key b (hall.2 b rfl) hb

/-- Consecutive positions inside a run are closer than `thr`; every run has at least three of them. -/
def GoodRun (thr : Int) (r : List Nat) : Prop := 3 ≤ r.length ∧ r.IsChain fun (a b : Nat) => (b : Int) - a < thr

/-- **C22**, partial: let `vs` be the vertices in the order in which the boundary walk visits them first. If the positions of deep
vertices fall into runs of at least three, with gaps below `minNodes` inside a run and of at least `minNodes` between
runs, then the function returns exactly one section per run, from its first to its last deep vertex.
What is missing: runs of one or two deep vertices, for which the claim is false (see the counterexamples below). -/
theorem C22_sections_of_runs_partial (oE : RowOrder (Nat × Nat)) (t : List Tri) (ht : ∀ f ∈ t, Nondegenerate f)
    (hb : ∃ u v, IsBoundaryEdge t u v) (depths : List (Option K)) (hd : ValidMesh depths t)
    (depthThr : K) (minNodes : Int) :
    ∃ e es visits, getWindedBoundaryEdges oE t none = some (e :: es) ∧ Visits e.1 (e :: es) visits ∧
      ∀ vs : List Nat, vs = visits.eraseDups → ∀ runs : List (List Nat),
        ((List.range vs.length).filter fun k => (vs[k]?.bind (depths[·]?)).any fun d => d.any (· ≤ depthThr)) = runs.flatten →
        (∀ r ∈ runs, GoodRun minNodes r) →
        (runs.IsChain fun r r' => ∀ a : Nat, r.getLast? = some a → ∀ b : Nat, r'.head? = some b → minNodes ≤ (b : Int) - a) →
        ∃ secs, oceanSections oE t depths depthThr minNodes = some secs ∧
          secs.map (fun s => (some s.1, some s.2)) = runs.map fun r => (r.head?.bind (vs[·]?), r.getLast?.bind (vs[·]?)) := by
  obtain ⟨e, es, w, he, _, hwalk, hbe, _⟩ := C03_winded_is_trail oE t ht none hb
  obtain ⟨visits, hvis⟩ := Visits.exists hwalk
  refine ⟨e, es, visits, he, hvis, ?_⟩
  intro vs hvs runs hruns hgood hapart
  have hnodes : firstOccurrences [] (flatPairs (e :: es)) = vs := by rw [boundaryNodes_eq hvis, hvs]
  have hlt : ∀ v ∈ vs, v < depths.length := by
    intro v hv
    rw [← hnodes] at hv
    obtain ⟨x, hx, hxv⟩ := mem_flatPairs.1 ((mem_firstOccurrences _ _ _).1 hv).1
    obtain ⟨f, hf, h1, h2⟩ := (IsBoundaryEdge.exists (hbe x hx).2).2
    rcases hxv with rfl | rfl
    · exact hd f hf _ h1
    · exact hd f hf _ h2
  obtain ⟨ds, hds⟩ := gather_isSome hlt
  have hstops : depthStops depthThr 0 ds = runs.flatten := by
    rw [depthStops_eq, ← hruns, gather_length hds]
    simp only [Nat.zero_add, List.map_id']
    apply List.filter_congr
    intro k hk
    rw [List.mem_range] at hk
    rw [List.getElem?_eq_getElem hk, gather_getElem? hds (List.getElem?_eq_getElem hk), Option.bind_some]
    congr 1
    funext d
    cases d <;> simp [isDeep]
  have hsec := scan_runs (thr := minNodes) runs none none []
    ⟨fun r hr => ⟨(hgood r hr).1, (hgood r hr).2⟩, hapart⟩
  have hpos : ∀ k ∈ runs.flatten, k < vs.length := by
    intro k hk
    rw [← hruns, List.mem_filter, List.mem_range] at hk
    exact hk.1
  have hne : ∀ r ∈ runs, ∃ a b, r.head? = some a ∧ r.getLast? = some b ∧ a ∈ r ∧ b ∈ r := by
    intro r hr
    have hr3 := (hgood r hr).1
    have hrn : r ≠ [] := by rintro rfl; simp at hr3
    exact ⟨r.head hrn, r.getLast hrn, List.head?_eq_some_head hrn, List.getLast?_eq_some_getLast hrn,
      List.head_mem hrn, List.getLast_mem hrn⟩
  obtain ⟨secs, h1, h2⟩ : ∃ secs, mapSections vs (runs.map fun r => (r.head?, r.getLast?)) = some secs ∧
      secs.map (fun s => (some s.1, some s.2)) = runs.map fun r => (r.head?.bind (vs[·]?), r.getLast?.bind (vs[·]?)) := by
    clear hruns hgood hapart hstops hsec
    induction runs with
    | nil => exact ⟨[], rfl, rfl⟩
    | cons r runs ih =>
      obtain ⟨secs, h1, h2⟩ := ih (fun k hk => hpos k (by rw [List.flatten_cons]; exact List.mem_append_right _ hk))
        fun r hr => hne r (List.mem_cons_of_mem _ hr)
      obtain ⟨a, b, ha, hb, har, hbr⟩ := hne r (List.mem_cons_self ..)
      have hal : a < vs.length := hpos a (by rw [List.flatten_cons]; exact List.mem_append_left _ har)
      have hbl : b < vs.length := hpos b (by rw [List.flatten_cons]; exact List.mem_append_left _ hbr)
      refine ⟨(vs[a], vs[b]) :: secs, ?_, ?_⟩
      · simp only [List.map_cons, ha, hb, mapSections, List.getElem?_eq_getElem hal, List.getElem?_eq_getElem hbl, h1]
      · simp only [List.map_cons, ha, hb, h2, Option.bind_some, List.getElem?_eq_getElem hal, List.getElem?_eq_getElem hbl]
  refine ⟨secs, ?_, h2⟩
  unfold oceanSections
  rw [he]
  simp only [hnodes, hds, hstops, hsec, List.nil_append]
  exact h1

end

/-- A fan of `n` triangles around vertex 0; its boundary visits `0, 1, …, n + 1`. -/
def loopT (n : Nat) : List Tri := (List.range n).map fun i => ⟨0, i + 1, i + 2⟩

/-- Depth -100 at the listed positions, 0 elsewhere. -/
def depthsAt (n : Nat) (deep : List Nat) : List (Option Int) :=
  (List.range n).map fun i => if i ∈ deep then some (-100) else some 0

/-- Deep vertices 2, 3, 4 and 16, 17, 18: two sections, as the partial theorem says. -/
example : oceanSections lexOrder (loopT 20) (depthsAt 22 [2, 3, 4, 16, 17, 18]) (-50) 10 = some [(2, 4), (16, 18)] := by
  decide +kernel

example : (∀ f ∈ loopT 20, Nondegenerate f) ∧ IsBoundaryEdge (loopT 20) 0 1 ∧
    ValidMesh (depthsAt 22 [2, 3, 4, 16, 17, 18]) (loopT 20) ∧
    (∃ es visits, getWindedBoundaryEdges lexOrder (loopT 20) none = some ((0, 1) :: es) ∧ Visits 0 ((0, 1) :: es) visits ∧
      visits.eraseDups = List.range 22) ∧
    ((List.range 22).filter fun k => ((List.range 22)[k]?.bind ((depthsAt 22 [2, 3, 4, 16, 17, 18])[·]?)).any
      fun d => d.any (· ≤ -50)) = [[2, 3, 4], [16, 17, 18]].flatten ∧
    (∀ r ∈ [[2, 3, 4], [16, 17, 18]], GoodRun 10 r) := by
  refine ⟨by decide +kernel, by decide +kernel, validMesh_of_bound (by decide +kernel), ?_, by decide +kernel, ?_⟩
  · obtain ⟨e, es, w, he, _, hw, _⟩ := C03_winded_is_trail lexOrder (loopT 20) (by decide +kernel) none
      ⟨0, 1, by decide +kernel⟩
    obtain ⟨vs, hvs⟩ := Visits.exists hw
    have h0 : (getWindedBoundaryEdges lexOrder (loopT 20) none).map List.head? = some (some (0, 1)) := by decide +kernel
    have h1 : (getWindedBoundaryEdges lexOrder (loopT 20) none).map (fun l => firstOccurrences [] (flatPairs l)) =
        some (List.range 22) := by decide +kernel
    rw [he] at h0 h1
    simp only [Option.map_some, List.head?_cons, Option.some.injEq] at h0 h1
    subst h0
    exact ⟨es, vs, he, hvs, by rw [← h1, boundaryNodes_eq hvs]⟩
  · intro r hr
    simp only [List.mem_cons, List.not_mem_nil, or_false] at hr
    rcases hr with rfl | rfl <;> exact ⟨by decide, by simp [List.isChain_cons_cons]⟩

/-- **C22**, counterexample: deep vertices 2, 3 and 16. The first run has two members, its end was never set, and mapping back
`None` raises. -/
theorem C22_short_run_raises : oceanSections lexOrder (loopT 20) (depthsAt 22 [2, 3, 16]) (-50) 10 = none := by decide +kernel

/-- **C22**, counterexample: two deep vertices far apart; the start was never set. -/
theorem C22_far_pair_raises : oceanSections lexOrder (loopT 20) (depthsAt 22 [2, 16]) (-50) 10 = none := by decide +kernel

/-- **C22**, counterexample: two deep neighbours form no section at all. -/
theorem C22_close_pair_lost : oceanSections lexOrder (loopT 20) (depthsAt 22 [2, 3]) (-50) 10 = some [] := by decide +kernel

/-- **C22**, counterexample: the end of an earlier section is used again, so the section `(16, 4)` ends before it starts. -/
theorem C22_end_before_start :
    oceanSections lexOrder (loopT 30) (depthsAt 32 [2, 3, 4, 16, 17, 29]) (-50) 10 = some [(2, 4), (16, 4)] := by decide +kernel

end OM
