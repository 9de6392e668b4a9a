import Verif.Props.Boundary
/-!
# C22: exactly which sections are returned

For every mesh and every pattern of deep nodes, also with runs of one or two nodes.
-/
set_option linter.unusedSectionVars false
namespace OM.Spec

/-- The stops are cut into non-empty runs: gaps inside a run are below `thr`, gaps between runs are not. -/
def CutIntoRuns (thr : Int) (stops : List Nat) (runs : List (List Nat)) : Prop :=
  stops = runs.flatten ∧ (∀ r ∈ runs, r ≠ [] ∧ r.IsChain fun (a b : Nat) => (b : Int) - a < thr) ∧
    runs.IsChain fun r r' => ∀ a : Nat, r.getLast? = some a → ∀ b : Nat, r'.head? = some b → thr ≤ (b : Int) - a

/-- The sections of runs. `s` and `e`: last nodes of the last run before with at least two, and with at least three nodes. A run of three or more gives
itself, a run of two followed by others goes to `e`, two single nodes at the end give a section from `s`. -/
def sectionsOf (s e : Option Nat) : List (List Nat) → List (Option Nat × Option Nat)
  | [] => []
  | [] :: runs => sectionsOf s e runs
  | [[_], [y]] => [(s, some y)]
  | [_] :: runs => sectionsOf s e runs
  | [[_, _]] => []
  | [a, b] :: runs => (some a, e) :: sectionsOf (some b) e runs
  | (a :: b :: c :: r) :: runs => (some a, (c :: r).getLast?) :: sectionsOf ((c :: r).getLast?) ((c :: r).getLast?) runs

/-- A run of two nodes that is not the last run comes before all runs of three or more. -/
def EarlyPair (runs : List (List Nat)) : Prop :=
  ∃ (pre : List (List Nat)) (a b : Nat) (post : List (List Nat)), runs = pre ++ [a, b] :: post ∧ post ≠ [] ∧ ∀ r ∈ pre, r.length < 3

/-- At least two runs, all of them single nodes. -/
def OnlySingles (runs : List (List Nat)) : Prop := 2 ≤ runs.length ∧ ∀ r ∈ runs, r.length = 1

end OM.Spec
namespace OM
open Spec

theorem cut_exists (thr : Int) : ∀ stops : List Nat, ∃ runs, CutIntoRuns thr stops runs
  | [] => ⟨[], rfl, by simp, by simp⟩
  | x :: l => by
    obtain ⟨runs, h1, h2, h3⟩ := cut_exists thr l
    cases runs with
    | nil => exact ⟨[[x]], by simp [h1], by simp, by simp⟩
    | cons r runs =>
      obtain ⟨hr, hc⟩ := h2 r (by simp)
      cases r with
      | nil => exact absurd rfl hr
      | cons y r =>
        by_cases hxy : (y : Int) - x < thr
        · refine ⟨(x :: y :: r) :: runs, by simp [h1], ?_, ?_⟩
          · intro q hq
            rcases List.mem_cons.1 hq with rfl | hq
            · exact ⟨by simp, List.isChain_cons_cons.2 ⟨hxy, hc⟩⟩
            · exact h2 q (List.mem_cons_of_mem _ hq)
          · cases runs with
            | nil => simp
            | cons r' runs =>
              rw [List.isChain_cons_cons] at h3 ⊢
              exact ⟨fun a ha b hb => h3.1 a (by rwa [List.getLast?_cons_cons] at ha) b hb, h3.2⟩
        · refine ⟨[x] :: (y :: r) :: runs, by simp [h1], ?_, ?_⟩
          · intro q hq
            rcases List.mem_cons.1 hq with rfl | hq
            · exact ⟨by simp, by simp⟩
            · exact h2 q hq
          · refine List.isChain_cons_cons.2 ⟨fun a ha b hb => ?_, h3⟩
            simp only [List.getLast?_singleton, Option.some.injEq, List.head?_cons] at ha hb
            omega

theorem cut_tail {thr : Int} {r : List Nat} {runs : List (List Nat)} (h : CutIntoRuns thr (r :: runs).flatten (r :: runs)) :
    CutIntoRuns thr runs.flatten runs := by
  refine ⟨rfl, fun q hq => h.2.1 q (List.mem_cons_of_mem _ hq), ?_⟩
  have := h.2.2
  cases runs with
  | nil => simp
  | cons => exact (List.isChain_cons_cons.1 this).2

theorem scan_all {thr : Int} : ∀ (runs : List (List Nat)) (s e : Option Nat) (acc : List (Option Nat × Option Nat)),
    CutIntoRuns thr runs.flatten runs → (scanStops thr ⟨true, s, e, acc⟩ runs.flatten).sections = acc ++ sectionsOf s e runs
  | [], s, e, acc, _ => by simp [scanStops, sectionsOf]
  | [] :: runs, s, e, acc, h => absurd rfl (h.2.1 [] (by simp)).1
  | [[x]], s, e, acc, _ => by simp [scanStops, sectionsOf]
  | [x] :: [] :: runs, s, e, acc, h => absurd rfl (h.2.1 [] (by simp)).1
  | [[x], [y]], s, e, acc, h => by
    have hgap : ¬ ((y : Int) - x < thr) := by
      have := (List.isChain_cons_cons.1 h.2.2).1 x rfl y rfl
      omega
    simp [scanStops, scanStep, hgap, sectionsOf]
  | [x] :: (y :: z :: r) :: runs, s, e, acc, h => by
    have hgap : ¬ ((y : Int) - x < thr) := by
      have := (List.isChain_cons_cons.1 h.2.2).1 x rfl y rfl
      omega
    have ih := scan_all ((y :: z :: r) :: runs) s e acc (cut_tail h)
    simp only [List.flatten_cons, List.cons_append, List.nil_append] at ih ⊢
    rw [scanStops, scanStep, if_neg hgap]
    simp only [List.isEmpty_cons, Bool.false_eq_true, if_false, Bool.true_eq_false]
    rw [ih, sectionsOf]
    simp
  | [x] :: [y] :: (z :: r) :: runs, s, e, acc, h => by
    have hgap : ¬ ((y : Int) - x < thr) := by
      have := (List.isChain_cons_cons.1 h.2.2).1 x rfl y rfl
      omega
    have ih := scan_all ([y] :: (z :: r) :: runs) s e acc (cut_tail h)
    simp only [List.flatten_cons, List.cons_append, List.nil_append] at ih ⊢
    rw [scanStops, scanStep, if_neg hgap]
    simp only [List.isEmpty_cons, Bool.false_eq_true, if_false, Bool.true_eq_false]
    rw [ih, sectionsOf.eq_4 s e x _ (by simp)]
  | [x] :: [y] :: [] :: runs, s, e, acc, h => absurd rfl (h.2.1 [] (by simp)).1
  | [[a, b]], s, e, acc, h => by
    have hab : (b : Int) - a < thr := (List.isChain_cons_cons.1 (h.2.1 [a, b] (by simp)).2).1
    simp [scanStops, scanStep, hab, sectionsOf]
  | [a, b] :: [] :: runs, s, e, acc, h => absurd rfl (h.2.1 [] (by simp)).1
  | [a, b] :: (y :: r) :: runs, s, e, acc, h => by
    have hab : (b : Int) - a < thr := (List.isChain_cons_cons.1 (h.2.1 [a, b] (by simp)).2).1
    have hgap : ¬ ((y : Int) - b < thr) := by
      have := (List.isChain_cons_cons.1 h.2.2).1 b rfl y rfl
      omega
    have ih := scan_all ((y :: r) :: runs) (some b) e (acc ++ [(some a, e)]) (cut_tail h)
    simp only [List.flatten_cons, List.cons_append, List.nil_append] at ih ⊢
    rw [scanStops, scanStep, if_pos hab, scanStops, scanStep, if_neg hgap]
    simp only [if_true]
    rw [ih, sectionsOf.eq_6 s e a b _ (by simp)]
    simp
  | (a :: b :: c :: r) :: runs, s, e, acc, h => by
    obtain ⟨y, hy⟩ : ∃ y, (c :: r).getLast? = some y := by
      rw [List.getLast?_eq_some_getLast (by simp)]; exact ⟨_, rfl⟩
    have hy' : (a :: b :: c :: r).getLast? = some y := by
      rw [List.getLast?_cons_cons, List.getLast?_cons_cons]; exact hy
    have hc := List.isChain_cons_cons.1 (h.2.1 (a :: b :: c :: r) (by simp)).2
    have hab : (b : Int) - a < thr := hc.1
    rw [List.flatten_cons, List.cons_append, List.cons_append, scanStops, scanStep, if_pos hab]
    simp only [if_true]
    rw [scan_inside (c :: r) b a e acc runs.flatten y (by simp) hc.2 hy]
    match runs, h with
    | [], _ => simp [hy, sectionsOf]
    | [] :: runs, h => exact absurd rfl (h.2.1 [] (by simp)).1
    | (a' :: r'') :: runs, h =>
      rw [if_neg (by simp)]
      have hgap : ¬ ((a' : Int) - y < thr) := by
        have h3 := (List.isChain_cons_cons.1 h.2.2).1 y hy' a' rfl
        omega
      have ih := scan_all ((a' :: r'') :: runs) (some y) (some y) (acc ++ [(some a, some y)]) (cut_tail h)
      rw [List.flatten_cons, List.cons_append] at ih ⊢
      rw [scanStops, scanStep, if_neg hgap]
      simp only [if_true]
      rw [ih, sectionsOf, hy]
      simp

theorem sectionsOf_mem {P : Nat → Prop} : ∀ (runs : List (List Nat)) (s e : Option Nat), (∀ r ∈ runs, ∀ x ∈ r, P x) → (∀ x, s = some x → P x) →
    (∀ x, e = some x → P x) → ∀ p ∈ sectionsOf s e runs, (∀ x, p.1 = some x → P x) ∧ ∀ x, p.2 = some x → P x := by
  intro runs s e
  fun_induction sectionsOf s e runs with
  | case1 => simp
  | case2 s e runs ih => exact fun h hs he => ih (fun r hr => h r (List.mem_cons_of_mem _ hr)) hs he
  | case3 s e x y =>
    intro h hs he p hp
    obtain rfl : p = (s, some y) := by simpa using hp
    exact ⟨hs, fun z hz => by cases hz; exact h [y] (by simp) y (by simp)⟩
  | case4 s e x runs _ ih => exact fun h hs he => ih (fun r hr => h r (List.mem_cons_of_mem _ hr)) hs he
  | case5 => simp
  | case6 s e a b runs _ ih =>
    intro h hs he p hp
    rcases List.mem_cons.1 hp with rfl | hp
    · exact ⟨fun z hz => by cases hz; exact h [a, b] (by simp) a (by simp), he⟩
    · exact ih (fun r hr => h r (List.mem_cons_of_mem _ hr)) (fun z hz => by cases hz; exact h [a, b] (by simp) b (by simp)) he p hp
  | case7 s e a b c r runs ih =>
    intro h hs he p hp
    have hl : ∀ z, (c :: r).getLast? = some z → P z := fun z hz =>
      h (a :: b :: c :: r) (by simp) z (List.mem_cons_of_mem _ (List.mem_cons_of_mem _ (List.mem_of_getLast? hz)))
    rcases List.mem_cons.1 hp with rfl | hp
    · exact ⟨fun z hz => by cases hz; exact h (a :: b :: c :: r) (by simp) a (by simp), hl⟩
    · exact ih (fun r hr => h r (List.mem_cons_of_mem _ hr)) hl hl p hp

theorem earlyPair_cons {r : List Nat} {runs : List (List Nat)} : EarlyPair (r :: runs) ↔ (r.length = 2 ∧ runs ≠ []) ∨ (r.length < 3 ∧ EarlyPair runs) := by
  constructor
  · rintro ⟨pre, a, b, post, h, hp, hl⟩
    cases pre with
    | nil =>
      rw [List.nil_append, List.cons.injEq] at h
      obtain ⟨rfl, rfl⟩ := h
      exact .inl ⟨rfl, hp⟩
    | cons q pre =>
      rw [List.cons_append, List.cons.injEq] at h
      obtain ⟨rfl, h⟩ := h
      exact .inr ⟨hl r (by simp), pre, a, b, post, h, hp, fun q hq => hl q (List.mem_cons_of_mem _ hq)⟩
  · rintro (⟨h, hp⟩ | ⟨h, pre, a, b, post, rfl, hp, hl⟩)
    · match r, h with
      | [a, b], _ => exact ⟨[], a, b, runs, rfl, hp, by simp⟩
    · refine ⟨r :: pre, a, b, post, rfl, hp, fun q hq => ?_⟩
      rcases List.mem_cons.1 hq with rfl | hq
      · exact h
      · exact hl q hq

theorem not_earlyPair_nil : ¬ EarlyPair [] := by
  rintro ⟨pre, a, b, post, h, _⟩
  simp at h

theorem sectionsOf_missing : ∀ (runs : List (List Nat)) (s e : Option Nat), (∀ r ∈ runs, r ≠ []) →
    ((∃ p ∈ sectionsOf s e runs, p.1 = none ∨ p.2 = none) ↔ (e = none ∧ EarlyPair runs) ∨ (s = none ∧ OnlySingles runs)) := by
  intro runs s e
  fun_induction sectionsOf s e runs with
  | case1 => simp [not_earlyPair_nil, OnlySingles]
  | case2 => exact fun h => absurd rfl (h [] (by simp))
  | case3 s e x y =>
    intro _
    have : ¬ EarlyPair [[x], [y]] := by simp [earlyPair_cons, not_earlyPair_nil]
    simp [this, OnlySingles]
  | case4 s e x runs hne ih =>
    intro h
    rw [ih fun r hr => h r (List.mem_cons_of_mem _ hr), earlyPair_cons]
    have : OnlySingles ([x] :: runs) ↔ OnlySingles runs := by
      unfold OnlySingles
      constructor
      · rintro ⟨h1, h2⟩
        refine ⟨?_, fun r hr => h2 r (List.mem_cons_of_mem _ hr)⟩
        by_contra h3
        match runs, h1, h3 with
        | [[y]], _, _ => exact hne y rfl
        | [[]], _, _ => have := h2 [] (by simp); simp at this
        | [u :: v :: q], _, _ => have := h2 (u :: v :: q) (by simp); simp at this
        | _ :: _ :: _, _, h3 => simp at h3
      · rintro ⟨h1, h2⟩
        refine ⟨by simp only [List.length_cons]; omega, fun r hr => ?_⟩
        rcases List.mem_cons.1 hr with rfl | hr
        · rfl
        · exact h2 r hr
    rw [this]
    simp
  | case5 s e a b =>
    intro _
    have : ¬ EarlyPair [[a, b]] := by simp [earlyPair_cons, not_earlyPair_nil]
    simp [this, OnlySingles]
  | case6 s e a b runs hne ih =>
    intro h
    have ih := ih fun r hr => h r (List.mem_cons_of_mem _ hr)
    have hne' : runs ≠ [] := fun h0 => hne h0
    simp only [List.mem_cons, exists_eq_or_imp, ih, earlyPair_cons, List.length_cons, List.length_nil, hne', ne_eq, not_false_eq_true, and_true]
    simp only [OnlySingles, List.mem_cons, forall_eq_or_imp, List.length_cons, List.length_nil]
    by_cases he : e = none <;> simp [he]
  | case7 s e a b c r runs ih =>
    intro h
    have ih := ih fun r hr => h r (List.mem_cons_of_mem _ hr)
    have hl : (c :: r).getLast? ≠ none := by simp
    simp only [List.mem_cons, exists_eq_or_imp, ih, earlyPair_cons]
    simp [hl, OnlySingles]

theorem mapSections_iff {nodes : List Nat} : ∀ {l : List (Option Nat × Option Nat)} {r : List (Nat × Nat)},
    mapSections nodes l = some r ↔ r.map (fun x => (some x.1, some x.2)) = l.map fun x => (x.1.bind (nodes[·]?), x.2.bind (nodes[·]?))
  | [], r => by
    rw [mapSections]
    simp only [Option.some.injEq, List.map_nil, List.map_eq_nil_iff]
    exact eq_comm
  | (none, b) :: l, r => by
    rw [mapSections]
    · cases r <;> simp
    · intro a b hh; cases hh
  | (some a, none) :: l, r => by
    rw [mapSections]
    · cases r <;> simp
    · intro a b hh; cases hh
  | (some a, some b) :: l, r => by
    rw [mapSections]
    cases ha : nodes[a]? with
    | none => cases r <;> simp [ha]
    | some x =>
      cases hb : nodes[b]? with
      | none => cases r <;> simp [hb]
      | some y =>
        cases hm : mapSections nodes l with
        | none =>
          have ih : ∀ r, ¬ _ := fun r h => by
            have := (mapSections_iff (nodes := nodes) (l := l) (r := r)).2 h
            rw [hm] at this; cases this
          cases r with
          | nil => simp
          | cons p r =>
            simp only [reduceCtorEq, List.map_cons, List.cons.injEq, false_iff, not_and]
            exact fun _ => ih r
        | some r' =>
          have ih := (mapSections_iff (nodes := nodes) (l := l) (r := r')).1 hm
          cases r with
          | nil => simp
          | cons p r =>
            simp only [Option.some.injEq, List.cons.injEq, List.map_cons, ha, hb, Option.bind_some, Prod.mk.injEq]
            constructor
            · rintro ⟨rfl, rfl⟩
              exact ⟨⟨rfl, rfl⟩, ih⟩
            · rintro ⟨⟨h1, h2⟩, h3⟩
              refine ⟨by ext <;> simp [h1, h2], ?_⟩
              have := (mapSections_iff (nodes := nodes) (l := l) (r := r)).2 h3
              rw [hm] at this
              exact Option.some.inj this

section
variable {K : Type} [LinearOrder K]

/-- **C22**, exactly: let `vs` be the vertices in the order in which the boundary walk visits them first, and let the positions of deep vertices be cut into
runs (always possible, `cut_exists`). A list of sections is returned exactly if it is that of `sectionsOf`; an error is raised exactly if a pair of deep
vertices followed by others comes before all runs of three or more, or if there are two or more deep vertices, all far from each other. -/
theorem C22_exact (oE : RowOrder (Nat × Nat)) (t : List Tri) (ht : ∀ f ∈ t, Nondegenerate f)
    (hb : ∃ u v, IsBoundaryEdge t u v) (depths : List (Option K)) (hd : ValidMesh depths t)
    (depthThr : K) (minNodes : Int) :
    ∃ e es visits, getWindedBoundaryEdges oE t none = some (e :: es) ∧ Visits e.1 (e :: es) visits ∧
      ∀ vs : List Nat, vs = visits.eraseDups → ∀ runs : List (List Nat),
        CutIntoRuns minNodes ((List.range vs.length).filter fun k => (vs[k]?.bind (depths[·]?)).any fun d => d.any (· ≤ depthThr)) runs →
        (∀ secs : List (Nat × Nat), oceanSections oE t depths depthThr minNodes = some secs ↔
          secs.map (fun s => (some s.1, some s.2)) = (sectionsOf none none runs).map fun s => (s.1.bind (vs[·]?), s.2.bind (vs[·]?))) ∧
        (oceanSections oE t depths depthThr minNodes = none ↔ EarlyPair runs ∨ OnlySingles runs) := by
  obtain ⟨e, es, w, he, _, hwalk, hbe, _⟩ := C03_winded_is_trail oE t ht none hb
  obtain ⟨visits, hvis⟩ := Visits.exists hwalk
  refine ⟨e, es, visits, he, hvis, ?_⟩
  intro vs hvs runs hruns
  have hnodes : firstOccurrences [] (flatPairs (e :: es)) = vs := by rw [boundaryNodes_eq hvis, hvs]
  have hlt : ∀ v ∈ vs, v < depths.length := by
    intro v hv
    rw [← hnodes] at hv
    obtain ⟨x, hx, hxv⟩ := mem_flatPairs.1 ((mem_firstOccurrences _ _ _).1 hv).1
    obtain ⟨f, hf, h1, h2⟩ := (IsBoundaryEdge.exists (hbe x hx).2).2
    rcases hxv with rfl | rfl
    · exact hd f hf _ h1
    · exact hd f hf _ h2
  obtain ⟨ds, hds⟩ := gather_isSome hlt
  have hstops : depthStops depthThr 0 ds = runs.flatten := by
    rw [depthStops_eq, ← hruns.1, gather_length hds]
    simp only [Nat.zero_add, List.map_id']
    apply List.filter_congr
    intro k hk
    rw [List.mem_range] at hk
    rw [List.getElem?_eq_getElem hk, gather_getElem? hds (List.getElem?_eq_getElem hk), Option.bind_some]
    congr 1
    funext d
    cases d <;> simp [isDeep]
  have hpos : ∀ k ∈ runs.flatten, k < vs.length := by
    intro k hk
    rw [← hruns.1, List.mem_filter, List.mem_range] at hk
    exact hk.1
  have hsec := scan_all runs none none [] ⟨rfl, hruns.2⟩
  have hval : oceanSections oE t depths depthThr minNodes = mapSections vs (sectionsOf none none runs) := by
    unfold oceanSections
    rw [he]
    simp only [hnodes, hds, hstops, hsec, List.nil_append]
  refine ⟨fun secs => by rw [hval, mapSections_iff], ?_⟩
  have hmiss := sectionsOf_missing runs none none fun r hr => (hruns.2.1 r hr).1
  simp only [true_and] at hmiss
  rw [hval, ← hmiss]
  have hin := sectionsOf_mem (P := fun x => x < vs.length) runs none none
    (fun r hr x hx => hpos x (List.mem_flatten.2 ⟨r, hr, hx⟩)) (by simp) (by simp)
  constructor
  · intro hnone
    by_contra hall
    have hall' : ∀ p ∈ sectionsOf none none runs, ∃ a b : Nat, p = (some a, some b) := by
      intro p hp
      rcases p with ⟨_ | a, _ | b⟩
      · exact absurd ⟨_, hp, .inl rfl⟩ hall
      · exact absurd ⟨_, hp, .inl rfl⟩ hall
      · exact absurd ⟨_, hp, .inr rfl⟩ hall
      · exact ⟨a, b, rfl⟩
    have key : ∀ l : List (Option Nat × Option Nat), (∀ p ∈ l, ∃ a b : Nat, p = (some a, some b) ∧ a < vs.length ∧ b < vs.length) →
        mapSections vs l ≠ none := by
      intro l
      induction l with
      | nil => simp [mapSections]
      | cons p l ih =>
        intro hl
        obtain ⟨a, b, rfl, h1, h2⟩ := hl p (by simp)
        have ih := ih fun p hp => hl p (List.mem_cons_of_mem _ hp)
        rw [mapSections, List.getElem?_eq_getElem h1, List.getElem?_eq_getElem h2]
        cases hm : mapSections vs l with
        | none => exact absurd hm ih
        | some r => simp
    refine key _ (fun p hp => ?_) hnone
    obtain ⟨a, b, rfl⟩ := hall' p hp
    exact ⟨a, b, rfl, (hin _ hp).1 a rfl, (hin _ hp).2 b rfl⟩
  · rintro ⟨p, hp, h⟩
    by_contra hs
    obtain ⟨secs, hs⟩ := Option.ne_none_iff_exists'.1 hs
    have := mapSections_iff.1 hs
    have hm : (p.1.bind (vs[·]?), p.2.bind (vs[·]?)) ∈ secs.map fun x => (some x.1, some x.2) := by
      rw [this]
      exact List.mem_map.2 ⟨p, hp, rfl⟩
    obtain ⟨x, _, hx⟩ := List.mem_map.1 hm
    rcases h with h | h <;> simp [h] at hx

end

-- Runs of all kinds: three nodes, two, one, three, two.
example : sectionsOf none none [[2, 3, 4], [16, 17], [29], [40, 41, 43], [60, 61]] = [(some 2, some 4), (some 16, some 4), (some 40, some 43)] := by
  decide +kernel
example : CutIntoRuns 10 [2, 3, 4, 16, 17, 29, 40, 41, 43, 60, 61] [[2, 3, 4], [16, 17], [29], [40, 41, 43], [60, 61]] :=
  ⟨rfl, by simp, by simp⟩
example : ¬ EarlyPair [[2, 3, 4], [16, 17], [29], [40, 41, 43], [60, 61]] ∧ EarlyPair [[1], [16, 17], [29]] := by
  simp [earlyPair_cons, not_earlyPair_nil]
example : oceanSections lexOrder (loopT 70) (depthsAt 72 [2, 3, 4, 16, 17, 29, 40, 41, 43, 60, 61]) (-50) 10 = some [(2, 4), (16, 4), (40, 43)] := by
  decide +kernel
example : (∀ f ∈ loopT 70, Nondegenerate f) ∧ IsBoundaryEdge (loopT 70) 0 1 ∧ ValidMesh (depthsAt 72 [2, 3, 4, 16, 17, 29, 40, 41, 43, 60, 61]) (loopT 70) :=
  ⟨by decide +kernel, by decide +kernel, validMesh_of_bound (by decide +kernel)⟩

end OM
