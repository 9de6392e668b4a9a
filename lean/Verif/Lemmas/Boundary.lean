import Verif.Model.Boundary
import Verif.Lemmas.Edges
import Verif.Lemmas.FixMesh
import Verif.Spec.Mesh
/-!
# Lemmas on the boundary scan
-/
set_option linter.unusedSectionVars false
namespace OM
open Spec

theorem mem_firstOccurrences : ∀ (l seen : List Nat) (x : Nat), x ∈ firstOccurrences seen l ↔ x ∈ l ∧ x ∉ seen
  | [], seen, x => by simp [firstOccurrences]
  | y :: l, seen, x => by
    rw [firstOccurrences]
    by_cases h : y ∈ seen
    · rw [if_pos h, mem_firstOccurrences l seen x]
      constructor
      · rintro ⟨h1, h2⟩; exact ⟨List.mem_cons_of_mem _ h1, h2⟩
      · rintro ⟨h1, h2⟩
        rcases List.mem_cons.1 h1 with rfl | h1
        · exact absurd h h2
        · exact ⟨h1, h2⟩
    · rw [if_neg h, List.mem_cons, mem_firstOccurrences l (y :: seen) x]
      simp only [List.mem_cons]
      constructor
      · rintro (rfl | ⟨h1, h2⟩)
        · exact ⟨Or.inl rfl, h⟩
        · exact ⟨Or.inr h1, fun h3 => h2 (Or.inr h3)⟩
      · rintro ⟨h1, h2⟩
        by_cases hxy : x = y
        · exact Or.inl hxy
        · right
          rcases h1 with h1 | h1
          · exact absurd h1 hxy
          · exact ⟨h1, fun h3 => h3.elim hxy h2⟩

theorem firstOccurrences_nodup : ∀ (l seen : List Nat), (firstOccurrences seen l).Nodup
  | [], seen => by simp [firstOccurrences]
  | y :: l, seen => by
    rw [firstOccurrences]
    by_cases h : y ∈ seen
    · rw [if_pos h]; exact firstOccurrences_nodup l seen
    · rw [if_neg h, List.nodup_cons]
      refine ⟨fun hy => ?_, firstOccurrences_nodup l _⟩
      exact ((mem_firstOccurrences _ _ _).1 hy).2 (List.mem_cons_self ..)

theorem firstOccurrences_eq : ∀ (l seen : List Nat), firstOccurrences seen l = (l.filter fun x => decide (x ∉ seen)).eraseDups
  | [], seen => by simp [firstOccurrences]
  | y :: l, seen => by
    rw [firstOccurrences]
    by_cases h : y ∈ seen
    · rw [if_pos h, firstOccurrences_eq l seen, List.filter_cons_of_neg (by simpa using h)]
    · rw [if_neg h, firstOccurrences_eq l (y :: seen), List.filter_cons_of_pos (by simpa using h), List.eraseDups_cons,
        List.filter_filter]
      congr 3
      funext x
      by_cases hxy : x = y <;> simp [List.mem_cons, not_or, hxy]

theorem Visits.exists : ∀ {u w : Nat} {es : List (Nat × Nat)}, IsWalk u es w → ∃ vs, Visits u es vs
  | _, _, _, .nil v => ⟨[v], .nil v⟩
  | _, _, _, .cons h hw => by
    obtain ⟨vs, hvs⟩ := Visits.exists hw
    exact ⟨_, .cons h hvs⟩

theorem firstOccurrences_walk {u : Nat} {es : List (Nat × Nat)} {vs : List Nat} (h : Visits u es vs) :
    ∀ seen, u ∈ seen → firstOccurrences seen (flatPairs es) = firstOccurrences seen vs := by
  induction h with
  | nil v => intro seen hv; simp [flatPairs, firstOccurrences, hv]
  | @cons u v e es vs h hv ih =>
    intro seen hu
    rcases h with rfl | rfl
    · rw [flatPairs, firstOccurrences, if_pos hu, firstOccurrences]
      rw [firstOccurrences, if_pos hu]
      by_cases hs : v ∈ seen
      · rw [if_pos hs]; exact ih seen hs
      · rw [if_neg hs, ih (v :: seen) (List.mem_cons_self ..)]
        cases hv <;> simp [firstOccurrences, hs]
    · rw [flatPairs, firstOccurrences]
      rw [firstOccurrences.eq_2 seen u vs, if_pos hu]
      by_cases hs : v ∈ seen
      · rw [if_pos hs, firstOccurrences, if_pos hu]; exact ih seen hs
      · rw [if_neg hs, firstOccurrences, if_pos (List.mem_cons_of_mem _ hu), ih (v :: seen) (List.mem_cons_self ..)]
        cases hv <;> simp [firstOccurrences, hs]

/-- The boundary nodes are the vertices of the walk in the order of the first visit. -/
theorem boundaryNodes_eq {e : Nat × Nat} {es : List (Nat × Nat)} {vs : List Nat} (h : Visits e.1 (e :: es) vs) :
    firstOccurrences [] (flatPairs (e :: es)) = vs.eraseDups := by
  have e1 : vs.eraseDups = firstOccurrences [] vs := by
    rw [firstOccurrences_eq]; simp
  rw [e1]
  have h1 := firstOccurrences_walk h [e.1] (List.mem_singleton.2 rfl)
  rw [flatPairs, firstOccurrences, if_pos (List.mem_singleton.2 rfl)] at h1
  rw [flatPairs, firstOccurrences, if_neg (by simp), h1]
  cases h with
  | cons _ _ => 
    rw [firstOccurrences, if_pos (List.mem_singleton.2 rfl), firstOccurrences, if_neg (by simp)]

/-! ## positions that can be reported -/

theorem scanStep_mem {thr : Int} {P : Nat → Prop} {st : ScanState} {s1 s2 : Nat} {last : Bool} (h1 : P s1) (h2 : P s2)
    (hs : ∀ a, st.start = some a → P a) (he : ∀ a, st.stop = some a → P a)
    (hsec : ∀ x ∈ st.sections, (∀ a, x.1 = some a → P a) ∧ ∀ a, x.2 = some a → P a) :
    (∀ a, (scanStep thr st s1 s2 last).start = some a → P a) ∧ (∀ a, (scanStep thr st s1 s2 last).stop = some a → P a) ∧
      ∀ x ∈ (scanStep thr st s1 s2 last).sections, (∀ a, x.1 = some a → P a) ∧ ∀ a, x.2 = some a → P a := by
  have q1 : ∀ a, some s1 = some a → P a := fun a h => by cases h; exact h1
  have q2 : ∀ a, some s2 = some a → P a := fun a h => by cases h; exact h2
  have app : ∀ y : Option Nat × Option Nat, (∀ a, y.1 = some a → P a) → (∀ a, y.2 = some a → P a) →
      ∀ x ∈ st.sections ++ [y], (∀ a, x.1 = some a → P a) ∧ ∀ a, x.2 = some a → P a := by
    intro y hy1 hy2 x hx
    rcases List.mem_append.1 hx with hx | hx
    · exact hsec x hx
    · rw [List.mem_singleton] at hx; subst hx; exact ⟨hy1, hy2⟩
  unfold scanStep
  split
  · split
    · exact ⟨q1, he, hsec⟩
    · split
      · exact ⟨hs, q2, app _ hs q2⟩
      · exact ⟨hs, q2, hsec⟩
  · split
    · exact ⟨q1, he, app _ hs he⟩
    · split
      · exact ⟨hs, q2, app _ hs q2⟩
      · exact ⟨hs, he, hsec⟩

theorem scanStops_mem {thr : Int} {P : Nat → Prop} : ∀ {stops : List Nat} {st : ScanState}, (∀ s ∈ stops, P s) →
    (∀ a, st.start = some a → P a) → (∀ a, st.stop = some a → P a) →
    (∀ x ∈ st.sections, (∀ a, x.1 = some a → P a) ∧ ∀ a, x.2 = some a → P a) →
    ∀ x ∈ (scanStops thr st stops).sections, (∀ a, x.1 = some a → P a) ∧ ∀ a, x.2 = some a → P a
  | [], st, _, _, _, h => by rw [scanStops.eq_2 _ _ _ (by simp)]; exact h
  | [_], st, _, _, _, h => by rw [scanStops.eq_2 _ _ _ (by simp)]; exact h
  | s1 :: s2 :: l, st, hP, hs, he, h => by
    rw [scanStops]
    obtain ⟨h1, h2, h3⟩ := scanStep_mem (thr := thr) (last := l.isEmpty) (hP s1 (by simp)) (hP s2 (by simp)) hs he h
    exact scanStops_mem (fun s hs => hP s (List.mem_cons_of_mem _ hs)) h1 h2 h3

theorem mapSections_mem {nodes : List Nat} : ∀ {l : List (Option Nat × Option Nat)} {r : List (Nat × Nat)},
    mapSections nodes l = some r → ∀ x ∈ r, ∃ a b, (some a, some b) ∈ l ∧ nodes[a]? = some x.1 ∧ nodes[b]? = some x.2
  | [], r, h, x, hx => by cases h; simp at hx
  | (some a, some b) :: l, r, h, x, hx => by
    rw [mapSections] at h
    split at h
    · rename_i u v r' h1 h2 h3
      cases h
      rcases List.mem_cons.1 hx with rfl | hx
      · exact ⟨a, b, by simp, h1, h2⟩
      · obtain ⟨a', b', h4, h5⟩ := mapSections_mem h3 x hx
        exact ⟨a', b', List.mem_cons_of_mem _ h4, h5⟩
    · cases h
  | (none, _) :: l, r, h, x, hx => by simp [mapSections] at h
  | (some _, none) :: l, r, h, x, hx => by simp [mapSections] at h

section
variable {K : Type} [LinearOrder K]

theorem depthStops_eq (thr : K) : ∀ (ds : List (Option K)) (i : Nat),
    depthStops thr i ds = ((List.range ds.length).filter fun k => ds[k]?.any (isDeep thr)).map (i + ·)
  | [], i => by simp [depthStops]
  | d :: ds, i => by
    rw [depthStops, depthStops_eq thr ds (i + 1), List.length_cons, List.range_succ_eq_map, List.filter_cons]
    have e : ((List.map Nat.succ (List.range ds.length)).filter fun k => (d :: ds)[k]?.any (isDeep thr)).map (i + ·) =
        ((List.range ds.length).filter fun k => ds[k]?.any (isDeep thr)).map (i + 1 + ·) := by
      rw [List.filter_map, List.map_map]
      have e2 : ((fun x => i + x) ∘ Nat.succ) = fun x => i + 1 + x := by funext x; simp; omega
      rw [e2]
      congr 1
    by_cases hd : isDeep thr d
    · simp [hd, e]
    · simp [hd, e]

end

/-! ## runs of stops -/

/-- Consecutive members are closer than `thr`. -/
def Close (thr : Int) (a b : Nat) : Prop := (b : Int) - a < thr

theorem scan_inside {thr : Int} : ∀ (r : List Nat) (x a : Nat) (e : Option Nat) (acc : List (Option Nat × Option Nat))
    (rest : List Nat) (y : Nat), r ≠ [] → (x :: r).IsChain (Close thr) → r.getLast? = some y →
    scanStops thr ⟨false, some a, e, acc⟩ (x :: (r ++ rest)) =
      if rest = [] then ⟨false, some a, some y, acc ++ [(some a, some y)]⟩
      else scanStops thr ⟨false, some a, some y, acc⟩ (y :: rest)
  | [], _, _, _, _, _, _, h, _, _ => absurd rfl h
  | [z], x, a, e, acc, rest, y, _, hc, hy => by
    have hz : z = y := by simpa using hy
    subst hz
    have hxz : (z : Int) - x < thr := by
      rw [List.isChain_cons_cons] at hc; exact hc.1
    rw [List.singleton_append, scanStops, scanStep, if_pos hxz]
    cases rest with
    | nil => simp [scanStops]
    | cons w rest => simp
  | z :: w :: r, x, a, e, acc, rest, y, _, hc, hy => by
    rw [List.isChain_cons_cons] at hc
    have hy' : (w :: r).getLast? = some y := by rw [List.getLast?_cons_cons] at hy; exact hy
    have hxz : (z : Int) - x < thr := hc.1
    rw [List.cons_append, List.cons_append, scanStops, scanStep, if_pos hxz]
    simp only [ List.isEmpty_cons, Bool.false_eq_true, if_false]
    exact scan_inside (w :: r) z a (some z) acc rest y (by simp) hc.2 hy'

/-- Every run has at least three stops that are close to each other, and runs are apart. -/
def RunsOK (thr : Int) (runs : List (List Nat)) : Prop :=
  (∀ r ∈ runs, 3 ≤ r.length ∧ r.IsChain (Close thr)) ∧
    runs.IsChain fun r r' => ∀ a : Nat, r.getLast? = some a → ∀ b : Nat, r'.head? = some b → thr ≤ (b : Int) - a

theorem scan_runs {thr : Int} : ∀ (runs : List (List Nat)) (s e : Option Nat) (acc : List (Option Nat × Option Nat)),
    RunsOK thr runs → (scanStops thr ⟨true, s, e, acc⟩ runs.flatten).sections =
      acc ++ runs.map fun r => (r.head?, r.getLast?)
  | [], s, e, acc, _ => by simp [scanStops]
  | r :: runs, s, e, acc, h => by
    obtain ⟨h1, h2⟩ := h
    obtain ⟨hl, hc⟩ := h1 r (List.mem_cons_self ..)
    match r, hl, hc with
    | a :: b :: c :: r, _, hc =>
      obtain ⟨y, hy⟩ : ∃ y, (c :: r).getLast? = some y := by
        rw [List.getLast?_eq_some_getLast (by simp)]; exact ⟨_, rfl⟩
      have hy' : (a :: b :: c :: r).getLast? = some y := by
        rw [List.getLast?_cons_cons, List.getLast?_cons_cons]; exact hy
      rw [List.isChain_cons_cons] at hc
      have hab : (b : Int) - a < thr := hc.1
      rw [List.flatten_cons, List.cons_append, List.cons_append, scanStops, scanStep, if_pos hab]
      simp only [if_true]
      rw [scan_inside (c :: r) b a e acc runs.flatten y (by simp) hc.2 hy]
      cases runs with
      | nil => simp [hy']
      | cons r' runs =>
        obtain ⟨hl', hc'⟩ := h1 r' (by simp)
        match r', hl', hc' with
        | a' :: r'', _, _ =>
          rw [if_neg (by simp)]
          have hgap : ¬ ((a' : Int) - y < thr) := by
            have h3 := (List.isChain_cons_cons.1 h2).1 y hy' a' rfl
            omega
          have ih := scan_runs ((a' :: r'') :: runs) (some y) (some y) (acc ++ [(some a, some y)])
            ⟨fun q hq => h1 q (List.mem_cons_of_mem _ hq), (List.isChain_cons_cons.1 h2).2⟩
          rw [List.flatten_cons, List.cons_append] at ih ⊢
          rw [scanStops, scanStep, if_neg hgap]
          simp only [if_true]
          rw [ih]
          simp [hy']

theorem mapSections_map {nodes : List Nat} : ∀ (l : List (Nat × Nat)), (∀ x ∈ l, x.1 < nodes.length ∧ x.2 < nodes.length) →
    ∃ r, mapSections nodes (l.map fun x => (some x.1, some x.2)) = some r ∧
      r.map (fun y => (some y.1, some y.2)) = l.map fun x => (nodes[x.1]?, nodes[x.2]?)
  | [], _ => ⟨[], by simp [mapSections]⟩
  | (a, b) :: l, h => by
    obtain ⟨r, hr, he⟩ := mapSections_map l fun x hx => h x (List.mem_cons_of_mem _ hx)
    have hab := h (a, b) (List.mem_cons_self ..)
    refine ⟨(nodes[a]'hab.1, nodes[b]'hab.2) :: r, ?_, ?_⟩
    · simp only [List.map_cons, mapSections, hr, List.getElem?_eq_getElem hab.1, List.getElem?_eq_getElem hab.2]
    · simp only [List.map_cons, he, List.getElem?_eq_getElem hab.1, List.getElem?_eq_getElem hab.2]

end OM
