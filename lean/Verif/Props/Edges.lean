import Verif.Lemmas.Edges
import Verif.Lemmas.Poly
/-!
# Properties C01 – C04 (`oceanmesh/edges.py`)
-/
namespace OM
open Spec

/-- Two triangles sharing the edge `{1,2}`; used in the examples. -/
def twoTris : List Tri := [⟨0, 1, 2⟩, ⟨2, 1, 3⟩]

/-- **C01** `get_boundary_edges` returns each pair contained in exactly one triangle once, as (smaller, larger), and
nothing else — for every internal row order. -/
theorem C01_boundary_edges_exact (o : RowOrder (Nat × Nat)) (t : List Tri) (ht : ∀ f ∈ t, Nondegenerate f) :
    (getBoundaryEdges o t).Nodup ∧
      ∀ u v, (u, v) ∈ getBoundaryEdges o t ↔ u < v ∧ IsBoundaryEdge t u v :=
  ⟨boundary_nodup o t, mem_boundary_iff o t ht⟩

example : (∀ f ∈ twoTris, Nondegenerate f) ∧ IsBoundaryEdge twoTris 0 1 ∧ ¬ IsBoundaryEdge twoTris 1 2 := by decide
example : (1, 3) ∈ getBoundaryEdges lexOrder twoTris :=
  ((C01_boundary_edges_exact lexOrder twoTris (by decide)).2 1 3).2 (by decide)

/-- **C02** If every edge has at most two triangles, every vertex lies on an even number of boundary edges; so a vertex
on a boundary edge lies on at least two of them. -/
theorem C02_boundary_degree_even (o : RowOrder (Nat × Nat)) (t : List Tri) (ht : ∀ f ∈ t, Nondegenerate f)
    (hc : Conforming t) (v : Nat) :
    Even (degree (getBoundaryEdges o t) v) ∧
      ((∃ e ∈ getBoundaryEdges o t, e.1 = v ∨ e.2 = v) → 2 ≤ degree (getBoundaryEdges o t) v) := by
  have he := boundary_degree_even o t ht hc v
  refine ⟨he, ?_⟩
  rintro ⟨e, hm, hv⟩
  have : 0 < degree (getBoundaryEdges o t) v :=
    List.length_pos_of_mem (List.mem_filter.2 ⟨hm, by simpa using hv⟩)
  rw [Nat.even_iff] at he
  omega

theorem edgeMultiplicity_le_length (t : List Tri) (u v : Nat) : edgeMultiplicity t u v ≤ t.length :=
  List.length_filter_le _ _

example : (∀ f ∈ twoTris, Nondegenerate f) ∧ Conforming twoTris :=
  ⟨by decide, fun u v => edgeMultiplicity_le_length twoTris u v⟩

/-- Everything the winding gives, in one statement used by the properties below. -/
theorem winded_spec (o : RowOrder (Nat × Nat)) (t : List Tri) (ht : ∀ f ∈ t, Nondegenerate f) (vFirst : Option Nat)
    (hb : getBoundaryEdges o t ≠ []) :
    ∃ e res w, getWindedBoundaryEdges o t vFirst = some (e :: res) ∧
      IsWalk e.1 (e :: res) w ∧ (e :: res).Subperm (getBoundaryEdges o t) ∧
      (∀ x ∈ getBoundaryEdges o t, x.1 = w ∨ x.2 = w → x ∈ e :: res) ∧
      (∀ v, vFirst = some v → (∃ x ∈ getBoundaryEdges o t, x.1 = v ∨ x.2 = v) → e.1 = v ∨ e.2 = v) := by
  have hne : ∀ x ∈ getBoundaryEdges o t, x.1 ≠ x.2 := fun x hx =>
    Nat.ne_of_lt ((mem_boundary_iff o t ht x.1 x.2).1 hx).1
  have hstart : ∃ e, windStart (getBoundaryEdges o t) vFirst = some e ∧ e ∈ getBoundaryEdges o t ∧
      (∀ v, vFirst = some v → (∃ x ∈ getBoundaryEdges o t, x.1 = v ∨ x.2 = v) → e.1 = v ∨ e.2 = v) := by
    obtain ⟨a, l, hal⟩ := List.exists_cons_of_ne_nil hb
    rw [hal]
    cases vFirst with
    | none => exact ⟨a, rfl, by simp, fun v hv => by simp at hv⟩
    | some v =>
      unfold windStart
      simp only
      split
      · rename_i e he
        refine ⟨e, rfl, List.mem_of_find?_eq_some he, ?_⟩
        intro v' hv' _
        cases hv'
        simpa using List.find?_some he
      · rename_i he
        refine ⟨a, rfl, by simp, ?_⟩
        intro v' hv' ⟨x, hx, hxv⟩
        cases hv'
        rw [List.find?_eq_none] at he
        have := he x hx
        simp at this
        tauto
  obtain ⟨e, he, hem, hev⟩ := hstart
  obtain ⟨res, w, h1, h2, h3, h4⟩ := windLoop_spec ((getBoundaryEdges o t).length + 1)
    ((getBoundaryEdges o t).erase e) (Nat.lt_succ_of_le (List.length_erase_le))
    (fun x hx => hne x (List.mem_of_mem_erase hx)) e.2
  refine ⟨e, res, w, ?_, IsWalk.cons (Or.inl rfl) h2, ?_, ?_, hev⟩
  · simp only [getWindedBoundaryEdges, he, h1, Option.map_some]
  · exact ((List.subperm_cons e).2 h3).trans (List.perm_cons_erase hem).symm.subperm
  · intro x hx hxw
    by_cases hxe : x = e
    · simp [hxe]
    · have hx2 : x ∈ (getBoundaryEdges o t).erase e := (List.mem_erase_of_ne hxe).2 hx
      have := h4 x hx2 hxw
      have hp := List.count_pos_iff.2 hx2
      exact List.mem_cons_of_mem _ (List.count_pos_iff.1 (by omega))

/-- **C03** (general part) On every mesh with a boundary the winding succeeds and returns different boundary edges that
form a walk; it starts at an edge with `vFirst` if that is possible. -/
theorem C03_winded_is_trail (o : RowOrder (Nat × Nat)) (t : List Tri) (ht : ∀ f ∈ t, Nondegenerate f)
    (vFirst : Option Nat) (hb : ∃ u v, IsBoundaryEdge t u v) :
    ∃ e res w, getWindedBoundaryEdges o t vFirst = some (e :: res) ∧ (e :: res).Nodup ∧
      IsWalk e.1 (e :: res) w ∧ (∀ x ∈ e :: res, x.1 < x.2 ∧ IsBoundaryEdge t x.1 x.2) ∧
      (∀ v, vFirst = some v → (∃ u, IsBoundaryEdge t u v) → e.1 = v ∨ e.2 = v) := by
  have hlt : ∀ u v, IsBoundaryEdge t u v → (min u v, max u v) ∈ getBoundaryEdges o t := by
    intro u v huv
    rw [mem_boundary_iff o t ht]
    rcases Nat.lt_trichotomy u v with h | h | h
    · rw [Nat.min_eq_left h.le, Nat.max_eq_right h.le]; exact ⟨h, huv⟩
    · exfalso
      subst h
      unfold IsBoundaryEdge edgeMultiplicity at huv
      simp [HasEdge] at huv
    · rw [Nat.min_eq_right h.le, Nat.max_eq_left h.le]
      exact ⟨h, by unfold IsBoundaryEdge; rw [edgeMultiplicity_symm]; exact huv⟩
  obtain ⟨u, v, huv⟩ := hb
  obtain ⟨e, res, w, h1, h2, h3, _, h5⟩ := winded_spec o t ht vFirst (List.ne_nil_of_mem (hlt u v huv))
  refine ⟨e, res, w, h1, ?_, h2, ?_, ?_⟩
  · obtain ⟨l, hp, hs⟩ := h3
    exact hp.nodup_iff.1 ((boundary_nodup o t).sublist hs)
  · intro x hx
    exact (mem_boundary_iff o t ht x.1 x.2).1 (h3.subset hx)
  · intro v hv ⟨u, hu⟩
    refine h5 v hv ⟨_, hlt u v hu, ?_⟩
    simp only
    omega

example : (∀ f ∈ twoTris, Nondegenerate f) ∧ ∃ u v, IsBoundaryEdge twoTris u v := ⟨by decide, 0, 1, by decide⟩

/-- **C03** (closing) If every edge has at most two triangles the trail ends where it started. -/
theorem C03_winded_is_closed (o : RowOrder (Nat × Nat)) (t : List Tri) (ht : ∀ f ∈ t, Nondegenerate f)
    (hc : Conforming t) (vFirst : Option Nat) (e : Nat × Nat) (res : List (Nat × Nat))
    (hres : getWindedBoundaryEdges o t vFirst = some (e :: res)) : IsWalk e.1 (e :: res) e.1 := by
  have hb : getBoundaryEdges o t ≠ [] := by
    intro h
    unfold getWindedBoundaryEdges at hres
    rw [h] at hres
    cases vFirst <;> simp [windStart] at hres
  obtain ⟨e', res', w, h1, h2, h3, h4, _⟩ := winded_spec o t ht vFirst hb
  rw [h1] at hres
  simp only [Option.some.injEq, List.cons.injEq] at hres
  obtain ⟨rfl, rfl⟩ := hres
  by_cases hw : w = e'.1
  · rw [hw] at h2; exact h2
  · exfalso
    have hne : ∀ x ∈ e' :: res', x.1 ≠ x.2 := fun x hx =>
      Nat.ne_of_lt ((mem_boundary_iff o t ht x.1 x.2).1 (h3.subset hx)).1
    have hpar := walk_degree_parity h2 hne w
    rw [if_neg hw, if_pos rfl] at hpar
    have heven := boundary_degree_even o t ht hc w
    have hdeg : degree (e' :: res') w = degree (getBoundaryEdges o t) w := by
      have hn : (e' :: res').Nodup := by
        obtain ⟨l, hp, hs⟩ := h3
        exact hp.nodup_iff.1 ((boundary_nodup o t).sublist hs)
      unfold degree
      apply List.Perm.length_eq
      rw [List.perm_ext_iff_of_nodup (hn.filter _) ((boundary_nodup o t).filter _)]
      intro x
      simp only [List.mem_filter, decide_eq_true_eq]
      constructor
      · rintro ⟨hx, hv⟩; exact ⟨h3.subset hx, hv⟩
      · rintro ⟨hx, hv⟩; exact ⟨h4 x hx hv, hv⟩
    rw [hdeg] at hpar
    rw [Nat.even_iff] at heven
    omega

example : getWindedBoundaryEdges lexOrder twoTris none = some [(0, 1), (1, 3), (2, 3), (0, 2)] := by decide +kernel

/-- **C03** (completeness) If moreover every vertex lies on at most two boundary edges, the trail contains every
boundary edge that is connected with its first edge through boundary edges (and only those). -/
theorem C03_winded_is_whole_loop (o : RowOrder (Nat × Nat)) (t : List Tri) (ht : ∀ f ∈ t, Nondegenerate f)
    (hc : Conforming t) (h2 : ∀ v, degree (getBoundaryEdges o t) v ≤ 2)
    (vFirst : Option Nat) (e : Nat × Nat) (res : List (Nat × Nat))
    (hres : getWindedBoundaryEdges o t vFirst = some (e :: res)) (x : Nat × Nat) :
    x ∈ e :: res ↔ Chain (getBoundaryEdges o t) e x := by
  have hcl := C03_winded_is_closed o t ht hc vFirst e res hres
  have hb : getBoundaryEdges o t ≠ [] := by
    intro h
    unfold getWindedBoundaryEdges at hres
    rw [h] at hres
    cases vFirst <;> simp [windStart] at hres
  obtain ⟨e', res', w, h1, hwalk, h3, _, _⟩ := winded_spec o t ht vFirst hb
  rw [h1] at hres
  simp only [Option.some.injEq, List.cons.injEq] at hres
  obtain ⟨rfl, rfl⟩ := hres
  have hne : ∀ x ∈ e' :: res', x.1 ≠ x.2 := fun x hx =>
    Nat.ne_of_lt ((mem_boundary_iff o t ht x.1 x.2).1 (h3.subset hx)).1
  have hn : (e' :: res').Nodup := by
    obtain ⟨l, hp, hs⟩ := h3
    exact hp.nodup_iff.1 ((boundary_nodup o t).sublist hs)
  -- a boundary edge touching a trail edge is in the trail
  have hclosed : ∀ f ∈ e' :: res', ∀ g ∈ getBoundaryEdges o t, Touch f g → g ∈ e' :: res' := by
    intro f hf g hg hfg
    obtain ⟨v, hfv, hgv⟩ : ∃ v, (f.1 = v ∨ f.2 = v) ∧ (g.1 = v ∨ g.2 = v) := by
      rcases hfg with h | h | h | h
      · exact ⟨f.1, Or.inl rfl, Or.inl h.symm⟩
      · exact ⟨f.1, Or.inl rfl, Or.inr h.symm⟩
      · exact ⟨f.2, Or.inr rfl, Or.inl h.symm⟩
      · exact ⟨f.2, Or.inr rfl, Or.inr h.symm⟩
    have hpar := walk_degree_parity hcl hne v
    have hpos : 0 < degree (e' :: res') v :=
      List.length_pos_of_mem (List.mem_filter.2 ⟨hf, by simpa using hfv⟩)
    have hge : 2 ≤ degree (e' :: res') v := by split_ifs at hpar <;> omega
    by_contra hcon
    have hsub : (g :: (e' :: res').filter fun e => decide (e.1 = v ∨ e.2 = v)).Subperm
        ((getBoundaryEdges o t).filter fun e => decide (e.1 = v ∨ e.2 = v)) := by
      apply List.subperm_of_subset
      · rw [List.nodup_cons]
        exact ⟨fun h => hcon (List.mem_filter.1 h).1, hn.filter _⟩
      · intro y hy
        rcases List.mem_cons.1 hy with rfl | hy
        · exact List.mem_filter.2 ⟨hg, by simpa using hgv⟩
        · have := List.mem_filter.1 hy
          exact List.mem_filter.2 ⟨h3.subset this.1, this.2⟩
    have hlen := hsub.length_le
    have h2v := h2 v
    unfold degree at hge h2v
    simp only [List.length_cons] at hlen
    omega
  constructor
  · -- every edge of a walk is connected with the first one
    intro hx
    have hall : ∀ (es : List (Nat × Nat)) (u w : Nat) (d : Nat × Nat), IsWalk u es w →
        (d.1 = u ∨ d.2 = u) → (∀ y ∈ es, y ∈ getBoundaryEdges o t) → Chain (getBoundaryEdges o t) e' d →
        ∀ y ∈ es, Chain (getBoundaryEdges o t) e' y := by
      intro es u w d hw
      induction hw generalizing d with
      | nil v => intro _ _ _ y hy; simp at hy
      | @cons u v w f es hf _ ih =>
        intro hd hsub hch y hy
        have hfm := hsub f (by simp)
        have hcf : Chain (getBoundaryEdges o t) e' f := by
          refine Chain.step hch hfm ?_
          unfold Touch
          rcases hf with rfl | rfl <;> simp only <;> tauto
        rcases List.mem_cons.1 hy with rfl | hy
        · exact hcf
        · refine ih f ?_ (fun z hz => hsub z (List.mem_cons_of_mem _ hz)) hcf y hy
          rcases hf with rfl | rfl <;> simp
    exact hall _ _ _ e' hwalk (Or.inl rfl) (fun y hy => h3.subset hy)
      (Chain.refl (h3.subset (by simp))) x hx
  · intro hch
    have : ∀ d y, Chain (getBoundaryEdges o t) d y → d = e' → y ∈ e' :: res' := by
      intro d y h
      induction h with
      | refl _ => intro h; simp [h]
      | step _ hg htouch ih => intro h; exact hclosed _ (ih h) _ hg htouch
    exact this e' x hch rfl

example : (∀ f ∈ twoTris, Nondegenerate f) ∧ Conforming twoTris ∧
    (∀ v, degree (getBoundaryEdges lexOrder twoTris) v ≤ 2) := by
  refine ⟨by decide, fun u v => edgeMultiplicity_le_length twoTris u v, fun v => ?_⟩
  have h : getBoundaryEdges lexOrder twoTris = [(0, 1), (0, 2), (1, 3), (2, 3)] := by decide +kernel
  rw [h]
  unfold degree
  by_cases h0 : v = 0
  · subst h0; decide
  by_cases h1 : v = 1
  · subst h1; decide
  by_cases h2 : v = 2
  · subst h2; decide
  by_cases h3 : v = 3
  · subst h3; decide
  · rw [List.filter_eq_nil_iff.2]
    · simp
    · intro e he
      simp at he
      rcases he with rfl | rfl | rfl | rfl <;> simp <;> omega

/-- A mesh without boundary edge (here: the surface of a tetrahedron) makes the winding raise an exception. -/
theorem C03_no_boundary_raises (o : RowOrder (Nat × Nat)) (t : List Tri) (ht : ∀ f ∈ t, Nondegenerate f)
    (hb : ∀ u v, ¬ IsBoundaryEdge t u v) (vFirst : Option Nat) : getWindedBoundaryEdges o t vFirst = none := by
  have h : getBoundaryEdges o t = [] := by
    rw [List.eq_nil_iff_forall_not_mem]
    rintro ⟨u, v⟩ hm
    exact hb u v ((mem_boundary_iff o t ht u v).1 hm).2
  unfold getWindedBoundaryEdges
  rw [h]
  cases vFirst <;> simp [windStart]

/-- The surface of a tetrahedron has no boundary edge. -/
example : let t : List Tri := [⟨0, 1, 2⟩, ⟨0, 1, 3⟩, ⟨0, 2, 3⟩, ⟨1, 2, 3⟩]
    (∀ f ∈ t, Nondegenerate f) ∧ (∀ u v, ¬ IsBoundaryEdge t u v) := by
  refine ⟨by decide, fun u v => ?_⟩
  have h : ∀ u ≤ 4, ∀ v ≤ 4, ¬ IsBoundaryEdge [⟨0, 1, 2⟩, ⟨0, 1, 3⟩, ⟨0, 2, 3⟩, ⟨1, 2, 3⟩] u v := by decide
  by_cases hu : u ≤ 4 <;> by_cases hv : v ≤ 4
  · exact h u hu v hv
  all_goals
    unfold IsBoundaryEdge edgeMultiplicity
    rw [List.filter_eq_nil_iff.2]
    · simp
    · intro f hf
      simp at hf
      rcases hf with rfl | rfl | rfl | rfl <;> rw [decide_eq_true_eq] <;> unfold HasEdge HasVertex <;> dsimp only <;> omega

/-- **C04** What `get_poly_edges` returns for every non-empty list of non-empty features: for each feature the segments
between consecutive points *except the last one*, and the segment from the last point to the first. All
indices refer to rows that are points. -/
theorem C04_poly_edges_exact {α : Type} (fs : List (List α)) (hne : fs ≠ []) (hfs : ∀ f ∈ fs, f ≠ []) :
    ∃ es, getPolyEdges ((joinNaN fs).map Option.isNone) = some es ∧
      es.map (fun e => (pointAt (joinNaN fs) e.1, pointAt (joinNaN fs) e.2)) =
        (fs.flatMap fun f => segments f.dropLast ++ closing f).map (fun s => (some s.1, some s.2)) := by
  obtain ⟨f, gs, rfl⟩ := List.exists_cons_of_ne_nil hne
  have h := polyLoop_points (f :: gs) hfs []
  have hnan := nanRows_feature f (joinNaN gs) 0
  refine ⟨polyEdgesLoop (-1) (nanRows 0 ((joinNaN (f :: gs)).map Option.isNone)), ?_, ?_⟩
  · unfold getPolyEdges
    rw [joinNaN, hnan]
  · simpa using h

example : joinNaN [[10, 11, 12], [20, 21]] = [some 10, some 11, some 12, none, some 20, some 21, none] ∧
    (∀ f ∈ [[10, 11, 12], [20, 21]], f ≠ []) := by decide

/-- **C04** (partial) For features that end with their first point written twice — the form in which
`_classify_shoreline` and `_clip_polys` store rings — the segments returned are exactly all the segments between
consecutive points. Missing for the full property: features that are closed once or open, see
`C04_last_segment_missing`. -/
theorem C04_poly_edges_complete_partial {α : Type} (fs : List (List α)) (hne : fs ≠ [])
    (hfs : ∀ f ∈ fs, ClosedTwice f) :
    ∃ es, getPolyEdges ((joinNaN fs).map Option.isNone) = some es ∧
      es.map (fun e => (pointAt (joinNaN fs) e.1, pointAt (joinNaN fs) e.2)) =
        (fs.flatMap segments).map (fun s => (some s.1, some s.2)) := by
  obtain ⟨es, h1, h2⟩ := C04_poly_edges_exact fs hne (by
    intro f hf h
    obtain ⟨p, g, hp⟩ := hfs f hf
    rw [h] at hp; simp at hp)
  refine ⟨es, h1, ?_⟩
  rw [h2]
  congr 1
  have : ∀ f ∈ fs, segments f.dropLast ++ closing f = segments f := by
    intro f hf
    obtain ⟨p, g, rfl⟩ := hfs f hf
    have e1 : (p :: g ++ [p, p]).dropLast = p :: g ++ [p] := by
      rw [show p :: g ++ [p, p] = (p :: g ++ [p]) ++ [p] by simp, List.dropLast_concat]
    have e2 : closing (p :: g ++ [p, p]) = [(p, p)] := by
      simp [closing]
    rw [e1, e2]
    have e3 : segments (p :: g ++ [p]) = (p :: g).zip (g ++ [p]) := by
      have : segments (p :: g ++ [p]) = ((p :: g) ++ [p]).zip ((g ++ [p]) ++ []) := by simp [segments]
      rw [this, List.zip_append (by simp)]
      simp
    have e4 : segments (p :: g ++ [p, p]) = (p :: g).zip (g ++ [p]) ++ [(p, p)] := by
      have : segments (p :: g ++ [p, p]) = ((p :: g) ++ [p, p]).zip ((g ++ [p]) ++ [p]) := by simp [segments]
      rw [this, List.zip_append (by simp)]
      simp
    rw [e3, e4]
  rw [List.flatMap_congr this]

/-- **C04** (disagreement) The property is false for a ring that is closed once (as in `tests/test_edges.py`): the
segment from the last vertex back to the first one is missing. -/
theorem C04_last_segment_missing :
    ∃ f : List Nat, f.head? = f.getLast? ∧ ∃ s ∈ segments f, ∀ es,
      getPolyEdges ((joinNaN [f]).map Option.isNone) = some es →
        (some s.1, some s.2) ∉ es.map (fun e => (pointAt (joinNaN [f]) e.1, pointAt (joinNaN [f]) e.2)) ∧
        (some s.2, some s.1) ∉ es.map (fun e => (pointAt (joinNaN [f]) e.1, pointAt (joinNaN [f]) e.2)) := by
  refine ⟨[10, 11, 12, 10], by decide, (12, 10), by decide, ?_⟩
  intro es hes
  obtain ⟨es', h1, h2⟩ := C04_poly_edges_exact [[10, 11, 12, 10]] (by simp) (by simp)
  rw [h1] at hes
  cases hes
  rw [h2]
  decide

example : ClosedTwice [10, 11, 12, 10, 10] := ⟨10, [11, 12], rfl⟩

/-- Without any NaN row `get_poly_edges` raises. -/
theorem C04_no_separator_raises (n : Nat) : getPolyEdges (List.replicate n false) = none := by
  have : ∀ (n : Nat) (i : Int), nanRows i (List.replicate n false) = [] := by
    intro n
    induction n with
    | zero => intro i; rfl
    | succ n ih => intro i; rw [List.replicate_succ, nanRows]; exact ih _
  unfold getPolyEdges
  rw [this]

end OM
