import Verif.Lemmas.Clean1
import Mathlib.Data.List.Nodup
/-!
# How often a neighbour is listed; the vertex-to-face table
-/
set_option linter.unusedSectionVars false
namespace OM
open Spec

theorem sortedSides_nodup {f : Tri} (hf : Nondegenerate f) :
    [(f.sort.a, f.sort.b), (f.sort.a, f.sort.c), (f.sort.b, f.sort.c)].Nodup := by
  obtain ⟨a, b, c⟩ := f
  simp only [Nondegenerate] at hf
  simp only [Tri.sort, List.nodup_cons, List.mem_cons, Prod.mk.injEq, List.not_mem_nil, or_false, not_false_eq_true,
    and_true, List.nodup_nil]
  rcases Nat.le_total a b with h1 | h1 <;> rcases Nat.le_total a c with h2 | h2 <;>
    rcases Nat.le_total b c with h3 | h3 <;>
    simp only [Nat.min_eq_left, Nat.min_eq_right, Nat.max_eq_left, Nat.max_eq_right, h1, h2, h3] <;> omega

theorem sideRows_index_ge {t : List Tri} {i : Nat} {x : (Nat × Nat) × Nat} (h : x ∈ sideRows i t) : i ≤ x.2 := by
  obtain ⟨e, k⟩ := x
  obtain ⟨j, f, h1, _⟩ := (mem_sideRows t i e k).1 h
  dsimp only; omega

theorem sideRows_nodup : ∀ (t : List Tri) (i : Nat), (∀ f ∈ t, Nondegenerate f) → (sideRows i t).Nodup
  | [], _, _ => List.nodup_nil
  | f :: t, i, h => by
    have ih := sideRows_nodup t (i + 1) fun g hg => h g (List.mem_cons_of_mem _ hg)
    have hs := sortedSides_nodup (h f (by simp))
    have e : sideRows i (f :: t) = ([(f.sort.a, f.sort.b), (f.sort.a, f.sort.c), (f.sort.b, f.sort.c)].map fun e => (e, i)) ++
        sideRows (i + 1) t := rfl
    rw [e, List.nodup_append]
    refine ⟨hs.map fun a b hab => (Prod.mk.inj hab).1, ih, ?_⟩
    intro x hx y hy hxy
    subst hxy
    have h1 := sideRows_index_ge hy
    obtain ⟨e, _, rfl⟩ := List.mem_map.1 hx
    dsimp only at h1; omega

theorem sortedSides_perm (f : Tri) : [(f.sort.a, f.sort.b), (f.sort.a, f.sort.c), (f.sort.b, f.sort.c)].Perm
    ([(f.a, f.b), (f.a, f.c), (f.b, f.c)].map sortPair) := by
  obtain ⟨a, b, c⟩ := f
  simp only [Tri.sort, sortPair, List.map_cons, List.map_nil]
  rcases Nat.le_total a b with h1 | h1 <;> rcases Nat.le_total a c with h2 | h2 <;>
    rcases Nat.le_total b c with h3 | h3 <;>
    simp only [Nat.min_eq_left, Nat.min_eq_right, Nat.max_eq_left, Nat.max_eq_right, h1, h2, h3]
  · exact List.Perm.refl _
  · exact List.Perm.swap _ _ _
  · have := Nat.le_antisymm h2 (h1.trans h3)
    have := Nat.le_antisymm h3 (h2.trans h1)
    subst_vars; exact List.Perm.refl _
  · exact List.perm_append_comm (l₁ := [(c, a), (c, b)]) (l₂ := [(a, b)])
  · exact (List.Perm.cons _ (List.Perm.swap _ _ _))
  · have := Nat.le_antisymm h1 (h2.trans h3)
    have := Nat.le_antisymm h3 (h1.trans h2)
    subst_vars; exact List.Perm.refl _
  · exact List.perm_append_comm (l₁ := [(b, c)]) (l₂ := [(b, a), (c, a)])
  · exact ((List.Perm.swap _ _ _).trans (List.Perm.cons _ (List.Perm.swap _ _ _))).trans (List.Perm.swap _ _ _)

theorem sideRows_keys_perm : ∀ (t : List Tri) (i : Nat), ((sideRows i t).map Prod.fst).Perm ((getEdges t).map sortPair)
  | [], _ => List.Perm.refl _
  | f :: t, i => by
    have ih := sideRows_keys_perm t (i + 1)
    have e1 : (sideRows i (f :: t)).map Prod.fst = [(f.sort.a, f.sort.b), (f.sort.a, f.sort.c), (f.sort.b, f.sort.c)] ++
        (sideRows (i + 1) t).map Prod.fst := rfl
    have e2 : (getEdges (f :: t)).map sortPair = ([(f.a, f.b), (f.a, f.c), (f.b, f.c)].map sortPair) ++
        (getEdges t).map sortPair := rfl
    rw [e1, e2]
    exact (sortedSides_perm f).append ih

/-- `equalNeighbours` together with the common key. -/
def equalKeyed : List ((Nat × Nat) × Nat) → List ((Nat × Nat) × (Nat × Nat))
  | [] => []
  | [_] => []
  | x :: y :: l => if x.1 = y.1 then (x.1, x.2, y.2) :: equalKeyed (y :: l) else equalKeyed (y :: l)

theorem equalKeyed_snd : ∀ l, (equalKeyed l).map Prod.snd = equalNeighbours l
  | [] => rfl
  | [_] => rfl
  | x :: y :: l => by
    rw [equalKeyed, equalNeighbours]
    split <;> simp [equalKeyed_snd (y :: l)]

/-- Pairs of consecutive elements, with a constant key. -/
def consec (e : Nat × Nat) : List Nat → List ((Nat × Nat) × (Nat × Nat))
  | [] => []
  | [_] => []
  | a :: b :: l => (e, a, b) :: consec e (b :: l)

theorem equalKeyed_filter : ∀ {l : List ((Nat × Nat) × Nat)}, l.Pairwise (fun x y => lexOrder.le x.1 y.1 = true) →
    ∀ e, (equalKeyed l).filter (fun x => decide (x.1 = e)) = consec e ((l.filter fun x => decide (x.1 = e)).map Prod.snd)
  | [], _, _ => rfl
  | [x], _, e => by
    by_cases h : x.1 = e
    · simp [equalKeyed, h, consec]
    · simp [equalKeyed, h, consec]
  | x :: y :: l, hs, e => by
    have hs' := (List.pairwise_cons.1 hs).2
    have ih := equalKeyed_filter hs' e
    rw [equalKeyed]
    by_cases hx : x.1 = e
    · by_cases hy : y.1 = e
      · rw [if_pos (hx.trans hy.symm), List.filter_cons_of_pos (by simpa using hx), ih]
        rw [List.filter_cons_of_pos (a := x) (by simpa using hx), List.filter_cons_of_pos (a := y) (by simpa using hy)]
        simp only [List.map_cons, consec]
        rw [hx]
      · rw [if_neg (by rw [hx]; exact fun h => hy h.symm), ih]
        have : (y :: l).filter (fun x => decide (x.1 = e)) = [] := by
          rw [List.filter_eq_nil_iff]
          intro z hz hze
          have hze : z.1 = e := by simpa using hze
          apply hy
          have h1 := (List.pairwise_cons.1 hs).1 y (by simp)
          rcases List.mem_cons.1 hz with h | h
          · rw [← h]; exact hze
          · have h2 := (List.pairwise_cons.1 hs').1 z h
            rw [hze] at h2; rw [hx] at h1
            exact lexOrder.antisymm _ _ h2 h1
        rw [List.filter_cons_of_pos (a := x) (by simpa using hx), this]
        rfl
    · have h2 : (if x.1 = y.1 then (x.1, x.2, y.2) :: equalKeyed (y :: l) else equalKeyed (y :: l)).filter
          (fun x => decide (x.1 = e)) = (equalKeyed (y :: l)).filter (fun x => decide (x.1 = e)) := by
        split
        · rw [List.filter_cons_of_neg (by simpa using hx)]
        · rfl
      rw [h2, ih, List.filter_cons_of_neg (a := x) (by simpa using hx)]

/-- On a sorted list without repeated rows and with at most two rows per key, each key gives at most one pair; the
pairs with a given key are known. -/
theorem equalKeyed_two {l : List ((Nat × Nat) × Nat)} (hs : l.Pairwise (fun x y => lexOrder.le x.1 y.1 = true))
    (hn : l.Nodup) (h2 : ∀ e, (l.map Prod.fst).count e ≤ 2) :
    ((equalKeyed l).map Prod.fst).Nodup ∧
      (∀ e i j, (e, i, j) ∈ equalKeyed l → i ≠ j ∧ (e, i) ∈ l ∧ (e, j) ∈ l) ∧
      (∀ e i j, i ≠ j → (e, i) ∈ l → (e, j) ∈ l → (e, i, j) ∈ equalKeyed l ∨ (e, j, i) ∈ equalKeyed l) := by
  have hlen : ∀ e, (l.filter fun x => decide (x.1 = e)).length ≤ 2 := by
    intro e
    have := h2 e
    rw [List.count, List.countP_map, List.countP_eq_length_filter] at this
    refine le_trans (le_of_eq ?_) this
    congr 1
    apply List.filter_congr; intro x _; simp [Function.comp, Bool.beq_eq_decide_eq]
  have hfn : ∀ e, (l.filter fun x => decide (x.1 = e)).Nodup := fun e => hn.filter _
  have hmem : ∀ (e : Nat × Nat) (i : Nat), (e, i) ∈ l ↔ (e, i) ∈ l.filter fun x => decide (x.1 = e) := by
    intro e i; simp
  have hkey : ∀ e, ∀ x ∈ l.filter (fun x => decide (x.1 = e)), x.1 = e := by
    intro e x hx; simpa using (List.mem_filter.1 hx).2
  -- the three possible shapes
  have shape : ∀ e, ((l.filter fun x => decide (x.1 = e)) = [] ∧ (equalKeyed l).filter (fun x => decide (x.1 = e)) = []) ∨
      (∃ i, (l.filter fun x => decide (x.1 = e)) = [(e, i)] ∧ (equalKeyed l).filter (fun x => decide (x.1 = e)) = []) ∨
      (∃ i j, i ≠ j ∧ (l.filter fun x => decide (x.1 = e)) = [(e, i), (e, j)] ∧
        (equalKeyed l).filter (fun x => decide (x.1 = e)) = [(e, i, j)]) := by
    intro e
    have hf := equalKeyed_filter hs e
    have h1 := hlen e
    have h3 := hfn e
    have h4 := hkey e
    match hm : l.filter (fun x => decide (x.1 = e)) with
    | [] => left; rw [hf, hm]; exact ⟨rfl, rfl⟩
    | [x] =>
      right; left
      have := h4 x (by rw [hm]; simp)
      refine ⟨x.2, ?_, by rw [hf, hm]; rfl⟩
      rw [show ((e, x.2) : (Nat × Nat) × Nat) = x from Prod.ext this.symm rfl]
      exact hm
    | [x, y] =>
      right; right
      have hx := h4 x (by rw [hm]; simp)
      have hy := h4 y (by rw [hm]; simp)
      refine ⟨x.2, y.2, ?_, ?_, by rw [hf, hm]; rfl⟩
      · intro hxy
        rw [hm] at h3
        have : x = y := Prod.ext (hx.trans hy.symm) hxy
        simp [this] at h3
      · rw [show ((e, x.2) : (Nat × Nat) × Nat) = x from Prod.ext hx.symm rfl,
          show ((e, y.2) : (Nat × Nat) × Nat) = y from Prod.ext hy.symm rfl]
        exact hm
    | x :: y :: z :: r => rw [hm] at h1; simp at h1
  refine ⟨?_, ?_, ?_⟩
  · rw [List.nodup_iff_count_le_one]
    intro e
    rw [List.count, List.countP_map, List.countP_eq_length_filter]
    have e1 : ((fun x => x == e) ∘ Prod.fst : (Nat × Nat) × (Nat × Nat) → Bool) = fun x => decide (x.1 = e) := by
      funext x; simp [Function.comp, Bool.beq_eq_decide_eq]
    rw [e1]
    rcases shape e with ⟨_, h⟩ | ⟨i, _, h⟩ | ⟨i, j, _, _, h⟩ <;> rw [h] <;> simp
  · intro e i j h
    have h' : (e, i, j) ∈ (equalKeyed l).filter (fun x => decide (x.1 = e)) := by simp [h]
    rcases shape e with ⟨_, hh⟩ | ⟨_, _, hh⟩ | ⟨i', j', hne, hl, hh⟩
    · rw [hh] at h'; simp at h'
    · rw [hh] at h'; simp at h'
    · rw [hh, List.mem_singleton] at h'
      simp only [Prod.mk.injEq, true_and] at h'
      obtain ⟨rfl, rfl⟩ := h'
      refine ⟨hne, ?_, ?_⟩ <;> rw [hmem, hl] <;> simp
  · intro e i j hij hi hj
    rw [hmem] at hi hj
    rcases shape e with ⟨hl, _⟩ | ⟨i', hl, _⟩ | ⟨i', j', hne, hl, hh⟩
    · rw [hl] at hi; simp at hi
    · rw [hl] at hi hj; simp at hi hj; omega
    · rw [hl] at hi hj
      have hm : (e, i', j') ∈ equalKeyed l := by
        have : (e, i', j') ∈ (equalKeyed l).filter (fun x => decide (x.1 = e)) := by rw [hh]; simp
        exact (List.mem_filter.1 this).1
      simp at hi hj
      rcases hi with rfl | rfl <;> rcases hj with rfl | rfl
      · exact absurd rfl hij
      · exact Or.inl hm
      · exact Or.inr hm
      · exact absurd rfl hij

theorem hasEdge_sides {f : Tri} (hf : Nondegenerate f) : ([(f.a, f.b), (f.a, f.c), (f.b, f.c)].map sortPair).Nodup :=
  (sortedSides_perm f).nodup_iff.1 (sortedSides_nodup hf)

theorem hasEdge_sortPair (g : Tri) (e : Nat × Nat) : HasEdge g (sortPair e).1 (sortPair e).2 ↔ HasEdge g e.1 e.2 := by
  obtain ⟨u, v⟩ := e
  unfold sortPair
  rcases Nat.le_total u v with h | h <;> simp only [Nat.min_eq_left, Nat.min_eq_right, Nat.max_eq_left, Nat.max_eq_right, h]
  unfold HasEdge; constructor <;> rintro ⟨h1, h2, h3⟩ <;> exact ⟨fun h => h1 h.symm, h3, h2⟩

/-- `sharedEdges` counts the common sides (as sorted pairs). -/
theorem sharedEdges_eq {f g : Tri} (hf : Nondegenerate f) (hg : Nondegenerate g) {r : List (Nat × Nat)} (hr : r.Nodup)
    (h : ∀ e, e ∈ r ↔ e.1 ≤ e.2 ∧ HasSide f e.1 e.2 ∧ HasSide g e.1 e.2) : r.length = sharedEdges f g := by
  have h1 : (([(f.a, f.b), (f.a, f.c), (f.b, f.c)].filter fun e => HasEdge g e.1 e.2).map sortPair).Nodup :=
    (hasEdge_sides hf).sublist ((List.filter_sublist).map sortPair)
  have h2 : r.Perm (([(f.a, f.b), (f.a, f.c), (f.b, f.c)].filter fun e => HasEdge g e.1 e.2).map sortPair) := by
    rw [List.perm_ext_iff_of_nodup hr h1]
    intro e
    have key : e.1 ≤ e.2 ∧ HasSide f e.1 e.2 ↔ e ∈ [(f.a, f.b), (f.a, f.c), (f.b, f.c)].map sortPair :=
      (mem_sortedSides f e.1 e.2).symm.trans (sortedSides_perm f).mem_iff
    rw [h, ← and_assoc, key, hasSide_iff_hasEdge hg]
    simp only [List.mem_map, List.mem_filter, decide_eq_true_eq]
    constructor
    · rintro ⟨⟨e', h1, rfl⟩, h2⟩
      exact ⟨e', ⟨h1, (hasEdge_sortPair g e').1 h2⟩, rfl⟩
    · rintro ⟨e', ⟨h1, h2⟩, rfl⟩
      exact ⟨⟨e', h1, rfl⟩, (hasEdge_sortPair g e').2 h2⟩
  rw [h2.length_eq, List.length_map]
  rfl

/-- On a conforming table of non-degenerate triangles the sorted side table has at most two rows per key. -/
theorem side_counts {t : List Tri} (ht : ∀ f ∈ t, Nondegenerate f) (hc : Conforming t) (e : Nat × Nat) :
    ((sideRows 0 t).map Prod.fst).count e ≤ 2 := by
  rw [(sideRows_keys_perm t 0).count_eq]
  by_cases he : e.1 < e.2
  · obtain ⟨u, v⟩ := e
    rw [count_edges t ht u v he]; exact hc u v
  · have : e ∉ (getEdges t).map sortPair := fun h => he (sortPair_mem_lt t ht e h)
    rw [List.count_eq_zero_of_not_mem this]; omega

/-- How often a face occurs in the block of a face. -/
theorem faceNeighbours_count {srt : KeySort (Nat × Nat) Nat lexOrder.le} {t : List Tri}
    (ht : ∀ f ∈ t, Nondegenerate f) (hc : Conforming t) {c : Nat} {f : Tri} (hf : t[c]? = some f) {ns : List Nat}
    (hns : faceNeighbours srt t c = some ns) :
    ns.count c = 1 ∧ ∀ g h, g ≠ c → t[g]? = some h → ns.count g = sharedEdges f h := by
  have hcl : c < t.length := (List.getElem?_eq_some_iff.1 hf).1
  obtain ⟨rows, h1, h2⟩ := faceToFace_block srt t hcl
  have hns' : ns = rows.map Prod.snd := by
    rw [faceNeighbours, h1] at hns; simpa using hns.symm
  subst hns'
  have hl := srt.perm (sideRows 0 t)
  obtain ⟨k1, k2, k3⟩ := equalKeyed_two (srt.sorted (sideRows 0 t)) (hl.nodup_iff.2 (sideRows_nodup t 0 ht))
    (fun e => by rw [(hl.map Prod.fst).count_eq]; exact side_counts ht hc e)
  have hpairs : facePairs srt t = (equalKeyed (srt.run (sideRows 0 t))).map Prod.snd := (equalKeyed_snd _).symm
  have hcount : ∀ g, (rows.map Prod.snd).count g =
      (facePairs srt t).countP (fun x => decide (x.1 = c ∧ x.2 = g)) +
        ((facePairs srt t).countP (fun x => decide (x.2 = c ∧ x.1 = g)) + [c].count g) := by
    intro g
    rw [h2.count_eq, List.count_append, List.count_append]
    congr 1
    · rw [List.count, List.countP_map, List.countP_filter]
      apply List.countP_congr; intro x _; simp [and_comm]
    · congr 1
      rw [List.count, List.countP_map, List.countP_filter]
      apply List.countP_congr; intro x _; simp [and_comm]
  constructor
  · rw [hcount]
    have hz : ∀ P : Nat × Nat → Bool, (∀ x, P x = true → x.1 = x.2) → (facePairs srt t).countP P = 0 := by
      intro P hP
      rw [List.countP_eq_zero, hpairs]
      intro x hx hPx
      obtain ⟨⟨e, i, j⟩, hm, rfl⟩ := List.mem_map.1 hx
      exact (k2 e i j hm).1 (hP _ hPx)
    rw [hz _ (fun x hx => by simp at hx; omega), hz _ (fun x hx => by simp at hx; omega)]
    simp
  · intro g h hgc hg
    have e0 : [c].count g = 0 := by rw [List.count_eq_zero]; simpa using hgc
    rw [hcount, e0, Nat.add_zero]
    have hor : (facePairs srt t).countP (fun x => decide (x.1 = c ∧ x.2 = g)) +
        (facePairs srt t).countP (fun x => decide (x.2 = c ∧ x.1 = g)) =
        (facePairs srt t).countP (fun x => decide ((x.1 = c ∧ x.2 = g) ∨ (x.2 = c ∧ x.1 = g))) := by
      generalize facePairs srt t = L
      induction L with
      | nil => rfl
      | cons x L ih =>
        simp only [List.countP_cons]
        rw [← ih]
        by_cases ha : x.1 = c ∧ x.2 = g
        · have hb : ¬ (x.2 = c ∧ x.1 = g) := by omega
          rw [if_pos (by simpa using ha), if_neg (by simpa using hb), if_pos (by simp [ha])]; omega
        · by_cases hb : x.2 = c ∧ x.1 = g
          · rw [if_neg (by simpa using ha), if_pos (by simpa using hb), if_pos (by simp [hb])]; omega
          · rw [if_neg (by simpa using ha), if_neg (by simpa using hb), if_neg (by
              rw [decide_eq_true_eq]; tauto)]; omega
    rw [hor, hpairs, List.countP_map, List.countP_eq_length_filter]
    rw [← List.length_map (f := Prod.fst)]
    refine sharedEdges_eq (ht f (List.mem_of_getElem? hf)) (ht h (List.mem_of_getElem? hg))
      (k1.sublist ((List.filter_sublist).map Prod.fst)) ?_
    intro e
    have hside : ∀ {k x}, t[k]? = some x → ((e, k) ∈ srt.run (sideRows 0 t) ↔ e.1 ≤ e.2 ∧ HasSide x e.1 e.2) := by
      intro k x hx
      rw [hl.mem_iff, mem_sideRows_zero]
      constructor
      · rintro ⟨y, hy, hh⟩; rw [hx] at hy; cases hy; exact hh
      · intro hh; exact ⟨x, hx, hh⟩
    constructor
    · intro he
      obtain ⟨⟨e', i, j⟩, hm, rfl⟩ := List.mem_map.1 he
      obtain ⟨hm1, hm2⟩ := List.mem_filter.1 hm
      simp only [Function.comp_apply, decide_eq_true_eq] at hm2
      obtain ⟨_, hi, hj⟩ := k2 _ _ _ hm1
      dsimp only at hside ⊢
      rcases hm2 with ⟨rfl, rfl⟩ | ⟨rfl, rfl⟩
      · have a1 := (hside hf).1 hi
        have a2 := (hside hg).1 hj
        exact ⟨a1.1, a1.2, a2.2⟩
      · have a1 := (hside hf).1 hj
        have a2 := (hside hg).1 hi
        exact ⟨a1.1, a1.2, a2.2⟩
    · rintro ⟨he, hs1, hs2⟩
      have a1 := (hside hf).2 ⟨he, hs1⟩
      have a2 := (hside hg).2 ⟨he, hs2⟩
      rw [List.mem_map]
      rcases k3 e c g (Ne.symm hgc) a1 a2 with hm | hm
      · exact ⟨(e, c, g), List.mem_filter.2 ⟨hm, by simp⟩, rfl⟩
      · exact ⟨(e, g, c), List.mem_filter.2 ⟨hm, by simp⟩, rfl⟩

/-! ## Vertices -/

theorem mem_cornerRows : ∀ (t : List Tri) (i v k : Nat),
    (v, k) ∈ cornerRows i t ↔ ∃ j f, k = i + j ∧ t[j]? = some f ∧ HasVertex f v
  | [], i, v, k => by simp [cornerRows]
  | f :: t, i, v, k => by
    have ih := mem_cornerRows t (i + 1) v k
    have key : (v, k) ∈ cornerRows i (f :: t) ↔ (k = i ∧ HasVertex f v) ∨ (v, k) ∈ cornerRows (i + 1) t := by
      simp only [cornerRows, List.mem_cons, Prod.mk.injEq, HasVertex]
      tauto
    rw [key, ih]
    constructor
    · rintro (⟨h1, h2⟩ | ⟨j, g, h1, h2, h3⟩)
      · exact ⟨0, f, by omega, rfl, h2⟩
      · exact ⟨j + 1, g, by omega, h2, h3⟩
    · rintro ⟨j, g, h1, h2, h3⟩
      cases j with
      | zero => left; simp at h2; subst h2; exact ⟨by omega, h3⟩
      | succ j => right; exact ⟨j, g, by omega, by simpa using h2, h3⟩

theorem mem_cornerRows_zero {t : List Tri} {v k : Nat} :
    (v, k) ∈ cornerRows 0 t ↔ ∃ f, t[k]? = some f ∧ HasVertex f v := by
  rw [mem_cornerRows]
  constructor
  · rintro ⟨j, f, h1, h2⟩; rw [Nat.zero_add] at h1; subst h1; exact ⟨f, h2⟩
  · rintro ⟨f, h⟩; exact ⟨k, f, by omega, h⟩

theorem cornerRows_nodup : ∀ (t : List Tri) (i : Nat), (∀ f ∈ t, Nondegenerate f) → (cornerRows i t).Nodup
  | [], _, _ => List.nodup_nil
  | f :: t, i, h => by
    have ih := cornerRows_nodup t (i + 1) fun g hg => h g (List.mem_cons_of_mem _ hg)
    have hs : [f.a, f.b, f.c].Nodup := by
      have := h f (by simp); unfold Nondegenerate at this; simp; tauto
    have e : cornerRows i (f :: t) = ([f.a, f.b, f.c].map fun e => (e, i)) ++ cornerRows (i + 1) t := rfl
    rw [e, List.nodup_append]
    refine ⟨hs.map fun a b hab => (Prod.mk.inj hab).1, ih, ?_⟩
    intro x hx y hy hxy
    subst hxy
    obtain ⟨v, k⟩ := x
    obtain ⟨j, g, h1, _⟩ := (mem_cornerRows t (i + 1) v k).1 hy
    obtain ⟨e, _, he⟩ := List.mem_map.1 hx
    have := (Prod.mk.inj he).2
    omega

theorem slice_map {α β : Type} (g : α → β) (l : List α) (a b : Nat) : slice (l.map g) a b = (slice l a b).map g := by
  unfold slice; rw [← List.map_take, List.map_drop]

theorem block_map {α β : Type} (g : α → β) (l : List α) (ix : List Nat) (c : Nat) :
    block (l.map g) ix c = (block l ix c).map (List.map g) := by
  unfold block
  rcases ix[c]? with _ | a
  · rfl
  · rcases ix[c + 1]? with _ | b
    · rfl
    · dsimp only; rw [slice_map]; rfl

/-- The vertex-to-face table on a mesh in which exactly the vertices `0 … n-1` are used. -/
theorem vertexToFace_block (srt : KeySort Nat Nat natOrder.le) {t : List Tri} {n : Nat}
    (hv : ∀ f ∈ t, ∀ v, HasVertex f v → v < n) (hu : ∀ v < n, ∃ f ∈ t, HasVertex f v) {v : Nat} (hvn : v < n) :
    ∃ l, block (vertexToFace srt t).1 (vertexToFace srt t).2 v = some l ∧
      (∀ k, k ∈ l ↔ ∃ f, t[k]? = some f ∧ HasVertex f v) ∧ ((∀ f ∈ t, Nondegenerate f) → l.Nodup) := by
  have hperm := srt.perm (cornerRows 0 t)
  have hsorted : (srt.run (cornerRows 0 t)).Pairwise (fun x y => x.1 ≤ y.1) :=
    (srt.sorted _).imp fun h => by simpa [natOrder] using h
  have hb := block_eq_filter Prod.fst (n := n) hsorted
    (by
      intro k hk
      obtain ⟨f, hf, hfv⟩ := hu k hk
      obtain ⟨j, hj⟩ := List.mem_iff_getElem?.1 hf
      rw [(hperm.map Prod.fst).mem_iff, List.mem_map]
      exact ⟨(k, j), mem_cornerRows_zero.2 ⟨f, hj, hfv⟩, rfl⟩)
    (by
      intro k hk
      rw [(hperm.map Prod.fst).mem_iff, List.mem_map] at hk
      obtain ⟨⟨u, j⟩, h1, rfl⟩ := hk
      obtain ⟨f, hf, hfv⟩ := mem_cornerRows_zero.1 h1
      exact hv f (List.mem_of_getElem? hf) _ hfv) hvn
  refine ⟨((srt.run (cornerRows 0 t)).filter fun x => decide (x.1 = v)).map Prod.snd, ?_, ?_, ?_⟩
  · unfold vertexToFace
    dsimp only
    rw [block_map, hb]
    rfl
  · intro k
    rw [← mem_cornerRows_zero, ← hperm.mem_iff]
    simp only [List.mem_map, List.mem_filter, decide_eq_true_eq]
    constructor
    · rintro ⟨x, ⟨h1, rfl⟩, rfl⟩; exact h1
    · intro h; exact ⟨_, ⟨h, rfl⟩, rfl⟩
  · intro hnd
    have hn : (srt.run (cornerRows 0 t)).Nodup := hperm.nodup_iff.2 (cornerRows_nodup t 0 hnd)
    refine List.Nodup.map_on ?_ (hn.filter _)
    intro x hx y hy hxy
    have h1 := (List.mem_filter.1 hx).2
    have h2 := (List.mem_filter.1 hy).2
    simp only [decide_eq_true_eq] at h1 h2
    exact Prod.ext (h1.trans h2.symm) hxy

end OM
