import Verif.Lemmas.Clean8
import Mathlib.Algebra.BigOperators.Group.Finset.Basic
/-!
# How many rows of the face table a face has, for any number of faces on an edge
-/
namespace OM
open Spec

/-- The pairs of consecutive entries. -/
def succPairs (l : List Nat) : List (Nat × Nat) := l.zip l.tail

theorem succPairs_fst : ∀ l : List Nat, (succPairs l).map Prod.fst = l.dropLast
  | [] => rfl
  | [_] => rfl
  | x :: y :: l => by
    have := succPairs_fst (y :: l)
    simp only [succPairs, List.tail_cons, List.zip_cons_cons, List.map_cons, List.dropLast_cons₂] at this ⊢
    rw [this]

theorem succPairs_snd (l : List Nat) : (succPairs l).map Prod.snd = l.tail := by
  unfold succPairs
  rw [List.map_snd_zip]
  simp

/-- The faces on the edge with the key `e`, in the order of the rows. -/
def facesOn (L : List ((Nat × Nat) × Nat)) (e : Nat × Nat) : List Nat := (L.filter fun x => x.1 = e).map Prod.snd

theorem equalNeighbours_countP (P : Nat × Nat → Bool) : ∀ {L : List ((Nat × Nat) × Nat)}, L.Pairwise (fun x y => lexOrder.le x.1 y.1 = true) →
    (equalNeighbours L).countP P = ∑ e ∈ (L.map Prod.fst).toFinset, (succPairs (facesOn L e)).countP P
  | [], _ => by simp [equalNeighbours]
  | [x], _ => by simp [equalNeighbours, facesOn, succPairs]
  | x :: y :: l, hs => by
    have hs' := (List.pairwise_cons.1 hs).2
    have ih := equalNeighbours_countP P hs'
    rw [equalNeighbours]
    have other : ∀ e, e ≠ x.1 → facesOn (x :: y :: l) e = facesOn (y :: l) e := by
      intro e he
      unfold facesOn
      rw [List.filter_cons_of_neg (by simpa using fun h => he h.symm)]
    have own : facesOn (x :: y :: l) x.1 = x.2 :: facesOn (y :: l) x.1 := by
      unfold facesOn
      rw [List.filter_cons_of_pos (by simp), List.map_cons]
    split
    · rename_i hxy
      have hset : ((x :: y :: l).map Prod.fst).toFinset = ((y :: l).map Prod.fst).toFinset := by
        simp [hxy]
      have hmem : x.1 ∈ ((y :: l).map Prod.fst).toFinset := by simp [hxy]
      have hy : facesOn (y :: l) x.1 = y.2 :: facesOn l x.1 := by
        unfold facesOn
        rw [List.filter_cons_of_pos (by simpa using hxy.symm), List.map_cons]
      rw [List.countP_cons, ih, hset, ← Finset.add_sum_erase _ _ hmem, ← Finset.add_sum_erase _ (fun e => (succPairs (facesOn (x :: y :: l) e)).countP P) hmem]
      have h1 : (succPairs (facesOn (x :: y :: l) x.1)).countP P = (succPairs (facesOn (y :: l) x.1)).countP P + if P (x.2, y.2) = true then 1 else 0 := by
        rw [own, hy]
        simp only [succPairs, List.tail_cons, List.zip_cons_cons, List.countP_cons]
      have h2 : ∑ e ∈ (((y :: l).map Prod.fst).toFinset).erase x.1, (succPairs (facesOn (x :: y :: l) e)).countP P =
          ∑ e ∈ (((y :: l).map Prod.fst).toFinset).erase x.1, (succPairs (facesOn (y :: l) e)).countP P :=
        Finset.sum_congr rfl fun e he => by rw [other e (Finset.ne_of_mem_erase he)]
      rw [h1, h2]; omega
    · rename_i hxy
      have hnot : x.1 ∉ ((y :: l).map Prod.fst).toFinset := by
        intro hm
        rw [List.mem_toFinset, List.mem_map] at hm
        obtain ⟨z, hz, hzx⟩ := hm
        have h1 := (List.pairwise_cons.1 hs).1 y (by simp)
        have h2 : lexOrder.le y.1 x.1 = true := by
          rcases List.mem_cons.1 hz with rfl | hz
          · rw [hzx]; have := lexOrder.total x.1 x.1; simpa using this
          · rw [← hzx]; exact (List.pairwise_cons.1 hs').1 z hz
        exact hxy (lexOrder.antisymm _ _ h1 h2)
      have hset : ((x :: y :: l).map Prod.fst).toFinset = insert x.1 ((y :: l).map Prod.fst).toFinset := by
        rw [List.map_cons, List.toFinset_cons]
      rw [ih, hset, Finset.sum_insert hnot]
      have h1 : facesOn (y :: l) x.1 = [] := by
        unfold facesOn
        rw [List.map_eq_nil_iff, List.filter_eq_nil_iff]
        intro z hz h
        apply hnot
        rw [List.mem_toFinset]
        exact List.mem_map.2 ⟨z, hz, by simpa using h⟩
      rw [own, h1]
      have h2 : ∑ e ∈ ((y :: l).map Prod.fst).toFinset, (succPairs (facesOn (x :: y :: l) e)).countP P =
          ∑ e ∈ ((y :: l).map Prod.fst).toFinset, (succPairs (facesOn (y :: l) e)).countP P :=
        Finset.sum_congr rfl fun e he => by rw [other e fun h => hnot (h ▸ he)]
      rw [h2]
      simp [succPairs]

/-- How often a face is linked through one edge. -/
def linksOn (F : List Nat) (c : Nat) : Nat := (succPairs F).countP (fun x => decide (x.1 = c)) + (succPairs F).countP (fun x => decide (x.2 = c))

theorem linksOn_eq (F : List Nat) (c : Nat) : linksOn F c = F.dropLast.count c + F.tail.count c := by
  unfold linksOn
  rw [← succPairs_fst, ← succPairs_snd, List.count_eq_countP, List.count_eq_countP, List.countP_map, List.countP_map]
  congr 1 <;> (apply List.countP_congr; intro x _; simp)

theorem linksOn_not_mem {F : List Nat} {c : Nat} (h : c ∉ F) : linksOn F c = 0 := by
  rw [linksOn_eq, List.count_eq_zero_of_not_mem fun h' => h (List.mem_of_mem_dropLast h'), List.count_eq_zero_of_not_mem fun h' => h (List.mem_of_mem_tail h')]

/-- A face is linked once if it is the first or the last of several on the edge, twice if it is between others. -/
theorem linksOn_nodup {F : List Nat} (hn : F.Nodup) {c : Nat} (h : c ∈ F) :
    linksOn F c = (if F.getLast? = some c then 0 else 1) + if F.head? = some c then 0 else 1 := by
  rw [linksOn_eq]
  congr 1
  · have hne : F ≠ [] := List.ne_nil_of_mem h
    have e := List.dropLast_append_getLast hne
    have hl : F.getLast? = some (F.getLast hne) := List.getLast?_eq_some_getLast hne
    have hc : F.count c = 1 := List.count_eq_one_of_mem hn h
    rw [← e, List.count_append, List.count_singleton] at hc
    rw [hl]
    by_cases hh : F.getLast hne = c
    · simp only [hh, beq_self_eq_true, if_true] at hc ⊢; omega
    · simp only [hh, Option.some.injEq, if_false, beq_iff_eq] at hc ⊢; omega
  · cases F with
    | nil => simp at h
    | cons a F =>
      have hc : (a :: F).count c = 1 := List.count_eq_one_of_mem hn h
      rw [List.count_cons] at hc
      simp only [List.head?_cons, Option.some.injEq, List.tail_cons, beq_iff_eq] at hc ⊢
      split at hc <;> rename_i hh
      · rw [if_pos hh]; omega
      · rw [if_neg hh]; omega

theorem linksOn_zero_iff {F : List Nat} (hn : F.Nodup) {c : Nat} (h : c ∈ F) : linksOn F c = 0 ↔ ∀ g ∈ F, g = c := by
  rw [linksOn_nodup hn h]
  cases F with
  | nil => simp at h
  | cons a F =>
    cases F with
    | nil =>
      rw [List.mem_singleton] at h; subst h; simp
    | cons b F =>
      constructor
      · intro h0
        exfalso
        have h1 : (a :: b :: F).getLast? = some c := by
          by_contra h; rw [if_neg h] at h0; omega
        have h2 : (a :: b :: F).head? = some c := by
          by_contra h; rw [if_neg h] at h0; omega
        rw [List.head?_cons, Option.some.injEq] at h2
        rw [List.getLast?_cons_cons] at h1
        have := (List.nodup_cons.1 hn).1
        exact this (h2 ▸ List.mem_of_getLast? h1)
      · intro hall
        exfalso
        have h1 := hall a (by simp)
        have h2 := hall b (by simp)
        have := (List.nodup_cons.1 hn).1
        apply this; rw [h1, h2]; simp

theorem linksOn_one_of_two {F : List Nat} (hn : F.Nodup) {c g : Nat} (h : c ∈ F) (hg : g ∈ F) (hgc : g ≠ c) (hall : ∀ x ∈ F, x = c ∨ x = g) : linksOn F c = 1 := by
  have hp : F.Perm [c, g] := by
    rw [List.perm_ext_iff_of_nodup hn (by simpa using Ne.symm hgc)]
    intro x
    simp only [List.mem_cons, List.not_mem_nil, or_false]
    constructor
    · exact hall x
    · rintro (rfl | rfl) <;> assumption
  have hlen := hp.length_eq
  obtain ⟨a, b, rfl⟩ : ∃ a b, F = [a, b] := by
    match F, hlen with
    | [a, b], _ => exact ⟨a, b, rfl⟩
  rw [linksOn_nodup hn h]
  have hab : a ≠ b := by simpa using hn
  rcases List.mem_cons.1 h with rfl | h
  · simp [hab.symm]
  · rw [List.mem_singleton] at h; subst h; simp [hab]

theorem mem_facesOn {srt : KeySort (Nat × Nat) Nat lexOrder.le} {t : List Tri} (ht : ∀ f ∈ t, Nondegenerate f) {e : Nat × Nat} (he : e.1 < e.2) (g : Nat) :
    g ∈ facesOn (srt.run (sideRows 0 t)) e ↔ ∃ h, t[g]? = some h ∧ HasEdge h e.1 e.2 := by
  unfold facesOn
  rw [List.mem_map]
  constructor
  · rintro ⟨⟨e', g'⟩, hx, rfl⟩
    obtain ⟨h1, h2⟩ := List.mem_filter.1 hx
    have h2 : e' = e := by simpa using h2
    subst h2
    obtain ⟨f, hf, -, hs⟩ := mem_sideRows_zero.1 ((srt.perm _).mem_iff.1 h1)
    exact ⟨f, hf, (hasSide_iff_hasEdge (ht f (List.mem_of_getElem? hf)) _ _).1 hs⟩
  · rintro ⟨f, hf, hs⟩
    exact ⟨(e, g), List.mem_filter.2 ⟨(srt.perm _).mem_iff.2 (mem_sideRows_zero.2 ⟨f, hf, he.le, (hasSide_iff_hasEdge (ht f (List.mem_of_getElem? hf)) _ _).2 hs⟩), by simp⟩, rfl⟩

theorem facesOn_nodup {srt : KeySort (Nat × Nat) Nat lexOrder.le} {t : List Tri} (ht : ∀ f ∈ t, Nondegenerate f) (e : Nat × Nat) :
    (facesOn (srt.run (sideRows 0 t)) e).Nodup := by
  unfold facesOn
  refine List.Nodup.map_on ?_ (((srt.perm _).nodup_iff.2 (sideRows_nodup _ 0 ht)).filter _)
  rintro ⟨e1, g1⟩ h1 ⟨e2, g2⟩ h2 hg
  have h1 : e1 = e := by simpa using (List.mem_filter.1 h1).2
  have h2 : e2 = e := by simpa using (List.mem_filter.1 h2).2
  rw [h1, h2]; exact congrArg _ hg

/-- The three sides of a face as keys. -/
def sideKeys (f : Tri) : List (Nat × Nat) := [(f.sort.a, f.sort.b), (f.sort.a, f.sort.c), (f.sort.b, f.sort.c)]

/-- **The number of rows of a face**: one, and one or two for each of its sides with other faces. -/
theorem block_length {srt : KeySort (Nat × Nat) Nat lexOrder.le} {t : List Tri} (ht : ∀ f ∈ t, Nondegenerate f) {c : Nat} {f : Tri} (hf : t[c]? = some f) :
    ∃ rows, block (faceToFace srt t).1 (faceToFace srt t).2 c = some rows ∧
      rows.length = 1 + ((sideKeys f).map fun e => linksOn (facesOn (srt.run (sideRows 0 t)) e) c).sum := by
  have hcl := (List.getElem?_eq_some_iff.1 hf).1
  obtain ⟨rows, hb, hperm⟩ := faceToFace_block srt t hcl
  refine ⟨rows, hb, ?_⟩
  have hlen := hperm.length_eq
  simp only [List.length_map, List.length_append, List.length_cons, List.length_nil, ← List.countP_eq_length_filter] at hlen
  unfold facePairs at hlen
  rw [equalNeighbours_countP _ (srt.sorted _), equalNeighbours_countP _ (srt.sorted _)] at hlen
  have hsum : ∑ e ∈ ((srt.run (sideRows 0 t)).map Prod.fst).toFinset, linksOn (facesOn (srt.run (sideRows 0 t)) e) c =
      ((sideKeys f).map fun e => linksOn (facesOn (srt.run (sideRows 0 t)) e) c).sum := by
    have hk : (sideKeys f).Nodup := sortedSides_nodup (ht f (List.mem_of_getElem? hf))
    rw [← List.sum_toFinset _ hk]
    symm
    refine Finset.sum_subset ?_ ?_
    · intro e he
      rw [List.mem_toFinset] at he ⊢
      have he' := (mem_sortedSides f e.1 e.2).1 he
      exact List.mem_map.2 ⟨(e, c), (srt.perm _).mem_iff.2 (mem_sideRows_zero.2 ⟨f, hf, he'⟩), rfl⟩
    · intro e _ he
      apply linksOn_not_mem
      intro hm
      unfold facesOn at hm
      obtain ⟨⟨e', g⟩, hx, rfl⟩ := List.mem_map.1 hm
      obtain ⟨h1, h2⟩ := List.mem_filter.1 hx
      have h2 : e' = e := by simpa using h2
      subst h2
      obtain ⟨f', hf', h3⟩ := mem_sideRows_zero.1 ((srt.perm _).mem_iff.1 h1)
      rw [hf] at hf'; cases hf'
      exact he (List.mem_toFinset.2 ((mem_sortedSides f e'.1 e'.2).2 h3))
  rw [← hsum]
  unfold linksOn
  rw [Finset.sum_add_distrib]
  omega

end OM
