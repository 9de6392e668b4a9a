import Verif.Lemmas.Clean7
import Verif.Lemmas.Orders
import Verif.Lemmas.Stable
/-!
# Boundary degrees, and the loop of `delete_faces_connected_to_one_face`
-/
set_option linter.unusedSectionVars false
namespace OM
open Spec

/-! ## Boundary degree -/

theorem IsBoundaryEdge.symm' {t : List Tri} {u v : Nat} (h : IsBoundaryEdge t u v) : IsBoundaryEdge t v u := by
  unfold IsBoundaryEdge at *; rw [edgeMultiplicity_symm]; exact h

theorem IsBoundaryEdge.exists {t : List Tri} {u v : Nat} (h : IsBoundaryEdge t u v) :
    u ≠ v ∧ ∃ f ∈ t, HasVertex f u ∧ HasVertex f v := by
  have hpos : 0 < (t.filter fun f => HasEdge f u v).length := by
    have : edgeMultiplicity t u v = 1 := h
    unfold edgeMultiplicity at this; omega
  obtain ⟨f, hf⟩ := List.exists_mem_of_length_pos hpos
  obtain ⟨h1, h2⟩ := List.mem_filter.1 hf
  have h2 : HasEdge f u v := by simpa using h2
  exact ⟨h2.1, f, h1, h2.2.1, h2.2.2⟩

theorem mem_boundaryNeighbours {t : List Tri} {v w : Nat} : w ∈ boundaryNeighbours t v ↔ IsBoundaryEdge t v w := by
  unfold boundaryNeighbours
  rw [List.mem_filter, decide_eq_true_eq, List.mem_dedup]
  refine ⟨fun h => h.2, fun h => ⟨?_, h⟩⟩
  obtain ⟨-, f, hf, -, hw⟩ := IsBoundaryEdge.exists h
  rw [List.mem_flatMap]
  exact ⟨f, hf, (hasVertex_iff_mem f w).1 hw⟩

theorem boundary_ne {o : RowOrder (Nat × Nat)} {t : List Tri} (ht : ∀ f ∈ t, Nondegenerate f) :
    ∀ e ∈ getBoundaryEdges o t, e.1 ≠ e.2 := by
  rintro ⟨u, v⟩ he
  have := ((mem_boundary_iff o t ht u v).1 he).1
  dsimp only; omega

/-- The model's boundary table has the boundary degrees of the specification. -/
theorem degree_eq_boundaryDegree (o : RowOrder (Nat × Nat)) {t : List Tri} (ht : ∀ f ∈ t, Nondegenerate f) (v : Nat) :
    degree (getBoundaryEdges o t) v = boundaryDegree t v := by
  unfold degree boundaryDegree
  rw [← List.length_map (f := fun e : Nat × Nat => if e.1 = v then e.2 else e.1)]
  apply List.Perm.length_eq
  have hmem : ∀ u w, (u, w) ∈ getBoundaryEdges o t ↔ u < w ∧ IsBoundaryEdge t u w := mem_boundary_iff o t ht
  rw [List.perm_ext_iff_of_nodup]
  · intro w
    rw [mem_boundaryNeighbours, List.mem_map]
    constructor
    · rintro ⟨⟨a, b⟩, he, rfl⟩
      obtain ⟨h1, h2⟩ := List.mem_filter.1 he
      obtain ⟨h3, h4⟩ := (hmem a b).1 h1
      simp only [decide_eq_true_eq] at h2
      by_cases hav : a = v
      · subst hav; rw [if_pos rfl]; exact h4
      · rw [if_neg hav]
        rcases h2 with h2 | h2
        · exact absurd h2 hav
        · subst h2; exact IsBoundaryEdge.symm' h4
    · intro h
      have hne := (IsBoundaryEdge.exists h).1
      rcases Nat.lt_or_ge v w with hlt | hge
      · exact ⟨(v, w), List.mem_filter.2 ⟨(hmem v w).2 ⟨hlt, h⟩, by simp⟩, by simp⟩
      · refine ⟨(w, v), List.mem_filter.2 ⟨(hmem w v).2 ⟨by omega, IsBoundaryEdge.symm' h⟩, by simp⟩, ?_⟩
        rw [if_neg (fun h => hne h.symm)]
  · refine List.Nodup.map_on ?_ ((boundary_nodup o t).filter _)
    rintro ⟨a, b⟩ hx ⟨c, d⟩ hy hxy
    obtain ⟨h1, h2⟩ := List.mem_filter.1 hx
    obtain ⟨h3, h4⟩ := List.mem_filter.1 hy
    have e1 := ((hmem a b).1 h1).1
    have e2 := ((hmem c d).1 h3).1
    simp only [decide_eq_true_eq] at h2 h4
    dsimp only at hxy
    rw [Prod.mk.injEq]
    split at hxy <;> split at hxy <;> omega
  · exact (List.nodup_dedup _).filter _

theorem count_boundary (o : RowOrder (Nat × Nat)) {t : List Tri} (ht : ∀ f ∈ t, Nondegenerate f) (v : Nat) :
    (flatPairs (getBoundaryEdges o t)).count v = boundaryDegree t v := by
  rw [count_flatPairs (boundary_ne ht), degree_eq_boundaryDegree o ht]

theorem mem_flat_boundary (o : RowOrder (Nat × Nat)) {t : List Tri} (ht : ∀ f ∈ t, Nondegenerate f) (v : Nat) :
    v ∈ flatPairs (getBoundaryEdges o t) ↔ 0 < boundaryDegree t v := by
  rw [← count_boundary o ht, List.count_pos_iff]

/-! ## Blocks of two -/

theorem mem_blocksOfTwo : ∀ (l : List Nat) (i k : Nat),
    k ∈ blocksOfTwo i l ↔ ∃ j a, k = i + j ∧ l[j]? = some a ∧ l[j + 1]? = some (a + 2)
  | [], i, k => by simp [blocksOfTwo]
  | [_], i, k => by simp [blocksOfTwo]
  | a :: b :: l, i, k => by
    have ih := mem_blocksOfTwo (b :: l) (i + 1) k
    have hsplit : (∃ j a', k = i + j ∧ (a :: b :: l)[j]? = some a' ∧ (a :: b :: l)[j + 1]? = some (a' + 2)) ↔
        (k = i ∧ b = a + 2) ∨ ∃ j a', k = i + 1 + j ∧ (b :: l)[j]? = some a' ∧ (b :: l)[j + 1]? = some (a' + 2) := by
      constructor
      · rintro ⟨j, a', h1, h2, h3⟩
        cases j with
        | zero => left; simp at h2 h3; omega
        | succ j => right; exact ⟨j, a', by omega, by simpa using h2, by simpa using h3⟩
      · rintro (⟨rfl, rfl⟩ | ⟨j, a', h1, h2, h3⟩)
        · exact ⟨0, a, by simp⟩
        · exact ⟨j + 1, a', by omega, by simpa using h2, by simpa using h3⟩
    rw [hsplit, ← ih, blocksOfTwo]
    split
    · rename_i h; simp [h]
    · rename_i h; simp [h]

theorem changes_bounds : ∀ (l : List Nat) (i : Nat), (changes i l).Pairwise (· < ·) ∧
    ∀ x ∈ changes i l, i < x ∧ x < i + l.length
  | [], i => by simp [changes]
  | [_], i => by simp [changes]
  | a :: b :: l, i => by
    obtain ⟨h1, h2⟩ := changes_bounds (b :: l) (i + 1)
    rw [changes]
    split
    · refine ⟨h1, fun x hx => ?_⟩
      have := h2 x hx
      simp only [List.length_cons] at *; omega
    · refine ⟨List.pairwise_cons.2 ⟨fun x hx => (h2 x hx).1, h1⟩, fun x hx => ?_⟩
      rcases List.mem_cons.1 hx with rfl | hx
      · simp only [List.length_cons]; omega
      · have := h2 x hx
        simp only [List.length_cons] at *; omega

theorem blockPtrs_strict {keys : List Nat} (hne : keys ≠ []) :
    (blockPtrs keys).Pairwise (· < ·) ∧ ∀ x ∈ blockPtrs keys, x ≤ keys.length := by
  obtain ⟨h1, h2⟩ := changes_bounds keys 0
  have hpos : 0 < keys.length := List.length_pos_iff.2 hne
  unfold blockPtrs
  refine ⟨List.pairwise_cons.2 ⟨?_, List.pairwise_append.2 ⟨h1, List.pairwise_singleton _ _, ?_⟩⟩, ?_⟩
  · intro x hx
    rcases List.mem_append.1 hx with hx | hx
    · exact (h2 x hx).1
    · rw [List.mem_singleton] at hx; omega
  · intro x hx y hy
    rw [List.mem_singleton] at hy
    have := (h2 x hx).2; omega
  · intro x hx
    rcases List.mem_cons.1 hx with rfl | hx
    · omega
    rcases List.mem_append.1 hx with hx | hx
    · have := (h2 x hx).2; omega
    · rw [List.mem_singleton] at hx; omega

/-- The marked blocks are the faces whose block has two rows. -/
theorem mem_blocksOfTwo_faces (srt : KeySort (Nat × Nat) Nat lexOrder.le) (t : List Tri) (c : Nat) :
    c ∈ blocksOfTwo 0 (faceToFace srt t).2 ↔
      c < t.length ∧ ∃ rows, block (faceToFace srt t).1 (faceToFace srt t).2 c = some rows ∧ rows.length = 2 := by
  cases ht : t with
  | nil =>
    have hrun : srt.run [] = [] := List.perm_nil.1 (srt.perm [])
    have : faceToFace srt [] = ([], [0, 0]) := by
      simp [faceToFace, sideRows, hrun, equalNeighbours, sortBy, blockPtrs, changes]
    rw [this]; simp [blocksOfTwo]
  | cons f0 t0 =>
    rw [← ht]
    have hpos : 0 < t.length := by rw [ht]; simp
    -- the sorted table
    set ftof := (faceToFace srt t).1 with hft
    have hix : (faceToFace srt t).2 = blockPtrs (ftof.map Prod.fst) := rfl
    have hmem0 : ∀ x, x ∈ ftof ↔ x ∈ facePairs srt t ++ (facePairs srt t).map (fun x => (x.2, x.1)) ++
        (List.range t.length).map (fun i => (i, i)) := by
      intro x
      exact (sortBy_perm lexOrder.le _).mem_iff
    have hs : (ftof.map Prod.fst).Pairwise (· ≤ ·) := by
      rw [List.pairwise_map]
      refine (RowOrder.sorted lexOrder _).imp ?_
      intro x y hxy
      simp only [lexOrder, decide_eq_true_eq] at hxy
      omega
    have hall : ∀ k < t.length, k ∈ ftof.map Prod.fst := by
      intro k hk
      refine List.mem_map.2 ⟨(k, k), (hmem0 _).2 ?_, rfl⟩
      simp [hk]
    have hlt : ∀ k ∈ ftof.map Prod.fst, k < t.length := by
      intro k hk
      obtain ⟨⟨a, b⟩, hx, rfl⟩ := List.mem_map.1 hk
      have hx := (hmem0 _).1 hx
      simp only [List.mem_append, List.mem_map, List.mem_range] at hx
      rcases hx with (hx | ⟨⟨u, v⟩, hx, he⟩) | ⟨i, hi, he⟩
      · obtain ⟨f, g, h1, -, -⟩ := mem_facePairs hx
        exact (List.getElem?_eq_some_iff.1 h1).1
      · obtain ⟨f, g, -, h2, -⟩ := mem_facePairs hx
        cases he
        exact (List.getElem?_eq_some_iff.1 h2).1
      · cases he; exact hi
    have hptr := blockPtrs_getElem? hs hall hlt hpos
    rw [hix]
    have hkne : ftof.map Prod.fst ≠ [] := List.ne_nil_of_mem (hall 0 hpos)
    obtain ⟨hst, hle⟩ := blockPtrs_strict hkne
    rw [mem_blocksOfTwo]
    have hlast : (blockPtrs (ftof.map Prod.fst))[t.length]? = some (ftof.map Prod.fst).length := by
      rw [hptr t.length (le_refl _), List.countP_eq_length.2]
      intro k hk; simpa using hlt k hk
    constructor
    · rintro ⟨j, a, hj, h1, h2⟩
      have hj : c = j := by omega
      subst hj
      have hc : c < t.length := by
        by_contra hge
        have hge : t.length ≤ c := by omega
        obtain ⟨hl2, hv2⟩ := List.getElem?_eq_some_iff.1 h2
        obtain ⟨hl3, hv3⟩ := List.getElem?_eq_some_iff.1 hlast
        have : (blockPtrs (ftof.map Prod.fst))[t.length] < (blockPtrs (ftof.map Prod.fst))[c + 1] :=
          List.pairwise_iff_getElem.1 hst _ _ hl3 hl2 (by omega)
        have := hle _ (List.getElem_mem hl2)
        omega
      refine ⟨hc, slice ftof a (a + 2), by rw [block, h1, h2], ?_⟩
      have hb : a + 2 ≤ ftof.length := by
        have := hle _ (List.mem_of_getElem? h2); rwa [List.length_map] at this
      rw [slice, List.length_drop, List.length_take]; omega
    · rintro ⟨hc, rows, hb, hl⟩
      have e1 := hptr c (by omega)
      have e2 := hptr (c + 1) (by omega)
      rw [block, e1, e2] at hb
      simp only [Option.some.injEq] at hb
      subst hb
      refine ⟨c, _, by omega, e1, ?_⟩
      rw [e2]
      congr 1
      rw [slice, List.length_drop, List.length_take] at hl
      have hb2 : (ftof.map Prod.fst).countP (fun k => decide (k < c + 1)) ≤ ftof.length := by
        have := List.countP_le_length (p := fun k => decide (k < c + 1)) (l := ftof.map Prod.fst)
        rwa [List.length_map] at this
      omega

/-- Two triangles with three different corners each that share two edges have the same corners. -/
theorem sharedEdges_le_one {f g : Tri} (hf : Nondegenerate f) (hg : Nondegenerate g) (h : ¬ SameVertices f g) :
    sharedEdges f g ≤ 1 := by
  by_contra hgt
  apply h
  have hv : HasVertex g f.a ∧ HasVertex g f.b ∧ HasVertex g f.c := by
    unfold sharedEdges at hgt
    by_cases h1 : HasEdge g f.a f.b <;> by_cases h2 : HasEdge g f.a f.c <;> by_cases h3 : HasEdge g f.b f.c <;>
      simp only [List.filter_cons, List.filter_nil, h1, h2, h3, decide_true, decide_false, if_true, List.length_cons,
        List.length_nil, Bool.false_eq_true, if_false] at hgt <;>
      first
      | omega
      | exact ⟨h1.2.1, h1.2.2, h2.2.2⟩
      | exact ⟨h1.2.1, h1.2.2, h3.2.2⟩
      | exact ⟨h2.2.1, h3.2.1, h2.2.2⟩
  have hn : [f.a, f.b, f.c].Nodup := by
    obtain ⟨h1, h2, h3⟩ := hf
    simp [h1, h2, h3]
  refine (hn.subperm (l₂ := [g.a, g.b, g.c]) ?_).perm_of_length_le (by simp)
  intro v hvm
  simp only [List.mem_cons, List.not_mem_nil, or_false] at hvm
  rcases hvm with rfl | rfl | rfl
  · exact (hasVertex_iff_mem g _).1 hv.1
  · exact (hasVertex_iff_mem g _).1 hv.2.1
  · exact (hasVertex_iff_mem g _).1 hv.2.2

theorem adjacent_iff_shared {f g : Tri} (hf : Nondegenerate f) (hg : Nondegenerate g) :
    Adjacent f g ↔ 0 < sharedEdges f g := by
  unfold sharedEdges
  rw [List.length_pos_iff_exists_mem]
  constructor
  · rintro ⟨u, v, h1, h2⟩
    rw [hasSide_iff_hasEdge hg] at h2
    have h2' : HasEdge g v u := ⟨h2.1.symm, h2.2.2, h2.2.1⟩
    rcases h1 with ⟨rfl, rfl⟩ | ⟨rfl, rfl⟩ | ⟨rfl, rfl⟩ | ⟨rfl, rfl⟩ | ⟨rfl, rfl⟩ | ⟨rfl, rfl⟩
    · exact ⟨(f.a, f.b), List.mem_filter.2 ⟨by simp, by simpa using h2⟩⟩
    · exact ⟨(f.a, f.b), List.mem_filter.2 ⟨by simp, by simpa using h2'⟩⟩
    · exact ⟨(f.a, f.c), List.mem_filter.2 ⟨by simp, by simpa using h2⟩⟩
    · exact ⟨(f.a, f.c), List.mem_filter.2 ⟨by simp, by simpa using h2'⟩⟩
    · exact ⟨(f.b, f.c), List.mem_filter.2 ⟨by simp, by simpa using h2⟩⟩
    · exact ⟨(f.b, f.c), List.mem_filter.2 ⟨by simp, by simpa using h2'⟩⟩
  · rintro ⟨⟨u, v⟩, he⟩
    obtain ⟨h1, h2⟩ := List.mem_filter.1 he
    have h2 : HasEdge g u v := by simpa using h2
    refine ⟨u, v, ?_, (hasSide_iff_hasEdge hg u v).2 h2⟩
    simp only [List.mem_cons, Prod.mk.injEq, List.not_mem_nil, or_false] at h1
    rcases h1 with ⟨rfl, rfl⟩ | ⟨rfl, rfl⟩ | ⟨rfl, rfl⟩ <;> simp [HasSide]

/-- On a conforming mesh without degenerate or repeated triangles, the block of a face has two rows exactly if the face
has one neighbour. -/
theorem block_two_iff {srt : KeySort (Nat × Nat) Nat lexOrder.le} {t : List Tri} (ht : ∀ f ∈ t, Nondegenerate f)
    (hc : Conforming t) (hd : t.Pairwise fun f g => ¬ SameVertices f g) {c : Nat} (hcl : c < t.length) :
    (∃ rows, block (faceToFace srt t).1 (faceToFace srt t).2 c = some rows ∧ rows.length = 2) ↔ HasOneNeighbour t c := by
  obtain ⟨rows, hb, hperm⟩ := faceToFace_block srt t hcl
  have hf : t[c]? = some t[c] := List.getElem?_eq_getElem hcl
  have hns : faceNeighbours srt t c = some (rows.map Prod.snd) := by
    rw [faceNeighbours, hb]; rfl
  obtain ⟨h1, h2⟩ := faceNeighbours_count ht hc hf hns
  obtain ⟨ns', hn', hmem⟩ := mem_faceNeighbours (srt := srt) hcl
  rw [hns] at hn'; cases hn'
  have hdist : ∀ (g : Nat) (h : Tri), g ≠ c → t[g]? = some h → ¬ SameVertices t[c] h := by
    intro g h hgc hg hsame
    obtain ⟨hgl, rfl⟩ := List.getElem?_eq_some_iff.1 hg
    rcases Nat.lt_or_gt_of_ne hgc with hlt | hlt
    · exact List.pairwise_iff_getElem.1 hd _ _ hgl hcl hlt (List.Perm.symm hsame)
    · exact List.pairwise_iff_getElem.1 hd _ _ hcl hgl hlt hsame
  have hrow : ∀ g ∈ rows.map Prod.snd, g < t.length := by
    intro g hg
    rcases (hmem g).1 hg with rfl | hg | hg
    · exact hcl
    · obtain ⟨_, _, _, h2, _⟩ := mem_facePairs hg
      exact (List.getElem?_eq_some_iff.1 h2).1
    · obtain ⟨_, _, h1, _, _⟩ := mem_facePairs hg
      exact (List.getElem?_eq_some_iff.1 h1).1
  have hnd : (rows.map Prod.snd).Nodup := by
    rw [List.nodup_iff_count_le_one]
    intro g
    by_cases hgc : g = c
    · rw [hgc, h1]
    · by_cases hgl : g < t.length
      · rw [h2 g _ hgc (List.getElem?_eq_getElem hgl)]
        exact sharedEdges_le_one (ht _ (List.getElem_mem _)) (ht _ (List.getElem_mem _))
          (hdist g _ hgc (List.getElem?_eq_getElem hgl))
      · rw [List.count_eq_zero_of_not_mem fun h => hgl (hrow g h)]; omega
  have hadj : ∀ (g : Nat) (h : Tri), g ≠ c → t[g]? = some h → (g ∈ rows.map Prod.snd ↔ Adjacent t[c] h) := by
    intro g h hgc hg
    rw [adjacent_iff_shared (ht _ (List.getElem_mem _)) (ht _ (List.mem_of_getElem? hg)), ← h2 g h hgc hg,
      List.count_pos_iff]
  have hcm : c ∈ rows.map Prod.snd := List.count_pos_iff.1 (by omega)
  have hlen : rows.length = (rows.map Prod.snd).length := by simp
  constructor
  · rintro ⟨rows', hb', hl⟩
    rw [hb] at hb'; cases hb'
    rw [hlen] at hl
    have he : ((rows.map Prod.snd).erase c).length = 1 := by rw [List.length_erase_of_mem hcm]; omega
    obtain ⟨g, hg⟩ := List.length_eq_one_iff.1 he
    have hgm : ∀ x, x ∈ (rows.map Prod.snd).erase c ↔ x ≠ c ∧ x ∈ rows.map Prod.snd := fun x => hnd.mem_erase_iff
    have hgg : g ≠ c ∧ g ∈ rows.map Prod.snd := (hgm g).1 (by rw [hg]; simp)
    have hgl := hrow g hgg.2
    refine ⟨t[c], g, t[g], hf, hgg.1, List.getElem?_eq_getElem hgl, (hadj g _ hgg.1 (List.getElem?_eq_getElem hgl)).1 hgg.2, ?_⟩
    intro g' h' hgc' hg' ha'
    have := (hgm g').2 ⟨hgc', (hadj g' h' hgc' hg').2 ha'⟩
    rw [hg, List.mem_singleton] at this; exact this
  · rintro ⟨f, g, h, hf', hgc, hg, ha, huniq⟩
    rw [hf] at hf'; cases hf'
    refine ⟨rows, hb, ?_⟩
    have hperm2 : (rows.map Prod.snd).Perm [c, g] := by
      rw [List.perm_ext_iff_of_nodup hnd (by simp [Ne.symm hgc])]
      intro x
      simp only [List.mem_cons, List.not_mem_nil, or_false]
      constructor
      · intro hx
        by_cases hxc : x = c
        · exact Or.inl hxc
        · right
          have hxl := hrow x hx
          exact huniq x _ hxc (List.getElem?_eq_getElem hxl) ((hadj x _ hxc (List.getElem?_eq_getElem hxl)).1 hx)
      · rintro (rfl | rfl)
        · exact hcm
        · exact (hadj x h hgc hg).2 ha
    rw [hlen, hperm2.length_eq]; rfl

section
variable {K : Type} [Field K] [LinearOrder K] [IsStrictOrderedRing K]

theorem oneFaceLoop_total (E : Engine K) : ∀ (fuel : Nat) (left : Option Nat) (m : Mesh K), m.t.length < fuel →
    ∃ r, oneFaceLoop E fuel left m = some r
  | 0, _, _, h => by omega
  | fuel + 1, left, m, h => by
    rw [oneFaceLoop]
    split
    · exact ⟨_, rfl⟩
    · split
      · exact ⟨_, rfl⟩
      · rename_i d ds hd
        split
        · exact ⟨_, rfl⟩
        · rename_i m' hm'
          have hdm : d ∈ blocksOfTwo 0 (faceToFace E.srtE m.t).2 := by rw [hd]; simp
          have hdl := ((mem_blocksOfTwo_faces E.srtE m.t d).1 hdm).1
          have h1 := deleteRows_lt (idx := d :: ds) (by simp) hdl
          have h2 := (refix_shape hm').2.2.2.2.1
          exact oneFaceLoop_total E fuel _ m' (by omega)

theorem oneFaceLoop_exit {E : Engine K} : ∀ {fuel : Nat} {m m' : Mesh K},
    oneFaceLoop E fuel none m = some (some m') → blocksOfTwo 0 (faceToFace E.srtE m'.t).2 = []
  | 0, _, _, h => by simp [oneFaceLoop] at h
  | fuel + 1, m, m', h => by
    rw [oneFaceLoop, if_neg (by simp)] at h
    split at h
    · rename_i hb
      cases h; exact hb
    · split at h
      · simp at h
      · exact oneFaceLoop_exit h

theorem oneFaceLoop_induct {E : Engine K} (P : Nat → Mesh K → Prop)
    (hP : ∀ n m m' idx, P n m → refix E m.p (deleteRows idx m.t) = some m' → P (n + 1) m') :
    ∀ {fuel n : Nat} {left : Option Nat} {m m' : Mesh K}, P n m → oneFaceLoop E fuel left m = some (some m') →
      ∃ n' < n + fuel, P n' m'
  | 0, _, _, _, _, _, h => by simp [oneFaceLoop] at h
  | fuel + 1, n, left, m, m', hn, h => by
    rw [oneFaceLoop] at h
    split at h
    · cases h; exact ⟨n, by omega, hn⟩
    · split at h
      · cases h; exact ⟨n, by omega, hn⟩
      · split at h
        · simp at h
        · rename_i m1 hm1
          obtain ⟨n', h1, h2⟩ := oneFaceLoop_induct P hP (hP _ _ _ _ hn hm1) h
          exact ⟨n', by omega, h2⟩

end

end OM
