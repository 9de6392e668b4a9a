import Verif.Model.Clean
import Verif.Lemmas.Edges
import Verif.Lemmas.FixMesh
/-!
# Block pointers and adjacency tables
-/
set_option linter.unusedSectionVars false
namespace OM
open Spec

/-! ## Blocks of a sorted table -/

theorem changes_getElem? (n : Nat) : ∀ (ks : List Nat) (i prev : Nat), (prev :: ks).Pairwise (· ≤ ·) →
    (∀ k, prev ≤ k → k < n → k ∈ prev :: ks) → (∀ k ∈ prev :: ks, k < n) → ∀ j, prev + j < n →
    (changes i (prev :: ks) ++ [i + 1 + ks.length])[j]? = some (i + 1 + ks.countP (fun k => decide (k ≤ prev + j)))
  | [], i, prev, _, hall, _, j, hj => by
    have : j = 0 := by
      by_contra h0
      have := hall (prev + 1) (by omega) (by omega)
      simp at this
    subst this
    simp [changes]
  | k :: ks, i, prev, hs, hall, hlt, j, hj => by
    have hs' : (k :: ks).Pairwise (· ≤ ·) := (List.pairwise_cons.1 hs).2
    have hpk : prev ≤ k := (List.pairwise_cons.1 hs).1 k (by simp)
    by_cases hk : prev = k
    · subst hk
      have ih := changes_getElem? n ks (i + 1) prev hs' (fun k h1 h2 => by
        have := hall k h1 h2; simpa using this) (fun k hk => hlt k (List.mem_cons_of_mem _ hk)) j hj
      have e1 : i + 1 + 1 + ks.length = i + 1 + (prev :: ks).length := by simp; omega
      rw [e1] at ih
      rw [changes, if_pos rfl, ih]
      simp [List.countP_cons]; omega
    · have hkp : k = prev + 1 := by
        have hk1 : prev + 1 ∈ prev :: k :: ks := hall (prev + 1) (by omega)
          (by have := hlt k (by simp); omega)
        rcases List.mem_cons.1 hk1 with h | h
        · omega
        · rcases List.mem_cons.1 h with h | h
          · exact h.symm
          · have := (List.pairwise_cons.1 hs').1 _ h
            omega
      rw [changes, if_neg hk]
      cases j with
      | zero =>
        have : (k :: ks).countP (fun x => decide (x ≤ prev + 0)) = 0 := by
          rw [List.countP_eq_zero]
          intro x hx
          have : k ≤ x := by
            rcases List.mem_cons.1 hx with h | h
            · omega
            · exact (List.pairwise_cons.1 hs').1 _ h
          simp; omega
        rw [this]; simp
      | succ j =>
        have ih := changes_getElem? n ks (i + 1) k hs' (fun x h1 h2 => by
          have := hall x (by omega) h2
          rcases List.mem_cons.1 this with h | h
          · omega
          · exact h) (fun x hx => hlt x (List.mem_cons_of_mem _ hx)) j (by omega)
        have e1 : i + 1 + 1 + ks.length = i + 1 + (k :: ks).length := by simp; omega
        rw [e1] at ih
        rw [List.cons_append, List.getElem?_cons_succ, ih]
        have e2 : k + j = prev + (j + 1) := by omega
        rw [e2, List.countP_cons, if_pos (by simp; omega)]
        congr 1; omega

/-- If the keys of a sorted table are exactly `0 … n-1`, pointer `c` is the number of rows with a smaller key. -/
theorem blockPtrs_getElem? {n : Nat} {keys : List Nat} (hs : keys.Pairwise (· ≤ ·)) (hall : ∀ k < n, k ∈ keys)
    (hlt : ∀ k ∈ keys, k < n) (hn : 0 < n) (c : Nat) (hc : c ≤ n) :
    (blockPtrs keys)[c]? = some (keys.countP fun k => decide (k < c)) := by
  cases keys with
  | nil => exact absurd (hall 0 hn) (by simp)
  | cons k ks =>
    have hk0 : k = 0 := by
      have h0 := hall 0 hn
      rcases List.mem_cons.1 h0 with h | h
      · exact h.symm
      · have := (List.pairwise_cons.1 hs).1 _ h; omega
    subst hk0
    cases c with
    | zero => simp [blockPtrs]
    | succ c =>
      have h := changes_getElem? n ks 0 0 hs (fun k _ h => hall k h) hlt c (by omega)
      have e1 : 0 + 1 + ks.length = (0 :: ks).length := by simp; omega
      rw [e1] at h
      rw [blockPtrs, List.getElem?_cons_succ, h, List.countP_cons]
      simp [Nat.lt_succ_iff]; omega

theorem filter_sorted_split {α : Type} (key : α → Nat) : ∀ {l : List α}, l.Pairwise (fun x y => key x ≤ key y) →
    ∀ c, l = l.filter (fun x => decide (key x < c)) ++ l.filter (fun x => decide (c ≤ key x))
  | [], _, _ => rfl
  | x :: l, hs, c => by
    have ih := filter_sorted_split key (List.pairwise_cons.1 hs).2 c
    by_cases h : key x < c
    · rw [List.filter_cons_of_pos (by simpa using h), List.filter_cons_of_neg (by simpa using h), List.cons_append, ← ih]
    · have h1 : l.filter (fun x => decide (key x < c)) = [] := by
        rw [List.filter_eq_nil_iff]
        intro y hy
        have := (List.pairwise_cons.1 hs).1 y hy
        simp; omega
      have h2 : l.filter (fun x => decide (c ≤ key x)) = l := by
        rw [List.filter_eq_self]
        intro y hy
        have := (List.pairwise_cons.1 hs).1 y hy
        simp; omega
      rw [List.filter_cons_of_neg (by simpa using h), List.filter_cons_of_pos (by simp; omega), h1, h2]
      rfl

theorem slice_sorted {α : Type} (key : α → Nat) {l : List α} (hs : l.Pairwise (fun x y => key x ≤ key y)) (c : Nat) :
    slice l ((l.map key).countP fun k => decide (k < c)) ((l.map key).countP fun k => decide (k < c + 1)) =
      l.filter fun x => decide (key x = c) := by
  have e : ∀ d, (l.map key).countP (fun k => decide (k < d)) = (l.filter fun x => decide (key x < d)).length := by
    intro d; rw [List.countP_map, List.countP_eq_length_filter]; rfl
  have h1 := filter_sorted_split key hs (c + 1)
  have htake : l.take ((l.map key).countP fun k => decide (k < c + 1)) = l.filter fun x => decide (key x < c + 1) := by
    rw [e]; conv_lhs => rw [h1]
    have e1 : (l.filter (fun x => decide (key x < c + 1)) ++ l.filter fun x => decide (c + 1 ≤ key x)).filter
        (fun x => decide (key x < c + 1)) = l.filter fun x => decide (key x < c + 1) := by rw [← h1]
    rw [e1, List.take_left']
    rfl
  unfold slice
  rw [htake, e]
  have hs2 : (l.filter fun x => decide (key x < c + 1)).Pairwise (fun x y => key x ≤ key y) := hs.filter _
  have h2 := filter_sorted_split key hs2 c
  have e2 : (l.filter fun x => decide (key x < c + 1)).filter (fun x => decide (key x < c)) =
      l.filter fun x => decide (key x < c) := by
    rw [List.filter_filter]; apply List.filter_congr
    intro x _; simp; omega
  have e3 : (l.filter fun x => decide (key x < c + 1)).filter (fun x => decide (c ≤ key x)) =
      l.filter fun x => decide (key x = c) := by
    rw [List.filter_filter]; apply List.filter_congr
    intro x _; rw [← Bool.decide_and]; congr 1; apply propext; omega
  rw [e2, e3] at h2
  rw [h2, List.drop_left']
  rfl

/-- Block `c` of a sorted table whose keys are exactly `0 … n-1`. -/
theorem block_eq_filter {α : Type} (key : α → Nat) {l : List α} {n : Nat}
    (hs : l.Pairwise (fun x y => key x ≤ key y)) (hall : ∀ k < n, k ∈ l.map key) (hlt : ∀ k ∈ l.map key, k < n)
    {c : Nat} (hc : c < n) : block l (blockPtrs (l.map key)) c = some (l.filter fun x => decide (key x = c)) := by
  have hs' : (l.map key).Pairwise (· ≤ ·) := by rw [List.pairwise_map]; exact hs
  unfold block
  rw [blockPtrs_getElem? hs' hall hlt (by omega) c (by omega),
    blockPtrs_getElem? hs' hall hlt (by omega) (c + 1) (by omega)]
  dsimp only
  rw [slice_sorted key hs c]

/-! ## Sides of faces -/

theorem mem_sortedSides (f : Tri) (u v : Nat) :
    (u, v) ∈ [(f.sort.a, f.sort.b), (f.sort.a, f.sort.c), (f.sort.b, f.sort.c)] ↔ u ≤ v ∧ HasSide f u v := by
  obtain ⟨a, b, c⟩ := f
  simp only [Tri.sort, HasSide, List.mem_cons, Prod.mk.injEq, List.not_mem_nil, or_false]
  rcases Nat.le_total a b with h1 | h1 <;> rcases Nat.le_total a c with h2 | h2 <;>
    rcases Nat.le_total b c with h3 | h3 <;>
    simp only [Nat.min_eq_left, Nat.min_eq_right, Nat.max_eq_left, Nat.max_eq_right, h1, h2, h3] <;>
    (constructor
     · rintro (⟨rfl, rfl⟩ | ⟨rfl, rfl⟩ | ⟨rfl, rfl⟩) <;> omega
     · rintro ⟨h, (⟨rfl, rfl⟩ | ⟨rfl, rfl⟩ | ⟨rfl, rfl⟩ | ⟨rfl, rfl⟩ | ⟨rfl, rfl⟩ | ⟨rfl, rfl⟩)⟩ <;> omega)

theorem HasSide.symm {f : Tri} {u v : Nat} (h : HasSide f u v) : HasSide f v u := by
  unfold HasSide at *; omega

theorem hasSide_iff_hasEdge {f : Tri} (hf : Nondegenerate f) (u v : Nat) : HasSide f u v ↔ HasEdge f u v := by
  obtain ⟨a, b, c⟩ := f
  simp only [HasSide, HasEdge, HasVertex, Nondegenerate] at *
  omega

theorem Adjacent.symm {f g : Tri} (h : Adjacent f g) : Adjacent g f := by
  obtain ⟨u, v, h1, h2⟩ := h; exact ⟨u, v, h2, h1⟩

theorem adjacent_self (f : Tri) : Adjacent f f := ⟨f.a, f.b, Or.inl ⟨rfl, rfl⟩, Or.inl ⟨rfl, rfl⟩⟩

theorem mem_sideRows : ∀ (t : List Tri) (i : Nat) (e : Nat × Nat) (k : Nat),
    (e, k) ∈ sideRows i t ↔ ∃ j f, k = i + j ∧ t[j]? = some f ∧ e.1 ≤ e.2 ∧ HasSide f e.1 e.2
  | [], i, e, k => by simp [sideRows]
  | f :: t, i, e, k => by
    have ih := mem_sideRows t (i + 1) e k
    have hs := mem_sortedSides f e.1 e.2
    have key : (e, k) ∈ sideRows i (f :: t) ↔
        (k = i ∧ e ∈ [(f.sort.a, f.sort.b), (f.sort.a, f.sort.c), (f.sort.b, f.sort.c)]) ∨ (e, k) ∈ sideRows (i + 1) t := by
      simp only [sideRows, List.mem_cons, Prod.mk.injEq, List.not_mem_nil, or_false]
      tauto
    rw [key, ih, hs]
    constructor
    · rintro (⟨h1, h2, h3⟩ | ⟨j, g, h1, h2, h3⟩)
      · exact ⟨0, f, by omega, rfl, h2, h3⟩
      · exact ⟨j + 1, g, by omega, h2, h3⟩
    · rintro ⟨j, g, h1, h2, h3⟩
      cases j with
      | zero => left; simp at h2; subst h2; exact ⟨by omega, h3⟩
      | succ j => right; exact ⟨j, g, by omega, by simpa using h2, h3⟩

theorem mem_sideRows_zero {t : List Tri} {e : Nat × Nat} {k : Nat} :
    (e, k) ∈ sideRows 0 t ↔ ∃ f, t[k]? = some f ∧ e.1 ≤ e.2 ∧ HasSide f e.1 e.2 := by
  rw [mem_sideRows]
  constructor
  · rintro ⟨j, f, h1, h2⟩; rw [Nat.zero_add] at h1; subst h1; exact ⟨f, h2⟩
  · rintro ⟨f, h⟩; exact ⟨k, f, by omega, h⟩

theorem adjacent_iff_le {f g : Tri} : Adjacent f g ↔ ∃ e : Nat × Nat, e.1 ≤ e.2 ∧ HasSide f e.1 e.2 ∧ HasSide g e.1 e.2 := by
  constructor
  · rintro ⟨u, v, h1, h2⟩
    rcases Nat.le_total u v with h | h
    · exact ⟨(u, v), h, h1, h2⟩
    · exact ⟨(v, u), h, HasSide.symm h1, HasSide.symm h2⟩
  · rintro ⟨e, _, h1, h2⟩; exact ⟨_, _, h1, h2⟩

/-! ## Consecutive equal rows -/

theorem mem_equalNeighbours : ∀ {l : List ((Nat × Nat) × Nat)} {i j : Nat}, (i, j) ∈ equalNeighbours l →
    ∃ e, (e, i) ∈ l ∧ (e, j) ∈ l
  | [], _, _, h => by simp [equalNeighbours] at h
  | [_], _, _, h => by simp [equalNeighbours] at h
  | x :: y :: l, i, j, h => by
    have rest : (i, j) ∈ equalNeighbours (y :: l) → ∃ e, (e, i) ∈ x :: y :: l ∧ (e, j) ∈ x :: y :: l := by
      intro h
      obtain ⟨e, h1, h2⟩ := mem_equalNeighbours h
      exact ⟨e, List.mem_cons_of_mem _ h1, List.mem_cons_of_mem _ h2⟩
    rw [equalNeighbours] at h
    split at h
    · rename_i hxy
      rcases List.mem_cons.1 h with h | h
      · obtain ⟨h1, h2⟩ := Prod.mk.inj h
        refine ⟨x.1, ?_, ?_⟩
        · rw [h1]; simp
        · rw [h2, hxy]; simp
      · exact rest h
    · exact rest h

theorem linked_symm {α : Type} {l : List (α × α)} {i j : α}
    (h : Relation.ReflTransGen (fun a b => (a, b) ∈ l ∨ (b, a) ∈ l) i j) :
    Relation.ReflTransGen (fun a b => (a, b) ∈ l ∨ (b, a) ∈ l) j i := by
  induction h with
  | refl => exact .refl
  | tail _ hbc ih => exact Relation.ReflTransGen.head hbc.symm ih

/-- Faces with a common side are linked through pairs of consecutive rows. -/
theorem equalNeighbours_linked : ∀ {l : List ((Nat × Nat) × Nat)},
    l.Pairwise (fun x y => lexOrder.le x.1 y.1 = true) → ∀ {e : Nat × Nat} {i j : Nat}, (e, i) ∈ l → (e, j) ∈ l →
    Relation.ReflTransGen (fun a b => (a, b) ∈ equalNeighbours l ∨ (b, a) ∈ equalNeighbours l) i j
  | [], _, _, _, _, h, _ => by simp at h
  | [x], _, e, i, j, h1, h2 => by
    rw [List.mem_singleton] at h1 h2
    have : i = j := by have := h1.trans h2.symm; exact (Prod.mk.inj this).2
    subst this; exact .refl
  | x :: y :: l, hs, e, i, j, h1, h2 => by
    have hs' := (List.pairwise_cons.1 hs).2
    have hsub : ∀ p ∈ equalNeighbours (y :: l), p ∈ equalNeighbours (x :: y :: l) := by
      intro p hp; rw [equalNeighbours]; split
      · exact List.mem_cons_of_mem _ hp
      · exact hp
    have lift : ∀ {i j}, Relation.ReflTransGen (fun a b => (a, b) ∈ equalNeighbours (y :: l) ∨
        (b, a) ∈ equalNeighbours (y :: l)) i j → Relation.ReflTransGen (fun a b => (a, b) ∈ equalNeighbours (x :: y :: l) ∨
        (b, a) ∈ equalNeighbours (x :: y :: l)) i j := fun h =>
      Relation.ReflTransGen.mono (fun a b hab => hab.imp (hsub _) (hsub _)) _ _ h
    have first : ∀ j, (x.1, j) ∈ y :: l → y.1 = x.1 := by
      intro j hj
      have hxy := (List.pairwise_cons.1 hs).1 y (by simp)
      have : lexOrder.le y.1 x.1 = true := by
        rcases List.mem_cons.1 hj with h | h
        · rw [← h]; have := lexOrder.total x.1 x.1; simpa using this
        · exact (List.pairwise_cons.1 hs').1 (x.1, j) h
      exact lexOrder.antisymm _ _ this hxy
    have step : ∀ j, (x.1, j) ∈ y :: l → Relation.ReflTransGen (fun a b => (a, b) ∈ equalNeighbours (x :: y :: l) ∨
        (b, a) ∈ equalNeighbours (x :: y :: l)) x.2 j := by
      intro j hj
      have hyx := first j hj
      have hxy2 : (x.2, y.2) ∈ equalNeighbours (x :: y :: l) := by
        rw [equalNeighbours, if_pos hyx.symm]; exact List.mem_cons_self
      refine Relation.ReflTransGen.head (Or.inl hxy2) (lift ?_)
      exact equalNeighbours_linked hs' (e := x.1) (by rw [← hyx]; exact List.mem_cons_self) hj
    rcases List.mem_cons.1 h1 with h1 | h1
    · rcases List.mem_cons.1 h2 with h2 | h2
      · have : i = j := (Prod.mk.inj (h1.trans h2.symm)).2
        subst this; exact .refl
      · have hi : i = x.2 := by rw [← h1]
        have he : e = x.1 := by rw [← h1]
        subst hi; subst he
        exact step j h2
    · rcases List.mem_cons.1 h2 with h2 | h2
      · have hj : j = x.2 := by rw [← h2]
        have he : e = x.1 := by rw [← h2]
        subst hj; subst he
        have := step i h1
        exact linked_symm this
      · exact lift (equalNeighbours_linked hs' h1 h2)

/-! ## The face-to-face table -/

/-- The pairs of faces recorded by `_face_to_face`, before sorting. -/
def facePairs (srt : KeySort (Nat × Nat) Nat lexOrder.le) (t : List Tri) : List (Nat × Nat) :=
  equalNeighbours (srt.run (sideRows 0 t))

theorem mem_facePairs {srt : KeySort (Nat × Nat) Nat lexOrder.le} {t : List Tri} {i j : Nat}
    (h : (i, j) ∈ facePairs srt t) : ∃ f g, t[i]? = some f ∧ t[j]? = some g ∧ Adjacent f g := by
  obtain ⟨e, h1, h2⟩ := mem_equalNeighbours h
  obtain ⟨f, hf, _, hfs⟩ := mem_sideRows_zero.1 ((srt.perm _).mem_iff.1 h1)
  obtain ⟨g, hg, _, hgs⟩ := mem_sideRows_zero.1 ((srt.perm _).mem_iff.1 h2)
  exact ⟨f, g, hf, hg, _, _, hfs, hgs⟩

/-- The neighbours of face `c` according to `_face_to_face`: the block `c` (second column). -/
def faceNeighbours (srt : KeySort (Nat × Nat) Nat lexOrder.le) (t : List Tri) (c : Nat) : Option (List Nat) :=
  (block (faceToFace srt t).1 (faceToFace srt t).2 c).map (List.map Prod.snd)

theorem faceToFace_block (srt : KeySort (Nat × Nat) Nat lexOrder.le) (t : List Tri) {c : Nat} (hc : c < t.length) :
    ∃ rows, block (faceToFace srt t).1 (faceToFace srt t).2 c = some rows ∧
      (rows.map Prod.snd).Perm (((facePairs srt t).filter fun x => decide (x.1 = c)).map Prod.snd ++
        (((facePairs srt t).filter fun x => decide (x.2 = c)).map Prod.fst ++ [c])) := by
  have hperm : (faceToFace srt t).1.Perm (facePairs srt t ++ (facePairs srt t).map (fun x => (x.2, x.1)) ++
      (List.range t.length).map fun i => (i, i)) := sortBy_perm _ _
  have hsorted : (faceToFace srt t).1.Pairwise (fun x y => x.1 ≤ y.1) := by
    refine (lexOrder.sorted _).imp ?_
    intro x y h
    simp only [lexOrder, decide_eq_true_eq] at h
    omega
  have hvalid : ∀ x ∈ facePairs srt t, x.1 < t.length ∧ x.2 < t.length := by
    intro x hx
    obtain ⟨f, g, h1, h2, _⟩ := mem_facePairs (i := x.1) (j := x.2) hx
    exact ⟨(List.getElem?_eq_some_iff.1 h1).1, (List.getElem?_eq_some_iff.1 h2).1⟩
  refine ⟨_, block_eq_filter Prod.fst (n := t.length) hsorted ?_ ?_ hc, ?_⟩
  · intro k hk
    rw [(hperm.map Prod.fst).mem_iff]
    simp only [List.map_append, List.mem_append, List.map_map]
    right
    rw [List.mem_map]
    exact ⟨k, List.mem_range.2 hk, rfl⟩
  · intro k hk
    rw [(hperm.map Prod.fst).mem_iff] at hk
    simp only [List.map_append, List.mem_append, List.map_map, List.mem_map, Function.comp_apply, List.mem_range] at hk
    rcases hk with (⟨x, hx, rfl⟩ | ⟨x, hx, rfl⟩) | ⟨x, hx, rfl⟩
    · exact (hvalid x hx).1
    · exact (hvalid x hx).2
    · exact hx
  · have := ((hperm.filter (fun x => decide (x.1 = c))).map Prod.snd)
    refine this.trans ?_
    rw [List.filter_append, List.filter_append, List.map_append, List.map_append, List.append_assoc]
    refine List.Perm.append_left _ (List.Perm.append ?_ ?_)
    · rw [List.filter_map, List.map_map]; rfl
    · rw [List.filter_map, List.map_map]
      have : (List.range t.length).filter ((fun x : Nat × Nat => decide (x.1 = c)) ∘ fun i => (i, i)) = [c] := by
        have h2 : ((fun x : Nat × Nat => decide (x.1 = c)) ∘ fun i => (i, i)) = fun i => i == c := by
          funext i; simp [Function.comp, Bool.beq_eq_decide_eq]
        rw [h2, List.filter_beq, List.count_eq_one_of_mem List.nodup_range (List.mem_range.2 hc)]
        rfl
      rw [this]; rfl

/-- Membership in the block of a face. -/
theorem mem_faceNeighbours {srt : KeySort (Nat × Nat) Nat lexOrder.le} {t : List Tri} {c : Nat} (hc : c < t.length) :
    ∃ ns, faceNeighbours srt t c = some ns ∧ ∀ g, g ∈ ns ↔ g = c ∨ (c, g) ∈ facePairs srt t ∨ (g, c) ∈ facePairs srt t := by
  obtain ⟨rows, h1, h2⟩ := faceToFace_block srt t hc
  refine ⟨_, by rw [faceNeighbours, h1]; rfl, ?_⟩
  intro g
  rw [h2.mem_iff]
  simp only [List.mem_append, List.mem_map, List.mem_filter, decide_eq_true_eq, List.mem_singleton]
  constructor
  · rintro (⟨x, ⟨h, rfl⟩, rfl⟩ | ⟨x, ⟨h, rfl⟩, rfl⟩ | h)
    · exact Or.inr (Or.inl h)
    · exact Or.inr (Or.inr h)
    · exact Or.inl h
  · rintro (h | h | h)
    · exact Or.inr (Or.inr h)
    · exact Or.inl ⟨_, ⟨h, rfl⟩, rfl⟩
    · exact Or.inr (Or.inl ⟨_, ⟨h, rfl⟩, rfl⟩)

end OM
