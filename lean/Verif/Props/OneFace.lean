import Verif.Lemmas.FaceRuns
import Verif.Props.Workflow
/-!
# C12 and C18 with any number of triangles on an edge

The order of rows with equal keys is that of an unstable sort (`oceanmesh/clean.py:74-78`), so which triangles of an edge with three or more are deleted is not
determined by the mesh. The statements hold for every such order.
-/
set_option linter.unusedSectionVars false
namespace OM

namespace Spec

/-- Row `g` of the table has the edge `{u, v}`. -/
def OnEdge (t : List Tri) (u v g : Nat) : Prop := ∃ h, t[g]? = some h ∧ HasEdge h u v

/-- `{u, v}` is also an edge of a row other than `c`. -/
def SharedEdge (t : List Tri) (c u v : Nat) : Prop := ∃ g, g ≠ c ∧ OnEdge t u v g

/-- Of the edges of row `c`, only the one between `u` and `v` belongs to other rows as well. -/
def OnlyShared (t : List Tri) (c u v : Nat) : Prop :=
  ∃ f w, t[c]? = some f ∧ SameVertices f ⟨u, v, w⟩ ∧ SharedEdge t c u v ∧ ¬ SharedEdge t c u w ∧ ¬ SharedEdge t c v w

end Spec
open Spec

theorem hasEdge_comm (f : Tri) (u v : Nat) : HasEdge f u v ↔ HasEdge f v u := by
  unfold HasEdge; constructor <;> rintro ⟨h1, h2, h3⟩ <;> exact ⟨fun h => h1 h.symm, h3, h2⟩

theorem onEdge_comm (t : List Tri) (u v g : Nat) : OnEdge t u v g ↔ OnEdge t v u g := by
  unfold OnEdge
  exact exists_congr fun h => and_congr_right fun _ => hasEdge_comm h u v

/-- The links of row `c` through the edge `{u, v}`. -/
def linksAt (srt : KeySort (Nat × Nat) Nat lexOrder.le) (t : List Tri) (c u v : Nat) : Nat :=
  linksOn (facesOn (srt.run (sideRows 0 t)) (sortPair (u, v))) c

theorem mem_facesOn_sortPair {srt : KeySort (Nat × Nat) Nat lexOrder.le} {t : List Tri} (ht : ∀ f ∈ t, Nondegenerate f) {u v : Nat} (huv : u ≠ v) (g : Nat) :
    g ∈ facesOn (srt.run (sideRows 0 t)) (sortPair (u, v)) ↔ OnEdge t u v g := by
  have hlt : (sortPair (u, v)).1 < (sortPair (u, v)).2 := by
    unfold sortPair; dsimp only; omega
  rw [mem_facesOn ht hlt]
  unfold OnEdge
  exact exists_congr fun h => and_congr_right fun _ => hasEdge_sortPair h (u, v)

theorem linksAt_zero_iff {srt : KeySort (Nat × Nat) Nat lexOrder.le} {t : List Tri} (ht : ∀ f ∈ t, Nondegenerate f) {c u v : Nat} (huv : u ≠ v)
    (hc : OnEdge t u v c) : linksAt srt t c u v = 0 ↔ ¬ SharedEdge t c u v := by
  unfold linksAt
  rw [linksOn_zero_iff (facesOn_nodup ht _) ((mem_facesOn_sortPair ht huv c).2 hc)]
  unfold SharedEdge
  constructor
  · rintro h ⟨g, h1, h2⟩
    exact h1 (h g ((mem_facesOn_sortPair ht huv g).2 h2))
  · intro h g hg
    by_contra hne
    exact h ⟨g, hne, (mem_facesOn_sortPair ht huv g).1 hg⟩

theorem sum_links {srt : KeySort (Nat × Nat) Nat lexOrder.le} {t : List Tri} (c : Nat) {f : Tri} {u v w : Nat} (hs : SameVertices f ⟨u, v, w⟩) :
    ((sideKeys f).map fun e => linksOn (facesOn (srt.run (sideRows 0 t)) e) c).sum = linksAt srt t c u v + linksAt srt t c u w + linksAt srt t c v w := by
  have h1 : f.sort = (⟨u, v, w⟩ : Tri).sort := sort_eq_of_perm hs
  have h2 : (sideKeys f).Perm ([(u, v), (u, w), (v, w)].map sortPair) := by
    unfold sideKeys
    rw [h1]
    exact sortedSides_perm ⟨u, v, w⟩
  rw [(h2.map _).sum_eq]
  simp only [List.map_cons, List.map_nil, List.sum_cons, List.sum_nil, linksAt]
  omega

theorem sameVertices_edges {f : Tri} (hf : Nondegenerate f) {u v w : Nat} (hs : SameVertices f ⟨u, v, w⟩) :
    (u ≠ v ∧ u ≠ w ∧ v ≠ w) ∧ HasEdge f u v ∧ HasEdge f u w ∧ HasEdge f v w := by
  have hn : [f.a, f.b, f.c].Nodup := by
    obtain ⟨h1, h2, h3⟩ := hf
    simp [h1, h2, h3]
  have hn' : [u, v, w].Nodup := hs.nodup_iff.1 hn
  have hd : u ≠ v ∧ u ≠ w ∧ v ≠ w := by
    simp only [List.nodup_cons, List.mem_cons, List.not_mem_nil, or_false, not_or] at hn'
    exact ⟨hn'.1.1, hn'.1.2, hn'.2.1⟩
  have hv : ∀ x ∈ [u, v, w], HasVertex f x := fun x hx => (hasVertex_iff_mem f x).2 (hs.mem_iff.2 hx)
  exact ⟨hd, ⟨hd.1, hv u (by simp), hv v (by simp)⟩, ⟨hd.2.1, hv u (by simp), hv w (by simp)⟩, ⟨hd.2.2, hv v (by simp), hv w (by simp)⟩⟩

/-- A row is marked exactly if it has one link. -/
theorem marked_iff {srt : KeySort (Nat × Nat) Nat lexOrder.le} {t : List Tri} (ht : ∀ f ∈ t, Nondegenerate f) {c : Nat} {f : Tri} (hf : t[c]? = some f)
    {u v w : Nat} (hs : SameVertices f ⟨u, v, w⟩) :
    c ∈ blocksOfTwo 0 (faceToFace srt t).2 ↔ linksAt srt t c u v + linksAt srt t c u w + linksAt srt t c v w = 1 := by
  obtain ⟨rows, hb, hl⟩ := block_length (srt := srt) ht hf
  rw [mem_blocksOfTwo_faces, sum_links c hs] at *
  constructor
  · rintro ⟨-, rows', hb', hl'⟩
    rw [hb] at hb'; cases hb'
    omega
  · intro h
    exact ⟨(List.getElem?_eq_some_iff.1 hf).1, rows, hb, by omega⟩

theorem marked_row {srt : KeySort (Nat × Nat) Nat lexOrder.le} {t : List Tri} {c : Nat} (h : c ∈ blocksOfTwo 0 (faceToFace srt t).2) : ∃ f, t[c]? = some f :=
  ⟨_, List.getElem?_eq_getElem ((mem_blocksOfTwo_faces srt t c).1 h).1⟩

/-- Marked rows have one shared edge. -/
theorem marked_onlyShared {srt : KeySort (Nat × Nat) Nat lexOrder.le} {t : List Tri} (ht : ∀ f ∈ t, Nondegenerate f) {c : Nat}
    (h : c ∈ blocksOfTwo 0 (faceToFace srt t).2) : ∃ u v, OnlyShared t c u v := by
  obtain ⟨f, hf⟩ := marked_row h
  have hfn := ht f (List.mem_of_getElem? hf)
  have key : ∀ u v w, SameVertices f ⟨u, v, w⟩ → linksAt srt t c u v ≠ 0 → linksAt srt t c u w = 0 → linksAt srt t c v w = 0 → OnlyShared t c u v := by
    intro u v w hs h1 h2 h3
    obtain ⟨⟨d1, d2, d3⟩, e1, e2, e3⟩ := sameVertices_edges hfn hs
    refine ⟨f, w, hf, hs, ?_, (linksAt_zero_iff ht d2 ⟨f, hf, e2⟩).1 h2, (linksAt_zero_iff ht d3 ⟨f, hf, e3⟩).1 h3⟩
    by_contra hn
    exact h1 ((linksAt_zero_iff ht d1 ⟨f, hf, e1⟩).2 hn)
  have comm : ∀ u v, linksAt srt t c u v = linksAt srt t c v u := by
    intro u v
    unfold linksAt sortPair
    rw [min_comm, max_comm]
  have hm := (marked_iff (srt := srt) ht hf (u := f.a) (v := f.b) (w := f.c) (List.Perm.refl _)).1 h
  have p1 : SameVertices f ⟨f.a, f.b, f.c⟩ := List.Perm.refl _
  have p2 : SameVertices f ⟨f.a, f.c, f.b⟩ := List.Perm.cons _ (List.Perm.swap _ _ _)
  have p3 : SameVertices f ⟨f.b, f.c, f.a⟩ := (List.Perm.swap _ _ _).trans (List.Perm.cons _ (List.Perm.swap _ _ _))
  by_cases h1 : linksAt srt t c f.a f.b = 0
  · by_cases h2 : linksAt srt t c f.a f.c = 0
    · exact ⟨_, _, key _ _ _ p3 (by omega) (by rw [comm]; exact h1) (by rw [comm]; exact h2)⟩
    · exact ⟨_, _, key _ _ _ p2 h2 h1 (by rw [comm]; omega)⟩
  · exact ⟨_, _, key _ _ _ p1 h1 (by omega) (by omega)⟩

/-- Rows with one shared edge with one other row on it are marked. -/
theorem marked_of_two {srt : KeySort (Nat × Nat) Nat lexOrder.le} {t : List Tri} (ht : ∀ f ∈ t, Nondegenerate f) {c u v g : Nat} (h : OnlyShared t c u v)
    (hg : ∀ x, OnEdge t u v x → x = c ∨ x = g) : c ∈ blocksOfTwo 0 (faceToFace srt t).2 := by
  obtain ⟨f, w, hf, hs, ⟨g', hg', hon⟩, h2, h3⟩ := h
  obtain ⟨⟨d1, d2, d3⟩, e1, e2, e3⟩ := sameVertices_edges (ht f (List.mem_of_getElem? hf)) hs
  rw [marked_iff ht hf hs, (linksAt_zero_iff ht d2 ⟨f, hf, e2⟩).2 h2, (linksAt_zero_iff ht d3 ⟨f, hf, e3⟩).2 h3]
  have : g' = g := (hg g' hon).resolve_left hg'
  subst this
  unfold linksAt
  rw [linksOn_one_of_two (facesOn_nodup ht _) ((mem_facesOn_sortPair ht d1 c).2 ⟨f, hf, e1⟩) ((mem_facesOn_sortPair ht d1 g').2 hon) hg'
    fun x hx => hg x ((mem_facesOn_sortPair ht d1 x).1 hx)]

/-- The rows marked at one shared edge are the first and the last in the order of the sort. -/
theorem marked_ends {srt : KeySort (Nat × Nat) Nat lexOrder.le} {t : List Tri} (ht : ∀ f ∈ t, Nondegenerate f) {u v : Nat} :
    ∃ a b, ∀ c, OnlyShared t c u v → (c ∈ blocksOfTwo 0 (faceToFace srt t).2 ↔ c = a ∨ c = b) := by
  by_cases hex : ∃ c, OnlyShared t c u v
  · obtain ⟨c0, f0, w0, hf0, hs0, -, -, -⟩ := hex
    obtain ⟨⟨d1, -, -⟩, e1, -, -⟩ := sameVertices_edges (ht f0 (List.mem_of_getElem? hf0)) hs0
    set F := facesOn (srt.run (sideRows 0 t)) (sortPair (u, v)) with hF
    have hne : F ≠ [] := List.ne_nil_of_mem ((mem_facesOn_sortPair ht d1 c0).2 ⟨f0, hf0, e1⟩)
    refine ⟨F.head hne, F.getLast hne, ?_⟩
    rintro c ⟨f, w, hf, hs, hsh, h2, h3⟩
    obtain ⟨⟨-, d2, d3⟩, e1, e2, e3⟩ := sameVertices_edges (ht f (List.mem_of_getElem? hf)) hs
    rw [marked_iff ht hf hs, (linksAt_zero_iff ht d2 ⟨f, hf, e2⟩).2 h2, (linksAt_zero_iff ht d3 ⟨f, hf, e3⟩).2 h3]
    have hpos : linksAt srt t c u v ≠ 0 := fun h => (linksAt_zero_iff ht d1 ⟨f, hf, e1⟩).1 h hsh
    have hl : linksAt srt t c u v = _ := linksOn_nodup (facesOn_nodup ht _) ((mem_facesOn_sortPair ht d1 c).2 ⟨f, hf, e1⟩)
    rw [← hF, List.getLast?_eq_some_getLast hne, List.head?_eq_some_head hne] at hl
    simp only [Option.some.injEq] at hl
    constructor
    · intro h
      by_contra hn
      rw [not_or] at hn
      rw [if_neg (fun h => hn.2 h.symm), if_neg (fun h => hn.1 h.symm)] at hl
      omega
    · intro h
      by_cases h1 : F.getLast hne = c <;> by_cases h2 : F.head hne = c <;> simp only [h1, h2, if_true, if_false] at hl
      · omega
      · omega
      · omega
      · exact absurd h (by rintro (h | h); exacts [h2 h.symm, h1 h.symm])
  · exact ⟨0, 0, fun c hc => absurd ⟨c, hc⟩ hex⟩

/-- A row with one neighbour has one shared edge, with that neighbour only. -/
theorem onlyShared_of_one {t : List Tri} (ht : ∀ f ∈ t, Nondegenerate f) (hd : t.Pairwise fun f g => ¬ SameVertices f g) {c : Nat} (h : HasOneNeighbour t c) :
    ∃ u v g, OnlyShared t c u v ∧ ∀ x, OnEdge t u v x → x = c ∨ x = g := by
  obtain ⟨f, g, h, hf, hgc, hg, ⟨u, v, hs1, hs2⟩, huniq⟩ := h
  have hfn := ht f (List.mem_of_getElem? hf)
  have hgn := ht h (List.mem_of_getElem? hg)
  have e1 := (hasSide_iff_hasEdge hfn u v).1 hs1
  have e2 := (hasSide_iff_hasEdge hgn u v).1 hs2
  have hdist : ¬ SameVertices f h := by
    intro hsame
    obtain ⟨hcl, rfl⟩ := List.getElem?_eq_some_iff.1 hf
    obtain ⟨hgl, rfl⟩ := List.getElem?_eq_some_iff.1 hg
    rcases Nat.lt_or_gt_of_ne hgc with hlt | hlt
    · exact List.pairwise_iff_getElem.1 hd _ _ hgl hcl hlt (List.Perm.symm hsame)
    · exact List.pairwise_iff_getElem.1 hd _ _ hcl hgl hlt hsame
  have hadj : ∀ {x y : Nat} {g' : Nat}, HasEdge f x y → g' ≠ c → OnEdge t x y g' → g' = g := by
    rintro x y g' hx hne ⟨h', hh', he'⟩
    exact huniq g' h' hne hh' ⟨x, y, (hasSide_iff_hasEdge hfn x y).2 hx, (hasSide_iff_hasEdge (ht h' (List.mem_of_getElem? hh')) x y).2 he'⟩
  obtain ⟨w, hs⟩ : ∃ w, SameVertices f ⟨u, v, w⟩ := by
    have p1 : SameVertices f ⟨f.a, f.b, f.c⟩ := List.Perm.refl _
    have p2 : SameVertices f ⟨f.a, f.c, f.b⟩ := List.Perm.cons _ (List.Perm.swap _ _ _)
    have p3 : SameVertices f ⟨f.b, f.c, f.a⟩ := (List.Perm.swap _ _ _).trans (List.Perm.cons _ (List.Perm.swap _ _ _))
    have sw : ∀ {x y z : Nat}, SameVertices f ⟨x, y, z⟩ → SameVertices f ⟨y, x, z⟩ := fun h => List.Perm.trans h (List.Perm.swap _ _ _)
    rcases hs1 with ⟨rfl, rfl⟩ | ⟨rfl, rfl⟩ | ⟨rfl, rfl⟩ | ⟨rfl, rfl⟩ | ⟨rfl, rfl⟩ | ⟨rfl, rfl⟩
    exacts [⟨_, p1⟩, ⟨_, sw p1⟩, ⟨_, p2⟩, ⟨_, sw p2⟩, ⟨_, p3⟩, ⟨_, sw p3⟩]
  obtain ⟨⟨d1, d2, d3⟩, -, k2, k3⟩ := sameVertices_edges hfn hs
  have third : ∀ x, HasVertex h x → (x = w) → False := by
    rintro x hx rfl
    apply hdist
    refine List.Perm.trans hs ?_
    have hn : [u, v, x].Nodup := by simp [d1, d2, d3]
    refine (hn.subperm (l₂ := [h.a, h.b, h.c]) ?_).perm_of_length_le (by simp)
    intro y hy
    simp only [List.mem_cons, List.not_mem_nil, or_false] at hy
    rcases hy with rfl | rfl | rfl
    exacts [(hasVertex_iff_mem h _).1 e2.2.1, (hasVertex_iff_mem h _).1 e2.2.2, (hasVertex_iff_mem h _).1 hx]
  have no : ∀ {x : Nat}, HasEdge f x w → ¬ SharedEdge t c x w := by
    rintro x hx ⟨g', hne, hon⟩
    have := hadj hx hne hon
    subst this
    obtain ⟨h', hh', he'⟩ := hon
    rw [hg] at hh'; cases hh'
    exact third w he'.2.2 rfl
  refine ⟨u, v, g, ⟨f, w, hf, hs, ⟨g, hgc, h, hg, e2⟩, no k2, no k3⟩, fun x hx => ?_⟩
  by_cases hxc : x = c
  · exact Or.inl hxc
  · exact Or.inr (hadj e1 hxc hx)

open Classical in
/-- **C12** for any number of triangles on an edge: the table has one row for a triangle itself and, for each of its edges that belongs to other triangles, one or two rows
with triangles on that edge. -/
theorem C12_row_count (srt : KeySort (Nat × Nat) Nat lexOrder.le) {t : List Tri} (ht : ∀ f ∈ t, Nondegenerate f) {c : Nat} {f : Tri} (hf : t[c]? = some f) :
    ∃ rows, block (faceToFace srt t).1 (faceToFace srt t).2 c = some rows ∧
      1 + ([(f.a, f.b), (f.a, f.c), (f.b, f.c)].filter fun e => decide (SharedEdge t c e.1 e.2)).length ≤ rows.length ∧
      rows.length ≤ 1 + 2 * ([(f.a, f.b), (f.a, f.c), (f.b, f.c)].filter fun e => decide (SharedEdge t c e.1 e.2)).length := by
  obtain ⟨rows, hb, hl⟩ := block_length (srt := srt) ht hf
  refine ⟨rows, hb, ?_⟩
  have p1 : SameVertices f ⟨f.a, f.b, f.c⟩ := List.Perm.refl _
  obtain ⟨⟨d1, d2, d3⟩, e1, e2, e3⟩ := sameVertices_edges (ht f (List.mem_of_getElem? hf)) p1
  have two : ∀ {u v : Nat}, u ≠ v → HasEdge f u v → (if SharedEdge t c u v then 1 else 0) ≤ linksAt srt t c u v ∧
      linksAt srt t c u v ≤ 2 * if SharedEdge t c u v then 1 else 0 := by
    intro u v hd he
    have hz := linksAt_zero_iff (srt := srt) ht hd ⟨f, hf, he⟩
    have hle : linksAt srt t c u v ≤ 2 := by
      unfold linksAt
      rw [linksOn_nodup (facesOn_nodup ht _) ((mem_facesOn_sortPair ht hd c).2 ⟨f, hf, he⟩)]
      split <;> split <;> omega
    split
    · rename_i hs
      have : linksAt srt t c u v ≠ 0 := fun h => hz.1 h hs
      omega
    · rename_i hs
      rw [hz.2 hs]; omega
  have h1 := two d1 e1
  have h2 := two d2 e2
  have h3 := two d3 e3
  rw [hl, sum_links c p1, ← List.countP_eq_length_filter]
  simp only [List.countP_cons, List.countP_nil, decide_eq_true_eq]
  omega

section
variable {K : Type} [Field K] [LinearOrder K] [IsStrictOrderedRing K]

theorem oneFace_single {E : Engine K} {m m' : Mesh K} {fuel : Nat} {left : Option Nat} (h : oneFaceLoop E fuel left m = some (some m'))
    (hd : m.t.Pairwise fun f g => ¬ SameVertices f g) : m'.t.Pairwise fun f g => ¬ SameVertices f g := by
  obtain ⟨_, -, hP⟩ := oneFaceLoop_induct (E := E) (P := fun _ x => x.t.Pairwise fun f g => ¬ SameVertices f g)
    (fun _ _ _ _ _ hx => (refix_shape hx).2.2.1) (n := 0) hd h
  exact hP

/-- **C18** (2), with any number of triangles on an edge and repeated triangles: with unlimited iterations no triangle of the result has exactly one edge in common
with others, and that with one other. -/
theorem C18_result_any {E : Engine K} {m m' : Mesh K} (h : deleteOneFace E none m = some (some m')) (ht : ∀ f ∈ m'.t, Nondegenerate f) :
    ∀ c u v g, OnlyShared m'.t c u v → ∃ x, OnEdge m'.t u v x ∧ x ≠ c ∧ x ≠ g := by
  intro c u v g hs
  by_contra hno
  rw [deleteOneFace, if_neg (by simp)] at h
  have hnil := oneFaceLoop_exit h
  have := marked_of_two (srt := E.srtE) ht hs (g := g) fun x hx => by
    by_contra hn
    rw [not_or] at hn
    exact hno ⟨x, hx, hn.1, hn.2⟩
  rw [hnil] at this
  simp at this

/-- **C18** (2) With unlimited iterations no triangle of the result is connected to exactly one other triangle: for all meshes without repeated triangles (with any
number of triangles on an edge) if the triangles of the result have three different corners. -/
theorem C18_no_single_neighbour {E : Engine K} {m m' : Mesh K} (h : deleteOneFace E none m = some (some m'))
    (hd : m.t.Pairwise fun f g => ¬ SameVertices f g) (ht : ∀ f ∈ m'.t, Nondegenerate f) : ∀ c, ¬ HasOneNeighbour m'.t c := by
  intro c hone
  have hd' : m'.t.Pairwise fun f g => ¬ SameVertices f g := by
    rw [deleteOneFace, if_neg (by simp)] at h
    exact oneFace_single h hd
  obtain ⟨u, v, g, h1, h2⟩ := onlyShared_of_one ht hd' hone
  obtain ⟨x, hx, hxc, hxg⟩ := C18_result_any h ht c u v g h1
  rcases h2 x hx with h | h
  · exact hxc h
  · exact hxg h

/-- **C18** (2) in terms of the given mesh: the triangles of the result have three different corners if those of the mesh have and its vertices are different and further
apart than the tolerance of `fix_mesh`. -/
theorem C18_no_single_neighbour_input {E : Engine K} (hr : IsRounding E.rnd) (hpt : 0 < E.ptol) {m m' : Mesh K} {e : K} (he : FitsIn e m.p)
    (hv : ValidMesh m.p m.t) (hn : m.p.Nodup) (hs : Separated (e * E.ptol) m.p) (ht : ∀ f ∈ m.t, Nondegenerate f)
    (hd : m.t.Pairwise fun f g => ¬ SameVertices f g) (h : deleteOneFace E none m = some (some m')) :
    (∀ f ∈ m'.t, Nondegenerate f) ∧ ∀ c, ¬ HasOneNeighbour m'.t c := by
  have h' := h
  rw [deleteOneFace, if_neg (by simp)] at h'
  obtain ⟨_, -, hP⟩ := oneFaceLoop_induct (E := E)
    (P := fun _ x => FitsIn e x.p ∧ ValidMesh x.p x.t ∧ x.p.Nodup ∧ Separated (e * E.ptol) x.p ∧ ∀ f ∈ x.t, Nondegenerate f)
    (by
      rintro _ x x' idx ⟨a1, a2, a3, a4, a5⟩ hx
      have hsub : ∀ f ∈ deleteRows idx x.t, f ∈ x.t := fun f hf => (deleteRows_sublist idx x.t).subset hf
      have a2' : ValidMesh x.p (deleteRows idx x.t) := fun f hf => a2 f (hsub f hf)
      obtain ⟨hnd, σ, hrel, -⟩ := refix_relabelled hr hpt a1 a3 a4 a2' hx
      obtain ⟨s1, -, -, s4, -, -⟩ := refix_shape hx
      refine ⟨fun q hq q' hq' => a1 q (s4 q hq) q' (s4 q' hq'), s1, hnd, fun q hq q' hq' => a4 q (s4 q hq) q' (s4 q' hq'), ?_⟩
      intro g hg
      obtain ⟨f, hf, hm⟩ := hrel.bwd g hg
      exact RowMatches.nondegenerate hm (a5 f (hsub f hf)))
    (n := 0) ⟨he, hv, hn, hs, ht⟩ h'
  exact ⟨hP.2.2.2.2, C18_no_single_neighbour h hd hP.2.2.2.2⟩

/-- **C18** (3) A mesh where no triangle has exactly one edge in common with others is returned unchanged, for every limit other than zero and any number of triangles
on an edge. -/
theorem C18_unchanged_any (E : Engine K) {maxIter : Option Nat} (hi : maxIter ≠ some 0) {m : Mesh K} (ht : ∀ f ∈ m.t, Nondegenerate f)
    (h : ∀ c u v, ¬ OnlyShared m.t c u v) : deleteOneFace E maxIter m = some (some m) := by
  rw [deleteOneFace, if_neg hi, oneFaceLoop, if_neg hi]
  have hnil : blocksOfTwo 0 (faceToFace E.srtE m.t).2 = [] := by
    rw [List.eq_nil_iff_forall_not_mem]
    intro c hcm
    obtain ⟨u, v, hs⟩ := marked_onlyShared ht hcm
    exact h c u v hs
  rw [hnil]

/-- **C18** (4) A single pass for any number of triangles on an edge: deleted are triangles with exactly one edge in common with others, of those at each edge at most two,
both if there are just two triangles at the edge. -/
theorem C18_single_pass_any (E : Engine K) {m : Mesh K} (ht : ∀ f ∈ m.t, Nondegenerate f) :
    ∃ idx : List Nat, (∀ c ∈ idx, ∃ u v, OnlyShared m.t c u v) ∧
      (∀ u v, ∃ a b, ∀ c, OnlyShared m.t c u v → (c ∈ idx ↔ c = a ∨ c = b)) ∧
      (∀ c u v g, OnlyShared m.t c u v → (∀ x, OnEdge m.t u v x → x = c ∨ x = g) → c ∈ idx) ∧
      deleteOneFace E (some 1) m = if idx = [] then some (some m) else some (refix E m.p ((m.t.zipIdx.filter fun x => decide (x.2 ∉ idx)).map Prod.fst)) := by
  refine ⟨blocksOfTwo 0 (faceToFace E.srtE m.t).2, fun c hc => marked_onlyShared ht hc, fun u v => marked_ends ht, fun c u v g h1 h2 => marked_of_two ht h1 h2, ?_⟩
  rw [deleteOneFace, if_neg (by simp), oneFaceLoop, if_neg (by simp), ← deleteRows_eq]
  cases hb : blocksOfTwo 0 (faceToFace E.srtE m.t).2 with
  | nil => simp
  | cons d ds =>
    have hdl := ((mem_blocksOfTwo_faces E.srtE m.t d).1 (by rw [hb]; simp)).1
    obtain ⟨n, hn⟩ : ∃ n, m.t.length = n + 1 := ⟨m.t.length - 1, by omega⟩
    simp only [List.cons_ne_nil, if_false]
    cases hr : refix E m.p (deleteRows (d :: ds) m.t) with
    | none => rfl
    | some m' =>
      dsimp only
      rw [hn, oneFaceLoop, if_pos (by rfl)]

end

/-- **C18** (2) fails for repeated triangles: each of two equal triangles is connected to the other only, and both are kept. -/
theorem C18_repeated_kept : ∃ m : Mesh ℚ, (∀ f ∈ m.t, Nondegenerate f) ∧ HasOneNeighbour m.t 0 ∧ deleteOneFace engineQ none m = some (some m) := by
  refine ⟨⟨[(0, 0), (1, 0), (0, 1)], [⟨0, 1, 2⟩, ⟨0, 1, 2⟩]⟩, by decide, ?_, by decide +kernel⟩
  refine ⟨⟨0, 1, 2⟩, 1, ⟨0, 1, 2⟩, rfl, by decide, rfl, adjacent_self _, ?_⟩
  intro g' h' hne hg' _
  have : g' < 2 := (List.getElem?_eq_some_iff.1 hg').1
  omega

/-- Three triangles on one edge; the second and the third are joined by a fan around the vertex 1, the first hangs loose. -/
def finM : Mesh ℚ := ⟨[(0, 0), (2, 1), (4, 0), (0, 2), (4, 2), (9, 9)],
  [⟨0, 1, 5⟩, ⟨0, 2, 1⟩, ⟨2, 4, 1⟩, ⟨4, 3, 1⟩, ⟨3, 0, 1⟩]⟩

example : IsRounding engineQ.rnd ∧ 0 < engineQ.ptol ∧ FitsIn 9 finM.p ∧ ValidMesh finM.p finM.t ∧ finM.p.Nodup ∧ Separated (9 * engineQ.ptol) finM.p ∧
    (∀ f ∈ finM.t, Nondegenerate f) ∧ (finM.t.Pairwise fun f g => ¬ SameVertices f g) ∧ ¬ Conforming finM.t ∧
    deleteOneFace engineQ none finM = some (some ⟨[(0, 0), (0, 2), (2, 1), (4, 0), (4, 2)], [⟨1, 0, 2⟩, ⟨2, 0, 3⟩, ⟨1, 2, 4⟩, ⟨2, 3, 4⟩]⟩) := by
  have hf : FitsIn (9 : ℚ) finM.p := by
    intro q hq q' hq'
    have : ∀ x ∈ finM.p, 0 ≤ x.1 ∧ x.1 ≤ 9 ∧ 0 ≤ x.2 ∧ x.2 ≤ 9 := by decide +kernel
    have a := this q hq
    have b := this q' hq'
    constructor <;> rw [abs_le] <;> constructor <;> linarith [a.1, a.2.1, a.2.2.1, a.2.2.2, b.1, b.2.1, b.2.2.1, b.2.2.2]
  have hs : Separated (9 * engineQ.ptol) finM.p := by
    have : ∀ q ∈ finM.p, ∀ q' ∈ finM.p, |q.1 - q'.1| ≤ 9 * (1 / 1000) ∧ |q.2 - q'.2| ≤ 9 * (1 / 1000) → q = q' := by decide +kernel
    exact this
  refine ⟨rndQ_isRounding, by norm_num [engineQ], hf, validMesh_of_bound (by decide), by decide +kernel, hs, by decide, by unfold SameVertices; decide, fun h => ?_, ?_⟩
  · have := h 0 1
    revert this; decide
  · decide +kernel

/-- Two tetrahedra (as surfaces) on a common edge, which has four triangles. -/
def tetraT : List Tri := [⟨0, 1, 2⟩, ⟨0, 1, 3⟩, ⟨0, 2, 3⟩, ⟨1, 2, 3⟩, ⟨0, 1, 4⟩, ⟨0, 1, 5⟩, ⟨0, 4, 5⟩, ⟨1, 4, 5⟩]

example : (∀ f ∈ tetraT, Nondegenerate f) ∧ ¬ Conforming tetraT ∧ ∀ c u v, ¬ OnlyShared tetraT c u v := by
  refine ⟨by decide, fun h => ?_, ?_⟩
  · have := h 0 1
    revert this; decide
  · rintro c u v ⟨f, w, hf, hs, -, hno, -⟩
    have key : ∀ x ∈ tetraT.zipIdx, ∀ a ∈ [x.1.a, x.1.b, x.1.c], ∀ b ∈ [x.1.a, x.1.b, x.1.c], a ≠ b →
        ∃ y ∈ tetraT.zipIdx, y.2 ≠ x.2 ∧ HasEdge y.1 a b := by decide
    have hmem : (f, c) ∈ tetraT.zipIdx := by
      rw [List.mem_zipIdx_iff_getElem?]; exact hf
    have hfn : Nondegenerate f := by
      have : ∀ f ∈ tetraT, Nondegenerate f := by decide
      exact this f (List.mem_of_getElem? hf)
    obtain ⟨⟨-, d2, -⟩, -, e2, -⟩ := sameVertices_edges hfn hs
    obtain ⟨⟨g, k⟩, hy, h1, h2⟩ := key _ hmem u ((hasVertex_iff_mem f u).1 e2.2.1) w ((hasVertex_iff_mem f w).1 e2.2.2) d2
    exact hno ⟨k, h1, g, by rw [List.mem_zipIdx_iff_getElem?] at hy; exact hy, h2⟩

/-- All three triangles of `bookM` have one edge in common with others; the first and the last are deleted. -/
example : (∀ f ∈ bookM.t, Nondegenerate f) ∧ OnlyShared bookM.t 0 0 1 ∧
    deleteOneFace engineQ (some 1) bookM = some (some ⟨[(0, 0), (1, 0), (1, 1)], [⟨0, 1, 2⟩]⟩) := by
  refine ⟨by decide, ⟨⟨0, 1, 2⟩, 2, rfl, List.Perm.refl _, ⟨1, by decide, ⟨0, 1, 3⟩, rfl, by decide⟩, ?_, ?_⟩, by decide +kernel⟩
  all_goals
    rintro ⟨g, hg, h, hh, he⟩
    have key : ∀ x ∈ bookM.t.zipIdx, x.2 ≠ 0 → ¬ HasEdge x.1 0 2 ∧ ¬ HasEdge x.1 1 2 := by decide
    have := key (h, g) (by rw [List.mem_zipIdx_iff_getElem?]; exact hh) hg
    first
      | exact this.1 he
      | exact this.2 he

/-- The triangles of `bookM` have two, three and two rows. -/
example : [0, 1, 2].map (fun c => (block (faceToFace engineQ.srtE bookM.t).1 (faceToFace engineQ.srtE bookM.t).2 c).map List.length) = [some 2, some 3, some 2] := by
  decide +kernel

end OM
