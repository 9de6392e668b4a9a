import Verif.Props.Workflow
import Verif.Props.GenerateTotal
/-!
# C99: a generated and cleaned mesh

`generate_mesh`, then `make_mesh_boundaries_traversable`, then `delete_faces_connected_to_one_face`, as in the README.
-/
set_option linter.unusedSectionVars false
namespace OM.Spec
variable {K : Type}

/-- The faces form a complex as those of any planar triangulation do: vertices have different handles, the three corners of a face are different,
and two different vertices are corners of at most two common faces. -/
structure Simplicial (d : Triangulation K) : Prop where
  handles : (d.vertices.map (·.handle)).Nodup
  corners : ∀ f ∈ d.faces, f.corners 0 ≠ f.corners 1 ∧ f.corners 0 ≠ f.corners 2 ∧ f.corners 1 ≠ f.corners 2
  edges : ∀ h k, h ≠ k → (d.faces.filter fun f => decide ((∃ i, f.corners i = h) ∧ ∃ j, f.corners j = k)).length ≤ 2

end OM.Spec

namespace OM
open Spec

section
variable {K : Type}

theorem find_renumbered {h : Nat} {v : DVertex K} : ∀ {vs : List (DVertex K)} {k : Nat}, (renumberVertices k vs).find? (fun v => v.handle == h) = some v →
    k ≤ v.info ∧ (vs.map (·.handle))[v.info - k]? = some h
  | [], k, hv => by simp [renumberVertices] at hv
  | w :: vs, k, hv => by
    rw [renumberVertices, List.find?_cons] at hv
    split at hv
    · rename_i hw
      obtain rfl := Option.some.inj hv
      simpa using hw
    · obtain ⟨h1, h2⟩ := find_renumbered hv
      refine ⟨by omega, ?_⟩
      have : v.info - k = (v.info - (k + 1)) + 1 := by omega
      rw [this, List.map_cons, List.getElem?_cons_succ]
      exact h2

theorem infoOf_renumbered {vs : List (DVertex K)} {h i : Nat} (hi : infoOf (renumberVertices 0 vs) h = some i) : (vs.map (·.handle))[i]? = some h := by
  simp only [infoOf, Option.map_eq_some_iff] at hi
  obtain ⟨v, h1, rfl⟩ := hi
  simpa using (find_renumbered h1).2

/-- A row of the table and the face it stands for. -/
def RowOf (H : List Nat) (f : DFace) (r : Tri) : Prop := H[r.a]? = some (f.corners 0) ∧ H[r.b]? = some (f.corners 1) ∧ H[r.c]? = some (f.corners 2)

theorem mapM_forall₂ {α β : Type} {F : α → Option β} : ∀ {l : List α} {r : List β}, l.mapM F = some r → List.Forall₂ (fun x y => F x = some y) l r
  | [], r, h => by
    obtain rfl : [] = r := by simpa using h
    exact .nil
  | x :: l, r, h => by
    rw [List.mapM_cons] at h
    simp only [Option.bind_eq_bind, Option.bind_eq_some_iff] at h
    obtain ⟨y, h1, r', h2, h3⟩ := h
    obtain rfl : y :: r' = r := Option.some.inj h3
    exact .cons h1 (mapM_forall₂ h2)

theorem topology_rows {d e : Triangulation K} {v : List (K × K)} {t : List Tri} (h : getTopology d = some (v, t, e)) :
    List.Forall₂ (RowOf (d.vertices.map (·.handle))) d.faces t := by
  simp only [getTopology, Option.bind_eq_bind, Option.bind_eq_some_iff] at h
  obtain ⟨s, h1, h2⟩ := h
  have h2 := Option.some.inj h2
  simp only [Prod.mk.injEq] at h2
  obtain ⟨-, rfl, -⟩ := h2
  simp only [getFiniteCells, getFiniteVertices, Option.bind_eq_bind, Option.bind_eq_some_iff] at h1
  obtain ⟨t, h1, h3⟩ := h1
  have h3 := Option.some.inj h3
  subst h3
  refine (mapM_forall₂ h1).imp ?_
  intro f r hr
  simp only [faceRow, Option.bind_eq_bind, Option.bind_eq_some_iff] at hr
  obtain ⟨a, ha, b, hb, c, hc, hr⟩ := hr
  have hr := Option.some.inj hr
  subst hr
  exact ⟨infoOf_renumbered ha, infoOf_renumbered hb, infoOf_renumbered hc⟩

theorem rowOf_vertex {H : List Nat} {f : DFace} {r : Tri} (h : RowOf H f r) {u x : Nat} (hu : HasVertex r u) (hx : H[u]? = some x) : ∃ i, f.corners i = x := by
  obtain ⟨h1, h2, h3⟩ := h
  rcases hu with rfl | rfl | rfl
  · exact ⟨0, Option.some.inj (h1.symm.trans hx)⟩
  · exact ⟨1, Option.some.inj (h2.symm.trans hx)⟩
  · exact ⟨2, Option.some.inj (h3.symm.trans hx)⟩

theorem rowOf_lt {H : List Nat} {f : DFace} {r : Tri} (h : RowOf H f r) {u : Nat} (hu : HasVertex r u) : ∃ x, H[u]? = some x := by
  obtain ⟨h1, h2, h3⟩ := h
  rcases hu with rfl | rfl | rfl
  exacts [⟨_, h1⟩, ⟨_, h2⟩, ⟨_, h3⟩]

/-- The table of a complex has rows with three different corners and at most two rows on an edge. -/
theorem topology_simplicial {d e : Triangulation K} (hs : Simplicial d) {v : List (K × K)} {t : List Tri} (h : getTopology d = some (v, t, e)) :
    (∀ f ∈ t, Nondegenerate f) ∧ Conforming t := by
  have hr := topology_rows h
  refine ⟨?_, ?_⟩
  · intro r hrt
    obtain ⟨f, hf, h1, h2, h3⟩ : ∃ f ∈ d.faces, RowOf (d.vertices.map (·.handle)) f r := by
      obtain ⟨i, hi, rfl⟩ := List.getElem_of_mem hrt
      have hl := hr.length_eq
      exact ⟨d.faces[i]'(by omega), List.getElem_mem _, (List.forall₂_iff_get.1 hr).2 i (by omega) hi⟩
    obtain ⟨c1, c2, c3⟩ := hs.corners f hf
    refine ⟨fun e => c1 ?_, fun e => c2 ?_, fun e => c3 ?_⟩
    · rw [e] at h1; exact Option.some.inj (h1.symm.trans h2)
    · rw [e] at h1; exact Option.some.inj (h1.symm.trans h3)
    · rw [e] at h2; exact Option.some.inj (h2.symm.trans h3)
  · intro u v
    rw [edgeMultiplicity]
    by_cases hx : ∃ x, (d.vertices.map (·.handle))[u]? = some x
    swap
    · rw [List.filter_eq_nil_iff.2]; · simp
      intro r hrt hk
      obtain ⟨i, hi, rfl⟩ := List.getElem_of_mem hrt
      have hl := hr.length_eq
      exact hx (rowOf_lt ((List.forall₂_iff_get.1 hr).2 i (by omega) hi) (of_decide_eq_true hk).2.1)
    by_cases hy : ∃ y, (d.vertices.map (·.handle))[v]? = some y
    swap
    · rw [List.filter_eq_nil_iff.2]; · simp
      intro r hrt hk
      obtain ⟨i, hi, rfl⟩ := List.getElem_of_mem hrt
      have hl := hr.length_eq
      exact hy (rowOf_lt ((List.forall₂_iff_get.1 hr).2 i (by omega) hi) (of_decide_eq_true hk).2.2)
    obtain ⟨x, hx⟩ := hx
    obtain ⟨y, hy⟩ := hy
    by_cases huv : u = v
    · rw [List.filter_eq_nil_iff.2]; · simp
      intro r _ hk
      exact (of_decide_eq_true hk).1 huv
    have hxy : x ≠ y := by
      rintro rfl
      obtain ⟨hu, hu'⟩ := List.getElem?_eq_some_iff.1 hx
      obtain ⟨hv, hv'⟩ := List.getElem?_eq_some_iff.1 hy
      exact huv ((List.Nodup.getElem_inj_iff hs.handles).1 (hu'.trans hv'.symm))
    refine le_trans ?_ (hs.edges x y hxy)
    clear h
    generalize hF : d.faces = F at hr
    clear hF
    induction hr with
    | nil => simp
    | @cons f r F t h1 _ ih =>
      rw [List.filter_cons, List.filter_cons]
      split
      · rename_i hk
        have hk := of_decide_eq_true hk
        rw [if_pos (decide_eq_true ⟨rowOf_vertex h1 hk.2.1 hx, rowOf_vertex h1 hk.2.2 hy⟩)]
        simpa using ih
      · refine ih.trans ?_
        split
        · simp
        · exact le_rfl
end

section
variable {K : Type} [Field K] [LinearOrder K] [IsStrictOrderedRing K]

theorem insideBy_perm {f : K × K → K} {g : K} {p p' : List (K × K)} {r r' : Tri} (h : (corners p' r').Perm (corners p r)) (hi : InsideBy f g p r) : InsideBy f g p' r' := by
  obtain ⟨x, y, z, h1, h2⟩ := hi
  rw [h1] at h
  have key : ∀ o ∈ corners p' r', ∃ q, o = some q := by
    intro o ho
    have := h.subset ho
    simp only [List.mem_cons, List.not_mem_nil, or_false] at this
    rcases this with rfl | rfl | rfl <;> exact ⟨_, rfl⟩
  obtain ⟨x', hx⟩ := key p'[r'.a]? (by simp [corners])
  obtain ⟨y', hy⟩ := key p'[r'.b]? (by simp [corners])
  obtain ⟨z', hz⟩ := key p'[r'.c]? (by simp [corners])
  have hc : corners p' r' = [some x', some y', some z'] := by simp only [corners, hx, hy, hz]
  refine ⟨x', y', z', hc, ?_⟩
  rw [hc] at h
  have hp : [x', y', z'].Perm [x, y, z] := by
    have := h.filterMap id
    simpa using this
  rwa [centroid_perm hp]

/-- **C99** the generated mesh: if CGAL's faces form a complex and the points of the last iteration are further apart than the tolerance of `fix_mesh`,
the mesh returned by `generate_mesh` is good: indices in range, no unused or equal points, rows with three different corners, no repeated
triangles, at most two on an edge, counterclockwise. Every triangle is one of the last triangulation, with its centroid inside by `geps`. -/
theorem C99_generated {S : GenSetup K} {f : K × K → K} (hf : Pointwise S.fd f) (hr : IsRounding S.rnd) (hpt : 0 < S.ptol)
    {maxIter : Nat} {p : List (K × K)} {m : FixResult K} {l : List (GenIter K)} (h : generateMesh S maxIter p = some (m, l)) {r : GenIter K}
    (hl : l.getLast? = some r) (hs : Simplicial (dtInsert S.cgal ⟨[], []⟩ r.inserted)) (hnd : r.points.Nodup) {e : K} (he : FitsIn e r.points)
    (hap : Separated (e * S.ptol) r.points) :
    GoodMesh (e * S.ptol) m.p m.t ∧ FitsIn e m.p ∧ Inherits r.points r.kept m.p m.t ∧ ∀ g ∈ m.t, InsideBy f S.geps m.p g := by
  obtain ⟨-, -, a3, r', a4, a5⟩ := C68_kept hf h
  obtain rfl : r' = r := Option.some.inj (a4.symm.trans hl)
  obtain ⟨⟨e', b1⟩, b2⟩ := a3 r' (List.mem_of_getLast? hl)
  obtain ⟨n, -, -, h'⟩ := generateMesh_loop h
  obtain ⟨-, -, -, b4⟩ := genFirst_stages ((genLoop_trace h').2.2.1 r' (List.mem_of_getLast? hl))
  obtain ⟨c1, c2, c3⟩ := removeOutside_mem hf b4
  obtain ⟨d1, d2⟩ := topology_simplicial hs b1
  have hcf : Conforming r'.kept := fun u v => (List.Sublist.length_le (c1.filter _)).trans (d2 u v)
  let E : Engine K := ⟨lexOrder, S.oP, S.oT, stableSort Nat lexOrder, stableSort Nat natOrder, S.rnd, S.ptol, fun _ _ => none⟩
  have hm : refix E r'.points r'.kept = some ⟨m.p, m.t⟩ := by rw [refix]; simp only [E, a5]; rfl
  obtain ⟨g1, g2, g3⟩ := refix_good_of (E := E) hr hpt he (fun f hf => c2 f (c1.subset hf)) hnd hap (fun f hf => d1 f (c1.subset hf)) hcf (fun f hf => hf) hm
  refine ⟨g1, extent_sub he g2, g3, ?_⟩
  intro g hg
  obtain ⟨k, hk, hp⟩ := g3 g hg
  exact insideBy_perm hp (c3 k |>.1 hk).2

/-- **C99** the first two steps of the documented workflow after `generate_mesh` (same rounding, row orders and tolerance): whenever the first step returns,
so does the second, with a good mesh with traversable boundaries, without triangles connected to only one other, whose triangles are triangles
of the last triangulation with their centroids inside the domain by `geps`. -/
theorem C99_workflow {S : GenSetup K} {f : K × K → K} (hf : Pointwise S.fd f) (hr : IsRounding S.rnd) (hpt : 0 < S.ptol)
    {maxIter : Nat} {p : List (K × K)} {m : FixResult K} {l : List (GenIter K)} (h : generateMesh S maxIter p = some (m, l)) {r : GenIter K}
    (hl : l.getLast? = some r) (hs : Simplicial (dtInsert S.cgal ⟨[], []⟩ r.inserted)) (hnd : r.points.Nodup) {e : K} (he : FitsIn e r.points)
    (hap : Separated (e * S.ptol) r.points)
    {E : Engine K} (hE : E.rnd = S.rnd ∧ E.ptol = S.ptol) {rand : Nat → Nat → Nat → Nat} {thr : K} {m1 : Mesh K}
    (h1 : makeTraversable E rand thr ⟨m.p, m.t⟩ = some (some m1)) :
    ∃ m2, deleteOneFace E none m1 = some (some m2) ∧ GoodMesh (e * S.ptol) m2.p m2.t ∧ Traversable m2.t ∧ (∀ c, ¬ HasOneNeighbour m2.t c) ∧
      Inherits r.points r.kept m2.p m2.t ∧ ∀ g ∈ m2.t, InsideBy f S.geps m2.p g := by
  obtain ⟨a1, a2, a3, a4⟩ := C99_generated hf hr hpt h hl hs hnd he hap
  obtain ⟨hE1, hE2⟩ := hE
  rw [← hE1] at hr
  rw [← hE2] at hpt a1 ⊢
  obtain ⟨m2, b1, b2, b3, b4, b5⟩ := C97_two_steps hr hpt (m := ⟨m.p, m.t⟩) a2 a1 h1
  refine ⟨m2, b1, b2, b3, b4, a3.trans b5, fun g hg => ?_⟩
  obtain ⟨k, hk, hp⟩ := b5 g hg
  exact insideBy_perm hp (a4 k hk)

/-- **C99** without fixed points the points of every iteration are those of the triangulation, so they are different. -/
theorem C99_no_fixed {S : GenSetup K} (L : CgalLaws S.cgal) (hp : S.pfix = []) {maxIter : Nat} {p : List (K × K)} {m : FixResult K} {l : List (GenIter K)}
    (h : generateMesh S maxIter p = some (m, l)) : ∀ r ∈ l, r.points.Nodup ∧ (dtInsert S.cgal ⟨[], []⟩ r.inserted).vertices.map (·.point) = r.points := by
  intro r hrl
  obtain ⟨n, -, -, h'⟩ := generateMesh_loop h
  obtain ⟨-, ⟨e, b1⟩, ⟨locked, ix, -, -, b3⟩, -⟩ := genFirst_stages ((genLoop_trace h').2.2.1 r hrl)
  rw [hp] at b3
  have b3 := Option.some.inj b3
  simp only [Prod.mk.injEq] at b3
  have hv : r.vertices = (dtInsert S.cgal ⟨[], []⟩ r.inserted).vertices.map (·.point) := by
    simp only [getTopology, Option.bind_eq_bind, Option.bind_eq_some_iff] at b1
    obtain ⟨s, -, h2⟩ := b1
    have h2 := Option.some.inj h2
    simp only [Prod.mk.injEq] at h2
    rw [← h2.1]; rfl
  rw [← b3.2]
  exact ⟨(topology_points L b1).1, hv.symm⟩

end

/-! ### An execution -/

def fanFaces (a : Nat) (k : Nat) (b : Nat) : List Nat → List DFace
  | [] => []
  | c :: l => ⟨k, ![a, b, c], fun _ => none, 0⟩ :: fanFaces a (k + 1) c l

/-- The first point with each pair of successive points after the second, and a triangle of the second, third and fourth. -/
def wheelCgal : Cgal ℚ where
  insert d l :=
    let vs := l.foldl toyInsertOne d.vertices
    ⟨vs, match vs.map (·.handle) with
      | a :: x :: y :: z :: l => ⟨0, ![x, y, z], fun _ => none, 0⟩ :: fanFaces a 1 y (z :: l ++ [y])
      | _ => []⟩
  remove := toyCgal.remove
  move := toyCgal.move

def wheelGen : GenSetup ℚ := { genQ [] false with cgal := wheelCgal }

def wheelStart : List (ℚ × ℚ) := [(5, 5), (4, -4), (0, 0), (9, 0), (10, 9), (1, 11), (0, 0)]

/-- The execution: two iterations; the point given twice is inserted once, and the points move. -/
def wheelRun : FixResult ℚ × List (GenIter ℚ) :=
  let q : List (ℚ × ℚ) := [(298394 / 66625, 340469 / 66625), (17373 / 4100, -21009 / 4100), (-477 / 500, 253 / 500), (10134 / 1025, -101 / 1025),
    (2151 / 205, 9629 / 1025), (279 / 325, 3644 / 325)]
  let q0 : List (ℚ × ℚ) := [(5, 5), (4, -4), (0, 0), (9, 0), (10, 9), (1, 11)]
  let t : List Tri := [⟨1, 2, 3⟩, ⟨0, 2, 3⟩, ⟨0, 3, 4⟩, ⟨0, 4, 5⟩, ⟨0, 5, 2⟩]
  (⟨[(-477 / 500, 253 / 500), (279 / 325, 3644 / 325), (17373 / 4100, -21009 / 4100), (298394 / 66625, 340469 / 66625), (10134 / 1025, -101 / 1025),
      (2151 / 205, 9629 / 1025)], [⟨1, 0, 3⟩, ⟨0, 2, 4⟩, ⟨3, 0, 4⟩, ⟨1, 3, 5⟩, ⟨3, 4, 5⟩], [0, 1, 3, 0, 2, 4, 0, 3, 4, 1, 3, 5, 3, 4, 5]⟩,
    [⟨wheelStart, q0, t, q0, [], t⟩, ⟨q, q, t, q, [], t⟩])

theorem wheelRun_eq : generateMesh wheelGen 2 wheelStart = some (wheelRun.1, wheelRun.2) := by decide +kernel

theorem simplicial_of_bound {d : Triangulation ℚ} (n : Nat) (h1 : (d.vertices.map (·.handle)).Nodup) (h2 : ∀ f ∈ d.faces, ∀ i, f.corners i < n)
    (h3 : ∀ f ∈ d.faces, f.corners 0 ≠ f.corners 1 ∧ f.corners 0 ≠ f.corners 2 ∧ f.corners 1 ≠ f.corners 2)
    (h4 : ∀ h < n, ∀ k < n, h ≠ k → (d.faces.filter fun f => decide ((∃ i, f.corners i = h) ∧ ∃ j, f.corners j = k)).length ≤ 2) : Simplicial d := by
  refine ⟨h1, h3, fun h k hk => ?_⟩
  by_cases hh : h < n
  · by_cases hk' : k < n
    · exact h4 h hh k hk' hk
    · rw [List.filter_eq_nil_iff.2]; · simp
      intro f hf hx
      obtain ⟨-, j, rfl⟩ := of_decide_eq_true hx
      exact hk' (h2 f hf j)
  · rw [List.filter_eq_nil_iff.2]; · simp
    intro f hf hx
    obtain ⟨⟨j, rfl⟩, -⟩ := of_decide_eq_true hx
    exact hh (h2 f hf j)

theorem wheelRun_simplicial : Simplicial (dtInsert wheelGen.cgal ⟨[], []⟩ wheelRun.2[1].inserted) :=
  simplicial_of_bound 7 (by decide +kernel) (by decide +kernel) (by decide +kernel) (by decide +kernel)

theorem wheelRun_fits : FitsIn (20 : ℚ) wheelRun.2[1].points := by
  have : ∀ q ∈ wheelRun.2[1].points, ∀ q' ∈ wheelRun.2[1].points, |q.1 - q'.1| ≤ 20 ∧ |q.2 - q'.2| ≤ 20 := by decide +kernel
  exact this

theorem wheelRun_apart : Separated ((20 : ℚ) * wheelGen.ptol) wheelRun.2[1].points := by
  have : ∀ q ∈ wheelRun.2[1].points, ∀ q' ∈ wheelRun.2[1].points, |q.1 - q'.1| ≤ 20 * wheelGen.ptol ∧ |q.2 - q'.2| ≤ 20 * wheelGen.ptol → q = q' := by
    decide +kernel
  exact this

example := C99_generated (S := wheelGen) (genQ_fd [] false) rndQ_isRounding (by norm_num [wheelGen, genQ]) wheelRun_eq rfl wheelRun_simplicial
  (by decide +kernel) wheelRun_fits wheelRun_apart

-- Cleaning the generated mesh: the first step keeps it, the second one deletes the triangle outside the wheel.
example : ∃ m2, deleteOneFace engineQ none ⟨wheelRun.1.p, wheelRun.1.t⟩ = some (some m2) ∧ m2.t.length = 4 ∧ Traversable m2.t ∧
    ∀ g ∈ m2.t, InsideBy slopeFd (1 / 1000) m2.p g := by
  obtain ⟨m2, h1, -, h2, -, -, h3⟩ := C99_workflow (S := wheelGen) (genQ_fd [] false) rndQ_isRounding (by norm_num [wheelGen, genQ]) wheelRun_eq rfl
    wheelRun_simplicial (by decide +kernel) wheelRun_fits wheelRun_apart (E := engineQ) ⟨rfl, rfl⟩ (rand := fun _ _ _ => 0) (thr := 1 / 20)
    (m1 := ⟨wheelRun.1.p, wheelRun.1.t⟩) (by decide +kernel)
  refine ⟨m2, h1, ?_, h2, h3⟩
  have h4 : (deleteOneFace engineQ none ⟨wheelRun.1.p, wheelRun.1.t⟩).map (·.map fun m => m.t.length) = some (some 4) := by decide +kernel
  rw [h1] at h4
  simpa using h4

example := C99_no_fixed (S := genQ [] true) toyCgal_laws rfl runLocked_eq

end OM
