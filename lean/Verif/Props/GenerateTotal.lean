import Verif.Props.FixedPoints
/-!
# C94: when `generate_mesh` returns, and what it returns
-/
set_option linter.unusedSectionVars false
namespace OM
open Spec

namespace Spec
/-- A function on arrays that never raises and works point by point. -/
def Total {α β : Type} (F : List α → Option (List β)) (f : α → β) : Prop := ∀ l, F l = some (l.map f)

section
variable {K : Type} [Field K] [LinearOrder K]

/-- The size wanted at a point; in stereographic coordinates that of the point in degrees times the distortion there. -/
def sizeAt (S : GenSetup K) (g : K × K → Float64 K) (q : K × K) : Float64 K :=
  match S.stereo with
  | none => g q
  | some (back, dist) => (g (back q)).mul (dist (back q).2)

/-- At the middle of some side of a kept triangle the size is a positive number. -/
def HasUsableBar (S : GenSetup K) (g : K × K → Float64 K) (r : GenIter K) : Prop :=
  ∃ f ∈ r.kept, ∃ (u v : Nat) (x y : K × K) (s : K), HasSide f u v ∧ r.points[u]? = some x ∧ r.points[v]? = some y ∧
    usable (sizeAt S g (middle x y)) = some s

/-- The first iterations of a run: the first one gets the start points, each one its points from the one before. -/
structure Started (S : GenSetup K) (p : List (K × K)) (l : List (GenIter K)) : Prop where
  first : ∃ r, l[0]? = some r ∧ r.inserted = p
  iterations : ∀ r ∈ l, genFirst S r.inserted = some r
  steps : ∀ (k : Nat) (r r' : GenIter K), l[k]? = some r → l[k + 1]? = some r' → genSecond S r = some r'.inserted
end
end Spec

section
variable {K : Type} [Field K] [LinearOrder K]

theorem Spec.Total.pointwise {α β : Type} {F : List α → Option (List β)} {f : α → β} (h : Total F f) : Pointwise F f := by
  intro l r hr
  rw [h l] at hr
  exact (Option.some.inj hr).symm

theorem usable_eq (x : Float64 K) : usable x = x.positive := by
  cases x <;> rfl

theorem topology_isSome {E : Cgal K} (L : CgalLaws E) (p : List (K × K)) :
    ∃ v t e, getTopology (dtInsert E ⟨[], []⟩ p) = some (v, t, e) ∧ ValidMesh v t := by
  have hd : dtHistory E [.insert p] = some (dtInsert E ⟨[], []⟩ p) := rfl
  obtain ⟨v, t, e, h1, -, -, h4⟩ := C75_topology L hd
  refine ⟨v, t, e, h1, ?_⟩
  intro f hf w hw
  obtain ⟨i, hi⟩ := List.mem_iff_getElem?.1 hf
  have hlt : i < (dtInsert E ⟨[], []⟩ p).faces.length := by
    rw [← h4.1]; exact (List.getElem?_eq_some_iff.1 hi).1
  obtain ⟨A, B, C, -, -, -, hA, hB, hC⟩ := h4.2 i _ f (List.getElem?_eq_getElem hlt) hi
  rcases hw with rfl | rfl | rfl
  · exact (List.getElem?_eq_some_iff.1 hA).1
  · exact (List.getElem?_eq_some_iff.1 hB).1
  · exact (List.getElem?_eq_some_iff.1 hC).1

theorem nearestVertex_isSome (q : K × K) {p : List (K × K)} (h : p ≠ []) : ∃ i, nearestVertex q p = some i := by
  obtain ⟨r, hr⟩ := argMin_isSome (l := dist2 q p) (by simpa [dist2] using h)
  exact ⟨r.1, by rw [nearestVertex, hr]; rfl⟩

theorem nearestVertices_isSome {p : List (K × K)} (h : p ≠ []) : ∀ l : List (K × K), ∃ ix, nearestVertices p l = some ix
  | [] => ⟨[], rfl⟩
  | q :: l => by
    obtain ⟨i, hi⟩ := nearestVertex_isSome q h
    obtain ⟨r, hr⟩ := nearestVertices_isSome h l
    exact ⟨i :: r, by simp [nearestVertices, hi, hr]⟩

theorem placeFixed_isSome : ∀ (l p : List (K × K)), p ≠ [] → ∃ R, placeFixed l p = some R
  | [], p, _ => ⟨([], p), rfl⟩
  | q :: l, p, h => by
    obtain ⟨i, hi⟩ := nearestVertex_isSome q h
    obtain ⟨r, hr⟩ := placeFixed_isSome l (p.set i q) (by simpa using h)
    exact ⟨(i :: r.1, r.2), by simp [placeFixed, hi, hr]⟩

theorem centroids_isSome {p : List (K × K)} : ∀ {t : List Tri}, ValidMesh p t → ∃ c, centroids p t = some c ∧ c.length = t.length
  | [], _ => ⟨[], rfl, rfl⟩
  | f :: t, h => by
    obtain ⟨c, hc, hl⟩ := centroids_isSome (p := p) (t := t) fun g hg => h g (List.mem_cons_of_mem _ hg)
    have ha := List.getElem?_eq_getElem (h f (by simp) f.a (Or.inl rfl))
    have hb := List.getElem?_eq_getElem (h f (by simp) f.b (Or.inr (Or.inl rfl)))
    have hcc := List.getElem?_eq_getElem (h f (by simp) f.c (Or.inr (Or.inr rfl)))
    exact ⟨_, by simp only [centroids, ha, hb, hcc, hc, Option.bind_eq_bind, Option.bind_some]; rfl, by simp [hl]⟩

theorem placeFixed_subset : ∀ {l p p' : List (K × K)} {ix : List Nat}, placeFixed l p = some (ix, p') → ∀ q ∈ p', q ∈ p ∨ q ∈ l
  | [], p, p', ix, h, q, hq => by
    simp only [placeFixed, Option.some.injEq, Prod.mk.injEq] at h
    obtain ⟨-, rfl⟩ := h
    exact Or.inl hq
  | x :: l, p, p', ix, h, q, hq => by
    obtain ⟨i, r, p1, -, h2, h3⟩ := placeFixed_cons h
    simp only [Prod.mk.injEq] at h3
    obtain ⟨-, rfl⟩ := h3
    rcases placeFixed_subset h2 q hq with h | h
    · rcases List.mem_or_eq_of_mem_set h with h | rfl
      · exact Or.inl h
      · exact Or.inr (by simp)
    · exact Or.inr (List.mem_cons_of_mem _ h)

/-- The first part of an iteration never raises. -/
theorem genFirst_isSome {S : GenSetup K} (L : CgalLaws S.cgal) {f : K × K → K} (hf : Total S.fd f) {p : List (K × K)} (hp : p ≠ []) :
    ∃ r, genFirst S p = some r ∧ r.inserted = p ∧ r.points ≠ [] ∧ ValidMesh r.points r.kept := by
  obtain ⟨v, t, e, h1, h2⟩ := topology_isSome L p
  have hv : v ≠ [] := by
    obtain ⟨-, hm⟩ := topology_points L h1
    obtain ⟨q, hq⟩ := List.exists_mem_of_ne_nil p hp
    exact List.ne_nil_of_mem ((hm q).2 hq)
  obtain ⟨locked, h3⟩ : ∃ locked, (if S.lock then (externalTopology S.oE v t).bind fun b => nearestVertices v b.2 else some []) = some locked := by
    split
    · obtain ⟨bv, hb, -⟩ := externalTopology_isSome S.oE h2
      obtain ⟨ix, hix⟩ := nearestVertices_isSome hv bv
      exact ⟨ix, by rw [hb, Option.bind_some, hix]⟩
    · exact ⟨[], rfl⟩
  obtain ⟨⟨ix, p'⟩, h4⟩ := placeFixed_isSome S.pfix v hv
  obtain ⟨-, hlen, -, -⟩ := placeFixed_facts h4
  have hval : ValidMesh p' t := fun g hg w hw => by rw [hlen]; exact h2 g hg w hw
  obtain ⟨c, h5, hcl⟩ := centroids_isSome hval
  obtain ⟨kept, h6⟩ := maskRows_isSome (m := (c.map f).map fun x => decide (x < -S.geps)) (l := t) (by simp [hcl])
  have h7 : removeTrianglesOutside S.fd S.geps p' t = some kept := by
    simp only [removeTrianglesOutside, h5, Option.bind_eq_bind, Option.bind_some, hf _, h6]
  refine ⟨⟨p, v, t, p', locked ++ ix, kept⟩, ?_, rfl, ?_, ?_⟩
  · unfold genFirst
    rw [h1]
    simp only [Option.bind_eq_bind, Option.bind_some]
    by_cases hl : S.lock = true
    · rw [if_pos hl] at h3
      simp only [hl, if_true, h3, Option.bind_some, h4, h7]
      rfl
    · rw [if_neg hl] at h3
      simp only [hl, Bool.false_eq_true, if_false, h4, h7, Option.bind_some]
      rw [← Option.some.inj h3]
      rfl
  · intro h0
    have h0 : p' = [] := h0
    rw [h0] at hlen
    exact hv (List.length_eq_zero_iff.1 hlen.symm)
  · exact fun g hg => hval g ((maskRows_sublist h6).subset hg)

theorem barEnds_isSome {p : List (K × K)} : ∀ {bars : List (Nat × Nat)}, (∀ e ∈ bars, e.1 < p.length ∧ e.2 < p.length) →
    ∃ r, barEnds p bars = some r
  | [], _ => ⟨[], rfl⟩
  | e :: l, h => by
    obtain ⟨r, hr⟩ := barEnds_isSome (p := p) (bars := l) fun x hx => h x (List.mem_cons_of_mem _ hx)
    have h1 := List.getElem?_eq_getElem (h e (by simp)).1
    have h2 := List.getElem?_eq_getElem (h e (by simp)).2
    exact ⟨_, by simp only [barEnds, h1, h2, hr, Option.bind_eq_bind, Option.bind_some]; rfl⟩

theorem project_isSome {fd : List (K × K) → Option (List K)} {f : K × K → K} (hf : Total fd f) (deps : K) (p : List (K × K)) :
    ∃ p', projectPointsBack fd deps p = some p' := by
  have hg : ∀ q : List (K × K), ∃ g, gradients fd deps q (q.map f) = some g := by
    intro q
    simp only [gradients, hf _, Option.bind_eq_bind, Option.bind_some, List.length_map, and_self, if_true]
    exact ⟨_, rfl⟩
  simp only [projectPointsBack, hf _, Option.bind_eq_bind, Option.bind_some]
  split
  · have e1 := maskRows_map (fun x => decide (0 < f x)) id p
    rw [List.map_id, List.map_id] at e1
    have e2 := maskRows_map (fun x => decide (0 < f x)) f p
    rw [List.map_map]
    have e0 : ((fun x => decide (0 < x)) ∘ f) = fun x => decide (0 < f x) := rfl
    rw [e0, e1, e2]
    simp only [Option.bind_some]
    obtain ⟨g, hgq⟩ := hg (p.filter fun x => decide (0 < f x))
    simp only [outsideGradients, hgq, Option.bind_some]
    exact ⟨_, rfl⟩
  · exact ⟨_, rfl⟩

/-- The second part of an iteration raises exactly if there is no side with a usable size. -/
theorem genSecond_isSome_iff {S : GenSetup K} {f : K × K → K} (hf : Total S.fd f) {g : K × K → Float64 K} (hg : Total S.fh g) {r : GenIter K}
    (hv : ValidMesh r.points r.kept) : (∃ p', genSecond S r = some p') ↔ HasUsableBar S g r := by
  obtain ⟨bars, hb, -, hmem⟩ := C74_unique_edges r.kept
  have hval : ∀ e ∈ bars, e.1 < r.points.length ∧ e.2 < r.points.length := by
    rintro ⟨u, v⟩ he
    obtain ⟨-, t, ht, hs⟩ := (hmem u v).1 he
    have ha := hv t ht t.a (Or.inl rfl)
    have hb := hv t ht t.b (Or.inr (Or.inl rfl))
    have hc := hv t ht t.c (Or.inr (Or.inr rfl))
    rcases hs with ⟨rfl, rfl⟩ | ⟨rfl, rfl⟩ | ⟨rfl, rfl⟩ | ⟨rfl, rfl⟩ | ⟨rfl, rfl⟩ | ⟨rfl, rfl⟩ <;> constructor <;> assumption
  obtain ⟨ends, he⟩ := barEnds_isSome hval
  obtain ⟨rfl, -⟩ := barEnds_eq he
  have hsz : barSizes S.fh S.stereo ((bars.map fun e => (vertexAt r.points e.1, vertexAt r.points e.2)).map barMid) =
      some (bars.map fun e => sizeAt S g (middle (vertexAt r.points e.1) (vertexAt r.points e.2))) := by
    unfold barSizes sizeAt
    cases hst : S.stereo with
    | none =>
      simp only [hg _, Option.bind_some, List.length_map, if_true, List.map_map]
      rfl
    | some s =>
      obtain ⟨back, dist⟩ := s
      simp only [hg _, Option.bind_some, List.length_map, if_true, List.map_map, Option.some.injEq]
      rw [zipWith_map_map]
      rfl
  have hat : ∀ (u : Nat) (x : K × K), r.points[u]? = some x → vertexAt r.points u = x := fun u x h => by simp [vertexAt, h]
  constructor
  · rintro ⟨p', h⟩
    simp only [genSecond, Option.bind_eq_bind, Option.bind_eq_some_iff] at h
    obtain ⟨F, h1, -⟩ := h
    simp only [computeForces, hb, he, hsz, Option.bind_eq_bind, Option.bind_some, Option.bind_eq_some_iff] at h1
    obtain ⟨h', h2, -⟩ := h1
    have hne : (bars.map fun e => sizeAt S g (middle (vertexAt r.points e.1) (vertexAt r.points e.2))).filterMap Float64.positive ≠ [] := by
      intro h0
      rw [repairSizes, h0] at h2
      simp [median_nil] at h2
    obtain ⟨s, hs⟩ := List.exists_mem_of_ne_nil _ hne
    obtain ⟨x, hx, hxs⟩ := List.mem_filterMap.1 hs
    obtain ⟨⟨u, v⟩, hbar, rfl⟩ := List.mem_map.1 hx
    obtain ⟨-, t, ht, hside⟩ := (hmem u v).1 hbar
    have hu := List.getElem?_eq_getElem (hval _ hbar).1
    have hw := List.getElem?_eq_getElem (hval _ hbar).2
    refine ⟨t, ht, u, v, _, _, s, hside, hu, hw, ?_⟩
    rw [usable_eq, ← hxs]
    simp only [hat u _ hu, hat v _ hw]
  · rintro ⟨t, ht, u, v, x, y, s, hside, hu, hw, hs⟩
    have hside' : ∃ e ∈ bars, usable (sizeAt S g (middle (vertexAt r.points e.1) (vertexAt r.points e.2))) = some s := by
      rcases Nat.le_total u v with h | h
      · exact ⟨(u, v), (hmem u v).2 ⟨h, t, ht, hside⟩, by simp only [hat u x hu, hat v y hw, hs]⟩
      · refine ⟨(v, u), (hmem v u).2 ⟨h, t, ht, by simp only [HasSide] at hside ⊢; omega⟩, ?_⟩
        simp only [hat u x hu, hat v y hw]
        rw [← hs]
        simp only [middle, add_comm]
    obtain ⟨e, hebar, hes⟩ := hside'
    have hne : (bars.map fun e => sizeAt S g (middle (vertexAt r.points e.1) (vertexAt r.points e.2))).filterMap Float64.positive ≠ [] := by
      refine List.ne_nil_of_mem (a := s) (List.mem_filterMap.2 ⟨_, List.mem_map.2 ⟨e, hebar, rfl⟩, ?_⟩)
      rw [← usable_eq]; exact hes
    have hbne : bars ≠ [] := List.ne_nil_of_mem hebar
    obtain ⟨m, hm⟩ := median_isSome hne
    obtain ⟨mL, hmL⟩ := median_isSome (l := (bars.map fun e => (vertexAt r.points e.1, vertexAt r.points e.2)).map (barLength S.sqrt S.eps))
      (by simpa using hbne)
    obtain ⟨mh, hmh⟩ := median_isSome (l := (bars.map fun e => sizeAt S g (middle (vertexAt r.points e.1) (vertexAt r.points e.2))).map
      (Float64.orElse m)) (by simpa using hbne)
    have hF : ∃ F, computeForces S.sqrt S.eps S.mult S.fh S.stereo r.points r.kept = some F := by
      simp only [computeForces, hb, he, hsz, repairSizes, hm, hmL, hmh, Option.bind_eq_bind, Option.bind_some]
      exact ⟨_, rfl⟩
    obtain ⟨F, hF⟩ := hF
    obtain ⟨p', hp'⟩ := project_isSome hf S.deps (movePoints S.dt r.fixed r.points F)
    exact ⟨p', by simp only [genSecond, hF, Option.bind_eq_bind, Option.bind_some, hp']⟩

theorem genSecond_ne_nil {S : GenSetup K} {f : K × K → K} (hf : Total S.fd f) {r : GenIter K} {p' : List (K × K)} (hr : r.points ≠ [])
    (h : genSecond S r = some p') : p' ≠ [] := by
  simp only [genSecond, Option.bind_eq_bind, Option.bind_eq_some_iff] at h
  obtain ⟨F, h1, h2⟩ := h
  have hp := project_eq hf.pointwise h2
  have hl := movePoints_length (dt := S.dt) (fixed := r.fixed) (C70_balanced h1).1
  intro h0
  rw [h0] at hp
  have hlen : (movePoints S.dt r.fixed r.points F).length = 0 := by
    have := congrArg List.length hp
    simpa using this.symm
  rw [hl] at hlen
  exact hr (List.length_eq_zero_iff.1 hlen)

theorem genLoop_none_iff [IsStrictOrderedRing K] {S : GenSetup K} (L : CgalLaws S.cgal) {f : K × K → K} (hf : Total S.fd f) {g : K × K → Float64 K} (hg : Total S.fh g) (n : Nat)
    {p : List (K × K)} (hp : p ≠ []) :
    genLoop S n p = none ↔ ∃ l r, l.length ≤ n ∧ Started S p l ∧ l.getLast? = some r ∧ ¬ HasUsableBar S g r := by
  induction n generalizing p with
  | zero =>
    obtain ⟨r, h1, -, h3, h4⟩ := genFirst_isSome L hf hp
    obtain ⟨R, hR⟩ := fixMesh_isSome S.rnd S.oP S.oT S.ptol true h3 h4
    constructor
    · intro h
      simp [genLoop, h1, hR] at h
    · rintro ⟨l, r, hl, hs, -⟩
      obtain ⟨r0, h0, -⟩ := hs.first
      rw [List.length_eq_zero_iff.1 (Nat.le_zero.1 hl)] at h0
      simp at h0
  | succ n ih =>
    obtain ⟨r, h1, hi, h3, h4⟩ := genFirst_isSome L hf hp
    by_cases hu : HasUsableBar S g r
    · obtain ⟨p', h5⟩ := (genSecond_isSome_iff hf hg h4).2 hu
      have hp' := genSecond_ne_nil hf h3 h5
      have e : genLoop S (n + 1) p = none ↔ genLoop S n p' = none := by
        simp only [genLoop, h1, h5, Option.bind_eq_bind, Option.bind_some]
        cases genLoop S n p' <;> simp
      rw [e, ih hp']
      constructor
      · rintro ⟨l, r', hl, hs, hlast, hn⟩
        refine ⟨r :: l, r', by simp only [List.length_cons]; omega, ⟨⟨r, rfl, hi⟩, ?_, ?_⟩, ?_, hn⟩
        · intro x hx
          rcases List.mem_cons.1 hx with rfl | hx
          · rw [hi]; exact h1
          · exact hs.iterations x hx
        · intro k x x' hx hx'
          cases k with
          | zero =>
            obtain rfl : r = x := by simpa using hx
            obtain ⟨r0, h00, h01⟩ := hs.first
            obtain rfl : r0 = x' := by
              rw [List.getElem?_cons_succ, h00] at hx'
              exact Option.some.inj hx'
            rw [h01]; exact h5
          | succ k => exact hs.steps k x x' (by simpa using hx) (by simpa using hx')
        · obtain ⟨r0, h00, -⟩ := hs.first
          cases l with
          | nil => simp at h00
          | cons a l => rw [List.getLast?_cons_cons]; exact hlast
      · rintro ⟨l, r', hl, hs, hlast, hn⟩
        obtain ⟨r0, h00, h01⟩ := hs.first
        cases l with
        | nil => simp at h00
        | cons a l =>
          obtain rfl : a = r0 := by simpa using h00
          have ha : a = r := by
            have := hs.iterations a (by simp)
            rw [h01, h1] at this
            exact (Option.some.inj this).symm
          subst ha
          cases l with
          | nil =>
            obtain rfl : a = r' := by simpa using hlast
            exact absurd hu hn
          | cons b l =>
            refine ⟨b :: l, r', by simpa using hl, ⟨⟨b, rfl, ?_⟩, fun x hx => hs.iterations x (List.mem_cons_of_mem _ hx),
              fun k x x' hx hx' => hs.steps (k + 1) x x' (by simpa using hx) (by simpa using hx')⟩, ?_, hn⟩
            · have := hs.steps 0 a b rfl rfl
              rw [h5] at this
              exact (Option.some.inj this).symm
            · rw [List.getLast?_cons_cons] at hlast; exact hlast
    · constructor
      · intro _
        refine ⟨[r], r, by simp, ⟨⟨r, rfl, hi⟩, ?_, ?_⟩, rfl, hu⟩
        · intro x hx
          obtain rfl : x = r := by simpa using hx
          rw [hi]; exact h1
        · intro k x x' hx hx'
          simp at hx'
      · intro _
        have : genSecond S r = none := by
          cases h : genSecond S r with
          | none => rfl
          | some p' => exact absurd ((genSecond_isSome_iff hf hg h4).1 ⟨p', h⟩) hu
        simp [genLoop, h1, this]

/-- **C94** (when it raises): if the distance and sizing functions never raise, `generate_mesh` raises exactly if no iteration or no start point is
given, or if in one of the iterations before the last no side of a kept triangle has a finite positive size (for example because no triangle is kept). -/
theorem C94_raises_iff [IsStrictOrderedRing K] {S : GenSetup K} (L : CgalLaws S.cgal) {f : K × K → K} (hf : Total S.fd f) {g : K × K → Float64 K} (hg : Total S.fh g)
    (maxIter : Nat) (p : List (K × K)) :
    generateMesh S maxIter p = none ↔ maxIter = 0 ∨ p = [] ∨
      ∃ l r, l.length < maxIter ∧ Started S p l ∧ l.getLast? = some r ∧ ¬ HasUsableBar S g r := by
  unfold generateMesh
  cases maxIter with
  | zero => simp
  | succ n =>
    dsimp only
    by_cases hp : p = []
    · simp [hp]
    · rw [if_neg (by simpa using hp), genLoop_none_iff L hf hg n hp]
      simp only [Nat.lt_succ_iff, hp, Nat.succ_ne_zero, false_or]

/-- **C94** (one iteration): with `max_iter=1` and a start point it always returns. -/
theorem C94_one_iteration [IsStrictOrderedRing K] {S : GenSetup K} (L : CgalLaws S.cgal) {f : K × K → K} (hf : Total S.fd f) {p : List (K × K)} (hp : p ≠ []) :
    ∃ R, generateMesh S 1 p = some R := by
  obtain ⟨r, h1, -, h3, h4⟩ := genFirst_isSome L hf hp
  obtain ⟨R, hR⟩ := fixMesh_isSome S.rnd S.oP S.oT S.ptol true h3 h4
  exact ⟨(R, [r]), by simp [generateMesh, genLoop, h1, hR, hp]⟩

/-- **C94** (sizes): if all sizes are positive numbers, the second part of an iteration raises exactly if no triangle is kept. -/
theorem C94_positive_sizes {S : GenSetup K} (hst : S.stereo = none) {g : K × K → Float64 K} (hpos : ∀ q, ∃ s, g q = .fin s ∧ 0 < s) {r : GenIter K}
    (hv : ValidMesh r.points r.kept) : HasUsableBar S g r ↔ r.kept ≠ [] := by
  constructor
  · rintro ⟨f, hf, -⟩
    exact List.ne_nil_of_mem hf
  · intro h
    obtain ⟨f, hf⟩ := List.exists_mem_of_ne_nil _ h
    have ha := List.getElem?_eq_getElem (hv f hf f.a (Or.inl rfl))
    have hb := List.getElem?_eq_getElem (hv f hf f.b (Or.inr (Or.inl rfl)))
    obtain ⟨s, h1, h2⟩ := hpos (middle (r.points[f.a]'(hv f hf f.a (Or.inl rfl))) (r.points[f.b]'(hv f hf f.b (Or.inr (Or.inl rfl)))))
    exact ⟨f, hf, f.a, f.b, _, _, s, Or.inl ⟨rfl, rfl⟩, ha, hb, by simp [sizeAt, hst, h1, usable, h2]⟩

/-- **C94** (result): if `generate_mesh` returns, all indices are valid, every vertex belongs to a triangle, no two triangles have the same vertices, all
signed areas are non-negative, and every vertex is a point of the last triangulation or a fixed point. No assumption on the functions or on CGAL. -/
theorem C94_wellformed [IsStrictOrderedRing K] {S : GenSetup K} {maxIter : Nat} {p : List (K × K)} {m : FixResult K} {l : List (GenIter K)}
    (h : generateMesh S maxIter p = some (m, l)) :
    ValidMesh m.p m.t ∧ (∀ v < m.p.length, ∃ f ∈ m.t, HasVertex f v) ∧ (m.t.Pairwise fun f g => ¬ SameVertices f g) ∧
      (∀ g ∈ m.t, ∃ x y z, m.p[g.a]? = some x ∧ m.p[g.b]? = some y ∧ m.p[g.c]? = some z ∧ 0 ≤ signedArea x y z) ∧
      ∃ r, l.getLast? = some r ∧ ∀ q ∈ m.p, q ∈ r.vertices ∨ q ∈ S.pfix := by
  obtain ⟨n, -, -, h'⟩ := generateMesh_loop h
  obtain ⟨-, -, a3, -, r, a5, a6⟩ := genLoop_trace h'
  obtain ⟨w1, w2, w3⟩ := C05_fix_mesh_wellformed a6
  refine ⟨w1, w3 rfl, w2, C07_fix_mesh_ccw a6, r, a5, fun q hq => ?_⟩
  obtain ⟨-, -, ⟨locked, ix, -, -, hplace⟩, -⟩ := genFirst_stages (a3 r (List.mem_of_getLast? a5))
  obtain ⟨snap, -, hfx, -, -, -⟩ := fixMesh_facts a6
  have hmem : q ∈ r.points := hfx.points q hq
  exact placeFixed_subset hplace q hmem
end

/-! ### Executions -/

theorem genQ_fd_total (pfix : List (ℚ × ℚ)) (lock : Bool) : Total (genQ pfix lock).fd slopeFd := fun _ => rfl
theorem genQ_fh_total (pfix : List (ℚ × ℚ)) (lock : Bool) : Total (genQ pfix lock).fh fun _ => .fin 1 := fun _ => rfl

example := C94_wellformed runQ_eq
example := C94_one_iteration (S := genQ [(1, 1)] true) toyCgal_laws (genQ_fd_total _ _) (p := [(1, 1), (10, 0), (0, 11)]) (by simp)
example : HasUsableBar (genQ [] false) (fun _ => .fin 1) runQ.2[0] := by
  have hv : ValidMesh runQ.2[0].points runQ.2[0].kept := by
    intro f hf v hv
    obtain rfl : f = ⟨0, 1, 2⟩ := by simpa [runQ] using hf
    rcases hv with rfl | rfl | rfl <;> decide
  exact (C94_positive_sizes (S := genQ [] false) rfl (fun _ => ⟨1, rfl, one_pos⟩) hv).2 (by decide)

/-- **C94** fails: if all triangles of an iteration before the last lie outside the domain, `generate_mesh` raises (with a message about the sizing function);
in the last iteration the result is the mesh without triangles. -/
theorem C94_nothing_left :
    generateMesh (genQ [] false) 2 [(100, 100), (110, 100), (100, 111)] = none ∧
      ((generateMesh (genQ [] false) 1 [(100, 100), (110, 100), (100, 111)]).map fun R => (R.1.p, R.1.t)) = some ([], []) := by
  constructor <;> decide +kernel

example : ∃ l r, l.length < 2 ∧ Started (genQ [] false) [(100, 100), (110, 100), (100, 111)] l ∧ l.getLast? = some r ∧
    ¬ HasUsableBar (genQ [] false) (fun _ => .fin 1) r := by
  have := (C94_raises_iff (S := genQ [] false) toyCgal_laws (genQ_fd_total _ _) (genQ_fh_total _ _) 2 [(100, 100), (110, 100), (100, 111)]).1
    C94_nothing_left.1
  simpa using this

end OM
