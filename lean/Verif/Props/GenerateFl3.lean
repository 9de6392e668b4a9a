import Verif.Props.GenerateFl2
/-!
# C125: when `generate_mesh` returns in floating-point arithmetic; executions in double precision
-/
set_option linter.unusedSectionVars false
namespace OM
open Spec

namespace Spec
/-- The first iterations of a run: the first one gets the start points, each one its points from the one before. -/
structure StartedFl {K : Type} [Field K] [LinearOrder K] (S : GenFl K) (p : List (K × K)) (l : List (GenIter K)) : Prop where
  first : ∃ r, l[0]? = some r ∧ r.inserted = p
  iterations : ∀ r ∈ l, genFirstFl S r.inserted = some r
  steps : ∀ (k : Nat) (r r' : GenIter K), l[k]? = some r → l[k + 1]? = some r' → genSecondFl S r = some r'.inserted
end Spec

section
variable {K : Type} [Field K] [LinearOrder K] [IsStrictOrderedRing K]

theorem medianFl_nil (fl : K → K) : medianFl fl ([] : List K) = none := rfl

theorem movePointsFl_length {fl : K → K} {dt : K} {fixed : List Nat} {p F : List (K × K)} (h : F.length = p.length) :
    (movePointsFl fl dt fixed p F).length = p.length := by
  simp [movePointsFl, h]

theorem nearestVertexFl_isSome (S : GenFl K) (q : K × K) {p : List (K × K)} (h : p ≠ []) : ∃ i, nearestVertexFl S.fl S.sq q p = some i := by
  obtain ⟨r, hr⟩ := argMin_isSome (l := p.map fun x => S.sq (S.fl (x.1 - q.1)) (S.fl (x.2 - q.2))) (by simpa using h)
  exact ⟨r.1, by rw [nearestVertexFl, hr]; rfl⟩

theorem nearestVerticesFl_isSome (S : GenFl K) {p : List (K × K)} (h : p ≠ []) : ∀ l : List (K × K), ∃ ix, nearestVerticesFl S.fl S.sq p l = some ix
  | [] => ⟨[], rfl⟩
  | q :: l => by
    obtain ⟨i, hi⟩ := nearestVertexFl_isSome S q h
    obtain ⟨r, hr⟩ := nearestVerticesFl_isSome S h l
    exact ⟨i :: r, by simp [nearestVerticesFl, hi, hr]⟩

theorem placeFixedFl_isSome (S : GenFl K) : ∀ (l p : List (K × K)), p ≠ [] → ∃ R, placeFixedFl S.fl S.sq l p = some R
  | [], p, _ => ⟨([], p), rfl⟩
  | q :: l, p, h => by
    obtain ⟨i, hi⟩ := nearestVertexFl_isSome S q h
    obtain ⟨r, hr⟩ := placeFixedFl_isSome S l (p.set i q) (by simpa using h)
    exact ⟨(i :: r.1, r.2), by simp [placeFixedFl, hi, hr]⟩

theorem centroidsFl_isSome (S : GenFl K) {p : List (K × K)} : ∀ {t : List Tri}, ValidMesh p t → ∃ c, centroidsFl S.fl p t = some c ∧ c.length = t.length
  | [], _ => ⟨[], rfl, rfl⟩
  | f :: t, h => by
    obtain ⟨c, hc, hl⟩ := centroidsFl_isSome S (p := p) (t := t) fun g hg => h g (List.mem_cons_of_mem _ hg)
    have ha := List.getElem?_eq_getElem (h f (by simp) f.a (Or.inl rfl))
    have hb := List.getElem?_eq_getElem (h f (by simp) f.b (Or.inr (Or.inl rfl)))
    have hcc := List.getElem?_eq_getElem (h f (by simp) f.c (Or.inr (Or.inr rfl)))
    exact ⟨_, by simp only [centroidsFl, ha, hb, hcc, hc, Option.bind_eq_bind, Option.bind_some]; rfl, by simp [hl]⟩

/-- The first part of an iteration never raises. -/
theorem genFirstFl_isSome {S : GenFl K} (L : CgalLaws S.cgal) {f : K × K → K} (hf : Total S.fd f) {p : List (K × K)} (hp : p ≠ []) :
    ∃ r, genFirstFl S p = some r ∧ r.inserted = p ∧ r.points ≠ [] ∧ ValidMesh r.points r.kept := by
  obtain ⟨v, t, e, h1, h2⟩ := topology_isSome L p
  have hv : v ≠ [] := by
    obtain ⟨-, hm⟩ := topology_points L h1
    obtain ⟨q, hq⟩ := List.exists_mem_of_ne_nil p hp
    exact List.ne_nil_of_mem ((hm q).2 hq)
  obtain ⟨locked, h3⟩ : ∃ locked, (if S.lock then (externalTopology S.oE v t).bind fun b => nearestVerticesFl S.fl S.sq v b.2 else some []) = some locked := by
    split
    · obtain ⟨bv, hb, -⟩ := externalTopology_isSome S.oE h2
      obtain ⟨ix, hix⟩ := nearestVerticesFl_isSome S hv bv
      exact ⟨ix, by rw [hb, Option.bind_some, hix]⟩
    · exact ⟨[], rfl⟩
  obtain ⟨⟨ix, p'⟩, h4⟩ := placeFixedFl_isSome S S.pfix v hv
  obtain ⟨-, hlen, -, -⟩ := placeFixedFl_facts h4
  have hval : ValidMesh p' t := fun g hg w hw => by rw [hlen]; exact h2 g hg w hw
  obtain ⟨c, h5, hcl⟩ := centroidsFl_isSome S hval
  obtain ⟨kept, h6⟩ := maskRows_isSome (m := (c.map f).map fun x => decide (x < -S.geps)) (l := t) (by simp [hcl])
  have h7 : removeTrianglesOutsideFl S.fl S.fd S.geps p' t = some kept := by
    simp only [removeTrianglesOutsideFl, h5, Option.bind_eq_bind, Option.bind_some, hf _, h6]
  refine ⟨⟨p, v, t, p', locked ++ ix, kept⟩, ?_, rfl, ?_, ?_⟩
  · unfold genFirstFl
    rw [h1]
    simp only [Option.bind_eq_bind, Option.bind_some]
    by_cases hl : S.lock = true
    · rw [if_pos hl] at h3
      simp only [hl, if_true, h3, Option.bind_some, h4, h7]
      rfl
    · rw [if_neg hl] at h3
      simp only [hl, Bool.false_eq_true, if_false, h4, h7, Option.bind_some]
      rw [← Option.some.inj h3]
      rfl
  · intro h0
    have h0 : p' = [] := h0
    rw [h0] at hlen
    exact hv (List.length_eq_zero_iff.1 hlen.symm)
  · exact fun g hg => hval g ((maskRows_sublist h6).subset hg)

theorem projectFl_isSome (S : GenFl K) {fd : List (K × K) → Option (List K)} {f : K × K → K} (hf : Total fd f) (deps : K) (p : List (K × K)) :
    ∃ p', projectPointsBackFl S.fl fd deps p = some p' := by
  have hg : ∀ q : List (K × K), ∃ g, gradientsFl S.fl fd deps q (q.map f) = some g := by
    intro q
    simp only [gradientsFl, hf _, Option.bind_eq_bind, Option.bind_some, List.length_map, and_self, if_true]
    exact ⟨_, rfl⟩
  simp only [projectPointsBackFl, hf _, Option.bind_eq_bind, Option.bind_some]
  split
  · have e1 := maskRows_map (fun x => decide (0 < f x)) id p
    rw [List.map_id, List.map_id] at e1
    have e2 := maskRows_map (fun x => decide (0 < f x)) f p
    rw [List.map_map]
    have e0 : ((fun x => decide (0 < x)) ∘ f) = fun x => decide (0 < f x) := rfl
    rw [e0, e1, e2]
    simp only [Option.bind_some]
    obtain ⟨g, hgq⟩ := hg (p.filter fun x => decide (0 < f x))
    simp only [outsideGradientsFl, hgq, Option.bind_some]
    exact ⟨_, rfl⟩
  · exact ⟨_, rfl⟩

/-- The second part of an iteration raises exactly if there is no side with a usable size. -/
theorem genSecondFl_isSome_iff {S : GenFl K} {f : K × K → K} (hf : Total S.fd f) {g : K × K → Float64 K} (hg : Total S.fh g) {r : GenIter K}
    (hv : ValidMesh r.points r.kept) : (∃ p', genSecondFl S r = some p') ↔ HasRoundedBar S.fl S.toGenSetup g r := by
  obtain ⟨bars, hb, -, hmem⟩ := C74_unique_edges r.kept
  have hval : ∀ e ∈ bars, e.1 < r.points.length ∧ e.2 < r.points.length := by
    rintro ⟨u, v⟩ he
    obtain ⟨-, t, ht, hs⟩ := (hmem u v).1 he
    have ha := hv t ht t.a (Or.inl rfl)
    have hb := hv t ht t.b (Or.inr (Or.inl rfl))
    have hc := hv t ht t.c (Or.inr (Or.inr rfl))
    rcases hs with ⟨rfl, rfl⟩ | ⟨rfl, rfl⟩ | ⟨rfl, rfl⟩ | ⟨rfl, rfl⟩ | ⟨rfl, rfl⟩ | ⟨rfl, rfl⟩ <;> constructor <;> assumption
  obtain ⟨ends, he⟩ := barEnds_isSome hval
  obtain ⟨rfl, -⟩ := barEnds_eq he
  have hsz : barSizesFl S.fl S.fh S.stereo ((bars.map fun e => (vertexAt r.points e.1, vertexAt r.points e.2)).map (barMidFl S.fl)) =
      some (bars.map fun e => roundedSizeAt S.fl S.toGenSetup g (roundedMiddle S.fl (vertexAt r.points e.1) (vertexAt r.points e.2))) := by
    unfold barSizesFl roundedSizeAt
    cases hst : S.stereo with
    | none =>
      simp only [hg _, Option.bind_some, List.length_map, if_true, List.map_map]
      rfl
    | some s =>
      obtain ⟨back, dist⟩ := s
      simp only [hg _, Option.bind_some, List.length_map, if_true, List.map_map, Option.some.injEq]
      rw [zipWith_map_map]
      refine List.map_congr_left fun e _ => ?_
      have key : ∀ x : Float64 K, x.round S.fl = match x with | .fin x => .fin (S.fl x) | x => x := fun x => by cases x <;> rfl
      exact key _
  have hat : ∀ (u : Nat) (x : K × K), r.points[u]? = some x → vertexAt r.points u = x := fun u x h => by simp [vertexAt, h]
  constructor
  · rintro ⟨p', h⟩
    simp only [genSecondFl, Option.bind_eq_bind, Option.bind_eq_some_iff] at h
    obtain ⟨F, h1, -⟩ := h
    simp only [computeForcesFl, hb, he, hsz, Option.bind_eq_bind, Option.bind_some, Option.bind_eq_some_iff] at h1
    obtain ⟨h', h2, -⟩ := h1
    have hne : (bars.map fun e => roundedSizeAt S.fl S.toGenSetup g (roundedMiddle S.fl (vertexAt r.points e.1) (vertexAt r.points e.2))).filterMap Float64.positive ≠ [] := by
      intro h0
      rw [repairSizesFl, h0] at h2
      simp [medianFl_nil] at h2
    obtain ⟨s, hs⟩ := List.exists_mem_of_ne_nil _ hne
    obtain ⟨x, hx, hxs⟩ := List.mem_filterMap.1 hs
    obtain ⟨⟨u, v⟩, hbar, rfl⟩ := List.mem_map.1 hx
    obtain ⟨-, t, ht, hside⟩ := (hmem u v).1 hbar
    have hu := List.getElem?_eq_getElem (hval _ hbar).1
    have hw := List.getElem?_eq_getElem (hval _ hbar).2
    refine ⟨t, ht, u, v, _, _, s, hside, hu, hw, ?_⟩
    rw [usable_eq, ← hxs]
    simp only [hat u _ hu, hat v _ hw]
  · rintro ⟨t, ht, u, v, x, y, s, hside, hu, hw, hs⟩
    have hside' : ∃ e ∈ bars, usable (roundedSizeAt S.fl S.toGenSetup g (roundedMiddle S.fl (vertexAt r.points e.1) (vertexAt r.points e.2))) = some s := by
      rcases Nat.le_total u v with h | h
      · exact ⟨(u, v), (hmem u v).2 ⟨h, t, ht, hside⟩, by simp only [hat u x hu, hat v y hw, hs]⟩
      · refine ⟨(v, u), (hmem v u).2 ⟨h, t, ht, by simp only [HasSide] at hside ⊢; omega⟩, ?_⟩
        simp only [hat u x hu, hat v y hw]
        rw [← hs]
        simp only [roundedMiddle, add_comm]
    obtain ⟨e, hebar, hes⟩ := hside'
    have hne : (bars.map fun e => roundedSizeAt S.fl S.toGenSetup g (roundedMiddle S.fl (vertexAt r.points e.1) (vertexAt r.points e.2))).filterMap Float64.positive ≠ [] := by
      refine List.ne_nil_of_mem (a := s) (List.mem_filterMap.2 ⟨_, List.mem_map.2 ⟨e, hebar, rfl⟩, ?_⟩)
      rw [← usable_eq]; exact hes
    have hbne : bars ≠ [] := List.ne_nil_of_mem hebar
    obtain ⟨m, hm⟩ := medianFl_isSome (fl := S.fl) hne
    obtain ⟨mL, hmL⟩ := medianFl_isSome (fl := S.fl) (l := (bars.map fun e => (vertexAt r.points e.1, vertexAt r.points e.2)).map (barLengthFl S.fl S.sqrt S.eps))
      (by simpa using hbne)
    obtain ⟨mh, hmh⟩ := medianFl_isSome (fl := S.fl) (l := (bars.map fun e => roundedSizeAt S.fl S.toGenSetup g (roundedMiddle S.fl (vertexAt r.points e.1) (vertexAt r.points e.2))).map
      (Float64.orElse m)) (by simpa using hbne)
    have hF : ∃ F, computeForcesFl S.fl S.sqrt S.eps S.mult S.fh S.stereo r.points r.kept = some F := by
      simp only [computeForcesFl, hb, he, hsz, repairSizesFl, hm, hmL, hmh, Option.bind_eq_bind, Option.bind_some]
      exact ⟨_, rfl⟩
    obtain ⟨F, hF⟩ := hF
    obtain ⟨p', hp'⟩ := projectFl_isSome S hf S.deps (movePointsFl S.fl S.dt r.fixed r.points F)
    exact ⟨p', by simp only [genSecondFl, hF, Option.bind_eq_bind, Option.bind_some, hp']⟩

theorem genSecondFl_ne_nil {S : GenFl K} {f : K × K → K} (hf : Total S.fd f) {r : GenIter K} {p' : List (K × K)} (hr : r.points ≠ [])
    (h : genSecondFl S r = some p') : p' ≠ [] := by
  simp only [genSecondFl, Option.bind_eq_bind, Option.bind_eq_some_iff] at h
  obtain ⟨F, h1, h2⟩ := h
  have hp := projectFl_eq hf.pointwise h2
  have hl := movePointsFl_length (fl := S.fl) (dt := S.dt) (fixed := r.fixed) (computeForcesFl_length h1)
  intro h0
  rw [h0] at hp
  have hlen : (movePointsFl S.fl S.dt r.fixed r.points F).length = 0 := by
    have := congrArg List.length hp
    simpa using this.symm
  rw [hl] at hlen
  exact hr (List.length_eq_zero_iff.1 hlen)

theorem genLoopFl_none_iff {S : GenFl K} (L : CgalLaws S.cgal) {f : K × K → K} (hf : Total S.fd f) {g : K × K → Float64 K} (hg : Total S.fh g) (n : Nat)
    {p : List (K × K)} (hp : p ≠ []) :
    genLoopFl S n p = none ↔ ∃ l r, l.length ≤ n ∧ StartedFl S p l ∧ l.getLast? = some r ∧ ¬ HasRoundedBar S.fl S.toGenSetup g r := by
  induction n generalizing p with
  | zero =>
    obtain ⟨r, h1, -, h3, h4⟩ := genFirstFl_isSome L hf hp
    obtain ⟨R, hR⟩ := fixMeshFl_isSome S.fl S.rnd S.oP S.oT S.ptol true h3 h4
    constructor
    · intro h
      simp [genLoopFl, h1, hR] at h
    · rintro ⟨l, r, hl, hs, -⟩
      obtain ⟨r0, h0, -⟩ := hs.first
      rw [List.length_eq_zero_iff.1 (Nat.le_zero.1 hl)] at h0
      simp at h0
  | succ n ih =>
    obtain ⟨r, h1, hi, h3, h4⟩ := genFirstFl_isSome L hf hp
    by_cases hu : HasRoundedBar S.fl S.toGenSetup g r
    · obtain ⟨p', h5⟩ := (genSecondFl_isSome_iff hf hg h4).2 hu
      have hp' := genSecondFl_ne_nil hf h3 h5
      have e : genLoopFl S (n + 1) p = none ↔ genLoopFl S n p' = none := by
        simp only [genLoopFl, h1, h5, Option.bind_eq_bind, Option.bind_some]
        cases genLoopFl S n p' <;> simp
      rw [e, ih hp']
      constructor
      · rintro ⟨l, r', hl, hs, hlast, hn⟩
        refine ⟨r :: l, r', by simp only [List.length_cons]; omega, ⟨⟨r, rfl, hi⟩, ?_, ?_⟩, ?_, hn⟩
        · intro x hx
          rcases List.mem_cons.1 hx with rfl | hx
          · rw [hi]; exact h1
          · exact hs.iterations x hx
        · intro k x x' hx hx'
          cases k with
          | zero =>
            obtain rfl : r = x := by simpa using hx
            obtain ⟨r0, h00, h01⟩ := hs.first
            obtain rfl : r0 = x' := by
              rw [List.getElem?_cons_succ, h00] at hx'
              exact Option.some.inj hx'
            rw [h01]; exact h5
          | succ k => exact hs.steps k x x' (by simpa using hx) (by simpa using hx')
        · obtain ⟨r0, h00, -⟩ := hs.first
          cases l with
          | nil => simp at h00
          | cons a l => rw [List.getLast?_cons_cons]; exact hlast
      · rintro ⟨l, r', hl, hs, hlast, hn⟩
        obtain ⟨r0, h00, h01⟩ := hs.first
        cases l with
        | nil => simp at h00
        | cons a l =>
          obtain rfl : a = r0 := by simpa using h00
          have ha : a = r := by
            have := hs.iterations a (by simp)
            rw [h01, h1] at this
            exact (Option.some.inj this).symm
          subst ha
          cases l with
          | nil =>
            obtain rfl : a = r' := by simpa using hlast
            exact absurd hu hn
          | cons b l =>
            refine ⟨b :: l, r', by simpa using hl, ⟨⟨b, rfl, ?_⟩, fun x hx => hs.iterations x (List.mem_cons_of_mem _ hx),
              fun k x x' hx hx' => hs.steps (k + 1) x x' (by simpa using hx) (by simpa using hx')⟩, ?_, hn⟩
            · have := hs.steps 0 a b rfl rfl
              rw [h5] at this
              exact (Option.some.inj this).symm
            · rw [List.getLast?_cons_cons] at hlast; exact hlast
    · constructor
      · intro _
        refine ⟨[r], r, by simp, ⟨⟨r, rfl, hi⟩, ?_, ?_⟩, rfl, hu⟩
        · intro x hx
          obtain rfl : x = r := by simpa using hx
          rw [hi]; exact h1
        · intro k x x' hx hx'
          simp at hx'
      · intro _
        have : genSecondFl S r = none := by
          cases h : genSecondFl S r with
          | none => rfl
          | some p' => exact absurd ((genSecondFl_isSome_iff hf hg h4).1 ⟨p', h⟩) hu
        simp [genLoopFl, h1, this]

/-- **C125** (when it raises): if the distance and sizing functions never raise, `generate_mesh` raises exactly if no iteration or no start point is
given, or if in one of the iterations before the last no side of a kept triangle has a finite positive size (for example because no triangle is kept). -/
theorem C125_raises_iff {S : GenFl K} (L : CgalLaws S.cgal) {f : K × K → K} (hf : Total S.fd f) {g : K × K → Float64 K} (hg : Total S.fh g)
    (maxIter : Nat) (p : List (K × K)) :
    generateMeshFl S maxIter p = none ↔ maxIter = 0 ∨ p = [] ∨
      ∃ l r, l.length < maxIter ∧ StartedFl S p l ∧ l.getLast? = some r ∧ ¬ HasRoundedBar S.fl S.toGenSetup g r := by
  unfold generateMeshFl
  cases maxIter with
  | zero => simp
  | succ n =>
    dsimp only
    by_cases hp : p = []
    · simp [hp]
    · rw [if_neg (by simpa using hp), genLoopFl_none_iff L hf hg n hp]
      simp only [Nat.lt_succ_iff, hp, Nat.succ_ne_zero, false_or]

/-- **C125** (one iteration): with `max_iter=1` and a start point it always returns. -/
theorem C125_one_iteration {S : GenFl K} (L : CgalLaws S.cgal) {f : K × K → K} (hf : Total S.fd f) {p : List (K × K)} (hp : p ≠ []) :
    ∃ R, generateMeshFl S 1 p = some R := by
  obtain ⟨r, h1, -, h3, h4⟩ := genFirstFl_isSome L hf hp
  obtain ⟨R, hR⟩ := fixMeshFl_isSome S.fl S.rnd S.oP S.oT S.ptol true h3 h4
  exact ⟨(R, [r]), by simp [generateMeshFl, genLoopFl, h1, hR, hp]⟩


/-- **C125** (double precision): the sums of squares can be computed with or without fused multiply-add; if the coordinates of start points and fixed points are
double precision numbers and the fixed points are start points that are not outside, the fixed points are vertices of all triangulations, bit
for bit, and all points are double precision numbers. -/
theorem C125_doubles [FloorRing K] [Archimedean K] {S : GenFl K} (hfl : S.fl = roundDouble)
    (hsq : S.sq = (fun a b => roundDouble (roundDouble (a * a) + roundDouble (b * b))) ∨ S.sq = (fun a b => roundDouble (a * a + roundDouble (b * b))) ∨
      S.sq = fun a b => roundDouble (roundDouble (a * a) + b * b)) (L : CgalLaws S.cgal)
    {f : K × K → K} (hf : Pointwise S.fd f) (hin : ∀ q ∈ S.pfix, f q ≤ 0) {maxIter : Nat} {p : List (K × K)} (hp : ∀ q ∈ p, IsDouble q.1 ∧ IsDouble q.2)
    (hpfix : ∀ q ∈ S.pfix, q ∈ p) {m : FixResult K} {l : List (GenIter K)} (h : generateMeshFl S maxIter p = some (m, l)) :
    ∀ r ∈ l, (∀ q ∈ r.points, roundDouble q.1 = q.1 ∧ roundDouble q.2 = q.2) ∧ r.points = r.vertices ∧ ∀ q ∈ S.pfix, q ∈ r.points := by
  obtain ⟨hR, hr⟩ := C113_roundDouble (K := K)
  have hu : (1 / 2 ^ 53 : K) < 1 := by norm_num
  have hs : IsSquareSum S.sq := by
    obtain ⟨s1, s2, s3⟩ := C125_square_sums hR hr hu
    rcases hsq with h | h | h <;> rw [h]
    exacts [s1, s2, s3]
  have := C125_fixed_points (S := S) (by rw [hfl]; exact hR) (u := 1 / 2 ^ 53) (by rw [hfl]; exact hr) hu hs L hf hin
    (fun q hq => by rw [hfl]; exact ⟨roundDouble_of_isDouble (hp q hq).1, roundDouble_of_isDouble (hp q hq).2⟩) hpfix h
  rw [hfl] at this
  exact this

end

/-! ### Executions in double precision -/

/-- The options of `genQ` with double precision arithmetic. -/
def genD (pfix : List (ℚ × ℚ)) (lock : Bool) : GenFl ℚ :=
  { genQ pfix lock with fl := roundDouble, sq := fun a b => roundDouble (roundDouble (a * a) + roundDouble (b * b)) }

theorem genD_fd (pfix : List (ℚ × ℚ)) (lock : Bool) : Pointwise (genD pfix lock).fd slopeFd := fun _ _ h => (Option.some.inj h).symm

/-- The execution with the fixed point `(1, 1)` and two iterations. -/
def runD : FixResult ℚ × List (GenIter ℚ) :=
  (⟨[(-720575940379279 / 18014398509481984, 6417629469002957 / 562949953421312), (1, 1),
      (764238887986103 / 70368744177664, -861176123867919 / 9007199254740992)], [⟨0, 1, 2⟩], [0, 1, 2]⟩,
    [⟨[(1, 1), (10, 0), (0, 11)], [(1, 1), (10, 0), (0, 11)], [⟨0, 1, 2⟩], [(1, 1), (10, 0), (0, 11)], [0], [⟨0, 1, 2⟩]⟩,
     ⟨[(1, 1), (764238887986103 / 70368744177664, -861176123867919 / 9007199254740992),
        (-720575940379279 / 18014398509481984, 6417629469002957 / 562949953421312)],
      [(1, 1), (764238887986103 / 70368744177664, -861176123867919 / 9007199254740992),
        (-720575940379279 / 18014398509481984, 6417629469002957 / 562949953421312)], [⟨0, 1, 2⟩],
      [(1, 1), (764238887986103 / 70368744177664, -861176123867919 / 9007199254740992),
        (-720575940379279 / 18014398509481984, 6417629469002957 / 562949953421312)], [0], [⟨0, 1, 2⟩]⟩])

theorem runD_eq : generateMeshFl (genD [(1, 1)] false) 2 [(1, 1), (10, 0), (0, 11)] = some (runD.1, runD.2) := by decide +kernel

/-- The execution differs from the exact one (`runQ`). -/
example : runD.1.p ≠ runQ.1.p := by decide +kernel

theorem genD_start : ∀ q ∈ ([(1, 1), (10, 0), (0, 11)] : List (ℚ × ℚ)), IsDouble q.1 ∧ IsDouble q.2 := by
  simp only [List.mem_cons, List.not_mem_nil, or_false]
  rintro q (rfl | rfl | rfl)
  · exact ⟨⟨1, 0, by norm_num, by norm_num⟩, ⟨1, 0, by norm_num, by norm_num⟩⟩
  · exact ⟨⟨10, 0, by norm_num, by norm_num⟩, ⟨0, 0, by norm_num, by norm_num⟩⟩
  · exact ⟨⟨0, 0, by norm_num, by norm_num⟩, ⟨11, 0, by norm_num, by norm_num⟩⟩

example := C125_doubles (S := genD [(1, 1)] false) rfl (Or.inl rfl) toyCgal_laws (genD_fd _ _) (by simp [genD, genQ, slopeFd]; norm_num)
  genD_start (by simp [genD, genQ]) runD_eq

/-- Start points without the fixed point: the vertex `(3, 3)` is moved to it. -/
example : ∃ R, generateMeshFl (genD [(1, 1)] false) 2 [(3, 3), (10, 0), (0, 11)] = some R ∧ ∀ r ∈ R.2, (1, 1) ∈ r.points := by
  have h : (generateMeshFl (genD [(1, 1)] false) 2 [(3, 3), (10, 0), (0, 11)]).isSome := by decide +kernel
  obtain ⟨⟨m, l⟩, hR⟩ := Option.isSome_iff_exists.1 h
  refine ⟨_, hR, ?_⟩
  obtain ⟨hRd, hrd⟩ := C113_roundDouble (K := ℚ)
  have hu : (1 / 2 ^ 53 : ℚ) < 1 := by norm_num
  obtain ⟨-, ⟨r0, l0, rfl, h0⟩, k3, -⟩ := C125_kept (genD_fd _ _) hR
  have e0 : (generateMeshFl (genD [(1, 1)] false) 2 [(3, 3), (10, 0), (0, 11)]).map (fun R => R.2.map fun r => (r.vertices, r.points)) =
      some ((r0 :: l0).map fun r => (r.vertices, r.points)) := by rw [hR]; rfl
  have e1 : (generateMeshFl (genD [(1, 1)] false) 2 [(3, 3), (10, 0), (0, 11)]).map (fun R => (R.2.map fun r => (r.vertices, r.points)).head?) =
      some (some ([(3, 3), (10, 0), (0, 11)], [(1, 1), (10, 0), (0, 11)])) := by decide +kernel
  rw [hR] at e1
  simp only [Option.map_some, List.map_cons, List.head?_cons, Option.some.injEq, Prod.mk.injEq] at e1
  have := C125_given_points (S := genD [(1, 1)] false) hRd hrd hu (C125_square_sums hRd hrd hu).1 toyCgal_laws (genD_fd _ _)
    (by simp [genD, genQ, slopeFd]; norm_num) (by intro q hq; obtain rfl : q = (1, 1) := by simpa [genD, genQ] using hq
                                                  exact ⟨by decide +kernel, by decide +kernel⟩) hR (ix := [0])
    (by rw [e1.1, e1.2]; decide +kernel) (by simp)
  intro r hr
  rcases List.mem_cons.1 hr with rfl | hr
  · exact this.1 _ (by simp [genD, genQ])
  · exact (this.2 r hr).2.2 _ (by simp [genD, genQ])

example := C125_kept (genD_fd _ _) runD_eq
example := C125_wellformed runD_eq
example := C125_orientation_partial (S := genD [(1, 1)] false) (C113_roundDouble (K := ℚ)).2 (by norm_num) (by norm_num) runD_eq
example := C125_result_partial (S := genD [(1, 1)] false) (M := 12) (C113_roundDouble (K := ℚ)).1 (C113_roundDouble (K := ℚ)).2 (by norm_num) (by norm_num) rndQ_isRounding
  (genD_fd _ _) (by norm_num [genD, genQ]) runD_eq (by norm_num) slopeFd_lip
example := C125_exact { genQ [(1, 1)] false with fl := id, sq := fun a b => a * a + b * b } rfl rfl 2 [(1, 1), (10, 0), (0, 11)]
example := C125_one_iteration (S := genD [(1, 1)] true) toyCgal_laws (f := slopeFd) (fun _ => rfl) (p := [(1, 1), (10, 0), (0, 11)]) (by simp)

/-- A triangle outside of the domain: the second iteration raises as in exact arithmetic. -/
example : ∃ l r, l.length < 2 ∧ StartedFl (genD [] false) [(100, 100), (110, 100), (100, 111)] l ∧ l.getLast? = some r ∧
    ¬ HasRoundedBar roundDouble (genQ [] false) (fun _ => .fin 1) r := by
  have h : generateMeshFl (genD [] false) 2 [(100, 100), (110, 100), (100, 111)] = none := by decide +kernel
  have := (C125_raises_iff (S := genD [] false) toyCgal_laws (f := slopeFd) (fun _ => rfl) (g := fun _ => .fin 1) (fun _ => rfl) 2
    [(100, 100), (110, 100), (100, 111)]).1 h
  exact (this.resolve_left (by simp)).resolve_left (by simp)

/-- With a locked boundary the vertex `(10, 0)` stays in place. -/
example : ∃ R r r', generateMeshFl (genD [] true) 2 [(1, 1), (10, 0), (0, 11), (7, 7)] = some R ∧ R.2 = [r, r'] ∧ r'.inserted[1]? = some (10, 0) := by
  have h : generateMeshFl (genD [] true) 2 [(1, 1), (10, 0), (0, 11), (7, 7)] = some (runLocked.1, runLocked.2) := by decide +kernel
  obtain ⟨hRd, hrd⟩ := C113_roundDouble (K := ℚ)
  have hu : (1 / 2 ^ 53 : ℚ) < 1 := by norm_num
  have hp : RoundedPoints roundDouble ([(1, 1), (10, 0), (0, 11), (7, 7)] : List (ℚ × ℚ)) := by
    intro q hq
    simp only [List.mem_cons, List.not_mem_nil, or_false] at hq
    rcases hq with rfl | rfl | rfl | rfl <;> exact ⟨by decide +kernel, by decide +kernel⟩
  have := C125_locked_boundary (S := genD [] true) hRd hrd hu (C125_square_sums hRd hrd hu).1 toyCgal_laws (genD_fd _ _) rfl (by simp [genD, genQ, RoundedPoints])
    hp h (k := 0) rfl rfl (by intro t ht; simp only [List.mem_singleton] at ht; subst ht; decide) (i := 1) (by decide +kernel) (q := (10, 0)) rfl (by norm_num [slopeFd])
  exact ⟨_, _, _, h, rfl, this.1⟩

/-- The sizing function with the value 1 everywhere. -/
def oneFh (l : List (ℚ × ℚ)) : Option (List (Float64 ℚ)) := some (l.map fun _ => .fin 1)

/-- **C125** (disagreement with C70): in double precision the forces do not add up to zero. -/
theorem C125_unbalanced : ∃ (p F : List (ℚ × ℚ)) (t : List Tri), computeForcesFl roundDouble (fun x => |x|) 1 (6 / 5) oneFh none p t = some F ∧
    (F.map Prod.fst).sum ≠ 0 ∧ (F.map Prod.snd).sum ≠ 0 := by
  refine ⟨[(1, 1), (10, 0), (0, 11)],
    [(-4618935715388519 / 1125899906842624, -3427129472535595 / 2251799813685248), (1211028924189261 / 281474976710656, -4305880619339595 / 9007199254740992),
    (-3602879701896395 / 18014398509481984, 2251799813685247 / 1125899906842624)], [⟨0, 1, 2⟩], ?_, ?_, ?_⟩ <;> decide +kernel

example : ∃ F, computeForcesFl roundDouble (fun x => |x|) 1 (6 / 5) oneFh none ([(1, 1), (10, 0), (0, 11)] : List (ℚ × ℚ)) [⟨0, 1, 2⟩] = some F ∧
    |(F.map Prod.fst).sum| ≤ 1 / 10 ^ 13 := by
  obtain ⟨p, F, t, h, -⟩ := C125_unbalanced
  refine ⟨[(-4618935715388519 / 1125899906842624, -3427129472535595 / 2251799813685248), (1211028924189261 / 281474976710656, -4305880619339595 / 9007199254740992),
    (-3602879701896395 / 18014398509481984, 2251799813685247 / 1125899906842624)], by decide +kernel, by norm_num [abs_le]⟩

example {F : List (ℚ × ℚ)} (h : computeForcesFl roundDouble (fun x => |x|) 1 (6 / 5) oneFh none [(1, 1), (10, 0), (0, 11)] [⟨0, 1, 2⟩] = some F) :=
  C125_forces (C113_roundDouble (K := ℚ)).1 (C113_roundDouble (K := ℚ)).2 (by norm_num) (fun x => abs_nonneg x) one_pos h

example {F : List (ℚ × ℚ)} (h : computeForcesFl roundDouble (fun x => |x|) 1 (6 / 5) oneFh none [(1, 1), (10, 0), (0, 11)] [⟨0, 1, 2⟩] = some F) :=
  C125_force_formula (g := fun _ => .fin 1) (fun _ _ h => (Option.some.inj h).symm) h

/-- A point outside of the half plane is projected, one inside stays. -/
example : projectPointsBackFl roundDouble (fun l => some (l.map slopeFd)) (1 / 128) ([(20, 12), (10, 0)] : List (ℚ × ℚ)) = some [(19, 11), (10, 0)] := by
  decide +kernel

example := C125_projection (C113_roundDouble (K := ℚ)).1 (fd := fun l => some (l.map slopeFd)) (f := slopeFd) (fun _ _ h => (Option.some.inj h).symm) (deps := 1 / 128)
  (by norm_num) (p := [(20, 12), (10, 0)]) (p' := [(19, 11), (10, 0)])
  (by intro q hq; simp only [List.mem_cons, List.not_mem_nil, or_false] at hq; rcases hq with rfl | rfl <;> exact ⟨by decide +kernel, by decide +kernel⟩) (by decide +kernel)

example := C125_centroid_error (fl := roundDouble) (u := 1 / 2 ^ 53) (M := 12) (C113_roundDouble (K := ℚ)).2 (by norm_num) (by norm_num) (x := (1, 1)) (y := (10, 0)) (z := (0, 11))
  (by norm_num [abs_le]) (by norm_num [abs_le]) (by norm_num [abs_le])

end OM
