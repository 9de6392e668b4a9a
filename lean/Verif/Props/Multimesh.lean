import Verif.Model.Multimesh
import Verif.Props.Sdf
import Verif.Props.FixedPoints
import Verif.Lemmas.Inpoly
/-!
# C87: meshes of several nested domains
-/
set_option linter.unusedSectionVars false
namespace OM
open Spec
section
variable {K C : Type} [Field K] [LinearOrder K]

/-- Domain `i` has the value `v` at `q`. -/
def Spec.ValueAt (d : Domain K (K × K) C) (q : K × K) (v : K) : Prop := d.func q = some (some v)

/-- The covering of a domain has the value `v` at `q`. -/
def Spec.CoverValueAt (d : Domain K (K × K) C) (q : K × K) (v : K) : Prop := ∃ f, d.covering = some f ∧ f q = some (some v)

/-- `q` belongs to domain `i` and to no later one, by more than `g`: it is inside domain `i` by more than `g` and outside the coverings of
all later domains by more than `g`. -/
def Spec.OwnedBy (domains : List (Domain K (K × K) C)) (g : K) (i : Nat) (q : K × K) : Prop :=
  (∃ d v, domains[i]? = some d ∧ ValueAt d q v ∧ v < -g) ∧
    ∀ j d, i < j → domains[j]? = some d → ∃ v, CoverValueAt d q v ∧ g < v

/-- The value of a domain at a point, zero where there is none. -/
def Spec.valueOr0 (d : Domain K (K × K) C) (q : K × K) : K := ((d.func q).join).getD 0

theorem domainArray_pointwise (d : Domain K (K × K) C) : Pointwise (domainArray d) (valueOr0 d) := by
  intro l r h
  have h1 := collectAll_length h
  have h2 : (l.map fun q => (d.func q).join).map (fun o => o.getD 0) = (r.map some).map fun o => o.getD 0 := by rw [h1]
  simp only [List.map_map] at h2
  have h3 : (r.map ((fun o : Option K => o.getD 0) ∘ some)) = r := by
    conv_rhs => rw [← List.map_id r]
    exact List.map_congr_left fun x _ => rfl
  rw [h3] at h2
  rw [← h2]
  rfl

theorem valueOr0_neg {d : Domain K (K × K) C} {q : K × K} {g : K} (hg : 0 ≤ g) [IsStrictOrderedRing K] (h : valueOr0 d q < -g) :
    ∃ v, ValueAt d q v ∧ v < -g := by
  unfold valueOr0 at h
  rcases hd : d.func q with _ | _ | v
  · rw [hd] at h; simp at h; linarith
  · rw [hd] at h; simp at h; linarith
  · rw [hd] at h; exact ⟨v, hd, h⟩

theorem valueOr0_of {d : Domain K (K × K) C} {q : K × K} {v : K} (h : ValueAt d q v) : valueOr0 d q = v := by
  unfold valueOr0 ValueAt at *
  rw [h]; rfl

theorem foldl_optMin_none (l : List (Option K)) : l.foldl optMin none = none := by
  induction l with
  | nil => rfl
  | cons a l ih => exact ih

theorem foldl_optMax_none (l : List (Option K)) : l.foldl optMax none = none := by
  induction l with
  | nil => rfl
  | cons a l ih => exact ih

theorem foldl_optMin_eq {l : List (Option K)} {x v : K} (h : l.foldl optMin (some x) = some v) : ∃ r : List K, l = r.map some ∧ v = r.foldl min x := by
  induction l generalizing x with
  | nil => exact ⟨[], rfl, (Option.some.inj h).symm⟩
  | cons a l ih =>
    cases a with
    | none => exact absurd h (by simp [optMin, foldl_optMin_none])
    | some a =>
      obtain ⟨r, rfl, hr⟩ := ih (x := min x a) h
      exact ⟨a :: r, rfl, hr⟩

theorem foldl_optMax_eq {l : List (Option K)} {x v : K} (h : l.foldl optMax (some x) = some v) : ∃ r : List K, l = r.map some ∧ v = r.foldl max x := by
  induction l generalizing x with
  | nil => exact ⟨[], rfl, (Option.some.inj h).symm⟩
  | cons a l ih =>
    cases a with
    | none => exact absurd h (by simp [optMax, foldl_optMax_none])
    | some a =>
      obtain ⟨r, rfl, hr⟩ := ih (x := max x a) h
      exact ⟨a :: r, rfl, hr⟩

/-- A minimum that is a number: all evaluations are numbers. -/
theorem reduceMin_eq {l : List (Option (Option K))} {v : K} (h : reduceEvals optMin l = some (some v)) :
    ∃ (x : K) (r : List K), l = (x :: r).map (fun w => some (some w)) ∧ v = r.foldl min x := by
  unfold reduceEvals at h
  split at h
  · simp at h
  · simp at h
  · rename_i a as ha
    have h := Option.some.inj h
    cases a with
    | none => rw [foldl_optMin_none] at h; simp at h
    | some x =>
      obtain ⟨r, rfl, hv⟩ := foldl_optMin_eq h
      refine ⟨x, r, ?_, hv⟩
      rw [collectAll_length ha]
      simp

theorem reduceMax_eq {l : List (Option (Option K))} {v : K} (h : reduceEvals optMax l = some (some v)) :
    ∃ (x : K) (r : List K), l = (x :: r).map (fun w => some (some w)) ∧ v = r.foldl max x := by
  unfold reduceEvals at h
  split at h
  · simp at h
  · simp at h
  · rename_i a as ha
    have h := Option.some.inj h
    cases a with
    | none => rw [foldl_optMax_none] at h; simp at h
    | some x =>
      obtain ⟨r, rfl, hv⟩ := foldl_optMax_eq h
      refine ⟨x, r, ?_, hv⟩
      rw [collectAll_length ha]
      simp

theorem multiscaleSdf_parts {l ns : List (Domain K (K × K) C)} {u : Domain K (K × K) C} (h : multiscaleSdf l = some (u, ns)) :
    1 < l.length ∧ nests l = some ns ∧ unionDomain ns = some u := by
  unfold multiscaleSdf at h
  split at h
  · rename_i hl
    split at h
    · simp at h
    · rename_i ns' hns
      obtain ⟨u', hu, he⟩ := Option.map_eq_some_iff.1 h
      simp only [Prod.mk.injEq] at he
      obtain ⟨rfl, rfl⟩ := he
      exact ⟨hl, hns, hu⟩
  · simp at h

theorem coverDomain_value {d : Domain K (K × K) C} {q : K × K} {v : K} : ValueAt (coverDomain d) q v ↔ CoverValueAt d q v := by
  simp only [ValueAt, coverDomain, CoverValueAt]
  cases d.covering with
  | none => simp
  | some f => simp

variable [IsStrictOrderedRing K]

/-- A nest is negative by more than `g` exactly where the point is owned by its domain. -/
theorem nest_owned {l ns : List (Domain K (K × K) C)} (h : nests l = some ns) {g : K} {i : Nat} {n : Domain K (K × K) C} (hi : ns[i]? = some n) {q : K × K} :
    (∃ v, ValueAt n q v ∧ v < -g) ↔ OwnedBy l g i q := by
  obtain ⟨hlen, hs⟩ := nests_spec h
  obtain ⟨hi', hn⟩ := List.getElem?_eq_some_iff.1 hi
  have hil : i < l.length := by omega
  have hd := hs i hil hi'
  rw [hn] at hd
  have hf := (combine_func hd).2
  have hmem : ∀ {j : Nat} {d : Domain K (K × K) C}, i < j → l[j]? = some d → coverDomain d ∈ (l.drop (i + 1)).map coverDomain := by
    intro j d hij hj
    refine List.mem_map.2 ⟨d, ?_, rfl⟩
    refine List.mem_iff_getElem?.2 ⟨j - (i + 1), ?_⟩
    rw [List.getElem?_drop, show i + 1 + (j - (i + 1)) = j by omega, hj]
  constructor
  · rintro ⟨v, hv, hvg⟩
    unfold ValueAt at hv
    rw [hf] at hv
    obtain ⟨x, r, he, rfl⟩ := reduceMax_eq hv
    simp only [differenceEvals, List.map_cons, List.cons.injEq] at he
    obtain ⟨h1, h2⟩ := he
    obtain ⟨m1, m2⟩ := foldl_max_ge' r x
    refine ⟨⟨l[i], x, List.getElem?_eq_getElem hil, h1, lt_of_le_of_lt m1 hvg⟩, fun j d hij hj => ?_⟩
    have hin := List.mem_map_of_mem (f := fun e : Domain K (K × K) C => (e.func q).map fun v => v.map fun x => -x) (hmem hij hj)
    rw [h2] at hin
    obtain ⟨w, hw, hw'⟩ := List.mem_map.1 hin
    have := m2 w hw
    rcases hc : (coverDomain d).func q with _ | _ | y
    · rw [hc] at hw'; simp at hw'
    · rw [hc] at hw'; simp at hw'
    · rw [hc] at hw'
      simp only [Option.map_some, Option.some.injEq] at hw'
      exact ⟨y, coverDomain_value.1 hc, by linarith⟩
  · rintro ⟨⟨d, x, hd', hx, hxg⟩, hcov⟩
    rw [List.getElem?_eq_getElem hil, Option.some.injEq] at hd'
    subst hd'
    have hval : ∀ e ∈ (l.drop (i + 1)).map coverDomain, ∃ v, ValueAt e q v ∧ g < v := by
      intro e he
      obtain ⟨d, hd, rfl⟩ := List.mem_map.1 he
      obtain ⟨k, hk⟩ := List.mem_iff_getElem?.1 hd
      rw [List.getElem?_drop] at hk
      obtain ⟨v, hv, hg⟩ := hcov (i + 1 + k) d (by omega) hk
      exact ⟨v, coverDomain_value.2 hv, hg⟩
    obtain ⟨f, hf'⟩ := exists_values _ q fun e he => (hval e he).imp fun v hv => hv.1
    refine ⟨(((l.drop (i + 1)).map coverDomain).map fun e => -f e).foldl max x, ?_, ?_⟩
    · unfold ValueAt
      rw [hf, ← reduce_max]
      simp only [differenceEvals, List.map_cons]
      refine congrArg (reduceEvals optMax) ?_
      refine List.cons_eq_cons.2 ⟨hx, ?_⟩
      rw [List.map_map (l := (l.drop (i + 1)).map coverDomain)]
      exact List.map_congr_left fun (e : Domain K (K × K) C) he => by simp [hf' e he]
    · rw [foldl_max_lt]
      refine ⟨hxg, fun y hy => ?_⟩
      obtain ⟨e, he, rfl⟩ := List.mem_map.1 hy
      obtain ⟨v, hv, hvg⟩ := hval e he
      unfold ValueAt at hv
      rw [hf' e he] at hv
      have := Option.some.inj (Option.some.inj hv)
      linarith

/-- Where the union has a value, it is below `-g` exactly at the owned points. -/
theorem union_owned {l ns : List (Domain K (K × K) C)} {u : Domain K (K × K) C} (h : multiscaleSdf l = some (u, ns)) {g : K} {q : K × K} {w : K}
    (hw : ValueAt u q w) : w < -g ↔ ∃ i, OwnedBy l g i q := by
  obtain ⟨-, hns, hu⟩ := multiscaleSdf_parts h
  unfold ValueAt at hw
  rw [(combine_func hu).2] at hw
  obtain ⟨x, r, he, rfl⟩ := reduceMin_eq hw
  have key : ∀ (i : Nat) (n : Domain K (K × K) C), ns[i]? = some n → ∃ v, (x :: r)[i]? = some v ∧ ValueAt n q v := by
    intro i n hi
    have h1 : (ns.map fun d => d.func q)[i]? = some (n.func q) := by simp [hi]
    rw [he, List.getElem?_map, Option.map_eq_some_iff] at h1
    obtain ⟨v, hv, hv'⟩ := h1
    exact ⟨v, hv, hv'.symm⟩
  have hlen : ns.length = (x :: r).length := by simpa using congrArg List.length he
  rw [foldl_min_lt]
  constructor
  · intro h'
    have : ∃ v ∈ x :: r, v < -g := by
      rcases h' with h' | ⟨y, hy, h'⟩
      · exact ⟨x, by simp, h'⟩
      · exact ⟨y, by simp [hy], h'⟩
    obtain ⟨v, hv, hvg⟩ := this
    obtain ⟨i, hi⟩ := List.mem_iff_getElem?.1 hv
    have hil : i < ns.length := by rw [hlen]; exact (List.getElem?_eq_some_iff.1 hi).1
    obtain ⟨v', h1, h2⟩ := key i _ (List.getElem?_eq_getElem hil)
    obtain rfl : v = v' := Option.some.inj (hi.symm.trans h1)
    exact ⟨i, (nest_owned hns (List.getElem?_eq_getElem hil)).1 ⟨v, h2, hvg⟩⟩
  · rintro ⟨i, ho⟩
    obtain ⟨⟨d, v, hd, -⟩, -⟩ := id ho
    have hil : i < ns.length := by rw [(nests_spec hns).1]; exact (List.getElem?_eq_some_iff.1 hd).1
    obtain ⟨v, hv, hvg⟩ := (nest_owned hns (List.getElem?_eq_getElem hil)).2 ho
    obtain ⟨v', h1, h2⟩ := key i _ (List.getElem?_eq_getElem hil)
    obtain rfl : v = v' := Option.some.inj (Option.some.inj (hv.symm.trans h2))
    rcases List.mem_cons.1 (List.mem_of_getElem? h1) with rfl | h1
    · exact Or.inl hvg
    · exact Or.inr ⟨v, h1, hvg⟩

theorem domainArray_defined {d : Domain K (K × K) C} {l : List (K × K)} {r : List K} (h : domainArray d l = some r) {q : K × K} (hq : q ∈ l) :
    ∃ v, ValueAt d q v := by
  have h1 := collectAll_length h
  have h2 := List.mem_map_of_mem (f := fun q => (d.func q).join) hq
  rw [h1] at h2
  obtain ⟨v, -, hv⟩ := List.mem_map.1 h2
  exact ⟨v, Option.join_eq_some_iff.1 hv.symm⟩

/-- The centroid of a triangle is owned by domain `i`, by more than `g`. -/
def Spec.TriangleOwned (domains : List (Domain K (K × K) C)) (g : K) (i : Nat) (p : List (K × K)) (t : Tri) : Prop :=
  ∃ x y z, corners p t = [some x, some y, some z] ∧ OwnedBy domains g i (centroid x y z)

/-- The triangles kept in an iteration over a domain that is negative exactly where `P` holds. -/
theorem kept_iff {S : GenSetup K} {d : Domain K (K × K) C} (hS : S.fd = domainArray d) {P : K × K → Prop}
    (hP : ∀ q w, ValueAt d q w → (w < -S.geps ↔ P q)) {p : List (K × K)} {r : GenIter K} (h : genFirst S p = some r) (t : Tri) :
    t ∈ r.kept ↔ t ∈ r.triangles ∧ ∃ x y z, corners r.points t = [some x, some y, some z] ∧ P (centroid x y z) := by
  obtain ⟨-, -, -, h4⟩ := genFirst_stages h
  rw [hS] at h4
  have h5 := (removeOutside_mem (domainArray_pointwise d) h4).2.2 t
  rw [h5]
  refine and_congr_right fun ht => ?_
  simp only [removeTrianglesOutside, Option.bind_eq_bind, Option.bind_eq_some_iff] at h4
  obtain ⟨c, h1, dd, h2, -⟩ := h4
  obtain ⟨rfl, hc⟩ := centroids_eq h1
  have hdef := domainArray_defined h2 (List.mem_map_of_mem (f := fun r' : Tri => centroid (vertexAt r.points r'.a) (vertexAt r.points r'.b) (vertexAt r.points r'.c)) ht)
  obtain ⟨w, hw⟩ := hdef
  have hct := hc t ht
  constructor
  · rintro ⟨x, y, z, hxyz, hlt⟩
    refine ⟨x, y, z, hxyz, ?_⟩
    rw [hct] at hxyz
    simp only [List.cons.injEq, Option.some.injEq, and_true] at hxyz
    obtain ⟨rfl, rfl, rfl⟩ := hxyz
    rw [valueOr0_of hw] at hlt
    exact (hP _ _ hw).1 hlt
  · rintro ⟨x, y, z, hxyz, hp⟩
    refine ⟨x, y, z, hxyz, ?_⟩
    rw [hct] at hxyz
    simp only [List.cons.injEq, Option.some.injEq, and_true] at hxyz
    obtain ⟨rfl, rfl, rfl⟩ := hxyz
    rw [valueOr0_of hw]
    exact (hP _ _ hw).2 hp

/-- The sizes that enter the minimum: those of the nests with a sizing function. -/
theorem multiscaleMesh_parts [FloorRing K] {domains : List (Domain K (K × K) C)} {calls : List (NestCall K)} {S : GenSetup K} {maxIter blendIter : Nat}
    {ms : List (FixResult K)} {m : FixResult K} {l : List (GenIter K)} (h : multiscaleMesh domains calls S maxIter blendIter = some (ms, m, l)) :
    ∃ u ns, multiscaleSdf domains = some (u, ns) ∧ nestMeshes maxIter ns calls = some ms ∧
      0 < globalMinimum ((List.zip ns calls).map fun x => x.2.h) ∧
      generateMesh (blendSetup S u ((List.zip ns calls).map fun x => x.2.h)) blendIter (ms.flatMap FixResult.p) = some (m, l) := by
  simp only [multiscaleMesh, Option.bind_eq_bind, Option.bind_eq_some_iff] at h
  obtain ⟨⟨u, ns⟩, h1, ms', h2, h3⟩ := h
  by_cases hp : 0 < globalMinimum ((List.zip ns calls).map fun x => x.2.h)
  · simp only [if_pos hp, Option.bind_eq_some_iff] at h3
    obtain ⟨R, h3, h4⟩ := h3
    have := Option.some.inj h4
    simp only [Prod.mk.injEq] at this
    obtain ⟨rfl, rfl⟩ := this
    exact ⟨u, ns, h1, h2, hp, h3⟩
  · simp only [if_neg hp] at h3
    cases h3

theorem zip_sizes {ns : List (Domain K (K × K) C)} {calls : List (NestCall K)} (h : ns.length = calls.length) :
    ((List.zip ns calls).map fun x => x.2.h) = calls.map NestCall.h := by
  have : (List.zip ns calls).map Prod.snd = calls := by
    rw [List.map_snd_zip]; omega
  conv_rhs => rw [← this]
  rw [List.map_map]
  rfl

/-- **C87** (union): in the final run, with as many sizing functions as domains, the triangles kept in an iteration are exactly those whose
centroid is inside some domain by more than a thousandth of the smallest minimum size (9999 at most), and outside the coverings of all later
domains by more than that. -/
theorem C87_triangles [FloorRing K] {domains : List (Domain K (K × K) C)} {calls : List (NestCall K)} (hc : calls.length = domains.length)
    {S : GenSetup K} {maxIter blendIter : Nat} {ms : List (FixResult K)} {m : FixResult K} {l : List (GenIter K)}
    (h : multiscaleMesh domains calls S maxIter blendIter = some (ms, m, l)) :
    l.length = blendIter ∧ (∀ r ∈ l, ∀ t, t ∈ r.kept ↔ t ∈ r.triangles ∧
      ∃ i, TriangleOwned domains (1 / 1000 * globalMinimum (calls.map NestCall.h)) i r.points t) ∧
      ∃ r, l.getLast? = some r ∧ fixMesh S.rnd S.oP S.oT r.points r.kept S.ptol true = some m := by
  obtain ⟨u, ns, h1, -, hpos, h3⟩ := multiscaleMesh_parts h
  have hlen : ns.length = calls.length := by rw [hc]; exact (nests_spec (multiscaleSdf_parts h1).2.1).1
  rw [zip_sizes hlen] at h3
  obtain ⟨n, rfl, -, h4⟩ := generateMesh_loop h3
  obtain ⟨a1, -, a3, -, a5⟩ := genLoop_trace h4
  refine ⟨a1, fun r hr t => ?_, a5⟩
  rw [kept_iff (d := u) rfl (P := fun q => ∃ i, OwnedBy domains (1 / 1000 * globalMinimum (calls.map NestCall.h)) i q)
    (fun q w hw => union_owned h1 hw) (a3 r hr) t]
  refine and_congr_right fun _ => ⟨?_, ?_⟩
  · rintro ⟨x, y, z, hx, i, ho⟩
    exact ⟨i, x, y, z, hx, ho⟩
  · rintro ⟨i, x, y, z, hx, ho⟩
    exact ⟨x, y, z, hx, i, ho⟩

/-- **C87** (result): the same for the triangles of the returned mesh, if no two points of the last iteration fall together in `fix_mesh`. -/
theorem C87_result [FloorRing K] {domains : List (Domain K (K × K) C)} {calls : List (NestCall K)} (hc : calls.length = domains.length)
    {S : GenSetup K} (hr : IsRounding S.rnd) (hpt : 0 < S.ptol) {maxIter blendIter : Nat} {ms : List (FixResult K)} {m : FixResult K} {l : List (GenIter K)}
    (h : multiscaleMesh domains calls S maxIter blendIter = some (ms, m, l)) :
    ∃ r, l.getLast? = some r ∧ ∀ e, IsExtent r.points e → Separated (e * S.ptol) r.points →
      ∀ t ∈ m.t, ∃ i, TriangleOwned domains (1 / 1000 * globalMinimum (calls.map NestCall.h)) i m.p t := by
  obtain ⟨u, ns, h1, -, hpos, h3⟩ := multiscaleMesh_parts h
  have hlen : ns.length = calls.length := by rw [hc]; exact (nests_spec (multiscaleSdf_parts h1).2.1).1
  rw [zip_sizes hlen] at h3 hpos
  obtain ⟨r, hl, hres⟩ := C68_result_exact (S := blendSetup S u (calls.map NestCall.h)) (domainArray_pointwise u) hr hpt h3
  refine ⟨r, hl, fun e he hs t ht => ?_⟩
  obtain ⟨x, y, z, hx, hlt⟩ := (hres e he hs).1 t ht
  obtain ⟨v, hv, hvg⟩ := valueOr0_neg (g := 1 / 1000 * globalMinimum (calls.map NestCall.h)) (by positivity) hlt
  obtain ⟨i, hi⟩ := (union_owned h1 hv).1 hvg
  exact ⟨i, x, y, z, hx, hi⟩

/-- **C87** (result, all meshes): also if points of the last iteration fall together in `fix_mesh`. Every vertex is a point of the last iteration, every returned
triangle has its centroid within the merging tolerance of a point that is owned by some domain, and every triangle kept in the last iteration is returned
with its corners moved by at most the merging tolerance. -/
theorem C87_result_merged [FloorRing K] {domains : List (Domain K (K × K) C)} {calls : List (NestCall K)} (hc : calls.length = domains.length)
    {S : GenSetup K} (hr : IsRounding S.rnd) (hpt : 0 < S.ptol) {maxIter blendIter : Nat} {ms : List (FixResult K)} {m : FixResult K} {l : List (GenIter K)}
    (h : multiscaleMesh domains calls S maxIter blendIter = some (ms, m, l)) :
    ∃ r, l.getLast? = some r ∧ (∀ q ∈ m.p, q ∈ r.points) ∧ ∀ e, IsExtent r.points e →
      (∀ t ∈ m.t, ∃ x y z q i, corners m.p t = [some x, some y, some z] ∧ Within (e * S.ptol) q (centroid x y z) ∧
        OwnedBy domains (1 / 1000 * globalMinimum (calls.map NestCall.h)) i q) ∧
      ∀ t ∈ r.kept, ∃ g ∈ m.t, CornersMatch (Within (e * S.ptol)) r.points t m.p g := by
  obtain ⟨-, b2, r, b3, b4⟩ := C87_triangles hc h
  obtain ⟨u, ns, h1, -, hpos, h3⟩ := multiscaleMesh_parts h
  obtain ⟨n, -, -, h'⟩ := generateMesh_loop h3
  have hrl : r ∈ l := List.mem_of_getLast? b3
  obtain ⟨-, -, -, c4⟩ := genFirst_stages ((genLoop_trace h').2.2.1 r hrl)
  obtain ⟨c1, c2, -⟩ := removeOutside_mem (domainArray_pointwise u) c4
  have hv : ValidMesh r.points r.kept := fun t ht => c2 t (c1.subset ht)
  have hsub : ∀ q ∈ m.p, q ∈ r.points := by
    obtain ⟨snap, -, hf, -⟩ := fixMesh_facts b4
    exact hf.points
  refine ⟨r, b3, hsub, fun e he => ?_⟩
  obtain ⟨g1, g2, g3, -⟩ := C06_fix_mesh_geometry hr hpt he hv b4
  refine ⟨fun g hg => ?_, fun t ht => ?_⟩
  · obtain ⟨t, ht, x, y, z, x', y', z', d1, d2, d3, d4, d5⟩ := g2 g hg
    obtain ⟨-, i, x0, y0, z0, e1, e2⟩ := (b2 r hrl t).1 ht
    rw [d1] at e1
    simp only [List.cons.injEq, Option.some.injEq, and_true] at e1
    obtain ⟨rfl, rfl, rfl⟩ := e1
    have hcor := corners_valid (C05_fix_mesh_wellformed b4).1 hg
    rw [hcor] at d2
    have hperm : [vertexAt m.p g.a, vertexAt m.p g.b, vertexAt m.p g.c].Perm [x', y', z'] := by
      have : ([vertexAt m.p g.a, vertexAt m.p g.b, vertexAt m.p g.c].map some).Perm ([x', y', z'].map some) := d2
      exact (List.map_perm_map_iff (Option.some_injective _)).1 this
    refine ⟨_, _, _, centroid x y z, i, hcor, ?_, e2⟩
    rw [centroid_perm hperm]
    exact centroid_within d3.2 d4.2 d5.2
  · obtain ⟨g, hg, x, y, z, x', y', z', d1, d2, d3, d4, d5⟩ := g1 t ht
    exact ⟨g, hg, x, y, z, x', y', z', d1, d2, d3.2, d4.2, d5.2⟩

theorem nestMeshes_spec [FloorRing K] {maxIter : Nat} {ns : List (Domain K (K × K) C)} {calls : List (NestCall K)} {ms : List (FixResult K)}
    (h : nestMeshes maxIter ns calls = some ms) : ms.length = min ns.length calls.length ∧
      ∀ (i : Nat) (n : Domain K (K × K) C) (c : NestCall K) (m : FixResult K), ns[i]? = some n → calls[i]? = some c → ms[i]? = some m → nestMesh maxIter n c = some m := by
  induction ns generalizing calls ms with
  | nil =>
    simp only [nestMeshes, Option.some.injEq] at h
    subst h
    simp
  | cons d ds ih =>
    cases calls with
    | nil =>
      simp only [nestMeshes, Option.some.injEq] at h
      subst h
      simp
    | cons c cs =>
      simp only [nestMeshes, Option.bind_eq_bind, Option.bind_eq_some_iff] at h
      obtain ⟨m, h1, r, h2, h3⟩ := h
      have := Option.some.inj h3
      subst this
      obtain ⟨b1, b2⟩ := ih h2
      refine ⟨by simp [b1], fun i n c' m' hn hc hm => ?_⟩
      cases i with
      | zero =>
        simp only [List.getElem?_cons_zero, Option.some.injEq] at hn hc hm
        subst hn hc hm
        exact h1
      | succ i => exact b2 i n c' m' (by simpa using hn) (by simpa using hc) (by simpa using hm)

/-- **C87** (nests): there is one mesh for every domain; it is generated by the number of iterations asked for, with the sizes of this domain and the
lattice in its box; the triangles kept in any iteration are exactly those whose centroid is inside the domain by more than a thousandth of its minimum
size and outside the coverings of the later domains by more than that. The final run starts with all vertices of these meshes, in the order of the domains. -/
theorem C87_nests [FloorRing K] {domains : List (Domain K (K × K) C)} {calls : List (NestCall K)} (hc : calls.length = domains.length)
    {S : GenSetup K} {maxIter blendIter : Nat} {ms : List (FixResult K)} {m : FixResult K} {l : List (GenIter K)}
    (h : multiscaleMesh domains calls S maxIter blendIter = some (ms, m, l)) :
    ms.length = domains.length ∧
    (∀ (i : Nat) (c : NestCall K) (mi : FixResult K), calls[i]? = some c → ms[i]? = some mi → 0 < c.h ∧ ∃ (T : GenSetup K) (p : List (K × K)) (li : List (GenIter K)),
      generateMesh T maxIter p = some (mi, li) ∧ T.fh = c.setup.fh ∧ T.pfix = c.setup.pfix ∧ T.lock = c.setup.lock ∧ li.length = maxIter ∧
      ∀ r ∈ li, ∀ t, t ∈ r.kept ↔ t ∈ r.triangles ∧ TriangleOwned domains (1 / 1000 * c.h) i r.points t) ∧
    ∃ r l', l = r :: l' ∧ r.inserted = ms.flatMap FixResult.p := by
  obtain ⟨u, ns, h1, h2, hpos, h3⟩ := multiscaleMesh_parts h
  have hns := (multiscaleSdf_parts h1).2.1
  have hlen := (nests_spec hns).1
  obtain ⟨b1, b2⟩ := nestMeshes_spec h2
  refine ⟨by omega, fun i c mi hi hmi => ?_, ?_⟩
  · have hil : i < ns.length := by
      have := (List.getElem?_eq_some_iff.1 hi).1
      omega
    have hn := List.getElem?_eq_getElem hil
    have hm := b2 i _ c mi hn hi hmi
    simp only [nestMesh] at hm
    by_cases hch : 0 < c.h
    · simp only [if_pos hch, Option.bind_eq_bind, Option.bind_eq_some_iff, Option.map_eq_some_iff] at hm
      obtain ⟨p, hp, ⟨mi', li⟩, hg, rfl⟩ := hm
      refine ⟨hch, _, p, li, hg, rfl, rfl, rfl, ?_⟩
      obtain ⟨n, rfl, -, h4⟩ := generateMesh_loop hg
      obtain ⟨a1, -, a3, -, a5⟩ := genLoop_trace h4
      refine ⟨a1, fun r hr t => ?_⟩
      refine kept_iff (d := ns[i]) rfl (fun q w hw => ?_) (a3 r hr) t
      rw [← nest_owned hns hn]
      constructor
      · intro hlt
        exact ⟨w, hw, hlt⟩
      · rintro ⟨v, hv, hlt⟩
        obtain rfl : w = v := Option.some.inj (Option.some.inj (hw.symm.trans hv))
        exact hlt
    · simp only [if_neg hch] at hm
      cases hm
  · obtain ⟨n, rfl, -, h4⟩ := generateMesh_loop h3
    exact (genLoop_trace h4).2.1

/-- **C87** (tolerance): the minimum is not above any of the sizes, nor above 9999; it is one of these numbers. -/
theorem C87_minimum (hs : List K) : globalMinimum hs ≤ 9999 ∧ (∀ h ∈ hs, globalMinimum hs ≤ h) ∧ (globalMinimum hs = 9999 ∨ globalMinimum hs ∈ hs) := by
  refine ⟨(foldl_min_le' hs _).1, (foldl_min_le' hs _).2, ?_⟩
  unfold globalMinimum
  generalize (9999 : K) = a
  induction hs generalizing a with
  | nil => exact Or.inl rfl
  | cons x l ih =>
    rcases ih (min a x) with h | h
    · rw [List.foldl_cons, h]
      rcases min_choice a x with h' | h'
      · exact Or.inl h'
      · exact Or.inr (by rw [h']; simp)
    · exact Or.inr (by rw [List.foldl_cons]; exact List.mem_cons_of_mem _ h)

/-- **C87** (seams): a triangle whose centroid is within the tolerance of the border of a later covering is dropped unless a later domain owns it: with
`|covering j| ≤ g` at the centroid, no domain before `j` owns it. -/
theorem C87_seam {domains : List (Domain K (K × K) C)} {g : K} {j : Nat} {d : Domain K (K × K) C} (hj : domains[j]? = some d) {q : K × K} {v : K}
    (hv : CoverValueAt d q v) (hg : v ≤ g) {i : Nat} (hi : OwnedBy domains g i q) : j ≤ i := by
  by_contra hlt
  obtain ⟨w, ⟨f, hf, hw⟩, hgw⟩ := hi.2 j d (by omega) hj
  obtain ⟨f', hf', hv⟩ := hv
  obtain rfl : f = f' := Option.some.inj (hf.symm.trans hf')
  have := Option.some.inj (Option.some.inj (hw.symm.trans hv))
  linarith
end

/-! ### Executions -/

/-- A square with its own function as covering. -/
def coveredBox (b : Box ℚ) : Domain ℚ (ℚ × ℚ) Nat :=
  ⟨b, fun q => some (some (bboxDistance b q)), some fun q => some (some (bboxDistance b q)), none, false⟩

/-- A wide square and a small one inside. -/
def nestedQ : List (Domain ℚ (ℚ × ℚ) Nat) := [coveredBox ⟨0, 40, 0, 40⟩, coveredBox ⟨20, 30, 20, 30⟩]

/-- Sizes 20 and 5, with three fixed points each. -/
def callsQ : List (NestCall ℚ) :=
  [⟨{ genQ [(1, 1), (10, 0), (0, 11)] false with fh := fun l => some (l.map fun _ => .fin 20) }, 20, fun _ => 0, none⟩,
    ⟨{ genQ [(21, 21), (29, 21), (21, 29)] false with fh := fun l => some (l.map fun _ => .fin 5) }, 5, fun _ => 0, none⟩]

/-- An iteration of the final run. -/
def blendIterQ : GenIter ℚ :=
  ⟨[(0, 11), (1, 1), (10, 0), (21, 21), (21, 29), (29, 21)], [(0, 11), (1, 1), (10, 0), (21, 21), (21, 29), (29, 21)], [⟨0, 1, 2⟩],
    [(0, 11), (1, 1), (10, 0), (21, 21), (21, 29), (29, 21)], [0, 1, 2], [⟨0, 1, 2⟩]⟩

theorem multiscaleMesh_example : multiscaleMesh nestedQ callsQ (genQ [] false) 1 2 =
    some ([⟨[(0, 11), (1, 1), (10, 0)], [⟨0, 1, 2⟩], [0, 1, 2]⟩, ⟨[(21, 21), (21, 29), (29, 21)], [⟨1, 0, 2⟩], [0, 1, 2]⟩],
      ⟨[(0, 11), (1, 1), (10, 0)], [⟨0, 1, 2⟩], [0, 1, 2]⟩, [blendIterQ, blendIterQ]) := by decide +kernel

example := C87_triangles (by decide) multiscaleMesh_example

example := C87_nests (by decide) multiscaleMesh_example

example := C87_result_merged (S := genQ [] false) (by decide) rndQ_isRounding (by norm_num [genQ]) multiscaleMesh_example

example : ∃ i, TriangleOwned nestedQ (1 / 1000 * globalMinimum (callsQ.map NestCall.h)) i [(0, 11), (1, 1), (10, 0)] ⟨0, 1, 2⟩ := by
  obtain ⟨r, hl, h⟩ := C87_result (S := genQ [] false) (by decide) rndQ_isRounding (by norm_num [genQ]) multiscaleMesh_example
  obtain rfl : r = blendIterQ := (Option.some.inj hl).symm
  refine h 29 ?_ ?_ _ (by simp)
  · refine ⟨⟨(0, 11), by simp [blendIterQ], (29, 21), by simp [blendIterQ], Or.inl (by norm_num [abs_of_neg])⟩, ?_⟩
    intro q hq q' hq'
    simp only [blendIterQ, List.mem_cons, List.not_mem_nil, or_false] at hq hq'
    rcases hq with rfl | rfl | rfl | rfl | rfl | rfl <;> rcases hq' with rfl | rfl | rfl | rfl | rfl | rfl <;> norm_num [abs_le]
  · intro q hq q' hq' h
    simp only [blendIterQ, List.mem_cons, List.not_mem_nil, or_false] at hq hq'
    rcases hq with rfl | rfl | rfl | rfl | rfl | rfl <;> rcases hq' with rfl | rfl | rfl | rfl | rfl | rfl <;>
      first | rfl | (norm_num [Within, genQ, abs_le] at h)

example : globalMinimum ([20, 5, 7] : List ℚ) = 5 := by decide +kernel

/-- **C87** fails for large sizes: with minimum sizes 20000 and 10000 (metres) the tolerance comes from 9999, which is neither of them. -/
theorem C87_minimum_capped : globalMinimum ([20000, 10000] : List ℚ) = 9999 := by decide +kernel

/-- **C87** (a gap): a point on the border of the inner domain, far inside the outer one, is owned by no domain, whatever the tolerance is; triangles
with such a centroid are removed. -/
theorem C87_border_not_owned {g : ℚ} (hg : 0 ≤ g) : Inside (coveredBox ⟨0, 40, 0, 40⟩) (20, 25) ∧ ∀ i, ¬ OwnedBy nestedQ g i (20, 25) := by
  refine ⟨⟨-15, by decide +kernel, by norm_num⟩, fun i h => ?_⟩
  have hv : CoverValueAt (coveredBox ⟨20, 30, 20, 30⟩) (20, 25) 0 := ⟨_, rfl, by decide +kernel⟩
  have h1 := C87_seam (j := 1) rfl hv hg h
  obtain ⟨⟨d, v, hd, hv', hlt⟩, -⟩ := h
  have hi : i = 1 := by
    have : i < 2 := (List.getElem?_eq_some_iff.1 hd).1
    omega
  subst hi
  obtain rfl : coveredBox ⟨20, 30, 20, 30⟩ = d := Option.some.inj hd
  have h0 : (coveredBox ⟨20, 30, 20, 30⟩).func (20, 25) = some (some 0) := by decide +kernel
  have := Option.some.inj (Option.some.inj (h0.symm.trans hv'))
  linarith

-- The hypotheses of `C87_seam`: a point near the border, inside the inner square.
example : OwnedBy nestedQ (1 / 1000) 1 (21, 25) ∧ CoverValueAt (coveredBox ⟨20, 30, 20, 30⟩) (21, 25) (-1) :=
  ⟨⟨⟨_, -1, rfl, (by decide +kernel : (coveredBox ⟨20, 30, 20, 30⟩).func (21, 25) = some (some (-1))), by norm_num⟩, fun j d hj hd => by
    have : j < 2 := (List.getElem?_eq_some_iff.1 hd).1
    omega⟩, ⟨_, rfl, by decide +kernel⟩⟩

end OM
