import Verif.Props.Moving
/-!
# C142: smoothing and the whole of `mesh_clean`
-/
set_option linter.unusedSectionVars false
namespace OM
namespace Spec

/-- `T` is an affine map. -/
def IsAffine {K : Type} [Field K] (T : K × K → K × K) : Prop :=
  ∃ a b c a' b' c' : K, ∀ q, T q = (a * q.1 + b * q.2 + c, a' * q.1 + b' * q.2 + c')

end Spec
open Spec
section
variable {K : Type} [Field K] [LinearOrder K] [IsStrictOrderedRing K]

theorem mean_affine {T : K × K → K × K} (hT : IsAffine T) {qs : List (K × K)} {q : K × K} (h : IsMean qs q) : IsMean (qs.map T) (T q) := by
  obtain ⟨a, b, c, a', b', c', hT⟩ := hT
  obtain ⟨h0, h1, h2⟩ := h
  have key : ∀ (a b c : K) (qs : List (K × K)), (qs.map fun q => a * q.1 + b * q.2 + c).sum = a * (qs.map Prod.fst).sum + b * (qs.map Prod.snd).sum + c * (qs.length : K) := by
    intro a b c qs
    induction qs with
    | nil => simp
    | cons x l ih => simp only [List.map_cons, List.sum_cons, ih, List.length_cons, Nat.cast_succ]; ring
  refine ⟨by simpa using h0, ?_, ?_⟩
  · rw [List.length_map, List.map_map, show (Prod.fst ∘ T) = fun q => a * q.1 + b * q.2 + c from funext fun q => by simp [hT], key, ← h1, ← h2, hT]
    ring
  · rw [List.length_map, List.map_map, show (Prod.snd ∘ T) = fun q => a' * q.1 + b' * q.2 + c' from funext fun q => by simp [hT], key, ← h1, ← h2, hT]
    ring

theorem mean_unique {qs qs' : List (K × K)} {q q' : K × K} (hp : qs.Perm qs') (h : IsMean qs q) (h' : IsMean qs' q') : q = q' := by
  obtain ⟨h0, h1, h2⟩ := h
  obtain ⟨-, h1', h2'⟩ := h'
  have hl : (qs.length : K) ≠ 0 := Nat.cast_ne_zero.2 fun e => h0 (List.length_eq_zero_iff.1 e)
  rw [← hp.length_eq, ← (hp.map Prod.fst).sum_eq, ← h1] at h1'
  rw [← hp.length_eq, ← (hp.map Prod.snd).sum_eq, ← h2] at h2'
  exact Prod.ext (mul_right_cancel₀ hl h1').symm (mul_right_cancel₀ hl h2').symm

/-- Vertex `σ v` of the second list is the image of vertex `v` of the first. -/
structure Carried (T : K × K → K × K) (σ : Nat → Nat) (n : Nat) (x x' : List (K × K)) : Prop where
  len : x.length = n
  len' : x'.length = n
  at_ : ∀ v < n, x'[σ v]? = (x[v]?).map T

theorem run_carried {C M M' S S' : List (K × K) → List (K × K) → Prop} (hstep : ∀ x x' y y', C x x' → M x y → M' x' y' → C y y')
    (hset : ∀ x x' y y', C x x' → C y y' → (S x y ↔ S' x' y')) : ∀ (j j' n : Nat) {x x' p1 p1' z z' : List (K × K)}, C x x' → j < n → j' < n →
    Steps (fun x y => M x y ∧ ¬ S x y) j x p1 → M p1 z → (S p1 z ∨ (¬ S p1 z ∧ j + 1 = n)) →
    Steps (fun x y => M' x y ∧ ¬ S' x y) j' x' p1' → M' p1' z' → (S' p1' z' ∨ (¬ S' p1' z' ∧ j' + 1 = n)) → C z z' := by
  intro j
  induction j with
  | zero =>
    intro j' n x x' p1 p1' z z' hc hj hj' s1 m1 e1 s2 m2 e2
    cases s1
    cases s2 with
    | zero => exact hstep _ _ _ _ hc m1 m2
    | succ h hs =>
      have hz := hstep _ _ _ _ hc m1 h.1
      rcases e1 with e1 | ⟨-, e1⟩
      · exact absurd ((hset _ _ _ _ hc hz).1 e1) h.2
      · omega
  | succ j ih =>
    intro j' n x x' p1 p1' z z' hc hj hj' s1 m1 e1 s2 m2 e2
    cases s1 with
    | succ h hs =>
      cases s2 with
      | zero =>
        have hz := hstep _ _ _ _ hc h.1 m2
        rcases e2 with e2 | ⟨-, e2⟩
        · exact absurd ((hset _ _ _ _ hc hz).2 e2) h.2
        · omega
      | succ h' hs' =>
        refine ih _ (n - 1) (hstep _ _ _ _ hc h.1 h'.1) (by omega) (by omega) hs m1 ?_ hs' m2 ?_
        · rcases e1 with e1 | ⟨e1, e3⟩
          · exact .inl e1
          · exact .inr ⟨e1, by omega⟩
        · rcases e2 with e1 | ⟨e1, e3⟩
          · exact .inl e1
          · exact .inr ⟨e1, by omega⟩

/-- The rows of the second table are the rows of the first with the new numbers. -/
structure Renumbered (σ : Nat → Nat) (n : Nat) (s : Tri → Tri) (t t' : List Tri) : Prop where
  inj : ∀ u < n, ∀ v < n, σ u = σ v → u = v
  onto : ∀ w < n, ∃ v < n, σ v = w
  into : ∀ v < n, σ v < n
  row : ∀ f ∈ t, [(s f).a, (s f).b, (s f).c].Perm [σ f.a, σ f.b, σ f.c]
  perm : (t.map s).Perm t'
  valid : ∀ f ∈ t, ∀ v, HasVertex f v → v < n

theorem renumbered_corners {σ : Nat → Nat} {n : Nat} {s : Tri → Tri} {t t' : List Tri} (h : Renumbered σ n s t t') {v : Nat} (hv : v < n) :
    (otherCorners t' (σ v)).Perm ((otherCorners t v).map σ) := by
  have h1 : (otherCorners t' (σ v)).Perm (otherCorners (t.map s) (σ v)) := by
    unfold otherCorners
    exact h.perm.symm.flatMap_right _
  refine h1.trans ?_
  unfold otherCorners
  rw [List.flatMap_map, List.map_flatMap]
  refine List.Perm.flatMap_left _ fun f hf => ?_
  have hrow := h.row f hf
  have hval := h.valid f hf
  have hv1 : HasVertex (s f) (σ v) ↔ HasVertex f v := by
    have e1 : HasVertex (s f) (σ v) ↔ σ v ∈ [(s f).a, (s f).b, (s f).c] := hasVertex_iff_mem (s f) (σ v)
    have e2 : HasVertex f v ↔ v ∈ [f.a, f.b, f.c] := hasVertex_iff_mem f v
    rw [e1, hrow.mem_iff, e2]
    simp only [List.mem_cons, List.not_mem_nil, or_false]
    constructor
    · rintro (e | e | e)
      · exact .inl (h.inj v hv _ (hval _ (.inl rfl)) e)
      · exact .inr (.inl (h.inj v hv _ (hval _ (.inr (.inl rfl))) e))
      · exact .inr (.inr (h.inj v hv _ (hval _ (.inr (.inr rfl))) e))
    · rintro (rfl | rfl | rfl) <;> simp
  by_cases hf' : HasVertex f v
  · rw [if_pos hf', if_pos (hv1.2 hf')]
    refine (hrow.filter _).trans ?_
    rw [show [σ f.a, σ f.b, σ f.c] = [f.a, f.b, f.c].map σ from rfl, List.filter_map]
    refine List.Perm.of_eq ?_
    congr 1
    refine List.filter_congr fun w hw => ?_
    have hw' := hval w ((hasVertex_iff_mem f w).2 hw)
    simp only [Function.comp, decide_eq_decide]
    exact not_congr ⟨fun e => h.inj w hw' v hv e, fun e => by rw [e]⟩
  · rw [if_neg hf', if_neg (fun x => hf' (hv1.1 x))]
    simp

theorem forall2_lookup {x : List (K × K)} {ws : List Nat} {qs : List (K × K)} (h : List.Forall₂ (fun w q => x[w]? = some q) ws qs) : (ws.map fun w => x[w]?) = qs.map some := by
  induction h with
  | nil => rfl
  | cons h _ ih => simp only [List.map_cons, h, ih]

theorem moves_carried {T : K × K → K × K} (hT : IsAffine T) {σ : Nat → Nat} {n : Nat} {s : Tri → Tri} {t t' : List Tri} (h : Renumbered σ n s t t') {fixed fixed' : Nat → Prop}
    (hf : ∀ v < n, fixed v ↔ fixed' (σ v)) {x x' y y' : List (K × K)} (hc : Carried T σ n x x') (hm : SmoothingStep t fixed x y) (hm' : SmoothingStep t' fixed' x' y') :
    Carried T σ n y y' := by
  refine ⟨hm.1.trans hc.len, hm'.1.trans hc.len', fun v hv => ?_⟩
  have hvx : v < x.length := by rw [hc.len]; exact hv
  have hvy : v < y.length := by rw [hm.1]; exact hvx
  have hsx : σ v < x'.length := by rw [hc.len']; exact h.into v hv
  have hsy : σ v < y'.length := by rw [hm'.1]; exact hsx
  have hxx := hc.at_ v hv
  rw [List.getElem?_eq_getElem hsx, List.getElem?_eq_getElem hvx, Option.map_some, Option.some.injEq] at hxx
  obtain ⟨a1, a2⟩ := hm.2 v _ _ (List.getElem?_eq_getElem hvx) (List.getElem?_eq_getElem hvy)
  obtain ⟨b1, b2⟩ := hm'.2 (σ v) _ _ (List.getElem?_eq_getElem hsx) (List.getElem?_eq_getElem hsy)
  rw [List.getElem?_eq_getElem hsy, List.getElem?_eq_getElem hvy, Option.map_some, Option.some.injEq]
  by_cases hfv : fixed v
  · rw [a1 hfv, b1 ((hf v hv).1 hfv), hxx]
  · obtain ⟨qs, f1, m1⟩ := a2 hfv
    obtain ⟨qs', f2, m2⟩ := b2 fun e => hfv ((hf v hv).2 e)
    refine (mean_unique ?_ (mean_affine hT m1) m2).symm
    have e1 : ((otherCorners t v).map fun w => x[w]?) = qs.map some := forall2_lookup f1
    have e2 : ((otherCorners t' (σ v)).map fun w => x'[w]?) = qs'.map some := forall2_lookup f2
    have hp := (renumbered_corners h hv).map fun w => x'[w]?
    rw [e2, List.map_map] at hp
    have e3 : (otherCorners t v).map ((fun w => x'[w]?) ∘ σ) = (qs.map T).map some := by
      rw [List.map_map, show (some ∘ T) = (Option.map T ∘ some) from rfl, ← List.map_map (l := qs), ← e1, List.map_map]
      refine List.map_congr_left fun w hw => ?_
      refine hc.at_ w ?_
      unfold otherCorners at hw
      obtain ⟨f, hft, hw⟩ := List.mem_flatMap.1 hw
      split_ifs at hw
      · exact h.valid f hft w ((hasVertex_iff_mem f w).2 (List.mem_filter.1 hw).1)
      · simp at hw
    rw [e3] at hp
    exact ((List.map_perm_map_iff (Option.some_injective _)).1 hp).symm

theorem settled_carried {T : K × K → K × K} {len : K × K → K × K → K} {k tol : K} (hk : k ≠ 0) (hlen : ∀ x y, len (T x) (T y) = k * len x y) (hsym : ∀ x y, len x y = len y x)
    {σ : Nat → Nat} {n : Nat} {s : Tri → Tri} {t t' : List Tri} (h : Renumbered σ n s t t') (hnd : ∀ f ∈ t, Nondegenerate f) (hnd' : ∀ f ∈ t', Nondegenerate f)
    {x x' y y' : List (K × K)} (hc : Carried T σ n x x') (hc' : Carried T σ n y y') :
    Settled len tol t x y ↔ Settled len tol t' x' y' := by
  have rel : ∀ {u v u' v' : K × K}, (len (T u') (T v') - len (T u) (T v)) / len (T u') (T v') = (len u' v' - len u v) / len u' v' := by
    intro u v u' v'
    rw [hlen, hlen, ← mul_sub, mul_div_mul_left _ _ hk]
  have pairs : ∀ {t : List Tri} {x y : List (K × K)}, (∀ f ∈ t, Nondegenerate f) → (Settled len tol t x y ↔ ∀ f ∈ t, ∀ i j, HasVertex f i → HasVertex f j → i ≠ j →
      ∀ u v u' v', x[i]? = some u → x[j]? = some v → y[i]? = some u' → y[j]? = some v' → (len u' v' - len u v) / len u' v' < tol) := by
    intro t x y hnd
    constructor
    · intro hs f hf i j hi hj hij u v u' v' h1 h2 h3 h4
      have : ∃ e ∈ [(f.a, f.b), (f.a, f.c), (f.b, f.c)], e = (i, j) ∨ e = (j, i) := by
        rcases hi with rfl | rfl | rfl <;> rcases hj with rfl | rfl | rfl <;> first | exact absurd rfl hij | simp
      obtain ⟨e, he, rfl | rfl⟩ := this
      · exact hs f hf _ he u v u' v' h1 h2 h3 h4
      · have := hs f hf _ he v u v' u' h2 h1 h4 h3
        rwa [hsym v' u', hsym v u] at this
    · intro hs f hf e he u v u' v' h1 h2 h3 h4
      obtain ⟨n1, n2, n3⟩ := hnd f hf
      simp only [List.mem_cons, List.not_mem_nil, or_false] at he
      rcases he with rfl | rfl | rfl
      · exact hs f hf _ _ (.inl rfl) (.inr (.inl rfl)) (by tauto) u v u' v' h1 h2 h3 h4
      · exact hs f hf _ _ (.inl rfl) (.inr (.inr rfl)) (by tauto) u v u' v' h1 h2 h3 h4
      · exact hs f hf _ _ (.inr (.inl rfl)) (.inr (.inr rfl)) (by tauto) u v u' v' h1 h2 h3 h4
  rw [pairs hnd, pairs hnd']
  have hmem : ∀ f ∈ t, s f ∈ t' := fun f hf => h.perm.subset (List.mem_map_of_mem hf)
  constructor
  · intro hs g hg i j hi hj hij u v u' v' h1 h2 h3 h4
    obtain ⟨f, hf, rfl⟩ := List.mem_map.1 (h.perm.symm.subset hg)
    have lift : ∀ i, HasVertex (s f) i → ∃ i0, HasVertex f i0 ∧ σ i0 = i := fun i hi => by
      have := (h.row f hf).subset ((hasVertex_iff_mem _ _).1 hi)
      simp only [List.mem_cons, List.not_mem_nil, or_false] at this
      rcases this with rfl | rfl | rfl
      · exact ⟨_, .inl rfl, rfl⟩
      · exact ⟨_, .inr (.inl rfl), rfl⟩
      · exact ⟨_, .inr (.inr rfl), rfl⟩
    obtain ⟨i, hi0, rfl⟩ := lift i hi
    obtain ⟨j, hj0, rfl⟩ := lift j hj
    rw [hc.at_ i (h.valid f hf i hi0), Option.map_eq_some_iff] at h1
    rw [hc.at_ j (h.valid f hf j hj0), Option.map_eq_some_iff] at h2
    rw [hc'.at_ i (h.valid f hf i hi0), Option.map_eq_some_iff] at h3
    rw [hc'.at_ j (h.valid f hf j hj0), Option.map_eq_some_iff] at h4
    obtain ⟨u, h1, rfl⟩ := h1
    obtain ⟨v, h2, rfl⟩ := h2
    obtain ⟨u', h3, rfl⟩ := h3
    obtain ⟨v', h4, rfl⟩ := h4
    rw [rel]
    exact hs f hf i j hi0 hj0 (fun e => hij (by rw [e])) u v u' v' h1 h2 h3 h4
  · intro hs f hf i j hi hj hij u v u' v' h1 h2 h3 h4
    have push : ∀ i, HasVertex f i → HasVertex (s f) (σ i) := fun i hi => by
      refine (hasVertex_iff_mem _ _).2 ((h.row f hf).symm.subset ?_)
      rcases hi with rfl | rfl | rfl <;> simp
    have vi := h.valid f hf i hi
    have vj := h.valid f hf j hj
    rw [← rel (u := u) (v := v) (u' := u') (v' := v')]
    refine hs (s f) (hmem f hf) (σ i) (σ j) (push i hi) (push j hj) (fun e => hij (h.inj i vi j vj e)) _ _ _ _ ?_ ?_ ?_ ?_
    · rw [hc.at_ i vi, h1]; rfl
    · rw [hc.at_ j vj, h2]; rfl
    · rw [hc'.at_ i vi, h3]; rfl
    · rw [hc'.at_ j vj, h4]; rfl

/-- The numbering of the image. -/
theorem renumbered_of_moved {T : K × K → K × K} {p p' : List (K × K)} {t t' : List Tri} (hd : Moved T p t p' t') (hc : CleanTable (p.map T) t) (hc' : CleanTable p' t') :
    ∃ σ s, Renumbered σ p.length s t t' ∧ Carried T σ p.length p p' := by
  have hlen : p'.length = p.length := by
    have := ((List.perm_ext_iff_of_nodup hc.1 hc'.1).2 hd.1).length_eq
    rwa [List.length_map, eq_comm] at this
  obtain ⟨σ, h1, h2⟩ := index_map hd.1 hc.1
  obtain ⟨s, s1, -, s3⟩ := row_map hd hc hc'
  rw [List.length_map] at h1 h2
  have hv := map_valid (drawing_valid hd)
  have at_ : ∀ v < p.length, p'[σ v]? = (p[v]?).map T := fun v hv => by rw [h1 v hv, List.getElem?_map]
  have into : ∀ v < p.length, σ v < p.length := fun v hv => by
    have := at_ v hv
    rw [List.getElem?_eq_getElem hv] at this
    rw [← hlen]
    exact (List.getElem?_eq_some_iff.1 this).1
  refine ⟨σ, s, ⟨h2, fun w hw => ?_, into, fun f hf => ?_, s3, fun f hf v hfv => hv f hf v hfv⟩, rfl, hlen, at_⟩
  · have hw' : w < p'.length := by omega
    obtain ⟨q, hq, e⟩ := List.mem_map.1 ((hd.1 _).2 (List.getElem_mem hw'))
    obtain ⟨v, hv, rfl⟩ := List.getElem_of_mem hq
    refine ⟨v, hv, ?_⟩
    have := at_ v hv
    rw [List.getElem?_eq_getElem hv, Option.map_some, e, ← List.getElem?_eq_getElem hw'] at this
    exact (List.getElem?_inj (by rw [hlen]; exact into v hv) hc'.1).1 this
  · obtain ⟨hg, hm⟩ := s1 f hf
    obtain ⟨n1, n2, n3⟩ := hc.2.2.2 f hf
    obtain ⟨n1', n2', n3'⟩ := hc'.2.2.2 _ hg
    have va := hv f hf _ (.inl rfl)
    have vb := hv f hf _ (.inr (.inl rfl))
    have vc := hv f hf _ (.inr (.inr rfl))
    have hperm := cornersMatch_eq_perm hm
    refine (List.perm_ext_iff_of_nodup (by simp; tauto) ?_).2 fun w => ?_
    · have i1 : σ f.a ≠ σ f.b := fun e => by have := h2 _ va _ vb e; tauto
      have i2 : σ f.a ≠ σ f.c := fun e => by have := h2 _ va _ vc e; tauto
      have i3 : σ f.b ≠ σ f.c := fun e => by have := h2 _ vb _ vc e; tauto
      simp; tauto
    · have hval' := drawing_valid (drawing_symm hd)
      have e1 : corners (p.map T) f = [p'[σ f.a]?, p'[σ f.b]?, p'[σ f.c]?] := by
        simp only [corners, List.getElem?_map, at_ _ va, at_ _ vb, at_ _ vc]
      rw [e1] at hperm
      have ia := into _ va
      have ib := into _ vb
      have ic := into _ vc
      rw [← hlen] at ia ib ic
      constructor
      · intro hw
        have hw' := hval' _ hg w ((hasVertex_iff_mem _ _).2 hw)
        have : p'[w]? ∈ corners p' (s f) := by
          simp only [List.mem_cons, List.not_mem_nil, or_false] at hw
          rcases hw with rfl | rfl | rfl <;> simp [corners]
        have := hperm.symm.subset this
        simp only [List.mem_cons, List.not_mem_nil, or_false] at this ⊢
        rcases this with e | e | e
        · exact .inl ((List.getElem?_inj hw' hc'.1).1 e)
        · exact .inr (.inl ((List.getElem?_inj hw' hc'.1).1 e))
        · exact .inr (.inr ((List.getElem?_inj hw' hc'.1).1 e))
      · intro hw
        have hw' : w < p'.length := by
          simp only [List.mem_cons, List.not_mem_nil, or_false] at hw
          rcases hw with rfl | rfl | rfl <;> assumption
        have : p'[w]? ∈ [p'[σ f.a]?, p'[σ f.b]?, p'[σ f.c]?] := by
          simp only [List.mem_cons, List.not_mem_nil, or_false] at hw
          rcases hw with rfl | rfl | rfl <;> simp
        have := hperm.subset this
        simp only [corners, List.mem_cons, List.not_mem_nil, or_false] at this ⊢
        rcases this with e | e | e
        · exact .inl ((List.getElem?_inj hw' hc'.1).1 e)
        · exact .inr (.inl ((List.getElem?_inj hw' hc'.1).1 e))
        · exact .inr (.inr ((List.getElem?_inj hw' hc'.1).1 e))

theorem moved_of_carried {T : K × K → K × K} {σ : Nat → Nat} {n : Nat} {s : Tri → Tri} {t t' : List Tri} (h : Renumbered σ n s t t') {x x' : List (K × K)} (hc : Carried T σ n x x') :
    Moved T x t x' t' := by
  have rows : ∀ f ∈ t, CornersMatch (fun x y => x = y) (x.map T) f x' (s f) := fun f hf => by
    refine cornersMatch_of_perm (fun v hv => by rw [List.length_map, hc.len]; exact h.valid f hf v hv) ?_
    have := ((h.row f hf).map fun w => x'[w]?).symm
    simp only [List.map_cons, List.map_nil, hc.at_ _ (h.valid f hf _ (.inl rfl)), hc.at_ _ (h.valid f hf _ (.inr (.inl rfl))), hc.at_ _ (h.valid f hf _ (.inr (.inr rfl)))] at this
    simpa [corners] using this
  refine ⟨fun q => ⟨fun hq => ?_, fun hq => ?_⟩, fun f hf => ⟨s f, h.perm.subset (List.mem_map_of_mem hf), rows f hf⟩, fun g hg => ?_⟩
  · obtain ⟨r, hr, rfl⟩ := List.mem_map.1 hq
    obtain ⟨v, hv, rfl⟩ := List.getElem_of_mem hr
    have := hc.at_ v (by rw [← hc.len]; exact hv)
    rw [List.getElem?_eq_getElem hv] at this
    exact List.mem_of_getElem? this
  · obtain ⟨w, hw, rfl⟩ := List.getElem_of_mem hq
    obtain ⟨v, hv, rfl⟩ := h.onto w (by rw [← hc.len']; exact hw)
    have := hc.at_ v hv
    rw [List.getElem?_eq_getElem hw] at this
    obtain ⟨r, hr, e⟩ := Option.map_eq_some_iff.1 this.symm
    exact List.mem_map.2 ⟨r, List.mem_of_getElem? hr, e⟩
  · obtain ⟨f, hf, rfl⟩ := List.mem_map.1 (h.perm.symm.subset hg)
    exact ⟨f, hf, rows f hf⟩

/-- **C142** (9) `laplacian2` commutes with affine maps that multiply the lengths by a factor: it returns for both meshes, and one result is the image of
the other. -/
theorem C142_laplacian {T : K × K → K × K} (hT : IsAffine T) {len : K × K → K × K → K} {k : K} (hk : k ≠ 0) (hlen : ∀ x y, len (T x) (T y) = k * len x y)
    (hsym : ∀ x y, len x y = len y x) {oE : RowOrder (Nat × Nat)} {maxIter : Nat} {tol : K} {m m' : Mesh K} (hd : Moved T m.p m.t m'.p m'.t)
    (hc : CleanTable m.p m.t) (hc' : CleanTable m'.p m'.t) (hi : ∀ q ∈ m.p, ∀ q' ∈ m.p, T q = T q' → q = q') (hp : m.p ≠ []) :
    ∃ r r', laplacian2 len oE maxIter tol none m = some r ∧ laplacian2 len oE maxIter tol none m' = some r' ∧ Moved T r.p r.t r'.p r'.t := by
  have hcT : CleanTable (m.p.map T) m.t := ⟨hc.1.map_on hi, fun v hv => hc.2.1 v (by rwa [List.length_map] at hv), hc.2.2.1, hc.2.2.2⟩
  have hp' : m'.p ≠ [] := fun e => by
    obtain ⟨q, hq⟩ := List.exists_mem_of_ne_nil _ hp
    have := (hd.1 (T q)).1 (List.mem_map_of_mem hq)
    simp [e] at this
  obtain ⟨r, hr⟩ := C20_returns len oE maxIter tol (pfix := none) (by simp) (map_valid (drawing_valid hd)) hp
  obtain ⟨r', hr'⟩ := C20_returns len oE maxIter tol (pfix := none) (by simp) (drawing_valid (drawing_symm hd)) hp'
  refine ⟨r, r', hr, hr', ?_⟩
  obtain ⟨σ, s, hren, hcar⟩ := renumbered_of_moved hd hcT hc'
  obtain ⟨a1, ifix, a2, a3⟩ := C20_laplacian_steps (.inl ⟨rfl, rfl⟩) hc.2.2.2 hc.2.1 hp hr
  obtain ⟨b1, ifix', b2, b3⟩ := C20_laplacian_steps (.inl ⟨rfl, rfl⟩) hc'.2.2.2 hc'.2.1 hp' hr'
  cases a2
  cases b2
  rw [a1, b1]
  refine moved_of_carried hren ?_
  have hfix : ∀ v < m.p.length, (0 < boundaryDegree m.t v ∨ v ∈ []) ↔ (0 < boundaryDegree m'.t (σ v) ∨ σ v ∈ []) := fun v hv => by
    have h1 := hcar.at_ v hv
    rw [List.getElem?_eq_getElem hv] at h1
    rw [C141_boundary_degree hd hcT hc' (by rw [List.getElem?_map, List.getElem?_eq_getElem hv]; rfl) h1]
    simp
  rcases a3 with ⟨a3, a4⟩ | ⟨j, p1, a3, a4, a5, a6⟩
  · rcases b3 with ⟨b3, b4⟩ | ⟨j', p1', b3, -⟩
    · rw [a4, b4]; exact hcar
    · omega
  · rcases b3 with ⟨b3, b4⟩ | ⟨j', p1', b3, b4, b5, b6⟩
    · omega
    · exact run_carried (C := Carried T σ m.p.length) (fun x x' y y' c h1 h2 => moves_carried hT hren hfix c h1 h2)
        (fun x x' y y' c c' => settled_carried hk hlen hsym hren hc.2.2.2 hc'.2.2.2 c c') j j' maxIter hcar a3 b3 a4 a5 a6 b4 b5 b6

end

/-- **C142** fails for `make_mesh_boundaries_traversable`: two equal triangles meeting in a point are turned into each other by a half turn, but the function
keeps the right one in both cases (the same holds for `mesh_clean`, which calls it first). -/
theorem C142_traversable_depends :
    Moved (fun q : ℚ × ℚ => (-q.1, -q.2)) bowM.p bowM.t bowM.p bowM.t ∧ IsSimilarity (fun q : ℚ × ℚ => (-q.1, -q.2)) 1 ∧ CleanTable bowM.p bowM.t ∧
    ∃ r, makeTraversable sizeEngine (fun _ _ _ => 0) (1 / 4) bowM = some (some r) ∧ ¬ Moved (fun q : ℚ × ℚ => (-q.1, -q.2)) r.p r.t r.p r.t := by
  refine ⟨drawing_of_check (by decide +kernel) (by decide +kernel) (validMesh_of_bound (by decide)) (by decide +kernel) (by decide +kernel), fun q r => by ring, ?_,
    ⟨[(0, 0), (1, -1), (1, 1)], [⟨0, 1, 2⟩]⟩, by decide +kernel, fun h => ?_⟩
  · unfold CleanTable SameVertices
    refine ⟨?_, ?_, ?_, ?_⟩ <;> decide +kernel
  · have := (h.1 (-1, -1)).1 (by decide +kernel)
    revert this
    decide +kernel

/-! ## Examples -/

/-- A quarter turn with doubled lengths. -/
def turnQ (q : ℚ × ℚ) : ℚ × ℚ := (1 - 2 * q.2, 2 * q.1)

/-- A square of two triangles with a smaller triangle on top. -/
def roofM : Mesh ℚ := ⟨[(0, 0), (2, 0), (2, 2), (0, 2), (1, 3)], [⟨0, 1, 2⟩, ⟨0, 2, 3⟩, ⟨3, 2, 4⟩]⟩

/-- The turned mesh with other numbers. -/
def roofTurned : Mesh ℚ := ⟨[(-5, 2), (-3, 0), (-3, 4), (1, 4), (1, 0)], [⟨2, 0, 1⟩, ⟨4, 3, 2⟩, ⟨2, 1, 4⟩]⟩

theorem turnQ_similarity : IsSimilarity turnQ 2 := fun q r => by simp only [turnQ]; ring

theorem turnQ_affine : IsAffine turnQ := ⟨0, -2, 1, 2, 0, 0, fun q => by simp only [turnQ]; ext <;> simp <;> ring⟩

theorem turnQ_injective {q r : ℚ × ℚ} (h : turnQ q = turnQ r) : q = r := similarity_injective turnQ_similarity (by norm_num) h

theorem turnQ_quality : ScalesQuality turnQ 4 sizeEngine.qual := by
  intro p f
  have vol : ∀ x y z : ℚ × ℚ, |signedArea (turnQ x) (turnQ y) (turnQ z)| = 4 * |signedArea x y z| := fun x y z => by
    rw [C142_area turnQ_similarity]; norm_num
  have vol' : ∀ x y z : ℚ × ℚ, |triVol (turnQ x) (turnQ y) (turnQ z)| = 4 * |triVol x y z| := fun x y z => by simpa only [triVol_eq_signedArea] using vol x y z
  simp only [sizeEngine, faceVol, List.getElem?_map]
  rcases p[f.a]? with _ | x <;> rcases p[f.b]? with _ | y <;> rcases p[f.c]? with _ | z <;> simp [vol']

theorem roof_moved : Moved turnQ roofM.p roofM.t roofTurned.p roofTurned.t :=
  drawing_of_check (by decide +kernel) (by decide +kernel) (validMesh_of_bound (by decide)) (by decide +kernel) (by decide +kernel)

theorem roofM_good : GoodMesh (3 * engineQ.ptol) roofM.p roofM.t := by
  refine goodMesh_of_bound ?_ ?_ ?_ ?_ ?_ ?_ ?_ ?_ <;> decide +kernel

theorem roofTurned_good : GoodMesh (6 * engineQ.ptol) roofTurned.p roofTurned.t := by
  refine goodMesh_of_bound ?_ ?_ ?_ ?_ ?_ ?_ ?_ ?_ <;> decide +kernel

theorem roof_fits : FitsIn 3 roofM.p ∧ FitsIn 6 roofTurned.p := by
  have h1 : ∀ q ∈ roofM.p, ∀ q' ∈ roofM.p, |q.1 - q'.1| ≤ 3 ∧ |q.2 - q'.2| ≤ 3 := by decide +kernel
  have h2 : ∀ q ∈ roofTurned.p, ∀ q' ∈ roofTurned.p, |q.1 - q'.1| ≤ 6 ∧ |q.2 - q'.2| ≤ 6 := by decide +kernel
  exact ⟨h1, h2⟩

-- `fix_mesh` and `delete_boundary_faces`: the small triangle is deleted in both meshes (limits 3/2 and 6 on the areas 1 and 4).
example : IsRounding sizeEngine.rnd ∧ 0 < sizeEngine.ptol ∧ GeometricQuality sizeEngine.qual ∧ ScalesQuality turnQ 4 sizeEngine.qual ∧ roofM.p ≠ [] ∧
    Moved turnQ roofM.p roofM.t roofTurned.p roofTurned.t ∧ GoodMesh (3 * sizeEngine.ptol) roofM.p roofM.t ∧ GoodMesh (6 * sizeEngine.ptol) roofTurned.p roofTurned.t ∧
    (refix sizeEngine roofM.p roofM.t).isSome = true ∧ (refix sizeEngine roofTurned.p roofTurned.t).isSome = true ∧
    deleteBoundaryFaces sizeEngine (3 / 2) roofM = some ⟨[(0, 0), (0, 2), (2, 0), (2, 2)], [⟨1, 0, 3⟩, ⟨0, 2, 3⟩]⟩ ∧
    deleteBoundaryFaces sizeEngine 6 roofTurned = some ⟨[(-3, 0), (-3, 4), (1, 0), (1, 4)], [⟨1, 0, 2⟩, ⟨1, 2, 3⟩]⟩ :=
  ⟨rndQ_isRounding, by norm_num [sizeEngine, engineQ], sizeEngine_geometric, turnQ_quality, by simp [roofM], roof_moved, roofM_good, roofTurned_good,
    by decide +kernel, by decide +kernel, by decide +kernel, by decide +kernel⟩

-- `delete_faces_connected_to_one_face` takes off both ends of the strip of three triangles in both meshes.
example : FitsIn 3 roofM.p ∧ FitsIn 6 roofTurned.p ∧ (∀ q ∈ roofM.p, ∀ q' ∈ roofM.p, turnQ q = turnQ q' → q = q') ∧
    (deleteOneFace sizeEngine (some 1) roofM).map (·.map (·.p)) = some (some [(0, 0), (0, 2), (2, 2)]) ∧
    (deleteOneFace sizeEngine (some 1) roofTurned).map (·.map (·.p)) = some (some [(-3, 0), (-3, 4), (1, 0)]) :=
  ⟨roof_fits.1, roof_fits.2, fun _ _ _ _ h => turnQ_injective h, by decide +kernel, by decide +kernel⟩

/-- The bow, turned. -/
def bowMoved : Mesh ℚ := ⟨[(1, 0), (3, 2), (-1, 2), (-1, -2), (3, -2)], [⟨0, 1, 2⟩, ⟨3, 4, 0⟩]⟩

-- `delete_exterior_faces`: areas 1 and 1 become 4 and 4; with the limit 3/4 on the part of the area both pieces are deleted in both meshes.
example : Moved turnQ bowM.p bowM.t bowMoved.p bowMoved.t ∧ CleanTable bowM.p bowM.t ∧ CleanTable bowMoved.p bowMoved.t ∧
    (∀ x y z, |signedArea (turnQ x) (turnQ y) (turnQ z)| = 2 ^ 2 * |signedArea x y z|) ∧ IsAreaOf bowM.p bowM.t (fun _ => 1) ∧
    IsAreaOf bowMoved.p bowMoved.t (fun _ => 4) ∧ 0 < (bowM.t.map fun _ => (1 : ℚ)).sum := by
  refine ⟨drawing_of_check (by decide +kernel) (by decide +kernel) (validMesh_of_bound (by decide)) (by decide +kernel) (by decide +kernel), ?_, ?_, C142_area turnQ_similarity,
    bow_areas.1, ?_, by norm_num [bowM]⟩
  · unfold CleanTable SameVertices
    refine ⟨?_, ?_, ?_, ?_⟩ <;> decide +kernel
  · unfold CleanTable SameVertices
    refine ⟨?_, ?_, ?_, ?_⟩ <;> decide +kernel
  · intro f hf
    simp only [bowMoved, List.mem_cons, List.not_mem_nil, or_false] at hf
    rcases hf with rfl | rfl
    · exact ⟨_, _, _, rfl, by norm_num [signedArea]⟩
    · exact ⟨_, _, _, rfl, by norm_num [signedArea]⟩

-- A shift by a long way with another scale.
example : FitsIn 3 roofM.p ∧ Separated (3 * engineQ.ptol) roofM.p ∧ (0 : ℚ) < 7 := ⟨roof_fits.1, roofM_good.apart, by norm_num⟩

/-- The wheel, turned, with the centre first. -/
def wheelTurned : Mesh ℚ := ⟨[(1 / 2, 1 / 2), (1, 0), (1, 2), (-1, 2), (-1, 0)], [⟨1, 2, 0⟩, ⟨0, 2, 3⟩, ⟨3, 4, 0⟩, ⟨0, 4, 1⟩]⟩

/-- The sum of the differences of the coordinates, for the example. -/
def taxiQ (x y : ℚ × ℚ) : ℚ := |x.1 - y.1| + |x.2 - y.2|

-- `laplacian2` moves the centre to the middle in both meshes.
example : IsAffine turnQ ∧ (∀ x y, taxiQ (turnQ x) (turnQ y) = 2 * taxiQ x y) ∧ (∀ x y, taxiQ x y = taxiQ y x) ∧ Moved turnQ wheelM.p wheelM.t wheelTurned.p wheelTurned.t ∧
    CleanTable wheelM.p wheelM.t ∧ CleanTable wheelTurned.p wheelTurned.t ∧
    (laplacian2 taxiQ lexOrder 20 (1 / 100) none wheelM).map (·.p) = some [(0, 0), (1, 0), (1, 1), (0, 1), (1 / 2, 1 / 2)] ∧
    (laplacian2 taxiQ lexOrder 20 (1 / 100) none wheelTurned).map (·.p) = some [(0, 1), (1, 0), (1, 2), (-1, 2), (-1, 0)] := by
  refine ⟨turnQ_affine, fun x y => ?_, fun x y => ?_, drawing_of_check (by decide +kernel) (by decide +kernel) (validMesh_of_bound (by decide)) (by decide +kernel) (by decide +kernel),
    ?_, ?_, by decide +kernel, by decide +kernel⟩
  · simp only [taxiQ, turnQ]
    rw [show 1 - 2 * x.2 - (1 - 2 * y.2) = 2 * (y.2 - x.2) by ring, show 2 * x.1 - 2 * y.1 = 2 * (x.1 - y.1) by ring, abs_mul, abs_mul, abs_of_pos (by norm_num : (0 : ℚ) < 2),
      abs_sub_comm y.2]
    ring
  · simp only [taxiQ]
    rw [abs_sub_comm, abs_sub_comm x.2]
  · unfold CleanTable SameVertices
    refine ⟨?_, ?_, ?_, ?_⟩ <;> decide +kernel
  · unfold CleanTable SameVertices
    refine ⟨?_, ?_, ?_, ?_⟩ <;> decide +kernel

/-- A triangle with legs of 1/300. -/
noncomputable def tinyM : Mesh ℝ := ⟨[(0, 0), (1 / 300, 0), (0, 1 / 300)], [⟨0, 1, 2⟩]⟩

-- A well-shaped boundary triangle whose edges are shorter than the default limit 0.01.
example : GoodMesh 0 tinyM.p tinyM.t ∧ TouchesBoundary tinyM.t ⟨0, 1, 2⟩ ∧ edgeLength (0, 0) (1 / 300, 0) ≤ 1 / 100 ∧ edgeLength (0, 0) (0, 1 / 300) ≤ 1 / 100 ∧
    edgeLength (1 / 300, 0) (0, 1 / 300) ≤ 1 / 100 ∧ IsSimilarity (fun q : ℝ × ℝ => (-3 * q.2, 3 * q.1)) 3 := by
  refine ⟨⟨validMesh_of_bound ?_, ?_, ?_, ?_, ?_, ?_, conforming_of_bound 3 ?_ ?_, ?_⟩, ?_, ?_, ?_, ?_, fun q r => by ring⟩
  · simp [tinyM]
  · intro v hv
    simp only [tinyM, List.length_cons, List.length_nil] at hv
    refine ⟨⟨0, 1, 2⟩, by simp [tinyM], ?_⟩
    simp only [HasVertex]
    omega
  · simp [tinyM]
  · intro q _ q' _ h
    exact Prod.ext (sub_eq_zero.1 (abs_nonpos_iff.1 h.1)) (sub_eq_zero.1 (abs_nonpos_iff.1 h.2))
  · simp [tinyM, Nondegenerate]
  · simp [tinyM]
  · simp [tinyM]
  · intro u hu v hv
    show edgeMultiplicity [⟨0, 1, 2⟩] u v ≤ 2
    revert u v
    decide
  · intro f hf x y z hx hy hz
    simp only [tinyM, List.mem_singleton] at hf
    subst hf
    simp only [tinyM, List.getElem?_cons_zero, List.getElem?_cons_succ, Option.some.injEq] at hx hy hz
    subst hx hy hz
    norm_num [signedArea]
  · show TouchesBoundary [⟨0, 1, 2⟩] ⟨0, 1, 2⟩
    exact ⟨0, by decide⟩
  all_goals
    unfold edgeLength
    rw [Real.sqrt_le_left (by norm_num)]
    norm_num

end OM
