import Verif.Model.Smooth
import Verif.Spec.Smooth
import Verif.Lemmas.Clean8
/-!
# Lemmas on `laplacian2`
-/
set_option linter.unusedSectionVars false
namespace OM
open Spec

section
variable {K : Type} [Field K] [LinearOrder K] [IsStrictOrderedRing K]

/-! ## nearest vertex -/

theorem argminGo_first : ∀ (l pre : List K) (v : K) (best : Nat), pre[best]? = some v →
    (∀ (j : Nat) (y : K), pre[j]? = some y → v ≤ y ∧ (j < best → v < y)) →
    ∃ m, (pre ++ l)[argminGo (some v) best pre.length (l.map some)]? = some m ∧
      ∀ (j : Nat) (y : K), (pre ++ l)[j]? = some y →
        m ≤ y ∧ (j < argminGo (some v) best pre.length (l.map some) → m < y)
  | [], pre, v, best, hb, h => by
    simp only [List.append_nil, List.map_nil, argminGo]
    exact ⟨v, hb, h⟩
  | x :: l, pre, v, best, hb, h => by
    have e : pre ++ x :: l = (pre ++ [x]) ++ l := by simp
    have el : (pre ++ [x]).length = pre.length + 1 := by simp
    have hbl := (List.getElem?_eq_some_iff.1 hb).1
    have get : ∀ (j : Nat) (y : K), (pre ++ [x])[j]? = some y → pre[j]? = some y ∨ (j = pre.length ∧ y = x) := by
      intro j y hj
      by_cases hjl : j < pre.length
      · rw [List.getElem?_append_left hjl] at hj; exact Or.inl hj
      · rw [List.getElem?_append_right (by omega)] at hj
        have := (List.getElem?_eq_some_iff.1 hj).1
        simp only [List.length_cons, List.length_nil] at this
        have hz : j - pre.length = 0 := by omega
        rw [hz] at hj
        simp only [List.getElem?_cons_zero, Option.some.injEq] at hj
        exact Or.inr ⟨by omega, hj.symm⟩
    simp only [List.map_cons, argminGo]
    by_cases hx : x < v
    · rw [if_pos hx, e, ← el]
      apply argminGo_first l (pre ++ [x]) x pre.length
      · rw [List.getElem?_append_right (le_refl _)]; simp
      · intro j y hj
        rcases get j y hj with hj | ⟨rfl, rfl⟩
        · have := (h j y hj).1
          exact ⟨hx.le.trans this, fun _ => lt_of_lt_of_le hx this⟩
        · exact ⟨le_refl _, fun hh => absurd hh (lt_irrefl _)⟩
    · rw [if_neg hx, e, ← el]
      apply argminGo_first l (pre ++ [x]) v best
      · rw [List.getElem?_append_left hbl]; exact hb
      · intro j y hj
        rcases get j y hj with hj | ⟨rfl, rfl⟩
        · exact h j y hj
        · exact ⟨not_lt.1 hx, fun hh => absurd hh (by omega)⟩

theorem closestNode_spec {p : List (K × K)} (hp : p ≠ []) (q : K × K) :
    ∃ i, closestNode p q = some i ∧ IsNearest p q i := by
  cases p with
  | nil => exact absurd rfl hp
  | cons x p =>
    set d : K × K → K := fun x => (x.1 - q.1) * (x.1 - q.1) + (x.2 - q.2) * (x.2 - q.2) with hd
    have e : closestNode (x :: p) q = some (argminGo (some (d x)) 0 1 ((p.map d).map some)) := by
      simp [closestNode, argmin, hd, Function.comp_def]
    obtain ⟨m, h1, h2⟩ := argminGo_first (p.map d) [d x] (d x) 0 rfl (by
      intro j y hj
      have hjl := (List.getElem?_eq_some_iff.1 hj).1
      simp only [List.length_cons, List.length_nil] at hjl
      have hz : j = 0 := by omega
      subst hz
      simp only [List.getElem?_cons_zero, Option.some.injEq] at hj
      exact ⟨hj.le, fun hh => absurd hh (lt_irrefl _)⟩)
    rw [e]
    refine ⟨_, rfl, ?_⟩
    have e2 : [d x] ++ p.map d = (x :: p).map d := by simp
    simp only [List.length_cons, List.length_nil, Nat.zero_add] at h1 h2
    rw [e2] at h1 h2
    rw [List.getElem?_map, Option.map_eq_some_iff] at h1
    obtain ⟨z, hz, hzm⟩ := h1
    refine ⟨z, hz, fun j y hj => ?_⟩
    have := h2 j (d y) (by rw [List.getElem?_map, hj]; rfl)
    rw [← hzm] at this
    simp only [hd] at this
    simp only [pow_two]
    exact this

theorem closestNodes_spec {p : List (K × K)} (hp : p ≠ []) : ∀ qs : List (K × K),
    ∃ is, closestNodes p qs = some is ∧ List.Forall₂ (IsNearest p) qs is
  | [] => ⟨[], rfl, .nil⟩
  | q :: qs => by
    obtain ⟨i, h1, h2⟩ := closestNode_spec hp q
    obtain ⟨is, h3, h4⟩ := closestNodes_spec hp qs
    exact ⟨i :: is, by rw [closestNodes, h1, h3], .cons h2 h4⟩

/-! ## one step -/

/-- The columns of row `v`. -/
def rowCols (es : List (Nat × Nat)) (v : Nat) : List Nat := (es.filter fun e => e.1 == v).map Prod.snd

theorem rowWeight_eq (es : List (Nat × Nat)) (v : Nat) : rowWeight es v = (rowCols es v).length := by
  simp [rowWeight, rowCols]

theorem rowCols_mates (t : List Tri) (v : Nat) : rowCols (smoothEntries t) v = mates t v := by
  induction t with
  | nil => rfl
  | cons f t ih =>
    have e : mates (f :: t) v = ((if f.a = v then [f.b, f.c] else []) ++ (if f.b = v then [f.a, f.c] else []) ++
      (if f.c = v then [f.a, f.b] else [])) ++ mates t v := rfl
    rw [e, ← ih]
    simp only [rowCols, smoothEntries, List.filter_cons, beq_iff_eq]
    by_cases ha : f.a = v <;> by_cases hb : f.b = v <;> by_cases hc : f.c = v <;> simp [ha, hb, hc]

theorem rowCols_entries {t : List Tri} (ht : ∀ f ∈ t, Nondegenerate f) (v : Nat) :
    rowCols (smoothEntries t) v = otherCorners t v := by
  induction t with
  | nil => rfl
  | cons f t ih =>
    have ih := ih fun g hg => ht g (List.mem_cons_of_mem _ hg)
    obtain ⟨h1, h2, h3⟩ := ht f (List.mem_cons_self ..)
    have e : otherCorners (f :: t) v =
      (if HasVertex f v then [f.a, f.b, f.c].filter (fun w => decide (w ≠ v)) else []) ++ otherCorners t v := rfl
    rw [e, ← ih]
    simp only [rowCols, smoothEntries]
    by_cases ha : v = f.a
    · subst ha
      have : HasVertex f f.a := Or.inl rfl
      simp [this, List.filter_cons, h1.symm, h2.symm]
    · by_cases hb : v = f.b
      · subst hb
        have : HasVertex f f.b := Or.inr (Or.inl rfl)
        simp [this, List.filter_cons, h1, h3.symm]
      · by_cases hc : v = f.c
        · subst hc
          have : HasVertex f f.c := Or.inr (Or.inr rfl)
          simp [this, List.filter_cons, h2, h3]
        · have : ¬ HasVertex f v := by rintro (h | h | h) <;> contradiction
          simp [this, List.filter_cons, Ne.symm ha, Ne.symm hb, Ne.symm hc]

theorem rowSum_spec {p : List (K × K)} {v : Nat} : ∀ {es : List (Nat × Nat)} {s : K × K}, rowSum p v es = some s →
    ∃ qs, List.Forall₂ (fun w x => p[w]? = some x) (rowCols es v) qs ∧ s.1 = (qs.map Prod.fst).sum ∧
      s.2 = (qs.map Prod.snd).sum
  | [], s, h => by
    cases h
    exact ⟨[], .nil, by simp, by simp⟩
  | (i, j) :: es, s, h => by
    rw [rowSum] at h
    by_cases hi : i = v
    · rw [if_pos hi] at h
      split at h
      · rename_i q s' hq hs
        cases h
        obtain ⟨qs, h1, h2, h3⟩ := rowSum_spec hs
        refine ⟨q :: qs, ?_, by simp [h2], by simp [h3]⟩
        rw [rowCols, List.filter_cons_of_pos (by simpa using hi)]
        exact .cons hq h1
      · cases h
    · rw [if_neg hi] at h
      obtain ⟨qs, h1, h2, h3⟩ := rowSum_spec h
      refine ⟨qs, ?_, h2, h3⟩
      rw [rowCols, List.filter_cons_of_neg (by simpa using hi)]
      exact h1

theorem rowSum_isSome {p : List (K × K)} (v : Nat) : ∀ {es : List (Nat × Nat)}, (∀ e ∈ es, e.2 < p.length) →
    ∃ s, rowSum p v es = some s
  | [], _ => ⟨_, rfl⟩
  | (i, j) :: es, h => by
    obtain ⟨s, hs⟩ := rowSum_isSome v (es := es) fun e he => h e (List.mem_cons_of_mem _ he)
    have hj : j < p.length := h (i, j) (List.mem_cons_self ..)
    rw [rowSum, hs, List.getElem?_eq_getElem hj]
    by_cases hi : i = v
    · rw [if_pos hi]; exact ⟨_, rfl⟩
    · rw [if_neg hi]; exact ⟨_, rfl⟩

theorem smoothRows_isSome {es : List (Nat × Nat)} {bnd : List Nat} {p : List (K × K)} (h : ∀ e ∈ es, e.2 < p.length) :
    ∀ (l : List (K × K)) (v : Nat), ∃ r, smoothRows es bnd p v l = some r
  | [], _ => ⟨_, rfl⟩
  | q :: l, v => by
    obtain ⟨r, hr⟩ := smoothRows_isSome h (bnd := bnd) l (v + 1)
    obtain ⟨s, hs⟩ := rowSum_isSome v h
    rw [smoothRows, hs, hr]
    exact ⟨_, rfl⟩

theorem smoothRows_length {es : List (Nat × Nat)} {bnd : List Nat} {p : List (K × K)} :
    ∀ {l r : List (K × K)} {v : Nat}, smoothRows es bnd p v l = some r → r.length = l.length
  | [], r, v, h => by cases h; rfl
  | q :: l, r, v, h => by
    rw [smoothRows] at h
    split at h
    · rename_i s r' hs hr
      cases h
      simp [smoothRows_length hr]
    · cases h

theorem smoothRows_spec {es : List (Nat × Nat)} {bnd : List Nat} {p : List (K × K)} :
    ∀ {l r : List (K × K)} {v : Nat}, smoothRows es bnd p v l = some r → ∀ (k : Nat) (q q' : K × K), l[k]? = some q →
      r[k]? = some q' → (v + k ∈ bnd → q' = q) ∧ (v + k ∉ bnd → ∃ s, rowSum p (v + k) es = some s ∧
        q' = (s.1 / (rowWeight es (v + k) : K), s.2 / (rowWeight es (v + k) : K)))
  | [], r, v, h, k, q, q', hk, _ => by simp at hk
  | x :: l, r, v, h, k, q, q', hk, hk' => by
    rw [smoothRows] at h
    split at h
    · rename_i s r' hs hr
      cases h
      cases k with
      | zero =>
        simp only [List.getElem?_cons_zero, Option.some.injEq] at hk hk'
        subst hk
        rw [Nat.add_zero]
        constructor
        · intro hb
          rw [if_pos (by simpa using hb)] at hk'
          exact hk'.symm
        · intro hb
          rw [if_neg (by simpa using hb)] at hk'
          exact ⟨s, hs, hk'.symm⟩
      | succ k =>
        rw [List.getElem?_cons_succ] at hk hk'
        have := smoothRows_spec hr k q q' hk hk'
        rw [show v + 1 + k = v + (k + 1) by omega] at this
        exact this
    · cases h

theorem smoothStep_all {t : List Tri} {bnd : List Nat} {p p' : List (K × K)}
    (hw : ∀ v < p.length, rowWeight (smoothEntries t) v ≠ 0)
    (h : smoothRows (smoothEntries t) bnd p 0 p = some p') : MovesToMean (mates t) (· ∈ bnd) p p' := by
  refine ⟨smoothRows_length h, fun v q q' hq hq' => ?_⟩
  obtain ⟨h1, h2⟩ := smoothRows_spec h v q q' hq hq'
  rw [Nat.zero_add] at h1 h2
  refine ⟨h1, fun hb => ?_⟩
  obtain ⟨s, hs, e⟩ := h2 hb
  obtain ⟨qs, g1, g2, g3⟩ := rowSum_spec hs
  have hlen := g1.length_eq
  have hne : (rowWeight (smoothEntries t) v : K) ≠ 0 := Nat.cast_ne_zero.2 (hw v (List.getElem?_eq_some_iff.1 hq).1)
  rw [rowCols_mates] at g1
  refine ⟨qs, g1, ?_, ?_, ?_⟩
  · intro h0
    apply hw v (List.getElem?_eq_some_iff.1 hq).1
    rw [rowWeight_eq, hlen, h0]; rfl
  · rw [← hlen, ← rowWeight_eq, e]
    dsimp only
    rw [div_mul_cancel₀ _ hne, g2]
  · rw [← hlen, ← rowWeight_eq, e]
    dsimp only
    rw [div_mul_cancel₀ _ hne, g3]

/-! ## stop test -/

theorem edgeChanges_spec {len : K × K → K × K → K} {p p' : List (K × K)} :
    ∀ {es : List (Nat × Nat)} {r : List K}, edgeChanges len p p' es = some r →
      ∀ d, d ∈ r ↔ ∃ e ∈ es, ∃ x y x' y', p[e.1]? = some x ∧ p[e.2]? = some y ∧ p'[e.1]? = some x' ∧
        p'[e.2]? = some y' ∧ d = (len x' y' - len x y) / len x' y'
  | [], r, h, d => by cases h; simp
  | (i, j) :: es, r, h, d => by
    rw [edgeChanges] at h
    split at h
    · rename_i x y x' y' r' h1 h2 h3 h4 h5
      cases h
      rw [List.mem_cons, edgeChanges_spec h5 d]
      constructor
      · rintro (rfl | ⟨e, he, hh⟩)
        · exact ⟨(i, j), List.mem_cons_self .., x, y, x', y', h1, h2, h3, h4, rfl⟩
        · exact ⟨e, List.mem_cons_of_mem _ he, hh⟩
      · rintro ⟨e, he, a, b, a', b', g1, g2, g3, g4, rfl⟩
        rcases List.mem_cons.1 he with rfl | he
        · left
          dsimp only at g1 g2 g3 g4
          rw [h1] at g1; rw [h2] at g2; rw [h3] at g3; rw [h4] at g4
          cases g1; cases g2; cases g3; cases g4; rfl
        · exact Or.inr ⟨e, he, a, b, a', b', g1, g2, g3, g4, rfl⟩
    · cases h

theorem edgeChanges_isSome {len : K × K → K × K → K} {p p' : List (K × K)} (hl : p'.length = p.length) :
    ∀ {es : List (Nat × Nat)}, (∀ e ∈ es, e.1 < p.length ∧ e.2 < p.length) →
      ∃ r, edgeChanges len p p' es = some r ∧ r.length = es.length
  | [], _ => ⟨[], rfl, rfl⟩
  | (i, j) :: es, h => by
    obtain ⟨r, hr, hrl⟩ := edgeChanges_isSome hl (es := es) fun e he => h e (List.mem_cons_of_mem _ he)
    obtain ⟨hi, hj⟩ := h (i, j) (List.mem_cons_self ..)
    dsimp only at hi hj
    rw [edgeChanges, List.getElem?_eq_getElem hi, List.getElem?_eq_getElem hj,
      List.getElem?_eq_getElem (hl ▸ hi), List.getElem?_eq_getElem (hl ▸ hj), hr]
    exact ⟨_, rfl, by simp [hrl]⟩

theorem maxElement_lt {l : List K} {x tol : K} (h : maxElement l = some x) : x < tol ↔ ∀ d ∈ l, d < tol := by
  cases l with
  | nil => cases h
  | cons y l =>
    cases h
    exact ⟨fun hlt d hd => lt_of_le_of_lt (le_foldl_max y l d hd) hlt, fun hall => hall _ (foldl_max_mem y l)⟩

theorem mem_getEdges_iff {t : List Tri} {e : Nat × Nat} :
    e ∈ getEdges t ↔ ∃ f ∈ t, e ∈ [(f.a, f.b), (f.a, f.c), (f.b, f.c)] := by
  induction t with
  | nil => simp [getEdges]
  | cons f t ih =>
    simp only [getEdges, List.mem_cons, ih, exists_eq_or_imp, List.not_mem_nil, or_false, or_assoc]

theorem settled_iff {len : K × K → K × K → K} {tol : K} {t : List Tri} {p p' : List (K × K)} {r : List K} {x : K}
    (h : edgeChanges len p p' (getEdges t) = some r) (hm : maxElement r = some x) :
    x < tol ↔ Settled len tol t p p' := by
  rw [maxElement_lt hm]
  constructor
  · intro hall f hf e he a b a' b' h1 h2 h3 h4
    exact hall _ ((edgeChanges_spec h _).2 ⟨e, mem_getEdges_iff.2 ⟨f, hf, he⟩, a, b, a', b', h1, h2, h3, h4, rfl⟩)
  · intro hs d hd
    obtain ⟨e, he, a, b, a', b', h1, h2, h3, h4, rfl⟩ := (edgeChanges_spec h d).1 hd
    obtain ⟨f, hf, he⟩ := mem_getEdges_iff.1 he
    exact hs f hf e he a b a' b' h1 h2 h3 h4

/-! ## the loop -/

theorem smoothLoop_spec {len : K × K → K × K → K} {tol : K} {t : List Tri}
    {bnd : List Nat} : ∀ {n : Nat} {p p' : List (K × K)},
    (∀ v < p.length, rowWeight (smoothEntries t) v ≠ 0) →
    smoothLoop len tol (smoothEntries t) (getEdges t) bnd n p = some p' →
    (n = 0 ∧ p' = p) ∨ ∃ j p1, j < n ∧
      Steps (fun x y => MovesToMean (mates t) (· ∈ bnd) x y ∧ ¬ Settled len tol t x y) j p p1 ∧
      MovesToMean (mates t) (· ∈ bnd) p1 p' ∧ (Settled len tol t p1 p' ∨ (¬ Settled len tol t p1 p' ∧ j + 1 = n))
  | 0, p, p', _, h => by cases h; exact Or.inl ⟨rfl, rfl⟩
  | n + 1, p, p', hw, h => by
    right
    rw [smoothLoop] at h
    split at h
    · cases h
    · rename_i p1 hp1
      have hstep := smoothStep_all hw hp1
      split at h
      · cases h
      · rename_i move hmove
        rw [Option.bind_eq_some_iff] at hmove
        obtain ⟨r, hr, hm⟩ := hmove
        have hset := settled_iff (tol := tol) hr hm
        by_cases hlt : move < tol
        · rw [if_pos hlt] at h
          cases h
          exact ⟨0, p, by omega, .zero _, hstep, Or.inl (hset.1 hlt)⟩
        · rw [if_neg hlt] at h
          have hns := fun hs => hlt (hset.2 hs)
          rcases smoothLoop_spec (by rw [hstep.1]; exact hw) h with ⟨rfl, rfl⟩ | ⟨j, p2, hj, hc, hs, hend⟩
          · exact ⟨0, p, by omega, .zero _, hstep, Or.inr ⟨hns, rfl⟩⟩
          · refine ⟨j + 1, p2, by omega, .succ ⟨hstep, hns⟩ hc, hs, ?_⟩
            rcases hend with h1 | ⟨h1, h2⟩
            · exact Or.inl h1
            · exact Or.inr ⟨h1, by omega⟩

theorem mem_smoothEntries {t : List Tri} {p : List (K × K)} (hv : ValidMesh p t) :
    ∀ e ∈ smoothEntries t, e.1 < p.length ∧ e.2 < p.length := by
  induction t with
  | nil => simp [smoothEntries]
  | cons f t ih =>
    intro e he
    have ha := hv f (List.mem_cons_self ..) f.a (Or.inl rfl)
    have hb := hv f (List.mem_cons_self ..) f.b (Or.inr (Or.inl rfl))
    have hc := hv f (List.mem_cons_self ..) f.c (Or.inr (Or.inr rfl))
    simp only [smoothEntries, List.mem_cons] at he
    rcases he with rfl | rfl | rfl | rfl | rfl | rfl | he
    · exact ⟨ha, hb⟩
    · exact ⟨ha, hc⟩
    · exact ⟨hb, ha⟩
    · exact ⟨hb, hc⟩
    · exact ⟨hc, ha⟩
    · exact ⟨hc, hb⟩
    · exact ih (fun g hg => hv g (List.mem_cons_of_mem _ hg)) e he

theorem valid_of_entries {t : List Tri} {n : Nat} (h : ∀ e ∈ smoothEntries t, e.1 < n) :
    ∀ f ∈ t, ∀ v, HasVertex f v → v < n := by
  induction t with
  | nil => simp
  | cons f t ih =>
    simp only [smoothEntries, List.mem_cons] at h
    intro g hg v hgv
    rcases List.mem_cons.1 hg with rfl | hg
    · rcases hgv with rfl | rfl | rfl
      · exact h (g.a, g.b) (by simp)
      · exact h (g.b, g.a) (by simp)
      · exact h (g.c, g.a) (by simp)
    · exact ih (fun e he => h e (by simp [he])) g hg v hgv

theorem smoothLoop_isSome {len : K × K → K × K → K} {tol : K} {t : List Tri} {bnd : List Nat} (hne : t ≠ []) :
    ∀ {n : Nat} {p : List (K × K)}, ValidMesh p t →
      ∃ p', smoothLoop len tol (smoothEntries t) (getEdges t) bnd n p = some p'
  | 0, p, _ => ⟨p, rfl⟩
  | n + 1, p, hv => by
    obtain ⟨p1, hp1⟩ := smoothRows_isSome (bnd := bnd) (fun e he => (mem_smoothEntries hv e he).2) p 0
    have hl := smoothRows_length hp1
    obtain ⟨r, hr, hrl⟩ := edgeChanges_isSome (len := len) hl (es := getEdges t) (by
      intro e he
      obtain ⟨f, hf, he⟩ := mem_getEdges_iff.1 he
      have ha := hv f hf f.a (Or.inl rfl)
      have hb := hv f hf f.b (Or.inr (Or.inl rfl))
      have hc := hv f hf f.c (Or.inr (Or.inr rfl))
      simp only [List.mem_cons, List.not_mem_nil, or_false] at he
      rcases he with rfl | rfl | rfl
      · exact ⟨ha, hb⟩
      · exact ⟨ha, hc⟩
      · exact ⟨hb, hc⟩)
    rw [smoothLoop, hp1]
    dsimp only
    rw [hr, Option.bind_some]
    cases r with
    | nil =>
      cases t with
      | nil => exact absurd rfl hne
      | cons f t => simp [getEdges] at hrl
    | cons y r =>
      rw [maxElement]
      dsimp only
      by_cases hlt : List.foldl max y r < tol
      · rw [if_pos hlt]; exact ⟨_, rfl⟩
      · rw [if_neg hlt]
        apply smoothLoop_isSome hne
        intro f hf v hfv
        rw [hl]; exact hv f hf v hfv

theorem mates_eq_nil {t : List Tri} {v : Nat} : mates t v = [] ↔ ∀ f ∈ t, ¬ HasVertex f v := by
  rw [mates, List.flatMap_eq_nil_iff]
  apply forall₂_congr
  intro f _
  have e : HasVertex f v ↔ f.a = v ∨ f.b = v ∨ f.c = v := by
    unfold HasVertex
    rw [eq_comm, @eq_comm _ v f.b, @eq_comm _ v f.c]
  rw [e]
  by_cases ha : f.a = v <;> by_cases hb : f.b = v <;> by_cases hc : f.c = v <;> simp [ha, hb, hc]

theorem sideCount_eq (t : List Tri) (u v : Nat) :
    sideCount t u v = ((getEdges t).map sortPair).count (sortPair (u, v)) := by
  induction t with
  | nil => rfl
  | cons f t ih =>
    have e : sideCount (f :: t) u v = (([(f.a, f.b), (f.b, f.c), (f.c, f.a)] : List (Nat × Nat)).filter
      fun e => decide ((e.1 = u ∧ e.2 = v) ∨ (e.1 = v ∧ e.2 = u))).length + sideCount t u v := by
      simp only [sideCount, List.flatMap_cons, List.filter_append, List.length_append]
    rw [e, ih]
    have hs : ∀ x y : Nat, sortPair (x, y) = sortPair (u, v) ↔ (x = u ∧ y = v) ∨ (x = v ∧ y = u) := by
      intro x y
      simp only [sortPair, Prod.mk.injEq]
      omega
    simp only [getEdges, List.map_cons, List.count_cons, List.filter_cons, List.filter_nil, beq_iff_eq, hs, decide_eq_true_eq]
    have hc : (f.c = u ∧ f.a = v ∨ f.c = v ∧ f.a = u) ↔ (f.a = u ∧ f.c = v ∨ f.a = v ∧ f.c = u) := by tauto
    simp only [hc]
    split_ifs <;> simp <;> omega

theorem mem_flat_boundary_all (o : RowOrder (Nat × Nat)) (t : List Tri) (v : Nat) :
    v ∈ flatPairs (getBoundaryEdges o t) ↔ ∃ w, sideCount t v w = 1 := by
  have hm : ∀ e, e ∈ getBoundaryEdges o t ↔ ((getEdges t).map sortPair).count e = 1 := by
    intro e
    simp only [getBoundaryEdges, List.mem_map, List.mem_filter, beq_iff_eq]
    constructor
    · rintro ⟨⟨x, n⟩, ⟨h, hn⟩, rfl⟩
      dsimp only at hn ⊢
      rw [((mem_uniqueCounts o _ _ _).1 h).2, hn]
    · intro h
      exact ⟨(e, 1), ⟨(mem_uniqueCounts o _ _ _).2 ⟨Nat.one_pos, h⟩, rfl⟩, rfl⟩
  rw [mem_flatPairs]
  constructor
  · rintro ⟨e, he, hv⟩
    have h1 := (hm e).1 he
    have h2 : e ∈ (getEdges t).map sortPair := List.count_pos_iff.1 (by omega)
    obtain ⟨x, -, rfl⟩ := List.mem_map.1 h2
    obtain ⟨x, y⟩ := x
    have h3 : v = x ∨ v = y := by
      simp only [sortPair] at hv
      omega
    rcases h3 with rfl | rfl
    · exact ⟨y, by rw [sideCount_eq]; exact h1⟩
    · exact ⟨x, by rw [sideCount_eq, ← h1, sortPair, sortPair, min_comm, max_comm]⟩
  · rintro ⟨w, hw⟩
    rw [sideCount_eq] at hw
    refine ⟨_, (hm _).2 hw, ?_⟩
    simp only [sortPair]
    omega

/-- What `laplacian2` does when it returns. -/
theorem laplacian2_all {len : K × K → K × K → K} {oE : RowOrder (Nat × Nat)} {maxIter : Nat} {tol : K}
    {pfix : Option (List (K × K))} {m m' : Mesh K}
    (h : laplacian2 len oE maxIter tol pfix m = some m') :
    m'.t = m.t ∧ ∃ ifix, fixedNodes m.p pfix = some ifix ∧ (((∃ v < m.p.length, ∀ f ∈ m.t, ¬ HasVertex f v) ∧ m' = m) ∨
      ((∀ v < m.p.length, ∃ f ∈ m.t, HasVertex f v) ∧
        ((maxIter = 0 ∧ m'.p = m.p) ∨ ∃ j p1, j < maxIter ∧
          Steps (fun x y => MovesToMean (mates m.t) (fun v => (∃ w, sideCount m.t v w = 1) ∨ v ∈ ifix) x y ∧
            ¬ Settled len tol m.t x y) j m.p p1 ∧
          MovesToMean (mates m.t) (fun v => (∃ w, sideCount m.t v w = 1) ∨ v ∈ ifix) p1 m'.p ∧
          (Settled len tol m.t p1 m'.p ∨ (¬ Settled len tol m.t p1 m'.p ∧ j + 1 = maxIter))))) := by
  have hwt : ∀ v, rowWeight (smoothEntries m.t) v = 0 ↔ ∀ f ∈ m.t, ¬ HasVertex f v := by
    intro v
    rw [rowWeight_eq, rowCols_mates, List.length_eq_zero_iff, mates_eq_nil]
  unfold laplacian2 at h
  dsimp only at h
  split at h
  · split at h
    · rename_i be bv ifix hex hfix
      have hbe : be = getBoundaryEdges oE m.t := by
        simp only [externalTopology] at hex
        cases hg : gather m.p (unique natOrder (flatPairs (getBoundaryEdges oE m.t))) with
        | none => rw [hg] at hex; cases hex
        | some x => rw [hg] at hex; cases hex; rfl
      by_cases hz : (List.range m.p.length).any (fun v => rowWeight (smoothEntries m.t) v == 0) = true
      · rw [if_pos hz] at h
        cases h
        refine ⟨rfl, ifix, hfix, Or.inl ⟨?_, rfl⟩⟩
        rw [List.any_eq_true] at hz
        obtain ⟨v, hv, hv0⟩ := hz
        exact ⟨v, List.mem_range.1 hv, (hwt v).1 (by simpa using hv0)⟩
      · rw [if_neg hz] at h
        have hw : ∀ v < m.p.length, rowWeight (smoothEntries m.t) v ≠ 0 := by
          intro v hv h0
          exact hz (List.any_eq_true.2 ⟨v, List.mem_range.2 hv, by simpa using h0⟩)
        split at h
        · cases h
        · rw [Option.map_eq_some_iff] at h
          obtain ⟨p', hp', rfl⟩ := h
          refine ⟨rfl, ifix, hfix, Or.inr ⟨?_, ?_⟩⟩
          · intro v hv
            by_contra hno
            push Not at hno
            exact hw v hv ((hwt v).2 hno)
          · have := smoothLoop_spec hw hp'
            have hmem : (fun v => v ∈ unique natOrder (flatPairs be) ++ ifix) =
                fun v => (∃ w, sideCount m.t v w = 1) ∨ v ∈ ifix := by
              funext v
              rw [List.mem_append, mem_unique, hbe, mem_flat_boundary_all oE]
            rw [hmem] at this
            exact this
    · cases h
  · cases h

theorem mates_eq_otherCorners {t : List Tri} (ht : ∀ f ∈ t, Nondegenerate f) : mates t = otherCorners t := by
  funext v
  rw [← rowCols_mates, rowCols_entries ht]

/-- What `laplacian2` does when it returns. -/
theorem laplacian2_cases {len : K × K → K × K → K} {oE : RowOrder (Nat × Nat)} {maxIter : Nat} {tol : K}
    {pfix : Option (List (K × K))} {m m' : Mesh K} (ht : ∀ f ∈ m.t, Nondegenerate f)
    (h : laplacian2 len oE maxIter tol pfix m = some m') :
    m'.t = m.t ∧ ∃ ifix, fixedNodes m.p pfix = some ifix ∧ (((∃ v < m.p.length, ∀ f ∈ m.t, ¬ HasVertex f v) ∧ m' = m) ∨
      ((∀ v < m.p.length, ∃ f ∈ m.t, HasVertex f v) ∧
        ((maxIter = 0 ∧ m'.p = m.p) ∨ ∃ j p1, j < maxIter ∧
          Steps (fun x y => SmoothingStep m.t (fun v => 0 < boundaryDegree m.t v ∨ v ∈ ifix) x y ∧
            ¬ Settled len tol m.t x y) j m.p p1 ∧
          SmoothingStep m.t (fun v => 0 < boundaryDegree m.t v ∨ v ∈ ifix) p1 m'.p ∧
          (Settled len tol m.t p1 m'.p ∨ (¬ Settled len tol m.t p1 m'.p ∧ j + 1 = maxIter))))) := by
  have h0 := laplacian2_all h
  have e1 := mates_eq_otherCorners ht
  have e2 : ∀ v, (∃ w, sideCount m.t v w = 1) ↔ 0 < boundaryDegree m.t v := fun v => by
    rw [← mem_flat_boundary_all oE, mem_flat_boundary oE ht]
  simp only [e1, e2] at h0
  exact h0

end

end OM
