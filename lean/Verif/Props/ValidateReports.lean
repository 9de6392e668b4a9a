import Verif.Props.Validate
/-! # C105: the messages of the validation of multiscale inputs

`_validate_multiscale_domains` collects messages. Each message is characterised exactly. -/
set_option linter.unusedSectionVars false
namespace OM
open Spec

namespace Spec

/-- The domain at position `i` is the only stereographic one. -/
def OnlyGlobal {K C : Type} (ds : List (DomainMeta K C)) (i : Nat) (g : DomainMeta K C) : Prop :=
  ds[i]? = some g ∧ g.stereo = true ∧ ∀ (j : Nat) (d : DomainMeta K C), ds[j]? = some d → d.stereo = true → j = i

/-- Some CRS is given, for a domain or for a sizing function. -/
def SomeCrs {K C : Type} (ds : List (DomainMeta K C)) (es : List (Option C)) : Prop := (∃ d ∈ ds, d.crs.isSome = true) ∨ ∃ e ∈ es, e.isSome = true

/-- A corner of a box. -/
def IsBoxCorner {K : Type} (b : Box K) (q : K × K) : Prop := (q.1 = b.xmin ∨ q.1 = b.xmax) ∧ (q.2 = b.ymin ∨ q.2 = b.ymax)

end Spec

section
variable {K C P : Type} [Field K] [LinearOrder K]

theorem positionsFrom_nodup {α : Type} (f : α → Bool) (l : List α) (i : Nat) : (positionsFrom f i l).Pairwise (· < ·) := by
  induction l generalizing i with
  | nil => simp [positionsFrom]
  | cons a l ih =>
    rw [positionsFrom]
    split
    · refine List.pairwise_cons.2 ⟨fun k hk => ?_, ih _⟩
      have := (positionsFrom_spec _ l (i + 1) k).1 hk
      omega
    · exact ih _

/-- The three outcomes of `_find_global_domain`. -/
theorem findGlobal_cases (ds : List (DomainMeta K C)) :
    (findGlobalDomain ds = (none, []) ∧ ∀ (i : Nat) (d : DomainMeta K C), ds[i]? = some d → d.stereo = false) ∨
    (∃ i g, OnlyGlobal ds i g ∧ findGlobalDomain ds = (some g, if i ≠ 0 then [.globalNotFirst] else [])) ∨
    (findGlobalDomain ds = (none, [.severalGlobal]) ∧
      ∃ (i j : Nat) (d d' : DomainMeta K C), i < j ∧ ds[i]? = some d ∧ ds[j]? = some d' ∧ d.stereo = true ∧ d'.stereo = true) := by
  have hm := fun k => mem_stereo (ds := ds) (k := k)
  have hs := positionsFrom_nodup (fun d : DomainMeta K C => d.stereo) ds 0
  unfold findGlobalDomain
  generalize positionsFrom (fun d : DomainMeta K C => d.stereo) 0 ds = ps at hm hs
  match ps with
  | [] =>
    refine Or.inl ⟨rfl, fun i d hi => ?_⟩
    by_contra hd
    exact absurd ((hm i).2 ⟨d, hi, by simpa using hd⟩) (by simp)
  | [j] =>
    obtain ⟨g, h1, h2⟩ := (hm j).1 (by simp)
    refine Or.inr (Or.inl ⟨j, g, ⟨h1, h2, fun i d hi hd => ?_⟩, by simp [h1]⟩)
    simpa using (hm i).2 ⟨d, hi, hd⟩
  | j :: k :: l =>
    obtain ⟨d, h1, h2⟩ := (hm j).1 (by simp)
    obtain ⟨d', h3, h4⟩ := (hm k).1 (by simp)
    have hjk : j < k := (List.pairwise_cons.1 hs).1 k (by simp)
    exact Or.inr (Or.inr ⟨rfl, j, k, d, d', hjk, h1, h3, h2, h4⟩)

theorem onlyGlobal_unique {ds : List (DomainMeta K C)} {i j : Nat} {g g' : DomainMeta K C} (h : OnlyGlobal ds i g) (h' : OnlyGlobal ds j g') :
    i = j ∧ g = g' := by
  have e := h'.2.2 i g h.1 h.2.1
  subst e
  have := h.1.symm.trans h'.1
  exact ⟨rfl, Option.some.inj this⟩

theorem findGlobal_only {ds : List (DomainMeta K C)} {g : DomainMeta K C} : (findGlobalDomain ds).1 = some g ↔ ∃ i, OnlyGlobal ds i g := by
  rcases findGlobal_cases ds with ⟨h1, h2⟩ | ⟨i, g', h1, h2⟩ | ⟨h1, i, j, d, d', hij, e1, e2, e3, e4⟩
  · rw [h1]
    refine ⟨fun h => by simp at h, fun ⟨i, hi, hs, _⟩ => ?_⟩
    rw [h2 i g hi] at hs
    simp at hs
  · rw [h2]
    refine ⟨fun h => ⟨i, ?_⟩, fun ⟨j, hj⟩ => ?_⟩
    · rw [← Option.some.inj h]; exact h1
    · rw [(onlyGlobal_unique hj h1).2]
  · rw [h1]
    refine ⟨fun h => by simp at h, fun ⟨k, hk⟩ => ?_⟩
    have f1 := hk.2.2 i d e1 e3
    have f2 := hk.2.2 j d' e2 e4
    omega

theorem mem_crsPresence (ds : List (DomainMeta K C)) (i : Nat) (m : VError) :
    m ∈ crsPresence i ds ↔ ∃ k d, ds[k]? = some d ∧ d.crs = none ∧ m = .missingCrs (i + k) := by
  induction ds generalizing i with
  | nil => simp [crsPresence]
  | cons d l ih =>
    have key : (∃ k d', (d :: l)[k]? = some d' ∧ d'.crs = none ∧ m = .missingCrs (i + k)) ↔
        (d.crs = none ∧ m = .missingCrs i) ∨ ∃ k d', l[k]? = some d' ∧ d'.crs = none ∧ m = .missingCrs (i + 1 + k) := by
      constructor
      · rintro ⟨k, d', h1, h2, h3⟩
        cases k with
        | zero => simp at h1; subst h1; exact Or.inl ⟨h2, by simpa using h3⟩
        | succ k => exact Or.inr ⟨k, d', by simpa using h1, h2, by rw [h3]; congr 1; omega⟩
      · rintro (⟨h1, h2⟩ | ⟨k, d', h1, h2, h3⟩)
        · exact ⟨0, d, by simp, h1, by simpa using h2⟩
        · exact ⟨k + 1, d', by simpa using h1, h2, by rw [h3]; congr 1; omega⟩
    rw [key, crsPresence]
    cases hc : d.crs with
    | none => simp [ih]
    | some c => simp [ih]

theorem mem_edgeCheck (E : CrsEngine C P) (i : Nat) (e c : Option C) (m : VError) :
    m ∈ edgeCheck E i e c ↔ ∃ x y, e = some x ∧ c = some y ∧
      ((∃ p q, E.parse x = some p ∧ E.parse y = some q ∧ E.same p q = false ∧ m = .edgeMismatch i) ∨
        ((E.parse x = none ∨ E.parse y = none) ∧ m = .edgeUncomparable i)) := by
  cases e with
  | none => simp [edgeCheck]
  | some x =>
    cases c with
    | none => simp [edgeCheck]
    | some y =>
      cases hx : E.parse x with
      | none => simp [edgeCheck, hx]
      | some p =>
        cases hy : E.parse y with
        | none => simp [edgeCheck, hx, hy]
        | some q => cases hs : E.same p q <;> simp [edgeCheck, hx, hy, hs]

theorem mem_edgeLengthCrs (E : CrsEngine C P) (ds : List (DomainMeta K C)) (es : List (Option C)) (i : Nat) (m : VError) :
    m ∈ edgeLengthCrs E i ds es ↔ ∃ k d e, ds[k]? = some d ∧ es[k]? = some e ∧ m ∈ edgeCheck E (i + k) e d.crs := by
  induction ds generalizing i es with
  | nil => simp [edgeLengthCrs]
  | cons d ds ih =>
    cases es with
    | nil => simp [edgeLengthCrs]
    | cons e es =>
      rw [edgeLengthCrs, List.mem_append, ih]
      constructor
      · rintro (h | ⟨k, d', e', h1, h2, h3⟩)
        · exact ⟨0, d, e, by simp, by simp, by simpa using h⟩
        · exact ⟨k + 1, d', e', by simpa using h1, by simpa using h2, by rw [show i + (k + 1) = i + 1 + k by omega]; exact h3⟩
      · rintro ⟨k, d', e', h1, h2, h3⟩
        cases k with
        | zero =>
          simp at h1 h2
          subst h1 h2
          exact Or.inl (by simpa using h3)
        | succ k => exact Or.inr ⟨k, d', e', by simpa using h1, by simpa using h2, by rw [show i + 1 + k = i + (k + 1) by omega]; exact h3⟩

theorem mem_mixingLoop (E : CrsEngine C P) (p : P) (idx : Nat) (l : List (DomainMeta K C)) (k : Nat) (m : VError) :
    m ∈ mixingLoop E p idx k l ↔ m = .implicitMixing ∧ ∃ j d c q, l[j]? = some d ∧ k + j ≠ idx ∧ d.crs = some c ∧ E.parse c = some q ∧
      E.same p q = false ∧ ∀ n d' c', n < j → l[n]? = some d' → k + n ≠ idx → d'.crs = some c' → ∃ q', E.parse c' = some q' := by
  induction l generalizing k with
  | nil => simp [mixingLoop]
  | cons d l ih =>
    have skip : (k = idx ∨ d.crs = none ∨ ∃ c q, d.crs = some c ∧ E.parse c = some q ∧ E.same p q = true) →
        ((∃ j d' c q, l[j]? = some d' ∧ k + 1 + j ≠ idx ∧ d'.crs = some c ∧ E.parse c = some q ∧ E.same p q = false ∧
          ∀ n d'' c', n < j → l[n]? = some d'' → k + 1 + n ≠ idx → d''.crs = some c' → ∃ q', E.parse c' = some q') ↔
        ∃ j d' c q, (d :: l)[j]? = some d' ∧ k + j ≠ idx ∧ d'.crs = some c ∧ E.parse c = some q ∧ E.same p q = false ∧
          ∀ n d'' c', n < j → (d :: l)[n]? = some d'' → k + n ≠ idx → d''.crs = some c' → ∃ q', E.parse c' = some q') := by
      intro hsk
      constructor
      · rintro ⟨j, d', c, q, h1, h2, h3, h4, h5, h6⟩
        refine ⟨j + 1, d', c, q, by simpa using h1, by omega, h3, h4, h5, fun n d'' c' hn h7 h8 h9 => ?_⟩
        cases n with
        | zero =>
          simp at h7 h8
          subst h7
          rcases hsk with h | h | ⟨c2, q2, e1, e2, -⟩
          · exact absurd h h8
          · rw [h] at h9; simp at h9
          · rw [e1] at h9; exact ⟨q2, Option.some.inj h9 ▸ e2⟩
        | succ n => exact h6 n d'' c' (by omega) (by simpa using h7) (by omega) h9
      · rintro ⟨j, d', c, q, h1, h2, h3, h4, h5, h6⟩
        cases j with
        | zero =>
          simp at h1 h2
          subst h1
          rcases hsk with h | h | ⟨c2, q2, e1, e2, e3⟩
          · exact absurd h h2
          · rw [h] at h3; simp at h3
          · rw [e1] at h3
            have := Option.some.inj h3
            subst this
            rw [e2] at h4
            have := Option.some.inj h4
            subst this
            rw [e3] at h5; simp at h5
        | succ j =>
          refine ⟨j, d', c, q, by simpa using h1, by omega, h3, h4, h5, fun n d'' c' hn h7 h8 h9 => ?_⟩
          exact h6 (n + 1) d'' c' (by omega) (by simpa using h7) (by omega) h9
    rw [mixingLoop]
    by_cases hk : k = idx
    · rw [if_pos hk, ih, skip (Or.inl hk)]
    · rw [if_neg hk]
      cases hc : d.crs with
      | none => simp only [ih, skip (Or.inr (Or.inl hc))]
      | some c =>
        cases hq : E.parse c with
        | none =>
          refine ⟨fun h => by simp [hq] at h, ?_⟩
          rintro ⟨-, j, d', c', q, h1, h2, h3, h4, h5, h6⟩
          cases j with
          | zero =>
            simp at h1
            subst h1
            rw [hc] at h3
            have := Option.some.inj h3
            subst this
            rw [hq] at h4; simp at h4
          | succ j =>
            obtain ⟨q', hq'⟩ := h6 0 d c (by omega) (by simp) (by simpa using hk) hc
            rw [hq] at hq'; simp at hq'
        | some q =>
          simp only [hq]
          cases hs : E.same p q with
          | true => simp only [if_true, ih, skip (Or.inr (Or.inr ⟨c, q, hc, hq, hs⟩))]
          | false =>
            simp only [Bool.false_eq_true, if_false, List.mem_singleton]
            constructor
            · rintro rfl
              exact ⟨rfl, 0, d, c, q, by simp, by simpa using hk, hc, hq, hs, fun n _ _ hn => by omega⟩
            · exact fun h => h.1

end

section
variable {K C P : Type} [Field K] [LinearOrder K] [IsStrictOrderedRing K]

theorem corners_iff (b : Box K) (F : K × K → Prop) : (∀ q ∈ boxCorners b, F q) ↔ ∀ q, IsBoxCorner b q → F q := by
  simp only [boxCorners, List.mem_cons, List.not_mem_nil, or_false, forall_eq_or_imp, forall_eq]
  constructor
  · rintro ⟨h1, h2, h3, h4⟩ ⟨x, y⟩ ⟨rfl | rfl, rfl | rfl⟩ <;> assumption
  · intro h
    exact ⟨h _ ⟨Or.inl rfl, Or.inl rfl⟩, h _ ⟨Or.inr rfl, Or.inl rfl⟩, h _ ⟨Or.inr rfl, Or.inr rfl⟩, h _ ⟨Or.inl rfl, Or.inr rfl⟩⟩

theorem mem_containment (proj : K × K → Option (K × K)) (gb db : Box K) (i : Nat) (m : VError) :
    m ∈ containment proj true gb db i ↔
      (m = .containmentFailed i ∧ ∃ q, IsBoxCorner db q ∧ proj q = none) ∨
      (m = .notContained i ∧ (∀ q, IsBoxCorner db q → (proj q).isSome = true) ∧ ¬ GlobeLike gb ∧ ∃ q r, IsBoxCorner db q ∧ proj q = some r ∧ ¬ InBox gb r) := by
  have hall := corners_iff db (fun q => (proj q).isSome = true)
  by_cases hp : ∀ q, IsBoxCorner db q → (proj q).isSome = true
  · have hno : ¬ ∃ q, IsBoxCorner db q ∧ proj q = none := by
      rintro ⟨q, h1, h2⟩
      have := hp q h1
      rw [h2] at this; simp at this
    by_cases hf : GlobeLike gb ∨ CornersFit proj gb db
    · have : containment proj true gb db i = [] := by
        rcases hf with h | h
        · have h2 := hall.2 hp
          simp only [boxCorners, List.mem_cons, List.not_mem_nil, or_false, forall_eq_or_imp, forall_eq] at h2
          obtain ⟨h3, h4, h5, h6⟩ := h2
          obtain ⟨a, ha⟩ := Option.isSome_iff_exists.1 h3
          obtain ⟨b, hb⟩ := Option.isSome_iff_exists.1 h4
          obtain ⟨c, hc⟩ := Option.isSome_iff_exists.1 h5
          obtain ⟨d, hd⟩ := Option.isSome_iff_exists.1 h6
          unfold containment
          rw [if_pos rfl]
          simp only [boxCorners, List.map_cons, List.map_nil, ha, hb, hc, hd]
          rw [if_pos ((contains_iff _ _).2 (Or.inl h))]
        · exact containment_of_fits i h
      rw [this]
      simp only [List.not_mem_nil, false_iff]
      rintro (⟨-, h⟩ | ⟨-, -, h1, q, r, h2, h3, h4⟩)
      · exact hno h
      · rcases hf with h | h
        · exact h1 h
        · obtain ⟨r', h5, h6⟩ := h q.1 q.2 h2.1 h2.2
          have h3' : proj (q.1, q.2) = some r := h3
          rw [h3'] at h5
          exact h4 (Option.some.inj h5 ▸ h6)
    · have hc1 : containment proj true gb db i = [.notContained i] := by
        have hne : containment proj true gb db i ≠ [] := fun h => hf (containment_fits h)
        have h2 := hall.2 hp
        simp only [boxCorners, List.mem_cons, List.not_mem_nil, or_false, forall_eq_or_imp, forall_eq] at h2
        obtain ⟨h3, h4, h5, h6⟩ := h2
        obtain ⟨a, ha⟩ := Option.isSome_iff_exists.1 h3
        obtain ⟨b, hb⟩ := Option.isSome_iff_exists.1 h4
        obtain ⟨c, hc⟩ := Option.isSome_iff_exists.1 h5
        obtain ⟨d, hd⟩ := Option.isSome_iff_exists.1 h6
        unfold containment at hne ⊢
        rw [if_pos rfl] at hne ⊢
        simp only [boxCorners, List.map_cons, List.map_nil, ha, hb, hc, hd] at hne ⊢
        split at hne
        · simp at hne
        · rename_i h; rw [if_neg h]
      rw [hc1, List.mem_singleton]
      push Not at hf
      have hex : ∃ q r, IsBoxCorner db q ∧ proj q = some r ∧ ¬ InBox gb r := by
        by_contra hcon
        push Not at hcon
        refine hf.2 fun x y hx hy => ?_
        obtain ⟨r, hr⟩ := Option.isSome_iff_exists.1 (hp (x, y) ⟨hx, hy⟩)
        exact ⟨r, hr, hcon (x, y) r ⟨hx, hy⟩ hr⟩
      constructor
      · exact fun h => Or.inr ⟨h, hp, hf.1, hex⟩
      · rintro (⟨-, h⟩ | ⟨h, -⟩)
        · exact absurd h hno
        · exact h
  · have hc1 : containment proj true gb db i = [.containmentFailed i] := by
      have h2 := fun h => hp (hall.1 h)
      unfold containment
      rw [if_pos rfl]
      split
      · rename_i a b c d h
        exfalso
        apply h2
        simp only [boxCorners, List.map_cons, List.map_nil, List.cons.injEq, and_true] at h
        simp only [boxCorners, List.mem_cons, List.not_mem_nil, or_false, forall_eq_or_imp, forall_eq]
        rw [h.1, h.2.1, h.2.2.1, h.2.2.2]
        simp
      · rfl
    rw [hc1, List.mem_singleton]
    have hex : ∃ q, IsBoxCorner db q ∧ proj q = none := by
      push Not at hp
      obtain ⟨q, h1, h2⟩ := hp
      exact ⟨q, h1, by simpa using h2⟩
    constructor
    · exact fun h => Or.inl ⟨h, hex⟩
    · rintro (⟨h, -⟩ | ⟨-, h, -⟩)
      · exact h
      · exact absurd h hp

theorem mem_checkRegions (E : CrsEngine C P) (proj : K × K → Option (K × K)) (g : DomainMeta K C) (hg : g.stereo = true) (l : List (DomainMeta K C)) (i : Nat)
    {r : List VError} (h : checkRegions E proj g i l = some r) (m : VError) :
    m ∈ r ↔ ∃ k d gb db, l[k]? = some d ∧ g.bbox = some gb ∧ d.bbox = some db ∧ (m ∈ containment proj true gb db (i + k) ∨
      (d.stereo = true ∧ m = .regionStereo (i + k)) ∨ (crsCompatible E g.crs d.crs = false ∧ m = .incompatible (i + k))) := by
  induction l generalizing i r with
  | nil => simp [checkRegions] at h; subst h; simp
  | cons d l ih =>
    cases hgb : g.bbox with
    | none => simp [checkRegions, hgb] at h
    | some gb =>
      cases hdb : d.bbox with
      | none => simp [checkRegions, hgb, hdb] at h
      | some db =>
        cases hr : checkRegions E proj g (i + 1) l with
        | none => simp [checkRegions, hgb, hdb, hr] at h
        | some r' =>
          simp only [checkRegions, hgb, hdb, hr, Option.bind_eq_bind, Option.bind_some, Option.pure_def, Option.some.injEq, hg] at h
          subst h
          rw [List.mem_append, List.mem_append, List.mem_append, ih (i + 1) hr, hgb]
          have e1 : m ∈ (if d.stereo = true then [VError.regionStereo i] else []) ↔ d.stereo = true ∧ m = .regionStereo i := by
            cases d.stereo <;> simp
          have e2 : m ∈ (if crsCompatible E g.crs d.crs = true then [] else [VError.incompatible i]) ↔ crsCompatible E g.crs d.crs = false ∧ m = .incompatible i := by
            cases crsCompatible E g.crs d.crs <;> simp
          rw [e1, e2]
          constructor
          · rintro (((h | h) | h) | ⟨k, d', gb', db', h1, h2, h3, h4⟩)
            · exact ⟨0, d, gb, db, by simp, rfl, hdb, Or.inl (by simpa using h)⟩
            · exact ⟨0, d, gb, db, by simp, rfl, hdb, Or.inr (Or.inl (by simpa using h))⟩
            · exact ⟨0, d, gb, db, by simp, rfl, hdb, Or.inr (Or.inr (by simpa using h))⟩
            · exact ⟨k + 1, d', gb', db', by simpa using h1, h2, h3, by rw [show i + (k + 1) = i + 1 + k by omega]; exact h4⟩
          · rintro ⟨k, d', gb', db', h1, h2, h3, h4⟩
            cases k with
            | zero =>
              simp only [List.getElem?_cons_zero, Option.some.injEq] at h1
              subst h1
              rw [hdb] at h3
              obtain rfl := Option.some.inj h2
              obtain rfl := Option.some.inj h3
              rw [add_zero] at h4
              rcases h4 with h | h | h
              · exact Or.inl (Or.inl (Or.inl h))
              · exact Or.inl (Or.inl (Or.inr h))
              · exact Or.inl (Or.inr h)
            | succ k => exact Or.inr ⟨k, d', gb', db', by simpa using h1, h2, h3, by rw [show i + 1 + k = i + (k + 1) by omega]; exact h4⟩

/-- The sources of a message. -/
theorem mem_validate {E : CrsEngine C P} {proj : K × K → Option (K × K)} {ds : List (DomainMeta K C)} {es : List (Option C)} {msgs : List VError}
    (hl : ds.length = es.length) (h : validateMultiscale E proj ds es = some msgs) (m : VError) :
    m ∈ msgs ↔ m ∈ (findGlobalDomain ds).2 ∨ (SomeCrs ds es ∧ m ∈ crsPresence 0 ds) ∨
      (∃ i g r, OnlyGlobal ds i g ∧ checkRegions E proj g 1 ds.tail = some r ∧ (m ∈ globalCrs E g.crs ∨ m ∈ r)) ∨
      (∃ i, detectImplicit E ds = some i ∧ m ∈ implicitMixing E ds i) ∨ m ∈ edgeLengthCrs E 0 ds es := by
  have hany : (hasAnyCrs ds es || (detectImplicit E ds).isSome) = true ↔ SomeCrs ds es := by
    rw [Bool.or_eq_true, hasAnyCrs_iff]
    constructor
    · rintro (h | h)
      · exact h
      · obtain ⟨i, hi⟩ := Option.isSome_iff_exists.1 h
        unfold detectImplicit at hi
        rw [List.findIdx?_eq_some_iff_getElem] at hi
        obtain ⟨hlt, h2, -⟩ := hi
        obtain ⟨c, b, e1, -⟩ := (looksGlobal_iff E _).1 h2
        exact Or.inl ⟨_, List.getElem_mem hlt, by rw [e1]; rfl⟩
    · exact Or.inl
  have hpres : m ∈ (if (hasAnyCrs ds es || (detectImplicit E ds).isSome) = true then crsPresence 0 ds else []) ↔ SomeCrs ds es ∧ m ∈ crsPresence 0 ds := by
    by_cases h : (hasAnyCrs ds es || (detectImplicit E ds).isSome) = true
    · rw [if_pos h]; exact ⟨fun x => ⟨hany.1 h, x⟩, fun x => x.2⟩
    · rw [if_neg h]; exact ⟨fun x => by simp at x, fun x => absurd (hany.2 x.1) h⟩
  have hmix : m ∈ (match detectImplicit E ds with | none => [] | some i => implicitMixing E ds i) ↔
      ∃ i, detectImplicit E ds = some i ∧ m ∈ implicitMixing E ds i := by
    cases detectImplicit E ds with
    | none => simp
    | some i => simp
  unfold validateMultiscale at h
  rw [if_neg (by simpa using hl)] at h
  simp only at h
  have hh : ∃ reg, (match (findGlobalDomain ds).1 with | none => some [] | some g => checkGlobal E proj g ds) = some reg ∧
      (findGlobalDomain ds).2 ++ (if (hasAnyCrs ds es || (detectImplicit E ds).isSome) = true then crsPresence 0 ds else []) ++ reg ++
        (match detectImplicit E ds with | none => [] | some i => implicitMixing E ds i) ++ edgeLengthCrs E 0 ds es = msgs := by
    cases hg : (findGlobalDomain ds).1 with
    | none =>
      rw [hg] at h
      exact ⟨[], rfl, Option.some.inj h⟩
    | some g =>
      rw [hg] at h
      cases hc : checkGlobal E proj g ds with
      | none => simp [hc] at h
      | some r =>
        simp only [hc] at h
        exact ⟨r, hc, Option.some.inj h⟩
  obtain ⟨reg, hreg, h⟩ := hh
  subst h
  rw [List.mem_append, List.mem_append, List.mem_append, List.mem_append, hpres, hmix]
  have hregm : m ∈ reg ↔ ∃ i g r, OnlyGlobal ds i g ∧ checkRegions E proj g 1 ds.tail = some r ∧ (m ∈ globalCrs E g.crs ∨ m ∈ r) := by
    cases hg : (findGlobalDomain ds).1 with
    | none =>
      rw [hg] at hreg
      obtain rfl := Option.some.inj hreg
      simp only [List.not_mem_nil, false_iff]
      rintro ⟨i, g, r, h1, -⟩
      rw [findGlobal_only.2 ⟨i, h1⟩] at hg
      simp at hg
    | some g =>
      rw [hg] at hreg
      simp only [checkGlobal, Option.bind_eq_bind] at hreg
      rw [Option.bind_eq_some_iff] at hreg
      obtain ⟨r, hr, hreg⟩ := hreg
      simp only [Option.pure_def, Option.some.injEq] at hreg
      subst hreg
      rw [List.mem_append]
      obtain ⟨i, hi⟩ := findGlobal_only.1 hg
      constructor
      · exact fun h => ⟨i, g, r, hi, hr, h⟩
      · rintro ⟨i', g', r', h1, h2, h3⟩
        obtain ⟨-, rfl⟩ := onlyGlobal_unique h1 hi
        rw [hr] at h2
        exact Option.some.inj h2 ▸ h3
  rw [hregm]
  simp only [or_assoc]

theorem mem_findGlobal (ds : List (DomainMeta K C)) (m : VError) : m ∈ (findGlobalDomain ds).2 ↔
    (m = .globalNotFirst ∧ ∃ i g, 0 < i ∧ OnlyGlobal ds i g) ∨
    (m = .severalGlobal ∧ ∃ (i j : Nat) (d d' : DomainMeta K C), i < j ∧ ds[i]? = some d ∧ ds[j]? = some d' ∧ d.stereo = true ∧ d'.stereo = true) := by
  rcases findGlobal_cases ds with ⟨h1, h2⟩ | ⟨i, g, h1, h2⟩ | ⟨h1, i, j, d, d', hij, e1, e2, e3, e4⟩
  · rw [h1]
    simp only [List.not_mem_nil, false_iff]
    rintro (⟨-, i, g, -, h⟩ | ⟨-, i, j, d, d', -, h, -, hs, -⟩)
    · have := h2 i g h.1
      rw [h.2.1] at this; simp at this
    · have := h2 i d h
      rw [hs] at this; simp at this
  · rw [h2]
    simp only
    constructor
    · intro hm
      split at hm
      · exact Or.inl ⟨by simpa using hm, i, g, by omega, h1⟩
      · simp at hm
    · rintro (⟨rfl, k, g', hk, h⟩ | ⟨-, k, j, d, d', hkj, f1, f2, f3, f4⟩)
      · have := (onlyGlobal_unique h h1).1
        rw [if_pos (by omega)]
        simp
      · have a := h1.2.2 k d f1 f3
        have b := h1.2.2 j d' f2 f4
        omega
  · rw [h1]
    simp only [List.mem_singleton]
    constructor
    · exact fun h => Or.inr ⟨h, i, j, d, d', hij, e1, e2, e3, e4⟩
    · rintro (⟨-, k, g, -, h⟩ | ⟨h, -⟩)
      · have a := h.2.2 i d e1 e3
        have b := h.2.2 j d' e2 e4
        omega
      · exact h

theorem mem_globalCrs (E : CrsEngine C P) (c : Option C) (m : VError) : m ∈ globalCrs E c ↔
    (m = .globalUnparsable ∧ ∃ x, c = some x ∧ E.parse x = none) ∨ (m = .globalNotWgs84 ∧ ∃ x p, c = some x ∧ E.parse x = some p ∧ E.epsg p ≠ some 4326) := by
  cases c with
  | none => simp [globalCrs]
  | some x =>
    cases hx : E.parse x with
    | none => simp [globalCrs, hx]
    | some p => by_cases he : E.epsg p = some 4326 <;> simp [globalCrs, hx, he]

/-- `m` about a region at position `k`, given that the domain at position `i` is the global one. -/
theorem mem_regions {E : CrsEngine C P} {proj : K × K → Option (K × K)} {ds : List (DomainMeta K C)} {i : Nat} {g : DomainMeta K C} {r : List VError}
    (hg : OnlyGlobal ds i g) (h : checkRegions E proj g 1 ds.tail = some r) (m : VError) :
    m ∈ r ↔ ∃ k d gb db, 0 < k ∧ ds[k]? = some d ∧ g.bbox = some gb ∧ d.bbox = some db ∧ (m ∈ containment proj true gb db k ∨
      (d.stereo = true ∧ m = .regionStereo k) ∨ (crsCompatible E g.crs d.crs = false ∧ m = .incompatible k)) := by
  rw [mem_checkRegions E proj g hg.2.1 _ 1 h]
  constructor
  · rintro ⟨k, d, gb, db, h1, h2, h3, h4⟩
    exact ⟨k + 1, d, gb, db, by omega, by rw [List.getElem?_tail] at h1; exact h1, h2, h3, by rw [show k + 1 = 1 + k by omega]; exact h4⟩
  · rintro ⟨k, d, gb, db, h0, h1, h2, h3, h4⟩
    refine ⟨k - 1, d, gb, db, ?_, h2, h3, by rw [show 1 + (k - 1) = k by omega]; exact h4⟩
    rw [List.getElem?_tail, show k - 1 + 1 = k by omega]
    exact h1

theorem mem_implicitMixing {E : CrsEngine C P} {ds : List (DomainMeta K C)} {i : Nat} {m : VError} (h : m ∈ implicitMixing E ds i) : m = .implicitMixing := by
  unfold implicitMixing at h
  split at h
  · simp at h
  · split at h
    · simp at h
    · split at h
      · simp at h
      · split at h
        · simp at h
        · exact ((mem_mixingLoop _ _ _ _ _ _).1 h).1

/-- **C105**, systems: a missing CRS is reported for exactly those domains that have none while another domain or a sizing function has one; a sizing
function is reported exactly if its CRS and that of its domain are read and differ, or one of them cannot be read. The message on different lengths
does not occur besides others. -/
theorem C105_systems {E : CrsEngine C P} {proj : K × K → Option (K × K)} {ds : List (DomainMeta K C)} {es : List (Option C)} {msgs : List VError}
    (hl : ds.length = es.length) (h : validateMultiscale E proj ds es = some msgs) :
    (∀ i, .missingCrs i ∈ msgs ↔ SomeCrs ds es ∧ ∃ d, ds[i]? = some d ∧ d.crs = none) ∧
    (∀ i, .edgeMismatch i ∈ msgs ↔ ∃ d e c p q, ds[i]? = some d ∧ es[i]? = some (some e) ∧ d.crs = some c ∧ E.parse e = some p ∧ E.parse c = some q ∧ E.same p q = false) ∧
    (∀ i, .edgeUncomparable i ∈ msgs ↔ ∃ d e c, ds[i]? = some d ∧ es[i]? = some (some e) ∧ d.crs = some c ∧ (E.parse e = none ∨ E.parse c = none)) ∧
    .differentLength ∉ msgs := by
  have hm := mem_validate hl h
  refine ⟨fun i => ?_, fun i => ?_, fun i => ?_, ?_⟩
  · rw [hm]
    constructor
    · rintro (h | ⟨hs, h⟩ | ⟨i, g, r, h1, h2, h | h⟩ | ⟨i, -, h⟩ | h)
      · rw [mem_findGlobal] at h; simp at h
      · rw [mem_crsPresence] at h
        obtain ⟨k, d, e1, e2, e3⟩ := h
        simp at e3
        exact ⟨hs, d, e3 ▸ e1, e2⟩
      · rw [mem_globalCrs] at h; simp at h
      · rw [mem_regions h1 h2] at h; simp [mem_containment] at h
      · simpa using mem_implicitMixing h
      · rw [mem_edgeLengthCrs] at h; simp [mem_edgeCheck] at h
    · rintro ⟨hs, d, e1, e2⟩
      exact Or.inr (Or.inl ⟨hs, (mem_crsPresence _ _ _).2 ⟨i, d, e1, e2, by simp⟩⟩)
  · rw [hm]
    constructor
    · rintro (h | ⟨hs, h⟩ | ⟨i, g, r, h1, h2, h | h⟩ | ⟨i, -, h⟩ | h)
      · rw [mem_findGlobal] at h; simp at h
      · rw [mem_crsPresence] at h; simp at h
      · rw [mem_globalCrs] at h; simp at h
      · rw [mem_regions h1 h2] at h; simp [mem_containment] at h
      · simpa using mem_implicitMixing h
      · rw [mem_edgeLengthCrs] at h
        obtain ⟨k, d, e, e1, e2, e3⟩ := h
        rw [mem_edgeCheck] at e3
        obtain ⟨x, y, rfl, hy, (⟨p, q, f1, f2, f3, f4⟩ | ⟨-, f⟩)⟩ := e3
        · simp at f4
          subst f4
          exact ⟨d, x, y, p, q, e1, e2, hy, f1, f2, f3⟩
        · simp at f
    · rintro ⟨d, e, c, p, q, e1, e2, e3, e4, e5, e6⟩
      refine Or.inr (Or.inr (Or.inr (Or.inr ((mem_edgeLengthCrs _ _ _ _ _).2 ⟨i, d, some e, e1, e2, ?_⟩))))
      exact (mem_edgeCheck _ _ _ _ _).2 ⟨e, c, rfl, e3, Or.inl ⟨p, q, e4, e5, e6, by simp⟩⟩
  · rw [hm]
    constructor
    · rintro (h | ⟨hs, h⟩ | ⟨i, g, r, h1, h2, h | h⟩ | ⟨i, -, h⟩ | h)
      · rw [mem_findGlobal] at h; simp at h
      · rw [mem_crsPresence] at h; simp at h
      · rw [mem_globalCrs] at h; simp at h
      · rw [mem_regions h1 h2] at h; simp [mem_containment] at h
      · simpa using mem_implicitMixing h
      · rw [mem_edgeLengthCrs] at h
        obtain ⟨k, d, e, e1, e2, e3⟩ := h
        rw [mem_edgeCheck] at e3
        obtain ⟨x, y, rfl, hy, (⟨p, q, f1, f2, f3, f4⟩ | ⟨f0, f⟩)⟩ := e3
        · simp at f4
        · simp at f
          subst f
          exact ⟨d, x, y, e1, e2, hy, f0⟩
    · rintro ⟨d, e, c, e1, e2, e3, e4⟩
      refine Or.inr (Or.inr (Or.inr (Or.inr ((mem_edgeLengthCrs _ _ _ _ _).2 ⟨i, d, some e, e1, e2, ?_⟩))))
      exact (mem_edgeCheck _ _ _ _ _).2 ⟨e, c, rfl, e3, Or.inr ⟨e4, by simp⟩⟩
  · rw [hm]
    rintro (h | ⟨hs, h⟩ | ⟨i, g, r, h1, h2, h | h⟩ | ⟨i, -, h⟩ | h)
    · rw [mem_findGlobal] at h; simp at h
    · rw [mem_crsPresence] at h; simp at h
    · rw [mem_globalCrs] at h; simp at h
    · rw [mem_regions h1 h2] at h; simp [mem_containment] at h
    · simpa using mem_implicitMixing h
    · rw [mem_edgeLengthCrs] at h; simp [mem_edgeCheck] at h

/-- **C105**, the global domain: several stereographic domains are reported exactly if there are two; a single one exactly if it is not the first; its CRS
exactly if it cannot be read or is not WGS84. -/
theorem C105_global {E : CrsEngine C P} {proj : K × K → Option (K × K)} {ds : List (DomainMeta K C)} {es : List (Option C)} {msgs : List VError}
    (hl : ds.length = es.length) (h : validateMultiscale E proj ds es = some msgs) :
    (.severalGlobal ∈ msgs ↔ ∃ (i j : Nat) (d d' : DomainMeta K C), i < j ∧ ds[i]? = some d ∧ ds[j]? = some d' ∧ d.stereo = true ∧ d'.stereo = true) ∧
    (.globalNotFirst ∈ msgs ↔ ∃ i g, 0 < i ∧ OnlyGlobal ds i g) ∧
    (.globalUnparsable ∈ msgs ↔ ∃ i g c, OnlyGlobal ds i g ∧ g.crs = some c ∧ E.parse c = none) ∧
    (.globalNotWgs84 ∈ msgs ↔ ∃ i g c p, OnlyGlobal ds i g ∧ g.crs = some c ∧ E.parse c = some p ∧ E.epsg p ≠ some 4326) := by
  have hm := mem_validate hl h
  have hreg : ∀ i g, OnlyGlobal ds i g → ∃ r, checkRegions E proj g 1 ds.tail = some r := by
    intro i g hg
    unfold validateMultiscale at h
    rw [if_neg (by simpa using hl)] at h
    simp only at h
    rw [findGlobal_only.2 ⟨i, hg⟩] at h
    cases hc : checkRegions E proj g 1 ds.tail with
    | none => simp [checkGlobal, hc] at h
    | some r => exact ⟨r, rfl⟩
  refine ⟨?_, ?_, ?_, ?_⟩
  · rw [hm]
    constructor
    · rintro (h | ⟨hs, h⟩ | ⟨i, g, r, h1, h2, h | h⟩ | ⟨i, -, h⟩ | h)
      · rw [mem_findGlobal] at h
        rcases h with ⟨h, -⟩ | ⟨-, h⟩
        · simp at h
        · exact h
      · rw [mem_crsPresence] at h; simp at h
      · rw [mem_globalCrs] at h; simp at h
      · rw [mem_regions h1 h2] at h; simp [mem_containment] at h
      · simpa using mem_implicitMixing h
      · rw [mem_edgeLengthCrs] at h; simp [mem_edgeCheck] at h
    · exact fun h => Or.inl ((mem_findGlobal _ _).2 (Or.inr ⟨rfl, h⟩))
  · rw [hm]
    constructor
    · rintro (h | ⟨hs, h⟩ | ⟨i, g, r, h1, h2, h | h⟩ | ⟨i, -, h⟩ | h)
      · rw [mem_findGlobal] at h
        rcases h with ⟨-, h⟩ | ⟨h, -⟩
        · exact h
        · simp at h
      · rw [mem_crsPresence] at h; simp at h
      · rw [mem_globalCrs] at h; simp at h
      · rw [mem_regions h1 h2] at h; simp [mem_containment] at h
      · simpa using mem_implicitMixing h
      · rw [mem_edgeLengthCrs] at h; simp [mem_edgeCheck] at h
    · exact fun h => Or.inl ((mem_findGlobal _ _).2 (Or.inl ⟨rfl, h⟩))
  · rw [hm]
    constructor
    · rintro (h | ⟨hs, h⟩ | ⟨i, g, r, h1, h2, h | h⟩ | ⟨i, -, h⟩ | h)
      · rw [mem_findGlobal] at h; simp at h
      · rw [mem_crsPresence] at h; simp at h
      · rw [mem_globalCrs] at h
        rcases h with ⟨-, x, e1, e2⟩ | ⟨h, -⟩
        · exact ⟨i, g, x, h1, e1, e2⟩
        · simp at h
      · rw [mem_regions h1 h2] at h; simp [mem_containment] at h
      · simpa using mem_implicitMixing h
      · rw [mem_edgeLengthCrs] at h; simp [mem_edgeCheck] at h
    · rintro ⟨i, g, c, h1, h2, h3⟩
      obtain ⟨r, hr⟩ := hreg i g h1
      exact Or.inr (Or.inr (Or.inl ⟨i, g, r, h1, hr, Or.inl ((mem_globalCrs _ _ _).2 (Or.inl ⟨rfl, c, h2, h3⟩))⟩))
  · rw [hm]
    constructor
    · rintro (h | ⟨hs, h⟩ | ⟨i, g, r, h1, h2, h | h⟩ | ⟨i, -, h⟩ | h)
      · rw [mem_findGlobal] at h; simp at h
      · rw [mem_crsPresence] at h; simp at h
      · rw [mem_globalCrs] at h
        rcases h with ⟨h, -⟩ | ⟨-, x, p, e1, e2, e3⟩
        · simp at h
        · exact ⟨i, g, x, p, h1, e1, e2, e3⟩
      · rw [mem_regions h1 h2] at h; simp [mem_containment] at h
      · simpa using mem_implicitMixing h
      · rw [mem_edgeLengthCrs] at h; simp [mem_edgeCheck] at h
    · rintro ⟨i, g, c, p, h1, h2, h3, h4⟩
      obtain ⟨r, hr⟩ := hreg i g h1
      exact Or.inr (Or.inr (Or.inl ⟨i, g, r, h1, hr, Or.inl ((mem_globalCrs _ _ _).2 (Or.inr ⟨rfl, c, p, h2, h3, h4⟩))⟩))

/-- **C105**, the regions: if there is a single stereographic domain, a later domain is reported as not contained exactly if one of its corners is projected
out of the box of the global domain, and that is not around the globe; as unchecked exactly if a corner cannot be projected; as stereographic exactly
if it is; as incompatible exactly if both have a CRS and one cannot be read or that of the global domain is not geographic WGS84. -/
theorem C105_regions {E : CrsEngine C P} {proj : K × K → Option (K × K)} {ds : List (DomainMeta K C)} {es : List (Option C)} {msgs : List VError}
    (hl : ds.length = es.length) (h : validateMultiscale E proj ds es = some msgs) {i : Nat} {g : DomainMeta K C} (hg : OnlyGlobal ds i g) (k : Nat) :
    (.regionStereo k ∈ msgs ↔ k = i ∧ 0 < k) ∧
    (.incompatible k ∈ msgs ↔ 0 < k ∧ ∃ d c c', ds[k]? = some d ∧ g.crs = some c ∧ d.crs = some c' ∧
      (E.parse c = none ∨ E.parse c' = none ∨ ∃ p, E.parse c = some p ∧ ¬ (E.geographic p = true ∧ E.epsg p = some 4326))) ∧
    (.containmentFailed k ∈ msgs ↔ 0 < k ∧ ∃ d db q, ds[k]? = some d ∧ d.bbox = some db ∧ IsBoxCorner db q ∧ proj q = none) ∧
    (.notContained k ∈ msgs ↔ 0 < k ∧ ∃ d gb db, ds[k]? = some d ∧ g.bbox = some gb ∧ d.bbox = some db ∧ ¬ GlobeLike gb ∧
      (∀ q, IsBoxCorner db q → (proj q).isSome = true) ∧ ∃ q r, IsBoxCorner db q ∧ proj q = some r ∧ ¬ InBox gb r) := by
  have hm := mem_validate hl h
  obtain ⟨r, hr⟩ : ∃ r, checkRegions E proj g 1 ds.tail = some r := by
    unfold validateMultiscale at h
    rw [if_neg (by simpa using hl)] at h
    simp only at h
    rw [findGlobal_only.2 ⟨i, hg⟩] at h
    cases hc : checkRegions E proj g 1 ds.tail with
    | none => simp [checkGlobal, hc] at h
    | some r => exact ⟨r, rfl⟩
  -- boxes of all regions exist
  have hbox : ∀ (k : Nat) (d : DomainMeta K C), 0 < k → ds[k]? = some d → (∃ gb, g.bbox = some gb) ∧ ∃ db, d.bbox = some db := by
    have : ∀ (l : List (DomainMeta K C)) (n : Nat) (r : List VError), checkRegions E proj g n l = some r → ∀ d ∈ l, (∃ gb, g.bbox = some gb) ∧ ∃ db, d.bbox = some db := by
      intro l
      induction l with
      | nil => intro n r _ d hd; simp at hd
      | cons a l ih =>
        intro n r hr d hd
        cases hgb : g.bbox with
        | none => simp [checkRegions, hgb] at hr
        | some gb =>
          cases hab : a.bbox with
          | none => simp [checkRegions, hgb, hab] at hr
          | some ab =>
            cases hr' : checkRegions E proj g (n + 1) l with
            | none => simp [checkRegions, hgb, hab, hr'] at hr
            | some r' =>
              rcases List.mem_cons.1 hd with rfl | hd
              · exact ⟨⟨gb, rfl⟩, ab, hab⟩
              · exact ⟨⟨gb, rfl⟩, (ih (n + 1) r' hr' d hd).2⟩
    intro k d hk hd
    refine this ds.tail 1 r hr d ?_
    have : ds.tail[k - 1]? = some d := by rw [List.getElem?_tail, show k - 1 + 1 = k by omega]; exact hd
    exact List.mem_of_getElem? this
  have key : ∀ m : VError, (∀ (d : DomainMeta K C) (c : Option C), (m ∉ (findGlobalDomain ds).2) ∧ m ∉ crsPresence 0 ds ∧ m ∉ globalCrs E c ∧ m ∉ edgeLengthCrs E 0 ds es) →
      m ≠ .implicitMixing → (m ∈ msgs ↔ m ∈ r) := by
    intro m hn hmix
    obtain ⟨n1, n2, n3, n4⟩ := hn g g.crs
    rw [hm]
    constructor
    · rintro (h | ⟨-, h⟩ | ⟨j, g', r', h1, h2, h | h⟩ | ⟨j, -, h⟩ | h)
      · exact absurd h n1
      · exact absurd h n2
      · obtain ⟨-, rfl⟩ := onlyGlobal_unique h1 hg
        exact absurd h n3
      · obtain ⟨-, rfl⟩ := onlyGlobal_unique h1 hg
        rw [hr] at h2
        exact Option.some.inj h2 ▸ h
      · exact absurd (mem_implicitMixing h) hmix
      · exact absurd h n4
    · exact fun h => Or.inr (Or.inr (Or.inl ⟨i, g, r, hg, hr, Or.inr h⟩))
  refine ⟨?_, ?_, ?_, ?_⟩
  · rw [key _ (fun d c => ⟨by simp [mem_findGlobal], by simp [mem_crsPresence], by simp [mem_globalCrs], by simp [mem_edgeLengthCrs, mem_edgeCheck]⟩) (by simp), mem_regions hg hr]
    constructor
    · rintro ⟨k', d, gb, db, h0, h1, h2, h3, (h | ⟨h, h'⟩ | ⟨-, h⟩)⟩
      · simp [mem_containment] at h
      · simp at h'
        subst h'
        exact ⟨hg.2.2 k d h1 h, h0⟩
      · simp at h
    · rintro ⟨rfl, h0⟩
      obtain ⟨⟨gb, h1⟩, db, h2⟩ := hbox k g h0 hg.1
      exact ⟨k, g, gb, db, h0, hg.1, h1, h2, Or.inr (Or.inl ⟨hg.2.1, rfl⟩)⟩
  · rw [key _ (fun d c => ⟨by simp [mem_findGlobal], by simp [mem_crsPresence], by simp [mem_globalCrs], by simp [mem_edgeLengthCrs, mem_edgeCheck]⟩) (by simp), mem_regions hg hr]
    have hcc : ∀ a b : Option C, crsCompatible E a b = false ↔ ∃ c c', a = some c ∧ b = some c' ∧
        (E.parse c = none ∨ E.parse c' = none ∨ ∃ p, E.parse c = some p ∧ ¬ (E.geographic p = true ∧ E.epsg p = some 4326)) := by
      intro a b
      cases a with
      | none => simp [crsCompatible]
      | some c =>
        cases b with
        | none => simp [crsCompatible]
        | some c' =>
          cases hc : E.parse c with
          | none => simp [crsCompatible, hc]
          | some p =>
            cases hc' : E.parse c' with
            | none => simp [crsCompatible, hc, hc']
            | some q => cases hge : E.geographic p <;> simp [crsCompatible, hc, hc', hge]
    constructor
    · rintro ⟨k', d, gb, db, h0, h1, h2, h3, (h | ⟨-, h'⟩ | ⟨h, h'⟩)⟩
      · simp [mem_containment] at h
      · simp at h'
      · simp at h'
        subst h'
        obtain ⟨c, c', e1, e2, e3⟩ := (hcc _ _).1 h
        exact ⟨h0, d, c, c', h1, e1, e2, e3⟩
    · rintro ⟨h0, d, c, c', h1, e1, e2, e3⟩
      obtain ⟨⟨gb, h2⟩, db, h3⟩ := hbox k d h0 h1
      exact ⟨k, d, gb, db, h0, h1, h2, h3, Or.inr (Or.inr ⟨(hcc _ _).2 ⟨c, c', e1, e2, e3⟩, rfl⟩)⟩
  · rw [key _ (fun d c => ⟨by simp [mem_findGlobal], by simp [mem_crsPresence], by simp [mem_globalCrs], by simp [mem_edgeLengthCrs, mem_edgeCheck]⟩) (by simp), mem_regions hg hr]
    constructor
    · rintro ⟨k', d, gb, db, h0, h1, h2, h3, (h | ⟨-, h'⟩ | ⟨-, h'⟩)⟩
      · rw [mem_containment] at h
        rcases h with ⟨h, q, e1, e2⟩ | ⟨h, -⟩
        · simp at h
          subst h
          exact ⟨h0, d, db, q, h1, h3, e1, e2⟩
        · simp at h
      · simp at h'
      · simp at h'
    · rintro ⟨h0, d, db, q, h1, h3, e1, e2⟩
      obtain ⟨⟨gb, h2⟩, -⟩ := hbox k d h0 h1
      exact ⟨k, d, gb, db, h0, h1, h2, h3, Or.inl ((mem_containment _ _ _ _ _).2 (Or.inl ⟨rfl, q, e1, e2⟩))⟩
  · rw [key _ (fun d c => ⟨by simp [mem_findGlobal], by simp [mem_crsPresence], by simp [mem_globalCrs], by simp [mem_edgeLengthCrs, mem_edgeCheck]⟩) (by simp), mem_regions hg hr]
    constructor
    · rintro ⟨k', d, gb, db, h0, h1, h2, h3, (h | ⟨-, h'⟩ | ⟨-, h'⟩)⟩
      · rw [mem_containment] at h
        rcases h with ⟨h, -⟩ | ⟨h, e1, e2, e3⟩
        · simp at h
        · simp at h
          subst h
          exact ⟨h0, d, gb, db, h1, h2, h3, e2, e1, e3⟩
      · simp at h'
      · simp at h'
    · rintro ⟨h0, d, gb, db, h1, h2, h3, e2, e1, e3⟩
      exact ⟨k, d, gb, db, h0, h1, h2, h3, Or.inl ((mem_containment _ _ _ _ _).2 (Or.inr ⟨rfl, e1, e2, e3⟩))⟩

/-- **C105**, mixing: the message on mixed systems is given exactly if the first domain whose box reaches around the globe in WGS84 is not stereographic and
some other domain has a readable CRS that differs, and no domain before that one (other than the first mentioned) has a CRS that cannot be read. -/
theorem C105_mixing {E : CrsEngine C P} {proj : K × K → Option (K × K)} {ds : List (DomainMeta K C)} {es : List (Option C)} {msgs : List VError}
    (hl : ds.length = es.length) (h : validateMultiscale E proj ds es = some msgs) :
    .implicitMixing ∈ msgs ↔ ∃ i d c b p, ds[i]? = some d ∧ d.crs = some c ∧ d.bbox = some b ∧ E.parse c = some p ∧ IsWgs84 E c ∧ GlobeLike b ∧ d.stereo = false ∧
      (∀ (j : Nat) (d' : DomainMeta K C) (c' : C) (b' : Box K), j < i → ds[j]? = some d' → d'.crs = some c' → d'.bbox = some b' → ¬ (IsWgs84 E c' ∧ GlobeLike b')) ∧
      ∃ j d' c' q, ds[j]? = some d' ∧ j ≠ i ∧ d'.crs = some c' ∧ E.parse c' = some q ∧ E.same p q = false ∧
        ∀ (n : Nat) (d'' : DomainMeta K C) (c'' : C), n < j → ds[n]? = some d'' → n ≠ i → d''.crs = some c'' → ∃ q', E.parse c'' = some q' := by
  have hdet : ∀ i, detectImplicit E ds = some i ↔ (∃ d, ds[i]? = some d ∧ looksGlobal E d = true) ∧
      ∀ (j : Nat) (d' : DomainMeta K C), j < i → ds[j]? = some d' → ¬ looksGlobal E d' = true := by
    intro i
    unfold detectImplicit
    rw [List.findIdx?_eq_some_iff_getElem]
    constructor
    · rintro ⟨hlt, h1, h2⟩
      refine ⟨⟨_, List.getElem?_eq_getElem hlt, h1⟩, fun j d' hj hd' => ?_⟩
      obtain ⟨hjl, e⟩ := List.getElem?_eq_some_iff.1 hd'
      exact e ▸ h2 j hj
    · rintro ⟨⟨d, hd, h1⟩, h2⟩
      obtain ⟨hlt, e⟩ := List.getElem?_eq_some_iff.1 hd
      exact ⟨hlt, e ▸ h1, fun j hj => h2 j _ hj (List.getElem?_eq_getElem (by omega))⟩
  rw [mem_validate hl h]
  constructor
  · rintro (h | ⟨hs, h⟩ | ⟨i, g, r, h1, h2, h | h⟩ | ⟨i, hi, h⟩ | h)
    · rw [mem_findGlobal] at h; simp at h
    · rw [mem_crsPresence] at h; simp at h
    · rw [mem_globalCrs] at h; simp at h
    · rw [mem_regions h1 h2] at h; simp [mem_containment] at h
    · obtain ⟨⟨d, hd, hlook⟩, hfirst⟩ := (hdet i).1 hi
      obtain ⟨c, b, hc, hb, hw, hgl⟩ := (looksGlobal_iff E d).1 hlook
      obtain ⟨p, hp, hep⟩ := hw
      unfold implicitMixing at h
      rw [hd] at h
      simp only [hc] at h
      cases hs : d.stereo with
      | true => simp [hs] at h
      | false =>
        simp only [hs, Bool.false_eq_true, if_false, hp] at h
        obtain ⟨-, j, d', c', q, e1, e2, e3, e4, e5, e6⟩ := (mem_mixingLoop _ _ _ _ _ _).1 h
        refine ⟨i, d, c, b, p, hd, hc, hb, hp, ⟨p, hp, hep⟩, hgl, hs, fun k d2 c2 b2 hk f1 f2 f3 f4 => ?_, j, d', c', q, e1, by simpa using e2, e3, e4, e5, fun n d'' c'' hn f1 f2 f3 => ?_⟩
        · exact hfirst k d2 hk f1 ((looksGlobal_iff E d2).2 ⟨c2, b2, f2, f3, f4⟩)
        · exact e6 n d'' c'' hn f1 (by simpa using f2) f3
    · rw [mem_edgeLengthCrs] at h; simp [mem_edgeCheck] at h
  · rintro ⟨i, d, c, b, p, hd, hc, hb, hp, hw, hgl, hs, hfirst, j, d', c', q, e1, e2, e3, e4, e5, e6⟩
    refine Or.inr (Or.inr (Or.inr (Or.inl ⟨i, (hdet i).2 ⟨⟨d, hd, (looksGlobal_iff E d).2 ⟨c, b, hc, hb, hw, hgl⟩⟩, fun k d2 hk f1 f2 => ?_⟩, ?_⟩)))
    · obtain ⟨c2, b2, f3, f4, f5, f6⟩ := (looksGlobal_iff E d2).1 f2
      exact hfirst k d2 c2 b2 hk f1 f3 f4 ⟨f5, f6⟩
    · unfold implicitMixing
      rw [hd]
      simp only [hs, Bool.false_eq_true, if_false, hc, hp]
      exact (mem_mixingLoop _ _ _ _ _ _).2 ⟨rfl, j, d', c', q, e1, by simpa using e2, e3, e4, e5, fun n d'' c'' hn f1 f2 f3 => e6 n d'' c'' hn f1 (by simpa using f2) f3⟩

/-- **C105**, exceptions: for lists of the same length the validation itself raises exactly if a single domain is stereographic, there is another
domain, and the box of the stereographic one or of a domain after the first is missing. -/
theorem C105_raises (E : CrsEngine C P) (proj : K × K → Option (K × K)) {ds : List (DomainMeta K C)} {es : List (Option C)} (hl : ds.length = es.length) :
    validateMultiscale E proj ds es = none ↔ ∃ i g, OnlyGlobal ds i g ∧ ∃ (k : Nat) (d : DomainMeta K C), 0 < k ∧ ds[k]? = some d ∧ (g.bbox = none ∨ d.bbox = none) := by
  have hcr : ∀ (g : DomainMeta K C) (l : List (DomainMeta K C)) (n : Nat), checkRegions E proj g n l = none ↔ ∃ d ∈ l, g.bbox = none ∨ d.bbox = none := by
    intro g l
    induction l with
    | nil => intro n; simp [checkRegions]
    | cons a l ih =>
      intro n
      cases hgb : g.bbox with
      | none => simp [checkRegions, hgb]
      | some gb =>
        cases hab : a.bbox with
        | none => simp [checkRegions, hgb, hab]
        | some ab =>
          have := ih (n + 1)
          rw [hgb] at this
          simp only [reduceCtorEq, false_or] at this
          cases hr : checkRegions E proj g (n + 1) l with
          | none => simp [checkRegions, hgb, hab, hr, this.1 hr]
          | some r =>
            have hno := mt this.2 (by rw [hr]; simp)
            simp only [checkRegions, hgb, hab, hr, Option.bind_eq_bind, Option.bind_some, Option.pure_def, reduceCtorEq, List.mem_cons, exists_eq_or_imp,
              false_or, false_iff]
            exact hno
  have htail : ∀ g : DomainMeta K C, (∃ d ∈ ds.tail, g.bbox = none ∨ d.bbox = none) ↔
      ∃ (k : Nat) (d : DomainMeta K C), 0 < k ∧ ds[k]? = some d ∧ (g.bbox = none ∨ d.bbox = none) := by
    intro g
    constructor
    · rintro ⟨d, hd, h⟩
      obtain ⟨k, hk⟩ := List.getElem?_of_mem hd
      rw [List.getElem?_tail] at hk
      exact ⟨k + 1, d, by omega, hk, h⟩
    · rintro ⟨k, d, hk, hd, h⟩
      have : ds.tail[k - 1]? = some d := by rw [List.getElem?_tail, show k - 1 + 1 = k by omega]; exact hd
      exact ⟨d, List.mem_of_getElem? this, h⟩
  unfold validateMultiscale
  rw [if_neg (by simpa using hl)]
  simp only
  cases hg : (findGlobalDomain ds).1 with
  | none =>
    simp only [Option.bind_eq_bind, Option.bind_some, Option.pure_def, reduceCtorEq, false_iff]
    rintro ⟨i, g, h1, -⟩
    rw [findGlobal_only.2 ⟨i, h1⟩] at hg
    simp at hg
  | some g =>
    obtain ⟨i, hi⟩ := findGlobal_only.1 hg
    have : (∃ i g, OnlyGlobal ds i g ∧ ∃ (k : Nat) (d : DomainMeta K C), 0 < k ∧ ds[k]? = some d ∧ (g.bbox = none ∨ d.bbox = none)) ↔
        checkRegions E proj g 1 ds.tail = none := by
      rw [hcr, htail]
      constructor
      · rintro ⟨j, g', h1, h2⟩
        obtain ⟨-, rfl⟩ := onlyGlobal_unique h1 hi
        exact h2
      · exact fun h => ⟨i, g, hi, h⟩
    rw [this]
    cases hc : checkRegions E proj g 1 ds.tail with
    | none => simp [checkGlobal, hc]
    | some r => simp [checkGlobal, hc]

end

/-! ### Examples -/

/-- Two domains without CRS, one of them wrongly stereographic, a region out of the box. -/
def reportDomains : List (DomainMeta ℚ Nat) :=
  [⟨some ⟨-1, 1, -1, 1⟩, none, false⟩, ⟨some ⟨-1, 1, -1, 1⟩, some 3857, true⟩, ⟨some ⟨0, 300, 0, 20⟩, none, false⟩, ⟨some ⟨-180, 180, -90, 90⟩, some 4326, false⟩]

/-- Their sizing functions. -/
def reportSizes : List (Option Nat) := [none, some 4326, none, some 0]

example : validateMultiscale epsgEngine (fun q : ℚ × ℚ => some (q.1 / 100, q.2 / 100)) reportDomains reportSizes =
    some [.globalNotFirst, .missingCrs 0, .missingCrs 2, .globalNotWgs84, .regionStereo 1, .incompatible 1, .notContained 2, .notContained 3, .incompatible 3,
      .implicitMixing, .edgeMismatch 1, .edgeUncomparable 3] := by decide +kernel

example : reportDomains.length = reportSizes.length := rfl

example : OnlyGlobal reportDomains 1 ⟨some ⟨-1, 1, -1, 1⟩, some 3857, true⟩ := by
  refine ⟨rfl, rfl, fun j d hj hd => ?_⟩
  match j with
  | 0 | 2 | 3 => simp [reportDomains] at hj; subst hj; simp at hd
  | 1 => rfl
  | j + 4 => simp [reportDomains] at hj

end OM
