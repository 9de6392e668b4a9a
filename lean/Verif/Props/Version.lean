import Verif.Model.Version
import Verif.Lemmas.Text
import Mathlib.Tactic.IntervalCases
/-!
# C110: the version of the package
-/
namespace OM
namespace Spec

/-- Lower-case hexadecimal digits, at least one. -/
def HexWord (h : List Char) : Prop := h ≠ [] ∧ ∀ c ∈ h, c ∈ "0123456789abcdef".toList

/-- What `git describe --tags --dirty --always --long` prints for a commit `n` commits after a tag. -/
def describeLong (tag : List Char) (n : Nat) (hex : List Char) (dirty : Bool) : List Char :=
  tag ++ '-' :: Nat.toDigits 10 n ++ '-' :: 'g' :: hex ++ (if dirty then "-dirty".toList else [])

/-- ... and without a tag. -/
def describeBare (hex : List Char) (dirty : Bool) : List Char := hex ++ (if dirty then "-dirty".toList else [])

/-- A segment of a local version label of PEP 440. -/
def LocalSegment (s : List Char) : Prop := s ≠ [] ∧ ∀ c ∈ s, c.isDigit = true ∨ c.isLower = true

/-- A commit at which the version is the tag: none since the tag, no changes. -/
def AtTag (p : GitPieces) : Prop := p.distance = 0 ∧ p.dirty = false

end Spec
open Spec

theorem splitLast_append (c : Char) (a b : List Char) (hb : c ∉ b) : splitLast c (a ++ c :: b) = some (a, b) := by
  have h0 : ∀ b : List Char, c ∉ b → splitLast c b = none := by
    intro b
    induction b with
    | nil => intro _; rfl
    | cons x l ih =>
      intro h
      rw [splitLast, ih fun h' => h (List.mem_cons_of_mem _ h')]
      simp only
      rw [if_neg fun e : x = c => h (e ▸ List.mem_cons_self)]
  induction a with
  | nil => rw [List.nil_append, splitLast, h0 b hb]; simp
  | cons x l ih => rw [List.cons_append, splitLast, ih]

theorem splitLast_some {c : Char} : ∀ {l a b : List Char}, splitLast c l = some (a, b) → l = a ++ c :: b ∧ c ∉ b := by
  have h0 : ∀ b : List Char, splitLast c b = none → c ∉ b := by
    intro b
    induction b with
    | nil => simp
    | cons x l ih =>
      intro h
      rw [splitLast] at h
      split at h
      · simp at h
      · rename_i h'
        split at h
        · simp at h
        · rename_i hx
          intro hm
          rcases List.mem_cons.1 hm with e | e
          · exact hx e.symm
          · exact ih h' e
  intro l
  induction l with
  | nil => intro a b h; simp [splitLast] at h
  | cons x l ih =>
    intro a b h
    rw [splitLast] at h
    split at h
    · rename_i a' b' h'
      simp only [Option.some.injEq, Prod.mk.injEq] at h
      obtain ⟨rfl, rfl⟩ := h
      obtain ⟨h1, h2⟩ := ih h'
      exact ⟨by rw [h1]; rfl, h2⟩
    · rename_i h'
      split at h
      · rename_i hx
        simp only [Option.some.injEq, Prod.mk.injEq] at h
        obtain ⟨rfl, rfl⟩ := h
        exact ⟨by rw [hx]; rfl, h0 _ h'⟩
      · simp at h

theorem hexWord_isHex {h : List Char} (hh : HexWord h) : h.all isHex = true := by
  rw [List.all_eq_true]
  intro c hc
  have : ∀ c ∈ "0123456789abcdef".toList, isHex c = true := by decide +kernel
  exact this c (hh.2 c hc)

theorem isHex_mem {c : Char} (h : isHex c = true) : c ∈ "0123456789abcdef".toList := by
  unfold isHex at h
  simp only [Bool.or_eq_true, decide_eq_true_eq] at h
  rcases h with h | h
  · rw [Char.isDigit] at h
    simp only [Bool.and_eq_true, decide_eq_true_eq] at h
    have h1 : 48 ≤ c.toNat := h.1
    have h2 : c.toNat ≤ 57 := h.2
    have hc : c = Char.ofNat c.toNat := (Char.ofNat_toNat c).symm
    rw [hc]
    generalize c.toNat = n at h1 h2
    interval_cases n <;> decide +kernel
  · have : ∀ c ∈ "abcdef".toList, c ∈ "0123456789abcdef".toList := by decide +kernel
    exact this c h

theorem hexWord_iff {h : List Char} : HexWord h ↔ h ≠ [] ∧ h.all isHex = true :=
  ⟨fun hh => ⟨hh.1, hexWord_isHex hh⟩, fun hh => ⟨hh.1, fun c hc => isHex_mem (List.all_eq_true.1 hh.2 c hc)⟩⟩

theorem hexWord_not_mem {h : List Char} (hh : HexWord h) {c : Char} (hc : c ∉ "0123456789abcdef".toList) : c ∉ h := fun hm => hc (hh.2 c hm)

theorem not_dirty_of_hex {a h : List Char} (hh : HexWord h) : ¬ "-dirty".toList <:+ a ++ h := by
  rintro ⟨t, ht⟩
  obtain ⟨l, c, rfl⟩ : ∃ l c, h = l ++ [c] := ⟨h.dropLast, h.getLast hh.1, (List.dropLast_append_getLast hh.1).symm⟩
  have h1 : (t ++ "-dirty".toList).getLast? = some 'y' := by
    rw [show "-dirty".toList = "-dirt".toList ++ ['y'] by decide +kernel, ← List.append_assoc, List.getLast?_append]
    rfl
  rw [ht, ← List.append_assoc, List.getLast?_append] at h1
  simp only [List.getLast?_singleton, Option.some_or, Option.some.injEq] at h1
  subst h1
  exact hexWord_not_mem hh (by decide +kernel) (List.mem_append_right _ List.mem_cons_self)

/-- The text before the mark of a changed working copy. -/
theorem dirty_split (s h : List Char) (d : Bool) (hh : HexWord h) :
    (decide ("-dirty".toList <:+ s ++ h ++ (if d then "-dirty".toList else [])) = d) ∧
      (if d then (s ++ h ++ "-dirty".toList).take ((s ++ h ++ "-dirty".toList).length - 6) else s ++ h) = s ++ h := by
  cases d with
  | false =>
    refine ⟨?_, rfl⟩
    simp only [Bool.false_eq_true, if_false, List.append_nil, decide_eq_false_iff_not]
    exact not_dirty_of_hex hh
  | true =>
    refine ⟨?_, ?_⟩
    · simp only [if_true, decide_eq_true_eq]
      exact List.suffix_append _ _
    · simp only [if_true]
      rw [List.length_append, show "-dirty".toList.length = 6 by decide +kernel, Nat.add_sub_cancel, List.take_left]

/-- **C110** (1) For every tag with the prefix, hyphens in it or not, every number of commits and every hash the pieces are read back from the output of `git describe`. -/
theorem C110_parse (pre tag full hex : List Char) (n count : Nat) (dirty : Bool) (hh : HexWord hex) (hne : pre ++ tag ≠ []) (hnl : '\n' ∉ pre ++ tag) :
    piecesOf pre full count (describeLong (pre ++ tag) n hex dirty) = some ⟨some tag, n, hex, dirty⟩ := by
  have e : describeLong (pre ++ tag) n hex dirty = ((pre ++ tag ++ '-' :: Nat.toDigits 10 n ++ ['-', 'g']) ++ hex) ++ (if dirty then "-dirty".toList else []) := by
    simp [describeLong]
  obtain ⟨h1, h2⟩ := dirty_split (pre ++ tag ++ '-' :: Nat.toDigits 10 n ++ ['-', 'g']) hex dirty hh
  have hm : matchDescribe (pre ++ tag ++ '-' :: Nat.toDigits 10 n ++ ['-', 'g'] ++ hex) = some (pre ++ tag, n, hex) := by
    have e1 : pre ++ tag ++ '-' :: Nat.toDigits 10 n ++ ['-', 'g'] ++ hex = (pre ++ tag ++ '-' :: Nat.toDigits 10 n) ++ '-' :: ('g' :: hex) := by simp
    unfold matchDescribe
    rw [e1, splitLast_append _ _ _ (by
      intro h
      rcases List.mem_cons.1 h with h | h
      · exact absurd h (by decide)
      · exact hexWord_not_mem hh (by decide +kernel) h)]
    simp only
    rw [if_pos ⟨hh.1, hexWord_isHex hh⟩, splitLast_append _ _ _ (not_mem_of_digits (digits_all n) (by decide))]
    simp only
    rw [if_pos ⟨digits_ne_nil n, List.all_eq_true.2 (digits_all n), hne, hnl⟩, Nat.ofDigitChars_ten_toDigits]
  unfold piecesOf
  simp only
  rw [e, h1]
  have e2 : (if dirty = true then List.take ((pre ++ tag ++ '-' :: Nat.toDigits 10 n ++ ['-', 'g'] ++ hex ++ if dirty = true then "-dirty".toList else []).length - 6)
      (pre ++ tag ++ '-' :: Nat.toDigits 10 n ++ ['-', 'g'] ++ hex ++ if dirty = true then "-dirty".toList else []) else
      pre ++ tag ++ '-' :: Nat.toDigits 10 n ++ ['-', 'g'] ++ hex ++ if dirty = true then "-dirty".toList else []) =
      pre ++ tag ++ '-' :: Nat.toDigits 10 n ++ ['-', 'g'] ++ hex := by
    cases dirty with
    | true => simpa using h2
    | false => simp
  rw [e2, if_pos (by simp), hm]
  simp

/-- **C110** (1), commits without tag. -/
theorem C110_parse_bare (pre full hex : List Char) (count : Nat) (dirty : Bool) (hh : HexWord hex) :
    piecesOf pre full count (describeBare hex dirty) = some ⟨none, count, full.take 7, dirty⟩ := by
  obtain ⟨h1, h2⟩ := dirty_split [] hex dirty hh
  simp only [List.nil_append] at h1 h2
  unfold piecesOf describeBare
  simp only
  rw [h1]
  have e2 : (if dirty = true then List.take ((hex ++ if dirty = true then "-dirty".toList else []).length - 6)
      (hex ++ if dirty = true then "-dirty".toList else []) else hex ++ if dirty = true then "-dirty".toList else []) = hex := by
    cases dirty with
    | true => simpa using h2
    | false => simp
  rw [e2, if_neg (hexWord_not_mem hh (by decide +kernel))]

/-- **C110** (2) Only such output is understood: pieces with a tag come from text of this form with the number written in decimal digits. -/
theorem C110_only {pre full d : List Char} {count : Nat} {p : GitPieces} {tag : List Char} (h : piecesOf pre full count d = some p) (ht : p.tag = some tag) :
    HexWord p.short ∧ ∃ num, readNat num = some p.distance ∧
      d = pre ++ tag ++ '-' :: num ++ '-' :: 'g' :: p.short ++ (if p.dirty then "-dirty".toList else []) := by
  unfold piecesOf at h
  simp only at h
  set dirty := decide ("-dirty".toList <:+ d) with hd
  set s := (if dirty = true then d.take (d.length - 6) else d) with hs
  have hds : d = s ++ (if dirty then "-dirty".toList else []) := by
    by_cases hx : "-dirty".toList <:+ d
    · have : dirty = true := by rw [hd]; exact decide_eq_true hx
      rw [hs, this]
      simp only [if_true]
      obtain ⟨t, rfl⟩ := hx
      rw [List.length_append, show "-dirty".toList.length = 6 by decide +kernel, Nat.add_sub_cancel, List.take_left]
    · have : dirty = false := by rw [hd]; exact decide_eq_false hx
      rw [hs, this]
      simp
  split at h
  · split at h
    · simp at h
    · rename_i ft n hex hm
      split at h
      · rename_i hpre
        cases h
        cases ht
        obtain ⟨t, rfl⟩ := hpre
        rw [List.drop_left]
        unfold matchDescribe at hm
        split at hm
        · rename_i a hx hsp
          split at hm
          · rename_i hhex
            split at hm
            · rename_i tg num hsp2
              split at hm
              · rename_i hnum
                simp only [Option.some.injEq, Prod.mk.injEq] at hm
                obtain ⟨rfl, rfl, rfl⟩ := hm
                obtain ⟨e1, -⟩ := splitLast_some hsp
                obtain ⟨e2, -⟩ := splitLast_some hsp2
                refine ⟨hexWord_iff.2 hhex, num, ?_, ?_⟩
                · unfold readNat
                  rw [if_pos ⟨hnum.1, hnum.2.1⟩]
                · conv_lhs => rw [hds, e1, e2]
              · simp at hm
            · simp at hm
          · simp at hm
        · simp at hm
      · simp at h
  · cases h
    simp at ht

/-- **C110** (3) The long form of `git describe` is written as it was read, without the prefix of the tag. -/
theorem C110_describe_long (pre tag full hex : List Char) (n count : Nat) (dirty : Bool) (hh : HexWord hex) (ht : tag ≠ []) (hnl : '\n' ∉ pre ++ tag) :
    (piecesOf pre full count (describeLong (pre ++ tag) n hex dirty)).map renderDescribeLong = some (describeLong tag n hex dirty) ∧
    (piecesOf pre full count (describeLong (pre ++ tag) n hex dirty)).map renderDescribe =
      some (if n = 0 then tag ++ (if dirty then "-dirty".toList else []) else describeLong tag n hex dirty) := by
  rw [C110_parse pre tag full hex n count dirty hh (by simp [ht]) hnl]
  obtain ⟨c, t, rfl⟩ : ∃ c t, tag = c :: t := List.exists_cons_of_ne_nil ht
  constructor
  · simp [renderDescribeLong, describeLong, dirtyMark]
  · by_cases h0 : n = 0
    · simp [renderDescribe, dirtyMark, h0]
    · simp [renderDescribe, dirtyMark, h0, describeLong]

theorem append_cons_inj {c : Char} : ∀ {a a' b b' : List Char}, c ∉ a → c ∉ a' → a ++ c :: b = a' ++ c :: b' → a = a' ∧ b = b' := by
  intro a
  induction a with
  | nil =>
    intro a' b b' _ h' h
    cases a' with
    | nil => simpa using h
    | cons x l =>
      simp only [List.nil_append, List.cons_append, List.cons.injEq] at h
      exact absurd (h.1 ▸ List.mem_cons_self) h'
  | cons x l ih =>
    intro a' b b' hm h' h
    cases a' with
    | nil =>
      simp only [List.nil_append, List.cons_append, List.cons.injEq] at h
      exact absurd (h.1 ▸ List.mem_cons_self) hm
    | cons y l' =>
      simp only [List.cons_append, List.cons.injEq] at h
      obtain ⟨e1, e2⟩ := ih (fun hx => hm (List.mem_cons_of_mem _ hx)) (fun hx => h' (List.mem_cons_of_mem _ hx)) h.2
      exact ⟨by rw [h.1, e1], e2⟩

/-- The local part of a version. -/
theorem local_inj {n n' : Nat} {h h' : List Char} {d d' : Bool} (hh : HexWord h) (hh' : HexWord h')
    (e : Nat.toDigits 10 n ++ ".g".toList ++ h ++ (if d then ".dirty".toList else []) = Nat.toDigits 10 n' ++ ".g".toList ++ h' ++ (if d' then ".dirty".toList else [])) :
    n = n' ∧ h = h' ∧ d = d' := by
  have hd : ∀ n, '.' ∉ Nat.toDigits 10 n := fun n => not_mem_of_digits (digits_all n) (by decide)
  have e1 : Nat.toDigits 10 n ++ '.' :: ('g' :: h ++ (if d then ".dirty".toList else [])) = Nat.toDigits 10 n' ++ '.' :: ('g' :: h' ++ (if d' then ".dirty".toList else [])) := by
    simpa [show ".g".toList = ['.', 'g'] by decide +kernel] using e
  obtain ⟨e2, e3⟩ := append_cons_inj (hd n) (hd n') e1
  have hn : n = n' := by
    have := congrArg (fun l => Nat.ofDigitChars 10 l 0) e2
    simpa [Nat.ofDigitChars_ten_toDigits] using this
  simp only [List.cons_append, List.cons.injEq, true_and] at e3
  refine ⟨hn, ?_⟩
  have hdot := hexWord_not_mem hh (c := '.') (by decide +kernel)
  have hdot' := hexWord_not_mem hh' (c := '.') (by decide +kernel)
  have ed : ".dirty".toList = '.' :: "dirty".toList := by decide +kernel
  cases d <;> cases d'
  · simpa using e3
  · simp only [Bool.false_eq_true, if_false, List.append_nil, if_true, ed] at e3
    exact absurd (e3 ▸ List.mem_append_right _ List.mem_cons_self) hdot
  · simp only [Bool.false_eq_true, if_false, List.append_nil, if_true, ed] at e3
    exact absurd (e3.symm ▸ List.mem_append_right _ List.mem_cons_self) hdot'
  · simp only [if_true, ed] at e3
    exact ⟨(append_cons_inj hdot hdot' e3).1, rfl⟩

/-- The segments that tell how far a commit is from its tag. -/
def Spec.segmentsOf (p : GitPieces) : List (List Char) :=
  [Nat.toDigits 10 p.distance, 'g' :: p.short] ++ if p.dirty then ["dirty".toList] else []

theorem segments_text (p : GitPieces) : ['.'].intercalate (segmentsOf p) =
    Nat.toDigits 10 p.distance ++ ".g".toList ++ p.short ++ (if p.dirty then ".dirty".toList else []) := by
  have e : ".g".toList = ['.', 'g'] := by decide +kernel
  have ed : ".dirty".toList = '.' :: "dirty".toList := by decide +kernel
  unfold segmentsOf
  cases p.dirty <;> simp [List.intercalate, e, ed]

theorem pep440_untagged {p : GitPieces} (h : p.tag = none ∨ p.tag = some []) :
    renderPep440 p = "0+untagged.".toList ++ ['.'].intercalate (segmentsOf p) := by
  rw [segments_text]
  unfold renderPep440 dirtyMark
  rcases h with h | h <;> rw [h] <;> simp

theorem pep440_tagged {p : GitPieces} {tag : List Char} (h : p.tag = some tag) (hne : tag ≠ []) :
    (AtTag p → renderPep440 p = tag) ∧ (¬ AtTag p → renderPep440 p = tag ++ (if '+' ∈ tag then '.' else '+') :: ['.'].intercalate (segmentsOf p)) := by
  obtain ⟨c, t, rfl⟩ : ∃ c t, tag = c :: t := List.exists_cons_of_ne_nil hne
  rw [segments_text]
  unfold renderPep440 dirtyMark plusOrDot
  rw [h]
  simp only
  refine ⟨fun ha => ?_, fun ha => ?_⟩
  · rw [if_neg]
    simp [ha.1, ha.2]
  · rw [if_pos]
    · by_cases hp : '+' ∈ c :: t
      · rw [if_pos hp, if_pos hp]
        simp
      · rw [if_neg hp, if_neg hp]
        simp
    · unfold AtTag at ha
      by_cases h0 : p.distance = 0
      · exact Or.inr (by simpa [h0] using ha)
      · exact Or.inl h0

/-- **C110** (4) The form of a version: the tag alone exactly if there are no commits since the tag and no changes; otherwise the tag, a plus sign (a dot if there already is one),
or `0+untagged.` without a tag, and segments separated by dots that tell the number of commits, the hash and the changes; they consist of digits and lower-case letters as PEP 440 asks. -/
theorem C110_form {p : GitPieces} (hh : HexWord p.short) :
    ((p.tag = none ∨ p.tag = some []) → renderPep440 p = "0+untagged.".toList ++ ['.'].intercalate (segmentsOf p)) ∧
    (∀ tag, p.tag = some tag → tag ≠ [] → (AtTag p ↔ renderPep440 p = tag) ∧
      (¬ AtTag p → renderPep440 p = tag ++ (if '+' ∈ tag then '.' else '+') :: ['.'].intercalate (segmentsOf p))) ∧
    ∀ s ∈ segmentsOf p, LocalSegment s := by
  refine ⟨pep440_untagged, fun tag ht hne => ?_, ?_⟩
  · obtain ⟨h1, h2⟩ := pep440_tagged ht hne
    refine ⟨⟨h1, fun h => ?_⟩, h2⟩
    by_contra ha
    have := (h2 ha).symm.trans h
    have := congrArg List.length this
    simp at this
  · have hx : ∀ c ∈ "0123456789abcdef".toList, c.isDigit = true ∨ c.isLower = true := by decide +kernel
    intro s hs
    unfold segmentsOf at hs
    simp only [List.cons_append, List.nil_append, List.mem_cons] at hs
    rcases hs with rfl | rfl | hs
    · exact ⟨digits_ne_nil _, fun c hc => Or.inl (digits_all _ c hc)⟩
    · refine ⟨by simp, fun c hc => ?_⟩
      rcases List.mem_cons.1 hc with rfl | hc
      · decide
      · exact hx c (hh.2 c hc)
    · cases hd : p.dirty
      · rw [hd] at hs; simp at hs
      · rw [hd] at hs
        simp only [if_true, List.mem_singleton] at hs
        subst hs
        exact ⟨by decide +kernel, by decide +kernel⟩

/-- **C110** (5) Versions tell commits apart: two versions from tags without plus signs are equal only if the tags are, if both or none is at the tag, and, unless they are,
if the number of commits, the hash and the changes are the same. -/
theorem C110_injective {p q : GitPieces} (hp : HexWord p.short) (hq : HexWord q.short) (hpt : ∀ t, p.tag = some t → t ≠ [] ∧ '+' ∉ t)
    (hqt : ∀ t, q.tag = some t → t ≠ [] ∧ '+' ∉ t) (h : renderPep440 p = renderPep440 q) :
    p.tag = q.tag ∧ (p = q ∨ p.tag ≠ none ∧ AtTag p ∧ AtTag q) := by
  have seg : ∀ {p q : GitPieces}, HexWord p.short → HexWord q.short → p.tag = q.tag →
      ['.'].intercalate (segmentsOf p) = ['.'].intercalate (segmentsOf q) → p = q := by
    intro p q hp hq ht e
    rw [segments_text, segments_text] at e
    obtain ⟨h1, h2, h3⟩ := local_inj hp hq e
    obtain ⟨a, b, c, d⟩ := p
    obtain ⟨a', b', c', d'⟩ := q
    simp only at ht h1 h2 h3
    subst ht h1 h2 h3
    rfl
  have un : "0+untagged.".toList = ['0'] ++ '+' :: "untagged.".toList := by decide +kernel
  -- versions with a tag that is not reached differ from those without tag
  have mixed : ∀ {p q : GitPieces}, HexWord p.short → p.tag = none → (∀ t, q.tag = some t → t ≠ [] ∧ '+' ∉ t) → q.tag ≠ none →
      renderPep440 p ≠ renderPep440 q := by
    intro p q hp hpn hqt hqn e
    obtain ⟨t, ht⟩ := Option.ne_none_iff_exists'.1 hqn
    obtain ⟨hne, hplus⟩ := hqt t ht
    rw [pep440_untagged (Or.inl hpn), un] at e
    by_cases ha : AtTag q
    · rw [(pep440_tagged ht hne).1 ha] at e
      exact hplus (e ▸ by simp)
    · rw [(pep440_tagged ht hne).2 ha, if_neg hplus, List.append_assoc, List.cons_append] at e
      obtain ⟨-, e2⟩ := append_cons_inj (show '+' ∉ ['0'] by decide) hplus e
      rw [segments_text q] at e2
      have hdig := digits_all q.distance
      cases hd : Nat.toDigits 10 q.distance with
      | nil => exact digits_ne_nil _ hd
      | cons c l =>
        rw [hd] at e2 hdig
        rw [show "untagged.".toList = 'u' :: "ntagged.".toList by decide +kernel] at e2
        simp only [List.append_eq, List.cons_append, List.cons.injEq] at e2
        have := hdig c List.mem_cons_self
        rw [← e2.1] at this
        exact absurd this (by decide)
  cases hpt' : p.tag with
  | none =>
    cases hqt' : q.tag with
    | none =>
      refine ⟨rfl, Or.inl ?_⟩
      rw [pep440_untagged (Or.inl hpt'), pep440_untagged (Or.inl hqt')] at h
      exact seg hp hq (hpt'.trans hqt'.symm) (List.append_cancel_left h)
    | some t => exact absurd h (mixed hp hpt' hqt (by simp [hqt']))
  | some t =>
    obtain ⟨hne, hplus⟩ := hpt t hpt'
    cases hqt' : q.tag with
    | none => exact absurd h.symm (mixed hq hqt' hpt (by simp [hpt']))
    | some t' =>
      obtain ⟨hne', hplus'⟩ := hqt t' hqt'
      obtain ⟨a1, a2⟩ := pep440_tagged hpt' hne
      obtain ⟨b1, b2⟩ := pep440_tagged hqt' hne'
      by_cases ha : AtTag p
      · by_cases hb : AtTag q
        · rw [a1 ha, b1 hb] at h
          exact ⟨by rw [h], Or.inr ⟨by simp, ha, hb⟩⟩
        · rw [a1 ha, b2 hb, if_neg hplus'] at h
          exact absurd (h ▸ by simp) hplus
      · by_cases hb : AtTag q
        · rw [a2 ha, b1 hb, if_neg hplus] at h
          exact absurd (h.symm ▸ by simp) hplus'
        · rw [a2 ha, b2 hb, if_neg hplus, if_neg hplus'] at h
          obtain ⟨e1, e2⟩ := append_cons_inj hplus hplus' h
          exact ⟨by rw [e1], Or.inl (seg hp hq (by rw [hpt', hqt', e1]) e2)⟩

/-- **C110** (5) fails with plus signs in tags: a commit three after the tag `v1.0` has the version of the tag `v1.0+3.gabc`. -/
theorem C110_collision : versionOf "v".toList "abc0000".toList 9 (describeLong "v1.0".toList 3 "abc".toList false) =
    versionOf "v".toList "def0000".toList 9 (describeLong "v1.0+3.gabc".toList 0 "def".toList false) := by decide +kernel

/-- **C110** (4) fails for the tag `v`, which is the prefix alone: the version says that there is no tag, although the number of commits is counted from it. -/
theorem C110_empty_tag : versionOf "v".toList "abc0000".toList 9 (describeLong "v".toList 2 "abc".toList false) = "0+untagged.2.gabc".toList := by
  decide +kernel

/-- **C110** (1) Tags without the prefix and other output give the version `unknown`. -/
theorem C110_unknown {pre full d : List Char} {count : Nat} (h : piecesOf pre full count d = none) : versionOf pre full count d = "unknown".toList := by
  unfold versionOf
  rw [h]

example : HexWord "0ab3".toList := ⟨by decide +kernel, by decide +kernel⟩
example : piecesOf "v".toList "0ab3000".toList 50 "v1.0-rc-2-12-g0ab3-dirty".toList = some ⟨some "1.0-rc-2".toList, 12, "0ab3".toList, true⟩ := by decide +kernel
example : versionOf "v".toList "0ab3000".toList 50 "v1.0-rc-2-12-g0ab3-dirty".toList = "1.0-rc-2+12.g0ab3.dirty".toList := by decide +kernel
example : versionOf "v".toList "0ab3000".toList 50 "0ab300-dirty".toList = "0+untagged.50.g0ab3000.dirty".toList := by decide +kernel
example : piecesOf "v".toList "0ab3000".toList 50 "release-12-g0ab3".toList = none := by decide +kernel
example : renderPep440 ⟨some "1.0".toList, 0, "ab".toList, false⟩ = "1.0".toList ∧ renderPep440 ⟨some "1.0+x".toList, 0, "ab".toList, true⟩ = "1.0+x.0.gab.dirty".toList := by
  decide +kernel

/-! ## the version from the decoration of an exported commit -/

namespace Spec

/-- A name in a decoration: no comma, parenthesis, and no white space at its ends. -/
def RefName (r : List Char) : Prop :=
  ',' ∉ r ∧ '(' ∉ r ∧ ')' ∉ r ∧ ∃ a b, r.head? = some a ∧ r.getLast? = some b ∧ a.isWhitespace = false ∧ b.isWhitespace = false

/-- What `git archive` writes for the format `%d`. -/
def decoration (refs : List (List Char)) : List Char := ' ' :: '(' :: (", ".toList.intercalate refs ++ [')'])

/-- The tag gives a version: the prefix and a digit. -/
def VersionTag (pre t : List Char) : Prop := ∃ c r, t = pre ++ c :: r ∧ c.isDigit = true

end Spec

theorem stripChars_self {p : Char → Bool} {l : List Char} {a b : Char} (ha : l.head? = some a) (hb : l.getLast? = some b) (h1 : p a = false) (h2 : p b = false) :
    stripChars p l = l := by
  unfold stripChars
  obtain ⟨t, rfl⟩ : ∃ t, l = a :: t := by
    cases l with
    | nil => simp at ha
    | cons x t => simp only [List.head?_cons, Option.some.injEq] at ha; exact ⟨t, by rw [ha]⟩
  rw [List.dropWhile_cons_of_neg (by simp [h1])]
  have hr : (a :: t).reverse.head? = some b := by rw [List.head?_reverse]; exact hb
  obtain ⟨u, hu⟩ : ∃ u, (a :: t).reverse = b :: u := by
    cases hq : (a :: t).reverse with
    | nil => rw [hq] at hr; simp at hr
    | cons x u => rw [hq] at hr; simp only [List.head?_cons, Option.some.injEq] at hr; exact ⟨u, by rw [hr]⟩
  rw [hu, List.dropWhile_cons_of_neg (by simp [h2]), ← hu, List.reverse_reverse]

theorem stripChars_cons {p : Char → Bool} {c : Char} {l : List Char} (h : p c = true) : stripChars p (c :: l) = stripChars p l := by
  unfold stripChars
  rw [List.dropWhile_cons_of_pos h]

theorem stripChars_snoc {p : Char → Bool} {c : Char} {l : List Char} (h : p c = true) {a : Char} (ha : l.head? = some a) (h1 : p a = false) :
    stripChars p (l ++ [c]) = stripChars p l := by
  unfold stripChars
  cases l with
  | nil => simp at ha
  | cons x t =>
    simp only [List.head?_cons, Option.some.injEq] at ha
    subst ha
    rw [List.cons_append, List.dropWhile_cons_of_neg (by simp [h1]), List.dropWhile_cons_of_neg (by simp [h1]), ← List.cons_append, List.reverse_append]
    simp only [List.reverse_cons, List.reverse_nil, List.nil_append, List.singleton_append]
    rw [List.dropWhile_cons_of_pos h]

theorem intercalate_refs (r : List Char) (rs : List (List Char)) :
    ", ".toList.intercalate (r :: rs) = [','].intercalate (r :: rs.map (' ' :: ·)) := by
  induction rs generalizing r with
  | nil => rfl
  | cons x l ih =>
    have e : ", ".toList = [',', ' '] := by decide +kernel
    have h1 : ∀ (s a b : List Char) (l : List (List Char)), s.intercalate (a :: b :: l) = a ++ (s ++ s.intercalate (b :: l)) := by
      intro s a b l
      simp [List.intercalate, List.intersperse]
    have h2 : ∀ (s a : List Char) (c : Char) (l : List (List Char)), c :: s.intercalate (a :: l) = s.intercalate ((c :: a) :: l) := by
      intro s a c l
      cases l with
      | nil => simp [List.intercalate]
      | cons b l => rw [h1, h1]; rfl
    rw [h1, ih, e, List.map_cons, h1, ← h2]
    simp

theorem intercalate_cons2 (s a b : List Char) (l : List (List Char)) : s.intercalate (a :: b :: l) = a ++ (s ++ s.intercalate (b :: l)) := by
  simp [List.intercalate, List.intersperse]

theorem mem_intercalate {s : List Char} {c : Char} : ∀ {l : List (List Char)}, c ∈ s.intercalate l → c ∈ s ∨ ∃ a ∈ l, c ∈ a := by
  intro l
  induction l with
  | nil => intro h; simp [List.intercalate] at h
  | cons a l ih =>
    cases l with
    | nil => intro h; simp only [List.intercalate, List.intersperse, List.flatten_cons, List.flatten_nil, List.append_nil] at h; exact Or.inr ⟨a, by simp, h⟩
    | cons b l =>
      intro h
      rw [intercalate_cons2] at h
      rcases List.mem_append.1 h with h | h
      · exact Or.inr ⟨a, by simp, h⟩
      · rcases List.mem_append.1 h with h | h
        · exact Or.inl h
        · rcases ih h with h | ⟨x, hx, h⟩
          · exact Or.inl h
          · exact Or.inr ⟨x, List.mem_cons_of_mem _ hx, h⟩

/-- The names in the decoration are read back. -/
theorem refsOf_decoration {refs : List (List Char)} (hne : refs ≠ []) (hr : ∀ r ∈ refs, RefName r) : refsOf (decoration refs) = refs := by
  obtain ⟨r, rs, rfl⟩ : ∃ r rs, refs = r :: rs := List.exists_cons_of_ne_nil hne
  have hstrip : ∀ x ∈ r :: rs, stripChars Char.isWhitespace x = x := fun x hx => by
    obtain ⟨-, -, -, a, b, h1, h2, h3, h4⟩ := hr x hx
    exact stripChars_self h1 h2 h3 h4
  set I := ", ".toList.intercalate (r :: rs) with hI
  have hpar : ∀ c ∈ I, decide (c = '(' ∨ c = ')') = false := by
    intro c hc
    rw [decide_eq_false_iff_not]
    rcases mem_intercalate hc with h | ⟨x, hx, h⟩
    · have : ∀ c ∈ ", ".toList, ¬ (c = '(' ∨ c = ')') := by decide +kernel
      exact this c h
    · obtain ⟨-, h1, h2, -⟩ := hr x hx
      rintro (rfl | rfl)
      · exact h1 h
      · exact h2 h
  have hIne : I ≠ [] := by
    obtain ⟨-, -, -, a, b, h1, -⟩ := hr r List.mem_cons_self
    cases r with
    | nil => simp at h1
    | cons x t =>
      rw [hI, intercalate_refs]
      cases rs with
      | nil => simp [List.intercalate]
      | cons y l => rw [List.map_cons, intercalate_cons2]; simp
  obtain ⟨a, ha⟩ : ∃ a, I.head? = some a := ⟨I.head hIne, List.head?_eq_some_head hIne⟩
  obtain ⟨b, hb⟩ : ∃ b, I.getLast? = some b := ⟨I.getLast hIne, List.getLast?_eq_some_getLast hIne⟩
  have hpa := hpar a (List.mem_of_mem_head? ha)
  have hpb := hpar b (List.mem_of_getLast? hb)
  have e1 : stripChars Char.isWhitespace (decoration (r :: rs)) = '(' :: (I ++ [')']) := by
    unfold decoration
    rw [stripChars_cons (by decide)]
    exact stripChars_self (a := '(') (b := ')') rfl (by rw [← List.cons_append, List.getLast?_append]; rfl) (by decide) (by decide)
  have e2 : stripChars (fun c => decide (c = '(' ∨ c = ')')) ('(' :: (I ++ [')'])) = I := by
    rw [stripChars_cons (by decide), stripChars_snoc (by decide) ha hpa]
    exact stripChars_self ha hb hpa hpb
  unfold refsOf
  rw [e1, e2, hI, intercalate_refs, List.splitOn_intercalate]
  · rw [List.map_cons, List.map_map, hstrip r List.mem_cons_self]
    congr 1
    conv_rhs => rw [← List.map_id rs]
    refine List.map_congr_left fun x hx => ?_
    show stripChars Char.isWhitespace (' ' :: x) = x
    rw [stripChars_cons (by decide)]
    exact hstrip x (List.mem_cons_of_mem _ hx)
  · intro l hl
    rcases List.mem_cons.1 hl with rfl | hl
    · exact (hr l List.mem_cons_self).1
    · obtain ⟨x, hx, rfl⟩ := List.mem_map.1 hl
      have := (hr x (List.mem_cons_of_mem _ hx)).1
      simp [this]
  · simp

theorem versionTag_iff {pre t : List Char} : (decide (pre <+: t) && beginsWithDigit (t.drop pre.length)) = true ↔ VersionTag pre t := by
  simp only [Bool.and_eq_true, decide_eq_true_eq]
  constructor
  · rintro ⟨⟨r, rfl⟩, h⟩
    rw [List.drop_left] at h
    cases r with
    | nil => simp [beginsWithDigit] at h
    | cons c r => exact ⟨c, r, rfl, h⟩
  · rintro ⟨c, r, rfl, h⟩
    exact ⟨⟨_, rfl⟩, by rw [List.drop_left]; exact h⟩

theorem mem_tagsOf {refs : List (List Char)} (h : ∃ t, "tag: ".toList ++ t ∈ refs) (t : List Char) : t ∈ tagsOf refs ↔ "tag: ".toList ++ t ∈ refs := by
  have key : ∀ t, t ∈ (refs.filter fun r => decide ("tag: ".toList <+: r)).map (List.drop 5) ↔ "tag: ".toList ++ t ∈ refs := by
    intro t
    simp only [List.mem_map, List.mem_filter, decide_eq_true_eq]
    have h5 : "tag: ".toList.length = 5 := by decide +kernel
    constructor
    · rintro ⟨r, ⟨hr, ⟨u, rfl⟩⟩, rfl⟩
      rw [← h5, List.drop_left]
      exact hr
    · intro hr
      exact ⟨_, ⟨hr, ⟨t, rfl⟩⟩, by rw [← h5, List.drop_left]⟩
  unfold tagsOf
  simp only
  rw [if_neg]
  · exact key t
  · obtain ⟨u, hu⟩ := h
    intro hn
    have := (key u).2 hu
    rw [hn] at this
    simp at this

/-- The choice among the names that count as tags. -/
theorem keywordVersion_choice {pre : List Char} {refs : List (List Char)} (hne : refs ≠ []) (hr : ∀ r ∈ refs, RefName r) (P : List Char → Prop)
    (hmem : ∀ t, VersionTag pre t → (t ∈ tagsOf refs ↔ P t)) :
    ((∃ t, P t ∧ VersionTag pre t) → ∃ v, keywordVersion pre (decoration refs) = some v ∧ P (pre ++ v) ∧
      VersionTag pre (pre ++ v) ∧ ∀ t, P t → VersionTag pre t → pre ++ v ≤ t) ∧
    ((¬ ∃ t, P t ∧ VersionTag pre t) → keywordVersion pre (decoration refs) = some "0+unknown".toList) := by
  have hf : ¬ "$Format".toList <+: stripChars Char.isWhitespace (decoration refs) := by
    unfold decoration
    rw [stripChars_cons (by decide), stripChars_self (a := '(') (b := ')') rfl (by rw [← List.cons_append, List.getLast?_append]; rfl) (by decide) (by decide)]
    rintro ⟨t, h⟩
    rw [show "$Format".toList = '$' :: "Format".toList by decide +kernel] at h
    simp at h
  set L := sortNames (tagsOf refs) with hL
  have hmem : ∀ t, VersionTag pre t → (t ∈ L ↔ P t) := fun t h => by rw [hL, sortNames, List.mem_insertionSort, hmem t h]
  have hsort : L.Pairwise (· ≤ ·) := List.pairwise_insertionSort _ _
  have hk : keywordVersion pre (decoration refs) = match L.find? fun r => decide (pre <+: r) && beginsWithDigit (r.drop pre.length) with
      | some r => some (r.drop pre.length)
      | none => some "0+unknown".toList := by
    unfold keywordVersion
    rw [if_neg hf, refsOf_decoration hne hr]
    rfl
  rw [hk]
  constructor
  · rintro ⟨t, h1, h2⟩
    cases hfd : L.find? fun r => decide (pre <+: r) && beginsWithDigit (r.drop pre.length) with
    | none => exact absurd (versionTag_iff.2 h2) (List.find?_eq_none.1 hfd t ((hmem t h2).2 h1))
    | some r =>
      obtain ⟨hv, as, bs, hab, has⟩ := List.find?_eq_some_iff_append.1 hfd
      have hv' := versionTag_iff.1 hv
      obtain ⟨c, u, hu, hc⟩ := hv'
      have hdrop : pre ++ r.drop pre.length = r := by rw [hu, List.drop_left]
      refine ⟨r.drop pre.length, rfl, ?_⟩
      rw [hdrop]
      refine ⟨(hmem r ⟨c, u, hu, hc⟩).1 (List.mem_of_find?_eq_some hfd), ⟨c, u, hu, hc⟩, fun t' h1' h2' => ?_⟩
      have hm := (hmem t' h2').2 h1'
      rw [hab] at hm hsort
      rcases List.mem_append.1 hm with h | h
      · have := has t' h
        rw [versionTag_iff.2 h2'] at this
        simp at this
      · rcases List.mem_cons.1 h with rfl | h
        · exact List.le_refl _
        · exact (List.pairwise_cons.1 (List.pairwise_append.1 hsort).2.1).1 t' h
  · intro hno
    cases hfd : L.find? fun r => decide (pre <+: r) && beginsWithDigit (r.drop pre.length) with
    | none => rfl
    | some r =>
      have hv := List.find?_some hfd
      exact absurd ⟨r, (hmem r (versionTag_iff.1 hv)).1 (List.mem_of_find?_eq_some hfd), versionTag_iff.1 hv⟩ hno

/-- **C110** (6) The version of an exported commit whose decoration names tags: that of the first tag in the order of characters among those with the prefix and a digit, `0+unknown` if there
are none. -/
theorem C110_keywords {pre : List Char} {refs : List (List Char)} (hr : ∀ r ∈ refs, RefName r) (ht : ∃ t, "tag: ".toList ++ t ∈ refs) :
    ((∃ t, "tag: ".toList ++ t ∈ refs ∧ VersionTag pre t) → ∃ v, keywordVersion pre (decoration refs) = some v ∧ "tag: ".toList ++ (pre ++ v) ∈ refs ∧
      VersionTag pre (pre ++ v) ∧ ∀ t, "tag: ".toList ++ t ∈ refs → VersionTag pre t → pre ++ v ≤ t) ∧
    ((¬ ∃ t, "tag: ".toList ++ t ∈ refs ∧ VersionTag pre t) → keywordVersion pre (decoration refs) = some "0+unknown".toList) :=
  keywordVersion_choice (by obtain ⟨t, h⟩ := ht; exact List.ne_nil_of_mem h) hr (fun t => "tag: ".toList ++ t ∈ refs) fun t _ => mem_tagsOf ht t

/-- **C110** (6) The version of an exported commit whose decoration names no tags: the first name in the order of characters among those with the prefix and a digit, be they branches,
`0+unknown` if there are none. -/
theorem C110_keywords_no_tags {pre : List Char} {refs : List (List Char)} (hne : refs ≠ []) (hr : ∀ r ∈ refs, RefName r) (ht : ¬ ∃ t, "tag: ".toList ++ t ∈ refs) :
    ((∃ t ∈ refs, VersionTag pre t) → ∃ v, keywordVersion pre (decoration refs) = some v ∧ pre ++ v ∈ refs ∧
      VersionTag pre (pre ++ v) ∧ ∀ t ∈ refs, VersionTag pre t → pre ++ v ≤ t) ∧
    ((¬ ∃ t ∈ refs, VersionTag pre t) → keywordVersion pre (decoration refs) = some "0+unknown".toList) :=
  keywordVersion_choice hne hr (fun t => t ∈ refs) fun t hv => by
    have hnil : (refs.filter fun r => decide ("tag: ".toList <+: r)) = [] := by
      rw [List.filter_eq_nil_iff]
      intro r hm h
      obtain ⟨u, hu⟩ := of_decide_eq_true h
      exact ht ⟨u, hu ▸ hm⟩
    unfold tagsOf
    simp only [hnil, List.map_nil, if_true, List.mem_filter]
    obtain ⟨c, u, rfl, hc⟩ := hv
    simp [hc]

/-- **C110** (6) keywords that were not expanded are not used. -/
theorem C110_unexpanded (pre l : List Char) : keywordVersion pre ("$Format".toList ++ l ++ "$".toList) = none := by
  unfold keywordVersion
  rw [if_pos]
  have e : "$Format".toList ++ l ++ "$".toList = '$' :: ("Format".toList ++ l ++ ['$']) := by
    rw [show "$Format".toList = '$' :: "Format".toList by decide +kernel, show "$".toList = ['$'] by decide +kernel]
    rfl
  rw [stripChars_self (a := '$') (b := '$') (by rw [e]; rfl) (by rw [e, ← List.cons_append, List.getLast?_append]; rfl) (by decide) (by decide)]
  rw [List.append_assoc]
  exact List.prefix_append _ _

/-- **C110** (6) fails in that the order of characters is not that of versions: of the tags `v0.9` and `v0.10` of a commit the second is the version. -/
theorem C110_older_tag : keywordVersion "v".toList (decoration ["HEAD -> master".toList, "tag: v0.9".toList, "tag: v0.10".toList]) = some "0.10".toList ∧
    keywordVersion "v".toList (decoration ["HEAD -> master".toList, "tag: v0.10".toList, "tag: v0.9".toList, "tag: v0.1".toList]) = some "0.1".toList := by
  decide +kernel

/-- **C110** (6) fails without tags: the name of a branch is taken for a version. -/
theorem C110_branch_taken : keywordVersion "v".toList (decoration ["v2-work".toList, "origin/v2-work".toList]) = some "2-work".toList := by decide +kernel

example : (∀ r ∈ ["HEAD -> master".toList, "tag: v0.9".toList], RefName r) ∧ "tag: ".toList ++ "v0.9".toList ∈ ["HEAD -> master".toList, "tag: v0.9".toList] ∧
    VersionTag "v".toList "v0.9".toList := by
  refine ⟨?_, by decide +kernel, '0', ".9".toList, by decide +kernel, by decide⟩
  intro r hr
  simp only [List.mem_cons, List.not_mem_nil, or_false] at hr
  rcases hr with rfl | rfl
  · exact ⟨by decide +kernel, by decide +kernel, by decide +kernel, 'H', 'r', by decide +kernel, by decide +kernel, by decide, by decide⟩
  · exact ⟨by decide +kernel, by decide +kernel, by decide +kernel, 't', '9', by decide +kernel, by decide +kernel, by decide, by decide⟩
/-- The hypotheses of `C110_keywords_no_tags`: a decoration with branches only. -/
example : ∃ v, keywordVersion "v".toList (decoration ["v2-work".toList, "v10".toList]) = some v ∧ v = "10".toList := by
  obtain ⟨v, h1, h2, -, h4⟩ := (C110_keywords_no_tags (pre := "v".toList) (refs := ["v2-work".toList, "v10".toList]) (by simp) (by
    intro r hr
    simp only [List.mem_cons, List.not_mem_nil, or_false] at hr
    rcases hr with rfl | rfl
    · exact ⟨by decide +kernel, by decide +kernel, by decide +kernel, 'v', 'k', by decide +kernel, by decide +kernel, by decide, by decide⟩
    · exact ⟨by decide +kernel, by decide +kernel, by decide +kernel, 'v', '0', by decide +kernel, by decide +kernel, by decide, by decide⟩)
    (by
      rintro ⟨t, h⟩
      simp only [List.mem_cons, List.not_mem_nil, or_false] at h
      rcases h with h | h
      · have := congrArg List.head? h
        simp at this
      · have := congrArg List.head? h
        simp at this)).1 ⟨"v2-work".toList, by simp, '2', "-work".toList, by decide +kernel, by decide⟩
  refine ⟨v, h1, ?_⟩
  have hle := h4 "v10".toList (by simp) ⟨'1', "0".toList, by decide +kernel, by decide⟩
  simp only [List.mem_cons, List.not_mem_nil, or_false] at h2
  rcases h2 with h2 | h2
  · rw [h2] at hle
    exact absurd hle (by decide +kernel)
  · exact List.append_cancel_left (as := "v".toList) (h2.trans (by decide +kernel))
end OM
