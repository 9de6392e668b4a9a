import Verif.Model.VersionStyles
import Verif.Props.Version
/-!
# C136: versions in the other styles, and their order

The order of versions is that of PEP 440 (as in the package `packaging`), written down here on its own; epochs do not occur.
-/
namespace OM
namespace Spec

/-- The kinds of pre-releases. -/
inductive PreKind
  | alpha | beta | candidate
deriving DecidableEq

/-- The letters of a kind of pre-releases. -/
def PreKind.letters : PreKind → List Char
  | .alpha => ['a']
  | .beta => ['b']
  | .candidate => ['r', 'c']

/-- The place of a kind of pre-releases. -/
def PreKind.place : PreKind → Nat
  | .alpha => 1
  | .beta => 2
  | .candidate => 3

/-- A version: the numbers of the release are `lead ++ [last]`, then come a pre-release, a post-release, a development release and the segments of the local version. -/
structure Pep440 where
  lead : List Nat
  last : Nat
  pre : Option (PreKind × Nat)
  post : Option Nat
  dev : Option Nat
  loc : List (Nat ⊕ List Char)

/-- Texts joined by dots. -/
def dotted : List (List Char) → List Char
  | [] => []
  | [a] => a
  | a :: b :: l => a ++ '.' :: dotted (b :: l)

/-- The text of a pre-release. -/
def preText : Option (PreKind × Nat) → List Char
  | none => []
  | some q => q.1.letters ++ Nat.toDigits 10 q.2

/-- The text of a post-release. -/
def postWord (n : Nat) : List Char := 'p' :: 'o' :: 's' :: 't' :: Nat.toDigits 10 n

/-- The text of a development release. -/
def devWord (n : Nat) : List Char := 'd' :: 'e' :: 'v' :: Nat.toDigits 10 n

/-- The texts between the dots of the public part of a version. -/
def Pep440.words (v : Pep440) : List (List Char) :=
  v.lead.map (Nat.toDigits 10) ++ (Nat.toDigits 10 v.last ++ preText v.pre) :: (v.post.toList.map postWord ++ v.dev.toList.map devWord)

/-- The text of a segment of a local version. -/
def segmentText : Nat ⊕ List Char → List Char
  | .inl n => Nat.toDigits 10 n
  | .inr w => w

/-- The local part of a version. -/
def localText : List (Nat ⊕ List Char) → List Char
  | [] => []
  | s :: l => '+' :: dotted ((s :: l).map segmentText)

/-- The text of a version. -/
def Pep440.text (v : Pep440) : List Char := dotted v.words ++ localText v.loc

/-- A segment that is not a number: lower-case letters and digits, not only digits. -/
def SegmentWord (w : List Char) : Prop := (∀ c ∈ w, c.isDigit = true ∨ c.isLower = true) ∧ ∃ c ∈ w, c.isDigit = false

/-- A version with proper local segments. -/
def Pep440.Proper (v : Pep440) : Prop := ∀ w, Sum.inr w ∈ v.loc → SegmentWord w

/-- The i-th number of a release; missing numbers count as zero. -/
def Pep440.number (v : Pep440) (i : Nat) : Nat :=
  match (v.lead ++ [v.last])[i]? with
  | some n => n
  | none => 0

/-- The release comes before. -/
def ReleaseBefore (v w : Pep440) : Prop := ∃ i, (∀ j < i, v.number j = w.number j) ∧ v.number i < w.number i

/-- The place of the pre-release: development releases of the release first, pre-releases, the rest. -/
def Pep440.stage (v : Pep440) : Nat × Nat :=
  match v.pre with
  | some q => (q.1.place, q.2)
  | none => if v.post = none ∧ v.dev ≠ none then (0, 0) else (4, 0)

/-- The place of the post-release. -/
def Pep440.postPlace (v : Pep440) : Nat :=
  match v.post with
  | none => 0
  | some n => n + 1

/-- Development releases come before the rest. -/
def DevBefore : Option Nat → Option Nat → Prop
  | some a, some b => a < b
  | some _, none => True
  | none, _ => False

/-- The order of segments: words first, then numbers. -/
def SegmentBefore : Nat ⊕ List Char → Nat ⊕ List Char → Prop
  | .inl a, .inl b => a < b
  | .inr _, .inl _ => True
  | .inr a, .inr b => a < b
  | .inl _, .inr _ => False

/-- The public part of `v` comes before that of `w`. -/
def PublicBefore (v w : Pep440) : Prop :=
  ReleaseBefore v w ∨ (∀ i, v.number i = w.number i) ∧ (v.stage.1 < w.stage.1 ∨ v.stage.1 = w.stage.1 ∧ (v.stage.2 < w.stage.2 ∨ v.stage.2 = w.stage.2 ∧
    (v.postPlace < w.postPlace ∨ v.postPlace = w.postPlace ∧ DevBefore v.dev w.dev)))

/-- The versions have public parts of the same place. -/
def PublicSame (v w : Pep440) : Prop := (∀ i, v.number i = w.number i) ∧ v.stage = w.stage ∧ v.postPlace = w.postPlace ∧ v.dev = w.dev

/-- Version `v` is older than version `w`. -/
def Older (v w : Pep440) : Prop := PublicBefore v w ∨ PublicSame v w ∧ List.Lex SegmentBefore v.loc w.loc

end Spec
open Spec

/-! ### The text of a version determines it -/

theorem dotted_inj : ∀ {l m : List (List Char)}, l ≠ [] → m ≠ [] → (∀ a ∈ l, '.' ∉ a) → (∀ a ∈ m, '.' ∉ a) → dotted l = dotted m → l = m := by
  intro l
  induction l with
  | nil => intro m h; exact absurd rfl h
  | cons a l ih =>
    intro m _ hm hl hm' e
    cases m with
    | nil => exact absurd rfl hm
    | cons b m =>
      cases l with
      | nil =>
        cases m with
        | nil => simpa [dotted] using e
        | cons c m =>
          simp only [dotted] at e
          exact absurd (e ▸ List.mem_append_right _ List.mem_cons_self) (hl a List.mem_cons_self)
      | cons a' l =>
        cases m with
        | nil =>
          simp only [dotted] at e
          exact absurd (e.symm ▸ List.mem_append_right _ List.mem_cons_self) (hm' b List.mem_cons_self)
        | cons b' m =>
          simp only [dotted] at e
          obtain ⟨e1, e2⟩ := append_cons_inj (hl a List.mem_cons_self) (hm' b List.mem_cons_self) e
          rw [e1, ih (by simp) (by simp) (fun x hx => hl x (List.mem_cons_of_mem _ hx)) (fun x hx => hm' x (List.mem_cons_of_mem _ hx)) e2]

theorem digits_inj {n m : Nat} (e : Nat.toDigits 10 n = Nat.toDigits 10 m) : n = m := by
  have := congrArg (fun l => Nat.ofDigitChars 10 l 0) e
  simpa [Nat.ofDigitChars_ten_toDigits] using this

/-- A text that does not begin with a digit. -/
def Spec.NoDigitFirst (l : List Char) : Prop := ∀ c r, l = c :: r → c.isDigit = false

theorem digits_prefix_inj : ∀ {a b x y : List Char}, (∀ c ∈ a, c.isDigit = true) → (∀ c ∈ b, c.isDigit = true) → NoDigitFirst x → NoDigitFirst y →
    a ++ x = b ++ y → a = b ∧ x = y := by
  intro a
  induction a with
  | nil =>
    intro b x y _ hb hx _ e
    cases b with
    | nil => exact ⟨rfl, by simpa using e⟩
    | cons c b => simpa [hb c List.mem_cons_self] using hx c _ (by simpa using e)
  | cons d a ih =>
    intro b x y ha hb hx hy e
    cases b with
    | nil => simpa [ha d List.mem_cons_self] using hy d _ (by simpa using e.symm)
    | cons c b =>
      simp only [List.cons_append, List.cons.injEq] at e
      obtain ⟨e1, e2⟩ := ih (fun c hc => ha c (List.mem_cons_of_mem _ hc)) (fun c hc => hb c (List.mem_cons_of_mem _ hc)) hx hy e.2
      exact ⟨by rw [e.1, e1], e2⟩

theorem preText_noDigit (q : Option (PreKind × Nat)) : NoDigitFirst (preText q) := by
  intro c r h
  rcases q with _ | ⟨k, n⟩
  · simp [preText] at h
  · cases k <;> simp only [preText, PreKind.letters, List.cons_append, List.cons.injEq] at h <;> rw [← h.1] <;> decide

theorem preText_inj {q q' : Option (PreKind × Nat)} (e : preText q = preText q') : q = q' := by
  rcases q with _ | ⟨k, n⟩ <;> rcases q' with _ | ⟨k', n'⟩
  · rfl
  · cases k' <;> simp [preText, PreKind.letters] at e
  · cases k <;> simp [preText, PreKind.letters] at e
  · cases k <;> cases k' <;> simp [preText, PreKind.letters] at e <;> rw [digits_inj e]

/-- The texts after the release. -/
theorem tail_inj {p p' d d' : Option Nat} (e : p.toList.map postWord ++ d.toList.map devWord = p'.toList.map postWord ++ d'.toList.map devWord) : p = p' ∧ d = d' := by
  rcases p with _ | p <;> rcases p' with _ | p' <;> rcases d with _ | d <;> rcases d' with _ | d' <;> simp [postWord, devWord] at e ⊢
  · exact digits_inj e
  · exact digits_inj e
  · exact ⟨digits_inj e.1, digits_inj e.2⟩

/-- None of the texts after the release begins with a digit. -/
theorem tail_head {p d : Option Nat} {a : List Char} (h : a ∈ p.toList.map postWord ++ d.toList.map devWord) : NoDigitFirst a := by
  intro c r e
  rcases p with _ | p <;> rcases d with _ | d <;> simp [postWord, devWord] at h
  · rw [h] at e
    simp only [List.cons.injEq] at e
    rw [← e.1]
    decide
  · rw [h] at e
    simp only [List.cons.injEq] at e
    rw [← e.1]
    decide
  · rcases h with h | h <;> rw [h] at e <;> simp only [List.cons.injEq] at e <;> rw [← e.1] <;> decide

theorem digits_not_noDigit (n : Nat) (x : List Char) : ¬ NoDigitFirst (Nat.toDigits 10 n ++ x) := by
  intro h
  obtain ⟨c, r, e⟩ := List.exists_cons_of_ne_nil (digits_ne_nil n)
  have := h c (r ++ x) (by rw [e]; rfl)
  rw [digits_all n c (by rw [e]; exact List.mem_cons_self)] at this
  exact absurd this (by simp)

theorem words_inj : ∀ {l l' : List Nat} {a a' : Nat} {q q' : Option (PreKind × Nat)} {p p' d d' : Option Nat},
    (Pep440.mk l a q p d []).words = (Pep440.mk l' a' q' p' d' []).words → l = l' ∧ a = a' ∧ q = q' ∧ p = p' ∧ d = d' := by
  intro l
  induction l with
  | nil =>
    intro l' a a' q q' p p' d d' e
    cases l' with
    | nil =>
      simp only [Pep440.words, List.map_nil, List.nil_append, List.cons.injEq] at e
      obtain ⟨e1, e2⟩ := digits_prefix_inj (digits_all a) (digits_all a') (preText_noDigit q) (preText_noDigit q') e.1
      obtain ⟨e3, e4⟩ := tail_inj e.2
      exact ⟨rfl, digits_inj e1, preText_inj e2, e3, e4⟩
    | cons b l' =>
      exfalso
      simp only [Pep440.words, List.map_nil, List.nil_append, List.map_cons, List.cons_append, List.cons.injEq] at e
      obtain ⟨-, e⟩ := e
      cases l' with
      | nil =>
        have := tail_head (a := Nat.toDigits 10 a' ++ preText q') (p := p) (d := d) (by rw [e]; simp)
        exact digits_not_noDigit _ _ this
      | cons c l' =>
        have := tail_head (a := Nat.toDigits 10 c) (p := p) (d := d) (by rw [e]; simp)
        exact digits_not_noDigit c [] (by simpa using this)
  | cons b l ih =>
    intro l' a a' q q' p p' d d' e
    cases l' with
    | nil =>
      exfalso
      simp only [Pep440.words, List.map_nil, List.nil_append, List.map_cons, List.cons_append, List.cons.injEq] at e
      obtain ⟨-, e⟩ := e
      cases l with
      | nil =>
        have := tail_head (a := Nat.toDigits 10 a ++ preText q) (p := p') (d := d') (by rw [← e]; simp)
        exact digits_not_noDigit _ _ this
      | cons c l =>
        have := tail_head (a := Nat.toDigits 10 c) (p := p') (d := d') (by rw [← e]; simp)
        exact digits_not_noDigit c [] (by simpa using this)
    | cons b' l' =>
      simp only [Pep440.words, List.map_cons, List.cons_append, List.cons.injEq] at e
      obtain ⟨e1, e2, e3, e4, e5⟩ := ih (l' := l') (a := a) (a' := a') (q := q) (q' := q') (p := p) (p' := p') (d := d) (d' := d') (by simp only [Pep440.words]; exact e.2)
      exact ⟨by rw [digits_inj e.1, e1], e2, e3, e4, e5⟩

/-- The characters of the public part. -/
theorem words_chars (v : Pep440) : ∀ a ∈ v.words, ∀ c ∈ a, c.isDigit = true ∨ c.isLower = true := by
  intro a ha c hc
  unfold Pep440.words at ha
  rcases List.mem_append.1 ha with ha | ha
  · obtain ⟨n, -, rfl⟩ := List.mem_map.1 ha
    exact Or.inl (digits_all n c hc)
  · rcases List.mem_cons.1 ha with rfl | ha
    · rcases List.mem_append.1 hc with hc | hc
      · exact Or.inl (digits_all _ c hc)
      · rcases hq : v.pre with _ | ⟨k, n⟩ <;> rw [hq] at hc
        · simp [preText] at hc
        · rcases List.mem_append.1 hc with hc | hc
          · right
            cases k <;> simp [PreKind.letters] at hc
            · rw [hc]; decide
            · rw [hc]; decide
            · rcases hc with hc | hc <;> rw [hc] <;> decide
          · exact Or.inl (digits_all _ c hc)
    · rcases List.mem_append.1 ha with ha | ha
      · obtain ⟨n, -, rfl⟩ := List.mem_map.1 ha
        simp only [postWord, List.mem_cons] at hc
        rcases hc with rfl | rfl | rfl | rfl | hc
        · right; decide
        · right; decide
        · right; decide
        · right; decide
        · exact Or.inl (digits_all _ c hc)
      · obtain ⟨n, -, rfl⟩ := List.mem_map.1 ha
        simp only [devWord, List.mem_cons] at hc
        rcases hc with rfl | rfl | rfl | hc
        · right; decide
        · right; decide
        · right; decide
        · exact Or.inl (digits_all _ c hc)

theorem words_ne_nil (v : Pep440) : v.words ≠ [] := by simp [Pep440.words]

theorem mem_dotted {c : Char} : ∀ {l : List (List Char)}, c ∈ dotted l → c = '.' ∨ ∃ a ∈ l, c ∈ a := by
  intro l
  induction l with
  | nil => intro h; simp [dotted] at h
  | cons a l ih =>
    intro h
    cases l with
    | nil => exact Or.inr ⟨a, List.mem_cons_self, by simpa [dotted] using h⟩
    | cons b l =>
      simp only [dotted, List.mem_append, List.mem_cons] at h
      rcases h with h | h | h
      · exact Or.inr ⟨a, List.mem_cons_self, h⟩
      · exact Or.inl h
      · rcases ih h with h | ⟨x, hx, hc⟩
        · exact Or.inl h
        · exact Or.inr ⟨x, List.mem_cons_of_mem _ hx, hc⟩

theorem plus_not_public (v : Pep440) : '+' ∉ dotted v.words := by
  intro h
  rcases mem_dotted h with h | ⟨a, ha, hc⟩
  · exact absurd h (by decide)
  · rcases words_chars v a ha _ hc with h | h <;> exact absurd h (by decide)

theorem segment_chars {v : Pep440} (hv : v.Proper) : ∀ a ∈ v.loc.map segmentText, ∀ c ∈ a, c.isDigit = true ∨ c.isLower = true := by
  intro a ha c hc
  obtain ⟨s, hs, rfl⟩ := List.mem_map.1 ha
  rcases s with n | w
  · exact Or.inl (digits_all n c hc)
  · exact (hv w hs).1 c hc

theorem no_dot {l : List (List Char)} (h : ∀ a ∈ l, ∀ c ∈ a, c.isDigit = true ∨ c.isLower = true) : ∀ a ∈ l, '.' ∉ a := by
  intro a ha hc
  rcases h a ha _ hc with h | h <;> exact absurd h (by decide)

theorem segments_inj : ∀ {l m : List (Nat ⊕ List Char)}, (∀ w, Sum.inr w ∈ l → SegmentWord w) → (∀ w, Sum.inr w ∈ m → SegmentWord w) → l.map segmentText = m.map segmentText → l = m := by
  intro l
  induction l with
  | nil =>
    intro m _ _ e
    cases m with
    | nil => rfl
    | cons b m => simp at e
  | cons a l ih =>
    intro m hl hm e
    cases m with
    | nil => simp at e
    | cons b m =>
      simp only [List.map_cons, List.cons.injEq] at e
      rw [ih (fun w hw => hl w (List.mem_cons_of_mem _ hw)) (fun w hw => hm w (List.mem_cons_of_mem _ hw)) e.2]
      congr 1
      rcases a with a | a <;> rcases b with b | b
      · rw [digits_inj e.1]
      · exfalso
        obtain ⟨c, hc, h⟩ := (hm b List.mem_cons_self).2
        have e1 : Nat.toDigits 10 a = b := e.1
        rw [← e1] at hc
        rw [digits_all a c hc] at h
        exact absurd h (by simp)
      · exfalso
        obtain ⟨c, hc, h⟩ := (hl a List.mem_cons_self).2
        have e1 : a = Nat.toDigits 10 b := e.1
        rw [e1] at hc
        rw [digits_all b c hc] at h
        exact absurd h (by simp)
      · have e1 : a = b := e.1
        rw [e1]

theorem localText_first (l : List (Nat ⊕ List Char)) : localText l = [] ∨ ∃ r, localText l = '+' :: r := by
  cases l with
  | nil => exact Or.inl rfl
  | cons s l => exact Or.inr ⟨_, rfl⟩

/-- **C136** (1) No two versions have the same text. -/
theorem C136_text_unique {v w : Pep440} (hv : v.Proper) (hw : w.Proper) (e : v.text = w.text) : v = w := by
  have key : dotted v.words = dotted w.words ∧ localText v.loc = localText w.loc := by
    unfold Pep440.text at e
    rcases localText_first v.loc with h | ⟨r, h⟩ <;> rcases localText_first w.loc with h' | ⟨r', h'⟩ <;> rw [h, h'] at e
    · exact ⟨by simpa using e, by rw [h, h']⟩
    · rw [List.append_nil] at e
      exact absurd (e ▸ List.mem_append_right _ List.mem_cons_self) (plus_not_public v)
    · rw [List.append_nil] at e
      exact absurd (e.symm ▸ List.mem_append_right _ List.mem_cons_self) (plus_not_public w)
    · obtain ⟨e1, e2⟩ := append_cons_inj (plus_not_public v) (plus_not_public w) e
      exact ⟨e1, by rw [h, h', e2]⟩
  have hwords := dotted_inj (words_ne_nil v) (words_ne_nil w) (no_dot (words_chars v)) (no_dot (words_chars w)) key.1
  have hloc : v.loc = w.loc := by
    have e2 := key.2
    cases hl : v.loc with
    | nil =>
      cases hm : w.loc with
      | nil => rfl
      | cons b m => rw [hl, hm] at e2; simp [localText] at e2
    | cons a l =>
      cases hm : w.loc with
      | nil => rw [hl, hm] at e2; simp [localText] at e2
      | cons b m =>
        rw [hl, hm] at e2
        simp only [localText, List.cons.injEq, true_and] at e2
        have h1 := no_dot (segment_chars hv)
        have h2 := no_dot (segment_chars hw)
        rw [hl] at h1
        rw [hm] at h2
        have := dotted_inj (by simp) (by simp) h1 h2 e2
        exact segments_inj (by rw [← hl]; exact hv) (by rw [← hm]; exact hw) this
  obtain ⟨l, a, q, p, d, s⟩ := v
  obtain ⟨l', a', q', p', d', s'⟩ := w
  obtain ⟨rfl, rfl, rfl, rfl, rfl⟩ := words_inj (l := l) (l' := l') (a := a) (a' := a') (q := q) (q' := q') (p := p) (p' := p') (d := d) (d' := d') hwords
  simp only at hloc
  rw [hloc]

example : (Pep440.mk [1] 2 (some (.candidate, 3)) (some 4) (some 5) [.inr "g0ab".toList, .inl 7]).text = "1.2rc3.post4.dev5+g0ab.7".toList ∧
    (Pep440.mk [1] 2 (some (.candidate, 3)) (some 4) (some 5) [.inr "g0ab".toList, .inl 7]).Proper := by
  refine ⟨by decide +kernel, ?_⟩
  intro w hw
  simp only [List.mem_cons, Sum.inr.injEq, List.not_mem_nil, or_false, reduceCtorEq] at hw
  subst hw
  unfold SegmentWord
  decide +kernel

/-! ### The order of versions -/

theorem segmentBefore_irrefl : ∀ s, ¬ SegmentBefore s s := by
  rintro (a | a) h
  · exact Nat.lt_irrefl _ h
  · exact List.lt_irrefl a h

theorem lex_irrefl : ∀ l, ¬ List.Lex SegmentBefore l l := by
  intro l
  induction l with
  | nil => intro h; cases h
  | cons a l ih =>
    intro h
    cases h with
    | rel h => exact segmentBefore_irrefl a h
    | cons h => exact ih h

/-- **C136** (2) No version is older than itself. -/
theorem C136_irreflexive (v : Pep440) : ¬ Older v v := by
  rintro (h | ⟨-, h⟩)
  · rcases h with ⟨i, -, h⟩ | ⟨-, h | ⟨-, h | ⟨-, h | ⟨-, h⟩⟩⟩⟩
    · exact Nat.lt_irrefl _ h
    · exact Nat.lt_irrefl _ h
    · exact Nat.lt_irrefl _ h
    · exact Nat.lt_irrefl _ h
    · cases hd : v.dev <;> rw [hd] at h
      · exact h
      · exact Nat.lt_irrefl _ h
  · exact lex_irrefl _ h

theorem segmentBefore_trans {a b c : Nat ⊕ List Char} (h : SegmentBefore a b) (h' : SegmentBefore b c) : SegmentBefore a c := by
  rcases a with a | a <;> rcases b with b | b <;> rcases c with c | c
  · exact Nat.lt_trans h h'
  · exact h'
  · exact absurd h (by simp [SegmentBefore])
  · exact absurd h (by simp [SegmentBefore])
  · trivial
  · exact absurd h' (by simp [SegmentBefore])
  · trivial
  · exact List.lt_trans (show a < b from h) (show b < c from h')

theorem lex_trans : ∀ {l m k : List (Nat ⊕ List Char)}, List.Lex SegmentBefore l m → List.Lex SegmentBefore m k → List.Lex SegmentBefore l k := by
  intro l m k h
  induction h generalizing k with
  | nil =>
    intro h'
    cases h' with
    | rel _ => exact List.Lex.nil
    | cons _ => exact List.Lex.nil
  | rel h =>
    intro h'
    cases h' with
    | rel h' => exact List.Lex.rel (segmentBefore_trans h h')
    | cons _ => exact List.Lex.rel h
  | cons h ih =>
    intro h'
    cases h' with
    | rel h' => exact List.Lex.rel h'
    | cons h' => exact List.Lex.cons (ih h')

theorem devBefore_trans {a b c : Option Nat} (h : DevBefore a b) (h' : DevBefore b c) : DevBefore a c := by
  cases a <;> cases b <;> cases c <;> simp_all [DevBefore]
  omega

theorem publicBefore_trans {u v w : Pep440} (h : PublicBefore u v) (h' : PublicBefore v w) : PublicBefore u w := by
  rcases h with ⟨i, hi, hl⟩ | ⟨hs, h⟩
  · rcases h' with ⟨j, hj, hm⟩ | ⟨hs', -⟩
    · left
      rcases lt_trichotomy i j with hij | rfl | hij
      · exact ⟨i, fun k hk => (hi k hk).trans (hj k (hk.trans hij)), by rw [← hj i hij]; exact hl⟩
      · exact ⟨i, fun k hk => (hi k hk).trans (hj k hk), hl.trans hm⟩
      · exact ⟨j, fun k hk => (hi k (hk.trans hij)).trans (hj k hk), by rw [hi j hij]; exact hm⟩
    · exact Or.inl ⟨i, fun k hk => (hi k hk).trans (hs' k), by rw [← hs' i]; exact hl⟩
  · rcases h' with ⟨j, hj, hm⟩ | ⟨hs', h'⟩
    · exact Or.inl ⟨j, fun k hk => (hs k).trans (hj k hk), by rw [hs j]; exact hm⟩
    · refine Or.inr ⟨fun k => (hs k).trans (hs' k), ?_⟩
      rcases h with h | ⟨e, h⟩
      · rcases h' with h' | ⟨e', -⟩
        · exact Or.inl (h.trans h')
        · exact Or.inl (e' ▸ h)
      · rcases h' with h' | ⟨e', h'⟩
        · exact Or.inl (e ▸ h')
        · refine Or.inr ⟨e.trans e', ?_⟩
          rcases h with h | ⟨e, h⟩
          · rcases h' with h' | ⟨e', -⟩
            · exact Or.inl (h.trans h')
            · exact Or.inl (e' ▸ h)
          · rcases h' with h' | ⟨e', h'⟩
            · exact Or.inl (e ▸ h')
            · refine Or.inr ⟨e.trans e', ?_⟩
              rcases h with h | ⟨e, h⟩
              · rcases h' with h' | ⟨e', -⟩
                · exact Or.inl (h.trans h')
                · exact Or.inl (e' ▸ h)
              · rcases h' with h' | ⟨e', h'⟩
                · exact Or.inl (e ▸ h')
                · exact Or.inr ⟨e.trans e', devBefore_trans h h'⟩

theorem publicBefore_congr {u v w : Pep440} (h : PublicSame u v) : (PublicBefore u w ↔ PublicBefore v w) ∧ (PublicBefore w u ↔ PublicBefore w v) := by
  obtain ⟨h1, h2, h3, h4⟩ := h
  unfold PublicBefore ReleaseBefore
  simp only [h1, h2, h3, h4, and_self]

theorem publicSame_trans {u v w : Pep440} (h : PublicSame u v) (h' : PublicSame v w) : PublicSame u w :=
  ⟨fun i => (h.1 i).trans (h'.1 i), h.2.1.trans h'.2.1, h.2.2.1.trans h'.2.2.1, h.2.2.2.trans h'.2.2.2⟩

/-- **C136** (3) If one version is older than a second one and this older than a third one, the first is older than the third. -/
theorem C136_transitive {u v w : Pep440} (h : Older u v) (h' : Older v w) : Older u w := by
  rcases h with h | ⟨hs, h⟩
  · rcases h' with h' | ⟨hs', -⟩
    · exact Or.inl (publicBefore_trans h h')
    · exact Or.inl ((publicBefore_congr hs').2.1 h)
  · rcases h' with h' | ⟨hs', h'⟩
    · exact Or.inl ((publicBefore_congr hs).1.2 h')
    · exact Or.inr ⟨publicSame_trans hs hs', lex_trans h h'⟩

example : Older ⟨[1], 0, some (.candidate, 1), none, none, []⟩ ⟨[], 1, none, none, none, []⟩ ∧ Older ⟨[], 1, none, none, none, []⟩ ⟨[], 1, none, some 0, none, []⟩ := by
  have hn : ∀ i, (Pep440.mk [1] 0 (some (.candidate, 1)) none none []).number i = (Pep440.mk [] 1 none none none []).number i := by
    intro i
    match i with
    | 0 => rfl
    | 1 => rfl
    | i + 2 => simp [Pep440.number]
  exact ⟨Or.inl (Or.inr ⟨hn, Or.inl (by decide)⟩), Or.inl (Or.inr ⟨fun _ => rfl, Or.inr ⟨rfl, Or.inr ⟨rfl, Or.inl (by decide)⟩⟩⟩)⟩

end OM
