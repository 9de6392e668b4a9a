import Verif.Model.Install
import Verif.Spec.Text
/-!
# C147: what `versioneer.py setup` changes
-/
namespace OM
open Spec

/-! ## Lines -/

theorem textLines_cons_exists (t : List Char) : ∃ l r, textLines t = l :: r := by
  cases t with
  | nil => exact ⟨[], [], rfl⟩
  | cons c t =>
    rw [textLines]
    split
    · exact ⟨_, _, rfl⟩
    · split <;> exact ⟨_, _, rfl⟩

theorem textLines_first : ∀ {t l : List Char} {r : List (List Char)}, textLines t = l :: r →
    '\n' ∉ l ∧ ((r = [] ∧ t = l) ∨ ∃ u, t = l ++ '\n' :: u ∧ textLines u = r)
  | [], l, r, h => by
    rw [textLines] at h
    injection h with h1 h2
    subst h1 h2
    exact ⟨by simp, Or.inl ⟨rfl, rfl⟩⟩
  | c :: t, l, r, h => by
    rw [textLines] at h
    split at h
    · rename_i hc
      injection h with h1 h2
      subst h1 h2 hc
      exact ⟨by simp, Or.inr ⟨t, rfl, rfl⟩⟩
    · rename_i hc
      obtain ⟨l', r', h'⟩ := textLines_cons_exists t
      rw [h'] at h
      injection h with h1 h2
      subst h1 h2
      obtain ⟨a1, a2⟩ := textLines_first h'
      refine ⟨by simp [a1, Ne.symm hc], ?_⟩
      rcases a2 with ⟨b1, rfl⟩ | ⟨u, rfl, b2⟩
      · exact Or.inl ⟨b1, rfl⟩
      · exact Or.inr ⟨u, rfl, b2⟩

theorem textLines_append (u : List Char) : ∀ t : List Char, textLines (t ++ '\n' :: u) = textLines t ++ textLines u
  | [] => by simp [textLines]
  | c :: t => by
    rw [List.cons_append, textLines, textLines_append u t, textLines]
    split
    · rfl
    · obtain ⟨l, r, h⟩ := textLines_cons_exists t
      rw [h]
      rfl

theorem textLines_line : ∀ {l : List Char}, '\n' ∉ l → textLines l = [l]
  | [], _ => rfl
  | c :: l, h => by
    rw [textLines, if_neg (fun e => h (by simp [e])), textLines_line fun e => h (List.mem_cons_of_mem _ e)]

theorem mem_textLines : ∀ (n : Nat) {t line : List Char}, t.length ≤ n → line ∈ textLines t → IsLine t line
  | n, t, line, hn, hm => by
    obtain ⟨l, r, h⟩ := textLines_cons_exists t
    obtain ⟨a1, a2⟩ := textLines_first h
    rw [h, List.mem_cons] at hm
    rcases hm with rfl | hm
    · rcases a2 with ⟨-, rfl⟩ | ⟨u, rfl, -⟩
      · exact ⟨[], [], by simp, a1, Or.inl rfl, Or.inl rfl⟩
      · exact ⟨[], '\n' :: u, by simp, a1, Or.inl rfl, Or.inr rfl⟩
    · rcases a2 with ⟨rfl, -⟩ | ⟨u, rfl, b⟩
      · cases hm
      · rw [← b] at hm
        cases n with
        | zero => simp at hn
        | succ n =>
          obtain ⟨a, b, h1, h2, h3, h4⟩ := mem_textLines n (t := u) (by simp at hn; omega) hm
          refine ⟨l ++ '\n' :: a, b, by simp [h1], h2, Or.inr ?_, h4⟩
          rcases h3 with rfl | h3
          · simp
          · rw [List.getLast?_append, List.getLast?_cons, h3]
            rfl

theorem isLine_iff {t line : List Char} : IsLine t line ↔ line ∈ textLines t := by
  constructor
  · rintro ⟨a, b, rfl, h2, h3, h4⟩
    have key : ∀ b : List Char, (b = [] ∨ b.head? = some '\n') → line ∈ textLines (line ++ b) := by
      rintro b (rfl | hb)
      · rw [List.append_nil, textLines_line h2]
        simp
      · cases b with
        | nil => cases hb
        | cons c b =>
          simp only [List.head?_cons, Option.some.injEq] at hb
          subst hb
          rw [textLines_append, textLines_line h2]
          simp
    rcases h3 with rfl | h3
    · exact key b h4
    · obtain ⟨a', rfl⟩ := List.getLast?_eq_some_iff.1 h3
      rw [List.append_assoc, List.append_assoc, List.singleton_append, textLines_append]
      exact List.mem_append_right _ (key b h4)
  · exact mem_textLines _ le_rfl

/-- In a text that ends at the end of a line, a line written behind it is a line, and the lines before it stay. -/
theorem isLine_appended {t line : List Char} (ht : EndsLine t) (hl : '\n' ∉ line) (r : List Char) : IsLine (t ++ (line ++ '\n' :: r)) line :=
  ⟨t, '\n' :: r, by simp, hl, ht, Or.inr rfl⟩

theorem isLine_kept {t line : List Char} (ht : EndsLine t) (r : List Char) (h : IsLine t line) (hne : line ≠ []) : IsLine (t ++ r) line := by
  obtain ⟨a, b, rfl, h2, h3, h4⟩ := h
  refine ⟨a, b ++ r, by simp, h2, h3, ?_⟩
  rcases h4 with rfl | h4
  · exfalso
    rcases ht with ht | ht
    · simp [hne] at ht
    · rw [List.append_nil, List.getLast?_append] at ht
      obtain ⟨x, hx⟩ := Option.ne_none_iff_exists'.1 (fun hh => hne (List.getLast?_eq_none_iff.1 hh))
      rw [hx] at ht
      simp only [Option.some_or, Option.some.injEq] at ht
      subst ht
      exact h2 (List.mem_of_getLast? hx)
  · right
    cases b with
    | nil => cases h4
    | cons c b => simpa using h4

/-! ## Words -/

theorem hasWords_blank {c : Char} (hc : pySpace c = true) : ∀ {l : List Char} {ws : List (List Char)}, HasWords l ws → HasWords (c :: l) ws
  | _, _, .nil l hl => .nil _ (by intro d hd; rcases List.mem_cons.1 hd with rfl | hd; exacts [hc, hl d hd])
  | _, _, .cons a w rest ws ha hw hn hr h =>
    .cons (c :: a) w rest ws (by intro d hd; rcases List.mem_cons.1 hd with rfl | hd; exacts [hc, ha d hd]) hw hn hr h

theorem pyWords_cons (c : Char) (t : List Char) : pyWords (c :: t) = if pySpace c then pyWords t else
    match t with
    | [] => [[c]]
    | d :: _ =>
      if pySpace d then [c] :: pyWords t
      else
        match pyWords t with
        | w :: ws => (c :: w) :: ws
        | [] => [[c]] := by
  rw [pyWords.eq_def]
  cases t <;> rfl

theorem hasWords_pyWords : ∀ l : List Char, HasWords l (pyWords l)
  | [] => .nil [] (by simp)
  | c :: t => by
    have ih := hasWords_pyWords t
    rw [pyWords_cons]
    by_cases hc : pySpace c = true
    · rw [if_pos hc]
      exact hasWords_blank hc ih
    · rw [if_neg hc]
      have hc' : pySpace c = false := by simpa using hc
      cases t with
      | nil => exact .cons [] [c] [] [] (by simp) (by simp) (by simpa using hc') (by simp) (.nil [] (by simp))
      | cons d t =>
        by_cases hd : pySpace d = true
        · simp only [hd, if_true]
          exact .cons [] [c] (d :: t) _ (by simp) (by simp) (by simpa using hc') (by simpa using hd) ih
        · simp only [hd]
          revert ih
          generalize hg : pyWords (d :: t) = ws
          intro ih
          generalize hl : d :: t = l at ih
          cases ih with
          | nil l h => exact absurd (h d (by rw [← hl]; simp)) hd
          | cons a w rest ws ha hw hn hr h =>
            cases a with
            | cons x a =>
              simp only [List.cons_append, List.cons.injEq] at hl
              exact absurd (ha d (by simp [hl.1])) hd
            | nil =>
              have : c :: ([] ++ w ++ rest) = [] ++ (c :: w) ++ rest := by simp
              simp only [Bool.false_eq_true, if_false]
              rw [this]
              refine .cons [] (c :: w) rest ws (by simp) (by simp) ?_ hr h
              intro e he
              rcases List.mem_cons.1 he with rfl | he
              · exact hc'
              · exact hn e he

theorem pyWords_blanks {l : List Char} : ∀ {a : List Char}, (∀ c ∈ a, pySpace c = true) → pyWords (a ++ l) = pyWords l
  | [], _ => rfl
  | c :: a, h => by
    rw [List.cons_append, pyWords_cons]
    simp only [h c (by simp), if_true]
    exact pyWords_blanks fun d hd => h d (List.mem_cons_of_mem _ hd)

theorem pyWords_word {rest : List Char} (hr : ∀ c, rest.head? = some c → pySpace c = true) : ∀ {w : List Char}, w ≠ [] → (∀ c ∈ w, pySpace c = false) →
    pyWords (w ++ rest) = w :: pyWords rest
  | [c], _, hn => by
    have hc := hn c (by simp)
    cases rest with
    | nil => simp [pyWords, hc]
    | cons d t =>
      have hd := hr d rfl
      rw [List.singleton_append, pyWords_cons]
      simp [hc, hd]
  | c :: d :: w, _, hn => by
    have ih := pyWords_word hr (w := d :: w) (by simp) fun e he => hn e (List.mem_cons_of_mem _ he)
    have hc := hn c (by simp)
    have hd := hn d (by simp)
    rw [List.cons_append] at ih
    rw [List.cons_append, List.cons_append, pyWords_cons]
    simp only [hc, hd, Bool.false_eq_true, if_false]
    rw [ih]

theorem hasWords_iff {l : List Char} {ws : List (List Char)} : HasWords l ws ↔ pyWords l = ws := by
  constructor
  · intro h
    induction h with
    | nil l hl =>
      have := pyWords_blanks (l := []) hl
      rw [List.append_nil] at this
      exact this
    | cons a w rest ws ha hw hn hr _ ih => rw [List.append_assoc, pyWords_blanks ha, pyWords_word hr hw hn, ih]
  · rintro rfl
    exact hasWords_pyWords l

theorem pyWords_blank_end {c : Char} (hc : pySpace c = true) : ∀ l : List Char, pyWords (l ++ [c]) = pyWords l
  | [] => by simp [pyWords, hc]
  | a :: l => by
    have ih := pyWords_blank_end hc l
    rw [List.cons_append, pyWords_cons, pyWords_cons, ih]
    cases l with
    | nil => simp [hc, pyWords]
    | cons d l => rfl

theorem pyWords_strip (l : List Char) : pyWords (stripChars pySpace l) = pyWords l := by
  have key : ∀ r : List Char, pyWords (r.dropWhile pySpace).reverse = pyWords r.reverse := by
    intro r
    induction r with
    | nil => rfl
    | cons c r ih =>
      rw [List.dropWhile_cons]
      split
      · rename_i hc
        rw [ih, List.reverse_cons, pyWords_blank_end hc]
      · rfl
  rw [stripChars, key, List.reverse_reverse]
  conv_rhs => rw [← List.takeWhile_append_dropWhile (p := pySpace) (l := l)]
  exact (pyWords_blanks fun c hc => List.all_eq_true.1 List.all_takeWhile c hc).symm

theorem prefix_first_word : ∀ {src s w : List Char} {ws : List (List Char)}, src ≠ [] → (∀ c ∈ src, pySpace c = false) → src <+: s → pyWords s = w :: ws →
    src <+: w
  | [c], s, w, ws, _, hn, hp, h => by
    obtain ⟨s', rfl⟩ := hp
    have hc := hn c (by simp)
    rw [List.singleton_append, pyWords_cons] at h
    simp only [hc, Bool.false_eq_true, if_false] at h
    split at h
    · injection h with h _; subst h; exact List.prefix_refl _
    · split at h
      · injection h with h _; subst h; exact List.prefix_refl _
      · split at h <;> (injection h with h _; subst h; exact ⟨_, rfl⟩)
  | c :: d :: src, s, w, ws, _, hn, hp, h => by
    obtain ⟨s', rfl⟩ := hp
    have hc := hn c (by simp)
    have hd := hn d (by simp)
    rw [List.cons_append, List.cons_append, pyWords_cons] at h
    simp only [hc, hd, Bool.false_eq_true, if_false] at h
    cases hw : pyWords (d :: (src ++ s')) with
    | nil =>
      have := hasWords_pyWords (d :: (src ++ s'))
      rw [hw] at this
      generalize hl : d :: (src ++ s') = l at this
      cases this with
      | nil _ h' => rw [h' d (by rw [← hl]; simp)] at hd; cases hd
    | cons w' ws' =>
      rw [hw] at h
      injection h with h _
      subst h
      have := prefix_first_word (src := d :: src) (s := d :: (src ++ s')) (by simp) (fun e he => hn e (List.mem_cons_of_mem _ he)) ⟨s', rfl⟩ hw
      exact (List.cons_prefix_cons).2 ⟨rfl, this⟩

/-! ## The theorems -/

theorem attributes_line (src : List Char) : src ++ " export-subst\n".toList = (src ++ " export-subst".toList) ++ '\n' :: [] := by simp

theorem hasWords_mark {src : List Char} (hs : OneWord src) : HasWords (src ++ " export-subst".toList) [src, "export-subst".toList] := by
  rw [hasWords_iff, pyWords_word (by decide) hs.1 hs.2]
  rfl

theorem oneWord_no_newline {src : List Char} (hs : OneWord src) : '\n' ∉ src := fun h => by
  have := hs.2 _ h
  revert this
  decide

/-- **C147** (1): if `.gitattributes` ends at the end of a line and names no file that continues the name of the version file, then the version file is
marked for substitution afterwards. -/
theorem C147_marked_partial {src text : List Char} (hs : OneWord src) (ht : EndsLine text)
    (hother : ∀ line w ws, IsLine text line → HasWords line (w :: ws) → src <+: w → w = src) : Marked src (attributesAfter src text) := by
  unfold attributesAfter
  split
  · rename_i h
    rw [markPresent, List.any_eq_true] at h
    obtain ⟨line, h1, h2⟩ := h
    rw [Bool.and_eq_true, decide_eq_true_eq, pyWords_strip, List.isPrefixOf_iff_prefix] at h2
    obtain ⟨h2, h3⟩ := h2
    cases hw : pyWords line with
    | nil => rw [hw] at h3; simp at h3
    | cons w ws =>
      rw [hw] at h3
      have hp := prefix_first_word hs.1 hs.2 h2 (by rw [pyWords_strip, hw])
      have hl := isLine_iff.2 h1
      obtain rfl := hother line w ws hl (hasWords_iff.2 hw) hp
      exact ⟨line, ws, hl, hasWords_iff.2 hw, by simpa using h3⟩
  · rw [attributes_line]
    exact ⟨_, ["export-subst".toList], isLine_appended ht (by simpa using oneWord_no_newline hs) [], hasWords_mark hs, by simp⟩

/-- **C147** (2): nothing that was in `.gitattributes` is lost, and it ends at the end of a line if something was written. -/
theorem C147_kept (src text : List Char) : text <+: attributesAfter src text ∧ (attributesAfter src text = text ∨ EndsLine (attributesAfter src text)) := by
  unfold attributesAfter
  split
  · exact ⟨List.prefix_refl _, Or.inl rfl⟩
  · refine ⟨⟨_, rfl⟩, Or.inr (Or.inr ?_)⟩
    rw [attributes_line, ← List.append_assoc, List.getLast?_append]
    rfl

theorem markPresent_of_marked {src text : List Char} (hs : OneWord src) (h : Marked src text) : markPresent src text = true := by
  obtain ⟨line, ws, h1, h2, h3⟩ := h
  rw [markPresent, List.any_eq_true]
  refine ⟨line, isLine_iff.1 h1, ?_⟩
  rw [Bool.and_eq_true, decide_eq_true_eq, pyWords_strip, hasWords_iff.1 h2, List.isPrefixOf_iff_prefix]
  refine ⟨?_, by simpa using h3⟩
  generalize hx : src :: ws = x at h2
  have hd : ∀ (a w rest : List Char), (∀ c ∈ a, pySpace c = true) → w ≠ [] → (∀ c ∈ w, pySpace c = false) →
      w <+: stripChars pySpace (a ++ w ++ rest) := by
    intro a w rest ha hw hn
    have e1 : (a ++ w ++ rest).dropWhile pySpace = w ++ rest := by
      rw [List.append_assoc, List.dropWhile_append_of_pos ha]
      cases w with
      | nil => exact absurd rfl hw
      | cons c w => rw [List.cons_append, List.dropWhile_cons_of_neg (by rw [hn c (by simp)]; simp)]
    rw [stripChars, e1, List.reverse_append]
    have e2 : ∀ r : List Char, w.reverse <:+ (r ++ w.reverse).dropWhile pySpace := by
      intro r
      induction r with
      | nil =>
        rw [List.nil_append]
        cases hr : w.reverse with
        | nil => exact List.nil_suffix
        | cons c l =>
          rw [List.dropWhile_cons_of_neg (by rw [hn c (by rw [← List.mem_reverse, hr]; simp)]; simp)]
          exact List.suffix_refl _
      | cons c r ih =>
        rw [List.cons_append, List.dropWhile_cons]
        split
        · exact ih
        · exact ⟨c :: r, rfl⟩
    have := e2 rest.reverse
    rw [← List.reverse_prefix, List.reverse_reverse] at this
    exact this
  cases h2 with
  | nil _ _ => cases hx
  | cons a w rest ws' ha hw hn hr h =>
    injection hx with hx _
    subst hx
    exact hd a src rest ha hw hn

/-- **C147** (3): once the version file is marked, `.gitattributes` is not changed any more. -/
theorem C147_once {src text : List Char} (hs : OneWord src) (h : Marked src text) : attributesAfter src text = text := by
  rw [attributesAfter, if_pos (markPresent_of_marked hs h)]

/-- **C147** (4): whatever `.gitattributes` contained, running the setup twice marks the version file, unless a name continues that of the version file. -/
theorem C147_twice_partial {src text : List Char} (hs : OneWord src)
    (hother : ∀ line w ws, IsLine (attributesAfter src text) line → HasWords line (w :: ws) → src <+: w → w = src)
    (hnew : markPresent src text = false) : Marked src (attributesAfter src (attributesAfter src text)) := by
  refine C147_marked_partial hs ?_ hother
  rcases (C147_kept src text).2 with h | h
  · rw [attributesAfter, hnew] at h
    simp at h
  · exact h

theorem included_of_simple {name text : List Char} (h : name ∈ simpleIncludes text) : Included name text := by
  rw [simpleIncludes, List.mem_flatMap] at h
  obtain ⟨line, h1, h2⟩ := h
  split at h2
  · rename_i hp
    obtain ⟨r, rfl⟩ := List.isPrefixOf_iff_prefix.1 hp
    have e : pyWords ("include ".toList ++ r) = "include".toList :: pyWords r := by
      have := pyWords_word (rest := ' ' :: r) (by intro c hc; simp only [List.head?_cons, Option.some.injEq] at hc; subst hc; decide)
        (w := "include".toList) (by decide) (by decide)
      have e2 : pyWords (' ' :: r) = pyWords r := pyWords_blanks (a := [' ']) (by decide)
      rw [e2] at this
      exact this
    rw [e] at h2
    exact ⟨_, _, isLine_iff.2 h1, hasWords_iff.2 e, by simpa using h2⟩
  · cases h2

theorem included_appended {name text : List Char} (hs : OneWord name) (ht : EndsLine text) (r : List Char) :
    Included name (text ++ ("include ".toList ++ name ++ '\n' :: r)) := by
  refine ⟨"include ".toList ++ name, [name], isLine_appended ht ?_ r, ?_, by simp⟩
  · have := oneWord_no_newline hs
    simpa using this
  · have := pyWords_word (rest := ' ' :: name) (by intro c hc; simp only [List.head?_cons, Option.some.injEq] at hc; subst hc; decide)
        (w := "include".toList) (by decide) (by decide)
    have e2 : pyWords (' ' :: name) = pyWords name := pyWords_blanks (a := [' ']) (by decide)
    have e3 : pyWords name = [name] := by
      have := pyWords_word (rest := []) (by simp) hs.1 hs.2
      rw [List.append_nil] at this
      exact this
    rw [e2, e3] at this
    exact hasWords_iff.2 this

theorem included_kept {name text : List Char} (ht : EndsLine text) (r : List Char) (h : Included name text) : Included name (text ++ r) := by
  obtain ⟨line, ws, h1, h2, h3⟩ := h
  refine ⟨line, ws, isLine_kept ht r h1 ?_, h2, h3⟩
  rintro rfl
  have := hasWords_iff.1 h2
  cases this

/-- **C147** (5): if `MANIFEST.in` ends at the end of a line, `versioneer.py` and the version file are included in source distributions afterwards, and
what was included before still is. -/
theorem C147_manifest_partial {src text : List Char} (hs : OneWord src) (ht : EndsLine text) :
    Included "versioneer.py".toList (manifestAfter src text) ∧ Included src (manifestAfter src text) ∧
      ∀ name, Included name text → Included name (manifestAfter src text) := by
  have hv : OneWord "versioneer.py".toList := ⟨by decide, by decide⟩
  have e : "include versioneer.py\n".toList = "include ".toList ++ "versioneer.py".toList ++ '\n' :: [] := by decide
  have ht' : EndsLine (text ++ "include versioneer.py\n".toList) := Or.inr (by rw [List.getLast?_append]; rfl)
  unfold manifestAfter
  by_cases h1 : "versioneer.py".toList ∈ simpleIncludes text <;> by_cases h2 : src ∈ simpleIncludes text
  · simp only [h1, h2, if_true]
    exact ⟨included_of_simple h1, included_of_simple h2, fun _ h => h⟩
  · simp only [h1, h2, if_true, if_false]
    exact ⟨included_kept ht _ (included_of_simple h1), included_appended hs ht [], fun _ h => included_kept ht _ h⟩
  · simp only [h1, h2, if_true, if_false]
    refine ⟨?_, included_kept ht _ (included_of_simple h2), fun _ h => included_kept ht _ h⟩
    rw [e]
    exact included_appended hv ht []
  · simp only [h1, h2, if_false]
    refine ⟨included_kept ht' _ ?_, included_appended hs ht' [], fun _ h => included_kept ht' _ (included_kept ht _ h)⟩
    rw [e]
    exact included_appended hv ht []

theorem occursIn_iff {m : List Char} : ∀ {t : List Char}, occursIn m t = true ↔ m <:+: t
  | [] => by rw [occursIn, List.isPrefixOf_iff_prefix, List.prefix_nil, List.infix_nil]
  | c :: t => by rw [occursIn, Bool.or_eq_true, List.isPrefixOf_iff_prefix, occursIn_iff, List.infix_cons_iff]

/-- **C147** (6): the lines that set `__version__` are in `__init__.py` afterwards if it did not have the old form of them; a second run changes nothing,
if the new lines do not complete the old form. -/
theorem C147_init {m old : List Char} (h : ¬ oldSnippet <:+: old) :
    initSnippet m <:+: initAfter m old ∧ (¬ oldSnippet <:+: initAfter m old → initAfter m (initAfter m old) = initAfter m old) := by
  have h0 : occursIn oldSnippet old = false := by rw [← Bool.not_eq_true, occursIn_iff]; exact h
  have key : initSnippet m <:+: initAfter m old := by
    rw [initAfter, h0]
    simp only [Bool.false_eq_true, if_false]
    split
    · rename_i h1; exact occursIn_iff.1 h1
    · exact (List.suffix_append _ _).isInfix
  refine ⟨key, fun h1 => ?_⟩
  have h2 : occursIn oldSnippet (initAfter m old) = false := by rw [← Bool.not_eq_true, occursIn_iff]; exact h1
  rw [initAfter, h2, if_neg (by simp), if_pos (occursIn_iff.2 key)]

/-- **C147** (7), finding: the lines are recognised only with the quotation marks they were written with. In an `__init__.py` whose quotation marks were
changed by a formatter they are written again at every change of format (`oceanmesh/__init__.py:125-131` has them twice). -/
theorem C147_init_again {m old : List Char} (h : ¬ "['version']".toList <:+: old) : initAfter m old = old ++ initSnippet m := by
  have hs : "['version']".toList <:+: initSnippet m := by
    have h1 : "['version']".toList <:+: ".get_versions()['version']\n".toList := occursIn_iff.1 (by decide +kernel)
    exact h1.trans (List.suffix_append _ _).isInfix
  have ho : "['version']".toList <:+: oldSnippet := occursIn_iff.1 (by decide +kernel)
  rw [initAfter, if_neg (fun h1 => h (ho.trans (occursIn_iff.1 h1))), if_neg (fun h1 => h (hs.trans (occursIn_iff.1 h1)))]

theorem replaceText_none {m new : List Char} (hm : m ≠ []) : ∀ {t : List Char}, ¬ m <:+: t → replaceText m new 0 t = t
  | [], _ => rfl
  | c :: t, h => by
    rw [List.infix_cons_iff, not_or] at h
    rw [replaceText]
    simp only [List.isPrefixOf_iff_prefix, h.1, if_false]
    rw [replaceText_none hm h.2]

theorem replaceText_skip {m new t : List Char} : ∀ x : List Char, replaceText m new x.length (x ++ t) = replaceText m new 0 t
  | [] => rfl
  | c :: x => by
    rw [List.cons_append, List.length_cons, replaceText]
    exact replaceText_skip x

theorem replaceText_once {m new b : List Char} (hm : m ≠ []) (hb : ¬ m <:+: b) : ∀ {a : List Char},
    (∀ a' b', a ++ m ++ b = a' ++ m ++ b' → a.length ≤ a'.length) → replaceText m new 0 (a ++ m ++ b) = a ++ new ++ b
  | [], _ => by
    obtain ⟨c, m', rfl⟩ := List.exists_cons_of_ne_nil hm
    rw [List.nil_append, List.cons_append, replaceText]
    simp only [List.isPrefixOf_iff_prefix]
    rw [if_pos ⟨b, rfl⟩, List.length_cons, Nat.add_sub_cancel, replaceText_skip, replaceText_none hm hb, List.nil_append]
  | c :: a, h => by
    rw [List.cons_append, List.cons_append, replaceText]
    simp only [List.isPrefixOf_iff_prefix]
    rw [if_neg, replaceText_once hm hb]
    · simp
    · intro a' b' he
      have := h (c :: a') b' (by simpa using he)
      simpa using this
    · rintro ⟨r, hr⟩
      have := h [] r (by simpa using hr.symm)
      simp at this

/-- **C147** (old lines): where `__init__.py` has the old lines once, they are replaced by the new ones and everything else stays. -/
theorem C147_init_replaced {m a b : List Char} (hb : ¬ oldSnippet <:+: b)
    (ha : ∀ a' b', a ++ oldSnippet ++ b = a' ++ oldSnippet ++ b' → a.length ≤ a'.length) :
    initAfter m (a ++ oldSnippet ++ b) = a ++ initSnippet m ++ b := by
  rw [initAfter, if_pos (occursIn_iff.2 ⟨a, b, rfl⟩), replaceText_once (by decide) hb ha]

/-- **C147** (8): a command is run successfully exactly if the first of the commands that exists starts and ends with code zero. -/
theorem C147_run (spawn : List Char → Spawn) (out : List Char) : ∀ cs : List (List Char), runCommand spawn cs = (some out, some 0) ↔
    ∃ pre c post, cs = pre ++ c :: post ∧ (∀ d ∈ pre, spawn d = .missing) ∧ spawn c = .ran out 0
  | [] => by simp [runCommand]
  | c :: cs => by
    have ih := C147_run spawn out cs
    rw [runCommand]
    constructor
    · intro h
      cases hc : spawn c with
      | missing =>
        rw [hc] at h
        obtain ⟨pre, d, post, rfl, h1, h2⟩ := ih.1 h
        exact ⟨c :: pre, d, post, rfl, by intro e he; rcases List.mem_cons.1 he with rfl | he; exacts [hc, h1 e he], h2⟩
      | refused => rw [hc] at h; simp at h
      | ran o k =>
        rw [hc] at h
        by_cases hk : k = 0
        · subst hk
          simp at h
          subst h
          exact ⟨[], c, cs, rfl, by simp, hc⟩
        · simp [hk] at h
    · rintro ⟨pre, d, post, h0, h1, h2⟩
      cases pre with
      | nil =>
        injection h0 with h0 _
        subst h0
        rw [h2]
        simp
      | cons e pre =>
        injection h0 with h0 h3
        subst h0
        rw [h1 c (by simp)]
        exact ih.2 ⟨pre, d, post, h3, fun e he => h1 e (List.mem_cons_of_mem _ he), h2⟩

/-- **C147** (9): a text comes back exactly together with exit code zero. -/
theorem C147_run_code (spawn : List Char → Spawn) : ∀ cs : List (List Char), ((runCommand spawn cs).1 ≠ none ↔ (runCommand spawn cs).2 = some 0)
  | [] => by simp [runCommand]
  | c :: cs => by
    rw [runCommand]
    cases spawn c with
    | missing => exact C147_run_code spawn cs
    | refused => simp
    | ran o k => by_cases hk : k = 0 <;> simp [hk]

/-- **C147** (10): the root is the current directory if that contains `setup.py` or `versioneer.py`, otherwise the directory of the script if that does,
otherwise an exception is raised. -/
theorem C147_root {D : Type} (hasSetup hasVersioneer : D → Bool) (cwd script d : D) : getRoot hasSetup hasVersioneer cwd script = some d ↔
    (hasSetup d = true ∨ hasVersioneer d = true) ∧ (d = cwd ∨ d = script ∧ hasSetup cwd = false ∧ hasVersioneer cwd = false) := by
  unfold getRoot
  have e : ∀ x, (hasSetup x || hasVersioneer x) = true ↔ hasSetup x = true ∨ hasVersioneer x = true := fun x => by simp
  by_cases h1 : hasSetup cwd = true ∨ hasVersioneer cwd = true
  · rw [if_pos ((e cwd).2 h1), Option.some.injEq]
    constructor
    · rintro rfl
      exact ⟨h1, Or.inl rfl⟩
    · rintro ⟨-, rfl | ⟨-, h2, h3⟩⟩
      · rfl
      · rw [h2, h3] at h1
        simp at h1
  · rw [if_neg (fun h => h1 ((e cwd).1 h))]
    have h1' : hasSetup cwd = false ∧ hasVersioneer cwd = false := by simpa using h1
    by_cases h2 : hasSetup script = true ∨ hasVersioneer script = true
    · rw [if_pos ((e script).2 h2), Option.some.injEq]
      constructor
      · rintro rfl
        exact ⟨h2, Or.inr ⟨rfl, h1'⟩⟩
      · rintro ⟨h3, rfl | ⟨rfl, -⟩⟩
        · exact absurd h3 h1
        · rfl
    · rw [if_neg (fun h => h2 ((e script).1 h))]
      constructor
      · intro h; cases h
      · rintro ⟨h3, rfl | ⟨rfl, -⟩⟩
        · exact absurd h3 h1
        · exact absurd h3 h2

/-- **C147** (11): the configuration needs `VCS` only; a prefix of tags written as two quotation marks is empty, any other is kept. -/
theorem C147_config (sec : String → Option (List Char)) :
    (configOf sec = none ↔ sec "VCS" = none) ∧
    ∀ cfg, configOf sec = some cfg → sec "VCS" = some cfg.vcs ∧ (cfg.style = [] ↔ sec "style" = none ∨ sec "style" = some []) ∧
      (cfg.tagPrefix = some [] ↔ sec "tag_prefix" = some [] ∨ sec "tag_prefix" = some "''".toList ∨ sec "tag_prefix" = some "\"\"".toList) ∧
      (cfg.tagPrefix = none ↔ sec "tag_prefix" = none) ∧
      (∀ p, p ≠ [] → cfg.tagPrefix = some p → sec "tag_prefix" = some p) ∧ cfg.source = sec "versionfile_source" := by
  unfold configOf
  cases hv : sec "VCS" with
  | none => simp
  | some v =>
    refine ⟨by simp, fun cfg h => ?_⟩
    simp only [Option.some.injEq] at h
    subst h
    refine ⟨rfl, ?_, ?_, ?_, ?_, rfl⟩
    · cases sec "style" <;> simp
    · dsimp only
      split
      · rename_i h; rcases h with h | h <;> simp [h]
      · rename_i h
        constructor
        · exact Or.inl
        · rintro (h1 | h1 | h1)
          · exact h1
          · exact absurd (Or.inl h1) h
          · exact absurd (Or.inr h1) h
    · dsimp only
      split
      · rename_i h; rcases h with h | h <;> simp [h]
      · exact Iff.rfl
    · intro p hp h1
      dsimp only at h1
      split at h1
      · exact absurd (Option.some.inj h1).symm hp
      · exact h1

theorem line_occurs {m : List Char} (hm : '\n' ∉ m) {t : List Char} : (textLines t).any (occursIn m) = true ↔ m <:+: t := by
  rw [List.any_eq_true]
  constructor
  · rintro ⟨line, h1, h2⟩
    obtain ⟨a, b, rfl, -⟩ := isLine_iff.2 h1
    exact (occursIn_iff.1 h2).trans ⟨a, b, rfl⟩
  · rintro ⟨a, b, rfl⟩
    have pre : ∀ u : List Char, ∃ v w, u = v ++ w ∧ '\n' ∉ v ∧ (w = [] ∨ w.head? = some '\n') := by
      intro u
      induction u with
      | nil => exact ⟨[], [], rfl, by simp, Or.inl rfl⟩
      | cons c u ih =>
        by_cases hc : c = '\n'
        · exact ⟨[], c :: u, rfl, by simp, Or.inr (by rw [hc]; rfl)⟩
        · obtain ⟨v, w, rfl, h1, h2⟩ := ih
          exact ⟨c :: v, w, rfl, by simp [h1, Ne.symm hc], h2⟩
    obtain ⟨v, w, rfl, h1, h2⟩ := pre b
    obtain ⟨v', w', e, h3, h4⟩ := pre a.reverse
    have ea : a = w'.reverse ++ v'.reverse := by rw [← List.reverse_append, ← e, List.reverse_reverse]
    subst ea
    refine ⟨v'.reverse ++ m ++ v, isLine_iff.1 ⟨w'.reverse, w, by simp, by simp [h1, h3, hm], ?_, h2⟩, occursIn_iff.2 ⟨_, _, rfl⟩⟩
    rcases h4 with rfl | h4
    · exact Or.inl rfl
    · exact Or.inr (by rw [List.getLast?_reverse]; exact h4)

/-- **C147** (12): `setup.py` has no errors exactly if its text contains the import and the two calls and none of the two old settings, wherever they
stand. -/
theorem C147_scan (t : List Char) : scanSetup t = 0 ↔
    ("import versioneer".toList <:+: t ∧ "versioneer.get_cmdclass()".toList <:+: t ∧ "versioneer.get_version()".toList <:+: t) ∧
      ¬ "versioneer.VCS".toList <:+: t ∧ ¬ "versioneer.versionfile_source".toList <:+: t := by
  have l1 := line_occurs (m := "import versioneer".toList) (by decide) (t := t)
  have l2 := line_occurs (m := "versioneer.get_cmdclass()".toList) (by decide) (t := t)
  have l3 := line_occurs (m := "versioneer.get_version()".toList) (by decide) (t := t)
  have l4 := line_occurs (m := "versioneer.VCS".toList) (by decide) (t := t)
  have l5 := line_occurs (m := "versioneer.versionfile_source".toList) (by decide) (t := t)
  rw [← l1, ← l2, ← l3, ← l4, ← l5]
  unfold scanSetup
  simp only [Nat.add_eq_zero_iff]
  have k1 : ∀ x y z : Bool, (if (x && y && z) = true then 0 else 1) = 0 ↔ x = true ∧ y = true ∧ z = true := by decide
  have k2 : ∀ x y : Bool, (if (x || y) = true then 1 else 0) = 0 ↔ ¬ x = true ∧ ¬ y = true := by decide
  exact and_congr (k1 _ _ _) (k2 _ _)

/-! ## Findings and examples -/

/-- `Marked` as a computation. -/
def markedIn (src text : List Char) : Bool :=
  (textLines text).any fun line => match pyWords line with
    | w :: ws => decide (w = src) && decide ("export-subst".toList ∈ ws)
    | [] => false

theorem markedIn_iff {src text : List Char} : Marked src text ↔ markedIn src text = true := by
  rw [markedIn, List.any_eq_true]
  constructor
  · rintro ⟨line, ws, h1, h2, h3⟩
    refine ⟨line, isLine_iff.1 h1, ?_⟩
    rw [hasWords_iff.1 h2]
    exact Bool.and_eq_true_iff.2 ⟨decide_eq_true rfl, decide_eq_true h3⟩
  · rintro ⟨line, h1, h2⟩
    split at h2
    · rename_i w ws hw
      obtain ⟨h3, h4⟩ := Bool.and_eq_true_iff.1 h2
      obtain rfl := of_decide_eq_true h3
      replace h2 := of_decide_eq_true h4
      exact ⟨line, ws, isLine_iff.2 h1, hasWords_iff.2 hw, h2⟩
    · cases h2

/-- `Included` as a computation. -/
def includedIn (name text : List Char) : Bool :=
  (textLines text).any fun line => match pyWords line with
    | w :: ws => decide (w = "include".toList) && decide (name ∈ ws)
    | [] => false

theorem includedIn_iff {name text : List Char} : Included name text ↔ includedIn name text = true := by
  rw [includedIn, List.any_eq_true]
  constructor
  · rintro ⟨line, ws, h1, h2, h3⟩
    refine ⟨line, isLine_iff.1 h1, ?_⟩
    rw [hasWords_iff.1 h2]
    simpa using h3
  · rintro ⟨line, h1, h2⟩
    split at h2
    · rename_i w ws hw
      obtain ⟨h3, h4⟩ := Bool.and_eq_true_iff.1 h2
      obtain rfl := of_decide_eq_true h3
      replace h2 := of_decide_eq_true h4
      exact ⟨line, ws, isLine_iff.2 h1, hasWords_iff.2 hw, h2⟩
    · cases h2

/-- `versionfile_source` of the package (`setup.cfg`). -/
def packageSource : List Char := "oceanmesh/_version.py".toList

/-- **C147**, finding: if the last line of `.gitattributes` does not end with a newline, the mark is written into that line, so the version file is not
marked and the last pattern gets a wrong attribute. -/
theorem C147_glued : ¬ Marked packageSource (attributesAfter packageSource "*.nc binary".toList) ∧
    attributesAfter packageSource "*.nc binary".toList = "*.nc binaryoceanmesh/_version.py export-subst\n".toList := by
  rw [markedIn_iff]
  decide +kernel

/-- **C147**, finding: a line for a file whose name continues the name of the version file is taken for its line, so the mark is not written. -/
theorem C147_longer_name : ¬ Marked packageSource (attributesAfter packageSource "oceanmesh/_version.py.orig export-subst\n".toList) ∧
    attributesAfter packageSource "oceanmesh/_version.py.orig export-subst\n".toList = "oceanmesh/_version.py.orig export-subst\n".toList := by
  rw [markedIn_iff]
  decide +kernel

/-- **C147**, finding: if the last line of `MANIFEST.in` does not end with a newline, `versioneer.py` is not included. -/
theorem C147_manifest_glued : ¬ Included "versioneer.py".toList (manifestAfter packageSource "graft docs".toList) ∧
    Included packageSource (manifestAfter packageSource "graft docs".toList) := by
  rw [includedIn_iff, includedIn_iff]
  decide +kernel

/-- **C147**, finding: if `__init__.py` ends with the old lines but without the last newline, the new lines are written behind them, and the next run
replaces the old ones, so that it takes two runs to reach the final text. -/
theorem C147_init_unsettled : ∃ old : List Char, ¬ oldSnippet <:+: old ∧ initAfter "_version".toList (initAfter "_version".toList old) ≠ initAfter "_version".toList old := by
  refine ⟨oldSnippet.dropLast, fun h => ?_, by decide +kernel⟩
  have := h.length_le
  revert this
  decide +kernel

/-- **C147**, finding: a directory with `versioneer.py` alone is taken for the root, although `get_root` is documented to need `setup.py`,
`setup.cfg` and `versioneer.py`. -/
theorem C147_root_without_setup : getRoot (fun _ : Nat => false) (fun d => d == 1) 1 2 = some 1 := rfl

/-- **C147**, finding: a comment is enough for `scan_setup_py`. -/
theorem C147_scan_comment : scanSetup "# import versioneer, versioneer.get_cmdclass(), versioneer.get_version()\n".toList = 0 := by decide +kernel

theorem packageSource_word : OneWord packageSource := ⟨by decide, by decide⟩

-- the files of the package: `.gitattributes` and `MANIFEST.in` are complete, the lines in `__init__.py` are not recognised
example : attributesAfter packageSource "oceanmesh/_version.py export-subst\n".toList = "oceanmesh/_version.py export-subst\n".toList :=
  C147_once packageSource_word (markedIn_iff.2 (by decide +kernel))

example : manifestAfter packageSource "include tests/*\n\ninclude README.md LICENSE.txt\ninclude versioneer.py\ninclude oceanmesh/_version.py\n".toList =
    "include tests/*\n\ninclude README.md LICENSE.txt\ninclude versioneer.py\ninclude oceanmesh/_version.py\n".toList := by decide +kernel

example := C147_init_again (m := "_version".toList) (old := "\nfrom . import _version\n\n__version__ = _version.get_versions()[\"version\"]\n".toList)
  (fun h => absurd (occursIn_iff.2 h) (by decide +kernel))

example : Marked packageSource (attributesAfter packageSource "*.nc binary\n".toList) := by
  refine C147_marked_partial packageSource_word (Or.inr rfl) ?_
  intro line w ws h1 h2 h3
  rw [isLine_iff] at h1
  rw [hasWords_iff] at h2
  have e : textLines "*.nc binary\n".toList = ["*.nc binary".toList, []] := by decide +kernel
  rw [e] at h1
  simp only [List.mem_cons, List.not_mem_nil, or_false] at h1
  rcases h1 with rfl | rfl
  · have e2 : pyWords "*.nc binary".toList = ["*.nc".toList, "binary".toList] := by decide +kernel
    rw [e2] at h2
    injection h2 with h2 _
    subst h2
    exact absurd h3 (by decide)
  · cases h2

example : Included packageSource (manifestAfter packageSource "graft docs\n".toList) := (C147_manifest_partial packageSource_word (Or.inr rfl)).2.1

example : initAfter "_version".toList (oldSnippet ++ "x = 1\n".toList) = initSnippet "_version".toList ++ "x = 1\n".toList :=
  C147_init_replaced (a := []) (fun h => absurd (occursIn_iff.2 h) (by decide +kernel)) (fun _ _ _ => Nat.zero_le _)

example : initAfter "_version".toList ("import os\n".toList ++ oldSnippet ++ "x = 1\n".toList) =
    "import os\n".toList ++ initSnippet "_version".toList ++ "x = 1\n".toList := by decide +kernel

example := C147_init (m := "_version".toList) (old := "import os\n".toList) (fun h => absurd (occursIn_iff.2 h) (by decide +kernel))

example : runCommand (fun c => if c = "git.cmd".toList then .missing else .ran "v1.0-3-gabc".toList 0) ["git.cmd".toList, "git.exe".toList] =
    (some "v1.0-3-gabc".toList, some 0) :=
  (C147_run _ _ _).2 ⟨["git.cmd".toList], "git.exe".toList, [], rfl, fun d hd => by rw [List.mem_singleton.1 hd, if_pos rfl],
    if_neg (by decide)⟩

example := (C147_config fun k => if k = "VCS" then some "git".toList else if k = "tag_prefix" then some "''".toList else none).2 _ rfl

example : scanSetup "import versioneer\ncmdclass = versioneer.get_cmdclass()\n    version=versioneer.get_version(),\n".toList = 0 := by decide +kernel

end OM
