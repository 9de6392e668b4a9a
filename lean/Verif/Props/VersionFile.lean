import Verif.Model.VersionFile
/-!
# C144: version files
-/
namespace OM

theorem beforeLast_append {m s : List Char} (h : beforeLast m s = some []) : ∀ t : List Char, beforeLast m (t ++ s) = some t
  | [] => h
  | c :: t => by
    rw [List.cons_append, beforeLast, beforeLast_append h t]

theorem afterFirst_append {m : List Char} (r : List Char) : ∀ {h : List Char}, afterFirst m (h ++ m) = some [] → m ≠ [] → afterFirst m (h ++ m ++ r) = some r
  | [], _, hne => by
    obtain ⟨c, m, rfl⟩ := List.exists_cons_of_ne_nil hne
    rw [List.nil_append, List.cons_append, afterFirst, if_pos (by rw [← List.cons_append]; exact List.prefix_append _ _), ← List.cons_append, List.drop_left]
  | c :: h, he, hne => by
    have hnp : ¬ m <+: c :: (h ++ m) := by
      intro hp
      rw [List.cons_append, afterFirst, if_pos hp, Option.some.injEq, List.drop_eq_nil_iff] at he
      simp at he
      omega
    rw [List.cons_append, afterFirst, if_neg hnp] at he
    have ih := afterFirst_append r he hne
    rw [List.cons_append, List.cons_append, afterFirst, if_neg, ih]
    intro hp
    refine hnp (List.prefix_of_prefix_length_le hp (l₂ := c :: (h ++ m)) ⟨r, by simp⟩ (by simp; omega))

/-- **C144** (1) What was written to the version file is read from it, for every text: nothing in the text can be mistaken for the end. -/
theorem C144_read_back (contents : List Char) : versionsFromFile (versionFile contents) = some (contents ++ ['\n']) := by
  have h1 : afterFirst versionOpen (versionHead ++ versionOpen) = some [] := by decide +kernel
  have h2 : beforeLast versionClose (versionClose ++ versionTail) = some [] := by decide +kernel
  have e : versionFile contents = versionHead ++ versionOpen ++ ((contents ++ ['\n']) ++ (versionClose ++ versionTail)) := by simp [versionFile]
  rw [versionsFromFile, e, afterFirst_append _ h1 (by decide +kernel), Option.bind_some, beforeLast_append h2]

theorem pyTriple_plain {tail : List Char} : ∀ {s : List Char}, '\\' ∉ s → ¬ ['\'', '\'', '\''] <:+: s →
    pyTriple (s ++ '\n' :: '\'' :: '\'' :: '\'' :: tail) = some (s ++ ['\n'], tail)
  | [], _, _ => by simp [pyTriple]
  | c :: s, h1, h2 => by
    have hc : c ≠ '\\' := fun h => h1 (by simp [h])
    have ih := pyTriple_plain (tail := tail) (s := s) (fun h => h1 (List.mem_cons_of_mem _ h)) (fun h => h2 (h.trans (List.suffix_cons c s).isInfix))
    have hp : ¬ ['\'', '\'', '\''] <+: c :: (s ++ '\n' :: '\'' :: '\'' :: '\'' :: tail) := by
      intro hp
      match s, hp, h2 with
      | [], hp, _ => simp at hp
      | [a], hp, _ => simp at hp
      | a :: b :: s, hp, h2 =>
        simp only [List.cons_append, List.cons_prefix_cons, List.nil_prefix, and_true] at hp
        obtain ⟨rfl, rfl, rfl⟩ := hp
        exact h2 ⟨[], s, by simp⟩
    rw [List.cons_append, pyTriple, if_neg hp, ih]
    · rfl
    · intro h _; exact hc h
    · intro e r h _; exact hc h

/-- **C144** (2) The installed package sees the same text if it has no backslash and no three apostrophes in a row. -/
theorem C144_import_partial {contents : List Char} (h1 : '\\' ∉ contents) (h2 : ¬ ['\'', '\'', '\''] <:+: contents) :
    importedVersion contents = some ('\n' :: contents ++ ['\n']) := by
  have h := pyTriple_plain (tail := "  # END VERSION_JSON".toList ++ versionTail) (s := '\n' :: contents) (by simpa using h1) (by
    rintro ⟨a, b, h⟩
    cases a with
    | nil => simp at h
    | cons x a =>
      simp only [List.cons_append, List.cons.injEq] at h
      exact h2 ⟨a, b, h.2⟩)
  have e : '\n' :: contents ++ '\n' :: versionClose ++ versionTail = ('\n' :: contents) ++ '\n' :: '\'' :: '\'' :: '\'' :: ("  # END VERSION_JSON".toList ++ versionTail) := by
    have : versionClose = '\'' :: '\'' :: '\'' :: "  # END VERSION_JSON".toList := by decide +kernel
    rw [this]
    simp
  rw [importedVersion, e, h]
  simp

/-- No quotation mark, apostrophe, backslash or control character. -/
def Spec.PlainText (s : List Char) : Prop := ∀ c ∈ s, c ∉ ['"', '\'', '\\', '\n', '\r', '\t', '\x08', '\x0c']

open Spec

theorem plain_json {s : List Char} (h : PlainText s) : ∀ c ∈ jsonString s, c ≠ '\\' ∧ c ≠ '\'' := by
  intro c hc
  simp only [jsonString, List.mem_cons, List.mem_append, List.mem_flatMap, List.not_mem_nil, or_false] at hc
  rcases hc with rfl | ⟨x, hx, hc⟩ | rfl
  · decide
  · have := h x hx
    simp only [List.mem_cons, List.not_mem_nil, or_false, not_or] at this
    obtain ⟨a1, a2, a3, a4, a5, a6, a7, a8⟩ := this
    simp only [jsonChar, a1, a3, a4, a5, a6, a7, a8, if_false, List.mem_cons, List.not_mem_nil, or_false] at hc
    subst hc
    exact ⟨a3, a2⟩
  · decide

theorem plain_value : ∀ {v : VersionValue}, (∀ s, v = .text s → PlainText s) → ∀ c ∈ jsonValue v, c ≠ '\\' ∧ c ≠ '\''
  | .text s, h => plain_json (h s rfl)
  | .null, _ => by decide
  | .bool true, _ => by decide
  | .bool false, _ => by decide

/-- **C144** (3) So the installed package has the versions computed when it was built if keys and texts are plain. -/
theorem C144_installed_partial {versions : List (List Char × VersionValue)} (hk : ∀ e ∈ versions, PlainText e.1) (hv : ∀ e ∈ versions, ∀ s, e.2 = .text s → PlainText s) :
    importedVersion (jsonDict versions) = some ('\n' :: jsonDict versions ++ ['\n']) ∧
      versionsFromFile (writeVersionFile versions) = some (jsonDict versions ++ ['\n']) := by
  have hval : ∀ e ∈ versions, ∀ c ∈ jsonValue e.2, c ≠ '\\' ∧ c ≠ '\'' := by
    intro e he c hc
    exact plain_value (hv e he) c hc
  have hall : ∀ c ∈ jsonDict versions, c ≠ '\\' ∧ c ≠ '\'' := by
    intro c hc
    have hmem : ∀ e, e ∈ versions.insertionSort (fun a b => a.1 ≤ b.1) → e ∈ versions := fun e he => (List.mem_insertionSort _).1 he
    unfold jsonDict at hc
    generalize versions.insertionSort (fun a b => a.1 ≤ b.1) = l at hc hmem
    cases l with
    | nil => revert c; decide
    | cons e l =>
      have hp : ∀ x : Char, x ∈ ['{', '\n', ' ', ':', ',', '}'] → x ≠ '\\' ∧ x ≠ '\'' := by decide
      have hent : ∀ e', e' ∈ e :: l → ∀ x, x ∈ jsonString e'.1 ∨ x ∈ jsonValue e'.2 → x ≠ '\\' ∧ x ≠ '\'' := by
        rintro e' he' x (hx | hx)
        · exact plain_json (hk _ (hmem _ he')) _ hx
        · exact hval _ (hmem _ he') _ hx
      simp only [List.mem_cons, List.mem_append, List.mem_flatMap, List.not_mem_nil, or_false] at hc
      rcases hc with h | h | h | ((h | h | h | h) | ⟨e', he', h | h | h | h | h | h | h⟩) | h | h
      all_goals first
        | exact hent e List.mem_cons_self c (.inl h)
        | exact hent e List.mem_cons_self c (.inr h)
        | exact hent e' (List.mem_cons_of_mem _ he') c (.inl h)
        | exact hent e' (List.mem_cons_of_mem _ he') c (.inr h)
        | exact hp c (by simp [h])
  refine ⟨C144_import_partial (fun h => (hall _ h).1 rfl) ?_, C144_read_back _⟩
  rintro ⟨a, b, h⟩
  exact (hall '\'' (by rw [← h]; simp)).2 rfl

example : importedVersion (jsonDict [("version".toList, .text "1.2+3.gabc".toList), ("dirty".toList, .bool false), ("error".toList, .null)]) =
    some "\n{\n \"dirty\": false,\n \"error\": null,\n \"version\": \"1.2+3.gabc\"\n}\n".toList := by decide +kernel

/-- **C144** counterexamples: git allows quotation marks and apostrophes in the names of tags. The quotation mark is written as `\"`, which is a quotation mark in
the literal, so the installed package reads a text that is not JSON; three apostrophes end the literal. `versions_from_file` reads both. -/
theorem C144_import_differs :
    importedVersion (jsonDict [("version".toList, .text "1\"".toList)]) = some "\n{\n \"version\": \"1\"\"\n}\n".toList ∧
      versionsFromFile (writeVersionFile [("version".toList, .text "1\"".toList)]) = some "{\n \"version\": \"1\\\"\"\n}\n".toList ∧
      importedVersion (jsonDict [("version".toList, .text "1'''".toList)]) = none := by
  decide +kernel

/-! ## Keywords -/

theorem keywordValue_skip {s : List Char} : ∀ {p : List Char}, '=' ∉ p → keywordValue (p ++ '=' :: ' ' :: '"' :: (s ++ ['"'])) = some s
  | [], _ => by
    have : beforeLast ['"'] (s ++ ['"']) = some s := beforeLast_append (by decide) s
    simp [keywordValue, List.dropWhile, pySpace, this]
  | c :: p, h => by
    have hc : c ≠ '=' := fun e => h (by simp [e])
    rw [List.cons_append, keywordValue, if_neg hc]
    exact keywordValue_skip fun e => h (List.mem_cons_of_mem _ e)

/-- A line of the file that is none of the three assignments. -/
def Spec.OtherLine (line : List Char) : Prop :=
  ∀ mark ∈ ["git_refnames =".toList, "git_full =".toList, "git_date =".toList], ¬ mark <+: line.dropWhile pySpace

/-- A line `name = "value"` with spaces in front. -/
def Spec.assignment (indent : Nat) (name value : List Char) : List Char := List.replicate indent ' ' ++ (name ++ ' ' :: '=' :: ' ' :: '"' :: (value ++ ['"']))

theorem dropWhile_indent {n : Nat} {s : List Char} (h : s.dropWhile pySpace = s) : (List.replicate n ' ' ++ s).dropWhile pySpace = s := by
  induction n with
  | zero => simpa using h
  | succ n ih => rw [List.replicate_succ, List.cons_append, List.dropWhile_cons_of_pos (by decide), ih]

theorem assignment_value (n : Nat) {name : List Char} (h : '=' ∉ name) (v : List Char) : keywordValue (assignment n name v) = some v := by
  have e : assignment n name v = (List.replicate n ' ' ++ name ++ [' ']) ++ '=' :: ' ' :: '"' :: (v ++ ['"']) := by simp [assignment]
  rw [e]
  refine keywordValue_skip ?_
  simp [h, List.mem_replicate]

theorem other_step {k : Keywords} {line : List Char} (h : OtherLine line) : keywordStep k line = k := by
  have h1 := h "git_refnames =".toList (by simp)
  have h2 := h "git_full =".toList (by simp)
  have h3 := h "git_date =".toList (by simp)
  rw [keywordStep, keywordEntry, keywordEntry, keywordEntry, if_neg h1, if_neg h2, if_neg h3]

theorem other_lines : ∀ {ls : List (List Char)} {k : Keywords}, (∀ l ∈ ls, OtherLine l) → ls.foldl keywordStep k = k
  | [], _, _ => rfl
  | l :: ls, k, h => by
    rw [List.foldl_cons, other_step (h l (by simp))]
    exact other_lines fun x hx => h x (List.mem_cons_of_mem _ hx)

/-- **C144** (4) The three texts that `git archive` puts into the file are read as they are, also with quotation marks or equality signs in them. -/
theorem C144_keywords {before after : List (List Char)} (hb : ∀ l ∈ before, OtherLine l) (ha : ∀ l ∈ after, OtherLine l) (n : Nat) (refnames full date : List Char) :
    gitGetKeywords (some (before ++ [assignment n "git_refnames".toList refnames, assignment n "git_full".toList full, assignment n "git_date".toList date] ++ after)) =
      ⟨some refnames, some full, some date⟩ := by
  have v1 := assignment_value n (name := "git_refnames".toList) (by decide) refnames
  have v2 := assignment_value n (name := "git_full".toList) (by decide) full
  have v3 := assignment_value n (name := "git_date".toList) (by decide) date
  have d1 : (assignment n "git_refnames".toList refnames).dropWhile pySpace = "git_refnames".toList ++ ' ' :: '=' :: ' ' :: '"' :: (refnames ++ ['"']) :=
    dropWhile_indent (by simp [List.dropWhile, pySpace])
  have d2 : (assignment n "git_full".toList full).dropWhile pySpace = "git_full".toList ++ ' ' :: '=' :: ' ' :: '"' :: (full ++ ['"']) :=
    dropWhile_indent (by simp [List.dropWhile, pySpace])
  have d3 : (assignment n "git_date".toList date).dropWhile pySpace = "git_date".toList ++ ' ' :: '=' :: ' ' :: '"' :: (date ++ ['"']) :=
    dropWhile_indent (by simp [List.dropWhile, pySpace])
  rw [gitGetKeywords, List.foldl_append, List.foldl_append, other_lines hb, other_lines ha]
  simp only [List.foldl_cons, List.foldl_nil, keywordStep, keywordEntry, v1, v2, v3, d1, d2, d3]
  simp

example : gitGetKeywords (some ["def get_keywords():".toList, "    git_refnames = \" (tag: v1=\"a\")\"".toList, "    git_full = \"c0ffee\"".toList,
    "    git_date = \"2024-01-01\"".toList, "    return keywords".toList]) = ⟨some " (tag: v1=\"a\")".toList, some "c0ffee".toList, some "2024-01-01".toList⟩ := by
  decide +kernel
example : OtherLine "    if line.strip().startswith(\"git_refnames =\"):".toList := by unfold OtherLine; decide +kernel

end OM
