import Verif.Model.BuildVersion
import Verif.Props.VersionFile
import Verif.Props.VersionSources
import Verif.Props.Install
/-!
# C150: the version when the package is built and the version at run time
-/
set_option linter.unusedSectionVars false
namespace OM
open Spec

/-- **C150** (1): the order of the sources. Keywords in the version file count first, then the text of a written version file, then git, then the name of a directory
around; the version is unknown only if all of them fail. -/
theorem C150_order (loads : List Char → Option (List Char)) {cfg : VersioneerConfig} (hv : cfg.vcs = "git".toList) {src pre : List Char} (hs : cfg.source = some src)
    (hp : cfg.tagPrefix = some pre) (text : Option (List Char)) (git : Option (GitAnswers × Option (List Char))) (root : List (List Char)) :
    let k := gitGetKeywords (text.map textLines)
    let got := buildVersion loads cfg text git root
    (∀ r f v, k.refnames = some r → k.full = some f → k.date ≠ some [] → keywordVersion pre r = some v → got = some v) ∧
    ((k.refnames = none ∨ (k.date ≠ some [] ∧ ∃ r, k.refnames = some r ∧ keywordVersion pre r = none)) →
      (∀ t j, text = some t → versionsFromFile t = some j → got = loads j) ∧
      (text.bind versionsFromFile = none →
        (∀ g b, git = some (g, b) → got = vcsVersion cfg.style pre b g) ∧
        (git = none →
          (∀ q, cfg.parentPrefix = some q → q ≠ [] →
            (∀ i v, NamedAfter q root i v → got = some v) ∧ ((¬ ∃ i v, NamedAfter q root i v) → got = some "0+unknown".toList)) ∧
          ((cfg.parentPrefix = none ∨ cfg.parentPrefix = some []) → got = some "0+unknown".toList)))) := by
  intro k got
  have hgot : got = buildVersion loads cfg text git root := rfl
  simp only [buildVersion, hv, if_true, hs, hp] at hgot
  have hkd : gitGetKeywords (text.map textLines) = k := rfl
  rw [hkd] at hgot
  refine ⟨fun r f v h1 h2 h3 h4 => ?_, fun hnot => ?_⟩
  · have : keywordSource pre k = some (some v) := by simp [keywordSource, h1, h2, h3, h4]
    rw [this] at hgot
    exact hgot
  · have hk : keywordSource pre k = none := by
      rcases hnot with h | ⟨h1, r, h2, h3⟩
      · simp [keywordSource, h]
      · simp [keywordSource, h1, h2, h3]
    rw [hk] at hgot
    refine ⟨fun t j h1 h2 => ?_, fun h => ⟨fun g b hg => ?_, fun hg => ⟨fun q hq hne => ?_, fun hq => ?_⟩⟩⟩
    · subst h1
      simpa [h2] using hgot
    · subst hg
      simpa [h] using hgot
    · subst hg
      simp only [h, hq] at hgot
      obtain ⟨c, q', rfl⟩ : ∃ c q', q = c :: q' := by
        cases q with
        | nil => exact absurd rfl hne
        | cons c q' => exact ⟨c, q', rfl⟩
      constructor
      · intro i v hn
        have := (parentVersion_some hne 3 root v).2 ⟨i, hn.1, hn.2⟩
        simpa [this] using hgot
      · intro hn
        have : parentVersion (c :: q') 3 root = none := by
          rw [Option.eq_none_iff_forall_ne_some]
          intro v hv
          obtain ⟨i, hi, h1⟩ := (parentVersion_some hne 3 root v).1 hv
          exact hn ⟨i, v, hi, h1⟩
        simpa [this] using hgot
    · subst hg
      rcases hq with hq | hq <;> simpa [h, hq] using hgot

/-- **C150** (2): in a checkout or an archive made by git, where the version file holds the three keywords and no written version, the version when building is the
version at run time, in the style of the package; without keywords and git only if both look for the same name of a directory. -/
theorem C150_checkout_partial (loads : List Char → Option (List Char)) {cfg : VersioneerConfig} (hv : cfg.vcs = "git".toList) {src pre : List Char} (hs : cfg.source = some src)
    (hp : cfg.tagPrefix = some pre) (hst : cfg.style ∈ [[], "default".toList, "pep440".toList]) {text r f d : List Char}
    (hk : gitGetKeywords (some (textLines text)) = ⟨some r, some f, some d⟩) (hd : d ≠ []) (hf : versionsFromFile text = none) (g : Option GitAnswers)
    (branch : Option (List Char)) (levels : Nat) (file : List (List Char)) {parentPre : List Char}
    (hpar : keywordVersion pre r ≠ none ∨ g ≠ none ∨ cfg.parentPrefix = some parentPre) :
    buildVersion loads cfg (some text) (g.map fun a => (a, branch)) (file.drop levels) = some (getVersion pre parentPre levels r g file) := by
  have hd' : ¬ (some d = some ([] : List Char)) := by simpa using hd
  simp only [buildVersion, hv, if_true, hs, hp, Option.map_some, hk, keywordSource, hd', if_false, getVersion, Option.bind_some, hf]
  cases hkv : keywordVersion pre r with
  | some v => simp
  | none =>
    cases g with
    | some a =>
      simp only [Option.map_some, vcsVersion, versionOf]
      cases piecesOf pre a.full a.count a.describe with
      | none => rfl
      | some p =>
        simp only [List.mem_cons, List.not_mem_nil, or_false] at hst
        simp only [renderStyle, if_pos hst]
    | none =>
      rcases hpar with h | h | h
      · exact absurd hkv h
      · exact absurd rfl h
      · simp only [Option.map_none, h]
        cases parentPre with
        | nil => simp
        | cons c q =>
          simp only [reduceCtorEq, if_false]
          cases parentVersion (c :: q) 3 (file.drop levels) <;> rfl

theorem jsonString_line (s : List Char) : '\n' ∉ jsonString s := by
  have h : ∀ c : Char, '\n' ∉ jsonChar c := by
    intro c
    unfold jsonChar
    split_ifs with h1 h2 h3 <;> simp_all [eq_comm]
  simp only [jsonString, List.mem_cons, List.mem_append, List.mem_flatMap, List.not_mem_nil, or_false, not_or, not_exists, not_and]
  exact ⟨by decide, fun c _ => h c, by decide⟩

theorem jsonValue_line : ∀ v : VersionValue, '\n' ∉ jsonValue v
  | .text s => jsonString_line s
  | .null => by decide
  | .bool true => by decide
  | .bool false => by decide

theorem otherLine_start {c : Char} {l : List Char} (h1 : pySpace c = false) (h2 : c ≠ 'g') : OtherLine (c :: l) := by
  intro mark hm hp
  rw [List.dropWhile_cons_of_neg (by simp [h1])] at hp
  simp only [List.mem_cons, List.not_mem_nil, or_false] at hm
  rcases hm with rfl | rfl | rfl <;> · simp [List.cons_prefix_cons] at hp; exact h2 hp.1.symm

theorem otherLine_space {l : List Char} (h : OtherLine l) : OtherLine (' ' :: l) := by
  intro mark hm hp
  rw [List.dropWhile_cons_of_pos (by decide)] at hp
  exact h mark hm hp

theorem entry_other (e : List Char × VersionValue) (r : List Char) : OtherLine (' ' :: (jsonString e.1 ++ r)) :=
  otherLine_space (otherLine_start (by decide) (by decide))

theorem entries_other : ∀ (l : List (List Char × VersionValue)) {first : List Char}, OtherLine first → (∀ r, OtherLine (first ++ r)) → '\n' ∉ first →
    ∀ x ∈ textLines (first ++ l.flatMap (fun x => ',' :: '\n' :: ' ' :: (jsonString x.1 ++ ':' :: ' ' :: jsonValue x.2)) ++ ['\n', '}']), OtherLine x
  | [], first, h, _, hn => by
    intro x hx
    rw [List.flatMap_nil, List.append_nil, show first ++ ['\n', '}'] = first ++ '\n' :: ['}'] from rfl, textLines_append, textLines_line hn] at hx
    simp only [textLines, List.mem_append, List.mem_cons, List.not_mem_nil, or_false] at hx
    rcases hx with rfl | hx
    · exact h
    · have : x = ['}'] := by simpa using hx
      rw [this]
      exact otherLine_start (by decide) (by decide)
  | e :: l, first, h, h', hn => by
    intro x hx
    rw [List.flatMap_cons, show first ++ (',' :: '\n' :: ' ' :: (jsonString e.1 ++ ':' :: ' ' :: jsonValue e.2) ++
        l.flatMap fun x => ',' :: '\n' :: ' ' :: (jsonString x.1 ++ ':' :: ' ' :: jsonValue x.2)) ++ ['\n', '}'] =
      (first ++ [',']) ++ '\n' :: ((' ' :: (jsonString e.1 ++ ':' :: ' ' :: jsonValue e.2)) ++
        l.flatMap (fun x => ',' :: '\n' :: ' ' :: (jsonString x.1 ++ ':' :: ' ' :: jsonValue x.2)) ++ ['\n', '}']) by simp, textLines_append,
      textLines_line (by simp [hn])] at hx
    rcases List.mem_append.1 hx with hx | hx
    · rw [List.mem_singleton.1 hx]
      exact h' _
    · refine entries_other l (entry_other e _) (fun r => ?_) ?_ x hx
      · rw [List.cons_append, List.append_assoc]
        exact entry_other e _
      · have h1 := jsonString_line e.1
        have h2 := jsonValue_line e.2
        simp [h1, h2]

theorem dict_other (d : List (List Char × VersionValue)) : ∀ x ∈ textLines (jsonDict d), OtherLine x := by
  unfold jsonDict
  cases d.insertionSort (fun a b => a.1 ≤ b.1) with
  | nil =>
    intro x hx
    rw [textLines_line (by decide)] at hx
    rw [List.mem_singleton.1 hx]
    exact otherLine_start (by decide) (by decide)
  | cons e l =>
    intro x hx
    dsimp only at hx
    rw [show '{' :: '\n' :: ' ' :: (jsonString e.1 ++ ':' :: ' ' :: jsonValue e.2 ++
        l.flatMap (fun x => ',' :: '\n' :: ' ' :: (jsonString x.1 ++ ':' :: ' ' :: jsonValue x.2)) ++ ['\n', '}']) =
      ['{'] ++ '\n' :: ((' ' :: (jsonString e.1 ++ ':' :: ' ' :: jsonValue e.2)) ++
        l.flatMap (fun x => ',' :: '\n' :: ' ' :: (jsonString x.1 ++ ':' :: ' ' :: jsonValue x.2)) ++ ['\n', '}']) by simp, textLines_append,
      textLines_line (by decide)] at hx
    rcases List.mem_append.1 hx with hx | hx
    · rw [List.mem_singleton.1 hx]
      exact otherLine_start (by decide) (by decide)
    · refine entries_other l (entry_other e _) (fun r => ?_) ?_ x hx
      · rw [List.cons_append, List.append_assoc]
        exact entry_other e _
      · have h1 := jsonString_line e.1
        have h2 := jsonValue_line e.2
        simp [h1, h2]

theorem written_other (d : List (List Char × VersionValue)) : ∀ x ∈ textLines (writeVersionFile d), OtherLine x := by
  have e : writeVersionFile d = (versionHead ++ "version_json = '''".toList) ++ '\n' :: (jsonDict d ++ '\n' :: (versionClose ++ versionTail)) := by
    have ho : versionOpen = "version_json = '''".toList ++ ['\n'] := by decide +kernel
    simp only [writeVersionFile, versionFile, ho, List.append_assoc, List.cons_append, List.nil_append]
  have fixed : ∀ x ∈ textLines (versionHead ++ "version_json = '''".toList) ++ textLines (versionClose ++ versionTail),
      ∀ mark ∈ ["git_refnames =".toList, "git_full =".toList, "git_date =".toList], ¬ mark <+: x.dropWhile pySpace := by decide +kernel
  intro x hx
  rw [e, textLines_append, textLines_append] at hx
  rcases List.mem_append.1 hx with h | h
  · exact fixed x (List.mem_append_left _ h)
  · rcases List.mem_append.1 h with h | h
    · exact dict_other d x h
    · exact fixed x (List.mem_append_right _ h)

/-- **C150** (3): from a source distribution, whose version file was written when it was made, the package is built with the version in that file, whatever git and the
names of directories say, and whatever texts the dictionary contains. -/
theorem C150_sdist (loads : List Char → Option (List Char)) {cfg : VersioneerConfig} (hv : cfg.vcs = "git".toList) {src pre : List Char} (hs : cfg.source = some src)
    (hp : cfg.tagPrefix = some pre) (d : List (List Char × VersionValue)) (git : Option (GitAnswers × Option (List Char))) (root : List (List Char)) :
    buildVersion loads cfg (some (writeVersionFile d)) git root = loads (jsonDict d ++ ['\n']) := by
  have hk : gitGetKeywords (some (textLines (writeVersionFile d))) = {} := by
    rw [gitGetKeywords]
    exact other_lines (written_other d)
  have hr : versionsFromFile (writeVersionFile d) = some (jsonDict d ++ ['\n']) := C144_read_back _
  simp only [buildVersion, hv, if_true, hs, hp, Option.map_some, hk, keywordSource, Option.bind_some, hr]

/-- **C150** (4): exactly when `get_versions` raises, for the configuration of the package. -/
theorem C150_raises_iff (loads : List Char → Option (List Char)) (text : Option (List Char)) (git : Option (GitAnswers × Option (List Char))) (root : List (List Char)) :
    buildVersion loads packageConfig text git root = none ↔
      let k := gitGetKeywords (text.map textLines)
      (∃ r, k.refnames = some r ∧ (k.date = some [] ∨ (k.full = none ∧ keywordVersion "v".toList r ≠ none))) ∨
      ((∀ r, k.refnames = some r → k.date ≠ some [] ∧ keywordVersion "v".toList r = none) ∧ ∃ t j, text = some t ∧ versionsFromFile t = some j ∧ loads j = none) := by
  obtain ⟨style, pre, hst, hpr⟩ : ∃ style pre : List Char, style = "pep440".toList ∧ pre = "v".toList := ⟨_, _, rfl, rfl⟩
  have hc : buildVersion loads packageConfig text git root = (keywordSource pre (gitGetKeywords (text.map textLines))).getD
      (((text.bind versionsFromFile).map loads).getD ((git.map fun g => vcsVersion style pre g.2 g.1).getD (some "0+unknown".toList))) := by
    simp only [buildVersion, packageConfig, if_true, hst, hpr]
    cases keywordSource "v".toList (gitGetKeywords (text.map textLines)) <;> cases text.bind versionsFromFile <;> cases git <;> rfl
  have hvcs : ∀ b g, vcsVersion style pre b g ≠ none := by
    intro b g
    unfold vcsVersion
    cases piecesOf pre g.full g.count g.describe with
    | none => exact Option.some_ne_none _
    | some p =>
      simp only [renderStyle, if_pos (show style = [] ∨ style = "default".toList ∨ style = "pep440".toList from .inr (.inr hst))]
      exact Option.some_ne_none _
  rw [hc, ← hpr]
  clear hc hst hpr
  generalize "0+unknown".toList = unk
  generalize gitGetKeywords (text.map textLines) = k
  dsimp only
  have rest : ((text.bind versionsFromFile).map loads).getD ((git.map fun g => vcsVersion style pre g.2 g.1).getD (some unk)) = none ↔
      ∃ t j, text = some t ∧ versionsFromFile t = some j ∧ loads j = none := by
    cases text with
    | none => cases git with
      | none => simp
      | some g => simp [hvcs]
    | some t =>
      cases h : versionsFromFile t with
      | some j => simp [h]
      | none => cases git with
        | none => simp [h]
        | some g => simp [h, hvcs]
  cases hr : k.refnames with
  | none =>
    have : keywordSource pre k = none := by simp [keywordSource, hr]
    rw [this, Option.getD_none, rest]
    simp
  | some r =>
    by_cases hd : k.date = some []
    · have : keywordSource pre k = some none := by simp [keywordSource, hr, hd]
      rw [this]
      simp [hd]
    · cases hkv : keywordVersion pre r with
      | none =>
        have : keywordSource pre k = none := by simp [keywordSource, hr, hd, hkv]
        rw [this, Option.getD_none, rest]
        simp [hd, hkv]
      | some v =>
        by_cases hf : k.full = none
        · have : keywordSource pre k = some none := by simp [keywordSource, hr, hd, hkv, hf]
          rw [this]
          simp [hd, hkv, hf]
        · have : keywordSource pre k = some (some v) := by simp [keywordSource, hr, hd, hkv, hf]
          rw [this]
          simp [hd, hkv, hf]

/-- **C150**, finding: `setup.cfg` has no `parentdir_prefix`, and the version file was made with the word `None` in its place. In a tree without git inside a directory
whose name begins with `None` the version at run time is the rest of that name, when building it is unknown. -/
theorem C150_none_prefix :
    buildVersion (fun _ => none) packageConfig (some "git_refnames = \"$Format:%d$\"\ngit_full = \"$Format:%H$\"\ngit_date = \"$Format:%ci$\"\n".toList) none ["Nonesuch".toList] =
        some "0+unknown".toList ∧
      packageVersion none ["_version.py".toList, "oceanmesh".toList, "Nonesuch".toList] = "such".toList := by decide +kernel

/-- **C150**, finding: an empty date in the version file makes `get_versions` raise, also when the keywords were not expanded and git knows the version. -/
theorem C150_empty_date :
    buildVersion (fun _ => none) packageConfig (some "git_refnames = \"$Format:%d$\"\ngit_full = \"\"\ngit_date = \"\"\n".toList)
      (some (⟨"v1.2-0-gabc".toList, "abcdef".toList, 5⟩, none)) [] = none := by decide +kernel

/-! ## Examples -/

/-- The keywords of the version file in a checkout. -/
def checkoutText : List Char := "git_refnames = \"$Format:%d$\"\ngit_full = \"$Format:%H$\"\ngit_date = \"$Format:%ci$\"\n".toList

example : buildVersion (fun _ => none) packageConfig (some checkoutText) (some (⟨"v1.2-3-gabc".toList, "abcdef".toList, 5⟩, none)) [] =
    some (getVersion "v".toList "None".toList 2 "$Format:%d$".toList (some ⟨"v1.2-3-gabc".toList, "abcdef".toList, 5⟩) []) :=
  C150_checkout_partial (fun _ => none) (cfg := packageConfig) (src := "oceanmesh/_version.py".toList) (pre := "v".toList) rfl rfl rfl (by decide +kernel) (text := checkoutText)
    (r := "$Format:%d$".toList) (f := "$Format:%H$".toList) (d := "$Format:%ci$".toList) (by decide +kernel) (by decide +kernel) (by decide +kernel)
    (some ⟨"v1.2-3-gabc".toList, "abcdef".toList, 5⟩) none 2 [] (.inr (.inl (by simp)))

example : buildVersion (fun _ => none) packageConfig (some checkoutText) (some (⟨"v1.2-3-gabc".toList, "abcdef".toList, 5⟩, none)) [] = some "1.2+3.gabc".toList := by
  decide +kernel

example : buildVersion some packageConfig (some (writeVersionFile [("version".toList, .text "git_refnames = \"(tag: v9)\"".toList)]))
    (some (⟨"v1.2-3-gabc".toList, "abcdef".toList, 5⟩, none)) [] = some "{\n \"version\": \"git_refnames = \\\"(tag: v9)\\\"\"\n}\n".toList :=
  C150_sdist some (cfg := packageConfig) rfl rfl rfl _ _ _

example := C150_order (fun _ => none) (cfg := packageConfig) rfl rfl rfl (some checkoutText) none ["Nonesuch".toList]

end OM
