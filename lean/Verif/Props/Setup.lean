import Verif.Model.Setup
import Verif.Props.Install
/-!
# C160: the whole of `versioneer.py setup`
-/
set_option linter.unusedSectionVars false
namespace OM
open Spec

variable {parse : List Char → Option (Option (String → Option (List Char)))} {long : VersioneerConfig → List Char} {moduleOf : List Char → List Char}

theorem simple_appended {name text : List Char} (hs : OneWord name) (ht : EndsLine text) (r : List Char) :
    name ∈ simpleIncludes (text ++ ("include ".toList ++ name ++ '\n' :: r)) := by
  rw [simpleIncludes, List.mem_flatMap]
  refine ⟨"include ".toList ++ name, isLine_iff.1 (isLine_appended ht ?_ r), ?_⟩
  · rw [List.mem_append, not_or]
    exact ⟨by decide, oneWord_no_newline hs⟩
  · rw [if_pos (List.isPrefixOf_iff_prefix.2 (List.prefix_append _ _))]
    have e : "include ".toList ++ name = "include".toList ++ ([' '] ++ name) := by
      rw [← List.append_assoc]; rfl
    rw [e, pyWords_word (by intro c hc; simp at hc; subst hc; decide) (by decide) (by decide), pyWords_blanks (by decide)]
    have := pyWords_word (rest := []) (by simp) hs.1 hs.2
    rw [List.append_nil] at this
    rw [this]
    simp

theorem simple_kept {name text : List Char} (ht : EndsLine text) (r : List Char) (h : name ∈ simpleIncludes text) : name ∈ simpleIncludes (text ++ r) := by
  rw [simpleIncludes, List.mem_flatMap] at h ⊢
  obtain ⟨line, h1, h2⟩ := h
  refine ⟨line, isLine_iff.1 (isLine_kept ht r (isLine_iff.2 h1) ?_), h2⟩
  rintro rfl
  revert h2
  rw [if_neg (by decide)]
  simp

theorem manifestAfter_simple {src text : List Char} (hs : OneWord src) (ht : EndsLine text) :
    "versioneer.py".toList ∈ simpleIncludes (manifestAfter src text) ∧ src ∈ simpleIncludes (manifestAfter src text) := by
  have hv : OneWord "versioneer.py".toList := ⟨by decide, by decide⟩
  have e : "include versioneer.py\n".toList = "include ".toList ++ "versioneer.py".toList ++ '\n' :: [] := by decide
  have ht' : EndsLine (text ++ "include versioneer.py\n".toList) := Or.inr (by rw [List.getLast?_append]; rfl)
  rw [manifestAfter]
  by_cases h1 : "versioneer.py".toList ∈ simpleIncludes text <;> by_cases h2 : src ∈ simpleIncludes text
  · rw [if_pos h1, if_pos h2]
    exact ⟨h1, h2⟩
  · rw [if_pos h1, if_neg h2]
    exact ⟨simple_kept ht _ h1, simple_appended hs ht []⟩
  · rw [if_neg h1, if_pos h2]
    refine ⟨?_, simple_kept ht _ h2⟩
    rw [e]
    exact simple_appended hv ht []
  · rw [if_neg h1, if_neg h2]
    refine ⟨simple_kept ht' _ ?_, simple_appended hs ht' []⟩
    rw [e]
    exact simple_appended hv ht []

theorem manifestAfter_again {src text : List Char} (hs : OneWord src) (ht : EndsLine text) :
    manifestAfter src (manifestAfter src text) = manifestAfter src text := by
  obtain ⟨h1, h2⟩ := manifestAfter_simple hs ht
  rw [manifestAfter]
  simp only [h1, h2, if_true]

theorem attributesAfter_again {src text : List Char} (hs : OneWord src) (ht : EndsLine text) :
    attributesAfter src (attributesAfter src text) = attributesAfter src text := by
  by_cases h : markPresent src text = true
  · rw [attributesAfter, attributesAfter, if_pos h, if_pos h]
  · refine C147_once hs ?_
    rw [attributesAfter, if_neg h, attributes_line]
    exact ⟨_, ["export-subst".toList], isLine_appended ht (by simpa using oneWord_no_newline hs) [], hasWords_mark hs, by simp⟩

theorem configOf_some {sec : String → Option (List Char)} {c : VersioneerConfig} (h : configOf sec = some c) :
    sec "VCS" = some c.vcs ∧ sec "versionfile_source" = c.source := by
  unfold configOf at h
  split at h
  · cases h
  · rename_i v hv
    injection h with h
    subst h
    exact ⟨hv, rfl⟩

theorem configOf_none {sec : String → Option (List Char)} : configOf sec = none ↔ sec "VCS" = none := by
  unfold configOf
  split
  · rename_i h; simp [h]
  · rename_i v h; simp [h]

/-- **C160** (1): the setup reports success exactly if `setup.cfg` has a section `[versioneer]` that names git and a version file. -/
theorem C160_success (p : Project) : (doSetup parse long moduleOf p).2 = some 0 ↔
    ∃ t sec src, p.cfg = some t ∧ parse t = some (some sec) ∧ sec "VCS" = some "git".toList ∧ sec "versionfile_source" = some src := by
  constructor
  · intro h
    unfold doSetup at h
    split at h
    · simp at h
    · rename_i t ht
      split at h
      · simp at h
      · simp at h
      · rename_i sec hsec
        split at h
        · simp at h
        · rename_i c hc
          split at h
          · simp at h
          · rename_i src hsrc
            split at h
            · rename_i hg
              obtain ⟨a, b⟩ := configOf_some hc
              exact ⟨t, sec, src, ht, hsec, by rw [a, hg], by rw [b, hsrc]⟩
            · simp at h
  · rintro ⟨t, sec, src, ht, hsec, hv, hs⟩
    cases hc : configOf sec with
    | none => rw [configOf_none, hv] at hc; cases hc
    | some c =>
      obtain ⟨a, b⟩ := configOf_some hc
      have hg : c.vcs = "git".toList := by rw [hv] at a; injection a with a; exact a.symm
      rw [hs] at b
      simp [doSetup, ht, hsec, hc, ← b, hg]

theorem doSetup_ok {p : Project} {t src : List Char} {sec : String → Option (List Char)} {c : VersioneerConfig} (ht : p.cfg = some t) (hp : parse t = some (some sec))
    (hc : configOf sec = some c) (hs : c.source = some src) (hg : c.vcs = "git".toList) :
    doSetup parse long moduleOf p = (⟨p.cfg, some (long c), p.init.map (initAfter (moduleOf src)), manifestAfter src p.manifest, attributesAfter src p.attributes⟩, some 0) := by
  simp [doSetup, ht, hp, hc, hs, hg]

/-- **C160** (2): what a successful setup leaves, if `MANIFEST.in` and `.gitattributes` end at the end of a line and no name in `.gitattributes` continues that of the
version file: the version file has the text of the template, it and `versioneer.py` are included in source distributions, it is marked for substitution, and an
`__init__.py` without the old form of the lines has the lines that set `__version__`. -/
theorem C160_installed_partial {p : Project} {t src : List Char} {sec : String → Option (List Char)} {c : VersioneerConfig} (ht : p.cfg = some t)
    (hp : parse t = some (some sec)) (hc : configOf sec = some c) (hs : c.source = some src) (hg : c.vcs = "git".toList) (hw : OneWord src)
    (hm : EndsLine p.manifest) (ha : EndsLine p.attributes)
    (hother : ∀ line w ws, IsLine p.attributes line → HasWords line (w :: ws) → src <+: w → w = src) :
    let q := (doSetup parse long moduleOf p).1
    q.cfg = p.cfg ∧ q.version = some (long c) ∧ Included "versioneer.py".toList q.manifest ∧ Included src q.manifest ∧ Marked src q.attributes ∧
      (q.init = none ↔ p.init = none) ∧
      (∀ old, p.init = some old → ¬ oldSnippet <:+: old → ∃ new, q.init = some new ∧ initSnippet (moduleOf src) <:+: new) := by
  rw [doSetup_ok ht hp hc hs hg]
  obtain ⟨a, b, -⟩ := C147_manifest_partial hw hm
  refine ⟨rfl, rfl, a, b, C147_marked_partial hw ha hother, by simp, ?_⟩
  intro old ho hn
  exact ⟨_, by simp [ho], (C147_init hn).1⟩

/-- **C160** (3): a second run after a successful one changes nothing, if `MANIFEST.in` and `.gitattributes` ended at the end of a line and `__init__.py` has the old
form of the lines neither before nor after. -/
theorem C160_again_partial {p : Project} {t src : List Char} {sec : String → Option (List Char)} {c : VersioneerConfig} (ht : p.cfg = some t)
    (hp : parse t = some (some sec)) (hc : configOf sec = some c) (hs : c.source = some src) (hg : c.vcs = "git".toList) (hw : OneWord src)
    (hm : EndsLine p.manifest) (ha : EndsLine p.attributes)
    (hi : ∀ old, p.init = some old → ¬ oldSnippet <:+: old ∧ ¬ oldSnippet <:+: initAfter (moduleOf src) old) :
    doSetup parse long moduleOf (doSetup parse long moduleOf p).1 = doSetup parse long moduleOf p := by
  rw [doSetup_ok ht hp hc hs hg, doSetup_ok (by exact ht) hp hc hs hg]
  simp only [manifestAfter_again hw hm, attributesAfter_again hw ha, Option.map_map]
  congr 2
  cases hpi : p.init with
  | none => rfl
  | some old => exact congrArg some ((C147_init (hi old hpi).1).2 (hi old hpi).2)

/-- **C160** (4): a setup that reports an error has changed nothing but `setup.cfg`, and there it has at most added the sample at the end. -/
theorem C160_refused {p : Project} {n : Nat} (hn : n ≠ 0) (h : (doSetup parse long moduleOf p).2 = some n) :
    n = 1 ∧ ∃ cfg, (doSetup parse long moduleOf p).1 = { p with cfg := cfg } ∧ (cfg = p.cfg ∨ cfg = some (p.cfg.getD [] ++ sampleConfig)) := by
  obtain ⟨cfg, version, init, manifest, attributes⟩ := p
  have inj : ∀ {a b : Nat}, some a = some b → b = a := fun e => (Option.some.inj e).symm
  cases cfg with
  | none => exact ⟨inj h, some sampleConfig, rfl, Or.inr (congrArg some (List.nil_append sampleConfig).symm)⟩
  | some t =>
    unfold doSetup at h ⊢
    dsimp only at h ⊢
    cases hp : parse t with
    | none => rw [hp] at h; cases h
    | some o =>
      rw [hp] at h
      cases o with
      | none => exact ⟨inj h, _, rfl, Or.inr rfl⟩
      | some sec =>
        dsimp only at h ⊢
        cases hc : configOf sec with
        | none => rw [hc] at h; exact ⟨inj h, some t, rfl, Or.inl rfl⟩
        | some c =>
          rw [hc] at h
          dsimp only at h
          cases hs : c.source with
          | none => rw [hs] at h; cases h
          | some src =>
            rw [hs] at h
            dsimp only at h
            split at h
            · exact absurd (inj h) hn
            · cases h

/-- **C160** (5): the sample is added once: if `configparser` finds the section of the sample, without `VCS`, in the extended file, the second run changes nothing. -/
theorem C160_sample_once {p : Project} (h : p.cfg = none ∨ ∃ t, p.cfg = some t ∧ parse t = some none)
    (hparse : ∃ sec, parse (p.cfg.getD [] ++ sampleConfig) = some (some sec) ∧ sec "VCS" = none) :
    (doSetup parse long moduleOf p).1.cfg = some (p.cfg.getD [] ++ sampleConfig) ∧
      doSetup parse long moduleOf (doSetup parse long moduleOf p).1 = doSetup parse long moduleOf p := by
  obtain ⟨sec, h1, h2⟩ := hparse
  have h3 := configOf_none.2 h2
  have key : doSetup parse long moduleOf p = ({ p with cfg := some (p.cfg.getD [] ++ sampleConfig) }, some 1) := by
    rcases h with h | ⟨t, h, ht⟩
    · simp [doSetup, h]
    · simp [doSetup, h, ht]
  rw [key]
  refine ⟨rfl, ?_⟩
  simp only [doSetup, h1, h3]

/-- **C160** (6), finding: with another version control system than git the version file is emptied before the setup fails. -/
theorem C160_other_vcs {p : Project} {t src vcs : List Char} {sec : String → Option (List Char)} (ht : p.cfg = some t) (hp : parse t = some (some sec))
    (hs : sec "versionfile_source" = some src) (hv : sec "VCS" = some vcs) (hg : vcs ≠ "git".toList) :
    doSetup parse long moduleOf p = ({ p with version := some [] }, none) := by
  cases hc : configOf sec with
  | none => rw [configOf_none, hv] at hc; cases hc
  | some c =>
    obtain ⟨a, b⟩ := configOf_some hc
    have hg' : c.vcs ≠ "git".toList := by rw [hv] at a; injection a with a; rw [← a]; exact hg
    rw [hs] at b
    simp only [doSetup, ht, hp, hc, ← b, if_neg hg']

/-- **C160** (7): the command ends with exit code zero exactly if the setup succeeded and `setup.py` has the three texts that are looked for and none of the old ones. -/
theorem C160_command (setup : List Char) (p : Project) : (setupCommand parse long moduleOf setup p).2 = some true ↔
    (∃ t sec src, p.cfg = some t ∧ parse t = some (some sec) ∧ sec "VCS" = some "git".toList ∧ sec "versionfile_source" = some src) ∧ scanSetup setup = 0 := by
  rw [← C160_success (parse := parse) (long := long) (moduleOf := moduleOf)]
  unfold setupCommand
  dsimp only
  generalize (doSetup parse long moduleOf p).2 = r
  cases r with
  | none => simp
  | some n => simp

theorem manifestAfter_kept (src text : List Char) : text <+: manifestAfter src text := by
  unfold manifestAfter
  dsimp only
  split <;> split
  · exact List.prefix_rfl
  · exact List.prefix_append _ _
  · exact List.prefix_append _ _
  · exact (List.prefix_append _ _).trans (List.prefix_append _ _)

/-- **C160** (9): whatever the outcome, nothing that was in `setup.cfg`, `MANIFEST.in` or `.gitattributes` is lost, and no `__init__.py` is created or removed. -/
theorem C160_kept (p : Project) :
    p.cfg.getD [] <+: (doSetup parse long moduleOf p).1.cfg.getD [] ∧ p.manifest <+: (doSetup parse long moduleOf p).1.manifest ∧
      p.attributes <+: (doSetup parse long moduleOf p).1.attributes ∧ ((doSetup parse long moduleOf p).1.init = none ↔ p.init = none) := by
  cases ht : p.cfg with
  | none =>
    simp only [doSetup, ht]
    exact ⟨List.nil_prefix, List.prefix_rfl, List.prefix_rfl, trivial⟩
  | some t =>
    cases hp : parse t with
    | none => simp only [doSetup, ht, hp]; exact ⟨List.prefix_rfl, List.prefix_rfl, List.prefix_rfl, trivial⟩
    | some o =>
      cases o with
      | none => simp only [doSetup, ht, hp]; exact ⟨List.prefix_append _ _, List.prefix_rfl, List.prefix_rfl, trivial⟩
      | some sec =>
        cases hc : configOf sec with
        | none => simp only [doSetup, ht, hp, hc]; exact ⟨List.prefix_rfl, List.prefix_rfl, List.prefix_rfl, trivial⟩
        | some c =>
          cases hs : c.source with
          | none => simp only [doSetup, ht, hp, hc, hs]; exact ⟨List.prefix_rfl, List.prefix_rfl, List.prefix_rfl, trivial⟩
          | some src =>
            by_cases hg : c.vcs = "git".toList
            · rw [doSetup_ok ht hp hc hs hg]
              exact ⟨by rw [ht]; exact List.prefix_rfl, manifestAfter_kept _ _, (C147_kept _ _).1, by simp⟩
            · simp only [doSetup, ht, hp, hc, hs, if_neg hg]; exact ⟨List.prefix_rfl, List.prefix_rfl, List.prefix_rfl, trivial⟩

/-- **C160** (10): the setup is ended by an exception exactly if `configparser` rejects `setup.cfg`, or its section names a system and no version file, or another
system than git. -/
theorem C160_raises (p : Project) : (doSetup parse long moduleOf p).2 = none ↔
    ∃ t, p.cfg = some t ∧ (parse t = none ∨
      ∃ sec vcs, parse t = some (some sec) ∧ sec "VCS" = some vcs ∧ (sec "versionfile_source" = none ∨ vcs ≠ "git".toList)) := by
  cases ht : p.cfg with
  | none => simp [doSetup, ht]
  | some t =>
    cases hp : parse t with
    | none => simp [doSetup, ht, hp]
    | some o =>
      cases o with
      | none => simp [doSetup, ht, hp]
      | some sec =>
        cases hc : configOf sec with
        | none => simp [doSetup, ht, hp, hc, configOf_none.1 hc]
        | some c =>
          obtain ⟨a, b⟩ := configOf_some hc
          cases hs : c.source with
          | none => simp [doSetup, ht, hp, hc, hs, a, b]
          | some src =>
            by_cases hg : c.vcs = "git".toList
            · simp [doSetup, ht, hp, hc, hs, a, b, hg]
            · have hg' : ¬ c.vcs = ['g', 'i', 't'] := hg
              simp [doSetup, ht, hp, hc, hs, a, b, hg']

/-- A parser for the examples: a text without the section, the sample, and everything else as the section of this package. -/
def toyParse (vcs : List Char) (t : List Char) : Option (Option (String → Option (List Char))) :=
  if occursIn "[versioneer]".toList t then
    if occursIn "#VCS".toList t then some (some fun _ => none)
    else some (some fun k => if k = "VCS" then some vcs else if k = "versionfile_source" then some packageSource else none)
  else some none

/-- The project of the examples. -/
def toyProject (cfg manifest : String) : Project := ⟨some cfg.toList, some "old".toList, some "import x\n".toList, manifest.toList, []⟩

/-- **C160** (8), finding: without a newline at the end of `MANIFEST.in` a second run changes it again. -/
theorem C160_second_run : (doSetup (toyParse "git".toList) (fun _ => []) (fun _ => "_version".toList)
      (doSetup (toyParse "git".toList) (fun _ => []) (fun _ => "_version".toList) (toyProject "[versioneer]" "graft docs")).1).1 ≠
    (doSetup (toyParse "git".toList) (fun _ => []) (fun _ => "_version".toList) (toyProject "[versioneer]" "graft docs")).1 := by
  intro h
  have := congrArg Project.manifest h
  revert this
  decide +kernel

/-- C160 (1), (7) meet their hypotheses: a project that is set up. -/
example : (setupCommand (toyParse "git".toList) (fun _ => []) (fun _ => "_version".toList)
    "import versioneer\nsetup(version=versioneer.get_version(), cmdclass=versioneer.get_cmdclass())\n".toList (toyProject "[versioneer]" "graft docs\n")).2 = some true := by
  decide +kernel

/-- C160 (2), (3) for that project. -/
example : doSetup (toyParse "git".toList) (fun _ => "x".toList) (fun _ => "_version".toList)
      (doSetup (toyParse "git".toList) (fun _ => "x".toList) (fun _ => "_version".toList) (toyProject "[versioneer]" "graft docs\n")).1 =
    doSetup (toyParse "git".toList) (fun _ => "x".toList) (fun _ => "_version".toList) (toyProject "[versioneer]" "graft docs\n") := by
  refine C160_again_partial (t := "[versioneer]".toList) (src := packageSource) (c := ⟨"git".toList, [], some packageSource, none, none, none⟩)
    (sec := fun k => if k = "VCS" then some "git".toList else if k = "versionfile_source" then some packageSource else none)
    rfl ?_ ?_ rfl rfl packageSource_word (Or.inr (by decide)) (Or.inl rfl) ?_
  · rw [toyParse, if_pos (by decide +kernel), if_neg (by decide +kernel)]
  · simp [configOf]
  · intro old ho
    have ho' : "import x\n".toList = old := by injection ho
    subst ho'
    constructor <;> (rw [← occursIn_iff]; decide +kernel)

/-- C160 (2) for that project. -/
example : Marked packageSource (doSetup (toyParse "git".toList) (fun _ => "x".toList) (fun _ => "_version".toList) (toyProject "[versioneer]" "graft docs\n")).1.attributes := by
  refine (C160_installed_partial (t := "[versioneer]".toList) (src := packageSource) (c := ⟨"git".toList, [], some packageSource, none, none, none⟩)
    (sec := fun k => if k = "VCS" then some "git".toList else if k = "versionfile_source" then some packageSource else none)
    rfl ?_ ?_ rfl rfl packageSource_word (Or.inr (by decide)) (Or.inl rfl) ?_).2.2.2.2.1
  · rw [toyParse, if_pos (by decide +kernel), if_neg (by decide +kernel)]
  · simp [configOf]
  · intro line w ws hl hw hp
    obtain rfl : line = [] := by
      have := isLine_iff.1 hl
      simpa [toyProject, textLines] using this
    have := hasWords_iff.1 hw
    simp [pyWords] at this

/-- C160 (4), (5) meet their hypotheses: a `setup.cfg` without the section. -/
example : (doSetup (toyParse "git".toList) (fun _ => []) (fun _ => "_version".toList) (toyProject "[metadata]\n" "")).2 = some 1 ∧
    ∃ sec, toyParse "git".toList ("[metadata]\n".toList ++ sampleConfig) = some (some sec) ∧ sec "VCS" = none := by
  refine ⟨by decide +kernel, fun _ => none, ?_, rfl⟩
  rw [toyParse, if_pos (by decide +kernel), if_pos (by decide +kernel)]

/-- C160 (9), (10) for a `setup.cfg` that the parser rejects. -/
example : (doSetup (fun _ => none) (fun _ => []) (fun _ => []) (toyProject "[versioneer]" "graft docs")).2 = none ∧
    (doSetup (fun _ => none) (fun _ => []) (fun _ => []) (toyProject "[versioneer]" "graft docs")).1 = toyProject "[versioneer]" "graft docs" := by
  decide +kernel

/-- C160 (6) meets its hypotheses: another version control system. -/
example : (doSetup (toyParse "hg".toList) (fun _ => "x".toList) (fun _ => "_version".toList) (toyProject "[versioneer]" "")).1.version = some [] := by
  decide +kernel

end OM
