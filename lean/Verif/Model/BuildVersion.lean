import Verif.Model.Install
import Verif.Model.VersionSources
import Verif.Model.VersionStyles
/-!
# Model of `get_versions` (`versioneer.py`): the version when the package is built

The functions used here besides `get_versions` have the same bodies in `versioneer.py` (1074-1305, 1345-1372, 1422-1673) as in `oceanmesh/_version.py`, whose models are used.
Only the version is modelled, not the revision, the date and the messages. Directories are lists of names, the innermost first (`Model/VersionSources.lean`).
-/
namespace OM

/-- `git_versions_from_keywords` (`versioneer.py:1101-1169`) for the keywords found in the version file: `none` = `NotThisMethod`, `some none` = another exception
(`IndexError` for an empty date, `KeyError` without the revision). -/
def keywordSource (pre : List Char) (k : Keywords) : Option (Option (List Char)) :=
  match k.refnames with
  | none => none
  | some r =>
    if k.date = some [] then some none
    else
      match keywordVersion pre r with
      | none => none
      | some v => if k.full = none then some none else some (some v)

/-- `render` of the pieces git gives (`versioneer.py:1634-1673,1728-1729`); `none` = raises. -/
def vcsVersion (style pre : List Char) (branch : Option (List Char)) (g : GitAnswers) : Option (List Char) :=
  match piecesOf pre g.full g.count g.describe with
  | none => some "unknown".toList
  | some p => renderStyle style branch p

/-- `get_versions` (`versioneer.py:1680-1758`); `none` = raises. `loads` is `json.loads` with the entry `version` taken, `text` the text of the version file (`none`: it
cannot be read), `git` the answers of git and the branch (`none`: `NotThisMethod`). The only handlers are those of git. -/
def buildVersion (loads : List Char → Option (List Char)) (cfg : VersioneerConfig) (text : Option (List Char)) (git : Option (GitAnswers × Option (List Char)))
    (root : List (List Char)) : Option (List Char) :=
  if cfg.vcs = "git".toList then
    match cfg.source, cfg.tagPrefix with
    | some _, some pre =>
      match keywordSource pre (gitGetKeywords (text.map textLines)) with
      | some r => r
      | none =>
        match text.bind versionsFromFile with
        | some j => loads j
        | none =>
          match git with
          | some g => vcsVersion cfg.style pre g.2 g.1
          | none =>
            match cfg.parentPrefix with
            | some (c :: p) => some ((parentVersion (c :: p) 3 root).getD "0+unknown".toList)
            | _ => some "0+unknown".toList
    | _, _ => none
  else none

/-- The configuration of the package (`setup.cfg:40-45`, read by `versioneer.py:339-364`): there is no `parentdir_prefix`. -/
def packageConfig : VersioneerConfig :=
  ⟨"git".toList, "pep440".toList, some "oceanmesh/_version.py".toList, some "oceanmesh/_version.py".toList, some "v".toList, none⟩

end OM
