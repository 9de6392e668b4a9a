import Verif.Model.Version
/-!
# Model of `get_versions` (`oceanmesh/_version.py`): where the version comes from

A directory is the list of the names on the way to it, the innermost first; the root directory is the empty list. Only the version is modelled, not the
revision, the date and the messages. The case without `__file__` is left out.
-/
namespace OM

/-- `os.path.basename` of a real path (`oceanmesh/_version.py:119`); the root directory has an empty name. -/
def baseName (dir : List (List Char)) : List Char :=
  match dir with
  | [] => []
  | n :: _ => n

/-- The loop of `versions_from_parentdir` (`oceanmesh/_version.py:118-129`) with `k` passes left; `none` = `NotThisMethod`. -/
def parentVersion (pre : List Char) : Nat → List (List Char) → Option (List Char)
  | 0, _ => none
  | k + 1, dir => if pre <+: baseName dir then some ((baseName dir).drop pre.length) else parentVersion pre k dir.tail

/-- The commands of git as `git_pieces_from_vcs` sees them (`oceanmesh/_version.py:256-298,361`): outputs of `describe`, `rev-parse HEAD` and the number of
commits. -/
structure GitAnswers where
  describe : List Char
  full : List Char
  count : Nat

/-- `get_versions` (`oceanmesh/_version.py:628-677`). `git` is `none` if one of the commands fails (`NotThisMethod`). `file` is the path of the module itself,
which is as many levels below the root of the source tree as `versionfile_source` has names (`levels`, 2 in `oceanmesh/_version.py:46`). -/
def getVersion (pre parentPre : List Char) (levels : Nat) (refnames : List Char) (git : Option GitAnswers) (file : List (List Char)) : List Char :=
  match keywordVersion pre refnames with
  | some v => v
  | none =>
    match git with
    | some g => versionOf pre g.full g.count g.describe
    | none =>
      if parentPre = [] then "0+unknown".toList
      else
        match parentVersion parentPre 3 (file.drop levels) with
        | some v => v
        | none => "0+unknown".toList

/-- `get_versions` with the values written into the file (`oceanmesh/_version.py:26,42-46`): before `git archive` replaces the keywords. -/
def packageVersion (git : Option GitAnswers) (file : List (List Char)) : List Char :=
  getVersion "v".toList "None".toList 2 "$Format:%d$".toList git file

end OM
