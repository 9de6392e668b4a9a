import Verif.Model.VersionFile
/-!
# Model of `versioneer.py setup`: the files it changes, the commands it runs

Texts are lists of characters. Lines end with a newline character; the other ends of lines that Python translates when it reads a text are not modelled,
and blanks are the ones of `pySpace`. A file that does not exist is an empty text: reading it finds nothing and writing to its end creates it.
-/
namespace OM

/-- What `subprocess.Popen` does for one command (`versioneer.py:395-415`): the command does not exist (`ENOENT`), it cannot be started for another
reason, or it runs and ends with its output (already stripped and decoded) and its exit code. -/
inductive Spawn where
  | missing
  | refused
  | ran (out : List Char) (code : Int)

/-- `run_command` (`versioneer.py:387-425`, the same in `oceanmesh/_version.py:73-109`): output and exit code. -/
def runCommand (spawn : List Char → Spawn) : List (List Char) → Option (List Char) × Option Int
  | [] => (none, none)
  | c :: cs =>
    match spawn c with
    | .missing => runCommand spawn cs
    | .refused => (none, none)
    | .ran out code => if code ≠ 0 then (none, some code) else (some out, some code)

/-- `get_root` (`versioneer.py:296-336`): `cwd` is the current directory, `script` the directory of `sys.argv[0]`; `hasSetup` and `hasVersioneer` tell
which directories contain `setup.py` and `versioneer.py`. `none`: `VersioneerBadRootError`. The warning of `:326-335` is left out. -/
def getRoot {D : Type} (hasSetup hasVersioneer : D → Bool) (cwd script : D) : Option D :=
  if hasSetup cwd || hasVersioneer cwd then some cwd
  else if hasSetup script || hasVersioneer script then some script
  else none

/-- `VersioneerConfig` (`versioneer.py:292-293,354-363`) without `verbose`. -/
structure VersioneerConfig where
  vcs : List Char
  style : List Char
  source : Option (List Char)
  build : Option (List Char)
  tagPrefix : Option (List Char)
  parentPrefix : Option (List Char)

/-- `get_config_from_root` (`versioneer.py:339-364`) for the section `[versioneer]` of `setup.cfg` as a function; `none`: the section lacks `VCS`.
Interpolation of values by `configparser` is left out. -/
def configOf (section_ : String → Option (List Char)) : Option VersioneerConfig :=
  match section_ "VCS" with
  | none => none
  | some vcs =>
    let p := section_ "tag_prefix"
    some ⟨vcs, (section_ "style").getD [], section_ "versionfile_source", section_ "versionfile_build",
      if p = some ['\'', '\''] ∨ p = some ['"', '"'] then some [] else p, section_ "parentdir_prefix"⟩

/-- The lines of a text without their newline characters (`for line in fobj`, `versioneer.py:1331,2087`). After a final newline there is an empty line,
which Python does not give; it matches nothing. -/
def textLines : List Char → List (List Char)
  | [] => [[]]
  | c :: t =>
    if c = '\n' then [] :: textLines t
    else
      match textLines t with
      | l :: r => (c :: l) :: r
      | [] => [[c]]

/-- `line.split()` (`versioneer.py:1333,2089`). -/
def pyWords : List Char → List (List Char)
  | [] => []
  | c :: t =>
    if pySpace c then pyWords t
    else
      match t with
      | [] => [[c]]
      | d :: _ =>
        if pySpace d then [c] :: pyWords t
        else
          match pyWords t with
          | w :: ws => (c :: w) :: ws
          | [] => [[c]]

/-- `present` in `do_vcs_install` (`versioneer.py:1328-1337`). -/
def markPresent (src attributes : List Char) : Bool :=
  (textLines attributes).any fun line =>
    src.isPrefixOf (stripChars pySpace line) && decide ("export-subst".toList ∈ (pyWords (stripChars pySpace line)).drop 1)

/-- `.gitattributes` after `do_vcs_install` (`versioneer.py:1338-1341`). Adding the files to git is left out. -/
def attributesAfter (src attributes : List Char) : List Char :=
  if markPresent src attributes then attributes else attributes ++ (src ++ " export-subst\n".toList)

/-- `simple_includes` in `do_setup` (`versioneer.py:2084-2092`). -/
def simpleIncludes (manifest : List Char) : List (List Char) :=
  (textLines manifest).flatMap fun line => if "include ".toList.isPrefixOf line then (pyWords line).drop 1 else []

/-- `MANIFEST.in` after `do_setup` (`versioneer.py:2097-2111`). -/
def manifestAfter (src manifest : List Char) : List Char :=
  let m := if "versioneer.py".toList ∈ simpleIncludes manifest then manifest else manifest ++ "include versioneer.py\n".toList
  if src ∈ simpleIncludes manifest then m else m ++ ("include ".toList ++ src ++ ['\n'])

/-- `OLD_SNIPPET` (`versioneer.py:2017-2021`). -/
def oldSnippet : List Char := "\nfrom ._version import get_versions\n__version__ = get_versions()['version']\ndel get_versions\n".toList

/-- `INIT_PY_SNIPPET` for the module `m` (`versioneer.py:2023-2026,2064`). -/
def initSnippet (m : List Char) : List Char :=
  "\nfrom . import ".toList ++ m ++ "\n__version__ = ".toList ++ m ++ ".get_versions()['version']\n".toList

/-- `old.replace(OLD_SNIPPET, snippet)` (`versioneer.py:2068`): every occurrence from left to right. -/
def replaceText (m new : List Char) (skip : Nat) : List Char → List Char
  | [] => []
  | c :: t =>
    match skip with
    | k + 1 => replaceText m new k t
    | 0 => if m.isPrefixOf (c :: t) then new ++ replaceText m new (m.length - 1) t else c :: replaceText m new 0 t

/-- Whether `m` occurs in the text (`OLD_SNIPPET in old`, `versioneer.py:2065,2069`). -/
def occursIn (m : List Char) : List Char → Bool
  | [] => m.isPrefixOf []
  | c :: t => m.isPrefixOf (c :: t) || occursIn m t

/-- `__init__.py` after `do_setup` (`versioneer.py:2056-2074`), for a file that exists and can be read. -/
def initAfter (m old : List Char) : List Char :=
  if occursIn oldSnippet old then replaceText oldSnippet (initSnippet m) 0 old
  else if occursIn (initSnippet m) old then old
  else old ++ initSnippet m

/-- `scan_setup_py` (`versioneer.py:2120-2155`): the number of errors found in the text of `setup.py`. -/
def scanSetup (setup : List Char) : Nat :=
  let has (m : String) : Bool := (textLines setup).any (occursIn m.toList)
  (if has "import versioneer" && has "versioneer.get_cmdclass()" && has "versioneer.get_version()" then 0 else 1) +
    (if has "versioneer.VCS" || has "versioneer.versionfile_source" then 1 else 0)

end OM
