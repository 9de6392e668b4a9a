import Verif.Model.Install
/-!
# Model of the whole of `versioneer.py setup`

The files of a project as texts. The five files are different, can be read and written, and their directories exist; a missing `MANIFEST.in` or `.gitattributes` is an
empty text as in `Verif.Model.Install`. Adding the files to git (`versioneer.py:1342`) and the printed messages are left out.
-/
namespace OM

/-- The files that `versioneer.py setup` reads and writes (`versioneer.py:2029-2117`): `setup.cfg`, the version file, `__init__.py` beside it, `MANIFEST.in` and
`.gitattributes`. `none`: the file does not exist. -/
structure Project where
  cfg : Option (List Char)
  version : Option (List Char)
  init : Option (List Char)
  manifest : List Char
  attributes : List Char
deriving DecidableEq

/-- `SAMPLE_CONFIG` (`versioneer.py:2002-2015`). -/
def sampleConfig : List Char :=
  ("\n# See the docstring in versioneer.py for instructions. Note that you must\n# re-run 'versioneer.py setup' after changing this section, and commit the\n" ++
    "# resulting files.\n\n[versioneer]\n#VCS = git\n#style = pep440\n#versionfile_source =\n#versionfile_build =\n#tag_prefix =\n#parentdir_prefix =\n\n").toList

/-- `do_setup` (`versioneer.py:2029-2117`): the files afterwards and the result, `none` if an exception leaves the function. `parse` is `configparser` for the section
`[versioneer]` (`none`: it rejects the text, `some none`: there is no such section), `long` the template filled in (`:2044-2054`), `moduleOf` the name of the file
without directory and ending (`:2063`). The version file is opened, and so emptied, before the template is looked up (`:2043-2044`; there is only the one for git, `:424-426`). -/
def doSetup (parse : List Char → Option (Option (String → Option (List Char)))) (long : VersioneerConfig → List Char) (moduleOf : List Char → List Char)
    (p : Project) : Project × Option Nat :=
  match p.cfg with
  | none => ({ p with cfg := some sampleConfig }, some 1)
  | some t =>
    match parse t with
    | none => (p, none)
    | some none => ({ p with cfg := some (t ++ sampleConfig) }, some 1)
    | some (some sec) =>
      match configOf sec with
      | none => (p, some 1)
      | some c =>
        match c.source with
        | none => (p, none)
        | some src =>
          if c.vcs = "git".toList then
            ({ p with
                version := some (long c)
                init := p.init.map (initAfter (moduleOf src))
                manifest := manifestAfter src p.manifest
                attributes := attributesAfter src p.attributes }, some 0)
          else ({ p with version := some [] }, none)

/-- The command `setup` (`versioneer.py:2158-2164`) for a project whose `setup.py` has the text `setup`: the files and whether the exit code is zero, `none` if an
exception ends the program. -/
def setupCommand (parse : List Char → Option (Option (String → Option (List Char)))) (long : VersioneerConfig → List Char) (moduleOf : List Char → List Char)
    (setup : List Char) (p : Project) : Project × Option Bool :=
  let r := doSetup parse long moduleOf p
  (r.1, r.2.map fun errors => decide (errors + scanSetup setup = 0))

end OM
