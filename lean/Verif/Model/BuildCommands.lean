import Verif.Model.BuildVersion
/-!
# Model of the build commands of `get_cmdclass` (`versioneer.py:1766-1977`)

A disk has names and files: two names can stand for one file (hard links, which `sdist` makes). The commands of setuptools that are extended are parameters: functions on
the disk that return or raise. Root, configuration and versions are found before anything is changed; the messages are left out.
-/
namespace OM

/-- A disk: the file of a name, the text of a file, and the number of the next new file (`versioneer.py:1414-1417`). -/
structure Disk (P : Type) where
  node : P → Option Nat
  text : Nat → List Char
  fresh : Nat

section
variable {P : Type} [DecidableEq P]

/-- Reading a file by its name, `open(filename)` (`versioneer.py:1378-1379`). -/
def Disk.read (d : Disk P) (p : P) : Option (List Char) := (d.node p).map d.text

/-- `os.unlink` (`versioneer.py:1414,1899,1929`): the name is removed, other names of the file stay; `none` = `FileNotFoundError`. -/
def Disk.unlink (d : Disk P) (p : P) : Option (Disk P) :=
  if d.node p = none then none else some { d with node := fun q => if q = p then none else d.node q }

/-- `open(filename, "w")` and `write` (`versioneer.py:1416-1417,1900-1911`): the file of that name is overwritten, under all its names; without one a new file is made. -/
def Disk.write (d : Disk P) (p : P) (s : List Char) : Disk P :=
  match d.node p with
  | some i => { d with text := fun j => if j = i then s else d.text j }
  | none => ⟨fun q => if q = p then some d.fresh else d.node q, fun j => if j = d.fresh then s else d.text j, d.fresh + 1⟩

/-- One statement after another (`versioneer.py:1838-1848`): nothing more is done after an exception (`false`), what was done stays. -/
def andThen (r : Disk P × Bool) (f : Disk P → Disk P × Bool) : Disk P × Bool := if r.2 then f r.1 else r

/-- `write_to_version_file` (`versioneer.py:1412-1419`). -/
def writeVersionTo (p : P) (versions : List (List Char × VersionValue)) (d : Disk P) : Disk P × Bool :=
  match d.unlink p with
  | none => (d, false)
  | some d => (d.write p (writeVersionFile versions), true)

/-- `cmd_build_py.run` (`versioneer.py:1838-1848`); `join` is `os.path.join`, `lib` is `build_lib`. -/
def buildPy (join : P → List Char → P) (run : Disk P → Disk P × Bool) (cfg : VersioneerConfig) (lib : P) (versions : List (List Char × VersionValue)) (d : Disk P) :
    Disk P × Bool :=
  andThen (run d) fun d =>
    match cfg.build with
    | some (c :: b) => writeVersionTo (join lib (c :: b)) versions d
    | _ => (d, true)

/-- `cmd_build_ext.run` (`versioneer.py:1860-1875`). Without `versionfile_build` the path cannot be joined (`TypeError`). -/
def buildExt (join : P → List Char → P) (run : Disk P → Disk P × Bool) (inplace : Bool) (cfg : VersioneerConfig) (lib : P)
    (versions : List (List Char × VersionValue)) (d : Disk P) : Disk P × Bool :=
  andThen (run d) fun d =>
    if inplace then (d, true)
    else
      match cfg.build with
      | some b => writeVersionTo (join lib b) versions d
      | none => (d, false)

/-- `cmd_sdist.make_release_tree` (`versioneer.py:1962-1973`) with the versions of `run` (`versioneer.py:1954-1960`). -/
def sdistTree (join : P → List Char → P) (tree : Disk P → Disk P × Bool) (cfg : VersioneerConfig) (base : P) (versions : List (List Char × VersionValue)) (d : Disk P) :
    Disk P × Bool :=
  andThen (tree d) fun d =>
    match cfg.source with
    | some s => writeVersionTo (join base s) versions d
    | none => (d, false)

/-- `cmd_build_exe.run` and `cmd_py2exe.run` (`versioneer.py:1890-1911,1920-1941`): the version file of the source tree is replaced while the command runs, then written
from the template; `here` is the path of a name in the current directory, `long` the template filled in. -/
def buildExe (here : List Char → P) (run : Disk P → Disk P × Bool) (long : VersioneerConfig → List Char) (cfg : VersioneerConfig)
    (versions : List (List Char × VersionValue)) (d : Disk P) : Disk P × Bool :=
  match cfg.source with
  | none => (d, false)
  | some s =>
    andThen (writeVersionTo (here s) versions d) fun d =>
      andThen (run d) fun d =>
        match d.unlink (here s) with
        | none => (d, false)
        | some d => (d.write (here s) (long cfg), true)

end
end OM
