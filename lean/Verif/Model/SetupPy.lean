/-!
# Model of `setup.py`: which extensions are built and what is required

Texts are lists of characters. Which modules can be imported, the environment, the directories and files that exist and the Python version are arguments. On Windows without a usable prefix the directories
of vcpkg are used; they are kept as one text, built from the environment. Simplified: `os.path.join` puts a `/` in between
(it would not after a prefix that ends in `/`, and puts a backslash on Windows); `str.split` knows further blanks; options of the compiler are left out; extensions are compared by value, not by identity.
Without pybind11 the command `build_ext` raises (`setup.py:182-193`), so that the list of extensions does not matter.
-/
namespace OM

/-- What `setup.py` finds (`setup.py:5-26`, `:64-105`, `:146-159`, `:214-219`). -/
structure SetupEnv where
  numpy : Bool
  pybind : Bool
  cython : Bool
  windows : Bool
  oceanmeshPrefix : Option (List Char)
  condaPrefix : Option (List Char)
  vcpkg : List Char
  isdir : List Char → Bool
  pyx : Bool
  cfile : Bool

/-- An extension module (`setup.py:74-82`, `:97-105`, `:123-133`, `:167-172`). -/
structure ExtModule where
  name : List Char
  source : List Char
  includeDirs : List (List Char)
  libraryDirs : List (List Char)
  linkArgs : List (List Char)
  libraries : List (List Char)
deriving DecidableEq

/-- The pairs of source and name (`setup.py:36-47`, `:83`, `:105`, `:132`). -/
def compiledModules : List (List Char × List Char) :=
  [("oceanmesh/cpp/HamiltonJacobi.cpp".toList, "_HamiltonJacobi".toList), ("oceanmesh/cpp/delaunay_class.cpp".toList, "_delaunay_class".toList),
    ("oceanmesh/cpp/fast_geometry.cpp".toList, "_fast_geometry".toList)]

/-- `os.environ.get(a) or os.environ.get(b)`: an empty text counts as missing (`setup.py:69`, `:111`). -/
def chosenPrefix (e : SetupEnv) : Option (List Char) :=
  match e.oceanmeshPrefix with
  | some (c :: l) => some (c :: l)
  | _ => e.condaPrefix

/-- `_get_prefix_paths` (`setup.py:52-62`): the directories `include` and `lib` below the prefix, each if it exists. -/
def prefixPaths (isdir : List Char → Bool) (pre : Option (List Char)) : Option (List Char) × Option (List Char) :=
  match pre with
  | some (c :: l) =>
    let i := (c :: l) ++ "/include".toList
    let b := (c :: l) ++ "/lib".toList
    (if isdir i then some i else none, if isdir b then some b else none)
  | _ => (none, none)

/-- One of the extensions made with pybind11 (`setup.py:68-105` on Windows, `:107-133` elsewhere). -/
def compiledModule (e : SetupEnv) (q : List Char × List Char) : ExtModule :=
  if e.windows then
    match prefixPaths e.isdir (chosenPrefix e) with
    | (some i, some b) => ⟨q.2, q.1, [i], [b], ["/LIBPATH:".toList ++ b], ["gmp".toList, "mpfr".toList]⟩
    | _ => ⟨q.2, q.1, [e.vcpkg ++ "/include".toList], [], ["/LIBPATH:".toList ++ e.vcpkg ++ "/lib".toList], ["gmp".toList, "mpfr".toList]⟩
  else
    ⟨q.2, q.1, (prefixPaths e.isdir (chosenPrefix e)).1.toList, (prefixPaths e.isdir (chosenPrefix e)).2.toList,
      (prefixPaths e.isdir (chosenPrefix e)).2.toList.flatMap fun b => ["-L".toList ++ b, "-Wl,-rpath,".toList ++ b], ["gmp".toList, "mpfr".toList]⟩

/-- The extensions made with pybind11 (`setup.py:65-133`). -/
def pybindExtensions (e : SetupEnv) : List ExtModule :=
  if e.pybind then compiledModules.map (compiledModule e) else []

/-- The name of the extension for points in polygons (`setup.py:168`). -/
def inpolyName : List Char := "oceanmesh.geometry.point_in_polygon_".toList

/-- `maybe_add_cython_extensions` (`setup.py:136-175`): at most one extension, from the `.pyx` file if there is one, else from the `.c` file. -/
def cythonExtensions (e : SetupEnv) : List ExtModule :=
  if e.numpy then
    if e.pyx then [⟨inpolyName, "point_in_polygon_.pyx".toList, ["numpy".toList], [], [], []⟩]
    else if e.cfile then [⟨inpolyName, "point_in_polygon_.c".toList, ["numpy".toList], [], [], []⟩]
    else []
  else []

/-- The list of extensions handed to `setup` (`setup.py:211-225`): with Cython the extensions for points in polygons are replaced by those that `cythonize` makes of them. -/
def setupExtensions (e : SetupEnv) (cythonize : List ExtModule → List ExtModule) : List ExtModule :=
  let all := pybindExtensions e ++ cythonExtensions e
  if e.cython ∧ cythonExtensions e ≠ [] then (all.filter fun x => x ∉ cythonExtensions e) ++ cythonize (cythonExtensions e) else all

/-- Texts without blanks and line ends in between (`str.split()` in `setup.py:203`). -/
def splitBlanks : List Char → List (List Char) :=
  List.foldr (fun c acc =>
    if c = ' ' ∨ c = '\n' ∨ c = '\t' then [] :: acc
    else match acc with
      | w :: l => (c :: w) :: l
      | [] => [[c]]) [[]]

/-- `list.remove`: the first occurrence is removed, `none` = ValueError (`setup.py:206`). -/
def removeFirst (x : List Char) : List (List Char) → Option (List (List Char))
  | [] => none
  | y :: l => if y = x then some l else (removeFirst x l).map (y :: ·)

/-- `get_requirements` (`setup.py:196-209`): `text` is the entry of `setup.cfg`, `old` whether Python is older than 3.9; `none` = raises. -/
def requirementsOf (text : List Char) (old : Bool) : Option (List (List Char)) :=
  let reqs := (splitBlanks text).filter (· ≠ [])
  if old then (removeFirst "fiona".toList reqs).map (· ++ ["fiona<1.10".toList]) else some reqs

end OM
