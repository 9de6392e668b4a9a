import Verif.Model.VersionSources
/-!
# Model of the version files: `git_get_keywords`, `write_to_version_file`, `versions_from_file`

Texts are lists of characters, files read as text have the line end `\n` only. White space is that of ASCII. `json.loads` is not modelled: the results are the
texts handed to it.
-/
namespace OM

/-- White space of `strip` and `\s` (`oceanmesh/_version.py:150-151`). -/
def pySpace (c : Char) : Bool := c ∈ [' ', '\t', '\n', '\r', '\x0b', '\x0c']

/-- The text before the last occurrence of `m`: what a greedy `(.*)` before `m` gives (`versioneer.py:1401`, `oceanmesh/_version.py:151`). -/
def beforeLast (m : List Char) : List Char → Option (List Char)
  | [] => if m = [] then some [] else none
  | c :: s =>
    match beforeLast m s with
    | some r => some (c :: r)
    | none => if m <+: c :: s then some [] else none

/-- The text after the first occurrence of `m` (`re.search` with a fixed text in front, `versioneer.py:1400-1402`). -/
def afterFirst (m : List Char) : List Char → Option (List Char)
  | [] => if m = [] then some [] else none
  | c :: s => if m <+: c :: s then some ((c :: s).drop m.length) else afterFirst m s

/-- `re.search(r'=\s*"(.*)"', line)` (`oceanmesh/_version.py:151,155,159`): the group, for a line without its end. -/
def keywordValue : List Char → Option (List Char)
  | [] => none
  | c :: r =>
    if c = '=' then
      match r.dropWhile pySpace with
      | '"' :: t =>
        match beforeLast ['"'] t with
        | some v => some v
        | none => keywordValue r
      | _ => keywordValue r
    else keywordValue r

/-- The dictionary `keywords` (`oceanmesh/_version.py:146-164`). -/
structure Keywords where
  refnames : Option (List Char) := none
  full : Option (List Char) := none
  date : Option (List Char) := none
deriving DecidableEq, Repr

/-- One entry after a line: changed if the line without white space around it begins with `mark` and the expression matches
(`oceanmesh/_version.py:150-161`). White space at the end of the line does not matter, as `mark` does not end with it. -/
def keywordEntry (mark line : List Char) (old : Option (List Char)) : Option (List Char) :=
  if mark <+: line.dropWhile pySpace then
    match keywordValue line with
    | some v => some v
    | none => old
  else old

/-- The body of the loop over the lines (`oceanmesh/_version.py:149-161`). -/
def keywordStep (k : Keywords) (line : List Char) : Keywords :=
  ⟨keywordEntry "git_refnames =".toList line k.refnames, keywordEntry "git_full =".toList line k.full, keywordEntry "git_date =".toList line k.date⟩

/-- `git_get_keywords` (`oceanmesh/_version.py:139-164`, `versioneer.py:1073-1098`) for the lines of a file; `none`: it cannot be read. -/
def gitGetKeywords : Option (List (List Char)) → Keywords
  | none => {}
  | some lines => lines.foldl keywordStep {}

/-- A value of the dictionary `versions` (`versioneer.py:1412-1415`): a text, `None` or a truth value. -/
inductive VersionValue where
  | text (s : List Char)
  | null
  | bool (b : Bool)
deriving DecidableEq, Repr

/-- A character in a string of `json.dumps` (`versioneer.py:1415`), for printable ASCII characters and the named control characters; the others
(`\u....`) are left out. -/
def jsonChar (c : Char) : List Char :=
  if c = '"' then ['\\', '"']
  else if c = '\\' then ['\\', '\\']
  else if c = '\n' then ['\\', 'n']
  else if c = '\r' then ['\\', 'r']
  else if c = '\t' then ['\\', 't']
  else if c = '\x08' then ['\\', 'b']
  else if c = '\x0c' then ['\\', 'f']
  else [c]

/-- A string of `json.dumps` (`versioneer.py:1415`). -/
def jsonString (s : List Char) : List Char := '"' :: (s.flatMap jsonChar ++ ['"'])

/-- A value of `json.dumps` (`versioneer.py:1415`). -/
def jsonValue : VersionValue → List Char
  | .text s => jsonString s
  | .null => "null".toList
  | .bool true => "true".toList
  | .bool false => "false".toList

/-- `json.dumps(versions, sort_keys=True, indent=1, separators=(",", ": "))` (`versioneer.py:1415`). -/
def jsonDict (d : List (List Char × VersionValue)) : List Char :=
  match d.insertionSort (fun a b => a.1 ≤ b.1) with
  | [] => ['{', '}']
  | e :: l =>
    '{' :: '\n' :: ' ' :: (jsonString e.1 ++ ':' :: ' ' :: jsonValue e.2 ++ l.flatMap (fun x => ',' :: '\n' :: ' ' :: (jsonString x.1 ++ ':' :: ' ' :: jsonValue x.2)) ++ ['\n', '}'])

/-- The beginning of `SHORT_VERSION_PY` (`versioneer.py:1375-1382`). -/
def versionHead : List Char :=
  "\n# This file was generated by 'versioneer.py' (0.21) from\n# revision-control system data, or from the parent directory name of an\n# unpacked source archive. Distribution tarballs contain a pre-generated copy\n# of this file.\n\nimport json\n\n".toList

/-- The line before the text (`versioneer.py:1383,1401`). -/
def versionOpen : List Char := "version_json = '''\n".toList

/-- The line after the text (`versioneer.py:1385,1401`). -/
def versionClose : List Char := "'''  # END VERSION_JSON".toList

/-- The end of `SHORT_VERSION_PY` (`versioneer.py:1386-1390`). -/
def versionTail : List Char := "\n\n\ndef get_versions():\n    return json.loads(version_json)\n".toList

/-- `SHORT_VERSION_PY % contents` (`versioneer.py:1375-1390,1417`). -/
def versionFile (contents : List Char) : List Char := versionHead ++ versionOpen ++ contents ++ '\n' :: versionClose ++ versionTail

/-- `write_to_version_file` (`versioneer.py:1412-1419`): the new text of the file. -/
def writeVersionFile (versions : List (List Char × VersionValue)) : List Char := versionFile (jsonDict versions)

/-- `versions_from_file` (`versioneer.py:1393-1409`): the text handed to `json.loads`; `none` = `NotThisMethod`. -/
def versionsFromFile (contents : List Char) : Option (List Char) :=
  match (afterFirst versionOpen contents).bind (beforeLast versionClose) with
  | some t => some t
  | none => (afterFirst "version_json = '''\r\n".toList contents).bind (beforeLast versionClose)

/-- A backslash and a character in a Python string (the literal of `versioneer.py:1383-1385`); `none`: a numerical or named escape, not modelled. -/
def pyEscape (c : Char) : Option (List Char) :=
  if c = '\n' then some []
  else if c = '\\' ∨ c = '\'' ∨ c = '"' then some [c]
  else if c = 'n' then some ['\n']
  else if c = 'r' then some ['\r']
  else if c = 't' then some ['\t']
  else if c = 'a' then some ['\x07']
  else if c = 'b' then some ['\x08']
  else if c = 'f' then some ['\x0c']
  else if c = 'v' then some ['\x0b']
  else if c ∈ "xuUN01234567".toList then none
  else some ['\\', c]

/-- A Python string after its three opening apostrophes (`versioneer.py:1383-1385`): its value and the text behind it; `none`: it does not end (or has an escape
that is not modelled). -/
def pyTriple : List Char → Option (List Char × List Char)
  | [] => none
  | ['\\'] => none
  | '\\' :: e :: r => (pyEscape e).bind fun v => (pyTriple r).map fun x => (v ++ x.1, x.2)
  | c :: r => if ['\'', '\'', '\''] <+: c :: r then some ([], r.drop 2) else (pyTriple r).map fun x => (c :: x.1, x.2)

/-- `version_json` in a module with the text `versionFile contents` (`versioneer.py:1375-1390`), as the installed package hands it to `json.loads`; `none`: the string
ends at another place, so that the rest of the file is not the rest of the template (in general a syntax error). -/
def importedVersion (contents : List Char) : Option (List Char) :=
  match pyTriple ('\n' :: contents ++ '\n' :: versionClose ++ versionTail) with
  | some (v, rest) => if rest = "  # END VERSION_JSON".toList ++ versionTail then some v else none
  | none => none

end OM
