import Mathlib.Data.List.SplitOn
import Mathlib.Data.List.Sort
/-!
# Model of `oceanmesh/_version.py`: the version of the package

Strings are lists of characters. `\d` of the regular expressions also matches digits of other scripts; here only 0 to 9, and `strip` removes space, tab and line ends only. The outputs of git are parameters. Dates, the full
revision and messages are left out, as is the rewriting of the branch name (not used by the configured style). `cfg.tag_prefix` is the argument `pre` ("v" in
`oceanmesh/_version.py:44`).
-/
namespace OM

/-- The pieces of a version (`oceanmesh/_version.py:282-371`). -/
structure GitPieces where
  tag : Option (List Char)
  distance : Nat
  short : List Char
  dirty : Bool
deriving DecidableEq, Repr

/-- The parts before and after the last occurrence of a character (how the regular expression of `oceanmesh/_version.py:333` splits, since neither digits nor
hexadecimal digits contain a hyphen). -/
def splitLast (c : Char) : List Char → Option (List Char × List Char)
  | [] => none
  | x :: l =>
    match splitLast c l with
    | some (a, b) => some (x :: a, b)
    | none => if x = c then some ([], l) else none

/-- `[0-9a-f]` (`oceanmesh/_version.py:333`). -/
def isHex (c : Char) : Bool := c.isDigit || c ∈ "abcdef".toList

/-- The match of `^(.+)-(\d+)-g([0-9a-f]+)$` (`oceanmesh/_version.py:333`): tag, number, hash. -/
def matchDescribe (s : List Char) : Option (List Char × Nat × List Char) :=
  match splitLast '-' s with
  | some (a, 'g' :: hex) =>
    if hex ≠ [] ∧ hex.all isHex then
      match splitLast '-' a with
      | some (tag, num) =>
        if num ≠ [] ∧ num.all Char.isDigit ∧ tag ≠ [] ∧ '\n' ∉ tag then some (tag, Nat.ofDigitChars 10 num 0, hex) else none
      | none => none
    else none
  | _ => none

/-- The pieces from the output of `git describe` (`oceanmesh/_version.py:319-371`), the full hash and the number of commits; `none` = `pieces["error"]` is set. -/
def piecesOf (pre full : List Char) (count : Nat) (describe : List Char) : Option GitPieces :=
  let dirty := decide ("-dirty".toList <:+ describe)
  let s := if dirty then describe.take (describe.length - 6) else describe
  if '-' ∈ s then
    match matchDescribe s with
    | none => none
    | some (tag, n, hex) => if pre <+: tag then some ⟨some (tag.drop pre.length), n, hex, dirty⟩ else none
  else some ⟨none, count, full.take 7, dirty⟩

/-- `plus_or_dot` (`oceanmesh/_version.py:374-378`). -/
def plusOrDot (tag : List Char) : List Char := if '+' ∈ tag then ['.'] else ['+']

/-- The end of the version of a changed working copy (`oceanmesh/_version.py:395-396`). -/
def dirtyMark (mark : List Char) (p : GitPieces) : List Char := if p.dirty then mark else []

/-- `render_pep440` (`oceanmesh/_version.py:381-402`). -/
def renderPep440 (p : GitPieces) : List Char :=
  match p.tag with
  | some (c :: t) =>
    if p.distance ≠ 0 ∨ p.dirty = true then
      (c :: t) ++ plusOrDot (c :: t) ++ Nat.toDigits 10 p.distance ++ ".g".toList ++ p.short ++ dirtyMark ".dirty".toList p
    else c :: t
  | _ => "0+untagged.".toList ++ Nat.toDigits 10 p.distance ++ ".g".toList ++ p.short ++ dirtyMark ".dirty".toList p

/-- `render_git_describe` (`oceanmesh/_version.py:546-563`). -/
def renderDescribe (p : GitPieces) : List Char :=
  (match p.tag with
    | some (c :: t) => (c :: t) ++ if p.distance ≠ 0 then "-".toList ++ Nat.toDigits 10 p.distance ++ "-g".toList ++ p.short else []
    | _ => p.short) ++ dirtyMark "-dirty".toList p

/-- `render_git_describe_long` (`oceanmesh/_version.py:566-583`). -/
def renderDescribeLong (p : GitPieces) : List Char :=
  (match p.tag with
    | some (c :: t) => (c :: t) ++ "-".toList ++ Nat.toDigits 10 p.distance ++ "-g".toList ++ p.short
    | _ => p.short) ++ dirtyMark "-dirty".toList p

/-- `render` with the style of the package (`oceanmesh/_version.py:586-625`): "unknown" after an error. -/
def versionOf (pre full : List Char) (count : Nat) (describe : List Char) : List Char :=
  match piecesOf pre full count describe with
  | none => "unknown".toList
  | some p => renderPep440 p

/-- `str.strip` with a set of characters (`oceanmesh/_version.py:185,190`). -/
def stripChars (p : Char → Bool) (l : List Char) : List Char := ((l.dropWhile p).reverse.dropWhile p).reverse

/-- The names in the decoration of a commit (`oceanmesh/_version.py:185-190`). -/
def refsOf (refnames : List Char) : List (List Char) :=
  ((stripChars (fun c => c = '(' ∨ c = ')') (stripChars Char.isWhitespace refnames)).splitOn ',').map (stripChars Char.isWhitespace)

/-- The names that count as tags (`oceanmesh/_version.py:193-203`). -/
def tagsOf (refs : List (List Char)) : List (List Char) :=
  let tags := (refs.filter fun r => decide ("tag: ".toList <+: r)).map (List.drop 5)
  if tags = [] then refs.filter fun r => r.any Char.isDigit else tags

/-- Does the rest of a name begin with a digit (`oceanmesh/_version.py:215-216`)? -/
def beginsWithDigit : List Char → Bool
  | [] => false
  | c :: _ => c.isDigit

/-- `sorted` (`oceanmesh/_version.py:208`): by code points. -/
def sortNames (l : List (List Char)) : List (List Char) := l.insertionSort (· ≤ ·)

/-- `git_versions_from_keywords` (`oceanmesh/_version.py:167-237`): the version, "0+unknown" if no name is suitable; `none` = `NotThisMethod` for keywords that were not expanded. -/
def keywordVersion (pre refnames : List Char) : Option (List Char) :=
  if "$Format".toList <+: stripChars Char.isWhitespace refnames then none
  else
    match (sortNames (tagsOf (refsOf refnames))).find? fun r => decide (pre <+: r) && beginsWithDigit (r.drop pre.length) with
    | some r => some (r.drop pre.length)
    | none => some "0+unknown".toList

end OM
