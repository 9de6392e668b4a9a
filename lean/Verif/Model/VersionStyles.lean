import Verif.Model.Version
/-!
# Model of `oceanmesh/_version.py`: the other styles of versions

As in `Verif.Model.Version` strings are lists of characters. The entry `pieces["branch"]` is an argument of its own (`none` = `None`). `int` of a text that is not made of
the digits 0 to 9 is taken to raise (Python also accepts signs, blanks at the ends and single underscores).
-/
namespace OM

/-- The name of the branch (`oceanmesh/_version.py:287-317`): `name` is the answer of `git rev-parse --abbrev-ref HEAD`, `contains` that of `git branch --contains`. -/
def branchOf (name contains : List Char) : Option (List Char) :=
  if name = "HEAD".toList then
    match contains.splitOn '\n' with
    | [] => none
    | first :: more =>
      let branches := (if '(' ∈ first then more else first :: more).map (List.drop 2)
      if "master".toList ∈ branches then some "master".toList else branches.head?
  else some name

/-- The `.dev0` of branches other than the master branch (`oceanmesh/_version.py:417-418`, `:426-427`, `:507-508`, `:516-517`). -/
def branchMark (branch : Option (List Char)) : List Char := if branch ≠ some "master".toList then ".dev0".toList else []

/-- `render_pep440_branch` (`oceanmesh/_version.py:405-431`). -/
def renderBranch (branch : Option (List Char)) (p : GitPieces) : List Char :=
  match p.tag with
  | some (c :: t) =>
    if p.distance ≠ 0 ∨ p.dirty = true then
      (c :: t) ++ branchMark branch ++ plusOrDot (c :: t) ++ Nat.toDigits 10 p.distance ++ ".g".toList ++ p.short ++ dirtyMark ".dirty".toList p
    else c :: t
  | _ => "0".toList ++ branchMark branch ++ "+untagged.".toList ++ Nat.toDigits 10 p.distance ++ ".g".toList ++ p.short ++ dirtyMark ".dirty".toList p

/-- The texts before and after the first occurrence of `sep` (`str.split` in `oceanmesh/_version.py:440`). -/
def splitFirst (sep : List Char) : List Char → Option (List Char × List Char)
  | [] => none
  | c :: l =>
    if sep <+: c :: l then some ([], (c :: l).drop sep.length)
    else (splitFirst sep l).map fun q => (c :: q.1, q.2)

/-- `int` of a text (`oceanmesh/_version.py:441`). -/
def decimalOf (l : List Char) : Option Nat := if l ≠ [] ∧ l.all Char.isDigit then some (Nat.ofDigitChars 10 l 0) else none

/-- `pep440_split_post` (`oceanmesh/_version.py:434-441`); `none` = `int` raises. -/
def splitPost (ver : List Char) : Option (List Char × Option Nat) :=
  match splitFirst ".post".toList ver with
  | none => some (ver, none)
  | some (a, b) =>
    match splitFirst ".post".toList b with
    | some _ => some (a, none)
    | none => if b = [] then some (a, some 0) else (decimalOf b).map fun n => (a, some n)

/-- `render_pep440_pre` (`oceanmesh/_version.py:444-465`); `none` = raises. -/
def renderPre (p : GitPieces) : Option (List Char) :=
  match p.tag with
  | some (c :: t) =>
    if p.distance ≠ 0 then
      (splitPost (c :: t)).map fun q =>
        match q.2 with
        | some k => q.1 ++ ".post".toList ++ Nat.toDigits 10 (k + 1) ++ ".dev".toList ++ Nat.toDigits 10 p.distance
        | none => q.1 ++ ".post0.dev".toList ++ Nat.toDigits 10 p.distance
    else some (c :: t)
  | _ => some ("0.post0.dev".toList ++ Nat.toDigits 10 p.distance)

/-- `render_pep440_post` (`oceanmesh/_version.py:468-492`). -/
def renderPost (p : GitPieces) : List Char :=
  match p.tag with
  | some (c :: t) =>
    if p.distance ≠ 0 ∨ p.dirty = true then
      (c :: t) ++ ".post".toList ++ Nat.toDigits 10 p.distance ++ dirtyMark ".dev0".toList p ++ plusOrDot (c :: t) ++ "g".toList ++ p.short
    else c :: t
  | _ => "0.post".toList ++ Nat.toDigits 10 p.distance ++ dirtyMark ".dev0".toList p ++ "+g".toList ++ p.short

/-- `render_pep440_post_branch` (`oceanmesh/_version.py:495-521`). -/
def renderPostBranch (branch : Option (List Char)) (p : GitPieces) : List Char :=
  match p.tag with
  | some (c :: t) =>
    if p.distance ≠ 0 ∨ p.dirty = true then
      (c :: t) ++ ".post".toList ++ Nat.toDigits 10 p.distance ++ branchMark branch ++ plusOrDot (c :: t) ++ "g".toList ++ p.short ++ dirtyMark ".dirty".toList p
    else c :: t
  | _ => "0.post".toList ++ Nat.toDigits 10 p.distance ++ branchMark branch ++ "+g".toList ++ p.short ++ dirtyMark ".dirty".toList p

/-- `render_pep440_old` (`oceanmesh/_version.py:524-543`). -/
def renderOld (p : GitPieces) : List Char :=
  match p.tag with
  | some (c :: t) =>
    if p.distance ≠ 0 ∨ p.dirty = true then (c :: t) ++ ".post".toList ++ Nat.toDigits 10 p.distance ++ dirtyMark ".dev0".toList p else c :: t
  | _ => "0.post".toList ++ Nat.toDigits 10 p.distance ++ dirtyMark ".dev0".toList p

/-- `render` (`oceanmesh/_version.py:586-625`) for pieces without error: the version in the given style, `none` = raises (unknown style, or `int` in the style pep440-pre). -/
def renderStyle (style : List Char) (branch : Option (List Char)) (p : GitPieces) : Option (List Char) :=
  if style = [] ∨ style = "default".toList ∨ style = "pep440".toList then some (renderPep440 p)
  else if style = "pep440-branch".toList then some (renderBranch branch p)
  else if style = "pep440-pre".toList then renderPre p
  else if style = "pep440-post".toList then some (renderPost p)
  else if style = "pep440-post-branch".toList then some (renderPostBranch branch p)
  else if style = "pep440-old".toList then some (renderOld p)
  else if style = "git-describe".toList then some (renderDescribe p)
  else if style = "git-describe-long".toList then some (renderDescribeLong p)
  else none

end OM
