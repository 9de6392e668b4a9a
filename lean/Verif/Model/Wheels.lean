import Mathlib.Data.List.Infix
/-!
# Model of `tools/verify_manylinux_wheels.py`: the check of built packages

Strings are lists of characters, `\d` is 0 to 9 only. The argument `--max-glibc` is taken as two numbers, the output of auditwheel and the names in the zip
archive are parameters. Printed messages are left out.
-/
namespace OM

/-- The match of `GLIBC_(\d+)\.(\d+)` at the beginning of a string, and the rest (`tools/verify_manylinux_wheels.py:12`). The expression does not need to go
back, since neither group can end before a further digit. -/
def matchGlibc (s : List Char) : Option ((Nat × Nat) × List Char) :=
  if "GLIBC_".toList <+: s then
    let a := (s.drop 6).takeWhile Char.isDigit
    match (s.drop 6).dropWhile Char.isDigit with
    | '.' :: u =>
      let b := u.takeWhile Char.isDigit
      if a ≠ [] ∧ b ≠ [] then some ((Nat.ofDigitChars 10 a 0, Nat.ofDigitChars 10 b 0), u.dropWhile Char.isDigit) else none
    | _ => none
  else none

/-- `re.findall` (`tools/verify_manylinux_wheels.py:12`): matches from left to right, each search starts behind the last match. `n` bounds the number of steps;
the length of the string is enough. -/
def findGlibc : Nat → List Char → List (Nat × Nat)
  | 0, _ => []
  | _ + 1, [] => []
  | n + 1, c :: s =>
    match matchGlibc (c :: s) with
    | some (v, rest) => v :: findGlibc n rest
    | none => findGlibc n s

/-- Comparison of pairs in Python (`tools/verify_manylinux_wheels.py:16,82`). -/
def pairLt (a b : Nat × Nat) : Bool := decide (a.1 < b.1 ∨ (a.1 = b.1 ∧ a.2 < b.2))

/-- `_parse_glibc_symbols` (`tools/verify_manylinux_wheels.py:11-16`): the largest version in the output, `none`: there is none. `max` keeps the first of equal ones. -/
def parseGlibc (s : List Char) : Option (Nat × Nat) :=
  match findGlibc s.length s with
  | [] => none
  | v :: l => some (l.foldl (fun m x => if pairLt m x then x else m) v)

/-- A wheel: its file name, what auditwheel prints (`none`: it fails) and the names in the archive (`none`: not a zip archive). -/
structure Wheel where
  name : List Char
  audit : Option (List Char)
  members : Option (List (List Char))

/-- The wheels that are looked at (`tools/verify_manylinux_wheels.py:58-63`). -/
def isLinuxWheel (w : Wheel) : Bool :=
  decide ("linux".toList <:+: w.name) && decide ("x86_64".toList <:+: w.name) && !decide ("musllinux".toList <:+: w.name)

/-- `_wheel_contains_shared_lib` (`tools/verify_manylinux_wheels.py:27-36`). -/
def containsLib (needle : List Char) (members : List (List Char)) : Bool :=
  members.any fun m => decide (needle <:+: m) && decide (".so".toList <:+: m)

/-- `max_seen is not None and max_seen > max_allowed` (`tools/verify_manylinux_wheels.py:81-82`). -/
def tooNew (allowed : Nat × Nat) (out : List Char) : Bool :=
  match parseGlibc out with
  | some v => pairLt allowed v
  | none => false

/-- One pass of the loop over wheels (`tools/verify_manylinux_wheels.py:70-104`): whether the wheel is bad; `none`: an exception. -/
def checkWheel (allowed : Nat × Nat) (w : Wheel) : Option Bool := do
  let tag := !decide ("manylinux".toList <:+: w.name) ||
    (decide ("linux_x86_64".toList <:+: w.name) && !decide ("manylinux".toList <:+: w.name))
  let out ← w.audit
  let ms ← w.members
  return tag || tooNew allowed out || !containsLib "libgmp".toList ms || !containsLib "libmpfr".toList ms

/-- The loop over the wheels (`tools/verify_manylinux_wheels.py:68-104`): whether one is bad. -/
def checkLoop (allowed : Nat × Nat) : Bool → List Wheel → Option Bool
  | failed, [] => some failed
  | failed, w :: l => (checkWheel allowed w).bind fun b => checkLoop allowed (failed || b) l

/-- `main` (`tools/verify_manylinux_wheels.py:39-107`): the exit status; `none`: an exception or `SystemExit` with a message, which also gives a status other
than zero. `ws` are the wheels of the directory. -/
def verifyWheels (allowed : Nat × Nat) (ws : List Wheel) : Option Nat :=
  if ws.filter isLinuxWheel = [] then none
  else (checkLoop allowed false (ws.filter isLinuxWheel)).map fun failed => if failed then 1 else 0

end OM
