import Mathlib.Algebra.Order.Floor.Ring
import Mathlib.Algebra.Order.Field.Basic
/-!
# Model of the writers in `oceanmesh/mesh_generator.py`

A file is a list of characters. Coordinates and depths are finite numbers; indices are integers of any size. The arrays of the caller are
returned in the state in which the call leaves them.
-/
namespace OM

section
variable {K : Type} [Field K] [LinearOrder K] [FloorRing K]

/-- Rounding to an integer, half to even, as in `%f` (`oceanmesh/mesh_generator.py:101-108`). -/
def roundEven (x : K) : Int :=
  let n := ⌊x⌋
  if x - n < 1 / 2 then n
  else if 1 / 2 < x - n then n + 1
  else if n % 2 = 0 then n
  else n + 1

/-- Six digits with leading zeros (`oceanmesh/mesh_generator.py:101-108`). -/
def sixDigits (n : Nat) : List Char :=
  let d := Nat.toDigits 10 n
  List.replicate (6 - d.length) '0' ++ d

/-- The format `%f` (`oceanmesh/mesh_generator.py:106,188`) for a finite number (not for −0.0). -/
def formatF (x : K) : List Char :=
  let n := (roundEven (|x| * 10 ^ 6)).toNat
  (if x < 0 then ['-'] else []) ++ Nat.toDigits 10 (n / 10 ^ 6) ++ '.' :: sixDigits (n % 10 ^ 6)

/-- The format `%i` (`oceanmesh/mesh_generator.py:96,106,116,198`). -/
def formatI (n : Int) : List Char := (if n < 0 then ['-'] else []) ++ Nat.toDigits 10 n.natAbs

/-- Node lines from number `k + 1` on (`oceanmesh/mesh_generator.py:101-108`). -/
def vertexLines : Nat → List ((K × K) × K) → List Char
  | _, [] => []
  | k, (p, z) :: l => formatI (k + 1) ++ ' ' :: formatF p.1 ++ ' ' :: formatF p.2 ++ ' ' :: formatF z ++ '\n' :: vertexLines (k + 1) l

/-- Element lines from number `k + 1` on (`oceanmesh/mesh_generator.py:111-118`). -/
def elementLines : Nat → List (Int × Int × Int) → List Char
  | _, [] => []
  | k, c :: l => formatI (k + 1) ++ ' ' :: formatI 3 ++ ' ' :: formatI c.1 ++ ' ' :: formatI c.2.1 ++ ' ' :: formatI c.2.2 ++
      ' ' :: '\n' :: elementLines (k + 1) l

/-- The arrays that the caller passes and keeps: points, cells and, if given, the depths (`oceanmesh/mesh_generator.py:40-47`). -/
structure MeshArrays (K : Type) where
  points : List (K × K)
  cells : List (Int × Int × Int)
  topo : Option (List K)

/-- `write_to_fort14` (`oceanmesh/mesh_generator.py:40-124`): the text of the file and the arrays of the caller afterwards (`*= -1` and `+= 1`
work in place); `none` = `AssertionError`. -/
def writeFort14 (m : MeshArrays K) (name : List Char) (flip : Bool) : Option (List Char × MeshArrays K) :=
  let topo : Option (List K) :=
    match m.topo with
    | some z => if z.length = m.points.length then some z else none
    | none => some (List.replicate m.points.length 0)
  match topo with
  | none => none
  | some z =>
    let z' := if flip then z.map fun x => x * -1 else z
    let cells' := m.cells.map fun c => (c.1 + 1, c.2.1 + 1, c.2.2 + 1)
    let title := name ++ (if flip then " (bathymetry flipped) \n".toList else " \n".toList)
    let counts := formatI m.cells.length ++ ' ' :: formatI m.points.length ++ ['\n']
    let text := title ++ counts ++ vertexLines 0 (m.points.zip z') ++ elementLines 0 cells' ++ (List.replicate 4 "0 \n".toList).flatten
    some (text, ⟨m.points, cells', m.topo.map fun _ => z'⟩)

/-- Node lines of a t3s file (`oceanmesh/mesh_generator.py:183-190`). -/
def t3Vertices (l : List (K × K)) : List Char :=
  l.flatMap fun p => formatF p.1 ++ ' ' :: formatF p.2 ++ ' ' :: formatF (0 : K) ++ ['\n']

/-- Element lines of a t3s file (`oceanmesh/mesh_generator.py:193-200`). -/
def t3Elements (l : List (Int × Int × Int)) : List Char :=
  l.flatMap fun c => formatI c.1 ++ ' ' :: formatI c.2.1 ++ ' ' :: formatI c.2.2 ++ [' ', '\n']

/-- The header of a t3s file, line by line (`oceanmesh/mesh_generator.py:148-180`); the lines without characters are left out. -/
def t3Header (date : List Char) (np ne : Nat) : List (List Char) :=
  ["#########################################################################".toList,
    "        :FileType t3s ASCII EnSim 1.0".toList,
    "        # Canadian Hydraulics Centre/National Research Council (c) 1998-2004".toList,
    "        # DataType 2D T3 Scalar Mesh".toList,
    "        #".toList,
    "        :Application BlueKenue".toList,
    "        :Version 3.0.44".toList,
    "        :WrittenBy pyoceanmesh".toList,
    "        :CreationDate ".toList ++ date,
    "        #".toList,
    "        #------------------------------------------------------------------------".toList,
    "        #".toList,
    "        :Projection Cartesian".toList,
    "        :Ellipsoid Unknown".toList,
    "        #".toList,
    "        :NodeCount ".toList ++ Nat.toDigits 10 np,
    "        :ElementCount ".toList ++ Nat.toDigits 10 ne,
    "        :ElementType T3".toList,
    "        #".toList,
    "        :EndHeader".toList]

/-- `write_to_t3s` (`oceanmesh/mesh_generator.py:127-202`); the arrays of the caller are not touched. -/
def writeT3s (date : List Char) (m : MeshArrays K) : List Char × MeshArrays K :=
  ((t3Header date m.points.length m.cells.length).flatMap (· ++ ['\n']) ++ t3Vertices m.points ++ t3Elements m.cells, m)

/-- An export call with its arguments besides the arrays (`oceanmesh/mesh_generator.py:40-47,127`). -/
inductive ExportCall
  | fort14 (name : List Char) (flip : Bool)
  | t3s (date : List Char)

/-- One export call: the file (`none` = exception) and the arrays afterwards (`oceanmesh/mesh_generator.py:40-202`). -/
def exportStep (m : MeshArrays K) : ExportCall → Option (List Char) × MeshArrays K
  | .fort14 name flip =>
    match writeFort14 m name flip with
    | some r => (some r.1, r.2)
    | none => (none, m)
  | .t3s date => (some (writeT3s date m).1, (writeT3s date m).2)

/-- A history of export calls on the same arrays: the files and the arrays at the end (`oceanmesh/mesh_generator.py:40-202`). -/
def exportHistory (m : MeshArrays K) : List ExportCall → List (Option (List Char)) × MeshArrays K
  | [] => ([], m)
  | c :: l =>
    let r := exportStep m c
    let s := exportHistory r.2 l
    (r.1 :: s.1, s.2)
end

end OM
