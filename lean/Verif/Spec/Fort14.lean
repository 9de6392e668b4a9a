import Mathlib.Algebra.Order.Field.Basic
import Mathlib.Algebra.Order.AbsoluteValue.Basic
/-!
# Reading mesh files, independent of the writer

Text is a list of characters.
-/
namespace OM.Spec

/-- The pieces of a text between the separators. -/
def fields (sep : Char) : List Char → List (List Char)
  | [] => [[]]
  | c :: cs =>
    if c = sep then [] :: fields sep cs
    else
      match fields sep cs with
      | [] => [[c]]
      | l :: ls => (c :: l) :: ls

/-- The words of a line, separated by blanks. -/
def words (l : List Char) : List (List Char) := (fields ' ' l).filter (· ≠ [])

/-- A natural number in decimal digits. -/
def readNat (l : List Char) : Option Nat := if l ≠ [] ∧ l.all Char.isDigit then some (Nat.ofDigitChars 10 l 0) else none

/-- An integer in decimal digits. -/
def readInt : List Char → Option Int
  | '-' :: l => (readNat l).map fun n => -(n : Int)
  | l => (readNat l).map fun n => (n : Int)

section
variable {K : Type} [Field K]

/-- A decimal number without sign. -/
def readFixedAbs (l : List Char) : Option K :=
  match fields '.' l with
  | [a, b] =>
    match readNat a, readNat b with
    | some x, some y => some ((x : K) + (y : K) / 10 ^ b.length)
    | _, _ => none
  | _ => none

/-- A decimal number. -/
def readFixed : List Char → Option K
  | '-' :: l => (readFixedAbs l).map fun x => -x
  | l => readFixedAbs l

/-- The contents of a mesh file; vertex numbers of the elements start at zero. -/
structure MeshFile (K : Type) where
  title : List Char
  vertices : List (K × K × K)
  elements : List (Int × Int × Int)

/-- The vertex in line number `k` of the vertices (`k` starts at zero) of a fort.14 file. -/
def readVertex (k : Nat) (line : List Char) : Option (K × K × K) :=
  match words line with
  | [i, x, y, z] =>
    match readNat i, readFixed x, readFixed y, readFixed z with
    | some i, some x, some y, some z => if i = k + 1 then some (x, y, z) else none
    | _, _, _, _ => none
  | _ => none

/-- The element in line number `k` of the elements. -/
def readElement (k : Nat) (line : List Char) : Option (Int × Int × Int) :=
  match words line with
  | [i, n, a, b, c] =>
    match readNat i, readNat n, readInt a, readInt b, readInt c with
    | some i, some n, some a, some b, some c => if i = k + 1 ∧ n = 3 then some (a - 1, b - 1, c - 1) else none
    | _, _, _, _, _ => none
  | _ => none

/-- Read lines with a reader that knows the line number; all must be readable. -/
def readRows {A : Type} (f : Nat → List Char → Option A) : Nat → List (List Char) → Option (List A)
  | _, [] => some []
  | k, l :: ls =>
    match f k l, readRows f (k + 1) ls with
    | some a, some as => some (a :: as)
    | _, _ => none

/-- Read a fort.14 file without boundary conditions: title, number of elements and vertices, vertices, elements, four zeros. -/
def readFort14 (text : List Char) : Option (MeshFile K) :=
  match fields '\n' text with
  | title :: counts :: rest =>
    match (words counts).map readNat with
    | [some ne, some np] =>
      if ((rest.drop (np + ne)).map fun l => (words l).map readNat) = List.replicate 4 [some 0] ++ [[]] then
        match readRows readVertex 0 (rest.take np), readRows readElement 0 ((rest.drop np).take ne) with
        | some vs, some es => if vs.length = np ∧ es.length = ne then some ⟨title, vs, es⟩ else none
        | _, _ => none
      else none
    | _ => none
  | _ => none

/-- The value of the first header line `:Key n`. -/
def headerValue (key : List Char) : List (List Char) → Option Nat
  | [] => none
  | l :: ls =>
    match words l with
    | [a, n] => if a = key then readNat n else headerValue key ls
    | _ => headerValue key ls

/-- The lines after the header. -/
def afterHeader : List (List Char) → Option (List (List Char))
  | [] => none
  | l :: ls => if words l = [":EndHeader".toList] then some ls else afterHeader ls

/-- A vertex line of a t3s file. -/
def readT3Vertex (_ : Nat) (line : List Char) : Option (K × K × K) :=
  match (words line).map readFixed with
  | [some x, some y, some z] => some (x, y, z)
  | _ => none

/-- An element line of a t3s file. -/
def readT3Element (_ : Nat) (line : List Char) : Option (Int × Int × Int) :=
  match (words line).map readInt with
  | [some a, some b, some c] => some (a, b, c)
  | _ => none

/-- Read a t3s file: header with the numbers of vertices and elements, then the vertices and the elements with vertex numbers as they are. -/
def readT3s (text : List Char) : Option (MeshFile K) :=
  let lines := fields '\n' text
  match headerValue ":NodeCount".toList lines, headerValue ":ElementCount".toList lines, afterHeader lines with
  | some np, some ne, some rest =>
    if rest.drop (np + ne) = [[]] then
      match readRows readT3Vertex 0 (rest.take np), readRows readT3Element 0 ((rest.drop np).take ne) with
      | some vs, some es => if vs.length = np ∧ es.length = ne then some ⟨[], vs, es⟩ else none
      | _, _ => none
    else none
  | _, _, _ => none
end

section
variable {K : Type} [Field K] [LinearOrder K]

/-- Two numbers are equal up to half a unit of the sixth decimal. -/
def Near6 (x y : K) : Prop := |x - y| ≤ 1 / (2 * 10 ^ 6)

/-- The number has at most six decimals. -/
def SixDecimals (x : K) : Prop := ∃ n : Int, x = n / 10 ^ 6
end

end OM.Spec
