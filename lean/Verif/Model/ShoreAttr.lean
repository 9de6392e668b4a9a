import Mathlib.Algebra.Order.Field.Basic
/-!
# Model of the attributes of `Shoreline` (`oceanmesh/geodata.py:1012-1053`)

Numbers are `Option K` with `none` = NaN; comparisons with NaN are false. Paths are lists of characters; whether a path is a file is an argument (it may change between two assignments). Values that
cannot be compared with numbers, which raise TypeError, are left out. The exceptions are told apart.
-/
namespace OM

variable {K : Type} [Field K] [LinearOrder K]

/-- The attributes with checks (`oceanmesh/geodata.py:1012-1053`). -/
structure ShoreAttr (K : Type) where
  shp : List Char
  h0 : Option K
  refinements : Option K
  mult : Option K
deriving DecidableEq

/-- FileNotFoundError and ValueError (`oceanmesh/geodata.py:1019`, `:1029`, `:1039-1042`, `:1052`). -/
inductive ShoreError
  | fileNotFound | valueError
deriving DecidableEq

/-- An assignment to an attribute (`oceanmesh/geodata.py:1016`, `:1026`, `:1036`, `:1049`); for a path with the answer of `os.path.isfile`. -/
inductive ShoreOp (K : Type) where
  | shp (path : List Char) (isfile : Bool)
  | refinements (x : Option K)
  | mult (x : Option K)
  | h0 (x : Option K)

/-- `value < 0` (`oceanmesh/geodata.py:1028`). -/
def belowZero : Option K → Bool
  | some x => decide (x < 0)
  | none => false

/-- `value <= 0` (`oceanmesh/geodata.py:1038`, `:1051`). -/
def notAboveZero : Option K → Bool
  | some x => decide (x ≤ 0)
  | none => false

/-- An assignment (`oceanmesh/geodata.py:1016-1020`, `:1026-1030`, `:1036-1043`, `:1049-1053`). -/
def ShoreAttr.step (s : ShoreAttr K) : ShoreOp K → Except ShoreError (ShoreAttr K)
  | .shp path isfile => if isfile then .ok { s with shp := path } else .error .fileNotFound
  | .refinements x => if belowZero x then .error .valueError else .ok { s with refinements := x }
  | .mult x => if notAboveZero x then .error .valueError else .ok { s with mult := x }
  | .h0 x => if notAboveZero x then .error .valueError else .ok { s with h0 := x }

/-- The attributes set by the constructor, in its order (`oceanmesh/geodata.py:974-987`). -/
def ShoreAttr.new (path : List Char) (isfile : Bool) (h0 refinements mult : Option K) : Except ShoreError (ShoreAttr K) :=
  if isfile then
    if notAboveZero h0 then .error .valueError
    else if belowZero refinements then .error .valueError
    else if notAboveZero mult then .error .valueError
    else .ok ⟨path, h0, refinements, mult⟩
  else .error .fileNotFound

/-- Assignments one after the other by a caller who catches exceptions (`oceanmesh/geodata.py:1012-1053`). -/
def ShoreAttr.run : List (ShoreOp K) → ShoreAttr K → ShoreAttr K
  | [], s => s
  | op :: ops, s =>
    match s.step op with
    | .ok s' => ShoreAttr.run ops s'
    | .error _ => ShoreAttr.run ops s

/-- `transform_to` (`oceanmesh/geodata.py:1056-1064`): the features, reprojected unless they already are in the wanted coordinate system. -/
def shoreTransform {C P : Type} [DecidableEq C] (reproject : C → C → P → P) (features : List P) (crs dst : C) : List P × C :=
  if crs = dst then (features, crs) else (features.map (reproject crs dst), dst)

end OM
