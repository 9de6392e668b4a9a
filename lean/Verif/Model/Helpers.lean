import Mathlib.Algebra.Order.Field.Basic
import Mathlib.Algebra.BigOperators.Group.List.Basic
/-!
# Model of small helper functions

`get_polygon_coordinates` (`oceanmesh/geodata.py:448-460`), `warp_coordinates` and `get_crs_string` (`oceanmesh/region.py:8-21`, `:99-104`), `_generate_samples`
(`oceanmesh/signed_distance_function.py:65-94`) and `_sparse` (`oceanmesh/clean.py:392-411`). What geopandas, numpy.loadtxt, pyproj and random return are parameters. Exceptions are `none`.
-/
namespace OM

variable {K : Type} [Field K] [LinearOrder K]

/-- A geometry of a vector file: a polygon with its outer ring and its holes, or something without `exterior` (`oceanmesh/geodata.py:457`). -/
inductive VectorGeometry (K : Type) where
  | polygon (exterior : List (K × K)) (holes : List (List (K × K)))
  | other

/-- What is read from the file (`oceanmesh/geodata.py:456`, `:459`): the features of a vector file, the rows of a text file. -/
structure FileContent (K : Type) where
  features : Option (List (VectorGeometry K))
  rows : Option (List (List K))

/-- `str.endswith` (`oceanmesh/geodata.py:452-454`, `:458`). -/
def endsWith (name suffix : List Char) : Bool := decide (suffix <:+ name)

/-- `get_polygon_coordinates` (`oceanmesh/geodata.py:448-460`): rows of coordinates, `none` = raises (unreadable file, no feature, first feature no polygon, other ending of the name). -/
def polygonFrom (name : List Char) (file : FileContent K) : Option (List (List K)) :=
  if endsWith name ".shp".toList || endsWith name ".geojson".toList || endsWith name ".gpkg".toList then
    match file.features with
    | some (.polygon exterior _ :: _) => some (exterior.map fun q => [q.1, q.2])
    | _ => none
  else if endsWith name ".csv".toList then file.rows
  else none

/-- The transformation of one row: its first two columns (`oceanmesh/region.py:103`). -/
def warpRow (f : K × K → K × K) : List K → Option (K × K)
  | x :: y :: _ => some (f (x, y))
  | _ => none

/-- `warp_coordinates` (`oceanmesh/region.py:99-104`): the columns are transformed together and put together again; `none` = raises (unknown code, fewer than two columns). -/
def warpRows {C : Type} (fromEpsg : Nat → Option C) (transform : C → C → K × K → K × K) (points : List (List K)) (src dst : Nat) : Option (List (K × K)) :=
  match fromEpsg src, fromEpsg dst with
  | some a, some b => points.mapM (warpRow (transform a b))
  | _, _ => none

/-- `get_crs_string` (`oceanmesh/region.py:8-21`): `parse` is `CRS.from_user_input` followed by `to_string` (`none` = raises), `str` is Python's `str`. -/
def crsString {C : Type} (parse : C → Option (List Char)) (str : C → List Char) : Option C → List Char
  | none => "None".toList
  | some c =>
    match parse c with
    | some s => s
    | none => str c

/-- `random.uniform(a, b)` is `a + (b - a) * random()` (`oceanmesh/signed_distance_function.py:74-75`, `:86-88`); `r` is the number drawn. -/
def uniformOf (a b r : K) : K := a + (b - a) * r

/-- The box is widened by 0.01 at both ends (`oceanmesh/signed_distance_function.py:68-69`, `:81`). -/
def widened (ends : K × K) : K × K := (ends.1 - 1 / 100, ends.2 + 1 / 100)

/-- One sample: one number drawn for each direction, in order (`oceanmesh/signed_distance_function.py:73-76`, `:85-89`). -/
def sampleRow (box : List (K × K)) (draw : Nat → K) (start : Nat) : List K :=
  (box.zipIdx start).map fun q => uniformOf (widened q.1).1 (widened q.1).2 (draw q.2)

/-- `_generate_samples` (`oceanmesh/signed_distance_function.py:65-94`): `box` are the pairs of ends given by the box, `draw` the numbers drawn one after the other. With dimensions other than 2 and 3 no
samples are drawn; dimension 0 and too short boxes raise (two pairs of ends are always read). -/
def generateSamples (box : List (K × K)) (dim n : Nat) (draw : Nat → K) : Option (List (List K)) :=
  if dim = 0 ∨ box.length < 2 ∨ dim = 3 ∧ box.length < 3 then none
  else if dim = 2 ∨ dim = 3 then some ((List.range n).map fun i => sampleRow (box.take dim) draw (dim * i))
  else some []

/-- A scalar argument or an array (`oceanmesh/clean.py:398-405`). -/
inductive ScalarOr (A : Type) where
  | scalar (a : A)
  | array (l : List A)

/-- The scalar is repeated for each index of the first array (`oceanmesh/clean.py:398-405`). -/
def ScalarOr.spread {A : Type} (n : Nat) : ScalarOr A → List A
  | .scalar a => List.replicate n a
  | .array l => l

/-- `_sparse` (`oceanmesh/clean.py:392-411`) with a given shape: the entries of the matrix in coordinate form; `none` = raises (arrays of different lengths, indices outside of the shape). -/
def sparseEntries (rows : List Nat) (cols : ScalarOr Nat) (vals : ScalarOr K) (n m : Nat) : Option (List (Nat × Nat × K)) :=
  let j := cols.spread rows.length
  let s := vals.spread rows.length
  if rows.length = j.length ∧ rows.length = s.length ∧ (∀ i ∈ rows, i < n) ∧ ∀ i ∈ j, i < m then some (rows.zip (j.zip s)) else none

/-- The element of a matrix in coordinate form: entries at the same place are added up (used by `np.sum(S, 1)` and products, `oceanmesh/clean.py:462`). -/
def entryAt (e : List (Nat × Nat × K)) (i j : Nat) : K := ((e.filter fun q => q.1 = i ∧ q.2.1 = j).map fun q => q.2.2).sum

/-- A row sum of a matrix in coordinate form (`np.sum(S, 1)` in `oceanmesh/clean.py:462`). -/
def rowSumOf (e : List (Nat × Nat × K)) (i : Nat) : K := ((e.filter fun q => q.1 = i).map fun q => q.2.2).sum

/-- The matrix of `laplacian2` (`oceanmesh/clean.py:445-450`). -/
def laplacianMatrix (t : List (Nat × Nat × Nat)) (n : Nat) : Option (List (Nat × Nat × K)) :=
  sparseEntries (t.flatMap fun q => [q.1, q.1, q.2.1, q.2.1, q.2.2, q.2.2]) (.array (t.flatMap fun q => [q.2.1, q.2.2, q.1, q.2.2, q.1, q.2.1])) (.scalar 1) n n

end OM
