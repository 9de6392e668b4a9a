import Verif.Model.Shoreline
import Verif.Model.Circle
/-!
# Model of `_clip_polys_2` (`oceanmesh/geodata.py`)

`matplotlib.path.Path.contains_points` is a parameter `inside`. Coordinates are numbers; NaN occurs only as separator rows (`none`).
-/
namespace OM
section
variable {K : Type} [Field K] [LinearOrder K]

/-- The flags `_keepLL`, `_keepUL`, `_keepLR`, `_keepUR` (`oceanmesh/geodata.py:696-699`). -/
structure KeepFlags where
  ll : Bool
  ul : Bool
  lr : Bool
  ur : Bool

/-- A point beyond a corner is moved to it if it is the first one there, other points are removed (`none`)
(`oceanmesh/geodata.py:711-732`). -/
def snapCorner (b : Box K) (k : KeepFlags) (q : K × K) : Option (K × K) × KeepFlags :=
  if k.ll = true ∧ q.1 < b.xmin ∧ q.2 < b.ymin then (some (b.xmin, b.ymin), { k with ll := false })
  else if k.ul = true ∧ q.1 < b.xmin ∧ b.ymax < q.2 then (some (b.xmin, b.ymax), { k with ul := false })
  else if k.lr = true ∧ b.xmax < q.1 ∧ q.2 < b.ymin then (some (b.xmax, b.ymin), { k with lr := false })
  else if k.ur = true ∧ b.xmax < q.1 ∧ b.ymax < q.2 then (some (b.xmax, b.ymax), { k with ur := false })
  else (none, k)

/-- The loop over the points of a polygon, with the removal at its end (`oceanmesh/geodata.py:704-738`). -/
def snapLoop (b : Box K) (inside : K × K → Bool) : KeepFlags → List (K × K) → List (K × K)
  | _, [] => []
  | k, q :: l =>
    if inside q then q :: snapLoop b inside k l
    else if (b.xmin < q.1 ∧ q.1 < b.xmax) ∧ (b.ymin < q.2 ∧ q.2 < b.ymax) then q :: snapLoop b inside k l
    else match snapCorner b k q with
      | (some c, k') => c :: snapLoop b inside k' l
      | (none, k') => snapLoop b inside k' l

/-- Closing of the line (`oceanmesh/geodata.py:742-746`); `none` = `IndexError` (no rows). -/
def closeLine (line : List (K × K)) : Option (List (Option (K × K))) :=
  match line.head?, line.getLast? with
  | some a, some z =>
    if isCloseTo a.1 z.1 = true ∧ isCloseTo a.2 z.2 = true then some (line.map some ++ [none]) else some ((line ++ [a]).map some ++ [none])
  | _, _ => none

/-- One polygon without its separator row (`oceanmesh/geodata.py:690-748`): the arrays appended to `out`. -/
def clipSnapPoly (b : Box K) (inside : K × K → Bool) (p : List (K × K)) : Option (List (List (Option (K × K)))) :=
  if p.all inside then some [p.map some ++ [none]]
  else if p.any inside then (closeLine (snapLoop b inside ⟨true, true, true, true⟩ p)).map fun x => [x]
  else some []

/-- The loop over the polygons (`oceanmesh/geodata.py:689-748`). -/
def clipSnapLoop (b : Box K) (inside : K × K → Bool) : List (List (K × K)) → Option (List (List (Option (K × K))))
  | [] => some []
  | p :: l =>
    match clipSnapPoly b inside p, clipSnapLoop b inside l with
    | some r, some s => some (r ++ s)
    | _, _ => none

/-- `_clip_polys_2` (`oceanmesh/geodata.py:673-752`); `contains ring` is `Path(ring).contains_points` for one point. The polygons are the runs of
rows that are not NaN (`_convert_to_list` adds a separator row to each, `poly[:-1, :]` removes it). `none` = an exception. -/
def clipPolys2 (contains : List (K × K) → K × K → Bool) (delta : K) (bbox : Box K) (arr : List (Option (K × K))) : Option (List (Option (K × K))) :=
  let b := inflate delta bbox
  (clipSnapLoop b (contains (createBoubox b)) (clumps [] (none :: arr))).bind convertToArray

end
end OM
