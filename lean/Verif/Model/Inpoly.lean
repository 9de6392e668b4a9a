import Verif.Model.Sdf
/-!
# Model of `oceanmesh/geometry/point_in_polygon.py` and `point_in_polygon_.pyx`

The kernels work point by point; edges enter as pairs of end points. The vertices of the polygon are finite numbers, query points may have
coordinates that are not finite (`QueryPoint`). Shapely and matplotlib are parameters.
-/
namespace OM

/-- An edge with its end points, the arrays `x1, y1, x2, y2` (`oceanmesh/geometry/point_in_polygon.py:238-241`). -/
abbrev Seg (K : Type) := (K × K) × (K × K)

section
variable {K : Type} [Field K] [LinearOrder K]

/-! ## Ray casting in Python -/

/-- The point is outside the vertical range of the edge (`oceanmesh/geometry/point_in_polygon.py:263-265,272-278`). -/
def pySkip (ftol : K) (q : K × K) (s : Seg K) : Bool :=
  decide (q.2 < min s.1.2 s.2.2 - ftol) || decide (max s.1.2 s.2.2 + ftol < q.2)

/-- The point lies on the segment within the tolerance (`oceanmesh/geometry/point_in_polygon.py:285-300`). -/
def pyOnSegment (ftol : K) (q : K × K) (s : Seg K) : Bool :=
  let vx := s.2.1 - s.1.1
  let vy := s.2.2 - s.1.2
  let wx := q.1 - s.1.1
  let wy := q.2 - s.1.2
  let len2 := vx * vx + vy * vy
  let cross := vx * wy - vy * wx
  let dot := vx * wx + vy * wy
  decide (0 < len2) && decide (cross * cross / len2 ≤ ftol * ftol) && decide (-ftol ≤ dot) && decide (dot ≤ len2 + ftol)

/-- The edge counts as a crossing of the ray to the right (`oceanmesh/geometry/point_in_polygon.py:302-312`). -/
def pyCross (ftol : K) (q : K × K) (s : Seg K) : Bool :=
  !decide (|s.2.2 - s.1.2| ≤ ftol) && (decide (q.2 < s.1.2) != decide (q.2 < s.2.2)) &&
    decide (q.1 < s.1.1 + (q.2 - s.1.2) * (s.2.1 - s.1.1) / (s.2.2 - s.1.2))

/-- The loop over the edges (`oceanmesh/geometry/point_in_polygon.py:268-312`); gives `on_boundary` and `crossings`. -/
def pyLoop (ftol : K) (q : K × K) : List (Seg K) → Nat → Bool × Nat
  | [], c => (false, c)
  | s :: l, c =>
    if pySkip ftol q s then pyLoop ftol q l c
    else if pyOnSegment ftol q s then (true, c)
    else if pyCross ftol q s then pyLoop ftol q l (c + 1)
    else pyLoop ftol q l c

/-- The bounding box of the edges (`oceanmesh/geometry/point_in_polygon.py:243-247`) for a list that is not empty. -/
def segBox (s : Seg K) (l : List (Seg K)) : Box K :=
  ⟨min (listMin s.1.1 (l.map (·.1.1))) (listMin s.2.1 (l.map (·.2.1))), max (listMax s.1.1 (l.map (·.1.1))) (listMax s.2.1 (l.map (·.2.1))),
    min (listMin s.1.2 (l.map (·.1.2))) (listMin s.2.2 (l.map (·.2.2))), max (listMax s.1.2 (l.map (·.1.2))) (listMax s.2.2 (l.map (·.2.2)))⟩

/-- `_inpoly_raycasting` at one point (`oceanmesh/geometry/point_in_polygon.py:213-320`): inside and boundary answer. `nodes` is the number of
vertices. -/
def pyPoint (ftol : K) (nodes : Nat) (segs : List (Seg K)) (q : K × K) : Bool × Bool :=
  match segs with
  | [] => (false, false)
  | s :: l =>
    if nodes < 3 then (false, false)
    else
      let b := segBox s l
      if b.xmin - ftol ≤ q.1 ∧ q.1 ≤ b.xmax + ftol ∧ b.ymin - ftol ≤ q.2 ∧ q.2 ≤ b.ymax + ftol then
        let r := pyLoop ftol q (s :: l) 0
        if r.1 then (true, true) else (r.2 % 2 == 1, false)
      else (false, false)

/-! ## The compiled kernel -/

/-- The point is outside the vertical range of the edge (`oceanmesh/geometry/point_in_polygon_.pyx:69-79,98-100`). -/
def cSkip (ftol : K) (q : K × K) (s : Seg K) : Bool :=
  let lo := if s.1.2 < s.2.2 then s.1.2 else s.2.2
  let hi := if s.1.2 < s.2.2 then s.2.2 else s.1.2
  decide (q.2 < lo - ftol) || decide (hi + ftol < q.2)

/-- The boundary test (`oceanmesh/geometry/point_in_polygon_.pyx:109-121`). -/
def cOnSegment (ftol : K) (q : K × K) (s : Seg K) : Bool :=
  let dx := s.2.1 - s.1.1
  let dy := s.2.2 - s.1.2
  if dx ≠ 0 ∨ dy ≠ 0 then
    let t := ((q.1 - s.1.1) * dx + (q.2 - s.1.2) * dy) / (dx * dx + dy * dy)
    let px := s.1.1 + t * dx
    let py := s.1.2 + t * dy
    decide (0 ≤ t) && decide (t ≤ 1) && decide (|q.1 - px| + |q.2 - py| ≤ ftol)
  else false

/-- The crossing test (`oceanmesh/geometry/point_in_polygon_.pyx:123-128`). -/
def cCross (q : K × K) (s : Seg K) : Bool :=
  let dx := s.2.1 - s.1.1
  let dy := s.2.2 - s.1.2
  ((decide (s.1.2 ≤ q.2) && decide (q.2 < s.2.2)) || (decide (s.2.2 ≤ q.2) && decide (q.2 < s.1.2))) &&
    decide (q.1 < s.1.1 + (q.2 - s.1.2) * (dx / (if dy ≠ 0 then dy else 1 / 10000000000000000)))

/-- The loop over the edges (`oceanmesh/geometry/point_in_polygon_.pyx:94-128`); gives `on_bnd` and `inside`. -/
def cLoop (ftol : K) (q : K × K) : List (Seg K) → Bool → Bool × Bool
  | [], i => (false, i)
  | s :: l, i =>
    if cSkip ftol q s then cLoop ftol q l i
    else if cOnSegment ftol q s then (true, i)
    else if cCross q s then cLoop ftol q l (!i)
    else cLoop ftol q l i

/-- `inpoly2_fast` at one point with finite coordinates (`oceanmesh/geometry/point_in_polygon_.pyx:86-138`): inside and boundary answer. -/
def cPoint (ftol : K) (segs : List (Seg K)) (q : K × K) : Bool × Bool :=
  let r := cLoop ftol q segs false
  if r.1 then (true, true) else (r.2, false)

/-! ## Rings from edges -/

/-- The vertices in the order of the keys of `adj` (`oceanmesh/geometry/point_in_polygon.py:436-439`). -/
def ringKeys (es : List (Nat × Nat)) : List Nat :=
  es.foldl (fun ks e =>
    let ks := if e.1 ∈ ks then ks else ks ++ [e.1]
    if e.2 ∈ ks then ks else ks ++ [e.2]) []

/-- The list `adj[v]` (`oceanmesh/geometry/point_in_polygon.py:436-439`). -/
def ringNbrs (es : List (Nat × Nat)) (v : Nat) : List Nat :=
  es.flatMap fun e => (if e.1 = v then [e.2] else []) ++ (if e.2 = v then [e.1] else [])

/-- The next vertex of the walk (`oceanmesh/geometry/point_in_polygon.py:458-463`); `none` if there are not two neighbours. -/
def ringNext (es : List (Nat × Nat)) (prev : Option Nat) (cur : Nat) : Option Nat :=
  match ringNbrs es cur with
  | [a, b] =>
    match prev with
    | none => some a
    | some p => some (if b = p then a else b)
  | _ => none

/-- The `while True` loop (`oceanmesh/geometry/point_in_polygon.py:455-466`) with a bound on the number of rounds; `none` = bound reached. -/
def ringWalk (es : List (Nat × Nat)) (start : Nat) : Nat → Option Nat → Nat → Option (List Nat)
  | 0, _, _ => none
  | fuel + 1, prev, cur =>
    match ringNext es prev cur with
    | none => none
    | some nxt => if nxt = start then some [cur] else (ringWalk es start fuel (some cur) nxt).map (cur :: ·)

/-- The loop over the start vertices (`oceanmesh/geometry/point_in_polygon.py:448-470`). -/
def ringLoop (es : List (Nat × Nat)) (fuel : Nat) : List Nat → List Nat → Option (List (List Nat))
  | [], _ => some []
  | v :: ks, visited =>
    if v ∈ visited then ringLoop es fuel ks visited
    else
      match ringWalk es v fuel none v with
      | none => none
      | some r => (ringLoop es fuel ks (visited ++ r)).map (r :: ·)

/-- `_edges_to_rings` on indices (`oceanmesh/geometry/point_in_polygon.py:414-472`): `some none` = `ValueError`, `none` = the walk does not end
within one round per vertex. -/
def edgesToRings (es : List (Nat × Nat)) : Option (Option (List (List Nat))) :=
  if es = [] then some (some [])
  else if (ringKeys es).all fun v => (ringNbrs es v).length == 2 then
    (ringLoop es (ringKeys es).length (ringKeys es) []).map some
  else some none

/-! ## The wrapper -/

/-- The names of the methods (`oceanmesh/geometry/point_in_polygon.py:72`). -/
inductive PolyMethod
  | raycasting
  | shapely
  | matplotlib
  deriving DecidableEq

/-- Installed modules and environment variables (`oceanmesh/geometry/point_in_polygon.py:34-69,144-148`). -/
structure PolyConfig where
  compiled : Bool
  haveShapely : Bool
  haveMpl : Bool
  env : Option PolyMethod

/-- `_select_method` (`oceanmesh/geometry/point_in_polygon.py:191-205`). -/
def selectMethod (cfg : PolyConfig) (points edges : Nat) : PolyMethod :=
  match cfg.env with
  | some m => m
  | none =>
    if points < 1000 ∧ edges < 1000 then .raycasting
    else if cfg.haveShapely then .shapely
    else if cfg.haveMpl then .matplotlib
    else .raycasting

/-- An external polygon test: from the rings to an answer for a point, `none` = exception when the polygon is built
(`oceanmesh/geometry/point_in_polygon.py:348-362,403-411`). -/
abbrev PolyEngine (K : Type) := List (List (K × K)) → Option (K × K → Bool × Bool)

/-- The coordinates of the vertices of an index list, `none` = out of range (`oceanmesh/geometry/point_in_polygon.py:469`). -/
def ringCoords (node : List (K × K)) (r : List Nat) : Option (List (K × K)) := collectAll (r.map fun i => node[i]?)

/-- `_inpoly_shapely` and `_inpoly_matplotlib` (`oceanmesh/geometry/point_in_polygon.py:328-362,369-411`): ray casting if the edges do not give
rings. -/
def enginePoints (eng : PolyEngine K) (ray : K × K → Bool × Bool) (node : List (K × K)) (es : List (Nat × Nat)) :
    Option (K × K → Bool × Bool) :=
  match edgesToRings es with
  | none => none
  | some none => some ray
  | some (some []) => some ray
  | some (some rings) =>
    match collectAll (rings.map (ringCoords node)) with
    | none => none
    | some cs => eng cs

/-- The edges with their coordinates, `none` = out of range (`oceanmesh/geometry/point_in_polygon.py:238-241`). -/
def segsOf (node : List (K × K)) (es : List (Nat × Nat)) : Option (List (Seg K)) :=
  collectAll (es.map fun e =>
    match node[e.1]?, node[e.2]? with
    | some a, some b => some (a, b)
    | _, _ => none)

/-- The edges used when none are given (`oceanmesh/geometry/point_in_polygon.py:118-119`). -/
def closedRing (m : Nat) : List (Nat × Nat) := (List.range m).map fun i => (i, (i + 1) % m)

/-- The check of the edge indices (`oceanmesh/geometry/point_in_polygon.py:125-129`); `none` = `ValueError`. -/
def checkEdges (m : Nat) (es : List (Int × Int)) : Option (List (Nat × Nat)) :=
  if es.all fun e => decide (0 ≤ e.1) && decide (0 ≤ e.2) && decide (e.1 < m) && decide (e.2 < m) then
    some (es.map fun e => (e.1.toNat, e.2.toNat))
  else none

/-- The query points with finite coordinates (`oceanmesh/geometry/point_in_polygon.py:132-137`). -/
def finitePoint : QueryPoint K → Option (K × K)
  | (some x, some y) => some (x, y)
  | _ => none

/-- The answer function chosen for a number of points (`oceanmesh/geometry/point_in_polygon.py:144-174`). -/
def kernelFor (cfg : PolyConfig) (shapely mpl : PolyEngine K) (ftol : K) (node : List (K × K)) (es : List (Nat × Nat)) (points : Nat) :
    Option (K × K → Bool × Bool) :=
  match segsOf node es with
  | none => none
  | some segs =>
    let ray := pyPoint ftol node.length segs
    if cfg.env = none ∧ cfg.compiled = true then some (cPoint ftol segs)
    else
      let m := selectMethod cfg points es.length
      if m = .shapely ∧ cfg.haveShapely = true then enginePoints shapely ray node es
      else if m = .matplotlib ∧ cfg.haveMpl = true then enginePoints mpl ray node es
      else some ray

/-- `inpoly2` (`oceanmesh/geometry/point_in_polygon.py:75-181`) for arrays of the right shape; `none` = exception. -/
def inpoly2 (cfg : PolyConfig) (shapely mpl : PolyEngine K) (ftol : K) (vert : List (QueryPoint K)) (node : List (K × K))
    (edge : Option (List (Int × Int))) : Option (List (Bool × Bool)) :=
  let no := vert.map fun _ => (false, false)
  if node = [] then some no
  else
    let es : Option (Option (List (Nat × Nat))) :=
      match edge with
      | none => if node.length < 2 then some none else some (some (closedRing node.length))
      | some e => (checkEdges node.length e).map some
    match es with
    | none => none
    | some none => some no
    | some (some e) =>
      let n := (vert.filterMap finitePoint).length
      if n = 0 then some no
      else
        (kernelFor cfg shapely mpl ftol node e n).map fun ans =>
          vert.map fun v =>
            match finitePoint v with
            | some p => ans p
            | none => (false, false)
end

end OM
