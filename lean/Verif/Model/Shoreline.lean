import Verif.Model.Geodata
/-!
# Model of the class `Shoreline` (`oceanmesh/geodata.py`)

Shapely is a parameter (`ShapeLib`). Geometries `G` are polygons and whatever set operations give. Coordinates are numbers; NaN occurs only as
separator rows (`none`).
-/
namespace OM
section
variable {K : Type} [Field K] [LinearOrder K]

/-- `_create_boubox` for a tuple (`oceanmesh/geodata.py:475-485`, `oceanmesh/signed_distance_function.py:278-284`). -/
def createBoubox (b : Box K) : List (K × K) := [(b.xmin, b.ymin), (b.xmax, b.ymin), (b.xmax, b.ymax), (b.xmin, b.ymax), (b.xmin, b.ymin)]

/-! ## Reading -/

/-- Type of a geometry (`oceanmesh/geodata.py:1102-1107`). -/
inductive FeatureKind where
  | line
  | polygon
  | other
deriving DecidableEq

/-- A geometry of the file, after the transformation to the coordinate system of the region and `explode`
(`oceanmesh/geodata.py:1084-1107`): bounds, type, and the coordinates of the line or of the exterior. -/
structure Feature (K : Type) where
  bounds : Box K
  kind : FeatureKind
  coords : List (K × K)

/-- The loop over the geometries (`oceanmesh/geodata.py:1098-1110`); `none` = an exception. -/
def readLoop (b : Box K) : List (Feature K) → Option (List (List (Option (K × K))))
  | [] => some []
  | g :: l =>
    if isOverlapping b g.bounds then
      if g.kind = .other then none
      else do
        let p ← removeDup2 g.coords
        let r ← readLoop b l
        return (p.map some ++ [none]) :: r
    else readLoop b l

/-- `Shoreline._read` (`oceanmesh/geodata.py:1066-1131`); `none` = an exception, also if no geometry overlaps the box. -/
def readShoreline (b : Box K) (fs : List (Feature K)) : Option (List (Option (K × K))) := (readLoop b fs).bind convertToArray

/-! ## Clipping -/

/-- Shapely as used by `_clip_polys` and `_classify_shoreline` (`oceanmesh/geodata.py:568-634,755-808`). `polygon`: from a list of points (`none`: it
raises); `repaired`: the parts of `buffer(1.0e-6)`; `parts`: the polygon itself, or the members of a collection, `none` for geometries without
members; `exterior`: coordinates of the outer ring (`none` for geometries that have none); `areaLonLat`: area after `to_lat_lon`. -/
structure ShapeLib (K G : Type) where
  polygon : List (K × K) → Option G
  valid : G → Bool
  repaired : G → List G
  contains : G → G → Bool
  overlaps : G → G → Bool
  inter : G → G → G
  diff : G → G → G
  isEmpty : G → Bool
  parts : G → Option (List G)
  exterior : G → Option (List (K × K))
  area : G → K
  areaLonLat : G → K

variable {G : Type}

/-- `np.vstack((xy, xy[0]))` with a NaN row behind (`oceanmesh/geodata.py:627-630,797-800`); `none`: no exterior or no points. -/
def ringRows (L : ShapeLib K G) (g : G) : Option (List (Option (K × K))) :=
  match L.exterior g with
  | some (x :: l) => some ((x :: l).map some ++ [some x, none])
  | _ => none

/-- The polygon made of `poly[:-2, :]` (`oceanmesh/geodata.py:602,775`), for a feature `f` without its NaN row. -/
def featurePolygon (L : ShapeLib K G) (f : List (K × K)) : Option G := L.polygon f.dropLast

/-- What a part `p` of feature `f` contributes (`oceanmesh/geodata.py:788-803`): all of the feature if the part is in the box `b`. -/
def clipPart (L : ShapeLib K G) (b : G) (f : List (K × K)) (p : G) : Option (List (Option (K × K))) :=
  if L.contains b p then some (f.map some ++ [none])
  else if L.isEmpty (L.inter p b) then some []
  else
    match L.parts (L.inter p b) with
    | none => none
    | some [] => none
    | some (g :: gs) => (collect (ringRows L) (g :: gs)).map List.flatten

/-- One feature (`oceanmesh/geodata.py:774-804`): invalid polygons are repaired first; without parts `del p` raises. -/
def clipFeature (L : ShapeLib K G) (b : G) (f : List (K × K)) : Option (List (Option (K × K))) :=
  match featurePolygon L f with
  | none => none
  | some g =>
    match (if L.valid g then [g] else L.repaired g) with
    | [] => none
    | p :: ps => (collect (clipPart L b f) (p :: ps)).map List.flatten

/-- The box made larger by `delta` (`oceanmesh/geodata.py:682,766`). -/
def inflate (delta : K) (b : Box K) : Box K := ⟨b.xmin - delta, b.xmax + delta, b.ymin - delta, b.ymax + delta⟩

/-- `_clip_polys` (`oceanmesh/geodata.py:755-808`). -/
def clipPolys (L : ShapeLib K G) (delta : K) (polys : List (Option (K × K))) (b : Box K) : Option (List (Option (K × K))) := do
  let B ← L.polygon (createBoubox (inflate delta b))
  let r ← collect (clipFeature L B) (clumps [] (none :: polys))
  return r.flatten

/-! ## Classification -/

/-- The geometry engine of the classification for features with their polygons (`oceanmesh/geodata.py:599-615`). -/
def shoreEngine (L : ShapeLib K G) (stereo : Bool) : ShapeEngine (List (K × K) × G) G K :=
  ⟨Prod.snd, L.contains, L.overlaps, L.diff, if stereo then L.areaLonLat else L.area⟩

/-- Result of `_classify_shoreline` (`oceanmesh/geodata.py:634`). -/
structure Shore (K : Type) where
  inner : List (Option (K × K))
  mainland : List (Option (K × K))
  boubox : List (Option (K × K))

/-- The orientation of the bounding polygon (`oceanmesh/geodata.py:580-584`). -/
def orientBoubox (b : Box K) (boubox : List (K × K)) : Option (List (K × K)) :=
  if boubox.length = 0 then some (createBoubox b)
  else (isPathCcw boubox).map fun ccw => if ccw then boubox else boubox.reverse

/-- `_classify_shoreline` (`oceanmesh/geodata.py:568-634`); `mask b` answers `contains_points` for the box `b` with
radius 0.1 (`:507-509`, the argument `radius` of `_densify` is not used). -/
def classifyAll [FloorRing K] (L : ShapeLib K G) (mask : Box K → Option (K × K) → Bool) (b : Box K) (boubox : List (K × K))
    (polys : List (Option (K × K))) (h0 mult : K) (stereo : Bool) : Option (Shore K) := do
  let bb ← orientBoubox b boubox
  let bd ← densify (h0 / 2) (bb.map some) ((bb.map some).map (mask b))
  let B ← L.polygon (bd.filterMap id)
  let fs ← collect (fun f => (featurePolygon L f).map fun g => (f, g)) (clumps [] (none :: polys))
  let st := classifyShoreline (shoreEngine L stereo) (mult * h0 ^ 2) stereo B fs
  let gs ← L.parts st.dom
  let rings ← collect (ringRows L) gs
  return ⟨(st.inner.map fun x => x.1.map some ++ [none]).flatten, (st.mainland.map fun x => x.1.map some ++ [none]).flatten, rings.flatten⟩

/-! ## The class -/

/-- The box of `polys * 0.99` in stereographic coordinates (`oceanmesh/geodata.py:992-999`); `none`: no points. -/
def stereoBox (polys : List (Option (K × K))) : Option (Box K) :=
  match polys.filterMap id with
  | [] => none
  | q :: l => some ⟨((l.map fun q => q.1 * (99 / 100)).foldl min (q.1 * (99 / 100))), ((l.map fun q => q.1 * (99 / 100)).foldl max (q.1 * (99 / 100))),
      ((l.map fun q => q.2 * (99 / 100)).foldl min (q.2 * (99 / 100))), ((l.map fun q => q.2 * (99 / 100)).foldl max (q.2 * (99 / 100)))⟩

/-- Arguments of `Shoreline` besides file, region and coordinate system (`oceanmesh/geodata.py:914-924`). -/
structure ShoreArgs (K : Type) where
  h0 : K
  refinements : Int
  mult : K
  smooth : Bool
  stereo : Bool

/-- The bounding polygon and the box of the region (`oceanmesh/geodata.py:962-975`): of a tuple, or of a polygon with its orientation corrected. `none`:
an exception. -/
def regionShape : Extent K → Option (List (K × K) × Box K)
  | .tuple [a, b, c, d] => some (createBoubox ⟨a, b, c, d⟩, ⟨a, b, c, d⟩)
  | .tuple _ => none
  | .polygon pts => do
    let ccw ← isPathCcw pts
    match (if ccw then pts else pts.reverse) with
    | [] => none
    | q :: l => return (q :: l, ⟨(l.map Prod.fst).foldl min q.1, (l.map Prod.fst).foldl max q.1, (l.map Prod.snd).foldl min q.2, (l.map Prod.snd).foldl max q.2⟩)

/-- The steps of `Shoreline.__init__` after the region is known (`oceanmesh/geodata.py:990-1010`). -/
def shorelineSteps [FloorRing K] (L : ShapeLib K G) (mask : Box K → Option (K × K) → Bool) (a : ShoreArgs K) (n : Nat) (boubox : List (K × K)) (b : Box K)
    (fs : List (Feature K)) : Option (Box K × Shore K) := do
  let polys ← readShoreline b fs
  let (bb, b) ← (if a.stereo then (stereoBox polys).map fun b => (createBoubox b, b) else some (boubox, b))
  let polys ← (if a.smooth then smoothShoreline n polys else some polys)
  let polys ← densify a.h0 polys (polys.map (mask b))
  let polys ← clipPolys L (1 / 10) polys b
  let s ← classifyAll L mask b bb polys (a.h0 / 2) a.mult a.stereo
  return (b, s)

/-- `Shoreline.__init__` (`oceanmesh/geodata.py:914-1010`) with the setters (`:1012-1053`) and the check of the region (`oceanmesh/region.py:189-199`):
the box and the three polygon arrays; `none`: an exception. The coordinate system is chosen by `shorelineCrs`, the geometries `fs` are in it. -/
def shoreline [FloorRing K] (L : ShapeLib K G) (mask : Box K → Option (K × K) → Bool) (a : ShoreArgs K) (e : Extent K) (fs : List (Feature K)) :
    Option (Box K × Shore K) := do
  let (bb, b) ← regionShape e
  let _ ← checkExtent (.tuple [b.xmin, b.xmax, b.ymin, b.ymax])
  if a.h0 ≤ 0 then none
  else if a.refinements < 0 then none
  else if a.mult ≤ 0 then none
  else shorelineSteps L mask a a.refinements.toNat bb b fs

/-- What is passed as `bbox` (`oceanmesh/geodata.py:931-942`). -/
inductive ShoreRegion (K C : Type) where
  | region (bbox : Extent K) (crs : C)
  | extent (bbox : Extent K)

/-- The coordinate system that is used (`oceanmesh/geodata.py:929-960`); `wgs` is `EPSG:4326`, the default; `native` is that of the file (`none` if missing
or not readable). Equality of coordinate systems is equality of `C`. -/
def shorelineCrs {C : Type} [DecidableEq C] (wgs : C) (crs : C) (native : Option C) : ShoreRegion K C → C
  | .region _ c => c
  | .extent (.tuple vals) =>
    if crs = wgs && !inferGeographic vals then
      match native with
      | some c => if c = wgs then crs else c
      | none => crs
    else crs
  | .extent (.polygon _) => crs

end
end OM
