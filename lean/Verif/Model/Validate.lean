import Verif.Model.Region
/-!
# Model of the checks of the mesh generator

Validation of multiscale inputs, of keyword options and of sizing grids (`oceanmesh/mesh_generator.py`).
-/
namespace OM

/-! ## Multiscale inputs -/

/-- What `pyproj` offers to the checks. `C` are CRS as given by the user, `P` parsed ones. `parse` is `CRS.from_user_input` (`none`: raises), `epsg` is
`to_epsg` (`none`: no code, or raises; both have the same effect everywhere), `same` is `equals`, `geographic` is `is_geographic`
(`oceanmesh/mesh_generator.py:343,383-384,454,476`, `oceanmesh/region.py:72-84`). -/
structure CrsEngine (C P : Type) where
  parse : C → Option P
  epsg : P → Option Nat
  same : P → P → Bool
  geographic : P → Bool

/-- The metadata of a domain that is looked at (`oceanmesh/mesh_generator.py:321,339,395-396`). A missing attribute `crs` counts as `None`, a missing
`stereo` as false; `bbox = none`: no attribute `bbox` (a plain function). A bbox always has four numbers. -/
structure DomainMeta (K C : Type) where
  bbox : Option (Box K)
  crs : Option C
  stereo : Bool

/-- The messages collected by the validation; the numbers are positions in the list (`oceanmesh/mesh_generator.py:326-504`). -/
inductive VError where
  | differentLength
  | severalGlobal
  | globalNotFirst
  | missingCrs (i : Nat)
  | globalNotWgs84
  | globalUnparsable
  | notContained (i : Nat)
  | containmentFailed (i : Nat)
  | regionStereo (i : Nat)
  | incompatible (i : Nat)
  | implicitMixing
  | edgeMismatch (i : Nat)
  | edgeUncomparable (i : Nat)
deriving DecidableEq, Repr

section
variable {K C P : Type} [Field K] [LinearOrder K]

/-- Positions (counted from `i`) of the elements with a property, `[i for i, s in enumerate(flags) if s]` (`oceanmesh/mesh_generator.py:321-322`). -/
def positionsFrom {α : Type} (f : α → Bool) (i : Nat) : List α → List Nat
  | [] => []
  | x :: l => if f x then i :: positionsFrom f (i + 1) l else positionsFrom f (i + 1) l

/-- `_find_global_domain` (`oceanmesh/mesh_generator.py:313-332`): the global domain and the messages. -/
def findGlobalDomain (ds : List (DomainMeta K C)) : Option (DomainMeta K C) × List VError :=
  match positionsFrom (·.stereo) 0 ds with
  | [] => (none, [])
  | [i] => (ds[i]?, if i ≠ 0 then [.globalNotFirst] else [])
  | _ :: _ :: _ => (none, [.severalGlobal])

/-- The test in `_detect_implicit_global_domain` (`oceanmesh/mesh_generator.py:339-348`); exceptions count as false. -/
def looksGlobal (E : CrsEngine C P) (d : DomainMeta K C) : Bool :=
  match d.crs with
  | none => false
  | some c =>
    match E.parse c, d.bbox with
    | some p, some b => E.epsg p == some 4326 && isGlobalBbox b
    | _, _ => false

/-- `_detect_implicit_global_domain` (`oceanmesh/mesh_generator.py:335-350`). -/
def detectImplicit (E : CrsEngine C P) (ds : List (DomainMeta K C)) : Option Nat := ds.findIdx? (looksGlobal E)

/-- `_has_any_crs_metadata` (`oceanmesh/mesh_generator.py:353-360`); `es` are the CRS of the sizing functions. -/
def hasAnyCrs (ds : List (DomainMeta K C)) (es : List (Option C)) : Bool := ds.any (·.crs.isSome) || es.any (·.isSome)

/-- `_validate_crs_presence` (`oceanmesh/mesh_generator.py:363-368`). -/
def crsPresence (i : Nat) : List (DomainMeta K C) → List VError
  | [] => []
  | d :: l => if d.crs.isNone then .missingCrs i :: crsPresence (i + 1) l else crsPresence (i + 1) l

/-- The corners of a box in the order of the code (`oceanmesh/mesh_generator.py:400-401`). -/
def boxCorners (b : Box K) : List (K × K) := [(b.xmin, b.ymin), (b.xmax, b.ymin), (b.xmax, b.ymax), (b.xmin, b.ymax)]

/-- `np.min` and `np.max` of the two coordinates of four points (`oceanmesh/mesh_generator.py:403-408`). -/
def cornerBox (a b c d : K × K) : Box K :=
  ⟨min (min a.1 b.1) (min c.1 d.1), max (max a.1 b.1) (max c.1 d.1), min (min a.2 b.2) (min c.2 d.2), max (max a.2 b.2) (max c.2 d.2)⟩

/-- The containment check of one region (`oceanmesh/mesh_generator.py:397-421`). `proj` is `to_stereo` for one point (`none`: raises).
NaN is not modelled. -/
def containment (proj : K × K → Option (K × K)) (globalStereo : Bool) (gb db : Box K) (i : Nat) : List VError :=
  if globalStereo then
    match (boxCorners db).map proj with
    | [some a, some b, some c, some d] => if bboxContains gb (cornerBox a b c d) then [] else [.notContained i]
    | _ => [.containmentFailed i]
  else if bboxContains gb db then [] else [.notContained i]

/-- `validate_crs_compatible` (`oceanmesh/region.py:57-94`): whether it accepts. -/
def crsCompatible (E : CrsEngine C P) : Option C → Option C → Bool
  | some g, some r =>
    match E.parse g, E.parse r with
    | some g, some _ => E.geographic g && E.epsg g == some 4326
    | _, _ => false
  | _, _ => true

/-- The check of the CRS of the global domain (`oceanmesh/mesh_generator.py:374-391`). -/
def globalCrs (E : CrsEngine C P) : Option C → List VError
  | none => []
  | some c =>
    match E.parse c with
    | none => [.globalUnparsable]
    | some p => if E.epsg p ≠ some 4326 then [.globalNotWgs84] else []

/-- The loop over the regions (`oceanmesh/mesh_generator.py:394-432`); `none`: an attribute `bbox` is missing (it is read outside of the `try`). -/
def checkRegions (E : CrsEngine C P) (proj : K × K → Option (K × K)) (g : DomainMeta K C) (i : Nat) : List (DomainMeta K C) → Option (List VError)
  | [] => some []
  | d :: l => do
    let gb ← g.bbox
    let db ← d.bbox
    let rest ← checkRegions E proj g (i + 1) l
    return containment proj g.stereo gb db i ++ (if d.stereo then [.regionStereo i] else []) ++
      (if crsCompatible E g.crs d.crs then [] else [.incompatible i]) ++ rest

/-- `_validate_global_domain_and_regions` (`oceanmesh/mesh_generator.py:371-432`). -/
def checkGlobal (E : CrsEngine C P) (proj : K × K → Option (K × K)) (g : DomainMeta K C) (ds : List (DomainMeta K C)) : Option (List VError) := do
  let r ← checkRegions E proj g 1 ds.tail
  return globalCrs E g.crs ++ r

/-- The loop of `_validate_implicit_global_mixing` (`oceanmesh/mesh_generator.py:448-459`); a CRS that cannot be parsed ends it without message
(`:460-462`). `k` is the position of the head. -/
def mixingLoop (E : CrsEngine C P) (p : P) (idx k : Nat) : List (DomainMeta K C) → List VError
  | [] => []
  | d :: l =>
    if k = idx then mixingLoop E p idx (k + 1) l
    else
      match d.crs with
      | none => mixingLoop E p idx (k + 1) l
      | some c =>
        match E.parse c with
        | none => []
        | some q => if E.same p q then mixingLoop E p idx (k + 1) l else [.implicitMixing]

/-- `_validate_implicit_global_mixing` (`oceanmesh/mesh_generator.py:435-462`). -/
def implicitMixing (E : CrsEngine C P) (ds : List (DomainMeta K C)) (idx : Nat) : List VError :=
  match ds[idx]? with
  | none => []
  | some d =>
    if d.stereo then []
    else
      match d.crs with
      | none => []
      | some c =>
        match E.parse c with
        | none => []
        | some p => mixingLoop E p idx 0 ds

/-- The comparison of the CRS of a sizing function with that of its domain (`oceanmesh/mesh_generator.py:470-483`). -/
def edgeCheck (E : CrsEngine C P) (i : Nat) : Option C → Option C → List VError
  | some e, some c =>
    match E.parse e, E.parse c with
    | some p, some q => if E.same p q then [] else [.edgeMismatch i]
    | _, _ => [.edgeUncomparable i]
  | _, _ => []

/-- `_validate_edge_length_crs` (`oceanmesh/mesh_generator.py:465-483`). A sizing function without attribute `crs` has `none`. -/
def edgeLengthCrs (E : CrsEngine C P) (i : Nat) : List (DomainMeta K C) → List (Option C) → List VError
  | d :: ds, e :: es => edgeCheck E i e d.crs ++ edgeLengthCrs E (i + 1) ds es
  | _, _ => []

/-- `_validate_multiscale_domains` (`oceanmesh/mesh_generator.py:486-526`): the list of messages, empty if accepted; `none`: raises. -/
def validateMultiscale (E : CrsEngine C P) (proj : K × K → Option (K × K)) (ds : List (DomainMeta K C)) (es : List (Option C)) :
    Option (List VError) :=
  if ds.length ≠ es.length then some [.differentLength]
  else do
    let fg := findGlobalDomain ds
    let idx := detectImplicit E ds
    let presence := if hasAnyCrs ds es || idx.isSome then crsPresence 0 ds else []
    let regions ← match fg.1 with
      | none => some []
      | some g => checkGlobal E proj g ds
    let mixing := match idx with
      | none => []
      | some i => implicitMixing E ds i
    return fg.2 ++ presence ++ regions ++ mixing ++ edgeLengthCrs E 0 ds es

/-- The checks at the start of `generate_multiscale_mesh` (`oceanmesh/mesh_generator.py:641-656`): whether it goes on. -/
def multiscaleAccepted (E : CrsEngine C P) (proj : K × K → Option (K × K)) (ds : List (DomainMeta K C)) (es : List (Option C)) : Bool :=
  if 1 < ds.length ∧ 1 < es.length then
    if ds.length = es.length then validateMultiscale E proj ds es == some [] else false
  else false

end

/-! ## Options -/

/-- The names accepted by `_parse_kwargs` (`oceanmesh/mesh_generator.py:282-300`). -/
def knownOptions : List String :=
  ["nscreen", "max_iter", "seed", "pfix", "points", "domain", "edge_length", "bbox", "min_edge_length", "plot", "blend_width",
    "blend_polynomial", "blend_max_iter", "blend_nnear", "lock_boundary", "pseudo_dt", "stereo"]

/-- `_parse_kwargs` (`oceanmesh/mesh_generator.py:280-305`): whether it accepts the names. -/
def parseKwargs (names : List String) : Bool := names.all fun k => knownOptions.contains k

/-- A Python call `f(…, a=…, **kw)`: a name that is given twice is a `TypeError` (language rule; `oceanmesh/mesh_generator.py:699-704,711-725`). -/
def callKeywords (given kw : List String) : Option (List String) := if kw.any (fun k => given.contains k) then none else some (given ++ kw)

/-- The option part of `generate_mesh` (`oceanmesh/mesh_generator.py:730,769-781`): called with the names `given` written out (positional or not) and
`kw`. Whether the options pass. The two parameters `domain` and `edge_length` are taken out before `_parse_kwargs`. -/
def meshOptions (given kw : List String) : Bool :=
  match callKeywords ("domain" :: "edge_length" :: given) kw with
  | none => false
  | some _ => parseKwargs (given ++ kw)

/-- The option part of `generate_multiscale_mesh` (`oceanmesh/mesh_generator.py:569,657-671,689-725`): the call itself, `_parse_kwargs`, the meshes of
the single domains (at least two) and the final mesh; `unionStereo` is the flag of the union. -/
def multiscaleOptions (unionStereo : Bool) (kw : List String) : Bool :=
  match callKeywords ["domains", "edge_lengths"] kw with
  | none => false
  | some _ =>
    parseKwargs kw && meshOptions ["stereo"] kw &&
      (let kw' := kw.filter (· ≠ "max_iter")
       let kw' := if unionStereo && !kw'.contains "stereo" then kw' ++ ["stereo"] else kw'
       meshOptions ["min_edge_length", "points", "max_iter", "lock_boundary"] kw')

/-- A Python number: the integers and floats differ in what `range` accepts (`max_iter`,
`oceanmesh/mesh_generator.py:792-793,825`). -/
inductive PyNum (K : Type) where
  | int (n : Int)
  | float (x : K)

/-- The number of iterations (`oceanmesh/mesh_generator.py:792-793,825`): `max_iter > 0` is asserted, `range` accepts integers only. -/
def iterationCount {K : Type} [Field K] [LinearOrder K] : PyNum K → Option Nat
  | .int n => if 0 < n then some n.toNat else none
  | .float _ => none

/-! ## Sizing grids -/

/-- A floating point number (`np.isfinite`, `oceanmesh/mesh_generator.py:545,893`). -/
inductive Float64 (K : Type) where
  | fin (x : K)
  | nan
  | posInf
  | negInf
deriving DecidableEq

section
variable {K : Type} [Field K] [LinearOrder K]

/-- `np.isfinite(x) and x > 0` (`oceanmesh/mesh_generator.py:545,552,892-895,900`). -/
def Float64.positive : Float64 K → Option K
  | .fin x => if 0 < x then some x else none
  | _ => none

/-- A grid of sizes: values (masked ones count as NaN, `oceanmesh/mesh_generator.py:549-550,898-899`) and the stored minimum (`None` possible). -/
structure SizeGrid (K : Type) where
  values : List (Float64 K)
  hmin : Option (Float64 K)

/-- `np.nanmin` of a list of finite numbers (`oceanmesh/mesh_generator.py:554,902`); `none` for the empty list. -/
def leastOf : List K → Option K
  | [] => none
  | x :: l => some (l.foldl min x)

/-- `_sanitize_smoothed_sizing_grid` for a grid (`oceanmesh/mesh_generator.py:540-562`); `none`: `ValueError`. -/
def sanitizeGrid (g : SizeGrid K) : Option (SizeGrid K) :=
  match g.hmin.bind Float64.positive with
  | some _ => some g
  | none => (leastOf (g.values.filterMap Float64.positive)).map fun m => { g with hmin := some (.fin m) }

/-- `_sanitize_smoothed_sizing_grids` (`oceanmesh/mesh_generator.py:529-537`): stops at the first error. -/
def sanitizeGrids : List (SizeGrid K) → Option (List (SizeGrid K))
  | [] => some []
  | g :: l => do
    let g' ← sanitizeGrid g
    let l' ← sanitizeGrids l
    return g' :: l'

/-- What can be passed as `edge_length` (`oceanmesh/mesh_generator.py:887,911,914`). -/
inductive EdgeLength (K : Type) where
  | grid (g : SizeGrid K)
  | function
  | other

/-- `_unpack_sizing` (`oceanmesh/mesh_generator.py:886-920`): the minimum size and the grid after the call (its `hmin` is replaced); `opt` is
`opts["min_edge_length"]`. Outer `none`: `ValueError`. -/
def unpackSizing (opt : Option (Float64 K)) : EdgeLength K → Option (Option (Float64 K) × EdgeLength K)
  | .grid g =>
    match g.hmin.bind Float64.positive with
    | some x => some (some (.fin x), .grid g)
    | none => (leastOf (g.values.filterMap Float64.positive)).map fun m => (some (.fin m), .grid { g with hmin := some (.fin m) })
  | .function => some (opt, .function)
  | .other => none

/-- `min_edge_length > 0` (`oceanmesh/mesh_generator.py:790`); `None` raises. -/
def minimumAccepted : Option (Float64 K) → Bool
  | some (.fin x) => decide (0 < x)
  | some .posInf => true
  | _ => false

/-- The part of `generate_mesh` that finds the minimum size (`oceanmesh/mesh_generator.py:785,790`). -/
def minimumSize (opt : Option (Float64 K)) (e : EdgeLength K) : Option (Float64 K) := do
  let r ← unpackSizing opt e
  let m ← r.1
  if minimumAccepted (some m) then some m else none

end

end OM
