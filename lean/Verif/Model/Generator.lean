import Verif.Model.Delaunay
import Verif.Model.Clean
import Verif.Model.Region
import Verif.Model.Validate
import Mathlib.Algebra.Order.Floor.Ring
/-!
# Model of `generate_mesh` (`oceanmesh/mesh_generator.py`)

Parameters: the signed distance function `fd` and the sizing function `fh` (functions on arrays of points that can raise, `none`), CGAL, the
random numbers, the square root and the byte orders of `fix_mesh`. Coordinates and signed distances are numbers (NaN and infinities are not
modelled there); sizes can be NaN or infinite.
-/
namespace OM
section
variable {K : Type} [Field K] [LinearOrder K]

/-- `arr[mask]` with a boolean array (`oceanmesh/mesh_generator.py:1034,1103-1104`); different lengths raise: `none`. -/
def maskRows {α : Type} : List Bool → List α → Option (List α)
  | [], [] => some []
  | b :: m, x :: l => (maskRows m l).map fun r => if b then x :: r else r
  | _, _ => none

/-! ## Forces -/

/-- Product of floating point numbers (`fh(p2) * _stereo_distortion_dist(y)`, `oceanmesh/mesh_generator.py:956`). -/
def Float64.mul : Float64 K → Float64 K → Float64 K
  | .fin x, .fin y => .fin (x * y)
  | .fin x, .posInf => if 0 < x then .posInf else if x < 0 then .negInf else .nan
  | .fin x, .negInf => if 0 < x then .negInf else if x < 0 then .posInf else .nan
  | .posInf, .fin x => if 0 < x then .posInf else if x < 0 then .negInf else .nan
  | .negInf, .fin x => if 0 < x then .negInf else if x < 0 then .posInf else .nan
  | .posInf, .posInf => .posInf
  | .negInf, .negInf => .posInf
  | .posInf, .negInf => .negInf
  | .negInf, .posInf => .negInf
  | .nan, _ => .nan
  | _, .nan => .nan

/-- `np.nanmedian` of finite numbers (`oceanmesh/mesh_generator.py:967,969`): the middle of the sorted numbers or the mean of the two in the
middle; `none` (NaN) for no numbers. -/
def median (l : List K) : Option K :=
  let s := sortBy (fun a b : K => decide (a ≤ b)) l
  match s[(s.length - 1) / 2]?, s[s.length / 2]? with
  | some a, some b => some ((a + b) / 2)
  | _, _ => none

/-- A bar with its two end points: `p[bars[:, 0]]`, `p[bars[:, 1]]` (`oceanmesh/mesh_generator.py:946`); `none`: index error. -/
def barEnds (p : List (K × K)) : List (Nat × Nat) → Option (List ((K × K) × (K × K)))
  | [] => some []
  | e :: l => do
    let a ← p[e.1]?
    let b ← p[e.2]?
    let r ← barEnds p l
    return (a, b) :: r

/-- Length of a bar; zero is replaced by the machine precision (`oceanmesh/mesh_generator.py:946-948`). -/
def barLength (sqrt : K → K) (eps : K) (e : (K × K) × (K × K)) : K :=
  let L := sqrt ((e.1.1 - e.2.1) ^ 2 + (e.1.2 - e.2.2) ^ 2)
  if L = 0 then eps else L

/-- Midpoint of a bar: `p[bars].sum(1) / 2` (`oceanmesh/mesh_generator.py:953,958`). -/
def barMid (e : (K × K) × (K × K)) : K × K := ((e.1.1 + e.2.1) / 2, (e.1.2 + e.2.2) / 2)

/-- The desired sizes of the bars (`oceanmesh/mesh_generator.py:949-958`): in stereographic coordinates the midpoints are taken back to degrees and
the sizes are multiplied by the distortion. `none`: `fh` raises, or it returns an array of another length. -/
def barSizes (fh : List (K × K) → Option (List (Float64 K))) (stereo : Option ((K × K → K × K) × (K → Float64 K)))
    (mids : List (K × K)) : Option (List (Float64 K)) :=
  match stereo with
  | none => (fh mids).bind fun h => if h.length = mids.length then some h else none
  | some (toLL, dist) =>
    (fh (mids.map toLL)).bind fun h =>
      if h.length = mids.length then some (List.zipWith (fun h q => h.mul (dist (toLL q).2)) h mids) else none

/-- `np.where(valid, hbars, repl)` for one bar (`oceanmesh/mesh_generator.py:961,968`). -/
def Float64.orElse (repl : K) (x : Float64 K) : K :=
  match x.positive with
  | some y => y
  | none => repl

/-- Replacement of invalid sizes by the median of the valid ones (`oceanmesh/mesh_generator.py:960-968`); `none`: no valid size, `ValueError`. -/
def repairSizes (h : List (Float64 K)) : Option (List K) :=
  match median (h.filterMap Float64.positive) with
  | none => none
  | some m => some (h.map (Float64.orElse m))

/-- The force in one bar, as a multiple of the bar vector: `F / L` with `F = L0 - L`, negative ones set to zero
(`oceanmesh/mesh_generator.py:969-974`). -/
def barFactor (scale : K) (L h : K) : K :=
  let F := h * scale - L
  (if F < 0 then 0 else F) / L

/-- The sum of the contributions to vertex `v`: `_dense` adds up entries at the same place (`oceanmesh/mesh_generator.py:975-980,1008-1028`):
`Fvec` at the first end of a bar, `-Fvec` at the second. -/
def forceAt (v : Nat) : List ((Nat × Nat) × (K × K)) → K × K
  | [] => (0, 0)
  | (e, f) :: l =>
    let r := forceAt v l
    ((if e.1 = v then f.1 else 0) + (if e.2 = v then -f.1 else 0) + r.1, (if e.1 = v then f.2 else 0) + (if e.2 = v then -f.2 else 0) + r.2)

/-- `_compute_forces` (`oceanmesh/mesh_generator.py:942-981`): the force at every vertex; `mult` is `L0mult`. `none`: an exception. The lengths are
finite numbers, `nanmedian` of no lengths does not occur since no valid size raises before. -/
def computeForces (sqrt : K → K) (eps mult : K) (fh : List (K × K) → Option (List (Float64 K)))
    (stereo : Option ((K × K → K × K) × (K → Float64 K))) (p : List (K × K)) (t : List Tri) : Option (List (K × K)) := do
  let bars ← getBars t
  let ends ← barEnds p bars
  let L := ends.map (barLength sqrt eps)
  let h ← barSizes fh stereo (ends.map barMid)
  let h ← repairSizes h
  let mL ← median L
  let mh ← median h
  let scale := mult * (mL / mh)
  let c := List.zipWith (barFactor scale) L h
  let F := List.zipWith (fun (c : K) (e : (K × K) × (K × K)) => (c * (e.1.1 - e.2.1), c * (e.1.2 - e.2.2))) c ends
  return (List.range p.length).map fun v => forceAt v (bars.zip F)

/-! ## Projection -/

/-- `fd(q + e_i * deps) - d` divided by `deps` for both directions (`oceanmesh/mesh_generator.py:1042-1045,1049-1051,1055`): the gradients of the points `q`
with distances `d`. -/
def gradients (fd : List (K × K) → Option (List K)) (deps : K) (q : List (K × K)) (d : List K) : Option (List (K × K)) := do
  let gx ← fd (q.map fun x => (x.1 + deps, x.2))
  let gy ← fd (q.map fun x => (x.1, x.2 + deps))
  if gx.length = q.length ∧ gy.length = q.length ∧ d.length = q.length then
    return List.zipWith (fun (a b : K) => (a, b)) (List.zipWith (fun a b => (a - b) / deps) gx d) (List.zipWith (fun a b => (a - b) / deps) gy d)
  else none

/-- The gradients at the outside points (`oceanmesh/mesh_generator.py:1048-1056`): first for the outside points alone; if `fd` raises (for
all of them outside the box), for all points. Every exception is taken for a `ValueError`. -/
def outsideGradients (fd : List (K × K) → Option (List K)) (deps : K) (ix : List Bool) (p q : List (K × K)) (d dq : List K) : Option (List (K × K)) :=
  match gradients fd deps q dq with
  | some g => some g
  | none => (gradients fd deps p d).bind (maskRows ix)

/-- One projected point (`oceanmesh/mesh_generator.py:1057-1059`): the squared gradient is at least `deps`. -/
def projectPoint (deps : K) (q : K × K) (d : K) (g : K × K) : K × K :=
  let g2 := g.1 ^ 2 + g.2 ^ 2
  let g2 := if g2 < deps then deps else g2
  (q.1 - d * g.1 / g2, q.2 - d * g.2 / g2)

/-- `p[ix] -= …` (`oceanmesh/mesh_generator.py:1059`): the selected rows are replaced one after the other. -/
def replaceRows {α : Type} : List Bool → List α → List α → List α
  | true :: m, _ :: l, y :: r => y :: replaceRows m l r
  | false :: m, x :: l, r => x :: replaceRows m l r
  | _, l, _ => l

/-- `_project_points_back` (`oceanmesh/mesh_generator.py:1037-1060`). `none`: an exception that is not caught. -/
def projectPointsBack (fd : List (K × K) → Option (List K)) (deps : K) (p : List (K × K)) : Option (List (K × K)) := do
  let d ← fd p
  let ix := d.map fun x => decide (0 < x)
  if ix.any id then
    let q ← maskRows ix p
    let dq ← maskRows ix d
    let g ← outsideGradients fd deps ix p q d dq
    return replaceRows ix p (List.zipWith (fun (x : (K × K) × K) g => projectPoint deps x.1 x.2 g) (q.zip dq) g)
  else return p

/-! ## Initial points -/

/-- `np.mgrid[slice(lo, hi + h, h)]` in one direction (`oceanmesh/mesh_generator.py:1085-1087`): `lo + i h` for all `i` below
`⌈(hi + h - lo) / h⌉`. -/
def latticeLine [FloorRing K] (lo hi h : K) : List K := (List.range ⌈(hi + h - lo) / h⌉₊).map fun i : Nat => lo + (i : K) * h

/-- The lattice as an array of points, `x` slowest (`oceanmesh/mesh_generator.py:1085-1087,1095,1100`). -/
def latticePoints [FloorRing K] (b : Box K) (h : K) : List (K × K) :=
  (latticeLine b.xmin b.xmax h).flatMap fun x => (latticeLine b.ymin b.ymax h).map fun y => (x, y)

/-- `r0 >= min_edge_length` (`oceanmesh/mesh_generator.py:1102`), false for NaN. -/
def Float64.atLeast (m : K) : Float64 K → Bool
  | .fin x => decide (m ≤ x)
  | .posInf => true
  | _ => false

/-- `np.min` of numbers that are not NaN (`oceanmesh/mesh_generator.py:1102`). -/
def Float64.min2 : Float64 K → Float64 K → Float64 K
  | .fin x, .fin y => .fin (min x y)
  | .posInf, y => y
  | x, .posInf => x
  | .negInf, _ => .negInf
  | _, .negInf => .negInf
  | .nan, _ => .nan
  | _, .nan => .nan

/-- `np.min(r0[r0 >= min_edge_length])` (`oceanmesh/mesh_generator.py:1102`); `none`: the minimum of no numbers raises. -/
def smallestSize (m : K) (r0 : List (Float64 K)) : Option (Float64 K) :=
  match r0.filter (Float64.atLeast m) with
  | [] => none
  | x :: l => some (l.foldl Float64.min2 x)

/-- `rand < r0m**2 / r0**2` for one point (`oceanmesh/mesh_generator.py:1103`), where `r0m` is positive: a size of zero gives infinity, an infinite
size zero, NaN and `inf / inf` compare false. -/
def keepRandom (u : K) (r0m r0 : Float64 K) : Bool :=
  match r0m, r0 with
  | .fin m, .fin x => if x = 0 then true else decide (u < m ^ 2 / x ^ 2)
  | .fin _, .nan => false
  | .fin _, _ => decide (u < 0)
  | .posInf, .fin _ => true
  | _, _ => false

/-- `_generate_initial_points` (`oceanmesh/mesh_generator.py:1081-1110`) for the array of points `p` made from the box (`:1085-1087,1100`).
`rand i` is the random number of point `i`. In stereographic coordinates (`stereo`: the projection, the way back and the distortion) the lattice
covers the globe in degrees and is projected. `none`: an exception.
Simplification: there the code hands `fh` the pair of arrays of `to_lat_lon` (`:1098`) instead of one array of points; the interpolants of grids take
both, other functions given as sizing may not. -/
def initialFrom [FloorRing K] (h geps : K) (p : List (K × K)) (fh : List (K × K) → Option (List (Float64 K))) (fd : List (K × K) → Option (List K))
    (rand : Nat → K) (pfix : List (K × K)) (stereo : Option ((K × K → K × K) × (K × K → K × K) × (K → Float64 K))) : Option (List (K × K)) := do
  let (p, r0) ← match stereo with
    | none => (fh p).map fun r => (p, r)
    | some (proj, back, dist) =>
      let p0 := latticePoints ⟨-180, 180, -89, 89⟩ h
      let p := p0.map proj
      (fh (p.map back)).map fun r => (p, List.zipWith (fun r q => r.mul (dist q.2)) r p0)
  let r0m ← smallestSize h r0
  if r0.length = p.length then
    let p1 ← maskRows ((List.range r0.length).zipWith (fun i r => keepRandom (rand i) r0m r) r0) p
    let d ← fd p1
    let p2 ← maskRows (d.map fun x => decide (x < geps)) p1
    return pfix ++ p2
  else none

/-- `_generate_initial_points` for a box of four numbers (`oceanmesh/mesh_generator.py:1081-1110`). -/
def initialPoints [FloorRing K] (h geps : K) (b : Box K) (fh : List (K × K) → Option (List (Float64 K))) (fd : List (K × K) → Option (List K))
    (rand : Nat → K) (pfix : List (K × K)) (stereo : Option ((K × K → K × K) × (K × K → K × K) × (K → Float64 K))) : Option (List (K × K)) :=
  initialFrom h geps (latticePoints b h) fh fd rand pfix stereo

/-- `_stereo_distortion` (`oceanmesh/mesh_generator.py:1063-1071`). -/
noncomputable def stereoDistortion (lat : ℝ) : ℝ := 2 / (1 + Real.sin ((lat + 90) / 180 * Real.pi))

/-- `_stereo_distortion_dist` (`oceanmesh/mesh_generator.py:1074-1078`). -/
noncomputable def stereoDistortionDist (lat : ℝ) : ℝ := 2 / (1 + Real.sin (lat * Real.pi / 180)) / 180 * Real.pi

/-! ## The iteration -/

/-- Squared distances to all nodes (`oceanmesh/mesh_generator.py:1136-1137`). -/
def dist2 (q : K × K) (p : List (K × K)) : List K := p.map fun x => (x.1 - q.1) * (x.1 - q.1) + (x.2 - q.2) * (x.2 - q.2)

/-- `np.argmin` (`oceanmesh/mesh_generator.py:1138`): position of the first smallest entry, together with this entry. -/
def argMin : List K → Option (Nat × K)
  | [] => none
  | x :: l =>
    match argMin l with
    | none => some (0, x)
    | some (i, y) => if x ≤ y then some (0, x) else some (i + 1, y)

/-- `_closest_node` (`oceanmesh/mesh_generator.py:1134-1138`); `none`: `argmin` of an empty array raises. -/
def nearestVertex (q : K × K) (p : List (K × K)) : Option Nat := (argMin (dist2 q p)).map Prod.fst

/-- The loop over the boundary points for `lock_boundary` (`oceanmesh/mesh_generator.py:838-839`). -/
def nearestVertices (p : List (K × K)) : List (K × K) → Option (List Nat)
  | [] => some []
  | q :: l => do
    let i ← nearestVertex q p
    let r ← nearestVertices p l
    return i :: r

/-- The loop over `pfix` (`oceanmesh/mesh_generator.py:842-846`): the nearest vertex is moved to the fixed point; the later searches see the moved
vertices. The indices in order and the points. -/
def placeFixed : List (K × K) → List (K × K) → Option (List Nat × List (K × K))
  | [], p => some ([], p)
  | q :: l, p => do
    let i ← nearestVertex q p
    let (r, p') ← placeFixed l (p.set i q)
    return (i :: r, p')

/-- Centroids: `p[t].sum(1) / 3` (`oceanmesh/mesh_generator.py:1033`). -/
def centroids (p : List (K × K)) : List Tri → Option (List (K × K))
  | [] => some []
  | f :: t => do
    let x ← p[f.a]?
    let y ← p[f.b]?
    let z ← p[f.c]?
    let r ← centroids p t
    return ((x.1 + y.1 + z.1) / 3, (x.2 + y.2 + z.2) / 3) :: r

/-- `_remove_triangles_outside` (`oceanmesh/mesh_generator.py:1031-1034`). -/
def removeTrianglesOutside (fd : List (K × K) → Option (List K)) (geps : K) (p : List (K × K)) (t : List Tri) : Option (List Tri) := do
  let c ← centroids p t
  let d ← fd c
  maskRows (d.map fun x => decide (x < -geps)) t

/-- Everything `generate_mesh` depends on (`oceanmesh/mesh_generator.py:783-803`): the engines and options. -/
structure GenSetup (K : Type) where
  cgal : Cgal K
  oE : RowOrder (Nat × Nat)
  rnd : K → Int
  oP : RowOrder (Row K)
  oT : RowOrder Tri
  ptol : K
  sqrt : K → K
  eps : K
  mult : K
  fh : List (K × K) → Option (List (Float64 K))
  fd : List (K × K) → Option (List K)
  stereo : Option ((K × K → K × K) × (K → Float64 K))
  geps : K
  deps : K
  dt : K
  pfix : List (K × K)
  lock : Bool

/-- What happened in one iteration up to the removal of triangles (`oceanmesh/mesh_generator.py:825-849`): the points given to the triangulation, the
triangulated points and all triangles, the points after placing the fixed ones, the indices not to be moved, the triangles kept. -/
structure GenIter (K : Type) where
  inserted : List (K × K)
  vertices : List (K × K)
  triangles : List Tri
  points : List (K × K)
  fixed : List Nat
  kept : List Tri

/-- First part of an iteration (`oceanmesh/mesh_generator.py:828-849`). -/
def genFirst (S : GenSetup K) (p : List (K × K)) : Option (GenIter K) := do
  let (v, t, _) ← getTopology (dtInsert S.cgal ⟨[], []⟩ p)
  let locked ← if S.lock then (externalTopology S.oE v t).bind fun b => nearestVertices v b.2 else some []
  let (ix, p') ← placeFixed S.pfix v
  let kept ← removeTrianglesOutside S.fd S.geps p' t
  return ⟨p, v, t, p', locked ++ ix, kept⟩

/-- `Ftot[fixed_indices] = 0`, `p += delta_t * Ftot` (`oceanmesh/mesh_generator.py:860-866`). -/
def movePoints (dt : K) (fixed : List Nat) (p F : List (K × K)) : List (K × K) :=
  (List.zipWith (fun (i : Nat) (x : (K × K) × (K × K)) =>
    if i ∈ fixed then x.1 else (x.1.1 + dt * x.2.1, x.1.2 + dt * x.2.2)) (List.range p.length) (p.zip F))

/-- Second part of an iteration (`oceanmesh/mesh_generator.py:857-869`): the points for the next one. -/
def genSecond (S : GenSetup K) (r : GenIter K) : Option (List (K × K)) := do
  let F ← computeForces S.sqrt S.eps S.mult S.fh S.stereo r.points r.kept
  projectPointsBack S.fd S.deps (movePoints S.dt r.fixed r.points F)

/-- The loop (`oceanmesh/mesh_generator.py:825-869`) with `n + 1` iterations left: the result of `fix_mesh` in the last one, and a record of all
iterations. -/
def genLoop (S : GenSetup K) : Nat → List (K × K) → Option (FixResult K × List (GenIter K))
  | 0, p => do
    let r ← genFirst S p
    let m ← fixMesh S.rnd S.oP S.oT r.points r.kept S.ptol true
    return (m, [r])
  | n + 1, p => do
    let r ← genFirst S p
    let p' ← genSecond S r
    let (m, l) ← genLoop S n p'
    return (m, r :: l)

/-- `generate_mesh` after the options are read (`oceanmesh/mesh_generator.py:792-793,818-883`): at least one iteration and one point are asserted. -/
def generateMesh (S : GenSetup K) (maxIter : Nat) (p : List (K × K)) : Option (FixResult K × List (GenIter K)) :=
  match maxIter with
  | 0 => none
  | n + 1 => if p.length = 0 then none else genLoop S n p

/-- The initial points (`oceanmesh/mesh_generator.py:805-816`): the option `points` or the generated ones. -/
def startPoints [FloorRing K] (S : GenSetup K) (h : K) (b : Box K) (rand : Nat → K) (stereo : Option ((K × K → K × K) × (K × K → K × K) × (K → Float64 K)))
    (points : Option (List (K × K))) : Option (List (K × K)) :=
  match points with
  | some p => some p
  | none => initialPoints h S.geps b S.fh S.fd rand S.pfix stereo

end
end OM
