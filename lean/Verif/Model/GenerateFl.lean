import Verif.Model.Generator
import Verif.Model.FixMeshFl
/-!
# Model of `generate_mesh` with rounded arithmetic (`oceanmesh/mesh_generator.py`)

The loop of `Model/Generator.lean`, but every sum, difference, product and quotient of coordinates, lengths and sizes is rounded by a function `fl`,
in the order in which numpy evaluates the expressions; `fix_mesh` is that of `Model/FixMeshFl.lean`. The distance and sizing functions, the square root
and CGAL are parameters as there, so that what they return can be rounded in any way. `sq` is the sum of the squares of two numbers as `einsum`
computes it (with or without fused multiply-add).
-/
namespace OM
section
variable {K : Type} [Field K] [LinearOrder K]

/-- The parameters of `generate_mesh` (`oceanmesh/mesh_generator.py:783-803`) with the rounding of numpy and the sum of squares of `einsum` (`:1137`). -/
structure GenFl (K : Type) extends GenSetup K where
  fl : K → K
  sq : K → K → K

/-! ## Forces -/

/-- The product of a size and the distortion (`oceanmesh/mesh_generator.py:956`), rounded. -/
def Float64.round (fl : K → K) : Float64 K → Float64 K
  | .fin x => .fin (fl x)
  | x => x

/-- `np.nanmedian` of finite numbers (`oceanmesh/mesh_generator.py:967,969`): the number in the middle, or the mean of the two in the middle. -/
def medianFl (fl : K → K) (l : List K) : Option K :=
  let s := sortBy (fun a b : K => decide (a ≤ b)) l
  match s[(s.length - 1) / 2]?, s[s.length / 2]? with
  | some a, some b => some (if l.length % 2 = 1 then a else fl (fl (a + b) / 2))
  | _, _ => none

/-- The vector of a bar (`oceanmesh/mesh_generator.py:946`). -/
def barVecFl (fl : K → K) (e : (K × K) × (K × K)) : K × K := (fl (e.1.1 - e.2.1), fl (e.1.2 - e.2.2))

/-- Length of a bar (`oceanmesh/mesh_generator.py:946-948`). -/
def barLengthFl (fl sqrt : K → K) (eps : K) (e : (K × K) × (K × K)) : K :=
  let v := barVecFl fl e
  let L := sqrt (fl (fl (v.1 * v.1) + fl (v.2 * v.2)))
  if L = 0 then eps else L

/-- Midpoint of a bar (`oceanmesh/mesh_generator.py:953,958`). -/
def barMidFl (fl : K → K) (e : (K × K) × (K × K)) : K × K := (fl (fl (e.1.1 + e.2.1) / 2), fl (fl (e.1.2 + e.2.2) / 2))

/-- The desired sizes of the bars (`oceanmesh/mesh_generator.py:949-958`), see `barSizes`. -/
def barSizesFl (fl : K → K) (fh : List (K × K) → Option (List (Float64 K))) (stereo : Option ((K × K → K × K) × (K → Float64 K)))
    (mids : List (K × K)) : Option (List (Float64 K)) :=
  match stereo with
  | none => (fh mids).bind fun h => if h.length = mids.length then some h else none
  | some (toLL, dist) =>
    (fh (mids.map toLL)).bind fun h =>
      if h.length = mids.length then some (List.zipWith (fun h q => (h.mul (dist (toLL q).2)).round fl) h mids) else none

/-- Replacement of invalid sizes (`oceanmesh/mesh_generator.py:960-968`); `none`: `ValueError`. -/
def repairSizesFl (fl : K → K) (h : List (Float64 K)) : Option (List K) :=
  match medianFl fl (h.filterMap Float64.positive) with
  | none => none
  | some m => some (h.map (Float64.orElse m))

/-- `F / L` with `F = L0 - L`, negative ones set to zero, `L0 = h * L0mult * ratio` (`oceanmesh/mesh_generator.py:969-974`). -/
def barFactorFl (fl : K → K) (mult ratio L h : K) : K :=
  let F := fl (fl (fl (h * mult) * ratio) - L)
  fl ((if F < 0 then 0 else F) / L)

/-- The force vector of a bar, `F / L * barvec` (`oceanmesh/mesh_generator.py:972-974`). -/
def barForceFl (fl : K → K) (c : K) (e : (K × K) × (K × K)) : K × K := (fl (c * (barVecFl fl e).1), fl (c * (barVecFl fl e).2))

/-- The entries for vertex `v` in the order of the sparse matrix (`oceanmesh/mesh_generator.py:975-980`): `Fvec` at the first end of a bar, `-Fvec` at the
second; `part` picks the coordinate. -/
def vertexEntries (v : Nat) (part : K × K → K) : List ((Nat × Nat) × (K × K)) → List K
  | [] => []
  | (e, f) :: l => (if e.1 = v then [part f] else []) ++ (if e.2 = v then [-part f] else []) ++ vertexEntries v part l

/-- `toarray` adds entries at the same place one after the other (`oceanmesh/mesh_generator.py:1008-1028`). -/
def addUpFl (fl : K → K) (l : List K) : K := l.foldl (fun a x => fl (a + x)) 0

/-- `_compute_forces` (`oceanmesh/mesh_generator.py:942-981`), see `computeForces`. -/
def computeForcesFl (fl sqrt : K → K) (eps mult : K) (fh : List (K × K) → Option (List (Float64 K)))
    (stereo : Option ((K × K → K × K) × (K → Float64 K))) (p : List (K × K)) (t : List Tri) : Option (List (K × K)) := do
  let bars ← getBars t
  let ends ← barEnds p bars
  let L := ends.map (barLengthFl fl sqrt eps)
  let h ← barSizesFl fl fh stereo (ends.map (barMidFl fl))
  let h ← repairSizesFl fl h
  let mL ← medianFl fl L
  let mh ← medianFl fl h
  let c := List.zipWith (barFactorFl fl mult (fl (mL / mh))) L h
  let F := List.zipWith (barForceFl fl) c ends
  return (List.range p.length).map fun v =>
    (addUpFl fl (vertexEntries v Prod.fst (bars.zip F)), addUpFl fl (vertexEntries v Prod.snd (bars.zip F)))

/-! ## Projection -/

/-- The gradients of the points `q` with distances `d` (`oceanmesh/mesh_generator.py:1042-1045,1049-1051,1055`). -/
def gradientsFl (fl : K → K) (fd : List (K × K) → Option (List K)) (deps : K) (q : List (K × K)) (d : List K) : Option (List (K × K)) := do
  let gx ← fd (q.map fun x => (fl (x.1 + deps), fl (x.2 + 0)))
  let gy ← fd (q.map fun x => (fl (x.1 + 0), fl (x.2 + deps)))
  if gx.length = q.length ∧ gy.length = q.length ∧ d.length = q.length then
    return List.zipWith (fun (a b : K) => (a, b)) (List.zipWith (fun a b => fl (fl (a - b) / deps)) gx d)
      (List.zipWith (fun a b => fl (fl (a - b) / deps)) gy d)
  else none

/-- The gradients at the outside points (`oceanmesh/mesh_generator.py:1048-1056`), see `outsideGradients`. -/
def outsideGradientsFl (fl : K → K) (fd : List (K × K) → Option (List K)) (deps : K) (ix : List Bool) (p q : List (K × K)) (d dq : List K) :
    Option (List (K × K)) :=
  match gradientsFl fl fd deps q dq with
  | some g => some g
  | none => (gradientsFl fl fd deps p d).bind (maskRows ix)

/-- One projected point (`oceanmesh/mesh_generator.py:1057-1059`). -/
def projectPointFl (fl : K → K) (deps : K) (q : K × K) (d : K) (g : K × K) : K × K :=
  let g2 := fl (fl (g.1 * g.1) + fl (g.2 * g.2))
  let g2 := if g2 < deps then deps else g2
  (fl (q.1 - fl (fl (d * g.1) / g2)), fl (q.2 - fl (fl (d * g.2) / g2)))

/-- `_project_points_back` (`oceanmesh/mesh_generator.py:1037-1060`). -/
def projectPointsBackFl (fl : K → K) (fd : List (K × K) → Option (List K)) (deps : K) (p : List (K × K)) : Option (List (K × K)) := do
  let d ← fd p
  let ix := d.map fun x => decide (0 < x)
  if ix.any id then
    let q ← maskRows ix p
    let dq ← maskRows ix d
    let g ← outsideGradientsFl fl fd deps ix p q d dq
    return replaceRows ix p (List.zipWith (fun (x : (K × K) × K) g => projectPointFl fl deps x.1 x.2 g) (q.zip dq) g)
  else return p

/-! ## The iteration -/

/-- `_closest_node` (`oceanmesh/mesh_generator.py:1134-1138`). -/
def nearestVertexFl (fl : K → K) (sq : K → K → K) (q : K × K) (p : List (K × K)) : Option Nat :=
  (argMin (p.map fun x => sq (fl (x.1 - q.1)) (fl (x.2 - q.2)))).map Prod.fst

/-- The loop over the boundary points (`oceanmesh/mesh_generator.py:838-839`). -/
def nearestVerticesFl (fl : K → K) (sq : K → K → K) (p : List (K × K)) : List (K × K) → Option (List Nat)
  | [] => some []
  | q :: l => do
    let i ← nearestVertexFl fl sq q p
    let r ← nearestVerticesFl fl sq p l
    return i :: r

/-- The loop over `pfix` (`oceanmesh/mesh_generator.py:842-846`). -/
def placeFixedFl (fl : K → K) (sq : K → K → K) : List (K × K) → List (K × K) → Option (List Nat × List (K × K))
  | [], p => some ([], p)
  | q :: l, p => do
    let i ← nearestVertexFl fl sq q p
    let (r, p') ← placeFixedFl fl sq l (p.set i q)
    return (i :: r, p')

/-- Centroids, `p[t].sum(1) / 3` (`oceanmesh/mesh_generator.py:1033`). -/
def centroidFl (fl : K → K) (x y z : K × K) : K × K := (fl (fl (fl (x.1 + y.1) + z.1) / 3), fl (fl (fl (x.2 + y.2) + z.2) / 3))

/-- All centroids (`oceanmesh/mesh_generator.py:1033`). -/
def centroidsFl (fl : K → K) (p : List (K × K)) : List Tri → Option (List (K × K))
  | [] => some []
  | f :: t => do
    let x ← p[f.a]?
    let y ← p[f.b]?
    let z ← p[f.c]?
    let r ← centroidsFl fl p t
    return centroidFl fl x y z :: r

/-- `_remove_triangles_outside` (`oceanmesh/mesh_generator.py:1031-1034`). -/
def removeTrianglesOutsideFl (fl : K → K) (fd : List (K × K) → Option (List K)) (geps : K) (p : List (K × K)) (t : List Tri) : Option (List Tri) := do
  let c ← centroidsFl fl p t
  let d ← fd c
  maskRows (d.map fun x => decide (x < -geps)) t

/-- First part of an iteration (`oceanmesh/mesh_generator.py:828-849`). -/
def genFirstFl (S : GenFl K) (p : List (K × K)) : Option (GenIter K) := do
  let (v, t, _) ← getTopology (dtInsert S.cgal ⟨[], []⟩ p)
  let locked ← if S.lock then (externalTopology S.oE v t).bind fun b => nearestVerticesFl S.fl S.sq v b.2 else some []
  let (ix, p') ← placeFixedFl S.fl S.sq S.pfix v
  let kept ← removeTrianglesOutsideFl S.fl S.fd S.geps p' t
  return ⟨p, v, t, p', locked ++ ix, kept⟩

/-- `Ftot[fixed_indices] = 0`, `p += delta_t * Ftot` (`oceanmesh/mesh_generator.py:860-866`): the fixed points are moved by the time step times zero. -/
def movePointsFl (fl : K → K) (dt : K) (fixed : List Nat) (p F : List (K × K)) : List (K × K) :=
  List.zipWith (fun (i : Nat) (x : (K × K) × (K × K)) =>
    let f := if i ∈ fixed then (0, 0) else x.2
    (fl (x.1.1 + fl (dt * f.1)), fl (x.1.2 + fl (dt * f.2)))) (List.range p.length) (p.zip F)

/-- Second part of an iteration (`oceanmesh/mesh_generator.py:857-869`). -/
def genSecondFl (S : GenFl K) (r : GenIter K) : Option (List (K × K)) := do
  let F ← computeForcesFl S.fl S.sqrt S.eps S.mult S.fh S.stereo r.points r.kept
  projectPointsBackFl S.fl S.fd S.deps (movePointsFl S.fl S.dt r.fixed r.points F)

/-- The loop (`oceanmesh/mesh_generator.py:825-869`) with `n + 1` iterations left. -/
def genLoopFl (S : GenFl K) : Nat → List (K × K) → Option (FixResult K × List (GenIter K))
  | 0, p => do
    let r ← genFirstFl S p
    let m ← fixMeshFl S.fl S.rnd S.oP S.oT r.points r.kept S.ptol true
    return (m, [r])
  | n + 1, p => do
    let r ← genFirstFl S p
    let p' ← genSecondFl S r
    let (m, l) ← genLoopFl S n p'
    return (m, r :: l)

/-- `generate_mesh` after the options are read (`oceanmesh/mesh_generator.py:792-793,818-883`). -/
def generateMeshFl (S : GenFl K) (maxIter : Nat) (p : List (K × K)) : Option (FixResult K × List (GenIter K)) :=
  match maxIter with
  | 0 => none
  | n + 1 => if p.length = 0 then none else genLoopFl S n p

end
end OM
