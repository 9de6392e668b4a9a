import Verif.Model.Generator
import Verif.Model.Sdf
/-!
# Model of the assembly in `generate_multiscale_mesh` (`oceanmesh/mesh_generator.py:689-727`)

The options and checks before are in `Model/Validate.lean`, the blended sizes in `Model/Blend.lean`. Coordinates of the generator are numbers. A
NaN from a signed distance function is an exception here (`none`).
-/
namespace OM
section
variable {K C : Type} [Field K] [LinearOrder K]

/-- `domain.eval` on an array of points (`oceanmesh/signed_distance_function.py:127-128`, `oceanmesh/mesh_generator.py:921-924`). -/
def domainArray (d : Domain K (K × K) C) (l : List (K × K)) : Option (List K) := collectAll (l.map fun q => (d.func q).join)

/-- The smallest of the minimum sizes, starting with 9999 (`oceanmesh/mesh_generator.py:692,697`). -/
def globalMinimum (hs : List K) : K := hs.foldl min 9999

/-- What the mesh of one nest depends on besides its domain (`oceanmesh/mesh_generator.py:693-704`): engines, options and the smoothed sizes in
`setup`, their minimum `h`, the random numbers, and the projection of the initial points if the domain is stereographic. -/
structure NestCall (K : Type) where
  setup : GenSetup K
  h : K
  rand : Nat → K
  stereo : Option ((K × K → K × K) × (K × K → K × K) × (K → Float64 K))

/-- `generate_mesh` for one nest (`oceanmesh/mesh_generator.py:699-704,784-799,805-816`). -/
def nestMesh [FloorRing K] (maxIter : Nat) (d : Domain K (K × K) C) (c : NestCall K) : Option (FixResult K) := do
  let S : GenSetup K := { c.setup with fd := domainArray d, geps := 1 / 1000 * c.h }
  if 0 < c.h then
    let p ← startPoints S c.h d.box c.rand c.stereo none
    (generateMesh S maxIter p).map Prod.fst
  else none

/-- The loop over `zip(nests, edge_lengths_smoothed)` (`oceanmesh/mesh_generator.py:693-705`). -/
def nestMeshes [FloorRing K] (maxIter : Nat) : List (Domain K (K × K) C) → List (NestCall K) → Option (List (FixResult K))
  | d :: ds, c :: cs => do
    let m ← nestMesh maxIter d c
    let r ← nestMeshes maxIter ds cs
    return m :: r
  | _, _ => some []

/-- The options of the final mesh (`oceanmesh/mesh_generator.py:717-725,799`); `S` holds the engines and the remaining options. -/
def blendSetup (S : GenSetup K) (u : Domain K (K × K) C) (hs : List K) : GenSetup K :=
  { S with fd := domainArray u, geps := 1 / 1000 * globalMinimum hs, lock := true }

/-- `generate_multiscale_mesh` after the sizes are blended (`oceanmesh/mesh_generator.py:689-727`): the meshes of the nests, the final mesh, and the
record of the final run. `none`: an exception. -/
def multiscaleMesh [FloorRing K] (domains : List (Domain K (K × K) C)) (calls : List (NestCall K)) (S : GenSetup K) (maxIter blendIter : Nat) :
    Option (List (FixResult K) × FixResult K × List (GenIter K)) := do
  let (u, ns) ← multiscaleSdf domains
  let ms ← nestMeshes maxIter ns calls
  if 0 < globalMinimum ((List.zip ns calls).map fun x => x.2.h) then
    let r ← generateMesh (blendSetup S u ((List.zip ns calls).map fun x => x.2.h)) blendIter (ms.flatMap FixResult.p)
    return (ms, r)
  else none

end
end OM
