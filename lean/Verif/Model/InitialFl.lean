import Verif.Model.Generator
/-!
# Model of `_generate_initial_points` with rounded arithmetic (`oceanmesh/mesh_generator.py`)

The same as `latticeLine`, `keepRandom` and `initialFrom` in `Model/Generator.lean`, but every sum, difference, product and quotient on coordinates
and sizes is rounded by a function `rnd`, in the order in which numpy evaluates the expressions. Sizes and distances are what the functions `fh` and
`fd` return. Simplification: only without stereographic coordinates.
-/
namespace OM

section
variable {K : Type} [Field K] [LinearOrder K] [FloorRing K]

/-- The number of lattice points in one direction, `ceil((stop - start) / step)` in `np.mgrid` with `stop = max + min_edge_length`
(`oceanmesh/mesh_generator.py:1085-1087`). -/
def lineCountFl (rnd : K → K) (lo hi h : K) : Nat := ⌈rnd (rnd (rnd (hi + h) - lo) / h)⌉₊

/-- The coordinate with number `i`, `i * step + start` in `np.mgrid` (`oceanmesh/mesh_generator.py:1085-1087`). -/
def lineNodeFl (rnd : K → K) (lo h : K) (i : Nat) : K := rnd (rnd ((i : K) * h) + lo)

/-- `np.mgrid` in one direction (`oceanmesh/mesh_generator.py:1085-1087`). -/
def latticeLineFl (rnd : K → K) (lo hi h : K) : List K := (List.range (lineCountFl rnd lo hi h)).map (lineNodeFl rnd lo h)

/-- The lattice as an array of points, `x` slowest (`oceanmesh/mesh_generator.py:1085-1087,1100`). -/
def latticePointsFl (rnd : K → K) (b : Box K) (h : K) : List (K × K) :=
  (latticeLineFl rnd b.xmin b.xmax h).flatMap fun x => (latticeLineFl rnd b.ymin b.ymax h).map fun y => (x, y)

/-- `rand < r0m**2 / r0**2` for one point (`oceanmesh/mesh_generator.py:1103`), see `keepRandom`; both squares are taken to be rounded correctly. -/
def keepRandomFl (rnd : K → K) (u : K) (r0m r0 : Float64 K) : Bool :=
  match r0m, r0 with
  | .fin m, .fin x => if rnd (x * x) = 0 then true else decide (u < rnd (rnd (m * m) / rnd (x * x)))
  | .fin _, .nan => false
  | .fin _, _ => decide (u < 0)
  | .posInf, .fin _ => true
  | _, _ => false

/-- `_generate_initial_points` (`oceanmesh/mesh_generator.py:1081-1110`) without `stereo`. `none`: an exception. -/
def initialFl (rnd : K → K) (h geps : K) (b : Box K) (fh : List (K × K) → Option (List (Float64 K))) (fd : List (K × K) → Option (List K))
    (rand : Nat → K) (pfix : List (K × K)) : Option (List (K × K)) := do
  let p := latticePointsFl rnd b h
  let r0 ← fh p
  let r0m ← smallestSize h r0
  if r0.length = p.length then
    let p1 ← maskRows ((List.range r0.length).zipWith (fun i r => keepRandomFl rnd (rand i) r0m r) r0) p
    let d ← fd p1
    let p2 ← maskRows (d.map fun x => decide (x < geps)) p1
    return pfix ++ p2
  else none

end
end OM
