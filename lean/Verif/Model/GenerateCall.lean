import Verif.Model.Generator
/-!
# Model of a call of `generate_mesh`

Arguments and keyword options, up to the loop (`oceanmesh/mesh_generator.py:730-820`).
-/
namespace OM

/-- What can be given as bounding box (`oceanmesh/mesh_generator.py:309`): a tuple of numbers, or something else. -/
inductive BoxArg (K : Type) where
  | tuple (l : List K)
  | other
deriving DecidableEq

/-- A value of a keyword option (`oceanmesh/mesh_generator.py:770-780`). -/
inductive OptVal (K : Type) where
  | none
  | num (x : PyNum K)
  | flag (b : Bool)
  | points (l : List (K × K))
  | box (b : BoxArg K)
  | other

/-- The argument `domain` (`oceanmesh/mesh_generator.py:922,925,928`): an object of class `Domain` with its box, a function, or something else. -/
inductive DomainArg (K : Type) where
  | domain (b : BoxArg K) (fd : List (K × K) → Option (List K))
  | function (fd : List (K × K) → Option (List K))
  | other

/-- The argument `edge_length` (`oceanmesh/mesh_generator.py:887,911,914`): a grid with its interpolant, a function, or something else. -/
inductive EdgeArg (K : Type) where
  | grid (g : SizeGrid K) (fh : List (K × K) → Option (List (Float64 K)))
  | function (fh : List (K × K) → Option (List (Float64 K)))
  | other

/-- The libraries and constants behind a call: those of `GenSetup`, the random numbers after `np.random.seed` (`oceanmesh/mesh_generator.py:795`; `entropy`:
after `np.random.seed(None)`), the stereographic projection, the way back and the two distortions (`:1063-1078`). -/
structure GenEngine (K : Type) where
  cgal : Cgal K
  oE : RowOrder (Nat × Nat)
  rnd : K → Int
  oP : RowOrder (Row K)
  oT : RowOrder Tri
  ptol : K
  sqrt : K → K
  eps : K
  deps : K
  rng : Nat → Nat → K
  entropy : Nat → K
  proj : K × K → K × K
  back : K × K → K × K
  distStart : K → Float64 K
  distForce : K → Float64 K

section
variable {K : Type} [Field K] [LinearOrder K]

/-- `opts[name]` after `opts.update(kwargs)` (`oceanmesh/mesh_generator.py:770-781`): the given value or the default; `none`: `KeyError`. -/
def option (kw : List (String × OptVal K)) (name : String) (default : Option (OptVal K)) : Option (OptVal K) :=
  match kw.lookup name with
  | some v => some v
  | none => default

/-- `if value:` (`oceanmesh/mesh_generator.py:836,949,1083`); other values than numbers, flags and `None` are taken to raise. -/
def truth : OptVal K → Option Bool
  | .none => some false
  | .flag b => some b
  | .num (.int n) => some (decide (n ≠ 0))
  | .num (.float x) => some (decide (x ≠ 0))
  | _ => none

/-- A number as factor, `delta_t * Ftot` (`oceanmesh/mesh_generator.py:866`); flags are not modelled as numbers. -/
def number : OptVal K → Option K
  | .num (.int n) => some n
  | .num (.float x) => some x
  | _ => none

/-- `max_iter > 0` and `range(max_iter)` (`oceanmesh/mesh_generator.py:792-793,825,852`); other values than numbers are taken to raise. -/
def iterations : OptVal K → Option Nat
  | .num n => iterationCount n
  | _ => none

/-- `np.random.seed(seed)` (`oceanmesh/mesh_generator.py:795`): numpy takes integers from 0 to 2³² − 1 and `None`; the random numbers from then on. -/
def seeded (E : GenEngine K) : OptVal K → Option (Nat → K)
  | .none => some E.entropy
  | .num (.int n) => if 0 ≤ n ∧ n < 4294967296 then some (E.rng n.toNat) else none
  | _ => none

/-- The options `pfix` (`oceanmesh/mesh_generator.py:1118-1126`) and `points` (`:805,816`): `None` or an array of points. -/
def pointsOption : OptVal K → Option (Option (List (K × K)))
  | .none => some none
  | .points l => some (some l)
  | _ => none

/-- `_unpack_pfix` (`oceanmesh/mesh_generator.py:1118-1126`): no points if the option is `None`. -/
def fixedOption (v : OptVal K) : Option (List (K × K)) :=
  (pointsOption v).map fun
    | some l => l
    | none => []

/-- `if opts["points"] is None` (`oceanmesh/mesh_generator.py:805-816`): the points given, or else new ones. -/
def pointsOrNew (given : Option (List (K × K))) (new : Unit → Option (List (K × K))) : Option (List (K × K)) :=
  match given with
  | some p => some p
  | none => new ()

/-- `_unpack_domain` (`oceanmesh/mesh_generator.py:921-932`). -/
def unpackDomain (kw : List (String × OptVal K)) : DomainArg K → Option ((List (K × K) → Option (List K)) × BoxArg K)
  | .domain b fd => some (fd, b)
  | .function fd =>
    match option kw "bbox" none with
    | some (.box b) => some (fd, b)
    | some _ => some (fd, .other)
    | none => none
  | .other => none

/-- `_unpack_sizing` (`oceanmesh/mesh_generator.py:886-920`) with `min_edge_length > 0` (`:790`): the sizing function and a finite minimum. An infinite minimum
given by the user is not modelled (`none`). -/
def unpackEdge (kw : List (String × OptVal K)) (e : EdgeArg K) : Option ((List (K × K) → Option (List (Float64 K))) × K) :=
  let fin : Option (Float64 K) → Option K
    | some (.fin x) => some x
    | _ => none
  match e with
  | .grid g fh => (fin (minimumSize none (.grid g))).map fun h => (fh, h)
  | .function fh => do
    let v ← option kw "min_edge_length" (some .none)
    let h ← number v
    let h ← fin (minimumSize (some (.fin h)) .function)
    return (fh, h)
  | .other => none

/-- `.reshape(-1, 2)` of a list of numbers (`oceanmesh/mesh_generator.py:788`); `none`: an odd number. -/
def pairsOf : List K → Option (List (K × K))
  | [] => some []
  | [_] => none
  | x :: y :: l => (pairsOf l).map fun r => (x, y) :: r

/-- `_check_bbox` and `np.array(bbox).reshape(-1, 2)` (`oceanmesh/mesh_generator.py:308-310,787-788`): `int(len(bbox) / 2)` must not be zero. -/
def boxRows : BoxArg K → Option (List (K × K))
  | .tuple l => if l.length / 2 = 0 then none else pairsOf l
  | .other => none

/-- Index tuples of `np.mgrid` (`oceanmesh/mesh_generator.py:1085-1087`), the first axis slowest. -/
def gridTuples : List (List K) → List (List K)
  | [] => [[]]
  | a :: l => a.flatMap fun x => (gridTuples l).map fun t => x :: t

/-- The numbers of an array in the order of memory, from its columns: all first coordinates, then all second ones, … (`oceanmesh/mesh_generator.py:1085-1087`). -/
def columns : Nat → List (List K) → List K
  | 0, _ => []
  | d + 1, ts => ts.filterMap List.head? ++ columns d (ts.map List.tail)

/-- `.reshape(2, -1).T` (`oceanmesh/mesh_generator.py:1095,1100`): the first half are the first coordinates, the second half the second ones; `none`: an odd
number of entries. -/
def halves (l : List K) : Option (List (K × K)) :=
  if l.length % 2 = 0 then some ((l.take (l.length / 2)).zip (l.drop (l.length / 2))) else none

/-- The candidates for the initial points (`oceanmesh/mesh_generator.py:1085-1087,1100`). -/
def candidates [FloorRing K] (h : K) (rows : List (K × K)) : Option (List (K × K)) :=
  halves (columns rows.length (gridTuples (rows.map fun r => latticeLine r.1 r.2 h)))

/-- What `generate_mesh` works with after reading its arguments (`oceanmesh/mesh_generator.py:783-820`). -/
structure GenInput (K : Type) where
  setup : GenSetup K
  maxIter : Nat
  start : List (K × K)

/-- The first part of `generate_mesh` (`oceanmesh/mesh_generator.py:730,769-816`); `none`: an exception. `kw` is the dictionary of keyword options. -/
def readCall [FloorRing K] (E : GenEngine K) (dom : DomainArg K) (edge : EdgeArg K) (kw : List (String × OptVal K)) : Option (GenInput K) :=
  if meshOptions [] (kw.map Prod.fst) then do
    let (fd, box) ← unpackDomain kw dom
    let (fh, h) ← unpackEdge kw edge
    let rows ← boxRows box
    let maxIter ← (option kw "max_iter" (some (.num (.int 50)))).bind iterations
    let rand ← (option kw "seed" (some (.num (.int 0)))).bind (seeded E)
    let dt ← (option kw "pseudo_dt" (some (.num (.float (1 / 5))))).bind number
    let pfix ← (option kw "pfix" (some .none)).bind fixedOption
    let lock ← (option kw "lock_boundary" (some (.flag false))).bind truth
    let stereo ← (option kw "stereo" (some (.flag false))).bind truth
    let points ← (option kw "points" (some .none)).bind pointsOption
    let S : GenSetup K := ⟨E.cgal, E.oE, E.rnd, E.oP, E.oT, E.ptol, E.sqrt, E.eps, 1 + 2 / 5 / 2, fh, fd,
      if stereo then some (E.back, E.distForce) else none, 1 / 1000 * h, E.deps, dt, pfix, lock⟩
    let start ← pointsOrNew points fun _ => (if stereo then some [] else candidates h rows).bind fun c =>
      initialFrom h S.geps c fh fd rand pfix (if stereo then some (E.proj, E.back, E.distStart) else none)
    return ⟨S, maxIter, start⟩
  else none

/-- `generate_mesh(domain, edge_length, **kwargs)` (`oceanmesh/mesh_generator.py:730-883`). -/
def generateCall [FloorRing K] (E : GenEngine K) (dom : DomainArg K) (edge : EdgeArg K) (kw : List (String × OptVal K)) :
    Option (FixResult K × List (GenIter K)) := do
  let i ← readCall E dom edge kw
  generateMesh i.setup i.maxIter i.start

end
end OM
