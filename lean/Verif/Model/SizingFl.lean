import Verif.Model.Edgefx
/-!
# Model of sizes and of their evaluation with rounded arithmetic (`oceanmesh/edgefx.py`, `oceanmesh/grid.py`)

The same as `distanceSizing`, `waveSize`, `slopeSize` and `featureSizing` at one node, and as the linear interpolation of `Grid.evalAt`, but every
operation is rounded by a function `rnd`. The interpolation is written out in the order in which scipy computes it for two axes.
-/
namespace OM

section
variable {K : Type} [Field K] [LinearOrder K]

/-- The size at a node at distance `d` (`oceanmesh/edgefx.py:272-274,348-350,421-423`). -/
def distSizeFl (rnd : K → K) (h rate : K) (mx : Option K) (d : K) : K :=
  capMax mx (rnd (h + rnd (d * rate)))

/-- The size at a node of depth `z` before limits (`oceanmesh/edgefx.py:924-930`). `rsqrt` is the rounded root. Without conversion to degrees
`scale` is 1, which changes nothing. -/
def waveSizeFl (rnd rsqrt : K → K) (period gravity wl scale z : K) : K :=
  rnd (rnd (rnd (period * rsqrt (rnd (gravity * |if |z| < 1 then 1 else z|))) / wl) / scale)

/-- The size at a node from elevation and slope before limits (`oceanmesh/edgefx.py:535-552`). `twoPi` is the double `2 * np.pi`, `eps` the double
`1e-10`. -/
def slopeSizeFl (rnd : K → K) (twoPi eps slopeParameter scale z slope : K) : K :=
  rnd (rnd (rnd (rnd (twoPi / slopeParameter) * |min z (-1)|) / rnd (slope + eps)) / scale)

/-- The size at a node of the fine grid from its distances to medial points and shoreline (`oceanmesh/edgefx.py:847-848`). -/
def featureSizeFl (rnd : K → K) (r dMA dis : K) : K :=
  rnd (rnd (2 * rnd (dMA + |dis|)) / r)

/-- The limits, which are comparisons and assignments only (`oceanmesh/edgefx.py:556-559,854-857,936,940-941`). -/
def limitsFl (mn mx : Option K) (v : K) : K :=
  let w := match mn with
    | none => v
    | some a => if v < a then a else v
  match mx with
  | none => w
  | some b => if b < w then b else w

/-- The interval in which scipy looks up `q` on an axis with the `n + 2` nodes `x 0, …, x (n + 1)` (`RegularGridInterpolator` as called in
`oceanmesh/grid.py:514-520`): the number of inner nodes not above `q`. For ordered nodes that is what its binary search finds, and the first or last
interval outside. An axis with one node is left out. -/
def intervalFl (x : Nat → K) (n : Nat) (q : K) : Nat :=
  ((List.range n).filter fun i => decide (x (i + 1) ≤ q)).length

/-- How far `q` is between two nodes (the `norm_distances` of scipy for `oceanmesh/grid.py:522-523`), 0 for nodes that coincide. -/
def fracFl (rnd : K → K) (a b q : K) : K :=
  if rnd (b - a) = 0 then 0 else rnd (rnd (q - a) / rnd (b - a))

/-- scipy's linear interpolation in a cell (`evaluate_linear_2d`, called for `oceanmesh/grid.py:522-523`). -/
def bilinearFl (rnd : K → K) (s t v00 v01 v10 v11 : K) : K :=
  let a := rnd (rnd (v00 * rnd (1 - s)) * rnd (1 - t))
  let b := rnd (rnd (v01 * rnd (1 - s)) * t)
  let c := rnd (rnd (v10 * s) * rnd (1 - t))
  let d := rnd (rnd (v11 * s) * t)
  rnd (rnd (rnd (a + b) + c) + d)

/-- A grid as the interpolant sees it (`oceanmesh/grid.py:498-520`): `n + 2` and `m + 2` nodes on the axes, the values, and the value for points
outside (`none`: extrapolate). The values are numbers; a NaN is left out. -/
structure InterpFl (K : Type) where
  n : Nat
  m : Nat
  x : Nat → K
  y : Nat → K
  v : Nat → Nat → K
  fill : Option K

/-- The size at a point (`oceanmesh/grid.py:514-523`). -/
def InterpFl.eval (rnd : K → K) (G : InterpFl K) (p : K × K) : K :=
  let inside := G.x 0 ≤ p.1 ∧ p.1 ≤ G.x (G.n + 1) ∧ G.y 0 ≤ p.2 ∧ p.2 ≤ G.y (G.m + 1)
  let i := intervalFl G.x G.n p.1
  let j := intervalFl G.y G.m p.2
  let value := bilinearFl rnd (fracFl rnd (G.x i) (G.x (i + 1)) p.1) (fracFl rnd (G.y j) (G.y (j + 1)) p.2) (G.v i j) (G.v i (j + 1)) (G.v (i + 1) j)
    (G.v (i + 1) (j + 1))
  match G.fill with
  | none => value
  | some f => if inside then value else f

end
end OM
