import Verif.Model.Grid
/-!
# Model of the plots

A plot is the list of the calls into matplotlib, in order. What matplotlib draws for a call is not modelled.
-/
namespace OM

/-- The calls into matplotlib (`oceanmesh/geodata.py:1146-1196,1264-1279`, `oceanmesh/grid.py:455-492`, `oceanmesh/edges.py:56-62`,
`oceanmesh/signed_distance_function.py:97-115`). `P` are rows of coordinates. Handles of lines are their numbers in the order of drawing. Labels and titles of axes are left out
where they are constant. -/
inductive PlotCall (K P : Type) where
  | subplots
  | line (points : List P) (style : String)
  | patch (x y width height : K)
  | legend (entries : List (Nat × String))
  | xlabel (s : String)
  | ylabel (s : String)
  | title (s : String)
  | xlim (l : K × K)
  | ylim (l : K × K)
  | aspect
  | pcolor (cells : List (List ((K × K) × Option K)))
  | colorbar (label : Option String)
  | segments (l : List (P × P))
  | scatter (l : List (P × K))
  | show
  | save (name : String)

/-- The optional arguments of the plots (`oceanmesh/geodata.py:1133-1144`, `oceanmesh/grid.py:426-441`); `newAxes`: no axes are given. -/
structure PlotArgs (K : Type) where
  newAxes : Bool
  xlabel : Option String
  ylabel : Option String
  title : Option String
  fileName : Option String
  «show» : Bool
  xlim : Option (K × K)
  ylim : Option (K × K)

section
variable {K P : Type}

/-- A call that is made if the argument is given (`oceanmesh/geodata.py:1183-1188`, `oceanmesh/grid.py:471-480`). -/
def optCall {A : Type} (f : A → PlotCall K P) : Option A → List (PlotCall K P)
  | none => []
  | some a => [f a]

/-- `Shoreline.plot` (`oceanmesh/geodata.py:1145-1196`). The limits in lines 1169-1171 are behind a second `if ax is None`, after `ax` was assigned, and are never set; the
arguments `xlim` and `ylim` are not read. -/
def shorelinePlot [Sub K] (mainland inner boubox : List P) (bbox : Box K) (a : PlotArgs K) : List (PlotCall K P) :=
  let flg1 := decide (mainland.length ≠ 0)
  let flg2 := decide (inner.length ≠ 0)
  let line1 := 0
  let line2 := if flg1 then 1 else 0
  let line3 := line2 + if flg2 then 1 else 0
  (if a.newAxes then [.subplots] else []) ++
  (if flg1 then [.line mainland "k-"] else []) ++
  (if flg2 then [.line inner "r-"] else []) ++
  [.line boubox "g--"] ++
  [.patch bbox.xmin bbox.ymin (bbox.xmax - bbox.xmin) (bbox.ymax - bbox.ymin)] ++
  (if flg1 && flg2 then [.legend [(line1, "mainland"), (line2, "inner"), (line3, "outer")]]
    else if flg1 && !flg2 then [.legend [(line1, "mainland"), (line3, "outer")]]
    else if flg2 && !flg1 then [.legend [(line2, "inner"), (line3, "outer")]]
    else []) ++
  optCall .xlabel a.xlabel ++ optCall .ylabel a.ylabel ++ optCall .title a.title ++ [.aspect] ++
  (if a.show then [.show] else []) ++ optCall .save a.fileName

/-- The indices of the slice `[::c]` of an axis with `n` entries, `0 < c` (`oceanmesh/grid.py:464-466`). -/
def sliceIndices (c n : Nat) : List Nat := (List.range ((n + c - 1) / c)).map (· * c)

/-- The entries of a list at the given places. -/
def entries {α : Type} (n : Nat) (f : Fin n → α) (ix : List Nat) : List α := ix.filterMap fun i => if h : i < n then some (f ⟨i, h⟩) else none

section
variable {C : Type} [Field K] [LinearOrder K] [FloorRing K]

/-- `Grid.plot` (`oceanmesh/grid.py:455-492`); `stereo` is `to_stereo` if the option is set, otherwise the identity; `none` = `ValueError`, a slice with step zero. Negative steps
are not modelled. `bar`: the argument `plot_colorbar`. -/
def gridPlot (stereo : K × K → K × K) (g : Grid K C) (coarsen : Nat) (bar : Bool) (barLabel : Option String) (a : PlotArgs K) : Option (List (PlotCall K P)) :=
  if coarsen = 0 then none
  else
    let cells := entries g.nx (fun i => entries g.ny (fun j => (stereo (g.xAt i, g.yAt j), g.vals i j)) (sliceIndices coarsen g.ny)) (sliceIndices coarsen g.nx)
    let bar := bar || barLabel.isSome
    some ((if a.newAxes then [.subplots] else []) ++ [.pcolor cells] ++
      optCall .xlabel a.xlabel ++ optCall .ylabel a.ylabel ++ optCall .title a.title ++ optCall .xlim a.xlim ++ optCall .ylim a.ylim ++
      (if bar then [.colorbar barLabel] else []) ++
      optCall .save a.fileName ++ (if a.show then [.show] else []))

/-- `DEM.plot` (`oceanmesh/geodata.py:1264-1279`): `Grid.plot` with `holding=True`, then labels, its own colour bar, and the window unless `holding`. `cmap` among the further
arguments is a `TypeError` (`none`), because the keyword is given twice; here `userCmap`. -/
def demPlot (stereo : K × K → K × K) (g : Grid K C) (coarsen : Nat) (bar : Bool) (barLabel : Option String) (userCmap : Bool) (a : PlotArgs K) : Option (List (PlotCall K P)) :=
  if userCmap then none
  else
    (gridPlot stereo g coarsen bar barLabel { a with «show» := false }).map fun l =>
      l ++ [.xlabel "X-coordinate", .ylabel "Y-coordinate", .aspect, .colorbar (some "Topobathymetric depth (m)")] ++ (if a.show then [.show] else [])

end

/-- `draw_edges` (`oceanmesh/edges.py:55-62`); `none` = `IndexError`. -/
def drawEdges (poly : List P) (edges : List (Nat × Nat)) : Option (List (PlotCall K P)) :=
  (edges.mapM fun (e : Nat × Nat) => match poly[e.1]?, poly[e.2]? with
    | some x, some y => some (x, y)
    | _, _ => none).map fun l => [.subplots, .segments l, .show]

/-- `_plot` for samples `p` with distances `d` (`oceanmesh/signed_distance_function.py:99-115`): the samples nearer to the border than `0.0001`. -/
def levelPlot [Field K] [LinearOrder K] (p : List P) (d : P → K) (fileName : Option String) : List (PlotCall K P) :=
  let ix := p.filter fun q => decide (-(1 / 10000) < d q) && decide (d q < 1 / 10000)
  [.subplots, .scatter (ix.map fun q => (q, d q)), .xlabel "X-axis", .ylabel "Y-axis", .title "Approximate 0-level set", .colorbar none, .aspect] ++
    match fileName with
    | none => [.show]
    | some f => [.save f]

end
end OM
