import Verif.Model.Clean
/-!
# Model of `oceanmesh/boundary.py`
-/
namespace OM

/-- The values in the order of their first occurrence: `np.unique(..., return_index=True)` and the sorted indices
(`oceanmesh/boundary.py:45-48`). The first argument are the values seen so far. -/
def firstOccurrences : List Nat → List Nat → List Nat
  | _, [] => []
  | seen, x :: l => if x ∈ seen then firstOccurrences seen l else x :: firstOccurrences (x :: seen) l

/-- State of the scan (`oceanmesh/boundary.py:61-64`); positions are `none` for Python's `None`. -/
structure ScanState where
  first : Bool
  start : Option Nat
  stop : Option Nat
  sections : List (Option Nat × Option Nat)
deriving DecidableEq, Repr

/-- One pass of the loop (`oceanmesh/boundary.py:65-89`); `last` stands for `idx == len(stops) - 2`. -/
def scanStep (thr : Int) (st : ScanState) (s1 s2 : Nat) (last : Bool) : ScanState :=
  if (s2 : Int) - s1 < thr then
    if st.first then { st with start := some s1, first := false }
    else if last then { st with stop := some s2, sections := st.sections ++ [(st.start, some s2)] }
    else { st with stop := some s2 }
  else if st.first = false then
    { st with sections := st.sections ++ [(st.start, st.stop)], start := some s1, first := true }
  else if last then { st with stop := some s2, sections := st.sections ++ [(st.start, some s2)] }
  else st

/-- The loop over consecutive stops (`oceanmesh/boundary.py:65`). -/
def scanStops (thr : Int) : ScanState → List Nat → ScanState
  | st, s1 :: s2 :: l => scanStops thr (scanStep thr st s1 s2 l.isEmpty) (s2 :: l)
  | st, _ => st

/-- `boundary_nodes_unmasked[s1], boundary_nodes_unmasked[s2]` (`oceanmesh/boundary.py:102-105`); `none` = `TypeError` for the
index `None`. -/
def mapSections (nodes : List Nat) : List (Option Nat × Option Nat) → Option (List (Nat × Nat))
  | [] => some []
  | (some a, some b) :: l =>
    match nodes[a]?, nodes[b]?, mapSections nodes l with
    | some x, some y, some r => some ((x, y) :: r)
    | _, _, _ => none
  | _ :: _ => none

section
variable {K : Type} [LinearOrder K]

/-- `topobathymetry <= depth_threshold`, false for NaN (`none`) (`oceanmesh/boundary.py:53`). -/
def isDeep (thr : K) : Option K → Bool
  | none => false
  | some d => decide (d ≤ thr)

/-- `np.nonzero(bathymetry_on_boundary <= depth_threshold)[0]`, counting from `i` (`oceanmesh/boundary.py:50-53`; the NaN appended
there is never below the threshold). -/
def depthStops (thr : K) : Nat → List (Option K) → List Nat
  | _, [] => []
  | i, d :: l => if isDeep thr d then i :: depthStops thr (i + 1) l else depthStops thr (i + 1) l

/-- `identify_ocean_boundary_sections` without the plot (`oceanmesh/boundary.py:9-106`). `depths` is `topobathymetry`, entries
`none` = NaN. `none` = an exception. -/
def oceanSections (oE : RowOrder (Nat × Nat)) (t : List Tri) (depths : List (Option K)) (depthThr : K) (minNodes : Int) :
    Option (List (Nat × Nat)) :=
  match getWindedBoundaryEdges oE t none with
  | none => none
  | some edges =>
    let nodes := firstOccurrences [] (flatPairs edges)
    match gather depths nodes with
    | none => none
    | some ds =>
      mapSections nodes (scanStops minNodes ⟨true, none, none, []⟩ (depthStops depthThr 0 ds)).sections

end

end OM
