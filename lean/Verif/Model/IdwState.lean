import Verif.Model.Grid
import Verif.Model.Idw
/-!
# Model of an `Invdisttree` object and its statistics of weights

`oceanmesh/idw.py:74-106`, with the changes of the object during calls. The data `z` are numbers or NaN (`none`); the answers of the KD-tree are
given for every query point as in `Idw.lean`.
-/
namespace OM

section
variable {K : Type} [Field K] [LinearOrder K]

/-- The attributes of an object (`oceanmesh/idw.py:70-76`) apart from the tree; an entry `none` of `wsum` is NaN or infinite. -/
structure IdwObject (K : Type) where
  z : List (Option K)
  stat : Bool
  wn : Nat
  wsum : Option (List (Option K))
deriving DecidableEq

/-- `Invdisttree.__init__` (`oceanmesh/idw.py:70-76`); `none` = `AssertionError`. -/
def newIdw (X : List (K × K)) (z : List (Option K)) (stat : Bool) : Option (IdwObject K) :=
  if X.length = z.length then some ⟨z, stat, 0, none⟩ else none

/-- The weights before they are normalised (`oceanmesh/idw.py:96-98`); `none` = `IndexError`. -/
def rawWeights (pw : K → K) (wts : Option (List K)) (nb : List (K × Nat)) : Option (List K) :=
  collectAll (nb.map fun n => (multiplier wts n.2).map fun m => 1 / pw n.1 * m)

/-- `w /= np.sum(w)` (`oceanmesh/idw.py:99`). -/
def normalised (w : List K) : List (Option K) := w.map fun x => if w.sum = 0 then none else some (x / w.sum)

/-- Sum of two numbers that can be NaN (`oceanmesh/idw.py:103`). -/
def optAdd (a b : Option K) : Option K :=
  match a, b with
  | some x, some y => some (x + y)
  | _, _ => none

/-- `np.dot` of two vectors of the same length (`oceanmesh/idw.py:100`); NaN if an entry is NaN. -/
def optDot : List (Option K) → List (Option K) → Option K
  | some x :: l, some y :: r => (optDot l r).map fun s => x * y + s
  | none :: _, _ => none
  | _, none :: _ => none
  | _, _ => some 0

/-- One pass of the loop (`oceanmesh/idw.py:90-104`): the value (`none` = exception) and the object afterwards. `wn` grows before `wsum`, so it also
grows when the two vectors of line 103 have different lengths and the addition raises. -/
def idwQuery (pw : K → K) (nnear : Nat) (wts : Option (List K)) (o : IdwObject K) (nb : List (K × Nat)) :
    Option (Option K) × IdwObject K :=
  match nb with
  | [] => (none, o)
  | (d0, i0) :: l =>
    if nnear = 1 ∨ d0 < 1 / 10000000000 then (o.z[i0]?, o)
    else
      match rawWeights pw wts ((d0, i0) :: l), collectAll (((d0, i0) :: l).map fun n => o.z[n.2]?) with
      | some w, some vs =>
        if o.stat then
          match o.wsum with
          | none => (none, o)
          | some s =>
            if s.length = w.length then
              (some (optDot (normalised w) vs), { o with wn := o.wn + 1, wsum := some (List.zipWith optAdd s (normalised w)) })
            else (none, { o with wn := o.wn + 1 })
        else (some (optDot (normalised w) vs), o)
      | _, _ => (none, o)

/-- The loop over the query points (`oceanmesh/idw.py:90-105`), ended by the first exception. -/
def idwLoop (pw : K → K) (nnear : Nat) (wts : Option (List K)) : IdwObject K → List (List (K × Nat)) →
    Option (List (Option K)) × IdwObject K
  | o, [] => (some [], o)
  | o, nb :: qs =>
    match idwQuery pw nnear wts o nb with
    | (none, o') => (none, o')
    | (some v, o') => ((idwLoop pw nnear wts o' qs).1.map (v :: ·), (idwLoop pw nnear wts o' qs).2)

/-- `if self.wsum is None: self.wsum = np.zeros(nnear)` (`oceanmesh/idw.py:84-85`). -/
def startStats (nnear : Nat) (o : IdwObject K) : IdwObject K :=
  match o.wsum with
  | none => { o with wsum := some (List.replicate nnear (some 0)) }
  | some _ => o

/-- A call of the object (`oceanmesh/idw.py:82-106`) with the neighbours of all query points: values and object afterwards. -/
def idwCall (pw : K → K) (nnear : Nat) (wts : Option (List K)) (o : IdwObject K) (qs : List (List (K × Nat))) :
    Option (List (Option K)) × IdwObject K := idwLoop pw nnear wts (startStats nnear o) qs

/-- The arguments of a call (`oceanmesh/idw.py:78`). -/
structure IdwArgs (K : Type) where
  nnear : Nat
  weights : Option (List K)
  queries : List (List (K × Nat))

/-- The object after a history of calls; exceptions are caught by the caller (`oceanmesh/idw.py:82-106`). -/
def idwHistory (pw : K → K) : IdwObject K → List (IdwArgs K) → IdwObject K
  | o, [] => o
  | o, c :: cs => idwHistory pw (idwCall pw c.nnear c.weights o c.queries).2 cs

end
end OM
