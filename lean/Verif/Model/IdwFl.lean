import Verif.Model.Idw
import Verif.Model.Blend
/-!
# Model of `oceanmesh/idw.py` with rounded arithmetic

The same as `weightedMean` and `idwValue` in `Model/Idw.lean`, with every operation rounded by `fl`. The power `pw`, `np.sum` and `np.dot` are
parameters, as is `tiny`, the double next to `1e-10`.
-/
namespace OM

section
variable {K : Type} [Field K] [LinearOrder K]

/-- What the interpolation takes from numpy: the rounding of an operation, `dist**p`, `np.sum`, `np.dot` and the constant `1e-10`
(`oceanmesh/idw.py:93-100`). -/
structure IdwTools (K : Type) where
  fl : K → K
  pw : K → K
  sum : List K → K
  dot : List K → List K → K
  tiny : K

/-- The weights before they are normalised, `w = 1 / dist**p; w *= weights[ix]` (`oceanmesh/idw.py:96-98`). Without multipliers the second
line is skipped; the product with one does not change a rounded number. -/
def rawWeightsFl (T : IdwTools K) (nb : List (K × K × K)) : List K := nb.map fun n => T.fl (T.fl (1 / T.pw n.1) * n.2.1)

/-- The weighted mean (`oceanmesh/idw.py:96-100`); `none` = NaN because the weights add up to zero. -/
def weightedMeanFl (T : IdwTools K) (nb : List (K × K × K)) : Option K :=
  let w := rawWeightsFl T nb
  let W := T.sum w
  if W = 0 then none else some (T.dot (w.map fun x => T.fl (x / W)) (nb.map fun n => n.2.2))

/-- One pass of the loop of `Invdisttree.__call__` (`oceanmesh/idw.py:90-104`): the value at one query point with neighbours `nb`. -/
def idwValueFl (T : IdwTools K) (nnear : Nat) (wts : Option (List K)) (z : List (Option K)) (nb : List (K × Nat)) : Option K :=
  match nb with
  | [] => none
  | (d0, i0) :: l =>
    if nnear = 1 then neighbourValue z i0
    else if d0 < T.tiny then neighbourValue z i0
    else
      match neighbourData wts z ((d0, i0) :: l) with
      | none => none
      | some r => weightedMeanFl T r

/-- The values of the padding in `blend_into` (`oceanmesh/grid.py:405-416`): entries that carry the mark `-99999` are replaced by the interpolation of the
others (`Grid.filledVals`, here on the list of nodes with their values); `query` is the search tree. -/
def fillMarkedFl (T : IdwTools K) (nnear : Nat) (query : List (K × K) → K × K → List (K × Nat)) (nodes : List ((K × K) × Option K)) : List (Option K) :=
  let known := nodes.filter fun n => decide (n.2 ≠ some (-99999))
  nodes.map fun n =>
    if n.2 = some (-99999) then idwValueFl T nnear none (known.map Prod.snd) (query (known.map Prod.fst) n.1) else n.2

/-- The smallest size that `blend_into` announces (`oceanmesh/grid.py:413-420`): the smallest interpolated value, or the smallest of all if nothing was marked. -/
def blendHminFl (T : IdwTools K) (nnear : Nat) (query : List (K × K) → K × K → List (K × Nat)) (nodes : List ((K × K) × Option K)) : Option K :=
  let asked := (nodes.zip (fillMarkedFl T nnear query nodes)).filter fun n => decide (n.1.2 = some (-99999))
  if asked = [] then amin (nodes.map Prod.snd) else amin (asked.map Prod.snd)

end
end OM
