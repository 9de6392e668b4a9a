import Verif.Model.Clean
import Verif.Lemmas.Unique
/-! A concrete sorting routine for the examples. -/
namespace OM

/-- Stable sorting by key: one admissible sorting routine, used in the examples. -/
def stableSort {α : Type} (β : Type) (o : RowOrder α) : KeySort α β o.le where
  run := sortBy fun x y => o.le x.1 y.1
  perm := sortBy_perm _
  sorted := sortBy_sorted _ (fun x y => o.total x.1 y.1) fun x y z => o.trans x.1 y.1 z.1

end OM
