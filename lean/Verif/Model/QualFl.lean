import Verif.Model.FixMesh
/-!
# Model of `simp_qual` with rounded arithmetic

The same as `edgeLength`, `qualOfLengths` and `triQual` in `Model/FixMesh.lean`, but every operation is rounded by `fl` in the order in which numpy
evaluates the expressions, and `sqrt` is the rounded root.
-/
namespace OM

section
variable {K : Type} [Field K] [LinearOrder K]

/-- `length(p[..] - p[..])` for one row (`oceanmesh/fix_mesh.py:17-18,20-22`). -/
def edgeLengthFl (fl sqrt : K → K) (p q : K × K) : K :=
  let d := (fl (q.1 - p.1), fl (q.2 - p.2))
  sqrt (fl (fl (d.1 * d.1) + fl (d.2 * d.2)))

/-- `simp_qual` for one triangle given its three edge lengths (`oceanmesh/fix_mesh.py:27-31`). `none` is NaN: the root of a negative number, or a
zero length (then one of the three differences is zero too and `R = 0 / 0`, `qualOfLengthsFl_zero`). If the root is zero and no length is, then
`mult1` is zero and `R` is infinite, so the quotient `0 / inf` is zero. -/
def qualOfLengthsFl (fl sqrt : K → K) (a b c : K) : Option K :=
  let s := fl (fl (a + b) + c)
  let x := fl (fl (b + c) - a)
  let y := fl (fl (c + a) - b)
  let z := fl (fl (a + b) - c)
  let under := fl (fl (fl (s * x) * y) * z)
  let abc := fl (fl (a * b) * c)
  if under < 0 ∨ s = 0 ∨ abc = 0 then none
  else if sqrt under = 0 then some 0
  else
    let mult1 := fl (fl (fl (x * y) * z) / s)
    let r := fl (1 / 2 * mult1)
    let R := fl (abc / sqrt under)
    some (fl (fl (2 * r) / R))

/-- `simp_qual` for one triangle with corners `p q r` (`oceanmesh/fix_mesh.py:6-31`). -/
def triQualFl (fl sqrt : K → K) (p q r : K × K) : Option K :=
  qualOfLengthsFl fl sqrt (edgeLengthFl fl sqrt p q) (edgeLengthFl fl sqrt p r) (edgeLengthFl fl sqrt q r)

/-- One entry of `simp_qual(p, t)` (`oceanmesh/fix_mesh.py:20-31`, called in `oceanmesh/clean.py:296,302,527`). The outer lookup never fails for the
valid tables on which it is called; `none` stands for NaN. -/
def faceQualFl (fl sqrt : K → K) (p : List (K × K)) (f : Tri) : Option K :=
  match p[f.a]?, p[f.b]?, p[f.c]? with
  | some x, some y, some z => triQualFl fl sqrt x y z
  | _, _, _ => none

end
end OM
