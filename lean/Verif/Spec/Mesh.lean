import Verif.Model.Basic
import Mathlib.Data.List.Dedup
/-!
# Specification vocabulary for triangle tables

Nothing here refers to the algorithms of the model.
-/
namespace OM.Spec
open OM

/-- Vertex `v` is a corner of triangle `f`. -/
def HasVertex (f : Tri) (v : Nat) : Prop := v = f.a ∨ v = f.b ∨ v = f.c

instance (f : Tri) (v : Nat) : Decidable (HasVertex f v) := by unfold HasVertex; infer_instance

/-- `u` and `v` are two different corners of `f`, i.e. `{u,v}` is an edge of `f`. -/
def HasEdge (f : Tri) (u v : Nat) : Prop := u ≠ v ∧ HasVertex f u ∧ HasVertex f v

instance (f : Tri) (u v : Nat) : Decidable (HasEdge f u v) := by unfold HasEdge; infer_instance

/-- The three corners are different. -/
def Nondegenerate (f : Tri) : Prop := f.a ≠ f.b ∧ f.a ≠ f.c ∧ f.b ≠ f.c

instance (f : Tri) : Decidable (Nondegenerate f) := by unfold Nondegenerate; infer_instance

/-- In how many triangles of the table the pair `{u,v}` is an edge. -/
def edgeMultiplicity (t : List Tri) (u v : Nat) : Nat := (t.filter fun f => HasEdge f u v).length

/-- No edge belongs to more than two triangles. -/
def Conforming (t : List Tri) : Prop := ∀ u v, edgeMultiplicity t u v ≤ 2

/-- `{u,v}` belongs to exactly one triangle. -/
def IsBoundaryEdge (t : List Tri) (u v : Nat) : Prop := edgeMultiplicity t u v = 1

instance (t : List Tri) (u v : Nat) : Decidable (IsBoundaryEdge t u v) := by
  unfold IsBoundaryEdge; infer_instance

/-- The number of edges in a list of pairs that have `v` as an end. -/
def degree (es : List (Nat × Nat)) (v : Nat) : Nat := (es.filter fun e => e.1 = v ∨ e.2 = v).length

/-- `es` is a walk from `u` to `w`: the edges can be traversed one after another (in either direction),
each starting where the previous one ended. -/
inductive IsWalk : Nat → List (Nat × Nat) → Nat → Prop
  | nil (v : Nat) : IsWalk v [] v
  | cons {u v w : Nat} {e : Nat × Nat} {es : List (Nat × Nat)} :
      (e = (u, v) ∨ e = (v, u)) → IsWalk v es w → IsWalk u (e :: es) w

/-- The vertices that a walk from `u` along the edges passes, in order. -/
inductive Visits : Nat → List (Nat × Nat) → List Nat → Prop
  | nil (v : Nat) : Visits v [] [v]
  | cons {u v : Nat} {e : Nat × Nat} {es : List (Nat × Nat)} {vs : List Nat} :
      (e = (u, v) ∨ e = (v, u)) → Visits v es vs → Visits u (e :: es) (u :: vs)

/-- Two edges have an end in common. -/
def Touch (e f : Nat × Nat) : Prop := e.1 = f.1 ∨ e.1 = f.2 ∨ e.2 = f.1 ∨ e.2 = f.2

/-- `f` can be reached from `e` through a chain of edges of `es`, each touching the next. -/
inductive Chain (es : List (Nat × Nat)) : Nat × Nat → Nat × Nat → Prop
  | refl {e} : e ∈ es → Chain es e e
  | step {e f g} : Chain es e f → g ∈ es → Touch f g → Chain es e g

/-- `{u,v}` is the pair of corners at two different positions of `f` (for a non-degenerate triangle: an edge). -/
def HasSide (f : Tri) (u v : Nat) : Prop :=
  (u = f.a ∧ v = f.b) ∨ (u = f.b ∧ v = f.a) ∨ (u = f.a ∧ v = f.c) ∨ (u = f.c ∧ v = f.a) ∨
    (u = f.b ∧ v = f.c) ∨ (u = f.c ∧ v = f.b)

instance (f : Tri) (u v : Nat) : Decidable (HasSide f u v) := by unfold HasSide; infer_instance

/-- The two triangles have a side in common. -/
def Adjacent (f g : Tri) : Prop := ∃ u v, HasSide f u v ∧ HasSide g u v

/-- `g` can be reached from `f` inside the table `t` through triangles with common sides. -/
inductive Connected (t : List Tri) : Tri → Tri → Prop
  | refl {f} : f ∈ t → Connected t f f
  | step {f g h} : Connected t f g → h ∈ t → Adjacent g h → Connected t f h

/-- How many edges of `f` are also edges of `g`. -/
def sharedEdges (f g : Tri) : Nat := ([(f.a, f.b), (f.a, f.c), (f.b, f.c)].filter fun e => HasEdge g e.1 e.2).length

/-- The corners of the table joined to `v` by an edge that belongs to exactly one triangle. -/
def boundaryNeighbours (t : List Tri) (v : Nat) : List Nat :=
  (t.flatMap fun f => [f.a, f.b, f.c]).dedup.filter fun w => IsBoundaryEdge t v w

/-- The number of boundary edges at `v`. -/
def boundaryDegree (t : List Tri) (v : Nat) : Nat := (boundaryNeighbours t v).length

/-- The triangle has a corner on the boundary. -/
def TouchesBoundary (t : List Tri) (f : Tri) : Prop := ∃ v, HasVertex f v ∧ 0 < boundaryDegree t v

/-- All corners of the triangle are on the boundary. -/
def AllOnBoundary (t : List Tri) (f : Tri) : Prop := ∀ v, HasVertex f v → 0 < boundaryDegree t v

/-- Row `c` of the table is joined to exactly one other row by a common edge. -/
def HasOneNeighbour (t : List Tri) (c : Nat) : Prop :=
  ∃ f g h, t[c]? = some f ∧ g ≠ c ∧ t[g]? = some h ∧ Adjacent f h ∧
    ∀ g' h', g' ≠ c → t[g']? = some h' → Adjacent f h' → g' = g

end OM.Spec
