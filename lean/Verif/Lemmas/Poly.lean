import Verif.Model.Edges
import Verif.Spec.Poly
import Mathlib.Data.List.Basic
import Mathlib.Data.Int.Basic
import Mathlib.Algebra.Ring.Int.Defs
/-! `get_poly_edges` on joined features. -/
namespace OM
open Spec

theorem nanRows_feature {α : Type} (f : List α) (rest : List (Option α)) (i : Int) :
    nanRows i ((f.map some ++ none :: rest).map Option.isNone) =
      (i + f.length) :: nanRows (i + f.length + 1) (rest.map Option.isNone) := by
  induction f generalizing i with
  | nil => simp [nanRows]
  | cons x f ih =>
    simp only [List.map_cons, List.cons_append, Option.isNone_some, nanRows, ih (i + 1), List.length_cons]
    push_cast
    rw [show i + 1 + (f.length : Int) = i + (f.length + 1) by omega]

theorem polySegmentEdges_eq (i : Int) (m : Nat) :
    polySegmentEdges (i - 1) (i + m) =
      (List.range (m - 2)).map (fun k : Nat => (i + k, i + k + 1)) ++ [(i + m - 1, i)] := by
  unfold polySegmentEdges arange
  simp only [sub_add_cancel]
  congr 1
  rw [show (i + m - 1 - 1 - i).toNat = m - 2 by omega, show (i + m - 1 - (i + 1)).toNat = m - 2 by omega]
  apply List.ext_getElem
  · simp
  · intro k h1 h2
    simp
    omega

theorem pointAt_append_right {α : Type} (pre arr : List (Option α)) (k : Nat) :
    pointAt (pre ++ arr) ((pre.length : Int) + k) = (arr[k]?).join := by
  unfold pointAt
  rw [if_pos (by omega), show ((pre.length : Int) + k).toNat = pre.length + k by omega]
  rw [List.getElem?_append_right (by omega)]
  simp

/-- The points of the edges produced for one feature. -/
theorem feature_points {α : Type} (pre : List (Option α)) (f : List α) (hf : f ≠ []) (rest : List (Option α)) :
    (polySegmentEdges ((pre.length : Int) - 1) (pre.length + f.length)).map
      (fun e => (pointAt (pre ++ (f.map some ++ none :: rest)) e.1, pointAt (pre ++ (f.map some ++ none :: rest)) e.2)) =
    (segments f.dropLast ++ closing f).map (fun s => (some s.1, some s.2)) := by
  have hlen : 0 < f.length := List.length_pos_of_ne_nil hf
  have hget : ∀ k : Nat, (h : k < f.length) →
      pointAt (pre ++ (f.map some ++ none :: rest)) ((pre.length : Int) + k) = some f[k] := by
    intro k h
    rw [pointAt_append_right, List.getElem?_append_left (by simpa using h)]
    simp [h]
  rw [polySegmentEdges_eq, List.map_append, List.map_append]
  congr 1
  · apply List.ext_getElem
    · simp [segments]; omega
    · intro k h1 h2
      have hk : k < f.length - 2 := by simpa using h1
      have e1 := hget k (by omega)
      have e2 := hget (k + 1) (by omega)
      push_cast at e2
      simp only [List.getElem_map, List.getElem_range, segments, List.getElem_zip, List.getElem_dropLast,
        List.getElem_tail]
      rw [e1, add_assoc, e2]
  · have e1 := hget (f.length - 1) (by omega)
    have e2 := hget 0 hlen
    have hcl : closing f = [(f[f.length - 1], f[0])] := by
      cases f with
      | nil => exact absurd rfl hf
      | cons x f => simp [closing, List.getLast_eq_getElem]
    rw [hcl]
    simp only [List.map_cons, List.map_nil]
    rw [show (pre.length : Int) + f.length - 1 = pre.length + (f.length - 1 : Nat) by omega, e1]
    simp only [Nat.cast_zero, add_zero] at e2
    rw [e2]

theorem polyLoop_points {α : Type} (fs : List (List α)) (hfs : ∀ f ∈ fs, f ≠ []) (pre : List (Option α)) :
    (polyEdgesLoop ((pre.length : Int) - 1) (nanRows pre.length ((joinNaN fs).map Option.isNone))).map
      (fun e => (pointAt (pre ++ joinNaN fs) e.1, pointAt (pre ++ joinNaN fs) e.2)) =
    (fs.flatMap fun f => segments f.dropLast ++ closing f).map (fun s => (some s.1, some s.2)) := by
  induction fs generalizing pre with
  | nil => simp [joinNaN, nanRows, polyEdgesLoop]
  | cons f fs ih =>
    have hf := hfs f (by simp)
    have ih := ih (fun g hg => hfs g (List.mem_cons_of_mem _ hg)) (pre ++ (f.map some ++ [none]))
    rw [joinNaN, nanRows_feature, polyEdgesLoop, List.map_append, feature_points pre f hf]
    rw [List.flatMap_cons, List.map_append (l₂ := List.flatMap _ _)]
    congr 1
    rw [← ih]
    have h1 : ((pre ++ (f.map some ++ [none])).length : Int) = pre.length + f.length + 1 := by
      simp; omega
    rw [h1, add_sub_cancel_right]
    simp [List.append_assoc]

end OM
