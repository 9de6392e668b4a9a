import Verif.Props.Export
import Mathlib.Tactic.Linarith
import Mathlib.Tactic.Ring
/-!
# C140: the orientation of triangles in mesh files
-/
namespace OM
namespace Spec
variable {K : Type} [Field K] [LinearOrder K]

/-- Twice the signed area of a triangle. -/
def doubleArea (a b c : K × K) : K := (b.1 - a.1) * (c.2 - a.2) - (b.2 - a.2) * (c.1 - a.1)

/-- The extents of two sides of a triangle together. -/
def sidesSum (a b c : K × K) : K := |b.1 - a.1| + |b.2 - a.2| + |c.1 - a.1| + |c.2 - a.2|

/-- The triangle is counter-clockwise by more than six decimals can change. -/
def ClearlyTurned (a b c : K × K) : Prop := 1 / 10 ^ 6 * sidesSum a b c + 2 / 10 ^ 12 < doubleArea a b c

/-- The points differ by more than a unit of the sixth decimal. -/
def ClearlyApart (a b : K × K) : Prop := 1 / 10 ^ 6 < |a.1 - b.1| ∨ 1 / 10 ^ 6 < |a.2 - b.2|

/-- The coordinates of a vertex in a file. -/
def place (v : K × K × K) : K × K := (v.1, v.2.1)

/-- A file that keeps what is clear about a mesh: its triangles, their orientation, and which vertices differ. -/
def KeepsClear (points : List (K × K)) (cells : List (Int × Int × Int)) (f : MeshFile K) : Prop :=
  f.elements = cells ∧ f.vertices.length = points.length ∧
  (∀ (i j k : Nat) (a b c : K × K), ((i : Int), (j : Int), (k : Int)) ∈ cells → points[i]? = some a → points[j]? = some b → points[k]? = some c → ClearlyTurned a b c →
    ∃ a' b' c', f.vertices[i]? = some a' ∧ f.vertices[j]? = some b' ∧ f.vertices[k]? = some c' ∧ 0 < doubleArea (place a') (place b') (place c')) ∧
  ∀ (i j : Nat) (a b : K × K), points[i]? = some a → points[j]? = some b → ClearlyApart a b → ∃ a' b', f.vertices[i]? = some a' ∧ f.vertices[j]? = some b' ∧ place a' ≠ place b'

end Spec
open Spec

section
variable {K : Type} [Field K] [LinearOrder K] [IsStrictOrderedRing K]

theorem near_diff {x y x' y' : K} (h1 : Near6 x' x) (h2 : Near6 y' y) : |(x' - y') - (x - y)| ≤ 1 / 10 ^ 6 := by
  unfold Near6 at h1 h2
  have e : (x' - y') - (x - y) = (x' - x) - (y' - y) := by ring
  rw [e]
  refine (abs_sub _ _).trans ?_
  refine (add_le_add h1 h2).trans ?_
  rw [← two_mul]
  apply le_of_eq
  field_simp

theorem product_change {x w x' w' η : K} (hη : 0 ≤ η) (hx : |x' - x| ≤ η) (hw : |w' - w| ≤ η) : |x' * w' - x * w| ≤ η * (|x| + |w|) + η * η := by
  have e : x' * w' - x * w = (x' - x) * (w' - w) + (x' - x) * w + x * (w' - w) := by ring
  rw [e]
  refine (abs_add_le _ _).trans ?_
  have h1 : |(x' - x) * (w' - w) + (x' - x) * w| ≤ η * η + η * |w| := by
    refine (abs_add_le _ _).trans ?_
    rw [abs_mul, abs_mul]
    exact add_le_add (mul_le_mul hx hw (abs_nonneg _) hη) (mul_le_mul_of_nonneg_right hx (abs_nonneg _))
  have h2 : |x * (w' - w)| ≤ |x| * η := by
    rw [abs_mul]
    exact mul_le_mul_of_nonneg_left hw (abs_nonneg _)
  calc _ ≤ (η * η + η * |w|) + |x| * η := add_le_add h1 h2
    _ = _ := by ring

theorem turn_kept {a b c a' b' c' : K × K} (ha : Near6 a'.1 a.1 ∧ Near6 a'.2 a.2) (hb : Near6 b'.1 b.1 ∧ Near6 b'.2 b.2) (hc : Near6 c'.1 c.1 ∧ Near6 c'.2 c.2) (h : ClearlyTurned a b c) :
    0 < doubleArea a' b' c' := by
  unfold ClearlyTurned sidesSum at h
  have hη : (0 : K) ≤ 1 / 10 ^ 6 := by positivity
  have h1 := abs_le.1 (product_change hη (near_diff hb.1 ha.1) (near_diff hc.2 ha.2))
  have h2 := abs_le.1 (product_change hη (near_diff hb.2 ha.2) (near_diff hc.1 ha.1))
  have e : (2 : K) / 10 ^ 12 = 2 * (1 / 10 ^ 6 * (1 / 10 ^ 6)) := by field_simp
  rw [e] at h
  unfold doubleArea at *
  linarith [h1.1, h2.2]

theorem place_apart {a b a' b' : K × K} (ha : Near6 a'.1 a.1 ∧ Near6 a'.2 a.2) (hb : Near6 b'.1 b.1 ∧ Near6 b'.2 b.2) (h : ClearlyApart a b) : a' ≠ b' := by
  rintro rfl
  rcases h with h | h
  · have := near_diff ha.1 hb.1
    rw [sub_self, zero_sub, abs_neg] at this
    exact absurd this (not_le.2 h)
  · have := near_diff ha.2 hb.2
    rw [sub_self, zero_sub, abs_neg] at this
    exact absurd this (not_le.2 h)

theorem keepsClear_of_near {points : List (K × K)} {cells : List (Int × Int × Int)} {f : MeshFile K} (he : f.elements = cells) (hl : f.vertices.length = points.length)
    (hn : ∀ (k : Nat) (v : K × K × K) (p : K × K), f.vertices[k]? = some v → points[k]? = some p → Near6 v.1 p.1 ∧ Near6 v.2.1 p.2) : KeepsClear points cells f := by
  have hex : ∀ (k : Nat) (p : K × K), points[k]? = some p → ∃ v, f.vertices[k]? = some v := by
    intro k p hk
    have := (List.getElem?_eq_some_iff.1 hk).1
    exact ⟨_, List.getElem?_eq_getElem (hl ▸ this)⟩
  refine ⟨he, hl, ?_, ?_⟩
  · intro i j k a b c _ ha hb hc h
    obtain ⟨a', ha'⟩ := hex i a ha
    obtain ⟨b', hb'⟩ := hex j b hb
    obtain ⟨c', hc'⟩ := hex k c hc
    exact ⟨a', b', c', ha', hb', hc', turn_kept (hn i a' a ha' ha) (hn j b' b hb' hb) (hn k c' c hc' hc) h⟩
  · intro i j a b ha hb h
    obtain ⟨a', ha'⟩ := hex i a ha
    obtain ⟨b', hb'⟩ := hex j b hb
    exact ⟨a', b', ha', hb', place_apart (hn i a' a ha' ha) (hn j b' b hb' hb) h⟩

variable [FloorRing K]

/-- **C140** (1) In a fort.14 file every triangle that was clearly counter-clockwise is counter-clockwise, and vertices that were clearly apart are different. Full claim: all counter-clockwise triangles and all different vertices (false, see `C140_turned`). -/
theorem C140_fort14_partial (m : MeshArrays K) (name : List Char) (flip : Bool) (hname : '\n' ∉ name) (h : ∀ z ∈ m.topo, z.length = m.points.length) :
    ∃ text f, (writeFort14 m name flip).map (·.1) = some text ∧ readFort14 (K := K) text = some f ∧ KeepsClear m.points m.cells f := by
  obtain ⟨text, f, h1, h2, h3, h4, h5⟩ := C64_round_trip_partial m name flip hname h
  refine ⟨text, f, h1, h2, keepsClear_of_near h3 h4 ?_⟩
  intro k v p hv hp
  have hlt := (List.getElem?_eq_some_iff.1 hp).1
  have hz := List.getElem?_eq_getElem (l := fortDepths m.points.length m.topo flip) (i := k) (by rw [fortDepths_length m flip h]; exact hlt)
  obtain ⟨e1, e2, -⟩ := h5 k v p _ hv hp hz
  exact ⟨e1, e2⟩

/-- **C140** (2) The same for t3s files, with the same part missing. -/
theorem C140_t3s_partial (m : MeshArrays K) (date : List Char) (hd : '\n' ∉ date) : ∃ f, readT3s (K := K) (writeT3s date m).1 = some f ∧ KeepsClear m.points m.cells f := by
  obtain ⟨f, h1, h2, h3, h4⟩ := C82_round_trip_partial m date hd
  refine ⟨f, h1, keepsClear_of_near h2 h3 ?_⟩
  intro k v p hv hp
  obtain ⟨e1, e2, -⟩ := h4 k v p hv hp
  exact ⟨e1, e2⟩
end

section
variable {K : Type} [Field K] [LinearOrder K] [IsStrictOrderedRing K]

/-- **C140** (3) A triangle is clearly counter-clockwise if twice its area is larger than its size times a few units of the sixth decimal. -/
theorem C140_size {a b c : K × K} {D : K} (hb : |b.1 - a.1| ≤ D ∧ |b.2 - a.2| ≤ D) (hc : |c.1 - a.1| ≤ D ∧ |c.2 - a.2| ≤ D) (h : 4 / 10 ^ 6 * D + 2 / 10 ^ 12 < doubleArea a b c) : ClearlyTurned a b c := by
  unfold ClearlyTurned sidesSum
  have : (1 : K) / 10 ^ 6 * (|b.1 - a.1| + |b.2 - a.2| + |c.1 - a.1| + |c.2 - a.2|) ≤ 1 / 10 ^ 6 * (4 * D) := by
    refine mul_le_mul_of_nonneg_left ?_ (by positivity)
    linarith [hb.1, hb.2, hc.1, hc.2]
  have e : (1 : K) / 10 ^ 6 * (4 * D) = 4 / 10 ^ 6 * D := by ring
  linarith
end

/-- A counter-clockwise triangle of a few micrometres. -/
def tinyTri : MeshArrays ℚ := ⟨[(49 / 10 ^ 8, 49 / 10 ^ 8), (149 / 10 ^ 8, 151 / 10 ^ 8), (251 / 10 ^ 8, 260 / 10 ^ 8)], [(0, 1, 2)], none⟩

/-- **C140** (4) Small triangles are not kept: a counter-clockwise one is clockwise in both files. -/
theorem C140_turned : 0 < doubleArea (K := ℚ) (49 / 10 ^ 8, 49 / 10 ^ 8) (149 / 10 ^ 8, 151 / 10 ^ 8) (251 / 10 ^ 8, 260 / 10 ^ 8) ∧
    (∃ text f, (writeFort14 tinyTri "t".toList false).map (·.1) = some text ∧ readFort14 (K := ℚ) text = some f ∧ f.elements = [(0, 1, 2)] ∧
      f.vertices.map place = [(0, 0), (1 / 10 ^ 6, 2 / 10 ^ 6), (3 / 10 ^ 6, 3 / 10 ^ 6)]) ∧
    (∃ f, readT3s (K := ℚ) (writeT3s "d".toList tinyTri).1 = some f ∧ f.elements = [(0, 1, 2)] ∧
      f.vertices.map place = [(0, 0), (1 / 10 ^ 6, 2 / 10 ^ 6), (3 / 10 ^ 6, 3 / 10 ^ 6)]) ∧
    doubleArea (K := ℚ) (0, 0) (1 / 10 ^ 6, 2 / 10 ^ 6) (3 / 10 ^ 6, 3 / 10 ^ 6) < 0 := by
  refine ⟨by norm_num [doubleArea], ?_, ?_, by norm_num [doubleArea]⟩
  · have h : ∀ z ∈ tinyTri.topo, z.length = tinyTri.points.length := by simp [tinyTri]
    obtain ⟨text, h1, h2⟩ := readFort14_write tinyTri "t".toList false (by decide) h
    exact ⟨text, _, h1, h2, rfl, by decide +kernel⟩
  · exact ⟨_, readT3s_write tinyTri "d".toList (by decide), rfl, by decide +kernel⟩

example : ClearlyTurned (K := ℚ) (0, 0) (1 / 10 ^ 3, 0) (0, 1 / 10 ^ 3) ∧ ClearlyApart (K := ℚ) (0, 0) (1 / 10 ^ 3, 0) := by
  refine ⟨?_, Or.inl ?_⟩
  · unfold ClearlyTurned sidesSum doubleArea
    norm_num
  · norm_num

example : ∃ (a b c : ℚ × ℚ) (D : ℚ), (|b.1 - a.1| ≤ D ∧ |b.2 - a.2| ≤ D) ∧ (|c.1 - a.1| ≤ D ∧ |c.2 - a.2| ≤ D) ∧ 4 / 10 ^ 6 * D + 2 / 10 ^ 12 < doubleArea a b c :=
  ⟨(0, 0), (1 / 100, 0), (0, 1 / 100), 1 / 100, by norm_num, by norm_num, by norm_num [doubleArea]⟩

end OM
