import Verif.Lemmas.Text
import Mathlib.Data.Rat.Floor
/-!
# C64, C65, C82: mesh files
-/
namespace OM
open Spec
set_option linter.unusedSectionVars false

theorem fields_lines (ls : List (List Char)) (h : ∀ l ∈ ls, '\n' ∉ l) : fields '\n' (ls.flatMap (· ++ ['\n'])) = ls ++ [[]] := by
  induction ls with
  | nil => rfl
  | cons l ls ih =>
    rw [List.flatMap_cons, List.append_assoc, List.singleton_append, fields_append '\n' l _ (h l List.mem_cons_self),
      ih fun x hx => h x (List.mem_cons_of_mem _ hx)]
    rfl

section
variable {K : Type} [Field K] [LinearOrder K] [IsStrictOrderedRing K] [FloorRing K]

/-- A vertex line. -/
def vertexRow (k : Nat) (v : (K × K) × K) : List Char :=
  formatI (k + 1) ++ ' ' :: formatF v.1.1 ++ ' ' :: formatF v.1.2 ++ ' ' :: formatF v.2

/-- The vertex lines. -/
def vertexRows : Nat → List ((K × K) × K) → List (List Char)
  | _, [] => []
  | k, v :: l => vertexRow k v :: vertexRows (k + 1) l

theorem vertexLines_eq (l : List ((K × K) × K)) (k : Nat) : vertexLines k l = (vertexRows k l).flatMap (· ++ ['\n']) := by
  induction l generalizing k with
  | nil => rfl
  | cons v l ih =>
    rw [vertexLines, vertexRows, List.flatMap_cons, ih]
    simp [vertexRow]

theorem vertexRows_newline (l : List ((K × K) × K)) (k : Nat) : ∀ r ∈ vertexRows k l, '\n' ∉ r := by
  induction l generalizing k with
  | nil => simp [vertexRows]
  | cons v l ih =>
    intro r hr
    rcases List.mem_cons.1 hr with rfl | hr
    · unfold vertexRow
      simp only [List.mem_append, List.mem_cons, not_or]
      exact ⟨⟨⟨formatI_newline _, by decide, formatF_newline _⟩, by decide, formatF_newline _⟩, by decide, formatF_newline _⟩
    · exact ih (k + 1) r hr

theorem vertexRows_length (l : List ((K × K) × K)) (k : Nat) : (vertexRows k l).length = l.length := by
  induction l generalizing k with
  | nil => rfl
  | cons v l ih => simp [vertexRows, ih]

theorem readVertex_row (k : Nat) (v : (K × K) × K) :
    readVertex k (vertexRow k v) = some (fixedValue v.1.1, fixedValue v.1.2, fixedValue v.2) := by
  have h : words (vertexRow k v) = [formatI (k + 1), formatF v.1.1, formatF v.1.2, formatF v.2] := by
    have e : vertexRow k v = formatI (k + 1) ++ ' ' :: (formatF v.1.1 ++ ' ' :: (formatF v.1.2 ++ ' ' :: formatF v.2)) := by
      simp [vertexRow]
    rw [e, words_cons _ _ (formatI_word _),
      words_cons _ _ (formatF_word _), words_cons _ _ (formatF_word _), words_single _ (formatF_word _)]
  have hk : readNat (formatI ((k : Int) + 1)) = some (k + 1) := by exact_mod_cast readNat_format (k + 1)
  unfold readVertex
  rw [h]
  simp only [hk, readFixed_format, if_true]

theorem readRows_vertices (l : List ((K × K) × K)) (k : Nat) :
    readRows readVertex k (vertexRows k l) = some (l.map fun v => (fixedValue v.1.1, fixedValue v.1.2, fixedValue v.2)) := by
  induction l generalizing k with
  | nil => rfl
  | cons v l ih => simp only [vertexRows, readRows, readVertex_row, ih, List.map_cons]

/-- An element line. -/
def elementRow (k : Nat) (c : Int × Int × Int) : List Char :=
  formatI (k + 1) ++ ' ' :: formatI 3 ++ ' ' :: formatI c.1 ++ ' ' :: formatI c.2.1 ++ ' ' :: formatI c.2.2 ++ [' ']

/-- The element lines. -/
def elementRows : Nat → List (Int × Int × Int) → List (List Char)
  | _, [] => []
  | k, v :: l => elementRow k v :: elementRows (k + 1) l

theorem elementLines_eq (l : List (Int × Int × Int)) (k : Nat) : elementLines k l = (elementRows k l).flatMap (· ++ ['\n']) := by
  induction l generalizing k with
  | nil => rfl
  | cons v l ih =>
    rw [elementLines, elementRows, List.flatMap_cons, ih]
    simp [elementRow]

theorem elementRows_newline (l : List (Int × Int × Int)) (k : Nat) : ∀ r ∈ elementRows k l, '\n' ∉ r := by
  induction l generalizing k with
  | nil => simp [elementRows]
  | cons v l ih =>
    intro r hr
    rcases List.mem_cons.1 hr with rfl | hr
    · unfold elementRow
      simp only [List.mem_append, List.mem_cons, not_or, List.not_mem_nil, or_false]
      exact ⟨⟨⟨⟨⟨formatI_newline _, by decide, formatI_newline _⟩, by decide, formatI_newline _⟩, by decide, formatI_newline _⟩, by decide,
        formatI_newline _⟩, by decide⟩
    · exact ih (k + 1) r hr

theorem elementRows_length (l : List (Int × Int × Int)) (k : Nat) : (elementRows k l).length = l.length := by
  induction l generalizing k with
  | nil => rfl
  | cons v l ih => simp [elementRows, ih]

theorem words_nil : words [] = [] := by decide

theorem readElement_row (k : Nat) (c : Int × Int × Int) :
    readElement k (elementRow k c) = some (c.1 - 1, c.2.1 - 1, c.2.2 - 1) := by
  have h : words (elementRow k c) = [formatI (k + 1), formatI 3, formatI c.1, formatI c.2.1, formatI c.2.2] := by
    have e : elementRow k c = formatI (k + 1) ++ ' ' :: (formatI 3 ++ ' ' :: (formatI c.1 ++ ' ' :: (formatI c.2.1 ++ ' ' :: (formatI c.2.2 ++ ' ' :: [])))) := by
      simp [elementRow]
    rw [e, words_cons _ _ (formatI_word _), words_cons _ _ (formatI_word _), words_cons _ _ (formatI_word _), words_cons _ _ (formatI_word _),
      words_cons _ _ (formatI_word _), words_nil]
  have hk : readNat (formatI ((k : Int) + 1)) = some (k + 1) := by exact_mod_cast readNat_format (k + 1)
  have h3 : readNat (formatI 3) = some 3 := readNat_format 3
  unfold readElement
  rw [h]
  simp only [hk, h3, readInt_format, and_self, if_true]

theorem readRows_elements (l : List (Int × Int × Int)) (k : Nat) :
    readRows readElement k (elementRows k l) = some (l.map fun c => (c.1 - 1, c.2.1 - 1, c.2.2 - 1)) := by
  induction l generalizing k with
  | nil => rfl
  | cons v l ih => simp only [elementRows, readRows, readElement_row, ih, List.map_cons]

theorem readFort14_rows (title : List Char) (ht : '\n' ∉ title) (vs : List ((K × K) × K)) (cs : List (Int × Int × Int)) :
    readFort14 (K := K) (([title, formatI cs.length ++ ' ' :: formatI vs.length] ++ vertexRows 0 vs ++ elementRows 0 cs ++
        List.replicate 4 "0 ".toList).flatMap (· ++ ['\n'])) =
      some ⟨title, vs.map fun v => (fixedValue v.1.1, fixedValue v.1.2, fixedValue v.2), cs.map fun c => (c.1 - 1, c.2.1 - 1, c.2.2 - 1)⟩ := by
  have hz : '\n' ∉ "0 ".toList := by decide
  unfold readFort14
  rw [fields_lines]
  · have e : [title, formatI cs.length ++ ' ' :: formatI vs.length] ++ vertexRows 0 vs ++ elementRows 0 cs ++ List.replicate 4 "0 ".toList ++ [[]] =
        title :: (formatI cs.length ++ ' ' :: formatI vs.length) :: (vertexRows 0 vs ++ (elementRows 0 cs ++ (List.replicate 4 "0 ".toList ++ [[]]))) := by
      simp
    rw [e]
    have hc : (words (formatI cs.length ++ ' ' :: formatI vs.length)).map readNat = [some cs.length, some vs.length] := by
      rw [words_cons _ _ (formatI_word _), words_single _ (formatI_word _)]
      simp only [List.map_cons, readNat_format, List.map_nil]
    simp only [hc]
    have d1 : (vertexRows 0 vs ++ (elementRows 0 cs ++ (List.replicate 4 "0 ".toList ++ [[]]))).drop (vs.length + cs.length) =
        List.replicate 4 "0 ".toList ++ [[]] := by
      rw [← List.append_assoc, List.drop_left' (by rw [List.length_append, vertexRows_length, elementRows_length])]
    have d2 : (vertexRows 0 vs ++ (elementRows 0 cs ++ (List.replicate 4 "0 ".toList ++ [[]]))).take vs.length = vertexRows 0 vs :=
      List.take_left' (vertexRows_length vs 0)
    have d3 : ((vertexRows 0 vs ++ (elementRows 0 cs ++ (List.replicate 4 "0 ".toList ++ [[]]))).drop vs.length).take cs.length = elementRows 0 cs := by
      rw [List.drop_left' (vertexRows_length vs 0), List.take_left' (elementRows_length cs 0)]
    rw [d1, d2, d3, readRows_vertices, readRows_elements, if_pos (by decide)]
    simp only [List.length_map, and_self, if_true]
  · intro l hl
    simp only [List.mem_append, List.mem_cons, List.not_mem_nil, or_false] at hl
    rcases hl with (((rfl | rfl) | hl) | hl) | hl
    · exact ht
    · simp only [List.mem_append, List.mem_cons, not_or]
      exact ⟨formatI_newline _, by decide, formatI_newline _⟩
    · exact vertexRows_newline _ _ l hl
    · exact elementRows_newline _ _ l hl
    · rw [List.eq_of_mem_replicate hl]; exact hz

/-- The title line that is written. -/
def Spec.fortTitle (name : List Char) (flip : Bool) : List Char := name ++ if flip then " (bathymetry flipped) ".toList else [' ']

/-- The depths that are to be written. -/
def Spec.fortDepths (n : Nat) (topo : Option (List K)) (flip : Bool) : List K :=
  match topo with
  | none => List.replicate n 0
  | some z => if flip then z.map fun x => -x else z

/-- The state of the arrays after one export to fort.14. -/
def Spec.afterFort14 (m : MeshArrays K) (flip : Bool) : MeshArrays K :=
  ⟨m.points, m.cells.map fun c => (c.1 + 1, c.2.1 + 1, c.2.2 + 1), m.topo.map fun z => if flip then z.map fun x => -x else z⟩

theorem neg_fun : (fun x : K => x * -1) = fun x => -x := by
  funext x; ring

theorem writeFort14_eq (m : MeshArrays K) (name : List Char) (flip : Bool) (h : ∀ z ∈ m.topo, z.length = m.points.length) :
    writeFort14 m name flip = some (([fortTitle name flip, formatI (m.cells.map fun c => (c.1 + 1, c.2.1 + 1, c.2.2 + 1)).length ++ ' ' ::
        formatI (m.points.zip (fortDepths m.points.length m.topo flip)).length] ++
        vertexRows 0 (m.points.zip (fortDepths m.points.length m.topo flip)) ++
        elementRows 0 (m.cells.map fun c => (c.1 + 1, c.2.1 + 1, c.2.2 + 1)) ++ List.replicate 4 "0 ".toList).flatMap (· ++ ['\n']),
        afterFort14 m flip) := by
  obtain ⟨pts, cells, topo⟩ := m
  have htitle : name ++ (if flip = true then " (bathymetry flipped) \n".toList else " \n".toList) = fortTitle name flip ++ ['\n'] := by
    unfold fortTitle
    rw [List.append_assoc]
    congr 1
    cases flip <;> rfl
  have hzero : (List.replicate 4 "0 \n".toList).flatten = (List.replicate 4 "0 ".toList).flatMap (· ++ ['\n']) := by decide
  unfold writeFort14 afterFort14
  cases topo with
  | none =>
    have hz : (if flip = true then (List.replicate pts.length (0 : K)).map (fun x => x * -1) else List.replicate pts.length 0) = List.replicate pts.length 0 := by
      cases flip
      · rfl
      · simp
    simp only [hz, htitle, hzero, vertexLines_eq, elementLines_eq, fortDepths, Option.map_none, Option.some.injEq, Prod.mk.injEq, and_true]
    simp [List.flatMap_append]
  | some z =>
    have hl : z.length = pts.length := h z rfl
    have hz : (if flip = true then z.map (fun x => x * -1) else z) = if flip = true then z.map (fun x => -x) else z := by
      rw [neg_fun]
    simp only [hl, if_true, htitle, hzero, hz, vertexLines_eq, elementLines_eq, fortDepths, Option.map_some, Option.some.injEq, Prod.mk.injEq, and_true]
    have : (if flip = true then z.map (fun x => -x) else z).length = pts.length := by
      cases flip <;> simp [hl]
    simp [List.flatMap_append, List.length_zip, this]

theorem fortDepths_length (m : MeshArrays K) (flip : Bool) (h : ∀ z ∈ m.topo, z.length = m.points.length) :
    (fortDepths m.points.length m.topo flip).length = m.points.length := by
  obtain ⟨pts, cells, topo⟩ := m
  unfold fortDepths
  cases topo with
  | none => simp
  | some z =>
    have := h z rfl
    cases flip <;> simpa using this

/-- What a fort.14 file contains when it is read: everything as passed in, numbers rounded to six decimals. -/
theorem readFort14_write (m : MeshArrays K) (name : List Char) (flip : Bool) (hname : '\n' ∉ name) (h : ∀ z ∈ m.topo, z.length = m.points.length) :
    ∃ text, (writeFort14 m name flip).map (·.1) = some text ∧
      readFort14 (K := K) text = some ⟨fortTitle name flip,
        (m.points.zip (fortDepths m.points.length m.topo flip)).map fun v => (fixedValue v.1.1, fixedValue v.1.2, fixedValue v.2), m.cells⟩ := by
  have ht : '\n' ∉ fortTitle name flip := by
    unfold fortTitle
    rw [List.mem_append, not_or]
    refine ⟨hname, ?_⟩
    cases flip <;> decide
  rw [writeFort14_eq m name flip h]
  refine ⟨_, rfl, ?_⟩
  rw [readFort14_rows _ ht]
  simp [Function.comp_def]

/-- **C64** (partial): reading the file gives the number of vertices and elements, the coordinates and (sign-changed) depths up to half a unit of the
sixth decimal, and the connectivity. Missing for the full property: numbers with more than six decimals (`C64_rounding`) and titles with line
breaks (`C64_title_newline`). -/
theorem C64_round_trip_partial (m : MeshArrays K) (name : List Char) (flip : Bool) (hname : '\n' ∉ name)
    (h : ∀ z ∈ m.topo, z.length = m.points.length) :
    ∃ text f, (writeFort14 m name flip).map (·.1) = some text ∧ readFort14 (K := K) text = some f ∧
      f.elements = m.cells ∧ f.vertices.length = m.points.length ∧
      ∀ (k : Nat) (v : K × K × K) (p : K × K) (z : K), f.vertices[k]? = some v → m.points[k]? = some p → (fortDepths m.points.length m.topo flip)[k]? = some z →
        Near6 v.1 p.1 ∧ Near6 v.2.1 p.2 ∧ Near6 v.2.2 z := by
  obtain ⟨text, h1, h2⟩ := readFort14_write m name flip hname h
  refine ⟨text, _, h1, h2, rfl, ?_, ?_⟩
  · simp [List.length_zip, fortDepths_length m flip h]
  · intro k v p z hv hp hz
    have hzip : (m.points.zip (fortDepths m.points.length m.topo flip))[k]? = some (p, z) := by
      rw [List.getElem?_zip_eq_some]; exact ⟨hp, hz⟩
    simp only [List.getElem?_map, hzip, Option.map_some, Option.some.injEq] at hv
    subst hv
    exact ⟨fixedValue_near _, fixedValue_near _, fixedValue_near _⟩

/-- **C64**: if all numbers have at most six decimals, reading the file gives exactly what was passed in. -/
theorem C64_exact (m : MeshArrays K) (name : List Char) (flip : Bool) (hname : '\n' ∉ name)
    (h : ∀ z ∈ m.topo, z.length = m.points.length) (hp : ∀ p ∈ m.points, SixDecimals p.1 ∧ SixDecimals p.2)
    (hz : ∀ l ∈ m.topo, ∀ z ∈ l, SixDecimals z) :
    ∃ text, (writeFort14 m name flip).map (·.1) = some text ∧
      readFort14 (K := K) text = some ⟨fortTitle name flip,
        (m.points.zip (fortDepths m.points.length m.topo flip)).map fun v => (v.1.1, v.1.2, v.2), m.cells⟩ := by
  obtain ⟨text, h1, h2⟩ := readFort14_write m name flip hname h
  refine ⟨text, h1, ?_⟩
  rw [h2]
  have hd : ∀ z ∈ fortDepths m.points.length m.topo flip, SixDecimals z := by
    intro z hm
    unfold fortDepths at hm
    cases ht : m.topo with
    | none =>
      rw [ht] at hm
      rw [List.eq_of_mem_replicate hm]
      exact ⟨0, by simp⟩
    | some l =>
      rw [ht] at hm
      have hl := hz l (by rw [ht]; rfl)
      cases flip with
      | false => exact hl z (by simpa using hm)
      | true =>
        simp only [if_true, List.mem_map] at hm
        obtain ⟨x, hx, rfl⟩ := hm
        obtain ⟨n, hn⟩ := hl x hx
        exact ⟨-n, by rw [hn]; push_cast; ring⟩
  congr 2
  refine List.map_congr_left fun v hv => ?_
  obtain ⟨a, b⟩ := v
  obtain ⟨ha, hb⟩ := List.of_mem_zip hv
  rw [fixedValue_exact (hp a ha).1, fixedValue_exact (hp a ha).2, fixedValue_exact (hd b hb)]

/-- **C64**: depths of another length are rejected. -/
theorem C64_wrong_length (m : MeshArrays K) (name : List Char) (flip : Bool) (z : List K) (hz : m.topo = some z) (h : z.length ≠ m.points.length) :
    writeFort14 m name flip = none := by
  unfold writeFort14
  simp only [hz, h, if_false]

/-! ## C65 -/

/-- The number of exports to fort.14 in a history. -/
def Spec.fortCount (l : List ExportCall) : Nat := l.countP fun c => match c with | .fort14 _ _ => true | .t3s _ => false

/-- The number of exports to fort.14 with change of sign. -/
def Spec.flipCount (l : List ExportCall) : Nat := l.countP fun c => match c with | .fort14 _ f => f | .t3s _ => false

/-- The arrays after a number of fort.14 exports, some of them with change of sign. -/
def Spec.shifted (m : MeshArrays K) (n flips : Nat) : MeshArrays K :=
  ⟨m.points, m.cells.map fun c => (c.1 + n, c.2.1 + n, c.2.2 + n), m.topo.map fun z => z.map fun x => (-1) ^ flips * x⟩

theorem shifted_zero (m : MeshArrays K) : shifted m 0 0 = m := by
  obtain ⟨p, c, t⟩ := m
  cases t <;> simp [shifted]

theorem exportStep_shifted (m : MeshArrays K) (hl : ∀ z ∈ m.topo, z.length = m.points.length) (n f : Nat) (c : ExportCall) :
    (exportStep (shifted m n f) c).2 = shifted m (n + fortCount [c]) (f + flipCount [c]) := by
  cases c with
  | t3s d => simp [exportStep, writeT3s, fortCount, flipCount]
  | fort14 name flip =>
    have hl' : ∀ z ∈ (shifted m n f).topo, z.length = (shifted m n f).points.length := by
      intro z hz
      unfold shifted at hz ⊢
      simp only [Option.mem_def, Option.map_eq_some_iff] at hz
      obtain ⟨w, hw, rfl⟩ := hz
      simpa using hl w hw
    unfold exportStep
    dsimp only
    rw [writeFort14_eq _ name flip hl']
    unfold afterFort14 shifted fortCount flipCount
    simp only [List.map_map, Option.map_map, MeshArrays.mk.injEq, true_and]
    constructor
    · refine List.map_congr_left fun c _ => ?_
      simp only [Function.comp_apply, List.countP_cons, List.countP_nil, if_true]
      push_cast
      simp only [Prod.mk.injEq]
      refine ⟨by ring, by ring, by ring⟩
    · congr 1
      funext z
      cases flip
      · simp
      · simp [Function.comp_def, pow_succ]

/-- **C65** Depths of the wrong length: every fort.14 export of the history raises, and the arrays stay as they are. -/
theorem C65_rejected (m : MeshArrays K) (z : List K) (hz : m.topo = some z) (h : z.length ≠ m.points.length) (l : List ExportCall) :
    (exportHistory m l).2 = m ∧ ∀ (k : Nat) (name : List Char) (flip : Bool), l[k]? = some (.fort14 name flip) → (exportHistory m l).1[k]? = some none := by
  induction l with
  | nil => exact ⟨rfl, fun k name flip hk => by simp at hk⟩
  | cons c l ih =>
    have e : (exportStep m c).2 = m := by
      cases c with
      | t3s d => rfl
      | fort14 name flip => simp only [exportStep, C64_wrong_length m name flip z hz h]
    rw [exportHistory]
    simp only [e]
    refine ⟨ih.1, fun k name flip hk => ?_⟩
    cases k with
    | zero =>
      simp only [List.getElem?_cons_zero, Option.some.injEq] at hk
      subst hk
      simp only [exportStep, C64_wrong_length m name flip z hz h, List.getElem?_cons_zero]
    | succ k => exact ih.2 k name flip (by simpa using hk)

/-- **C65**, what the code does: after any history of exports, the arrays of the caller have all indices increased by the number of fort.14
exports and the sign of the depths changed once for every flipping export; the points are unchanged. -/
theorem C65_history (m : MeshArrays K) (hl : ∀ z ∈ m.topo, z.length = m.points.length) (l : List ExportCall) :
    (exportHistory m l).2 = shifted m (fortCount l) (flipCount l) := by
  have key : ∀ (l : List ExportCall) (n f : Nat), (exportHistory (shifted m n f) l).2 = shifted m (n + fortCount l) (f + flipCount l) := by
    intro l
    induction l with
    | nil => intro n f; rfl
    | cons c l ih =>
      intro n f
      have e1 : fortCount (c :: l) = fortCount [c] + fortCount l := by
        unfold fortCount; rw [← List.countP_append]; rfl
      have e2 : flipCount (c :: l) = flipCount [c] + flipCount l := by
        unfold flipCount; rw [← List.countP_append]; rfl
      rw [exportHistory]
      dsimp only
      rw [exportStep_shifted m hl, ih, e1, e2, add_assoc, add_assoc]
  have := key l 0 0
  rwa [shifted_zero, zero_add, zero_add] at this

/-- **C65** (partial): histories without exports to fort.14 leave the arrays unchanged and write the same file for the same date. Missing: exports
to fort.14, see `C65_second_export`. -/
theorem C65_t3s_partial (m : MeshArrays K) (l : List ExportCall) (h : ∀ c ∈ l, ∃ d, c = .t3s d) :
    (exportHistory m l).2 = m ∧ ∀ f ∈ (exportHistory m l).1, ∃ d, f = some (writeT3s d m).1 := by
  induction l with
  | nil => exact ⟨rfl, by simp [exportHistory]⟩
  | cons c l ih =>
    obtain ⟨d, rfl⟩ := h c List.mem_cons_self
    obtain ⟨i1, i2⟩ := ih fun c hc => h c (List.mem_cons_of_mem _ hc)
    have e : (exportStep m (.t3s d)) = (some (writeT3s d m).1, m) := rfl
    refine ⟨by rw [exportHistory]; simpa [e] using i1, ?_⟩
    intro f hf
    rw [exportHistory] at hf
    simp only [e, List.mem_cons] at hf
    rcases hf with rfl | hf
    · exact ⟨d, rfl⟩
    · exact i2 f hf

/-- **C65** (disagreement): for every mesh with an element, the second export to fort.14 writes another connectivity than the first: all indices
are one too large. -/
theorem C65_second_export (m : MeshArrays K) (hl : ∀ z ∈ m.topo, z.length = m.points.length) (name name' : List Char) (flip flip' : Bool)
    (hname : '\n' ∉ name) (hname' : '\n' ∉ name') :
    ∃ t1 t2 f1 f2, (exportHistory m [.fort14 name flip, .fort14 name' flip']).1 = [some t1, some t2] ∧
      readFort14 (K := K) t1 = some f1 ∧ readFort14 (K := K) t2 = some f2 ∧ f1.elements = m.cells ∧
      f2.elements = m.cells.map fun c => (c.1 + 1, c.2.1 + 1, c.2.2 + 1) := by
  have hl' : ∀ z ∈ (afterFort14 m flip).topo, z.length = (afterFort14 m flip).points.length := by
    intro z hz
    unfold afterFort14 at hz ⊢
    simp only [Option.mem_def, Option.map_eq_some_iff] at hz
    obtain ⟨w, hw, rfl⟩ := hz
    cases flip
    · simpa using hl w hw
    · simpa using hl w hw
  obtain ⟨t1, a1, b1⟩ := readFort14_write m name flip hname hl
  obtain ⟨t2, a2, b2⟩ := readFort14_write (afterFort14 m flip) name' flip' hname' hl'
  refine ⟨t1, t2, _, _, ?_, b1, b2, rfl, rfl⟩
  rw [writeFort14_eq m name flip hl] at a1
  rw [writeFort14_eq _ name' flip' hl'] at a2
  simp only [Option.map_some, Option.some.injEq] at a1 a2
  simp only [exportHistory, exportStep, writeFort14_eq m name flip hl, writeFort14_eq (afterFort14 m flip) name' flip' hl', a1, a2]
/-! ## C82 -/

/-- A vertex line. -/
def t3Row (p : K × K) : List Char := formatF p.1 ++ ' ' :: (formatF p.2 ++ ' ' :: formatF (0 : K))

/-- An element line. -/
def t3CellRow (c : Int × Int × Int) : List Char := formatI c.1 ++ ' ' :: (formatI c.2.1 ++ ' ' :: (formatI c.2.2 ++ [' ']))

theorem readT3Vertex_row (k : Nat) (p : K × K) : readT3Vertex k (t3Row p) = some (fixedValue p.1, fixedValue p.2, (0 : K)) := by
  have h0 : fixedValue (0 : K) = 0 := fixedValue_exact ⟨0, by simp⟩
  unfold readT3Vertex t3Row
  rw [words_cons _ _ (formatF_word _), words_cons _ _ (formatF_word _), words_single _ (formatF_word _)]
  simp only [List.map_cons, List.map_nil, readFixed_format, h0]

theorem readT3Element_row (k : Nat) (c : Int × Int × Int) : readT3Element k (t3CellRow c) = some c := by
  unfold readT3Element t3CellRow
  rw [words_cons _ _ (formatI_word _), words_cons _ _ (formatI_word _), words_cons _ _ (formatI_word _), words_nil]
  simp only [List.map_cons, List.map_nil, readInt_format]

theorem readRows_t3Vertices (l : List (K × K)) (k : Nat) :
    readRows readT3Vertex k (l.map t3Row) = some (l.map fun p => (fixedValue p.1, fixedValue p.2, (0 : K))) := by
  induction l generalizing k with
  | nil => rfl
  | cons v l ih => simp only [List.map_cons, readRows, readT3Vertex_row, ih]

theorem readRows_t3Elements (l : List (Int × Int × Int)) (k : Nat) : readRows readT3Element k (l.map t3CellRow) = some l := by
  induction l generalizing k with
  | nil => rfl
  | cons v l ih => simp only [List.map_cons, readRows, readT3Element_row, ih]

/-- The words of the header lines with a number or date. -/
theorem words_key (key : List Char) (hk : IsWord key) (rest : List Char) :
    words (List.replicate 8 ' ' ++ key ++ ' ' :: rest) = key :: words rest := by
  rw [List.append_assoc]
  simp only [List.replicate, List.cons_append, List.nil_append, words_blank]
  rw [words_cons _ _ hk]

theorem headerValue_skip (key l : List Char) (ls : List (List Char)) (h : ∀ n, words l ≠ [key, n]) : headerValue key (l :: ls) = headerValue key ls := by
  rw [headerValue]
  split
  · rename_i a n hw
    rw [if_neg]
    rintro rfl
    exact h n hw
  · rfl

theorem headerValue_found (key l : List Char) (ls : List (List Char)) (n : List Char) (h : words l = [key, n]) : headerValue key (l :: ls) = readNat n := by
  rw [headerValue, h]
  simp

theorem digits_word (n : Nat) : IsWord (Nat.toDigits 10 n) := ⟨digits_ne_nil n, not_mem_of_digits (digits_all n) (by decide)⟩

theorem words_date (date : List Char) : words ("        :CreationDate ".toList ++ date) = ":CreationDate".toList :: words date := by
  have e : "        :CreationDate ".toList ++ date = List.replicate 8 ' ' ++ ":CreationDate".toList ++ ' ' :: date := by
    rw [show "        :CreationDate ".toList = List.replicate 8 ' ' ++ ":CreationDate".toList ++ [' '] by decide]
    simp
  rw [e, words_key _ ⟨by decide, by decide⟩]

theorem words_nodeCount (n : Nat) : words ("        :NodeCount ".toList ++ Nat.toDigits 10 n) = [":NodeCount".toList, Nat.toDigits 10 n] := by
  have e : "        :NodeCount ".toList ++ Nat.toDigits 10 n = List.replicate 8 ' ' ++ ":NodeCount".toList ++ ' ' :: Nat.toDigits 10 n := by
    rw [show "        :NodeCount ".toList = List.replicate 8 ' ' ++ ":NodeCount".toList ++ [' '] by decide]
    simp
  rw [e, words_key _ ⟨by decide, by decide⟩, words_single _ (digits_word n)]

theorem words_elementCount (n : Nat) : words ("        :ElementCount ".toList ++ Nat.toDigits 10 n) = [":ElementCount".toList, Nat.toDigits 10 n] := by
  have e : "        :ElementCount ".toList ++ Nat.toDigits 10 n = List.replicate 8 ' ' ++ ":ElementCount".toList ++ ' ' :: Nat.toDigits 10 n := by
    rw [show "        :ElementCount ".toList = List.replicate 8 ' ' ++ ":ElementCount".toList ++ [' '] by decide]
    simp
  rw [e, words_key _ ⟨by decide, by decide⟩, words_single _ (digits_word n)]

theorem headerValue_const (key l : List Char) (ls : List (List Char)) (h : (words l).head? ≠ some key) : headerValue key (l :: ls) = headerValue key ls :=
  headerValue_skip key l ls fun n e => h (by rw [e]; rfl)

theorem header_nodes (date : List Char) (np ne : Nat) (rest : List (List Char)) : headerValue ":NodeCount".toList (t3Header date np ne ++ rest) = some np := by
  unfold t3Header
  simp only [List.cons_append, List.nil_append]
  iterate 8 rw [headerValue_const _ _ _ (by decide)]
  rw [headerValue_const _ _ _ (by rw [words_date, List.head?_cons]; decide)]
  iterate 6 rw [headerValue_const _ _ _ (by decide)]
  rw [headerValue_found _ _ _ _ (words_nodeCount np), readNat_digits]

theorem header_elements (date : List Char) (np ne : Nat) (rest : List (List Char)) :
    headerValue ":ElementCount".toList (t3Header date np ne ++ rest) = some ne := by
  unfold t3Header
  simp only [List.cons_append, List.nil_append]
  iterate 8 rw [headerValue_const _ _ _ (by decide)]
  rw [headerValue_const _ _ _ (by rw [words_date, List.head?_cons]; decide)]
  iterate 6 rw [headerValue_const _ _ _ (by decide)]
  rw [headerValue_const _ _ _ (by rw [words_nodeCount, List.head?_cons]; decide), headerValue_found _ _ _ _ (words_elementCount ne), readNat_digits]

theorem afterHeader_skip (l : List Char) (ls : List (List Char)) (h : (words l).head? ≠ some ":EndHeader".toList) : afterHeader (l :: ls) = afterHeader ls := by
  rw [afterHeader, if_neg]
  intro e
  rw [e] at h
  exact h rfl

theorem header_after (date : List Char) (np ne : Nat) (rest : List (List Char)) : afterHeader (t3Header date np ne ++ rest) = some rest := by
  unfold t3Header
  simp only [List.cons_append, List.nil_append]
  iterate 8 rw [afterHeader_skip _ _ (by decide)]
  rw [afterHeader_skip _ _ (by rw [words_date, List.head?_cons]; decide)]
  iterate 6 rw [afterHeader_skip _ _ (by decide)]
  rw [afterHeader_skip _ _ (by rw [words_nodeCount, List.head?_cons]; decide), afterHeader_skip _ _ (by rw [words_elementCount, List.head?_cons]; decide),
    afterHeader_skip _ _ (by decide), afterHeader_skip _ _ (by decide), afterHeader, if_pos (by decide)]

/-- What a t3s file contains when it is read. -/
theorem readT3s_write (m : MeshArrays K) (date : List Char) (hd : '\n' ∉ date) :
    readT3s (K := K) (writeT3s date m).1 = some ⟨[], m.points.map fun p => (fixedValue p.1, fixedValue p.2, 0), m.cells⟩ := by
  have e : (writeT3s date m).1 = ((t3Header date m.points.length m.cells.length ++ (m.points.map t3Row ++ m.cells.map t3CellRow)).flatMap (· ++ ['\n'])) := by
    unfold writeT3s t3Vertices t3Elements
    simp only [List.flatMap_append, List.append_assoc]
    congr 2
    · rw [List.flatMap_map]
      congr 1
      funext p
      simp [t3Row]
    · rw [List.flatMap_map]
      congr 1
      funext c
      simp [t3CellRow]
  have hnl : ∀ l ∈ t3Header date m.points.length m.cells.length ++ (m.points.map t3Row ++ m.cells.map t3CellRow), '\n' ∉ l := by
    intro l hl
    rw [List.mem_append, List.mem_append, List.mem_map, List.mem_map] at hl
    rcases hl with hl | ⟨p, -, rfl⟩ | ⟨c, -, rfl⟩
    · unfold t3Header at hl
      simp only [List.mem_cons, List.not_mem_nil, or_false] at hl
      have hdig : ∀ n, '\n' ∉ Nat.toDigits 10 n := fun n => not_mem_of_digits (digits_all n) (by decide)
      rcases hl with rfl | rfl | rfl | rfl | rfl | rfl | rfl | rfl | rfl | rfl | rfl | rfl | rfl | rfl | rfl | rfl | rfl | rfl | rfl | rfl
      case inr.inr.inr.inr.inr.inr.inr.inr.inl => rw [List.mem_append, not_or]; exact ⟨by decide, hd⟩
      case inr.inr.inr.inr.inr.inr.inr.inr.inr.inr.inr.inr.inr.inr.inr.inl => rw [List.mem_append, not_or]; exact ⟨by decide, hdig _⟩
      case inr.inr.inr.inr.inr.inr.inr.inr.inr.inr.inr.inr.inr.inr.inr.inr.inl => rw [List.mem_append, not_or]; exact ⟨by decide, hdig _⟩
      all_goals decide
    · unfold t3Row
      simp only [List.mem_append, List.mem_cons, not_or]
      exact ⟨formatF_newline _, by decide, formatF_newline _, by decide, formatF_newline _⟩
    · unfold t3CellRow
      simp only [List.mem_append, List.mem_cons, not_or, List.not_mem_nil, or_false]
      exact ⟨formatI_newline _, by decide, formatI_newline _, by decide, formatI_newline _, by decide⟩
  unfold readT3s
  rw [e, fields_lines _ hnl]
  simp only [List.append_assoc, header_nodes, header_elements, header_after]
  have d1 : (m.points.map t3Row ++ (m.cells.map t3CellRow ++ [[]])).drop (m.points.length + m.cells.length) = [[]] := by
    rw [← List.append_assoc, List.drop_left' (by simp)]
  have d2 : (m.points.map t3Row ++ (m.cells.map t3CellRow ++ [[]])).take m.points.length = m.points.map t3Row := List.take_left' (by simp)
  have d3 : ((m.points.map t3Row ++ (m.cells.map t3CellRow ++ [[]])).drop m.points.length).take m.cells.length = m.cells.map t3CellRow := by
    rw [List.drop_left' (by simp), List.take_left' (by simp)]
  rw [d1, if_pos rfl, d2, d3, readRows_t3Vertices, readRows_t3Elements]
  simp

/-- **C82** (partial): reading a t3s file gives the coordinates up to half a unit of the sixth decimal and the connectivity with vertex numbers as they
are in the array. Missing: numbers with more than six decimals. -/
theorem C82_round_trip_partial (m : MeshArrays K) (date : List Char) (hd : '\n' ∉ date) :
    ∃ f, readT3s (K := K) (writeT3s date m).1 = some f ∧ f.elements = m.cells ∧ f.vertices.length = m.points.length ∧
      ∀ (k : Nat) (v : K × K × K) (p : K × K), f.vertices[k]? = some v → m.points[k]? = some p → Near6 v.1 p.1 ∧ Near6 v.2.1 p.2 ∧ v.2.2 = 0 := by
  refine ⟨_, readT3s_write m date hd, rfl, by simp, ?_⟩
  intro k v p hv hp
  simp only [List.getElem?_map, hp, Option.map_some, Option.some.injEq] at hv
  subst hv
  exact ⟨fixedValue_near _, fixedValue_near _, rfl⟩

/-- **C82**: numbers with at most six decimals are read back exactly. -/
theorem C82_exact (m : MeshArrays K) (date : List Char) (hd : '\n' ∉ date) (hp : ∀ p ∈ m.points, SixDecimals p.1 ∧ SixDecimals p.2) :
    readT3s (K := K) (writeT3s date m).1 = some ⟨[], m.points.map fun p => (p.1, p.2, 0), m.cells⟩ := by
  rw [readT3s_write m date hd]
  congr 2
  refine List.map_congr_left fun p h => ?_
  rw [fixedValue_exact (hp p h).1, fixedValue_exact (hp p h).2]
end

/-! ## Examples -/

/-- Two triangles with depths. -/
def twoTriangles : MeshArrays ℚ := ⟨[(0, 0), (1, 0), (1, 1/3), (0, -1)], [(0, 1, 2), (0, 2, 3)], some [5, -2, 1/8, 0]⟩

example : '\n' ∉ "mesh".toList ∧ ∀ z ∈ twoTriangles.topo, z.length = twoTriangles.points.length := by
  refine ⟨by decide, ?_⟩
  intro z hz
  simp only [twoTriangles, Option.mem_def, Option.some.injEq] at hz
  subst hz; rfl

example : ({ twoTriangles with topo := some [1] } : MeshArrays ℚ).topo = some [1] ∧ [(1 : ℚ)].length ≠ twoTriangles.points.length ∧
    (exportHistory { twoTriangles with topo := some [1] } [.fort14 [] true, .t3s [], .fort14 [] false]).1.map Option.isSome = [false, true, false] :=
  ⟨rfl, by decide, by decide +kernel⟩

example : (writeFort14 twoTriangles "mesh".toList true).map (fun r => String.ofList r.1) =
    some "mesh (bathymetry flipped) \n2 4\n1 0.000000 0.000000 -5.000000\n2 1.000000 0.000000 2.000000\n3 1.000000 0.333333 -0.125000\n4 0.000000 -1.000000 0.000000\n1 3 1 2 3 \n2 3 1 3 4 \n0 \n0 \n0 \n0 \n" := by
  decide +kernel

example : SixDecimals (1/8 : ℚ) ∧ ¬ SixDecimals (1/3 : ℚ) := by
  refine ⟨⟨125000, by norm_num⟩, ?_⟩
  rintro ⟨n, hn⟩
  have : (3 * n : ℚ) = 10 ^ 6 := by linarith
  have h2 : (3 * n : Int) = 10 ^ 6 := by exact_mod_cast this
  omega

example : '\n' ∉ "11/17/2026, 09:00:00".toList := by decide
example : (readT3s (K := ℚ) (writeT3s "11/17/2026, 09:00:00".toList twoTriangles).1).map (fun f => (f.vertices, f.elements)) =
    some ([(0, 0, 0), (1, 0, 0), (1, 333333 / 10 ^ 6, 0), (0, -1, 0)], [(0, 1, 2), (0, 2, 3)]) := by decide +kernel
-- A history: fort.14, t3s, fort.14; the arrays at the end are shifted by two.
example : (exportHistory twoTriangles [.fort14 "a".toList true, .t3s "b".toList, .fort14 "a".toList false]).2.cells = [(2, 3, 4), (2, 4, 5)] := by
  decide +kernel

/-- **C64** (disagreement): numbers are rounded to six decimals; two different vertices are written as the same point. -/
theorem C64_rounding : formatF (1 / 10 ^ 7 : ℚ) = formatF (0 : ℚ) ∧ (1 / 10 ^ 7 : ℚ) ≠ 0 := by
  refine ⟨by decide +kernel, by norm_num⟩

section
variable {K : Type} [Field K] [LinearOrder K] [IsStrictOrderedRing K] [FloorRing K]

theorem roundEven_tie {x : K} (h : |(roundEven x : K) - x| = 1 / 2) : Even (roundEven x) := by
  have h1 : (⌊x⌋ : K) ≤ x := Int.floor_le x
  have h2 : x < ⌊x⌋ + 1 := Int.lt_floor_add_one x
  unfold roundEven at h ⊢
  dsimp only at h ⊢
  split at h
  · rename_i h3
    exfalso
    rw [abs_of_nonpos (by linarith)] at h
    linarith
  · split at h
    · rename_i h3 h4
      exfalso
      push_cast at h
      rw [abs_of_pos (by linarith)] at h
      linarith
    · rename_i h3 h4
      rw [if_neg h3, if_neg h4]
      split
      · exact Int.even_iff.2 ‹_›
      · rw [Int.even_iff]; omega

/-- **C64, C82** The number in the file is a multiple of one millionth at a distance of at most half a millionth; of two that are equally far the
even one is written. -/
theorem C64_ties (x : K) : ∃ n : Int, readFixed (formatF x) = some ((n : K) / 10 ^ 6) ∧ Near6 ((n : K) / 10 ^ 6) x ∧
    (|(n : K) / 10 ^ 6 - x| = 1 / (2 * 10 ^ 6) → Even n) := by
  have h6 : (0 : K) < 10 ^ 6 := by positivity
  have hv := fixedValue_near x
  have ht := roundEven_tie (x := |x| * 10 ^ 6)
  have key : ∀ r : K, |r / 10 ^ 6 - (|x|)| = 1 / (2 * 10 ^ 6) → |r - |x| * 10 ^ 6| = 1 / 2 := by
    intro r hr
    rw [show r / 10 ^ 6 - |x| = (r - |x| * 10 ^ 6) / 10 ^ 6 by field_simp, abs_div, abs_of_pos h6, div_eq_iff h6.ne'] at hr
    rw [hr]
    field_simp
  rw [readFixed_format]
  unfold fixedValue at hv ⊢
  by_cases hx : x < 0
  · rw [if_pos hx] at hv ⊢
    have e : -1 * ((roundEven (|x| * 10 ^ 6) : K) / 10 ^ 6) = ((-roundEven (|x| * 10 ^ 6) : Int) : K) / 10 ^ 6 := by push_cast; ring
    rw [e] at hv ⊢
    refine ⟨_, rfl, hv, fun h => ?_⟩
    refine (ht (key _ ?_)).neg
    rw [← h, ← abs_neg]
    congr 1
    push_cast
    rw [abs_of_neg hx]
    ring
  · rw [if_neg hx, one_mul] at hv ⊢
    refine ⟨_, rfl, hv, fun h => ht (key _ ?_)⟩
    rw [abs_of_nonneg (not_lt.1 hx)] at h ⊢
    exact h
end

-- Two ties, rounded down and up to even numbers.
example : formatF (-1 / (2 * 10 ^ 6) : ℚ) = "-0.000000".toList ∧ formatF (3 / (2 * 10 ^ 6) : ℚ) = "0.000002".toList := by decide +kernel

/-- **C64** (disagreement): a title with a line break makes a file that cannot be read. -/
theorem C64_title_newline :
    (writeFort14 twoTriangles "a\nb".toList false).map (fun r => (readFort14 (K := ℚ) r.1).isSome) = some false := by
  decide +kernel

end OM
