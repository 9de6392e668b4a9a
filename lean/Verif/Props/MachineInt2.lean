import Verif.Props.MachineInt
import Verif.Props.Delaunay
/-!
# C135: edges and tables of the triangulation with 32-bit integers
-/
set_option linter.unusedSectionVars false
namespace OM
open Spec

theorem insertBy_map {α β : Type} (f : α → β) {le : α → α → Bool} {le' : β → β → Bool} (h : ∀ a b, le' (f a) (f b) = le a b) (x : α) : ∀ l : List α, insertBy le' (f x) (l.map f) = (insertBy le x l).map f
  | [] => rfl
  | y :: l => by
    rw [List.map_cons, insertBy, insertBy, h]
    split
    · rfl
    · rw [List.map_cons, insertBy_map f h x l]

theorem sortBy_map {α β : Type} (f : α → β) {le : α → α → Bool} {le' : β → β → Bool} (h : ∀ a b, le' (f a) (f b) = le a b) : ∀ l : List α, sortBy le' (l.map f) = (sortBy le l).map f
  | [] => rfl
  | x :: l => by rw [List.map_cons, sortBy, sortBy, sortBy_map f h l, insertBy_map f h]

theorem stdUnique_map {α β : Type} [DecidableEq α] [DecidableEq β] {f : α → β} (hf : ∀ a b, f a = f b → a = b) : ∀ l : List α, stdUnique (l.map f) = (stdUnique l).map f
  | [] => rfl
  | [x] => rfl
  | x :: y :: l => by
    have ih := stdUnique_map hf (y :: l)
    rw [List.map_cons, List.map_cons] at *
    rw [stdUnique, stdUnique]
    by_cases h : x = y
    · rw [if_pos h, if_pos (by rw [h]), ih]
    · rw [if_neg h, if_neg (fun e => h (hf _ _ e)), ih, List.map_cons]

/-- Numbers of an edge as integers. -/
def castPair (e : Nat × Nat) : Int × Int := ((e.1 : Int), (e.2 : Int))

theorem edgePairsM_map : ∀ l : List Nat, edgePairsM (l.map fun (n : Nat) => (n : Int)) = (edgePairs l).map fun p => p.map castPair
  | [] => rfl
  | [_] => rfl
  | a :: b :: l => by
    rw [List.map_cons, List.map_cons, edgePairsM, edgePairs, edgePairsM_map l, Option.map_map, Option.map_map]
    cases edgePairs l with
    | none => rfl
    | some p =>
      simp only [Option.map_some, Function.comp, List.map_cons, castPair]
      push_cast
      rfl

theorem toInt_nat {n : Nat} (h : n ≤ 2147483647) : toInt (n : Int) = n := toInt_id (by omega) (by omega)

theorem map_toInt {l : List Nat} (hl : ∀ n ∈ l, n ≤ 2147483647) : (l.map fun (n : Nat) => (n : Int)).map toInt = l.map fun (n : Nat) => (n : Int) := by
  induction l with
  | nil => rfl
  | cons a l ih => rw [List.map_cons, List.map_cons, ih (fun n hn => hl n (List.mem_cons_of_mem _ hn)), toInt_nat (hl a List.mem_cons_self)]

theorem uniqueEdgesM_eq {l : List Nat} (hl : ∀ n ∈ l, n ≤ 2147483647) : uniqueEdgesM (l.map fun (n : Nat) => (n : Int)) = (uniqueEdges l).bind fun u => takeRows (u.map castPair) := by
  have hle : ∀ a b, arrayLe (castPair a) (castPair b) = lexOrder.le a b := by intro a b; simp [arrayLe, lexOrder, castPair]
  have hinj : ∀ a b, castPair a = castPair b → a = b := by
    intro a b h
    simp only [castPair, Prod.mk.injEq] at h
    exact Prod.ext (by omega) (by omega)
  unfold uniqueEdgesM uniqueEdges
  rw [map_toInt hl, edgePairsM_map]
  generalize edgePairs l = p
  cases p with
  | none => rfl
  | some p =>
    rw [Option.map_some, Option.map_some, Option.bind_some, Option.bind_some, sortBy_map castPair hle, stdUnique_map hinj]

theorem takeRows_all {u : List (Int × Int)} (h : u.length < 1073741824) : takeRows u = some u := by
  have e : Int.tdiv (toInt (2 * (u.length : Int))) 2 = u.length := by
    rw [toInt_id (by omega) (by omega), Int.mul_tdiv_cancel_left _ (by decide)]
  unfold takeRows
  rw [e, if_neg (by omega), Int.toNat_natCast, List.take_length]

theorem takeRows_none {u : List (Int × Int)} (h1 : 1073741824 ≤ u.length) (h2 : u.length < 2147483648) : takeRows u = none := by
  have e : toInt (2 * (u.length : Int)) = -(2 * (2147483648 - (u.length : Int))) := by
    unfold toInt
    have : (2 * (u.length : Int) + 2147483648) % 4294967296 = 2 * (u.length : Int) + 2147483648 - 4294967296 := by omega
    omega
  have e2 : Int.tdiv (toInt (2 * (u.length : Int))) 2 = -(2147483648 - (u.length : Int)) := by
    rw [e, Int.neg_tdiv, Int.mul_tdiv_cancel_left _ (by decide)]
  unfold takeRows
  rw [e2, if_pos (by omega)]

/-- **C135** (5) With vertex numbers below 2^31 and less than 2^30 different edges `unique_edges` returns what it returns with unbounded numbers. -/
theorem C135_unique_edges {l : List Nat} (hl : ∀ n ∈ l, n ≤ 2147483647) (hu : ∀ u, uniqueEdges l = some u → u.length < 1073741824) :
    uniqueEdgesM (l.map fun (n : Nat) => (n : Int)) = (uniqueEdges l).map fun u => u.map fun e => ((e.1 : Int), (e.2 : Int)) := by
  rw [uniqueEdgesM_eq hl]
  cases e : uniqueEdges l with
  | none => rfl
  | some u =>
    have := hu u e
    rw [Option.bind_some, takeRows_all (by rw [List.length_map]; exact this), Option.map_some]
    rfl

/-- **C135** (6) With 2^30 different edges or more, but less than 2^31, the number of rows is negative and there is an exception. -/
theorem C135_many_edges {l : List Nat} (hl : ∀ n ∈ l, n ≤ 2147483647) {u : List (Nat × Nat)} (hu : uniqueEdges l = some u) (h1 : 1073741824 ≤ u.length) (h2 : u.length < 2147483648) :
    uniqueEdgesM (l.map fun (n : Nat) => (n : Int)) = none := by
  rw [uniqueEdgesM_eq hl, hu, Option.bind_some, takeRows_none (by rw [List.length_map]; exact h1) (by rw [List.length_map]; exact h2)]

/-- **C135** (7) Numbers from 2^31 on are changed: they become negative, and different vertices become the same. -/
theorem C135_edges_wrap : uniqueEdgesM [2147483648, 0] = some [(-2147483648, 0)] ∧ uniqueEdgesM [0, 1, 4294967296, 1] = some [(0, 1)] := by decide +kernel

section
variable {K : Type}

theorem some_bindM {α β : Type} (a : α) (f : α → Option β) : (some a >>= f) = f a := rfl
theorem none_bindM {α β : Type} (f : α → Option β) : ((none : Option α) >>= f) = none := rfl

/-- **C135** (8) Inserted points get the numbers of C75 exactly if the number of points afterwards is below 2^31. -/
theorem C135_numbers : ∀ (ps : List (K × K)) (start : Nat), start ≤ 2147483647 →
    (start + ps.length ≤ 2147483647 → numberFromM start ps = some ((numberFrom start ps).map fun x => (x.1, (x.2 : Int)))) ∧ (2147483647 < start + ps.length → numberFromM start ps = none) := by
  intro ps
  induction ps with
  | nil =>
    intro start hs
    refine ⟨fun _ => rfl, fun h => ?_⟩
    rw [List.length_nil] at h
    omega
  | cons p l ih =>
    intro start hs
    rw [List.length_cons]
    unfold numberFromM
    constructor
    · intro h
      have e : cadd (start : Int) 1 = some ((start + 1 : Nat) : Int) := by rw [cadd, cint_some (by omega) (by omega), Nat.cast_succ]
      rw [e, some_bindM, (ih (start + 1) (by omega)).1 (by omega), some_bindM]
      rfl
    · intro h
      by_cases h1 : start + 1 ≤ 2147483647
      · have e : cadd (start : Int) 1 = some ((start + 1 : Nat) : Int) := by rw [cadd, cint_some (by omega) (by omega), Nat.cast_succ]
        rw [e, some_bindM, (ih (start + 1) h1).2 (by omega), none_bindM]
      · rw [cadd, cint_none (by omega), none_bindM]

theorem vertexPlaces_spec : ∀ (n i : Nat), i ≤ 1073741824 →
    (i + n ≤ 1073741824 → vertexPlaces i n = some ((List.range' i n).map fun (k : Nat) => (2 * (k : Int), 2 * (k : Int) + 1))) ∧ (1073741824 < i + n → vertexPlaces i n = none) := by
  intro n
  induction n with
  | zero => exact fun i hi => ⟨fun _ => rfl, fun h => by omega⟩
  | succ n ih =>
    intro i hi
    unfold vertexPlaces
    by_cases h1 : i + 1 ≤ 1073741824
    · have e1 : cmul (i : Int) 2 = some (2 * (i : Int)) := by rw [cmul, cint_some (by omega) (by omega), Int.mul_comm]
      have e2 : cadd (2 * (i : Int)) 1 = some (2 * (i : Int) + 1) := cint_some (by omega) (by omega)
      have e3 : cadd (i : Int) 1 = some ((i + 1 : Nat) : Int) := by rw [cadd, cint_some (by omega) (by omega), Nat.cast_succ]
      rw [e1, some_bindM, e2, some_bindM, e3, some_bindM]
      constructor
      · intro h
        rw [(ih (i + 1) h1).1 (by omega), some_bindM, List.range'_succ]
        rfl
      · intro h
        rw [(ih (i + 1) h1).2 (by omega), none_bindM]
    · constructor
      · intro h; omega
      · intro h
        rw [cmul, cint_none (by omega), none_bindM]

/-- **C135** (9) The table of vertices is filled row by row exactly if there are at most 2^30 vertices. -/
theorem C135_vertices (n : Nat) : (n ≤ 1073741824 → vertexPlaces 0 n = some ((List.range n).map fun (k : Nat) => (2 * (k : Int), 2 * (k : Int) + 1))) ∧ (1073741824 < n → vertexPlaces 0 n = none) := by
  have := vertexPlaces_spec n 0 (by decide)
  rw [Nat.zero_add, Nat.cast_zero, ← List.range_eq_range'] at this
  exact this

theorem facePlaces_spec : ∀ (n i : Nat), i ≤ 715827882 →
    (i + n ≤ 715827882 → facePlaces i n = some ((List.range' i n).map fun (k : Nat) => (3 * (k : Int), 3 * (k : Int) + 1, 3 * (k : Int) + 2))) ∧ (715827882 < i + n → facePlaces i n = none) := by
  intro n
  induction n with
  | zero => exact fun i hi => ⟨fun _ => rfl, fun h => by omega⟩
  | succ n ih =>
    intro i hi
    unfold facePlaces
    have e1 : cmul (i : Int) 3 = some (3 * (i : Int)) := by rw [cmul, cint_some (by omega) (by omega), Int.mul_comm]
    have e2 : cadd (3 * (i : Int)) 1 = some (3 * (i : Int) + 1) := cint_some (by omega) (by omega)
    rw [e1, some_bindM, e2, some_bindM]
    by_cases h1 : i + 1 ≤ 715827882
    · have e4 : cadd (3 * (i : Int)) 2 = some (3 * (i : Int) + 2) := cint_some (by omega) (by omega)
      have e3 : cadd (i : Int) 1 = some ((i + 1 : Nat) : Int) := by rw [cadd, cint_some (by omega) (by omega), Nat.cast_succ]
      rw [e4, some_bindM, e3, some_bindM]
      constructor
      · intro h
        rw [(ih (i + 1) h1).1 (by omega), some_bindM, List.range'_succ]
        rfl
      · intro h
        rw [(ih (i + 1) h1).2 (by omega), none_bindM]
    · constructor
      · intro h; omega
      · intro h
        rw [cadd, cint_none (by omega), none_bindM]

/-- **C135** (10) The table of faces is filled row by row exactly if there are at most 715827882 faces. -/
theorem C135_faces (n : Nat) : (n ≤ 715827882 → facePlaces 0 n = some ((List.range n).map fun (k : Nat) => (3 * (k : Int), 3 * (k : Int) + 1, 3 * (k : Int) + 2))) ∧ (715827882 < n → facePlaces 0 n = none) := by
  have := facePlaces_spec n 0 (by decide)
  rw [Nat.zero_add, Nat.cast_zero, ← List.range_eq_range'] at this
  exact this

theorem neighbourPlaces_spec : ∀ (n i : Nat), i ≤ 715827883 →
    (i + n ≤ 715827883 → neighbourPlaces i n = some ((List.range' i n).map fun (k : Nat) => (3 * (k : Int), 3 * (k : Int) + 1, 3 * (k : Int) + 2))) ∧ (715827883 < i + n → neighbourPlaces i n = none) := by
  intro n
  induction n with
  | zero => exact fun i hi => ⟨fun _ => rfl, fun h => by omega⟩
  | succ n ih =>
    intro i hi
    unfold neighbourPlaces
    by_cases h1 : i + 1 ≤ 715827883
    · have e1 : cmul (i : Int) 3 = some (3 * (i : Int)) := by rw [cmul, cint_some (by omega) (by omega), Int.mul_comm]
      have e3 : cadd (i : Int) 1 = some ((i + 1 : Nat) : Int) := by rw [cadd, cint_some (by omega) (by omega), Nat.cast_succ]
      rw [e1, some_bindM, e3, some_bindM]
      constructor
      · intro h
        rw [(ih (i + 1) h1).1 (by omega), some_bindM, List.range'_succ]
        rfl
      · intro h
        rw [(ih (i + 1) h1).2 (by omega), none_bindM]
    · constructor
      · intro h; omega
      · intro h
        rw [cmul, cint_none (by omega), none_bindM]

/-- **C135** (11) The table of neighbours takes one more face, because the places in a row are added with 64 bits. -/
theorem C135_face_neighbours (n : Nat) : (n ≤ 715827883 → neighbourPlaces 0 n = some ((List.range n).map fun (k : Nat) => (3 * (k : Int), 3 * (k : Int) + 1, 3 * (k : Int) + 2))) ∧
    (715827883 < n → neighbourPlaces 0 n = none) := by
  have := neighbourPlaces_spec n 0 (by decide)
  rw [Nat.zero_add, Nat.cast_zero, ← List.range_eq_range'] at this
  exact this

end

/-- **C135** (12) So for every mesh with less than 2^31 vertices and less than 357913942 faces the bars are those of C74. -/
theorem C135_bars {t : List Tri} (hv : ∀ f ∈ t, f.a ≤ 2147483647 ∧ f.b ≤ 2147483647 ∧ f.c ≤ 2147483647) (ht : t.length < 357913942) :
    uniqueEdgesM (((t.map (fun f => (f.a, f.b)) ++ t.map (fun f => (f.b, f.c)) ++ t.map (fun f => (f.c, f.a))).flatMap fun e => [e.1, e.2]).map fun (n : Nat) => (n : Int)) =
      (getBars t).map fun u => u.map fun e => ((e.1 : Int), (e.2 : Int)) := by
  refine C135_unique_edges ?_ ?_
  · intro n hn
    simp only [List.mem_flatMap, List.mem_append, List.mem_map, List.mem_cons, List.not_mem_nil, or_false] at hn
    obtain ⟨e, he, hn⟩ := hn
    rcases he with (⟨f, hf, rfl⟩ | ⟨f, hf, rfl⟩) | ⟨f, hf, rfl⟩ <;> obtain ⟨h1, h2, h3⟩ := hv f hf <;> rcases hn with rfl | rfl <;> assumption
  · intro u hu
    rw [uniqueEdges, edgePairs_flat, Option.map_some, Option.some_inj] at hu
    subst hu
    have hlen : ∀ l : List (Nat × Nat), (stdUnique l).length ≤ l.length := by
      intro l
      induction l using stdUnique.induct with
      | case1 => exact le_rfl
      | case2 x => exact le_rfl
      | case3 x l ih => rw [stdUnique, if_pos rfl]; simp only [List.length_cons] at ih ⊢; omega
      | case4 x y l h ih => rw [stdUnique, if_neg h]; simp only [List.length_cons] at ih ⊢; omega
    refine lt_of_le_of_lt (hlen _) ?_
    rw [(sortBy_perm _ _).length_eq]
    simp only [List.length_map, List.length_append]
    omega

example : uniqueEdgesM [5, 2, 2, 5, 0, 2] = some [(0, 2), (2, 5)] := by
  have e : uniqueEdges [5, 2, 2, 5, 0, 2] = some [(0, 2), (2, 5)] := by decide
  have := C135_unique_edges (l := [5, 2, 2, 5, 0, 2]) (by decide) (by
    intro u hu
    rw [e, Option.some_inj] at hu
    subst hu
    decide)
  rw [e] at this
  exact this

example {l : List Nat} (hl : ∀ n ∈ l, n ≤ 2147483647) (u : List (Nat × Nat)) (hu : uniqueEdges l = some u) (hn : u.length = 1500000000) : uniqueEdgesM (l.map fun (n : Nat) => (n : Int)) = none :=
  C135_many_edges hl hu (by omega) (by omega)

example : numberFromM 3 [((0 : ℚ), (0 : ℚ)), (1, 1)] = some [((0, 0), 3), ((1, 1), 4)] := (C135_numbers [((0 : ℚ), (0 : ℚ)), (1, 1)] 3 (by decide)).1 (by decide)

example : facePlaces 0 715827883 = none ∧ ∃ l, neighbourPlaces 0 715827883 = some l ∧ vertexPlaces 0 2 = some [(0, 1), (2, 3)] :=
  ⟨(C135_faces _).2 (by decide), _, (C135_face_neighbours _).1 le_rfl, (C135_vertices 2).1 (by decide)⟩

example : uniqueEdgesM [0, 1, 1, 2, 2, 0] = some [(0, 1), (0, 2), (1, 2)] := (C135_bars (t := [⟨0, 1, 2⟩]) (by decide) (by decide)).trans (by decide)

end OM
