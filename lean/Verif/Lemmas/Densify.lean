import Verif.Lemmas.Polys
import Mathlib.Tactic.FieldSimp
/-!
# Lemmas on `_densify`
-/
set_option linter.unusedSectionVars false
namespace OM
open Spec

section
variable {K : Type} [Field K] [LinearOrder K] [IsStrictOrderedRing K] [FloorRing K]

/-- All rows the loop writes. -/
def fillRows : List (Option (K × K)) → List Nat → List (Option (K × K))
  | a :: b :: l, ni :: nin => segRows a b ni ++ fillRows (b :: l) nin
  | _, _ => []

theorem segRows_length (a b : Option (K × K)) (ni : Nat) : (segRows a b ni).length = ni + 1 := by
  unfold segRows
  split
  · rename_i h; simp [h]
  · cases a <;> cases b <;> simp

theorem writeAt_spec {α : Type} {buf rows : List α} {n : Nat} (h : n + rows.length ≤ buf.length) :
    writeAt buf n rows = some (buf.take n ++ rows ++ buf.drop (n + rows.length)) := by
  rw [writeAt, if_pos h]

theorem fillLoop_spec : ∀ (poly : List (Option (K × K))) (nin : List Nat) (buf : List (Option (K × K))) (n : Nat),
    nin.length + 1 = poly.length → buf.length = n + (nin.sum + poly.length) →
    ∃ z, fillLoop buf n poly nin = some (buf.take n ++ fillRows poly nin ++ [z])
  | [], nin, buf, n, h, _ => by simp at h
  | [r], nin, buf, n, h, hb => by
    have hn : nin = [] := by simpa using h
    subst hn
    simp only [List.sum_nil, List.length_cons, List.length_nil, Nat.zero_add] at hb
    have hlt : n < buf.length := by omega
    refine ⟨buf[n], ?_⟩
    have : buf = buf.take n ++ [buf[n]] := by
      conv_lhs => rw [← List.take_append_drop n buf, List.drop_eq_getElem_cons hlt]
      rw [List.drop_eq_nil_of_le (by omega)]
    simp only [fillLoop, fillRows, List.append_nil]
    exact congrArg some this
  | a :: b :: l, [], buf, n, h, _ => by simp at h
  | a :: b :: l, ni :: nin, buf, n, h, hb => by
    have hlen := segRows_length a b ni
    have hfit : n + (segRows a b ni).length ≤ buf.length := by
      rw [hlen, hb]; simp only [List.sum_cons, List.length_cons]; omega
    rw [fillLoop, writeAt_spec hfit]
    obtain ⟨z, hz⟩ := fillLoop_spec (b :: l) nin (buf.take n ++ segRows a b ni ++ buf.drop (n + (segRows a b ni).length))
      (n + ni + 1) (by simpa using h) (by
        simp only [List.length_append, List.length_take, List.length_drop, hlen]
        rw [hlen] at hfit
        simp only [List.sum_cons, List.length_cons] at hb ⊢
        omega)
    refine ⟨z, ?_⟩
    simp only
    rw [hz, List.take_append_of_le_length (by
      simp only [List.length_append, List.length_take, hlen]; rw [hlen] at hfit; omega)]
    rw [List.take_of_length_le (by
      simp only [List.length_append, List.length_take, hlen]; omega), fillRows]
    simp [List.append_assoc]

theorem segExtras_length (d : K) : ∀ (poly : List (Option (K × K))) (ins : List Bool), ins.length = poly.length → poly ≠ [] →
    (segExtras d poly ins).length + 1 = poly.length
  | [], _, _, h => absurd rfl h
  | [r], [m], _, _ => by simp [segExtras]
  | [r], [], h, _ => by simp at h
  | [r], _ :: _ :: _, h, _ => by simp at h
  | a :: b :: l, [], h, _ => by simp at h
  | a :: b :: l, [_], h, _ => by simp at h
  | a :: b :: l, _ :: mb :: ms, h, _ => by
    have := segExtras_length d (b :: l) (mb :: ms) (by simpa using h) (by simp)
    simp only [segExtras, List.length_cons] at this ⊢
    omega

/-! ## one segment -/

theorem le_ceil_sub {x d : K} (hd : 0 < d) (hx : 0 ≤ x) : x ≤ d * (((⌈x / d⌉ - 1).toNat : K) + 1) := by
  have h1 : x / d ≤ (((⌈x / d⌉ - 1).toNat : K) + 1) := by
    have h2 : x / d ≤ (⌈x / d⌉ : K) := Int.le_ceil _
    have h3 : (⌈x / d⌉ : Int) ≤ (((⌈x / d⌉ - 1).toNat : Int) + 1) := by omega
    have h4 : ((⌈x / d⌉ : Int) : K) ≤ ((((⌈x / d⌉ - 1).toNat : Int) + 1 : Int) : K) := by exact_mod_cast h3
    refine h2.trans (h4.trans (le_of_eq ?_))
    push_cast
    rfl
  have := mul_le_mul_of_nonneg_left h1 hd.le
  rwa [mul_div_cancel₀ _ hd.ne'] at this

theorem segExtra_bound {d : K} (hd : 0 < d) (a b : K × K) :
    |b.1 - a.1| ≤ d * ((segExtra d (some a) (some b) true : K) + 1) ∧
      |b.2 - a.2| ≤ d * ((segExtra d (some a) (some b) true : K) + 1) := by
  have h := le_ceil_sub (x := max |b.2 - a.2| |b.1 - a.1|) hd (le_max_of_le_left (abs_nonneg _))
  have e : segExtra d (some a) (some b) true = (⌈max |b.2 - a.2| |b.1 - a.1| / d⌉ - 1).toNat := by
    simp [segExtra]
  rw [e]
  exact ⟨(le_max_right _ _).trans h, (le_max_left _ _).trans h⟩

theorem rangePoint_zero (a b : K × K) (N : Nat) : rangePoint a b N 0 = a := by
  simp [rangePoint]

theorem rangePoint_end (a b : K × K) (ni : Nat) : rangePoint a b (ni + 2) (ni + 1) = b := by
  have h : ((ni : K) + 1) ≠ 0 := by positivity
  refine Prod.ext ?_ ?_
  all_goals
    simp only [rangePoint]
    push_cast
    rw [show ((ni : K) + 2 - 1) = (ni : K) + 1 by ring]
    field_simp
    ring

theorem rangePoint_on (a b : K × K) {ni k : Nat} (hk : k ≤ ni + 1) : OnSegment a b (rangePoint a b (ni + 2) k) := by
  have h : (0 : K) < (ni : K) + 1 := by positivity
  have hk' : (k : K) ≤ (ni : K) + 1 := by exact_mod_cast hk
  refine ⟨(k : K) / ((ni : K) + 1), div_nonneg (Nat.cast_nonneg k) h.le, (div_le_one h).2 hk', ?_, ?_⟩
  all_goals
    simp only [rangePoint]
    push_cast
    rw [show ((ni : K) + 2 - 1) = (ni : K) + 1 by ring]
    field_simp
    ring

theorem rangePoint_step {a b : K × K} {d : K} {ni : Nat} (h1 : |b.1 - a.1| ≤ d * ((ni : K) + 1))
    (h2 : |b.2 - a.2| ≤ d * ((ni : K) + 1)) (k : Nat) :
    |(rangePoint a b (ni + 2) (k + 1)).1 - (rangePoint a b (ni + 2) k).1| ≤ d ∧
      |(rangePoint a b (ni + 2) (k + 1)).2 - (rangePoint a b (ni + 2) k).2| ≤ d := by
  have h : (0 : K) < (ni : K) + 1 := by positivity
  have key : ∀ x y : K, |y - x| ≤ d * ((ni : K) + 1) →
      |(1 / (((ni + 2 : Nat) : K) - 1) * (y - x) * ((k + 1 : Nat) : K) + x) - (1 / (((ni + 2 : Nat) : K) - 1) * (y - x) * (k : K) + x)| ≤ d := by
    intro x y hxy
    have e : (1 / (((ni + 2 : Nat) : K) - 1) * (y - x) * ((k + 1 : Nat) : K) + x) - (1 / (((ni + 2 : Nat) : K) - 1) * (y - x) * (k : K) + x)
        = (y - x) / ((ni : K) + 1) := by
      push_cast
      rw [show ((ni : K) + 2 - 1) = (ni : K) + 1 by ring]
      field_simp
      ring
    rw [e, abs_div, abs_of_pos h, div_le_iff₀ h]
    exact hxy
  exact ⟨key _ _ h1, key _ _ h2⟩

theorem chain_range {α : Type} {R : α → α → Prop} (g : Nat → α) (h : ∀ k, R (g k) (g (k + 1))) :
    ∀ n, ((List.range n).map g).IsChain R := by
  intro n
  rw [List.isChain_map, List.isChain_iff_getElem]
  intro i hi
  simp only [List.getElem_range]
  exact h i

/-- The rows written for one segment, and the point after it. -/
theorem segRows_split {d : K} (hd : 0 < d) (a b : K × K) :
    ∃ mid : List (K × K), segRows (some a) (some b) (segExtra d (some a) (some b) true) = some a :: mid.map some ∧
      ((a :: mid ++ [b]).IsChain fun p q => |q.1 - p.1| ≤ d ∧ |q.2 - p.2| ≤ d) ∧ ∀ q ∈ mid, OnSegment a b q := by
  obtain ⟨h1, h2⟩ := segExtra_bound hd a b
  generalize segExtra d (some a) (some b) true = ni at h1 h2
  have hall : ((List.range (ni + 2)).map (rangePoint a b (ni + 2))).IsChain
      fun p q => |q.1 - p.1| ≤ d ∧ |q.2 - p.2| ≤ d := chain_range _ (fun k => rangePoint_step h1 h2 k) _
  refine ⟨(List.range ni).map fun k => rangePoint a b (ni + 2) (k + 1), ?_, ?_, ?_⟩
  · unfold segRows
    split
    · rename_i h; simp [h]
    · simp only
      rw [List.range_succ_eq_map, List.map_cons, rangePoint_zero, List.map_map, List.map_map]
      rfl
  · have e : (List.range (ni + 2)).map (rangePoint a b (ni + 2)) =
        a :: ((List.range ni).map fun k => rangePoint a b (ni + 2) (k + 1)) ++ [b] := by
      rw [List.range_succ, List.map_append, List.map_cons, List.map_nil, rangePoint_end, List.range_succ_eq_map, List.map_cons,
        rangePoint_zero, List.map_map]
      rfl
    rw [e] at hall
    exact hall
  · intro q hq
    obtain ⟨k, hk, rfl⟩ := List.mem_map.1 hq
    rw [List.mem_range] at hk
    exact rangePoint_on a b (by omega)

theorem fillRows_spec {d : K} (hd : 0 < d) : ∀ (poly : List (Option (K × K))) (ins : List Bool) (r : Option (K × K)),
    ins.length = poly.length → poly.getLast? = some r →
    Densified d poly ins (fillRows poly (segExtras d poly ins) ++ [r])
  | [], _, _, _, h => by simp at h
  | [x], [], _, h, _ => by simp at h
  | [x], _ :: _ :: _, _, h, _ => by simp at h
  | [x], [m], r, _, hr => by
    simp only [List.getLast?_singleton, Option.some.injEq] at hr
    subst hr
    exact Densified.last x m
  | a :: b :: l, [], _, h, _ => by simp at h
  | a :: b :: l, [_], _, h, _ => by simp at h
  | a :: b :: l, m :: mb :: ms, r, h, hr => by
    have ih := fillRows_spec hd (b :: l) (mb :: ms) r (by simpa using h) (by rw [← hr, List.getLast?_cons_cons])
    rw [segExtras, fillRows]
    by_cases hk : mb = false ∨ a = none ∨ b = none
    · have e : segExtra d a b mb = 0 := by
        unfold segExtra
        rcases hk with hk | hk | hk
        · rw [if_pos hk]
        · subst hk; split <;> rfl
        · subst hk; split
          · rfl
          · cases a <;> rfl
      have e2 : segRows a b (segExtra d a b mb) = [a] := by rw [e]; simp [segRows]
      rw [e2]
      exact Densified.keep a b l m mb ms _ hk ih
    · push Not at hk
      obtain ⟨k1, k2, k3⟩ := hk
      obtain ⟨a, rfl⟩ := Option.ne_none_iff_exists'.1 k2
      obtain ⟨b, rfl⟩ := Option.ne_none_iff_exists'.1 k3
      have k1 : mb = true := by simpa using k1
      subst k1
      obtain ⟨mid, e, hstep, hon⟩ := segRows_split hd a b
      rw [e, List.append_assoc]
      exact Densified.split a b mid l m ms _ hstep hon ih

/-- If nothing is to be inserted the rows are those of the array. -/
theorem fillRows_zero : ∀ (poly : List (Option (K × K))) (nin : List Nat) (r : Option (K × K)), nin.length + 1 = poly.length →
    poly.getLast? = some r → nin.sum = 0 → fillRows poly nin ++ [r] = poly
  | [], nin, _, h, _, _ => by simp at h
  | [x], nin, r, h, hr, _ => by
    simp only [List.getLast?_singleton, Option.some.injEq] at hr
    simp [fillRows, hr]
  | a :: b :: l, [], _, h, _, _ => by simp at h
  | a :: b :: l, ni :: nin, r, h, hr, hs => by
    rw [List.sum_cons, Nat.add_eq_zero_iff] at hs
    have ih := fillRows_zero (b :: l) nin r (by simpa using h) (by rw [← hr, List.getLast?_cons_cons]) hs.2
    rw [fillRows, hs.1, List.append_assoc, ih]
    simp [segRows]

theorem densify_spec {d : K} (hd : 0 < d) {poly : List (Option (K × K))} {ins : List Bool} (hlen : ins.length = poly.length)
    (hne : poly ≠ []) : ∃ out, densify d poly ins = some out ∧ Densified d poly ins out := by
  obtain ⟨r, hr⟩ : ∃ r, poly.getLast? = some r := ⟨_, List.getLast?_eq_some_getLast hne⟩
  have hn := segExtras_length d poly ins hlen hne
  refine ⟨_, ?_, fillRows_spec hd poly ins r hlen hr⟩
  unfold densify
  simp only
  split
  · rename_i h0
    rw [fillRows_zero poly _ r hn hr h0]
  · obtain ⟨z, hz⟩ := fillLoop_spec poly (segExtras d poly ins)
      (List.replicate ((segExtras d poly ins).sum + poly.length) none) 0 hn (by simp)
    rw [hz, hr]
    simp only
    rw [writeAt_spec (by simp)]
    simp

theorem Spec.Densified.sublist {d : K} {poly out : List (Option (K × K))} {ins : List Bool} (h : Densified d poly ins out) :
    poly.Sublist out := by
  induction h with
  | last r m => exact List.Sublist.refl _
  | keep a b l m mb ms out h rest ih => exact ih.cons_cons a
  | split a b mid l m ms out hstep hon rest ih =>
    rw [List.cons_append]
    exact (ih.trans (List.sublist_append_right _ _)).cons_cons (some a)

end

end OM
