import Verif.Model.Export
import Verif.Spec.Fort14
import Mathlib.Algebra.Order.Floor.Ring
import Mathlib.Tactic.Ring
import Mathlib.Tactic.Linarith
import Mathlib.Tactic.FieldSimp
import Mathlib.Tactic.NormNum
/-! Lemmas about formatted numbers and lines. -/
namespace OM
open Spec
set_option linter.unusedSectionVars false

theorem fields_append (sep : Char) (a b : List Char) (h : sep ∉ a) : fields sep (a ++ sep :: b) = a :: fields sep b := by
  induction a with
  | nil => simp [fields]
  | cons c a ih =>
    have h1 : c ≠ sep := fun e => h (by simp [e])
    have h2 : sep ∉ a := fun hm => h (List.mem_cons_of_mem _ hm)
    rw [List.cons_append, fields, if_neg h1, ih h2]

theorem fields_self (sep : Char) (a : List Char) (h : sep ∉ a) : fields sep a = [a] := by
  induction a with
  | nil => simp [fields]
  | cons c a ih =>
    have h1 : c ≠ sep := fun e => h (by simp [e])
    have h2 : sep ∉ a := fun hm => h (List.mem_cons_of_mem _ hm)
    rw [fields, if_neg h1, ih h2]

/-- A word that is not empty and has no blank. -/
def IsWord (w : List Char) : Prop := w ≠ [] ∧ ' ' ∉ w

theorem words_cons (w l : List Char) (h : IsWord w) : words (w ++ ' ' :: l) = w :: words l := by
  unfold words
  rw [fields_append ' ' w l h.2, List.filter_cons_of_pos (by simpa using h.1)]

theorem words_blank (l : List Char) : words (' ' :: l) = words l := by
  unfold words
  rw [fields, if_pos rfl, List.filter_cons_of_neg (by simp)]

theorem words_single (w : List Char) (h : IsWord w) : words w = [w] := by
  unfold words
  rw [fields_self ' ' w h.2, List.filter_cons_of_pos (by simpa using h.1)]
  rfl

theorem digits_all (n : Nat) : ∀ c ∈ Nat.toDigits 10 n, c.isDigit = true := by
  intro c hc
  exact Nat.isDigit_of_mem_toDigits (by norm_num) (by norm_num) hc

theorem digits_ne_nil (n : Nat) : Nat.toDigits 10 n ≠ [] := by
  have : 0 < (Nat.toDigits 10 n).length := Nat.length_toDigits_pos
  exact List.ne_nil_of_length_pos this

theorem readNat_digits (n : Nat) : readNat (Nat.toDigits 10 n) = some n := by
  unfold readNat
  rw [if_pos ⟨digits_ne_nil n, List.all_eq_true.2 (digits_all n)⟩, Nat.ofDigitChars_ten_toDigits]

theorem not_mem_of_digits {l : List Char} (h : ∀ c ∈ l, c.isDigit = true) {c : Char} (hc : c.isDigit = false) : c ∉ l := by
  intro hm
  rw [h c hm] at hc
  exact absurd hc (by simp)

theorem readInt_format (n : Int) : readInt (formatI n) = some n := by
  unfold formatI
  by_cases h : n < 0
  · rw [if_pos h]
    simp only [List.cons_append, List.nil_append, readInt, readNat_digits]
    exact congrArg some (by dsimp only; omega)
  · rw [if_neg h, List.nil_append]
    have hd : '-' ∉ Nat.toDigits 10 n.natAbs := not_mem_of_digits (digits_all _) (by decide)
    unfold readInt
    split
    · rename_i l hl
      rw [hl] at hd; simp at hd
    · rw [readNat_digits]
      exact congrArg some (by dsimp only; omega)

theorem readNat_format (n : Nat) : readNat (formatI (n : Int)) = some n := by
  unfold formatI
  rw [if_neg (by omega), List.nil_append, Int.natAbs_natCast, readNat_digits]

theorem formatI_chars (n : Int) : ∀ c ∈ formatI n, c.isDigit = true ∨ c = '-' := by
  intro c hc
  unfold formatI at hc
  rw [List.mem_append] at hc
  rcases hc with hc | hc
  · split at hc
    · simp at hc; exact .inr hc
    · simp at hc
  · exact .inl (digits_all _ c hc)

theorem formatI_word (n : Int) : IsWord (formatI n) := by
  constructor
  · unfold formatI
    intro h
    have := (List.append_eq_nil_iff.1 h).2
    exact digits_ne_nil _ this
  · intro h
    rcases formatI_chars n ' ' h with h | h
    · exact absurd h (by decide)
    · exact absurd h (by decide)

theorem formatI_newline (n : Int) : '\n' ∉ formatI n := by
  intro h
  rcases formatI_chars n '\n' h with h | h
  · exact absurd h (by decide)
  · exact absurd h (by decide)

theorem sixDigits_all (n : Nat) : ∀ c ∈ sixDigits n, c.isDigit = true := by
  intro c hc
  unfold sixDigits at hc
  rw [List.mem_append] at hc
  rcases hc with hc | hc
  · rw [List.eq_of_mem_replicate hc]; decide
  · exact digits_all _ c hc

theorem sixDigits_length (n : Nat) (h : n < 10 ^ 6) : (sixDigits n).length = 6 := by
  unfold sixDigits
  have := (Nat.length_toDigits_le_iff (b := 10) (k := 6) (n := n) (by norm_num) (by norm_num)).2 h
  simp only [List.length_append, List.length_replicate]
  omega

theorem sixDigits_value (n : Nat) : Nat.ofDigitChars 10 (sixDigits n) 0 = n := by
  unfold sixDigits
  rw [Nat.ofDigitChars_append, Nat.ofDigitChars_replicate_zero, Nat.mul_zero, Nat.ofDigitChars_ten_toDigits]

section
variable {K : Type} [Field K] [LinearOrder K] [IsStrictOrderedRing K] [FloorRing K]

theorem roundEven_near (x : K) : |(roundEven x : K) - x| ≤ 1 / 2 := by
  have h1 : (⌊x⌋ : K) ≤ x := Int.floor_le x
  have h2 : x < ⌊x⌋ + 1 := Int.lt_floor_add_one x
  unfold roundEven
  dsimp only
  split
  · rw [abs_le]; constructor <;> linarith
  · split
    · push_cast; rw [abs_le]; constructor <;> linarith
    · split
      · rw [abs_le]; constructor <;> linarith
      · push_cast; rw [abs_le]; constructor <;> linarith

theorem roundEven_int (n : Int) : roundEven (n : K) = n := by
  unfold roundEven
  simp

theorem roundEven_nonneg {x : K} (h : 0 ≤ x) : 0 ≤ roundEven x := by
  have h0 : 0 ≤ ⌊x⌋ := Int.floor_nonneg.2 h
  unfold roundEven
  dsimp only
  split
  · exact h0
  · split
    · omega
    · split <;> omega

/-- The number that the six decimals stand for. -/
def fixedValue (x : K) : K := (if x < 0 then -1 else 1) * ((roundEven (|x| * 10 ^ 6) : K) / 10 ^ 6)

theorem fixedValue_near (x : K) : Near6 (fixedValue x) x := by
  unfold Near6 fixedValue
  have h := roundEven_near (|x| * 10 ^ 6)
  have h6 : (0 : K) < 10 ^ 6 := by positivity
  have key : |(roundEven (|x| * 10 ^ 6) : K) / 10 ^ 6 - (|x|)| ≤ 1 / (2 * 10 ^ 6) := by
    have e : (roundEven (|x| * 10 ^ 6) : K) / 10 ^ 6 - |x| = ((roundEven (|x| * 10 ^ 6) : K) - |x| * 10 ^ 6) / 10 ^ 6 := by
      field_simp
    rw [e, abs_div, abs_of_pos h6, div_le_iff₀ h6]
    refine h.trans (le_of_eq ?_)
    field_simp
  by_cases hx : x < 0
  · rw [if_pos hx]
    rw [abs_of_neg hx] at key ⊢
    rw [show -1 * ((roundEven (-x * 10 ^ 6) : K) / 10 ^ 6) - x = -((roundEven (-x * 10 ^ 6) : K) / 10 ^ 6 - -x) by ring, abs_neg]
    exact key
  · rw [if_neg hx, one_mul]
    rw [abs_of_nonneg (not_lt.1 hx)] at key ⊢
    exact key

theorem fixedValue_exact {x : K} (h : SixDecimals x) : fixedValue x = x := by
  obtain ⟨n, hn⟩ := h
  have h6 : (10 : K) ^ 6 ≠ 0 := by positivity
  have e : |x| * 10 ^ 6 = ((|n| : Int) : K) := by
    rw [hn, abs_div, abs_of_pos (show (0 : K) < 10 ^ 6 by positivity), div_mul_cancel₀ _ h6, Int.cast_abs]
  unfold fixedValue
  rw [e, roundEven_int, ← e, mul_div_cancel_right₀ _ h6]
  by_cases hx : x < 0
  · rw [if_pos hx, abs_of_neg hx]; ring
  · rw [if_neg hx, abs_of_nonneg (not_lt.1 hx)]; ring

theorem readFixed_format (x : K) : readFixed (formatF x) = some (fixedValue x) := by
  have hr : 0 ≤ roundEven (|x| * 10 ^ 6) := roundEven_nonneg (mul_nonneg (abs_nonneg x) (by positivity))
  obtain ⟨n, hn⟩ := Int.eq_ofNat_of_zero_le hr
  have habs : readFixedAbs (Nat.toDigits 10 (n / 10 ^ 6) ++ '.' :: sixDigits (n % 10 ^ 6)) = some ((n : K) / 10 ^ 6) := by
    unfold readFixedAbs
    rw [fields_append '.' _ _ (not_mem_of_digits (digits_all _) (by decide)),
      fields_self '.' _ (not_mem_of_digits (sixDigits_all _) (by decide))]
    have hlen := sixDigits_length (n % 10 ^ 6) (Nat.mod_lt _ (by norm_num))
    have h2 : readNat (sixDigits (n % 10 ^ 6)) = some (n % 10 ^ 6) := by
      unfold readNat
      rw [if_pos ⟨List.ne_nil_of_length_pos (by omega), List.all_eq_true.2 (sixDigits_all _)⟩, sixDigits_value]
    simp only [readNat_digits, h2, hlen, Option.some.injEq]
    have h6 : (10 : K) ^ 6 ≠ 0 := by positivity
    have : ((10 ^ 6 : Nat) : K) * ((n / 10 ^ 6 : Nat) : K) + ((n % 10 ^ 6 : Nat) : K) = n := by
      exact_mod_cast Nat.div_add_mod n (10 ^ 6)
    rw [eq_div_iff h6, ← this]
    push_cast
    field_simp
    ring
  unfold formatF
  simp only [hn, Int.ofNat_eq_natCast, Int.toNat_natCast]
  unfold fixedValue
  rw [hn]
  by_cases hx : x < 0
  · rw [if_pos hx, if_pos hx]
    simp only [List.cons_append, List.nil_append, readFixed, habs, Option.map_some, Option.some.injEq]
    push_cast
    ring
  · rw [if_neg hx, if_neg hx, List.nil_append]
    have hd : ∀ l : List Char, Nat.toDigits 10 (n / 10 ^ 6) ++ '.' :: sixDigits (n % 10 ^ 6) ≠ '-' :: l := by
      intro l h
      have hne := digits_ne_nil (n / 10 ^ 6)
      obtain ⟨c, cs, hc⟩ := List.exists_cons_of_ne_nil hne
      rw [hc, List.cons_append, List.cons.injEq] at h
      have := digits_all (n / 10 ^ 6) c (by rw [hc]; simp)
      rw [h.1] at this
      exact absurd this (by decide)
    unfold readFixed
    split
    · rename_i l hl
      exact absurd hl (hd l)
    · rw [habs]
      push_cast
      ring_nf

theorem formatF_chars (x : K) : ∀ c ∈ formatF x, c.isDigit = true ∨ c = '-' ∨ c = '.' := by
  intro c hc
  unfold formatF at hc
  simp only [List.mem_append, List.mem_cons] at hc
  rcases hc with (hc | hc) | hc | hc
  · split at hc
    · simp at hc; exact .inr (.inl hc)
    · simp at hc
  · exact .inl (digits_all _ c hc)
  · exact .inr (.inr hc)
  · exact .inl (sixDigits_all _ c hc)

theorem formatF_word (x : K) : IsWord (formatF x) := by
  constructor
  · unfold formatF
    simp
  · intro h
    rcases formatF_chars x ' ' h with h | h | h <;> exact absurd h (by decide)

theorem formatF_newline (x : K) : '\n' ∉ formatF x := by
  intro h
  rcases formatF_chars x '\n' h with h | h | h <;> exact absurd h (by decide)
end

end OM
