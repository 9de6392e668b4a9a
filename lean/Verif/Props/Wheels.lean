import Verif.Model.Wheels
/-!
# C127: the check of built packages
-/
namespace OM
namespace Spec

/-- `v` is smaller than or equal to `w` as a version of two numbers. -/
def VersionLe (v w : Nat × Nat) : Prop := v.1 < w.1 ∨ (v.1 = w.1 ∧ v.2 ≤ w.2)

/-- The text names the version `v` of the C library. -/
def NamesGlibc (s : List Char) (v : Nat × Nat) : Prop :=
  ∃ before a b after, s = before ++ ("GLIBC_".toList ++ (a ++ '.' :: (b ++ after))) ∧ a ≠ [] ∧ b ≠ [] ∧ (∀ c ∈ a, c.isDigit = true) ∧
    (∀ c ∈ b, c.isDigit = true) ∧ (∀ c, after.head? = some c → c.isDigit = false) ∧ v = (Nat.ofDigitChars 10 a 0, Nat.ofDigitChars 10 b 0)

/-- The archive has a shared library with the text in its name. -/
def HasLibrary (needle : List Char) (w : Wheel) : Prop :=
  ∃ ms, w.members = some ms ∧ ∃ m ∈ ms, (∃ a b, m = a ++ needle ++ b) ∧ ∃ a b, m = a ++ ".so".toList ++ b

/-- The file name contains the text. -/
def NameHas (w : Wheel) (t : String) : Prop := ∃ a b, w.name = a ++ t.toList ++ b

/-- A wheel that must be checked. -/
def LinuxWheel (w : Wheel) : Prop := NameHas w "linux" ∧ NameHas w "x86_64" ∧ ¬ NameHas w "musllinux"

/-- A wheel that can be published. -/
structure GoodWheel (allowed : Nat × Nat) (w : Wheel) : Prop where
  tag : NameHas w "manylinux"
  glibc : ∃ out, w.audit = some out ∧ ∀ v, NamesGlibc out v → VersionLe v allowed
  gmp : HasLibrary "libgmp".toList w
  mpfr : HasLibrary "libmpfr".toList w

end Spec
open Spec

theorem pairLt_iff {a b : Nat × Nat} : pairLt a b = true ↔ ¬ VersionLe b a := by
  simp only [pairLt, VersionLe, decide_eq_true_eq]; omega

theorem versionLe_trans {a b c : Nat × Nat} (h : VersionLe a b) (h' : VersionLe b c) : VersionLe a c := by
  simp only [VersionLe] at *; omega

theorem versionLe_total {a b : Nat × Nat} : ¬ VersionLe a b → VersionLe b a := by
  simp only [VersionLe]; omega

theorem foldl_versions (l : List (Nat × Nat)) (v : Nat × Nat) :
    let r := l.foldl (fun m x => if pairLt m x then x else m) v
    r ∈ v :: l ∧ ∀ x ∈ v :: l, VersionLe x r := by
  induction l generalizing v with
  | nil => simp [VersionLe]
  | cons y l ih =>
    simp only [List.foldl_cons]
    obtain ⟨h1, h2⟩ := ih (if pairLt v y then y else v)
    by_cases hlt : pairLt v y = true
    · rw [if_pos hlt] at h1 h2 ⊢
      refine ⟨List.mem_cons_of_mem _ h1, fun x hx => ?_⟩
      rcases List.mem_cons.1 hx with rfl | hx
      · exact versionLe_trans (versionLe_total (pairLt_iff.1 hlt)) (h2 y List.mem_cons_self)
      · exact h2 x hx
    · rw [if_neg hlt] at h1 h2 ⊢
      have hle : VersionLe y v := by by_contra h; exact hlt (pairLt_iff.2 h)
      refine ⟨?_, fun x hx => ?_⟩
      · rcases List.mem_cons.1 h1 with h | h
        · rw [h]; simp
        · exact List.mem_cons_of_mem _ (List.mem_cons_of_mem _ h)
      · rcases List.mem_cons.1 hx with rfl | hx
        · exact h2 _ List.mem_cons_self
        · rcases List.mem_cons.1 hx with rfl | hx
          · exact versionLe_trans hle (h2 _ List.mem_cons_self)
          · exact h2 x (List.mem_cons_of_mem _ hx)

theorem takeWhile_digits {a : List Char} (ha : ∀ c ∈ a, c.isDigit = true) {u : List Char} (hu : ∀ c, u.head? = some c → c.isDigit = false) :
    (a ++ u).takeWhile Char.isDigit = a ∧ (a ++ u).dropWhile Char.isDigit = u := by
  induction a with
  | nil =>
    cases u with
    | nil => simp
    | cons c u => have := hu c rfl; simp [this]
  | cons x a ih =>
    have hx := ha x List.mem_cons_self
    obtain ⟨h1, h2⟩ := ih fun c hc => ha c (List.mem_cons_of_mem _ hc)
    simp [hx, h1, h2]

theorem mem_takeWhile_digits {u : List Char} {c : Char} (h : c ∈ u.takeWhile Char.isDigit) : c.isDigit = true := by
  induction u with
  | nil => simp at h
  | cons x u ih =>
    by_cases hx : x.isDigit = true
    · simp only [List.takeWhile_cons, hx, if_true, List.mem_cons] at h
      rcases h with rfl | h
      · exact hx
      · exact ih h
    · simp [List.takeWhile_cons, hx] at h

theorem dropWhile_head {u : List Char} : ∀ c, (u.dropWhile Char.isDigit).head? = some c → c.isDigit = false := by
  induction u with
  | nil => simp
  | cons x u ih =>
    intro c hc
    by_cases hx : x.isDigit = true
    · simp only [List.dropWhile_cons, hx, if_true] at hc
      exact ih c hc
    · simp only [List.dropWhile_cons, hx, if_false, List.head?_cons, Option.some.injEq, Bool.false_eq_true] at hc
      rw [← hc]; simpa using hx

/-- The match at the beginning, both ways. -/
theorem matchGlibc_iff {s rest : List Char} {v : Nat × Nat} : matchGlibc s = some (v, rest) ↔
    ∃ a b, s = "GLIBC_".toList ++ (a ++ '.' :: (b ++ rest)) ∧ a ≠ [] ∧ b ≠ [] ∧ (∀ c ∈ a, c.isDigit = true) ∧
    (∀ c ∈ b, c.isDigit = true) ∧ (∀ c, rest.head? = some c → c.isDigit = false) ∧ v = (Nat.ofDigitChars 10 a 0, Nat.ofDigitChars 10 b 0) := by
  constructor
  · intro h
    unfold matchGlibc at h
    split at h
    case isFalse => simp at h
    rename_i hp
    obtain ⟨r, rfl⟩ := hp
    have hd : ("GLIBC_".toList ++ r).drop 6 = r := by simp [List.drop_append]
    simp only [hd] at h
    split at h
    case h_2 => simp at h
    rename_i u hu
    split at h
    case isFalse => simp at h
    rename_i hab
    simp only [Option.some.injEq, Prod.mk.injEq] at h
    obtain ⟨rfl, rfl⟩ := h
    refine ⟨_, _, ?_, hab.1, hab.2, fun c hc => mem_takeWhile_digits hc, fun c hc => mem_takeWhile_digits hc, dropWhile_head, rfl⟩
    rw [List.takeWhile_append_dropWhile, ← hu, List.takeWhile_append_dropWhile]
  · rintro ⟨a, b, rfl, ha, hb, hda, hdb, hr, rfl⟩
    unfold matchGlibc
    rw [if_pos (List.prefix_append _ _)]
    have hd : ("GLIBC_".toList ++ (a ++ '.' :: (b ++ rest))).drop 6 = a ++ '.' :: (b ++ rest) := by simp [List.drop_append]
    obtain ⟨t1, t2⟩ := takeWhile_digits hda (u := '.' :: (b ++ rest)) (by intro c hc; simp at hc; subst hc; decide)
    obtain ⟨t3, t4⟩ := takeWhile_digits hdb hr
    simp only [hd, t1, t2, t3, t4, ha, hb, ne_eq, not_false_eq_true, and_self, if_true]

theorem matchGlibc_length {s rest : List Char} {v : Nat × Nat} (h : matchGlibc s = some (v, rest)) : rest.length < s.length := by
  obtain ⟨a, b, rfl, -⟩ := matchGlibc_iff.1 h
  simp; omega

/-- A name that starts with `G` cannot start within a match after its first character. -/
theorem namesGlibc_after {a b rest : List Char} (hda : ∀ c ∈ a, c.isDigit = true) (hdb : ∀ c ∈ b, c.isDigit = true) {v : Nat × Nat} {c : Char} {s : List Char}
    (hs : c :: s = "GLIBC_".toList ++ (a ++ '.' :: (b ++ rest))) : NamesGlibc s v ↔ NamesGlibc rest v := by
  constructor
  · rintro ⟨p, a', b', after, rfl, h⟩
    have hlen : (c :: p).length ≥ (("GLIBC_".toList ++ (a ++ '.' :: b)).length) := by
      by_contra hlt
      push Not at hlt
      have hG : (c :: (p ++ ("GLIBC_".toList ++ (a' ++ '.' :: (b' ++ after)))))[(c :: p).length]? = some 'G' := by
        rw [← List.cons_append, List.getElem?_append_right (le_refl _), Nat.sub_self]; rfl
      rw [hs] at hG
      have e : "GLIBC_".toList ++ (a ++ '.' :: (b ++ rest)) = ("GLIBC_".toList ++ (a ++ '.' :: b)) ++ rest := by simp
      rw [e, List.getElem?_append_left hlt] at hG
      have hG' : ("LIBC_".toList ++ (a ++ '.' :: b))[p.length]? = some 'G' := by
        have : "GLIBC_".toList ++ (a ++ '.' :: b) = 'G' :: ("LIBC_".toList ++ (a ++ '.' :: b)) := rfl
        rw [this, List.length_cons, List.getElem?_cons_succ] at hG
        exact hG
      have hmem := List.mem_of_getElem? hG'
      rcases List.mem_append.1 hmem with hm | hm
      · revert hm; decide
      · rcases List.mem_append.1 hm with hm | hm
        · have := hda _ hm; revert this; decide
        · rcases List.mem_cons.1 hm with hm | hm
          · revert hm; decide
          · have := hdb _ hm; revert this; decide
    have e : (c :: p) ++ ("GLIBC_".toList ++ (a' ++ '.' :: (b' ++ after))) = ("GLIBC_".toList ++ (a ++ '.' :: b)) ++ rest := by
      rw [List.cons_append, hs]; simp
    obtain ⟨q, hq⟩ : ∃ q, c :: p = ("GLIBC_".toList ++ (a ++ '.' :: b)) ++ q := by
      have := List.append_eq_append_iff.1 e
      rcases this with ⟨x, hx, hx'⟩ | ⟨x, hx, hx'⟩
      · have hl := congrArg List.length hx
        have hl' : ("GLIBC_".toList ++ (a ++ '.' :: b)).length = (c :: p).length + x.length := by rw [hl, List.length_append]
        have : x = [] := List.eq_nil_of_length_eq_zero (by omega)
        subst this
        exact ⟨[], by simpa using hx.symm⟩
      · exact ⟨x, hx⟩
    rw [hq, List.append_assoc] at e
    exact ⟨q, a', b', after, (List.append_cancel_left e).symm, h⟩
  · rintro ⟨p, a', b', after, rfl, h⟩
    refine ⟨("LIBC_".toList ++ (a ++ '.' :: b)) ++ p, a', b', after, ?_, h⟩
    have : "GLIBC_".toList ++ (a ++ '.' :: (b ++ (p ++ ("GLIBC_".toList ++ (a' ++ '.' :: (b' ++ after)))))) =
        'G' :: (("LIBC_".toList ++ (a ++ '.' :: b)) ++ p ++ ("GLIBC_".toList ++ (a' ++ '.' :: (b' ++ after)))) := by
      simp
    rw [this] at hs
    exact (List.cons.inj hs).2

theorem namesGlibc_cons {c : Char} {s : List Char} {v : Nat × Nat} : NamesGlibc (c :: s) v ↔ (∃ rest, matchGlibc (c :: s) = some (v, rest)) ∨ NamesGlibc s v := by
  constructor
  · rintro ⟨p, a, b, after, hs, h⟩
    cases p with
    | nil => exact Or.inl ⟨after, matchGlibc_iff.2 ⟨a, b, hs, h⟩⟩
    | cons x p => exact Or.inr ⟨p, a, b, after, (List.cons.inj hs).2, h⟩
  · rintro (⟨rest, h⟩ | ⟨p, a, b, after, rfl, h⟩)
    · obtain ⟨a, b, hs, h⟩ := matchGlibc_iff.1 h
      exact ⟨[], a, b, rest, hs, h⟩
    · exact ⟨c :: p, a, b, after, rfl, h⟩

theorem findGlibc_mem {v : Nat × Nat} : ∀ (n : Nat) (s : List Char), s.length ≤ n → (v ∈ findGlibc n s ↔ NamesGlibc s v) := by
  intro n
  induction n with
  | zero =>
    intro s hs
    obtain rfl : s = [] := List.eq_nil_of_length_eq_zero (by omega)
    simp only [findGlibc, List.not_mem_nil, false_iff]
    rintro ⟨p, a, b, after, h, -⟩
    simp at h
  | succ n ih =>
    intro s hs
    cases s with
    | nil =>
      simp only [findGlibc, List.not_mem_nil, false_iff]
      rintro ⟨p, a, b, after, h, -⟩
      simp at h
    | cons c s =>
      rw [findGlibc]
      cases hm : matchGlibc (c :: s) with
      | none => rw [namesGlibc_cons, hm]; simp [ih s (by simpa using hs)]
      | some w =>
        obtain ⟨u, rest⟩ := w
        have hl := matchGlibc_length hm
        obtain ⟨a, b, hs', ha, hb, hda, hdb, -⟩ := matchGlibc_iff.1 hm
        simp only [List.mem_cons, ih rest (by simp at hl hs; omega), namesGlibc_cons, hm, Option.some.injEq, Prod.mk.injEq, exists_and_left, exists_eq',
          and_true, namesGlibc_after hda hdb hs']
        exact or_congr_left eq_comm

/-- **C127** the version found in the output is the largest of all versions named there. -/
theorem C127_versions (s : List Char) :
    (parseGlibc s = none ↔ ∀ v, ¬ NamesGlibc s v) ∧ ∀ v, parseGlibc s = some v ↔ NamesGlibc s v ∧ ∀ w, NamesGlibc s w → VersionLe w v := by
  have hm := fun v => findGlibc_mem (v := v) s.length s (le_refl _)
  unfold parseGlibc
  cases hf : findGlibc s.length s with
  | nil =>
    rw [hf] at hm
    have hno : ∀ v, ¬ NamesGlibc s v := fun v h => by simpa using (hm v).2 h
    exact ⟨by simpa using hno, fun v => by simp [hno v]⟩
  | cons x l =>
    rw [hf] at hm
    obtain ⟨h1, h2⟩ := foldl_versions l x
    refine ⟨by simpa using ⟨x.1, x.2, (hm x).1 List.mem_cons_self⟩, fun v => ?_⟩
    simp only [Option.some.injEq]
    constructor
    · rintro rfl
      exact ⟨(hm _).1 h1, fun w hw => h2 w ((hm w).2 hw)⟩
    · rintro ⟨h3, h4⟩
      have a := h2 v ((hm v).2 h3)
      have b := h4 _ ((hm _).1 h1)
      simp only [VersionLe] at a b
      ext <;> omega

theorem nameHas_iff {w : Wheel} {t : String} : decide (t.toList <:+: w.name) = true ↔ NameHas w t := by
  rw [decide_eq_true_eq]
  exact ⟨fun ⟨a, b, h⟩ => ⟨a, b, h.symm⟩, fun ⟨a, b, h⟩ => ⟨a, b, h.symm⟩⟩

theorem isLinuxWheel_iff {w : Wheel} : isLinuxWheel w = true ↔ LinuxWheel w := by
  simp only [isLinuxWheel, Bool.and_eq_true, nameHas_iff, LinuxWheel, Bool.not_eq_true', ← Bool.not_eq_true, and_assoc]

theorem containsLib_iff {needle : List Char} {w : Wheel} {ms : List (List Char)} (h : w.members = some ms) :
    containsLib needle ms = true ↔ HasLibrary needle w := by
  simp only [containsLib, List.any_eq_true, Bool.and_eq_true, decide_eq_true_eq, HasLibrary, h, Option.some.injEq, exists_eq_left']
  refine exists_congr fun m => and_congr_right fun _ => and_congr ?_ ?_ <;>
    exact ⟨fun ⟨a, b, h⟩ => ⟨a, b, h.symm⟩, fun ⟨a, b, h⟩ => ⟨a, b, h.symm⟩⟩

theorem checkWheel_good {allowed : Nat × Nat} {w : Wheel} : checkWheel allowed w = some false ↔ GoodWheel allowed w := by
  unfold checkWheel
  cases ho : w.audit with
  | none =>
    simp only [Option.bind_eq_bind, Option.bind_none, reduceCtorEq, false_iff]
    rintro ⟨-, ⟨out, h, -⟩, -, -⟩
    simp [ho] at h
  | some out =>
    cases hms : w.members with
    | none =>
      simp only [Option.bind_eq_bind, Option.bind_some, Option.bind_none, reduceCtorEq, false_iff]
      rintro ⟨-, -, ⟨ms, h, -⟩, -⟩
      simp [hms] at h
    | some ms =>
      simp only [Option.bind_eq_bind, Option.bind_some, Option.pure_def, Option.some.injEq, Bool.or_eq_false_iff, Bool.not_eq_false',
        Bool.and_eq_false_iff, nameHas_iff, containsLib_iff hms]
      have hg : tooNew allowed out = false ↔ ∀ v, NamesGlibc out v → VersionLe v allowed := by
        unfold tooNew
        obtain ⟨h1, h2⟩ := C127_versions out
        cases hp : parseGlibc out with
        | none => simpa using fun a b h => absurd h (h1.1 hp (a, b))
        | some v =>
          obtain ⟨h3, h4⟩ := (h2 v).1 hp
          simp only [← Bool.not_eq_true, pairLt_iff, not_not]
          exact ⟨fun h w hw => versionLe_trans (h4 w hw) h, fun h => h v h3⟩
      rw [hg]
      constructor
      · rintro ⟨⟨⟨⟨h1, -⟩, h2⟩, h3⟩, h4⟩
        exact ⟨h1, ⟨out, ho, h2⟩, h3, h4⟩
      · rintro ⟨h1, ⟨out', ho', h2⟩, h3, h4⟩
        rw [ho] at ho'
        obtain rfl := Option.some.inj ho'
        exact ⟨⟨⟨⟨h1, Or.inr h1⟩, h2⟩, h3⟩, h4⟩

theorem checkLoop_good {allowed : Nat × Nat} : ∀ (l : List Wheel) (failed : Bool),
    checkLoop allowed failed l = some false ↔ failed = false ∧ ∀ w ∈ l, GoodWheel allowed w := by
  intro l
  induction l with
  | nil => simp [checkLoop]
  | cons w l ih =>
    intro failed
    rw [checkLoop]
    cases hw : checkWheel allowed w with
    | none =>
      have : ¬ GoodWheel allowed w := fun h => by rw [checkWheel_good.2 h] at hw; simp at hw
      simp [this]
    | some b =>
      rw [Option.bind_some, ih]
      cases b with
      | false => simp [checkWheel_good.1 hw]
      | true =>
        have : ¬ GoodWheel allowed w := fun h => by rw [checkWheel_good.2 h] at hw; simp at hw
        simp [this]

/-- **C127** the check ends with status zero exactly if there is a wheel for Linux on x86_64 and all of these are good. -/
theorem C127_status (allowed : Nat × Nat) (ws : List Wheel) :
    verifyWheels allowed ws = some 0 ↔ (∃ w ∈ ws, LinuxWheel w) ∧ ∀ w ∈ ws, LinuxWheel w → GoodWheel allowed w := by
  unfold verifyWheels
  split
  · rename_i h
    simp only [reduceCtorEq, false_iff, not_and]
    rintro ⟨w, hw, hl⟩
    have : w ∈ ws.filter isLinuxWheel := List.mem_filter.2 ⟨hw, isLinuxWheel_iff.2 hl⟩
    rw [h] at this
    simp at this
  · rename_i h
    obtain ⟨x, hx⟩ := List.exists_mem_of_ne_nil _ h
    have hx' := List.mem_filter.1 hx
    have e : (checkLoop allowed false (ws.filter isLinuxWheel)).map (fun failed => if failed then 1 else 0) = some 0 ↔
        checkLoop allowed false (ws.filter isLinuxWheel) = some false := by
      cases checkLoop allowed false (ws.filter isLinuxWheel) with
      | none => simp
      | some b => cases b <;> simp
    rw [e, checkLoop_good]
    constructor
    · rintro ⟨-, h'⟩
      exact ⟨⟨x, hx'.1, isLinuxWheel_iff.1 hx'.2⟩, fun w hw hl => h' w (List.mem_filter.2 ⟨hw, isLinuxWheel_iff.2 hl⟩)⟩
    · rintro ⟨-, h'⟩
      exact ⟨rfl, fun w hw => h' w (List.mem_filter.1 hw).1 (isLinuxWheel_iff.1 (List.mem_filter.1 hw).2)⟩

/-- **C127** the other results: the status is 0 or 1, and the check stops without looking at any wheel if there is none for Linux on x86_64. -/
theorem C127_other (allowed : Nat × Nat) (ws : List Wheel) :
    (∀ n, verifyWheels allowed ws = some n → n = 0 ∨ n = 1) ∧ ((∀ w ∈ ws, ¬ LinuxWheel w) → verifyWheels allowed ws = none) ∧
    ((∀ w ∈ ws, LinuxWheel w → w.audit.isSome ∧ w.members.isSome) → (∃ w ∈ ws, LinuxWheel w) → ∃ n, verifyWheels allowed ws = some n) := by
  refine ⟨fun n hn => ?_, fun h => ?_, fun h1 ⟨x, hx, hl⟩ => ?_⟩
  · unfold verifyWheels at hn
    split at hn
    · simp at hn
    · obtain ⟨b, -, rfl⟩ := Option.map_eq_some_iff.1 hn
      cases b <;> simp
  · unfold verifyWheels
    rw [if_pos]
    rw [List.filter_eq_nil_iff]
    exact fun w hw hl => h w hw (isLinuxWheel_iff.1 hl)
  · have go : ∀ (l : List Wheel), (∀ w ∈ l, w.audit.isSome ∧ w.members.isSome) → ∀ b, ∃ r, checkLoop allowed b l = some r := by
      intro l
      induction l with
      | nil => exact fun _ b => ⟨b, rfl⟩
      | cons w l ih =>
        intro h b
        obtain ⟨h2, h3⟩ := h w List.mem_cons_self
        obtain ⟨o, ho⟩ := Option.isSome_iff_exists.1 h2
        obtain ⟨m, hm⟩ := Option.isSome_iff_exists.1 h3
        have : ∃ r, checkWheel allowed w = some r := by unfold checkWheel; rw [ho, hm]; exact ⟨_, rfl⟩
        obtain ⟨r, hr⟩ := this
        rw [checkLoop, hr, Option.bind_some]
        exact ih (fun w hw => h w (List.mem_cons_of_mem _ hw)) _
    obtain ⟨r, hr⟩ := go (ws.filter isLinuxWheel) (fun w hw => h1 w (List.mem_filter.1 hw).1 (isLinuxWheel_iff.1 (List.mem_filter.1 hw).2)) false
    unfold verifyWheels
    rw [if_neg, hr]
    · exact ⟨_, rfl⟩
    · intro h0
      have : x ∈ ws.filter isLinuxWheel := List.mem_filter.2 ⟨hx, isLinuxWheel_iff.2 hl⟩
      rw [h0] at this
      simp at this

/-- A wheel as the release job makes it. -/
def wheelEx : Wheel := ⟨"oceanmesh-1.0-cp311-cp311-manylinux_2_28_x86_64.whl".toList, some "GLIBC_2.17, GLIBC_2.28".toList,
  some ["oceanmesh.libs/libgmp-1.so.10".toList, "oceanmesh.libs/libmpfr-2.so.6".toList]⟩

example : verifyWheels (2, 28) [wheelEx] = some 0 ∧ verifyWheels (2, 27) [wheelEx] = some 1 ∧
    parseGlibc "GLIBC_2.9 GLIBC_2.10 GLIBC_1.99 GLIBCXX_3.4".toList = some (2, 10) := by decide +kernel

/-- A wheel without the library gmp but with its C++ interface `libgmpxx`. -/
def wheelXx : Wheel := { wheelEx with members := some ["oceanmesh.libs/libgmpxx-1.so.4".toList, "oceanmesh.libs/libmpfr-2.so.6".toList] }

/-- **C127** fails for what is asked for: the library `libgmp.so` itself may be missing if a library with a longer name is there. -/
theorem C127_other_library : verifyWheels (2, 28) [wheelXx] = some 0 ∧ ∀ ms, wheelXx.members = some ms →
    ∀ m ∈ ms, ¬ "libgmp-".toList <:+: m ∧ ¬ "libgmp.".toList <:+: m := by
  refine ⟨by decide +kernel, fun ms h => ?_⟩
  obtain rfl := Option.some.inj h
  decide +kernel

/-- **C127** fails for a third number: a symbol of version 2.28.5 is newer than 2.28 and passes. -/
theorem C127_third_number : verifyWheels (2, 28) [{ wheelEx with audit := some "GLIBC_2.28.5".toList }] = some 0 := by decide +kernel

/-- **C127** wheels for other processors are not looked at. -/
theorem C127_other_processor : verifyWheels (2, 28) [wheelEx, ⟨"oceanmesh-1.0-cp311-cp311-linux_aarch64.whl".toList, some "GLIBC_2.99".toList, some []⟩] = some 0 := by
  decide +kernel

end OM
