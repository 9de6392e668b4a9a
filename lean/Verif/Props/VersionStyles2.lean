import Verif.Props.VersionStyles
/-!
# C136: which versions the styles give
-/
namespace OM
namespace Spec

/-- A tag without development release and local version. -/
def PlainTag (v : Pep440) : Prop := v.dev = none ∧ v.loc = []

/-- The next post-release. -/
def nextPost : Option Nat → Nat
  | none => 0
  | some k => k + 1

/-- The segments of the distance, the hash and the mark of changes. -/
def farSegments (p : GitPieces) : List (Nat ⊕ List Char) := [.inl p.distance, .inr ('g' :: p.short)] ++ if p.dirty then [.inr ['d', 'i', 'r', 't', 'y']] else []

/-- The segments of the hash alone. -/
def hashSegments (p : GitPieces) : List (Nat ⊕ List Char) := [.inr ('g' :: p.short)]

/-- The segments of the hash and the mark of changes. -/
def hashDirtySegments (p : GitPieces) : List (Nat ⊕ List Char) := [.inr ('g' :: p.short)] ++ if p.dirty then [.inr ['d', 'i', 'r', 't', 'y']] else []

end Spec
open Spec

theorem dotted_append : ∀ {l m : List (List Char)}, l ≠ [] → m ≠ [] → dotted (l ++ m) = dotted l ++ '.' :: dotted m := by
  intro l
  induction l with
  | nil => intro m h; exact absurd rfl h
  | cons a l ih =>
    intro m _ hm
    cases l with
    | nil =>
      obtain ⟨b, m, rfl⟩ := List.exists_cons_of_ne_nil hm
      simp [dotted]
    | cons b l =>
      have := ih (m := m) (by simp) hm
      simp only [List.cons_append, dotted] at this ⊢
      rw [this]
      simp

theorem hexWord_segment {h : List Char} (hh : HexWord h) : SegmentWord ('g' :: h) := by
  refine ⟨?_, 'g', List.mem_cons_self, by decide⟩
  intro c hc
  rcases List.mem_cons.1 hc with rfl | hc
  · right; decide
  · have : ∀ c ∈ "0123456789abcdef".toList, c.isDigit = true ∨ c.isLower = true := by decide +kernel
    exact this c (hh.2 c hc)

theorem dirty_segment : SegmentWord ['d', 'i', 'r', 't', 'y'] := by
  unfold SegmentWord
  decide +kernel

theorem farSegments_proper {p : GitPieces} (hh : HexWord p.short) : ∀ w, Sum.inr w ∈ farSegments p → SegmentWord w := by
  intro w hw
  unfold farSegments at hw
  cases hd : p.dirty <;> simp [hd] at hw
  · rw [hw]; exact hexWord_segment hh
  · rcases hw with hw | hw
    · rw [hw]; exact hexWord_segment hh
    · rw [hw]; exact dirty_segment

theorem hashSegments_proper {p : GitPieces} (hh : HexWord p.short) : ∀ w, Sum.inr w ∈ hashSegments p → SegmentWord w := by
  intro w hw
  simp [hashSegments] at hw
  rw [hw]; exact hexWord_segment hh

theorem hashDirtySegments_proper {p : GitPieces} (hh : HexWord p.short) : ∀ w, Sum.inr w ∈ hashDirtySegments p → SegmentWord w := by
  intro w hw
  unfold hashDirtySegments at hw
  cases hd : p.dirty <;> simp [hd] at hw
  · rw [hw]; exact hexWord_segment hh
  · rcases hw with hw | hw
    · rw [hw]; exact hexWord_segment hh
    · rw [hw]; exact dirty_segment

theorem farSegments_text (p : GitPieces) : dotted ((farSegments p).map segmentText) = Nat.toDigits 10 p.distance ++ ".g".toList ++ p.short ++ dirtyMark ".dirty".toList p := by
  have e1 : ".g".toList = ['.', 'g'] := by decide +kernel
  have e2 : ".dirty".toList = ['.', 'd', 'i', 'r', 't', 'y'] := by decide +kernel
  rw [e1, e2]
  unfold farSegments dirtyMark
  cases p.dirty <;> simp [dotted, segmentText]

theorem hashDirtySegments_text (p : GitPieces) : dotted ((hashDirtySegments p).map segmentText) = "g".toList ++ p.short ++ dirtyMark ".dirty".toList p := by
  have e1 : "g".toList = ['g'] := by decide +kernel
  have e2 : ".dirty".toList = ['.', 'd', 'i', 'r', 't', 'y'] := by decide +kernel
  rw [e1, e2]
  unfold hashDirtySegments dirtyMark
  cases p.dirty <;> simp [dotted, segmentText]

theorem plus_mem_text (v : Pep440) : '+' ∈ v.text ↔ v.loc ≠ [] := by
  unfold Pep440.text
  cases hl : v.loc with
  | nil => simpa [localText] using plus_not_public v
  | cons s l => simp [localText]

/-- The text of a version with more local segments. -/
theorem text_local (v : Pep440) {s : List (Nat ⊕ List Char)} (hs : s ≠ []) :
    ({ v with loc := v.loc ++ s } : Pep440).text = v.text ++ plusOrDot v.text ++ dotted (s.map segmentText) := by
  have hw : ({ v with loc := v.loc ++ s } : Pep440).words = v.words := rfl
  unfold plusOrDot
  cases hl : v.loc with
  | nil =>
    rw [if_neg (by rw [plus_mem_text, hl]; simp)]
    obtain ⟨a, t, rfl⟩ := List.exists_cons_of_ne_nil hs
    unfold Pep440.text
    rw [← hl, hw]
    simp [localText, hl]
  | cons b l =>
    rw [if_pos (by rw [plus_mem_text, hl]; simp)]
    unfold Pep440.text
    rw [← hl, hw]
    simp only [hl, List.cons_append, localText]
    rw [← List.cons_append, List.map_append, dotted_append (by simp) (by simpa using hs)]
    simp

theorem text_ne_nil (v : Pep440) : v.text ≠ [] := by
  have key : dotted v.words ≠ [] := by
    unfold Pep440.words
    cases v.lead with
    | nil =>
      simp only [List.map_nil, List.nil_append]
      cases v.post.toList.map postWord ++ v.dev.toList.map devWord with
      | nil => simp [dotted, digits_ne_nil]
      | cons b l => simp [dotted]
    | cons n l =>
      simp only [List.map_cons, List.cons_append]
      cases h : l.map (Nat.toDigits 10) ++ (Nat.toDigits 10 v.last ++ preText v.pre) :: (v.post.toList.map postWord ++ v.dev.toList.map devWord) with
      | nil => simp at h
      | cons b m => simp [dotted]
  unfold Pep440.text
  simp [key]

/-- More words at the end of the public part. -/
theorem text_words {v w : Pep440} (hv : v.loc = []) {l : List (List Char)} (hl : l ≠ []) (hw : w.words = v.words ++ l) : w.text = v.text ++ '.' :: dotted l ++ localText w.loc := by
  unfold Pep440.text
  rw [hw, dotted_append (words_ne_nil v) hl, hv]
  simp [localText]

/-- The condition in the styles. -/
theorem notAtTag_iff {p : GitPieces} : ¬ AtTag p ↔ (p.distance ≠ 0 ∨ p.dirty = true) := by
  unfold AtTag
  cases p.dirty <;> simp

/-! ### The style of the package -/

theorem pep440_text {v : Pep440} {p : GitPieces} (ht : p.tag = some v.text) (hn : ¬ AtTag p) :
    renderPep440 p = ({ v with loc := v.loc ++ farSegments p } : Pep440).text := by
  rw [text_local v (by simp [farSegments]), farSegments_text]
  obtain ⟨c, t, e⟩ := List.exists_cons_of_ne_nil (text_ne_nil v)
  unfold renderPep440
  rw [ht, e]
  simp only
  rw [if_pos (notAtTag_iff.1 hn)]
  simp

theorem far_proper {v : Pep440} (hv : v.Proper) {p : GitPieces} (hh : HexWord p.short) : ({ v with loc := v.loc ++ farSegments p } : Pep440).Proper := by
  intro w hw
  rcases List.mem_append.1 hw with hw | hw
  · exact hv w hw
  · exact farSegments_proper hh w hw

theorem lex_append_left (l : List (Nat ⊕ List Char)) {a b : List (Nat ⊕ List Char)} (h : List.Lex SegmentBefore a b) : List.Lex SegmentBefore (l ++ a) (l ++ b) := by
  induction l with
  | nil => exact h
  | cons x l ih => exact List.Lex.cons ih

theorem older_local {v : Pep440} {a b : List (Nat ⊕ List Char)} (h : List.Lex SegmentBefore a b) : Older { v with loc := a } { v with loc := b } :=
  Or.inr ⟨⟨fun _ => rfl, rfl, rfl, rfl⟩, h⟩

/-- **C136** (4) The style of the package: a commit after a tag that is a version, or a changed copy, gets a version that is newer than the tag, and older than every version without local part
that is newer than the tag. -/
theorem C136_pep440 {v : Pep440} (hv : v.Proper) {p : GitPieces} (ht : p.tag = some v.text) (hh : HexWord p.short) (hn : ¬ AtTag p) :
    ∃ w : Pep440, w.Proper ∧ w.text = renderPep440 p ∧ Older v w ∧ ∀ x : Pep440, x.loc = [] → Older v x → Older w x := by
  refine ⟨{ v with loc := v.loc ++ farSegments p }, far_proper hv hh, (pep440_text ht hn).symm, ?_, ?_⟩
  · have : List.Lex SegmentBefore (v.loc ++ []) (v.loc ++ farSegments p) := lex_append_left _ (by simp only [farSegments, List.cons_append]; exact List.Lex.nil)
    rw [List.append_nil] at this
    exact older_local (v := v) this
  · intro x hx h
    rcases h with h | ⟨-, h⟩
    · exact Or.inl ((publicBefore_congr (u := v) (v := { v with loc := v.loc ++ farSegments p }) ⟨fun _ => rfl, rfl, rfl, rfl⟩).1.1 h)
    · rw [hx] at h
      generalize v.loc = l at h
      cases h

/-- **C136** (5) Of two commits after the same tag the one with more commits since the tag has the newer version, whether or not the copies are changed. -/
theorem C136_pep440_order {v : Pep440} (hv : v.Proper) {p q : GitPieces} (hp : p.tag = some v.text) (hq : q.tag = some v.text) (hhp : HexWord p.short) (hhq : HexWord q.short)
    (hd : p.distance < q.distance) {w w' : Pep440} (hw : w.Proper) (hw' : w'.Proper) (ew : w.text = renderPep440 p) (ew' : w'.text = renderPep440 q) : Older w w' := by
  have hnq : ¬ AtTag q := by rw [notAtTag_iff]; left; omega
  obtain rfl : w' = { v with loc := v.loc ++ farSegments q } := C136_text_unique hw' (far_proper hv hhq) (by rw [ew', pep440_text hq hnq])
  by_cases hnp : AtTag p
  · have e : w = v := by
      refine C136_text_unique hw hv ?_
      rw [ew, (pep440_tagged hp (text_ne_nil v)).1 hnp]
    rw [e]
    obtain ⟨u, hu, eu, h, -⟩ := C136_pep440 hv hq hhq hnq
    rw [C136_text_unique hw' hu (by rw [ew', eu])]
    exact h
  · obtain rfl : w = { v with loc := v.loc ++ farSegments p } := C136_text_unique hw (far_proper hv hhp) (by rw [ew, pep440_text hp hnp])
    refine older_local (v := v) (lex_append_left _ ?_)
    simp only [farSegments, List.cons_append]
    exact List.Lex.rel hd

/-- **C136** (6) A changed copy has a newer version than the commit. -/
theorem C136_pep440_dirty {v : Pep440} (hv : v.Proper) {p q : GitPieces} (hp : p.tag = some v.text) (hh : HexWord p.short) (hc : p.dirty = false) (hq : q = { p with dirty := true })
    {w w' : Pep440} (hw : w.Proper) (hw' : w'.Proper) (ew : w.text = renderPep440 p) (ew' : w'.text = renderPep440 q) : Older w w' := by
  have hqt : q.tag = some v.text := by rw [hq]; exact hp
  have hnq : ¬ AtTag q := by rw [notAtTag_iff, hq]; right; rfl
  have hhq : HexWord q.short := by rw [hq]; exact hh
  by_cases hnp : AtTag p
  · have e : w = v := by
      refine C136_text_unique hw hv ?_
      rw [ew, (pep440_tagged hp (text_ne_nil v)).1 hnp]
    rw [e]
    obtain ⟨u, hu, eu, h, -⟩ := C136_pep440 hv hqt hhq hnq
    rw [C136_text_unique hw' hu (by rw [ew', eu])]
    exact h
  · obtain rfl : w' = { v with loc := v.loc ++ farSegments q } := C136_text_unique hw' (far_proper hv hhq) (by rw [ew', pep440_text hqt hnq])
    obtain rfl : w = { v with loc := v.loc ++ farSegments p } := C136_text_unique hw (far_proper hv hh) (by rw [ew, pep440_text hp hnp])
    refine older_local (v := v) (lex_append_left _ ?_)
    rw [hq]
    simp only [farSegments, hc, List.cons_append, List.nil_append, if_true, Bool.false_eq_true, if_false]
    exact List.Lex.cons (List.Lex.cons List.Lex.nil)

/-- The version of a commit without tag. -/
def Spec.untagged (dev : Option Nat) (p : GitPieces) : Pep440 := ⟨[], 0, none, none, dev, .inr ['u', 'n', 't', 'a', 'g', 'g', 'e', 'd'] :: farSegments p⟩

theorem untagged_proper (d : Option Nat) {p : GitPieces} (hh : HexWord p.short) : (untagged d p).Proper := by
  intro w hw
  rcases List.mem_cons.1 hw with hw | hw
  · rw [Sum.inr.injEq] at hw
    rw [hw]
    unfold SegmentWord
    decide +kernel
  · exact farSegments_proper hh w hw

theorem untagged_localText (p : GitPieces) (d : Option Nat) :
    localText (untagged d p).loc = "+untagged.".toList ++ (Nat.toDigits 10 p.distance ++ ".g".toList ++ p.short ++ dirtyMark ".dirty".toList p) := by
  have e : "+untagged.".toList = ['+', 'u', 'n', 't', 'a', 'g', 'g', 'e', 'd', '.'] := by decide +kernel
  rw [← farSegments_text, e]
  obtain ⟨a, l, h⟩ := List.exists_cons_of_ne_nil (show (farSegments p).map segmentText ≠ [] by simp [farSegments])
  simp only [untagged, localText, List.map_cons, h, dotted, segmentText]
  simp

theorem number_untagged (d : Option Nat) (p : GitPieces) (i : Nat) : (untagged d p).number i = 0 := by
  unfold untagged Pep440.number
  cases i with
  | zero => rfl
  | succ i => simp

/-- **C136** (7) A commit without tag gets a version that is older than every release with a number that is not zero; with more commits it is newer. -/
theorem C136_untagged {p : GitPieces} (ht : p.tag = none) (hh : HexWord p.short) :
    ∃ w : Pep440, w.Proper ∧ w.text = renderPep440 p ∧ (∀ v : Pep440, (∃ i, v.number i ≠ 0) → Older w v) ∧
      ∀ (q : GitPieces) (w' : Pep440), q.tag = none → HexWord q.short → p.distance < q.distance → w'.Proper → w'.text = renderPep440 q → Older w w' := by
  have hw : ∀ d (p : GitPieces), (untagged d p).words = ['0'] :: d.toList.map devWord := by
    intro d p
    have e : Nat.toDigits 10 0 = ['0'] := by decide +kernel
    simp [untagged, Pep440.words, preText, e]
  have text : ∀ p : GitPieces, p.tag = none → (untagged none p).text = renderPep440 p := by
    intro p ht
    have e : "0+untagged.".toList = '0' :: "+untagged.".toList := by decide +kernel
    unfold Pep440.text renderPep440
    rw [hw, untagged_localText, ht]
    simp only [e]
    simp [dotted]
  refine ⟨untagged none p, untagged_proper none hh, text p ht, ?_, ?_⟩
  · rintro v ⟨i, hi⟩
    refine Or.inl (Or.inl ?_)
    classical
    have hex : ∃ i, v.number i ≠ 0 := ⟨i, hi⟩
    refine ⟨Nat.find hex, fun j hj => ?_, ?_⟩
    · rw [number_untagged]
      have := Nat.find_min hex hj
      push Not at this
      exact this.symm
    · rw [number_untagged]
      exact Nat.pos_of_ne_zero (Nat.find_spec hex)
  · intro q w' hq hhq hd hw' e
    rw [C136_text_unique hw' (untagged_proper none hhq) (by rw [e, text q hq])]
    refine Or.inr ⟨⟨fun i => by rw [number_untagged, number_untagged], rfl, rfl, rfl⟩, ?_⟩
    simp only [untagged, farSegments, List.cons_append]
    exact List.Lex.cons (List.Lex.rel hd)

/-! ### Branches -/

/-- **C136** (8) In the style pep440-branch the master branch gets the versions of the style of the package. -/
theorem C136_master (p : GitPieces) : renderBranch (some "master".toList) p = renderPep440 p := by
  have e : "0+untagged.".toList = "0".toList ++ "+untagged.".toList := by decide +kernel
  unfold renderBranch renderPep440 branchMark
  rcases p.tag with _ | _ | ⟨c, t⟩
  · simp [e]
  · simp [e]
  · simp

theorem branchMark_other {b : Option (List Char)} (hb : b ≠ some "master".toList) : branchMark b = ".dev0".toList := by
  unfold branchMark
  rw [if_pos hb]

theorem devWord_zero : devWord 0 = ['d', 'e', 'v', '0'] := by decide +kernel
theorem dev0_text : ".dev0".toList = ['.', 'd', 'e', 'v', '0'] := by decide +kernel

theorem dev_words {v : Pep440} (hd : v.dev = none) (l : List (Nat ⊕ List Char)) (n : Nat) : ({ v with dev := some n, loc := l } : Pep440).words = v.words ++ [devWord n] := by
  unfold Pep440.words
  simp [hd]

theorem plusOrDot_plain {v : Pep440} (hv : v.loc = []) : plusOrDot v.text = ['+'] := by
  unfold plusOrDot
  rw [if_neg (by rw [plus_mem_text, hv]; simp)]

/-- A development release is older. -/
theorem dev_older {v : Pep440} (hd : v.dev = none) (l : List (Nat ⊕ List Char)) (n : Nat) : Older { v with dev := some n, loc := l } v := by
  refine Or.inl (Or.inr ⟨fun _ => rfl, ?_⟩)
  have hpp : ({ v with dev := some n, loc := l } : Pep440).postPlace = v.postPlace := rfl
  have hdv : DevBefore ({ v with dev := some n, loc := l } : Pep440).dev v.dev := by simp [DevBefore, hd]
  by_cases h : v.pre = none ∧ v.post = none
  · left
    simp [Pep440.stage, h.1, h.2, hd]
  · have e : ({ v with dev := some n, loc := l } : Pep440).stage = v.stage := by
      unfold Pep440.stage
      cases hq : v.pre with
      | some q => rfl
      | none =>
        have : v.post ≠ none := fun hp => h ⟨hq, hp⟩
        simp [this]
    exact Or.inr ⟨by rw [e], Or.inr ⟨by rw [e], Or.inr ⟨hpp, hdv⟩⟩⟩

/-- **C136** (9) On other branches the version of a commit after a tag is older than the tag. -/
theorem C136_branch_older {v : Pep440} (hv : PlainTag v) {p : GitPieces} {b : Option (List Char)} (hb : b ≠ some "master".toList) (ht : p.tag = some v.text) (hh : HexWord p.short)
    (hn : ¬ AtTag p) : ∃ w : Pep440, w.Proper ∧ w.text = renderBranch b p ∧ Older w v := by
  refine ⟨{ v with dev := some 0, loc := farSegments p }, farSegments_proper hh, ?_, dev_older hv.1 _ _⟩
  rw [text_words hv.2 (by simp) (dev_words hv.1 (farSegments p) 0)]
  obtain ⟨c, t, e⟩ := List.exists_cons_of_ne_nil (text_ne_nil v)
  have hp := plusOrDot_plain hv.2
  have hl : localText (farSegments p) = '+' :: dotted ((farSegments p).map segmentText) := by simp [localText, farSegments]
  unfold renderBranch
  rw [ht]
  simp only [hl, farSegments_text]
  rw [e] at hp ⊢
  simp only
  rw [if_pos (notAtTag_iff.1 hn), hp, branchMark_other hb, dev0_text]
  simp [dotted, devWord_zero]

/-- **C136** (10) The branch of a commit that is not the tip of a branch: the master branch if it contains the commit, otherwise the first branch that does, `None` without one. -/
theorem C136_branch (head : List Char) (bs : List (List Char × List Char)) (hm : ∀ q ∈ bs, q.1.length = 2 ∧ '\n' ∉ q.1 ∧ '\n' ∉ q.2) (hh : '(' ∈ head ∧ '\n' ∉ head) :
    branchOf "HEAD".toList (['\n'].intercalate (head :: bs.map fun q => q.1 ++ q.2)) =
      if "master".toList ∈ bs.map Prod.snd then some "master".toList else (bs.map Prod.snd).head? := by
  unfold branchOf
  rw [if_pos rfl, List.splitOn_intercalate]
  · simp only [hh.1, if_true]
    have e : (bs.map fun q => q.1 ++ q.2).map (List.drop 2) = bs.map Prod.snd := by
      rw [List.map_map]
      refine List.map_congr_left fun q hq => ?_
      have := (hm q hq).1
      simp [List.drop_append, this, List.drop_of_length_le]
    rw [e]
  · intro l hl
    rcases List.mem_cons.1 hl with rfl | hl
    · exact hh.2
    · obtain ⟨q, hq, rfl⟩ := List.mem_map.1 hl
      obtain ⟨-, h1, h2⟩ := hm q hq
      simp [h1, h2]
  · simp

example : branchOf "HEAD".toList "* (HEAD detached at 0ab3)\n  dev\n  master".toList = some "master".toList ∧ branchOf "HEAD".toList "* (HEAD detached at 0ab3)\n  dev\n  test".toList = some "dev".toList ∧
    branchOf "HEAD".toList "* (HEAD detached at 0ab3)".toList = none ∧ branchOf "topic".toList [] = some "topic".toList := by decide +kernel

/-! ### Post-releases -/

theorem post_words {v : Pep440} (hp : v.post = none) (hd : v.dev = none) (l : List (Nat ⊕ List Char)) (n : Nat) (d : Option Nat) :
    ({ v with post := some n, dev := d, loc := l } : Pep440).words = v.words ++ (postWord n :: d.toList.map devWord) := by
  unfold Pep440.words
  simp [hp, hd]

theorem stage_post {v : Pep440} (hd : v.dev = none) (n : Nat) (d : Option Nat) (l : List (Nat ⊕ List Char)) : ({ v with post := some n, dev := d, loc := l } : Pep440).stage = v.stage := by
  unfold Pep440.stage
  cases v.pre <;> simp [hd]

/-- A later post-release is newer. -/
theorem post_newer {v : Pep440} (hd : v.dev = none) {n : Nat} (hn : v.postPlace < n + 1) (d : Option Nat) (l : List (Nat ⊕ List Char)) : Older v { v with post := some n, dev := d, loc := l } :=
  Or.inl (Or.inr ⟨fun _ => rfl, Or.inr ⟨by rw [stage_post hd], Or.inr ⟨by rw [stage_post hd], Or.inl hn⟩⟩⟩)

theorem post_older {v : Pep440} (hd : v.dev = none) {n m : Nat} (hn : n < m) (d d' : Option Nat) (l l' : List (Nat ⊕ List Char)) :
    Older { v with post := some n, dev := d, loc := l } { v with post := some m, dev := d', loc := l' } :=
  Or.inl (Or.inr ⟨fun _ => rfl, Or.inr ⟨by rw [stage_post hd, stage_post hd], Or.inr ⟨by rw [stage_post hd, stage_post hd], Or.inl (Nat.succ_lt_succ hn)⟩⟩⟩)

theorem dev_or_clean (p : GitPieces) : dirtyMark ".dev0".toList p = if p.dirty then '.' :: devWord 0 else [] := by
  unfold dirtyMark
  rw [dev0_text, devWord_zero]

theorem post_text : ".post".toList = ['.', 'p', 'o', 's', 't'] := by decide +kernel

/-- The version in the style pep440-post. -/
def Spec.postVersion (v : Pep440) (p : GitPieces) : Pep440 := { v with post := some p.distance, dev := if p.dirty then some 0 else none, loc := hashSegments p }

theorem renderPost_text {v : Pep440} (hv : PlainTag v) (hp : v.post = none) {p : GitPieces} (ht : p.tag = some v.text) (hn : ¬ AtTag p) : (postVersion v p).text = renderPost p := by
  unfold postVersion
  rw [text_words hv.2 (by simp) (post_words hp hv.1 _ _ _)]
  obtain ⟨c, t, e⟩ := List.exists_cons_of_ne_nil (text_ne_nil v)
  have hpl := plusOrDot_plain hv.2
  have e1 : "g".toList = ['g'] := by decide +kernel
  unfold renderPost
  rw [ht]
  rw [e] at hpl ⊢
  simp only
  rw [if_pos (notAtTag_iff.1 hn), hpl, dev_or_clean, post_text, e1]
  cases p.dirty <;> simp [dotted, localText, hashSegments, segmentText, postWord]

/-- **C136** (11) In the style pep440-post a commit after a tag that is no post-release gets a version that is newer than the tag; with more commits it is newer, a changed copy is older than the
commit. -/
theorem C136_post {v : Pep440} (hv : PlainTag v) (hp : v.post = none) {p : GitPieces} (ht : p.tag = some v.text) (hh : HexWord p.short) (hn : ¬ AtTag p) :
    ∃ w : Pep440, w.Proper ∧ w.text = renderPost p ∧ Older v w ∧
      (∀ (q : GitPieces) (w' : Pep440), q.tag = some v.text → HexWord q.short → p.distance < q.distance → w'.Proper → w'.text = renderPost q → Older w w') ∧
      (p.dirty = true → p.distance ≠ 0 → ∀ w' : Pep440, w'.Proper → w'.text = renderPost { p with dirty := false } → Older w w') := by
  have prop : ∀ q : GitPieces, HexWord q.short → (postVersion v q).Proper := fun q hq => hashSegments_proper hq
  refine ⟨postVersion v p, prop p hh, renderPost_text hv hp ht hn, post_newer hv.1 (by simp [Pep440.postPlace, hp]) _ _, ?_, ?_⟩
  · intro q w' hq hhq hd hw' e
    rw [C136_text_unique hw' (prop q hhq) (by rw [e, renderPost_text hv hp hq (by rw [notAtTag_iff]; left; omega)])]
    exact post_older hv.1 hd _ _ _ _
  · intro hd h0 w' hw' e
    rw [C136_text_unique hw' (prop { p with dirty := false } hh) (by rw [e, renderPost_text hv hp (p := { p with dirty := false }) ht (by rw [notAtTag_iff]; exact Or.inl h0)])]
    refine Or.inl (Or.inr ⟨fun _ => rfl, Or.inr ⟨by rw [postVersion, postVersion, stage_post hv.1, stage_post hv.1], Or.inr ⟨by rw [postVersion, postVersion, stage_post hv.1, stage_post hv.1], Or.inr ⟨rfl, ?_⟩⟩⟩⟩)
    simp [postVersion, hd, DevBefore]

/-- The number of words beginning with p. -/
def Spec.postCount (l : List (List Char)) : Nat := l.countP fun a => a.head? == some 'p'

theorem digits_head (n : Nat) (x : List Char) : ((Nat.toDigits 10 n ++ x).head? == some 'p') = false := by
  obtain ⟨c, r, e⟩ := List.exists_cons_of_ne_nil (digits_ne_nil n)
  have hc := digits_all n c (by rw [e]; exact List.mem_cons_self)
  rw [e]
  simp only [List.cons_append, List.head?_cons, beq_eq_false_iff_ne, ne_eq, Option.some.injEq]
  rintro rfl
  exact absurd hc (by decide)

theorem postCount_words (v : Pep440) : postCount v.words = v.post.toList.length := by
  unfold postCount Pep440.words
  have h1 : (v.lead.map (Nat.toDigits 10)).countP (fun a => a.head? == some 'p') = 0 := by
    rw [List.countP_eq_zero]
    intro a ha
    obtain ⟨n, -, rfl⟩ := List.mem_map.1 ha
    have := digits_head n []
    rw [List.append_nil] at this
    simp [this]
  rw [List.countP_append, h1, List.countP_cons, digits_head]
  cases v.post <;> cases v.dev <;> simp [postWord, devWord]

/-- **C136** (12) If the tag is a post-release, the style pep440-post (and also the styles pep440-post-branch and pep440-old) give a text that is no version. -/
theorem C136_post_invalid {v : Pep440} (hv : PlainTag v) {k : Nat} (hk : v.post = some k) {p : GitPieces} (ht : p.tag = some v.text) (hh : HexWord p.short) (hn : ¬ AtTag p) (b : Option (List Char))
    (w : Pep440) (hw : w.Proper) : w.text ≠ renderPost p ∧ w.text ≠ renderPostBranch b p ∧ w.text ≠ renderOld p := by
  have key : ∀ (d : List (List Char)) (l : List (Nat ⊕ List Char)), (∀ a ∈ d, a = devWord 0) →
      w.text ≠ v.text ++ '.' :: dotted (postWord p.distance :: d) ++ localText l := by
    intro d l hd e
    have e1 : v.text ++ '.' :: dotted (postWord p.distance :: d) = dotted (v.words ++ postWord p.distance :: d) := by
      rw [dotted_append (words_ne_nil v) (by simp)]
      unfold Pep440.text
      rw [hv.2]
      simp [localText]
    have hchars : ∀ a ∈ v.words ++ postWord p.distance :: d, ∀ c ∈ a, c.isDigit = true ∨ c.isLower = true := by
      intro a ha
      rcases List.mem_append.1 ha with ha | ha
      · exact words_chars v a ha
      · have hm : a ∈ (Pep440.mk [] 0 none (some p.distance) (some 0) []).words := by
          rcases List.mem_cons.1 ha with rfl | ha
          · simp [Pep440.words]
          · rw [hd a ha]; simp [Pep440.words]
        exact words_chars _ a hm
    have hplus : '+' ∉ dotted (v.words ++ postWord p.distance :: d) := by
      intro h
      rcases mem_dotted h with h | ⟨a, ha, hc⟩
      · exact absurd h (by decide)
      · rcases hchars a ha _ hc with h | h <;> exact absurd h (by decide)
    have e2 : dotted w.words = dotted (v.words ++ postWord p.distance :: d) := by
      rw [e1] at e
      unfold Pep440.text at e
      rcases localText_first w.loc with h | ⟨r, h⟩ <;> rcases localText_first l with h' | ⟨r', h'⟩ <;> rw [h, h'] at e
      · simpa using e
      · rw [List.append_nil] at e
        exact absurd (e ▸ List.mem_append_right _ List.mem_cons_self) (plus_not_public w)
      · rw [List.append_nil] at e
        exact absurd (e.symm ▸ List.mem_append_right _ List.mem_cons_self) hplus
      · exact (append_cons_inj (plus_not_public w) hplus e).1
    have e3 := dotted_inj (words_ne_nil w) (by simp) (no_dot (words_chars w)) (no_dot hchars) e2
    have hc := congrArg postCount e3
    rw [postCount_words] at hc
    have h2 : postCount (v.words ++ postWord p.distance :: d) = 1 + (postCount d + 1) := by
      have := postCount_words v
      rw [hk] at this
      unfold postCount at this ⊢
      rw [List.countP_append, this, List.countP_cons]
      simp [postWord]
    rw [h2] at hc
    cases hp : w.post <;> rw [hp] at hc <;> simp at hc
  obtain ⟨c, t, e⟩ := List.exists_cons_of_ne_nil (text_ne_nil v)
  have hpl := plusOrDot_plain hv.2
  have e1 : "g".toList = ['g'] := by decide +kernel
  have e2 : ".dirty".toList = ['.', 'd', 'i', 'r', 't', 'y'] := by decide +kernel
  have hif := notAtTag_iff.1 hn
  refine ⟨?_, ?_, ?_⟩
  · have := key (if p.dirty then [devWord 0] else []) (hashSegments p) (by cases p.dirty <;> simp)
    convert this using 1
    unfold renderPost
    rw [ht]
    rw [e] at hpl ⊢
    simp only
    rw [if_pos hif, hpl, dev_or_clean, post_text, e1]
    cases p.dirty <;> simp [dotted, localText, hashSegments, segmentText, postWord]
  · have := key (if b ≠ some "master".toList then [devWord 0] else []) (hashDirtySegments p) (by by_cases h : b = some "master".toList <;> simp [h])
    convert this using 1
    unfold renderPostBranch branchMark dirtyMark
    rw [ht]
    rw [e] at hpl ⊢
    simp only
    rw [if_pos hif, hpl, post_text, e1, dev0_text, e2]
    by_cases hb : b = some "master".toList
    · cases hd : p.dirty <;> simp [hb, hd, dotted, localText, hashDirtySegments, segmentText, postWord]
    · simp only [ne_eq, hb, not_false_eq_true, if_true, if_false]
      cases hd : p.dirty <;> simp [hd, dotted, localText, hashDirtySegments, segmentText, postWord, devWord_zero]
  · have := key (if p.dirty then [devWord 0] else []) [] (by cases p.dirty <;> simp)
    convert this using 1
    unfold renderOld
    rw [ht]
    rw [e]
    simp only
    rw [if_pos hif, dev_or_clean, post_text]
    cases p.dirty <;> simp [dotted, localText, postWord]

/-- The version in the style pep440-post-branch. -/
def Spec.postBranchVersion (b : Option (List Char)) (v : Pep440) (p : GitPieces) : Pep440 :=
  { v with post := some p.distance, dev := if b = some "master".toList then none else some 0, loc := hashDirtySegments p }

theorem renderPostBranch_text {v : Pep440} (hv : PlainTag v) (hp : v.post = none) {p : GitPieces} (b : Option (List Char)) (ht : p.tag = some v.text) (hn : ¬ AtTag p) :
    (postBranchVersion b v p).text = renderPostBranch b p := by
  unfold postBranchVersion
  rw [text_words hv.2 (by simp) (post_words hp hv.1 _ _ _)]
  obtain ⟨c, t, e⟩ := List.exists_cons_of_ne_nil (text_ne_nil v)
  have hpl := plusOrDot_plain hv.2
  have e1 : "g".toList = ['g'] := by decide +kernel
  have e2 : ".dirty".toList = ['.', 'd', 'i', 'r', 't', 'y'] := by decide +kernel
  unfold renderPostBranch branchMark dirtyMark
  rw [ht]
  rw [e] at hpl ⊢
  simp only
  rw [if_pos (notAtTag_iff.1 hn), hpl, post_text, e1, dev0_text, e2]
  by_cases hb : b = some "master".toList
  · cases hd : p.dirty <;> simp [hb, hd, dotted, localText, hashDirtySegments, segmentText, postWord]
  · simp only [ne_eq, hb, not_false_eq_true, if_true, if_false]
    cases hd : p.dirty <;> simp [hd, dotted, localText, hashDirtySegments, segmentText, postWord, devWord_zero]

/-- **C136** (13) In the style pep440-post-branch a commit after a tag that is no post-release gets a version that is newer than the tag on every branch; with more commits it is newer, also if the
branches differ; on other branches it is older than on the master branch. -/
theorem C136_post_branch {v : Pep440} (hv : PlainTag v) (hp : v.post = none) {p : GitPieces} (b : Option (List Char)) (ht : p.tag = some v.text) (hh : HexWord p.short) (hn : ¬ AtTag p) :
    ∃ w : Pep440, w.Proper ∧ w.text = renderPostBranch b p ∧ Older v w ∧
      (∀ (q : GitPieces) (b' : Option (List Char)) (w' : Pep440), q.tag = some v.text → HexWord q.short → p.distance < q.distance → w'.Proper → w'.text = renderPostBranch b' q → Older w w') ∧
      (b ≠ some "master".toList → ∀ w' : Pep440, w'.Proper → w'.text = renderPostBranch (some "master".toList) p → Older w w') := by
  have prop : ∀ (b : Option (List Char)) (q : GitPieces), HexWord q.short → (postBranchVersion b v q).Proper := fun b q hq => hashDirtySegments_proper hq
  refine ⟨postBranchVersion b v p, prop b p hh, renderPostBranch_text hv hp b ht hn, post_newer hv.1 (by simp [Pep440.postPlace, hp]) _ _, ?_, ?_⟩
  · intro q b' w' hq hhq hd hw' e
    rw [C136_text_unique hw' (prop b' q hhq) (by rw [e, renderPostBranch_text hv hp b' hq (by rw [notAtTag_iff]; left; omega)])]
    exact post_older hv.1 hd _ _ _ _
  · intro hb w' hw' e
    rw [C136_text_unique hw' (prop _ p hh) (by rw [e, renderPostBranch_text hv hp _ ht hn])]
    refine Or.inl (Or.inr ⟨fun _ => rfl, Or.inr ⟨by rw [postBranchVersion, postBranchVersion, stage_post hv.1, stage_post hv.1],
      Or.inr ⟨by rw [postBranchVersion, postBranchVersion, stage_post hv.1, stage_post hv.1], Or.inr ⟨rfl, ?_⟩⟩⟩⟩)
    simp only [postBranchVersion, hb, if_false, if_true, DevBefore]

/-- The version in the style pep440-old. -/
def Spec.oldVersion (v : Pep440) (p : GitPieces) : Pep440 := { v with post := some p.distance, dev := if p.dirty then some 0 else none, loc := [] }

theorem renderOld_text {v : Pep440} (hv : PlainTag v) (hp : v.post = none) {p : GitPieces} (ht : p.tag = some v.text) (hn : ¬ AtTag p) : (oldVersion v p).text = renderOld p := by
  unfold oldVersion
  rw [text_words hv.2 (by simp) (post_words hp hv.1 _ _ _)]
  obtain ⟨c, t, e⟩ := List.exists_cons_of_ne_nil (text_ne_nil v)
  unfold renderOld
  rw [ht]
  rw [e]
  simp only
  rw [if_pos (notAtTag_iff.1 hn), dev_or_clean, post_text]
  cases p.dirty <;> simp [dotted, localText, postWord]

/-- **C136** (14) In the style pep440-old a commit after a tag that is no post-release gets a version that is newer than the tag; with more commits it is newer. -/
theorem C136_old {v : Pep440} (hv : PlainTag v) (hp : v.post = none) {p : GitPieces} (ht : p.tag = some v.text) (hn : ¬ AtTag p) :
    ∃ w : Pep440, w.Proper ∧ w.text = renderOld p ∧ Older v w ∧
      ∀ (q : GitPieces) (w' : Pep440), q.tag = some v.text → p.distance < q.distance → w'.Proper → w'.text = renderOld q → Older w w' := by
  have prop : ∀ q : GitPieces, (oldVersion v q).Proper := fun q w hw => by simp [oldVersion] at hw
  refine ⟨oldVersion v p, prop p, renderOld_text hv hp ht hn, post_newer hv.1 (by simp [Pep440.postPlace, hp]) _ _, ?_⟩
  intro q w' hq hd hw' e
  rw [C136_text_unique hw' (prop q) (by rw [e, renderOld_text hv hp hq (by rw [notAtTag_iff]; left; omega)])]
  exact post_older hv.1 hd _ _ _ _

/-! ### The style pep440-pre -/

theorem splitFirst_none : ∀ {l : List Char}, 'p' ∉ l → splitFirst ".post".toList l = none := by
  intro l
  induction l with
  | nil => intro _; rfl
  | cons c l ih =>
    intro h
    unfold splitFirst
    rw [if_neg, ih (fun h' => h (List.mem_cons_of_mem _ h'))]
    · rfl
    · rintro ⟨r, e⟩
      rw [post_text] at e
      exact h (e ▸ by simp)

theorem splitFirst_append : ∀ {l : List Char} (r : List Char), 'p' ∉ l → splitFirst ".post".toList (l ++ (".post".toList ++ r)) = some (l, r) := by
  intro l
  induction l with
  | nil =>
    intro r _
    rw [post_text]
    simp only [List.nil_append, List.cons_append, splitFirst]
    rw [if_pos ⟨r, by simp⟩]
    simp
  | cons c l ih =>
    intro r h
    have hl : 'p' ∉ l := fun h' => h (List.mem_cons_of_mem _ h')
    rw [List.cons_append]
    unfold splitFirst
    rw [if_neg, ih r hl]
    · rfl
    · rintro ⟨s, e⟩
      rw [post_text] at e
      simp only [List.cons_append, List.nil_append, List.cons.injEq] at e
      cases l with
      | nil =>
        simp only [List.nil_append, List.cons.injEq] at e
        exact absurd e.2.1 (by decide)
      | cons d l =>
        simp only [List.cons_append, List.cons.injEq] at e
        exact hl (e.2.1 ▸ List.mem_cons_self)

theorem text_no_p {v : Pep440} (hv : PlainTag v) (hp : v.post = none) : 'p' ∉ v.text := by
  unfold Pep440.text
  rw [hv.2]
  simp only [localText, List.append_nil]
  intro h
  rcases mem_dotted h with h | ⟨a, ha, hc⟩
  · exact absurd h (by decide)
  · have hd : ∀ n, 'p' ∉ Nat.toDigits 10 n := fun n => not_mem_of_digits (digits_all n) (by decide)
    simp only [Pep440.words, hp, hv.1, Option.toList_none, List.map_nil, List.append_nil, List.mem_append, List.mem_map, List.mem_cons, List.not_mem_nil, or_false] at ha
    rcases ha with ⟨n, -, rfl⟩ | rfl
    · exact hd n hc
    · rcases List.mem_append.1 hc with hc | hc
      · exact hd _ hc
      · cases hq : v.pre with
        | none => rw [hq] at hc; simp [preText] at hc
        | some q =>
          obtain ⟨k, n⟩ := q
          rw [hq] at hc
          have := hd n
          cases k <;> simp [preText, PreKind.letters, this] at hc

theorem splitPost_text {v : Pep440} (hv : PlainTag v) : splitPost v.text = some (({ v with post := none } : Pep440).text, v.post) := by
  have hv' : PlainTag ({ v with post := none } : Pep440) := ⟨hv.1, hv.2⟩
  have hno := text_no_p hv' rfl
  cases hp : v.post with
  | none =>
    have e : ({ v with post := none } : Pep440) = v := by rw [← hp]
    unfold splitPost
    rw [splitFirst_none (by rw [e] at hno; exact hno), e]
  | some k =>
    have e : v.text = ({ v with post := none } : Pep440).text ++ (".post".toList ++ Nat.toDigits 10 k) := by
      have hw : v.words = ({ v with post := none } : Pep440).words ++ [postWord k] := by
        unfold Pep440.words
        simp [hp, hv.1]
      rw [text_words (v := { v with post := none }) hv.2 (by simp) hw, hv.2, post_text]
      simp [dotted, localText, postWord]
    have hd : 'p' ∉ Nat.toDigits 10 k := not_mem_of_digits (digits_all k) (by decide)
    unfold splitPost
    rw [e, splitFirst_append _ hno]
    simp only [splitFirst_none hd, digits_ne_nil, if_false, decimalOf]
    rw [if_pos ⟨digits_ne_nil k, List.all_eq_true.2 (digits_all k)⟩, Nat.ofDigitChars_ten_toDigits]
    rfl

/-- The version in the style pep440-pre. -/
def Spec.preVersion (v : Pep440) (p : GitPieces) : Pep440 := { v with post := some (nextPost v.post), dev := some p.distance, loc := [] }

theorem renderPre_text {v : Pep440} (hv : PlainTag v) {p : GitPieces} (ht : p.tag = some v.text) (h0 : p.distance ≠ 0) : renderPre p = some (preVersion v p).text := by
  have e : (preVersion v p).text = ({ v with post := none } : Pep440).text ++ ".post".toList ++ Nat.toDigits 10 (nextPost v.post) ++ ".dev".toList ++ Nat.toDigits 10 p.distance := by
    have hw : (preVersion v p).words = ({ v with post := none } : Pep440).words ++ [postWord (nextPost v.post), devWord p.distance] := by
      unfold Pep440.words preVersion
      simp [hv.1]
    have e1 : ".dev".toList = ['.', 'd', 'e', 'v'] := by decide +kernel
    rw [text_words (v := { v with post := none }) hv.2 (by simp) hw, post_text, e1]
    simp [dotted, localText, postWord, devWord, preVersion]
  obtain ⟨c, t, et⟩ := List.exists_cons_of_ne_nil (text_ne_nil v)
  have hs := splitPost_text hv
  unfold renderPre
  rw [ht, et]
  rw [et] at hs
  simp only
  rw [if_pos h0, hs, e]
  cases hp : v.post with
  | none =>
    have e1 : ".post0.dev".toList = ".post".toList ++ ['0'] ++ ".dev".toList := by decide +kernel
    have e2 : Nat.toDigits 10 0 = ['0'] := by decide +kernel
    simp [nextPost, e1, e2]
  | some k => simp [nextPost]

/-- **C136** (15) In the style pep440-pre a commit after a tag gets a version between the tag and its next post-release; with more commits it is newer. -/
theorem C136_pre {v : Pep440} (hv : PlainTag v) {p : GitPieces} (ht : p.tag = some v.text) (h0 : p.distance ≠ 0) :
    ∃ w : Pep440, w.Proper ∧ renderPre p = some w.text ∧ Older v w ∧ Older w { v with post := some (nextPost v.post) } ∧
      ∀ (q : GitPieces) (w' : Pep440), q.tag = some v.text → p.distance < q.distance → w'.Proper → renderPre q = some w'.text → Older w w' := by
  have prop : ∀ q : GitPieces, (preVersion v q).Proper := fun q w hw => by simp [preVersion] at hw
  have hst : ∀ q : GitPieces, (preVersion v q).stage = v.stage := fun q => stage_post hv.1 _ _ _
  refine ⟨preVersion v p, prop p, renderPre_text hv ht h0, post_newer hv.1 ?_ _ _, ?_, ?_⟩
  · cases hp : v.post <;> simp [Pep440.postPlace, hp, nextPost]
  · have := dev_older (v := { v with post := some (nextPost v.post) }) hv.1 [] p.distance
    exact this
  · intro q w' hq hd hw' e
    rw [renderPre_text hv hq (by omega), Option.some.injEq] at e
    rw [C136_text_unique hw' (prop q) e.symm]
    exact Or.inl (Or.inr ⟨fun _ => rfl, Or.inr ⟨by rw [hst, hst], Or.inr ⟨by rw [hst, hst], Or.inr ⟨rfl, hd⟩⟩⟩⟩)

/-- **C136** (16) The style pep440-pre does not tell a changed copy of a tagged commit from the tag, and raises for tags with more after the number of the post-release. -/
theorem C136_pre_faults : (∀ (p : GitPieces) (tag : List Char), p.tag = some tag → tag ≠ [] → p.distance = 0 → renderPre p = some tag) ∧
    renderPre ⟨some "1.0.post1.dev2".toList, 3, "0ab".toList, false⟩ = none ∧ renderPre ⟨some "1.0.post1.post2".toList, 3, "0ab".toList, false⟩ = some "1.0.post0.dev3".toList := by
  refine ⟨fun p tag ht hne h0 => ?_, by decide +kernel, by decide +kernel⟩
  obtain ⟨c, t, rfl⟩ := List.exists_cons_of_ne_nil hne
  unfold renderPre
  rw [ht]
  simp [h0]

/-- **C136** (17) A style that is not one of the eight raises; all but pep440-pre give a version for all pieces. -/
theorem C136_styles (style : List Char) (b : Option (List Char)) (p : GitPieces) : renderStyle style b p = none ↔
    (style ∉ ["".toList, "default".toList, "pep440".toList, "pep440-branch".toList, "pep440-pre".toList, "pep440-post".toList, "pep440-post-branch".toList, "pep440-old".toList,
      "git-describe".toList, "git-describe-long".toList]) ∨ style = "pep440-pre".toList ∧ renderPre p = none := by
  have e0 : "".toList = [] := by decide +kernel
  have d1 : "pep440-pre".toList ≠ [] := by decide +kernel
  have d2 : "pep440-pre".toList ≠ "default".toList := by decide +kernel
  have d3 : "pep440-pre".toList ≠ "pep440".toList := by decide +kernel
  have d4 : "pep440-pre".toList ≠ "pep440-branch".toList := by decide +kernel
  by_cases hpre : style = "pep440-pre".toList
  · subst hpre
    unfold renderStyle
    rw [if_neg (by rintro (h | h | h); exacts [d1 h, d2 h, d3 h]), if_neg d4, if_pos rfl]
    simp only [true_and]
    refine ⟨Or.inr, ?_⟩
    rintro (h | h)
    · simp at h
    · exact h
  · simp only [hpre, false_and, or_false, e0, List.mem_cons, List.not_mem_nil, not_or]
    unfold renderStyle
    rw [if_neg hpre]
    split_ifs with h1 h2 h3 h4 h5 h6 h7
    · rcases h1 with h | h | h <;> simp [h]
    · simp [h2]
    · simp [h3]
    · simp [h4]
    · simp [h5]
    · simp [h6]
    · simp [h7]
    · push Not at h1
      exact ⟨fun _ => ⟨h1.1, h1.2.1, h1.2.2, h2, fun h => h, h3, h4, h5, h6, h7⟩, fun _ => rfl⟩

/-- The hypotheses of the theorems on tags can be met. -/
example : ∃ (v : Pep440) (p : GitPieces), v.Proper ∧ PlainTag v ∧ v.post = none ∧ p.tag = some v.text ∧ HexWord p.short ∧ ¬ AtTag p ∧ v.text = "1.2rc3".toList ∧
    renderPep440 p = "1.2rc3+4.g0ab.dirty".toList ∧ renderBranch (some "dev".toList) p = "1.2rc3.dev0+4.g0ab.dirty".toList ∧ renderPre p = some "1.2rc3.post0.dev4".toList ∧
    renderPost p = "1.2rc3.post4.dev0+g0ab".toList ∧ renderPostBranch (some "dev".toList) p = "1.2rc3.post4.dev0+g0ab.dirty".toList ∧ renderOld p = "1.2rc3.post4.dev0".toList := by
  refine ⟨⟨[1], 2, some (.candidate, 3), none, none, []⟩, ⟨some "1.2rc3".toList, 4, "0ab".toList, true⟩, ?_, ⟨rfl, rfl⟩, rfl, by decide +kernel, ⟨by decide +kernel, by decide +kernel⟩, ?_, by decide +kernel,
    by decide +kernel, by decide +kernel, by decide +kernel, by decide +kernel, by decide +kernel, by decide +kernel⟩
  · intro w hw; simp at hw
  · unfold AtTag; simp

example : ∃ (v : Pep440) (p : GitPieces), PlainTag v ∧ v.post = some 2 ∧ p.tag = some v.text ∧ HexWord p.short ∧ ¬ AtTag p ∧ v.text = "1.2.post2".toList ∧
    renderPost p = "1.2.post2.post4+g0ab".toList ∧ renderPre p = some "1.2.post3.dev4".toList := by
  refine ⟨⟨[1], 2, none, some 2, none, []⟩, ⟨some "1.2.post2".toList, 4, "0ab".toList, false⟩, ⟨rfl, rfl⟩, rfl, by decide +kernel, ⟨by decide +kernel, by decide +kernel⟩, ?_, by decide +kernel,
    by decide +kernel, by decide +kernel⟩
  unfold AtTag; simp

example : ∃ p : GitPieces, p.tag = none ∧ HexWord p.short ∧ renderPep440 p = "0+untagged.4.g0ab".toList :=
  ⟨⟨none, 4, "0ab".toList, false⟩, rfl, ⟨by decide +kernel, by decide +kernel⟩, by decide +kernel⟩

end OM
