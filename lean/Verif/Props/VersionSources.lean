import Verif.Model.VersionSources
import Verif.Props.Version
/-!
# C110: where the version comes from
-/
namespace OM
namespace Spec

/-- The `i`-th directory above (0: the directory itself), among the nearest three, is the nearest one whose name begins with `pre`, and the rest of its name
is `v`. -/
def NamedAfter (pre : List Char) (dir : List (List Char)) (i : Nat) (v : List Char) : Prop :=
  i < 3 ∧ dir[i]? = some (pre ++ v) ∧ ∀ j < i, ∀ n, dir[j]? = some n → ¬ pre <+: n

end Spec
open Spec

theorem parentVersion_some {pre : List Char} (hp : pre ≠ []) : ∀ (k : Nat) (dir : List (List Char)) (v : List Char),
    parentVersion pre k dir = some v ↔ ∃ i < k, dir[i]? = some (pre ++ v) ∧ ∀ j < i, ∀ n, dir[j]? = some n → ¬ pre <+: n
  | 0, dir, v => by simp [parentVersion]
  | k + 1, [], v => by
    have ih := parentVersion_some hp k [] v
    have hb : ¬ pre <+: baseName [] := by simpa [baseName] using hp
    rw [parentVersion, if_neg hb, List.tail_nil, ih]
    simp
  | k + 1, n :: dir, v => by
    have ih := parentVersion_some hp k dir v
    have e : parentVersion pre (k + 1) (n :: dir) = if pre <+: n then some (n.drop pre.length) else parentVersion pre k dir := rfl
    rw [e]
    by_cases h : pre <+: n
    · rw [if_pos h]
      obtain ⟨r, rfl⟩ := h
      rw [List.drop_left, Option.some_inj]
      constructor
      · rintro rfl
        exact ⟨0, by omega, by simp, by omega⟩
      · rintro ⟨i, hi, h1, h2⟩
        rcases Nat.eq_zero_or_pos i with rfl | hpos
        · simpa using h1
        · exact absurd (List.prefix_append pre r) (h2 0 hpos _ rfl)
    · rw [if_neg h, ih]
      constructor
      · rintro ⟨i, hi, h1, h2⟩
        refine ⟨i + 1, by omega, by simpa using h1, ?_⟩
        intro j hj m hm
        cases j with
        | zero => simp only [List.getElem?_cons_zero, Option.some.injEq] at hm; rw [← hm]; exact h
        | succ j => exact h2 j (by omega) m (by simpa using hm)
      · rintro ⟨i, hi, h1, h2⟩
        cases i with
        | zero =>
          simp only [List.getElem?_cons_zero, Option.some.injEq] at h1
          exact absurd (h1 ▸ List.prefix_append pre v) h
        | succ i => exact ⟨i, by omega, by simpa using h1, fun j hj m hm => h2 (j + 1) (by omega) m (by simpa using hm)⟩

/-- Keywords that were expanded count before git, git before the name of the directory, and the version is unknown only if all of them fail. -/
theorem C110_sources (pre parentPre : List Char) (levels : Nat) (refnames : List Char) (git : Option GitAnswers) (file : List (List Char)) :
    (∀ v, keywordVersion pre refnames = some v → getVersion pre parentPre levels refnames git file = v) ∧
    (keywordVersion pre refnames = none → ∀ g, git = some g →
      getVersion pre parentPre levels refnames git file = versionOf pre g.full g.count g.describe) ∧
    (keywordVersion pre refnames = none → git = none → parentPre ≠ [] →
      (∀ i v, NamedAfter parentPre (file.drop levels) i v → getVersion pre parentPre levels refnames git file = v) ∧
      ((¬ ∃ i v, NamedAfter parentPre (file.drop levels) i v) → getVersion pre parentPre levels refnames git file = "0+unknown".toList)) ∧
    (keywordVersion pre refnames = none → git = none → parentPre = [] → getVersion pre parentPre levels refnames git file = "0+unknown".toList) := by
  refine ⟨?_, ?_, ?_, fun h hg hp => by simp [getVersion, h, hg, hp]⟩
  · intro v h; simp [getVersion, h]
  · intro h g hg; simp [getVersion, h, hg]
  · intro h hg hp
    constructor
    · intro i v ⟨hi, h1, h2⟩
      have := (parentVersion_some hp 3 (file.drop levels) v).2 ⟨i, hi, h1, h2⟩
      simp [getVersion, h, hg, hp, this]
    · intro hn
      have : parentVersion parentPre 3 (file.drop levels) = none := by
        rw [Option.eq_none_iff_forall_ne_some]
        intro v hv
        obtain ⟨i, hi, h1, h2⟩ := (parentVersion_some hp 3 (file.drop levels) v).1 hv
        exact hn ⟨i, v, hi, h1, h2⟩
      simp [getVersion, h, hg, hp, this]

example : NamedAfter "oceanmesh-".toList ["oceanmesh-1.2".toList, "home".toList] 0 "1.2".toList := ⟨by omega, by simp, by omega⟩

/-- In a checked out tree the version is the one of `git describe`. -/
theorem C110_checkout (g : GitAnswers) (file : List (List Char)) : packageVersion (some g) file = versionOf "v".toList g.full g.count g.describe :=
  (C110_sources _ _ _ _ _ _).2.1 (C110_unexpanded "v".toList ":%d".toList) g rfl

example : packageVersion (some ⟨describeLong "v1.0".toList 3 "abc".toList false, "abcdef0".toList, 9⟩) [] = "1.0+3.gabc".toList := by
  rw [C110_checkout]; decide +kernel

/-- The prefix written into the file is the word `None`: an unpacked release does not get its version from its directory, and a directory whose name
begins with `None` gives a version to every copy without git below it. -/
theorem C110_directory_ignored :
    packageVersion none ["_version.py".toList, "oceanmesh".toList, "oceanmesh-1.2".toList, "src".toList] = "0+unknown".toList ∧
    packageVersion none ["_version.py".toList, "oceanmesh".toList, "code".toList, "Nonesuch".toList, "home".toList] = "such".toList := by
  constructor <;> decide +kernel

end OM
