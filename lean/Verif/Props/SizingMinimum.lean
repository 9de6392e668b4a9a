import Verif.Props.Sizing
import Verif.Props.GridMin
/-!
# The recorded minimum of the wavelength sizing (C39)
-/
namespace OM
open Spec
set_option linter.unusedSectionVars false

section
variable {K C : Type} [Field K] [LinearOrder K] [IsStrictOrderedRing K] [FloorRing K]

theorem gridMin_least {n m : Nat} {vals : Fin n → Fin m → Option K} {h : K} (hg : gridMin vals = some (some h)) :
    (∀ i j, ∃ w, vals i j = some w ∧ h ≤ w) ∧ ∃ i j, vals i j = some h := by
  unfold gridMin at hg
  split at hg
  · simp at hg
  · rename_i x xs hx
    have hg := Option.some.inj hg
    obtain ⟨y, hy, hle, hall, hex⟩ := foldl_optMin id xs x h hg
    have hmem : ∀ v, v ∈ x :: xs ↔ ∃ i j, vals i j = v := fun v => by rw [← hx]; exact mem_allVals
    constructor
    · intro i j
      rcases List.mem_cons.1 ((hmem (vals i j)).2 ⟨i, j, rfl⟩) with h1 | h1
      · exact ⟨y, h1.trans hy, hle⟩
      · exact hall _ h1
    · rcases hex with rfl | ⟨w, hw, hw'⟩
      · exact (hmem _).1 (by rw [← hy]; exact List.mem_cons_self)
      · obtain ⟨i, j, hij⟩ := (hmem w).1 (List.mem_cons_of_mem _ hw)
        exact ⟨i, j, hij.trans hw'⟩

theorem gridMin_nan {n m : Nat} {vals : Fin n → Fin m → Option K} (hg : gridMin vals = some none) : ∃ i j, vals i j = none := by
  unfold gridMin at hg
  split at hg
  · simp at hg
  · rename_i x xs hx
    have hg := Option.some.inj hg
    by_contra hne
    push Not at hne
    have hs : ∀ v ∈ x :: xs, v.isSome := by
      intro v hv
      rw [← hx] at hv
      obtain ⟨i, j, rfl⟩ := mem_allVals.1 hv
      exact Option.isSome_iff_ne_none.2 (hne i j)
    have := foldl_optMin_isSome id xs x (hs x List.mem_cons_self) fun w hw => hs w (List.mem_cons_of_mem _ hw)
    rw [show (xs.foldl (fun a w => optMin a (id w)) x) = xs.foldl optMin x from rfl, hg] at this
    simp at this

theorem cyclicVals_range {n m : Nat} (b : Box K) (vals : Fin n → Fin m → Option K) (i : Fin n) (j : Fin m) :
    (∃ i', cyclicVals b vals i j = vals i' j) ∧ ∃ i', vals i j = cyclicVals b vals i' j := by
  unfold cyclicVals
  split
  · refine ⟨⟨swapIndex i, rfl⟩, ⟨swapIndex i, ?_⟩⟩
    exact (congrArg (fun k => vals k j) (swapIndex_swap i)).symm
  · exact ⟨⟨i, rfl⟩, ⟨i, rfl⟩⟩

/-- **C39**, recorded minimum: it is the minimum asked for. If none is asked for and there is no maximum, it is the smallest of all sizes, for every
box; it is NaN only if some size is NaN. (With a maximum it can be larger than all sizes, `C39_maximum_below_minimum`.) -/
theorem C39_recorded_minimum {sqrt cos : K → K} {dem : Grid K C} {wl : K} {mn mx : Option K} {period gravity : K} {crs : C} {geo : Bool}
    {r : Grid K C} (h : wavelengthSizing sqrt cos dem wl mn mx period gravity crs geo = some r) :
    (∀ a, mn = some a → r.hmin = some a) ∧
    (mn = none → mx = none → (∀ m, r.hmin = some m → (∀ i j, ∃ w, r.vals i j = some w ∧ m ≤ w) ∧ ∃ i j, r.vals i j = some m) ∧
      (r.hmin = none → ∃ i j, r.vals i j = none)) := by
  unfold wavelengthSizing at h
  split at h
  · simp at h
  · rename_i z hz
    simp only at h
    split at h
    · refine ⟨fun a ha => by simp at ha, fun _ hmx => ?_⟩
      split at h
      · simp at h
      · rename_i hm hgm
        obtain ⟨g, hg, hr⟩ := Option.map_eq_some_iff.1 h
        rw [mkGrid_array_eq hg] at hr
        subst hr hmx
        simp only [Grid.buildInterpolant, clipAbove]
        constructor
        · intro m hm'
          subst hm'
          obtain ⟨h1, i, j, h2⟩ := gridMin_least hgm
          refine ⟨fun i j => ?_, ?_⟩
          · obtain ⟨i', hi'⟩ := (cyclicVals_range dem.box (fun i j => (z i j).map (waveSize sqrt period gravity wl
              (if geo then metresPerDegree cos ((dem.box.ymin + dem.box.ymax) / 2) else 1))) i j).1
            rw [hi']
            exact h1 i' j
          · obtain ⟨i', hi'⟩ := (cyclicVals_range dem.box (fun i j => (z i j).map (waveSize sqrt period gravity wl
              (if geo then metresPerDegree cos ((dem.box.ymin + dem.box.ymax) / 2) else 1))) i j).2
            exact ⟨i', j, hi'.symm.trans h2⟩
        · intro hm'
          subst hm'
          obtain ⟨i, j, h2⟩ := gridMin_nan hgm
          obtain ⟨i', hi'⟩ := (cyclicVals_range dem.box (fun i j => (z i j).map (waveSize sqrt period gravity wl
              (if geo then metresPerDegree cos ((dem.box.ymin + dem.box.ymax) / 2) else 1))) i j).2
          exact ⟨i', j, hi'.symm.trans h2⟩
    · obtain ⟨g, hg, hr⟩ := Option.map_eq_some_iff.1 h
      rw [mkGrid_array_eq hg] at hr
      subst hr
      exact ⟨fun b hb => hb, fun hn => by simp at hn⟩

end

example : (wavelengthSizing sqrtEx id waveEx 1 none none 1 1 0 false).map (fun r => (shown r, r.hmin)) =
    some (([[some 2], [some 3]], some true), some 2) := by decide +kernel

end OM
