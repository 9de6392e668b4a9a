import Verif.Model.BuildCommands
import Verif.Props.BuildVersion
/-!
# The build commands write the version where it belongs and nowhere else (C154)
-/
set_option linter.unusedSectionVars false
namespace OM
open Spec
section
variable {P : Type} [DecidableEq P]

/-- The number for new files is larger than that of any file with a name. -/
def Spec.GoodDisk (d : Disk P) : Prop := ∀ p i, d.node p = some i → i < d.fresh

/-- The second disk differs from the first only in that `p` reads as `s`. -/
def Spec.OnlyReplaced (p : P) (s : List Char) (before after : Disk P) : Prop := after.read p = some s ∧ ∀ q, q ≠ p → after.read q = before.read q

theorem replaced {d d1 : Disk P} (hd : GoodDisk d) {p : P} (h : d.unlink p = some d1) (s : List Char) : OnlyReplaced p s d (d1.write p s) ∧ GoodDisk (d1.write p s) := by
  unfold Disk.unlink at h
  split at h
  · cases h
  · cases h
    have hw : (Disk.write ⟨fun q => if q = p then none else d.node q, d.text, d.fresh⟩ p s) =
        ⟨fun q => if q = p then some d.fresh else if q = p then none else d.node q, fun j => if j = d.fresh then s else d.text j, d.fresh + 1⟩ := by
      simp only [Disk.write, if_true]
    rw [hw]
    refine ⟨⟨by simp [Disk.read], fun q hq => ?_⟩, fun q i hi => ?_⟩
    · simp only [Disk.read, if_neg hq]
      rcases hn : d.node q with _ | i
      · rfl
      · simp only [Option.map_some, Option.some.injEq]
        exact if_neg (hd q i hn).ne
    · dsimp only at hi ⊢
      by_cases hq : q = p
      · rw [if_pos hq] at hi; cases hi; omega
      · rw [if_neg hq, if_neg hq] at hi
        have := hd q i hi
        omega

theorem unlink_some {d : Disk P} {p : P} : (∃ d1, d.unlink p = some d1) ↔ ∃ s, d.read p = some s := by
  unfold Disk.unlink Disk.read
  rcases d.node p with _ | i <;> simp

/-- **C154** (1): writing the version file succeeds exactly if there was one, and then changes the text under that name and under no other, also if the file has
other names. -/
theorem C154_write {d : Disk P} (hd : GoodDisk d) (p : P) (v : List (List Char × VersionValue)) :
    ((writeVersionTo p v d).2 = true ↔ ∃ s, d.read p = some s) ∧ ((writeVersionTo p v d).2 = true → OnlyReplaced p (writeVersionFile v) d (writeVersionTo p v d).1) ∧
      ((writeVersionTo p v d).2 = false → (writeVersionTo p v d).1 = d) := by
  unfold writeVersionTo
  rcases h : d.unlink p with _ | d1
  · refine ⟨⟨nofun, fun hs => ?_⟩, nofun, fun _ => rfl⟩
    obtain ⟨d1, h1⟩ := unlink_some.2 hs
    rw [h] at h1
    cases h1
  · exact ⟨⟨fun _ => unlink_some.1 ⟨d1, h⟩, fun _ => rfl⟩, fun _ => (replaced hd h _).1, nofun⟩

theorem andThen_true {r : Disk P × Bool} {f : Disk P → Disk P × Bool} : (andThen r f).2 = true ↔ r.2 = true ∧ (f r.1).2 = true := by
  unfold andThen
  rcases r with ⟨e, _ | _⟩ <;> simp

/-- **C154** (2): a source distribution is made exactly if its tree was made, a version file is configured and is in the tree. Then the version file in the tree says
the version, and everything else reads as in the tree that was made, also if the files are hard links to the sources. -/
theorem C154_sdist {join : P → List Char → P} {tree : Disk P → Disk P × Bool} {d : Disk P} (ht : GoodDisk (tree d).1) (cfg : VersioneerConfig) (base : P)
    (v : List (List Char × VersionValue)) :
    ((sdistTree join tree cfg base v d).2 = true ↔ (tree d).2 = true ∧ ∃ s text, cfg.source = some s ∧ (tree d).1.read (join base s) = some text) ∧
      ∀ s, cfg.source = some s → (sdistTree join tree cfg base v d).2 = true →
        OnlyReplaced (join base s) (writeVersionFile v) (tree d).1 (sdistTree join tree cfg base v d).1 := by
  have h1 : (sdistTree join tree cfg base v d).2 = true ↔ _ := andThen_true
  refine ⟨?_, fun s hs h => ?_⟩
  · rw [h1]
    rcases hs : cfg.source with _ | s
    · simp
    · simp [(C154_write ht (join base s) v).1]
  · obtain ⟨hr, hw⟩ := h1.1 h
    rw [hs] at hw
    simp only [sdistTree, andThen, hr, if_true, hs]
    exact (C154_write ht _ v).2.1 hw

/-- **C154** (3): a package built from that source distribution gets the version that was written, whatever git and the names of directories say. -/
theorem C154_sdist_version (loads : List Char → Option (List Char)) {join : P → List Char → P} {tree : Disk P → Disk P × Bool} {d : Disk P} (ht : GoodDisk (tree d).1)
    {cfg : VersioneerConfig} (hv : cfg.vcs = "git".toList) {src pre : List Char} (hs : cfg.source = some src) (hp : cfg.tagPrefix = some pre) (base : P)
    (v : List (List Char × VersionValue)) (h : (sdistTree join tree cfg base v d).2 = true) (git : Option (GitAnswers × Option (List Char))) (root : List (List Char)) :
    buildVersion loads cfg ((sdistTree join tree cfg base v d).1.read (join base src)) git root = loads (jsonDict v ++ ['\n']) := by
  rw [((C154_sdist ht cfg base v).2 src hs h).1]
  exact C150_sdist loads hv hs hp v git root

/-- **C154** (4): the sources are not changed by making a source distribution: a file that the release tree leaves as it was reads as before. -/
theorem C154_sources_kept {join : P → List Char → P} {tree : Disk P → Disk P × Bool} {d : Disk P} (ht : GoodDisk (tree d).1) (cfg : VersioneerConfig) {base : P}
    (v : List (List Char × VersionValue)) {q : P} (hq : ∀ s, cfg.source = some s → q ≠ join base s) (hk : (tree d).1.read q = d.read q) :
    (sdistTree join tree cfg base v d).1.read q = d.read q := by
  by_cases hr : (tree d).2 = true
  · rcases hs : cfg.source with _ | s
    · simp only [sdistTree, andThen, hr, if_true, hs, hk]
    · simp only [sdistTree, andThen, hr, if_true, hs]
      obtain ⟨-, h2, h3⟩ := C154_write ht (join base s) v
      by_cases hw : (writeVersionTo (join base s) v (tree d).1).2 = true
      · rw [(h2 hw).2 q (hq s hs), hk]
      · rw [h3 (by simpa using hw), hk]
  · simp only [sdistTree, andThen, hr, if_false, hk, Bool.false_eq_true]

/-- **C154** (5): building the Python files: if a version file for the build is configured it must be among the built files and is replaced by the version; otherwise the
built files stay. -/
theorem C154_build_py {join : P → List Char → P} {run : Disk P → Disk P × Bool} {d : Disk P} (hr : GoodDisk (run d).1) (cfg : VersioneerConfig) (lib : P)
    (v : List (List Char × VersionValue)) :
    ((buildPy join run cfg lib v d).2 = true ↔ (run d).2 = true ∧ ∀ b, cfg.build = some b → b ≠ [] → ∃ s, (run d).1.read (join lib b) = some s) ∧
      ((buildPy join run cfg lib v d).2 = true → (∀ b, cfg.build = some b → b ≠ [] → OnlyReplaced (join lib b) (writeVersionFile v) (run d).1 (buildPy join run cfg lib v d).1) ∧
        (cfg.build = none ∨ cfg.build = some [] → (buildPy join run cfg lib v d).1 = (run d).1)) := by
  have h1 : (buildPy join run cfg lib v d).2 = true ↔ _ := andThen_true
  refine ⟨?_, fun h => ?_⟩
  · rw [h1]
    rcases hb : cfg.build with _ | (_ | ⟨c, b⟩)
    · simp
    · simp
    · simp [(C154_write hr (join lib (c :: b)) v).1]
  · obtain ⟨h2, h3⟩ := h1.1 h
    rcases hb : cfg.build with _ | (_ | ⟨c, b⟩) <;> rw [hb] at h3 <;> simp only [buildPy, andThen, h2, if_true, hb]
    · exact ⟨nofun, fun _ => trivial⟩
    · exact ⟨fun b e hne => absurd (Option.some.inj e).symm hne, fun _ => trivial⟩
    · refine ⟨fun b' e _ => ?_, fun e => by rcases e with e | e <;> cases e⟩
      cases e
      exact (C154_write hr _ v).2.1 h3

/-- **C154** (6): building extensions in place changes nothing else; otherwise it raises exactly if there is no version file among the built files, or none is
configured. -/
theorem C154_build_ext {join : P → List Char → P} {run : Disk P → Disk P × Bool} {d : Disk P} (hr : GoodDisk (run d).1) (inplace : Bool) (cfg : VersioneerConfig) (lib : P)
    (v : List (List Char × VersionValue)) :
    ((buildExt join run inplace cfg lib v d).2 = true ↔ (run d).2 = true ∧ (inplace = true ∨ ∃ b s, cfg.build = some b ∧ (run d).1.read (join lib b) = some s)) ∧
      (inplace = true → buildExt join run inplace cfg lib v d = run d) ∧
      (inplace = false → ∀ b, cfg.build = some b → (buildExt join run inplace cfg lib v d).2 = true →
        OnlyReplaced (join lib b) (writeVersionFile v) (run d).1 (buildExt join run inplace cfg lib v d).1) := by
  have h1 : (buildExt join run inplace cfg lib v d).2 = true ↔ _ := andThen_true
  refine ⟨?_, fun hi => ?_, fun hi b hb h => ?_⟩
  · rw [h1]
    rcases inplace with _ | _
    · rcases hb : cfg.build with _ | b
      · simp
      · simp [(C154_write hr (join lib b) v).1]
    · simp
  · subst hi
    rcases h : run d with ⟨e, _ | _⟩ <;> simp [buildExt, andThen, h]
  · subst hi
    obtain ⟨h2, h3⟩ := h1.1 h
    simp only [Bool.false_eq_true, if_false, hb] at h3
    simp only [buildExt, andThen, h2, if_true, Bool.false_eq_true, if_false, hb]
    exact (C154_write hr _ v).2.1 h3

/-- **C154** (7): freezing replaces the version file by the version while the command runs; after it the file is the template, everything else reads as the command left
it. The text does not depend on what stood in the file. -/
theorem C154_build_exe {here : List Char → P} {run : Disk P → Disk P × Bool} {long : VersioneerConfig → List Char} {cfg : VersioneerConfig} {d : Disk P}
    (hr : ∀ e, GoodDisk e → GoodDisk (run e).1) (hd : GoodDisk d) (v : List (List Char × VersionValue)) (h : (buildExe here run long cfg v d).2 = true) :
    ∃ s e, cfg.source = some s ∧ OnlyReplaced (here s) (writeVersionFile v) d e ∧ (run e).2 = true ∧
      OnlyReplaced (here s) (long cfg) (run e).1 (buildExe here run long cfg v d).1 := by
  unfold buildExe at h ⊢
  rcases hs : cfg.source with _ | s
  · rw [hs] at h; cases h
  · rw [hs] at h
    dsimp only at h ⊢
    obtain ⟨h1, h2⟩ := andThen_true.1 h
    obtain ⟨h3, h4⟩ := andThen_true.1 h2
    have hg : GoodDisk (writeVersionTo (here s) v d).1 := by
      unfold writeVersionTo at h1 ⊢
      rcases hu : d.unlink (here s) with _ | d1
      · rw [hu] at h1; cases h1
      · exact (replaced hd hu _).2
    refine ⟨s, (writeVersionTo (here s) v d).1, rfl, (C154_write hd _ v).2.1 h1, h3, ?_⟩
    simp only [andThen, h1, h3, if_true]
    rcases hu : (run (writeVersionTo (here s) v d).1).1.unlink (here s) with _ | d2
    · rw [hu] at h4; cases h4
    · exact (replaced (hr _ hg) hu _).1

/-- Finding: if the command raises, the source tree keeps the version file with the fixed version. -/
theorem C154_exe_raises {here : List Char → P} {run : Disk P → Disk P × Bool} {long : VersioneerConfig → List Char} {cfg : VersioneerConfig} {d : Disk P} (hd : GoodDisk d)
    {v : List (List Char × VersionValue)} {s text : List Char} (hs : cfg.source = some s) (ht : d.read (here s) = some text) (hf : ∀ e, run e = (e, false)) :
    (buildExe here run long cfg v d).2 = false ∧ (buildExe here run long cfg v d).1.read (here s) = some (writeVersionFile v) := by
  have hw := C154_write hd (here s) v
  have h1 := hw.1.2 ⟨text, ht⟩
  simp only [buildExe, hs, andThen, h1, if_true, hf, Bool.false_eq_true, if_false]
  exact ⟨trivial, (hw.2.1 h1).1⟩

end

/-! ## Findings and examples -/

/-- A tree with the version file of the sources, called 0. -/
def sourceDisk : Disk Nat := ⟨fun p => if p = 0 then some 0 else none, fun _ => "source".toList, 1⟩

/-- Making the release tree: the name 1 is linked to the file of the name 0 (a hard link). -/
def linkTree (d : Disk Nat) : Disk Nat × Bool := ({ d with node := fun p => if p = 1 then d.node 0 else d.node p }, true)

theorem sourceDisk_good : GoodDisk sourceDisk := fun p i h => by
  simp only [sourceDisk] at h ⊢
  split at h
  · cases h; omega
  · cases h

theorem linkTree_good : GoodDisk (linkTree sourceDisk).1 := fun p i h => by
  simp only [linkTree, sourceDisk] at h ⊢
  split at h
  · cases h; omega
  · split at h
    · cases h; omega
    · cases h

/-- The source distribution gets the version, the sources keep their text, although both were one file. -/
example : ((sdistTree (fun b _ => b) linkTree packageConfig 1 [("version".toList, .text "1".toList)] sourceDisk).2 = true) ∧
    (sdistTree (fun b _ => b) linkTree packageConfig 1 [("version".toList, .text "1".toList)] sourceDisk).1.read 0 = some "source".toList := by
  refine ⟨(C154_sdist linkTree_good packageConfig 1 _).1.2 ⟨rfl, _, "source".toList, rfl, rfl⟩, ?_⟩
  exact (C154_sources_kept linkTree_good packageConfig _ (q := 0) (fun s _ => by decide) rfl).trans rfl

/-- Overwriting without removing the name first would change the sources. -/
example : ((linkTree sourceDisk).1.write 1 "new".toList).read 0 = some "new".toList := rfl

/-- Finding: building extensions alone, which makes no Python files, raises after they are built. -/
theorem C154_ext_alone : (buildExt (fun b _ => b) (fun d => (d, true)) false packageConfig 1 [] sourceDisk).2 = false := by
  have h := (C154_build_ext (d := sourceDisk) (join := fun b _ => b) (run := fun d => (d, true)) sourceDisk_good false packageConfig 1 []).1
  rw [← Bool.not_eq_true, h]
  rintro ⟨-, h | ⟨b, s, -, h⟩⟩
  · cases h
  · exact absurd h (by simp [Disk.read, sourceDisk])

/-- Finding: freezing does not restore what stood in the version file. -/
theorem C154_exe_not_restored : ∃ d : Disk Nat, GoodDisk d ∧ d.read 0 = some "source".toList ∧ (buildExe (fun _ => 0) (fun d => (d, true)) (fun _ => []) packageConfig [] d).2 = true ∧
    (buildExe (fun _ => 0) (fun d => (d, true)) (fun _ => []) packageConfig [] d).1.read 0 = some [] :=
  ⟨sourceDisk, sourceDisk_good, rfl, rfl, rfl⟩

example : (buildPy (fun b _ => b) linkTree packageConfig 1 [] sourceDisk).2 = true := rfl
example : (buildExe (fun _ => 0) (fun d => (d, false)) (fun _ => []) packageConfig [] sourceDisk).2 = false ∧ sourceDisk.read 0 = some "source".toList := ⟨rfl, rfl⟩

end OM
