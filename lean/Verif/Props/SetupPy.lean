import Verif.Model.SetupPy
import Mathlib.Data.List.Nodup
/-!
# C139: building the package
-/
namespace OM
namespace Spec

/-- The names of the modules that the package imports. -/
def importedNames : List (List Char) := ["_HamiltonJacobi".toList, "_delaunay_class".toList, "_fast_geometry".toList]

/-- `cythonize` makes one extension of the same name of each. -/
def KeepsNames (cythonize : List ExtModule → List ExtModule) : Prop := ∀ l, (cythonize l).map ExtModule.name = l.map ExtModule.name

/-- A text without blanks. -/
def Requirement (w : List Char) : Prop := w ≠ [] ∧ ∀ c ∈ w, c ≠ ' ' ∧ c ≠ '\n' ∧ c ≠ '\t'

end Spec
open Spec

theorem compiledModule_fields (e : SetupEnv) (q : List Char × List Char) :
    (compiledModule e q).name = q.2 ∧ (compiledModule e q).source = q.1 ∧ (compiledModule e q).libraries = ["gmp".toList, "mpfr".toList] := by
  unfold compiledModule
  split_ifs
  · rcases prefixPaths e.isdir (chosenPrefix e) with ⟨_ | i, _ | b⟩ <;> exact ⟨rfl, rfl, rfl⟩
  · exact ⟨rfl, rfl, rfl⟩

theorem mem_pybind {e : SetupEnv} {x : ExtModule} (h : x ∈ pybindExtensions e) : ∃ q ∈ compiledModules, compiledModule e q = x := by
  unfold pybindExtensions at h
  by_cases hp : e.pybind = true
  · rw [if_pos hp] at h
    exact List.mem_map.1 h
  · rw [if_neg hp] at h
    exact absurd h List.not_mem_nil

theorem pybind_names (e : SetupEnv) (h : e.pybind = true) : (pybindExtensions e).map ExtModule.name = importedNames := by
  unfold pybindExtensions
  rw [if_pos h, List.map_map]
  have : ExtModule.name ∘ compiledModule e = Prod.snd := funext fun q => (compiledModule_fields e q).1
  rw [this]
  rfl

theorem inpoly_not_imported : inpolyName ∉ importedNames := by decide +kernel

theorem cython_names (e : SetupEnv) : (cythonExtensions e).map ExtModule.name = if e.numpy = true ∧ (e.pyx = true ∨ e.cfile = true) then [inpolyName] else [] := by
  unfold cythonExtensions
  cases e.numpy <;> cases e.pyx <;> cases e.cfile <;> rfl

/-- **C139** (1) With pybind11 the modules that the package imports are in the list once each, in order, and with them the module for points in polygons exactly if numpy and a source of it are there; no name occurs
twice, with or without Cython. Without pybind11 at most the module for points in polygons is in the list. -/
theorem C139_names (e : SetupEnv) (cythonize : List ExtModule → List ExtModule) (hc : KeepsNames cythonize) :
    (setupExtensions e cythonize).map ExtModule.name =
      (if e.pybind = true then importedNames else []) ++ (if e.numpy = true ∧ (e.pyx = true ∨ e.cfile = true) then [inpolyName] else []) ∧
    ((setupExtensions e cythonize).map ExtModule.name).Nodup := by
  have hp : (pybindExtensions e).map ExtModule.name = if e.pybind = true then importedNames else [] := by
    by_cases h : e.pybind = true
    · rw [pybind_names e h, if_pos h]
    · unfold pybindExtensions
      rw [if_neg h, if_neg h]
      rfl
  have hcn : ∀ x ∈ cythonExtensions e, x.name = inpolyName := by
    intro x hx
    have := List.mem_map_of_mem (f := ExtModule.name) hx
    rw [cython_names] at this
    split_ifs at this
    · simpa using this
    · simp at this
  have hpn : ∀ x ∈ pybindExtensions e, x.name ≠ inpolyName := by
    intro x hx h
    have hm := List.mem_map_of_mem (f := ExtModule.name) hx
    rw [hp] at hm
    split_ifs at hm
    · rw [h] at hm
      exact inpoly_not_imported hm
    · simp at hm
  have key : (setupExtensions e cythonize).map ExtModule.name =
      (if e.pybind = true then importedNames else []) ++ (if e.numpy = true ∧ (e.pyx = true ∨ e.cfile = true) then [inpolyName] else []) := by
    unfold setupExtensions
    simp only
    split_ifs with h
    all_goals try rw [List.map_append]
    all_goals
      first
      | (rw [hc, cython_names, List.filter_append, List.filter_eq_self.2, List.filter_eq_nil_iff.2, List.append_nil, hp]
         · simp_all
         · intro x hx
           simpa using hx
         · intro x hx
           simp only [decide_eq_true_eq]
           intro hx'
           exact hpn x hx (hcn x hx'))
      | (rw [cython_names, hp]; simp_all)
  refine ⟨key, ?_⟩
  rw [key]
  have h1 : importedNames.Nodup := by decide +kernel
  have h2 := inpoly_not_imported
  split_ifs
  · rw [List.nodup_append]
    refine ⟨h1, by simp, ?_⟩
    intro a ha b hb hab
    rw [List.mem_singleton] at hb
    rw [← hb, ← hab] at h2
    exact h2 ha
  · simpa using h1
  · simp
  · simp

/-- **C139** (2) Each of the three modules is made of its own source and linked with gmp and mpfr. -/
theorem C139_sources (e : SetupEnv) : ∀ x ∈ pybindExtensions e, (x.source, x.name) ∈ compiledModules ∧ x.libraries = ["gmp".toList, "mpfr".toList] := by
  intro x hx
  obtain ⟨q, hq, rfl⟩ := mem_pybind hx
  obtain ⟨h1, h2, h3⟩ := compiledModule_fields e q
  rw [h1, h2]
  exact ⟨hq, h3⟩

/-- **C139** (2b) The module for points in polygons is made of the `.pyx` file if that is there, of the `.c` file if only that is, and knows the headers of numpy. -/
theorem C139_inpoly (e : SetupEnv) : ∀ x ∈ cythonExtensions e, x.includeDirs = ["numpy".toList] ∧ (e.pyx = true → x.source = "point_in_polygon_.pyx".toList) ∧
    (e.pyx = false → e.cfile = true ∧ x.source = "point_in_polygon_.c".toList) := by
  intro x hx
  unfold cythonExtensions at hx
  cases hn : e.numpy <;> cases hp : e.pyx <;> cases hc : e.cfile <;> simp only [hn, hp, hc, if_true, Bool.false_eq_true, if_false, List.mem_singleton, List.not_mem_nil] at hx
  all_goals subst hx; exact ⟨rfl, by simp, by simp⟩

theorem prefixPaths_fst (isdir : List Char → Bool) (pre : Option (List Char)) (i : List Char) :
    (prefixPaths isdir pre).1 = some i ↔ ∃ p, pre = some p ∧ p ≠ [] ∧ i = p ++ "/include".toList ∧ isdir i = true := by
  rcases pre with _ | _ | ⟨c, l⟩
  · simp [prefixPaths]
  · simp [prefixPaths]
  · simp only [prefixPaths]
    split_ifs with h
    · simp only [Option.some.injEq, ne_eq]
      constructor
      · rintro rfl; exact ⟨_, rfl, by simp, rfl, h⟩
      · rintro ⟨p, rfl, -, rfl, -⟩; rfl
    · simp only [reduceCtorEq, false_iff]
      rintro ⟨p, hp, -, rfl, h'⟩
      rw [← Option.some.inj hp] at h'
      exact h h'

theorem prefixPaths_snd (isdir : List Char → Bool) (pre : Option (List Char)) (i : List Char) :
    (prefixPaths isdir pre).2 = some i ↔ ∃ p, pre = some p ∧ p ≠ [] ∧ i = p ++ "/lib".toList ∧ isdir i = true := by
  rcases pre with _ | _ | ⟨c, l⟩
  · simp [prefixPaths]
  · simp [prefixPaths]
  · simp only [prefixPaths]
    split_ifs with h
    · simp only [Option.some.injEq, ne_eq]
      constructor
      · rintro rfl; exact ⟨_, rfl, by simp, rfl, h⟩
      · rintro ⟨p, rfl, -, rfl, -⟩; rfl
    · simp only [reduceCtorEq, false_iff]
      rintro ⟨p, hp, -, rfl, h'⟩
      rw [← Option.some.inj hp] at h'
      exact h h'

/-- The prefix that is used: the own variable if it is set and not empty, else that of conda. -/
theorem C139_prefix (e : SetupEnv) : (∀ p, e.oceanmeshPrefix = some p → p ≠ [] → chosenPrefix e = some p) ∧ (e.oceanmeshPrefix = none ∨ e.oceanmeshPrefix = some [] → chosenPrefix e = e.condaPrefix) := by
  unfold chosenPrefix
  refine ⟨fun p h hp => ?_, fun h => ?_⟩
  · obtain ⟨c, l, rfl⟩ := List.exists_cons_of_ne_nil hp
    rw [h]
  · rcases h with h | h <;> rw [h]

/-- **C139** (3) Outside Windows the directories `include` and `lib` of the prefix are used exactly if they exist, each by itself; the one with the libraries also as search path when the program runs. -/
theorem C139_paths (e : SetupEnv) (hw : e.windows = false) : ∀ x ∈ pybindExtensions e,
    (∀ d, d ∈ x.includeDirs ↔ ∃ p, chosenPrefix e = some p ∧ p ≠ [] ∧ d = p ++ "/include".toList ∧ e.isdir d = true) ∧
    (∀ d, d ∈ x.libraryDirs ↔ ∃ p, chosenPrefix e = some p ∧ p ≠ [] ∧ d = p ++ "/lib".toList ∧ e.isdir d = true) ∧
    (∀ a, a ∈ x.linkArgs ↔ ∃ d ∈ x.libraryDirs, a = "-L".toList ++ d ∨ a = "-Wl,-rpath,".toList ++ d) := by
  intro x hx
  · obtain ⟨q, hq, rfl⟩ := mem_pybind hx
    unfold compiledModule
    simp only [hw, Bool.false_eq_true, if_false]
    refine ⟨fun d => ?_, fun d => ?_, fun a => ?_⟩
    · rw [← prefixPaths_fst e.isdir (chosenPrefix e) d]
      simp
    · rw [← prefixPaths_snd e.isdir (chosenPrefix e) d]
      simp
    · simp only [List.mem_flatMap, List.mem_cons, List.not_mem_nil, or_false]

/-- **C139** (4) On Windows the prefix is used only if both directories exist, otherwise vcpkg. -/
theorem C139_windows (e : SetupEnv) (hw : e.windows = true) : ∀ x ∈ pybindExtensions e,
    (∀ p, chosenPrefix e = some p → p ≠ [] → e.isdir (p ++ "/include".toList) = true → e.isdir (p ++ "/lib".toList) = true →
      x.includeDirs = [p ++ "/include".toList] ∧ x.libraryDirs = [p ++ "/lib".toList]) ∧
    ((∀ p, chosenPrefix e = some p → p ≠ [] → ¬ (e.isdir (p ++ "/include".toList) = true ∧ e.isdir (p ++ "/lib".toList) = true)) → x.includeDirs = [e.vcpkg ++ "/include".toList] ∧ x.libraryDirs = []) := by
  intro x hx
  · obtain ⟨q, hq, rfl⟩ := mem_pybind hx
    unfold compiledModule
    simp only [hw, if_true]
    refine ⟨fun p h1 h2 h3 h4 => ?_, fun h => ?_⟩
    · have e1 := (prefixPaths_fst e.isdir (chosenPrefix e) (p ++ "/include".toList)).2 ⟨p, h1, h2, rfl, h3⟩
      have e2 := (prefixPaths_snd e.isdir (chosenPrefix e) (p ++ "/lib".toList)).2 ⟨p, h1, h2, rfl, h4⟩
      rcases hpp : prefixPaths e.isdir (chosenPrefix e) with ⟨i, b⟩
      rw [hpp] at e1 e2
      simp only at e1 e2
      rw [e1, e2]
      exact ⟨rfl, rfl⟩
    · rcases hpp : prefixPaths e.isdir (chosenPrefix e) with ⟨_ | i, _ | b⟩
      · exact ⟨rfl, rfl⟩
      · exact ⟨rfl, rfl⟩
      · exact ⟨rfl, rfl⟩
      · exfalso
        obtain ⟨p, h1, h2, h3, h4⟩ := (prefixPaths_fst e.isdir (chosenPrefix e) i).1 (by rw [hpp])
        obtain ⟨p', h1', -, h3', h4'⟩ := (prefixPaths_snd e.isdir (chosenPrefix e) b).1 (by rw [hpp])
        rw [h1, Option.some.injEq] at h1'
        subst h1' h3 h3'
        exact h p h1 h2 ⟨h4, h4'⟩

/-! ### Requirements -/

theorem splitBlanks_word {w : List Char} (hw : ∀ c ∈ w, c ≠ ' ' ∧ c ≠ '\n' ∧ c ≠ '\t') (rest : List Char) :
    ∃ v l, splitBlanks rest = v :: l ∧ splitBlanks (w ++ rest) = (w ++ v) :: l := by
  have hne : ∀ l, ∃ v t, splitBlanks l = v :: t := by
    intro l
    induction l with
    | nil => exact ⟨[], [], rfl⟩
    | cons c l ih =>
      obtain ⟨v, t, h⟩ := ih
      simp only [splitBlanks, List.foldr_cons] at h ⊢
      rw [h]
      split_ifs
      · exact ⟨_, _, rfl⟩
      · exact ⟨_, _, rfl⟩
  induction w with
  | nil =>
    obtain ⟨v, l, h⟩ := hne rest
    exact ⟨v, l, h, by simpa using h⟩
  | cons c w ih =>
    obtain ⟨v, l, h1, h2⟩ := ih (fun d hd => hw d (List.mem_cons_of_mem _ hd))
    refine ⟨v, l, h1, ?_⟩
    obtain ⟨a, b, d⟩ := hw c List.mem_cons_self
    simp only [splitBlanks, List.cons_append, List.foldr_cons] at h2 ⊢
    rw [h2, if_neg (by simp [a, b, d])]

theorem splitBlanks_line {w : List Char} (hw : Requirement w) {gap rest : List Char} (hg : gap ≠ []) (hgap : ∀ c ∈ gap, c = ' ' ∨ c = '\n' ∨ c = '\t') :
    (splitBlanks (gap ++ w ++ rest)).filter (· ≠ []) = (splitBlanks (w ++ rest)).filter (· ≠ []) := by
  induction gap with
  | nil => exact absurd rfl hg
  | cons c gap ih =>
    have hc := hgap c List.mem_cons_self
    have e : splitBlanks (c :: gap ++ w ++ rest) = [] :: splitBlanks (gap ++ w ++ rest) := by
      simp only [splitBlanks, List.cons_append, List.foldr_cons]
      rw [if_pos hc]
    rw [e, List.filter_cons_of_neg (by simp)]
    cases gap with
    | nil => simp
    | cons d gap => exact ih (by simp) (fun x hx => hgap x (List.mem_cons_of_mem _ hx))

theorem removeFirst_mem {x : List Char} : ∀ {l : List (List Char)}, x ∈ l → ∃ a b, l = a ++ x :: b ∧ x ∉ a ∧ removeFirst x l = some (a ++ b) := by
  intro l
  induction l with
  | nil => intro h; simp at h
  | cons y l ih =>
    intro h
    unfold removeFirst
    by_cases hy : y = x
    · exact ⟨[], l, by simp [hy], by simp, by simp [hy]⟩
    · obtain ⟨a, b, h1, h2, h3⟩ := ih ((List.mem_cons.1 h).resolve_left (fun e => hy e.symm))
      refine ⟨y :: a, b, by rw [h1]; rfl, ?_, by rw [if_neg hy, h3]; rfl⟩
      intro hm
      rcases List.mem_cons.1 hm with e | hm
      · exact hy e.symm
      · exact h2 hm

theorem removeFirst_none {x : List Char} {l : List (List Char)} (h : x ∉ l) : removeFirst x l = none := by
  induction l with
  | nil => rfl
  | cons y l ih =>
    unfold removeFirst
    rw [if_neg (fun e : y = x => h (e ▸ List.mem_cons_self)), ih (fun hm => h (List.mem_cons_of_mem _ hm))]
    rfl

theorem splitBlanks_lines (ws : List (List Char)) (hws : ∀ w ∈ ws, Requirement w) (gaps : List (List Char)) (hl : gaps.length = ws.length)
    (hg : ∀ g ∈ gaps, g ≠ [] ∧ ∀ c ∈ g, c = ' ' ∨ c = '\n' ∨ c = '\t') : (splitBlanks ((gaps.zip ws).flatMap fun q => q.1 ++ q.2)).filter (· ≠ []) = ws := by
  induction ws generalizing gaps with
  | nil => simp [splitBlanks]
  | cons w ws ih =>
    cases gaps with
    | nil => simp at hl
    | cons g gaps =>
      have hw := hws w List.mem_cons_self
      obtain ⟨hg1, hg2⟩ := hg g List.mem_cons_self
      rw [List.zip_cons_cons, List.flatMap_cons]
      rw [splitBlanks_line hw hg1 hg2]
      have ih' := ih (fun x hx => hws x (List.mem_cons_of_mem _ hx)) gaps (by simpa using hl) (fun x hx => hg x (List.mem_cons_of_mem _ hx))
      obtain ⟨v, l, h1, h2⟩ := splitBlanks_word hw.2 ((gaps.zip ws).flatMap fun q => q.1 ++ q.2)
      have hv : v = [] := by
        cases gaps with
        | nil =>
          simp only [List.zip_nil_left, List.flatMap_nil, splitBlanks, List.foldr_nil, List.cons.injEq] at h1
          exact h1.1.symm
        | cons g' gaps =>
          cases ws with
          | nil => simp at hl
          | cons w' ws =>
            obtain ⟨hne, hch⟩ := hg g' (by simp)
            obtain ⟨c, g'', rfl⟩ := List.exists_cons_of_ne_nil hne
            simp only [List.zip_cons_cons, List.flatMap_cons, List.cons_append, splitBlanks, List.foldr_cons] at h1
            rw [if_pos (hch c List.mem_cons_self)] at h1
            simp only [List.cons.injEq] at h1
            exact h1.1.symm
      rw [h1, hv] at ih'
      rw [List.filter_cons_of_neg (by simp)] at ih'
      rw [h2, hv, List.append_nil, List.filter_cons_of_pos (by simpa using hw.1), ih']

/-- **C139** (5) If the entry of `setup.cfg` is a list of requirements without blanks in them, with blanks and line ends between them, the requirements are that list; before Python 3.9 the first `fiona` is
taken out and `fiona<1.10` put at the end, and it raises if there is no entry that is `fiona` alone. -/
theorem C139_requirements (ws : List (List Char)) (hws : ∀ w ∈ ws, Requirement w) (gaps : List (List Char)) (hl : gaps.length = ws.length)
    (hg : ∀ g ∈ gaps, g ≠ [] ∧ ∀ c ∈ g, c = ' ' ∨ c = '\n' ∨ c = '\t') :
    requirementsOf ((gaps.zip ws).flatMap fun q => q.1 ++ q.2) false = some ws ∧
    (∀ a b, ws = a ++ "fiona".toList :: b → "fiona".toList ∉ a → requirementsOf ((gaps.zip ws).flatMap fun q => q.1 ++ q.2) true = some (a ++ b ++ ["fiona<1.10".toList])) ∧
    ("fiona".toList ∉ ws → requirementsOf ((gaps.zip ws).flatMap fun q => q.1 ++ q.2) true = none) := by
  have e := splitBlanks_lines ws hws gaps hl hg
  unfold requirementsOf
  simp only [e, if_true, Bool.false_eq_true, if_false]
  refine ⟨trivial, ?_, ?_⟩
  · rintro a b rfl ha
    obtain ⟨a', b', h1, h2, h3⟩ := removeFirst_mem (x := "fiona".toList) (l := a ++ "fiona".toList :: b) (by simp)
    rw [h3]
    have : a = a' ∧ b = b' := by
      clear h3 hws hl e
      induction a generalizing a' with
      | nil =>
        cases a' with
        | nil => simpa using h1
        | cons y a' =>
          simp only [List.nil_append, List.cons_append, List.cons.injEq] at h1
          exact absurd (h1.1 ▸ List.mem_cons_self) h2
      | cons x a ih =>
        cases a' with
        | nil =>
          simp only [List.nil_append, List.cons_append, List.cons.injEq] at h1
          exact absurd (h1.1 ▸ List.mem_cons_self) ha
        | cons y a' =>
          simp only [List.cons_append, List.cons.injEq] at h1
          obtain ⟨e1, e2⟩ := ih (fun h => ha (List.mem_cons_of_mem _ h)) a' h1.2 (fun h => h2 (List.mem_cons_of_mem _ h))
          exact ⟨by rw [h1.1, e1], e2⟩
    rw [this.1, this.2]
    rfl
  · intro h
    rw [removeFirst_none h]
    rfl

/-- **C139** (6) A requirement written with blanks is torn apart, and a pinned `fiona` makes the old Python branch raise. -/
theorem C139_torn : requirementsOf "\nnumpy\nrasterio >= 1.3".toList false = some ["numpy".toList, "rasterio".toList, ">=".toList, "1.3".toList] ∧
    requirementsOf "\nnumpy\nfiona>=1.8".toList true = none := by
  constructor <;> decide +kernel

example : ∃ (ws gaps : List (List Char)), (∀ w ∈ ws, Requirement w) ∧ gaps.length = ws.length ∧ (∀ g ∈ gaps, g ≠ [] ∧ ∀ c ∈ g, c = ' ' ∨ c = '\n' ∨ c = '\t') ∧ "fiona".toList ∈ ws ∧
    (gaps.zip ws).flatMap (fun q => q.1 ++ q.2) = "\nnumpy\n  fiona".toList ∧ requirementsOf "\nnumpy\n  fiona".toList true = some ["numpy".toList, "fiona<1.10".toList] := by
  refine ⟨["numpy".toList, "fiona".toList], ["\n".toList, "\n  ".toList], ?_, rfl, ?_, by simp, by decide +kernel, by decide +kernel⟩
  · unfold Requirement; decide +kernel
  · decide +kernel

example : ∃ e : SetupEnv, e.pybind = true ∧ e.windows = false ∧ (pybindExtensions e).length = 3 ∧ ∀ x ∈ pybindExtensions e, x.includeDirs = ["/opt/include".toList] ∧ x.libraryDirs = [] ∧ x.linkArgs = [] :=
  ⟨⟨true, true, true, false, some [], some "/opt".toList, [], fun d => decide (d = "/opt/include".toList), true, false⟩, rfl, rfl, by decide +kernel, by decide +kernel⟩

example : ∃ e : SetupEnv, e.windows = true ∧ chosenPrefix e = some "D:/m".toList ∧ e.isdir ("D:/m".toList ++ "/include".toList) = true ∧ e.isdir ("D:/m".toList ++ "/lib".toList) = true ∧
    (pybindExtensions e).length = 3 :=
  ⟨⟨true, true, true, true, some "D:/m".toList, none, "C:/v".toList, fun _ => true, true, false⟩, rfl, by decide +kernel, rfl, rfl, by decide +kernel⟩

example : KeepsNames (fun l => l.map fun x => { x with source := "point_in_polygon_.c".toList }) := by
  intro l
  simp [Function.comp_def]

end OM
