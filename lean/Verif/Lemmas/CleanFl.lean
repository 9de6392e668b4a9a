import Verif.Model.CleanFl
import Verif.Lemmas.Clean8
import Verif.Lemmas.FixMeshFl
/-!
# The cleaning passes with rounded arithmetic: termination, shapes and geometry
-/
set_option linter.unusedSectionVars false
namespace OM
open Spec

section
variable {K : Type} [Field K] [LinearOrder K] [IsStrictOrderedRing K]

/-- A call of `fix_mesh` after which the numbers of vertices and triangles are the same only renumbers vertices and
reorders triangles and corners. -/
theorem fixMeshFl_iso {rnd : K → K} {rint : K → Int} {oP : RowOrder (Row K)} {oT : RowOrder Tri} {p : List (K × K)} {t : List Tri}
    {ptol : K} {R : FixResult K} (h : fixMeshFl rnd rint oP oT p t ptol true = some R) (hp : R.p.length = p.length)
    (ht : R.t.length = t.length) :
    ∃ σ : Nat → Nat, Function.Injective σ ∧ (R.t.map Tri.sort).Perm (t.map fun f => (f.map σ).sort) := by
  obtain ⟨snap, p1, t1, h1, h2, h3, h4⟩ := fixMeshFl_stages h
  rcases h4 with ⟨h4, _⟩ | ⟨_, h4, h5, _⟩
  · simp at h4
  set keys := p.map (snapRowFl rnd rint snap) with hkeys
  set t2 := unique oT (t1.map Tri.sort) with ht2
  set pix := unique natOrder (flatTris t2) with hpix
  have hkl : keys.length = p.length := by rw [hkeys, List.length_map]
  have l1 : p1.length = (unique oP keys).length := by
    rw [gather_length h2, uniqueIndex, List.length_map]
  have l2 : R.p.length = pix.length := gather_length h4
  have hpixlt : ∀ v ∈ pix, v < p1.length := gather_valid h4
  have hpixn : pix.Nodup := unique_nodup _ _
  have hpixle : pix.length ≤ p1.length := by
    have := (hpixn.subperm (l₂ := List.range p1.length) fun v hv => List.mem_range.2 (hpixlt v hv)).length_le
    simpa using this
  have hule : (unique oP keys).length ≤ keys.length := unique_length_le _ _
  have hkn : keys.Nodup := (perm_of_unique_length (o := oP) (l := keys) (by omega)).nodup_iff.1 (unique_nodup _ _)
  have hpixall : ∀ v < p1.length, v ∈ pix := by
    intro v hv
    have : pix.Perm (List.range p1.length) := (hpixn.subperm fun v hv => List.mem_range.2 (hpixlt v hv)).perm_of_length_le
      (by simp; omega)
    rw [this.mem_iff]; exact List.mem_range.2 hv
  have hp1 : p1.length = p.length := by omega
  -- the first renumbering
  obtain ⟨τ, hτ, hτlt', hτinj'⟩ := inverse_facts oP keys hkn
  rw [hkl] at hτlt' hτinj'
  have hτlt : ∀ i < p.length, τ i < p1.length := fun i hi => by rw [l1]; exact hτlt' i hi
  have hτinj := hτinj'
  let σ : Nat → Nat := fun v => if v < p.length then pix.idxOf (τ v) else v
  have hσlt : ∀ v < p.length, σ v = pix.idxOf (τ v) := fun v hv => if_pos hv
  have hvalid : ∀ f ∈ t, ∀ v, HasVertex f v → v < p.length := by
    intro f hf v hv
    obtain ⟨f', _, hm⟩ := forall₂_mem_left (mapTris_forall₂ h3) f hf
    rw [Tri.mapM_eq_some] at hm
    have : ∀ {i j}, (uniqueInverse oP keys)[i]? = some j → i < p.length := by
      intro i j hij
      have := (List.getElem?_eq_some_iff.1 hij).1
      rw [uniqueInverse, List.length_map, hkl] at this; exact this
    rcases hv with rfl | rfl | rfl
    · exact this hm.1
    · exact this hm.2.1
    · exact this hm.2.2
  refine ⟨σ, ?_, ?_⟩
  · intro u v huv
    by_cases hu : u < p.length
    · have hum := hpixall _ (hτlt u hu)
      by_cases hv : v < p.length
      · rw [hσlt u hu, hσlt v hv] at huv
        exact hτinj u hu v hv (idxOf_inj_of_mem hum huv (hpixall _ (hτlt v hv)))
      · rw [hσlt u hu] at huv
        have : σ v = v := if_neg hv
        rw [this] at huv
        have := List.idxOf_lt_length_of_mem hum
        omega
    · have hu' : σ u = u := if_neg hu
      by_cases hv : v < p.length
      · rw [hσlt v hv, hu'] at huv
        have := List.idxOf_lt_length_of_mem (hpixall _ (hτlt v hv))
        omega
      · have hv' : σ v = v := if_neg hv
        rw [hu', hv'] at huv; exact huv
  · have hflip : R.t.map Tri.sort = (t2.map (renum pix)).map Tri.sort := by
      have := flipTrisFl_perm h5
      generalize t2.map (renum pix) = t3 at this
      generalize R.t = t4 at this
      induction this with
      | nil => rfl
      | cons h _ ih => rw [List.map_cons, List.map_cons, ih, OM.sort_eq_of_perm h]
    have ht1 : t1 = t.map (Tri.map τ) := mapTris_eq_map h3 hτ
    have hlen2 : (unique oT (t1.map Tri.sort)).length = (t1.map Tri.sort).length := by
      have e1 : R.t.length = t2.length := by
        have := congrArg List.length hflip; simpa using this
      rw [← ht2, List.length_map, ht1, List.length_map]; omega
    have hperm2 := perm_of_unique_length hlen2
    rw [hflip]
    have hp3 : ((t2.map (renum pix)).map Tri.sort).Perm (((t1.map Tri.sort).map (renum pix)).map Tri.sort) :=
      (hperm2.map _).map _
    refine hp3.trans (List.Perm.of_eq ?_)
    rw [List.map_map, List.map_map, ht1, List.map_map]
    apply List.map_congr_left
    intro f hf
    have hv := hvalid f hf
    show (renum pix (Tri.sort (f.map τ))).sort = _
    have e1 : ∀ g : Tri, renum pix g = g.map (fun v => pix.idxOf v) := fun g => rfl
    rw [e1, sort_map_sort]
    congr 1
    show (⟨_, _, _⟩ : Tri) = ⟨_, _, _⟩
    rw [hσlt _ (hv _ (Or.inl rfl)), hσlt _ (hv _ (Or.inr (Or.inl rfl))), hσlt _ (hv _ (Or.inr (Or.inr rfl)))]
    rfl

/-- Facts about `refixFl` independent of distances. -/
theorem refixFl_shape {E : EngineFl K} {p : List (K × K)} {t : List Tri} {m : Mesh K} (h : refixFl E p t = some m) :
    ValidMesh m.p m.t ∧ (∀ v < m.p.length, ∃ f ∈ m.t, HasVertex f v) ∧ (m.t.Pairwise fun f g => ¬ SameVertices f g) ∧
      (∀ q ∈ m.p, q ∈ p) ∧ m.t.length ≤ t.length ∧ m.p.length ≤ p.length := by
  rw [refixFl, Option.map_eq_some_iff] at h
  obtain ⟨R, hR, rfl⟩ := h
  obtain ⟨snap, -, hf, hu, -, -⟩ := fixMeshFl_facts hR
  exact ⟨hf.valid, hu rfl, hf.distinct, hf.points, hf.lenT, hf.lenP⟩

/-- The result of the loop consists of rows of the input, none twice; the bound on the number of passes is never
reached. -/
theorem exteriorLoopFl_shape (E : EngineFl K) (rand : Nat → Nat → Nat) (p : List (K × K))
    (a thr : K) : ∀ (fuel k : Nat) (t1 acc : List Tri) (an : K) (res : List Tri),
    exteriorLoopFl E rand p a thr fuel k t1 acc an = some res →
    res.length ≤ acc.length + t1.length ∧ ∀ f ∈ res, f ∈ acc ∨ f ∈ t1
  | 0, _, _, _, _, _, h => by simp [exteriorLoopFl] at h
  | fuel + 1, k, t1, acc, an, res, h => by
    rw [exteriorLoopFl] at h
    by_cases hex : exceedsFl E.fl an a thr = true
    · rw [if_pos hex] at h
      split at h
      · simp at h
      · rename_i nflag hn
        split at h
        · rename_i a2 a1 _ _
          obtain ⟨h1, h2⟩ := exteriorLoopFl_shape E rand p a thr fuel _ _ _ _ _ h
          have hl := selectRows_length nflag t1
          have s1 := (selectRows_sublist true nflag t1).subset
          have s2 := (selectRows_sublist false nflag t1).subset
          by_cases hx : exceedsFl E.fl a2 a thr = true
          · rw [if_pos hx] at h1 h2
            rw [List.length_append] at h1
            refine ⟨by omega, fun f hf => ?_⟩
            rcases h2 f hf with h | h
            · rcases List.mem_append.1 h with h | h
              · exact Or.inl h
              · exact Or.inr (s1 h)
            · exact Or.inr (s2 h)
          · rw [if_neg hx] at h1 h2
            refine ⟨by omega, fun f hf => ?_⟩
            rcases h2 f hf with h | h
            · exact Or.inl h
            · exact Or.inr (s2 h)
        · simp at h
    · rw [if_neg hex] at h
      cases h
      exact ⟨by omega, fun f hf => Or.inl hf⟩

/-- More fuel than rows makes no difference. -/
theorem exteriorLoopFl_fuel (E : EngineFl K) (rand : Nat → Nat → Nat) (p : List (K × K))
    (a thr : K) : ∀ (fuel fuel' k : Nat) (t1 acc : List Tri) (an : K), t1.length < fuel → t1.length < fuel' →
    exteriorLoopFl E rand p a thr fuel k t1 acc an = exteriorLoopFl E rand p a thr fuel' k t1 acc an
  | 0, _, _, _, _, _, h, _ => by omega
  | _ + 1, 0, _, _, _, _, _, h => by omega
  | fuel + 1, fuel' + 1, k, t1, acc, an, h, h' => by
    rw [exteriorLoopFl, exteriorLoopFl]
    split
    · split
      · rfl
      · rename_i nflag hn
        split
        · obtain ⟨hi, hf⟩ := dfs_start_flagged hn
          have := selectRows_false_lt hf hi
          exact exteriorLoopFl_fuel E rand p a thr fuel fuel' _ _ _ _ (by omega) (by omega)
        · rfl
    · rfl

theorem deleteExteriorFl_shape {E : EngineFl K} {rand : Nat → Nat → Nat} {p : List (K × K)}
    {t : List Tri} {thr : K} {res : List Tri} (h : deleteExteriorFacesFl E rand p t thr = some res) :
    res.length ≤ t.length ∧ ∀ f ∈ res, f ∈ t := by
  rw [deleteExteriorFacesFl] at h
  split at h
  · simp at h
  · obtain ⟨h1, h2⟩ := exteriorLoopFl_shape _ _ _ _ _ _ _ _ _ _ _ h
    refine ⟨by simpa using h1, fun f hf => ?_⟩
    rcases h2 f hf with h | h
    · simp at h
    · exact h

/-- The stages of a successful pass. -/
theorem traversablePassFl_stages {E : EngineFl K} {rand : Nat → Nat → Nat} {thr : K} {m m' : Mesh K}
    (h : traversablePassFl E rand thr m = some m') :
    ∃ t1 m1 idx, deleteExteriorFacesFl E rand m.p m.t thr = some t1 ∧ t1 ≠ [] ∧ refixFl E m.p t1 = some m1 ∧
      deleteInteriorFaces E.oE E.srtV (E.qual m1.p) m1.p m1.t = some (deleteRows idx m1.t, idx) ∧
      (overConnected (flatPairs (getBoundaryEdges E.oE m1.t)) ≠ [] → ∃ k ∈ idx, k < m1.t.length) ∧
      (overConnected (flatPairs (getBoundaryEdges E.oE m1.t)) = [] → idx = []) ∧
      refixFl E m1.p (deleteRows idx m1.t) = some m' := by
  unfold traversablePassFl at h
  rw [Option.bind_eq_bind, Option.bind_eq_some_iff] at h
  obtain ⟨t1, h1, h⟩ := h
  by_cases ht : t1 = []
  · rw [if_pos ht] at h; simp at h
  rw [if_neg ht, Option.bind_eq_bind, Option.bind_eq_some_iff] at h
  obtain ⟨m1, h2, h⟩ := h
  obtain ⟨hv, hu, -⟩ := refixFl_shape h2
  obtain ⟨idx, h3, h4⟩ := deleteInterior_spec E.oE E.srtV (E.qual m1.p) hv hu
  rw [h3, Option.bind_eq_bind, Option.bind_some] at h
  refine ⟨t1, m1, idx, h1, ht, h2, h3, ?_, ?_, h⟩
  · intro hne
    obtain ⟨v, hvm⟩ := List.exists_mem_of_ne_nil _ hne
    obtain ⟨c, hc, l, -, hl, -, hcl⟩ := forall₂_mem_left h4 v hvm
    obtain ⟨f, hf, -⟩ := (hl c).1 hcl
    exact ⟨c, hc, (List.getElem?_eq_some_iff.1 hf).1⟩
  · intro he
    rw [he, List.forall₂_nil_left_iff] at h4
    exact h4

/-- After a pass that keeps the numbers of faces and vertices the loop stops. -/
theorem traversablePassFl_progress {E : EngineFl K} {rand : Nat → Nat → Nat} {thr : K} {m m' : Mesh K}
    (h : traversablePassFl E rand thr m = some m') :
    m'.p.length ≤ m.p.length ∧ m'.t.length ≤ m.t.length ∧ ValidMesh m'.p m'.t ∧
      (m'.p.length = m.p.length → m'.t.length = m.t.length →
        overConnected (flatPairs (getBoundaryEdges E.oE m'.t)) = []) := by
  obtain ⟨t1, m1, idx, h1, -, h2, -, h4, h5, h6⟩ := traversablePassFl_stages h
  obtain ⟨-, -, -, -, a1, a2⟩ := refixFl_shape h2
  obtain ⟨hv, -, -, -, b1, b2⟩ := refixFl_shape h6
  have c1 := (deleteExteriorFl_shape h1).1
  have c2 := (deleteRows_sublist idx m1.t).length_le
  refine ⟨by omega, by omega, hv, ?_⟩
  intro hp ht
  have hov : overConnected (flatPairs (getBoundaryEdges E.oE m1.t)) = [] := by
    by_contra hne
    obtain ⟨k, hk, hlt⟩ := h4 hne
    have := deleteRows_lt hk hlt
    omega
  have hidx := h5 hov
  subst hidx
  rw [deleteRows_nil] at h6
  rw [refixFl, Option.map_eq_some_iff] at h6
  obtain ⟨R, hR, rfl⟩ := h6
  obtain ⟨σ, hσ, hperm⟩ := fixMeshFl_iso hR (by dsimp only at *; omega) (by dsimp only at *; omega)
  exact overConnected_renumber hσ hperm hov

/-- The loop stops within the number of faces and vertices. -/
theorem traversableLoopFl_total (E : EngineFl K) (rand : Nat → Nat → Nat → Nat) (thr : K) :
    ∀ (fuel k : Nat) (m : Mesh K), m.p.length + m.t.length < fuel →
      ∃ r, traversableLoopFl E rand thr fuel k m = some r
  | 0, _, _, h => by omega
  | fuel + 1, k, m, h => by
    rw [traversableLoopFl]
    split
    · exact ⟨_, rfl⟩
    · split
      · split
        · exact ⟨_, rfl⟩
        · rename_i be bv _ _ _ m' hm'
          obtain ⟨h1, h2, h3, h4⟩ := traversablePassFl_progress hm'
          by_cases heq : m'.p.length = m.p.length ∧ m'.t.length = m.t.length
          · have hov := h4 heq.1 heq.2
            cases fuel with
            | zero =>
              -- no vertices and no faces: the pass raises
              obtain ⟨t1, m1, idx, g1, g2, -⟩ := traversablePassFl_stages hm'
              have := (deleteExteriorFl_shape g1).1
              have : 0 < t1.length := List.length_pos_iff.2 g2
              omega
            | succ fuel =>
              obtain ⟨bv', e1, e2⟩ := externalTopology_isSome E.oE h3
              have := edges_le_vertices hov
              rw [traversableLoopFl, e1]
              dsimp only
              rw [if_neg (by omega)]
              exact ⟨_, rfl⟩
          · exact traversableLoopFl_total E rand thr fuel (k + 1) m' (by omega)
      · exact ⟨_, rfl⟩

/-- When the loop returns, there are no more boundary edges than boundary vertices. -/
theorem traversableLoopFl_exit {E : EngineFl K} {rand : Nat → Nat → Nat → Nat} {thr : K} :
    ∀ {fuel k : Nat} {m m' : Mesh K}, traversableLoopFl E rand thr fuel k m = some (some m') →
      (getBoundaryEdges E.oE m'.t).length ≤ (unique natOrder (flatPairs (getBoundaryEdges E.oE m'.t))).length
  | 0, _, _, _, h => by simp [traversableLoopFl] at h
  | fuel + 1, k, m, m', h => by
    rw [traversableLoopFl] at h
    split at h
    · simp at h
    · rename_i be bv hb
      obtain ⟨rfl, hl⟩ := externalTopology_length hb
      split at h
      · split at h
        · simp at h
        · exact traversableLoopFl_exit h
      · rename_i hlt
        cases h
        omega

/-- An invariant of every pass is an invariant of the loop; `P n m` may mention the number of passes. -/
theorem traversableLoopFl_induct {E : EngineFl K} {rand : Nat → Nat → Nat → Nat} {thr : K} (P : Nat → Mesh K → Prop)
    (hP : ∀ n k m m', P n m → traversablePassFl E (rand k) thr m = some m' → P (n + 1) m') :
    ∀ {fuel k n : Nat} {m m' : Mesh K}, P n m → traversableLoopFl E rand thr fuel k m = some (some m') →
      ∃ n' < n + fuel, P n' m'
  | 0, _, _, _, _, _, h => by simp [traversableLoopFl] at h
  | fuel + 1, k, n, m, m', hn, h => by
    rw [traversableLoopFl] at h
    split at h
    · simp at h
    · split at h
      · split at h
        · simp at h
        · rename_i m1 hm1
          obtain ⟨n', h1, h2⟩ := traversableLoopFl_induct P hP (hP n k m m1 hn hm1) h
          exact ⟨n', by omega, h2⟩
      · cases h
        exact ⟨n, by omega, hn⟩

theorem oneFaceLoopFl_total (E : EngineFl K) : ∀ (fuel : Nat) (left : Option Nat) (m : Mesh K), m.t.length < fuel →
    ∃ r, oneFaceLoopFl E fuel left m = some r
  | 0, _, _, h => by omega
  | fuel + 1, left, m, h => by
    rw [oneFaceLoopFl]
    split
    · exact ⟨_, rfl⟩
    · split
      · exact ⟨_, rfl⟩
      · rename_i d ds hd
        split
        · exact ⟨_, rfl⟩
        · rename_i m' hm'
          have hdm : d ∈ blocksOfTwo 0 (faceToFace E.srtE m.t).2 := by rw [hd]; simp
          have hdl := ((mem_blocksOfTwo_faces E.srtE m.t d).1 hdm).1
          have h1 := deleteRows_lt (idx := d :: ds) (by simp) hdl
          have h2 := (refixFl_shape hm').2.2.2.2.1
          exact oneFaceLoopFl_total E fuel _ m' (by omega)

theorem oneFaceLoopFl_exit {E : EngineFl K} : ∀ {fuel : Nat} {m m' : Mesh K},
    oneFaceLoopFl E fuel none m = some (some m') → blocksOfTwo 0 (faceToFace E.srtE m'.t).2 = []
  | 0, _, _, h => by simp [oneFaceLoopFl] at h
  | fuel + 1, m, m', h => by
    rw [oneFaceLoopFl, if_neg (by simp)] at h
    split at h
    · rename_i hb
      cases h; exact hb
    · split at h
      · simp at h
      · exact oneFaceLoopFl_exit h

theorem oneFaceLoopFl_induct {E : EngineFl K} (P : Nat → Mesh K → Prop)
    (hP : ∀ n m m' idx, P n m → refixFl E m.p (deleteRows idx m.t) = some m' → P (n + 1) m') :
    ∀ {fuel n : Nat} {left : Option Nat} {m m' : Mesh K}, P n m → oneFaceLoopFl E fuel left m = some (some m') →
      ∃ n' < n + fuel, P n' m'
  | 0, _, _, _, _, _, h => by simp [oneFaceLoopFl] at h
  | fuel + 1, n, left, m, m', hn, h => by
    rw [oneFaceLoopFl] at h
    split at h
    · cases h; exact ⟨n, by omega, hn⟩
    · split at h
      · cases h; exact ⟨n, by omega, hn⟩
      · split at h
        · simp at h
        · rename_i m1 hm1
          obtain ⟨n', h1, h2⟩ := oneFaceLoopFl_induct P hP (hP _ _ _ _ hn hm1) h
          exact ⟨n', by omega, h2⟩

theorem meshCleanFl_stages {E : EngineFl K} {len : K × K → K × K → K} {nodes : List (K × K) → Option (List Nat)}
    {rand rand' : Nat → Nat → Nat → Nat} {a : CleanParams K} {m m' : Mesh K} (h : meshCleanFl E len nodes rand rand' a m = some (some m')) :
    ∃ m1 m2 m3 ifix m4 m5, makeTraversableFl E rand a.minArea m = some (some m1) ∧ deleteBoundaryFacesFl E a.minQual m1 = some m2 ∧
      deleteOneFaceFl E none m2 = some (some m3) ∧ nodes m3.p = some ifix ∧
      laplacian2Fl E.fl len E.oE a.maxIter a.tol ifix m3 = some m4 ∧
      makeTraversableFl E rand' a.minArea m4 = some (some m5) ∧ refixFl E m5.p m5.t = some m' := by
  unfold meshCleanFl at h
  split at h
  · cases h
  · cases h
  · rename_i m1 h1
    split at h
    · cases h
    · rename_i m2 h2
      split at h
      · cases h
      · cases h
      · rename_i m3 h3
        split at h
        · cases h
        · rename_i ifix h0
          split at h
          · cases h
          · rename_i m4 h4
            split at h
            · cases h
            · cases h
            · rename_i m5 h5
              rw [Option.some.injEq] at h
              exact ⟨m1, m2, m3, ifix, m4, m5, h1, h2, h3, h0, h4, h5, h⟩

theorem makeTraversableFl_points {E : EngineFl K} {rand : Nat → Nat → Nat → Nat} {thr : K} {m m' : Mesh K}
    (h : makeTraversableFl E rand thr m = some (some m')) :
    (∀ q ∈ m'.p, q ∈ m.p) ∧ m'.p.length ≤ m.p.length ∧ m'.t.length ≤ m.t.length := by
  obtain ⟨n, -, h1⟩ := traversableLoopFl_induct (P := fun _ (x : Mesh K) => (∀ q ∈ x.p, q ∈ m.p) ∧
      x.p.length ≤ m.p.length ∧ x.t.length ≤ m.t.length) (by
    rintro n k x x' ⟨a1, a2, a3⟩ hx
    obtain ⟨b1, b2, -, -⟩ := traversablePassFl_progress hx
    obtain ⟨t1, m1, idx, -, -, c1, -, -, -, c2⟩ := traversablePassFl_stages hx
    have d1 := (refixFl_shape c1).2.2.2.1
    have d2 := (refixFl_shape c2).2.2.2.1
    exact ⟨fun q hq => a1 q (d1 q (d2 q hq)), b1.trans a2, b2.trans a3⟩)
    (n := 0) (m := m) ⟨fun q hq => hq, le_refl _, le_refl _⟩ h
  exact h1

theorem deleteOneFaceFl_points {E : EngineFl K} {m m' : Mesh K} (h : deleteOneFaceFl E none m = some (some m')) :
    (∀ q ∈ m'.p, q ∈ m.p) ∧ m'.t.length ≤ m.t.length := by
  rw [deleteOneFaceFl, if_neg (by simp)] at h
  obtain ⟨n, -, h1⟩ := oneFaceLoopFl_induct (P := fun _ (x : Mesh K) => (∀ q ∈ x.p, q ∈ m.p) ∧ x.t.length ≤ m.t.length) (by
    rintro n x x' idx ⟨a1, a2⟩ hx
    have := refixFl_shape hx
    refine ⟨fun q hq => a1 q (this.2.2.2.1 q hq), this.2.2.2.2.1.trans ?_⟩
    exact (deleteRows_sublist _ _).length_le.trans a2) (n := 0) ⟨fun q hq => hq, le_refl _⟩ h
  exact h1

/-! ## Distances -/

/-- The bound for the distance of merged points: extent `e`, coordinates up to `M`. -/
def mergeStep (ptol u e M : K) : K := (1 + u) ^ 3 * (e * ptol) + 5 * u * M

/-- Each face after `refixFl` is a face before, with corners moved by at most the tolerance; and each face before is one
after. -/
theorem refixFl_geometry {E : EngineFl K} {u M : K} (hR : Rounding E.fl) (hrel : RelError E.fl u) (h0 : 0 ≤ u) (hu : u ≤ 1 / 2)
    (hr : IsRounding E.rnd) (hpt : 0 < E.ptol) {p : List (K × K)} {t : List Tri}
    {m : Mesh K} {e : K} (he : ∀ q ∈ p, ∀ q' ∈ p, |q.1 - q'.1| ≤ e ∧ |q.2 - q'.2| ≤ e) (hM : ∀ q ∈ p, |q.1| ≤ M ∧ |q.2| ≤ M)
    (hv : ValidMesh p t) (h : refixFl E p t = some m) :
    (∀ g ∈ m.t, ∃ f ∈ t, CornersMatch (fun x x' => x ∈ p ∧ x' ∈ p ∧ Within (mergeStep E.ptol u e M) x x') p f m.p g) ∧
    (∀ f ∈ t, ∃ g ∈ m.t, CornersMatch (fun x x' => x ∈ p ∧ x' ∈ p ∧ Within (mergeStep E.ptol u e M) x x') p f m.p g) := by
  rw [refixFl, Option.map_eq_some_iff] at h
  obtain ⟨R, hRR, rfl⟩ := h
  obtain ⟨snap, hs, hf, -, -, -⟩ := fixMeshFl_facts hRR
  have hpne : p ≠ [] := by rintro rfl; simp [snapSizeFl] at hs
  obtain ⟨e', he'⟩ := exists_extent hpne
  have hee : e' ≤ e := by
    obtain ⟨⟨q, hq, q', hq', h | h⟩, _⟩ := he'
    · rw [h]; exact (he q hq q' hq').1
    · rw [h]; exact (he q hq q' hq').2
  have hle : (1 + u) ^ 3 * (e' * E.ptol) + 5 * u * M ≤ mergeStep E.ptol u e M := by
    unfold mergeStep
    have : (1 + u) ^ 3 * (e' * E.ptol) ≤ (1 + u) ^ 3 * (e * E.ptol) :=
      mul_le_mul_of_nonneg_left (mul_le_mul_of_nonneg_right hee hpt.le) (by positivity)
    linarith
  have go : ∀ f ∈ t, ∀ g, (cornerKeys (snapRowFl E.fl E.rnd snap) R.p g).Perm (cornerKeys (snapRowFl E.fl E.rnd snap) p f) →
      CornersMatch (fun x x' => x ∈ p ∧ x' ∈ p ∧ Within (mergeStep E.ptol u e M) x x') p f R.p g := by
    intro f hft g hk
    refine CornersMatch.imp ?_ (cornersMatch_of_keys (hv f hft) hk)
    rintro x x' ⟨hx, hx', hkey⟩
    exact ⟨hx, hf.points _ hx', Within.mono hle (near_of_keyFl hR hrel h0 hu hr hpt he' hM hs hx (hf.points _ hx') hkey)⟩
  constructor
  · intro g hg
    obtain ⟨f, hft, hk⟩ := hf.bwd g hg
    exact ⟨f, hft, go f hft g hk⟩
  · intro f hft
    obtain ⟨g, hg, hk⟩ := hf.fwd f hft
    exact ⟨g, hg, go f hft g hk⟩

/-- Geometry of one pass. -/
theorem traversablePassFl_geometry {E : EngineFl K} {u M : K} (hR : Rounding E.fl) (hrel : RelError E.fl u) (h0 : 0 ≤ u) (hu : u ≤ 1 / 2)
    (hr : IsRounding E.rnd) (hpt : 0 < E.ptol) {rand : Nat → Nat → Nat}
    {thr : K} {m m' : Mesh K} {e : K} (he : ∀ q ∈ m.p, ∀ q' ∈ m.p, |q.1 - q'.1| ≤ e ∧ |q.2 - q'.2| ≤ e)
    (hM : ∀ q ∈ m.p, |q.1| ≤ M ∧ |q.2| ≤ M) (hv : ValidMesh m.p m.t) (h : traversablePassFl E rand thr m = some m') :
    (∀ q ∈ m'.p, q ∈ m.p) ∧ ∀ g ∈ m'.t, ∃ f ∈ m.t,
      CornersMatch (fun x x' => ∃ y, (x ∈ m.p ∧ y ∈ m.p ∧ Within (mergeStep E.ptol u e M) x y) ∧
        (y ∈ m.p ∧ x' ∈ m.p ∧ Within (mergeStep E.ptol u e M) y x')) m.p f m'.p g := by
  obtain ⟨t1, m1, idx, h1, -, h2, -, -, -, h6⟩ := traversablePassFl_stages h
  have s1 := (deleteExteriorFl_shape h1).2
  have hv1 : ValidMesh m.p t1 := fun f hf => hv f (s1 f hf)
  obtain ⟨a1, -, -, a2, -, -⟩ := refixFl_shape h2
  obtain ⟨-, -, -, b2, -, -⟩ := refixFl_shape h6
  have hsub := (deleteRows_sublist idx m1.t).subset
  refine ⟨fun q hq => a2 q (b2 q hq), fun g hg => ?_⟩
  obtain ⟨f1, hf1, c1⟩ := (refixFl_geometry hR hrel h0 hu hr hpt (e := e) (fun q hq q' hq' => he q (a2 q hq) q' (a2 q' hq'))
    (fun q hq => hM q (a2 q hq)) (fun f hf => a1 f (hsub hf)) h6).1 g hg
  obtain ⟨f, hf, c2⟩ := (refixFl_geometry hR hrel h0 hu hr hpt he hM hv1 h2).1 f1 (hsub hf1)
  refine ⟨f, s1 f hf, CornersMatch.trans ?_ c2 c1⟩
  rintro x y z ⟨x1, x2, x3⟩ ⟨y1, y2, y3⟩
  exact ⟨y, ⟨x1, x2, x3⟩, a2 y y1, a2 z y2, y3⟩

end

end OM
