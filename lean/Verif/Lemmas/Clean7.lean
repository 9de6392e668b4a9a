import Verif.Lemmas.Clean6
import Mathlib.Data.List.Perm.Basic
/-!
# `make_mesh_boundaries_traversable`: termination and geometry
-/
set_option linter.unusedSectionVars false
namespace OM
open Spec

/-! ## Matching corners -/

theorem cornersMatch_iff {α : Type} {rel : α → α → Prop} {p p' : List α} {f g : Tri} :
    CornersMatch rel p f p' g ↔ ∃ X X' : List α, corners p f = X.map some ∧ (corners p' g).Perm (X'.map some) ∧
      List.Forall₂ rel X X' := by
  constructor
  · rintro ⟨x, y, z, x', y', z', h1, h2, h3, h4, h5⟩
    exact ⟨[x, y, z], [x', y', z'], h1, h2, .cons h3 (.cons h4 (.cons h5 .nil))⟩
  · rintro ⟨X, X', h1, h2, h3⟩
    have hl : X.length = 3 := by have := congrArg List.length h1; simpa [corners] using this.symm
    match X, hl with
    | [x, y, z], _ =>
      obtain ⟨x', r1, hx, hr1, rfl⟩ := List.forall₂_cons_left_iff.1 h3
      obtain ⟨y', r2, hy, hr2, rfl⟩ := List.forall₂_cons_left_iff.1 hr1
      obtain ⟨z', r3, hz, hr3, rfl⟩ := List.forall₂_cons_left_iff.1 hr2
      rw [List.forall₂_nil_left_iff] at hr3
      subst hr3
      exact ⟨x, y, z, x', y', z', h1, h2, hx, hy, hz⟩

theorem forall₂_comp {α : Type} {R S T : α → α → Prop} (h : ∀ x y z, R x y → S y z → T x z) :
    ∀ {a b c : List α}, List.Forall₂ R a b → List.Forall₂ S b c → List.Forall₂ T a c
  | _, _, _, .nil, .nil => .nil
  | _, _, _, .cons h1 r1, .cons h2 r2 => .cons (h _ _ _ h1 h2) (forall₂_comp h r1 r2)

theorem CornersMatch.trans {α : Type} {R S T : α → α → Prop} (h : ∀ x y z, R x y → S y z → T x z)
    {p p' p'' : List α} {f f' f'' : Tri} (h1 : CornersMatch R p f p' f') (h2 : CornersMatch S p' f' p'' f'') :
    CornersMatch T p f p'' f'' := by
  rw [cornersMatch_iff] at h1 h2 ⊢
  obtain ⟨X, X', a1, a2, a3⟩ := h1
  obtain ⟨Y, Y', b1, b2, b3⟩ := h2
  rw [b1] at a2
  have hp : Y.Perm X' := perm_of_map_perm (fun x _ y _ hxy => by simpa using hxy) a2
  obtain ⟨Z, c1, c2⟩ := List.perm_comp_forall₂ hp.symm b3
  exact ⟨X, Z, a1, b2.trans (c2.symm.map some), forall₂_comp h a3 c1⟩

theorem CornersMatch.rfl' {α : Type} {R : α → α → Prop} (h : ∀ x, R x x) {p : List α} {f : Tri}
    (hf : ∀ v, HasVertex f v → v < p.length) : CornersMatch R p f p f := by
  refine ⟨p[f.a]'(hf _ (Or.inl rfl)), p[f.b]'(hf _ (Or.inr (Or.inl rfl))), p[f.c]'(hf _ (Or.inr (Or.inr rfl))), _, _, _,
    ?_, List.Perm.of_eq ?_, h _, h _, h _⟩ <;>
  · unfold corners
    rw [List.getElem?_eq_getElem (hf _ (Or.inl rfl)), List.getElem?_eq_getElem (hf _ (Or.inr (Or.inl rfl))),
      List.getElem?_eq_getElem (hf _ (Or.inr (Or.inr rfl)))]

section
variable {K : Type} [Field K] [LinearOrder K] [IsStrictOrderedRing K]

/-! ## `fix_mesh` as used by the passes -/

/-- Facts about `refix` independent of distances. -/
theorem refix_shape {E : Engine K} {p : List (K × K)} {t : List Tri} {m : Mesh K} (h : refix E p t = some m) :
    ValidMesh m.p m.t ∧ (∀ v < m.p.length, ∃ f ∈ m.t, HasVertex f v) ∧ (m.t.Pairwise fun f g => ¬ SameVertices f g) ∧
      (∀ q ∈ m.p, q ∈ p) ∧ m.t.length ≤ t.length ∧ m.p.length ≤ p.length := by
  rw [refix, Option.map_eq_some_iff] at h
  obtain ⟨R, hR, rfl⟩ := h
  obtain ⟨snap, -, hf, hu, -, -⟩ := fixMesh_facts hR
  exact ⟨hf.valid, hu rfl, hf.distinct, hf.points, hf.lenT, hf.lenP⟩

theorem Within.mono {d d' : K} (h : d ≤ d') {q q' : K × K} (hq : Within d q q') : Within d' q q' :=
  ⟨hq.1.trans h, hq.2.trans h⟩

theorem Within.trans' {d d' : K} {a b c : K × K} (h1 : Within d a b) (h2 : Within d' b c) : Within (d + d') a c := by
  constructor
  · have : a.1 - c.1 = (a.1 - b.1) + (b.1 - c.1) := by ring
    rw [this]; exact (abs_add_le _ _).trans (add_le_add h1.1 h2.1)
  · have : a.2 - c.2 = (a.2 - b.2) + (b.2 - c.2) := by ring
    rw [this]; exact (abs_add_le _ _).trans (add_le_add h1.2 h2.2)

/-- Each face after `refix` is a face before, with corners moved by at most the tolerance; and each face before is one
after. -/
theorem refix_geometry {E : Engine K} (hr : IsRounding E.rnd) (hpt : 0 < E.ptol) {p : List (K × K)} {t : List Tri}
    {m : Mesh K} {e : K} (he : ∀ q ∈ p, ∀ q' ∈ p, |q.1 - q'.1| ≤ e ∧ |q.2 - q'.2| ≤ e) (hv : ValidMesh p t)
    (h : refix E p t = some m) :
    (∀ g ∈ m.t, ∃ f ∈ t, CornersMatch (fun x x' => x ∈ p ∧ x' ∈ p ∧ Within (e * E.ptol) x x') p f m.p g) ∧
    (∀ f ∈ t, ∃ g ∈ m.t, CornersMatch (fun x x' => x ∈ p ∧ x' ∈ p ∧ Within (e * E.ptol) x x') p f m.p g) := by
  rw [refix, Option.map_eq_some_iff] at h
  obtain ⟨R, hR, rfl⟩ := h
  obtain ⟨snap, hs, hf, -, -, -⟩ := fixMesh_facts hR
  have hpne : p ≠ [] := by rintro rfl; simp [snapSize] at hs
  obtain ⟨e', he'⟩ := exists_extent hpne
  rw [snapSize_eq hpt he' hs] at hf
  have hee : e' ≤ e := by
    obtain ⟨⟨q, hq, q', hq', h | h⟩, _⟩ := he'
    · rw [h]; exact (he q hq q' hq').1
    · rw [h]; exact (he q hq q' hq').2
  have hle : e' * E.ptol ≤ e * E.ptol := mul_le_mul_of_nonneg_right hee hpt.le
  have go : ∀ f ∈ t, ∀ g, (cornerKeys (snapRow E.rnd (e' * E.ptol)) R.p g).Perm
      (cornerKeys (snapRow E.rnd (e' * E.ptol)) p f) →
      CornersMatch (fun x x' => x ∈ p ∧ x' ∈ p ∧ Within (e * E.ptol) x x') p f R.p g := by
    intro f hft g hk
    refine CornersMatch.imp ?_ (cornersMatch_of_keys (hv f hft) hk)
    rintro x x' ⟨hx, hx', hkey⟩
    exact ⟨hx, hf.points _ hx', Within.mono hle (close_of_key hr he' hpt hx (hf.points _ hx') hkey)⟩
  constructor
  · intro g hg
    obtain ⟨f, hft, hk⟩ := hf.bwd g hg
    exact ⟨f, hft, go f hft g hk⟩
  · intro f hft
    obtain ⟨g, hg, hk⟩ := hf.fwd f hft
    exact ⟨g, hg, go f hft g hk⟩

/-! ## `delete_exterior_faces` for arbitrary areas -/

theorem selectRows_sublist (b : Bool) : ∀ (nflag : List Bool) (t : List Tri), (selectRows b nflag t).Sublist t
  | [], t => by simp [selectRows]
  | _ :: _, [] => by simp [selectRows]
  | x :: nflag, f :: t => by
    rw [selectRows]
    split
    · exact (selectRows_sublist b nflag t).cons_cons f
    · exact (selectRows_sublist b nflag t).cons f

theorem selectRows_length : ∀ (nflag : List Bool) (t : List Tri),
    (selectRows true nflag t).length + (selectRows false nflag t).length ≤ t.length
  | [], t => by simp [selectRows]
  | _ :: _, [] => by simp [selectRows]
  | x :: nflag, f :: t => by
    have := selectRows_length nflag t
    cases x <;> simp [selectRows] <;> omega

theorem selectRows_false_lt {nflag : List Bool} {t : List Tri} {i : Nat} (hi : nflag[i]? = some true)
    (hl : i < t.length) : (selectRows false nflag t).length < t.length := by
  have h1 := selectRows_length nflag t
  have : 0 < (selectRows true nflag t).length := by
    clear h1
    induction nflag generalizing t i with
    | nil => simp at hi
    | cons x nflag ih =>
      cases t with
      | nil => simp at hl
      | cons f t =>
        cases x with
        | true => simp [selectRows]
        | false =>
          cases i with
          | zero => simp at hi
          | succ i =>
            simp only [List.getElem?_cons_succ, List.length_cons] at hi hl
            simpa [selectRows] using ih hi (by omega)
  omega

theorem dfs_start_flagged {srt : KeySort (Nat × Nat) Nat lexOrder.le} {i : Nat} {t : List Tri} {nflag : List Bool}
    (h : depthFirstSearch srt i t = some nflag) : i < t.length ∧ nflag[i]? = some true := by
  have hi : i < t.length := by
    by_contra hc
    rw [depthFirstSearch, if_neg hc] at h; simp at h
  obtain ⟨nf, h1, _, h3⟩ := depthFirstSearch_spec srt (List.getElem?_eq_getElem hi)
  rw [h] at h1; cases h1
  exact ⟨hi, (h3 i _ (List.getElem?_eq_getElem hi)).2 (Connected.refl (List.getElem_mem hi))⟩

/-- The result of the loop consists of rows of the input, none twice; the bound on the number of passes is never
reached. -/
theorem exteriorLoop_shape (srt : KeySort (Nat × Nat) Nat lexOrder.le) (rand : Nat → Nat → Nat) (p : List (K × K))
    (a thr : K) : ∀ (fuel k : Nat) (t1 acc : List Tri) (an : K) (res : List Tri),
    exteriorLoop srt rand p a thr fuel k t1 acc an = some res →
    res.length ≤ acc.length + t1.length ∧ ∀ f ∈ res, f ∈ acc ∨ f ∈ t1
  | 0, _, _, _, _, _, h => by simp [exteriorLoop] at h
  | fuel + 1, k, t1, acc, an, res, h => by
    rw [exteriorLoop] at h
    by_cases hex : exceeds an a thr = true
    · rw [if_pos hex] at h
      split at h
      · simp at h
      · rename_i nflag hn
        split at h
        · rename_i a2 a1 _ _
          obtain ⟨h1, h2⟩ := exteriorLoop_shape srt rand p a thr fuel _ _ _ _ _ h
          have hl := selectRows_length nflag t1
          have s1 := (selectRows_sublist true nflag t1).subset
          have s2 := (selectRows_sublist false nflag t1).subset
          by_cases hx : exceeds a2 a thr = true
          · rw [if_pos hx] at h1 h2
            rw [List.length_append] at h1
            refine ⟨by omega, fun f hf => ?_⟩
            rcases h2 f hf with h | h
            · rcases List.mem_append.1 h with h | h
              · exact Or.inl h
              · exact Or.inr (s1 h)
            · exact Or.inr (s2 h)
          · rw [if_neg hx] at h1 h2
            refine ⟨by omega, fun f hf => ?_⟩
            rcases h2 f hf with h | h
            · exact Or.inl h
            · exact Or.inr (s2 h)
        · simp at h
    · rw [if_neg hex] at h
      cases h
      exact ⟨by omega, fun f hf => Or.inl hf⟩

/-- More fuel than rows makes no difference. -/
theorem exteriorLoop_fuel (srt : KeySort (Nat × Nat) Nat lexOrder.le) (rand : Nat → Nat → Nat) (p : List (K × K))
    (a thr : K) : ∀ (fuel fuel' k : Nat) (t1 acc : List Tri) (an : K), t1.length < fuel → t1.length < fuel' →
    exteriorLoop srt rand p a thr fuel k t1 acc an = exteriorLoop srt rand p a thr fuel' k t1 acc an
  | 0, _, _, _, _, _, h, _ => by omega
  | _ + 1, 0, _, _, _, _, _, h => by omega
  | fuel + 1, fuel' + 1, k, t1, acc, an, h, h' => by
    rw [exteriorLoop, exteriorLoop]
    split
    · split
      · rfl
      · rename_i nflag hn
        split
        · obtain ⟨hi, hf⟩ := dfs_start_flagged hn
          have := selectRows_false_lt hf hi
          exact exteriorLoop_fuel srt rand p a thr fuel fuel' _ _ _ _ (by omega) (by omega)
        · rfl
    · rfl

theorem deleteExterior_shape {srt : KeySort (Nat × Nat) Nat lexOrder.le} {rand : Nat → Nat → Nat} {p : List (K × K)}
    {t : List Tri} {thr : K} {res : List Tri} (h : deleteExteriorFaces srt rand p t thr = some res) :
    res.length ≤ t.length ∧ ∀ f ∈ res, f ∈ t := by
  rw [deleteExteriorFaces] at h
  split at h
  · simp at h
  · obtain ⟨h1, h2⟩ := exteriorLoop_shape _ _ _ _ _ _ _ _ _ _ _ h
    refine ⟨by simpa using h1, fun f hf => ?_⟩
    rcases h2 f hf with h | h
    · simp at h
    · exact h

/-! ## One pass -/

/-- The stages of a successful pass. -/
theorem traversablePass_stages {E : Engine K} {rand : Nat → Nat → Nat} {thr : K} {m m' : Mesh K}
    (h : traversablePass E rand thr m = some m') :
    ∃ t1 m1 idx, deleteExteriorFaces E.srtE rand m.p m.t thr = some t1 ∧ t1 ≠ [] ∧ refix E m.p t1 = some m1 ∧
      deleteInteriorFaces E.oE E.srtV (E.qual m1.p) m1.p m1.t = some (deleteRows idx m1.t, idx) ∧
      (overConnected (flatPairs (getBoundaryEdges E.oE m1.t)) ≠ [] → ∃ k ∈ idx, k < m1.t.length) ∧
      (overConnected (flatPairs (getBoundaryEdges E.oE m1.t)) = [] → idx = []) ∧
      refix E m1.p (deleteRows idx m1.t) = some m' := by
  unfold traversablePass at h
  rw [Option.bind_eq_bind, Option.bind_eq_some_iff] at h
  obtain ⟨t1, h1, h⟩ := h
  by_cases ht : t1 = []
  · rw [if_pos ht] at h; simp at h
  rw [if_neg ht, Option.bind_eq_bind, Option.bind_eq_some_iff] at h
  obtain ⟨m1, h2, h⟩ := h
  obtain ⟨hv, hu, -⟩ := refix_shape h2
  obtain ⟨idx, h3, h4⟩ := deleteInterior_spec E.oE E.srtV (E.qual m1.p) hv hu
  rw [h3, Option.bind_eq_bind, Option.bind_some] at h
  refine ⟨t1, m1, idx, h1, ht, h2, h3, ?_, ?_, h⟩
  · intro hne
    obtain ⟨v, hvm⟩ := List.exists_mem_of_ne_nil _ hne
    obtain ⟨c, hc, l, -, hl, -, hcl⟩ := forall₂_mem_left h4 v hvm
    obtain ⟨f, hf, -⟩ := (hl c).1 hcl
    exact ⟨c, hc, (List.getElem?_eq_some_iff.1 hf).1⟩
  · intro he
    rw [he, List.forall₂_nil_left_iff] at h4
    exact h4

/-- After a pass that keeps the numbers of faces and vertices the loop stops. -/
theorem traversablePass_progress {E : Engine K} {rand : Nat → Nat → Nat} {thr : K} {m m' : Mesh K}
    (h : traversablePass E rand thr m = some m') :
    m'.p.length ≤ m.p.length ∧ m'.t.length ≤ m.t.length ∧ ValidMesh m'.p m'.t ∧
      (m'.p.length = m.p.length → m'.t.length = m.t.length →
        overConnected (flatPairs (getBoundaryEdges E.oE m'.t)) = []) := by
  obtain ⟨t1, m1, idx, h1, -, h2, -, h4, h5, h6⟩ := traversablePass_stages h
  obtain ⟨-, -, -, -, a1, a2⟩ := refix_shape h2
  obtain ⟨hv, -, -, -, b1, b2⟩ := refix_shape h6
  have c1 := (deleteExterior_shape h1).1
  have c2 := (deleteRows_sublist idx m1.t).length_le
  refine ⟨by omega, by omega, hv, ?_⟩
  intro hp ht
  have hov : overConnected (flatPairs (getBoundaryEdges E.oE m1.t)) = [] := by
    by_contra hne
    obtain ⟨k, hk, hlt⟩ := h4 hne
    have := deleteRows_lt hk hlt
    omega
  have hidx := h5 hov
  subst hidx
  rw [deleteRows_nil] at h6
  rw [refix, Option.map_eq_some_iff] at h6
  obtain ⟨R, hR, rfl⟩ := h6
  obtain ⟨σ, hσ, hperm⟩ := fixMesh_iso hR (by dsimp only at *; omega) (by dsimp only at *; omega)
  exact overConnected_renumber hσ hperm hov

theorem externalTopology_length {α : Type} {o : RowOrder (Nat × Nat)} {p : List α} {t : List Tri}
    {be : List (Nat × Nat)} {bv : List α} (h : externalTopology o p t = some (be, bv)) :
    be = getBoundaryEdges o t ∧ bv.length = (unique natOrder (flatPairs (getBoundaryEdges o t))).length := by
  rw [externalTopology, Option.map_eq_some_iff] at h
  obtain ⟨v, hv, he⟩ := h
  cases he
  exact ⟨rfl, gather_length hv⟩

/-- The loop stops within the number of faces and vertices. -/
theorem traversableLoop_total (E : Engine K) (rand : Nat → Nat → Nat → Nat) (thr : K) :
    ∀ (fuel k : Nat) (m : Mesh K), m.p.length + m.t.length < fuel →
      ∃ r, traversableLoop E rand thr fuel k m = some r
  | 0, _, _, h => by omega
  | fuel + 1, k, m, h => by
    rw [traversableLoop]
    split
    · exact ⟨_, rfl⟩
    · split
      · split
        · exact ⟨_, rfl⟩
        · rename_i be bv _ _ _ m' hm'
          obtain ⟨h1, h2, h3, h4⟩ := traversablePass_progress hm'
          by_cases heq : m'.p.length = m.p.length ∧ m'.t.length = m.t.length
          · have hov := h4 heq.1 heq.2
            cases fuel with
            | zero =>
              -- no vertices and no faces: the pass raises
              obtain ⟨t1, m1, idx, g1, g2, -⟩ := traversablePass_stages hm'
              have := (deleteExterior_shape g1).1
              have : 0 < t1.length := List.length_pos_iff.2 g2
              omega
            | succ fuel =>
              obtain ⟨bv', e1, e2⟩ := externalTopology_isSome E.oE h3
              have := edges_le_vertices hov
              rw [traversableLoop, e1]
              dsimp only
              rw [if_neg (by omega)]
              exact ⟨_, rfl⟩
          · exact traversableLoop_total E rand thr fuel (k + 1) m' (by omega)
      · exact ⟨_, rfl⟩

/-- When the loop returns, there are no more boundary edges than boundary vertices. -/
theorem traversableLoop_exit {E : Engine K} {rand : Nat → Nat → Nat → Nat} {thr : K} :
    ∀ {fuel k : Nat} {m m' : Mesh K}, traversableLoop E rand thr fuel k m = some (some m') →
      (getBoundaryEdges E.oE m'.t).length ≤ (unique natOrder (flatPairs (getBoundaryEdges E.oE m'.t))).length
  | 0, _, _, _, h => by simp [traversableLoop] at h
  | fuel + 1, k, m, m', h => by
    rw [traversableLoop] at h
    split at h
    · simp at h
    · rename_i be bv hb
      obtain ⟨rfl, hl⟩ := externalTopology_length hb
      split at h
      · split at h
        · simp at h
        · exact traversableLoop_exit h
      · rename_i hlt
        cases h
        omega

/-- An invariant of every pass is an invariant of the loop; `P n m` may mention the number of passes. -/
theorem traversableLoop_induct {E : Engine K} {rand : Nat → Nat → Nat → Nat} {thr : K} (P : Nat → Mesh K → Prop)
    (hP : ∀ n k m m', P n m → traversablePass E (rand k) thr m = some m' → P (n + 1) m') :
    ∀ {fuel k n : Nat} {m m' : Mesh K}, P n m → traversableLoop E rand thr fuel k m = some (some m') →
      ∃ n' < n + fuel, P n' m'
  | 0, _, _, _, _, _, h => by simp [traversableLoop] at h
  | fuel + 1, k, n, m, m', hn, h => by
    rw [traversableLoop] at h
    split at h
    · simp at h
    · split at h
      · split at h
        · simp at h
        · rename_i m1 hm1
          obtain ⟨n', h1, h2⟩ := traversableLoop_induct P hP (hP n k m m1 hn hm1) h
          exact ⟨n', by omega, h2⟩
      · cases h
        exact ⟨n, by omega, hn⟩

/-- Geometry of one pass. -/
theorem traversablePass_geometry {E : Engine K} (hr : IsRounding E.rnd) (hpt : 0 < E.ptol) {rand : Nat → Nat → Nat}
    {thr : K} {m m' : Mesh K} {e : K} (he : ∀ q ∈ m.p, ∀ q' ∈ m.p, |q.1 - q'.1| ≤ e ∧ |q.2 - q'.2| ≤ e)
    (hv : ValidMesh m.p m.t) (h : traversablePass E rand thr m = some m') :
    (∀ q ∈ m'.p, q ∈ m.p) ∧ ∀ g ∈ m'.t, ∃ f ∈ m.t,
      CornersMatch (fun x x' => ∃ y, (x ∈ m.p ∧ y ∈ m.p ∧ Within (e * E.ptol) x y) ∧
        (y ∈ m.p ∧ x' ∈ m.p ∧ Within (e * E.ptol) y x')) m.p f m'.p g := by
  obtain ⟨t1, m1, idx, h1, -, h2, -, -, -, h6⟩ := traversablePass_stages h
  have s1 := (deleteExterior_shape h1).2
  have hv1 : ValidMesh m.p t1 := fun f hf => hv f (s1 f hf)
  obtain ⟨a1, -, -, a2, -, -⟩ := refix_shape h2
  obtain ⟨-, -, -, b2, -, -⟩ := refix_shape h6
  have hsub := (deleteRows_sublist idx m1.t).subset
  refine ⟨fun q hq => a2 q (b2 q hq), fun g hg => ?_⟩
  obtain ⟨f1, hf1, c1⟩ := (refix_geometry hr hpt (e := e) (fun q hq q' hq' => he q (a2 q hq) q' (a2 q' hq'))
    (fun f hf => a1 f (hsub hf)) h6).1 g hg
  obtain ⟨f, hf, c2⟩ := (refix_geometry hr hpt he hv1 h2).1 f1 (hsub hf1)
  refine ⟨f, s1 f hf, CornersMatch.trans ?_ c2 c1⟩
  rintro x y z ⟨x1, x2, x3⟩ ⟨y1, y2, y3⟩
  exact ⟨y, ⟨x1, x2, x3⟩, a2 y y1, a2 z y2, y3⟩

end

end OM
