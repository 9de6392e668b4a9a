import Verif.Lemmas.Clean2
/-!
# The component search
-/
set_option linter.unusedSectionVars false
namespace OM
open Spec

/-- The visited faces are the flagged faces, each listed once. -/
structure DfsInv (n : Nat) (nflag : List Bool) (visited : List Nat) : Prop where
  len : nflag.length = n
  nodup : visited.Nodup
  mem : ∀ k, k ∈ visited ↔ nflag[k]? = some true

theorem DfsInv.lt {n : Nat} {nflag : List Bool} {visited : List Nat} (h : DfsInv n nflag visited) {k : Nat}
    (hk : k ∈ visited) : k < n := by
  have := (List.getElem?_eq_some_iff.1 ((h.mem k).1 hk)).1
  rw [h.len] at this; exact this

theorem DfsInv.length_le {n : Nat} {nflag : List Bool} {visited : List Nat} (h : DfsInv n nflag visited) :
    visited.length ≤ n := by
  have hsub : visited ⊆ List.range n := fun k hk => List.mem_range.2 (h.lt hk)
  have := (h.nodup.subperm hsub).length_le
  simpa using this

theorem DfsInv.set_noop {n : Nat} {nflag : List Bool} {visited : List Nat} (h : DfsInv n nflag visited) {c : Nat}
    (hc : c ∈ visited) : nflag.set c true = nflag := by
  have := (h.mem c).1 hc
  apply List.ext_getElem?
  intro k
  rw [List.getElem?_set]
  split
  · rename_i hck; subst hck
    split
    · exact this.symm
    · rename_i hlt; exact absurd (List.getElem?_eq_some_iff.1 this).1 hlt
  · rfl

theorem visitNeighbours_spec (n : Nat) : ∀ (neis : List Nat) (nflag : List Bool) (visited : List Nat) (s : Bool),
    DfsInv n nflag visited → (∀ k ∈ neis, k < n) →
    ∃ nflag' visited' s', visitNeighbours neis nflag visited s = some (nflag', visited', s') ∧ DfsInv n nflag' visited' ∧
      (∃ new, visited' = visited ++ new) ∧ (∀ k, k ∈ visited' ↔ k ∈ visited ∨ k ∈ neis)
  | [], nflag, visited, s, h, _ => ⟨nflag, visited, s, rfl, h, ⟨[], by simp⟩, by simp⟩
  | m :: neis, nflag, visited, s, h, hlt => by
    have hm : m < n := hlt m (by simp)
    have hrest : ∀ k ∈ neis, k < n := fun k hk => hlt k (List.mem_cons_of_mem _ hk)
    have hml : m < nflag.length := by rw [h.len]; exact hm
    rw [visitNeighbours]
    rcases hv : nflag[m] with _ | _
    · have hg : nflag[m]? = some false := by rw [List.getElem?_eq_getElem hml, hv]
      rw [hg]
      dsimp only
      have hnot : m ∉ visited := by rw [h.mem, hg]; simp
      have hinv : DfsInv n (nflag.set m true) (visited ++ [m]) := by
        refine ⟨by simp [h.len], ?_, ?_⟩
        · rw [List.nodup_append]
          exact ⟨h.nodup, by simp, fun a ha b hb hab => by simp at hb; subst hb; subst hab; exact hnot ha⟩
        · intro k
          rw [List.mem_append, List.mem_singleton, List.getElem?_set]
          by_cases hk : m = k
          · subst hk; simp [hml]
          · rw [if_neg hk, h.mem]
            constructor
            · rintro (h1 | h1)
              · exact h1
              · exact absurd h1.symm hk
            · exact Or.inl
      obtain ⟨nf, vs, s', h1, h2, ⟨new, h3⟩, h4⟩ := visitNeighbours_spec n neis _ _ true hinv hrest
      refine ⟨nf, vs, s', h1, h2, ⟨m :: new, by rw [h3]; simp⟩, ?_⟩
      intro k; rw [h4]; simp only [List.mem_append, List.mem_singleton, List.mem_cons]; tauto
    · have hg : nflag[m]? = some true := by rw [List.getElem?_eq_getElem hml, hv]
      rw [hg]
      dsimp only
      obtain ⟨nf, vs, s', h1, h2, h3, h4⟩ := visitNeighbours_spec n neis nflag visited s h hrest
      refine ⟨nf, vs, s', h1, h2, h3, ?_⟩
      intro k; rw [h4]; simp only [List.mem_cons]
      have := (h.mem m).2 hg
      constructor
      · rintro (h | h)
        · exact Or.inl h
        · exact Or.inr (Or.inr h)
      · rintro (h | rfl | h)
        · exact Or.inl h
        · exact Or.inl this
        · exact Or.inr h

theorem visitNeighbours_noop : ∀ (neis : List Nat) (nflag : List Bool) (visited : List Nat) (s : Bool),
    (∀ k ∈ neis, nflag[k]? = some true) → visitNeighbours neis nflag visited s = some (nflag, visited, s)
  | [], _, _, _, _ => rfl
  | m :: neis, nflag, visited, s, h => by
    rw [visitNeighbours, h m (by simp)]
    exact visitNeighbours_noop neis nflag visited s fun k hk => h k (List.mem_cons_of_mem _ hk)

section
variable {adj : List (Nat × Nat) × List Nat} {nb : Nat → List Nat} {n : Nat}

theorem dfsPass_spec (hadj : ∀ c < n, ∃ rows, block adj.1 adj.2 c = some rows ∧ rows.map Prod.snd = nb c)
    (hnb : ∀ c < n, ∀ k ∈ nb c, k < n) (P : Nat → Prop) (hP : ∀ c k, P c → k ∈ nb c → P k) :
    ∀ (fuel i : Nat) (nflag : List Bool) (visited : List Nat) (s : Bool), DfsInv n nflag visited →
      n + 1 ≤ i + fuel → i ≤ visited.length → (∀ c ∈ visited.take i, ∀ k ∈ nb c, k ∈ visited) → (∀ c ∈ visited, P c) →
      ∃ nflag' visited' s', dfsPass adj fuel i nflag visited s = some (nflag', visited', s') ∧ DfsInv n nflag' visited' ∧
        (∃ new, visited' = visited ++ new) ∧ (∀ c ∈ visited', ∀ k ∈ nb c, k ∈ visited') ∧ (∀ c ∈ visited', P c)
  | 0, i, nflag, visited, s, h, hf, hi, _, _ => by
    have := h.length_le; omega
  | fuel + 1, i, nflag, visited, s, h, hf, hi, hclosed, hPv => by
    rw [dfsPass]
    rcases hc : visited[i]? with _ | c
    · have : visited.length ≤ i := List.getElem?_eq_none_iff.1 hc
      dsimp only
      refine ⟨nflag, visited, s, rfl, h, ⟨[], by simp⟩, ?_, hPv⟩
      rw [List.take_of_length_le this] at hclosed
      exact hclosed
    · have hcm : c ∈ visited := List.mem_of_getElem? hc
      have hil : i < visited.length := (List.getElem?_eq_some_iff.1 hc).1
      obtain ⟨rows, hr1, hr2⟩ := hadj c (h.lt hcm)
      dsimp only
      rw [hr1]
      dsimp only
      rw [h.set_noop hcm, hr2]
      obtain ⟨nf, vs, s', h1, h2, ⟨new, h3⟩, h4⟩ := visitNeighbours_spec n (nb c) nflag visited s h (hnb c (h.lt hcm))
      rw [h1]
      dsimp only
      have hci : visited[i] = c := by
        have := List.getElem?_eq_some_iff.1 hc; exact this.2
      have htake : vs.take (i + 1) = visited.take i ++ [c] := by
        rw [h3, List.take_append_of_le_length (by omega), List.take_add_one, hc]; rfl
      obtain ⟨nf', vs', s'', k1, k2, ⟨new', k3⟩, k4, k5⟩ := dfsPass_spec hadj hnb P hP fuel (i + 1) nf vs s' h2
        (by omega) (by rw [h3, List.length_append]; omega)
        (by
          rw [htake]
          intro c' hc' k hk
          rw [h4]
          rcases List.mem_append.1 hc' with hc' | hc'
          · exact Or.inl (hclosed c' hc' k hk)
          · rw [List.mem_singleton] at hc'; subst hc'; exact Or.inr hk)
        (by
          intro k hk
          rcases (h4 k).1 hk with hk | hk
          · exact hPv k hk
          · exact hP c k (hPv c hcm) hk)
      exact ⟨nf', vs', s'', k1, k2, ⟨new ++ new', by rw [k3, h3, List.append_assoc]⟩, k4, k5⟩

theorem dfsPass_noop (hadj : ∀ c < n, ∃ rows, block adj.1 adj.2 c = some rows ∧ rows.map Prod.snd = nb c) :
    ∀ (fuel i : Nat) (nflag : List Bool) (visited : List Nat) (s : Bool), DfsInv n nflag visited →
      n + 1 ≤ i + fuel → i ≤ visited.length → (∀ c ∈ visited, ∀ k ∈ nb c, k ∈ visited) →
      dfsPass adj fuel i nflag visited s = some (nflag, visited, s)
  | 0, i, nflag, visited, s, h, hf, hi, _ => by
    have := h.length_le; omega
  | fuel + 1, i, nflag, visited, s, h, hf, hi, hclosed => by
    rw [dfsPass]
    rcases hc : visited[i]? with _ | c
    · rfl
    · have hcm : c ∈ visited := List.mem_of_getElem? hc
      have hil : i < visited.length := (List.getElem?_eq_some_iff.1 hc).1
      obtain ⟨rows, hr1, hr2⟩ := hadj c (h.lt hcm)
      dsimp only
      rw [hr1]
      dsimp only
      rw [h.set_noop hcm, hr2, visitNeighbours_noop _ _ _ _ (fun k hk => (h.mem k).1 (hclosed c hcm k hk))]
      exact dfsPass_noop hadj fuel (i + 1) nflag visited s h (by omega) (by omega) hclosed

theorem dfsLoop_spec (hadj : ∀ c < n, ∃ rows, block adj.1 adj.2 c = some rows ∧ rows.map Prod.snd = nb c)
    (hnb : ∀ c < n, ∀ k ∈ nb c, k < n) {start : Nat} (hs : start < n) (fuel : Nat) :
    ∃ nflag, dfsLoop adj (fuel + 2) (List.replicate n false) [start] = some nflag ∧ nflag.length = n ∧
      ∀ k, nflag[k]? = some true ↔ Relation.ReflTransGen (fun a b => b ∈ nb a) start k := by
  have hinv : DfsInv n ((List.replicate n false).set start true) [start] := by
    refine ⟨by simp, by simp, ?_⟩
    intro k
    rw [List.mem_singleton, List.getElem?_set]
    by_cases hk : start = k
    · subst hk; simp [hs]
    · rw [if_neg hk, List.getElem?_replicate]
      constructor
      · intro h; exact absurd h.symm hk
      · intro h; split at h <;> simp at h
  obtain ⟨rows, hr1, hr2⟩ := hadj start hs
  -- first pass: replace the initial flags by the flags with the start set
  have hfirst : ∀ fuel, dfsPass adj (fuel + 1) 0 (List.replicate n false) [start] false =
      dfsPass adj (fuel + 1) 0 ((List.replicate n false).set start true) [start] false := by
    intro fuel
    rw [dfsPass, dfsPass]
    simp only [List.getElem?_cons_zero, hr1, List.set_set]
  obtain ⟨nf, vs, s, h1, h2, ⟨new, h3⟩, h4, h5⟩ := dfsPass_spec hadj hnb
    (fun k => Relation.ReflTransGen (fun a b => b ∈ nb a) start k) (fun c k h hk => h.tail hk) (n + 1) 0
    ((List.replicate n false).set start true) [start] false hinv (by omega) (by omega) (by simp)
    (by intro c hc; rw [List.mem_singleton] at hc; subst hc; exact .refl)
  have hchar : ∀ k, nf[k]? = some true ↔ Relation.ReflTransGen (fun a b => b ∈ nb a) start k := by
    intro k
    rw [← h2.mem]
    constructor
    · exact h5 k
    · intro hk
      induction hk with
      | refl => rw [h3]; simp
      | tail _ hbc ih => exact h4 _ ih _ hbc
  have hpass1 : dfsPass adj ((List.replicate n false).length + 1) 0 (List.replicate n false) [start] false =
      some (nf, vs, s) := by rw [List.length_replicate, hfirst]; exact h1
  rw [dfsLoop, hpass1]
  dsimp only
  cases s with
  | false => exact ⟨nf, rfl, h2.len, hchar⟩
  | true =>
    rw [if_pos rfl, dfsLoop, h2.len, dfsPass_noop hadj (n + 1) 0 nf vs false h2 (by omega) (by omega) h4]
    exact ⟨nf, rfl, h2.len, hchar⟩

end

/-- Indices reachable through the face table are the indices of connected triangles. -/
theorem reach_iff_connected {srt : KeySort (Nat × Nat) Nat lexOrder.le} {t : List Tri} {nb : Nat → List Nat}
    (hnb : ∀ c < t.length, ∀ g, g ∈ nb c ↔ g = c ∨ (c, g) ∈ facePairs srt t ∨ (g, c) ∈ facePairs srt t)
    {i : Nat} {f : Tri} (hi : t[i]? = some f) (k : Nat) :
    Relation.ReflTransGen (fun a b => b ∈ nb a) i k ↔ ∃ g, t[k]? = some g ∧ Connected t f g := by
  have hlt : ∀ {k g}, t[k]? = some g → k < t.length := fun h => (List.getElem?_eq_some_iff.1 h).1
  constructor
  · intro h
    induction h with
    | refl => exact ⟨f, hi, .refl (List.mem_of_getElem? hi)⟩
    | @tail b c _ hbc ih =>
      obtain ⟨g, hg, hfg⟩ := ih
      rcases (hnb b (hlt hg) c).1 hbc with rfl | h | h
      · exact ⟨g, hg, hfg⟩
      · obtain ⟨g1, h1, e1, e2, hadj⟩ := mem_facePairs h
        rw [hg] at e1; cases e1
        exact ⟨h1, e2, hfg.step (List.mem_of_getElem? e2) hadj⟩
      · obtain ⟨h1, g1, e2, e1, hadj⟩ := mem_facePairs h
        rw [hg] at e1; cases e1
        exact ⟨h1, e2, hfg.step (List.mem_of_getElem? e2) (Adjacent.symm hadj)⟩
  · rintro ⟨g, hk, hfg⟩
    -- adjacent rows are reachable
    have hadj : ∀ {a b : Nat} {x y : Tri}, t[a]? = some x → t[b]? = some y → Adjacent x y →
        Relation.ReflTransGen (fun a b => b ∈ nb a) a b := by
      intro a b x y ha hb hxy
      obtain ⟨e, he, h1, h2⟩ := adjacent_iff_le.1 hxy
      have m1 : (e, a) ∈ srt.run (sideRows 0 t) := (srt.perm _).mem_iff.2 (mem_sideRows_zero.2 ⟨x, ha, he, h1⟩)
      have m2 : (e, b) ∈ srt.run (sideRows 0 t) := (srt.perm _).mem_iff.2 (mem_sideRows_zero.2 ⟨y, hb, he, h2⟩)
      have := equalNeighbours_linked (srt.sorted _) m1 m2
      refine Relation.ReflTransGen.mono ?_ _ _ this
      intro c d hcd
      have hc : c < t.length := by
        rcases hcd with h | h
        · obtain ⟨_, _, e1, _, _⟩ := mem_facePairs (srt := srt) h; exact hlt e1
        · obtain ⟨_, _, _, e1, _⟩ := mem_facePairs (srt := srt) h; exact hlt e1
      exact (hnb c hc d).2 (Or.inr hcd)
    induction hfg generalizing k with
    | refl _ => exact hadj hi hk (adjacent_self _)
    | step hfg' hh hgh ih =>
      rename_i g' h'
      have hg' : g' ∈ t := by cases hfg' <;> assumption
      obtain ⟨j, hj⟩ := List.mem_iff_getElem?.1 hg'
      exact (ih j hj).trans (hadj hj hk hgh)

/-- The component search terminates and flags the connected component of its start. -/
theorem depthFirstSearch_spec (srt : KeySort (Nat × Nat) Nat lexOrder.le) {t : List Tri} {i : Nat} {f : Tri}
    (hi : t[i]? = some f) :
    ∃ nflag, depthFirstSearch srt i t = some nflag ∧ nflag.length = t.length ∧
      ∀ (k : Nat) (g : Tri), t[k]? = some g → (nflag[k]? = some true ↔ Connected t f g) := by
  have hil : i < t.length := (List.getElem?_eq_some_iff.1 hi).1
  let nb : Nat → List Nat := fun c => ((faceNeighbours srt t c).getD [])
  have hmem : ∀ c < t.length, ∀ g, g ∈ nb c ↔ g = c ∨ (c, g) ∈ facePairs srt t ∨ (g, c) ∈ facePairs srt t := by
    intro c hc g
    obtain ⟨ns, h1, h2⟩ := mem_faceNeighbours (srt := srt) hc
    show g ∈ ((faceNeighbours srt t c).getD []) ↔ _
    rw [h1]; exact h2 g
  have hadj : ∀ c < t.length, ∃ rows, block (faceToFace srt t).1 (faceToFace srt t).2 c = some rows ∧
      rows.map Prod.snd = nb c := by
    intro c hc
    obtain ⟨rows, h1, _⟩ := faceToFace_block srt t hc
    refine ⟨rows, h1, ?_⟩
    show _ = ((faceNeighbours srt t c).getD [])
    rw [faceNeighbours, h1]; rfl
  have hlt : ∀ c < t.length, ∀ k ∈ nb c, k < t.length := by
    intro c hc k hk
    rcases (hmem c hc k).1 hk with rfl | h | h
    · exact hc
    · obtain ⟨_, _, _, e1, _⟩ := mem_facePairs h; exact (List.getElem?_eq_some_iff.1 e1).1
    · obtain ⟨_, _, e1, _, _⟩ := mem_facePairs h; exact (List.getElem?_eq_some_iff.1 e1).1
  obtain ⟨nflag, h1, h2, h3⟩ := dfsLoop_spec hadj hlt hil t.length
  refine ⟨nflag, ?_, h2, ?_⟩
  · rw [depthFirstSearch, if_pos hil]; exact h1
  · intro k g hk
    rw [h3, reach_iff_connected hmem hi]
    constructor
    · rintro ⟨g', h, hh⟩; rw [hk] at h; cases h; exact hh
    · intro hh; exact ⟨g, hk, hh⟩

end OM
