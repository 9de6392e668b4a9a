import Verif.Props.Inpoly
import Verif.Lemmas.Poly
import Mathlib.Data.Rat.Floor
/-!
# C52, C53: batches of points and rings from edges
-/
namespace OM
open Spec
set_option linter.unusedSectionVars false

/-! ## C53 -/

/-- Two vertices are joined by an edge. -/
def Spec.EdgeJoined (es : List (Nat × Nat)) (v w : Nat) : Prop := (v, w) ∈ es ∨ (w, v) ∈ es

/-- A closed ring of vertices along edges: consecutive vertices are joined, and the last with the first. -/
def Spec.ClosedRing (es : List (Nat × Nat)) (r : List Nat) : Prop :=
  r ≠ [] ∧ r.IsChain (EdgeJoined es) ∧ ∀ a ∈ r.head?, ∀ b ∈ r.getLast?, EdgeJoined es b a

theorem count_ite (a b v w : Nat) : (if a = v then [b] else []).count w = if a = v ∧ b = w then 1 else 0 := by
  by_cases h1 : a = v <;> by_cases h2 : b = w <;> simp [h1, h2]

theorem count_ringNbrs (es : List (Nat × Nat)) (v w : Nat) : (ringNbrs es v).count w = (ringNbrs es w).count v := by
  unfold ringNbrs
  induction es with
  | nil => rfl
  | cons e es ih =>
    simp only [List.flatMap_cons, List.count_append, ih, count_ite]
    simp only [and_comm (a := e.1 = w), and_comm (a := e.2 = w)]
    omega

theorem even_ringNbrs (es : List (Nat × Nat)) (v : Nat) : Even ((ringNbrs es v).count v) := by
  unfold ringNbrs
  induction es with
  | nil => exact ⟨0, rfl⟩
  | cons e es ih =>
    rw [List.flatMap_cons, List.count_append]
    refine Even.add ?_ ih
    rw [List.count_append, count_ite, count_ite]
    by_cases h1 : e.1 = v <;> by_cases h2 : e.2 = v <;> simp [h1, h2]

theorem mem_ringNbrs (es : List (Nat × Nat)) (v w : Nat) : w ∈ ringNbrs es v ↔ EdgeJoined es v w := by
  unfold ringNbrs EdgeJoined
  simp only [List.mem_flatMap, List.mem_append, List.mem_ite_nil_right, List.mem_singleton]
  constructor
  · rintro ⟨⟨a, b⟩, he, (⟨rfl, rfl⟩ | ⟨rfl, rfl⟩)⟩
    · exact .inl he
    · exact .inr he
  · rintro (h | h)
    · exact ⟨_, h, .inl ⟨rfl, rfl⟩⟩
    · exact ⟨_, h, .inr ⟨rfl, rfl⟩⟩

theorem mem_ringNbrs_symm {es : List (Nat × Nat)} {v w : Nat} (h : w ∈ ringNbrs es v) : v ∈ ringNbrs es w := by
  rw [mem_ringNbrs] at h ⊢
  exact h.symm

theorem length_ringNbrs (es : List (Nat × Nat)) (v : Nat) : (ringNbrs es v).length = endCount es v := by
  unfold ringNbrs endCount
  induction es with
  | nil => rfl
  | cons e es ih =>
    rw [List.flatMap_cons, List.length_append, ih, List.countP_cons, List.countP_cons, List.length_append]
    by_cases h1 : e.1 = v <;> by_cases h2 : e.2 = v <;> simp [h1, h2] <;> omega

theorem ringKeys_spec (es : List (Nat × Nat)) : (ringKeys es).Nodup ∧ ∀ v, v ∈ ringKeys es ↔ v ∈ endPoints es := by
  have key : ∀ (es : List (Nat × Nat)) (ks : List Nat), ks.Nodup →
      (es.foldl (fun ks e => let ks := if e.1 ∈ ks then ks else ks ++ [e.1]; if e.2 ∈ ks then ks else ks ++ [e.2]) ks).Nodup ∧
      ∀ v, v ∈ es.foldl (fun ks e => let ks := if e.1 ∈ ks then ks else ks ++ [e.1]; if e.2 ∈ ks then ks else ks ++ [e.2]) ks ↔
        v ∈ ks ∨ v ∈ endPoints es := by
    intro es
    induction es with
    | nil => intro ks h; exact ⟨h, fun v => by simp [endPoints]⟩
    | cons e es ih =>
      intro ks h
      have add : ∀ (ks : List Nat) (x : Nat), ks.Nodup → (if x ∈ ks then ks else ks ++ [x]).Nodup ∧
          ∀ v, v ∈ (if x ∈ ks then ks else ks ++ [x]) ↔ v ∈ ks ∨ v = x := by
        intro ks x h
        by_cases hx : x ∈ ks
        · rw [if_pos hx]
          exact ⟨h, fun v => ⟨.inl, fun hv => hv.elim id fun e => e ▸ hx⟩⟩
        · rw [if_neg hx]
          exact ⟨List.nodup_append.2 ⟨h, by simp, fun a ha b hb => by simp at hb; subst hb; exact fun e => hx (e ▸ ha)⟩, fun v => by simp⟩
      obtain ⟨a1, a2⟩ := add ks e.1 h
      obtain ⟨b1, b2⟩ := add _ e.2 a1
      obtain ⟨c1, c2⟩ := ih _ b1
      refine ⟨c1, fun v => ?_⟩
      rw [List.foldl_cons]
      refine (c2 v).trans ?_
      rw [b2, a2]
      simp only [endPoints, List.flatMap_cons, List.mem_append, List.mem_cons, List.not_mem_nil, or_false]
      tauto
  obtain ⟨h1, h2⟩ := key es [] List.nodup_nil
  exact ⟨h1, fun v => (h2 v).trans (by simp)⟩

/-- The state of a walk that began at `s`: `c` is the current vertex, `rp` the earlier ones, the last first. -/
structure RingPath (es : List (Nat × Nat)) (s a b c : Nat) (rp : List Nat) : Prop where
  first : ringNbrs es s = [a, b]
  last : (c :: rp).getLast? = some s
  nodup : (c :: rp).Nodup
  prev : ∀ p ∈ rp.head?, p ∈ ringNbrs es c
  prev2 : ∀ p p2 rest, rp = p :: p2 :: rest → (ringNbrs es p).Perm [p2, c]
  closed : ∀ p rest, rp = p :: rest → ∀ x ∈ rest, x ≠ s → ∀ y ∈ ringNbrs es x, y ∈ rp
  second : rp ≠ [] → (rp = [s] ∧ c = a) ∨ a ∈ rp
  chain : (c :: rp).IsChain (EdgeJoined es)

/-- All neighbours of the members are members. -/
def NbrClosed (es : List (Nat × Nat)) (R : List Nat) : Prop := ∀ x ∈ R, ∀ y ∈ ringNbrs es x, y ∈ R

theorem ringNext_perm {es : List (Nat × Nat)} {c p : Nat} (hlen : (ringNbrs es c).length = 2) (hp : p ∈ ringNbrs es c) :
    ∃ n, ringNext es (some p) c = some n ∧ (ringNbrs es c).Perm [p, n] := by
  obtain ⟨x, y, hxy⟩ := List.length_eq_two.1 hlen
  unfold ringNext
  rw [hxy] at hp ⊢
  simp only [List.mem_cons, List.not_mem_nil, or_false] at hp
  by_cases h : y = p
  · refine ⟨x, by simp [h], ?_⟩
    subst h
    exact List.Perm.swap _ _ _
  · have : p = x := hp.resolve_right fun e => h e.symm
    subst this
    exact ⟨y, by simp [h], List.Perm.refl _⟩

theorem ringWalk_spec {es : List (Nat × Nat)} (hdeg : ∀ v ∈ ringKeys es, (ringNbrs es v).length = 2) {s a b : Nat} :
    ∀ (fuel c : Nat) (rp : List Nat), RingPath es s a b c rp → fuel + rp.length = (ringKeys es).length →
      ∃ t, ringWalk es s fuel rp.head? c = some t ∧ (rp.reverse ++ t).Nodup ∧ NbrClosed es (rp.reverse ++ t) ∧
        ClosedRing es (rp.reverse ++ t) ∧ s ∈ rp.reverse ++ t := by
  have hkey : ∀ x y, y ∈ ringNbrs es x → x ∈ ringKeys es := by
    intro x y h
    rw [(ringKeys_spec es).2]
    rw [mem_ringNbrs] at h
    unfold endPoints
    rw [List.mem_flatMap]
    rcases h with h | h
    · exact ⟨_, h, by simp⟩
    · exact ⟨_, h, by simp⟩
  have hrevchain : ∀ l : List Nat, l.IsChain (EdgeJoined es) → l.reverse.IsChain (EdgeJoined es) := by
    intro l hl
    rw [List.isChain_reverse]
    exact hl.imp fun _ _ h => h.symm
  have hmem : ∀ (l : List Nat) (c : Nat), (c :: l).IsChain (EdgeJoined es) → ∀ x ∈ l, x ∈ ringKeys es := by
    intro l
    induction l with
    | nil => simp
    | cons p l ih =>
      intro c hch x hx
      have hcp : EdgeJoined es c p := by simpa using (List.isChain_cons.1 hch).1
      rcases List.mem_cons.1 hx with rfl | hx
      · exact hkey x c ((mem_ringNbrs es x c).2 hcp.symm)
      · exact ih p ((List.isChain_cons.1 hch).2) x hx
  intro fuel
  induction fuel with
  | zero =>
    intro c rp h hf
    exfalso
    -- the path would be longer than the number of vertices
    have hsub : (c :: rp) ⊆ ringKeys es := by
      intro x hx
      rcases List.mem_cons.1 hx with rfl | hx
      · cases rp with
        | nil =>
          have := h.last
          simp at this
          subst this
          exact hkey x a (by rw [h.first]; simp)
        | cons p rest => exact hkey _ p (h.prev p (by simp))
      · -- every member of a chain with at least two members has a neighbour
        exact hmem rp c h.chain x hx
    have := (h.nodup.subperm hsub).length_le
    simp at this
    omega
  | succ fuel ih =>
    intro c rp h hf
    cases rp with
    | nil =>
      have hs : c = s := by have := h.last; simpa using this
      subst hs
      have hn : ringNext es none c = some a := by unfold ringNext; rw [h.first]
      by_cases has : a = c
      · refine ⟨[c], by rw [List.head?_nil, ringWalk, hn]; simp [has], by simp, ?_, ?_, by simp⟩
        · intro x hx y hy
          simp at hx
          subst hx
          rw [h.first] at hy
          have hev := even_ringNbrs es x
          rw [h.first] at hev
          subst has
          by_cases hb : b = a
          · subst hb; simpa using hy
          · simp [List.count_cons, hb, Nat.even_iff] at hev
        · refine ⟨by simp, by simp, ?_⟩
          intro x hx y hy
          simp at hx hy
          subst hx hy
          exact (mem_ringNbrs es _ _).1 (by rw [h.first, has]; simp)
      · have hac : a ∈ ringNbrs es c := by rw [h.first]; simp
        have hp : RingPath es c a b a [c] :=
          { first := h.first
            last := by simp
            nodup := by simp [has]
            prev := by intro p hp; simp at hp; subst hp; exact mem_ringNbrs_symm hac
            prev2 := by intro p p2 rest hr; simp at hr
            closed := by intro p rest hr x hx; simp at hr; rw [hr.2] at hx; simp at hx
            second := fun _ => .inl ⟨rfl, rfl⟩
            chain := by simpa using (mem_ringNbrs es _ _).1 (mem_ringNbrs_symm hac) }
        obtain ⟨t, ht, h1, h2, h3, h4⟩ := ih a [c] hp (by simp at hf ⊢; omega)
        refine ⟨c :: t, ?_, by simpa using h1, by simpa using h2, by simpa using h3, by simp⟩
        rw [List.head?_nil, ringWalk, hn]
        simp only [has, if_false]
        rw [show (some c : Option Nat) = [c].head? from rfl, ht]
        rfl
    | cons p rest =>
      have hpc : p ∈ ringNbrs es c := h.prev p (by simp)
      obtain ⟨n, hn, hperm⟩ := ringNext_perm (hdeg c (hkey c p hpc)) hpc
      have hnc : n ∈ ringNbrs es c := by rw [hperm.mem_iff]; simp
      have hcp : c ≠ p := by have := h.nodup; simp at this; exact fun e => this.1.1 e
      have hcrest : c ∉ rest := by have := h.nodup; simp at this; exact this.1.2
      have hslast : s ∈ p :: rest := by
        have := h.last
        rw [List.getLast?_cons_cons] at this
        exact List.mem_of_getLast? this
      by_cases hns : n = s
      · subst hns
        refine ⟨[c], by rw [List.head?_cons, ringWalk, hn]; simp, ?_, ?_, ?_, by
          rw [List.mem_append, List.mem_reverse]; exact .inl hslast⟩
        · rw [← List.reverse_cons, List.nodup_reverse]; exact h.nodup
        · rw [← List.reverse_cons]
          intro x hx y hy
          rw [List.mem_reverse] at hx ⊢
          rcases List.mem_cons.1 hx with rfl | hx
          · rw [hperm.mem_iff] at hy
            simp only [List.mem_cons, List.not_mem_nil, or_false] at hy
            rcases hy with rfl | rfl
            · simp
            · exact List.mem_cons_of_mem _ hslast
          · by_cases hxs : x = n
            · subst hxs
              rw [h.first] at hy
              simp only [List.mem_cons, List.not_mem_nil, or_false] at hy
              have hcx : c ∈ ringNbrs es x := mem_ringNbrs_symm hnc
              rcases hy with rfl | rfl
              · rcases h.second (by simp) with ⟨-, h2⟩ | h2
                · rw [h2]; simp
                · exact List.mem_cons_of_mem _ h2
              · rcases h.second (by simp) with ⟨h1, h2⟩ | h2
                · -- a double edge
                  simp only [List.cons.injEq] at h1
                  have hcnt : (ringNbrs es x).count c = 2 := by
                    rw [count_ringNbrs, hperm.count_eq, h1.1]
                    simp
                  rw [h.first, ← h2] at hcnt
                  by_cases hy : y = c
                  · rw [hy]; simp
                  · simp [List.count_cons, hy] at hcnt
                · rw [h.first] at hcx
                  simp only [List.mem_cons, List.not_mem_nil, or_false] at hcx
                  rcases hcx with e | e
                  · subst e
                    rcases List.mem_cons.1 h2 with e | e
                    · exact absurd e hcp
                    · exact absurd e hcrest
                  · rw [e]; simp
            · rcases List.mem_cons.1 hx with rfl | hx
              · cases rest with
                | nil => simp at hslast; exact absurd hslast.symm hxs
                | cons p2 rest =>
                  rw [(h.prev2 x p2 rest rfl).mem_iff] at hy
                  simp only [List.mem_cons, List.not_mem_nil, or_false] at hy ⊢
                  tauto
              · exact List.mem_cons_of_mem _ (h.closed p rest rfl x hx hxs y hy)
        · rw [← List.reverse_cons]
          refine ⟨by simp, hrevchain _ h.chain, ?_⟩
          intro x hx y hy
          rw [List.head?_reverse, h.last] at hx
          rw [List.getLast?_reverse] at hy
          simp at hx hy
          subst hx hy
          exact (mem_ringNbrs es _ _).1 hnc
      · -- the next vertex is new
        have hnew : n ∉ c :: p :: rest := by
          intro hmem
          rcases List.mem_cons.1 hmem with rfl | hmem
          · have hev := even_ringNbrs es n
            rw [hperm.count_eq] at hev
            simp [List.count_cons, hcp.symm, Nat.even_iff] at hev
          · rcases List.mem_cons.1 hmem with rfl | hmem
            · cases rest with
              | nil => simp at hslast; exact hns hslast.symm
              | cons p2 rest =>
                have hcnt : (ringNbrs es n).count c = 2 := by
                  rw [count_ringNbrs, hperm.count_eq]; simp
                rw [(h.prev2 n p2 rest rfl).count_eq] at hcnt
                have : p2 ≠ c := fun e => hcrest (by simp [e])
                simp [List.count_cons, this] at hcnt
            · have := h.closed p rest rfl n hmem hns c (mem_ringNbrs_symm hnc)
              rcases List.mem_cons.1 this with e | e
              · exact hcp e
              · exact hcrest e
        have hp : RingPath es s a b n (c :: p :: rest) :=
          { first := h.first
            last := by rw [List.getLast?_cons_cons]; exact h.last
            nodup := List.nodup_cons.2 ⟨hnew, h.nodup⟩
            prev := by intro x hx; simp at hx; subst hx; exact mem_ringNbrs_symm hnc
            prev2 := by
              intro x x2 r hr
              simp only [List.cons.injEq] at hr
              rw [← hr.1, ← hr.2.1]
              exact hperm
            closed := by
              intro x r hr z hz hzs y hy
              simp only [List.cons.injEq] at hr
              rw [← hr.2] at hz
              rcases List.mem_cons.1 hz with rfl | hz
              · cases rest with
                | nil => simp at hslast; exact absurd hslast.symm hzs
                | cons p2 rest =>
                  rw [(h.prev2 z p2 rest rfl).mem_iff] at hy
                  simp only [List.mem_cons, List.not_mem_nil, or_false] at hy ⊢
                  tauto
              · exact List.mem_cons_of_mem _ (h.closed p rest rfl z hz hzs y hy)
            second := by
              intro _
              right
              rcases h.second (by simp) with ⟨-, e⟩ | e
              · rw [e]; simp
              · exact List.mem_cons_of_mem _ e
            chain := by
              rw [List.isChain_cons]
              exact ⟨fun y hy => by simp at hy; subst hy; exact ((mem_ringNbrs es _ _).1 hnc).symm, h.chain⟩ }
        obtain ⟨t, ht, h1, h2, h3, h4⟩ := ih n (c :: p :: rest) hp (by simp at hf ⊢; omega)
        have e : (c :: p :: rest).reverse ++ t = (p :: rest).reverse ++ (c :: t) := by simp
        rw [e] at h1 h2 h3 h4
        refine ⟨c :: t, ?_, h1, h2, h3, h4⟩
        rw [List.head?_cons, ringWalk, hn]
        simp only [hns, if_false]
        rw [List.head?_cons] at ht
        rw [ht]
        rfl

theorem chain_in_closed {es : List (Nat × Nat)} {S : List Nat} (hS : NbrClosed es S) : ∀ (l : List Nat), l.IsChain (EdgeJoined es) →
    ∀ x ∈ l, x ∈ S → ∀ y ∈ l, y ∈ S := by
  intro l
  induction l with
  | nil => simp
  | cons u l ih =>
    intro hch x hx hxS
    rw [List.isChain_cons] at hch
    cases l with
    | nil => intro y hy; simp at hx hy; rw [hy, ← hx]; exact hxS
    | cons v l =>
      have huv := hch.1 v (by simp)
      rcases List.mem_cons.1 hx with rfl | hx
      · have hv : v ∈ S := hS x hxS v ((mem_ringNbrs es _ _).2 huv)
        intro y hy
        rcases List.mem_cons.1 hy with rfl | hy
        · exact hxS
        · exact ih hch.2 v (by simp) hv y hy
      · have hall := ih hch.2 x hx hxS
        intro y hy
        rcases List.mem_cons.1 hy with rfl | hy
        · exact hS v (hall v (by simp)) y ((mem_ringNbrs es _ _).2 huv.symm)
        · exact hall y hy

theorem ringLoop_spec {es : List (Nat × Nat)} (hdeg : ∀ v ∈ ringKeys es, (ringNbrs es v).length = 2) :
    ∀ (ks visited : List Nat), (∀ v ∈ ks, v ∈ ringKeys es) → visited.Nodup → NbrClosed es visited → (∀ v ∈ visited, v ∈ ringKeys es) →
      ∃ rs, ringLoop es (ringKeys es).length ks visited = some rs ∧ (visited ++ rs.flatten).Nodup ∧
        (∀ v ∈ ks, v ∈ visited ++ rs.flatten) ∧ (∀ v ∈ rs.flatten, v ∈ ringKeys es) ∧ ∀ r ∈ rs, ClosedRing es r := by
  intro ks
  induction ks with
  | nil => intro visited _ h1 _ _; exact ⟨[], rfl, by simpa using h1, by simp, by simp, by simp⟩
  | cons v ks ih =>
    intro visited hks h1 h2 h3
    have hks' : ∀ v ∈ ks, v ∈ ringKeys es := fun w hw => hks w (List.mem_cons_of_mem _ hw)
    unfold ringLoop
    by_cases hv : v ∈ visited
    · rw [if_pos hv]
      obtain ⟨rs, e1, e2, e3, e4, e5⟩ := ih visited hks' h1 h2 h3
      refine ⟨rs, e1, e2, ?_, e4, e5⟩
      intro w hw
      rcases List.mem_cons.1 hw with rfl | hw
      · exact List.mem_append_left _ hv
      · exact e3 w hw
    · rw [if_neg hv]
      have hvk := hks v List.mem_cons_self
      obtain ⟨a, b, hab⟩ := List.length_eq_two.1 (hdeg v hvk)
      have hp : RingPath es v a b v [] :=
        { first := hab
          last := by simp
          nodup := by simp
          prev := by simp
          prev2 := by simp
          closed := by simp
          second := by simp
          chain := by simp }
      obtain ⟨t, ht, n1, n2, n3, n4⟩ := ringWalk_spec hdeg (ringKeys es).length v [] hp (by simp)
      simp only [List.reverse_nil, List.nil_append] at n1 n2 n3 n4
      rw [List.head?_nil] at ht
      rw [ht]
      have hdis : ∀ x ∈ t, x ∉ visited := fun x hx hxv => hv (chain_in_closed h2 t n3.2.1 x hx hxv v n4)
      have hnd : (visited ++ t).Nodup := List.nodup_append.2 ⟨h1, n1, fun x hx y hy e => hdis y hy (e ▸ hx)⟩
      have hcl : NbrClosed es (visited ++ t) := by
        intro x hx y hy
        rcases List.mem_append.1 hx with hx | hx
        · exact List.mem_append_left _ (h2 x hx y hy)
        · exact List.mem_append_right _ (n2 x hx y hy)
      have hkey : ∀ x ∈ t, x ∈ ringKeys es := by
        have hc : NbrClosed es (ringKeys es) := by
          intro x _ y hy
          rw [(ringKeys_spec es).2]
          rw [mem_ringNbrs] at hy
          unfold endPoints
          rw [List.mem_flatMap]
          rcases hy with h | h
          · exact ⟨_, h, by simp⟩
          · exact ⟨_, h, by simp⟩
        exact chain_in_closed hc t n3.2.1 v n4 hvk
      obtain ⟨rs, e1, e2, e3, e4, e5⟩ := ih (visited ++ t) hks' hnd hcl (fun x hx => (List.mem_append.1 hx).elim (h3 x) (hkey x))
      refine ⟨t :: rs, by simp only [e1, Option.map_some], ?_, ?_, ?_, ?_⟩
      · rw [List.flatten_cons, ← List.append_assoc]; exact e2
      · intro w hw
        rw [List.flatten_cons, ← List.append_assoc]
        rcases List.mem_cons.1 hw with rfl | hw
        · exact List.mem_append_left _ (List.mem_append_right _ n4)
        · exact e3 w hw
      · intro w hw
        rw [List.flatten_cons] at hw
        exact (List.mem_append.1 hw).elim (hkey w) (e4 w)
      · intro r hr
        rcases List.mem_cons.1 hr with rfl | hr
        · exact n3
        · exact e5 r hr

/-- **C53**: if every vertex of the edges has exactly two edge ends, the rings are closed, run along edges and together visit every vertex
exactly once. In particular the walk ends. -/
theorem C53_rings (es : List (Nat × Nat)) (h : ∀ v ∈ endPoints es, endCount es v = 2) :
    ∃ rs, edgesToRings es = some (some rs) ∧ rs.flatten.Nodup ∧ (∀ v, v ∈ rs.flatten ↔ v ∈ endPoints es) ∧ ∀ r ∈ rs, ClosedRing es r := by
  unfold edgesToRings
  by_cases he : es = []
  · subst he
    exact ⟨[], by simp, by simp, by simp [endPoints], by simp⟩
  · rw [if_neg he]
    have hdeg : ∀ v ∈ ringKeys es, (ringNbrs es v).length = 2 := by
      intro v hv
      rw [length_ringNbrs]
      exact h v (((ringKeys_spec es).2 v).1 hv)
    rw [if_pos (by rw [List.all_eq_true]; exact fun v hv => by rw [hdeg v hv]; rfl)]
    obtain ⟨rs, e1, e2, e3, e4, e5⟩ := ringLoop_spec hdeg (ringKeys es) [] (fun _ h => h) List.nodup_nil (by intro x hx; simp at hx) (by simp)
    refine ⟨rs, by rw [e1]; rfl, by simpa using e2, fun v => ?_, e5⟩
    rw [← (ringKeys_spec es).2]
    exact ⟨e4 v, fun hv => by simpa using e3 v hv⟩

/-- **C53**: if some vertex has another number of edge ends, it fails. -/
theorem C53_fails (es : List (Nat × Nat)) (v : Nat) (hv : v ∈ endPoints es) (h : endCount es v ≠ 2) : edgesToRings es = some none := by
  unfold edgesToRings
  rw [if_neg (by rintro rfl; simp [endPoints] at hv), if_neg]
  rw [List.all_eq_true]
  intro hall
  have := hall v (((ringKeys_spec es).2 v).2 hv)
  rw [length_ringNbrs, beq_iff_eq] at this
  exact h this

/-- **C53**: the walk ends for every edge list. -/
theorem C53_terminates (es : List (Nat × Nat)) : edgesToRings es ≠ none := by
  by_cases h : ∀ v ∈ endPoints es, endCount es v = 2
  · obtain ⟨rs, e, -⟩ := C53_rings es h
    rw [e]; simp
  · push Not at h
    obtain ⟨v, hv, hne⟩ := h
    rw [C53_fails es v hv hne]; simp

-- Two rings, one of them a double edge, and a loop.
example : edgesToRings [(5, 2), (7, 5), (2, 7), (1, 3), (3, 1), (4, 4)] = some (some [[5, 2, 7], [1, 3], [4]]) := by decide +kernel
example : ∀ v ∈ endPoints [(5, 2), (7, 5), (2, 7), (1, 3), (3, 1), (4, 4)], endCount [(5, 2), (7, 5), (2, 7), (1, 3), (3, 1), (4, 4)] v = 2 := by
  decide
example : 0 ∈ endPoints [(0, 1), (1, 2)] ∧ endCount [(0, 1), (1, 2)] 0 ≠ 2 := by decide

/-- The edges of one feature touch only its own rows, or the separators if it is empty. -/
theorem polySegmentEdges_range (i : Int) (m : Nat) : ∀ e ∈ polySegmentEdges (i - 1) (i + m), i - 1 ≤ e.1 ∧ e.1 ≤ i + m ∧ i - 1 ≤ e.2 ∧ e.2 ≤ i + m := by
  rw [polySegmentEdges_eq]
  intro e he
  rw [List.mem_append, List.mem_map] at he
  rcases he with ⟨k, hk, rfl⟩ | he
  · rw [List.mem_range] at hk
    dsimp only
    omega
  · simp only [List.mem_singleton] at he
    subst he
    dsimp only
    omega

theorem endCount_append {V : Type} [DecidableEq V] (a b : List (V × V)) (v : V) : endCount (a ++ b) v = endCount a v + endCount b v := by
  unfold endCount
  rw [List.countP_append, List.countP_append]
  omega

theorem endCount_zero {V : Type} [DecidableEq V] (a : List (V × V)) (v : V) (h : ∀ e ∈ a, e.1 ≠ v ∧ e.2 ≠ v) : endCount a v = 0 := by
  unfold endCount
  rw [List.countP_eq_zero.2 fun e he => by simpa using (h e he).1, List.countP_eq_zero.2 fun e he => by simpa using (h e he).2]

/-- The last row of a feature of at least two points has one edge end. -/
theorem polySegmentEdges_last (i : Int) (m : Nat) (hm : 2 ≤ m) : endCount (polySegmentEdges (i - 1) (i + m)) (i + m - 1) = 1 := by
  rw [polySegmentEdges_eq, endCount_append, endCount_zero, zero_add]
  · unfold endCount
    have : i ≠ i + m - 1 := by omega
    simp [List.countP_cons, this]
  · intro e he
    rw [List.mem_map] at he
    obtain ⟨k, hk, rfl⟩ := he
    rw [List.mem_range] at hk
    dsimp only
    omega

theorem polyLoop_range {α : Type} (fs : List (List α)) (i : Int) :
    ∀ e ∈ polyEdgesLoop (i - 1) (nanRows i ((joinNaN fs).map Option.isNone)), i - 1 ≤ e.1 ∧ i - 1 ≤ e.2 := by
  induction fs generalizing i with
  | nil => simp [joinNaN, nanRows, polyEdgesLoop]
  | cons f fs ih =>
    intro e he
    rw [joinNaN, nanRows_feature, polyEdgesLoop, List.mem_append] at he
    rcases he with he | he
    · have := polySegmentEdges_range i f.length e he
      omega
    · have := ih (i + f.length + 1) e (by rw [add_sub_cancel_right]; exact he)
      omega

theorem polyLoop_last {α : Type} (fs : List (List α)) (f : List α) (hf : f ∈ fs) (hlen : 2 ≤ f.length) (i : Int) :
    ∃ v, i < v ∧ endCount (polyEdgesLoop (i - 1) (nanRows i ((joinNaN fs).map Option.isNone))) v = 1 := by
  induction fs generalizing i with
  | nil => simp at hf
  | cons g fs ih =>
    rw [joinNaN, nanRows_feature, polyEdgesLoop]
    rcases List.mem_cons.1 hf with rfl | hf
    · refine ⟨i + f.length - 1, by omega, ?_⟩
      rw [endCount_append, polySegmentEdges_last i f.length hlen, endCount_zero]
      intro e he
      have := polyLoop_range fs (i + f.length + 1) e (by rw [add_sub_cancel_right]; exact he)
      omega
    · obtain ⟨v, hv, hc⟩ := ih hf (i + g.length + 1)
      rw [add_sub_cancel_right] at hc
      refine ⟨v, by omega, ?_⟩
      rw [endCount_append, hc, endCount_zero]
      intro e he
      have := polySegmentEdges_range i g.length e he
      omega

theorem endCount_toNat (es : List (Int × Int)) (h : ∀ e ∈ es, 0 ≤ e.1 ∧ 0 ≤ e.2) (v : Int) (hv : 0 ≤ v) :
    endCount (es.map fun e => (e.1.toNat, e.2.toNat)) v.toNat = endCount es v := by
  unfold endCount
  rw [List.countP_map, List.countP_map]
  congr 1
  · refine List.countP_congr fun e he => ?_
    have := h e he
    simp only [Function.comp_apply, decide_eq_true_eq]
    omega
  · refine List.countP_congr fun e he => ?_
    have := h e he
    simp only [Function.comp_apply, decide_eq_true_eq]
    omega

theorem mem_endPoints_of_endCount {es : List (Nat × Nat)} {v : Nat} (h : endCount es v ≠ 0) : v ∈ endPoints es := by
  by_contra hv
  refine h (endCount_zero es v fun e he => ?_)
  unfold endPoints at hv
  rw [List.mem_flatMap] at hv
  push Not at hv
  have := hv e he
  simp at this
  tauto

/-- **C53**: the edges that `get_poly_edges` gives for features of which one has at least two points never form rings, whatever the number of
rows they are checked against. -/
theorem C53_shoreline_edges {α : Type} (fs : List (List α)) (f : List α) (hf : f ∈ fs) (hlen : 2 ≤ f.length) (m : Nat) (es : List (Int × Int))
    (ns : List (Nat × Nat)) (hes : getPolyEdges ((joinNaN fs).map Option.isNone) = some es) (hns : checkEdges m es = some ns) :
    edgesToRings ns = some none := by
  have hes' : es = polyEdgesLoop (0 - 1) (nanRows 0 ((joinNaN fs).map Option.isNone)) := by
    unfold getPolyEdges at hes
    split at hes
    · simp at hes
    · simp only [Option.some.injEq] at hes
      rw [← hes]; rfl
  obtain ⟨v, hv, hc⟩ := polyLoop_last fs f hf hlen 0
  rw [← hes'] at hc
  unfold checkEdges at hns
  split at hns
  · rename_i hall
    rw [List.all_eq_true] at hall
    simp only [Option.some.injEq] at hns
    subst hns
    have hnn : ∀ e ∈ es, 0 ≤ e.1 ∧ 0 ≤ e.2 := by
      intro e he
      have := hall e he
      simp only [Bool.and_eq_true, decide_eq_true_eq] at this
      exact ⟨this.1.1.1, this.1.1.2⟩
    have h1 := endCount_toNat es hnn v (by omega)
    rw [hc] at h1
    exact C53_fails _ v.toNat (mem_endPoints_of_endCount (by omega)) (by omega)
  · simp at hns

-- Two features, the second one of three points.
example : getPolyEdges ((joinNaN [[7, 8, 7], [1, 2, 3, 1, 1]]).map Option.isNone) =
      some [(0, 1), (2, 0), (4, 5), (5, 6), (6, 7), (8, 4)] ∧
    checkEdges 10 [(0, 1), (2, 0), (4, 5), (5, 6), (6, 7), (8, 4)] = some [(0, 1), (2, 0), (4, 5), (5, 6), (6, 7), (8, 4)] := by
  decide +kernel

section
variable {K : Type} [Field K] [LinearOrder K]

/-- **C53**: on such edges, both external engines give the ray-casting answers. -/
theorem C53_engines (eng : PolyEngine K) (ray : K × K → Bool × Bool) (node : List (K × K)) (es : List (Nat × Nat))
    (v : Nat) (hv : v ∈ endPoints es) (h : endCount es v ≠ 2) : enginePoints eng ray node es = some ray := by
  unfold enginePoints
  rw [C53_fails es v hv h]

theorem ringCoords_eq {node : List (K × K)} : ∀ (r : List Nat) (cs : List (K × K)),
    (cs.length = r.length ∧ ∀ k (h : k < r.length) (h' : k < cs.length), node[r[k]]? = some cs[k]) → ringCoords node r = some cs := by
  intro r
  unfold ringCoords
  induction r with
  | nil =>
    rintro (_ | ⟨c, cs⟩) ⟨hl, -⟩
    · rfl
    · simp at hl
  | cons v r ih =>
    rintro (_ | ⟨c, cs⟩) ⟨hl, hk⟩
    · simp at hl
    · have h0 := hk 0 (by simp) (by simp)
      simp only [List.getElem_cons_zero] at h0
      simp only [List.map_cons, h0, collectAll]
      rw [ih cs ⟨by simpa using hl, fun k h h' => hk (k + 1) (Nat.succ_lt_succ h) (Nat.succ_lt_succ h')⟩]
      rfl

/-- **C53**: if every vertex of the edges (there are some, all in range) has exactly two edge ends, the external engine gets the coordinates of closed
rings that visit every vertex exactly once, and its answer is the result. -/
theorem C53_engine_rings (eng : PolyEngine K) (ray : K × K → Bool × Bool) (node : List (K × K)) (es : List (Nat × Nat)) (hne : es ≠ [])
    (hr : ∀ v ∈ endPoints es, v < node.length) (h : ∀ v ∈ endPoints es, endCount es v = 2) :
    ∃ (rs : List (List Nat)) (cs : List (List (K × K))), rs.flatten.Nodup ∧ (∀ v, v ∈ rs.flatten ↔ v ∈ endPoints es) ∧
      (∀ r ∈ rs, ClosedRing es r) ∧ cs.length = rs.length ∧
      (∀ i (hi : i < rs.length) (hi' : i < cs.length), cs[i].length = rs[i].length ∧
        ∀ k (hk : k < rs[i].length) (hk' : k < cs[i].length), node[rs[i][k]]? = some cs[i][k]) ∧
      enginePoints eng ray node es = eng cs := by
  obtain ⟨rs, h1, h2, h3, h4⟩ := C53_rings es h
  have hex : ∀ rs : List (List Nat), (∀ v ∈ rs.flatten, v < node.length) → ∃ cs : List (List (K × K)), cs.length = rs.length ∧
      (∀ i (hi : i < rs.length) (hi' : i < cs.length), cs[i].length = rs[i].length ∧
        ∀ k (hk : k < rs[i].length) (hk' : k < cs[i].length), node[rs[i][k]]? = some cs[i][k]) ∧
      collectAll (rs.map (ringCoords node)) = some cs := by
    intro rs
    induction rs with
    | nil => intro _; exact ⟨[], rfl, by simp, rfl⟩
    | cons r rs ih =>
      intro hv
      obtain ⟨cs, e1, e2, e3⟩ := ih fun v hv' => hv v (by rw [List.flatten_cons]; exact List.mem_append_right _ hv')
      have hr' : ∃ c : List (K × K), c.length = r.length ∧ ∀ k (hk : k < r.length) (hk' : k < c.length), node[r[k]]? = some c[k] := by
        have hv' : ∀ v ∈ r, v < node.length := fun v hv' => hv v (by rw [List.flatten_cons]; exact List.mem_append_left _ hv')
        refine ⟨r.attach.map fun v => node[v.1]'(hv' v.1 v.2), by simp, fun k hk hk' => ?_⟩
        simp only [List.getElem_map, List.getElem_attach]
        exact List.getElem?_eq_getElem _
      obtain ⟨c, hc⟩ := hr'
      refine ⟨c :: cs, by simp [e1], ?_, ?_⟩
      · intro i hi hi'
        cases i with
        | zero => exact hc
        | succ i => exact e2 i (by simpa using hi) (by simpa using hi')
      · simp only [List.map_cons, ringCoords_eq r c hc, collectAll, e3, Option.map_some]
  obtain ⟨cs, e1, e2, e3⟩ := hex rs fun v hv => hr v ((h3 v).1 hv)
  refine ⟨rs, cs, h2, h3, h4, e1, e2, ?_⟩
  unfold enginePoints
  rw [h1]
  cases rs with
  | nil =>
    obtain ⟨e, es', rfl⟩ := List.exists_cons_of_ne_nil hne
    have := (h3 e.1).2 (by simp [endPoints])
    simp at this
  | cons r rs => simp only [e3]

example : (∀ v ∈ endPoints [(0, 1), (1, 2), (2, 0)], v < ([(0, 0), (4, 0), (0, 4)] : List (ℚ × ℚ)).length) ∧
    (∀ v ∈ endPoints [(0, 1), (1, 2), (2, 0)], endCount [(0, 1), (1, 2), (2, 0)] v = 2) ∧
    (enginePoints (fun cs => some fun _ => (decide (cs = [[(0, 0), (4, 0), (0, 4)]]), false)) (fun _ => (false, false))
      ([(0, 0), (4, 0), (0, 4)] : List (ℚ × ℚ)) [(0, 1), (1, 2), (2, 0)]).map (fun f => f (1, 1)) = some (true, false) := by decide +kernel

/-- **C53**: for the edges of such features, every choice of method without the compiled kernel gives the answers of the Python ray casting. -/
theorem C53_shoreline_methods {α : Type} (cfg : PolyConfig) (hcfg : ¬ (cfg.env = none ∧ cfg.compiled = true)) (shapely mpl : PolyEngine K)
    (ftol : K) (vert : List (QueryPoint K)) (node : List (K × K)) (fs : List (List α)) (f : List α) (hf : f ∈ fs) (hlen : 2 ≤ f.length)
    (es : List (Int × Int)) (hes : getPolyEdges ((joinNaN fs).map Option.isNone) = some es) :
    inpoly2 cfg shapely mpl ftol vert node (some es) = inpoly2 ⟨false, false, false, none⟩ shapely mpl ftol vert node (some es) := by
  unfold inpoly2
  by_cases hn : node = []
  · simp only [hn, if_true]
  · simp only [hn, if_false]
    cases hns : checkEdges node.length es with
    | none => rfl
    | some ns =>
      have hr := C53_shoreline_edges fs f hf hlen node.length es ns hes hns
      have : ∀ n, kernelFor cfg shapely mpl ftol node ns n = kernelFor ⟨false, false, false, none⟩ shapely mpl ftol node ns n := by
        intro n
        unfold kernelFor
        cases segsOf node ns with
        | none => rfl
        | some segs =>
          simp only [hcfg, if_false, enginePoints, hr]
          simp
      simp only [Option.map_some, this]

/-! ## C52 -/

/-- The number of edges that the tests look at. -/
def Spec.edgeNumber (node : List (K × K)) : Option (List (Int × Int)) → Nat
  | none => node.length
  | some e => e.length

/-- Configurations and sizes for which the choice of the method cannot depend on the number of points: the compiled kernel, a method given by the
environment, no external engine, or fewer than 1000 points and edges. -/
def Spec.FixedMethod (cfg : PolyConfig) (points edges : Nat) : Prop :=
  (cfg.env = none → cfg.compiled = true) ∨ (cfg.haveShapely = false ∧ cfg.haveMpl = false) ∨ 1000 ≤ edges ∨ points < 1000

theorem kernelFor_fixed (cfg : PolyConfig) (shapely mpl : PolyEngine K) (ftol : K) (node : List (K × K)) (es : List (Nat × Nat)) (n m : Nat)
    (hmn : m ≤ n) (h : FixedMethod cfg n es.length) :
    kernelFor cfg shapely mpl ftol node es n = kernelFor cfg shapely mpl ftol node es m := by
  unfold kernelFor
  cases segsOf node es with
  | none => rfl
  | some segs =>
    dsimp only
    by_cases hc : cfg.env = none ∧ cfg.compiled = true
    · rw [if_pos hc, if_pos hc]
    · rw [if_neg hc, if_neg hc]
      obtain ⟨comp, sh, mp, env⟩ := cfg
      cases env with
      | some x => rfl
      | none =>
        rcases h with h | h | h | h
        · exact absurd ⟨rfl, h rfl⟩ hc
        · simp only at h
          simp [h.1, h.2]
        · have : selectMethod ⟨comp, sh, mp, none⟩ n es.length = selectMethod ⟨comp, sh, mp, none⟩ m es.length := by
            unfold selectMethod
            dsimp only
            rw [if_neg (fun hh : n < 1000 ∧ es.length < 1000 => by omega), if_neg (fun hh : m < 1000 ∧ es.length < 1000 => by omega)]
          rw [this]
        · have : selectMethod ⟨comp, sh, mp, none⟩ n es.length = selectMethod ⟨comp, sh, mp, none⟩ m es.length := by
            unfold selectMethod
            dsimp only
            by_cases he : es.length < 1000
            · rw [if_pos ⟨h, he⟩, if_pos ⟨by omega, he⟩]
            · rw [if_neg (fun hh : n < 1000 ∧ es.length < 1000 => he hh.2), if_neg (fun hh : m < 1000 ∧ es.length < 1000 => he hh.2)]
          rw [this]

theorem checkEdges_length {m : Nat} {e : List (Int × Int)} {ns : List (Nat × Nat)} (h : checkEdges m e = some ns) : ns.length = e.length := by
  unfold checkEdges at h
  split at h
  · simp only [Option.some.injEq] at h; rw [← h]; simp
  · simp at h

/-- What `inpoly2` does with a batch, in one formula. -/
theorem inpoly2_batch (cfg : PolyConfig) (shapely mpl : PolyEngine K) (ftol : K) (node : List (K × K)) (edge : Option (List (Int × Int))) :
    (∀ vert, inpoly2 cfg shapely mpl ftol vert node edge = none) ∨
    (∀ vert, inpoly2 cfg shapely mpl ftol vert node edge = some (vert.map fun _ => (false, false))) ∨
    ∃ es : List (Nat × Nat), es.length = edgeNumber node edge ∧ ∀ vert, inpoly2 cfg shapely mpl ftol vert node edge =
      if (vert.filterMap finitePoint).length = 0 then some (vert.map fun _ => (false, false))
      else (kernelFor cfg shapely mpl ftol node es (vert.filterMap finitePoint).length).map fun ans => vert.map fun v =>
        match finitePoint v with
        | some p => ans p
        | none => (false, false) := by
  unfold inpoly2
  by_cases hn : node = []
  · right; left; intro vert; simp only [hn, if_true]
  · simp only [hn, if_false]
    cases edge with
    | none =>
      by_cases h2 : node.length < 2
      · right; left; intro vert; simp only [h2, if_true]
      · right; right
        refine ⟨closedRing node.length, by simp [closedRing, edgeNumber], fun vert => ?_⟩
        simp only [h2, if_false]
        rfl
    | some e =>
      cases hc : checkEdges node.length e with
      | none => left; intro vert; simp only [hc, Option.map_none]
      | some ns => right; right; exact ⟨ns, checkEdges_length hc, fun vert => by simp only [hc, Option.map_some]; rfl⟩

/-- **C52** (partial): where the choice of the method does not depend on the number of points, every answer of a batch is the answer that the
point gets alone. Missing: the automatic choice between ray casting and an external engine, see `C52_batch_size_matters`. -/
theorem C52_independent_partial (cfg : PolyConfig) (shapely mpl : PolyEngine K) (ftol : K) (vert : List (QueryPoint K)) (node : List (K × K))
    (edge : Option (List (Int × Int))) (hm : FixedMethod cfg (vert.filterMap finitePoint).length (edgeNumber node edge))
    (r : List (Bool × Bool)) (h : inpoly2 cfg shapely mpl ftol vert node edge = some r) :
    r.length = vert.length ∧ ∀ i (hv : i < vert.length) (hr : i < r.length), inpoly2 cfg shapely mpl ftol [vert[i]] node edge = some [r[i]] := by
  rcases inpoly2_batch cfg shapely mpl ftol node edge with hb | hb | ⟨es, hes, hb⟩
  · rw [hb] at h; simp at h
  · rw [hb] at h
    simp only [Option.some.injEq] at h
    subst h
    exact ⟨by simp, fun i hv hr => by rw [hb]; simp⟩
  · rw [hb] at h
    by_cases h0 : (vert.filterMap finitePoint).length = 0
    · rw [if_pos h0] at h
      simp only [Option.some.injEq] at h
      subst h
      refine ⟨by simp, fun i hv hr => ?_⟩
      rw [hb]
      have : finitePoint vert[i] = none := by
        cases hf : finitePoint vert[i] with
        | none => rfl
        | some p =>
          have : p ∈ vert.filterMap finitePoint := List.mem_filterMap.2 ⟨_, List.getElem_mem hv, hf⟩
          rw [List.length_eq_zero_iff.1 h0] at this
          simp at this
      simp [this]
    · rw [if_neg h0] at h
      cases hk : kernelFor cfg shapely mpl ftol node es (vert.filterMap finitePoint).length with
      | none => rw [hk] at h; simp at h
      | some ans =>
        rw [hk] at h
        simp only [Option.map_some, Option.some.injEq] at h
        subst h
        refine ⟨by simp, fun i hv hr => ?_⟩
        rw [hb]
        cases hf : finitePoint vert[i] with
        | none => simp [hf]
        | some p =>
          have e1 : ([vert[i]].filterMap finitePoint).length = 1 := by simp [hf]
          rw [e1, if_neg (by omega)]
          rw [← kernelFor_fixed cfg shapely mpl ftol node es _ 1 (Nat.pos_of_ne_zero h0) (by rw [hes]; exact hm), hk]
          simp [hf]

/-- **C52**: for every method, an answer does not depend on the values of the other points: two batches of finite points of the same length give
the same answer where they have the same point. -/
theorem C52_other_points (cfg : PolyConfig) (shapely mpl : PolyEngine K) (ftol : K) (vert vert' : List (QueryPoint K)) (node : List (K × K))
    (edge : Option (List (Int × Int))) (hlen : (vert.filterMap finitePoint).length = (vert'.filterMap finitePoint).length)
    (r r' : List (Bool × Bool)) (h : inpoly2 cfg shapely mpl ftol vert node edge = some r)
    (h' : inpoly2 cfg shapely mpl ftol vert' node edge = some r') (i j : Nat) (q : QueryPoint K) (hi : vert[i]? = some q) (hj : vert'[j]? = some q) :
    r[i]? = r'[j]? ∧ r[i]? ≠ none := by
  rcases inpoly2_batch cfg shapely mpl ftol node edge with hb | hb | ⟨es, hes, hb⟩
  · rw [hb] at h; simp at h
  · rw [hb] at h h'
    simp only [Option.some.injEq] at h h'
    subst h h'
    simp only [List.getElem?_map, hi, hj, Option.map_some]; simp
  · rw [hb] at h h'
    by_cases h0 : (vert.filterMap finitePoint).length = 0
    · rw [if_pos h0] at h
      rw [if_pos (by omega)] at h'
      simp only [Option.some.injEq] at h h'
      subst h h'
      simp only [List.getElem?_map, hi, hj, Option.map_some]; simp
    · rw [if_neg h0] at h
      rw [if_neg (by omega), ← hlen] at h'
      cases hk : kernelFor cfg shapely mpl ftol node es (vert.filterMap finitePoint).length with
      | none => rw [hk] at h; simp at h
      | some ans =>
        rw [hk] at h h'
        simp only [Option.map_some, Option.some.injEq] at h h'
        subst h h'
        simp only [List.getElem?_map, hi, hj, Option.map_some]; simp

/-- **C52**: points with a coordinate that is not finite are never inside nor on the boundary, for every method. -/
theorem C52_not_finite (cfg : PolyConfig) (shapely mpl : PolyEngine K) (ftol : K) (vert : List (QueryPoint K)) (node : List (K × K))
    (edge : Option (List (Int × Int))) (r : List (Bool × Bool)) (h : inpoly2 cfg shapely mpl ftol vert node edge = some r)
    (i : Nat) (q : QueryPoint K) (hi : vert[i]? = some q) (hq : q.1 = none ∨ q.2 = none) : r[i]? = some (false, false) := by
  have hf : finitePoint q = none := by
    obtain ⟨a, b⟩ := q
    rcases hq with hq | hq <;> simp only at hq <;> subst hq
    · rfl
    · cases a <;> rfl
  rcases inpoly2_batch cfg shapely mpl ftol node edge with hb | hb | ⟨es, hes, hb⟩
  · rw [hb] at h; simp at h
  · rw [hb] at h
    simp only [Option.some.injEq] at h
    subst h
    simp only [List.getElem?_map, hi, Option.map_some]
  · rw [hb] at h
    split at h
    · simp only [Option.some.injEq] at h
      subst h
      simp only [List.getElem?_map, hi, Option.map_some]
    · rw [Option.map_eq_some_iff] at h
      obtain ⟨ans, -, rfl⟩ := h
      simp [hi, hf]

/-- **C52** (partial): an edge index that is negative or not a row of the node array is rejected. Missing: an empty node array, for which the
edges are not looked at, see `C52_no_nodes`. -/
theorem C52_invalid_edges_partial (cfg : PolyConfig) (shapely mpl : PolyEngine K) (ftol : K) (vert : List (QueryPoint K)) (node : List (K × K))
    (hn : node ≠ []) (es : List (Int × Int)) (e : Int × Int) (he : e ∈ es) (hbad : e.1 < 0 ∨ e.2 < 0 ∨ (node.length : Int) ≤ e.1 ∨ (node.length : Int) ≤ e.2) :
    inpoly2 cfg shapely mpl ftol vert node (some es) = none := by
  have : checkEdges node.length es = none := by
    unfold checkEdges
    rw [if_neg]
    rw [List.all_eq_true]
    intro hall
    have := hall e he
    simp only [Bool.and_eq_true, decide_eq_true_eq] at this
    omega
  unfold inpoly2
  simp only [hn, if_false, this, Option.map_none]

/-- **C52** (disagreement): with an empty node array, edges with indices of rows that do not exist are accepted and every point is outside. -/
theorem C52_no_nodes (cfg : PolyConfig) (shapely mpl : PolyEngine K) (ftol : K) (vert : List (QueryPoint K)) (es : List (Int × Int)) :
    inpoly2 cfg shapely mpl ftol vert [] (some es) = some (vert.map fun _ => (false, false)) := by
  unfold inpoly2
  simp
end

/-! ### Examples -/

/-- The unit square. -/
def unitSquare : List (ℚ × ℚ) := [(0, 0), (1, 0), (1, 1), (0, 1)]

/-- An engine that answers as `shapely` does for the unit square: `contains` is false on the boundary. -/
def strictSquare : PolyEngine ℚ := fun rings =>
  if rings = [unitSquare] then
    some fun p =>
      let inside := decide (0 < p.1) && decide (p.1 < 1) && decide (0 < p.2) && decide (p.2 < 1)
      (inside, !inside && decide (0 ≤ p.1) && decide (p.1 ≤ 1) && decide (0 ≤ p.2) && decide (p.2 ≤ 1))
  else none

/-- **C52** (disagreement): without the compiled kernel, a point on the boundary is inside when it is asked alone and not inside when it is asked
in a batch of 1000 points, because the method changes with the number of points. -/
theorem C52_batch_size_matters :
    inpoly2 ⟨false, true, false, none⟩ strictSquare strictSquare 0 [(some (1/2), some 0)] unitSquare none = some [(true, true)] ∧
    (inpoly2 ⟨false, true, false, none⟩ strictSquare strictSquare 0 (List.replicate 1000 (some (1/2), some 0)) unitSquare none).map (·.head?) =
      some (some (false, true)) := by
  constructor
  · decide +kernel
  · decide +kernel

-- A batch with a NaN, an inside, an outside and a boundary point.
example : inpoly2 ⟨true, true, true, none⟩ strictSquare strictSquare 0
    [(none, some 0), (some (1/2), some (1/3)), (some 2, some (1/3)), (some (1/2), some 1), (some (1/2), none)] unitSquare none =
    some [(false, false), (true, false), (false, false), (true, true), (false, false)] := by decide +kernel
example : FixedMethod ⟨true, true, true, none⟩ 5 4 ∧ FixedMethod ⟨false, true, true, some .shapely⟩ 5000 4 ∧ FixedMethod ⟨false, true, true, none⟩ 999 4 :=
  ⟨.inl fun _ => rfl, .inl (by simp), .inr (.inr (.inr (by norm_num)))⟩
example : inpoly2 ⟨true, true, true, none⟩ strictSquare strictSquare 0 [(some (1/2), some (1/3))] unitSquare (some [(0, 1), (1, 4)]) = none := by
  decide +kernel
-- Two batches that share a point.
example : inpoly2 ⟨false, false, false, none⟩ strictSquare strictSquare 0 [(some 3, some 3), (some (1/2), some (1/3))] unitSquare none =
      some [(false, false), (true, false)] ∧
    inpoly2 ⟨false, false, false, none⟩ strictSquare strictSquare 0 [(some (1/2), some (1/3)), (some (1/4), some 0)] unitSquare none =
      some [(true, false), (true, true)] := by constructor <;> decide +kernel
-- The edges of a shoreline: the point is inside for every method, the engine is never asked.
example : inpoly2 ⟨false, true, true, some .shapely⟩ (fun _ => none) (fun _ => none) 0 [(some (1/2), some (1/3))]
    ([(0, 0), (1, 0), (1, 1), (0, 1), (0, 0), (0, 0), (0, 0)] : List (ℚ × ℚ)) (some [(0, 1), (1, 2), (2, 3), (3, 4), (5, 0)]) = some [(true, false)] ∧
    getPolyEdges ((joinNaN [unitSquare ++ [(0, 0), (0, 0)]]).map Option.isNone) = some [(0, 1), (1, 2), (2, 3), (3, 4), (5, 0)] := by
  constructor <;> decide +kernel

end OM
