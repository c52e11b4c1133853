/- C91: the cavity (helper lemmas). -/
import Verif.Del2Model
import Verif.Tri2Lemmas
import Mathlib.Data.List.Perm.Basic
import Mathlib.Data.List.Nodup
import Mathlib.Data.Finset.Card
import Mathlib.Tactic.FinCases

namespace Mmg.Del2

open Mmg.Tri2

variable {M : Mesh} {circle : Nat → Bool} {lmax base : Nat} {tref : Int}

/-- The list is a set of triangles with the reference `tref`, those with the mark. -/
structure Cav (M : Mesh) (base : Nat) (tref : Int) (mark : Nat → Nat) (l : List Nat) : Prop where
  nd : l.Nodup
  live : ∀ k ∈ l, M.live k
  ref : ∀ k ∈ l, (M.tri k).ref = tref
  mark : ∀ k, mark k = base ↔ k ∈ l

theorem setM_self (m : Nat → Nat) (k b : Nat) : setM m k b k = b := by simp [setM]
theorem setM_ne (m : Nat → Nat) {k x : Nat} (b : Nat) (h : x ≠ k) : setM m k b x = m x := by simp [setM, h]

theorem Cav.lost {mark l} (I : Cav M base tref mark l) (jel adj : Nat) (voy : Fin 3) :
    lost M mark base tref jel adj voy = false := by
  unfold Del2.lost
  rw [List.any_eq_false]
  intro j _
  cases h : M.adj (adj, j) with
  | none => simp
  | some x =>
    obtain ⟨adi, y⟩ := x
    simp only [Bool.and_eq_true, beq_iff_eq, bne_iff_ne, ne_eq, not_and, Decidable.not_not]
    intro _ h1
    exact I.ref adi ((I.mark adi).1 h1.1)

theorem Cav.cons {mark l} (I : Cav M base tref mark l) {k : Nat} (h1 : M.live k) (h2 : (M.tri k).ref = tref) (h3 : mark k ≠ base) :
    Cav M base tref (setM mark k base) (l ++ [k]) := by
  have hk : k ∉ l := fun q => h3 ((I.mark k).2 q)
  refine ⟨?_, ?_, ?_, ?_⟩
  · rw [List.nodup_append]
    refine ⟨I.nd, by simp, ?_⟩
    intro a ha b hb
    simp only [List.mem_singleton] at hb
    rintro rfl
    exact hk (hb ▸ ha)
  · intro x hx
    rcases List.mem_append.1 hx with q | q
    · exact I.live x q
    · rw [List.mem_singleton.1 q]; exact h1
  · intro x hx
    rcases List.mem_append.1 hx with q | q
    · exact I.ref x q
    · rw [List.mem_singleton.1 q]; exact h2
  · intro x
    by_cases q : x = k
    · subst q; simp [setM_self]
    · rw [setM_ne _ _ q, I.mark]; simp [q]

/-- One side: nothing, or the neighbour enters. -/
theorem look_spec (hv : Valid M) {pre : List Nat} {jel : Nat} (hj : jel ∈ pre) {s : (Nat → Nat) × List Nat}
    (I : Cav M base tref s.1 (pre ++ s.2)) (i : Fin 3) :
    Cav M base tref (look M circle base tref jel s i).1 (pre ++ (look M circle base tref jel s i).2) ∧
    ∃ t, (look M circle base tref jel s i).2 = s.2 ++ t ∧ (∀ k ∈ t, circle k = true) ∧ t.length ≤ 1 := by
  unfold look
  cases h : M.adj (jel, i) with
  | none => exact ⟨I, [], by simp⟩
  | some x =>
    obtain ⟨adj, voy⟩ := x
    have hjl : M.live jel := I.live jel (by simp [hj])
    obtain ⟨q1, _, _⟩ := hv.lnk hjl i adj voy h
    simp only
    split
    · exact ⟨I, [], by simp⟩
    · rename_i c
      push Not at c
      split
      · exact ⟨I, [], by simp⟩
      · rename_i c2
        rw [I.lost, if_neg (by simp)]
        refine ⟨?_, [adj], rfl, ?_, by simp⟩
        · simp only
          rw [← List.append_assoc]
          exact I.cons q1 (c.2.trans (I.ref jel (by simp [hj]))) c.1
        · intro k hk
          rw [List.mem_singleton.1 hk]
          simpa using c2

theorem look3_spec (hv : Valid M) {pre : List Nat} {jel : Nat} (hj : jel ∈ pre) :
    ∀ (L : List (Fin 3)) (s : (Nat → Nat) × List Nat), Cav M base tref s.1 (pre ++ s.2) →
      Cav M base tref (L.foldl (look M circle base tref jel) s).1 (pre ++ (L.foldl (look M circle base tref jel) s).2) ∧
      ∃ t, (L.foldl (look M circle base tref jel) s).2 = s.2 ++ t ∧ (∀ k ∈ t, circle k = true) ∧ t.length ≤ L.length := by
  intro L
  induction L with
  | nil => intro s I; exact ⟨I, [], by simp⟩
  | cons i L ih =>
    intro s I
    obtain ⟨J, t, e, ht, hl⟩ := look_spec (circle := circle) hv hj I i
    obtain ⟨J', t', e', ht', hl'⟩ := ih _ J
    refine ⟨J', t ++ t', ?_, ?_, ?_⟩
    · rw [List.foldl_cons, e', e, List.append_assoc]
    · intro k hk
      rcases List.mem_append.1 hk with q | q
      · exact ht k q
      · exact ht' k q
    · simp only [List.length_append, List.length_cons]; omega

theorem grow_spec (hv : Valid M) (k0 : Nat) : ∀ (fuel : Nat) (pre : List Nat) (s r : (Nat → Nat) × List Nat),
    Cav M base tref s.1 (pre ++ s.2) → (∀ k ∈ pre ++ s.2, k = k0 ∨ circle k = true) → k0 ∈ pre ++ s.2 →
    (pre ++ s.2).length ≤ lmax → (pre ≠ [] → (pre ++ s.2).length + 3 ≤ lmax) → pre ++ s.2 ≠ [] →
    grow M circle lmax base tref fuel pre s = some r →
    Cav M base tref r.1 r.2 ∧ (∀ k ∈ r.2, k = k0 ∨ circle k = true) ∧ k0 ∈ r.2 ∧ r.2.length + 3 ≤ lmax := by
  intro fuel
  induction fuel with
  | zero => intro pre s r _ _ _ _ _ _ h; cases h
  | succ n ih =>
    intro pre s r I hc h0 hl hl3 hne h
    unfold grow at h
    cases hs : s.2 with
    | nil =>
      rw [hs] at h I hc h0 hl3 hne
      simp only [List.append_nil, Option.some.injEq] at h I hc h0 hl3 hne
      subst h
      exact ⟨I, hc, h0, hl3 hne⟩
    | cons jel rest =>
      rw [hs] at h I hc h0
      simp only at h
      split at h
      · cases h
      · rename_i c
        have I' : Cav M base tref s.1 ((pre ++ [jel]) ++ rest) := by simpa using I
        obtain ⟨J, t, e, ht, _⟩ := look3_spec (circle := circle) hv (pre := pre ++ [jel]) (jel := jel) (by simp) [0, 1, 2] (s.1, rest) I'
        simp only at e
        refine ih (pre ++ [jel]) _ r J ?_ ?_ ?_ ?_ ?_ h
        · rw [e]
          intro k hk
          simp only [List.append_assoc, List.mem_append, List.mem_cons, List.not_mem_nil, or_false] at hk
          rcases hk with q | q | q | q
          · exact hc k (by simp [q])
          · exact hc k (by simp [q])
          · exact hc k (by simp [q])
          · exact Or.inr (ht k q)
        · rw [e]
          simp only [List.mem_append, List.mem_cons] at h0 ⊢
          rcases h0 with q | q | q
          · exact Or.inl (Or.inl q)
          · exact Or.inl (Or.inr (Or.inl q))
          · exact Or.inr (Or.inl q)
        · omega
        · intro _; omega
        · simp

/-- In a mesh with few triangles the answer is not -1. -/
theorem grow_some (hv : Valid M) (S : Finset Nat) (hS : ∀ k, M.live k → k ∈ S) (hc : S.card + 3 ≤ lmax) :
    ∀ (fuel : Nat) (pre : List Nat) (s : (Nat → Nat) × List Nat), Cav M base tref s.1 (pre ++ s.2) → lmax < fuel + pre.length →
    ∃ r, grow M circle lmax base tref fuel pre s = some r := by
  have hlen : ∀ mark l, Cav M base tref mark l → l.length ≤ S.card := by
    intro mark l I
    rw [← List.toFinset_card_of_nodup I.nd]
    apply Finset.card_le_card
    intro x hx
    exact hS x (I.live x (List.mem_toFinset.1 hx))
  intro fuel
  induction fuel with
  | zero =>
    intro pre s I h
    have := hlen _ _ I
    rw [List.length_append] at this
    omega
  | succ n ih =>
    intro pre s I h
    unfold grow
    cases hs : s.2 with
    | nil => exact ⟨_, rfl⟩
    | cons jel rest =>
      rw [hs] at I
      have I' : Cav M base tref s.1 ((pre ++ [jel]) ++ rest) := by simpa using I
      obtain ⟨J, _⟩ := look3_spec (circle := circle) hv (pre := pre ++ [jel]) (jel := jel) (by simp) [0, 1, 2] (s.1, rest) I'
      have hl := hlen _ _ J
      simp only
      rw [if_neg (by omega)]
      exact ih _ _ J (by rw [List.length_append]; simp; omega)

/-! ### Correction -/

theorem perm_swapOut {l : List Nat} {n : Nat} (hn : n < l.length) :
    ((l.set n (l.getD (l.length - 1) 0)).dropLast).Perm (l.eraseIdx n) := by
  obtain ⟨l', x, rfl⟩ : ∃ l' x, l = l' ++ [x] := by
    refine ⟨l.dropLast, l.getLast (by intro h; simp [h] at hn), ?_⟩
    rw [List.dropLast_append_getLast]
  have hx : (l' ++ [x]).getD ((l' ++ [x]).length - 1) 0 = x := by
    simp [List.getD_eq_getElem?_getD]
  rw [hx]
  by_cases h : n < l'.length
  · rw [List.set_append_left _ _ h, List.dropLast_concat, List.eraseIdx_append_of_lt_length h]
    exact (List.set_perm_cons_eraseIdx h x).trans (List.perm_append_singleton x (l'.eraseIdx n)).symm
  · have : n = l'.length := by simp at hn; omega
    subst this
    rw [List.set_append_right _ _ (le_refl _), List.eraseIdx_append_of_length_le (le_refl _)]
    simp

variable {K : Type} [Field K] [LinearOrder K] {cx cy : Nat → K} {amin : K} {ip : Nat}

theorem correct_spec (hb : 1 ≤ base) : ∀ (fuel : Nat) (s : (Nat → Nat) × List Nat), Cav M base tref s.1 s.2 → s.2.length ≤ fuel →
    Cav M base tref (correct cx cy amin M base ip fuel s).1 (correct cx cy amin M base ip fuel s).2 ∧
    (∀ k ∈ (correct cx cy amin M base ip fuel s).2, k ∈ s.2) ∧
    ∀ k ∈ (correct cx cy amin M base ip fuel s).2, bad cx cy amin M (correct cx cy amin M base ip fuel s).1 base ip k = false := by
  intro fuel
  induction fuel with
  | zero =>
    intro s I h
    refine ⟨I, fun k hk => hk, fun k hk => ?_⟩
    have : s.2 = [] := List.length_eq_zero_iff.1 (by omega)
    unfold correct at hk
    rw [this] at hk; simp at hk
  | succ n ih =>
    intro s I h
    unfold correct
    cases hf : (List.range s.2.length).reverse.find? fun p => bad cx cy amin M s.1 base ip (s.2.getD p 0) with
    | none =>
      refine ⟨I, fun k hk => hk, fun k hk => ?_⟩
      simp only at hk ⊢
      rw [List.find?_eq_none] at hf
      obtain ⟨p, hp, rfl⟩ := List.mem_iff_getElem.1 hk
      have := hf p (by simpa using hp)
      rw [List.getD_eq_getElem?_getD, List.getElem?_eq_getElem hp] at this
      simpa using this
    | some p =>
      have hp : p < s.2.length := by
        have := List.mem_of_find?_eq_some hf
        simpa using this
      simp only
      have hg : s.2.getD p 0 = s.2[p] := by rw [List.getD_eq_getElem?_getD, List.getElem?_eq_getElem hp]; rfl
      have P := perm_swapOut hp
      have nd : (s.2.eraseIdx p).Nodup := I.nd.sublist (List.eraseIdx_sublist _ _)
      have memP : ∀ x, x ∈ (s.2.set p (s.2.getD (s.2.length - 1) 0)).dropLast ↔ x ∈ s.2 ∧ x ≠ s.2[p] := by
        intro x
        rw [P.mem_iff, ← I.nd.erase_getElem p hp, I.nd.mem_erase_iff, and_comm]
      have J : Cav M base tref (setM s.1 (s.2.getD p 0) (base - 1)) (s.2.set p (s.2.getD (s.2.length - 1) 0)).dropLast := by
        refine ⟨P.nodup_iff.2 nd, fun k hk => I.live k ((memP k).1 hk).1, fun k hk => I.ref k ((memP k).1 hk).1, fun k => ?_⟩
        rw [hg]
        by_cases q : k = s.2[p]
        · subst q
          rw [setM_self, memP]
          constructor
          · intro c; omega
          · rintro ⟨_, c⟩; exact absurd rfl c
        · rw [setM_ne _ _ q, I.mark, memP]
          simp [q]
      obtain ⟨a, b, c⟩ := ih (setM s.1 (s.2.getD p 0) (base - 1), (s.2.set p (s.2.getD (s.2.length - 1) 0)).dropLast) J (by simp; omega)
      exact ⟨a, fun k hk => ((memP k).1 (b k hk)).1, c⟩

/-- Side `x` of a triangle of the cavity `l` is on its border. -/
def Ext (M : Mesh) (l : List Nat) (x : HE) : Prop := x.1 ∈ l ∧ ∀ y, M.adj x = some y → y.1 ∉ l

theorem isExt_iff {mark : Nat → Nat} {l : List Nat} (hm : ∀ k, mark k = base ↔ k ∈ l) (o : Option HE) :
    isExt mark base o = true ↔ ∀ y, o = some y → y.1 ∉ l := by
  unfold isExt
  cases o with
  | none => simp
  | some h => simp [hm]

theorem Cav.bad {mark l} (I : Cav M base tref mark l) {k : Nat} (hk : k ∈ l) (h : bad cx cy amin M mark base ip k = false) :
    ∀ i, Ext M l (k, i) → amin ≤ area cx cy (M.org (k, i)) (M.dst (k, i)) ip := by
  intro i hx
  unfold Del2.bad at h
  rw [List.any_eq_false] at h
  have := h i ((by decide : ∀ i : Fin 3, i ∈ [0, 1, 2]) i)
  rw [Bool.and_eq_true, decide_eq_true_eq, isExt_iff I.mark] at this
  by_contra c
  exact this ⟨hx.2, not_le.1 c⟩

theorem cavity_spec (hv : Valid M) {mark : Nat → Nat} (hm : ∀ k, mark k < base) {k0 : Nat} (hk : M.live k0) {r : (Nat → Nat) × List Nat}
    (h : cavity cx cy amin circle lmax M mark base ip k0 = some r) (hl : 4 ≤ lmax) :
    Cav M base (M.tri k0).ref r.1 r.2 ∧ (∀ k ∈ r.2, k = k0 ∨ circle k = true) ∧ r.2.length + 3 ≤ lmax ∧
    ∀ x, Ext M r.2 x → amin ≤ area cx cy (M.org x) (M.dst x) ip := by
  unfold cavity at h
  have I0 : Cav M base (M.tri k0).ref (setM mark k0 base) ([] ++ [k0]) := by
    refine ⟨by simp, ?_, ?_, ?_⟩
    · intro k h; simp at h; subst h; exact hk
    · intro k h; simp at h; subst h; rfl
    · intro k
      by_cases q : k = k0
      · subst q; simp [setM_self]
      · rw [setM_ne _ _ q]
        have := hm k
        simp [q]; omega
  cases hg : grow M circle lmax base (M.tri k0).ref (lmax + 1) [] (setM mark k0 base, [k0]) with
  | none => rw [hg] at h; cases h
  | some s =>
    rw [hg] at h
    simp only [Option.some.injEq] at h
    obtain ⟨J, hc, h0, h3⟩ := grow_spec hv k0 _ _ _ _ I0 (by simp) (by simp) (by simp; omega) (by simp) (by simp) hg
    have hb : 1 ≤ base := by have := hm 0; omega
    obtain ⟨a, b, c⟩ := correct_spec (cx := cx) (cy := cy) (amin := amin) (ip := ip) hb s.2.length s J (le_refl _)
    rw [h] at a b c
    refine ⟨a, fun k hk => hc k (b k hk), ?_, fun x hx => a.bad hx.1 (c x.1 hx.1) x.2 hx⟩
    have := (List.subperm_of_subset a.nd b).length_le
    omega

end Mmg.Del2
