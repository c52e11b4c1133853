/-
  C80: invariant of the traversal of the surface.
-/
import Verif.OrientSpec
import Mathlib.Data.Fintype.Perm

namespace Mmg.Orient
open Mmg.Hash (Outcome)

/-! ### Tags -/

theorem has_or (x y b : BitVec 16) : has (x ||| y) b = (has x b || has y b) := by
  unfold has
  have : (x ||| y) &&& b = (x &&& b) ||| (y &&& b) := by
    rw [BitVec.and_comm, BitVec.and_or_distrib_left, BitVec.and_comm x, BitVec.and_comm y]
  rw [this, Bool.eq_iff_iff]
  simp only [bne_iff_ne, ne_eq, BitVec.or_eq_zero_iff, Bool.or_eq_true, not_and_or]

theorem has_zero (b : BitVec 16) : has 0#16 b = false := by simp [has]

theorem has_nosurf {x b : BitVec 16} (h : ~~~mgNOSURF &&& b = b) : has (x &&& ~~~mgNOSURF) b = has x b := by
  unfold has; rw [BitVec.and_assoc, h]

/-- The four bits the theorem about the vertices is about. -/
def bits : List (BitVec 16) := [mgREF, mgGEO, mgREQ, mgNOM]

theorem bits_nosurf {b} (h : b ∈ bits) : ~~~mgNOSURF &&& b = b := by
  simp only [bits, List.mem_cons, List.not_mem_nil, or_false] at h
  rcases h with rfl | rfl | rfl | rfl <;> decide

theorem ext_cases (E : Env) (s : St) (k i) :
    ext E s k i = 0#16 ∨ ext E s k i = mgREF ∨ ext E s k i = mgNOM ∨ ext E s k i = mgOPNBDY ||| mgNOM := by
  unfold ext; split
  · exact Or.inl rfl
  split
  · split
    · exact Or.inr (Or.inr (Or.inr rfl))
    · exact Or.inr (Or.inr (Or.inl rfl))
  split
  · exact Or.inl rfl
  split
  · exact Or.inr (Or.inl rfl)
  · exact Or.inl rfl

theorem ext_has {E : Env} {s : St} {k i} {m} (h : has mgREF m = false) (h' : has mgNOM m = false)
    (h'' : has (mgOPNBDY ||| mgNOM) m = false) : has (ext E s k i) m = false := by
  rcases ext_cases E s k i with e | e | e | e <;> rw [e]
  · exact has_zero _
  · exact h
  · exact h'
  · exact h''

theorem skipped_ext (E : Env) (s : St) (k i) (t) : skipped (t ||| ext E s k i) = skipped t := by
  unfold skipped
  simp only [has_or]
  rw [ext_has (m := mgPARBDY) (by decide) (by decide) (by decide),
    ext_has (m := mgPARBDYBDY) (by decide) (by decide) (by decide),
    ext_has (m := mgBDY) (by decide) (by decide) (by decide)]
  simp only [Bool.or_false]

theorem nom_ext {E : Env} {s : St} {k i} (h : s.adj k i ≠ 0) : has (ext E s k i) mgNOM = false := by
  unfold ext; rw [if_neg h]; split
  · exact has_zero _
  split
  · exact has_zero _
  split
  · decide
  · exact has_zero _

/-- Tags of a vertex. -/
theorem has_orP (f : Nat → BitVec 16) (p q t b) :
    has (orP f p t q) b = (has (f q) b || (decide (q = p) && has t b)) := by
  unfold orP set1; split
  · rename_i h; subst h; rw [has_or]; simp
  · rename_i h; simp [h]

theorem has_giveP (f : Nat → BitVec 16) (p q t) {b} (hb : b ∈ bits) :
    has (giveP f p t q) b = (has (f q) b || (decide (q = p) && has t b)) := by
  unfold giveP set1; split
  · rename_i h; subst h
    split
    · rw [has_nosurf (bits_nosurf hb), has_or]; simp
    · rw [has_or]; simp
  · rename_i h; simp [h]

/-! ### Renumberings -/

theorem odd_even : ∀ p : Equiv.Perm (Fin 3), odd p = false → ∀ i, p (i + 1) = p i + 1 ∧ p (i + 2) = p i + 2 := by decide
theorem odd_odd : ∀ p : Equiv.Perm (Fin 3), odd p = true → ∀ i, p (i + 1) = p i + 2 ∧ p (i + 2) = p i + 1 := by decide
theorem odd_swap : ∀ p : Equiv.Perm (Fin 3), ∀ a b, a ≠ b → odd (p * Equiv.swap a b) = !odd p := by decide
theorem odd_one : odd 1 = false := by decide

/-- Packed position of a side after renumbering. -/
def code (σ : Nat → Equiv.Perm (Fin 3)) (a : Nat) : Nat :=
  if a = 0 then 0 else 3 * (a / 3) + ((σ (a / 3)).symm (m3 a)).val

/-- Vertices, edge references and links are those of `s0`, renumbered. -/
structure Rel (E : Env) (s0 : St) (σ : Nat → Equiv.Perm (Fin 3)) (s : St) : Prop where
  v : ∀ k i, Ex E s0 k → s.v k i = s0.v k (σ k i)
  dead : ∀ k, ¬ Ex E s0 k → s.v k = s0.v k
  edg : ∀ k i, Ex E s0 k → s.edg k i = s0.edg k (σ k i)
  adj : ∀ k i, Ex E s0 k → s.adj k i = code σ (s0.adj k (σ k i))

theorem div3 (k : Nat) (i : Fin 3) : (3 * k + i.val) / 3 = k := by omega
theorem mod3 (k : Nat) (i : Fin 3) : m3 (3 * k + i.val) = i := by
  apply Fin.ext; simp only [m3]; omega

variable {E : Env} {s0 s : St} {σ : Nat → Equiv.Perm (Fin 3)}

theorem link_ne (G : Good E s0) {k i} (hk : Ex E s0 k) (h : s0.adj k i ≠ 0) : 1 ≤ nb s0 k i := (G.link k i hk h).1.1

theorem Rel.adj0 (R : Rel E s0 σ s) (G : Good E s0) {k i} (hk : Ex E s0 k) : s.adj k i = 0 ↔ s0.adj k (σ k i) = 0 := by
  rw [R.adj k i hk]; unfold code
  by_cases h : s0.adj k (σ k i) = 0
  · simp [h]
  · rw [if_neg h]
    have := link_ne G hk h
    unfold nb at this
    simp only [h, iff_false]; omega

theorem Rel.nb (R : Rel E s0 σ s) {k i} (hk : Ex E s0 k) (h : s0.adj k (σ k i) ≠ 0) :
    nb s k i = nb s0 k (σ k i) := by
  unfold Orient.nb; rw [R.adj k i hk]; unfold code; rw [if_neg h, div3]

theorem Rel.np (R : Rel E s0 σ s) {k i} (hk : Ex E s0 k) (h : s0.adj k (σ k i) ≠ 0) :
    np s k i = (σ (Orient.nb s0 k (σ k i))).symm (np s0 k (σ k i)) := by
  unfold Orient.np
  rw [R.adj k i hk]; unfold code; rw [if_neg h, mod3]; rfl

theorem Rel.ex (R : Rel E s0 σ s) (G : Good E s0) (k) : Ex E s k ↔ Ex E s0 k := by
  by_cases hk : Ex E s0 k
  · simp only [hk, iff_true]
    refine ⟨hk.1, hk.2.1, ?_⟩
    rw [R.v k 0 hk]; exact G.pos k hk _
  · unfold Ex; rw [R.dead k hk]

/-- Reciprocity of the links. -/
theorem Rel.recip (R : Rel E s0 σ s) (G : Good E s0) {k i} (hk : Ex E s0 k) (h : s.adj k i ≠ 0) :
    s.adj (Orient.nb s k i) (Orient.np s k i) = 3 * k + i.val := by
  have h0 : s0.adj k (σ k i) ≠ 0 := fun e => h ((R.adj0 G hk).2 e)
  obtain ⟨a, b, c, d⟩ := G.link k _ hk h0
  rw [R.nb hk h0, R.np hk h0, R.adj _ _ a]
  simp only [Equiv.apply_symm_apply]
  rw [c]; unfold code
  rw [if_neg (by have := hk.1; omega), div3, mod3, Equiv.symm_apply_apply]

/-- Directions along a common edge after renumbering. -/
theorem Rel.dir (R : Rel E s0 σ s) (G : Good E s0) {k i} (hk : Ex E s0 k) (h : s0.adj k (σ k i) ≠ 0) :
    ((odd (σ k) = odd (σ (Orient.nb s0 k (σ k i)))) →
      (Same s k i ↔ Same s0 k (σ k i)) ∧ (Opp s k i ↔ Opp s0 k (σ k i))) ∧
    ((odd (σ k) ≠ odd (σ (Orient.nb s0 k (σ k i)))) →
      (Same s k i ↔ Opp s0 k (σ k i)) ∧ (Opp s k i ↔ Same s0 k (σ k i))) := by
  obtain ⟨a, _⟩ := G.link k _ hk h
  have hn := R.nb hk h
  have hp := R.np hk h
  unfold Same Opp
  rw [hn, hp, R.v _ _ a, R.v _ _ a, R.v _ _ hk, R.v _ _ hk]
  set τ := σ (Orient.nb s0 k (σ k i)) with hτ
  set w := Orient.np s0 k (σ k i)
  have e : τ (τ.symm w) = w := Equiv.apply_symm_apply _ _
  cases h1 : odd (σ k) <;> cases h2 : odd τ
  · rw [(odd_even _ h1 i).1, (odd_even _ h1 i).2, (odd_even _ h2 _).1, (odd_even _ h2 _).2, e]; simp
  · rw [(odd_even _ h1 i).1, (odd_even _ h1 i).2, (odd_odd _ h2 _).1, (odd_odd _ h2 _).2, e]
    simp; constructor <;> exact and_comm
  · rw [(odd_odd _ h1 i).1, (odd_odd _ h1 i).2, (odd_even _ h2 _).1, (odd_even _ h2 _).2, e]; simp
  · rw [(odd_odd _ h1 i).1, (odd_odd _ h1 i).2, (odd_odd _ h2 _).1, (odd_odd _ h2 _).2, e]
    simp; constructor <;> exact and_comm

theorem Rel.linked (R : Rel E s0 σ s) (G : Good E s0) : Linked E s := by
  intro k i hk h
  rw [R.ex G] at hk
  have h0 : s0.adj k (σ k i) ≠ 0 := fun e => h ((R.adj0 G hk).2 e)
  obtain ⟨a, b, c, d⟩ := G.link k _ hk h0
  refine ⟨?_, ?_, R.recip G hk h, ?_⟩
  · rw [R.ex G, R.nb hk h0]; exact a
  · rw [R.nb hk h0]; exact b
  · have := R.dir G hk h0
    by_cases e : odd (σ k) = odd (σ (Orient.nb s0 k (σ k i)))
    · rw [(this.1 e).1, (this.1 e).2]; exact d
    · rw [(this.2 e).1, (this.2 e).2]; exact d.symm

/-! ### Turning a triangle over -/

theorem tell_eq (adj : Nat → Fin 3 → Nat) (kk : Nat) (a : Fin 3) (k : Nat) (i : Fin 3) (hk : 1 ≤ k) :
    tell adj kk a k i = if adj kk a = 3 * k + i.val then 3 * kk + a.val else adj k i := by
  unfold tell
  by_cases h : adj kk a = 3 * k + i.val
  · rw [if_pos h, if_pos (by omega)]
    unfold set2
    rw [if_pos]
    rw [h]; exact ⟨(div3 k i).symm, (mod3 k i).symm⟩
  · rw [if_neg h]
    split
    · unfold set2
      rw [if_neg]
      rintro ⟨h1, h2⟩
      apply h
      have := congrArg Fin.val h2
      simp only [m3] at this
      omega
    · rfl

theorem swp_eq {α : Type} (f : Nat → Fin 3 → α) (kk : Nat) {a b : Fin 3} (hab : a ≠ b) (k i) :
    swp f kk a b k i = if k = kk then f kk (Equiv.swap a b i) else f k i := by
  unfold swp set2
  by_cases hk : k = kk
  · subst hk
    by_cases h1 : i = b
    · subst h1; simp
    · by_cases h2 : i = a
      · subst h2; simp [h1]
      · simp [h1, h2, Equiv.swap_apply_of_ne_of_ne h2 h1]
  · simp [hk]

theorem flip_adj (R : Rel E s0 σ s) (G : Good E s0) {kk} (hkk : Ex E s0 kk) {a b : Fin 3} (hab : a ≠ b) {x y} {k i}
    (hk : Ex E s0 k) : (flip s kk a b x y).adj k i =
      if k = kk then s.adj kk (Equiv.swap a b i)
      else if s.adj k i = 3 * kk + a.val then 3 * kk + b.val
      else if s.adj k i = 3 * kk + b.val then 3 * kk + a.val
      else s.adj k i := by
  have self : ∀ c, s.adj kk c / 3 ≠ kk := by
    intro c hc
    have h0 : s.adj kk c ≠ 0 := by have := hkk.1; omega
    exact (R.linked G kk c ((R.ex G kk).2 hkk) h0).2.1 hc
  have rec1 : ∀ c, k ≠ kk → (s.adj kk c = 3 * k + i.val ↔ s.adj k i = 3 * kk + c.val) := by
    intro c hne
    constructor
    · intro h
      have h0 : s.adj kk c ≠ 0 := by have := hk.1; omega
      have := R.recip G hkk h0
      unfold Orient.nb Orient.np at this
      rw [h] at this
      rw [div3, mod3] at this
      exact this
    · intro h
      have h0 : s.adj k i ≠ 0 := by have := hkk.1; omega
      have := R.recip G hk h0
      unfold Orient.nb Orient.np at this
      rw [h] at this
      rw [div3, mod3] at this
      exact this
  have e1 : ∀ c, swp s.adj kk a b kk c = s.adj kk (Equiv.swap a b c) := by
    intro c; rw [swp_eq _ _ hab, if_pos rfl]
  have e2 : ∀ c, tell (swp s.adj kk a b) kk a kk c = s.adj kk (Equiv.swap a b c) := by
    intro c
    rw [tell_eq _ _ _ _ _ hkk.1, e1, e1, if_neg]
    intro h
    exact self _ (by rw [h]; exact div3 _ _)
  unfold flip
  simp only
  rw [tell_eq _ _ _ _ _ hk.1, e2, Equiv.swap_apply_right, tell_eq _ _ _ _ _ hk.1, e1, Equiv.swap_apply_left]
  by_cases hkk' : k = kk
  · subst hkk'
    rw [if_pos rfl, if_neg (fun h => self _ (by rw [h]; exact div3 _ _)),
      if_neg (fun h => self _ (by rw [h]; exact div3 _ _)), e1]
  · rw [if_neg hkk', swp_eq _ _ hab, if_neg hkk']
    simp only [rec1 _ hkk']

theorem flip_rel (R : Rel E s0 σ s) (G : Good E s0) {kk} (hkk : Ex E s0 kk) {a b : Fin 3} (hab : a ≠ b) :
    Rel E s0 (Function.update σ kk (σ kk * Equiv.swap a b)) (flip s kk a b (s.v kk a) (s.v kk b)) := by
  have ev : ∀ k i, (flip s kk a b (s.v kk a) (s.v kk b)).v k i = if k = kk then s.v kk (Equiv.swap a b i) else s.v k i := by
    intro k i; exact swp_eq s.v kk hab k i
  constructor
  · intro k i hk
    rw [ev]
    by_cases h : k = kk
    · subst h; rw [if_pos rfl, Function.update_self, R.v _ _ hk]; rfl
    · rw [if_neg h, Function.update_of_ne h, R.v _ _ hk]
  · intro k hk
    funext i
    rw [ev, if_neg (fun h : k = kk => hk (h ▸ hkk)), R.dead k hk]
  · intro k i hk
    have : (flip s kk a b (s.v kk a) (s.v kk b)).edg k i = if k = kk then s.edg kk (Equiv.swap a b i) else s.edg k i :=
      swp_eq s.edg kk hab k i
    rw [this]
    by_cases h : k = kk
    · subst h; rw [if_pos rfl, Function.update_self, R.edg _ _ hk]; rfl
    · rw [if_neg h, Function.update_of_ne h, R.edg _ _ hk]
  · intro k i hk
    rw [flip_adj R G hkk hab hk]
    by_cases h : k = kk
    · subst h
      rw [if_pos rfl, Function.update_self, R.adj _ _ hk, Equiv.Perm.mul_apply]
      unfold code
      split
      · rfl
      · rename_i h0
        have hx : s0.adj k (σ k (Equiv.swap a b i)) / 3 ≠ k := (G.link k _ hk h0).2.1
        rw [Function.update_of_ne hx]
    · rw [if_neg h, Function.update_of_ne h, R.adj _ _ hk]
      unfold code
      split
      · rename_i h0
        rw [if_neg (by have := hkk.1; omega), if_neg (by have := hkk.1; omega)]
      · rename_i h0
        by_cases hn : s0.adj k (σ k i) / 3 = kk
        · rw [hn, Function.update_self]
          set c := (σ kk).symm (m3 (s0.adj k (σ k i))) with hc
          have e : (σ kk * Equiv.swap a b).symm (m3 (s0.adj k (σ k i))) = Equiv.swap a b c := by
            rw [hc, Equiv.symm_apply_eq]
            simp
          rw [e]
          by_cases h1 : c = a
          · rw [h1, if_pos rfl, Equiv.swap_apply_left]
          · have h1' : c.val ≠ a.val := fun x => h1 (Fin.ext x)
            rw [if_neg (by omega)]
            by_cases h2 : c = b
            · rw [h2, if_pos rfl, Equiv.swap_apply_right]
            · have h2' : c.val ≠ b.val := fun x => h2 (Fin.ext x)
              rw [if_neg (by omega), Equiv.swap_apply_of_ne_of_ne h1 h2]
        · rw [Function.update_of_ne hn]
          have := ((σ (s0.adj k (σ k i) / 3)).symm (m3 (s0.adj k (σ k i)))).isLt
          have := a.isLt
          have := b.isLt
          rw [if_neg (by omega), if_neg (by omega)]

end Mmg.Orient
