import Verif.PoolModel
import Mathlib.Data.List.Nodup
import Mathlib.Data.List.Range

namespace Mmg.Pool

variable {α : Type}

@[simp] theorem put_same {β : Type} (f : Nat → β) (i : Nat) (x : β) : put f i x i = x := by simp [put]
theorem put_ne {β : Type} (f : Nat → β) {i j : Nat} (x : β) (h : j ≠ i) : put f i x j = f j := by simp [put, h]

/-- The chain starting at `n` goes exactly through the list. -/
def Chain (cell : Nat → Cell α) : Nat → List Nat → Prop
  | n, [] => n = 0
  | n, a :: t => n = a ∧ a ≠ 0 ∧ Chain cell (cell a).link t

theorem Chain.congr {c c' : Nat → Cell α} : ∀ {n : Nat} {L : List Nat}, Chain c n L →
    (∀ a ∈ L, (c' a).link = (c a).link) → Chain c' n L
  | _, [], h, _ => h
  | _, a :: t, ⟨h1, h2, h3⟩, hc => by
    refine ⟨h1, h2, ?_⟩
    rw [hc a (by simp)]
    exact Chain.congr h3 (fun b hb => hc b (List.mem_cons_of_mem _ hb))

theorem chain_range (c : Nat → Cell α) (n : Nat) : ∀ (f : Nat), 1 ≤ f →
    (∀ k, f ≤ k → k + 1 < f + n → (c k).link = k + 1) → (0 < n → (c (f + n - 1)).link = 0) →
    Chain c (if n = 0 then 0 else f) (List.range' f n) := by
  induction n with
  | zero => intro f _ _ _; rfl
  | succ n ih =>
    intro f hf h1 h2
    rw [List.range'_succ]
    refine ⟨by simp, by omega, ?_⟩
    have := ih (f + 1) (by omega) (fun k hk hk' => h1 k (by omega) (by omega))
      (fun hn => by
        have e : f + 1 + n - 1 = f + (n + 1) - 1 := by omega
        rw [e]; exact h2 (by omega))
    by_cases hn : n = 0
    · subst hn
      simp only [if_true] at this
      have h := h2 (by omega)
      have e : f + (0 + 1) - 1 = f := by omega
      rw [e] at h
      rw [h]; exact this
    · rw [if_neg hn] at this
      rw [h1 f (by omega) (by omega)]
      exact this

/-- The invariant linking a pool with the abstract map `S` of used slots and their contents. `D`
are the deleted slots of the chain, `[f,e)` the never used ones, `B` bounds the slots that were
loaded as unused and are in no list. -/
structure Inv (z : Cell α) (B : Nat) (p : Pool α) (S : Nat → Option α) (D : List Nat) (f e : Nat) :
    Prop where
  chain : Chain p.cell p.nil (D ++ List.range' f (e - f))
  nodup : D.Nodup
  fe : f ≤ e
  ecap : e ≤ p.cap + 1
  f1 : p.top < f
  B0 : B < p.cap
  Dlt : ∀ k ∈ D, 1 ≤ k ∧ k < f ∧ (p.cell k).live = false
  used : ∀ k d, S k = some d → 1 ≤ k ∧ k ≤ p.top ∧ (p.cell k).live = true ∧ (p.cell k).data = d
  live : ∀ k, 1 ≤ k → k < f → (p.cell k).live = true → S k ≠ none
  dead : ∀ k, 1 ≤ k → k < f → S k = none → k ∉ D → k ≤ B
  zero : ∀ k, e ≤ k → k ≤ p.cap → (p.cell k).link = 0

theorem alloc_inv (z : Cell α) (hz : z.link = 0) {cap n : Nat} (hn : n < cap) (ld : Nat → Cell α) :
    Inv z n (alloc z cap n ld)
      (fun k => if 1 ≤ k ∧ k ≤ n ∧ (ld k).live = true then some (ld k).data else none)
      [] (n + 1) (if n + 1 = cap then cap + 1 else cap) := by
  have hcell : ∀ k, (alloc z cap n ld).cell k =
      if n + 1 ≤ k ∧ k < cap - 1 then { (if 1 ≤ k ∧ k ≤ n then ld k else z) with link := k + 1 }
      else (if 1 ≤ k ∧ k ≤ n then ld k else z) := fun k => rfl
  have hlive : ∀ k, 1 ≤ k → k ≤ n → (alloc z cap n ld).cell k = ld k := by
    intro k h1 h2
    rw [hcell, if_neg (by omega), if_pos ⟨h1, h2⟩]
  constructor
  · have hc := chain_range (alloc z cap n ld).cell ((if n + 1 = cap then cap + 1 else cap) - (n + 1))
      (n + 1) (by omega) ?_ ?_
    · have hne : ¬ ((if n + 1 = cap then cap + 1 else cap) - (n + 1) = 0) := by split <;> omega
      rw [if_neg hne] at hc
      exact hc
    · intro k h1 h2
      rw [hcell]
      split at h2
      · omega
      · rw [if_pos ⟨h1, by omega⟩]
    · intro _
      rw [hcell, if_neg (by split <;> omega), if_neg (by split <;> omega)]
      exact hz
  · simp
  · split <;> omega
  · show _ ≤ cap + 1
    split <;> omega
  · show n < n + 1; omega
  · exact hn
  · simp
  · intro k d hk
    split at hk
    · rename_i h
      rw [hlive k h.1 h.2.1]
      exact ⟨h.1, h.2.1, h.2.2, by simpa using hk⟩
    · simp at hk
  · intro k h1 h2 h3
    rw [hlive k h1 (by omega)] at h3
    simp [h1, h3, Nat.lt_succ_iff.1 h2]
  · intro k h1 h2 _ _; omega
  · intro k h1 h2
    have h2' : k ≤ cap := h2
    rw [hcell, if_neg (by split at h1 <;> omega), if_neg (by split at h1 <;> omega)]
    exact hz

theorem Inv.nil_zero {z : Cell α} {B p S D f e} (I : Inv (α := α) z B p S D f e) (h : p.nil = 0) :
    D = [] ∧ f = e := by
  have hc := I.chain
  rw [h] at hc
  cases D with
  | nil =>
    refine ⟨rfl, ?_⟩
    have hfe := I.fe
    by_contra hne
    obtain ⟨m, hm⟩ : ∃ m, e - f = m + 1 := ⟨e - f - 1, by omega⟩
    rw [hm, List.nil_append, List.range'_succ] at hc
    exact hc.2.1 hc.1.symm
  | cons a t => exact absurd hc.1.symm hc.2.1

theorem newSlot_inv {z : Cell α} {B p S D f e} (I : Inv (α := α) z B p S D f e) (d : α) (x : Nat)
    (h : p.nil ≠ 0) :
    ∃ p' r, newSlot p d x = some (p', r) ∧ r = p.nil ∧ 1 ≤ r ∧ r ≤ p'.cap ∧ p'.cap = p.cap ∧
      S r = none ∧
      p'.top = (if p.top < r then r else p.top) ∧
      ∃ D' f', Inv z B p' (put S r (some d)) D' f' e := by
  have hc := I.chain
  -- slot in range
  have hcap : p.nil ≤ p.cap := by
    cases D with
    | nil =>
      have hne : e - f ≠ 0 := by
        intro h0; rw [h0] at hc; exact h hc
      obtain ⟨m, hm⟩ : ∃ m, e - f = m + 1 := ⟨e - f - 1, by omega⟩
      rw [hm, List.nil_append, List.range'_succ] at hc
      have := hc.1; have := I.ecap; omega
    | cons a t =>
      have h1 := hc.1
      have h2 := (I.Dlt a (by simp)).2.1
      have h3 := I.fe; have h4 := I.ecap
      omega
  have hns : newSlot p d x = some ({ p with
      top := if p.top < p.nil then p.nil else p.top
      nil := (p.cell p.nil).link
      cell := put p.cell p.nil ⟨true, x, d⟩ }, p.nil) := by
    rw [newSlot, if_neg h, if_neg (by omega)]
  refine ⟨_, p.nil, hns, rfl, by omega, hcap, rfl, ?_, rfl, ?_⟩
  · -- not in use
    cases hS : S p.nil with
    | none => rfl
    | some d' =>
      exfalso
      have hu := I.used _ _ hS
      cases D with
      | nil =>
        have hne : e - f ≠ 0 := by
          intro h0; rw [h0] at hc; exact h hc
        obtain ⟨m, hm⟩ : ∃ m, e - f = m + 1 := ⟨e - f - 1, by omega⟩
        rw [hm, List.nil_append, List.range'_succ] at hc
        have := hc.1; have := I.f1; omega
      | cons a t =>
        have h1 := hc.1
        have h2 := (I.Dlt a (by simp)).2.2
        rw [h1, h2] at hu
        exact absurd hu.2.2.1 (by simp)
  · cases D with
    | nil =>
      have hne : e - f ≠ 0 := by
        intro h0; rw [h0] at hc; exact h hc
      obtain ⟨m, hm⟩ : ∃ m, e - f = m + 1 := ⟨e - f - 1, by omega⟩
      rw [hm, List.nil_append, List.range'_succ] at hc
      obtain ⟨h1, h2, h3⟩ := hc
      have hm' : e - (f + 1) = m := by omega
      have hf1 := I.f1
      refine ⟨[], f + 1, ?_⟩
      constructor
      · show Chain _ (p.cell p.nil).link _
        rw [List.nil_append, hm', h1]
        refine Chain.congr h3 ?_
        intro a ha
        have := (List.mem_range'_1.1 ha).1
        show (put p.cell f _ a).link = _
        rw [put_ne _ _ (by omega)]
      · simp
      · omega
      · exact I.ecap
      · show (if p.top < p.nil then p.nil else p.top) < f + 1
        split <;> omega
      · exact I.B0
      · simp
      · intro k d' hk
        show 1 ≤ k ∧ k ≤ (if p.top < p.nil then p.nil else p.top) ∧
          (put p.cell p.nil _ k).live = true ∧ (put p.cell p.nil _ k).data = d'
        by_cases hkn : k = p.nil
        · subst hkn
          rw [put_same] at hk ⊢
          exact ⟨by omega, by split <;> omega, rfl, by simpa using hk⟩
        · rw [put_ne _ _ hkn] at hk ⊢
          obtain ⟨u1, u2, u3, u4⟩ := I.used k d' hk
          exact ⟨u1, by split <;> omega, u3, u4⟩
      · intro k k1 k2 k3
        by_cases hkn : k = p.nil
        · subst hkn; rw [put_same]; simp
        · have k3' : (put p.cell p.nil ⟨true, x, d⟩ k).live = true := k3
          rw [put_ne _ _ hkn] at k3' ⊢
          exact I.live k k1 (by omega) k3'
      · intro k k1 k2 k3 k4
        by_cases hkn : k = p.nil
        · subst hkn; rw [put_same] at k3; simp at k3
        · rw [put_ne _ _ hkn] at k3
          exact I.dead k k1 (by omega) k3 (by simp)
      · intro k k1 k2
        show (put p.cell p.nil _ k).link = 0
        rw [put_ne _ _ (by omega)]
        exact I.zero k k1 k2
    | cons a t =>
      obtain ⟨h1, h2, h3⟩ := hc
      have hnd := List.nodup_cons.1 I.nodup
      have ha := I.Dlt a (by simp)
      have hf1 := I.f1
      refine ⟨t, f, ?_⟩
      constructor
      · show Chain _ (p.cell p.nil).link _
        rw [h1]
        refine Chain.congr h3 ?_
        intro b hb
        show (put p.cell a _ b).link = _
        have : b ≠ a := by
          rintro rfl
          rcases List.mem_append.1 hb with hb | hb
          · exact hnd.1 hb
          · have := (List.mem_range'_1.1 hb).1; omega
        rw [put_ne _ _ this]
      · exact hnd.2
      · exact I.fe
      · exact I.ecap
      · show (if p.top < p.nil then p.nil else p.top) < f
        split <;> omega
      · exact I.B0
      · intro k hk
        have := I.Dlt k (by simp [hk])
        show 1 ≤ k ∧ k < f ∧ (put p.cell p.nil _ k).live = false
        have hne : k ≠ p.nil := by rw [h1]; rintro rfl; exact hnd.1 hk
        rw [put_ne _ _ hne]; exact this
      · intro k d' hk
        show 1 ≤ k ∧ k ≤ (if p.top < p.nil then p.nil else p.top) ∧
          (put p.cell p.nil _ k).live = true ∧ (put p.cell p.nil _ k).data = d'
        by_cases hkn : k = p.nil
        · subst hkn
          rw [put_same] at hk ⊢
          exact ⟨by omega, by split <;> omega, rfl, by simpa using hk⟩
        · rw [put_ne _ _ hkn] at hk ⊢
          obtain ⟨u1, u2, u3, u4⟩ := I.used k d' hk
          exact ⟨u1, by split <;> omega, u3, u4⟩
      · intro k k1 k2 k3
        by_cases hkn : k = p.nil
        · subst hkn; rw [put_same]; simp
        · have k3' : (put p.cell p.nil ⟨true, x, d⟩ k).live = true := k3
          rw [put_ne _ _ hkn] at k3' ⊢
          exact I.live k k1 (by omega) k3'
      · intro k k1 k2 k3 k4
        by_cases hkn : k = p.nil
        · subst hkn; rw [put_same] at k3; simp at k3
        · rw [put_ne _ _ hkn] at k3
          refine I.dead k k1 k2 k3 ?_
          rw [List.mem_cons, not_or]
          exact ⟨by omega, k4⟩
      · intro k k1 k2
        show (put p.cell p.nil _ k).link = 0
        have := I.fe
        rw [put_ne _ _ (by omega)]
        exact I.zero k k1 k2

theorem shrink_le (c : Nat → Cell α) (n : Nat) : shrink c n ≤ n := by
  induction n with
  | zero => exact Nat.le_refl _
  | succ n ih => rw [shrink]; split <;> omega

theorem shrink_live (c : Nat → Cell α) (n : Nat) : shrink c n = 0 ∨ (c (shrink c n)).live = true := by
  induction n with
  | zero => left; rfl
  | succ n ih =>
    rw [shrink]; split
    · right; assumption
    · exact ih

theorem le_shrink (c : Nat → Cell α) (n k : Nat) (hk : k ≤ n) (h : (c k).live = true) : k ≤ shrink c n := by
  induction n with
  | zero => have : k = 0 := by omega
            omega
  | succ n ih =>
    rw [shrink]; split
    · exact hk
    · rename_i hl
      apply ih
      rcases Nat.lt_or_ge k (n + 1) with h' | h'
      · omega
      · have : k = n + 1 := by omega
        subst this; exact absurd h hl

theorem delPt_inv {z : Cell α} {B p S D f e} (I : Inv (α := α) z B p S D f e) (zd : α) {k : Nat}
    (h : S k ≠ none) :
    ∃ p', delPt zd p k = some p' ∧ p'.nil = k ∧ p'.cap = p.cap ∧
      p'.top ≤ p.top ∧ (k ≠ p.top → p'.top = p.top) ∧
      Inv z B p' (put S k none) (k :: D) f e ∧
      (k = p.top → p'.top = 0 ∨ put S k none p'.top ≠ none) := by
  obtain ⟨d, hd⟩ := Option.ne_none_iff_exists'.1 h
  obtain ⟨u1, u2, u3, u4⟩ := I.used k d hd
  have hf1 := I.f1; have hfe := I.fe; have hec := I.ecap
  have hkD : k ∉ D := fun hk => by
    have := (I.Dlt k hk).2.2; rw [u3] at this; simp at this
  have hdel : delPt zd p k = some { p with
      nil := k
      cell := put p.cell k ⟨false, p.nil, zd⟩
      top := if k = p.top then shrink (put p.cell k ⟨false, p.nil, zd⟩) p.top else p.top } := by
    rw [delPt, if_neg (by omega)]
  refine ⟨_, hdel, rfl, rfl, ?_, ?_, ?_, ?_⟩
  · show (if k = p.top then shrink _ p.top else p.top) ≤ p.top
    split
    · exact shrink_le _ _
    · exact Nat.le_refl _
  · intro hk; show (if k = p.top then shrink _ p.top else p.top) = p.top
    rw [if_neg hk]
  · constructor
    · refine ⟨rfl, by omega, ?_⟩
      show Chain (put p.cell k ⟨false, p.nil, zd⟩) (put p.cell k ⟨false, p.nil, zd⟩ k).link _
      rw [put_same]
      refine Chain.congr I.chain ?_
      intro a ha
      have : a ≠ k := by
        rintro rfl
        rcases List.mem_append.1 ha with ha | ha
        · exact hkD ha
        · have := (List.mem_range'_1.1 ha).1; omega
      rw [put_ne _ _ this]
    · exact List.nodup_cons.2 ⟨hkD, I.nodup⟩
    · exact hfe
    · exact hec
    · show (if k = p.top then shrink _ p.top else p.top) < f
      have := shrink_le (put p.cell k ⟨false, p.nil, zd⟩) p.top
      split <;> omega
    · exact I.B0
    · intro j hj
      show 1 ≤ j ∧ j < f ∧ (put p.cell k _ j).live = false
      rcases List.mem_cons.1 hj with rfl | hj
      · rw [put_same]; exact ⟨u1, by omega, rfl⟩
      · have := I.Dlt j hj
        have hne : j ≠ k := fun e => hkD (e ▸ hj)
        rw [put_ne _ _ hne]; exact this
    · intro j d' hj
      by_cases hjk : j = k
      · subst hjk; rw [put_same] at hj; simp at hj
      · rw [put_ne _ _ hjk] at hj
        obtain ⟨v1, v2, v3, v4⟩ := I.used j d' hj
        show 1 ≤ j ∧ j ≤ (if k = p.top then shrink _ p.top else p.top) ∧
          (put p.cell k _ j).live = true ∧ (put p.cell k _ j).data = d'
        have hc : put p.cell k ⟨false, p.nil, zd⟩ j = p.cell j := put_ne _ _ hjk
        refine ⟨v1, ?_, by rw [hc]; exact v3, by rw [hc]; exact v4⟩
        split
        · exact le_shrink _ _ _ v2 (by rw [hc]; exact v3)
        · exact v2
    · intro j j1 j2 j3
      have j3' : (put p.cell k ⟨false, p.nil, zd⟩ j).live = true := j3
      by_cases hjk : j = k
      · subst hjk; rw [put_same] at j3'; simp at j3'
      · rw [put_ne _ _ hjk] at j3' ⊢
        exact I.live j j1 j2 j3'
    · intro j j1 j2 j3 j4
      rw [List.mem_cons, not_or] at j4
      rw [put_ne _ _ j4.1] at j3
      exact I.dead j j1 j2 j3 j4.2
    · intro j j1 j2
      show (put p.cell k _ j).link = 0
      rw [put_ne _ _ (by omega)]
      exact I.zero j j1 j2
  · intro hk
    have e1 : ∀ c : Nat → Cell α, (if k = p.top then shrink c p.top else p.top) = shrink c p.top :=
      fun c => if_pos hk
    show (if k = p.top then shrink _ p.top else p.top) = 0 ∨ _
    rw [e1]
    rcases shrink_live (put p.cell k ⟨false, p.nil, zd⟩) p.top with h0 | h0
    · exact Or.inl h0
    · by_cases hz : shrink (put p.cell k ⟨false, p.nil, zd⟩) p.top = 0
      · exact Or.inl hz
      right
      show put S k none (shrink (put p.cell k ⟨false, p.nil, zd⟩) p.top) ≠ none
      have hle := shrink_le (put p.cell k ⟨false, p.nil, zd⟩) p.top
      by_cases hjk : shrink (put p.cell k ⟨false, p.nil, zd⟩) p.top = k
      · rw [hjk, put_same] at h0; simp at h0
      · rw [put_ne _ _ hjk] at h0 ⊢
        exact I.live _ (by omega) (by omega) h0

theorem realloc_inv {z : Cell α} (hz : z.link = 0) {B p S D f e} (I : Inv (α := α) z B p S D f e)
    (h : p.nil = 0) {g : Nat} (hg : 1 ≤ g) :
    Inv z B (realloc z p g) S [] (p.top + 1)
      (if p.top + 1 = p.cap + g then p.cap + g + 1 else p.cap + g) := by
  obtain ⟨rfl, rfl⟩ := I.nil_zero h
  have hf1 := I.f1; have hec := I.ecap; have hB := I.B0
  have hcell : ∀ k, (realloc z p g).cell k =
      if p.top + 1 ≤ k ∧ k < p.cap + g - 1 then { (if p.cap < k then z else p.cell k) with link := k + 1 }
      else (if p.cap < k then z else p.cell k) := fun k => rfl
  have hlow : ∀ k, k ≤ p.top → (realloc z p g).cell k = p.cell k := by
    intro k hk; rw [hcell, if_neg (by omega), if_neg (by omega)]
  have hlast : (realloc z p g).cell (if p.top + 1 = p.cap + g then p.cap + g else p.cap + g - 1) =
      (if p.cap < (if p.top + 1 = p.cap + g then p.cap + g else p.cap + g - 1) then z else
        p.cell (if p.top + 1 = p.cap + g then p.cap + g else p.cap + g - 1)) := by
    rw [hcell, if_neg (by split <;> omega)]
  -- the last linked slot has a zero link
  have hlast0 : ((realloc z p g).cell (if p.top + 1 = p.cap + g then p.cap + g else p.cap + g - 1)).link = 0 := by
    rw [hlast]
    by_cases hc : p.cap < (if p.top + 1 = p.cap + g then p.cap + g else p.cap + g - 1)
    · rw [if_pos hc]; exact hz
    · rw [if_neg hc]
      have hne : ¬ (p.top + 1 = p.cap + g) := by
        intro he; rw [if_pos he] at hc; omega
      rw [if_neg hne] at hc ⊢
      have hgc : p.cap + g - 1 = p.cap := by omega
      rw [hgc]
      by_cases hfe : f ≤ p.cap
      · exact I.zero _ hfe (Nat.le_refl _)
      · exfalso
        have hd := I.dead p.cap (by omega) (by omega)
        cases hS : S p.cap with
        | none => have := hd hS (by simp); omega
        | some d => have := (I.used _ _ hS).2.1; omega
  constructor
  · have hc := chain_range (realloc z p g).cell ((if p.top + 1 = p.cap + g then p.cap + g + 1 else p.cap + g) - (p.top + 1))
      (p.top + 1) (by omega) ?_ ?_
    · have hne : ¬ ((if p.top + 1 = p.cap + g then p.cap + g + 1 else p.cap + g) - (p.top + 1) = 0) := by
        split <;> omega
      rw [if_neg hne] at hc
      exact hc
    · intro k h1 h2
      rw [hcell]
      split at h2
      · omega
      · rw [if_pos ⟨h1, by omega⟩]
    · intro _
      have e1 : p.top + 1 + ((if p.top + 1 = p.cap + g then p.cap + g + 1 else p.cap + g) - (p.top + 1)) - 1 =
          (if p.top + 1 = p.cap + g then p.cap + g else p.cap + g - 1) := by split <;> omega
      rw [e1]; exact hlast0
  · simp
  · split <;> omega
  · show _ ≤ p.cap + g + 1
    split <;> omega
  · show p.top < p.top + 1; omega
  · show B < p.cap + g; omega
  · simp
  · intro k d hk
    obtain ⟨u1, u2, u3, u4⟩ := I.used k d hk
    rw [hlow k u2]
    exact ⟨u1, u2, u3, u4⟩
  · intro k k1 k2 k3
    rw [hlow k (by omega)] at k3
    exact I.live k k1 (by omega) k3
  · intro k k1 k2 k3 k4
    exact I.dead k k1 (by omega) k3 (by simp)
  · intro k k1 k2
    have k2' : k ≤ p.cap + g := k2
    by_cases hne : p.top + 1 = p.cap + g
    · rw [if_pos hne] at k1; omega
    · rw [if_neg hne] at k1
      rw [hcell, if_neg (by omega)]
      rw [if_pos (by omega)]; exact hz

theorem scribble_inv {z : Cell α} {B p S D f e} (I : Inv (α := α) z B p S D f e) {k : Nat} (x : Nat)
    (h : S k ≠ none) : Inv z B (scribble p k x) S D f e := by
  obtain ⟨d, hd⟩ := Option.ne_none_iff_exists'.1 h
  obtain ⟨u1, u2, u3, u4⟩ := I.used k d hd
  have hf1 := I.f1; have hfe := I.fe
  have hkD : k ∉ D := fun hk => by
    have := (I.Dlt k hk).2.2; rw [u3] at this; simp at this
  have hlive : ∀ j, ((scribble p k x).cell j).live = (p.cell j).live := by
    intro j; show (put p.cell k _ j).live = _
    by_cases hj : j = k
    · subst hj; rw [put_same]
    · rw [put_ne _ _ hj]
  have hdata : ∀ j, ((scribble p k x).cell j).data = (p.cell j).data := by
    intro j; show (put p.cell k _ j).data = _
    by_cases hj : j = k
    · subst hj; rw [put_same]
    · rw [put_ne _ _ hj]
  have hlink : ∀ j, j ≠ k → ((scribble p k x).cell j).link = (p.cell j).link := by
    intro j hj; show (put p.cell k _ j).link = _
    rw [put_ne _ _ hj]
  constructor
  · refine Chain.congr I.chain ?_
    intro a ha
    apply hlink
    rintro rfl
    rcases List.mem_append.1 ha with ha | ha
    · exact hkD ha
    · have := (List.mem_range'_1.1 ha).1; omega
  · exact I.nodup
  · exact hfe
  · exact I.ecap
  · exact hf1
  · exact I.B0
  · intro j hj; rw [hlive]; exact I.Dlt j hj
  · intro j d' hj; rw [hlive, hdata]; exact I.used j d' hj
  · intro j; rw [hlive]; exact I.live j
  · exact I.dead
  · intro j j1 j2
    rw [hlink j (by omega)]; exact I.zero j j1 j2

end Mmg.Pool
