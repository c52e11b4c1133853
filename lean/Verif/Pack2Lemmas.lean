/- Lemmas on the loops of `Pack2Model`. -/
import Verif.Pack2Model

namespace Mmg.Pack2

open Mmg.Pack3 (upd upd_same upd_ne Elt eok Els packEls has REF REQ BDY CRN NOSURF)

variable {α β K : Type}

/-! ### Rank -/

/-- Number of indices in `1..n` that satisfy `ok`. -/
def rank (ok : Nat → Bool) : Nat → Nat
  | 0 => 0
  | n + 1 => rank ok n + if ok (n + 1) then 1 else 0

theorem rank_succ_pos {ok : Nat → Bool} {n : Nat} (h : ok (n + 1) = true) : rank ok (n + 1) = rank ok n + 1 := by
  simp [rank, h]

theorem rank_succ_neg {ok : Nat → Bool} {n : Nat} (h : ok (n + 1) = false) : rank ok (n + 1) = rank ok n := by
  simp [rank, h]

theorem rank_mono (ok : Nat → Bool) {a b : Nat} (h : a ≤ b) : rank ok a ≤ rank ok b := by
  induction b with
  | zero => rw [Nat.le_zero.1 h]
  | succ b ih =>
    rcases Nat.lt_or_ge b a with h1 | h1
    · rw [show a = b + 1 by omega]
    · exact Nat.le_trans (ih h1) (by simp only [rank]; omega)

theorem rank_le (ok : Nat → Bool) (n : Nat) : rank ok n ≤ n := by
  induction n with
  | zero => exact le_refl _
  | succ n ih => simp only [rank]; split_ifs <;> omega

theorem rank_lt (ok : Nat → Bool) {a b : Nat} (h : a < b) (hb : ok b = true) : rank ok a < rank ok b := by
  obtain ⟨b, rfl⟩ : ∃ c, b = c + 1 := ⟨b - 1, by omega⟩
  rw [rank_succ_pos hb]
  have := rank_mono ok (show a ≤ b by omega)
  omega

theorem rank_pos (ok : Nat → Bool) {a : Nat} (h : 1 ≤ a) (ha : ok a = true) : 1 ≤ rank ok a := by
  have := rank_lt ok (show 0 < a by omega) ha
  omega

theorem rank_inj (ok : Nat → Bool) {a b : Nat} (ha : ok a = true) (hb : ok b = true) (h : rank ok a = rank ok b) :
    a = b := by
  rcases Nat.lt_trichotomy a b with h1 | h1 | h1
  · have := rank_lt ok h1 hb; omega
  · exact h1
  · have := rank_lt ok h1 ha; omega

theorem rank_surj (ok : Nat → Bool) : ∀ n j, 1 ≤ j → j ≤ rank ok n → ∃ a, 1 ≤ a ∧ a ≤ n ∧ ok a = true ∧ rank ok a = j
  | 0, j, h1, h2 => by simp only [rank] at h2; omega
  | n + 1, j, h1, h2 => by
    cases hn : ok (n + 1)
    · rw [rank_succ_neg hn] at h2
      obtain ⟨a, p, q, r⟩ := rank_surj ok n j h1 h2
      exact ⟨a, p, by omega, r⟩
    · rcases Nat.lt_or_ge (rank ok n) j with h3 | h3
      · rw [rank_succ_pos hn] at h2
        exact ⟨n + 1, by omega, le_refl _, hn, by rw [rank_succ_pos hn]; omega⟩
      · obtain ⟨a, p, q, r⟩ := rank_surj ok n j h1 h3
        exact ⟨a, p, by omega, r⟩

theorem range'_succ (n : Nat) : List.range' 1 (n + 1) = List.range' 1 n ++ [n + 1] := by
  rw [List.range'_1_concat, Nat.add_comm]

theorem foldl_range' {γ : Type} (f : γ → Nat → γ) (x : γ) (n : Nat) :
    (List.range' 1 (n + 1)).foldl f x = f ((List.range' 1 n).foldl f x) (n + 1) := by
  rw [range'_succ, List.foldl_append]; rfl

/-! ### Numbering of the points -/

/-- A used point after the numbering. -/
def numbered (ok : Nat → Bool) (pt : Nat → Pt α) (k : Nat) : Pt α :=
  { pt k with tmp := rank ok k, tag := untag (pt k).tag }

theorem number_spec (pt : Nat → Pt α) (np : Nat) :
    number np pt = (rank (fun j => vok (pt j)) np,
      (List.range' 1 np).countP (fun k => vok (pt k) && has (pt k).tag CRN),
      fun k => if 1 ≤ k ∧ k ≤ np ∧ vok (pt k) = true then numbered (fun j => vok (pt j)) pt k else pt k) := by
  induction np with
  | zero =>
    unfold number
    simp only [List.range'_zero, List.foldl_nil, rank, List.countP_nil, Prod.mk.injEq, true_and]
    funext k
    rw [if_neg (by omega)]
  | succ np ih =>
    unfold number at ih ⊢
    rw [foldl_range', ih, range'_succ, List.countP_append]
    generalize hR : rank (fun j => vok (pt j)) np = R
    unfold numStep
    dsimp only
    simp only [show ¬ (1 ≤ np + 1 ∧ np + 1 ≤ np ∧ vok (pt (np + 1)) = true) by omega, if_false]
    cases hv : vok (pt (np + 1))
    · have e : rank (fun j => vok (pt j)) (np + 1) = R := by rw [rank_succ_neg hv, hR]
      simp only [Bool.false_eq_true, if_false, e, List.countP_singleton, hv, Bool.false_and, Nat.add_zero, Prod.mk.injEq,
        true_and]
      funext k
      by_cases h : 1 ≤ k ∧ k ≤ np ∧ vok (pt k) = true
      · rw [if_pos h, if_pos ⟨h.1, by omega, h.2.2⟩]
      · rw [if_neg h, if_neg]
        rintro ⟨h1, h2, h3⟩
        rcases Nat.lt_or_ge np k with h4 | h4
        · rw [show k = np + 1 by omega, hv] at h3; simp at h3
        · exact h ⟨h1, h4, h3⟩
    · have e : rank (fun j => vok (pt j)) (np + 1) = R + 1 := by rw [rank_succ_pos hv, hR]
      simp only [if_true, e, List.countP_singleton, hv, Bool.true_and, Prod.mk.injEq, true_and]
      refine ⟨by split_ifs <;> rfl, ?_⟩
      funext k
      by_cases hk : k = np + 1
      · subst hk
        rw [upd_same, if_pos ⟨by omega, by omega, hv⟩]
        unfold numbered
        rw [e]
      · rw [upd_ne _ _ hk]
        by_cases h : 1 ≤ k ∧ k ≤ np ∧ vok (pt k) = true
        · rw [if_pos h, if_pos ⟨h.1, by omega, h.2.2⟩]
        · rw [if_neg h, if_neg (fun hc => h ⟨hc.1, by omega, hc.2.2⟩)]

theorem vok_untag {t : BitVec 16} (h : t.toNat < 32768) : (untag t).toNat < 32768 := by
  unfold untag
  split_ifs
  · rw [BitVec.toNat_and, BitVec.toNat_and]
    exact Nat.lt_of_le_of_lt (Nat.and_le_left.trans Nat.and_le_left) h
  · exact h

theorem vok_number (pt : Nat → Pt α) (np k : Nat) : vok ((number np pt).2.2 k) = vok (pt k) := by
  rw [number_spec]
  dsimp only
  split_ifs with h
  · have h3 := h.2.2
    rw [h3]
    unfold vok at h3 ⊢
    exact decide_eq_true (vok_untag (of_decide_eq_true h3))
  · rfl

/-! ### Values -/

theorem copyVals_spec (size : Nat) {l k : Nat} (hlk : l ≤ k) (m : Nat → K) :
    (∀ c < size, copyVals size l k m (l * size + c) = m (k * size + c)) ∧
    (∀ j, (∀ c < size, j ≠ l * size + c) → copyVals size l k m j = m j) := by
  have key : ∀ n ≤ size, (∀ c < n, ((List.range n).foldl (fun m i => upd m (l * size + i) (m (k * size + i))) m)
        (l * size + c) = m (k * size + c)) ∧
      (∀ j, (∀ c < n, j ≠ l * size + c) →
        ((List.range n).foldl (fun m i => upd m (l * size + i) (m (k * size + i))) m) j = m j) := by
    intro n
    induction n with
    | zero => intro _; exact ⟨fun c h => by omega, fun j _ => rfl⟩
    | succ n ih =>
      intro hn
      obtain ⟨i1, i2⟩ := ih (by omega)
      rw [List.range_succ, List.foldl_append, List.foldl_cons, List.foldl_nil]
      generalize (List.range n).foldl (fun m i => upd m (l * size + i) (m (k * size + i))) m = A at *
      have hk : A (k * size + n) = m (k * size + n) := by
        apply i2
        intro c hc
        have := Nat.mul_le_mul_right size hlk
        omega
      constructor
      · intro c hc
        by_cases h : c = n
        · subst h; rw [upd_same, hk]
        · rw [upd_ne _ _ (by omega)]; exact i1 c (by omega)
      · intro j hj
        rw [upd_ne _ _ (hj n (by omega))]
        exact i2 j (fun c hc => hj c (by omega))
  exact key size (le_refl _)

theorem block_ne {size a b c d : Nat} (h : a ≠ b) (hc : c < size) (hd : d < size) : a * size + c ≠ b * size + d := by
  intro he
  rcases Nat.lt_or_ge a b with h1 | h1
  · have := Nat.mul_le_mul_right size (show a + 1 ≤ b by omega)
    rw [Nat.add_mul] at this; omega
  · have := Nat.mul_le_mul_right size (show b + 1 ≤ a by omega)
    rw [Nat.add_mul] at this; omega

theorem packVals_spec (pt : Nat → Pt α) (size : Nat) (m : Nat → K) (np : Nat) :
    ∀ i, 1 ≤ i → i ≤ np → vok (pt i) = true → ∀ c < size,
      packVals np pt size m (rank (fun j => vok (pt j)) i * size + c) = m (i * size + c) := by
  have key : ∀ n, ∃ A, ((List.range' 1 n).foldl
      (fun s k => if vok (pt k) then (s.1 + 1, copyVals size s.1 k s.2) else s) (1, m)) =
        (rank (fun j => vok (pt j)) n + 1, A) ∧
      (∀ i, 1 ≤ i → i ≤ n → vok (pt i) = true → ∀ c < size,
        A (rank (fun j => vok (pt j)) i * size + c) = m (i * size + c)) ∧
      (∀ i, n < i → ∀ c < size, A (i * size + c) = m (i * size + c)) := by
    intro n
    induction n with
    | zero => exact ⟨m, rfl, fun i _ _ => by omega, fun _ _ _ _ => rfl⟩
    | succ n ih =>
      obtain ⟨A, e, i1, i2⟩ := ih
      rw [foldl_range', e]
      dsimp only
      cases hv : vok (pt (n + 1))
      · rw [rank_succ_neg (ok := fun j => vok (pt j)) hv]
        refine ⟨A, by simp, fun i h1 h2 h3 => ?_, fun i hi => i2 i (by omega)⟩
        rcases Nat.lt_or_ge n i with h4 | h4
        · rw [show i = n + 1 by omega, hv] at h3; simp at h3
        · exact i1 i h1 h4 h3
      · have hle := rank_le (fun j => vok (pt j)) n
        have er := rank_succ_pos (ok := fun j => vok (pt j)) hv
        obtain ⟨c1, c2⟩ := copyVals_spec size (show rank (fun j => vok (pt j)) n + 1 ≤ n + 1 by omega) A
        refine ⟨_, by rw [er]; simp only [if_true]; rfl, ?_, ?_⟩
        · intro i h1 h2 h3 c hc
          rcases Nat.lt_or_ge n i with h4 | h4
          · rw [show i = n + 1 by omega, er, c1 c hc, i2 (n + 1) (by omega) c hc]
          · rw [c2, i1 i h1 h4 h3 c hc]
            intro d hd
            have := rank_mono (fun j => vok (pt j)) h4
            exact block_ne (by omega) hc hd
        · intro i hi c hc
          rw [c2, i2 i (by omega) c hc]
          intro d hd
          exact block_ne (by omega) hc hd
  obtain ⟨A, e, i1, _⟩ := key np
  intro i h1 h2 h3 c hc
  unfold packVals
  rw [e]
  exact i1 i h1 h2 h3 c hc

/-! ### Points -/

theorem packPts_spec (z : α) (pt : Nat → Pt α) (np : Nat) :
    ∃ A, packPts z np pt = (rank (fun j => vok (pt j)) np, rank (fun j => vok (pt j)) np + 1, A) ∧
      (∀ i, 1 ≤ i → i ≤ np → vok (pt i) = true → A (rank (fun j => vok (pt j)) i) = pt i) ∧
      (∀ i, np < i → A i = pt i) := by
  induction np with
  | zero => exact ⟨pt, rfl, fun i _ _ => by omega, fun _ _ => rfl⟩
  | succ n ih =>
    obtain ⟨A, e, i1, i2⟩ := ih
    unfold packPts at e ⊢
    rw [foldl_range', e]
    unfold ptStep
    dsimp only
    simp only [i2 (n + 1) (by omega)]
    have hle := rank_le (fun j => vok (pt j)) n
    cases hv : vok (pt (n + 1))
    · rw [rank_succ_neg (ok := fun j => vok (pt j)) hv]
      refine ⟨A, by simp, fun i h1 h2 h3 => ?_, fun i hi => i2 i (by omega)⟩
      rcases Nat.lt_or_ge n i with h4 | h4
      · rw [show i = n + 1 by omega, hv] at h3; simp at h3
      · exact i1 i h1 h4 h3
    · have er := rank_succ_pos (ok := fun j => vok (pt j)) hv
      refine ⟨_, by rw [er]; simp only [if_true]; rfl, ?_, ?_⟩
      · intro i h1 h2 h3
        by_cases hn : n + 1 ≠ rank (fun j => vok (pt j)) n + 1
        · rw [if_pos hn]
          rcases Nat.lt_or_ge n i with h4 | h4
          · rw [show i = n + 1 by omega, er, upd_ne _ _ (by omega), upd_same]
          · have := rank_mono (fun j => vok (pt j)) h4
            rw [upd_ne _ _ (by omega), upd_ne _ _ (by omega)]
            exact i1 i h1 h4 h3
        · rw [if_neg hn]
          rcases Nat.lt_or_ge n i with h4 | h4
          · rw [show i = n + 1 by omega, er, show rank (fun j => vok (pt j)) n + 1 = n + 1 by omega]
            exact i2 _ (by omega)
          · exact i1 i h1 h4 h3
      · intro i hi
        split_ifs
        · rw [upd_ne _ _ (by omega), upd_ne _ _ (by omega)]; exact i2 i (by omega)
        · exact i2 i (by omega)

end Mmg.Pack2
