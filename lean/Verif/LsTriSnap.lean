/-
  C75: snapping of the values, triangles.
-/
import Verif.LsTriProps
import Verif.LsSnap

namespace Mmg.Ls2
open Mmg.Split3 Mmg.Ls3

section
variable {K : Type} [Field K] [LinearOrder K] [IsStrictOrderedRing K]
  {eps : K} {valid : Nat → Bool} {mani : (Nat → K) → Nat → Nat → Bool}
  {ball : Nat → Nat → List (Nat × Nat)} {ts : Nat → List Nat}

/-- A value that is not small has not changed; a small one is 0 or has been moved away. -/
def Cell2 (eps x0 x : K) : Prop :=
  (eps ≤ |x0| ∧ x = x0) ∨ (|x0| < eps ∧ (x = 0 ∨ x = 100 * eps ∨ x = -100 * eps))

/-- The same with the mark. -/
def Cell1 (eps x0 x t : K) (f : Bool) : Prop :=
  (eps ≤ |x0| ∧ x = x0 ∧ f = false) ∨
  (|x0| < eps ∧ t = x0 ∧ (x = 0 ∨ (f = false ∧ x = if x0 < 0 then -100 * eps else 100 * eps)))

theorem back2_cell {s : Sn K} {x : Nat × Nat} {k : Nat} {x0 : K}
    (h : Cell1 eps x0 (s.sol k) (s.tmp k) (s.flag k)) :
    Cell1 eps x0 ((back2 eps mani ts s x).sol k) ((back2 eps mani ts s x).tmp k)
      ((back2 eps mani ts s x).flag k) := by
  unfold back2
  simp only
  split
  · rename_i hc
    by_cases hk : k = (ts x.1).getD x.2 0
    · rw [← hk] at hc ⊢
      rcases h with ⟨_, _, h3⟩ | ⟨h1, h2, h3⟩
      · rw [h3] at hc; exact absurd hc.1 (by simp)
      · right
        refine ⟨h1, h2, ?_⟩
        cases mani s.sol x.1 x.2
        · right
          simp [upd, h2]
        · left
          simp only [if_true]
          rcases h3 with h3 | ⟨h3, _⟩
          · exact h3
          · rw [h3] at hc; exact absurd hc.1 (by simp)
    · have : (if mani s.sol x.1 x.2 then s.sol else upd s.sol ((ts x.1).getD x.2 0)
          (if s.tmp ((ts x.1).getD x.2 0) < 0 then -100 * eps else 100 * eps)) k = s.sol k := by
        split
        · rfl
        · simp only [upd, if_neg hk]
      simp only [this, upd, hk, if_false]
      exact h
  · exact h

theorem foldl_back2_cell {l : List (Nat × Nat)} {s : Sn K} {k : Nat} {x0 : K}
    (h : Cell1 eps x0 (s.sol k) (s.tmp k) (s.flag k)) :
    Cell1 eps x0 ((l.foldl (back2 eps mani ts) s).sol k) ((l.foldl (back2 eps mani ts) s).tmp k)
      ((l.foldl (back2 eps mani ts) s).flag k) := by
  induction l generalizing s with
  | nil => exact h
  | cons a l ih => exact ih (back2_cell h)

theorem lone3_cell (he : 0 < eps) {sol : Nat → K} {x : Nat × Nat} {k : Nat} {x0 : K} (h : Cell2 eps x0 (sol k)) :
    Cell2 eps x0 (lone3 eps ball ts sol x k) := by
  unfold lone3
  simp only
  split
  · exact h
  · rename_i hc
    by_cases hk : k = (ts x.1).getD x.2 0
    · rw [← hk] at hc ⊢
      have hx : |x0| < eps := by
        rcases h with ⟨h1, h2⟩ | ⟨h1, _⟩
        · rw [h2] at hc; exact absurd h1 hc
        · exact h1
      split
      · exact .inr ⟨hx, .inr (.inl (by simp [upd]))⟩
      · split
        · exact .inr ⟨hx, .inr (.inr (by simp [upd]))⟩
        · exact h
    · split
      · simp only [upd, if_neg hk]; exact h
      · split
        · simp only [upd, if_neg hk]; exact h
        · exact h

theorem foldl_lone3_cell (he : 0 < eps) {l : List (Nat × Nat)} {sol : Nat → K} {k : Nat} {x0 : K}
    (h : Cell2 eps x0 (sol k)) : Cell2 eps x0 (l.foldl (lone3 eps ball ts) sol k) := by
  induction l generalizing sol with
  | nil => exact h
  | cons a l ih => exact ih (lone3_cell he h)

/-- **C75.** After the snapping the values that are not small are unchanged and the small ones are 0 or
100 times the threshold in absolute value: all are 0 or at least the threshold. -/
theorem C75_snap (he : 0 < eps) (np nt : Nat) (sol : Nat → K) (p : Nat) (h1 : 1 ≤ p) (h2 : p ≤ np)
    (hv : valid p = true) :
    Cell2 eps (sol p) (snpval eps valid mani ball np nt ts sol p) ∧
    (snpval eps valid mani ball np nt ts sol p = 0 ∨ eps ≤ |snpval eps valid mani ball np nt ts sol p|) := by
  have hmem : p ∈ List.range' 1 np := by rw [List.mem_range'_1]; omega
  have hs := (snap_spec (eps := eps) (ed := 0) (valid := valid) (List.range' 1 np) List.nodup_range'
    ⟨sol, fun _ => 0, fun _ => false⟩ (fun _ _ => rfl)).1 p ⟨hmem, hv⟩
  have hc : Cell2 eps (sol p) (snpval eps valid mani ball np nt ts sol p) := by
    unfold snpval
    refine foldl_lone3_cell he ?_
    have h0 := foldl_back2_cell (mani := mani) (ts := ts) (l := corners3 nt) (k := p) (x0 := sol p) (eps := eps)
      (s := (List.range' 1 np).foldl (snap1 eps 0 valid) ⟨sol, fun _ => 0, fun _ => false⟩) (by
        rcases hs with h | ⟨h1, h2, h3⟩
        · exact .inl h
        · simp only [not_lt.2 (abs_nonneg (sol p)), if_false] at h2
          refine .inr ⟨h1, h2, ?_⟩
          rcases h3 with ⟨_, h⟩ | ⟨h3, h4⟩
          · exact .inl h
          · rw [h2] at h4
            exact .inr ⟨h3, h4⟩)
    rcases h0 with ⟨h1, h2, _⟩ | ⟨h1, _, h3 | ⟨_, h3⟩⟩
    · exact .inl ⟨h1, h2⟩
    · exact .inr ⟨h1, .inl h3⟩
    · right
      refine ⟨h1, ?_⟩
      rw [h3]
      split
      · exact .inr (.inr rfl)
      · exact .inr (.inl rfl)
  refine ⟨hc, ?_⟩
  rcases hc with ⟨h1, h2⟩ | ⟨_, h | h | h⟩
  · exact .inr (by rw [h2]; exact h1)
  · exact .inl h
  · right
    rw [h, abs_of_pos (by linarith)]
    linarith
  · right
    rw [h, show -100 * eps = -(100 * eps) by ring, abs_neg, abs_of_pos (by linarith)]
    linarith

end

end Mmg.Ls2
