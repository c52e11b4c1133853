/-
C81: examples, and an intersection that does not respect hmin.
-/
import Verif.Met2Props

namespace Mmg.Met2

/-- Two metrics, conjugate directions (1,0) and (3/5,4/5). -/
noncomputable def exM : Sym := ⟨1, -3 / 4, 61 / 64⟩
noncomputable def exN : Sym := ⟨1 / 4, -3 / 16, 109 / 64⟩

theorem ex_A : invMul exM exN = ⟨1 / 4, 45 / 16, 0, 4⟩ := by
  unfold invMul exM exN
  norm_num

theorem ex_sq : sqDelta ⟨1 / 4, 45 / 16, 0, 4⟩ = 15 / 4 := by
  unfold sqDelta
  have e : |((1:ℝ) / 4 - 4) * (1 / 4 - 4) + 4 * (45 / 16) * 0| = (15 / 4) ^ 2 := by norm_num
  simp only
  rw [e, Real.sqrt_sq (by norm_num)]

theorem ex_l0 : lam0 ⟨1 / 4, 45 / 16, 0, 4⟩ = 1 / 4 := by
  unfold lam0
  rw [ex_sq]
  norm_num

theorem ex_l1 : lam1 ⟨1 / 4, 45 / 16, 0, 4⟩ = 4 := by
  unfold lam1
  rw [ex_sq]
  norm_num

theorem ex_v0 : eigvec (1 / 1000000) ⟨1 / 4, 45 / 16, 0, 4⟩ (1 / 4) = ⟨1, 0⟩ := by
  have e : nrm ⟨45 / 16, 1 / 4 - 1 / 4⟩ = 45 / 16 := by
    unfold nrm
    have e : (45 / 16 : ℝ) * (45 / 16) + (1 / 4 - 1 / 4) * (1 / 4 - 1 / 4) = (45 / 16) ^ 2 := by norm_num
    simp only
    rw [e, Real.sqrt_sq (by norm_num)]
  unfold eigvec
  simp only
  rw [e, if_neg (by norm_num)]
  unfold unit
  rw [e]
  norm_num

theorem ex_v1 : eigvec (1 / 1000000) ⟨1 / 4, 45 / 16, 0, 4⟩ 4 = ⟨3 / 5, 4 / 5⟩ := by
  have e : nrm ⟨45 / 16, 4 - 1 / 4⟩ = 75 / 16 := by
    unfold nrm
    have e : (45 / 16 : ℝ) * (45 / 16) + (4 - 1 / 4) * (4 - 1 / 4) = (75 / 16) ^ 2 := by norm_num
    simp only
    rw [e, Real.sqrt_sq (by norm_num)]
  unfold eigvec
  simp only
  rw [e, if_neg (by norm_num)]
  unfold unit
  rw [e]
  norm_num

theorem ex_inter (e13 : ℝ) : inter22 (1 / 1000000) e13 (3 / 4) 10 exM exN = some ⟨1, -3 / 4, 17 / 8⟩ := by
  unfold inter22
  simp only
  rw [ex_A, ex_l0, ex_l1, ex_sq, ex_v0, ex_v1]
  rw [if_neg (by unfold exM; norm_num [abs_of_pos]), if_neg (by norm_num), if_neg (by norm_num)]
  have d1 : diagVal exM ⟨1, 0⟩ = 1 := by unfold diagVal exM; norm_num
  have d2 : diagVal exN ⟨1, 0⟩ = 1 / 4 := by unfold diagVal exN; norm_num
  have d3 : diagVal exM ⟨3 / 5, 4 / 5⟩ = 1 / 4 := by unfold diagVal exM; norm_num
  have d4 : diagVal exN ⟨3 / 5, 4 / 5⟩ = 1 := by unfold diagVal exN; norm_num
  rw [d1, d2, d3, d4]
  have k : min (1 / (3 / 4 * (3 / 4)) : ℝ) (max (max 1 (1 / 4)) (1 / (10 * 10))) = 1 := by
    rw [max_eq_left (by norm_num : (1 / 4 : ℝ) ≤ 1), max_eq_left (by norm_num), min_eq_right (by norm_num)]
  have k' : min (1 / (3 / 4 * (3 / 4)) : ℝ) (max (max (1 / 4) 1) (1 / (10 * 10))) = 1 := by
    rw [max_eq_right (by norm_num : (1 / 4 : ℝ) ≤ 1), max_eq_left (by norm_num), min_eq_right (by norm_num)]
  rw [k, k']
  unfold recomposeInv
  simp only
  rw [if_neg (by norm_num [abs_of_pos])]
  norm_num

theorem ex_range {m : Sym} (h : m = exM ∨ m = exN) : InRange (3 / 4) 10 m := by
  intro x y
  rcases h with rfl | rfl
  · unfold len2 exM
    constructor
    · nlinarith [sq_nonneg (x - 3 / 4 * y), sq_nonneg x, sq_nonneg y, sq_nonneg (x - y)]
    · rw [le_div_iff₀ (by norm_num)]
      simp only
      nlinarith [sq_nonneg (28 * x + 27 * y), sq_nonneg y]
  · unfold len2 exN
    constructor
    · nlinarith [sq_nonneg (x - 3 / 4 * y), sq_nonneg x, sq_nonneg y, sq_nonneg (x - y)]
    · rw [le_div_iff₀ (by norm_num)]
      simp only
      nlinarith [sq_nonneg (220 * x + 27 * y), sq_nonneg y]

theorem ex_distinct : Distinct (1 / 1000000) exM exN := by
  refine ⟨3, 4, 1, 0, Or.inl (by norm_num), Or.inl (by norm_num), ?_⟩
  unfold len2 exM exN
  norm_num

/-- The hypotheses of the theorems hold for this example. -/
example := C81_covers (e13 := 0) (by norm_num) (by norm_num) (ex_range (Or.inl rfl)) (ex_range (Or.inr rfl)) ex_distinct (ex_inter 0)
example := C81_succeeds (eps := 1 / 1000000) (e13 := 0) (by norm_num) (by norm_num) (by norm_num) (by norm_num) (by norm_num)
  (ex_range (Or.inl rfl)) (ex_range (Or.inr rfl))
example := C81_covers_all (e13 := 0) (by norm_num) (by norm_num) (by norm_num) (ex_range (Or.inl rfl)) (ex_range (Or.inr rfl))
  (ex_inter 0)
example := C81_metric (e13 := 0) (by norm_num) (by norm_num) (by norm_num) ((ex_range (Or.inl rfl)).metric (by norm_num))
  ((ex_range (Or.inr rfl)).metric (by norm_num)) (ex_inter 0)
example := C81_hmax (e13 := 0) (by norm_num) (by norm_num) (ex_range (Or.inl rfl)) (ex_range (Or.inr rfl)) ex_distinct (ex_inter 0)

/-- hmin is not respected by the result, although each metric respects it and the code truncates the values: the truncation is
done along directions that are not orthogonal. -/
theorem C81_hmin_observed :
    ∃ m n r : Sym, InRange (3 / 4) 10 m ∧ InRange (3 / 4) 10 n ∧
      inter22 (1 / 1000000) (1 / 10 ^ 13) (3 / 4) 10 m n = some r ∧ ¬ InRange (3 / 4) 10 r ∧
      (1 ^ 2 + (-2) ^ 2) / (3 / 4) ^ 2 < len2 r 1 (-2) := by
  refine ⟨exM, exN, _, ex_range (Or.inl rfl), ex_range (Or.inr rfl), ex_inter _, ?_, ?_⟩
  · intro h
    have := (h 1 (-2)).2
    unfold len2 at this
    norm_num at this
  · unfold len2
    norm_num

end Mmg.Met2
