/-
Simultaneous reduction of two metrics of the plane.
-/
import Verif.Met2Spec
import Mathlib.Tactic.Linarith
import Mathlib.Tactic.FieldSimp
import Mathlib.Tactic.Positivity
import Mathlib.Tactic.LinearCombination

namespace Mmg.Met2

/-! ### Metrics -/

theorem Metric.pa {m : Sym} (h : Metric m) : 0 < m.a := by
  have := h 1 0 (Or.inl one_ne_zero)
  simpa [len2] using this

theorem Metric.pc {m : Sym} (h : Metric m) : 0 < m.c := by
  have := h 0 1 (Or.inr one_ne_zero)
  simpa [len2] using this

theorem Metric.pd {m : Sym} (h : Metric m) : 0 < m.a * m.c - m.b * m.b := by
  have ha := h.pa
  have := h (-m.b) m.a (Or.inr ha.ne')
  have e : len2 m (-m.b) m.a = m.a * (m.a * m.c - m.b * m.b) := by unfold len2; ring
  rw [e] at this
  exact (pos_iff_pos_of_mul_pos this).mp ha

theorem metric_of {m : Sym} (ha : 0 < m.a) (hd : 0 < m.a * m.c - m.b * m.b) : Metric m := by
  intro x y hxy
  have e : m.a * len2 m x y = (m.a * x + m.b * y) ^ 2 + (m.a * m.c - m.b * m.b) * y ^ 2 := by unfold len2; ring
  have : 0 < m.a * len2 m x y := by
    rw [e]
    by_cases hy : y = 0
    · have hx : x ≠ 0 := by rcases hxy with h | h; exact h; exact absurd hy h
      subst hy
      have : 0 < (m.a * x) ^ 2 := by positivity
      nlinarith
    · have : 0 < (m.a * m.c - m.b * m.b) * y ^ 2 := by positivity
      nlinarith [sq_nonneg (m.a * x + m.b * y)]
  exact (pos_iff_pos_of_mul_pos this).mp ha

theorem Metric.nonneg {m : Sym} (h : Metric m) (x y : ℝ) : 0 ≤ len2 m x y := by
  by_cases hx : x ≠ 0 ∨ y ≠ 0
  · exact (h x y hx).le
  · push Not at hx
    obtain ⟨rfl, rfl⟩ := hx
    simp [len2]

theorem diagVal_eq (m : Sym) (v : V2) : diagVal m v = len2 m v.x v.y := by
  unfold diagVal len2; ring

/-! ### The matrix M^{-1}N -/

section mat
variable {m n : Sym}

theorem mul_back (hm : m.a * m.c - m.b * m.b ≠ 0) :
    m.a * (invMul m n).a + m.b * (invMul m n).c = n.a ∧ m.b * (invMul m n).a + m.c * (invMul m n).c = n.b ∧
    m.a * (invMul m n).b + m.b * (invMul m n).d = n.b ∧ m.b * (invMul m n).b + m.c * (invMul m n).d = n.c := by
  have hi : 1 / (m.a * m.c - m.b * m.b) * (m.a * m.c - m.b * m.b) = 1 := by rw [one_div, inv_mul_cancel₀ hm]
  simp only [invMul]
  generalize 1 / (m.a * m.c - m.b * m.b) = i at *
  refine ⟨?_, ?_, ?_, ?_⟩
  · linear_combination n.a * hi
  · linear_combination n.b * hi
  · linear_combination n.b * hi
  · linear_combination n.c * hi

theorem tr_eq (hm : m.a * m.c - m.b * m.b ≠ 0) :
    (m.a * m.c - m.b * m.b) * ((invMul m n).a + (invMul m n).d) = m.a * n.c + m.c * n.a - 2 * (m.b * n.b) := by
  have hi : 1 / (m.a * m.c - m.b * m.b) * (m.a * m.c - m.b * m.b) = 1 := by rw [one_div, inv_mul_cancel₀ hm]
  simp only [invMul]
  generalize 1 / (m.a * m.c - m.b * m.b) = i at *
  linear_combination (m.a * n.c + m.c * n.a - 2 * (m.b * n.b)) * hi

theorem det_eq (hm : m.a * m.c - m.b * m.b ≠ 0) :
    (m.a * m.c - m.b * m.b) * ((invMul m n).a * (invMul m n).d - (invMul m n).b * (invMul m n).c) =
      n.a * n.c - n.b * n.b := by
  have hi : 1 / (m.a * m.c - m.b * m.b) * (m.a * m.c - m.b * m.b) = 1 := by rw [one_div, inv_mul_cancel₀ hm]
  simp only [invMul]
  generalize 1 / (m.a * m.c - m.b * m.b) = i at *
  linear_combination (n.a * n.c - n.b * n.b) * (i * (m.a * m.c - m.b * m.b) + 1) * hi

theorem disc_eq (hm : m.a * m.c - m.b * m.b ≠ 0) :
    m.a ^ 2 * (m.a * m.c - m.b * m.b) ^ 2 * (((invMul m n).a - (invMul m n).d) * ((invMul m n).a - (invMul m n).d) +
      4 * (invMul m n).b * (invMul m n).c) =
    (m.a * (m.a * n.c - m.c * n.a) - 2 * m.b * (m.a * n.b - m.b * n.a)) ^ 2 +
      4 * (m.a * m.c - m.b * m.b) * (m.a * n.b - m.b * n.a) ^ 2 := by
  have hi : 1 / (m.a * m.c - m.b * m.b) * (m.a * m.c - m.b * m.b) = 1 := by rw [one_div, inv_mul_cancel₀ hm]
  simp only [invMul]
  generalize 1 / (m.a * m.c - m.b * m.b) = i at *
  linear_combination ((m.a * (m.a * n.c - m.c * n.a) - 2 * m.b * (m.a * n.b - m.b * n.a)) ^ 2 +
      4 * (m.a * m.c - m.b * m.b) * (m.a * n.b - m.b * n.a) ^ 2) * (i * (m.a * m.c - m.b * m.b) + 1) * hi

theorem disc_nonneg (h : Metric m) (n : Sym) :
    0 ≤ ((invMul m n).a - (invMul m n).d) * ((invMul m n).a - (invMul m n).d) + 4 * (invMul m n).b * (invMul m n).c := by
  have hd := h.pd
  have ha := h.pa
  have e := disc_eq (n := n) hd.ne'
  have hp : 0 < m.a ^ 2 * (m.a * m.c - m.b * m.b) ^ 2 := by positivity
  by_contra hc
  push Not at hc
  have h1 := mul_neg_of_pos_of_neg hp hc
  rw [e] at h1
  have : 0 ≤ (m.a * (m.a * n.c - m.c * n.a) - 2 * m.b * (m.a * n.b - m.b * n.a)) ^ 2 +
      4 * (m.a * m.c - m.b * m.b) * (m.a * n.b - m.b * n.a) ^ 2 := by positivity
  linarith

theorem sqDelta_sq (h : Metric m) (n : Sym) :
    sqDelta (invMul m n) ^ 2 =
      ((invMul m n).a - (invMul m n).d) * ((invMul m n).a - (invMul m n).d) + 4 * (invMul m n).b * (invMul m n).c := by
  unfold sqDelta
  rw [abs_of_nonneg (disc_nonneg h n), Real.sq_sqrt (disc_nonneg h n)]

theorem sqDelta_nonneg (A : Mat) : 0 ≤ sqDelta A := Real.sqrt_nonneg _

theorem lam_sub (A : Mat) : lam1 A - lam0 A = sqDelta A := by unfold lam1 lam0; ring

/-- Both values are roots of the characteristic polynomial. -/
theorem char0 (h : Metric m) (n : Sym) :
    lam0 (invMul m n) ^ 2 - ((invMul m n).a + (invMul m n).d) * lam0 (invMul m n) +
      ((invMul m n).a * (invMul m n).d - (invMul m n).b * (invMul m n).c) = 0 := by
  have := sqDelta_sq h n
  unfold lam0
  linear_combination (1 / 4) * this

theorem char1 (h : Metric m) (n : Sym) :
    lam1 (invMul m n) ^ 2 - ((invMul m n).a + (invMul m n).d) * lam1 (invMul m n) +
      ((invMul m n).a * (invMul m n).d - (invMul m n).b * (invMul m n).c) = 0 := by
  have := sqDelta_sq h n
  unfold lam1
  linear_combination (1 / 4) * this

theorem tr_pos (h : Metric m) (hn : Metric n) : 0 < (invMul m n).a + (invMul m n).d := by
  have hd := h.pd
  have ha := h.pa
  have e := tr_eq (n := n) hd.ne'
  have e2 : m.a * (m.a * n.c + m.c * n.a - 2 * (m.b * n.b)) =
      len2 n (-m.b) m.a + (m.a * m.c - m.b * m.b) * n.a := by unfold len2; ring
  have h1 := hn (-m.b) m.a (Or.inr ha.ne')
  have h2 : 0 < (m.a * m.c - m.b * m.b) * n.a := mul_pos hd hn.pa
  have h3 : 0 < m.a * (m.a * n.c + m.c * n.a - 2 * (m.b * n.b)) := by rw [e2]; linarith
  have h4 := (pos_iff_pos_of_mul_pos h3).mp ha
  rw [← e] at h4
  exact (pos_iff_pos_of_mul_pos h4).mp hd

theorem detA_pos (h : Metric m) (hn : Metric n) :
    0 < (invMul m n).a * (invMul m n).d - (invMul m n).b * (invMul m n).c := by
  have hd := h.pd
  have e := det_eq (n := n) hd.ne'
  have h4 := hn.pd
  rw [← e] at h4
  exact (pos_iff_pos_of_mul_pos h4).mp hd

theorem lam0_pos (h : Metric m) (hn : Metric n) : 0 < lam0 (invMul m n) := by
  have h1 := char0 h n
  have h2 := tr_pos h hn
  have h3 := detA_pos h hn
  by_contra hc
  push Not at hc
  nlinarith

theorem lam1_ge (A : Mat) : lam0 A ≤ lam1 A := by
  have := lam_sub A
  have := sqDelta_nonneg A
  linarith

/-- A degenerate form of nonnegative trace (relative to a metric) is nonnegative. -/
theorem psd (h : Metric m) {a b c : ℝ} (hdet : a * c - b * b = 0) (htr : 0 ≤ m.a * c + m.c * a - 2 * (m.b * b))
    (x y : ℝ) : 0 ≤ a * x ^ 2 + 2 * b * (x * y) + c * y ^ 2 := by
  have ha : 0 ≤ a := by
    by_contra hc
    push Not at hc
    have e : a * (m.a * c + m.c * a - 2 * (m.b * b)) = len2 m (-b) a := by
      unfold len2
      linear_combination m.a * hdet
    have := h (-b) a (Or.inr hc.ne)
    nlinarith
  have hc' : 0 ≤ c := by
    by_contra hc
    push Not at hc
    have e : c * (m.a * c + m.c * a - 2 * (m.b * b)) = len2 m c (-b) := by
      unfold len2
      linear_combination m.c * hdet
    have := h c (-b) (Or.inl hc.ne)
    nlinarith
  rcases ha.eq_or_lt with h0 | h0
  · have hb : b = 0 := by
      have : b * b = 0 := by rw [← h0] at hdet; linarith
      simpa using this
    rw [← h0, hb]
    have : 0 ≤ c * y ^ 2 := by positivity
    linarith
  · have e : a * (a * x ^ 2 + 2 * b * (x * y) + c * y ^ 2) = (a * x + b * y) ^ 2 := by
      linear_combination y ^ 2 * hdet
    have : 0 ≤ a * (a * x ^ 2 + 2 * b * (x * y) + c * y ^ 2) := by rw [e]; positivity
    exact nonneg_of_mul_nonneg_right this h0

theorem det_shift (hm : m.a * m.c - m.b * m.b ≠ 0) (l : ℝ) :
    (n.a - l * m.a) * (n.c - l * m.c) - (n.b - l * m.b) * (n.b - l * m.b) =
      (m.a * m.c - m.b * m.b) * (l ^ 2 - ((invMul m n).a + (invMul m n).d) * l +
      ((invMul m n).a * (invMul m n).d - (invMul m n).b * (invMul m n).c)) := by
  linear_combination (-1 : ℝ) * det_eq (n := n) hm + l * tr_eq (n := n) hm

/-- The ratio of the two metrics lies between the two eigenvalues. -/
theorem lam0_le (h : Metric m) (n : Sym) (x y : ℝ) : lam0 (invMul m n) * len2 m x y ≤ len2 n x y := by
  have hd := h.pd
  have h0 := det_shift (n := n) hd.ne' (lam0 (invMul m n))
  rw [char0 h n, mul_zero] at h0
  have ht : 0 ≤ m.a * (n.c - lam0 (invMul m n) * m.c) + m.c * (n.a - lam0 (invMul m n) * m.a) -
      2 * (m.b * (n.b - lam0 (invMul m n) * m.b)) := by
    have e : m.a * (n.c - lam0 (invMul m n) * m.c) + m.c * (n.a - lam0 (invMul m n) * m.a) -
        2 * (m.b * (n.b - lam0 (invMul m n) * m.b)) = (m.a * m.c - m.b * m.b) * sqDelta (invMul m n) := by
      have := tr_eq (n := n) hd.ne'
      unfold lam0
      linear_combination (-1 : ℝ) * this
    rw [e]
    exact mul_nonneg hd.le (sqDelta_nonneg _)
  have := psd h h0 ht x y
  unfold len2
  linarith

theorem le_lam1 (h : Metric m) (n : Sym) (x y : ℝ) : len2 n x y ≤ lam1 (invMul m n) * len2 m x y := by
  have hd := h.pd
  have h0 := det_shift (n := n) hd.ne' (lam1 (invMul m n))
  rw [char1 h n, mul_zero] at h0
  have h0' : (lam1 (invMul m n) * m.a - n.a) * (lam1 (invMul m n) * m.c - n.c) -
      (lam1 (invMul m n) * m.b - n.b) * (lam1 (invMul m n) * m.b - n.b) = 0 := by
    linear_combination h0
  have ht : 0 ≤ m.a * (lam1 (invMul m n) * m.c - n.c) + m.c * (lam1 (invMul m n) * m.a - n.a) -
      2 * (m.b * (lam1 (invMul m n) * m.b - n.b)) := by
    have e : m.a * (lam1 (invMul m n) * m.c - n.c) + m.c * (lam1 (invMul m n) * m.a - n.a) -
        2 * (m.b * (lam1 (invMul m n) * m.b - n.b)) = (m.a * m.c - m.b * m.b) * sqDelta (invMul m n) := by
      have := tr_eq (n := n) hd.ne'
      unfold lam1
      linear_combination this
    rw [e]
    exact mul_nonneg hd.le (sqDelta_nonneg _)
  have := psd h h0' ht x y
  unfold len2
  linarith

theorem Distinct.le_sqDelta {e : ℝ} (hD : Distinct e m n) (h : Metric m) : e ≤ sqDelta (invMul m n) := by
  obtain ⟨x, y, x', y', hx, hx', hle⟩ := hD
  have h1 : len2 n x y / len2 m x y ≤ lam1 (invMul m n) := by
    rw [div_le_iff₀ (h x y hx)]
    exact le_lam1 h n x y
  have h2 : lam0 (invMul m n) ≤ len2 n x' y' / len2 m x' y' := by
    rw [le_div_iff₀ (h x' y' hx')]
    exact lam0_le h n x' y'
  have := lam_sub (invMul m n)
  linarith

end mat

/-! ### Eigenvectors -/

theorem nrm_nonneg (v : V2) : 0 ≤ nrm v := Real.sqrt_nonneg _

theorem nrm_sq (v : V2) : nrm v ^ 2 = v.x ^ 2 + v.y ^ 2 := by
  unfold nrm
  rw [Real.sq_sqrt (by nlinarith [sq_nonneg v.x, sq_nonneg v.y])]
  ring

theorem unit_unit {v : V2} (h : v.x ≠ 0 ∨ v.y ≠ 0) : (unit v).x ^ 2 + (unit v).y ^ 2 = 1 := by
  have hp : 0 < v.x ^ 2 + v.y ^ 2 := by
    rcases h with h | h
    · have : 0 < v.x ^ 2 := by positivity
      nlinarith [sq_nonneg v.y]
    · have : 0 < v.y ^ 2 := by positivity
      nlinarith [sq_nonneg v.x]
  have e := nrm_sq v
  have hne : nrm v ≠ 0 := by
    intro h0
    rw [h0] at e
    nlinarith
  unfold unit
  simp only
  field_simp
  linarith

/-- `v` is an eigenvector of `A`. -/
def IsEig (A : Mat) (l : ℝ) (v : V2) : Prop := A.a * v.x + A.b * v.y = l * v.x ∧ A.c * v.x + A.d * v.y = l * v.y

theorem IsEig.unit {A : Mat} {l : ℝ} {v : V2} (h : IsEig A l v) : IsEig A l (unit v) := by
  obtain ⟨h1, h2⟩ := h
  unfold Met2.unit IsEig
  simp only
  constructor
  · linear_combination (1 / nrm v) * h1
  · linear_combination (1 / nrm v) * h2

theorem eigvec_spec {eps : ℝ} (A : Mat) (l : ℝ)
    (hch : l ^ 2 - (A.a + A.d) * l + (A.a * A.d - A.b * A.c) = 0) (hgap : eps ≤ |2 * l - (A.a + A.d)|) (he : 0 < eps) :
    IsEig A l (eigvec eps A l) ∧ (eigvec eps A l).x ^ 2 + (eigvec eps A l).y ^ 2 = 1 := by
  unfold eigvec
  split
  · rename_i hlt
    refine ⟨IsEig.unit ⟨?_, ?_⟩, unit_unit (Or.inl ?_)⟩
    · simp only; linear_combination (-1 : ℝ) * hch
    · simp only; ring
    · simp only
      intro h0
      have h1 : |l - A.a| < eps := by
        refine lt_of_le_of_lt ?_ hlt
        apply abs_le_of_sq_le_sq _ (nrm_nonneg _)
        rw [nrm_sq]
        simp only
        nlinarith [sq_nonneg A.b]
      have e : 2 * l - (A.a + A.d) = l - A.a := by linarith
      rw [e] at hgap
      linarith
  · rename_i hge
    push Not at hge
    refine ⟨IsEig.unit ⟨?_, ?_⟩, unit_unit ?_⟩
    · simp only; ring
    · simp only; linear_combination (-1 : ℝ) * hch
    · by_contra hc
      push Not at hc
      simp only at hc
      have : nrm ⟨A.b, l - A.a⟩ ^ 2 = 0 := by
        rw [nrm_sq]
        simp only
        rw [hc.1, hc.2]; ring
      have h0 : nrm ⟨A.b, l - A.a⟩ = 0 := by simpa using this
      linarith

section conj
variable {m n : Sym} {eps : ℝ}

theorem IsEig.back (hm : m.a * m.c - m.b * m.b ≠ 0) {l : ℝ} {v : V2} (h : IsEig (invMul m n) l v) :
    n.a * v.x + n.b * v.y = l * (m.a * v.x + m.b * v.y) ∧ n.b * v.x + n.c * v.y = l * (m.b * v.x + m.c * v.y) := by
  obtain ⟨h1, h2⟩ := h
  obtain ⟨e1, e2, e3, e4⟩ := mul_back (n := n) hm
  constructor
  · linear_combination m.a * h1 + m.b * h2 - v.x * e1 - v.y * e3
  · linear_combination m.b * h1 + m.c * h2 - v.x * e2 - v.y * e4

theorem eig_pair (h : Metric m) (he : 0 < eps) (hs : eps ≤ sqDelta (invMul m n)) :
    Conj m n (eigvec eps (invMul m n) (lam0 (invMul m n))) (eigvec eps (invMul m n) (lam1 (invMul m n))) := by
  have hd := h.pd
  set A := invMul m n with hA
  have g0 : eps ≤ |2 * lam0 A - (A.a + A.d)| := by
    have e : 2 * lam0 A - (A.a + A.d) = -sqDelta A := by unfold lam0; ring
    rw [e, abs_neg, abs_of_nonneg (sqDelta_nonneg A)]; exact hs
  have g1 : eps ≤ |2 * lam1 A - (A.a + A.d)| := by
    have e : 2 * lam1 A - (A.a + A.d) = sqDelta A := by unfold lam1; ring
    rw [e, abs_of_nonneg (sqDelta_nonneg A)]; exact hs
  obtain ⟨i0, u0⟩ := eigvec_spec A (lam0 A) (char0 h n) g0 he
  obtain ⟨i1, u1⟩ := eigvec_spec A (lam1 A) (char1 h n) g1 he
  have hne : lam1 A - lam0 A ≠ 0 := by rw [lam_sub]; linarith
  set v := eigvec eps A (lam0 A)
  set w := eigvec eps A (lam1 A)
  obtain ⟨a0, b0⟩ := IsEig.back hd.ne' i0
  obtain ⟨a1, b1⟩ := IsEig.back hd.ne' i1
  have o : dot m v w = 0 := by
    have : (lam1 A - lam0 A) * dot m v w = 0 := by
      unfold dot
      linear_combination w.x * a0 + w.y * b0 - v.x * a1 - v.y * b1
    rcases mul_eq_zero.mp this with h | h
    · exact absurd h hne
    · exact h
  refine ⟨u0, u1, ?_, o, ?_⟩
  · intro hz
    obtain ⟨p1, q1⟩ := i0
    obtain ⟨p2, q2⟩ := i1
    -- parallel eigenvectors would have the same eigenvalue
    have hx : (lam1 A - lam0 A) * (v.x * w.x) = 0 := by
      linear_combination v.x * (-p2) + w.x * p1 + A.b * hz
    have hy : (lam1 A - lam0 A) * (v.y * w.y) = 0 := by
      linear_combination v.y * (-q2) + w.y * q1 - A.c * hz
    have hx' : v.x * w.x = 0 := by
      rcases mul_eq_zero.mp hx with h | h
      · exact absurd h hne
      · exact h
    have hy' : v.y * w.y = 0 := by
      rcases mul_eq_zero.mp hy with h | h
      · exact absurd h hne
      · exact h
    have hone : (v.x ^ 2 + v.y ^ 2) * (w.x ^ 2 + w.y ^ 2) = 1 := by rw [u0, u1]; ring
    have : (v.x ^ 2 + v.y ^ 2) * (w.x ^ 2 + w.y ^ 2) = (v.x * w.x + v.y * w.y) ^ 2 + (v.x * w.y - v.y * w.x) ^ 2 := by
      ring
    rw [this, hx', hy', hz] at hone
    norm_num at hone
  · unfold dot at o ⊢
    linear_combination w.x * a0 + w.y * b0 + lam0 A * o

/-- A vector in terms of two independent ones. -/
theorem Conj.len2_m {v w : V2} (h : Conj m n v w) (p q : ℝ) :
    len2 m (p * v.x + q * w.x) (p * v.y + q * w.y) = len2 m v.x v.y * p ^ 2 + len2 m w.x w.y * q ^ 2 := by
  have := h.om
  unfold dot at this
  unfold len2
  linear_combination (2 * p * q) * this

theorem Conj.symm {v w : V2} (h : Conj m n v w) : Conj n m v w := ⟨h.uv, h.uw, h.ind, h.on, h.om⟩

/-- Coordinates in the basis. -/
noncomputable def cp (v w : V2) (x y : ℝ) : ℝ := (w.y * x - w.x * y) * (1 / (v.x * w.y - v.y * w.x))
noncomputable def cq (v w : V2) (x y : ℝ) : ℝ := (-v.y * x + v.x * y) * (1 / (v.x * w.y - v.y * w.x))

theorem coord {v w : V2} (h : v.x * w.y - v.y * w.x ≠ 0) (x y : ℝ) :
    cp v w x y * v.x + cq v w x y * w.x = x ∧ cp v w x y * v.y + cq v w x y * w.y = y := by
  have hi : 1 / (v.x * w.y - v.y * w.x) * (v.x * w.y - v.y * w.x) = 1 := by rw [one_div, inv_mul_cancel₀ h]
  unfold cp cq
  generalize 1 / (v.x * w.y - v.y * w.x) = i at *
  constructor
  · linear_combination x * hi
  · linear_combination y * hi

theorem coord_v {v w : V2} (h : v.x * w.y - v.y * w.x ≠ 0) : cp v w v.x v.y = 1 ∧ cq v w v.x v.y = 0 := by
  have hi : 1 / (v.x * w.y - v.y * w.x) * (v.x * w.y - v.y * w.x) = 1 := by rw [one_div, inv_mul_cancel₀ h]
  unfold cp cq
  generalize 1 / (v.x * w.y - v.y * w.x) = i at *
  constructor
  · linear_combination hi
  · ring

theorem coord_w {v w : V2} (h : v.x * w.y - v.y * w.x ≠ 0) : cp v w w.x w.y = 0 ∧ cq v w w.x w.y = 1 := by
  have hi : 1 / (v.x * w.y - v.y * w.x) * (v.x * w.y - v.y * w.x) = 1 := by rw [one_div, inv_mul_cancel₀ h]
  unfold cp cq
  generalize 1 / (v.x * w.y - v.y * w.x) = i at *
  constructor
  · ring
  · linear_combination hi

theorem Conj.len2_eq {v w : V2} (h : Conj m n v w) (x y : ℝ) :
    len2 m x y = len2 m v.x v.y * cp v w x y ^ 2 + len2 m w.x w.y * cq v w x y ^ 2 := by
  have e := h.len2_m (cp v w x y) (cq v w x y)
  rw [(coord h.ind x y).1, (coord h.ind x y).2] at e
  exact e

theorem recomposeInv_some {d0 d1 : ℝ} {v w : V2} {r : Sym} (he : 0 < eps)
    (h : recomposeInv eps d0 d1 v w = some r) :
    v.x * w.y - v.y * w.x ≠ 0 ∧ ∀ x y, len2 r x y = d0 * cp v w x y ^ 2 + d1 * cq v w x y ^ 2 := by
  unfold recomposeInv at h
  simp only at h
  split at h
  · exact absurd h (by simp)
  · rename_i hge
    push Not at hge
    have hne : v.x * w.y - v.y * w.x ≠ 0 := by
      intro h0
      rw [h0, abs_zero] at hge
      linarith
    refine ⟨hne, fun x y => ?_⟩
    have h' := (Option.some.inj h).symm
    subst h'
    unfold len2 cp cq
    simp only
    ring

theorem recomposeInv_none {d0 d1 : ℝ} {v w : V2} (h : recomposeInv eps d0 d1 v w = none) :
    |v.x * w.y - v.y * w.x| < eps := by
  unfold recomposeInv at h
  simp only at h
  split at h
  · assumption
  · exact absurd h (by simp)

/-- Two conjugate directions of a metric in the range cannot be nearly parallel. -/
theorem Conj.angle {hmin hmax : ℝ} (h0 : 0 < hmin) (h1 : 0 < hmax) {v w : V2} (h : Conj m n v w)
    (hr : InRange hmin hmax m) : hmin ^ 2 ≤ hmax ^ 2 * (v.x * w.y - v.y * w.x) ^ 2 := by
  set c := v.x * w.x + v.y * w.y with hc
  have hs : (v.x * w.y - v.y * w.x) ^ 2 = 1 - c ^ 2 := by
    have : (v.x ^ 2 + v.y ^ 2) * (w.x ^ 2 + w.y ^ 2) = c ^ 2 + (v.x * w.y - v.y * w.x) ^ 2 := by rw [hc]; ring
    rw [h.uv, h.uw] at this
    linarith
  have e1 := h.len2_m 1 1
  have e2 := h.len2_m 1 (-1)
  have n1 : (1 * v.x + 1 * w.x) ^ 2 + (1 * v.y + 1 * w.y) ^ 2 = 2 + 2 * c := by
    rw [hc]; linear_combination h.uv + h.uw
  have n2 : (1 * v.x + -1 * w.x) ^ 2 + (1 * v.y + -1 * w.y) ^ 2 = 2 - 2 * c := by
    rw [hc]; linear_combination h.uv + h.uw
  have r1 := hr (1 * v.x + 1 * w.x) (1 * v.y + 1 * w.y)
  have r2 := hr (1 * v.x + -1 * w.x) (1 * v.y + -1 * w.y)
  rw [n1, e1] at r1
  rw [n2, e2] at r2
  have hm2 : (0 : ℝ) < hmin ^ 2 := by positivity
  have hM2 : (0 : ℝ) < hmax ^ 2 := by positivity
  have k1 : (2 + 2 * c) / hmax ^ 2 ≤ (2 - 2 * c) / hmin ^ 2 := by
    have a := r1.1
    have b := r2.2
    have : len2 m v.x v.y * 1 ^ 2 + len2 m w.x w.y * 1 ^ 2 = len2 m v.x v.y * 1 ^ 2 + len2 m w.x w.y * (-1) ^ 2 := by
      ring
    linarith
  have k2 : (2 - 2 * c) / hmax ^ 2 ≤ (2 + 2 * c) / hmin ^ 2 := by
    have a := r2.1
    have b := r1.2
    have : len2 m v.x v.y * 1 ^ 2 + len2 m w.x w.y * 1 ^ 2 = len2 m v.x v.y * 1 ^ 2 + len2 m w.x w.y * (-1) ^ 2 := by
      ring
    linarith
  rw [div_le_div_iff₀ hM2 hm2] at k1 k2
  have hc1 : c ^ 2 ≤ 1 := by nlinarith [sq_nonneg (v.x * w.y - v.y * w.x)]
  have hcl : -1 ≤ c ∧ c ≤ 1 := by constructor <;> nlinarith
  rw [hs]
  rcases le_total 0 c with h | h
  · nlinarith [mul_le_mul_of_nonneg_right k1 (by linarith : (0:ℝ) ≤ 1 + c)]
  · nlinarith [mul_le_mul_of_nonneg_right k2 (by linarith : (0:ℝ) ≤ 1 - c)]

end conj

end Mmg.Met2
