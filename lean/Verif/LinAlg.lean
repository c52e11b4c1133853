/-
Property C36: small linear algebra kernels of common/tools.c, in exact arithmetic over an arbitrary
linearly ordered field `K`. The thresholds MMG5_EPS, MMG5_EPSD, MMG5_EPSD2 are parameters.
-/
import Mathlib.LinearAlgebra.Matrix.Notation
import Mathlib.Algebra.Order.Field.Basic
import Mathlib.LinearAlgebra.Matrix.Determinant.Basic
import Mathlib.Tactic.FieldSimp
import Mathlib.Tactic.LinearCombination
import Mathlib.Tactic.Linarith
import Mathlib.Tactic.NormNum
import Mathlib.Tactic.Positivity
import Mathlib.Analysis.Real.Sqrt

namespace Mmg.LinAlg

open Matrix

variable {K : Type} [Field K] [LinearOrder K] [IsStrictOrderedRing K]

/-! ### Model -/

/-- Result of a C function returning 0 (`fail`) or 1; `inf` is a success with non-finite numbers
(division by zero). -/
inductive Res (α : Type) where
  | fail
  | inf
  | ok (a : α)

/-- Symmetric matrix stored as `m[6]` (upper triangle by rows). -/
structure Sym3 (K : Type) where
  (m0 m1 m2 m3 m4 m5 : K)

structure Mat3 (K : Type) where
  (a00 a01 a02 a10 a11 a12 a20 a21 a22 : K)

structure Mat2 (K : Type) where
  (a00 a01 a10 a11 : K)

/-- `MMG5_invmat`, tools.c:562-604. -/
def invmat (eps epsd2 : K) (m : Sym3 K) : Res (Sym3 K) :=
  if max (max |m.m1| |m.m2|) |m.m4| < eps then
    if m.m0 = 0 ∨ m.m3 = 0 ∨ m.m5 = 0 then .inf
    else .ok ⟨1 / m.m0, 0, 0, 1 / m.m3, 0, 1 / m.m5⟩
  else if max (max (max (max (max |m.m0| |m.m1|) |m.m2|) |m.m3|) |m.m4|) |m.m5| = 0 then .fail
  else
    let aa := m.m3 * m.m5 - m.m4 * m.m4
    let bb := m.m4 * m.m2 - m.m1 * m.m5
    let cc := m.m1 * m.m4 - m.m2 * m.m3
    let det := m.m0 * aa + m.m1 * bb + m.m2 * cc
    if |det| < epsd2 then .fail
    else
      let det := 1 / det
      .ok ⟨aa * det, bb * det, cc * det, (m.m0 * m.m5 - m.m2 * m.m2) * det,
        (m.m1 * m.m2 - m.m0 * m.m4) * det, (m.m0 * m.m3 - m.m1 * m.m1) * det⟩

/-- `MMG5_invmatg`, tools.c:613-644 (matrix stored by rows in `m[9]`). -/
def invmatg (epsd : K) (m : Mat3 K) : Res (Mat3 K) :=
  if max (max (max (max (max (max (max (max |m.a00| |m.a01|) |m.a02|) |m.a10|) |m.a11|) |m.a12|)
    |m.a20|) |m.a21|) |m.a22| = 0 then .fail
  else
    let aa := m.a11 * m.a22 - m.a12 * m.a21
    let bb := m.a12 * m.a20 - m.a10 * m.a22
    let cc := m.a10 * m.a21 - m.a11 * m.a20
    let det := m.a00 * aa + m.a01 * bb + m.a02 * cc
    if |det| < epsd then .fail
    else
      let det := 1 / det
      .ok {
        a00 := aa * det
        a10 := bb * det
        a20 := cc * det
        a01 := (m.a02 * m.a21 - m.a01 * m.a22) * det
        a11 := (m.a00 * m.a22 - m.a02 * m.a20) * det
        a21 := (m.a01 * m.a20 - m.a00 * m.a21) * det
        a02 := (m.a01 * m.a12 - m.a02 * m.a11) * det
        a12 := (m.a02 * m.a10 - m.a00 * m.a12) * det
        a22 := (m.a00 * m.a11 - m.a01 * m.a10) * det }

/-- `MMG5_invmat33`, tools.c:653-736 (the debug check of the result is dropped). -/
def invmat33 (eps epsd : K) (m : Mat3 K) : Res (Mat3 K) :=
  if max (max (max (max (max (max (max (max |m.a00| |m.a01|) |m.a02|) |m.a10|) |m.a11|) |m.a12|)
    |m.a20|) |m.a21|) |m.a22| = 0 then .fail
  else if max (max (max (max (max |m.a10| |m.a20|) |m.a21|) |m.a01|) |m.a02|) |m.a12| < eps then
    if m.a00 = 0 ∨ m.a11 = 0 ∨ m.a22 = 0 then .inf
    else .ok ⟨1 / m.a00, 0, 0, 0, 1 / m.a11, 0, 0, 0, 1 / m.a22⟩
  else
    let aa := m.a11 * m.a22 - m.a21 * m.a12
    let bb := m.a21 * m.a02 - m.a01 * m.a22
    let cc := m.a01 * m.a12 - m.a11 * m.a02
    let det := m.a00 * aa + m.a10 * bb + m.a20 * cc
    if |det| < epsd then .fail
    else
      let det := 1 / det
      .ok {
        a00 := aa * det
        a01 := bb * det
        a02 := cc * det
        a10 := (m.a20 * m.a12 - m.a10 * m.a22) * det
        a11 := (m.a00 * m.a22 - m.a20 * m.a02) * det
        a12 := (m.a10 * m.a02 - m.a00 * m.a12) * det
        a20 := (m.a10 * m.a21 - m.a20 * m.a11) * det
        a21 := (m.a20 * m.a01 - m.a00 * m.a21) * det
        a22 := (m.a00 * m.a11 - m.a10 * m.a01) * det }

/-- `MMG5_invmat22`, tools.c:745-758. -/
def invmat22 (eps : K) (m : Mat2 K) : Res (Mat2 K) :=
  let det := m.a00 * m.a11 - m.a01 * m.a10
  if |det| < eps then .fail
  else
    let det := 1 / det
    .ok ⟨m.a11 * det, -m.a01 * det, -m.a10 * det, m.a00 * det⟩

/-- `MMG5_sys33sym`, tools.c:769-816. -/
def sys33sym (epsd : K) (a : Sym3 K) (b : K × K × K) : Res (K × K × K) :=
  let m0 := min |a.m5| (min |a.m3| |a.m0|)
  let m := if epsd ≤ m0 then 1 / m0 else 1
  let s : Sym3 K := ⟨a.m0 * m, a.m1 * m, a.m2 * m, a.m3 * m, a.m4 * m, a.m5 * m⟩
  let det := s.m0 * (s.m3 * s.m5 - s.m4 * s.m4) - s.m1 * (s.m1 * s.m5 - s.m2 * s.m4)
    + s.m2 * (s.m1 * s.m4 - s.m2 * s.m3)
  if |det| < epsd then .fail
  else
    let det := 1 / det
    let i0 := s.m3 * s.m5 - s.m4 * s.m4
    let i1 := -(s.m1 * s.m5 - s.m2 * s.m4)
    let i2 := s.m1 * s.m4 - s.m2 * s.m3
    let i3 := s.m0 * s.m5 - s.m2 * s.m2
    let i4 := -(s.m0 * s.m4 - s.m2 * s.m1)
    let i5 := s.m0 * s.m3 - s.m1 * s.m1
    .ok ((i0 * b.1 + i1 * b.2.1 + i2 * b.2.2) * (det * m),
      (i1 * b.1 + i3 * b.2.1 + i4 * b.2.2) * (det * m),
      (i2 * b.1 + i4 * b.2.1 + i5 * b.2.2) * (det * m))

/-- `MMG5_rmtr`, tools.c:405-428. -/
def rmtr (r : Mat3 K) (m : Sym3 K) : Sym3 K :=
  let n00 := m.m0 * r.a00 + m.m1 * r.a01 + m.m2 * r.a02
  let n10 := m.m1 * r.a00 + m.m3 * r.a01 + m.m4 * r.a02
  let n20 := m.m2 * r.a00 + m.m4 * r.a01 + m.m5 * r.a02
  let n01 := m.m0 * r.a10 + m.m1 * r.a11 + m.m2 * r.a12
  let n11 := m.m1 * r.a10 + m.m3 * r.a11 + m.m4 * r.a12
  let n21 := m.m2 * r.a10 + m.m4 * r.a11 + m.m5 * r.a12
  let n02 := m.m0 * r.a20 + m.m1 * r.a21 + m.m2 * r.a22
  let n12 := m.m1 * r.a20 + m.m3 * r.a21 + m.m4 * r.a22
  let n22 := m.m2 * r.a20 + m.m4 * r.a21 + m.m5 * r.a22
  ⟨r.a00 * n00 + r.a01 * n10 + r.a02 * n20, r.a00 * n01 + r.a01 * n11 + r.a02 * n21,
   r.a00 * n02 + r.a01 * n12 + r.a02 * n22, r.a10 * n01 + r.a11 * n11 + r.a12 * n21,
   r.a10 * n02 + r.a11 * n12 + r.a12 * n22, r.a20 * n02 + r.a21 * n12 + r.a22 * n22⟩

/-- `MMG5_mn`, tools.c:337-350. -/
def mn (m n : Sym3 K) : Mat3 K :=
  ⟨m.m0 * n.m0 + m.m1 * n.m1 + m.m2 * n.m2, m.m0 * n.m1 + m.m1 * n.m3 + m.m2 * n.m4,
   m.m0 * n.m2 + m.m1 * n.m4 + m.m2 * n.m5, m.m1 * n.m0 + m.m3 * n.m1 + m.m4 * n.m2,
   m.m1 * n.m1 + m.m3 * n.m3 + m.m4 * n.m4, m.m1 * n.m2 + m.m3 * n.m4 + m.m4 * n.m5,
   m.m2 * n.m0 + m.m4 * n.m1 + m.m5 * n.m2, m.m2 * n.m1 + m.m4 * n.m3 + m.m5 * n.m4,
   m.m2 * n.m2 + m.m4 * n.m4 + m.m5 * n.m5⟩

/-- `MMG5_rotmatrix`, tools.c:467-504. -/
noncomputable def rotmatrix (eps : ℝ) (n0 n1 n2 : ℝ) : Mat3 ℝ :=
  let aa := n0 * n0
  let bb := n1 * n1
  let ab := n0 * n1
  let ll := aa + bb
  let cosalpha := n2
  let sinalpha := Real.sqrt (1 - min 1 (cosalpha * cosalpha))
  if ll < eps then
    if 0 < n2 then ⟨1, 0, 0, 0, 1, 0, 0, 0, 1⟩ else ⟨-1, 0, 0, 0, 1, 0, 0, 0, -1⟩
  else
    let l := Real.sqrt ll
    ⟨(aa * cosalpha + bb) / ll, ab * (cosalpha - 1) / ll, -n0 * sinalpha / l,
     ab * (cosalpha - 1) / ll, (bb * cosalpha + aa) / ll, -n1 * sinalpha / l,
     n0 * sinalpha / l, n1 * sinalpha / l, cosalpha⟩

/-! ### Specification: the usual matrices -/

def Sym3.toMatrix (m : Sym3 K) : Matrix (Fin 3) (Fin 3) K :=
  !![m.m0, m.m1, m.m2; m.m1, m.m3, m.m4; m.m2, m.m4, m.m5]

def Mat3.toMatrix (m : Mat3 K) : Matrix (Fin 3) (Fin 3) K :=
  !![m.a00, m.a01, m.a02; m.a10, m.a11, m.a12; m.a20, m.a21, m.a22]

def Mat2.toMatrix (m : Mat2 K) : Matrix (Fin 2) (Fin 2) K := !![m.a00, m.a01; m.a10, m.a11]

/-! ### C36 -/

theorem inv_of_abs {eps det : K} (he : 0 < eps) (h : ¬ |det| < eps) :
    ∃ d, d = 1 / det ∧ det * d = 1 := by
  refine ⟨_, rfl, ?_⟩
  have : det ≠ 0 := by rintro rfl; simp at h; exact absurd he (not_lt.2 h)
  field_simp

theorem ne_zero_of_abs {eps det : K} (he : 0 < eps) (h : ¬ |det| < eps) : det ≠ 0 := by
  rintro rfl; simp at h; exact absurd he (not_lt.2 h)

omit [Field K] [LinearOrder K] [IsStrictOrderedRing K] in
theorem mat3_ext {A B : Matrix (Fin 3) (Fin 3) K} (h00 : A 0 0 = B 0 0) (h01 : A 0 1 = B 0 1)
    (h02 : A 0 2 = B 0 2) (h10 : A 1 0 = B 1 0) (h11 : A 1 1 = B 1 1) (h12 : A 1 2 = B 1 2)
    (h20 : A 2 0 = B 2 0) (h21 : A 2 1 = B 2 1) (h22 : A 2 2 = B 2 2) : A = B := by
  ext i j
  fin_cases i <;> fin_cases j <;> assumption

omit [LinearOrder K] [IsStrictOrderedRing K] in
theorem sym_det (m : Sym3 K) : m.toMatrix.det = m.m0 * (m.m3 * m.m5 - m.m4 * m.m4) -
    m.m1 * (m.m1 * m.m5 - m.m2 * m.m4) + m.m2 * (m.m1 * m.m4 - m.m2 * m.m3) := by
  rw [Matrix.det_fin_three]; simp [Sym3.toMatrix]; ring

/-- **C36 (2x2).** Success exactly when |det| ≥ eps; the result is the inverse. -/
theorem C36_inverse_2x2 {eps : K} (he : 0 < eps) (m : Mat2 K) :
    (∀ mi, invmat22 eps m = .ok mi → m.toMatrix * mi.toMatrix = 1 ∧ mi.toMatrix * m.toMatrix = 1) ∧
    ((∃ mi, invmat22 eps m = .ok mi) ↔ eps ≤ |m.toMatrix.det|) := by
  have hdet : m.toMatrix.det = m.a00 * m.a11 - m.a01 * m.a10 := by
    simp [Mat2.toMatrix, Matrix.det_fin_two]
  constructor
  · intro mi h
    unfold invmat22 at h
    simp only [] at h
    split at h
    · simp at h
    · rename_i hd
      obtain ⟨d, hd', hd0⟩ := inv_of_abs he hd
      rw [← hd'] at h
      simp only [Res.ok.injEq] at h
      subst h
      constructor <;>
      · ext i j
        fin_cases i <;> fin_cases j <;>
        · simp [Mat2.toMatrix, Matrix.mul_apply, Fin.sum_univ_two]
          first | ring1 | linear_combination hd0
  · rw [hdet]
    unfold invmat22
    simp only []
    split
    · rename_i hd
      constructor
      · rintro ⟨_, h⟩; simp at h
      · intro h; exact absurd hd (not_lt.2 h)
    · rename_i hd
      exact ⟨fun _ => not_lt.1 hd, fun _ => ⟨_, rfl⟩⟩

example : ∃ mi, invmat22 (1 / 10 ^ 6) (⟨1, 2, 3, 4⟩ : Mat2 ℚ) = .ok mi :=
  (C36_inverse_2x2 (by norm_num) _).2.2 (by norm_num [Mat2.toMatrix, Matrix.det_fin_two, abs_of_pos])

/-- **C36 (general 3x3, row storage).** -/
theorem C36_inverse_3x3_general {epsd : K} (he : 0 < epsd) (m : Mat3 K) (mi : Mat3 K)
    (h : invmatg epsd m = .ok mi) : m.toMatrix * mi.toMatrix = 1 ∧ mi.toMatrix * m.toMatrix = 1 := by
  unfold invmatg at h
  simp only [] at h
  split at h
  · simp at h
  · split at h
    · simp at h
    · rename_i hd
      obtain ⟨d, hd', hd0⟩ := inv_of_abs he hd
      rw [← hd'] at h
      simp only [Res.ok.injEq] at h
      subst h
      constructor <;> apply mat3_ext <;>
      · simp [Mat3.toMatrix, Matrix.mul_apply, Fin.sum_univ_three]
        first | ring1 | linear_combination hd0

example : ∃ mi, invmatg (1 / 10 ^ 30) (⟨1, 2, 0, 0, 1, 3, 0, 0, 1⟩ : Mat3 ℚ) = .ok mi := by
  unfold invmatg
  rw [if_neg (by norm_num)]
  simp only []
  rw [if_neg (by norm_num)]
  exact ⟨_, rfl⟩

/-- **C36 (general 3x3, two-dimensional storage).** Exact inverse whenever the off-diagonal part is
zero or not entirely below the threshold. -/
theorem C36_inverse_3x3_2d {eps epsd : K} (he : 0 < epsd) (m : Mat3 K) (mi : Mat3 K)
    (h : invmat33 eps epsd m = .ok mi)
    (hoff : (m.a10 = 0 ∧ m.a20 = 0 ∧ m.a21 = 0 ∧ m.a01 = 0 ∧ m.a02 = 0 ∧ m.a12 = 0) ∨
      eps ≤ |m.a10| ∨ eps ≤ |m.a20| ∨ eps ≤ |m.a21| ∨ eps ≤ |m.a01| ∨ eps ≤ |m.a02| ∨ eps ≤ |m.a12|) :
    m.toMatrix * mi.toMatrix = 1 ∧ mi.toMatrix * m.toMatrix = 1 := by
  unfold invmat33 at h
  simp only [] at h
  split at h
  · simp at h
  · split at h
    · rename_i hlt
      simp only [max_lt_iff] at hlt
      obtain ⟨⟨⟨⟨⟨h1, h2⟩, h3⟩, h4⟩, h5⟩, h6⟩ := hlt
      rcases hoff with ⟨z1, z2, z3, z4, z5, z6⟩ | hoff
      · split at h
        · simp at h
        · rename_i hz
          simp only [not_or] at hz
          obtain ⟨n1, n2, n3⟩ := hz
          simp only [Res.ok.injEq] at h
          subst h
          constructor <;> apply mat3_ext <;>
          · simp [Mat3.toMatrix, Matrix.mul_apply, Fin.sum_univ_three, z1, z2, z3, z4, z5, z6, n1, n2, n3]
      · exfalso
        rcases hoff with c | c | c | c | c | c <;> exact absurd ‹_› (not_lt.2 c)
    · split at h
      · simp at h
      · rename_i hd
        obtain ⟨d, hd', hd0⟩ := inv_of_abs he hd
        rw [← hd'] at h
        simp only [Res.ok.injEq] at h
        subst h
        constructor <;> apply mat3_ext <;>
        · simp [Mat3.toMatrix, Matrix.mul_apply, Fin.sum_univ_three]
          first | ring1 | linear_combination hd0

example : ∃ mi, invmat33 (1 / 10 ^ 6) (1 / 10 ^ 30) (⟨1, 2, 0, 0, 1, 3, 0, 0, 1⟩ : Mat3 ℚ) = .ok mi := by
  unfold invmat33
  rw [if_neg (by norm_num), if_neg (by norm_num)]
  simp only []
  rw [if_neg (by norm_num)]
  exact ⟨_, rfl⟩

/-- **C36 (symmetric 3x3), partial.** The result is the inverse when the off-diagonal part is zero
or not entirely below the threshold. Missing: matrices with small non-zero off-diagonal part, for
which the claim is false (`C36_inverse_3x3_sym_false`). -/
theorem C36_inverse_3x3_sym_partial {eps epsd2 : K} (he : 0 < epsd2) (m : Sym3 K) (mi : Sym3 K)
    (h : invmat eps epsd2 m = .ok mi)
    (hoff : (m.m1 = 0 ∧ m.m2 = 0 ∧ m.m4 = 0) ∨ eps ≤ |m.m1| ∨ eps ≤ |m.m2| ∨ eps ≤ |m.m4|) :
    m.toMatrix * mi.toMatrix = 1 ∧ mi.toMatrix * m.toMatrix = 1 := by
  unfold invmat at h
  simp only [] at h
  split at h
  · rename_i hlt
    simp only [max_lt_iff] at hlt
    obtain ⟨⟨h1, h2⟩, h3⟩ := hlt
    rcases hoff with ⟨z1, z2, z3⟩ | hoff
    · split at h
      · simp at h
      · rename_i hz
        simp only [not_or] at hz
        obtain ⟨n1, n2, n3⟩ := hz
        simp only [Res.ok.injEq] at h
        subst h
        constructor <;> apply mat3_ext <;>
        · simp [Sym3.toMatrix, Matrix.mul_apply, Fin.sum_univ_three, z1, z2, z3, n1, n2, n3]
    · exfalso
      rcases hoff with c | c | c <;> exact absurd ‹_› (not_lt.2 c)
  · split at h
    · simp at h
    · split at h
      · simp at h
      · rename_i hd
        obtain ⟨d, hd', hd0⟩ := inv_of_abs he hd
        rw [← hd'] at h
        simp only [Res.ok.injEq] at h
        subst h
        constructor <;> apply mat3_ext <;>
        · simp [Sym3.toMatrix, Matrix.mul_apply, Fin.sum_univ_three]
          first | ring1 | linear_combination hd0

/-- **C36, counterexample.** With the thresholds of the code, a well conditioned positive definite
metric with sizes around 1000 (entries around 1e-6) is "inverted" by dropping its off-diagonal
part: the function reports success and the product with the result is far from the identity. -/
theorem C36_inverse_3x3_sym_false : ∃ m mi : Sym3 ℚ,
    invmat (1 / 10 ^ 6) (1 / 10 ^ 200) m = .ok mi ∧ 0 < m.toMatrix.det ∧
    (m.toMatrix * mi.toMatrix) 0 1 = 9 / 10 := by
  refine ⟨⟨1 / 10 ^ 6, 9 / 10 ^ 7, 0, 1 / 10 ^ 6, 0, 1 / 10 ^ 6⟩, ⟨10 ^ 6, 0, 0, 10 ^ 6, 0, 10 ^ 6⟩, ?_, ?_, ?_⟩
  · unfold invmat
    rw [if_pos, if_neg]
    · norm_num
    · norm_num
    · norm_num [abs_of_pos]
  · rw [sym_det]; norm_num
  · rw [Matrix.mul_apply, Fin.sum_univ_three]; simp [Sym3.toMatrix]; norm_num

/-- **C36, counterexample.** A non singular matrix with a zero on the diagonal and small
off-diagonal entries is reported as successfully inverted with a division by zero. -/
theorem C36_inverse_3x3_sym_inf : ∃ m : Sym3 ℚ,
    invmat (1 / 10 ^ 6) (1 / 10 ^ 200) m = .inf ∧ m.toMatrix.det ≠ 0 := by
  refine ⟨⟨0, 1 / 10 ^ 7, 0, 1, 0, 1⟩, ?_, ?_⟩
  · unfold invmat
    rw [if_pos, if_pos]
    · norm_num
    · norm_num [abs_of_pos]
  · rw [sym_det]; norm_num

example : ∃ mi, invmat (1 / 10 ^ 6) (1 / 10 ^ 200) (⟨2, 1, 0, 2, 0, 1⟩ : Sym3 ℚ) = .ok mi := by
  unfold invmat
  rw [if_neg (by norm_num), if_neg (by norm_num)]
  simp only []
  rw [if_neg (by norm_num [abs_of_pos])]
  exact ⟨_, rfl⟩

/-- **C36 (solver).** On success the result solves the system exactly. -/
theorem C36_solver {epsd : K} (he : 0 < epsd) (a : Sym3 K) (b r : K × K × K)
    (h : sys33sym epsd a b = .ok r) :
    a.m0 * r.1 + a.m1 * r.2.1 + a.m2 * r.2.2 = b.1 ∧
    a.m1 * r.1 + a.m3 * r.2.1 + a.m4 * r.2.2 = b.2.1 ∧
    a.m2 * r.1 + a.m4 * r.2.1 + a.m5 * r.2.2 = b.2.2 := by
  unfold sys33sym at h
  simp only [] at h
  generalize (if epsd ≤ min |a.m5| (min |a.m3| |a.m0|) then 1 / min |a.m5| (min |a.m3| |a.m0|) else 1) = m at h
  split at h
  · simp at h
  · rename_i hd
    obtain ⟨d, hd', hd0⟩ := inv_of_abs he hd
    rw [← hd'] at h
    simp only [Res.ok.injEq] at h
    subst h
    refine ⟨?_, ?_, ?_⟩
    · simp only []
      linear_combination b.1 * hd0
    · simp only []
      linear_combination b.2.1 * hd0
    · simp only []
      linear_combination b.2.2 * hd0

example : ∃ r, sys33sym (1 / 10 ^ 30) (⟨2, 1, 0, 2, 0, 1⟩ : Sym3 ℚ) (1, 2, 3) = .ok r := by
  unfold sys33sym
  simp only []
  rw [if_neg (by norm_num)]
  exact ⟨_, rfl⟩

omit [LinearOrder K] [IsStrictOrderedRing K] in
/-- **C36 (congruence).** `rmtr` is R M Rᵀ. -/
theorem C36_congruence (r : Mat3 K) (m : Sym3 K) :
    (rmtr r m).toMatrix = r.toMatrix * m.toMatrix * r.toMatrixᵀ := by
  apply mat3_ext <;>
  · simp [rmtr, Sym3.toMatrix, Mat3.toMatrix, Matrix.mul_apply, Fin.sum_univ_three, Matrix.transpose_apply]
    ring

omit [LinearOrder K] [IsStrictOrderedRing K] in
/-- **C36 (product).** `mn` is the matrix product. -/
theorem C36_product (m n : Sym3 K) : (mn m n).toMatrix = m.toMatrix * n.toMatrix := by
  apply mat3_ext <;>
    simp [mn, Sym3.toMatrix, Mat3.toMatrix, Matrix.mul_apply, Fin.sum_univ_three]

/-- **C43.** For a unit vector the matrix is a rotation (orthogonal, determinant 1); it sends the
vector exactly on the third axis, except in the almost vertical case where the error is below
the threshold. -/
theorem C43_rotation {eps : ℝ} (he : 0 < eps) (he1 : eps ≤ 1) {n0 n1 n2 : ℝ}
    (hn : n0 * n0 + n1 * n1 + n2 * n2 = 1) :
    (rotmatrix eps n0 n1 n2).toMatrix * (rotmatrix eps n0 n1 n2).toMatrixᵀ = 1 ∧
    (rotmatrix eps n0 n1 n2).toMatrix.det = 1 ∧
    (eps ≤ n0 * n0 + n1 * n1 → (rotmatrix eps n0 n1 n2).toMatrix *ᵥ ![n0, n1, n2] = ![0, 0, 1]) ∧
    (n0 * n0 + n1 * n1 < eps →
      ∃ x y z, (rotmatrix eps n0 n1 n2).toMatrix *ᵥ ![n0, n1, n2] = ![x, y, z] ∧
        x ^ 2 + y ^ 2 < eps ∧ 0 ≤ 1 - z ∧ 1 - z < eps) := by
  by_cases hll : n0 * n0 + n1 * n1 < eps
  · have hz2 : 0 < n2 * n2 := by nlinarith
    by_cases hpos : 0 < n2
    · have hr : rotmatrix eps n0 n1 n2 = ⟨1, 0, 0, 0, 1, 0, 0, 0, 1⟩ := by
        unfold rotmatrix; simp only [hll, hpos, if_true]
      rw [hr]
      refine ⟨?_, ?_, fun h => absurd hll (not_lt.2 h), fun _ => ⟨n0, n1, n2, ?_, by nlinarith, by nlinarith, by nlinarith⟩⟩
      · apply mat3_ext <;> simp [Mat3.toMatrix, Matrix.mul_apply, Fin.sum_univ_three, Matrix.transpose_apply]
      · simp [Mat3.toMatrix, Matrix.det_fin_three]
      · ext i; fin_cases i <;> simp [Mat3.toMatrix, Matrix.mulVec, dotProduct, Fin.sum_univ_three]
    · have hr : rotmatrix eps n0 n1 n2 = ⟨-1, 0, 0, 0, 1, 0, 0, 0, -1⟩ := by
        unfold rotmatrix; simp only [hll, hpos, if_true, if_false]
      have hneg : n2 < 0 := by
        rcases lt_trichotomy n2 0 with h | h | h
        · exact h
        · rw [h] at hz2; simp at hz2
        · exact absurd h hpos
      rw [hr]
      refine ⟨?_, ?_, fun h => absurd hll (not_lt.2 h), fun _ => ⟨-n0, n1, -n2, ?_, by nlinarith, by nlinarith, by nlinarith⟩⟩
      · apply mat3_ext <;> simp [Mat3.toMatrix, Matrix.mul_apply, Fin.sum_univ_three, Matrix.transpose_apply]
      · simp [Mat3.toMatrix, Matrix.det_fin_three]
      · ext i; fin_cases i <;> simp [Mat3.toMatrix, Matrix.mulVec, dotProduct, Fin.sum_univ_three]
  · have hll' := hll
    have hll0 : 0 < n0 * n0 + n1 * n1 := lt_of_lt_of_le he (not_lt.1 hll)
    have hmin : min 1 (n2 * n2) = n2 * n2 := min_eq_right (by nlinarith)
    have hs : 1 - min 1 (n2 * n2) = n0 * n0 + n1 * n1 := by rw [hmin]; linarith
    obtain ⟨l, hl, hl0, hl2⟩ : ∃ l, l = Real.sqrt (n0 * n0 + n1 * n1) ∧ 0 < l ∧ l * l = n0 * n0 + n1 * n1 :=
      ⟨_, rfl, Real.sqrt_pos.2 hll0, Real.mul_self_sqrt hll0.le⟩
    have hr : rotmatrix eps n0 n1 n2 =
        ⟨(n0 * n0 * n2 + n1 * n1) / (n0 * n0 + n1 * n1), n0 * n1 * (n2 - 1) / (n0 * n0 + n1 * n1), -n0,
         n0 * n1 * (n2 - 1) / (n0 * n0 + n1 * n1), (n1 * n1 * n2 + n0 * n0) / (n0 * n0 + n1 * n1), -n1,
         n0, n1, n2⟩ := by
      unfold rotmatrix
      simp only [hll, if_false, hs, ← hl]
      have e : ∀ x : ℝ, x * l / l = x := fun x => by field_simp
      simp only [e]
    have hne : n0 * n0 + n1 * n1 ≠ 0 := hll0.ne'
    obtain ⟨q, hq', hq⟩ : ∃ q, q = (n0 * n0 + n1 * n1)⁻¹ ∧ (n0 * n0 + n1 * n1) * q = 1 :=
      ⟨_, rfl, mul_inv_cancel₀ hne⟩
    have hdiv : ∀ x : ℝ, x / (n0 * n0 + n1 * n1) = x * q := fun x => by rw [div_eq_mul_inv, hq']
    simp only [hdiv] at hr
    rw [hr]
    clear hr hdiv hq' hne hl hl2 hl0 hs hmin hll hll0 he he1
    refine ⟨?_, ?_, fun _ => ?_, fun h => absurd h hll'⟩
    · apply mat3_ext <;> simp [Mat3.toMatrix, Matrix.mul_apply, Fin.sum_univ_three, Matrix.transpose_apply] <;>
        grind
    · simp [Mat3.toMatrix, Matrix.det_fin_three]
      grind
    · ext i
      fin_cases i <;> simp [Mat3.toMatrix, Matrix.mulVec, dotProduct, Fin.sum_univ_three] <;> grind

example : (rotmatrix (1 / 10 ^ 6) (3 / 5) 0 (4 / 5)).toMatrix *ᵥ ![3 / 5, 0, 4 / 5] = ![0, 0, 1] :=
  (C43_rotation (by norm_num) (by norm_num) (by norm_num)).2.2.1 (by norm_num)

end Mmg.LinAlg
