/-
  C67. Quality of tetrahedra and triangles: lemmas.
-/
import Verif.QualModel

namespace Mmg.Qual

open Mmg.Split3 (Pt)

/-- The scalar product of a metric. -/
def Sym3.dot (m : Sym3) (p q : Pt ℝ) : ℝ :=
  m.a * p.x * q.x + m.d * p.y * q.y + m.f * p.z * q.z + m.b * (p.x * q.y + p.y * q.x) +
    m.c * (p.x * q.z + p.z * q.x) + m.e * (p.y * q.z + p.z * q.y)

/-- A positive definite metric. -/
def Sym3.PosDef (m : Sym3) : Prop :=
  ∀ x y z : ℝ, (x ≠ 0 ∨ y ≠ 0 ∨ z ≠ 0) →
    0 < m.a * x * x + m.d * y * y + m.f * z * z + 2 * (m.b * x * y + m.c * x * z + m.e * y * z)

def det3 (p q r : Pt ℝ) : ℝ :=
  p.x * (q.y * r.z - q.z * r.y) - p.y * (q.x * r.z - q.z * r.x) + p.z * (q.x * r.y - q.y * r.x)

/-- Vectors between the middles of opposite edges, twice. -/
def bim (a b c d : Pt ℝ) : Pt ℝ := ⟨a.x + b.x - c.x - d.x, a.y + b.y - c.y - d.y, a.z + b.z - c.z - d.z⟩

def rapOf (m : Sym3) (a b c d : Pt ℝ) : ℝ :=
  m.len2 a b + m.len2 a c + m.len2 a d + m.len2 b c + m.len2 b d + m.len2 c d

theorem rap_bim (m : Sym3) (a b c d : Pt ℝ) : rapOf m a b c d =
    m.dot (bim a b c d) (bim a b c d) + m.dot (bim a c b d) (bim a c b d) +
      m.dot (bim a d b c) (bim a d b c) := by
  simp only [rapOf, Sym3.len2, Sym3.dot, bim]; ring

theorem vol_bim (a b c d : Pt ℝ) :
    4 * vol6 a b c d = - det3 (bim a b c d) (bim a c b d) (bim a d b c) := by
  simp only [vol6, det3, bim]; ring

theorem gram (m : Sym3) (p q r : Pt ℝ) :
    m.dot p p * (m.dot q q * m.dot r r - m.dot q r * m.dot q r) -
      m.dot p q * (m.dot p q * m.dot r r - m.dot p r * m.dot q r) +
      m.dot p r * (m.dot p q * m.dot q r - m.dot p r * m.dot q q) = m.det * det3 p q r ^ 2 := by
  simp only [Sym3.dot, Sym3.det, det3]; ring

theorem dot_pos {m : Sym3} (hm : m.PosDef) {p : Pt ℝ} (h : p.x ≠ 0 ∨ p.y ≠ 0 ∨ p.z ≠ 0) : 0 < m.dot p p := by
  have := hm p.x p.y p.z h
  simp only [Sym3.dot]
  linarith

theorem dot_nonneg {m : Sym3} (hm : m.PosDef) (p : Pt ℝ) : 0 ≤ m.dot p p := by
  by_cases h : p.x ≠ 0 ∨ p.y ≠ 0 ∨ p.z ≠ 0
  · exact (dot_pos hm h).le
  · simp only [not_or, not_not] at h
    obtain ⟨h1, h2, h3⟩ := h
    simp [Sym3.dot, h1, h2, h3]

theorem cauchy {m : Sym3} (hm : m.PosDef) (p q : Pt ℝ) : m.dot p q ^ 2 ≤ m.dot p p * m.dot q q := by
  by_cases h : q.x ≠ 0 ∨ q.y ≠ 0 ∨ q.z ≠ 0
  · have hq := dot_pos hm h
    have := dot_nonneg hm ⟨m.dot q q * p.x - m.dot p q * q.x, m.dot q q * p.y - m.dot p q * q.y,
      m.dot q q * p.z - m.dot p q * q.z⟩
    have e : m.dot ⟨m.dot q q * p.x - m.dot p q * q.x, m.dot q q * p.y - m.dot p q * q.y,
        m.dot q q * p.z - m.dot p q * q.z⟩ ⟨m.dot q q * p.x - m.dot p q * q.x,
        m.dot q q * p.y - m.dot p q * q.y, m.dot q q * p.z - m.dot p q * q.z⟩ =
        m.dot q q * (m.dot p p * m.dot q q - m.dot p q ^ 2) := by
      generalize hS : m.dot q q = S
      generalize hT : m.dot p q = T
      simp only [Sym3.dot] at hS hT ⊢
      linear_combination (-2 * S * T) * hT + (T ^ 2) * hS
    rw [e] at this
    have := nonneg_of_mul_nonneg_right this hq
    linarith
  · simp only [not_or, not_not] at h
    obtain ⟨h1, h2, h3⟩ := h
    simp [Sym3.dot, h1, h2, h3]

/-- Hadamard and the mean of three numbers. -/
theorem had {x y z s t u : ℝ} (hx : 0 < x) (hy : 0 ≤ y) (hz : 0 ≤ z) (hs : s ^ 2 ≤ x * y) :
    27 * (x * (y * z - u * u) - s * (s * z - t * u) + t * (s * u - t * y)) ≤ (x + y + z) ^ 3 := by
  have h1 : 0 ≤ x * (x * u ^ 2 + y * t ^ 2 + z * s ^ 2 - 2 * s * t * u) := by
    have : x * (x * u ^ 2 + y * t ^ 2 + z * s ^ 2 - 2 * s * t * u) =
        (x * u - s * t) ^ 2 + t ^ 2 * (x * y - s ^ 2) + x * z * s ^ 2 := by ring
    rw [this]
    have := mul_nonneg (sq_nonneg t) (sub_nonneg.2 hs)
    positivity
  have h1 := nonneg_of_mul_nonneg_right h1 hx
  have h2 : 27 * (x * y * z) ≤ (x + y + z) ^ 3 := by
    nlinarith [mul_nonneg hx.le (sq_nonneg (y - z)), mul_nonneg hy (sq_nonneg (x - z)),
      mul_nonneg hz (sq_nonneg (x - y)), mul_nonneg hx.le (sq_nonneg (x - y)), mul_nonneg hx.le (sq_nonneg (x - z)),
      mul_nonneg hy (sq_nonneg (x - y)), mul_nonneg hy (sq_nonneg (y - z)), mul_nonneg hz (sq_nonneg (y - z)),
      mul_nonneg hz (sq_nonneg (x - z))]
  nlinarith

theorem had_eq {x y z s t u : ℝ} (hx : 0 < x) (hy : 0 ≤ y) (hz : 0 ≤ z) (hs : s ^ 2 ≤ x * y)
    (h : 27 * (x * (y * z - u * u) - s * (s * z - t * u) + t * (s * u - t * y)) = (x + y + z) ^ 3) :
    x = y ∧ x = z ∧ s = 0 ∧ t = 0 ∧ u = 0 := by
  have h1 : 0 ≤ x * (x * u ^ 2 + y * t ^ 2 + z * s ^ 2 - 2 * s * t * u) := by
    have : x * (x * u ^ 2 + y * t ^ 2 + z * s ^ 2 - 2 * s * t * u) =
        (x * u - s * t) ^ 2 + t ^ 2 * (x * y - s ^ 2) + x * z * s ^ 2 := by ring
    rw [this]
    have := mul_nonneg (sq_nonneg t) (sub_nonneg.2 hs)
    positivity
  have h1 := nonneg_of_mul_nonneg_right h1 hx
  have e : (x + y + z) ^ 3 - 27 * (x * y * z) = (x + y + z) / 2 * ((x - y) ^ 2 + (x - z) ^ 2 + (y - z) ^ 2) +
      3 * (x * (y - z) ^ 2 + y * (x - z) ^ 2 + z * (x - y) ^ 2) := by ring
  have p1 : 0 ≤ x * (y - z) ^ 2 + y * (x - z) ^ 2 + z * (x - y) ^ 2 := by positivity
  have hp : 0 < (x + y + z) / 2 := by positivity
  have p2 : (x + y + z) / 2 * ((x - y) ^ 2 + (x - z) ^ 2 + (y - z) ^ 2) ≤ 0 := by nlinarith
  have p3 : (x - y) ^ 2 + (x - z) ^ 2 + (y - z) ^ 2 ≤ 0 := by
    by_contra hc
    exact absurd p2 (not_le.2 (mul_pos hp (not_le.1 hc)))
  have a1 := sq_nonneg (x - y)
  have a2 := sq_nonneg (x - z)
  have a3 := sq_nonneg (y - z)
  have exy : x = y := by
    have : (x - y) ^ 2 = 0 := by linarith
    have := pow_eq_zero_iff (two_ne_zero) |>.1 this
    linarith
  have exz : x = z := by
    have : (x - z) ^ 2 = 0 := by linarith
    have := pow_eq_zero_iff (two_ne_zero) |>.1 this
    linarith
  subst exy; subst exz
  have h4 : x * u ^ 2 + x * t ^ 2 + x * s ^ 2 - 2 * s * t * u = 0 := by nlinarith
  have h5 : (x * u - s * t) ^ 2 + t ^ 2 * (x * x - s ^ 2) + x * x * s ^ 2 = 0 := by
    have : x * (x * u ^ 2 + x * t ^ 2 + x * s ^ 2 - 2 * s * t * u) =
        (x * u - s * t) ^ 2 + t ^ 2 * (x * x - s ^ 2) + x * x * s ^ 2 := by ring
    rw [← this, h4, mul_zero]
  have q1 := sq_nonneg (x * u - s * t)
  have q2 := mul_nonneg (sq_nonneg t) (sub_nonneg.2 hs)
  have q3 : 0 ≤ x * x * s ^ 2 := by positivity
  have hs0 : s = 0 := by
    have : x * x * s ^ 2 = 0 := by linarith
    rcases mul_eq_zero.1 this with h | h
    · exact absurd h (by positivity)
    · exact pow_eq_zero_iff two_ne_zero |>.1 h
  subst hs0
  have ht0 : t = 0 := by
    have : t ^ 2 * (x * x - 0 ^ 2) = 0 := by linarith
    rcases mul_eq_zero.1 this with h | h
    · exact pow_eq_zero_iff two_ne_zero |>.1 h
    · exact absurd h (by simpa using hx.ne')
  subst ht0
  have hu0 : u = 0 := by
    have : (x * u - 0 * 0) ^ 2 = 0 := by linarith
    have := pow_eq_zero_iff two_ne_zero |>.1 this
    have : x * u = 0 := by linarith
    exact (mul_eq_zero.1 this).resolve_left hx.ne'
  exact ⟨rfl, rfl, rfl, rfl, hu0⟩

theorem bim_ne {a b c d : Pt ℝ} (h : vol6 a b c d ≠ 0) :
    (bim a b c d).x ≠ 0 ∨ (bim a b c d).y ≠ 0 ∨ (bim a b c d).z ≠ 0 := by
  by_contra hc
  simp only [not_or, not_not] at hc
  obtain ⟨h1, h2, h3⟩ := hc
  apply h
  have := vol_bim a b c d
  simp only [det3, h1, h2, h3] at this
  linarith

/-- The inequality behind the normalisation. -/
theorem quality_le {m : Sym3} (hm : m.PosDef) {a b c d : Pt ℝ} (h : vol6 a b c d ≠ 0) :
    432 * (m.det * vol6 a b c d ^ 2) ≤ rapOf m a b c d ^ 3 := by
  have := had (u := m.dot (bim a c b d) (bim a d b c)) (t := m.dot (bim a b c d) (bim a d b c))
    (dot_pos hm (bim_ne h)) (dot_nonneg hm (bim a c b d)) (dot_nonneg hm (bim a d b c))
    (cauchy hm (bim a b c d) (bim a c b d))
  rw [gram] at this
  rw [rap_bim]
  refine le_trans (le_of_eq ?_) this
  have e := vol_bim a b c d
  have : det3 (bim a b c d) (bim a c b d) (bim a d b c) = -4 * vol6 a b c d := by linarith
  rw [this]; ring

/-- All edges have the same length. -/
def EqualEdges (l : Pt ℝ → Pt ℝ → ℝ) (a b c d : Pt ℝ) : Prop :=
  l a b = l a c ∧ l a b = l a d ∧ l a b = l b c ∧ l a b = l b d ∧ l a b = l c d

theorem quality_eq {m : Sym3} (hm : m.PosDef) {a b c d : Pt ℝ} (h : vol6 a b c d ≠ 0) :
    432 * (m.det * vol6 a b c d ^ 2) = rapOf m a b c d ^ 3 ↔ EqualEdges m.len2 a b c d := by
  have e := vol_bim a b c d
  have e2 : det3 (bim a b c d) (bim a c b d) (bim a d b c) = -4 * vol6 a b c d := by linarith
  have g := gram m (bim a b c d) (bim a c b d) (bim a d b c)
  rw [e2] at g
  have l1 : 4 * m.len2 a b = m.dot (bim a c b d) (bim a c b d) + m.dot (bim a d b c) (bim a d b c) +
      2 * m.dot (bim a c b d) (bim a d b c) := by simp only [Sym3.len2, Sym3.dot, bim]; ring
  have l2 : 4 * m.len2 a c = m.dot (bim a b c d) (bim a b c d) + m.dot (bim a d b c) (bim a d b c) +
      2 * m.dot (bim a b c d) (bim a d b c) := by simp only [Sym3.len2, Sym3.dot, bim]; ring
  have l3 : 4 * m.len2 a d = m.dot (bim a b c d) (bim a b c d) + m.dot (bim a c b d) (bim a c b d) +
      2 * m.dot (bim a b c d) (bim a c b d) := by simp only [Sym3.len2, Sym3.dot, bim]; ring
  have l4 : 4 * m.len2 b c = m.dot (bim a b c d) (bim a b c d) + m.dot (bim a c b d) (bim a c b d) -
      2 * m.dot (bim a b c d) (bim a c b d) := by simp only [Sym3.len2, Sym3.dot, bim]; ring
  have l5 : 4 * m.len2 b d = m.dot (bim a b c d) (bim a b c d) + m.dot (bim a d b c) (bim a d b c) -
      2 * m.dot (bim a b c d) (bim a d b c) := by simp only [Sym3.len2, Sym3.dot, bim]; ring
  have l6 : 4 * m.len2 c d = m.dot (bim a c b d) (bim a c b d) + m.dot (bim a d b c) (bim a d b c) -
      2 * m.dot (bim a c b d) (bim a d b c) := by simp only [Sym3.len2, Sym3.dot, bim]; ring
  have hp := dot_pos hm (bim_ne h)
  have hq := dot_nonneg hm (bim a c b d)
  have hr := dot_nonneg hm (bim a d b c)
  have hc := cauchy hm (bim a b c d) (bim a c b d)
  rw [rap_bim]
  generalize m.dot (bim a b c d) (bim a b c d) = x at *
  generalize m.dot (bim a c b d) (bim a c b d) = y at *
  generalize m.dot (bim a d b c) (bim a d b c) = z at *
  generalize m.dot (bim a b c d) (bim a c b d) = s at *
  generalize m.dot (bim a b c d) (bim a d b c) = t at *
  generalize m.dot (bim a c b d) (bim a d b c) = u at *
  unfold EqualEdges
  constructor
  · intro h2
    obtain ⟨q1, q2, q3, q4, q5⟩ := had_eq (u := u) (t := t) hp hq hr hc (by rw [g, ← h2]; ring)
    subst q1 q2 q3 q4 q5
    refine ⟨?_, ?_, ?_, ?_, ?_⟩ <;> linarith
  · rintro ⟨q1, q2, q3, q4, q5⟩
    have hs : s = 0 := by linarith
    have ht : t = 0 := by linarith
    have hu : u = 0 := by linarith
    have hxy : y = x := by linarith
    have hxz : z = x := by linarith
    subst hs ht hu hxy hxz
    have : m.det * (-4 * vol6 a b c d) ^ 2 = z * z * z := by rw [← g]; ring
    have e3 : 16 * (m.det * vol6 a b c d ^ 2) = z * z * z := by rw [← this]; ring
    have : 432 * (m.det * vol6 a b c d ^ 2) = 27 * (16 * (m.det * vol6 a b c d ^ 2)) := by ring
    rw [this, e3]; ring

end Mmg.Qual
