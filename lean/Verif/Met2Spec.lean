/-
What a metric of the plane says: the squared length of each vector.
-/
import Verif.Met2Model

namespace Mmg.Met2

/-- Squared length of the vector (x, y) in the metric m. -/
def len2 (m : Sym) (x y : ℝ) : ℝ := m.a * x ^ 2 + 2 * m.b * (x * y) + m.c * y ^ 2

/-- Scalar product of two vectors in the metric m. -/
def dot (m : Sym) (v w : V2) : ℝ := m.a * (v.x * w.x) + m.b * (v.x * w.y + v.y * w.x) + m.c * (v.y * w.y)

/-- A metric gives a positive length to all vectors. -/
def Metric (m : Sym) : Prop := ∀ x y, x ≠ 0 ∨ y ≠ 0 → 0 < len2 m x y

/-- The sizes asked by the metric lie between hmin and hmax in all directions. -/
def InRange (hmin hmax : ℝ) (m : Sym) : Prop :=
  ∀ x y, (x ^ 2 + y ^ 2) / hmax ^ 2 ≤ len2 m x y ∧ len2 m x y ≤ (x ^ 2 + y ^ 2) / hmin ^ 2

/-- The ratio of the two metrics differs by at least `e` between two directions (if it is the same in all directions, the
metrics are proportional). -/
def Distinct (e : ℝ) (m n : Sym) : Prop :=
  ∃ x y x' y', (x ≠ 0 ∨ y ≠ 0) ∧ (x' ≠ 0 ∨ y' ≠ 0) ∧ len2 n x' y' / len2 m x' y' + e ≤ len2 n x y / len2 m x y

/-- Two independent unit vectors, orthogonal for both metrics. -/
structure Conj (m n : Sym) (v w : V2) : Prop where
  uv : v.x ^ 2 + v.y ^ 2 = 1
  uw : w.x ^ 2 + w.y ^ 2 = 1
  ind : v.x * w.y - v.y * w.x ≠ 0
  om : dot m v w = 0
  on : dot n v w = 0

end Mmg.Met2
