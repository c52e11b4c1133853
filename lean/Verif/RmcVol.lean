/-
  `MMG5_vfrac` and `MMG3D_vfrac` give the area and the volume of the two parts of a triangle and of a tetrahedron.
-/
import Verif.RmcModel
import Mathlib.Tactic.Ring
import Mathlib.Tactic.FieldSimp
import Mathlib.Tactic.Linarith
import Mathlib.Tactic.IntervalCases

namespace Mmg.Rmc
open Mmg.Split3 Mmg.Ls3

variable {K : Type} [Field K] [LinearOrder K] [IsStrictOrderedRing K]

/-! ### Specification -/

/-- Term of the vertex `i` in the formula for the volume: `v_i^(n-1)` divided by the product of the differences with
the values at the other vertices. -/
def term (n : Nat) (v : Nat → K) (i : Nat) : K :=
  v i ^ (n - 1) / (((List.range n).filter fun j => decide (j ≠ i)).map fun j => v i - v j).prod

/-- Fraction of a simplex with `n` vertices where the linear function with the values `v` is positive, when the
values are different: the sum of the terms of the vertices where the value is positive (the
divided difference of the truncated power). -/
def posFrac (n : Nat) (v : Nat → K) : K :=
  ((List.range n).map fun i => if 0 < v i then term n v i else 0).sum

/-- The values are different from each other. -/
def Distinct (n : Nat) (v : Nat → K) : Prop := ∀ i < n, ∀ j < n, i ≠ j → v i ≠ v j

/-- The values smaller than the threshold are null. -/
def Clean (n : Nat) (eps : K) (v : Nat → K) : Prop := ∀ i < n, |v i| < eps → v i = 0

/-! ### Triangles -/

theorem det2_lerp (p q r : Pt K) (s t : K) : det2 p (p.lerp q s) (p.lerp r t) = s * t * det2 p q r := by
  simp only [det2, Pt.lerp]; ring

theorem det2_cycle (p q r : Pt K) : det2 q r p = det2 p q r := by
  simp only [det2]; ring

/-- The three sorts of values. -/
theorem sort3 {eps : K} (he : 0 < eps) (x : K) (hc : |x| < eps → x = 0) :
    (|x| < eps ∧ ¬ eps ≤ x ∧ x = 0) ∨ (¬ |x| < eps ∧ eps ≤ x ∧ 0 < x) ∨ (¬ |x| < eps ∧ ¬ eps ≤ x ∧ x < 0) := by
  by_cases h : |x| < eps
  · exact .inl ⟨h, by rw [hc h, not_le]; exact he, hc h⟩
  · rcases le_or_gt 0 x with hx | hx
    · rw [abs_of_nonneg hx, not_lt] at h
      exact .inr (.inl ⟨by rw [abs_of_nonneg hx, not_lt]; exact h, h, he.trans_le h⟩)
    · exact .inr (.inr ⟨h, by rw [not_le]; exact hx.trans he, hx⟩)

theorem frac_nonneg {a b : K} (h : (0 < a ∧ b ≤ 0) ∨ (a < 0 ∧ 0 ≤ b)) : 0 ≤ a / (a - b) ∧ a / (a - b) ≤ 1 := by
  rcases h with ⟨ha, hb⟩ | ⟨ha, hb⟩
  · exact ⟨div_nonneg ha.le (by linarith), by rw [div_le_one (by linarith)]; linarith⟩
  · exact ⟨div_nonneg_of_nonpos ha.le (by linarith), by
      rw [div_le_iff_of_neg (by linarith)]; linarith⟩

/-- The triangle cut at one vertex. -/
theorem corner2 (p q r : Pt K) {a b c : K} (h : (0 < a ∧ b ≤ 0 ∧ c ≤ 0) ∨ (a < 0 ∧ 0 ≤ b ∧ 0 ≤ c)) :
    1 / 2 * |det2 p (p.lerp q (a / (a - b))) (p.lerp r (a / (a - c)))| =
      a / (a - b) * (a / (a - c)) * (1 / 2 * |det2 p q r|) := by
  have hb := (frac_nonneg (a := a) (b := b) (by tauto)).1
  have hc := (frac_nonneg (a := a) (b := c) (by tauto)).1
  rw [det2_lerp, abs_mul, abs_of_nonneg (mul_nonneg hb hc)]
  ring

theorem lag2 {a b c : K} (hab : a ≠ b) (hac : a ≠ c) (hbc : b ≠ c) :
    a ^ 2 / ((a - b) * (a - c)) + b ^ 2 / ((b - a) * (b - c)) + c ^ 2 / ((c - a) * (c - b)) = 1 := by
  have h1 := sub_ne_zero.2 hab
  have h2 := sub_ne_zero.2 hac
  have h3 := sub_ne_zero.2 hbc
  have h4 := sub_ne_zero.2 hab.symm
  have h5 := sub_ne_zero.2 hac.symm
  have h6 := sub_ne_zero.2 hbc.symm
  have e1 : b - a = -(a - b) := by ring
  have e2 : c - a = -(a - c) := by ring
  have e3 : c - b = -(b - c) := by ring
  rw [e1, e2, e3]
  field_simp
  ring

/-- Values of `MMG5_vfrac`: `A` is the area; the corner at the vertex `i` is the product of two fractions. -/
theorem vfrac2_eq (eps : K) (he : 0 < eps) (p : Nat → Pt K) (v : Nat → K) (hc : Clean 3 eps v) :
    let A := 1 / 2 * |det2 (p 0) (p 1) (p 2)|
    let c (i j k : Nat) := v i / (v i - v j) * (v i / (v i - v k))
    (v 0 = 0 ∧ v 1 = 0 ∧ v 2 = 0 ∧ vfrac2 eps p v true = 0 ∧ vfrac2 eps p v false = 0) ∨
    (0 ≤ v 0 ∧ 0 ≤ v 1 ∧ 0 ≤ v 2 ∧ vfrac2 eps p v true = A ∧ vfrac2 eps p v false = 0) ∨
    (v 0 ≤ 0 ∧ v 1 ≤ 0 ∧ v 2 ≤ 0 ∧ vfrac2 eps p v true = 0 ∧ vfrac2 eps p v false = A) ∨
    ∃ i j k, (i, j, k) ∈ [(0, 1, 2), (1, 2, 0), (2, 0, 1)] ∧
      ((0 < v i ∧ v j ≤ 0 ∧ v k ≤ 0 ∧ vfrac2 eps p v true = c i j k * A ∧
          vfrac2 eps p v false = (1 - c i j k) * A) ∨
       (v i < 0 ∧ 0 ≤ v j ∧ 0 ≤ v k ∧ vfrac2 eps p v true = (1 - c i j k) * A ∧
          vfrac2 eps p v false = c i j k * A)) := by
  intro A c
  have d1 : 1 / 2 * |det2 (p 1) (p 2) (p 0)| = A := by rw [det2_cycle]
  have d2 : 1 / 2 * |det2 (p 2) (p 0) (p 1)| = A := by rw [det2_cycle, det2_cycle]
  have k0 : ∀ {P : Prop}, ((0 < v 0 ∧ v 1 ≤ 0 ∧ v 2 ≤ 0) ∨ (v 0 < 0 ∧ 0 ≤ v 1 ∧ 0 ≤ v 2)) →
      (1 / 2 * |det2 (p 0) ((p 0).lerp (p 1) (v 0 / (v 0 - v 1))) ((p 0).lerp (p 2) (v 0 / (v 0 - v 2)))| =
        c 0 1 2 * A → P) → P := fun h hp => hp (corner2 _ _ _ h)
  have k1 : ∀ {P : Prop}, ((0 < v 1 ∧ v 2 ≤ 0 ∧ v 0 ≤ 0) ∨ (v 1 < 0 ∧ 0 ≤ v 2 ∧ 0 ≤ v 0)) →
      (1 / 2 * |det2 (p 1) ((p 1).lerp (p 2) (v 1 / (v 1 - v 2))) ((p 1).lerp (p 0) (v 1 / (v 1 - v 0)))| =
        c 1 2 0 * A → P) → P := fun h hp => hp (by rw [← d1]; exact corner2 _ _ _ h)
  have k2 : ∀ {P : Prop}, ((0 < v 2 ∧ v 0 ≤ 0 ∧ v 1 ≤ 0) ∨ (v 2 < 0 ∧ 0 ≤ v 0 ∧ 0 ≤ v 1)) →
      (1 / 2 * |det2 (p 2) ((p 2).lerp (p 0) (v 2 / (v 2 - v 0))) ((p 2).lerp (p 1) (v 2 / (v 2 - v 1)))| =
        c 2 0 1 * A → P) → P := fun h hp => hp (by rw [← d2]; exact corner2 _ _ _ h)
  have kA : ∀ {x y : K}, x = y * A → A - x = (1 - y) * A := fun h => by rw [h]; ring
  rcases sort3 he (v 0) (hc 0 (by decide)) with ⟨a1, a2, a3⟩ | ⟨a1, a2, a3⟩ | ⟨a1, a2, a3⟩ <;>
  rcases sort3 he (v 1) (hc 1 (by decide)) with ⟨b1, b2, b3⟩ | ⟨b1, b2, b3⟩ | ⟨b1, b2, b3⟩ <;>
  rcases sort3 he (v 2) (hc 2 (by decide)) with ⟨c1, c2, c3⟩ | ⟨c1, c2, c3⟩ | ⟨c1, c2, c3⟩ <;>
  simp only [vfrac2, List.range_succ, List.range_zero, List.nil_append, List.filter_append, List.filter_cons,
    List.filter_nil, a1, b1, c1, a2, b2, c2, decide_true, decide_false, not_true_eq_false, not_false_eq_true,
    Bool.and_true, Bool.and_false, Bool.false_and, Bool.true_and, Bool.not_true, Bool.not_false, if_true, if_false,
    List.append_nil, List.cons_append, List.length_cons, List.length_nil, Bool.false_eq_true] <;>
  first
  | exact .inl ⟨a3, b3, c3, trivial, trivial⟩
  | exact .inr (.inl ⟨by linarith, by linarith, by linarith, rfl, rfl⟩)
  | exact .inr (.inr (.inl ⟨by linarith, by linarith, by linarith, rfl, rfl⟩))
  | exact k0 (.inl ⟨a3, by linarith, by linarith⟩) fun e =>
      .inr (.inr (.inr ⟨0, 1, 2, by simp, .inl ⟨a3, by linarith, by linarith, e, kA e⟩⟩))
  | exact k0 (.inr ⟨a3, by linarith, by linarith⟩) fun e =>
      .inr (.inr (.inr ⟨0, 1, 2, by simp, .inr ⟨a3, by linarith, by linarith, kA e, e⟩⟩))
  | exact k1 (.inl ⟨b3, by linarith, by linarith⟩) fun e =>
      .inr (.inr (.inr ⟨1, 2, 0, by simp, .inl ⟨b3, by linarith, by linarith, e, kA e⟩⟩))
  | exact k1 (.inr ⟨b3, by linarith, by linarith⟩) fun e =>
      .inr (.inr (.inr ⟨1, 2, 0, by simp, .inr ⟨b3, by linarith, by linarith, kA e, e⟩⟩))
  | exact k2 (.inl ⟨c3, by linarith, by linarith⟩) fun e =>
      .inr (.inr (.inr ⟨2, 0, 1, by simp, .inl ⟨c3, by linarith, by linarith, e, kA e⟩⟩))
  | exact k2 (.inr ⟨c3, by linarith, by linarith⟩) fun e =>
      .inr (.inr (.inr ⟨2, 0, 1, by simp, .inr ⟨c3, by linarith, by linarith, kA e, e⟩⟩))

/-! ### Tetrahedra -/

theorem vol_lerp (p q r w : Pt K) (s t u : K) :
    vol p (p.lerp q s) (p.lerp r t) (p.lerp w u) = s * t * u * vol p q r w := by
  simp only [vol, Pt.lerp]; ring

/-- The tetrahedron cut at one vertex. -/
theorem corner3_eq (p q r w : Pt K) {a b c d : K}
    (h : (0 < a ∧ b ≤ 0 ∧ c ≤ 0 ∧ d ≤ 0) ∨ (a < 0 ∧ 0 ≤ b ∧ 0 ≤ c ∧ 0 ≤ d)) :
    |vol p (p.lerp q (a / (a - b))) (p.lerp r (a / (a - c))) (p.lerp w (a / (a - d)))| =
      a / (a - b) * (a / (a - c)) * (a / (a - d)) * |vol p q r w| := by
  have hb := (frac_nonneg (a := a) (b := b) (by tauto)).1
  have hc := (frac_nonneg (a := a) (b := c) (by tauto)).1
  have hd := (frac_nonneg (a := a) (b := d) (by tauto)).1
  rw [vol_lerp, abs_mul, abs_of_nonneg (mul_nonneg (mul_nonneg hb hc) hd)]

/-- Fraction of the part of the first two vertices, with the points of the four edges at the fractions `s`. -/
def wfrac (s02 s03 s12 s13 : K) : K := s12 * s13 + s03 * s12 * (1 - s13) + (1 - s12) * s02 * s03

theorem abs_scale {x : K} (h : 0 ≤ x) (y : K) : |x * y| = x * |y| := by rw [abs_mul, abs_of_nonneg h]

theorem wedge_true (t0 t1 t2 t3 : Pt K) {s02 s03 s12 s13 : K} (h02 : 0 ≤ s02 ∧ s02 ≤ 1) (h03 : 0 ≤ s03 ∧ s03 ≤ 1)
    (h12 : 0 ≤ s12 ∧ s12 ≤ 1) (h13 : 0 ≤ s13 ∧ s13 ≤ 1) :
    |vol t0 t1 (t1.lerp t2 s12) (t1.lerp t3 s13)| + |vol t0 (t1.lerp t3 s13) (t1.lerp t2 s12) (t0.lerp t3 s03)| +
      |vol t0 (t1.lerp t2 s12) (t0.lerp t2 s02) (t0.lerp t3 s03)| =
      wfrac s02 s03 s12 s13 * |vol t0 t1 t2 t3| := by
  have e1 : vol t0 t1 (t1.lerp t2 s12) (t1.lerp t3 s13) = s12 * s13 * vol t0 t1 t2 t3 := by
    simp only [vol, Pt.lerp]; ring
  have e2 : vol t0 (t1.lerp t3 s13) (t1.lerp t2 s12) (t0.lerp t3 s03) =
      s03 * s12 * (1 - s13) * vol t0 t1 t2 t3 := by
    simp only [vol, Pt.lerp]; ring
  have e3 : vol t0 (t1.lerp t2 s12) (t0.lerp t2 s02) (t0.lerp t3 s03) =
      (1 - s12) * s02 * s03 * vol t0 t1 t2 t3 := by
    simp only [vol, Pt.lerp]; ring
  have u12 : 0 ≤ 1 - s12 := by linarith [h12.2]
  have u13 : 0 ≤ 1 - s13 := by linarith [h13.2]
  rw [e1, e2, e3, abs_scale (mul_nonneg h12.1 h13.1), abs_scale (mul_nonneg (mul_nonneg h03.1 h12.1) u13),
    abs_scale (mul_nonneg (mul_nonneg u12 h02.1) h03.1), wfrac]
  ring

theorem wedge_false (t0 t1 t2 t3 : Pt K) {s02 s03 s12 s13 : K} (h02 : 0 ≤ s02 ∧ s02 ≤ 1) (h03 : 0 ≤ s03 ∧ s03 ≤ 1)
    (h12 : 0 ≤ s12 ∧ s12 ≤ 1) (h13 : 0 ≤ s13 ∧ s13 ≤ 1) :
    |vol (t0.lerp t3 s03) (t1.lerp t3 s13) t2 t3| + |vol (t0.lerp t3 s03) (t1.lerp t2 s12) t2 (t1.lerp t3 s13)| +
      |vol (t0.lerp t2 s02) (t1.lerp t2 s12) t2 (t0.lerp t3 s03)| =
      (1 - wfrac s02 s03 s12 s13) * |vol t0 t1 t2 t3| := by
  have e1 : vol (t0.lerp t3 s03) (t1.lerp t3 s13) t2 t3 = (1 - s13) * (1 - s03) * vol t0 t1 t2 t3 := by
    simp only [vol, Pt.lerp]; ring
  have e2 : vol (t0.lerp t3 s03) (t1.lerp t2 s12) t2 (t1.lerp t3 s13) =
      (1 - s12) * s13 * (1 - s03) * vol t0 t1 t2 t3 := by
    simp only [vol, Pt.lerp]; ring
  have e3 : vol (t0.lerp t2 s02) (t1.lerp t2 s12) t2 (t0.lerp t3 s03) =
      (1 - s12) * (1 - s02) * s03 * vol t0 t1 t2 t3 := by
    simp only [vol, Pt.lerp]; ring
  have u02 : 0 ≤ 1 - s02 := by linarith [h02.2]
  have u03 : 0 ≤ 1 - s03 := by linarith [h03.2]
  have u12 : 0 ≤ 1 - s12 := by linarith [h12.2]
  have u13 : 0 ≤ 1 - s13 := by linarith [h13.2]
  rw [e1, e2, e3, abs_scale (mul_nonneg u13 u03), abs_scale (mul_nonneg (mul_nonneg u12 h13.1) u03),
    abs_scale (mul_nonneg (mul_nonneg u12 u02) h03.1), wfrac]
  ring

theorem lerp_flip (p q : Pt K) {a b : K} (h : a ≠ b) : q.lerp p (b / (b - a)) = p.lerp q (a / (a - b)) := by
  have h1 := sub_ne_zero.2 h
  have e : b / (b - a) = 1 - a / (a - b) := by
    have : b - a = -(a - b) := by ring
    rw [this]
    field_simp
    ring
  rw [e]
  simp only [Pt.lerp, Pt.mk.injEq]
  refine ⟨by ring, by ring, by ring⟩

theorem cuts_true {d2 : K} {v : Nat → K} {e : Nat} (h0 : ¬ |v (iare.getD e (0, 0)).1| < d2)
    (h1 : ¬ |v (iare.getD e (0, 0)).2| < d2)
    (h : (0 < v (iare.getD e (0, 0)).1 ∧ v (iare.getD e (0, 0)).2 < 0) ∨
      (v (iare.getD e (0, 0)).1 < 0 ∧ 0 < v (iare.getD e (0, 0)).2)) : cuts d2 v e = true := by
  unfold cuts
  have : ¬ 0 < v (iare.getD e (0, 0)).1 * v (iare.getD e (0, 0)).2 := by
    rw [not_lt]
    rcases h with ⟨ha, hb⟩ | ⟨ha, hb⟩
    · exact (mul_neg_of_pos_of_neg ha hb).le
    · exact (mul_neg_of_neg_of_pos ha hb).le
  simp only [h0, h1, this, decide_false, Bool.or_false, Bool.not_false, Bool.and_self]

theorem cuts_false {d2 : K} {v : Nat → K} {e : Nat}
    (h : (0 < v (iare.getD e (0, 0)).1 ∧ 0 < v (iare.getD e (0, 0)).2) ∨
      (v (iare.getD e (0, 0)).1 < 0 ∧ v (iare.getD e (0, 0)).2 < 0)) : cuts d2 v e = false := by
  unfold cuts
  have : 0 < v (iare.getD e (0, 0)).1 * v (iare.getD e (0, 0)).2 := by
    rcases h with ⟨ha, hb⟩ | ⟨ha, hb⟩
    · exact mul_pos ha hb
    · exact mul_pos_of_neg_of_neg ha hb
  simp only [this, decide_true, Bool.not_true, Bool.and_false]

/-- `a`, `b` on one side and `c`, `d` on the other. -/
def Opp (a b c d : K) : Prop := (0 < a ∧ 0 < b ∧ c < 0 ∧ d < 0) ∨ (a < 0 ∧ b < 0 ∧ 0 < c ∧ 0 < d)

theorem twoTwo_eq {d2 : K} (p : Nat → Pt K) (v : Nat → K) (hd : ∀ i < 4, ¬ |v i| < d2) {a b c d : Nat}
    (ht : (a, b, c, d) ∈ [(0, 1, 2, 3), (1, 3, 2, 0), (1, 2, 0, 3)]) (ho : Opp (v a) (v b) (v c) (v d)) :
    let w := wfrac (v a / (v a - v c)) (v a / (v a - v d)) (v b / (v b - v c)) (v b / (v b - v d))
    twoTwo d2 p v (decide (0 < v a)) = w * |vol (p a) (p b) (p c) (p d)| ∧
    twoTwo d2 p v (!decide (0 < v a)) = (1 - w) * |vol (p a) (p b) (p c) (p d)| := by
  intro w
  have hn : decide (v a < 0) = !decide (0 < v a) := by
    rcases ho with ⟨h, -⟩ | ⟨h, -⟩
    · simp [h, h.le]
    · simp [h, h.le]
  have f02 := frac_nonneg (a := v a) (b := v c) (by rcases ho with h | h; exact .inl ⟨h.1, h.2.2.1.le⟩; exact .inr ⟨h.1, h.2.2.1.le⟩)
  have f03 := frac_nonneg (a := v a) (b := v d) (by rcases ho with h | h; exact .inl ⟨h.1, h.2.2.2.le⟩; exact .inr ⟨h.1, h.2.2.2.le⟩)
  have f12 := frac_nonneg (a := v b) (b := v c) (by rcases ho with h | h; exact .inl ⟨h.2.1, h.2.2.1.le⟩; exact .inr ⟨h.2.1, h.2.2.1.le⟩)
  have f13 := frac_nonneg (a := v b) (b := v d) (by rcases ho with h | h; exact .inl ⟨h.2.1, h.2.2.2.le⟩; exact .inr ⟨h.2.1, h.2.2.2.le⟩)
  have wt := wedge_true (p a) (p b) (p c) (p d) f02 f03 f12 f13
  have wf := wedge_false (p a) (p b) (p c) (p d) f02 f03 f12 f13
  have h0 := hd 0 (by decide)
  have h1 := hd 1 (by decide)
  have h2 := hd 2 (by decide)
  have h3 := hd 3 (by decide)
  have key : ∀ (flag : Nat) (tau taued : List Nat),
      ((List.range 6).map fun e => if cuts d2 v e then 2 ^ e else 0).sum = flag →
      tau = (if flag = 45 then [1, 3, 2, 0] else if flag = 51 then [1, 2, 0, 3] else [0, 1, 2, 3]) →
      taued = (if flag = 45 then [4, 3, 0, 5, 2, 1] else if flag = 51 then [3, 0, 4, 1, 5, 2]
        else [0, 1, 2, 3, 4, 5]) →
      tau = [a, b, c, d] →
      zeroPt d2 p v (taued.getD 1 0) = (p a).lerp (p c) (v a / (v a - v c)) →
      zeroPt d2 p v (taued.getD 2 0) = (p a).lerp (p d) (v a / (v a - v d)) →
      zeroPt d2 p v (taued.getD 3 0) = (p b).lerp (p c) (v b / (v b - v c)) →
      zeroPt d2 p v (taued.getD 4 0) = (p b).lerp (p d) (v b / (v b - v d)) →
      twoTwo d2 p v (decide (0 < v a)) = w * |vol (p a) (p b) (p c) (p d)| ∧
      twoTwo d2 p v (!decide (0 < v a)) = (1 - w) * |vol (p a) (p b) (p c) (p d)| := by
    intro flag tau taued hf e1 e2 e3 z1 z2 z3 z4
    have hall : ∀ pm, twoTwo d2 p v pm = wedge p (zeroPt d2 p v) tau taued
        (if pm then !decide (v (tau.getD 0 0) < 0) else decide (v (tau.getD 0 0) < 0)) := by
      intro pm
      unfold twoTwo
      simp only [hf]
      rw [← e1, ← e2]
    have htrue : wedge p (zeroPt d2 p v) tau taued true = w * |vol (p a) (p b) (p c) (p d)| := by
      unfold wedge
      simp only [if_true, z1, z2, z3, z4, e3]
      exact wt
    have hfalse : wedge p (zeroPt d2 p v) tau taued false = (1 - w) * |vol (p a) (p b) (p c) (p d)| := by
      unfold wedge
      simp only [Bool.false_eq_true, if_false, z1, z2, z3, z4, e3]
      exact wf
    have hta : v (tau.getD 0 0) = v a := by rw [e3]; rfl
    rw [hall, hall, hta, hn]
    cases decide (0 < v a)
    · exact ⟨htrue, hfalse⟩
    · exact ⟨htrue, hfalse⟩
  have zt : ∀ e, cuts d2 v e = true → zeroPt d2 p v e = (p (iare.getD e (0, 0)).1).lerp (p (iare.getD e (0, 0)).2)
      (v (iare.getD e (0, 0)).1 / (v (iare.getD e (0, 0)).1 - v (iare.getD e (0, 0)).2)) := by
    intro e h
    unfold zeroPt
    rw [if_pos h]
  simp only [List.mem_cons, List.not_mem_nil, or_false, Prod.mk.injEq] at ht
  unfold Opp at ho
  rcases ht with ⟨rfl, rfl, rfl, rfl⟩ | ⟨rfl, rfl, rfl, rfl⟩ | ⟨rfl, rfl, rfl, rfl⟩
  · have c0 : cuts d2 v 0 = false := cuts_false (by show (0 < v 0 ∧ 0 < v 1) ∨ (v 0 < 0 ∧ v 1 < 0); tauto)
    have c1 : cuts d2 v 1 = true := cuts_true h0 h2 (by show (0 < v 0 ∧ v 2 < 0) ∨ (v 0 < 0 ∧ 0 < v 2); tauto)
    have c2 : cuts d2 v 2 = true := cuts_true h0 h3 (by show (0 < v 0 ∧ v 3 < 0) ∨ (v 0 < 0 ∧ 0 < v 3); tauto)
    have c3 : cuts d2 v 3 = true := cuts_true h1 h2 (by show (0 < v 1 ∧ v 2 < 0) ∨ (v 1 < 0 ∧ 0 < v 2); tauto)
    have c4 : cuts d2 v 4 = true := cuts_true h1 h3 (by show (0 < v 1 ∧ v 3 < 0) ∨ (v 1 < 0 ∧ 0 < v 3); tauto)
    have c5 : cuts d2 v 5 = false := cuts_false (by show (0 < v 2 ∧ 0 < v 3) ∨ (v 2 < 0 ∧ v 3 < 0); tauto)
    refine key 30 _ _ ?_ rfl rfl rfl (zt 1 c1) (zt 2 c2) (zt 3 c3) (zt 4 c4)
    simp [List.range_succ, c0, c1, c2, c3, c4, c5]
  · have c0 : cuts d2 v 0 = true := cuts_true h0 h1 (by show (0 < v 0 ∧ v 1 < 0) ∨ (v 0 < 0 ∧ 0 < v 1); tauto)
    have c1 : cuts d2 v 1 = false := cuts_false (by show (0 < v 0 ∧ 0 < v 2) ∨ (v 0 < 0 ∧ v 2 < 0); tauto)
    have c2 : cuts d2 v 2 = true := cuts_true h0 h3 (by show (0 < v 0 ∧ v 3 < 0) ∨ (v 0 < 0 ∧ 0 < v 3); tauto)
    have c3 : cuts d2 v 3 = true := cuts_true h1 h2 (by show (0 < v 1 ∧ v 2 < 0) ∨ (v 1 < 0 ∧ 0 < v 2); tauto)
    have c4 : cuts d2 v 4 = false := cuts_false (by show (0 < v 1 ∧ 0 < v 3) ∨ (v 1 < 0 ∧ v 3 < 0); tauto)
    have c5 : cuts d2 v 5 = true := cuts_true h2 h3 (by show (0 < v 2 ∧ v 3 < 0) ∨ (v 2 < 0 ∧ 0 < v 3); tauto)
    have n10 : v 1 ≠ v 0 := by rcases ho with h | h <;> intro e <;> linarith [h.1, h.2.2.2]
    have n32 : v 3 ≠ v 2 := by rcases ho with h | h <;> intro e <;> linarith [h.2.1, h.2.2.1]
    have n30 : v 3 ≠ v 0 := by rcases ho with h | h <;> intro e <;> linarith [h.2.1, h.2.2.2]
    refine key 45 _ _ ?_ rfl rfl rfl (zt 3 c3) ((zt 0 c0).trans (lerp_flip _ _ n10)) ((zt 5 c5).trans (lerp_flip _ _ n32))
      ((zt 2 c2).trans (lerp_flip _ _ n30))
    simp [List.range_succ, c0, c1, c2, c3, c4, c5]
  · have c0 : cuts d2 v 0 = true := cuts_true h0 h1 (by show (0 < v 0 ∧ v 1 < 0) ∨ (v 0 < 0 ∧ 0 < v 1); tauto)
    have c1 : cuts d2 v 1 = true := cuts_true h0 h2 (by show (0 < v 0 ∧ v 2 < 0) ∨ (v 0 < 0 ∧ 0 < v 2); tauto)
    have c2 : cuts d2 v 2 = false := cuts_false (by show (0 < v 0 ∧ 0 < v 3) ∨ (v 0 < 0 ∧ v 3 < 0); tauto)
    have c3 : cuts d2 v 3 = false := cuts_false (by show (0 < v 1 ∧ 0 < v 2) ∨ (v 1 < 0 ∧ v 2 < 0); tauto)
    have c4 : cuts d2 v 4 = true := cuts_true h1 h3 (by show (0 < v 1 ∧ v 3 < 0) ∨ (v 1 < 0 ∧ 0 < v 3); tauto)
    have c5 : cuts d2 v 5 = true := cuts_true h2 h3 (by show (0 < v 2 ∧ v 3 < 0) ∨ (v 2 < 0 ∧ 0 < v 3); tauto)
    have n10 : v 1 ≠ v 0 := by rcases ho with h | h <;> intro e <;> linarith [h.1, h.2.2.1]
    have n20 : v 2 ≠ v 0 := by rcases ho with h | h <;> intro e <;> linarith [h.2.1, h.2.2.1]
    refine key 51 _ _ ?_ rfl rfl rfl ((zt 0 c0).trans (lerp_flip _ _ n10)) (zt 4 c4) ((zt 1 c1).trans (lerp_flip _ _ n20))
      (zt 5 c5)
    simp [List.range_succ, c0, c1, c2, c3, c4, c5]

/-- The lists of the vertices of each sort. -/
def zers (eps : K) (v : Nat → K) : List Nat := (List.range 4).filter fun i => decide (|v i| < eps)

def plss (eps : K) (v : Nat → K) : List Nat :=
  (List.range 4).filter fun i => decide (¬ |v i| < eps) && decide (eps ≤ v i)

def mnss (eps : K) (v : Nat → K) : List Nat :=
  (List.range 4).filter fun i => decide (¬ |v i| < eps) && !decide (eps ≤ v i)

theorem four_signs (eps : K) (he : 0 < eps) (v : Nat → K) (hc : Clean 4 eps v) (m0 : (mnss eps v).length ≠ 0)
    (p0 : (plss eps v).length ≠ 0) (m1 : (mnss eps v).length ≠ 1) (p1 : (plss eps v).length ≠ 1) :
    (∀ i < 4, ¬ |v i| < eps) ∧
    (Opp (v 0) (v 1) (v 2) (v 3) ∨ Opp (v 1) (v 3) (v 2) (v 0) ∨ Opp (v 1) (v 2) (v 0) (v 3)) := by
  have hr : List.range 4 = [0, 1, 2, 3] := rfl
  unfold mnss at m0 m1
  unfold plss at p0 p1
  rw [hr] at m0 m1 p0 p1
  have hq : ∀ {a b c d : Prop}, a → b → c → d → a ∧ b ∧ c ∧ d := fun a b c d => ⟨a, b, c, d⟩
  rcases sort3 he (v 0) (hc 0 (by decide)) with ⟨a1, a2, a3⟩ | ⟨a1, a2, a3⟩ | ⟨a1, a2, a3⟩ <;>
  rcases sort3 he (v 1) (hc 1 (by decide)) with ⟨b1, b2, b3⟩ | ⟨b1, b2, b3⟩ | ⟨b1, b2, b3⟩ <;>
  rcases sort3 he (v 2) (hc 2 (by decide)) with ⟨c1, c2, c3⟩ | ⟨c1, c2, c3⟩ | ⟨c1, c2, c3⟩ <;>
  rcases sort3 he (v 3) (hc 3 (by decide)) with ⟨d1, d2, d3⟩ | ⟨d1, d2, d3⟩ | ⟨d1, d2, d3⟩ <;>
  simp only [List.filter_cons, List.filter_nil, a1, b1, c1, d1, a2, b2, c2, d2, decide_true, decide_false,
    not_true_eq_false, not_false_eq_true, Bool.and_true, Bool.and_false, Bool.false_and, Bool.not_true,
    Bool.not_false, if_true, if_false, List.length_cons, List.length_nil, Bool.false_eq_true, ne_eq,
    Nat.reduceAdd, zero_add, Nat.succ_ne_self] at m0 m1 p0 p1 <;>
  (refine ⟨?_, ?_⟩
   · intro i hi
     interval_cases i <;> assumption
   · first
     | exact .inl (.inl ⟨a3, b3, c3, d3⟩)
     | exact .inl (.inr ⟨a3, b3, c3, d3⟩)
     | exact .inr (.inl (.inl ⟨b3, d3, c3, a3⟩))
     | exact .inr (.inl (.inr ⟨b3, d3, c3, a3⟩))
     | exact .inr (.inr (.inl ⟨b3, c3, a3, d3⟩))
     | exact .inr (.inr (.inr ⟨b3, c3, a3, d3⟩)))

/-- The value at the four vertices decides which formula `MMG3D_vfrac` uses. -/
theorem vfrac3_eq (eps d2 : K) (he : 0 < eps) (hd : d2 ≤ eps) (p : Nat → Pt K) (v : Nat → K) (hc : Clean 4 eps v) :
    let A := |vol (p 0) (p 1) (p 2) (p 3)|
    let c (i j k l : Nat) := v i / (v i - v j) * (v i / (v i - v k)) * (v i / (v i - v l))
    let w (i j k l : Nat) :=
      wfrac (v i / (v i - v k)) (v i / (v i - v l)) (v j / (v j - v k)) (v j / (v j - v l))
    (v 0 = 0 ∧ v 1 = 0 ∧ v 2 = 0 ∧ v 3 = 0 ∧ vfrac3 eps d2 p v true = 0 ∧ vfrac3 eps d2 p v false = 0) ∨
    (0 ≤ v 0 ∧ 0 ≤ v 1 ∧ 0 ≤ v 2 ∧ 0 ≤ v 3 ∧ vfrac3 eps d2 p v true = A ∧ vfrac3 eps d2 p v false = 0) ∨
    (v 0 ≤ 0 ∧ v 1 ≤ 0 ∧ v 2 ≤ 0 ∧ v 3 ≤ 0 ∧ vfrac3 eps d2 p v true = 0 ∧ vfrac3 eps d2 p v false = A) ∨
    (∃ i j k l, (i, j, k, l) ∈ [(0, 1, 2, 3), (1, 0, 3, 2), (2, 0, 1, 3), (3, 0, 2, 1)] ∧
      ((0 < v i ∧ v j ≤ 0 ∧ v k ≤ 0 ∧ v l ≤ 0 ∧ vfrac3 eps d2 p v true = c i j k l * A ∧
          vfrac3 eps d2 p v false = (1 - c i j k l) * A) ∨
       (v i < 0 ∧ 0 ≤ v j ∧ 0 ≤ v k ∧ 0 ≤ v l ∧ vfrac3 eps d2 p v true = (1 - c i j k l) * A ∧
          vfrac3 eps d2 p v false = c i j k l * A))) ∨
    (∃ i j k l, (i, j, k, l) ∈ [(0, 1, 2, 3), (1, 3, 2, 0), (1, 2, 0, 3)] ∧
      ((0 < v i ∧ 0 < v j ∧ v k < 0 ∧ v l < 0 ∧ vfrac3 eps d2 p v true = w i j k l * A ∧
          vfrac3 eps d2 p v false = (1 - w i j k l) * A) ∨
       (v i < 0 ∧ v j < 0 ∧ 0 < v k ∧ 0 < v l ∧ vfrac3 eps d2 p v true = (1 - w i j k l) * A ∧
          vfrac3 eps d2 p v false = w i j k l * A))) := by
  intro A c w
  have q1 : |vol (p 1) (p 0) (p 3) (p 2)| = A := by
    have : vol (p 1) (p 0) (p 3) (p 2) = vol (p 0) (p 1) (p 2) (p 3) := by simp only [vol]; ring
    rw [this]
  have q2 : |vol (p 2) (p 0) (p 1) (p 3)| = A := by
    have : vol (p 2) (p 0) (p 1) (p 3) = vol (p 0) (p 1) (p 2) (p 3) := by simp only [vol]; ring
    rw [this]
  have q3 : |vol (p 3) (p 0) (p 2) (p 1)| = A := by
    have : vol (p 3) (p 0) (p 2) (p 1) = vol (p 0) (p 1) (p 2) (p 3) := by simp only [vol]; ring
    rw [this]
  have r1 : |vol (p 1) (p 3) (p 2) (p 0)| = A := by
    have : vol (p 1) (p 3) (p 2) (p 0) = vol (p 0) (p 1) (p 2) (p 3) := by simp only [vol]; ring
    rw [this]
  have r2 : |vol (p 1) (p 2) (p 0) (p 3)| = A := by
    have : vol (p 1) (p 2) (p 0) (p 3) = vol (p 0) (p 1) (p 2) (p 3) := by simp only [vol]; ring
    rw [this]
  have hsmall : ∀ x : K, ¬ |x| < eps → ¬ |x| < d2 := fun x h h' => h (h'.trans_le hd)
  have tt : (∀ i < 4, ¬ |v i| < eps) → ∀ i j k l, (i, j, k, l) ∈ [(0, 1, 2, 3), (1, 3, 2, 0), (1, 2, 0, 3)] →
      |vol (p i) (p j) (p k) (p l)| = A →
      (0 < v i ∧ 0 < v j ∧ v k < 0 ∧ v l < 0 → twoTwo d2 p v true = w i j k l * A ∧
          twoTwo d2 p v false = (1 - w i j k l) * A) ∧
      (v i < 0 ∧ v j < 0 ∧ 0 < v k ∧ 0 < v l → twoTwo d2 p v true = (1 - w i j k l) * A ∧
          twoTwo d2 p v false = w i j k l * A) := by
    intro hv i j k l hm hA
    constructor
    · intro ho
      have := twoTwo_eq (d2 := d2) p v (fun i hi => hsmall _ (hv i hi)) hm (.inl ho)
      rw [hA, decide_eq_true ho.1] at this
      exact this
    · intro ho
      have := twoTwo_eq (d2 := d2) p v (fun i hi => hsmall _ (hv i hi)) hm (.inr ho)
      rw [hA, decide_eq_false (not_lt.2 ho.1.le)] at this
      exact ⟨this.2, this.1⟩
  have cc : ∀ i j k l, (i, j, k, l) ∈ [(0, 1, 2, 3), (1, 0, 3, 2), (2, 0, 1, 3), (3, 0, 2, 1)] →
      ((0 < v i ∧ v j ≤ 0 ∧ v k ≤ 0 ∧ v l ≤ 0) ∨ (v i < 0 ∧ 0 ≤ v j ∧ 0 ≤ v k ∧ 0 ≤ v l)) →
      corner3 p v i false = c i j k l * A ∧ corner3 p v i true = (1 - c i j k l) * A := by
    intro i j k l hm hs
    have e := corner3_eq (p i) (p j) (p k) (p l) hs
    simp only [List.mem_cons, List.not_mem_nil, or_false, Prod.mk.injEq] at hm
    rcases hm with ⟨rfl, rfl, rfl, rfl⟩ | ⟨rfl, rfl, rfl, rfl⟩ | ⟨rfl, rfl, rfl, rfl⟩ | ⟨rfl, rfl, rfl, rfl⟩
    · refine ⟨e, ?_⟩
      show A - _ = _
      refine (congrArg (A - ·) e).trans ?_
      show A - c 0 1 2 3 * A = _
      ring
    · rw [q1] at e
      refine ⟨e, ?_⟩
      refine (congrArg (A - ·) e).trans ?_
      show A - c 1 0 3 2 * A = _
      ring
    · rw [q2] at e
      refine ⟨e, ?_⟩
      refine (congrArg (A - ·) e).trans ?_
      show A - c 2 0 1 3 * A = _
      ring
    · rw [q3] at e
      refine ⟨e, ?_⟩
      refine (congrArg (A - ·) e).trans ?_
      show A - c 3 0 2 1 * A = _
      ring
  have srt := fun i (hi : i < 4) => sort3 he (v i) (hc i hi)
  -- the three lists
  have hv3 : ∀ pm, vfrac3 eps d2 p v pm = if (zers eps v).length = 4 then 0
      else if (mnss eps v).length = 0 then (if pm then A else 0)
      else if (plss eps v).length = 0 then (if pm then 0 else A)
      else if (mnss eps v).length = 1 then corner3 p v ((mnss eps v).getD 0 0) pm
      else if (plss eps v).length = 1 then corner3 p v ((plss eps v).getD 0 0) (!pm)
      else twoTwo d2 p v pm := fun _ => rfl
  have mz : ∀ i, i ∈ zers eps v ↔ i < 4 ∧ |v i| < eps := fun i => by simp [zers]
  have mm : ∀ i < 4, i ∈ mnss eps v ↔ v i < 0 := by
    intro i hi
    simp only [mnss, List.mem_filter, List.mem_range, hi, true_and, Bool.and_eq_true, decide_eq_true_eq,
      Bool.not_eq_true', decide_eq_false_iff_not]
    rcases srt i hi with ⟨x, y, z⟩ | ⟨x, y, z⟩ | ⟨x, y, z⟩
    · simp [x, z]
    · simp [y, z.le]
    · simp [x, y, z]
  have mp : ∀ i < 4, i ∈ plss eps v ↔ 0 < v i := by
    intro i hi
    simp only [plss, List.mem_filter, List.mem_range, hi, true_and, Bool.and_eq_true, decide_eq_true_eq]
    rcases srt i hi with ⟨x, y, z⟩ | ⟨x, y, z⟩ | ⟨x, y, z⟩
    · exact ⟨fun h => absurd x h.1, fun h => by rw [z] at h; exact absurd h (lt_irrefl _)⟩
    · simp [x, y, z]
    · simp [y, z.le]
  have lm : ∀ i ∈ mnss eps v, i < 4 := fun i hi => List.mem_range.1 (List.mem_filter.1 hi).1
  have lp : ∀ i ∈ plss eps v, i < 4 := fun i hi => List.mem_range.1 (List.mem_filter.1 hi).1
  by_cases c0 : (zers eps v).length = 4
  · refine .inl ?_
    have hz : zers eps v = List.range 4 := List.filter_sublist.eq_of_length (by rw [List.length_range]; exact c0)
    have : ∀ i < 4, v i = 0 := fun i hi => hc i hi ((mz i).1 (by rw [hz]; exact List.mem_range.2 hi)).2
    refine ⟨this 0 (by decide), this 1 (by decide), this 2 (by decide), this 3 (by decide), ?_, ?_⟩ <;>
      rw [hv3, if_pos c0]
  by_cases c1 : (mnss eps v).length = 0
  · refine .inr (.inl ?_)
    have : ∀ i < 4, 0 ≤ v i := fun i hi => not_lt.1 fun h => by
      have := (mm i hi).2 h
      rw [List.eq_nil_of_length_eq_zero c1] at this
      cases this
    refine ⟨this 0 (by decide), this 1 (by decide), this 2 (by decide), this 3 (by decide), ?_, ?_⟩ <;>
      rw [hv3, if_neg c0, if_pos c1] <;> rfl
  by_cases c2 : (plss eps v).length = 0
  · refine .inr (.inr (.inl ?_))
    have : ∀ i < 4, v i ≤ 0 := fun i hi => not_lt.1 fun h => by
      have := (mp i hi).2 h
      rw [List.eq_nil_of_length_eq_zero c2] at this
      cases this
    refine ⟨this 0 (by decide), this 1 (by decide), this 2 (by decide), this 3 (by decide), ?_, ?_⟩ <;>
      rw [hv3, if_neg c0, if_neg c1, if_pos c2] <;> rfl
  by_cases c3 : (mnss eps v).length = 1
  · refine .inr (.inr (.inr (.inl ?_)))
    obtain ⟨i, hi⟩ := List.length_eq_one_iff.1 c3
    have hi4 : i < 4 := lm i (by rw [hi]; simp)
    have hneg : v i < 0 := (mm i hi4).1 (by rw [hi]; simp)
    have hoth : ∀ j < 4, j ≠ i → 0 ≤ v j := fun j hj hne => not_lt.1 fun h => by
      have := (mm j hj).2 h
      rw [hi, List.mem_singleton] at this
      exact hne this
    have ev : ∀ pm, vfrac3 eps d2 p v pm = corner3 p v i pm := fun pm => by
      rw [hv3, if_neg c0, if_neg c1, if_neg c2, if_pos c3, hi]; rfl
    rw [ev, ev]
    have fin : ∀ j k l, (i, j, k, l) ∈ [(0, 1, 2, 3), (1, 0, 3, 2), (2, 0, 1, 3), (3, 0, 2, 1)] → j < 4 → k < 4 → l < 4 →
        j ≠ i → k ≠ i → l ≠ i → _ := fun j k l hm hj hk hl nj nk nl =>
      (⟨i, j, k, l, hm, .inr ⟨hneg, hoth j hj nj, hoth k hk nk, hoth l hl nl,
        (cc i j k l hm (.inr ⟨hneg, hoth j hj nj, hoth k hk nk, hoth l hl nl⟩)).2,
        (cc i j k l hm (.inr ⟨hneg, hoth j hj nj, hoth k hk nk, hoth l hl nl⟩)).1⟩⟩ :
        ∃ i' j k l, (i', j, k, l) ∈ [(0, 1, 2, 3), (1, 0, 3, 2), (2, 0, 1, 3), (3, 0, 2, 1)] ∧
      ((0 < v i' ∧ v j ≤ 0 ∧ v k ≤ 0 ∧ v l ≤ 0 ∧ corner3 p v i true = c i' j k l * A ∧
          corner3 p v i false = (1 - c i' j k l) * A) ∨
       (v i' < 0 ∧ 0 ≤ v j ∧ 0 ≤ v k ∧ 0 ≤ v l ∧ corner3 p v i true = (1 - c i' j k l) * A ∧
          corner3 p v i false = c i' j k l * A)))
    clear hi ev hneg hoth
    interval_cases i
    · exact fin 1 2 3 (by simp) (by decide) (by decide) (by decide) (by decide) (by decide) (by decide)
    · exact fin 0 3 2 (by simp) (by decide) (by decide) (by decide) (by decide) (by decide) (by decide)
    · exact fin 0 1 3 (by simp) (by decide) (by decide) (by decide) (by decide) (by decide) (by decide)
    · exact fin 0 2 1 (by simp) (by decide) (by decide) (by decide) (by decide) (by decide) (by decide)
  by_cases c4 : (plss eps v).length = 1
  · refine .inr (.inr (.inr (.inl ?_)))
    obtain ⟨i, hi⟩ := List.length_eq_one_iff.1 c4
    have hi4 : i < 4 := lp i (by rw [hi]; simp)
    have hneg : 0 < v i := (mp i hi4).1 (by rw [hi]; simp)
    have hoth : ∀ j < 4, j ≠ i → v j ≤ 0 := fun j hj hne => not_lt.1 fun h => by
      have := (mp j hj).2 h
      rw [hi, List.mem_singleton] at this
      exact hne this
    have ev : ∀ pm, vfrac3 eps d2 p v pm = corner3 p v i (!pm) := fun pm => by
      rw [hv3, if_neg c0, if_neg c1, if_neg c2, if_neg c3, if_pos c4, hi]; rfl
    rw [ev, ev, Bool.not_true, Bool.not_false]
    have fin : ∀ j k l, (i, j, k, l) ∈ [(0, 1, 2, 3), (1, 0, 3, 2), (2, 0, 1, 3), (3, 0, 2, 1)] → j < 4 → k < 4 → l < 4 →
        j ≠ i → k ≠ i → l ≠ i → _ := fun j k l hm hj hk hl nj nk nl =>
      (⟨i, j, k, l, hm, .inl ⟨hneg, hoth j hj nj, hoth k hk nk, hoth l hl nl,
        (cc i j k l hm (.inl ⟨hneg, hoth j hj nj, hoth k hk nk, hoth l hl nl⟩)).1,
        (cc i j k l hm (.inl ⟨hneg, hoth j hj nj, hoth k hk nk, hoth l hl nl⟩)).2⟩⟩ :
        ∃ i' j k l, (i', j, k, l) ∈ [(0, 1, 2, 3), (1, 0, 3, 2), (2, 0, 1, 3), (3, 0, 2, 1)] ∧
      ((0 < v i' ∧ v j ≤ 0 ∧ v k ≤ 0 ∧ v l ≤ 0 ∧ corner3 p v i false = c i' j k l * A ∧
          corner3 p v i true = (1 - c i' j k l) * A) ∨
       (v i' < 0 ∧ 0 ≤ v j ∧ 0 ≤ v k ∧ 0 ≤ v l ∧ corner3 p v i false = (1 - c i' j k l) * A ∧
          corner3 p v i true = c i' j k l * A)))
    clear hi ev hneg hoth
    interval_cases i
    · exact fin 1 2 3 (by simp) (by decide) (by decide) (by decide) (by decide) (by decide) (by decide)
    · exact fin 0 3 2 (by simp) (by decide) (by decide) (by decide) (by decide) (by decide) (by decide)
    · exact fin 0 1 3 (by simp) (by decide) (by decide) (by decide) (by decide) (by decide) (by decide)
    · exact fin 0 2 1 (by simp) (by decide) (by decide) (by decide) (by decide) (by decide) (by decide)
  refine .inr (.inr (.inr (.inr ?_)))
  have ev : ∀ pm, vfrac3 eps d2 p v pm = twoTwo d2 p v pm := fun pm => by
    rw [hv3, if_neg c0, if_neg c1, if_neg c2, if_neg c3, if_neg c4]
  rw [ev, ev]
  have hsig := four_signs eps he v hc c1 c2 c3 c4
  have hnz : ∀ i < 4, ¬ |v i| < eps := hsig.1
  have fin : ∀ i j k l, (i, j, k, l) ∈ [(0, 1, 2, 3), (1, 3, 2, 0), (1, 2, 0, 3)] →
      |vol (p i) (p j) (p k) (p l)| = A → Opp (v i) (v j) (v k) (v l) →
      ∃ i j k l, (i, j, k, l) ∈ [(0, 1, 2, 3), (1, 3, 2, 0), (1, 2, 0, 3)] ∧
      ((0 < v i ∧ 0 < v j ∧ v k < 0 ∧ v l < 0 ∧ twoTwo d2 p v true = w i j k l * A ∧
          twoTwo d2 p v false = (1 - w i j k l) * A) ∨
       (v i < 0 ∧ v j < 0 ∧ 0 < v k ∧ 0 < v l ∧ twoTwo d2 p v true = (1 - w i j k l) * A ∧
          twoTwo d2 p v false = w i j k l * A)) := by
    intro i j k l hm hA ho
    refine ⟨i, j, k, l, hm, ?_⟩
    rcases ho with ho | ho
    · exact .inl ⟨ho.1, ho.2.1, ho.2.2.1, ho.2.2.2, (tt hnz i j k l hm hA).1 ho⟩
    · exact .inr ⟨ho.1, ho.2.1, ho.2.2.1, ho.2.2.2, (tt hnz i j k l hm hA).2 ho⟩
  rcases hsig.2 with ho | ho | ho
  · exact fin 0 1 2 3 (by simp) rfl ho
  · exact fin 1 3 2 0 (by simp) r1 ho
  · exact fin 1 2 0 3 (by simp) r2 ho

end Mmg.Rmc
