/-
Diagonalization of one metric (the case of two proportional metrics), bounds of the sizes, interpolation of two sizes.
-/
import Verif.Met2Lemmas

namespace Mmg.Met2

/-! ### Bounds -/

theorem InRange.metric {hmin hmax : ℝ} {m : Sym} (h1 : 0 < hmax) (h : InRange hmin hmax m) : Metric m := by
  intro x y hxy
  refine lt_of_lt_of_le ?_ (h x y).1
  apply div_pos _ (by positivity)
  rcases hxy with h | h
  · have : 0 < x ^ 2 := by positivity
    nlinarith [sq_nonneg y]
  · have : 0 < y ^ 2 := by positivity
    nlinarith [sq_nonneg x]

theorem quad_det {a b c : ℝ} (h : ∀ x y : ℝ, 0 ≤ a * x ^ 2 + 2 * b * (x * y) + c * y ^ 2) :
    0 ≤ a ∧ 0 ≤ c ∧ b * b ≤ a * c := by
  have ha : 0 ≤ a := by have := h 1 0; linarith
  have hc : 0 ≤ c := by have := h 0 1; linarith
  refine ⟨ha, hc, ?_⟩
  by_contra hn
  push Not at hn
  have h1 := h (-b) a
  have h2 := h c (-b)
  have h3 := h 1 (-b)
  have h4 := h 1 b
  have ea : a = 0 := by
    by_contra hne
    have : 0 < a := lt_of_le_of_ne ha (Ne.symm hne)
    nlinarith
  have ec : c = 0 := by
    by_contra hne
    have : 0 < c := lt_of_le_of_ne hc (Ne.symm hne)
    nlinarith
  rw [ea, ec] at hn
  rw [ea, ec] at h3
  nlinarith

section range
variable {hmin hmax : ℝ} {m : Sym}

/-- Lower bound in terms of coefficients. -/
theorem InRange.low (h : InRange hmin hmax m) :
    1 / hmax ^ 2 ≤ m.a ∧ 1 / hmax ^ 2 ≤ m.c ∧ m.b * m.b ≤ (m.a - 1 / hmax ^ 2) * (m.c - 1 / hmax ^ 2) := by
  have := quad_det (a := m.a - 1 / hmax ^ 2) (b := m.b) (c := m.c - 1 / hmax ^ 2) (by
    intro x y
    have := (h x y).1
    unfold len2 at this
    have e : (x ^ 2 + y ^ 2) / hmax ^ 2 = 1 / hmax ^ 2 * x ^ 2 + 1 / hmax ^ 2 * y ^ 2 := by ring
    rw [e] at this
    linarith)
  exact ⟨by linarith [this.1], by linarith [this.2.1], this.2.2⟩

theorem InRange.det (h1 : 0 < hmax) (h : InRange hmin hmax m) : (1 / hmax ^ 2) ^ 2 ≤ m.a * m.c - m.b * m.b := by
  obtain ⟨a, c, b⟩ := h.low
  have : 0 < 1 / hmax ^ 2 := by positivity
  nlinarith

theorem InRange.up_a (h : InRange hmin hmax m) : m.a ≤ 1 / hmin ^ 2 := by
  have := (h 1 0).2
  simpa [len2] using this

theorem InRange.up_c (h : InRange hmin hmax m) : m.c ≤ 1 / hmin ^ 2 := by
  have := (h 0 1).2
  simpa [len2] using this

theorem InRange.up_unit (h : InRange hmin hmax m) {v : V2} (hv : v.x ^ 2 + v.y ^ 2 = 1) :
    len2 m v.x v.y ≤ 1 / hmin ^ 2 := by
  have := (h v.x v.y).2
  rwa [hv] at this

theorem InRange.low_unit (h : InRange hmin hmax m) {v : V2} (hv : v.x ^ 2 + v.y ^ 2 = 1) :
    1 / hmax ^ 2 ≤ len2 m v.x v.y := by
  have := (h v.x v.y).1
  rwa [hv] at this

end range

theorem abs_b_le {m : Sym} (h : Metric m) : |m.b| ≤ max m.a m.c := by
  have ha := h.pa
  have hc := h.pc
  have hd := h.pd
  apply abs_le_of_sq_le_sq
  · have h1 := le_max_left m.a m.c
    have h2 := le_max_right m.a m.c
    nlinarith
  · exact ha.le.trans (le_max_left _ _)

theorem maxm_pos (e13 : ℝ) {m : Sym} (h : Metric m) : 0 < maxm e13 m := by
  unfold maxm
  split
  · exact one_pos
  · have := h.pa
    have h1 : |m.a| ≤ max (max |m.a| |m.b|) |m.c| := (le_max_left _ _).trans (le_max_left _ _)
    rw [abs_of_pos this] at h1
    rw [abs_of_pos this]
    linarith

theorem maxm_le (e13 : ℝ) {m : Sym} (h : Metric m) {U : ℝ} (ha : m.a ≤ U) (hc : m.c ≤ U) : maxm e13 m ≤ 1 + U := by
  have hb := abs_b_le h
  have p := h.pa
  have q := h.pc
  unfold maxm
  split
  · linarith
  · rw [abs_of_pos p, abs_of_pos q]
    have : max m.a m.c ≤ U := max_le ha hc
    have : max (max m.a |m.b|) m.c ≤ U := max_le (max_le ha (hb.trans this)) hc
    linarith

/-! ### Diagonal form -/

/-- The form with value l0 along v and l1 along w. -/
def two (l0 l1 : ℝ) (v w : V2) (x y : ℝ) : ℝ := l0 * (v.x * x + v.y * y) ^ 2 + l1 * (w.x * x + w.y * y) ^ 2

theorem recompose_eq (d0 d1 : ℝ) (v w : V2) (x y : ℝ) : len2 (recompose d0 d1 v w) x y = two d0 d1 v w x y := by
  unfold len2 recompose two
  ring

/-- What is known of the (approximate) eigenvalues and eigenvectors of a metric. -/
structure Diag (m : Sym) (E : ℝ) (l0 l1 : ℝ) (v w : V2) : Prop where
  u : v.x ^ 2 + v.y ^ 2 = 1
  wx : w.x = -v.y
  wy : w.y = v.x
  lo : ∀ x y, two l0 l1 v w x y ≤ len2 m x y + E * (x ^ 2 + y ^ 2)
  hi : ∀ x y, len2 m x y ≤ two l0 l1 v w x y + E * (x ^ 2 + y ^ 2)
  le0 : l0 ≤ len2 m v.x v.y
  le1 : l1 ≤ len2 m w.x w.y
  ge0 : len2 m v.x v.y ≤ l0 + E
  ge1 : len2 m w.x w.y ≤ l1 + E
  min : ∀ L, (∀ x y, L * (x ^ 2 + y ^ 2) ≤ len2 m x y) → L ≤ l0 ∧ L ≤ l1

theorem Diag.uw {m : Sym} {E l0 l1 : ℝ} {v w : V2} (h : Diag m E l0 l1 v w) : w.x ^ 2 + w.y ^ 2 = 1 := by
  rw [h.wx, h.wy]; linarith [h.u]

theorem Diag.pyth {m : Sym} {E l0 l1 : ℝ} {v w : V2} (h : Diag m E l0 l1 v w) (x y : ℝ) :
    (v.x * x + v.y * y) ^ 2 + (w.x * x + w.y * y) ^ 2 = x ^ 2 + y ^ 2 := by
  rw [h.wx, h.wy]
  linear_combination (x ^ 2 + y ^ 2) * h.u

theorem diag_plain {m : Sym} {E : ℝ} (hb : |m.b| ≤ E) : Diag m E m.a m.c ⟨1, 0⟩ ⟨0, 1⟩ := by
  have hE : 0 ≤ E := (abs_nonneg _).trans hb
  have key : ∀ x y : ℝ, |2 * m.b * (x * y)| ≤ E * (x ^ 2 + y ^ 2) := by
    intro x y
    have e : |2 * m.b * (x * y)| = |m.b| * (2 * |x * y|) := by
      rw [abs_mul, abs_mul, abs_of_pos (by norm_num : (0:ℝ) < 2)]; ring
    have h2 : 2 * |x * y| ≤ x ^ 2 + y ^ 2 := by
      rw [abs_mul]
      nlinarith [sq_nonneg (|x| - |y|), sq_abs x, sq_abs y]
    rw [e]
    calc |m.b| * (2 * |x * y|) ≤ |m.b| * (x ^ 2 + y ^ 2) := mul_le_mul_of_nonneg_left h2 (abs_nonneg _)
      _ ≤ E * (x ^ 2 + y ^ 2) := mul_le_mul_of_nonneg_right hb (by positivity)
  refine ⟨by simp, by simp, by simp, ?_, ?_, ?_, ?_, ?_, ?_, ?_⟩
  · intro x y
    have := neg_abs_le (2 * m.b * (x * y))
    have := key x y
    unfold two len2
    simp only
    nlinarith
  · intro x y
    have := le_abs_self (2 * m.b * (x * y))
    have := key x y
    unfold two len2
    simp only
    nlinarith
  · simp [len2]
  · simp [len2]
  · simp [len2, hE]
  · simp [len2, hE]
  · intro L h
    have h1 := h 1 0
    have h2 := h 0 1
    simp [len2] at h1 h2
    exact ⟨h1, h2⟩

theorem diag_eigensym {m : Sym} {eps e13 E : ℝ} (h : Metric m) (he : 0 < eps) (hE : eps * maxm e13 m ≤ E) :
    Diag m E (eigensym eps e13 m).1.1 (eigensym eps e13 m).1.2 (eigensym eps e13 m).2.1 (eigensym eps e13 m).2.2 := by
  have hk := maxm_pos e13 h
  set k := maxm e13 m with hkd
  have hki : k * (1 / k) = 1 := by rw [one_div, mul_inv_cancel₀ hk.ne']
  set a11 := m.a * (1 / k) with h11
  set a12 := m.b * (1 / k) with h12
  set a22 := m.c * (1 / k) with h22
  have ea : m.a = a11 * k := by rw [h11]; linear_combination (-m.a) * hki
  have eb : m.b = a12 * k := by rw [h12]; linear_combination (-m.b) * hki
  have ec : m.c = a22 * k := by rw [h22]; linear_combination (-m.c) * hki
  set sq := Real.sqrt ((a11 - a22) * (a11 - a22) + 4 * a12 * a12) with hsq
  have hsq0 : 0 ≤ sq := Real.sqrt_nonneg _
  have hsq2 : sq ^ 2 = (a11 - a22) * (a11 - a22) + 4 * a12 * a12 := by
    rw [hsq, Real.sq_sqrt]
    nlinarith [mul_self_nonneg (a11 - a22), mul_self_nonneg a12]
  set l0 := 1 / 2 * (a11 + a22 - sq) with hl0
  have hE0 : 0 ≤ E := (mul_nonneg he.le hk.le).trans hE
  have hid : Metric ⟨1, 0, 1⟩ := metric_of (by norm_num) (by norm_num)
  have hlow : ∀ x y : ℝ, l0 * (x ^ 2 + y ^ 2) ≤ a11 * x ^ 2 + 2 * a12 * (x * y) + a22 * y ^ 2 := by
    intro x y
    have := psd (m := ⟨1, 0, 1⟩) hid (a := a11 - l0) (b := a12) (c := a22 - l0)
      (by rw [hl0]; linear_combination (1 / 4) * hsq2) (by simp only; rw [hl0]; linarith) x y
    linarith
  have hup : ∀ x y : ℝ, a11 * x ^ 2 + 2 * a12 * (x * y) + a22 * y ^ 2 ≤ (l0 + sq) * (x ^ 2 + y ^ 2) := by
    intro x y
    have := psd (m := ⟨1, 0, 1⟩) hid (a := l0 + sq - a11) (b := -a12) (c := l0 + sq - a22)
      (by rw [hl0]; linear_combination (1 / 4) * hsq2) (by simp only; rw [hl0]; linarith) x y
    linarith
  have hlen : ∀ x y, len2 m x y = k * (a11 * x ^ 2 + 2 * a12 * (x * y) + a22 * y ^ 2) := by
    intro x y
    unfold len2
    rw [ea, eb, ec]; ring
  have hmin : ∀ L, (∀ x y, L * (x ^ 2 + y ^ 2) ≤ len2 m x y) → L ≤ l0 * k := by
    intro L hL
    obtain ⟨q1, q2, q3⟩ := quad_det (a := m.a - L) (b := m.b) (c := m.c - L) (by
      intro x y
      have := hL x y
      unfold len2 at this
      linarith)
    have h1 : k * sq ≤ m.a + m.c - 2 * L := by
      apply le_of_abs_le
      apply abs_le_of_sq_le_sq _ (by linarith)
      have : (k * sq) ^ 2 = (m.a - m.c) ^ 2 + 4 * (m.b * m.b) := by
        rw [mul_pow, hsq2, ea, eb, ec]; ring
      rw [this]
      nlinarith
    have : l0 * k = 1 / 2 * (m.a + m.c - k * sq) := by rw [hl0, ea, ec]; ring
    rw [this]; linarith
  by_cases hs : sq < eps
  · have e : eigensym eps e13 m = ((l0 * k, l0 * k), (⟨1, 0⟩, ⟨0, 1⟩)) := by
      unfold eigensym
      simp only
      rw [if_pos (by exact hs)]
    rw [e]
    have hgap : k * sq ≤ E := by nlinarith
    have hlow' : ∀ x y, l0 * k * (x ^ 2 + y ^ 2) ≤ len2 m x y := by
      intro x y; rw [hlen]; nlinarith [hlow x y]
    have hup' : ∀ x y, len2 m x y ≤ l0 * k * (x ^ 2 + y ^ 2) + E * (x ^ 2 + y ^ 2) := by
      intro x y
      rw [hlen]
      have h1 := mul_le_mul_of_nonneg_left (hup x y) hk.le
      have h2 : k * sq * (x ^ 2 + y ^ 2) ≤ E * (x ^ 2 + y ^ 2) := mul_le_mul_of_nonneg_right hgap (by positivity)
      linarith
    refine ⟨by simp, by simp, by simp, ?_, ?_, ?_, ?_, ?_, ?_, fun L hL => ⟨hmin L hL, hmin L hL⟩⟩
    · intro x y
      have := hlow' x y
      have h2 : 0 ≤ E * (x ^ 2 + y ^ 2) := by positivity
      unfold two; simp only; linarith
    · intro x y
      have := hup' x y
      unfold two; simp only; linarith
    · have := hlow' 1 0; simpa using this
    · have := hlow' 0 1; simpa using this
    · have := hup' 1 0; simpa using this
    · have := hup' 0 1; simpa using this
  · set v := eigvec eps ⟨a11, a12, a12, a22⟩ l0 with hv
    have e : eigensym eps e13 m =
        ((l0 * k, (a11 * -v.y * -v.y + 2 * a12 * -v.y * v.x + a22 * v.x * v.x) * k), (v, ⟨-v.y, v.x⟩)) := by
      unfold eigensym
      simp only
      rw [if_neg (by exact hs)]
      rfl
    push Not at hs
    obtain ⟨⟨i1, i2⟩, u⟩ := eigvec_spec (eps := eps) ⟨a11, a12, a12, a22⟩ l0
      (by simp only; rw [hl0]; linear_combination (1 / 4) * hsq2)
      (by
        simp only
        have : 2 * l0 - (a11 + a22) = -sq := by rw [hl0]; ring
        rw [this, abs_neg, abs_of_nonneg hsq0]; exact hs) he
    rw [← hv] at i1 i2 u
    simp only at i1 i2
    rw [e]
    have l1e : (a11 * -v.y * -v.y + 2 * a12 * -v.y * v.x + a22 * v.x * v.x) * k = len2 m (-v.y) v.x := by
      rw [hlen]; ring
    have l0e : l0 * k = len2 m v.x v.y := by
      rw [hlen]
      linear_combination (-k) * (v.x * i1 + v.y * i2) - l0 * k * u
    have heq : ∀ x y, two (l0 * k) (len2 m (-v.y) v.x) v ⟨-v.y, v.x⟩ x y = len2 m x y := by
      intro x y
      rw [hlen, hlen]
      unfold two
      simp only
      have hx : x = (v.x * x + v.y * y) * v.x - (-v.y * x + v.x * y) * v.y := by linear_combination (-x) * u
      have hy : y = (v.x * x + v.y * y) * v.y + (-v.y * x + v.x * y) * v.x := by linear_combination (-y) * u
      generalize v.x * x + v.y * y = p at *
      generalize -v.y * x + v.x * y = q at *
      subst hx
      subst hy
      linear_combination (-k * p ^ 2) * (v.x * i1 + v.y * i2) - k * p ^ 2 * l0 * u +
        (2 * k * p * q) * (v.y * i1 - v.x * i2)
    rw [l1e]
    refine ⟨u, rfl, rfl, ?_, ?_, ?_, ?_, ?_, ?_, ?_⟩
    · intro x y
      rw [heq]
      have : 0 ≤ E * (x ^ 2 + y ^ 2) := by positivity
      linarith
    · intro x y
      rw [heq]
      have : 0 ≤ E * (x ^ 2 + y ^ 2) := by positivity
      linarith
    · exact l0e.le
    · exact le_refl _
    · rw [l0e]; linarith
    · simp only; linarith
    · intro L hL
      refine ⟨hmin L hL, ?_⟩
      have := hL (-v.y) v.x
      have e2 : (-v.y) ^ 2 + v.x ^ 2 = 1 := by linarith [u]
      rw [e2, mul_one] at this
      exact this

/-! ### Interpolation of two values -/

section mix
variable {eps s a b : ℝ}

theorem den_eq (ha : 0 ≤ a) (hb : 0 ≤ b) :
    (1 - s) * (1 - s) * b + s * s * a + 2 * s * (1 - s) * Real.sqrt (b * a) =
      ((1 - s) * Real.sqrt b + s * Real.sqrt a) ^ 2 := by
  rw [Real.sqrt_mul hb]
  have h1 := Real.sq_sqrt ha
  have h2 := Real.sq_sqrt hb
  linear_combination (-(s * s)) * h1 - (1 - s) * (1 - s) * h2

theorem mix_spec (ha : 0 < a) (hb : 0 < b) (h0 : 0 ≤ s) (h1 : s ≤ 1) :
    0 < mix eps s a b ∧ mix eps s a b ≤ (1 - s) * a + s * b ∧ 1 / mix eps s a b ≤ (1 - s) / a + s / b := by
  have hs : 0 ≤ 1 - s := by linarith
  have hss : 0 ≤ s * (1 - s) := mul_nonneg h0 hs
  have hmean : 0 < (1 - s) * a + s * b := by
    rcases h0.eq_or_lt with h | h
    · rw [← h]; linarith
    · have := mul_pos h hb
      have := mul_nonneg hs ha.le
      linarith
  unfold mix
  simp only
  split
  · refine ⟨hmean, le_refl _, ?_⟩
    rw [div_add_div _ _ ha.ne' hb.ne', div_le_div_iff₀ hmean (mul_pos ha hb)]
    nlinarith [mul_nonneg hss (sq_nonneg (a - b))]
  · rw [den_eq ha.le hb.le]
    set p := Real.sqrt a with hp
    set q := Real.sqrt b with hq
    have pp : 0 < p := Real.sqrt_pos.mpr ha
    have qp : 0 < q := Real.sqrt_pos.mpr hb
    have ea : a = p ^ 2 := (Real.sq_sqrt ha.le).symm
    have eb : b = q ^ 2 := (Real.sq_sqrt hb.le).symm
    have ht : 0 < (1 - s) * q + s * p := by
      rcases h0.eq_or_lt with h | h
      · rw [← h]; linarith
      · have := mul_pos h pp
        have := mul_nonneg hs qp.le
        linarith
    have ht2 : 0 < ((1 - s) * q + s * p) ^ 2 := by positivity
    clear_value p q
    subst ea
    subst eb
    refine ⟨by positivity, ?_, ?_⟩
    · rw [div_le_iff₀ ht2]
      have e : ((1 - s) * p ^ 2 + s * q ^ 2) * ((1 - s) * q + s * p) ^ 2 - q ^ 2 * p ^ 2 =
          s * (1 - s) * ((1 - s) * (q * ((q - p) ^ 2 * (q + 2 * p))) + s * (p * ((p - q) ^ 2 * (p + 2 * q)))) := by ring
      have : 0 ≤ s * (1 - s) * ((1 - s) * (q * ((q - p) ^ 2 * (q + 2 * p))) + s * (p * ((p - q) ^ 2 * (p + 2 * q)))) := by
        positivity
      linarith
    · rw [one_div_div, div_add_div _ _ ha.ne' hb.ne', div_le_div_iff₀ (by positivity) (mul_pos ha hb)]
      have e : ((1 - s) * q ^ 2 + p ^ 2 * s) * (q ^ 2 * p ^ 2) - ((1 - s) * q + s * p) ^ 2 * (p ^ 2 * q ^ 2) =
          s * (1 - s) * (q - p) ^ 2 * (p ^ 2 * q ^ 2) := by ring
      have : 0 ≤ s * (1 - s) * (q - p) ^ 2 * (p ^ 2 * q ^ 2) := by positivity
      linarith

theorem mix_min (ha : 0 < a) (hb : 0 < b) (h0 : 0 ≤ s) (h1 : s ≤ 1) {L : ℝ} (hL : 0 < L) (la : L ≤ a) (lb : L ≤ b) :
    L ≤ mix eps s a b := by
  obtain ⟨hp, _, h⟩ := mix_spec (eps := eps) ha hb h0 h1
  have i1 : (1 - s) / a ≤ (1 - s) / L := div_le_div_of_nonneg_left (by linarith) hL la
  have i2 : s / b ≤ s / L := div_le_div_of_nonneg_left h0 hL lb
  have i3 : (1 - s) / L + s / L = 1 / L := by ring
  have : 1 / mix eps s a b ≤ 1 / L := by linarith
  exact (one_div_le_one_div hp hL).mp this

theorem mix_zero (he : 0 < eps) (hb : 0 < b) : mix eps 0 a b = a := by
  unfold mix
  simp only
  split
  · ring
  · have : (1 - 0) * (1 - 0) * b + 0 * 0 * a + 2 * 0 * (1 - 0) * Real.sqrt (b * a) = b := by ring
    rw [this, mul_comm, mul_div_assoc, div_self hb.ne', mul_one]

theorem mix_one (he : 0 < eps) (ha : 0 < a) : mix eps 1 a b = b := by
  unfold mix
  simp only
  split
  · ring
  · have : (1 - 1) * (1 - 1) * b + 1 * 1 * a + 2 * 1 * (1 - 1) * Real.sqrt (b * a) = a := by ring
    rw [this, mul_div_assoc, div_self ha.ne', mul_one]

/-- When the denominator is not small the size (the inverse of the square root) is interpolated linearly. -/
theorem mix_size (ha : 0 < a) (hb : 0 < b) (h0 : 0 ≤ s) (h1 : s ≤ 1)
    (hd : eps ≤ ((1 - s) * Real.sqrt b + s * Real.sqrt a) ^ 2) :
    1 / Real.sqrt (mix eps s a b) = (1 - s) * (1 / Real.sqrt a) + s * (1 / Real.sqrt b) := by
  unfold mix
  simp only
  rw [den_eq ha.le hb.le, if_neg (by linarith)]
  have pp : 0 < Real.sqrt a := Real.sqrt_pos.mpr ha
  have qp : 0 < Real.sqrt b := Real.sqrt_pos.mpr hb
  have ht : 0 ≤ (1 - s) * Real.sqrt b + s * Real.sqrt a := by
    have := mul_nonneg h0 pp.le
    have := mul_nonneg (by linarith : 0 ≤ 1 - s) qp.le
    linarith
  rw [Real.sqrt_div (by positivity), Real.sqrt_mul hb.le, Real.sqrt_sq ht]
  field_simp

end mix

end Mmg.Met2
