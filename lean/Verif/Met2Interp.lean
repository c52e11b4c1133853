/-
C82: interpolation of two metrics of the plane along an edge.
-/
import Verif.Met2Props
import Verif.Met2Ex

namespace Mmg.Met2

variable {eps e13 hmin hmax s : ℝ} {m n r : Sym}

theorem sym_ext (h : ∀ x y, len2 m x y = len2 n x y) : m = n := by
  have h1 := h 1 0
  have h2 := h 0 1
  have h3 := h 1 1
  unfold len2 at h1 h2 h3
  ext <;> linarith

/-! ### The branches -/

theorem interp_distinct (hm : Metric m) (hn : Metric n) (hdet : eps * eps ≤ m.a * m.c - m.b * m.b)
    (hs : eps ≤ sqDelta (invMul m n)) :
    ∃ v w, v = eigvec eps (invMul m n) (lam0 (invMul m n)) ∧ w = eigvec eps (invMul m n) (lam1 (invMul m n)) ∧
      interp22 eps e13 m n s = recomposeInv eps (mix eps s (len2 m v.x v.y) (len2 n v.x v.y))
        (mix eps s (len2 m w.x w.y) (len2 n w.x w.y)) v w := by
  refine ⟨_, _, rfl, rfl, ?_⟩
  unfold interp22
  simp only
  rw [if_neg (by rw [abs_of_pos hm.pd]; linarith), if_neg (by have := lam0_pos hm hn; linarith), if_neg (by linarith),
    diagVal_eq, diagVal_eq, diagVal_eq, diagVal_eq]

theorem interp_det (hm : Metric m) (h : interp22 eps e13 m n s = some r) : eps * eps ≤ m.a * m.c - m.b * m.b := by
  by_contra hc
  push Not at hc
  unfold interp22 at h
  simp only at h
  rw [if_pos (by rw [abs_of_pos hm.pd]; exact hc)] at h
  exact absurd h (by simp)

/-- An orthonormal basis and values close to those of the metric along the basis. -/
structure Frame (m : Sym) (E : ℝ) (l0 l1 : ℝ) (v w : V2) : Prop where
  u : v.x ^ 2 + v.y ^ 2 = 1
  wx : w.x = -v.y
  wy : w.y = v.x
  le0 : l0 ≤ len2 m v.x v.y
  le1 : l1 ≤ len2 m w.x w.y
  ge0 : len2 m v.x v.y ≤ l0 + E
  ge1 : len2 m w.x w.y ≤ l1 + E
  min : ∀ L, (∀ x y, L * (x ^ 2 + y ^ 2) ≤ len2 m x y) → L ≤ l0 ∧ L ≤ l1

theorem Diag.frame {E l0 l1 : ℝ} {v w : V2} (h : Diag m E l0 l1 v w) : Frame m E l0 l1 v w :=
  ⟨h.u, h.wx, h.wy, h.le0, h.le1, h.ge0, h.ge1, h.min⟩

theorem frame_plain {E : ℝ} (hE : 0 ≤ E) : Frame m E m.a m.c ⟨1, 0⟩ ⟨0, 1⟩ := by
  refine ⟨by simp, by simp, by simp, by simp [len2], by simp [len2], by simp [len2, hE], by simp [len2, hE], ?_⟩
  intro L h
  have h1 := h 1 0
  have h2 := h 0 1
  simp [len2] at h1 h2
  exact ⟨h1, h2⟩

theorem Frame.uw {E l0 l1 : ℝ} {v w : V2} (h : Frame m E l0 l1 v w) : w.x ^ 2 + w.y ^ 2 = 1 := by
  rw [h.wx, h.wy]; linarith [h.u]

theorem Frame.pyth {E l0 l1 : ℝ} {v w : V2} (h : Frame m E l0 l1 v w) (x y : ℝ) :
    (v.x * x + v.y * y) ^ 2 + (w.x * x + w.y * y) ^ 2 = x ^ 2 + y ^ 2 := by
  rw [h.wx, h.wy]
  linear_combination (x ^ 2 + y ^ 2) * h.u

theorem interp_prop (hm : Metric m) (hn : Metric n) (he : 0 < eps) (hdet : eps * eps ≤ m.a * m.c - m.b * m.b)
    (hs : sqDelta (invMul m n) < eps) {U : ℝ} (ha : m.a ≤ U) (hc : m.c ≤ U) :
    ∃ l0 l1 v w, Frame m (eps * (1 + U)) l0 l1 v w ∧
      interp22 eps e13 m n s = some (recompose (mix eps s l0 (lam0 (invMul m n) * l0))
        (mix eps s l1 (lam0 (invMul m n) * l1)) v w) := by
  have hU : 0 < U := lt_of_lt_of_le hm.pa ha
  by_cases hb : |m.b| ≤ eps ∨ |n.b| ≤ eps
  · refine ⟨m.a, m.c, ⟨1, 0⟩, ⟨0, 1⟩, frame_plain (by positivity), ?_⟩
    unfold interp22
    simp only
    rw [if_neg (by rw [abs_of_pos hm.pd]; linarith), if_neg (by have := lam0_pos hm hn; linarith), if_pos hs,
      if_pos hb]
  · refine ⟨_, _, _, _, (diag_eigensym (e13 := e13) hm he
      (mul_le_mul_of_nonneg_left (maxm_le e13 hm ha hc) he.le)).frame, ?_⟩
    unfold interp22
    simp only
    rw [if_neg (by rw [abs_of_pos hm.pd]; linarith), if_neg (by have := lam0_pos hm hn; linarith), if_pos hs,
      if_neg hb]

/-- The result of the naive interpolation. -/
theorem naive_len2 (x y : ℝ) :
    len2 ⟨(1 - s) * m.a + s * n.a, (1 - s) * m.b + s * n.b, (1 - s) * m.c + s * n.c⟩ x y =
      (1 - s) * len2 m x y + s * len2 n x y := by
  unfold len2; ring

/-- What is computed for metrics that are not proportional: the naive interpolation, or the interpolation along two common
conjugate directions. -/
theorem ani_cases (he : 0 < eps) (hm : Metric m) (hn : Metric n) (hs : eps ≤ sqDelta (invMul m n)) :
    (∀ x y, len2 (intmetAni eps e13 m n s) x y = (1 - s) * len2 m x y + s * len2 n x y) ∨
    ∃ v w, Conj m n v w ∧ ∀ x y, len2 (intmetAni eps e13 m n s) x y =
      mix eps s (len2 m v.x v.y) (len2 n v.x v.y) * cp v w x y ^ 2 +
      mix eps s (len2 m w.x w.y) (len2 n w.x w.y) * cq v w x y ^ 2 := by
  unfold intmetAni
  rcases h : interp22 eps e13 m n s with _ | r
  · left
    intro x y
    exact naive_len2 x y
  · right
    obtain ⟨v, w, rfl, rfl, e⟩ := interp_distinct (e13 := e13) (s := s) hm hn (interp_det hm h) hs
    rw [e] at h
    exact ⟨_, _, eig_pair hm he hs, (recomposeInv_some he h).2⟩

theorem Conj.pos {v w : V2} (h : Conj m n v w) (hm : Metric m) : 0 < len2 m v.x v.y ∧ 0 < len2 m w.x w.y := by
  constructor
  · apply hm
    by_contra hc
    push Not at hc
    have := h.uv
    rw [hc.1, hc.2] at this
    norm_num at this
  · apply hm
    by_contra hc
    push Not at hc
    have := h.uw
    rw [hc.1, hc.2] at this
    norm_num at this

/-! ### C82 -/

theorem between_aux (he : 0 < eps) (hm : Metric m) (hn : Metric n) (hD : eps ≤ sqDelta (invMul m n)) (h0 : 0 ≤ s)
    (h1 : s ≤ 1) :
    Metric (intmetAni eps e13 m n s) ∧
    (∀ x y, len2 (intmetAni eps e13 m n s) x y ≤ (1 - s) * len2 m x y + s * len2 n x y) ∧
    (s = 0 → intmetAni eps e13 m n s = m) ∧ (s = 1 → intmetAni eps e13 m n s = n) := by
  rcases ani_cases (e13 := e13) (s := s) he hm hn hD with h | ⟨v, w, hc, h⟩
  · refine ⟨?_, fun x y => (h x y).le, ?_, ?_⟩
    · intro x y hxy
      rw [h]
      have a := hm x y hxy
      have b := hn x y hxy
      rcases h0.eq_or_lt with z | z
      · rw [← z]; linarith
      · have := mul_pos z b
        have := mul_nonneg (by linarith : 0 ≤ 1 - s) a.le
        linarith
    · rintro rfl
      exact sym_ext (fun x y => by rw [h]; ring)
    · rintro rfl
      exact sym_ext (fun x y => by rw [h]; ring)
  · obtain ⟨a0, a1⟩ := hc.pos hm
    obtain ⟨b0, b1⟩ := hc.symm.pos hn
    obtain ⟨p0, u0, -⟩ := mix_spec (eps := eps) a0 b0 h0 h1
    obtain ⟨p1, u1, -⟩ := mix_spec (eps := eps) a1 b1 h0 h1
    refine ⟨?_, ?_, ?_, ?_⟩
    · intro x y hxy
      rw [h]
      obtain ⟨ex, ey⟩ := coord hc.ind x y
      have s0 := sq_nonneg (cp v w x y)
      have s1 := sq_nonneg (cq v w x y)
      rcases s0.eq_or_lt with z | z
      · have zp : cp v w x y = 0 := by simpa using z.symm
        have zq : cq v w x y ≠ 0 := by
          intro hq
          rw [zp, hq] at ex ey
          rcases hxy with h | h
          · apply h; rw [← ex]; ring
          · apply h; rw [← ey]; ring
        rw [zp]
        have : 0 < cq v w x y ^ 2 := by positivity
        have := mul_pos p1 this
        nlinarith
      · have := mul_pos p0 z
        have := mul_nonneg p1.le s1
        linarith
    · intro x y
      rw [h, hc.len2_eq x y, hc.symm.len2_eq x y]
      have := mul_le_mul_of_nonneg_right u0 (sq_nonneg (cp v w x y))
      have := mul_le_mul_of_nonneg_right u1 (sq_nonneg (cq v w x y))
      linarith
    · rintro rfl
      exact sym_ext (fun x y => by rw [h, mix_zero he b0, mix_zero he b1, hc.len2_eq x y])
    · rintro rfl
      exact sym_ext (fun x y => by rw [h, mix_one he a0, mix_one he a1, hc.symm.len2_eq x y])

/-- The metric of a point created on an edge is a metric, is at most the mean of the metrics of the ends, and is that of the
end if the point is an end. -/
theorem C82_between (he : 0 < eps) (hm : Metric m) (hn : Metric n) (hD : Distinct eps m n) (h0 : 0 ≤ s) (h1 : s ≤ 1) :
    Metric (intmetAni eps e13 m n s) ∧
    (∀ x y, len2 (intmetAni eps e13 m n s) x y ≤ (1 - s) * len2 m x y + s * len2 n x y) ∧
    (s = 0 → intmetAni eps e13 m n s = m) ∧ (s = 1 → intmetAni eps e13 m n s = n) :=
  between_aux he hm hn (hD.le_sqDelta hm) h0 h1

/-- Dual form of a lower bound of a metric. -/
theorem dual_low {v w : V2} (hc : Conj m n v w) (hm : Metric m) {L : ℝ} (hL : 0 < L)
    (h : ∀ x y, L * (x ^ 2 + y ^ 2) ≤ len2 m x y) (x y : ℝ) :
    L * ((v.x * x + v.y * y) ^ 2 * (1 / len2 m v.x v.y) + (w.x * x + w.y * y) ^ 2 * (1 / len2 m w.x w.y)) ≤
      x ^ 2 + y ^ 2 := by
  obtain ⟨a0, a1⟩ := hc.pos hm
  set α := 1 / len2 m v.x v.y with hα
  set β := 1 / len2 m w.x w.y with hβ
  have iα : len2 m v.x v.y * α = 1 := by rw [hα, one_div, mul_inv_cancel₀ a0.ne']
  have iβ : len2 m w.x w.y * β = 1 := by rw [hβ, one_div, mul_inv_cancel₀ a1.ne']
  set p := v.x * x + v.y * y with hp
  set q := w.x * x + w.y * y with hq
  set T := p ^ 2 * α + q ^ 2 * β with hT
  have hT0 : 0 ≤ T := by positivity
  have e1 := hc.len2_m (p * α) (q * β)
  have e2 : len2 m (p * α * v.x + q * β * w.x) (p * α * v.y + q * β * w.y) = T := by
    rw [e1, hT]
    linear_combination (p ^ 2 * α) * iα + (q ^ 2 * β) * iβ
  have e3 := h (p * α * v.x + q * β * w.x) (p * α * v.y + q * β * w.y)
  rw [e2] at e3
  set X := p * α * v.x + q * β * w.x with hX
  set Y := p * α * v.y + q * β * w.y with hY
  have e4 : X * x + Y * y = T := by
    rw [hX, hY, hT, hp, hq]; ring
  -- Cauchy-Schwarz
  have cs : T ^ 2 ≤ (X ^ 2 + Y ^ 2) * (x ^ 2 + y ^ 2) := by
    rw [← e4]
    nlinarith [sq_nonneg (X * y - Y * x)]
  have hxy : 0 ≤ x ^ 2 + y ^ 2 := by positivity
  rcases hT0.eq_or_lt with z | z
  · rw [← z]; linarith
  · have : L * T ^ 2 ≤ T * (x ^ 2 + y ^ 2) := by
      have := mul_le_mul_of_nonneg_left cs hL.le
      have := mul_le_mul_of_nonneg_right e3 hxy
      linarith
    have h2 : T * (L * T) ≤ T * (x ^ 2 + y ^ 2) := by linarith
    exact le_of_mul_le_mul_left h2 z

theorem range_aux (he : 0 < eps) (hq : 0 < hmax) (rm : InRange hmin hmax m) (rn : InRange hmin hmax n)
    (hD : eps ≤ sqDelta (invMul m n)) (h0 : 0 ≤ s) (h1 : s ≤ 1) : InRange hmin hmax (intmetAni eps e13 m n s) := by
  have hm := rm.metric hq
  have hn := rn.metric hq
  have hs : 0 ≤ 1 - s := by linarith
  intro x y
  refine ⟨?_, ?_⟩
  · rcases ani_cases (e13 := e13) (s := s) he hm hn hD with h | ⟨v, w, hc, h⟩
    · rw [h]
      have a := mul_le_mul_of_nonneg_left (rm x y).1 hs
      have b := mul_le_mul_of_nonneg_left (rn x y).1 h0
      linarith
    · obtain ⟨a0, a1⟩ := hc.pos hm
      obtain ⟨b0, b1⟩ := hc.symm.pos hn
      obtain ⟨p0, -, u0⟩ := mix_spec (eps := eps) a0 b0 h0 h1
      obtain ⟨p1, -, u1⟩ := mix_spec (eps := eps) a1 b1 h0 h1
      have hL : 0 < 1 / hmax ^ 2 := by positivity
      set L := 1 / hmax ^ 2 with hLd
      have lm : ∀ x y, L * (x ^ 2 + y ^ 2) ≤ len2 m x y := fun x y => by
        have := (rm x y).1
        rw [hLd]; linarith [this, (by ring : (x ^ 2 + y ^ 2) / hmax ^ 2 = 1 / hmax ^ 2 * (x ^ 2 + y ^ 2))]
      have ln : ∀ x y, L * (x ^ 2 + y ^ 2) ≤ len2 n x y := fun x y => by
        have := (rn x y).1
        rw [hLd]; linarith [this, (by ring : (x ^ 2 + y ^ 2) / hmax ^ 2 = 1 / hmax ^ 2 * (x ^ 2 + y ^ 2))]
      have d1 := dual_low hc hm hL lm x y
      have d2 := dual_low hc.symm hn hL ln x y
      have er := h x y
      have goal' : L * (x ^ 2 + y ^ 2) ≤ len2 (intmetAni eps e13 m n s) x y := by
        rw [er]
        set d0 := mix eps s (len2 m v.x v.y) (len2 n v.x v.y)
        set d1' := mix eps s (len2 m w.x w.y) (len2 n w.x w.y)
        set P := v.x * x + v.y * y with hP
        set Q := w.x * x + w.y * y with hQ
        obtain ⟨ex, ey⟩ := coord hc.ind x y
        set α := cp v w x y
        set β := cq v w x y
        set N := x ^ 2 + y ^ 2 with hN
        have hN0 : 0 ≤ N := by positivity
        -- dual bound of the result
        have S : L * (P ^ 2 * (1 / d0) + Q ^ 2 * (1 / d1')) ≤ N := by
          have k0 := mul_le_mul_of_nonneg_left u0 (sq_nonneg P)
          have k1 := mul_le_mul_of_nonneg_left u1 (sq_nonneg Q)
          have k2 := mul_le_mul_of_nonneg_left (add_le_add k0 k1) hL.le
          have k3 := mul_le_mul_of_nonneg_left d1 hs
          have k4 := mul_le_mul_of_nonneg_left d2 h0
          refine k2.trans ?_
          have : L * (P ^ 2 * ((1 - s) / len2 m v.x v.y + s / len2 n v.x v.y) +
              Q ^ 2 * ((1 - s) / len2 m w.x w.y + s / len2 n w.x w.y)) =
              (1 - s) * (L * (P ^ 2 * (1 / len2 m v.x v.y) + Q ^ 2 * (1 / len2 m w.x w.y))) +
              s * (L * (P ^ 2 * (1 / len2 n v.x v.y) + Q ^ 2 * (1 / len2 n w.x w.y))) := by ring
          rw [this]
          linarith
        have i0 : d0 * (1 / d0) = 1 := by rw [one_div, mul_inv_cancel₀ p0.ne']
        have i1 : d1' * (1 / d1') = 1 := by rw [one_div, mul_inv_cancel₀ p1.ne']
        set γ := 1 / d0
        set δ := 1 / d1'
        have γp : 0 < γ := by positivity
        have δp : 0 < δ := by positivity
        -- Cauchy-Schwarz
        have eN : N = α * P + β * Q := by
          rw [hP, hQ, hN]
          linear_combination (-x) * ex - y * ey
        have cs : N ^ 2 ≤ (d0 * α ^ 2 + d1' * β ^ 2) * (P ^ 2 * γ + Q ^ 2 * δ) := by
          have : (d0 * α ^ 2 + d1' * β ^ 2) * (P ^ 2 * γ + Q ^ 2 * δ) - N ^ 2 =
              d0 * δ * (α * Q - γ * d1' * (β * P)) ^ 2 := by
            rw [eN]
            linear_combination (α ^ 2 * P ^ 2 - δ * d1' * 0) * i0 + (β ^ 2 * Q ^ 2) * i1 +
              (2 * α * β * P * Q - d1' * γ * β ^ 2 * P ^ 2) * (i0 * 0) +
              (-(d1' * δ * d1' * γ * β ^ 2 * P ^ 2) + 2 * α * β * P * Q * (d1' * δ)) * i0 +
              (-(d1' * γ * β ^ 2 * P ^ 2) + 2 * α * β * P * Q) * i1
          have h2 : 0 ≤ d0 * δ * (α * Q - γ * d1' * (β * P)) ^ 2 := by positivity
          linarith
        rcases hN0.eq_or_lt with z | z
        · rw [← z, mul_zero]
          positivity
        · have hR : 0 ≤ d0 * α ^ 2 + d1' * β ^ 2 := by positivity
          have k := mul_le_mul_of_nonneg_left S hR
          have k2 := mul_le_mul_of_nonneg_left cs hL.le
          have : N * (L * N) ≤ N * (d0 * α ^ 2 + d1' * β ^ 2) := by linarith
          exact le_of_mul_le_mul_left this z
      rw [hLd] at goal'
      linarith [goal', (by ring : (x ^ 2 + y ^ 2) / hmax ^ 2 = 1 / hmax ^ 2 * (x ^ 2 + y ^ 2))]
  · have h := (between_aux (e13 := e13) he hm hn hD h0 h1).2.1 x y
    have a := mul_le_mul_of_nonneg_left (rm x y).2 hs
    have b := mul_le_mul_of_nonneg_left (rn x y).2 h0
    linarith

/-- The sizes of the metric of a point created on an edge respect the bounds respected at the two ends. -/
theorem C82_range (he : 0 < eps) (hq : 0 < hmax) (rm : InRange hmin hmax m) (rn : InRange hmin hmax n)
    (hD : Distinct eps m n) (h0 : 0 ≤ s) (h1 : s ≤ 1) : InRange hmin hmax (intmetAni eps e13 m n s) :=
  range_aux he hq rm rn (hD.le_sqDelta (rm.metric hq)) h0 h1

/-- Along two common conjugate directions the size varies linearly between those of the ends. -/
theorem C82_sizes (he : 0 < eps) (hp : 0 < hmin) (hq : 0 < hmax) (b1 : eps * hmax ^ 2 ≤ 1) (b2 : eps * hmax ≤ hmin)
    (rm : InRange hmin hmax m) (rn : InRange hmin hmax n) (hD : Distinct eps m n) (h0 : 0 ≤ s) (h1 : s ≤ 1) :
    ∃ v w, Conj m n v w ∧ Conj m (intmetAni eps e13 m n s) v w ∧
      1 / Real.sqrt (len2 (intmetAni eps e13 m n s) v.x v.y) =
        (1 - s) * (1 / Real.sqrt (len2 m v.x v.y)) + s * (1 / Real.sqrt (len2 n v.x v.y)) ∧
      1 / Real.sqrt (len2 (intmetAni eps e13 m n s) w.x w.y) =
        (1 - s) * (1 / Real.sqrt (len2 m w.x w.y)) + s * (1 / Real.sqrt (len2 n w.x w.y)) := by
  have hm := rm.metric hq
  have hn := rn.metric hq
  have hs := hD.le_sqDelta hm
  have hsn : 0 ≤ 1 - s := by linarith
  obtain ⟨v, w, hv, hw, e⟩ := interp_distinct (e13 := e13) (s := s) hm hn (det_small he hq b1 rm) hs
  have hc : Conj m n v w := by rw [hv, hw]; exact eig_pair hm he hs
  have hang := angle_ok he hp hq b2 hc rm
  rcases hr : interp22 eps e13 m n s with _ | r
  · rw [e] at hr
    have := recomposeInv_none hr
    linarith
  · have er : intmetAni eps e13 m n s = r := by unfold intmetAni; rw [hr]
    rw [er]
    rw [e] at hr
    obtain ⟨hne, hl⟩ := recomposeInv_some he hr
    have size : ∀ z : V2, z.x ^ 2 + z.y ^ 2 = 1 → eps ≤ ((1 - s) * Real.sqrt (len2 n z.x z.y) + s * Real.sqrt (len2 m z.x z.y)) ^ 2 := by
      intro z hz
      have l1 := rm.low_unit hz
      have l2 := rn.low_unit hz
      have hL : eps ≤ 1 / hmax ^ 2 := by rw [le_div_iff₀ (by positivity)]; exact b1
      have t1 := Real.sqrt_le_sqrt (hL.trans l1)
      have t2 := Real.sqrt_le_sqrt (hL.trans l2)
      have t0 := Real.sqrt_nonneg eps
      have t3 : Real.sqrt eps ≤ (1 - s) * Real.sqrt (len2 n z.x z.y) + s * Real.sqrt (len2 m z.x z.y) := by
        have := mul_le_mul_of_nonneg_left t2 hsn
        have := mul_le_mul_of_nonneg_left t1 h0
        linarith
      calc eps = Real.sqrt eps ^ 2 := (Real.sq_sqrt he.le).symm
        _ ≤ _ := pow_le_pow_left₀ t0 t3 2
    have e2 := hl v.x v.y
    have e3 := hl w.x w.y
    rw [(coord_v hne).1, (coord_v hne).2] at e2
    rw [(coord_w hne).1, (coord_w hne).2] at e3
    refine ⟨v, w, hc, ⟨hc.uv, hc.uw, hc.ind, hc.om, ?_⟩, ?_, ?_⟩
    · have e1 := hl (v.x + w.x) (v.y + w.y)
      have cpa : cp v w (v.x + w.x) (v.y + w.y) = cp v w v.x v.y + cp v w w.x w.y := by unfold cp; ring
      have cqa : cq v w (v.x + w.x) (v.y + w.y) = cq v w v.x v.y + cq v w w.x w.y := by unfold cq; ring
      rw [cpa, cqa, (coord_v hne).1, (coord_v hne).2, (coord_w hne).1, (coord_w hne).2] at e1
      have : 2 * dot r v w = len2 r (v.x + w.x) (v.y + w.y) - len2 r v.x v.y - len2 r w.x w.y := by
        unfold dot len2; ring
      rw [e1, e2, e3] at this
      linarith
    · rw [e2]
      have := mix_size (eps := eps) (hc.pos hm).1 (hc.symm.pos hn).1 h0 h1 (size v hc.uv)
      rw [← this]
      congr 2
      ring
    · rw [e3]
      have := mix_size (eps := eps) (hc.pos hm).2 (hc.symm.pos hn).2 h0 h1 (size w hc.uw)
      rw [← this]
      congr 2
      ring

/-- The bounds for all metrics, proportional or not: hmin is respected, hmax up to a relative tolerance. -/
theorem C82_range_all (he : 0 < eps) (hp : 0 < hmin) (hq : 0 < hmax) (rm : InRange hmin hmax m) (rn : InRange hmin hmax n)
    (h0 : 0 ≤ s) (h1 : s ≤ 1) (t1 : eps * (1 + 1 / hmin ^ 2) * hmax ^ 2 < 1) (x y : ℝ) :
    len2 (intmetAni eps e13 m n s) x y ≤ (x ^ 2 + y ^ 2) / hmin ^ 2 ∧
    (1 - eps * (1 + 1 / hmin ^ 2) * hmax ^ 2) ^ 2 * ((x ^ 2 + y ^ 2) / hmax ^ 2) ≤ len2 (intmetAni eps e13 m n s) x y := by
  have hm := rm.metric hq
  have hn := rn.metric hq
  have hsn : 0 ≤ 1 - s := by linarith
  have hU : 0 < 1 / hmin ^ 2 := by positivity
  have hL : 0 < 1 / hmax ^ 2 := by positivity
  have hLM : 1 / hmax ^ 2 * hmax ^ 2 = 1 := by field_simp
  set U := 1 / hmin ^ 2 with hUd
  set L := 1 / hmax ^ 2 with hLd
  set δ := eps * (1 + U) * hmax ^ 2 with hδ
  have δ0 : 0 < δ := by positivity
  have eU : (x ^ 2 + y ^ 2) / hmin ^ 2 = U * (x ^ 2 + y ^ 2) := by rw [hUd]; ring
  have eL : (x ^ 2 + y ^ 2) / hmax ^ 2 = L * (x ^ 2 + y ^ 2) := by rw [hLd]; ring
  have hk : (1 - δ) ^ 2 ≤ 1 := by nlinarith
  have hk0 : 0 < (1 - δ) ^ 2 := by
    have : 0 < 1 - δ := by linarith
    positivity
  have hxy : 0 ≤ x ^ 2 + y ^ 2 := by positivity
  by_cases hs : sqDelta (invMul m n) < eps
  · unfold intmetAni
    rcases h : interp22 eps e13 m n s with _ | r
    · simp only
      rw [naive_len2]
      constructor
      · have a := mul_le_mul_of_nonneg_left (rm x y).2 hsn
        have b := mul_le_mul_of_nonneg_left (rn x y).2 h0
        linarith
      · have a := mul_le_mul_of_nonneg_left (rm x y).1 hsn
        have b := mul_le_mul_of_nonneg_left (rn x y).1 h0
        have c : 0 ≤ (x ^ 2 + y ^ 2) / hmax ^ 2 := by positivity
        have := mul_le_mul_of_nonneg_right hk c
        linarith
    · simp only
      obtain ⟨l0, l1, v, w, hf, e⟩ := interp_prop (e13 := e13) (s := s) hm hn he (interp_det hm h) hs rm.up_a rm.up_c
      rw [e] at h
      have h' := (Option.some.inj h).symm
      subst h'
      have hl := lam0_pos hm hn
      have hsq := lam_sub (invMul m n)
      obtain ⟨g0, g1⟩ := hf.min L (fun x y => by
        have := (rm x y).1
        rw [hLd]; linarith [this, (by ring : (x ^ 2 + y ^ 2) / hmax ^ 2 = 1 / hmax ^ 2 * (x ^ 2 + y ^ 2))])
      set l := lam0 (invMul m n) with hld
      have hmul : δ * L = eps * (1 + U) := by rw [hδ]; linear_combination (eps * (1 + U)) * hLM
      -- bounds of the second value
      have second : ∀ (z : V2) (lz : ℝ), z.x ^ 2 + z.y ^ 2 = 1 → lz ≤ len2 m z.x z.y → len2 m z.x z.y ≤ lz + eps * (1 + U) →
          L ≤ lz → l * lz ≤ U ∧ (1 - δ) ^ 2 * L ≤ l * lz := by
        intro z lz uz a b c
        have n1 := lam0_le hm n z.x z.y
        have n2 := le_lam1 hm n z.x z.y
        have n3 := rn.up_unit uz
        have n4 := rn.low_unit uz
        have m1 := rm.up_unit uz
        have m2 := rm.low_unit uz
        rw [← hld] at n1
        rw [← hLd] at n4 m2
        rw [← hUd] at n3 m1
        refine ⟨(mul_le_mul_of_nonneg_left a hl.le).trans (n1.trans n3), ?_⟩
        have k1 : (1 - δ) * len2 m z.x z.y ≤ lz := by
          have := mul_le_mul_of_nonneg_left m2 δ0.le
          linarith
        have k2 : len2 n z.x z.y - eps * len2 m z.x z.y ≤ l * len2 m z.x z.y := by
          have : lam1 (invMul m n) ≤ l + eps := by linarith
          have := mul_le_mul_of_nonneg_right this (hm.nonneg z.x z.y)
          linarith
        have k3 : (1 - δ) * L ≤ l * len2 m z.x z.y := by
          have := mul_le_mul_of_nonneg_left m1 he.le
          nlinarith
        have k4 := mul_le_mul_of_nonneg_left k1 hl.le
        have k5 := mul_le_mul_of_nonneg_left k3 (by linarith : 0 ≤ 1 - δ)
        linarith
      obtain ⟨s0, s0'⟩ := second v l0 hf.u hf.le0 hf.ge0 g0
      obtain ⟨s1, s1'⟩ := second w l1 hf.uw hf.le1 hf.ge1 g1
      have p0 : 0 < l0 := by linarith
      have p1 : 0 < l1 := by linarith
      have q0 : l0 ≤ U := hf.le0.trans (rm.up_unit hf.u)
      have q1 : l1 ≤ U := hf.le1.trans (rm.up_unit hf.uw)
      have kL : (1 - δ) ^ 2 * L ≤ L := by nlinarith
      have kp : 0 < (1 - δ) ^ 2 * L := by positivity
      obtain ⟨-, c0, -⟩ := mix_spec (eps := eps) p0 (mul_pos hl p0) h0 h1
      obtain ⟨-, c1, -⟩ := mix_spec (eps := eps) p1 (mul_pos hl p1) h0 h1
      have f0 := mix_min (eps := eps) p0 (mul_pos hl p0) h0 h1 kp (kL.trans g0) s0'
      have f1 := mix_min (eps := eps) p1 (mul_pos hl p1) h0 h1 kp (kL.trans g1) s1'
      have c0' : mix eps s l0 (l * l0) ≤ U := by
        have := mul_le_mul_of_nonneg_left q0 hsn
        have := mul_le_mul_of_nonneg_left s0 h0
        linarith
      have c1' : mix eps s l1 (l * l1) ≤ U := by
        have := mul_le_mul_of_nonneg_left q1 hsn
        have := mul_le_mul_of_nonneg_left s1 h0
        linarith
      rw [recompose_eq, eU, eL, ← hf.pyth x y]
      unfold two
      have z0 := sq_nonneg (v.x * x + v.y * y)
      have z1 := sq_nonneg (w.x * x + w.y * y)
      constructor
      · have := mul_le_mul_of_nonneg_right c0' z0
        have := mul_le_mul_of_nonneg_right c1' z1
        linarith
      · have := mul_le_mul_of_nonneg_right f0 z0
        have := mul_le_mul_of_nonneg_right f1 z1
        linarith
  · push Not at hs
    have := range_aux (e13 := e13) he hq rm rn hs h0 h1 x y
    refine ⟨this.2, le_trans ?_ this.1⟩
    have c : 0 ≤ (x ^ 2 + y ^ 2) / hmax ^ 2 := by positivity
    have := mul_le_mul_of_nonneg_right hk c
    linarith

/-- Isotropic sizes: between those of the ends. -/
theorem C82_iso {h₁ h₂ : ℝ} (h0 : 0 ≤ s) (h1 : s ≤ 1) :
    min h₁ h₂ ≤ intmetIso h₁ h₂ s ∧ intmetIso h₁ h₂ s ≤ max h₁ h₂ ∧ intmetIso h₁ h₂ 0 = h₁ ∧ intmetIso h₁ h₂ 1 = h₂ := by
  have hs : 0 ≤ 1 - s := by linarith
  unfold intmetIso
  refine ⟨?_, ?_, by ring, by ring⟩
  · have := mul_le_mul_of_nonneg_left (min_le_left h₁ h₂) hs
    have := mul_le_mul_of_nonneg_left (min_le_right h₁ h₂) h0
    linarith
  · have := mul_le_mul_of_nonneg_left (le_max_left h₁ h₂) hs
    have := mul_le_mul_of_nonneg_left (le_max_right h₁ h₂) h0
    linarith

/-! ### Examples -/

example := C82_between (e13 := 0) (s := 1 / 3) (by norm_num) ((ex_range (Or.inl rfl)).metric (by norm_num))
  ((ex_range (Or.inr rfl)).metric (by norm_num)) ex_distinct (by norm_num) (by norm_num)
example := C82_range (e13 := 0) (s := 1 / 3) (by norm_num) (by norm_num) (ex_range (Or.inl rfl)) (ex_range (Or.inr rfl)) ex_distinct
  (by norm_num) (by norm_num)
example := C82_sizes (e13 := 0) (s := 1 / 3) (by norm_num) (by norm_num) (by norm_num) (by norm_num) (by norm_num)
  (ex_range (Or.inl rfl)) (ex_range (Or.inr rfl)) ex_distinct (by norm_num) (by norm_num)
example := C82_range_all (eps := 1 / 1000000) (e13 := 0) (s := 1 / 3) (by norm_num) (by norm_num) (by norm_num) (ex_range (Or.inl rfl))
  (ex_range (Or.inr rfl)) (by norm_num) (by norm_num) (by norm_num)

/-- Two proportional metrics for which the metric of the first end is not the one given back at this end: if the off-diagonal
term of the second metric is small, that of the first is dropped. -/
theorem C82_endpoint_observed :
    ∃ m n : Sym, Metric m ∧ Metric n ∧ intmetAni (1 / 1000000) (1 / 10 ^ 13) m n 0 = ⟨2, 0, 2⟩ ∧ m = ⟨2, 1, 2⟩ := by
  refine ⟨⟨2, 1, 2⟩, ⟨2 / 10000000, 1 / 10000000, 2 / 10000000⟩, metric_of (by norm_num) (by norm_num),
    metric_of (by norm_num) (by norm_num), ?_, rfl⟩
  have hA : invMul ⟨2, 1, 2⟩ ⟨2 / 10000000, 1 / 10000000, 2 / 10000000⟩ = ⟨1 / 10000000, 0, 0, 1 / 10000000⟩ := by
    unfold invMul
    norm_num
  have hs : sqDelta ⟨1 / 10000000, 0, 0, 1 / 10000000⟩ = 0 := by
    unfold sqDelta
    simp
  have hl : lam0 ⟨1 / 10000000, 0, 0, 1 / 10000000⟩ = 1 / 10000000 := by
    unfold lam0
    rw [hs]
    norm_num
  have e : interp22 (1 / 1000000) (1 / 10 ^ 13) ⟨2, 1, 2⟩ ⟨2 / 10000000, 1 / 10000000, 2 / 10000000⟩ 0 = some ⟨2, 0, 2⟩ := by
    unfold interp22
    simp only
    rw [hA, hs, hl, if_neg (by norm_num [abs_of_pos]), if_neg (by norm_num), if_pos (by norm_num),
      if_pos (Or.inr (by norm_num [abs_of_pos])), mix_zero (by norm_num) (by norm_num)]
    unfold recompose
    norm_num
  unfold intmetAni
  rw [e]

end Mmg.Met2
