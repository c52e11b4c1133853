/-
C81: intersection of two metrics of the plane, and C82: interpolation of two metrics of the plane.
-/
import Verif.Met2Diag

namespace Mmg.Met2

variable {eps e13 hmin hmax : ℝ} {m n r : Sym}

/-! ### The branches -/

theorem isq (h : ℝ) : 1 / (h * h) = 1 / h ^ 2 := by rw [sq]

/-- Intersection of metrics that are not proportional. -/
theorem inter_distinct (hm : Metric m) (hn : Metric n) (hdet : eps * eps ≤ m.a * m.c - m.b * m.b)
    (hs : eps ≤ sqDelta (invMul m n)) :
    ∃ v w, v = eigvec eps (invMul m n) (lam0 (invMul m n)) ∧ w = eigvec eps (invMul m n) (lam1 (invMul m n)) ∧
      inter22 eps e13 hmin hmax m n = recomposeInv eps
        (min (1 / hmin ^ 2) (max (max (len2 m v.x v.y) (len2 n v.x v.y)) (1 / hmax ^ 2)))
        (min (1 / hmin ^ 2) (max (max (len2 m w.x w.y) (len2 n w.x w.y)) (1 / hmax ^ 2))) v w := by
  refine ⟨_, _, rfl, rfl, ?_⟩
  unfold inter22
  simp only
  rw [if_neg (by rw [abs_of_pos hm.pd]; linarith), if_neg (by have := lam0_pos hm hn; linarith), if_neg (by linarith),
    diagVal_eq, diagVal_eq, diagVal_eq, diagVal_eq, isq, isq]

/-- A small determinant is refused. -/
theorem inter_det (hm : Metric m) (h : inter22 eps e13 hmin hmax m n = some r) : eps * eps ≤ m.a * m.c - m.b * m.b := by
  by_contra hc
  push Not at hc
  unfold inter22 at h
  simp only at h
  rw [if_pos (by rw [abs_of_pos hm.pd]; exact hc)] at h
  exact absurd h (by simp)

/-- Intersection of metrics that are proportional, or nearly so. -/
theorem inter_prop (hm : Metric m) (hn : Metric n) (he : 0 < eps) (hdet : eps * eps ≤ m.a * m.c - m.b * m.b)
    (hs : sqDelta (invMul m n) < eps) {U : ℝ} (ha : m.a ≤ U) (hc : m.c ≤ U) :
    ∃ l0 l1 v w, Diag m (eps * (1 + U)) l0 l1 v w ∧
      inter22 eps e13 hmin hmax m n = some (recompose
        (min (1 / hmin ^ 2) (max (1 / hmax ^ 2) (max l0 (lam0 (invMul m n) * l0))))
        (min (1 / hmin ^ 2) (max (1 / hmax ^ 2) (max l1 (lam0 (invMul m n) * l1)))) v w) := by
  have hU : 0 < U := lt_of_lt_of_le hm.pa ha
  by_cases hb : |m.b| < eps
  · refine ⟨m.a, m.c, ⟨1, 0⟩, ⟨0, 1⟩, diag_plain (by nlinarith), ?_⟩
    unfold inter22
    simp only
    rw [if_neg (by rw [abs_of_pos hm.pd]; linarith), if_neg (by have := lam0_pos hm hn; linarith), if_pos hs,
      if_pos hb, isq, isq]
  · refine ⟨_, _, _, _, diag_eigensym (e13 := e13) hm he
      (mul_le_mul_of_nonneg_left (maxm_le e13 hm ha hc) he.le), ?_⟩
    unfold inter22
    simp only
    rw [if_neg (by rw [abs_of_pos hm.pd]; linarith), if_neg (by have := lam0_pos hm hn; linarith), if_pos hs,
      if_neg hb, isq, isq]

theorem det_small (he : 0 < eps) (h1 : 0 < hmax) (hs : eps * hmax ^ 2 ≤ 1) (hr : InRange hmin hmax m) :
    eps * eps ≤ m.a * m.c - m.b * m.b := by
  refine le_trans ?_ (hr.det h1)
  have : eps ≤ 1 / hmax ^ 2 := by rw [le_div_iff₀ (by positivity)]; exact hs
  nlinarith

theorem angle_ok (he : 0 < eps) (h0 : 0 < hmin) (h1 : 0 < hmax) (hs : eps * hmax ≤ hmin) {v w : V2} (h : Conj m n v w)
    (hr : InRange hmin hmax m) : eps ≤ |v.x * w.y - v.y * w.x| := by
  have ha := h.angle h0 h1 hr
  have hM2 : (0 : ℝ) < hmax ^ 2 := by positivity
  apply le_of_sq_le_sq
  · rw [sq_abs]
    have : eps ^ 2 * hmax ^ 2 ≤ hmin ^ 2 := by
      have := mul_pos he h1
      nlinarith
    have : hmax ^ 2 * eps ^ 2 ≤ hmax ^ 2 * (v.x * w.y - v.y * w.x) ^ 2 := by linarith
    exact le_of_mul_le_mul_left this hM2
  · exact abs_nonneg _

/-! ### C81 -/

/-- What the intersection of two metrics is: there are two independent unit vectors, orthogonal for both metrics and for the
result, along which the result is the larger of the two (that is, the smaller size), truncated by hmin and hmax. -/
theorem C81_reduction (he : 0 < eps) (hm : Metric m) (hn : Metric n) (hD : Distinct eps m n)
    (h : inter22 eps e13 hmin hmax m n = some r) :
    ∃ v w, Conj m n v w ∧ Conj m r v w ∧
      len2 r v.x v.y = min (1 / hmin ^ 2) (max (max (len2 m v.x v.y) (len2 n v.x v.y)) (1 / hmax ^ 2)) ∧
      len2 r w.x w.y = min (1 / hmin ^ 2) (max (max (len2 m w.x w.y) (len2 n w.x w.y)) (1 / hmax ^ 2)) := by
  have hs := hD.le_sqDelta hm
  obtain ⟨v, w, rfl, rfl, e⟩ := inter_distinct (e13 := e13) (hmin := hmin) (hmax := hmax) hm hn (inter_det hm h) hs
  rw [e] at h
  have hc := eig_pair hm he hs
  obtain ⟨hne, hr⟩ := recomposeInv_some he h
  refine ⟨_, _, hc, ⟨hc.uv, hc.uw, hc.ind, hc.om, ?_⟩, ?_, ?_⟩
  · set v := eigvec eps (invMul m n) (lam0 (invMul m n))
    set w := eigvec eps (invMul m n) (lam1 (invMul m n))
    have e1 := hr (v.x + w.x) (v.y + w.y)
    have e2 := hr v.x v.y
    have e3 := hr w.x w.y
    have cpa : cp v w (v.x + w.x) (v.y + w.y) = cp v w v.x v.y + cp v w w.x w.y := by unfold cp; ring
    have cqa : cq v w (v.x + w.x) (v.y + w.y) = cq v w v.x v.y + cq v w w.x w.y := by unfold cq; ring
    rw [cpa, cqa, (coord_v hne).1, (coord_v hne).2, (coord_w hne).1, (coord_w hne).2] at e1
    rw [(coord_v hne).1, (coord_v hne).2] at e2
    rw [(coord_w hne).1, (coord_w hne).2] at e3
    have : 2 * dot r v w = len2 r (v.x + w.x) (v.y + w.y) - len2 r v.x v.y - len2 r w.x w.y := by
      unfold dot len2; ring
    rw [e1, e2, e3] at this
    linarith
  · rw [hr, (coord_v hne).1, (coord_v hne).2]; ring
  · rw [hr, (coord_w hne).1, (coord_w hne).2]; ring

/-- The intersection asks, in every direction, for a size that is at most the sizes asked by the two metrics; it is the
larger of the two metrics along two independent directions, and is nowhere larger than their sum. -/
theorem C81_covers (he : 0 < eps) (h1 : 0 < hmax) (rm : InRange hmin hmax m) (rn : InRange hmin hmax n)
    (hD : Distinct eps m n) (h : inter22 eps e13 hmin hmax m n = some r) :
    (∀ x y, len2 m x y ≤ len2 r x y ∧ len2 n x y ≤ len2 r x y ∧ len2 r x y ≤ len2 m x y + len2 n x y) ∧
    ∃ v w, Conj m n v w ∧ len2 r v.x v.y = max (len2 m v.x v.y) (len2 n v.x v.y) ∧
      len2 r w.x w.y = max (len2 m w.x w.y) (len2 n w.x w.y) := by
  have hm := rm.metric h1
  have hn := rn.metric h1
  obtain ⟨v, w, hc, hcr, e1, e2⟩ := C81_reduction he hm hn hD h
  rw [max_eq_left ((rm.low_unit hc.uv).trans (le_max_left _ _)),
    min_eq_right (max_le (rm.up_unit hc.uv) (rn.up_unit hc.uv))] at e1
  rw [max_eq_left ((rm.low_unit hc.uw).trans (le_max_left _ _)),
    min_eq_right (max_le (rm.up_unit hc.uw) (rn.up_unit hc.uw))] at e2
  refine ⟨fun x y => ?_, v, w, hc, e1, e2⟩
  rw [hc.len2_eq x y, hc.symm.len2_eq x y, hcr.symm.len2_eq x y, e1, e2]
  have p := sq_nonneg (cp v w x y)
  have q := sq_nonneg (cq v w x y)
  have a1 := hm.nonneg v.x v.y
  have a2 := hm.nonneg w.x w.y
  have b1 := hn.nonneg v.x v.y
  have b2 := hn.nonneg w.x w.y
  refine ⟨?_, ?_, ?_⟩
  · exact add_le_add (mul_le_mul_of_nonneg_right (le_max_left _ _) p) (mul_le_mul_of_nonneg_right (le_max_left _ _) q)
  · exact add_le_add (mul_le_mul_of_nonneg_right (le_max_right _ _) p) (mul_le_mul_of_nonneg_right (le_max_right _ _) q)
  · have c1 : max (len2 m v.x v.y) (len2 n v.x v.y) ≤ len2 m v.x v.y + len2 n v.x v.y := max_le (by linarith) (by linarith)
    have c2 : max (len2 m w.x w.y) (len2 n w.x w.y) ≤ len2 m w.x w.y + len2 n w.x w.y := max_le (by linarith) (by linarith)
    nlinarith [mul_le_mul_of_nonneg_right c1 p, mul_le_mul_of_nonneg_right c2 q]

/-- The result is a metric whatever the two metrics, truncated or not, proportional or not. -/
theorem C81_metric (he : 0 < eps) (h0 : 0 < hmin) (h1 : 0 < hmax) (hm : Metric m) (hn : Metric n)
    (h : inter22 eps e13 hmin hmax m n = some r) : Metric r := by
  have hpos : ∀ z : ℝ, 0 < min (1 / hmin ^ 2) (max z (1 / hmax ^ 2)) := fun z =>
    lt_min (by positivity) (lt_of_lt_of_le (by positivity) (le_max_right _ _))
  by_cases hs : sqDelta (invMul m n) < eps
  · obtain ⟨l0, l1, v, w, hd, e⟩ := inter_prop (e13 := e13) (hmin := hmin) (hmax := hmax) hm hn he (inter_det hm h) hs
      (le_max_left m.a m.c) (le_max_right m.a m.c)
    rw [e] at h
    have h' := (Option.some.inj h).symm
    subst h'
    intro x y hxy
    rw [recompose_eq]
    unfold two
    have p := hd.pyth x y
    have q0 := hpos (max l0 (lam0 (invMul m n) * l0))
    have q1 := hpos (max l1 (lam0 (invMul m n) * l1))
    rw [max_comm] at q0 q1
    have hp : 0 < x ^ 2 + y ^ 2 := by
      rcases hxy with h | h
      · have : 0 < x ^ 2 := by positivity
        nlinarith [sq_nonneg y]
      · have : 0 < y ^ 2 := by positivity
        nlinarith [sq_nonneg x]
    rw [← p] at hp
    have s0 := sq_nonneg (v.x * x + v.y * y)
    have s1 := sq_nonneg (w.x * x + w.y * y)
    rcases s0.eq_or_lt with z | z
    · rw [← z] at hp ⊢
      have := mul_pos q1 (by linarith : 0 < (w.x * x + w.y * y) ^ 2)
      linarith
    · have := mul_pos q0 z
      have := mul_nonneg q1.le s1
      linarith
  · push Not at hs
    obtain ⟨v, w, rfl, rfl, e⟩ := inter_distinct (e13 := e13) (hmin := hmin) (hmax := hmax) hm hn (inter_det hm h) hs
    rw [e] at h
    obtain ⟨hne, hr⟩ := recomposeInv_some he h
    intro x y hxy
    rw [hr]
    set v := eigvec eps (invMul m n) (lam0 (invMul m n))
    set w := eigvec eps (invMul m n) (lam1 (invMul m n))
    have q0 := hpos (max (len2 m v.x v.y) (len2 n v.x v.y))
    have q1 := hpos (max (len2 m w.x w.y) (len2 n w.x w.y))
    obtain ⟨ex, ey⟩ := coord hne x y
    have s0 := sq_nonneg (cp v w x y)
    have s1 := sq_nonneg (cq v w x y)
    rcases s0.eq_or_lt with z | z
    · have zp : cp v w x y = 0 := by simpa using z.symm
      have zq : cq v w x y ≠ 0 := by
        intro hq
        rw [zp, hq] at ex ey
        rcases hxy with h | h
        · apply h; rw [← ex]; ring
        · apply h; rw [← ey]; ring
      rw [zp]
      have : 0 < cq v w x y ^ 2 := by positivity
      have := mul_pos q1 this
      nlinarith
    · have := mul_pos q0 z
      have := mul_nonneg q1.le s1
      linarith

/-- Metrics that respect the bounds, with hmax small enough and bounds not too far from each other, are always
intersected. -/
theorem C81_succeeds (he : 0 < eps) (h0 : 0 < hmin) (h1 : 0 < hmax) (b1 : eps * hmax ^ 2 ≤ 1) (b2 : eps * hmax ≤ hmin)
    (rm : InRange hmin hmax m) (rn : InRange hmin hmax n) : ∃ r, inter22 eps e13 hmin hmax m n = some r := by
  have hm := rm.metric h1
  have hn := rn.metric h1
  have hdet := det_small he h1 b1 rm
  by_cases hs : sqDelta (invMul m n) < eps
  · obtain ⟨l0, l1, v, w, hd, e⟩ := inter_prop (e13 := e13) (hmin := hmin) (hmax := hmax) hm hn he hdet hs
      (le_max_left m.a m.c) (le_max_right m.a m.c)
    exact ⟨_, e⟩
  · push Not at hs
    obtain ⟨v, w, rfl, rfl, e⟩ := inter_distinct (e13 := e13) (hmin := hmin) (hmax := hmax) hm hn hdet hs
    have ha := angle_ok he h0 h1 b2 (eig_pair hm he hs) rm
    rcases hres : inter22 eps e13 hmin hmax m n with _ | r
    · rw [e] at hres
      have := recomposeInv_none hres
      linarith
    · exact ⟨r, rfl⟩

/-- Also for metrics that are proportional up to rounding: the result covers both metrics up to a relative tolerance. -/
theorem C81_covers_all (he : 0 < eps) (h0 : 0 < hmin) (h1 : 0 < hmax) (rm : InRange hmin hmax m) (rn : InRange hmin hmax n)
    (h : inter22 eps e13 hmin hmax m n = some r) (x y : ℝ) :
    (1 - eps * (1 + 1 / hmin ^ 2) * hmax ^ 2) * len2 m x y ≤ len2 r x y ∧
    (1 - eps * (1 + 1 / hmin ^ 2) * hmax ^ 2) * len2 n x y ≤ (1 + eps) * len2 r x y := by
  have hm := rm.metric h1
  have hn := rn.metric h1
  have hU : 0 < 1 / hmin ^ 2 := by positivity
  have hd0 : 0 < eps * (1 + 1 / hmin ^ 2) * hmax ^ 2 := by positivity
  set δ := eps * (1 + 1 / hmin ^ 2) * hmax ^ 2 with hδ
  have nm := hm.nonneg x y
  have nn := hn.nonneg x y
  by_cases hs : sqDelta (invMul m n) < eps
  · obtain ⟨l0, l1, v, w, hd, e⟩ := inter_prop (e13 := e13) (hmin := hmin) (hmax := hmax) hm hn he (inter_det hm h) hs
      rm.up_a rm.up_c
    rw [e] at h
    have h' := (Option.some.inj h).symm
    have hl := lam0_pos hm hn
    set l := lam0 (invMul m n) with hldef
    have er : len2 r x y = two (min (1 / hmin ^ 2) (max (1 / hmax ^ 2) (max l0 (l * l0))))
        (min (1 / hmin ^ 2) (max (1 / hmax ^ 2) (max l1 (l * l1)))) v w x y := by rw [h', recompose_eq]
    have k0 : l0 ≤ 1 / hmin ^ 2 := hd.le0.trans (rm.up_unit hd.u)
    have k1 : l1 ≤ 1 / hmin ^ 2 := hd.le1.trans (rm.up_unit hd.uw)
    have k0' : l * l0 ≤ 1 / hmin ^ 2 :=
      (mul_le_mul_of_nonneg_left hd.le0 hl.le).trans ((lam0_le hm n _ _).trans (rn.up_unit hd.u))
    have k1' : l * l1 ≤ 1 / hmin ^ 2 :=
      (mul_le_mul_of_nonneg_left hd.le1 hl.le).trans ((lam0_le hm n _ _).trans (rn.up_unit hd.uw))
    have s0 := sq_nonneg (v.x * x + v.y * y)
    have s1 := sq_nonneg (w.x * x + w.y * y)
    have c1 : two l0 l1 v w x y ≤ len2 r x y := by
      rw [er]
      unfold two
      refine add_le_add (mul_le_mul_of_nonneg_right ?_ s0) (mul_le_mul_of_nonneg_right ?_ s1)
      · exact le_min k0 ((le_max_left _ _).trans (le_max_right _ _))
      · exact le_min k1 ((le_max_left _ _).trans (le_max_right _ _))
    have c2 : l * two l0 l1 v w x y ≤ len2 r x y := by
      rw [er]
      have : l * two l0 l1 v w x y = two (l * l0) (l * l1) v w x y := by unfold two; ring
      rw [this]
      unfold two
      refine add_le_add (mul_le_mul_of_nonneg_right ?_ s0) (mul_le_mul_of_nonneg_right ?_ s1)
      · exact le_min k0' ((le_max_right _ _).trans (le_max_right _ _))
      · exact le_min k1' ((le_max_right _ _).trans (le_max_right _ _))
    have hx : eps * (1 + 1 / hmin ^ 2) * (x ^ 2 + y ^ 2) ≤ δ * len2 m x y := by
      have a := (rm x y).1
      rw [div_le_iff₀ (by positivity)] at a
      have := mul_le_mul_of_nonneg_left a (by positivity : 0 ≤ eps * (1 + 1 / hmin ^ 2))
      rw [hδ]; linarith
    have hi := hd.hi x y
    have t1 : (1 - δ) * len2 m x y ≤ two l0 l1 v w x y := by linarith
    refine ⟨t1.trans c1, ?_⟩
    have hr0 : 0 ≤ len2 r x y := by
      rw [er]
      unfold two
      have : 0 ≤ min (1 / hmin ^ 2) (max (1 / hmax ^ 2) (max l0 (l * l0))) :=
        le_min hU.le ((by positivity : (0:ℝ) ≤ 1 / hmax ^ 2).trans (le_max_left _ _))
      have : 0 ≤ min (1 / hmin ^ 2) (max (1 / hmax ^ 2) (max l1 (l * l1))) :=
        le_min hU.le ((by positivity : (0:ℝ) ≤ 1 / hmax ^ 2).trans (le_max_left _ _))
      positivity
    rcases le_total δ 1 with hle | hge
    · have u1 := le_lam1 hm n x y
      have u2 : lam1 (invMul m n) ≤ l + eps := by have := lam_sub (invMul m n); linarith
      have u3 : len2 n x y ≤ (l + eps) * len2 m x y := u1.trans (mul_le_mul_of_nonneg_right u2 nm)
      have u4 := mul_le_mul_of_nonneg_left u3 (by linarith : 0 ≤ 1 - δ)
      have u5 := mul_le_mul_of_nonneg_left t1 hl.le
      have u6 := mul_le_mul_of_nonneg_left (t1.trans c1) he.le
      nlinarith
    · have : (1 - δ) * len2 n x y ≤ 0 := mul_nonpos_of_nonpos_of_nonneg (by linarith) nn
      have : 0 ≤ (1 + eps) * len2 r x y := by positivity
      linarith
  · push Not at hs
    obtain ⟨v, w, rfl, rfl, e⟩ := inter_distinct (e13 := e13) (hmin := hmin) (hmax := hmax) hm hn (inter_det hm h) hs
    rw [e] at h
    have hc := eig_pair hm he hs
    obtain ⟨hne, hr⟩ := recomposeInv_some he h
    set v := eigvec eps (invMul m n) (lam0 (invMul m n))
    set w := eigvec eps (invMul m n) (lam1 (invMul m n))
    rw [max_eq_left ((rm.low_unit hc.uv).trans (le_max_left _ _)),
      min_eq_right (max_le (rm.up_unit hc.uv) (rn.up_unit hc.uv)),
      max_eq_left ((rm.low_unit hc.uw).trans (le_max_left _ _)),
      min_eq_right (max_le (rm.up_unit hc.uw) (rn.up_unit hc.uw))] at hr
    have p := sq_nonneg (cp v w x y)
    have q := sq_nonneg (cq v w x y)
    have c1 : len2 m x y ≤ len2 r x y := by
      rw [hr, hc.len2_eq x y]
      exact add_le_add (mul_le_mul_of_nonneg_right (le_max_left _ _) p) (mul_le_mul_of_nonneg_right (le_max_left _ _) q)
    have c2 : len2 n x y ≤ len2 r x y := by
      rw [hr, hc.symm.len2_eq x y]
      exact add_le_add (mul_le_mul_of_nonneg_right (le_max_right _ _) p) (mul_le_mul_of_nonneg_right (le_max_right _ _) q)
    have z1 : 0 ≤ δ * len2 m x y := by positivity
    have z2 : 0 ≤ δ * len2 n x y := by positivity
    have z3 : 0 ≤ eps * len2 r x y := mul_nonneg he.le (nm.trans c1)
    constructor <;> linarith

/-- Consequence: sizes never exceed hmax. -/
theorem C81_hmax (he : 0 < eps) (h1 : 0 < hmax) (rm : InRange hmin hmax m) (rn : InRange hmin hmax n)
    (hD : Distinct eps m n) (h : inter22 eps e13 hmin hmax m n = some r) (x y : ℝ) :
    (x ^ 2 + y ^ 2) / hmax ^ 2 ≤ len2 r x y :=
  (rm x y).1.trans ((C81_covers he h1 rm rn hD h).1 x y).1

end Mmg.Met2
