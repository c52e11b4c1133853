/-
  C67. Quality of tetrahedra and triangles: theorems and concrete cases.
-/
import Verif.QualProps

namespace Mmg.Qual

open Mmg.Split3 (Pt)

/-! ### Lemmas on the normalised fraction -/

theorem sqrt_sq3 {r : ℝ} (hr : 0 ≤ r) : (√r * r) ^ 2 = r ^ 3 := by
  rw [mul_pow, Real.sq_sqrt hr]; ring

theorem frac_le {n r : ℝ} (hn : 0 ≤ n) (hr : 0 < r) (h : 432 * n ^ 2 ≤ r ^ 3) :
    12 * √3 * (n / (√r * r)) ≤ 1 := by
  have hd : 0 < √r * r := mul_pos (Real.sqrt_pos.2 hr) hr
  rw [← mul_div_assoc, div_le_one hd]
  apply abs_le_of_sq_le_sq' _ hd.le |>.2
  rw [sqrt_sq3 hr.le, mul_pow, mul_pow, Real.sq_sqrt (by norm_num)]
  linarith

theorem frac_eq {n r : ℝ} (hn : 0 ≤ n) (hr : 0 < r) :
    n / (√r * r) = 1 / (12 * √3) ↔ 432 * n ^ 2 = r ^ 3 := by
  have hd : 0 < √r * r := mul_pos (Real.sqrt_pos.2 hr) hr
  have h3 : 0 < 12 * √3 := by positivity
  rw [div_eq_div_iff hd.ne' h3.ne', one_mul]
  constructor
  · intro h
    rw [← sqrt_sq3 hr.le, ← h, mul_pow, mul_pow, Real.sq_sqrt (by norm_num)]
    ring
  · intro h
    have e : (n * (12 * √3)) ^ 2 = (√r * r) ^ 2 := by
      rw [sqrt_sq3 hr.le, mul_pow, mul_pow, Real.sq_sqrt (by norm_num), ← h]
      ring
    exact (pow_left_inj₀ (by positivity) hd.le two_ne_zero).1 e

theorem rap_pos {m : Sym3} (hm : m.PosDef) {a b c d : Pt ℝ} (h : vol6 a b c d ≠ 0) : 0 < rapOf m a b c d := by
  rw [rap_bim]
  have := dot_pos hm (bim_ne h)
  have := dot_nonneg hm (bim a c b d)
  have := dot_nonneg hm (bim a d b c)
  linarith

/-- The usual metric. -/
def one : Sym3 := ⟨1, 0, 0, 1, 0, 1⟩

theorem one_posDef : one.PosDef := by
  intro x y z h
  simp only [one]
  rcases h with h | h | h
  · have := mul_self_pos.2 h
    nlinarith [mul_self_nonneg y, mul_self_nonneg z]
  · have := mul_self_pos.2 h
    nlinarith [mul_self_nonneg x, mul_self_nonneg z]
  · have := mul_self_pos.2 h
    nlinarith [mul_self_nonneg x, mul_self_nonneg y]

theorem one_len2 : one.len2 = sq := by
  funext p q; simp only [one, Sym3.len2, sq]; ring

theorem one_det : one.det = 1 := by simp [one, Sym3.det]

theorem eps_pos : 0 < EPSD2 := by unfold EPSD2; positivity

/-- The second test of the isotropic quality never changes the result. -/
theorem rap_eps {a b c d : Pt ℝ} (h : EPSD2 ≤ vol6 a b c d) : EPSD2 ≤ rapOf one a b c d := by
  have hv : 0 < vol6 a b c d := lt_of_lt_of_le eps_pos h
  have h1 := quality_le one_posDef hv.ne'
  have h2 := rap_pos one_posDef hv.ne'
  rw [one_det, one_mul] at h1
  by_contra hc
  have hc := not_le.1 hc
  have h3 : rapOf one a b c d ^ 3 < EPSD2 ^ 3 := pow_lt_pow_left₀ hc h2.le (by norm_num)
  have h4 : EPSD2 ^ 2 ≤ vol6 a b c d ^ 2 := pow_le_pow_left₀ eps_pos.le h 2
  have h5 : EPSD2 ^ 3 ≤ EPSD2 ^ 2 := by
    have : EPSD2 ≤ 1 := by unfold EPSD2; norm_num
    have := sq_nonneg EPSD2
    nlinarith
  have := sq_nonneg EPSD2
  linarith

theorem calIso_eq {a b c d : Pt ℝ} (h : EPSD2 ≤ vol6 a b c d) :
    calIso a b c d = vol6 a b c d / (√(rapOf one a b c d) * rapOf one a b c d) := by
  have h2 := rap_eps h
  unfold calIso
  rw [if_neg (not_lt.2 h)]
  simp only [rapOf, one_len2] at h2 ⊢
  rw [if_neg (not_lt.2 h2), mul_comm (√_)]

/-! ## C67 -/

/-- **C67.** The isotropic quality is between 0 and 1 once normalised. -/
theorem C67_iso_range (a b c d : Pt ℝ) : 0 ≤ calIso a b c d ∧ 12 * √3 * calIso a b c d ≤ 1 := by
  by_cases h : EPSD2 ≤ vol6 a b c d
  · have hv : 0 < vol6 a b c d := lt_of_lt_of_le eps_pos h
    have hr := rap_pos one_posDef hv.ne'
    rw [calIso_eq h]
    refine ⟨by positivity, frac_le hv.le hr ?_⟩
    have := quality_le one_posDef hv.ne'
    rwa [one_det, one_mul] at this
  · unfold calIso
    rw [if_pos (not_le.1 h)]
    simp

/-- **C67.** It is 0 exactly for a tetrahedron that is flat (volume below the threshold) or inverted. -/
theorem C67_iso_zero (a b c d : Pt ℝ) : calIso a b c d = 0 ↔ vol6 a b c d < EPSD2 := by
  by_cases h : EPSD2 ≤ vol6 a b c d
  · have hv : 0 < vol6 a b c d := lt_of_lt_of_le eps_pos h
    have hr := rap_pos one_posDef hv.ne'
    rw [calIso_eq h]
    have : 0 < vol6 a b c d / (√(rapOf one a b c d) * rapOf one a b c d) := by
      have := Real.sqrt_pos.2 hr
      positivity
    exact ⟨fun e => absurd e this.ne', fun e => absurd h (not_le.2 e)⟩
  · unfold calIso
    rw [if_pos (not_le.1 h)]
    exact ⟨fun _ => not_le.1 h, fun _ => rfl⟩

/-- **C67.** It is 1 once normalised exactly for the regular tetrahedra with the right orientation. -/
theorem C67_iso_one (a b c d : Pt ℝ) :
    12 * √3 * calIso a b c d = 1 ↔ EPSD2 ≤ vol6 a b c d ∧ EqualEdges sq a b c d := by
  have h3 : (12 : ℝ) * √3 ≠ 0 := by positivity
  by_cases h : EPSD2 ≤ vol6 a b c d
  · have hv : 0 < vol6 a b c d := lt_of_lt_of_le eps_pos h
    have hr := rap_pos one_posDef hv.ne'
    have e := quality_eq one_posDef hv.ne'
    rw [one_det, one_mul, one_len2] at e
    rw [mul_comm, ← eq_div_iff h3, calIso_eq h, frac_eq hv.le hr, e]
    exact ⟨fun x => ⟨h, x⟩, fun x => x.2⟩
  · rw [(C67_iso_zero a b c d).2 (not_le.1 h), mul_zero]
    exact ⟨fun x => absurd x (by norm_num), fun x => absurd x.1 h⟩

/-- **C67.** A quality that is not refused by the validity tests (`MMG5_NULKAL`) means a positive
volume. -/
theorem C67_iso_valid {a b c d : Pt ℝ} (h : NULKAL ≤ calIso a b c d) : 0 < vol6 a b c d := by
  by_contra hc
  have : vol6 a b c d < EPSD2 := lt_of_le_of_lt (not_lt.1 hc) eps_pos
  rw [(C67_iso_zero a b c d).2 this] at h
  have : 0 < NULKAL := by unfold NULKAL; positivity
  linarith

/-- A rotation of space, by its columns. -/
structure Rot where
  (u v w : Pt ℝ)
  uu : u.x * u.x + u.y * u.y + u.z * u.z = 1
  vv : v.x * v.x + v.y * v.y + v.z * v.z = 1
  ww : w.x * w.x + w.y * w.y + w.z * w.z = 1
  uv : u.x * v.x + u.y * v.y + u.z * v.z = 0
  uw : u.x * w.x + u.y * w.y + u.z * w.z = 0
  vw : v.x * w.x + v.y * w.y + v.z * w.z = 0
  or : det3 u v w = 1

/-- The image of a point by a rotation, a scaling by `s` and a translation. -/
def Rot.app (R : Rot) (s : ℝ) (t p : Pt ℝ) : Pt ℝ :=
  ⟨s * (R.u.x * p.x + R.v.x * p.y + R.w.x * p.z) + t.x, s * (R.u.y * p.x + R.v.y * p.y + R.w.y * p.z) + t.y,
    s * (R.u.z * p.x + R.v.z * p.y + R.w.z * p.z) + t.z⟩

theorem Rot.sq (R : Rot) (s : ℝ) (t p q : Pt ℝ) : sq (R.app s t p) (R.app s t q) = s ^ 2 * Qual.sq p q := by
  obtain ⟨u, v, w, uu, vv, ww, uv, uw, vw, _⟩ := R
  simp only [Qual.sq, Rot.app] at *
  linear_combination s ^ 2 * (q.x - p.x) ^ 2 * uu + s ^ 2 * (q.y - p.y) ^ 2 * vv + s ^ 2 * (q.z - p.z) ^ 2 * ww +
    2 * s ^ 2 * (q.x - p.x) * (q.y - p.y) * uv + 2 * s ^ 2 * (q.x - p.x) * (q.z - p.z) * uw +
    2 * s ^ 2 * (q.y - p.y) * (q.z - p.z) * vw

theorem Rot.vol (R : Rot) (s : ℝ) (t a b c d : Pt ℝ) :
    vol6 (R.app s t a) (R.app s t b) (R.app s t c) (R.app s t d) = s ^ 3 * vol6 a b c d := by
  have e : vol6 (R.app s t a) (R.app s t b) (R.app s t c) (R.app s t d) = det3 R.u R.v R.w * (s ^ 3 * vol6 a b c d) := by
    simp only [vol6, det3, Rot.app]; ring
  rw [e, R.or, one_mul]

/-- **C67.** The quality depends only on the shape: it is the same after a rotation, a translation and a
change of the unit of length (as long as the volumes are above the threshold). -/
theorem C67_iso_shape (R : Rot) {s : ℝ} (hs : 0 < s) (t : Pt ℝ) {a b c d : Pt ℝ} (h : EPSD2 ≤ vol6 a b c d)
    (h' : EPSD2 ≤ s ^ 3 * vol6 a b c d) :
    calIso (R.app s t a) (R.app s t b) (R.app s t c) (R.app s t d) = calIso a b c d := by
  have e := R.vol s t a b c d
  have hv : 0 < vol6 a b c d := lt_of_lt_of_le eps_pos h
  rw [calIso_eq (by rw [e]; exact h'), calIso_eq h, e]
  have hr := rap_pos one_posDef hv.ne'
  have er : rapOf one (R.app s t a) (R.app s t b) (R.app s t c) (R.app s t d) = s ^ 2 * rapOf one a b c d := by
    simp only [rapOf, one_len2, R.sq]; ring
  rw [er, Real.sqrt_mul (by positivity), Real.sqrt_sq hs.le]
  have := Real.sqrt_pos.2 hr
  field_simp

/-- **C67.** The quality does not depend on the order of the vertices, but for the orientation: two
vertices exchanged twice change nothing, two vertices exchanged once give 0. -/
theorem C67_iso_order (a b c d : Pt ℝ) :
    calIso b c a d = calIso a b c d ∧ calIso b a d c = calIso a b c d ∧
    (calIso a b c d ≠ 0 → calIso b a c d = 0) := by
  have v1 : vol6 b c a d = vol6 a b c d := by simp only [vol6]; ring
  have v2 : vol6 b a d c = vol6 a b c d := by simp only [vol6]; ring
  have v3 : vol6 b a c d = - vol6 a b c d := by simp only [vol6]; ring
  have s : ∀ p q, sq p q = sq q p := fun p q => by simp only [sq]; ring
  refine ⟨?_, ?_, ?_⟩
  · unfold calIso
    have e : sq b c + sq b a + sq b d + sq c a + sq c d + sq a d =
      sq a b + sq a c + sq a d + sq b c + sq b d + sq c d := by rw [s b a, s c a]; ring
    simp only [v1, e]
  · unfold calIso
    have e : sq b a + sq b d + sq b c + sq a d + sq a c + sq d c =
      sq a b + sq a c + sq a d + sq b c + sq b d + sq c d := by rw [s b a, s d c]; ring
    simp only [v2, e]
  · intro h
    rw [Ne, C67_iso_zero, not_lt] at h
    rw [C67_iso_zero, v3]
    have := eps_pos
    linarith

/-- **C67.** With a positive definite mean metric the anisotropic quality is always a number, between 0
and 1 once normalised, and 0 exactly for inverted or flat tetrahedra or a degenerate metric. -/
theorem C67_ani_range {m : Sym3} (hm : m.PosDef) (a b c d : Pt ℝ) :
    ∃ q, calAni m a b c d = some q ∧ 0 ≤ q ∧ 12 * √3 * q ≤ 1 ∧
      (q = 0 ↔ vol6 a b c d ≤ 0 ∨ m.det < EPSD2) := by
  unfold calAni
  by_cases h : vol6 a b c d ≤ 0
  · rw [if_pos h]
    exact ⟨0, rfl, le_rfl, by simp, by simp [h]⟩
  rw [if_neg h]
  by_cases hd : m.det < EPSD2
  · rw [if_pos hd]
    exact ⟨0, rfl, le_rfl, by simp, by simp [hd]⟩
  have hv := not_le.1 h
  have hr := rap_pos hm hv.ne'
  have hd0 : 0 < m.det := lt_of_lt_of_le eps_pos (not_lt.1 hd)
  rw [if_neg hd]
  have hr' := hr
  unfold rapOf at hr'
  simp only
  rw [if_neg (not_le.2 hr')]
  change ∃ q, some (√m.det * vol6 a b c d / (√(rapOf m a b c d) * rapOf m a b c d)) = some q ∧ _
  have s1 := Real.sqrt_pos.2 hr
  have s2 := Real.sqrt_pos.2 hd0
  refine ⟨_, rfl, by positivity, frac_le (by positivity) hr ?_, ?_⟩
  · rw [mul_pow, Real.sq_sqrt hd0.le]
    exact quality_le hm hv.ne'
  · have : 0 < √m.det * vol6 a b c d / (√(rapOf m a b c d) * rapOf m a b c d) := by positivity
    exact ⟨fun e => absurd e this.ne', fun e => by tauto⟩

/-- **C67.** And it is 1 once normalised exactly for the tetrahedra with equal edges in the metric. -/
theorem C67_ani_one {m : Sym3} (hm : m.PosDef) (a b c d : Pt ℝ) :
    calAni m a b c d = some (1 / (12 * √3)) ↔
      0 < vol6 a b c d ∧ EPSD2 ≤ m.det ∧ EqualEdges m.len2 a b c d := by
  have h3 : (0 : ℝ) < 1 / (12 * √3) := by positivity
  unfold calAni
  by_cases h : vol6 a b c d ≤ 0
  · rw [if_pos h]
    constructor
    · intro e; injection e with e; exact absurd e h3.ne
    · intro e; exact absurd h (not_le.2 e.1)
  rw [if_neg h]
  by_cases hd : m.det < EPSD2
  · rw [if_pos hd]
    constructor
    · intro e; injection e with e; exact absurd e h3.ne
    · intro e; exact absurd hd (not_lt.2 e.2.1)
  have hv := not_le.1 h
  have hr := rap_pos hm hv.ne'
  have hd0 : 0 < m.det := lt_of_lt_of_le eps_pos (not_lt.1 hd)
  rw [if_neg hd]
  have hr' := hr
  unfold rapOf at hr'
  simp only
  rw [if_neg (not_le.2 hr')]
  change some (√m.det * vol6 a b c d / (√(rapOf m a b c d) * rapOf m a b c d)) = _ ↔ _
  rw [Option.some_inj, frac_eq (by positivity) hr, mul_pow, Real.sq_sqrt hd0.le, quality_eq hm hv.ne']
  exact ⟨fun e => ⟨hv, not_lt.1 hd, e⟩, fun e => e.2.2⟩

/-- **C67.** The mean of four positive definite metrics is positive definite. -/
theorem C67_mean {m0 m1 m2 m3 : Sym3} (h0 : m0.PosDef) (h1 : m1.PosDef) (h2 : m2.PosDef) (h3 : m3.PosDef) :
    (mean4 m0 m1 m2 m3).PosDef := by
  intro x y z h
  have a0 := h0 x y z h
  have a1 := h1 x y z h
  have a2 := h2 x y z h
  have a3 := h3 x y z h
  simp only [mean4]
  linarith

/-- **C67.** With a metric of uniform size `h` (the matrix `I / h²`) the anisotropic quality is the
isotropic one: it does not depend on the size. -/
theorem C67_ani_iso {h : ℝ} (hh : 0 < h) {a b c d : Pt ℝ} (hv : EPSD2 ≤ vol6 a b c d)
    (hd : EPSD2 ≤ (1 / h ^ 2) ^ 3) :
    calAni ⟨1 / h ^ 2, 0, 0, 1 / h ^ 2, 0, 1 / h ^ 2⟩ a b c d = some (calIso a b c d) := by
  obtain ⟨k, hk, hk0⟩ : ∃ k : ℝ, k = 1 / h ∧ 0 < k := ⟨_, rfl, by positivity⟩
  have e2 : 1 / h ^ 2 = k ^ 2 := by rw [hk, div_pow, one_pow]
  rw [e2] at hd ⊢
  have hv0 : 0 < vol6 a b c d := lt_of_lt_of_le eps_pos hv
  have hr := rap_pos one_posDef hv0.ne'
  have det : (⟨k ^ 2, 0, 0, k ^ 2, 0, k ^ 2⟩ : Sym3).det = (k ^ 3) ^ 2 := by simp only [Sym3.det]; ring
  have len : ∀ p q, (⟨k ^ 2, 0, 0, k ^ 2, 0, k ^ 2⟩ : Sym3).len2 p q = k ^ 2 * sq p q := by
    intro p q; simp only [Sym3.len2, sq]; ring
  have e : k ^ 2 * sq a b + k ^ 2 * sq a c + k ^ 2 * sq a d + k ^ 2 * sq b c + k ^ 2 * sq b d + k ^ 2 * sq c d =
      k ^ 2 * rapOf one a b c d := by simp only [rapOf, one_len2]; ring
  unfold calAni
  rw [if_neg (not_le.2 hv0), det, if_neg (not_lt.2 (by rw [← pow_mul]; rw [← pow_mul] at hd; exact hd))]
  simp only [len, e]
  rw [if_neg (not_le.2 (by positivity)), calIso_eq hv, Real.sqrt_mul (by positivity), Real.sqrt_sq (by positivity),
    Real.sqrt_sq hk0.le, Option.some_inj]
  have := Real.sqrt_pos.2 hr
  field_simp

/-- **C67.** For a metric that is not positive definite, although its determinant passes the test, the
anisotropic quality may be the square root of a negative number. -/
theorem C67_ani_indefinite : ∃ (m : Sym3) (a b c d : Pt ℝ), EPSD2 ≤ m.det ∧ EPSD2 ≤ vol6 a b c d ∧
    calAni m a b c d = none := by
  refine ⟨⟨-1, 0, 0, -1, 0, 1⟩, ⟨0, 0, 0⟩, ⟨1, 0, 0⟩, ⟨0, 1, 0⟩, ⟨0, 0, 1⟩, ?_, ?_, ?_⟩
  · simp only [Sym3.det, EPSD2]; norm_num
  · simp only [vol6, EPSD2]; norm_num
  · unfold calAni
    simp only [vol6, Sym3.det, Sym3.len2, EPSD2]
    norm_num

/-- **C67.** With the constant of the library the normalised quality is below 1 and reaches 1 up to
`10⁻¹³` for regular tetrahedra. -/
theorem C67_constant (a b c d : Pt ℝ) : 0 ≤ ALPHA3 * calIso a b c d ∧ ALPHA3 * calIso a b c d < 1 ∧
    (EPSD2 ≤ vol6 a b c d → EqualEdges sq a b c d → 1 - 1 / 10 ^ 13 < ALPHA3 * calIso a b c d) := by
  obtain ⟨h0, h1⟩ := C67_iso_range a b c d
  have hA : 0 < ALPHA3 := by unfold ALPHA3; norm_num
  have h3 : √3 ^ 2 = 3 := Real.sq_sqrt (by norm_num)
  have p3 : 0 < √3 := Real.sqrt_pos.2 (by norm_num)
  have lo : ALPHA3 < 12 * √3 := by
    refine lt_of_pow_lt_pow_left₀ 2 (by positivity) ?_
    rw [mul_pow, h3]; unfold ALPHA3; norm_num
  have hi : 12 * √3 * (1 - 1 / 10 ^ 13) < ALPHA3 := by
    refine lt_of_pow_lt_pow_left₀ 2 hA.le ?_
    rw [mul_pow, mul_pow, h3]; unfold ALPHA3; norm_num
  refine ⟨by positivity, ?_, fun hv he => ?_⟩
  · rcases h0.lt_or_eq with h | h
    · nlinarith
    · rw [← h, mul_zero]; norm_num
  · have e := (C67_iso_one a b c d).2 ⟨hv, he⟩
    have : calIso a b c d = 1 / (12 * √3) := by
      rw [eq_div_iff (by positivity)]; linarith
    rw [this, mul_one_div, lt_div_iff₀ (by positivity)]
    linarith

/-! ### Triangles -/

def Sym2.PosDef (m : Sym2) : Prop :=
  ∀ x y : ℝ, (x ≠ 0 ∨ y ≠ 0) → 0 < m.a * x * x + m.d * y * y + 2 * m.b * x * y

def EqualEdges2 (l : Pt2 → Pt2 → ℝ) (a b c : Pt2) : Prop := l a b = l a c ∧ l a b = l b c

theorem tri_id (m : Sym2) (a b c : Pt2) :
    (m.len2 a b + m.len2 a c + m.len2 b c) ^ 2 - 12 * ((m.a * m.d - m.b * m.b) * area2 a b c ^ 2) =
      3 * (m.len2 a b - m.len2 a c) ^ 2 + (2 * m.len2 b c - m.len2 a b - m.len2 a c) ^ 2 := by
  simp only [Sym2.len2, area2]; ring

theorem tri_pos {m : Sym2} (hm : m.PosDef) {a b c : Pt2} (h : area2 a b c ≠ 0) :
    0 < m.len2 a b ∧ 0 < m.len2 a c ∧ 0 < m.len2 b c := by
  have key : ∀ p q : Pt2, (p.x = q.x → p.y = q.y → False) → 0 < m.len2 p q := by
    intro p q hpq
    apply hm
    by_contra hc
    simp only [not_or, not_not] at hc
    exact hpq (by linarith [hc.1]) (by linarith [hc.2])
  refine ⟨key _ _ ?_, key _ _ ?_, key _ _ ?_⟩ <;> intro h1 h2 <;> apply h <;> simp only [area2]
  · rw [h1, h2]; ring
  · rw [h1, h2]; ring
  · rw [h1, h2]; ring

theorem det2_pos {m : Sym2} (hm : m.PosDef) : 0 < m.a * m.d - m.b * m.b := by
  have h1 := hm 1 0 (by simp)
  have h2 := hm (-m.b) m.a (by right; intro h; simp [h] at h1)
  have ha : 0 < m.a := by linarith
  have : 0 < m.a * (m.a * m.d - m.b * m.b) := by nlinarith
  exact pos_of_mul_pos_right this ha.le

theorem frac2_le {n r : ℝ} (hr : 0 < r) (h : 12 * n ^ 2 ≤ r ^ 2) : 2 * √3 * (n / r) ≤ 1 := by
  rw [← mul_div_assoc, div_le_one hr]
  apply abs_le_of_sq_le_sq' _ hr.le |>.2
  rw [mul_pow, mul_pow, Real.sq_sqrt (by norm_num)]
  linarith

theorem frac2_eq {n r : ℝ} (hn : 0 ≤ n) (hr : 0 < r) : 2 * √3 * (n / r) = 1 ↔ 12 * n ^ 2 = r ^ 2 := by
  rw [← mul_div_assoc, div_eq_one_iff_eq hr.ne']
  constructor
  · intro h; rw [← h, mul_pow, mul_pow, Real.sq_sqrt (by norm_num)]; ring
  · intro h
    refine (pow_left_inj₀ (by positivity) hr.le two_ne_zero).1 ?_
    rw [mul_pow, mul_pow, Real.sq_sqrt (by norm_num), ← h]; ring

theorem edges_iff {x y z : ℝ} : 3 * (x - y) ^ 2 + (2 * z - x - y) ^ 2 = 0 ↔ x = y ∧ x = z := by
  constructor
  · intro h
    have h1 := sq_nonneg (x - y)
    have h2 := sq_nonneg (2 * z - x - y)
    have e1 : x - y = 0 := pow_eq_zero_iff two_ne_zero |>.1 (by linarith)
    have e2 : 2 * z - x - y = 0 := pow_eq_zero_iff two_ne_zero |>.1 (by linarith)
    exact ⟨by linarith, by linarith⟩
  · rintro ⟨rfl, rfl⟩; ring

/-- **C67.** Quality of a triangle in a positive definite metric: always a number, between 0 and 1 once
normalised, 0 exactly for flat or inverted triangles, 1 exactly for triangles with the right orientation
and equal edges in the metric. -/
theorem C67_tri_ani {m : Sym2} (hm : m.PosDef) (a b c : Pt2) :
    ∃ q, calTriAni m a b c = some q ∧ 0 ≤ q ∧ 2 * √3 * q ≤ 1 ∧ (q = 0 ↔ area2 a b c ≤ 0) ∧
      (2 * √3 * q = 1 ↔ 0 < area2 a b c ∧ EqualEdges2 m.len2 a b c) := by
  have hd := det2_pos hm
  unfold calTriAni
  by_cases h : area2 a b c ≤ 0
  · rw [if_pos h]
    exact ⟨0, rfl, le_rfl, by simp, by simp [h], by simp [h]⟩
  rw [if_neg h]
  have ha := not_le.1 h
  obtain ⟨p1, p2, p3⟩ := tri_pos hm ha.ne'
  simp only [p1, p2, p3, if_true, Real.mul_self_sqrt p1.le, Real.mul_self_sqrt p2.le, Real.mul_self_sqrt p3.le]
  have hr : 0 < m.len2 a b + m.len2 a c + m.len2 b c := by positivity
  rw [if_neg (not_lt.2 hd.le), if_pos hr]
  have s := Real.sqrt_pos.2 hd
  have e := tri_id m a b c
  have n1 := sq_nonneg (m.len2 a b - m.len2 a c)
  have n2 := sq_nonneg (2 * m.len2 b c - m.len2 a b - m.len2 a c)
  have pos : 0 < √(m.a * m.d - m.b * m.b) * area2 a b c / (m.len2 a b + m.len2 a c + m.len2 b c) := by positivity
  refine ⟨_, rfl, pos.le, frac2_le hr ?_, ⟨fun e => absurd e pos.ne', fun e => absurd e h⟩, ?_⟩
  · rw [mul_pow, Real.sq_sqrt hd.le]; linarith
  · rw [frac2_eq (by positivity) hr, mul_pow, Real.sq_sqrt hd.le]
    unfold EqualEdges2
    rw [← edges_iff, ← e]
    constructor
    · intro h; exact ⟨ha, by linarith⟩
    · intro h; linarith [h.2]

/-- **C67.** The same without a metric. -/
theorem C67_tri_iso (a b c : Pt2) :
    0 ≤ calTri a b c ∧ 2 * √3 * calTri a b c ≤ 1 ∧ (calTri a b c = 0 ↔ area2 a b c ≤ 0) ∧
      (2 * √3 * calTri a b c = 1 ↔ 0 < area2 a b c ∧ EqualEdges2 sq2 a b c) := by
  have hm : (⟨1, 0, 1⟩ : Sym2).PosDef := by
    intro x y h
    simp only
    rcases h with h | h
    · have := mul_self_pos.2 h
      nlinarith [mul_self_nonneg y]
    · have := mul_self_pos.2 h
      nlinarith [mul_self_nonneg x]
  have hl : (⟨1, 0, 1⟩ : Sym2).len2 = sq2 := by funext p q; simp only [Sym2.len2, sq2]; ring
  obtain ⟨q, h1, h2, h3, h4, h5⟩ := C67_tri_ani hm a b c
  have : calTri a b c = q := by
    unfold calTriAni at h1
    unfold calTri
    by_cases h : area2 a b c ≤ 0
    · rw [if_pos h] at h1 ⊢
      injection h1
    · rw [if_neg h] at h1 ⊢
      obtain ⟨p1, p2, p3⟩ := tri_pos hm (not_le.1 h).ne'
      simp only [p1, p2, p3, if_true, Real.mul_self_sqrt p1.le, Real.mul_self_sqrt p2.le,
        Real.mul_self_sqrt p3.le] at h1
      have hr : 0 < (⟨1, 0, 1⟩ : Sym2).len2 a b + (⟨1, 0, 1⟩ : Sym2).len2 a c + (⟨1, 0, 1⟩ : Sym2).len2 b c := by
        positivity
      rw [if_neg (by norm_num), if_pos hr] at h1
      rw [hl] at h1 hr
      simp only
      rw [if_pos hr]
      injection h1 with h1
      rw [← h1]
      norm_num
  rw [this]
  rw [hl] at h5
  exact ⟨h2, h3, h4, h5⟩

/-- **C67.** In two dimensions the constant of the library is rounded above `2√3`: the normalised
quality exceeds 1, by less than `10⁻¹⁵`, for the equilateral triangles. -/
theorem C67_tri_constant (a b c : Pt2) : 0 ≤ ALPHA2 * calTri a b c ∧ ALPHA2 * calTri a b c < 1 + 1 / 10 ^ 15 ∧
    (0 < area2 a b c → EqualEdges2 sq2 a b c → 1 < ALPHA2 * calTri a b c) := by
  obtain ⟨h0, h1, _, he⟩ := C67_tri_iso a b c
  have hA : 0 < ALPHA2 := by unfold ALPHA2; norm_num
  have h3 : √3 ^ 2 = 3 := Real.sq_sqrt (by norm_num)
  have p3 : 0 < √3 := Real.sqrt_pos.2 (by norm_num)
  have lo : 2 * √3 < ALPHA2 := by
    refine lt_of_pow_lt_pow_left₀ 2 hA.le ?_
    rw [mul_pow, h3]; unfold ALPHA2; norm_num
  have hi : ALPHA2 < 2 * √3 * (1 + 1 / 10 ^ 15) := by
    refine lt_of_pow_lt_pow_left₀ 2 (by positivity) ?_
    rw [mul_pow, mul_pow, h3]; unfold ALPHA2; norm_num
  refine ⟨by positivity, ?_, fun ha hb => ?_⟩
  · rcases h0.lt_or_eq with h | h
    · nlinarith
    · rw [← h, mul_zero]; norm_num
  · have e := he.2 ⟨ha, hb⟩
    have : 0 < calTri a b c := by
      rcases h0.lt_or_eq with h | h
      · exact h
      · rw [← h, mul_zero] at e; norm_num at e
    nlinarith

/-- **C67.** The volume of the qualities is the volume of the rest of the library. -/
theorem C67_volume (a b c d : Pt ℝ) : vol6 a b c d = Mmg.Split3.vol a b c d := by
  simp only [vol6, Mmg.Split3.vol]; ring

/-! ### Concrete cases -/

/-- A regular tetrahedron; a flat one; a positive definite metric. -/
example : EPSD2 ≤ vol6 ⟨1, 1, 1⟩ ⟨1, -1, -1⟩ ⟨-1, -1, 1⟩ ⟨-1, 1, -1⟩ ∧
    EqualEdges sq ⟨1, 1, 1⟩ ⟨1, -1, -1⟩ ⟨-1, -1, 1⟩ ⟨-1, 1, -1⟩ ∧
    vol6 ⟨0, 0, 0⟩ ⟨1, 0, 0⟩ ⟨0, 1, 0⟩ ⟨1, 1, 0⟩ < EPSD2 ∧
    calIso ⟨0, 0, 0⟩ ⟨1, 0, 0⟩ ⟨0, 1, 0⟩ ⟨0, 0, 1⟩ = 1 / (9 * √9) := by
  refine ⟨?_, ?_, ?_, ?_⟩
  · simp only [vol6, EPSD2]; norm_num
  · simp only [EqualEdges, sq]; norm_num
  · simp only [vol6, EPSD2]; norm_num
  · unfold calIso
    simp only [vol6, sq, EPSD2]
    norm_num

/-- A metric with sizes 1/2, 1 and 1/3, and a rotation by a quarter turn. -/
example : (⟨4, 0, 0, 1, 0, 9⟩ : Sym3).PosDef ∧ ∃ R : Rot, R.app 2 ⟨1, 0, 0⟩ ⟨3, 4, 5⟩ = ⟨-7, 6, 10⟩ := by
  constructor
  · intro x y z h
    simp only
    rcases h with h | h | h <;> have := mul_self_pos.2 h <;>
      nlinarith [mul_self_nonneg x, mul_self_nonneg y, mul_self_nonneg z]
  · refine ⟨⟨⟨0, 1, 0⟩, ⟨-1, 0, 0⟩, ⟨0, 0, 1⟩, ?_, ?_, ?_, ?_, ?_, ?_, ?_⟩, ?_⟩
    all_goals (try simp only [det3, Rot.app]) <;> norm_num

/-- An equilateral triangle in a metric that is not the usual one. -/
example : (⟨1, 0, 3⟩ : Sym2).PosDef ∧ EqualEdges2 (⟨1, 0, 3⟩ : Sym2).len2 ⟨0, 0⟩ ⟨2, 0⟩ ⟨1, 1⟩ ∧
    0 < area2 ⟨0, 0⟩ ⟨2, 0⟩ ⟨1, 1⟩ := by
  refine ⟨?_, ?_, ?_⟩
  · intro x y h
    simp only
    rcases h with h | h <;> have := mul_self_pos.2 h <;> nlinarith [mul_self_nonneg x, mul_self_nonneg y]
  · simp only [EqualEdges2, Sym2.len2]; norm_num
  · simp only [area2]; norm_num

end Mmg.Qual
