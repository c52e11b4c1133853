/- C91: triangles in the plane (helper lemmas): crossing numbers, perturbation. -/
import Mathlib.Algebra.Order.Field.Basic
import Mathlib.Algebra.Order.Ring.Abs
import Mathlib.Tactic.Linarith
import Mathlib.Tactic.LinearCombination
import Mathlib.Tactic.Positivity
import Mathlib.Tactic.Ring
import Mathlib.Tactic.FieldSimp

namespace Mmg.Del2

variable {K : Type} [Field K] [LinearOrder K] [IsStrictOrderedRing K]

/-- Twice the signed area. -/
def ar (a b c : K × K) : K := (b.1 - a.1) * (c.2 - a.2) - (b.2 - a.2) * (c.1 - a.1)

/-- Strictly inside of the triangle `a b c`. -/
def In (a b c p : K × K) : Prop := 0 < ar a b p ∧ 0 < ar b c p ∧ 0 < ar c a p

/-- Inside or on the border. -/
def InC (a b c p : K × K) : Prop := 0 ≤ ar a b p ∧ 0 ≤ ar b c p ∧ 0 ≤ ar c a p

/-- Signed crossing of the edge `a b` with the half line from `p` in the direction of `x`. -/
def wn (p a b : K × K) : Int :=
  (if a.2 ≤ p.2 ∧ p.2 < b.2 ∧ 0 < ar a b p then 1 else 0) - (if b.2 ≤ p.2 ∧ p.2 < a.2 ∧ 0 < ar b a p then 1 else 0)

theorem wn_anti (p a b : K × K) : wn p b a = - wn p a b := by unfold wn; ring

theorem ar_swap (a b p : K × K) : ar b a p = - ar a b p := by unfold ar; ring
theorem ar_rot (a b p : K × K) : ar b p a = ar a b p := by unfold ar; ring

/-- Edge `u w` is passed on the right side, also after a small move to the right and still less up. -/
def Lex (u w p : K × K) : Prop :=
  0 < ar u w p ∨ (ar u w p = 0 ∧ (w.2 < u.2 ∨ (w.2 = u.2 ∧ u.1 < w.1)))

theorem Lex.nonneg {u w p : K × K} (h : Lex u w p) : 0 ≤ ar u w p := by
  rcases h with h | h
  · exact h.le
  · exact h.1.ge

/-- `b` is the only vertex above. -/
theorem tri_up {a b c p : K × K} (ht : 0 < ar a b c) (ha : a.2 ≤ p.2) (hb : p.2 < b.2) (hc : c.2 ≤ p.2) :
    ((wn p a b + wn p b c + wn p c a = 0) ∨ (wn p a b + wn p b c + wn p c a = 1 ∧ Lex a b p ∧ Lex b c p ∧ Lex c a p)) ∧
    (In a b c p → wn p a b + wn p b c + wn p c a = 1) := by
  have i1 : ar a b p * (b.2 - c.2) = ar c b p * (b.2 - a.2) + ar a b c * (b.2 - p.2) := by unfold ar; ring
  have i2 : ar c a p * (b.2 - p.2) = ar b c p * (p.2 - a.2) + ar a b p * (p.2 - c.2) := by unfold ar; ring
  have w1 : wn p a b = if 0 < ar a b p then 1 else 0 := by
    unfold wn
    rw [if_neg (show ¬ (b.2 ≤ p.2 ∧ p.2 < a.2 ∧ 0 < ar b a p) from fun q => absurd q.1 (not_le.2 hb))]
    simp [ha, hb]
  have w2 : wn p b c = - if 0 < ar c b p then 1 else 0 := by
    unfold wn
    rw [if_neg (show ¬ (b.2 ≤ p.2 ∧ p.2 < c.2 ∧ 0 < ar b c p) from fun q => absurd q.1 (not_le.2 hb))]
    simp [hc, hb]
  have w3 : wn p c a = 0 := by
    unfold wn
    rw [if_neg (show ¬ (c.2 ≤ p.2 ∧ p.2 < a.2 ∧ 0 < ar c a p) from fun q => absurd q.2.1 (not_lt.2 ha)),
      if_neg (show ¬ (a.2 ≤ p.2 ∧ p.2 < c.2 ∧ 0 < ar a c p) from fun q => absurd q.2.1 (not_lt.2 hc))]
    rfl
  rw [w1, w2, w3]
  have hbc : 0 < b.2 - c.2 := by linarith
  have hba : 0 < b.2 - a.2 := by linarith
  have hbp : 0 < b.2 - p.2 := by linarith
  refine ⟨?_, fun h => ?_⟩
  · by_cases q : 0 < ar c b p
    · have : 0 < ar a b p := by
        have : 0 < ar a b p * (b.2 - c.2) := by rw [i1]; positivity
        exact pos_of_mul_pos_left this hbc.le
      left
      rw [if_pos this, if_pos q]; rfl
    · by_cases q' : 0 < ar a b p
      · right
        rw [if_pos q', if_neg q]
        have hbcp : 0 ≤ ar b c p := by rw [ar_swap c b p]; linarith [not_lt.1 q]
        refine ⟨rfl, Or.inl q', ?_, ?_⟩
        · rcases hbcp.lt_or_eq with r | r
          · exact Or.inl r
          · exact Or.inr ⟨r.symm, Or.inl (by linarith)⟩
        · have h1 : 0 ≤ ar b c p * (p.2 - a.2) := mul_nonneg hbcp (by linarith)
          have h2 : 0 ≤ ar a b p * (p.2 - c.2) := mul_nonneg q'.le (by linarith)
          have h3 : 0 ≤ ar c a p * (b.2 - p.2) := by rw [i2]; linarith
          have h4 : 0 ≤ ar c a p := nonneg_of_mul_nonneg_left h3 hbp
          rcases h4.lt_or_eq with r | r
          · exact Or.inl r
          · right
            refine ⟨r.symm, ?_⟩
            rw [← r, zero_mul] at i2
            have h5 : ar a b p * (p.2 - c.2) = 0 := by linarith
            have h6 : p.2 - c.2 = 0 := (mul_eq_zero.1 h5).resolve_left q'.ne'
            rcases lt_or_eq_of_le ha with s | s
            · left; linarith
            · right
              refine ⟨by linarith, ?_⟩
              have e : ar a b c = (b.2 - a.2) * (a.1 - c.1) := by
                have : c.2 - a.2 = 0 := by linarith
                unfold ar; rw [this]; ring
              rw [e] at ht
              have := pos_of_mul_pos_right ht hba.le
              linarith
      · left
        rw [if_neg q', if_neg q]; rfl
  · rw [if_pos h.1, if_neg (by rw [ar_swap b c p]; linarith [h.2.1])]; rfl

/-- `b` is the only vertex that is not above. -/
theorem tri_down {a b c p : K × K} (ht : 0 < ar a b c) (ha : p.2 < a.2) (hb : b.2 ≤ p.2) (hc : p.2 < c.2) :
    ((wn p a b + wn p b c + wn p c a = 0) ∨ (wn p a b + wn p b c + wn p c a = 1 ∧ Lex a b p ∧ Lex b c p ∧ Lex c a p)) ∧
    (In a b c p → wn p a b + wn p b c + wn p c a = 1) := by
  have i1 : ar b c p * (a.2 - b.2) = ar b a p * (c.2 - b.2) + ar a b c * (p.2 - b.2) := by unfold ar; ring
  have i2 : ar c a p * (p.2 - b.2) = ar b c p * (a.2 - p.2) + ar a b p * (c.2 - p.2) := by unfold ar; ring
  have w1 : wn p a b = - if 0 < ar b a p then 1 else 0 := by
    unfold wn
    rw [if_neg (show ¬ (a.2 ≤ p.2 ∧ p.2 < b.2 ∧ 0 < ar a b p) from fun q => absurd q.1 (not_le.2 ha))]
    simp [ha, hb]
  have w2 : wn p b c = if 0 < ar b c p then 1 else 0 := by
    unfold wn
    rw [if_neg (show ¬ (c.2 ≤ p.2 ∧ p.2 < b.2 ∧ 0 < ar c b p) from fun q => absurd q.1 (not_le.2 hc))]
    simp [hc, hb]
  have w3 : wn p c a = 0 := by
    unfold wn
    rw [if_neg (show ¬ (c.2 ≤ p.2 ∧ p.2 < a.2 ∧ 0 < ar c a p) from fun q => absurd q.1 (not_le.2 hc)),
      if_neg (show ¬ (a.2 ≤ p.2 ∧ p.2 < c.2 ∧ 0 < ar a c p) from fun q => absurd q.1 (not_le.2 ha))]
    rfl
  rw [w1, w2, w3]
  have hcb : 0 < c.2 - b.2 := by linarith
  have hab : 0 < a.2 - b.2 := by linarith
  have hpb : 0 ≤ p.2 - b.2 := by linarith
  refine ⟨?_, fun h => ?_⟩
  · by_cases q : 0 < ar b a p
    · have : 0 < ar b c p := by
        have h1 : 0 < ar b a p * (c.2 - b.2) := mul_pos q hcb
        have h2 : 0 ≤ ar a b c * (p.2 - b.2) := mul_nonneg ht.le hpb
        have : 0 < ar b c p * (a.2 - b.2) := by rw [i1]; linarith
        exact pos_of_mul_pos_left this hab.le
      left
      rw [if_pos this, if_pos q]; rfl
    · by_cases q' : 0 < ar b c p
      · right
        rw [if_pos q', if_neg q]
        have habp : 0 ≤ ar a b p := by rw [ar_swap b a p]; linarith [not_lt.1 q]
        refine ⟨rfl, ?_, Or.inl q', ?_⟩
        · rcases habp.lt_or_eq with r | r
          · exact Or.inl r
          · exact Or.inr ⟨r.symm, Or.inl (by linarith)⟩
        · left
          have h1 : 0 < ar b c p * (a.2 - p.2) := mul_pos q' (by linarith)
          have h2 : 0 ≤ ar a b p * (c.2 - p.2) := mul_nonneg habp (by linarith)
          have h3 : 0 < ar c a p * (p.2 - b.2) := by rw [i2]; linarith
          exact pos_of_mul_pos_left h3 hpb
      · left
        rw [if_neg q', if_neg q]; rfl
  · rw [if_pos h.2.1, if_neg (by rw [ar_swap a b p]; linarith [h.1])]; rfl

/-- The crossing number of a positive triangle is 0 or 1; with 1 the point is in the triangle, strictly inside it is 1. -/
theorem tri_wn {a b c : K × K} (p : K × K) (ht : 0 < ar a b c) :
    ((wn p a b + wn p b c + wn p c a = 0) ∨ (wn p a b + wn p b c + wn p c a = 1 ∧ Lex a b p ∧ Lex b c p ∧ Lex c a p)) ∧
    (In a b c p → wn p a b + wn p b c + wn p c a = 1) := by
  have ht' : 0 < ar b c a := by rw [ar_rot]; exact ht
  have ht'' : 0 < ar c a b := by rw [ar_rot]; exact ht'
  have r1 : wn p a b + wn p b c + wn p c a = wn p b c + wn p c a + wn p a b := by ring
  have r2 : wn p a b + wn p b c + wn p c a = wn p c a + wn p a b + wn p b c := by ring
  have bary : ar b c p * (a.2 - p.2) + ar c a p * (b.2 - p.2) + ar a b p * (c.2 - p.2) = 0 := by unfold ar; ring
  rcases le_or_gt a.2 p.2 with ha | ha <;> rcases le_or_gt b.2 p.2 with hb | hb <;> rcases le_or_gt c.2 p.2 with hc | hc
  · -- all below
    have z : ∀ u w : K × K, u.2 ≤ p.2 → w.2 ≤ p.2 → wn p u w = 0 := by
      intro u w hu hw
      unfold wn
      rw [if_neg (fun q => absurd q.2.1 (not_lt.2 hw)), if_neg (fun q => absurd q.2.1 (not_lt.2 hu))]; rfl
    rw [z a b ha hb, z b c hb hc, z c a hc ha]
    refine ⟨Or.inl rfl, fun h => ?_⟩
    exfalso
    have h1 : ar b c p * (a.2 - p.2) ≤ 0 := mul_nonpos_of_nonneg_of_nonpos h.2.1.le (by linarith)
    have h2 : ar c a p * (b.2 - p.2) ≤ 0 := mul_nonpos_of_nonneg_of_nonpos h.2.2.le (by linarith)
    have h3 : ar a b p * (c.2 - p.2) ≤ 0 := mul_nonpos_of_nonneg_of_nonpos h.1.le (by linarith)
    have e1 : a.2 - p.2 = 0 := (mul_eq_zero.1 (by linarith : ar b c p * (a.2 - p.2) = 0)).resolve_left h.2.1.ne'
    have e2 : b.2 - p.2 = 0 := (mul_eq_zero.1 (by linarith : ar c a p * (b.2 - p.2) = 0)).resolve_left h.2.2.ne'
    have e3 : c.2 - p.2 = 0 := (mul_eq_zero.1 (by linarith : ar a b p * (c.2 - p.2) = 0)).resolve_left h.1.ne'
    have : ar a b c = 0 := by
      unfold ar
      rw [show c.2 - a.2 = 0 by linarith, show b.2 - a.2 = 0 by linarith]; ring
    linarith
  · -- c above
    rw [r1]
    have := tri_up ht' hb hc ha
    exact ⟨this.1.imp_right fun q => ⟨q.1, q.2.2.2, q.2.1, q.2.2.1⟩, fun h => this.2 ⟨h.2.1, h.2.2, h.1⟩⟩
  · exact tri_up ht ha hb hc
  · rw [r2]
    have := tri_down ht'' hc ha hb
    exact ⟨this.1.imp_right fun q => ⟨q.1, q.2.2.1, q.2.2.2, q.2.1⟩, fun h => this.2 ⟨h.2.2, h.1, h.2.1⟩⟩
  · rw [r2]
    have := tri_up ht'' hc ha hb
    exact ⟨this.1.imp_right fun q => ⟨q.1, q.2.2.1, q.2.2.2, q.2.1⟩, fun h => this.2 ⟨h.2.2, h.1, h.2.1⟩⟩
  · exact tri_down ht ha hb hc
  · rw [r1]
    have := tri_down ht' hb hc ha
    exact ⟨this.1.imp_right fun q => ⟨q.1, q.2.2.2, q.2.1, q.2.2.1⟩, fun h => this.2 ⟨h.2.1, h.2.2, h.1⟩⟩
  · have z : ∀ u w : K × K, p.2 < u.2 → p.2 < w.2 → wn p u w = 0 := by
      intro u w hu hw
      unfold wn
      rw [if_neg (fun q => absurd q.1 (not_le.2 hu)), if_neg (fun q => absurd q.1 (not_le.2 hw))]; rfl
    rw [z a b ha hb, z b c hb hc, z c a hc ha]
    refine ⟨Or.inl rfl, fun h => ?_⟩
    exfalso
    have h1 : 0 < ar b c p * (a.2 - p.2) := mul_pos h.2.1 (by linarith)
    have h2 : 0 < ar c a p * (b.2 - p.2) := mul_pos h.2.2 (by linarith)
    have h3 : 0 < ar a b p * (c.2 - p.2) := mul_pos h.1 (by linarith)
    linarith

/-! ### Perturbation -/

theorem move_one {u w p : K × K} (h : Lex u w p) : ∃ d0 : K, 0 < d0 ∧ ∀ d, 0 < d → d ≤ d0 → ∃ e0 : K, 0 < e0 ∧
    ∀ e, 0 < e → e ≤ e0 → 0 < ar u w (p.1 + e, p.2 + e * d) := by
  have key : ∀ e d : K, ar u w (p.1 + e, p.2 + e * d) = ar u w p + e * ((u.2 - w.2) + d * (w.1 - u.1)) := by
    intro e d; unfold ar; ring
  simp only [key]
  rcases h with h | ⟨h, h' | ⟨h', h''⟩⟩
  · refine ⟨1, one_pos, fun d _ _ => ?_⟩
    generalize (u.2 - w.2) + d * (w.1 - u.1) = B
    have hB : 0 < 2 * (|B| + 1) := by positivity
    refine ⟨ar u w p / (2 * (|B| + 1)), by positivity, fun e he he' => ?_⟩
    rw [le_div_iff₀ hB] at he'
    have h1 : -(e * |B|) ≤ e * B := by
      have := mul_le_mul_of_nonneg_left (neg_abs_le B) he.le
      linarith
    have : 0 ≤ e * |B| := by positivity
    nlinarith
  · have hb : 0 < u.2 - w.2 := by linarith
    have hg : 0 < 2 * (|w.1 - u.1| + 1) := by positivity
    refine ⟨(u.2 - w.2) / (2 * (|w.1 - u.1| + 1)), by positivity, fun d hd hd' => ⟨1, one_pos, fun e he _ => ?_⟩⟩
    rw [le_div_iff₀ hg] at hd'
    have h1 : -(d * |w.1 - u.1|) ≤ d * (w.1 - u.1) := by
      have := mul_le_mul_of_nonneg_left (neg_abs_le (w.1 - u.1)) hd.le
      linarith
    have h2 : 0 ≤ d * |w.1 - u.1| := by positivity
    rw [h, zero_add]
    apply mul_pos he
    nlinarith
  · refine ⟨1, one_pos, fun d hd _ => ⟨1, one_pos, fun e he _ => ?_⟩⟩
    rw [h, h']
    have : 0 < w.1 - u.1 := by linarith
    have : 0 < e * (d * (w.1 - u.1)) := by positivity
    linarith

theorem move_all {p : K × K} (l : List ((K × K) × (K × K))) (h : ∀ x ∈ l, Lex x.1 x.2 p) :
    ∃ d0 : K, 0 < d0 ∧ ∀ d, 0 < d → d ≤ d0 → ∃ e0 : K, 0 < e0 ∧
      ∀ e, 0 < e → e ≤ e0 → ∀ x ∈ l, 0 < ar x.1 x.2 (p.1 + e, p.2 + e * d) := by
  induction l with
  | nil => exact ⟨1, one_pos, fun d _ _ => ⟨1, one_pos, fun e _ _ x hx => by simp at hx⟩⟩
  | cons y l ih =>
    obtain ⟨d1, p1, h1⟩ := ih fun x hx => h x (by simp [hx])
    obtain ⟨d2, p2, h2⟩ := move_one (h y (by simp))
    refine ⟨min d1 d2, lt_min p1 p2, fun d hd hd' => ?_⟩
    obtain ⟨e1, q1, g1⟩ := h1 d hd (hd'.trans (min_le_left _ _))
    obtain ⟨e2, q2, g2⟩ := h2 d hd (hd'.trans (min_le_right _ _))
    refine ⟨min e1 e2, lt_min q1 q2, fun e he he' x hx => ?_⟩
    rcases List.mem_cons.1 hx with rfl | hx
    · exact g2 e he (he'.trans (min_le_right _ _))
    · exact g1 e he (he'.trans (min_le_left _ _)) x hx

/-- Two positive triangles with crossing number 1 for the same point have a common interior point. -/
theorem common {a b c a' b' c' p : K × K} (ht : 0 < ar a b c) (ht' : 0 < ar a' b' c')
    (h : wn p a b + wn p b c + wn p c a = 1) (h' : wn p a' b' + wn p b' c' + wn p c' a' = 1) :
    ∃ q, In a b c q ∧ In a' b' c' q := by
  have g := (tri_wn p ht).1.resolve_left (by omega)
  have g' := (tri_wn p ht').1.resolve_left (by omega)
  obtain ⟨d, hd, H⟩ := move_all (p := p) [(a, b), (b, c), (c, a), (a', b'), (b', c'), (c', a')] (by
    intro x hx
    simp only [List.mem_cons, List.not_mem_nil, or_false] at hx
    rcases hx with rfl | rfl | rfl | rfl | rfl | rfl
    · exact g.2.1
    · exact g.2.2.1
    · exact g.2.2.2
    · exact g'.2.1
    · exact g'.2.2.1
    · exact g'.2.2.2)
  obtain ⟨e, he, G⟩ := H d hd le_rfl
  have := G e he le_rfl
  refine ⟨(p.1 + e, p.2 + e * d), ⟨this (a, b) (by simp), this (b, c) (by simp), this (c, a) (by simp)⟩,
    this (a', b') (by simp), this (b', c') (by simp), this (c', a') (by simp)⟩

/-- Two positive triangles on the same side of a common edge overlap. -/
theorem same_side {u w b d : K × K} (hb : 0 < ar u w b) (hd : 0 < ar u w d) : ∃ q, In u w b q ∧ In u w d q := by
  have hA : 0 < 2 * (ar u w d + 2 * |ar w d b| + 2 * |ar d u b|) := by positivity
  obtain ⟨e, he⟩ : ∃ e, e = ar u w d / (2 * (ar u w d + 2 * |ar w d b| + 2 * |ar d u b|)) := ⟨_, rfl⟩
  have e0 : 0 < e := by rw [he]; positivity
  have he' : e * (2 * (ar u w d + 2 * |ar w d b| + 2 * |ar d u b|)) = ar u w d := by rw [he]; field_simp
  have e1 : e < 1 := by
    rw [he, div_lt_one hA]
    have := abs_nonneg (ar w d b)
    have := abs_nonneg (ar d u b)
    linarith
  have h1 : -(e * |ar w d b|) ≤ e * ar w d b := by
    have := mul_le_mul_of_nonneg_left (neg_abs_le (ar w d b)) e0.le
    linarith
  have h2 : -(e * |ar d u b|) ≤ e * ar d u b := by
    have := mul_le_mul_of_nonneg_left (neg_abs_le (ar d u b)) e0.le
    linarith
  have h3 : 0 ≤ e * |ar w d b| := by positivity
  have h4 : 0 ≤ e * |ar d u b| := by positivity
  have h5 : 0 < e * ar u w d := by positivity
  refine ⟨((1 - e) * ((u.1 + w.1) / 2) + e * b.1, (1 - e) * ((u.2 + w.2) / 2) + e * b.2), ⟨?_, ?_, ?_⟩, ?_, ?_, ?_⟩
  · have : ar u w ((1 - e) * ((u.1 + w.1) / 2) + e * b.1, (1 - e) * ((u.2 + w.2) / 2) + e * b.2) = e * ar u w b := by
      unfold ar; ring
    rw [this]; positivity
  · have : ar w b ((1 - e) * ((u.1 + w.1) / 2) + e * b.1, (1 - e) * ((u.2 + w.2) / 2) + e * b.2) = (1 - e) / 2 * ar u w b := by
      unfold ar; ring
    rw [this]; have : 0 < 1 - e := by linarith
    positivity
  · have : ar b u ((1 - e) * ((u.1 + w.1) / 2) + e * b.1, (1 - e) * ((u.2 + w.2) / 2) + e * b.2) = (1 - e) / 2 * ar u w b := by
      unfold ar; ring
    rw [this]; have : 0 < 1 - e := by linarith
    positivity
  · have : ar u w ((1 - e) * ((u.1 + w.1) / 2) + e * b.1, (1 - e) * ((u.2 + w.2) / 2) + e * b.2) = e * ar u w b := by
      unfold ar; ring
    rw [this]; positivity
  · have : ar w d ((1 - e) * ((u.1 + w.1) / 2) + e * b.1, (1 - e) * ((u.2 + w.2) / 2) + e * b.2) =
        (1 - e) / 2 * ar u w d + e * ar w d b := by
      unfold ar; ring
    rw [this]; linarith
  · have : ar d u ((1 - e) * ((u.1 + w.1) / 2) + e * b.1, (1 - e) * ((u.2 + w.2) / 2) + e * b.2) =
        (1 - e) / 2 * ar u w d + e * ar d u b := by
      unfold ar; ring
    rw [this]; linarith

end Mmg.Del2
