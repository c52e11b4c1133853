/-
  C66. Starring a cavity does not make tetrahedra overlap: signs of determinants, small perturbations.
-/
import Verif.CavityGeo

namespace Mmg.Over

open Mmg.Split3 Mmg.Swap23 Mmg.Shell Mmg.Delone Mmg.Cavity

/-! ### Signs -/

/-- Sign of a tetrahedron from the four volumes. -/
def jj (b1 b2 b3 b4 : Bool) : Int :=
  if b1 && b2 && b3 && b4 then 1 else if !b1 && !b2 && !b3 && !b4 then -1 else 0

/-- Signs of three terms with sum zero. -/
def gp (t1 t2 t3 : Bool) : Bool := !(t1 && t2 && t3) && !(!t1 && !t2 && !t3)

/-- The signs of the ten determinants of five points around `x`. -/
theorem signs : ∀ abc abd acd bcd pab pac pad pbc pbd pcd : Bool,
    gp (abc == pad) (!(abd == pac)) (pab == acd) = true →
    gp (!(abc == pbd)) (abd == pbc) (!(pab == bcd)) = true →
    gp (abc == pcd) (!(acd == pbc)) (pac == bcd) = true →
    gp (!(abd == pcd)) (acd == pbd) (!(pad == bcd)) = true →
    gp (pab == pcd) (!(pac == pbd)) (pad == pbc) = true →
    jj bcd (!acd) abd (!abc) =
      jj bcd (!pcd) pbd (!pbc) + jj pcd (!acd) (!pad) pac + jj (!pbd) pad abd (!pab) +
        jj pbc (!pac) pab (!abc) := by
  decide +kernel

section
variable {K : Type} [Field K] [LinearOrder K] [IsStrictOrderedRing K]

/-- Volumes of the tetrahedron with one vertex replaced by `x`. -/
def bary (c : Nat → Pt K) (v : List Nat) (x : Pt K) : Nat → K
  | 0 => vol x (c (v.getD 1 0)) (c (v.getD 2 0)) (c (v.getD 3 0))
  | 1 => vol (c (v.getD 0 0)) x (c (v.getD 2 0)) (c (v.getD 3 0))
  | 2 => vol (c (v.getD 0 0)) (c (v.getD 1 0)) x (c (v.getD 3 0))
  | _ => vol (c (v.getD 0 0)) (c (v.getD 1 0)) (c (v.getD 2 0)) x

def sg (t : K) : Bool := decide (0 < t)

theorem sg_neg {t : K} (h : t ≠ 0) : sg (-t) = !sg t := by
  unfold sg
  rcases lt_or_gt_of_ne h with h | h
  · simp [h, h.le, not_lt.2 h.le]
  · simp [h, h.le]

theorem sg_mul {s t : K} (hs : s ≠ 0) (ht : t ≠ 0) : sg (s * t) = (sg s == sg t) := by
  unfold sg
  rcases lt_or_gt_of_ne hs with h | h <;> rcases lt_or_gt_of_ne ht with h' | h'
  · simp [mul_pos_of_neg_of_neg h h', not_lt.2 h.le, not_lt.2 h'.le]
  · simp [not_lt.2 (mul_neg_of_neg_of_pos h h').le, not_lt.2 h.le, h']
  · simp [not_lt.2 (mul_neg_of_pos_of_neg h h').le, not_lt.2 h'.le, h]
  · simp [mul_pos h h', h, h']

theorem gp_of {X Y Z : K} (hx : X ≠ 0) (hy : Y ≠ 0) (hz : Z ≠ 0) (h : X + Y + Z = 0) :
    gp (sg X) (sg Y) (sg Z) = true := by
  unfold gp sg
  rcases lt_or_gt_of_ne hx with h1 | h1 <;> rcases lt_or_gt_of_ne hy with h2 | h2 <;>
    rcases lt_or_gt_of_ne hz with h3 | h3 <;> first
      | (exfalso; linarith)
      | simp [h1, h2, h3, not_lt.2, h1.le, h2.le, h3.le]

open Classical in
/-- Sign with which the tetrahedron contains `x`. -/
noncomputable def J (c : Nat → Pt K) (v : List Nat) (x : Pt K) : Int :=
  if ∀ i < 4, 0 < bary c v x i then 1 else if ∀ i < 4, bary c v x i < 0 then -1 else 0

theorem all4 {P : Nat → Prop} : (∀ i < 4, P i) ↔ P 0 ∧ P 1 ∧ P 2 ∧ P 3 := by
  constructor
  · intro h; exact ⟨h 0 (by decide), h 1 (by decide), h 2 (by decide), h 3 (by decide)⟩
  · rintro ⟨h0, h1, h2, h3⟩ i hi
    interval_cases i <;> assumption

theorem J_eq {c : Nat → Pt K} {v : List Nat} {x : Pt K} (h : ∀ i < 4, bary c v x i ≠ 0) :
    J c v x = jj (sg (bary c v x 0)) (sg (bary c v x 1)) (sg (bary c v x 2)) (sg (bary c v x 3)) := by
  unfold J jj sg
  rw [all4] at h
  obtain ⟨h0, h1, h2, h3⟩ := h
  have e : ∀ t : K, t ≠ 0 → ((!decide (0 < t)) = true ↔ t < 0) := by
    intro t ht
    simp only [Bool.not_eq_true', decide_eq_false_iff_not, not_lt]
    exact ⟨fun h => lt_of_le_of_ne h ht, le_of_lt⟩
  simp only [Bool.and_eq_true, e _ h0, e _ h1, e _ h2, e _ h3, decide_eq_true_eq, all4, and_assoc]

/-- The sign is the sum of those of the four tetrahedra from a point over the faces. -/
theorem J_fan {c : Nat → Pt K} {v : List Nat} (hl : v.length = 4) {x : Pt K} {z : Nat}
    (h : ∀ f < 4, ∀ i < 4, bary c (v.set f z) x i ≠ 0) :
    ∑ f ∈ Finset.range 4, J c (v.set f z) x = J c v x := by
  match v, hl with
  | [a, b, d, e], _ =>
    have hself : ∀ i < 4, bary c [a, b, d, e] x i ≠ 0 := by
      intro i hi
      have := h i hi i hi
      interval_cases i <;> exact this
    rw [J_eq hself]
    simp only [Finset.sum_range_succ, Finset.sum_range_zero, zero_add]
    rw [J_eq (h 0 (by decide)), J_eq (h 1 (by decide)), J_eq (h 2 (by decide)), J_eq (h 3 (by decide))]
    have h00 := h 0 (by decide) 0 (by decide)
    have h01 := h 0 (by decide) 1 (by decide)
    have h02 := h 0 (by decide) 2 (by decide)
    have h03 := h 0 (by decide) 3 (by decide)
    have h11 := h 1 (by decide) 1 (by decide)
    have h12 := h 1 (by decide) 2 (by decide)
    have h13 := h 1 (by decide) 3 (by decide)
    have h22 := h 2 (by decide) 2 (by decide)
    have h23 := h 2 (by decide) 3 (by decide)
    have h33 := h 3 (by decide) 3 (by decide)
    simp only [bary, List.set, List.getD_cons_zero, List.getD_cons_succ] at *
    clear h hself
    generalize c a = A at *
    generalize c b = B at *
    generalize c d = C at *
    generalize c e = D at *
    generalize c z = P at *
    have e1 : vol A x C D = -vol x A C D := by simp only [vol]; ring
    have e2 : vol A B x D = vol x A B D := by simp only [vol]; ring
    have e3 : vol A B C x = -vol x A B C := by simp only [vol]; ring
    have e4 : vol P x C D = -vol x P C D := by simp only [vol]; ring
    have e5 : vol P B x D = vol x P B D := by simp only [vol]; ring
    have e6 : vol P B C x = -vol x P B C := by simp only [vol]; ring
    have e7 : vol A P x D = -vol x P A D := by simp only [vol]; ring
    have e8 : vol A P C x = vol x P A C := by simp only [vol]; ring
    have e9 : vol x B P D = -vol x P B D := by simp only [vol]; ring
    have e10 : vol A x P D = vol x P A D := by simp only [vol]; ring
    have e11 : vol A B P x = -vol x P A B := by simp only [vol]; ring
    have e12 : vol x B C P = vol x P B C := by simp only [vol]; ring
    have e13 : vol A x C P = -vol x P A C := by simp only [vol]; ring
    have e14 : vol A B x P = vol x P A B := by simp only [vol]; ring
    simp only [e1, e2, e3, e4, e5, e6, e7, e8, e9, e10, e11, e12, e13, e14, ne_eq, neg_eq_zero] at *
    rw [sg_neg h11, sg_neg h33, sg_neg h01, sg_neg h02, sg_neg h03, sg_neg h12, sg_neg h23, sg_neg h13]
    refine (signs _ _ _ _ _ _ _ _ _ _ ?_ ?_ ?_ ?_ ?_).symm
    · rw [← sg_mul h33 h12, ← sg_mul h22 h13, ← sg_mul h23 h11, ← sg_neg (mul_ne_zero h22 h13)]
      refine gp_of (mul_ne_zero h33 h12) (neg_ne_zero.2 (mul_ne_zero h22 h13)) (mul_ne_zero h23 h11) ?_
      simp only [vol]; ring
    · rw [← sg_mul h33 h02, ← sg_mul h22 h03, ← sg_mul h23 h00, ← sg_neg (mul_ne_zero h33 h02),
        ← sg_neg (mul_ne_zero h23 h00)]
      refine gp_of (neg_ne_zero.2 (mul_ne_zero h33 h02)) (mul_ne_zero h22 h03)
        (neg_ne_zero.2 (mul_ne_zero h23 h00)) ?_
      simp only [vol]; ring
    · rw [← sg_mul h33 h01, ← sg_mul h11 h03, ← sg_mul h13 h00, ← sg_neg (mul_ne_zero h11 h03)]
      refine gp_of (mul_ne_zero h33 h01) (neg_ne_zero.2 (mul_ne_zero h11 h03)) (mul_ne_zero h13 h00) ?_
      simp only [vol]; ring
    · rw [← sg_mul h22 h01, ← sg_mul h11 h02, ← sg_mul h12 h00, ← sg_neg (mul_ne_zero h22 h01),
        ← sg_neg (mul_ne_zero h12 h00)]
      refine gp_of (neg_ne_zero.2 (mul_ne_zero h22 h01)) (mul_ne_zero h11 h02)
        (neg_ne_zero.2 (mul_ne_zero h12 h00)) ?_
      simp only [vol]; ring
    · rw [← sg_mul h23 h01, ← sg_mul h13 h02, ← sg_mul h12 h03, ← sg_neg (mul_ne_zero h13 h02)]
      refine gp_of (mul_ne_zero h23 h01) (neg_ne_zero.2 (mul_ne_zero h13 h02)) (mul_ne_zero h12 h03) ?_
      simp only [vol]; ring

/-- Sign from the four points. -/
theorem J_congr {c c' : Nat → Pt K} {v v' : List Nat} {x : Pt K}
    (h : (∀ i < 4, 0 < bary c v x i) ↔ ∀ i < 4, 0 < bary c' v' x i)
    (h' : (∀ i < 4, bary c v x i < 0) ↔ ∀ i < 4, bary c' v' x i < 0) : J c v x = J c' v' x := by
  unfold J
  by_cases h1 : ∀ i < 4, 0 < bary c' v' x i
  · rw [if_pos h1, if_pos (h.2 h1)]
  · rw [if_neg h1, if_neg (fun a => h1 (h.1 a))]
    by_cases h2 : ∀ i < 4, bary c' v' x i < 0
    · rw [if_pos h2, if_pos (h'.2 h2)]
    · rw [if_neg h2, if_neg (fun a => h2 (h'.1 a))]

theorem J_neg {c c' : Nat → Pt K} {v v' : List Nat} {x : Pt K}
    (h : (∀ i < 4, 0 < bary c v x i) ↔ ∀ i < 4, bary c' v' x i < 0)
    (h' : (∀ i < 4, bary c v x i < 0) ↔ ∀ i < 4, 0 < bary c' v' x i) : J c v x + J c' v' x = 0 := by
  unfold J
  by_cases h1 : ∀ i < 4, 0 < bary c' v' x i
  · have h2 : ¬ ∀ i < 4, bary c' v' x i < 0 := fun h => by
      have := h1 0 (by decide)
      have := h 0 (by decide)
      linarith
    rw [if_neg (fun a => h2 (h.1 a)), if_pos (h'.2 h1), if_pos h1]; rfl
  · by_cases h2 : ∀ i < 4, bary c' v' x i < 0
    · rw [if_pos (h.2 h2), if_neg h1, if_pos h2]; rfl
    · rw [if_neg (fun a => h2 (h.1 a)), if_neg (fun a => h1 (h'.1 a)), if_neg h1, if_neg h2]; rfl

/-- Sign over a face. -/
theorem J_face (c : Nat → Pt K) {v : List Nat} (hl : v.length = 4) {f : Nat} (hf : f < 4) (p : Nat)
    (x : Pt K) : J c (v.set f p) x =
      J c [p, v.getD (idirf f 0) 0, v.getD (idirf f 1) 0, v.getD (idirf f 2) 0] x := by
  match v, hl with
  | [a, b, d, e], _ =>
    have r : ∀ A B C D E F G H : Pt K, (vol A B C D = vol E F G H) → (0 < vol A B C D ↔ 0 < vol E F G H)
      := fun A B C D E F G H h => by rw [h]
    interval_cases f
    · rfl
    all_goals
      apply J_congr <;>
      · simp only [all4, bary, List.set, idirf, List.getD_cons_zero, List.getD_cons_succ]
        generalize c a = A
        generalize c b = B
        generalize c d = C
        generalize c e = D
        generalize c p = P
        first
          | (rw [show vol x P C D = vol P x D C by (simp only [vol]; ring),
              show vol A x C D = vol x A D C by (simp only [vol]; ring),
              show vol A P x D = vol P A D x by (simp only [vol]; ring),
              show vol A P C x = vol P A x C by (simp only [vol]; ring)]; tauto)
          | (rw [show vol x B P D = vol P x B D by (simp only [vol]; ring),
              show vol A x P D = vol P A x D by (simp only [vol]; ring),
              show vol A B x D = vol x A B D by (simp only [vol]; ring),
              show vol A B P x = vol P A B x by (simp only [vol]; ring)]; tauto)
          | (rw [show vol x B C P = vol P x C B by (simp only [vol]; ring),
              show vol A x C P = vol P A C x by (simp only [vol]; ring),
              show vol A B x P = vol P A x B by (simp only [vol]; ring),
              show vol A B C x = vol x A C B by (simp only [vol]; ring)]; tauto)

/-- The two sides of a face have opposite signs. -/
theorem J_facing (c : Nat → Pt K) {v v' : List Nat} (hl : v.length = 4) (hl' : v'.length = 4)
    {f f' : Nat} (hf : f < 4) (hf' : f' < 4) (hF : Facing v v' f f') (p : Nat) (x : Pt K) :
    J c (v.set f p) x + J c (v'.set f' p) x = 0 := by
  rw [J_face c hl hf, J_face c hl' hf']
  obtain ⟨r, hr, h⟩ := hF
  have g0 := h 0 (by decide)
  have g1 := h 1 (by decide)
  have g2 := h 2 (by decide)
  generalize v.getD (idirf f 0) 0 = q0 at *
  generalize v.getD (idirf f 1) 0 = q1 at *
  generalize v.getD (idirf f 2) 0 = q2 at *
  have sw : ∀ A B C D : Pt K, vol A B C D = -vol A B D C ∧ vol A B C D = -vol A C B D ∧
      vol A B C D = - vol A D C B := fun A B C D => by
    refine ⟨?_, ?_, ?_⟩ <;> · simp only [vol]; ring
  interval_cases r <;>
  · simp only [Nat.zero_add, Nat.reduceAdd, Nat.reduceMod, Nat.reduceSub] at g0 g1 g2
    rw [g0, g1, g2]
    apply J_neg <;>
    · simp only [all4, bary, List.getD_cons_zero, List.getD_cons_succ]
      generalize c q0 = A
      generalize c q1 = B
      generalize c q2 = C
      generalize c p = P
      first
        | (rw [show vol x A B C = -vol x A C B by (simp only [vol]; ring),
            show vol P x B C = -vol P x C B by (simp only [vol]; ring),
            show vol P A x C = -vol P A C x by (simp only [vol]; ring),
            show vol P A B x = -vol P A x B by (simp only [vol]; ring)]
           simp only [Left.neg_pos_iff, Left.neg_neg_iff]; tauto)
        | (rw [show vol x A B C = -vol x C B A by (simp only [vol]; ring),
            show vol P x B C = -vol P C B x by (simp only [vol]; ring),
            show vol P A x C = -vol P C x A by (simp only [vol]; ring),
            show vol P A B x = -vol P x B A by (simp only [vol]; ring)]
           simp only [Left.neg_pos_iff, Left.neg_neg_iff]; tauto)
        | (rw [show vol x A B C = -vol x B A C by (simp only [vol]; ring),
            show vol P x B C = -vol P B x C by (simp only [vol]; ring),
            show vol P A x C = -vol P x A C by (simp only [vol]; ring),
            show vol P A B x = -vol P B A x by (simp only [vol]; ring)]
           simp only [Left.neg_pos_iff, Left.neg_neg_iff]; tauto)

theorem bary_sum (c : Nat → Pt K) (v : List Nat) (x : Pt K) :
    bary c v x 0 + bary c v x 1 + bary c v x 2 + bary c v x 3 = volOf c v := by
  simp only [bary, volOf, vol]
  ring

/-- A tetrahedron with positive volume. -/
theorem J_pos {c : Nat → Pt K} {v : List Nat} {x : Pt K} (h : 0 < volOf c v) :
    (J c v x = 1 ∧ ∀ i < 4, 0 < bary c v x i) ∨ (J c v x = 0 ∧ ¬ ∀ i < 4, 0 < bary c v x i) := by
  unfold J
  by_cases h1 : ∀ i < 4, 0 < bary c v x i
  · exact .inl ⟨if_pos h1, h1⟩
  · refine .inr ⟨?_, h1⟩
    rw [if_neg h1, if_neg]
    intro h2
    rw [all4] at h2
    have := bary_sum c v x
    linarith [h2.1, h2.2.1, h2.2.2.1, h2.2.2.2]

/-- A thin tetrahedron does not contain a point away from one of its faces. -/
theorem J_thin {c : Nat → Pt K} {v : List Nat} {x : Pt K} {i : Nat} (hi : i < 4)
    (h : volOf c v < |bary c v x i|) (h' : -|bary c v x i| < volOf c v) : J c v x = 0 := by
  have hs := bary_sum c v x
  unfold J
  rw [if_neg, if_neg]
  · intro h2
    have hb := h2 i hi
    rw [abs_of_neg hb] at h'
    rw [all4] at h2
    interval_cases i <;> linarith [h2.1, h2.2.1, h2.2.2.1, h2.2.2.2]
  · intro h2
    have hb := h2 i hi
    rw [abs_of_pos hb] at h
    rw [all4] at h2
    interval_cases i <;> linarith [h2.1, h2.2.1, h2.2.2.1, h2.2.2.2]

/-- Points strictly inside. -/
theorem inside_iff {c : Nat → Pt K} {v : List Nat} (hl : v.length = 4) (hnd : v.Nodup)
    (hpos : 0 < volOf c v) (x : Pt K) : Inside c v x ↔ ∀ i < 4, 0 < bary c v x i := by
  match v, hl with
  | [a, b, d, e], _ =>
    obtain ⟨⟨n1, n2, n3, n4, n5, n6⟩, m1, m2, m3, m4, m5, m6⟩ := nodup4 hnd
    rw [all4]
    constructor
    · rintro ⟨w, hw, h1, hx, hy, hz⟩
      have ha := hw a (by simp)
      have hb := hw b (by simp)
      have hd := hw d (by simp)
      have he := hw e (by simp)
      simp only [List.map_cons, List.map_nil, List.sum_cons, List.sum_nil, add_zero] at h1 hx hy hz
      simp only [bary, volOf, List.getD_cons_zero, List.getD_cons_succ] at hpos ⊢
      have hwa : w a = 1 - w b - w d - w e := by linarith
      refine ⟨?_, ?_, ?_, ?_⟩
      · have : vol x (c b) (c d) (c e) = w a * vol (c a) (c b) (c d) (c e) := by
          simp only [vol, hx, hy, hz, hwa]; ring
        rw [this]; positivity
      · have : vol (c a) x (c d) (c e) = w b * vol (c a) (c b) (c d) (c e) := by
          simp only [vol, hx, hy, hz, hwa]; ring
        rw [this]; positivity
      · have : vol (c a) (c b) x (c e) = w d * vol (c a) (c b) (c d) (c e) := by
          simp only [vol, hx, hy, hz, hwa]; ring
        rw [this]; positivity
      · have : vol (c a) (c b) (c d) x = w e * vol (c a) (c b) (c d) (c e) := by
          simp only [vol, hx, hy, hz, hwa]; ring
        rw [this]; positivity
    · rintro ⟨h0, h1, h2, h3⟩
      have hs := bary_sum c [a, b, d, e] x
      refine ⟨fun n => if n = a then bary c [a, b, d, e] x 0 / volOf c [a, b, d, e] else
        if n = b then bary c [a, b, d, e] x 1 / volOf c [a, b, d, e] else
        if n = d then bary c [a, b, d, e] x 2 / volOf c [a, b, d, e] else
        bary c [a, b, d, e] x 3 / volOf c [a, b, d, e], ?_, ?_, ?_, ?_, ?_⟩
      · intro n _
        simp only
        split_ifs <;> positivity
      · simp [n1, n2, n3, n4, n5, n6, m1, m2, m3, m4, m5, m6]
        rw [← add_div, ← add_div, ← add_div, div_eq_one_iff_eq hpos.ne', ← hs]; ring
      · simp [n1, n2, n3, n4, n5, n6, m1, m2, m3, m4, m5, m6]
        field_simp
        simp only [bary, volOf, List.getD_cons_zero, List.getD_cons_succ, vol]
        ring
      · simp [n1, n2, n3, n4, n5, n6, m1, m2, m3, m4, m5, m6]
        field_simp
        simp only [bary, volOf, List.getD_cons_zero, List.getD_cons_succ, vol]
        ring
      · simp [n1, n2, n3, n4, n5, n6, m1, m2, m3, m4, m5, m6]
        field_simp
        simp only [bary, volOf, List.getD_cons_zero, List.getD_cons_succ, vol]
        ring

/-! ### Perturbations -/

def Aff (f : Pt K → K) : Prop := ∀ x y t, f (Pt.lerp x y t) = (1 - t) * f x + t * f y

theorem small_list (x y : Pt K) : ∀ P : List (Pt K → K), (∀ f ∈ P, Aff f) → (∀ f ∈ P, 0 < f x) →
    ∃ d > 0, ∀ t, 0 < t → t ≤ d → ∀ f ∈ P, 0 < f (Pt.lerp x y t)
  | [], _, _ => ⟨1, one_pos, fun _ _ _ _ h => absurd h (List.not_mem_nil)⟩
  | f :: P, ha, hp => by
    obtain ⟨d1, p1, q1⟩ := small_list x y P (fun g hg => ha g (List.mem_cons_of_mem _ hg))
      (fun g hg => hp g (List.mem_cons_of_mem _ hg))
    obtain ⟨d2, p2, q2⟩ := exists_small (u := f x) (v := f y - f x) (.inl (hp f List.mem_cons_self))
    refine ⟨min d1 d2, lt_min p1 p2, fun t ht htd g hg => ?_⟩
    rcases List.mem_cons.1 hg with rfl | hg
    · rw [ha g List.mem_cons_self]
      have := q2 t ht (htd.trans (min_le_right _ _))
      linarith
    · exact q1 t ht (htd.trans (min_le_left _ _)) g hg

/-- A point can be moved a little such that no function of a list vanishes. -/
theorem generic (P : List (Pt K → K)) (hP : ∀ f ∈ P, Aff f) (x0 : Pt K) (hp : ∀ f ∈ P, 0 < f x0) :
    ∀ L : List (Pt K → K), (∀ f ∈ L, Aff f) → (∀ f ∈ L, ∃ z, f z ≠ 0) →
    ∃ x, (∀ f ∈ P, 0 < f x) ∧ ∀ f ∈ L, f x ≠ 0
  | [], _, _ => ⟨x0, hp, fun _ h => absurd h (List.not_mem_nil)⟩
  | f :: L, ha, hn => by
    obtain ⟨x, i1, i2⟩ := generic P hP x0 hp L (fun g hg => ha g (List.mem_cons_of_mem _ hg))
      (fun g hg => hn g (List.mem_cons_of_mem _ hg))
    by_cases hx : f x = 0
    · obtain ⟨z, hz⟩ := hn f List.mem_cons_self
      have hf := ha f List.mem_cons_self
      obtain ⟨d, d1, d2⟩ := small_list x z (P ++ L.map fun g => fun y => g x * g y) (by
        intro g hg
        rcases List.mem_append.1 hg with hg | hg
        · exact hP g hg
        · obtain ⟨g', hg', rfl⟩ := List.mem_map.1 hg
          intro a b t
          have := ha g' (List.mem_cons_of_mem _ hg') a b t
          simp only [this]; ring) (by
        intro g hg
        rcases List.mem_append.1 hg with hg | hg
        · exact i1 g hg
        · obtain ⟨g', hg', rfl⟩ := List.mem_map.1 hg
          exact mul_self_pos.2 (i2 g' hg'))
      have d3 := d2 d d1 le_rfl
      refine ⟨Pt.lerp x z d, fun g hg => d3 g (List.mem_append_left _ hg), fun g hg => ?_⟩
      rcases List.mem_cons.1 hg with rfl | hg
      · rw [hf, hx, mul_zero, zero_add]
        exact mul_ne_zero d1.ne' hz
      · have := d3 _ (List.mem_append_right _ (List.mem_map.2 ⟨g, hg, rfl⟩))
        exact right_ne_zero_of_mul this.ne'
    · refine ⟨x, i1, fun g hg => ?_⟩
      rcases List.mem_cons.1 hg with rfl | hg
      · exact hx
      · exact i2 g hg

theorem aff_bary (c : Nat → Pt K) (v : List Nat) (i : Nat) : Aff fun x => bary c v x i := by
  intro x y t
  match i with
  | 0 => simp only [bary, vol, Pt.lerp]; ring
  | 1 => simp only [bary, vol, Pt.lerp]; ring
  | 2 => simp only [bary, vol, Pt.lerp]; ring
  | n + 3 => simp only [bary, vol, Pt.lerp]; ring

/-- Coordinates with another position for a vertex. -/
def move (c : Nat → Pt K) (z : Nat) (p : Pt K) : Nat → Pt K := fun n => if n = z then p else c n

theorem aff_move (c : Nat → Pt K) {v : List Nat} (hl : v.length = 4) {z : Nat} (hz : z ∉ v) {f i : Nat}
    (hf : f < 4) (hi : i < 4) (x : Pt K) : Aff fun p => bary (move c z p) (v.set f z) x i := by
  match v, hl with
  | [a, b, d, e], _ =>
    simp only [List.mem_cons, List.not_mem_nil, or_false, not_or] at hz
    obtain ⟨z1, z2, z3, z4⟩ := hz
    intro p q t
    interval_cases f <;> interval_cases i <;>
    · simp only [bary, List.set, List.getD_cons_zero, List.getD_cons_succ, move, Ne.symm z1, Ne.symm z2,
        Ne.symm z3, Ne.symm z4, if_true, if_false, vol, Pt.lerp]
      ring

theorem aff_vol (c : Nat → Pt K) {v : List Nat} (hl : v.length = 4) {z : Nat} (hz : z ∉ v) {f : Nat}
    (hf : f < 4) : Aff fun p => volOf (move c z p) (v.set f z) := by
  match v, hl with
  | [a, b, d, e], _ =>
    simp only [List.mem_cons, List.not_mem_nil, or_false, not_or] at hz
    obtain ⟨z1, z2, z3, z4⟩ := hz
    intro p q t
    interval_cases f <;>
    · simp only [volOf, List.set, List.getD_cons_zero, List.getD_cons_succ, move, Ne.symm z1, Ne.symm z2,
        Ne.symm z3, Ne.symm z4, if_true, if_false, vol, Pt.lerp]
      ring

end

end Mmg.Over
