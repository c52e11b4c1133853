/-
  Theorems on `MMG5_vfrac` and `MMG3D_vfrac`.
-/
import Verif.RmcVol
import Verif.Rmc

namespace Mmg.Rmc
open Mmg.Split3 Mmg.Ls3

variable {K : Type} [Field K] [LinearOrder K] [IsStrictOrderedRing K]

theorem term_nonneg_case {v : Nat → K} {n i : Nat} (hn : 1 < n) (h : 0 ≤ v i) :
    (if 0 < v i then term n v i else 0) = term n v i := by
  by_cases h0 : 0 < v i
  · rw [if_pos h0]
  · rw [if_neg h0]
    have : v i = 0 := le_antisymm (not_lt.1 h0) h
    unfold term
    rw [this, zero_pow (by omega), zero_div]

theorem term_neg3 (v : Nat → K) (i : Nat) (hi : i < 3) : term 3 (fun i => - v i) i = term 3 v i := by
  unfold term
  interval_cases i
  · show (- v 0) ^ 2 / ((- v 0 - - v 1) * ((- v 0 - - v 2) * 1)) = v 0 ^ 2 / ((v 0 - v 1) * ((v 0 - v 2) * 1))
    congr 1 <;> ring
  · show (- v 1) ^ 2 / ((- v 1 - - v 0) * ((- v 1 - - v 2) * 1)) = v 1 ^ 2 / ((v 1 - v 0) * ((v 1 - v 2) * 1))
    congr 1 <;> ring
  · show (- v 2) ^ 2 / ((- v 2 - - v 0) * ((- v 2 - - v 1) * 1)) = v 2 ^ 2 / ((v 2 - v 0) * ((v 2 - v 1) * 1))
    congr 1 <;> ring

theorem term3 (v : Nat → K) : term 3 v 0 = v 0 ^ 2 / ((v 0 - v 1) * (v 0 - v 2)) ∧
    term 3 v 1 = v 1 ^ 2 / ((v 1 - v 0) * (v 1 - v 2)) ∧ term 3 v 2 = v 2 ^ 2 / ((v 2 - v 0) * (v 2 - v 1)) := by
  refine ⟨?_, ?_, ?_⟩
  · show v 0 ^ 2 / ((v 0 - v 1) * ((v 0 - v 2) * 1)) = _
    rw [mul_one]
  · show v 1 ^ 2 / ((v 1 - v 0) * ((v 1 - v 2) * 1)) = _
    rw [mul_one]
  · show v 2 ^ 2 / ((v 2 - v 0) * ((v 2 - v 1) * 1)) = _
    rw [mul_one]

theorem sum3 {v : Nat → K} (h : Distinct 3 v) : term 3 v 0 + term 3 v 1 + term 3 v 2 = 1 := by
  obtain ⟨e0, e1, e2⟩ := term3 v
  rw [e0, e1, e2]
  exact lag2 (h 0 (by decide) 1 (by decide) (by decide)) (h 0 (by decide) 2 (by decide) (by decide))
    (h 1 (by decide) 2 (by decide) (by decide))

theorem posFrac3 (v : Nat → K) : posFrac 3 v = (if 0 < v 0 then term 3 v 0 else 0) +
    (if 0 < v 1 then term 3 v 1 else 0) + (if 0 < v 2 then term 3 v 2 else 0) := by
  show _ + (_ + (_ + 0)) = _
  ring

theorem distinct_neg {n : Nat} {v : Nat → K} (h : Distinct n v) : Distinct n fun i => - v i :=
  fun i hi j hj hne he => h i hi j hj hne (neg_injective he)

/-- **C76** (triangles) : the two areas given by the function are the area of the triangle times the fractions of it
where the linear interpolation of the values is positive and where it is negative. -/
theorem C76_area {eps : K} (he : 0 < eps) (p : Nat → Pt K) (v : Nat → K) (hc : Clean 3 eps v) (hd : Distinct 3 v) :
    vfrac2 eps p v true = posFrac 3 v * voltri (p 0) (p 1) (p 2) ∧
    vfrac2 eps p v false = posFrac 3 (fun i => - v i) * voltri (p 0) (p 1) (p 2) := by
  have hs := sum3 hd
  have hm : posFrac 3 (fun i => - v i) = (if 0 < - v 0 then term 3 v 0 else 0) +
      (if 0 < - v 1 then term 3 v 1 else 0) + (if 0 < - v 2 then term 3 v 2 else 0) := by
    rw [posFrac3, term_neg3 v 0 (by decide), term_neg3 v 1 (by decide), term_neg3 v 2 (by decide)]
  have hp := posFrac3 v
  have pos : ∀ i < 3, 0 ≤ v i → (if 0 < v i then term 3 v i else 0) = term 3 v i ∧
      (if 0 < - v i then term 3 v i else 0) = 0 := fun i _ h =>
    ⟨term_nonneg_case (by decide) h, if_neg (by linarith)⟩
  have neg : ∀ i < 3, v i ≤ 0 → (if 0 < v i then term 3 v i else 0) = 0 ∧
      (if 0 < - v i then term 3 v i else 0) = term 3 v i := by
    intro i hi h
    refine ⟨if_neg (by linarith), ?_⟩
    have := term_nonneg_case (v := fun i => - v i) (n := 3) (i := i) (by decide) (by show 0 ≤ - v i; linarith)
    rw [term_neg3 v i hi] at this
    exact this
  obtain ⟨e0, e1, e2⟩ := term3 v
  have q0 : v 0 / (v 0 - v 1) * (v 0 / (v 0 - v 2)) = term 3 v 0 := by rw [e0, div_mul_div_comm, sq]
  have q1 : v 1 / (v 1 - v 2) * (v 1 / (v 1 - v 0)) = term 3 v 1 := by
    rw [e1, div_mul_div_comm, sq, mul_comm (v 1 - v 2)]
  have q2 : v 2 / (v 2 - v 0) * (v 2 / (v 2 - v 1)) = term 3 v 2 := by rw [e2, div_mul_div_comm, sq]
  rcases vfrac2_eq eps he p v hc with ⟨z0, z1, -⟩ | ⟨h0, h1, h2, ht, hf⟩ | ⟨h0, h1, h2, ht, hf⟩ | ⟨i, j, k, hm', hh⟩
  · exact absurd (z0.trans z1.symm) (hd 0 (by decide) 1 (by decide) (by decide))
  · rw [hp, hm, (pos 0 (by decide) h0).1, (pos 0 (by decide) h0).2, (pos 1 (by decide) h1).1, (pos 1 (by decide) h1).2,
      (pos 2 (by decide) h2).1, (pos 2 (by decide) h2).2, hs, ht, hf]
    exact ⟨by rw [one_mul, voltri], by ring⟩
  · rw [hp, hm, (neg 0 (by decide) h0).1, (neg 0 (by decide) h0).2, (neg 1 (by decide) h1).1, (neg 1 (by decide) h1).2,
      (neg 2 (by decide) h2).1, (neg 2 (by decide) h2).2, hs, ht, hf]
    exact ⟨by ring, by rw [one_mul, voltri]⟩
  · rw [hp, hm]
    simp only [List.mem_cons, List.not_mem_nil, or_false, Prod.mk.injEq] at hm'
    rcases hm' with ⟨rfl, rfl, rfl⟩ | ⟨rfl, rfl, rfl⟩ | ⟨rfl, rfl, rfl⟩ <;>
    rcases hh with ⟨hi, hj, hk, ht, hf⟩ | ⟨hi, hj, hk, ht, hf⟩
    · rw [(pos 0 (by decide) hi.le).1, (pos 0 (by decide) hi.le).2, (neg 1 (by decide) hj).1, (neg 1 (by decide) hj).2,
        (neg 2 (by decide) hk).1, (neg 2 (by decide) hk).2, ht, hf]
      beta_reduce
      rw [q0, voltri]
      exact ⟨by ring, by rw [show (1 : K) - term 3 v 0 = term 3 v 1 + term 3 v 2 by linarith]; ring⟩
    · rw [(neg 0 (by decide) hi.le).1, (neg 0 (by decide) hi.le).2, (pos 1 (by decide) hj).1, (pos 1 (by decide) hj).2,
        (pos 2 (by decide) hk).1, (pos 2 (by decide) hk).2, ht, hf]
      beta_reduce
      rw [q0, voltri]
      exact ⟨by rw [show (1 : K) - term 3 v 0 = term 3 v 1 + term 3 v 2 by linarith]; ring, by ring⟩
    · rw [(pos 1 (by decide) hi.le).1, (pos 1 (by decide) hi.le).2, (neg 2 (by decide) hj).1, (neg 2 (by decide) hj).2,
        (neg 0 (by decide) hk).1, (neg 0 (by decide) hk).2, ht, hf]
      beta_reduce
      rw [q1, voltri]
      exact ⟨by ring, by rw [show (1 : K) - term 3 v 1 = term 3 v 0 + term 3 v 2 by linarith]; ring⟩
    · rw [(neg 1 (by decide) hi.le).1, (neg 1 (by decide) hi.le).2, (pos 2 (by decide) hj).1, (pos 2 (by decide) hj).2,
        (pos 0 (by decide) hk).1, (pos 0 (by decide) hk).2, ht, hf]
      beta_reduce
      rw [q1, voltri]
      exact ⟨by rw [show (1 : K) - term 3 v 1 = term 3 v 0 + term 3 v 2 by linarith]; ring, by ring⟩
    · rw [(pos 2 (by decide) hi.le).1, (pos 2 (by decide) hi.le).2, (neg 0 (by decide) hj).1, (neg 0 (by decide) hj).2,
        (neg 1 (by decide) hk).1, (neg 1 (by decide) hk).2, ht, hf]
      beta_reduce
      rw [q2, voltri]
      exact ⟨by ring, by rw [show (1 : K) - term 3 v 2 = term 3 v 0 + term 3 v 1 by linarith]; ring⟩
    · rw [(neg 2 (by decide) hi.le).1, (neg 2 (by decide) hi.le).2, (pos 0 (by decide) hj).1, (pos 0 (by decide) hj).2,
        (pos 1 (by decide) hk).1, (pos 1 (by decide) hk).2, ht, hf]
      beta_reduce
      rw [q2, voltri]
      exact ⟨by rw [show (1 : K) - term 3 v 2 = term 3 v 0 + term 3 v 1 by linarith]; ring, by ring⟩

/-- **C76** (triangles) : whatever the values, the two areas are nonnegative, and their sum is the area unless all the
values are null. -/
theorem C76_area_sum {eps : K} (he : 0 < eps) (p : Nat → Pt K) (v : Nat → K) (hc : Clean 3 eps v) :
    0 ≤ vfrac2 eps p v true ∧ 0 ≤ vfrac2 eps p v false ∧
    ((∃ i < 3, v i ≠ 0) → vfrac2 eps p v true + vfrac2 eps p v false = voltri (p 0) (p 1) (p 2)) := by
  have hA : 0 ≤ 1 / 2 * |det2 (p 0) (p 1) (p 2)| := mul_nonneg (by norm_num) (abs_nonneg _)
  rcases vfrac2_eq eps he p v hc with ⟨z0, z1, z2, ht, hf⟩ | ⟨-, -, -, ht, hf⟩ | ⟨-, -, -, ht, hf⟩ | ⟨i, j, k, -, hh⟩
  · refine ⟨ht.ge, hf.ge, ?_⟩
    rintro ⟨i, hi, hn⟩
    interval_cases i <;> contradiction
  · exact ⟨ht ▸ hA, hf.ge, fun _ => by rw [ht, hf, voltri, add_zero]⟩
  · exact ⟨ht.ge, hf ▸ hA, fun _ => by rw [ht, hf, voltri, zero_add]⟩
  · have hc : 0 ≤ v i / (v i - v j) * (v i / (v i - v k)) ∧ v i / (v i - v j) * (v i / (v i - v k)) ≤ 1 := by
      have h1 := frac_nonneg (a := v i) (b := v j) (by tauto)
      have h2 := frac_nonneg (a := v i) (b := v k) (by tauto)
      exact ⟨mul_nonneg h1.1 h2.1, mul_le_one₀ h1.2 h2.1 h2.2⟩
    have hx := mul_nonneg hc.1 hA
    have hy := mul_nonneg (sub_nonneg.2 hc.2) hA
    rcases hh with ⟨-, -, -, ht, hf⟩ | ⟨-, -, -, ht, hf⟩
    · exact ⟨by rw [ht]; exact hx, by rw [hf]; exact hy, fun _ => by rw [ht, hf, voltri]; ring⟩
    · exact ⟨by rw [ht]; exact hy, by rw [hf]; exact hx, fun _ => by rw [ht, hf, voltri]; ring⟩

/-! ### Tetrahedra -/

theorem term4 (v : Nat → K) : term 4 v 0 = v 0 ^ 3 / ((v 0 - v 1) * (v 0 - v 2) * (v 0 - v 3)) ∧
    term 4 v 1 = v 1 ^ 3 / ((v 1 - v 0) * (v 1 - v 2) * (v 1 - v 3)) ∧
    term 4 v 2 = v 2 ^ 3 / ((v 2 - v 0) * (v 2 - v 1) * (v 2 - v 3)) ∧
    term 4 v 3 = v 3 ^ 3 / ((v 3 - v 0) * (v 3 - v 1) * (v 3 - v 2)) := by
  refine ⟨?_, ?_, ?_, ?_⟩
  · show v 0 ^ 3 / ((v 0 - v 1) * ((v 0 - v 2) * ((v 0 - v 3) * 1))) = _
    rw [mul_one, mul_assoc]
  · show v 1 ^ 3 / ((v 1 - v 0) * ((v 1 - v 2) * ((v 1 - v 3) * 1))) = _
    rw [mul_one, mul_assoc]
  · show v 2 ^ 3 / ((v 2 - v 0) * ((v 2 - v 1) * ((v 2 - v 3) * 1))) = _
    rw [mul_one, mul_assoc]
  · show v 3 ^ 3 / ((v 3 - v 0) * ((v 3 - v 1) * ((v 3 - v 2) * 1))) = _
    rw [mul_one, mul_assoc]

theorem term_neg4 (v : Nat → K) (i : Nat) (hi : i < 4) : term 4 (fun i => - v i) i = term 4 v i := by
  obtain ⟨e0, e1, e2, e3⟩ := term4 v
  obtain ⟨f0, f1, f2, f3⟩ := term4 fun i => - v i
  have key : ∀ a b c d : K, (-a) ^ 3 / ((-a - -b) * (-a - -c) * (-a - -d)) =
      a ^ 3 / ((a - b) * (a - c) * (a - d)) := by
    intro a b c d
    rw [show (-a) ^ 3 = -(a ^ 3) by ring,
      show (-a - -b) * (-a - -c) * (-a - -d) = -((a - b) * (a - c) * (a - d)) by ring, neg_div_neg_eq]
  interval_cases i
  · rw [f0, e0]; exact key _ _ _ _
  · rw [f1, e1]; exact key _ _ _ _
  · rw [f2, e2]; exact key _ _ _ _
  · rw [f3, e3]; exact key _ _ _ _

theorem lag3 {a b c d : K} (hab : a ≠ b) (hac : a ≠ c) (had : a ≠ d) (hbc : b ≠ c) (hbd : b ≠ d) (hcd : c ≠ d) :
    a ^ 3 / ((a - b) * (a - c) * (a - d)) + b ^ 3 / ((b - a) * (b - c) * (b - d)) +
      c ^ 3 / ((c - a) * (c - b) * (c - d)) + d ^ 3 / ((d - a) * (d - b) * (d - c)) = 1 := by
  have h1 := sub_ne_zero.2 hab
  have h2 := sub_ne_zero.2 hac
  have h3 := sub_ne_zero.2 had
  have h4 := sub_ne_zero.2 hbc
  have h5 := sub_ne_zero.2 hbd
  have h6 := sub_ne_zero.2 hcd
  rw [show b - a = -(a - b) by ring, show c - a = -(a - c) by ring, show d - a = -(a - d) by ring,
    show c - b = -(b - c) by ring, show d - b = -(b - d) by ring, show d - c = -(c - d) by ring]
  field_simp
  ring

/-- The wedge at two vertices. -/
theorem wfrac_eq {a b c d : K} (hab : a ≠ b) (hac : a ≠ c) (had : a ≠ d) (hbc : b ≠ c) (hbd : b ≠ d) :
    wfrac (a / (a - c)) (a / (a - d)) (b / (b - c)) (b / (b - d)) =
      a ^ 3 / ((a - b) * (a - c) * (a - d)) + b ^ 3 / ((b - a) * (b - c) * (b - d)) := by
  have h1 := sub_ne_zero.2 hab
  have h2 := sub_ne_zero.2 hac
  have h3 := sub_ne_zero.2 had
  have h4 := sub_ne_zero.2 hbc
  have h5 := sub_ne_zero.2 hbd
  unfold wfrac
  rw [show b - a = -(a - b) by ring]
  field_simp
  ring

/-- **C76** (tetrahedra) : the two volumes given by the function are the volume of the tetrahedron (times six) times
the fractions of it where the linear interpolation of the values is positive and where it is negative. -/
theorem C76_volume {eps d2 : K} (he : 0 < eps) (hd2 : d2 ≤ eps) (p : Nat → Pt K) (v : Nat → K) (hc : Clean 4 eps v)
    (hd : Distinct 4 v) :
    vfrac3 eps d2 p v true = posFrac 4 v * |vol (p 0) (p 1) (p 2) (p 3)| ∧
    vfrac3 eps d2 p v false = posFrac 4 (fun i => - v i) * |vol (p 0) (p 1) (p 2) (p 3)| := by
  have n01 := hd 0 (by decide) 1 (by decide) (by decide)
  have n02 := hd 0 (by decide) 2 (by decide) (by decide)
  have n03 := hd 0 (by decide) 3 (by decide) (by decide)
  have n12 := hd 1 (by decide) 2 (by decide) (by decide)
  have n13 := hd 1 (by decide) 3 (by decide) (by decide)
  have n23 := hd 2 (by decide) 3 (by decide) (by decide)
  obtain ⟨e0, e1, e2, e3⟩ := term4 v
  have hs : term 4 v 0 + term 4 v 1 + term 4 v 2 + term 4 v 3 = 1 := by
    rw [e0, e1, e2, e3]
    exact lag3 n01 n02 n03 n12 n13 n23
  have hp : posFrac 4 v = (if 0 < v 0 then term 4 v 0 else 0) + (if 0 < v 1 then term 4 v 1 else 0) +
      (if 0 < v 2 then term 4 v 2 else 0) + (if 0 < v 3 then term 4 v 3 else 0) := by
    show _ + (_ + (_ + (_ + 0))) = _
    ring
  have hm : posFrac 4 (fun i => - v i) = (if 0 < - v 0 then term 4 v 0 else 0) +
      (if 0 < - v 1 then term 4 v 1 else 0) + (if 0 < - v 2 then term 4 v 2 else 0) +
      (if 0 < - v 3 then term 4 v 3 else 0) := by
    rw [← term_neg4 v 0 (by decide), ← term_neg4 v 1 (by decide), ← term_neg4 v 2 (by decide),
      ← term_neg4 v 3 (by decide)]
    show _ + (_ + (_ + (_ + 0))) = _
    ring
  have pos : ∀ i < 4, 0 ≤ v i → (if 0 < v i then term 4 v i else 0) = term 4 v i ∧
      (if 0 < - v i then term 4 v i else 0) = 0 := fun i _ h =>
    ⟨term_nonneg_case (by decide) h, if_neg (by linarith)⟩
  have neg : ∀ i < 4, v i ≤ 0 → (if 0 < v i then term 4 v i else 0) = 0 ∧
      (if 0 < - v i then term 4 v i else 0) = term 4 v i := by
    intro i hi h
    refine ⟨if_neg (by linarith), ?_⟩
    have := term_nonneg_case (v := fun i => - v i) (n := 4) (i := i) (by decide) (by show 0 ≤ - v i; linarith)
    rw [term_neg4 v i hi] at this
    exact this
  have cube : ∀ a x y z : K, a / x * (a / y) * (a / z) = a ^ 3 / (x * y * z) := by
    intro a x y z
    rw [div_mul_div_comm, div_mul_div_comm]
    congr 1
    ring
  have q0 : v 0 / (v 0 - v 1) * (v 0 / (v 0 - v 2)) * (v 0 / (v 0 - v 3)) = term 4 v 0 := by rw [e0, cube]
  have q1 : v 1 / (v 1 - v 0) * (v 1 / (v 1 - v 3)) * (v 1 / (v 1 - v 2)) = term 4 v 1 := by
    rw [e1, cube]; congr 1; ring
  have q2 : v 2 / (v 2 - v 0) * (v 2 / (v 2 - v 1)) * (v 2 / (v 2 - v 3)) = term 4 v 2 := by rw [e2, cube]
  have q3 : v 3 / (v 3 - v 0) * (v 3 / (v 3 - v 2)) * (v 3 / (v 3 - v 1)) = term 4 v 3 := by
    rw [e3, cube]; congr 1; ring
  have w0 : wfrac (v 0 / (v 0 - v 2)) (v 0 / (v 0 - v 3)) (v 1 / (v 1 - v 2)) (v 1 / (v 1 - v 3)) =
      term 4 v 0 + term 4 v 1 := by rw [e0, e1, wfrac_eq n01 n02 n03 n12 n13]
  have w1 : wfrac (v 1 / (v 1 - v 2)) (v 1 / (v 1 - v 0)) (v 3 / (v 3 - v 2)) (v 3 / (v 3 - v 0)) =
      term 4 v 1 + term 4 v 3 := by
    rw [e1, e3, wfrac_eq n13 n12 n01.symm n23.symm n03.symm]
    congr 2 <;> ring
  have w2 : wfrac (v 1 / (v 1 - v 0)) (v 1 / (v 1 - v 3)) (v 2 / (v 2 - v 0)) (v 2 / (v 2 - v 3)) =
      term 4 v 1 + term 4 v 2 := by
    rw [e1, e2, wfrac_eq n12 n01.symm n13 n02.symm n23]
    congr 2 <;> ring
  rcases vfrac3_eq eps d2 he hd2 p v hc with ⟨z0, z1, -⟩ | ⟨h0, h1, h2, h3, ht, hf⟩ | ⟨h0, h1, h2, h3, ht, hf⟩ |
    ⟨i, j, k, l, hm', hh⟩ | ⟨i, j, k, l, hm', hh⟩
  · exact absurd (z0.trans z1.symm) n01
  · rw [hp, hm, (pos 0 (by decide) h0).1, (pos 0 (by decide) h0).2, (pos 1 (by decide) h1).1, (pos 1 (by decide) h1).2,
      (pos 2 (by decide) h2).1, (pos 2 (by decide) h2).2, (pos 3 (by decide) h3).1, (pos 3 (by decide) h3).2, hs, ht, hf]
    exact ⟨by rw [one_mul], by ring⟩
  · rw [hp, hm, (neg 0 (by decide) h0).1, (neg 0 (by decide) h0).2, (neg 1 (by decide) h1).1, (neg 1 (by decide) h1).2,
      (neg 2 (by decide) h2).1, (neg 2 (by decide) h2).2, (neg 3 (by decide) h3).1, (neg 3 (by decide) h3).2, hs, ht, hf]
    exact ⟨by ring, by rw [one_mul]⟩
  · rw [hp, hm]
    simp only [List.mem_cons, List.not_mem_nil, or_false, Prod.mk.injEq] at hm'
    rcases hm' with ⟨rfl, rfl, rfl, rfl⟩ | ⟨rfl, rfl, rfl, rfl⟩ | ⟨rfl, rfl, rfl, rfl⟩ | ⟨rfl, rfl, rfl, rfl⟩ <;>
    rcases hh with ⟨hi, hj, hk, hl, ht, hf⟩ | ⟨hi, hj, hk, hl, ht, hf⟩
    · rw [(pos 0 (by decide) hi.le).1, (pos 0 (by decide) hi.le).2, (neg 1 (by decide) hj).1, (neg 1 (by decide) hj).2, (neg 2 (by decide) hk).1, (neg 2 (by decide) hk).2, (neg 3 (by decide) hl).1, (neg 3 (by decide) hl).2, ht, hf]
      beta_reduce
      rw [q0]
      exact ⟨by ring, by rw [show (1 : K) - term 4 v 0 = term 4 v 1 + term 4 v 2 + term 4 v 3 by linarith]; ring⟩
    · rw [(neg 0 (by decide) hi.le).1, (neg 0 (by decide) hi.le).2, (pos 1 (by decide) hj).1, (pos 1 (by decide) hj).2, (pos 2 (by decide) hk).1, (pos 2 (by decide) hk).2, (pos 3 (by decide) hl).1, (pos 3 (by decide) hl).2, ht, hf]
      beta_reduce
      rw [q0]
      exact ⟨by rw [show (1 : K) - term 4 v 0 = term 4 v 1 + term 4 v 2 + term 4 v 3 by linarith]; ring, by ring⟩
    · rw [(neg 0 (by decide) hj).1, (neg 0 (by decide) hj).2, (pos 1 (by decide) hi.le).1, (pos 1 (by decide) hi.le).2, (neg 2 (by decide) hl).1, (neg 2 (by decide) hl).2, (neg 3 (by decide) hk).1, (neg 3 (by decide) hk).2, ht, hf]
      beta_reduce
      rw [q1]
      exact ⟨by ring, by rw [show (1 : K) - term 4 v 1 = term 4 v 0 + term 4 v 2 + term 4 v 3 by linarith]; ring⟩
    · rw [(pos 0 (by decide) hj).1, (pos 0 (by decide) hj).2, (neg 1 (by decide) hi.le).1, (neg 1 (by decide) hi.le).2, (pos 2 (by decide) hl).1, (pos 2 (by decide) hl).2, (pos 3 (by decide) hk).1, (pos 3 (by decide) hk).2, ht, hf]
      beta_reduce
      rw [q1]
      exact ⟨by rw [show (1 : K) - term 4 v 1 = term 4 v 0 + term 4 v 2 + term 4 v 3 by linarith]; ring, by ring⟩
    · rw [(neg 0 (by decide) hj).1, (neg 0 (by decide) hj).2, (neg 1 (by decide) hk).1, (neg 1 (by decide) hk).2, (pos 2 (by decide) hi.le).1, (pos 2 (by decide) hi.le).2, (neg 3 (by decide) hl).1, (neg 3 (by decide) hl).2, ht, hf]
      beta_reduce
      rw [q2]
      exact ⟨by ring, by rw [show (1 : K) - term 4 v 2 = term 4 v 0 + term 4 v 1 + term 4 v 3 by linarith]; ring⟩
    · rw [(pos 0 (by decide) hj).1, (pos 0 (by decide) hj).2, (pos 1 (by decide) hk).1, (pos 1 (by decide) hk).2, (neg 2 (by decide) hi.le).1, (neg 2 (by decide) hi.le).2, (pos 3 (by decide) hl).1, (pos 3 (by decide) hl).2, ht, hf]
      beta_reduce
      rw [q2]
      exact ⟨by rw [show (1 : K) - term 4 v 2 = term 4 v 0 + term 4 v 1 + term 4 v 3 by linarith]; ring, by ring⟩
    · rw [(neg 0 (by decide) hj).1, (neg 0 (by decide) hj).2, (neg 1 (by decide) hl).1, (neg 1 (by decide) hl).2, (neg 2 (by decide) hk).1, (neg 2 (by decide) hk).2, (pos 3 (by decide) hi.le).1, (pos 3 (by decide) hi.le).2, ht, hf]
      beta_reduce
      rw [q3]
      exact ⟨by ring, by rw [show (1 : K) - term 4 v 3 = term 4 v 0 + term 4 v 1 + term 4 v 2 by linarith]; ring⟩
    · rw [(pos 0 (by decide) hj).1, (pos 0 (by decide) hj).2, (pos 1 (by decide) hl).1, (pos 1 (by decide) hl).2, (pos 2 (by decide) hk).1, (pos 2 (by decide) hk).2, (neg 3 (by decide) hi.le).1, (neg 3 (by decide) hi.le).2, ht, hf]
      beta_reduce
      rw [q3]
      exact ⟨by rw [show (1 : K) - term 4 v 3 = term 4 v 0 + term 4 v 1 + term 4 v 2 by linarith]; ring, by ring⟩
  · rw [hp, hm]
    simp only [List.mem_cons, List.not_mem_nil, or_false, Prod.mk.injEq] at hm'
    rcases hm' with ⟨rfl, rfl, rfl, rfl⟩ | ⟨rfl, rfl, rfl, rfl⟩ | ⟨rfl, rfl, rfl, rfl⟩ <;>
    rcases hh with ⟨hi, hj, hk, hl, ht, hf⟩ | ⟨hi, hj, hk, hl, ht, hf⟩
    · rw [(pos 0 (by decide) hi.le).1, (pos 0 (by decide) hi.le).2, (pos 1 (by decide) hj.le).1, (pos 1 (by decide) hj.le).2, (neg 2 (by decide) hk.le).1, (neg 2 (by decide) hk.le).2, (neg 3 (by decide) hl.le).1, (neg 3 (by decide) hl.le).2, ht, hf]
      beta_reduce
      rw [w0]
      exact ⟨by ring, by rw [show (1 : K) - (term 4 v 0 + term 4 v 1) = term 4 v 2 + term 4 v 3 by linarith]; ring⟩
    · rw [(neg 0 (by decide) hi.le).1, (neg 0 (by decide) hi.le).2, (neg 1 (by decide) hj.le).1, (neg 1 (by decide) hj.le).2, (pos 2 (by decide) hk.le).1, (pos 2 (by decide) hk.le).2, (pos 3 (by decide) hl.le).1, (pos 3 (by decide) hl.le).2, ht, hf]
      beta_reduce
      rw [w0]
      exact ⟨by rw [show (1 : K) - (term 4 v 0 + term 4 v 1) = term 4 v 2 + term 4 v 3 by linarith]; ring, by ring⟩
    · rw [(neg 0 (by decide) hl.le).1, (neg 0 (by decide) hl.le).2, (pos 1 (by decide) hi.le).1, (pos 1 (by decide) hi.le).2, (neg 2 (by decide) hk.le).1, (neg 2 (by decide) hk.le).2, (pos 3 (by decide) hj.le).1, (pos 3 (by decide) hj.le).2, ht, hf]
      beta_reduce
      rw [w1]
      exact ⟨by ring, by rw [show (1 : K) - (term 4 v 1 + term 4 v 3) = term 4 v 2 + term 4 v 0 by linarith]; ring⟩
    · rw [(pos 0 (by decide) hl.le).1, (pos 0 (by decide) hl.le).2, (neg 1 (by decide) hi.le).1, (neg 1 (by decide) hi.le).2, (pos 2 (by decide) hk.le).1, (pos 2 (by decide) hk.le).2, (neg 3 (by decide) hj.le).1, (neg 3 (by decide) hj.le).2, ht, hf]
      beta_reduce
      rw [w1]
      exact ⟨by rw [show (1 : K) - (term 4 v 1 + term 4 v 3) = term 4 v 2 + term 4 v 0 by linarith]; ring, by ring⟩
    · rw [(neg 0 (by decide) hk.le).1, (neg 0 (by decide) hk.le).2, (pos 1 (by decide) hi.le).1, (pos 1 (by decide) hi.le).2, (pos 2 (by decide) hj.le).1, (pos 2 (by decide) hj.le).2, (neg 3 (by decide) hl.le).1, (neg 3 (by decide) hl.le).2, ht, hf]
      beta_reduce
      rw [w2]
      exact ⟨by ring, by rw [show (1 : K) - (term 4 v 1 + term 4 v 2) = term 4 v 0 + term 4 v 3 by linarith]; ring⟩
    · rw [(pos 0 (by decide) hk.le).1, (pos 0 (by decide) hk.le).2, (neg 1 (by decide) hi.le).1, (neg 1 (by decide) hi.le).2, (neg 2 (by decide) hj.le).1, (neg 2 (by decide) hj.le).2, (pos 3 (by decide) hl.le).1, (pos 3 (by decide) hl.le).2, ht, hf]
      beta_reduce
      rw [w2]
      exact ⟨by rw [show (1 : K) - (term 4 v 1 + term 4 v 2) = term 4 v 0 + term 4 v 3 by linarith]; ring, by ring⟩

theorem wfrac_range {a b c d : K} (ha : 0 ≤ a ∧ a ≤ 1) (hb : 0 ≤ b ∧ b ≤ 1) (hc : 0 ≤ c ∧ c ≤ 1) (hd : 0 ≤ d ∧ d ≤ 1) :
    0 ≤ wfrac a b c d ∧ 0 ≤ 1 - wfrac a b c d := by
  have ua : 0 ≤ 1 - a := by linarith [ha.2]
  have ub : 0 ≤ 1 - b := by linarith [hb.2]
  have uc : 0 ≤ 1 - c := by linarith [hc.2]
  have ud : 0 ≤ 1 - d := by linarith [hd.2]
  constructor
  · unfold wfrac
    exact add_nonneg (add_nonneg (mul_nonneg hc.1 hd.1) (mul_nonneg (mul_nonneg hb.1 hc.1) ud))
      (mul_nonneg (mul_nonneg uc ha.1) hb.1)
  · have : 1 - wfrac a b c d = (1 - d) * (1 - b) + (1 - c) * d * (1 - b) + (1 - c) * (1 - a) * b := by
      unfold wfrac; ring
    rw [this]
    exact add_nonneg (add_nonneg (mul_nonneg ud ub) (mul_nonneg (mul_nonneg uc hd.1) ub))
      (mul_nonneg (mul_nonneg uc ua) hb.1)

/-- **C76** (tetrahedra) : whatever the values, the two volumes are nonnegative, and their sum is the volume unless all
the values are null. -/
theorem C76_volume_sum {eps d2 : K} (he : 0 < eps) (hd2 : d2 ≤ eps) (p : Nat → Pt K) (v : Nat → K)
    (hc : Clean 4 eps v) :
    0 ≤ vfrac3 eps d2 p v true ∧ 0 ≤ vfrac3 eps d2 p v false ∧
    ((∃ i < 4, v i ≠ 0) →
      vfrac3 eps d2 p v true + vfrac3 eps d2 p v false = |vol (p 0) (p 1) (p 2) (p 3)|) := by
  have hA : 0 ≤ |vol (p 0) (p 1) (p 2) (p 3)| := abs_nonneg _
  rcases vfrac3_eq eps d2 he hd2 p v hc with ⟨z0, z1, z2, z3, ht, hf⟩ | ⟨-, -, -, -, ht, hf⟩ | ⟨-, -, -, -, ht, hf⟩ |
    ⟨i, j, k, l, -, hh⟩ | ⟨i, j, k, l, -, hh⟩
  · refine ⟨ht.ge, hf.ge, ?_⟩
    rintro ⟨i, hi, hn⟩
    interval_cases i <;> contradiction
  · exact ⟨ht ▸ hA, hf.ge, fun _ => by rw [ht, hf, add_zero]⟩
  · exact ⟨ht.ge, hf ▸ hA, fun _ => by rw [ht, hf, zero_add]⟩
  · have hc : 0 ≤ v i / (v i - v j) * (v i / (v i - v k)) * (v i / (v i - v l)) ∧
        v i / (v i - v j) * (v i / (v i - v k)) * (v i / (v i - v l)) ≤ 1 := by
      have h1 := frac_nonneg (a := v i) (b := v j) (by tauto)
      have h2 := frac_nonneg (a := v i) (b := v k) (by tauto)
      have h3 := frac_nonneg (a := v i) (b := v l) (by tauto)
      exact ⟨mul_nonneg (mul_nonneg h1.1 h2.1) h3.1, mul_le_one₀ (mul_le_one₀ h1.2 h2.1 h2.2) h3.1 h3.2⟩
    have hx := mul_nonneg hc.1 hA
    have hy := mul_nonneg (sub_nonneg.2 hc.2) hA
    rcases hh with ⟨-, -, -, -, ht, hf⟩ | ⟨-, -, -, -, ht, hf⟩
    · exact ⟨by rw [ht]; exact hx, by rw [hf]; exact hy, fun _ => by rw [ht, hf]; ring⟩
    · exact ⟨by rw [ht]; exact hy, by rw [hf]; exact hx, fun _ => by rw [ht, hf]; ring⟩
  · have h1 := frac_nonneg (a := v i) (b := v k) (by
      rcases hh with h | h
      · exact .inl ⟨h.1, h.2.2.1.le⟩
      · exact .inr ⟨h.1, h.2.2.1.le⟩)
    have h2 := frac_nonneg (a := v i) (b := v l) (by
      rcases hh with h | h
      · exact .inl ⟨h.1, h.2.2.2.1.le⟩
      · exact .inr ⟨h.1, h.2.2.2.1.le⟩)
    have h3 := frac_nonneg (a := v j) (b := v k) (by
      rcases hh with h | h
      · exact .inl ⟨h.2.1, h.2.2.1.le⟩
      · exact .inr ⟨h.2.1, h.2.2.1.le⟩)
    have h4 := frac_nonneg (a := v j) (b := v l) (by
      rcases hh with h | h
      · exact .inl ⟨h.2.1, h.2.2.2.1.le⟩
      · exact .inr ⟨h.2.1, h.2.2.2.1.le⟩)
    have hw := wfrac_range h1 h2 h3 h4
    have hx := mul_nonneg hw.1 hA
    have hy := mul_nonneg hw.2 hA
    rcases hh with ⟨-, -, -, -, ht, hf⟩ | ⟨-, -, -, -, ht, hf⟩
    · exact ⟨by rw [ht]; exact hx, by rw [hf]; exact hy, fun _ => by rw [ht, hf]; ring⟩
    · exact ⟨by rw [ht]; exact hy, by rw [hf]; exact hx, fun _ => by rw [ht, hf]; ring⟩

/-- The part of an element given by the values at its vertices. -/
theorem C76_local2 (M : Mesh) (hd : M.d = 3) (eps : K) (c : Nat → Pt K) (pm : Bool) :
    Local M fun sol k => vfrac2 eps (fun i => c (M.v k i)) (fun i => sol (M.v k i)) pm := by
  intro k sol sol' h
  have h0 : sol (M.v k 0) = sol' (M.v k 0) := h _ ⟨0, by omega, rfl⟩
  have h1 : sol (M.v k 1) = sol' (M.v k 1) := h _ ⟨1, by omega, rfl⟩
  have h2 : sol (M.v k 2) = sol' (M.v k 2) := h _ ⟨2, by omega, rfl⟩
  have e : ∀ v v' : Nat → K, v 0 = v' 0 → v 1 = v' 1 → v 2 = v' 2 → ∀ p,
      vfrac2 eps p v pm = vfrac2 eps p v' pm := by
    intro v v' e0 e1 e2 p
    have key : ∀ i < 3, v i = v' i := fun i hi => by interval_cases i <;> assumption
    have hz : ((List.range 3).filter fun i => decide (|v i| < eps)) =
        (List.range 3).filter fun i => decide (|v' i| < eps) :=
      List.filter_congr fun i hi => by rw [key i (List.mem_range.1 hi)]
    have hp : ((List.range 3).filter fun i => decide (¬ |v i| < eps) && decide (eps ≤ v i)) =
        (List.range 3).filter fun i => decide (¬ |v' i| < eps) && decide (eps ≤ v' i) :=
      List.filter_congr fun i hi => by rw [key i (List.mem_range.1 hi)]
    have hm : ((List.range 3).filter fun i => decide (¬ |v i| < eps) && !decide (eps ≤ v i)) =
        (List.range 3).filter fun i => decide (¬ |v' i| < eps) && !decide (eps ≤ v' i) :=
      List.filter_congr fun i hi => by rw [key i (List.mem_range.1 hi)]
    have hc : ∀ i, v (i % 3) = v' (i % 3) := fun i => key _ (Nat.mod_lt _ (by decide))
    have lm : ∀ i ∈ (List.range 3).filter (fun i => decide (¬ |v' i| < eps) && !decide (eps ≤ v' i)), v i = v' i :=
      fun i hi => key i (List.mem_range.1 (List.mem_filter.1 hi).1)
    have lp : ∀ i ∈ (List.range 3).filter (fun i => decide (¬ |v' i| < eps) && decide (eps ≤ v' i)), v i = v' i :=
      fun i hi => key i (List.mem_range.1 (List.mem_filter.1 hi).1)
    have gd : ∀ l : List Nat, (∀ i ∈ l, v i = v' i) → v (l.getD 0 0) = v' (l.getD 0 0) := by
      intro l hl
      cases l with
      | nil => exact e0
      | cons a l => exact hl a (by simp)
    unfold vfrac2
    simp only [hz, hp, hm, hc, gd _ lm, gd _ lp]
  exact e _ _ h0 h1 h2 _

theorem iare_lt (e : Nat) : (iare.getD e (0, 0)).1 < 4 ∧ (iare.getD e (0, 0)).2 < 4 := by
  by_cases h : e < 6
  · interval_cases e <;> decide
  · have : iare.getD e (0, 0) = (0, 0) := List.getD_eq_default _ _ (by show 6 ≤ e; omega)
    rw [this]
    decide

theorem vfrac3_congr (eps d2 : K) (p : Nat → Pt K) {v v' : Nat → K} (key : ∀ i < 4, v i = v' i) (pm : Bool) :
    vfrac3 eps d2 p v pm = vfrac3 eps d2 p v' pm := by
  have hz : ((List.range 4).filter fun i => decide (|v i| < eps)) =
      (List.range 4).filter fun i => decide (|v' i| < eps) :=
    List.filter_congr fun i hi => by rw [key i (List.mem_range.1 hi)]
  have hp : ((List.range 4).filter fun i => decide (¬ |v i| < eps) && decide (eps ≤ v i)) =
      (List.range 4).filter fun i => decide (¬ |v' i| < eps) && decide (eps ≤ v' i) :=
    List.filter_congr fun i hi => by rw [key i (List.mem_range.1 hi)]
  have hm : ((List.range 4).filter fun i => decide (¬ |v i| < eps) && !decide (eps ≤ v i)) =
      (List.range 4).filter fun i => decide (¬ |v' i| < eps) && !decide (eps ≤ v' i) :=
    List.filter_congr fun i hi => by rw [key i (List.mem_range.1 hi)]
  have hcut : cuts d2 v = cuts d2 v' := by
    funext e
    unfold cuts
    rw [key _ (iare_lt e).1, key _ (iare_lt e).2]
  have hzp : zeroPt d2 p v = zeroPt d2 p v' := by
    funext e
    unfold zeroPt
    simp only [hcut, key _ (iare_lt e).1, key _ (iare_lt e).2]
  have htwo : twoTwo d2 p v pm = twoTwo d2 p v' pm := by
    unfold twoTwo
    simp only [hcut, hzp]
    congr 3
    · rw [key]; split_ifs <;> decide
    · rw [key]; split_ifs <;> decide
  have hco : ∀ i < 4, ∀ o, corner3 p v i o = corner3 p v' i o := by
    intro i hi o
    unfold corner3
    have h0 := key 0 (by decide)
    have h1 := key 1 (by decide)
    have h2 := key 2 (by decide)
    have h3 := key 3 (by decide)
    interval_cases i <;> simp only [List.getD_cons_zero, List.getD_cons_succ, h0, h1, h2, h3]
  have gd : ∀ q : Nat → Bool, ((List.range 4).filter q).getD 0 0 < 4 := by
    intro q
    cases h : (List.range 4).filter q with
    | nil => decide
    | cons a l => exact List.mem_range.1 (List.mem_filter.1 (h ▸ List.mem_cons_self : a ∈ (List.range 4).filter q)).1
  unfold vfrac3
  simp only [hz, hp, hm, htwo, hco _ (gd _)]

theorem C76_local3 (M : Mesh) (hd : M.d = 4) (eps d2 : K) (c : Nat → Pt K) (pm : Bool) :
    Local M fun sol k => vfrac3 eps d2 (fun i => c (M.v k i)) (fun i => sol (M.v k i)) pm := by
  intro k sol sol' h
  exact vfrac3_congr eps d2 _ (fun i hi => h _ ⟨i, by omega, rfl⟩) pm

/-- **C76** (tetrahedra, as the program calls it) : the function succeeds, and at the end every negative component has
at least the given fraction of the volume of the mesh, and is attached to a base reference if some are
given. -/
theorem C76_tetra {M : Mesh} (h : M.Wf) (hd : M.d = 4) {e1 e2 d2 : K} (he : 0 < e1) (r : K) (c : Nat → Pt K)
    (nbr : Bool) (base : Nat → Nat → Bool) (sol : Nat → K) :
    let frac := fun (pm : Bool) (sol : Nat → K) k => vfrac3 e2 d2 (fun i => c (M.v k i)) (fun i => sol (M.v k i)) pm
    let V := total (fun k => |vol (c (M.v k 0)) (c (M.v k 1)) (c (M.v k 2)) (c (M.v k 3))|) M
    ∃ sol', rmc M e1 r V frac nbr base sol = some sol' ∧
      ∀ k p l, M.Elt k → M.Has k p → sol' p < 0 → IsComp M (fun x => decide (x < 0)) sol' k l →
        r * V ≤ (l.map (frac false sol')).sum ∧
        (nbr = true → ∃ e ∈ l, ∃ j < M.d, base e j = true ∧ ∃ q, M.OnFace e j q ∧ sol' q < 0) := by
  intro frac V
  have hloc : ∀ b, Local M (frac b) := fun b => C76_local3 M hd e2 d2 c b
  obtain ⟨s1, s2, e, -, -⟩ := C76_rmc h he r V frac hloc nbr base sol
  exact ⟨s2, e, fun k p l hk hp hs hl => C76_negative h he r V frac hloc nbr base sol s2 e k p l hk hp hs hl⟩

/-- **C76** (triangles, as the program calls it). -/
theorem C76_tria {M : Mesh} (h : M.Wf) (hd : M.d = 3) {e1 e2 : K} (he : 0 < e1) (r : K) (c : Nat → Pt K)
    (nbr : Bool) (base : Nat → Nat → Bool) (sol : Nat → K) :
    let frac := fun (pm : Bool) (sol : Nat → K) k => vfrac2 e2 (fun i => c (M.v k i)) (fun i => sol (M.v k i)) pm
    let V := total (fun k => voltri (c (M.v k 0)) (c (M.v k 1)) (c (M.v k 2))) M
    ∃ sol', rmc M e1 r V frac nbr base sol = some sol' ∧
      ∀ k p l, M.Elt k → M.Has k p → sol' p < 0 → IsComp M (fun x => decide (x < 0)) sol' k l →
        r * V ≤ (l.map (frac false sol')).sum ∧
        (nbr = true → ∃ e ∈ l, ∃ j < M.d, base e j = true ∧ ∃ q, M.OnFace e j q ∧ sol' q < 0) := by
  intro frac V
  have hloc : ∀ b, Local M (frac b) := fun b => C76_local2 M hd e2 c b
  obtain ⟨s1, s2, e, -, -⟩ := C76_rmc h he r V frac hloc nbr base sol
  exact ⟨s2, e, fun k p l hk hp hs hl => C76_negative h he r V frac hloc nbr base sol s2 e k p l hk hp hs hl⟩

end Mmg.Rmc
