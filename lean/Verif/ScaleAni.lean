/-
Property C52: truncation of anisotropic metrics by the size bounds (3D, src/common/scalem.c), and the tensor part of C31.
-/
import Verif.ScaleProps
import Mathlib.Tactic.LinearCombination

set_option linter.unusedSectionVars false

namespace Mmg.Scale

/-! ### Model -/

/-- The numerical kernels and constants used by the truncation: `eig` is `MMG5_eigenv3d` (none when it returns 0),
`rsqrt x` is `1./sqrt(x)`; `fltMin` is `FLT_MIN`, `eps` is `MMG5_EPS`. -/
structure Kernels (K : Type) where
  eig : (Nat → K) → Option ((Nat → K) × (Nat → Nat → K))
  rsqrt : K → K
  fltMin : K
  eps : K

section
variable {K : Type} [Field K] [LinearOrder K]

/-- The six coefficients of a symmetric matrix at point `k`. -/
def row (m : Nat → K) (k : Nat) : Nat → K := fun i => m (6 * k + i)

/-- Replacement of the six coefficients at point `k`. -/
def setRow (m : Nat → K) (k : Nat) (r : Nat → K) : Nat → K :=
  fun j => if 6 * k ≤ j ∧ j < 6 * k + 6 then r (j - 6 * k) else m j

/-- Isotropic matrix. -/
def isoRow (a : K) : Nat → K := fun i => if i = 0 ∨ i = 3 ∨ i = 5 then a else 0

/-- scalem.c 178-191: the matrix with eigenvalues `l` and eigenvectors `v`. -/
def rebuild (l : Nat → K) (v : Nat → Nat → K) : Nat → K := fun i =>
  match i with
  | 0 => v 0 0 * v 0 0 * l 0 + v 1 0 * v 1 0 * l 1 + v 2 0 * v 2 0 * l 2
  | 1 => v 0 0 * v 0 1 * l 0 + v 1 0 * v 1 1 * l 1 + v 2 0 * v 2 1 * l 2
  | 2 => v 0 0 * v 0 2 * l 0 + v 1 0 * v 1 2 * l 1 + v 2 0 * v 2 2 * l 2
  | 3 => v 0 1 * v 0 1 * l 0 + v 1 1 * v 1 1 * l 1 + v 2 1 * v 2 1 * l 2
  | 4 => v 0 1 * v 0 2 * l 0 + v 1 1 * v 1 2 * l 1 + v 2 1 * v 2 2 * l 2
  | _ => v 0 2 * v 0 2 * l 0 + v 1 2 * v 1 2 * l 1 + v 2 2 * v 2 2 * l 2

/-- `MMG5_truncate_met3d` (scalem.c 148-194); none when it returns 0. -/
def truncRow (E : Kernels K) (isqhmin isqhmax : K) (r : Nat → K) : Option (Nat → K) :=
  match E.eig r with
  | none => none
  | some (l, v) =>
    if l 0 ≤ 0 ∨ l 1 ≤ 0 ∨ l 2 ≤ 0 then none
    else some (rebuild (fun i => cmax isqhmax (cmin isqhmin (l i))) v)

/-- scalem.c 493-500: an eigenvalue enters the extremal values unless it is the one used for unknown sizes
(`1/(MMG5_HMAXCOE*MMG5_HMAXCOE)`). Every element of the model is finite. -/
def takeEig (E : Kernels K) (l : Nat → K) (h : K × K) (j : Nat) : K × K :=
  if |l j - 1 / (2 * 2)| > E.eps then (cmax h.1 (l j), cmin h.2 (l j)) else h

/-- scalem.c 464-502: body of the loop that computes the extremal eigenvalues. State: metric, `isqhmin`, `isqhmax`. -/
def extremalAni (E : Kernels K) (s : St K) (k : Nat) (t : (Nat → K) × K × K) : (Nat → K) × K × K :=
  if ¬ s.valid k ∨ s.flag k < s.base then t
  else match E.eig (row t.1 k) with
    | none => (setRow t.1 k (isoRow E.fltMin), t.2)
    | some (l, _) => (t.1, takeEig E l (takeEig E l (takeEig E l t.2 0) 1) 2)

/-- scalem.c 522-540: truncation at one point. -/
def truncPoint (E : Kernels K) (s : St K) (isqhmin isqhmax : K) (k : Nat) (m : Nat → K) : Nat → K :=
  if ¬ s.valid k then m
  else if s.flag k < s.base then setRow m k (isoRow isqhmax)
  else match truncRow E isqhmin isqhmax (row m k) with
    | some r => setRow m k r
    | none => setRow m k (isoRow isqhmax)

/-- scalem.c 462-513: metric and bounds before the truncation. -/
def boundsAni (P : Consts K) (E : Kernels K) (s : St K) (q : Sol K) : (Nat → K) × Info K :=
  let t := if !s.info.sethmin || !s.info.sethmax then
      loop (extremalAni E s) s.np (q.m, 0, P.fltMax) else (q.m, 0, P.fltMax)
  let f1 := if s.info.sethmin then s.info else { s.info with hmin := E.rsqrt t.2.1 }
  let f2 := if f1.sethmax then f1 else { f1 with hmax := E.rsqrt t.2.2 }
  (t.1, checkBounds f2)

/-- `MMG5_3dSolTruncature_ani` (scalem.c 446-550). -/
def truncAni3 (P : Consts K) (E : Kernels K) (s : St K) (q : Sol K) : Bool × St K :=
  if !checkSetted s.info then (false, s) else
  let b := boundsAni P E s q
  let f := b.2
  let m := loop (truncPoint E s (1 / (f.hmin * f.hmin)) (1 / (f.hmax * f.hmax))) s.np b.1
  (true, { s with info := f, met := some { q with m := m } })

/-! ### Specification -/

/-- Value of the quadratic form of a symmetric matrix. -/
def form (r : Nat → K) (x y z : K) : K :=
  r 0 * x ^ 2 + r 3 * y ^ 2 + r 5 * z ^ 2 + 2 * (r 1 * x * y + r 2 * x * z + r 4 * y * z)

/-- The diagonalisation is exact: the eigenvectors form an orthonormal basis and give back the matrix. -/
structure EigOK (E : Kernels K) : Prop where
  basis : ∀ r l v, E.eig r = some (l, v) → ∀ i < 3, ∀ j < 3,
    v 0 i * v 0 j + v 1 i * v 1 j + v 2 i * v 2 j = if i = j then 1 else 0
  matrix : ∀ r l v, E.eig r = some (l, v) → ∀ i < 6, r i = rebuild l v i

variable [IsStrictOrderedRing K]

/-! ### Lemmas -/

theorem form_iso (a x y z : K) : form (isoRow a) x y z = a * (x ^ 2 + y ^ 2 + z ^ 2) := by
  simp [form, isoRow]; ring

theorem form_rebuild (l : Nat → K) (v : Nat → Nat → K) (x y z : K) :
    form (rebuild l v) x y z = l 0 * (v 0 0 * x + v 0 1 * y + v 0 2 * z) ^ 2 +
      l 1 * (v 1 0 * x + v 1 1 * y + v 1 2 * z) ^ 2 + l 2 * (v 2 0 * x + v 2 1 * y + v 2 2 * z) ^ 2 := by
  simp only [form, rebuild]; ring

theorem norm_basis {v : Nat → Nat → K} (h : ∀ i < 3, ∀ j < 3,
    v 0 i * v 0 j + v 1 i * v 1 j + v 2 i * v 2 j = if i = j then 1 else 0) (x y z : K) :
    (v 0 0 * x + v 0 1 * y + v 0 2 * z) ^ 2 + (v 1 0 * x + v 1 1 * y + v 1 2 * z) ^ 2 +
      (v 2 0 * x + v 2 1 * y + v 2 2 * z) ^ 2 = x ^ 2 + y ^ 2 + z ^ 2 := by
  have a := h 0 (by decide) 0 (by decide)
  have b := h 1 (by decide) 1 (by decide)
  have c := h 2 (by decide) 2 (by decide)
  have d := h 0 (by decide) 1 (by decide)
  have e := h 0 (by decide) 2 (by decide)
  have f := h 1 (by decide) 2 (by decide)
  norm_num at a b c d e f
  linear_combination x ^ 2 * a + y ^ 2 * b + z ^ 2 * c + 2 * x * y * d + 2 * x * z * e + 2 * y * z * f

/-- The loops over points with six values per point. -/
theorem row_set (m : Nat → K) (k j : Nat) (r : Nat → K) {i : Nat} (hi : i < 6) :
    row (setRow m k r) j i = if j = k then r i else row m j i := by
  unfold row setRow
  by_cases h : j = k
  · subst h; rw [if_pos (by omega), if_pos rfl]; congr 1; omega
  · rw [if_neg (by omega), if_neg h]

theorem truncPoint_row (E : Kernels K) (s : St K) (a b : K) (k : Nat) (m : Nat → K) {j : Nat} (hj : j ≠ k)
    {i : Nat} (hi : i < 6) : row (truncPoint E s a b k m) j i = row m j i := by
  unfold truncPoint
  by_cases h1 : ¬ s.valid k = true
  · rw [if_pos h1]
  rw [if_neg h1]
  by_cases h2 : s.flag k < s.base
  · rw [if_pos h2, row_set _ _ _ _ hi, if_neg hj]
  rw [if_neg h2]
  split
  · rw [row_set _ _ _ _ hi, if_neg hj]
  · rw [row_set _ _ _ _ hi, if_neg hj]

/-- The kernels only look at the six coefficients. -/
def EigLocal (E : Kernels K) : Prop := ∀ r r' : Nat → K, (∀ i < 6, r i = r' i) → E.eig r = E.eig r'

theorem truncLoop_row {E : Kernels K} (hl : EigLocal E) (s : St K) (a b : K) (m : Nat → K) (n : Nat) {j : Nat}
    {i : Nat} (hi : i < 6) :
    row (loop (truncPoint E s a b) n m) j i =
      if 1 ≤ j ∧ j ≤ n then row (truncPoint E s a b j m) j i else row m j i := by
  suffices h : ∀ i < 6, row (loop (truncPoint E s a b) n m) j i =
      if 1 ≤ j ∧ j ≤ n then row (truncPoint E s a b j m) j i else row m j i from h i hi
  clear hi i
  induction n with
  | zero => intro i hi; rw [if_neg (by omega)]; rfl
  | succ n ih =>
    intro i hi
    simp only [loop]
    by_cases hj : j = n + 1
    · subst hj
      rw [if_pos (by omega)]
      have hrow : ∀ i < 6, row (loop (truncPoint E s a b) n m) (n + 1) i = row m (n + 1) i := by
        intro i hi; rw [ih i hi, if_neg (by omega)]
      generalize loop (truncPoint E s a b) n m = m' at *
      unfold truncPoint
      by_cases h1 : ¬ s.valid (n + 1) = true
      · rw [if_pos h1, if_pos h1]; exact hrow i hi
      rw [if_neg h1, if_neg h1]
      by_cases h2 : s.flag (n + 1) < s.base
      · rw [if_pos h2, if_pos h2, row_set _ _ _ _ hi, row_set _ _ _ _ hi]; simp
      rw [if_neg h2, if_neg h2]
      have ht : truncRow E a b (row m' (n + 1)) = truncRow E a b (row m (n + 1)) := by
        unfold truncRow; rw [hl _ _ hrow]
      rw [ht]
      split
      · rw [row_set _ _ _ _ hi, row_set _ _ _ _ hi]; simp
      · rw [row_set _ _ _ _ hi, row_set _ _ _ _ hi]; simp
    · rw [truncPoint_row _ _ _ _ _ _ hj hi, ih i hi]
      by_cases h : 1 ≤ j ∧ j ≤ n
      · rw [if_pos h, if_pos (by omega)]
      · rw [if_neg h, if_neg (by omega)]

theorem boundsAni_frame (P : Consts K) (E : Kernels K) (s : St K) (q : Sol K) :
    (boundsAni P E s q).2 = { s.info with hmin := (boundsAni P E s q).2.hmin, hmax := (boundsAni P E s q).2.hmax } ∧
    (s.info.sethmin = true → (boundsAni P E s q).2.hmin = s.info.hmin) ∧
    (s.info.sethmax = true → (boundsAni P E s q).2.hmax = s.info.hmax) := by
  unfold boundsAni checkBounds
  rcases h1 : s.info.sethmin with _ | _ <;> rcases h2 : s.info.sethmax with _ | _ <;> simp [h1, h2]
  generalize s.info = f at *
  cases f
  simp_all

theorem truncAni3_eq (P : Consts K) (E : Kernels K) {s s' : St K} {q : Sol K}
    (h : truncAni3 P E s q = (true, s')) : checkSetted s.info = true ∧
    s' = { s with
      info := (boundsAni P E s q).2
      met := some { q with m := loop (truncPoint E s
        (1 / ((boundsAni P E s q).2.hmin * (boundsAni P E s q).2.hmin))
        (1 / ((boundsAni P E s q).2.hmax * (boundsAni P E s q).2.hmax))) s.np (boundsAni P E s q).1 } } := by
  unfold truncAni3 at h
  rcases hs : checkSetted s.info with _ | _
  · rw [hs] at h; simp at h
  · rw [hs] at h
    simp only [Bool.not_true, Bool.false_eq_true, if_false] at h
    injection h with _ h
    exact ⟨rfl, h.symm⟩

/-- The 3D truncation touches the metric and the unset bounds only, so that C31 applies with it. -/
theorem truncAni3_frame (P : Consts K) (E : Kernels K) : TruncFrame (truncAni3 P E) := by
  intro s q s' hq h
  obtain ⟨_, rfl⟩ := truncAni3_eq P E h
  obtain ⟨f1, f2, f3⟩ := boundsAni_frame P E s q
  exact ⟨rfl, rfl, rfl, rfl, rfl, f1, f2, f3, by rw [hq]; rfl⟩

theorem checkBounds_order (f : Info K) (h1 : 0 < f.hmin) (h2 : 0 < f.hmax)
    (hb : f.sethmin = true → f.sethmax = true → f.hmin ≤ f.hmax) :
    0 < (checkBounds f).hmin ∧ (checkBounds f).hmin ≤ (checkBounds f).hmax := by
  unfold checkBounds
  rcases e1 : f.sethmin with _ | _ <;> rcases e2 : f.sethmax with _ | _ <;>
    simp only [e1, e2, Bool.false_eq_true, if_true, if_false, gt_iff_lt]
  · constructor <;> split_ifs <;> linarith
  · constructor <;> split_ifs <;> linarith
  · constructor
    · exact h1
    · split_ifs <;> linarith
  · exact ⟨h1, hb e1 e2⟩

/-- One truncated matrix. -/
theorem truncRow_spec {E : Kernels K} (hE : EigOK E) {a b : K} (hab : b ≤ a) {r r' : Nat → K}
    (h : truncRow E a b r = some r') (x y z : K) :
    b * (x ^ 2 + y ^ 2 + z ^ 2) ≤ form r' x y z ∧ form r' x y z ≤ a * (x ^ 2 + y ^ 2 + z ^ 2) ∧
    (∀ l v, E.eig r = some (l, v) → (∀ i < 3, b ≤ l i ∧ l i ≤ a) → ∀ i < 6, r' i = r i) := by
  unfold truncRow at h
  split at h
  · simp at h
  rename_i l v he
  split_ifs at h
  injection h with h
  have hc : ∀ i, b ≤ cmax b (cmin a (l i)) ∧ cmax b (cmin a (l i)) ≤ a := by
    intro i
    rw [cmax_eq, cmin_eq]
    exact ⟨le_max_left _ _, max_le hab (min_le_left _ _)⟩
  have hn := norm_basis (hE.basis r l v he) x y z
  subst h
  rw [form_rebuild, ← hn]
  have p0 := sq_nonneg (v 0 0 * x + v 0 1 * y + v 0 2 * z)
  have p1 := sq_nonneg (v 1 0 * x + v 1 1 * y + v 1 2 * z)
  have p2 := sq_nonneg (v 2 0 * x + v 2 1 * y + v 2 2 * z)
  refine ⟨?_, ?_, ?_⟩
  · have := mul_le_mul_of_nonneg_right (hc 0).1 p0
    have := mul_le_mul_of_nonneg_right (hc 1).1 p1
    have := mul_le_mul_of_nonneg_right (hc 2).1 p2
    linarith
  · have := mul_le_mul_of_nonneg_right (hc 0).2 p0
    have := mul_le_mul_of_nonneg_right (hc 1).2 p1
    have := mul_le_mul_of_nonneg_right (hc 2).2 p2
    linarith
  · intro l' v' he' hin i hi
    rw [he] at he'
    injection he' with he'
    injection he' with e1 e2
    subst e1; subst e2
    rw [hE.matrix r l v he i hi]
    have hl : ∀ i < 3, cmax b (cmin a (l i)) = l i := by
      intro i hi
      rw [cmax_eq, cmin_eq, min_eq_right (hin i hi).2, max_eq_right (hin i hi).1]
    unfold rebuild
    simp only [hl 0 (by decide), hl 1 (by decide), hl 2 (by decide)]

/-! ### C52: truncation of tensor metrics -/

/-- After the truncation the bounds given by the user are unchanged, `0 < hmin ≤ hmax`, at every valid vertex every
length prescribed by the metric lies between the bounds (`1/hmax² |x|² ≤ xᵀMx ≤ 1/hmin² |x|²`), vertices without metric
get the isotropic metric of size `hmax`, and a metric that was inside the final bounds is unchanged if the bounds were
given by the user. -/
theorem C52_truncated {P : Consts K} (hF : 0 < P.fltMax) {E : Kernels K} (hE : EigOK E) (hl : EigLocal E)
    (hr : ∀ x, 0 ≤ x → 0 < E.rsqrt x) {s s' : St K} {q : Sol K}
    (h : truncAni3 P E s q = (true, s'))
    (g1 : s.info.sethmin = true → 0 < s.info.hmin) (g2 : s.info.sethmax = true → 0 < s.info.hmax)
    (hb : s.info.sethmin = true → s.info.sethmax = true → s.info.hmin ≤ s.info.hmax)
    (hpos : ∀ k, 1 ≤ k → k ≤ s.np → s.valid k → ∀ l v, E.eig (row q.m k) = some (l, v) → ∀ i < 3, 0 ≤ l i) :
    (s.info.sethmin = true → s'.info.hmin = s.info.hmin) ∧
    (s.info.sethmax = true → s'.info.hmax = s.info.hmax) ∧
    0 < s'.info.hmin ∧ s'.info.hmin ≤ s'.info.hmax ∧
    ∃ q', s'.met = some q' ∧ ∀ k, 1 ≤ k → k ≤ s.np → s.valid k →
      (∀ x y z, 1 / (s'.info.hmax * s'.info.hmax) * (x ^ 2 + y ^ 2 + z ^ 2) ≤ form (row q'.m k) x y z ∧
        form (row q'.m k) x y z ≤ 1 / (s'.info.hmin * s'.info.hmin) * (x ^ 2 + y ^ 2 + z ^ 2)) ∧
      (s.flag k < s.base → ∀ i < 6, row q'.m k i = isoRow (1 / (s'.info.hmax * s'.info.hmax)) i) ∧
      (s.base ≤ s.flag k → s.info.sethmin = true → s.info.sethmax = true → ∀ l v,
        E.eig (row q.m k) = some (l, v) → (∀ i < 3, 0 < l i) →
        (∀ i < 3, 1 / (s'.info.hmax * s'.info.hmax) ≤ l i ∧ l i ≤ 1 / (s'.info.hmin * s'.info.hmin)) →
        ∀ i < 6, row q'.m k i = row q.m k i) := by
  obtain ⟨hs, rfl⟩ := truncAni3_eq P E h
  obtain ⟨f1, f2, f3⟩ := boundsAni_frame P E s q
  have hord : 0 < (boundsAni P E s q).2.hmin ∧ (boundsAni P E s q).2.hmin ≤ (boundsAni P E s q).2.hmax := by
    have hext : 0 ≤ (loop (extremalAni E s) s.np (q.m, 0, P.fltMax)).2.1 ∧
        0 ≤ (loop (extremalAni E s) s.np (q.m, 0, P.fltMax)).2.2 := by
      have hinv := loop_inv (body := extremalAni E s) (n := s.np) (s := (q.m, 0, P.fltMax))
        (fun n (t : (Nat → K) × K × K) => (0 ≤ t.2.1 ∧ 0 ≤ t.2.2) ∧
          ∀ j, n < j → ∀ i < 6, row t.1 j i = row q.m j i) ⟨⟨le_refl _, hF.le⟩, fun _ _ _ _ => rfl⟩ ?_
      · exact hinv.1
      intro k t hk ih
      have htake : ∀ l : Nat → K, ∀ t : K × K, ∀ j, 0 ≤ l j → 0 ≤ t.1 ∧ 0 ≤ t.2 →
          0 ≤ (takeEig E l t j).1 ∧ 0 ≤ (takeEig E l t j).2 := by
        intro l t j hlj ht
        unfold takeEig
        split_ifs
        · rw [cmax_eq, cmin_eq]
          exact ⟨ht.1.trans (le_max_left _ _), le_min ht.2 hlj⟩
        · exact ht
      unfold extremalAni
      split_ifs with hc
      · exact ⟨ih.1, fun j hj => ih.2 j (by omega)⟩
      · rw [not_or, not_not] at hc
        split
        · refine ⟨ih.1, fun j hj i hi => ?_⟩
          rw [row_set _ _ _ _ hi, if_neg (by omega)]
          exact ih.2 j (by omega) i hi
        · rename_i l v he
          rw [hl _ _ (ih.2 (k + 1) (by omega))] at he
          have hp := hpos (k + 1) (by omega) (by omega) hc.1 l v he
          exact ⟨htake l _ 2 (hp 2 (by decide)) (htake l _ 1 (hp 1 (by decide))
            (htake l _ 0 (hp 0 (by decide)) ih.1)), fun j hj => ih.2 j (by omega)⟩
    unfold boundsAni
    have hx := hext
    apply checkBounds_order
    · rcases e1 : s.info.sethmin with _ | _ <;> rcases e2 : s.info.sethmax with _ | _ <;> simp [e1, e2]
      · exact hr _ hx.1
      · exact hr _ hx.1
      · exact g1 e1
      · exact g1 e1
    · rcases e1 : s.info.sethmin with _ | _ <;> rcases e2 : s.info.sethmax with _ | _ <;> simp [e1, e2]
      · exact hr _ hx.2
      · exact g2 e2
      · exact hr _ hx.2
      · exact g2 e2
    · rcases e1 : s.info.sethmin with _ | _ <;> rcases e2 : s.info.sethmax with _ | _ <;> simp [e1, e2]
      exact hb e1 e2
  refine ⟨f2, f3, hord.1, hord.2, _, rfl, ?_⟩
  dsimp only
  have hm : s.info.sethmin = true → s.info.sethmax = true → (boundsAni P E s q).1 = q.m := by
    intro a b; unfold boundsAni; simp [a, b]
  generalize (boundsAni P E s q).1 = m at *
  generalize (boundsAni P E s q).2 = f at *
  have hab : 1 / (f.hmax * f.hmax) ≤ 1 / (f.hmin * f.hmin) := by
    apply one_div_le_one_div_of_le (mul_pos hord.1 hord.1)
    exact mul_le_mul hord.2 hord.2 hord.1.le (hord.1.le.trans hord.2)
  generalize 1 / (f.hmin * f.hmin) = a at *
  generalize 1 / (f.hmax * f.hmax) = b at *
  intro k k1 k2 hv
  have hrow : ∀ i < 6, row (loop (truncPoint E s a b) s.np m) k i =
      row (truncPoint E s a b k m) k i := fun i hi => by
    rw [truncLoop_row hl s a b m s.np hi, if_pos ⟨k1, k2⟩]
  have hform : ∀ x y z, form (row (loop (truncPoint E s a b) s.np m) k) x y z =
      form (row (truncPoint E s a b k m) k) x y z := by
    intro x y z
    unfold form
    rw [hrow 0 (by decide), hrow 1 (by decide), hrow 2 (by decide), hrow 3 (by decide), hrow 4 (by decide),
      hrow 5 (by decide)]
  have hformset : ∀ r : Nat → K, ∀ x y z, form (row (setRow m k r) k) x y z = form r x y z := by
    intro r x y z
    unfold form
    simp only [row_set _ _ _ _ (show 0 < 6 by decide), row_set _ _ _ _ (show 1 < 6 by decide),
      row_set _ _ _ _ (show 2 < 6 by decide), row_set _ _ _ _ (show 3 < 6 by decide),
      row_set _ _ _ _ (show 4 < 6 by decide), row_set _ _ _ _ (show 5 < 6 by decide), if_true]
  have hisob : ∀ x y z, b * (x ^ 2 + y ^ 2 + z ^ 2) ≤ form (isoRow b) x y z ∧
      form (isoRow b) x y z ≤ a * (x ^ 2 + y ^ 2 + z ^ 2) := by
    intro x y z
    rw [form_iso]
    exact ⟨le_refl _, mul_le_mul_of_nonneg_right hab (by positivity)⟩
  refine ⟨?_, ?_, ?_⟩
  · intro x y z
    rw [hform]
    unfold truncPoint
    rw [if_neg (not_not.2 hv)]
    split_ifs
    · rw [hformset]; exact hisob x y z
    · split
      · rename_i r' ht
        rw [hformset]
        obtain ⟨t1, t2, _⟩ := truncRow_spec hE hab ht x y z
        exact ⟨t1, t2⟩
      · rw [hformset]; exact hisob x y z
  · intro hf i hi
    rw [hrow i hi]
    unfold truncPoint
    rw [if_neg (not_not.2 hv), if_pos hf, row_set _ _ _ _ hi, if_pos rfl]
  · intro hf s1 s2 l v he hlp hin i hi
    rw [hrow i hi]
    unfold truncPoint
    rw [if_neg (not_not.2 hv), if_neg (not_lt.2 hf)]
    rw [hm s1 s2]
    split
    · rename_i r' ht
      rw [row_set _ _ _ _ hi, if_pos rfl]
      exact (truncRow_spec hE hab ht 0 0 0).2.2 l v he hin i hi
    · rename_i ht
      exfalso
      unfold truncRow at ht
      rw [he] at ht
      simp only at ht
      rw [if_neg] at ht
      · simp at ht
      · simp only [not_or, not_le]
        exact ⟨hlp 0 (by decide), hlp 1 (by decide), hlp 2 (by decide)⟩

end

/-! ### Examples -/

/-- A diagonalisation for diagonal matrices and an inverse square root that is exact at the points used below; `1/sqrt 0`
is a large number in the model (infinity in C). -/
def kernEx : Kernels ℚ where
  eig := fun r => if r 1 = 0 ∧ r 2 = 0 ∧ r 4 = 0 then
    some (fun j => if j = 0 then r 0 else if j = 1 then r 3 else r 5, fun i j => if i = j then 1 else 0) else none
  rsqrt := fun x => if x = 0 then 2 ^ 1024 else if x = 2 ^ 128 then 1 / 2 ^ 64 else 1
  fltMin := 1 / 2 ^ 126
  eps := 1 / 10 ^ 6

theorem kernEx_ok : EigOK kernEx ∧ EigLocal kernEx ∧ (∀ x, 0 ≤ x → 0 < kernEx.rsqrt x) := by
  refine ⟨⟨?_, ?_⟩, ?_, ?_⟩
  · intro r l v h i hi j hj
    simp only [kernEx] at h
    split_ifs at h
    injection h with h
    injection h with _ h
    subst h
    interval_cases i <;> interval_cases j <;> norm_num
  · intro r l v h i hi
    simp only [kernEx] at h
    split_ifs at h with hc
    injection h with h
    injection h with h1 h2
    subst h1; subst h2
    obtain ⟨a, b, c⟩ := hc
    interval_cases i <;> simp [rebuild, a, b, c]
  · intro r r' h
    simp only [kernEx, h 0 (by decide), h 1 (by decide), h 2 (by decide), h 3 (by decide), h 4 (by decide),
      h 5 (by decide)]
  · intro x _
    simp only [kernEx]
    split_ifs <;> norm_num

/-- One vertex with the isotropic metric of size 2 (twice the extent of the scaled mesh), no bound given. -/
def stAni (a : ℚ) : St ℚ :=
  { stEx with info := { stEx.info with sethmax := false, hmax := -1 }, met := some ⟨3, 6, 3, true, fun j => isoRow a (j % 6)⟩ }

/-- A metric of size 2 everywhere is meant to be kept, since no bound is given. It is replaced by a size of 10/2^64: the
eigenvalue 1/4 is ignored when the bounds are computed, so that the bounds come from the initial values. -/
theorem C52_size_two_false :
    (scaleTensor (truncAni3 consts kernEx) (stAni (1 / 4)) ⟨3, 6, 3, true, fun j => isoRow (1 / 4) (j % 6)⟩ 1).1 = true ∧
    ((scaleTensor (truncAni3 consts kernEx) (stAni (1 / 4)) ⟨3, 6, 3, true, fun j => isoRow (1 / 4) (j % 6)⟩ 1).2.met.map
      fun q => row q.m 1 0) = some (2 ^ 128 / 100) := by decide +kernel

/-- Another size is kept. -/
example : ((scaleTensor (truncAni3 consts kernEx) (stAni 1) ⟨3, 6, 3, true, fun j => isoRow 1 (j % 6)⟩ 1).2.met.map
      fun q => row q.m 1 0) = some 1 := by decide +kernel

example : (truncAni3 consts kernEx { stAni 1 with info := { stEx.info with sethmin := true, hmin := 2, hmax := 3 } }
    ⟨3, 6, 3, true, fun j => isoRow 1 (j % 6)⟩).1 = true := by decide +kernel

end Mmg.Scale
