/-
Properties C31 to C34: scaling of the mesh to the unit box and back, and size bounds.
-/
import Verif.ScaleLemmas
import Mathlib.Tactic.IntervalCases
import Mathlib.Algebra.Field.Rat
import Mathlib.Algebra.Order.Ring.Rat

set_option linter.unusedSectionVars false

namespace Mmg.Scale

section
variable {K : Type} [Field K] [LinearOrder K] [IsStrictOrderedRing K]

/-! ### Lemmas on the whole functions -/

theorem truncIso_fail (P : Consts K) (s : St K) (q : Sol K) (hc : checkSetted s.info = false) :
    truncIso P s q = (false, s) := by
  unfold truncIso; rw [hc]; rfl

theorem truncIso_setted {P : Consts K} {s s' : St K} {q : Sol K} (h : truncIso P s q = (true, s')) :
    checkSetted s.info = true := by
  rcases hc : checkSetted s.info with _ | _
  · rw [truncIso_fail P s q hc] at h; simp at h
  · rfl

theorem truncIso_frame {P : Consts K} {s s' : St K} {q : Sol K} (hq : s.met = some q)
    (h : truncIso P s q = (true, s')) : Frame s s' ∧ s'.flag = s.flag ∧ s'.base = s.base := by
  have hs := truncIso_setted h
  rw [truncIso_eq P s q hs] at h
  injection h with _ h
  subst h
  obtain ⟨f1, f2, f3⟩ := autoBounds_frame P s q
  exact ⟨⟨rfl, rfl, rfl, rfl, rfl, f1, f2, f3, by rw [hq]; rfl⟩, rfl, rfl⟩

/-- A truncation that only touches the metric and the bounds the user did not give. -/
def TruncFrame (trunc : St K → Sol K → Bool × St K) : Prop :=
  ∀ s q s', s.met = some q → trunc s q = (true, s') → Frame s s'

theorem Frame.ofMet {s s' : St K} {q q' : Sol K} {fl : Nat → Nat} {b : Nat} {w : Bool}
    (hq : s.met = some q) (h : (q'.np, q'.size, q'.type, q'.alloc) = (q.np, q.size, q.type, q.alloc))
    (hf : Frame { s with base := b, flag := fl, warn := w, met := some q' } s') : Frame s s' :=
  ⟨hf.dim, hf.np, hf.valid, hf.c, hf.sol, hf.info, hf.hmin, hf.hmax,
    hf.met.trans (by rw [hq]; exact congrArg some h)⟩

theorem scaleMetric_frame {P : Consts K} {trunc : St K → Sol K → Bool × St K} (hT : TruncFrame trunc)
    {s s' : St K} {dd : K} (h : scaleMetric P trunc s dd = (true, s')) : Frame s s' := by
  unfold scaleMetric at h
  split at h
  · injection h with _ h; subst h; exact Frame.refl s
  · rename_i q hq
    split_ifs at h
    · injection h with _ h; subst h; exact Frame.refl s
    · unfold scaleScalar at h
      dsimp only at h
      split at h
      · exact Frame.ofMet hq (by rfl) (truncIso_frame rfl h).1
      · simp at h
    · unfold scaleTensor at h
      dsimp only at h
      exact Frame.ofMet (w := s.warn) hq (by rfl) (hT _ _ _ rfl h)
    · injection h with _ h; subst h; exact Frame.refl s

/-- A successful scaling: the mesh part, then the metric part. -/
theorem scaleMesh_parts {P : Consts K} (hP : 0 < P.epsd) {trunc : St K → Sol K → Bool × St K}
    (hT : TruncFrame trunc) {s s' : St K} (h : scaleMesh P trunc s = (true, s')) :
    ∃ s1 d, 0 < d ∧ Scaled s s1 d ∧ Frame s1 s' ∧ s1.met = s.met ∧ s1.flag = s.flag ∧ s1.base = s.base ∧
      s1.warn = s.warn ∧ scaleMetric P trunc s1 d = (true, s') := by
  unfold scaleMesh at h
  rcases hr : scaleMeshAndSol P s with ⟨ok, s1, d⟩
  rw [hr] at h
  cases ok with
  | false => simp at h
  | true =>
    simp only [Bool.not_true, Bool.false_eq_true, if_false] at h
    obtain ⟨h1, h2, h3, h4, h5, h6⟩ := scaleMeshAndSol_spec hP hr
    exact ⟨s1, d, h2, h1, scaleMetric_frame hT h, h3, h4, h5, h6, h⟩

/-! ### C31: scaling and unscaling -/

/-- The scaled vertices lie in the unit box. -/
theorem C31_unit_box {P : Consts K} (hP : 0 < P.epsd) {trunc : St K → Sol K → Bool × St K}
    (hT : TruncFrame trunc) {s s' : St K} (h : scaleMesh P trunc s = (true, s')) :
    ∀ k, 1 ≤ k → k ≤ s.np → s.valid k → ∀ i < s.dim, 0 ≤ s'.c k i ∧ s'.c k i ≤ 1 := by
  obtain ⟨s1, d, _, hsc, hfr, _⟩ := scaleMesh_parts hP hT h
  intro k h1 h2 hv i hi
  rw [hfr.c]
  exact hsc.box k h1 h2 hv i hi

/-- Scaling succeeds or fails only through the extent of the mesh, negative or contradictory bounds and the metric. -/
theorem unscale_c (s : St K) {k i : Nat} (h1 : 1 ≤ k) (h2 : k ≤ s.np) (hv : s.valid k) (hi : i < s.dim) :
    (unscaleMesh s).c k i = s.c k i * s.info.delta + s.info.min i := by
  unfold unscaleMesh
  dsimp only
  rw [loop_upd_if s.valid (fun _ (x : Nat → K) =>
        fun i => if i < s.dim then x i * s.info.delta + s.info.min i else x i), if_pos ⟨h1, h2, hv⟩]
  exact if_pos hi

theorem scalePar_inv {d e : K} (h : e * d = 1) (l : List (Par K)) :
    (l.map (scalePar d)).map (scalePar e) = l := by
  have : ∀ x : K, x * d * e = x := fun x => by rw [mul_assoc, mul_comm d, h, mul_one]
  rw [List.map_map]
  conv_rhs => rw [← List.map_id l]
  congr 1
  funext p
  simp [scalePar, this]

/-- Scaling then unscaling restores the coordinates of the valid vertices, the parameters, the local parameters, the
bounds given by the user and the level-set or displacement at valid vertices; the bounds that the user did not give are
unset. -/
theorem C31_restored {P : Consts K} (hP : 0 < P.epsd) {trunc : St K → Sol K → Bool × St K}
    (hT : TruncFrame trunc) {s s' : St K} (h : scaleMesh P trunc s = (true, s')) :
    (∀ k, 1 ≤ k → k ≤ s.np → s.valid k → ∀ i < s.dim, (unscaleMesh s').c k i = s.c k i) ∧
    (unscaleMesh s').info.hausd = s.info.hausd ∧ (unscaleMesh s').info.ls = s.info.ls ∧
    (unscaleMesh s').info.hsiz = s.info.hsiz ∧ (unscaleMesh s').info.par = s.info.par ∧
    (unscaleMesh s').info.hmin = (if s.info.sethmin then s.info.hmin else -1) ∧
    (unscaleMesh s').info.hmax = (if s.info.sethmax then s.info.hmax else -1) ∧
    (∀ o, s.sol = some o → o.np ≠ 0 → o.alloc = true → ∃ o', (unscaleMesh s').sol = some o' ∧
      o'.np = o.np ∧ o'.size = o.size ∧
      ∀ k, 1 ≤ k → k ≤ s.np → s.valid k → ∀ i < o.size, o'.m (k * o.size + i) = o.m (k * o.size + i)) := by
  obtain ⟨s1, d, hd, hsc, hfr, _⟩ := scaleMesh_parts hP hT h
  have hdelta : s'.info.delta * d = 1 := by rw [hfr.info]; exact hsc.delta
  have hmul : ∀ x : K, x * d * s'.info.delta = x := fun x => by
    rw [mul_assoc, mul_comm d, hdelta, mul_one]
  have e1 : s'.info.hausd = s.info.hausd * d := by rw [hfr.info]; exact hsc.hausd
  have e2 : s'.info.ls = s.info.ls * d := by rw [hfr.info]; exact hsc.ls
  have e3 : s'.info.hsiz = s.info.hsiz * d := by rw [hfr.info]; exact hsc.hsiz
  have e4 : s'.info.par = s.info.par.map (scalePar d) := by rw [hfr.info]; exact hsc.par
  have e5 : s'.info.sethmin = s.info.sethmin := by rw [hfr.info]; exact hsc.sethmin
  have e6 : s'.info.sethmax = s.info.sethmax := by rw [hfr.info]; exact hsc.sethmax
  have e7 : s'.info.min = s1.info.min := by rw [hfr.info]
  refine ⟨?_, ?_, ?_, ?_, ?_, ?_, ?_, ?_⟩
  · intro k h1 h2 hv i hi
    have hn : s'.np = s.np := hfr.np.trans hsc.np
    have hvv : s'.valid = s.valid := hfr.valid.trans hsc.valid
    have hdim : s'.dim = s.dim := hfr.dim.trans hsc.dim
    rw [unscale_c s' h1 (hn ▸ h2) (hvv ▸ hv) (hdim ▸ hi), hfr.c, hsc.c k h1 h2 hv i hi, e7]
    have := hmul (s.c k i - s1.info.min i)
    rw [mul_comm d, this]; ring
  · show s'.info.hausd * s'.info.delta = _
    rw [e1, hmul]
  · show s'.info.ls * s'.info.delta = _
    rw [e2, hmul]
  · show s'.info.hsiz * s'.info.delta = _
    rw [e3, hmul]
  · show s'.info.par.map (scalePar s'.info.delta) = _
    rw [e4]; exact scalePar_inv hdelta _
  · show (if s'.info.sethmin then s'.info.hmin * s'.info.delta else -1) = _
    rw [e5]
    split_ifs with hs
    · rw [hfr.hmin (hsc.sethmin.trans hs), (hsc.hmin hs).1, hmul]
    · rfl
  · show (if s'.info.sethmax then s'.info.hmax * s'.info.delta else -1) = _
    rw [e6]
    split_ifs with hs
    · rw [hfr.hmax (hsc.sethmax.trans hs), (hsc.hmax hs).1, hmul]
    · rfl
  · intro o ho hn ha
    have e8 : s'.sol = some (scaleSol s.np d o) := by rw [hfr.sol, hsc.sol, ho]; rfl
    have e9 : scaleSol s.np d o = { o with
        m := fun j => if o.size ≤ j ∧ j < o.size * (s.np + 1) then o.m j * d else o.m j } := if_pos hn
    refine ⟨{ scaleSol s.np d o with m := mulValid s' o.size s'.info.delta (scaleSol s.np d o).m }, ?_, ?_, ?_, ?_⟩
    · show s'.sol.map (unscaleSol s' s'.info.delta) = _
      rw [e8, e9]
      exact congrArg some (if_pos ⟨hn, ha⟩)
    · rw [e9]
    · rw [e9]
    · intro k h1 h2 hv i hi
      dsimp only
      rw [mulValid_spec s' _ _ _ h1 (by rw [hfr.np, hsc.np]; exact h2)
        (by rw [hfr.valid, hsc.valid]; exact hv) hi, e9]
      dsimp only
      rw [if_pos, hmul]
      have a1 := Nat.mul_le_mul_right o.size h1
      have a2 := Nat.mul_le_mul_right o.size h2
      rw [Nat.mul_add, Nat.mul_comm o.size s.np]
      omega

/-- The scalar metric after scaling and unscaling: the sizes given by the user, truncated by the bounds given by the
user only. -/
theorem C31_scalar_metric {P : Consts K} (hP : 0 < P.epsd) (hF : 0 < P.fltMax)
    {trunc : St K → Sol K → Bool × St K}
    (hT : TruncFrame trunc) {s s' : St K} (h : scaleMesh P trunc s = (true, s'))
    {q : Sol K} (hq : s.met = some q) (h1 : q.size = 1) (ht : q.type = 1) (hn : q.np ≠ 0)
    (ha : q.alloc = true) (hpos : ∀ k, 1 ≤ k → k ≤ s.np → s.valid k → 0 < q.m k)
    (hb : s.info.sethmin = true → s.info.sethmax = true → s.info.hmin ≤ s.info.hmax) :
    ∃ q', (unscaleMesh s').met = some q' ∧ ∀ k, 1 ≤ k → k ≤ s.np → s.valid k → q'.m k =
      (let x := if s.info.sethmin then max s.info.hmin (q.m k) else q.m k
       if s.info.sethmax then min s.info.hmax x else x) := by
  obtain ⟨s1, d, hd, hsc, hfr, hmet, hfl, hba, hw, hsm⟩ := scaleMesh_parts hP hT h
  unfold scaleMetric at hsm
  rw [hmet, hq] at hsm
  dsimp only at hsm
  rw [if_neg (by simp [hn, ha]), if_pos h1] at hsm
  unfold scaleScalar at hsm
  dsimp only at hsm
  obtain ⟨l1, l2⟩ := scalar_loop s1 (s1.base + 1) d q s1.np
  generalize loop (scalarBody s1 (s1.base + 1) d) s1.np ⟨true, s1.flag, q.m, s1.warn⟩ = l at *
  split at hsm
  swap
  · simp at hsm
  rename_i hrun
  obtain ⟨f1, f2, _, _⟩ := l1 hrun
  generalize hs2 : ({ s1 with
    base := s1.base + 1, flag := l.flag, warn := l.warn
    met := some { q with m := l.m } } : St K) = s2 at hsm
  have hset : checkSetted s2.info = true := by
    rw [checkSetted_iff, ← hs2]
    dsimp only
    rw [hsc.sethmin, hsc.sethmax]
    refine ⟨fun hh => ?_, fun hh => ?_⟩
    · rw [(hsc.hmin hh).1]; exact mul_nonneg (hsc.hmin hh).2 hd.le
    · rw [(hsc.hmax hh).1]; exact mul_nonneg (hsc.hmax hh).2 hd.le
  have hlm : ∀ k, 1 ≤ k → k ≤ s.np → s.valid k → l.m k = q.m k * d := by
    intro k k1 k2 hv
    rw [f2, if_pos ⟨k1, hsc.np ▸ k2, hsc.valid ▸ hv⟩]
  obtain ⟨b1, b2⟩ := autoBounds_spec (P := P) (s := s2) (q := { q with m := l.m }) hset hF (by
    intro k k1 k2 hv
    rw [← hs2] at k2 hv
    dsimp only at k2 hv ⊢
    rw [hlm k k1 (hsc.np ▸ k2) (hsc.valid ▸ hv)]
    exact mul_pos (hpos k k1 (hsc.np ▸ k2) (hsc.valid ▸ hv)) hd)
  obtain ⟨g1, g2, g3⟩ := autoBounds_frame P s2 { q with m := l.m }
  rw [truncIso_eq P s2 _ hset] at hsm
  injection hsm with _ hsm
  generalize autoBounds P s2 { q with m := l.m } = f at *
  have hdelta : s'.info.delta * d = 1 := by rw [hfr.info]; exact hsc.delta
  have hmul : ∀ x : K, x * d * s'.info.delta = x := fun x => by
    rw [mul_assoc, mul_comm d, hdelta, mul_one]
  have hδ : 0 < s'.info.delta := by
    by_contra hc
    have := mul_nonpos_of_nonpos_of_nonneg (not_lt.1 hc) hd.le
    rw [hdelta] at this
    exact absurd this (not_le.2 one_pos)
  refine ⟨{ q with m := mulValid s' 1 s'.info.delta (fun k => if 1 ≤ k ∧ k ≤ s2.np then
        (if s2.flag k < s2.base then f.hmax else min f.hmax (max f.hmin (l.m k))) else l.m k) }, ?_, ?_⟩
  · show s'.met.map (unscaleMet s' s'.info.delta) = _
    rw [show s'.met = some { q with m := fun k => if 1 ≤ k ∧ k ≤ s2.np then
        (if s2.flag k < s2.base then f.hmax else min f.hmax (max f.hmin (l.m k))) else l.m k } from by
      rw [← hsm]]
    exact congrArg some ((if_pos ⟨hn, ha⟩).trans (if_pos ht))
  · intro k k1 k2 hv
    have kn : k ≤ s1.np := hsc.np ▸ k2
    have kv : s1.valid k = true := by rw [hsc.valid]; exact hv
    have hm := mulValid_spec s' 1 s'.info.delta (fun k => if 1 ≤ k ∧ k ≤ s2.np then
        (if s2.flag k < s2.base then f.hmax else min f.hmax (max f.hmin (l.m k))) else l.m k)
      (i := 0) k1 (by rw [hfr.np]; exact kn) (by rw [hfr.valid]; exact kv) (by decide)
    rw [Nat.mul_one, Nat.add_zero] at hm
    dsimp only
    rw [hm]
    have hflag : s2.flag k = s2.base := by
      rw [← hs2]; dsimp only; rw [f1, if_pos ⟨k1, kn, kv⟩]
    have hn2 : s2.np = s1.np := by rw [← hs2]
    rw [if_pos ⟨k1, by rw [hn2]; exact kn⟩, if_neg (by rw [hflag]; exact lt_irrefl _)]
    obtain ⟨c1, c2, c3⟩ := b2 k k1 (by rw [hn2]; exact kn) (by rw [← hs2]; exact kv) hflag.ge
    have i1 : s2.info.sethmin = s.info.sethmin := by rw [← hs2]; exact hsc.sethmin
    have i2 : s2.info.sethmax = s.info.sethmax := by rw [← hs2]; exact hsc.sethmax
    have i3 : s.info.sethmin = true → f.hmin = s.info.hmin * d := fun hh => by
      rw [g2 (i1.trans hh), ← hs2]; exact (hsc.hmin hh).1
    have i4 : s.info.sethmax = true → f.hmax = s.info.hmax * d := fun hh => by
      rw [g3 (i2.trans hh), ← hs2]; exact (hsc.hmax hh).1
    have i5 : s.info.sethmax = true → s2.info.hmax = s.info.hmax * d := fun hh => by
      rw [← hs2]; exact (hsc.hmax hh).1
    rw [i1, i2] at c3
    rw [i1, i2] at c2
    rw [i2] at c1
    have hl := hlm k k1 k2 hv
    dsimp only at c1 c2 c3
    rw [hl] at c1 c2 c3 ⊢
    rcases hx : s.info.sethmin with _ | _ <;> rcases hy : s.info.sethmax with _ | _ <;>
      simp only [Bool.false_eq_true, if_true, if_false]
    · rw [min_eq_right (c1 hy), max_eq_right (c2 hx hy), hmul]
    · have h3 := c3 hx hy
      rw [i5 hy] at h3
      rw [max_eq_right (h3.trans (min_le_left _ _)), i4 hy, ← min_mul_of_nonneg _ _ hd.le, hmul]
    · rw [min_eq_right (c1 hy), i3 hx, ← max_mul_of_nonneg _ _ hd.le, hmul]
    · rw [i3 hx, i4 hy, ← max_mul_of_nonneg _ _ hd.le, ← min_mul_of_nonneg _ _ hd.le, hmul]

theorem loop_congr {σ : Type} {f g : Nat → σ → σ} (h : ∀ k s, f k s = g k s) (n : Nat) (s : σ) :
    loop f n s = loop g n s := by
  rw [show f = g from funext fun k => funext fun s => h k s]

theorem loop_id {σ : Type} (n : Nat) (s : σ) : loop (fun _ s => s) n s = s := by
  induction n with
  | zero => rfl
  | succ n ih => exact ih

theorem mulValid_one (s : St K) (size : Nat) (m : Nat → K) : mulValid s size 1 m = m := by
  unfold mulValid
  rw [loop_congr (g := fun _ m => m), loop_id]
  intro k m
  split_ifs
  · funext j; split_ifs <;> simp
  · rfl

/-- Unscaling a second time changes nothing. -/
theorem C31_unscale_twice (s : St K) (hdim : s.dim ≤ 3) :
    unscaleMesh (unscaleMesh s) = unscaleMesh s := by
  have hd : (unscaleMesh s).info.delta = 1 := rfl
  have hp : ∀ l : List (Par K), l.map (scalePar 1) = l := by
    intro l
    conv_rhs => rw [← List.map_id l]
    congr 1
    funext p
    simp [scalePar]
  have key : ∀ t : St K, t.info.delta = 1 → (∀ i < 3, t.info.min i = 0) → t.dim ≤ 3 →
      (t.info.sethmin = false → t.info.hmin = -1) → (t.info.sethmax = false → t.info.hmax = -1) →
      unscaleMesh t = t := by
    intro t h1 h2 h3 h4 h5
    have c1 : loop (fun k (c : Nat → Nat → K) => if t.valid k then
        upd c k (fun i => if i < t.dim then c k i * t.info.delta + t.info.min i else c k i) else c)
          t.np t.c = t.c := by
      rw [loop_congr (g := fun _ c => c), loop_id]
      intro k c
      split_ifs
      · funext j
        unfold upd
        split_ifs with hj
        · subst hj
          funext i
          split_ifs with hi
          · rw [h2 i (by omega), h1]; ring
          · rfl
        · rfl
      · rfl
    have c2 : (if t.info.sethmin = true then t.info.hmin * t.info.delta else -1) = t.info.hmin := by
      rcases hh : t.info.sethmin with _ | _
      · simp [h4 hh]
      · simp [h1]
    have c3 : (if t.info.sethmax = true then t.info.hmax * t.info.delta else -1) = t.info.hmax := by
      rcases hh : t.info.sethmax with _ | _
      · simp [h5 hh]
      · simp [h1]
    have c4 : (fun i => if i < 3 then 0 else t.info.min i) = t.info.min := by
      funext i
      split_ifs with hi
      · exact (h2 i hi).symm
      · rfl
    have c5 : unscaleSol t t.info.delta = id := by
      funext o
      unfold unscaleSol
      rw [h1, mulValid_one]
      split_ifs <;> rfl
    have c6 : unscaleMet t t.info.delta = id := by
      funext o
      unfold unscaleMet
      rw [h1, mul_one, div_one, mulValid_one, mulValid_one]
      split_ifs <;> rfl
    unfold unscaleMesh
    dsimp only
    rw [c1, c2, c3, c4, c5, c6, Option.map_id, h1, hp]
    rcases t with ⟨_, _, _, _, _, _, ⟨_, _, _, _, _, _, _, _, _, _, _, _⟩, _, _, _⟩
    simp_all
  refine key _ hd ?_ hdim ?_ ?_
  · intro i hi; exact if_pos hi
  · intro h
    have h' : s.info.sethmin = false := h
    show (if s.info.sethmin = true then _ else (-1 : K)) = -1
    rw [h']; rfl
  · intro h
    have h' : s.info.sethmax = false := h
    show (if s.info.sethmax = true then _ else (-1 : K)) = -1
    rw [h']; rfl

/-! ### C32: invalid metrics -/

/-- As long as no invalid metric has been met in the process, a metric with a non-positive size at a valid vertex is
rejected. (The full claim, without the hypothesis on `warn`, is refuted below.) -/
theorem C32_rejected_partial (P : Consts K) (s : St K) (q : Sol K) (dd : K) (hw : s.warn = false)
    {k : Nat} (h1 : 1 ≤ k) (h2 : k ≤ s.np) (hv : s.valid k) (hm : q.m k ≤ 0) :
    (scaleScalar P s q dd).1 = false ∧ (scaleScalar P s q dd).2.warn = true := by
  unfold scaleScalar
  dsimp only
  obtain ⟨l1, l2⟩ := scalar_loop s (s.base + 1) dd q s.np
  generalize loop (scalarBody s (s.base + 1) dd) s.np ⟨true, s.flag, q.m, s.warn⟩ = l at *
  rcases hr : l.run with _ | _
  · obtain ⟨_, w, _⟩ := l2 hr
    simp [w]
  · obtain ⟨_, _, _, hp⟩ := l1 hr
    exact absurd (hp hw k h1 h2 hv) (not_lt.2 hm)

/-- A metric whose sizes are positive is never rejected for its values, whatever happened before. -/
theorem C32_valid_accepted (P : Consts K) (s : St K) (q : Sol K) (dd : K)
    (hs : checkSetted s.info = true) (hm : ∀ k, 1 ≤ k → k ≤ s.np → s.valid k → 0 < q.m k) :
    (scaleScalar P s q dd).1 = true := by
  unfold scaleScalar
  dsimp only
  obtain ⟨l1, l2⟩ := scalar_loop s (s.base + 1) dd q s.np
  generalize loop (scalarBody s (s.base + 1) dd) s.np ⟨true, s.flag, q.m, s.warn⟩ = l at *
  rcases hr : l.run with _ | _
  · obtain ⟨_, _, j, j1, j2, j3, j4⟩ := l2 hr
    exact absurd (hm j j1 j2 j3) (not_lt.2 j4)
  · rw [if_pos rfl, truncIso_eq P _ _ (by exact hs)]

/-- Once an invalid metric has been met in the process, no scalar metric is rejected any more. -/
theorem C32_never_again (P : Consts K) (s : St K) (q : Sol K) (dd : K)
    (hs : checkSetted s.info = true) (hw : s.warn = true) : (scaleScalar P s q dd).1 = true := by
  unfold scaleScalar
  dsimp only
  obtain ⟨l1, l2⟩ := scalar_loop s (s.base + 1) dd q s.np
  generalize loop (scalarBody s (s.base + 1) dd) s.np ⟨true, s.flag, q.m, s.warn⟩ = l at *
  rcases hr : l.run with _ | _
  · rw [hw] at l2; simpa using (l2 hr).1
  · rw [if_pos rfl, truncIso_eq P _ _ (by exact hs)]

/-! ### C33: truncation -/

/-- After the truncation of an isotropic metric: the bounds given by the user are unchanged, the bounds are ordered,
every size lies between them, sizes inside the bounds are unchanged, vertices without size get the upper bound. The
user must not have given contradictory bounds (see `C33_contradictory_false`). -/
theorem C33_truncated_partial {P : Consts K} (hF : 0 < P.fltMax) {s s' : St K} {q : Sol K}
    (h : truncIso P s q = (true, s'))
    (hpos : ∀ k, 1 ≤ k → k ≤ s.np → s.valid k → 0 < q.m k)
    (hb : s.info.sethmin = true → s.info.sethmax = true → s.info.hmin ≤ s.info.hmax) :
    (s.info.sethmin = true → s'.info.hmin = s.info.hmin) ∧
    (s.info.sethmax = true → s'.info.hmax = s.info.hmax) ∧
    s'.info.hmin ≤ s'.info.hmax ∧
    ∃ q', s'.met = some q' ∧ ∀ k, 1 ≤ k → k ≤ s.np →
      (s'.info.hmin ≤ q'.m k ∧ q'.m k ≤ s'.info.hmax) ∧
      (s.flag k < s.base → q'.m k = s'.info.hmax) ∧
      (s.base ≤ s.flag k → s'.info.hmin ≤ q.m k → q.m k ≤ s'.info.hmax → q'.m k = q.m k) ∧
      (s.base ≤ s.flag k → s.valid k → s.info.sethmin = false → s.info.sethmax = false →
        q'.m k = q.m k) := by
  have hs := truncIso_setted h
  rw [truncIso_eq P s q hs] at h
  injection h with _ h
  obtain ⟨f1, f2, f3⟩ := autoBounds_frame P s q
  obtain ⟨b1, b2⟩ := autoBounds_spec hs hF hpos
  subst h
  generalize autoBounds P s q = f at *
  have hle : f.hmin ≤ f.hmax := by
    by_cases hh : s.info.sethmin = true ∧ s.info.sethmax = true
    · rw [f2 hh.1, f3 hh.2]; exact hb hh.1 hh.2
    · exact b1 hh
  refine ⟨f2, f3, hle, _, rfl, ?_⟩
  intro k k1 k2
  dsimp only
  rw [if_pos ⟨k1, k2⟩]
  refine ⟨?_, fun hf => if_pos hf, fun hf h1 h2 => ?_, fun hf hv h1 h2 => ?_⟩
  · split_ifs
    · exact ⟨hle, le_refl _⟩
    · exact ⟨le_min hle (le_max_left _ _), min_le_left _ _⟩
  · rw [if_neg (not_lt.2 hf), max_eq_right h1, min_eq_right h2]
  · obtain ⟨c1, c2, _⟩ := b2 k k1 k2 hv hf
    rw [if_neg (not_lt.2 hf), min_eq_right (c1 h2), max_eq_right (c2 h1 h2)]

/-! ### C34: default and constant sizes -/

/-- The default bounds: user-given bounds are never changed; when the given bounds are positive the computation succeeds
exactly when they are not contradictory, and then `0 < hmin ≤ hmax`. -/
theorem C34_default_bounds (f : Info K) :
    (f.sethmin = true → (defaultBounds f f.sethmin f.sethmax).2.hmin = f.hmin) ∧
    (f.sethmax = true → (defaultBounds f f.sethmin f.sethmax).2.hmax = f.hmax) ∧
    ((f.sethmin = true → 0 < f.hmin) → (f.sethmax = true → 0 < f.hmax) →
      ((defaultBounds f f.sethmin f.sethmax).1 = true ↔
        ¬ (f.sethmin = true ∧ f.sethmax = true ∧ f.hmax < f.hmin)) ∧
      0 < (defaultBounds f f.sethmin f.sethmax).2.hmin ∧
      ((defaultBounds f f.sethmin f.sethmax).1 = true →
        (defaultBounds f f.sethmin f.sethmax).2.hmin ≤ (defaultBounds f f.sethmin f.sethmax).2.hmax)) := by
  obtain ⟨_, h2, h3⟩ := defaultBounds_frame f f.sethmin f.sethmax
  refine ⟨h2, h3, fun p1 p2 => ?_⟩
  have key : (defaultBounds f f.sethmin f.sethmax).1 = true ↔
      (defaultBounds f f.sethmin f.sethmax).2.hmin ≤ (defaultBounds f f.sethmin f.sethmax).2.hmax := by
    have gen : ∀ F : Info K, (if F.hmax < F.hmin then (false, F) else (true, F)).1 = true ↔
        (if F.hmax < F.hmin then (false, F) else (true, F)).2.hmin ≤
          (if F.hmax < F.hmin then (false, F) else (true, F)).2.hmax := by
      intro F
      split_ifs with hh
      · simp [hh]
      · simp [not_lt.1 hh]
    exact gen _
  refine ⟨?_, ?_, key.1⟩
  · rw [key]
    unfold defaultBounds
    rcases h1 : f.sethmin with _ | _ <;> rcases h2 : f.sethmax with _ | _ <;>
      simp only [cmin_eq, cmax_eq, Bool.false_eq_true, if_true, if_false, false_and, and_false, true_and,
        not_false_eq_true, iff_true, not_lt]
    · split_ifs <;> norm_num
    · have := p2 h2
      have h5 : min (1 / 1000) (1 / 1000 * f.hmax) ≤ f.hmax :=
        (min_le_right _ _).trans (by linarith)
      split_ifs <;> exact h5
    · have := p1 h1
      have h5 : f.hmin ≤ max 2 (1 / (1 / 1000) * f.hmin) := by
        refine le_trans ?_ (le_max_right _ _)
        norm_num
        linarith
      split_ifs <;> exact h5
    · split_ifs <;> simp
  · unfold defaultBounds
    rcases h1 : f.sethmin with _ | _ <;> rcases h2 : f.sethmax with _ | _ <;>
      simp only [cmin_eq, cmax_eq, Bool.false_eq_true, if_true, if_false]
    · split_ifs <;> norm_num
    · have := p2 h2
      have h5 : 0 < min (1 / 1000) (1 / 1000 * f.hmax) :=
        lt_min (by norm_num) (mul_pos (by norm_num) this)
      split_ifs <;> exact h5
    · split_ifs <;> exact p1 h1
    · split_ifs <;> exact p1 h1

/-- The constant size: on success the size is the one asked for and lies between the bounds, and the bounds given by
the user are unchanged; it succeeds exactly when the given bounds are consistent with the size. Unset bounds are negative
(`MMG5_NONSET_HMIN`) and a given upper bound is positive. -/
theorem C34_constant_size (f : Info K) (hsiz : 0 < f.hsiz) (u1 : f.sethmin = false → f.hmin < 0)
    (u2 : f.sethmax = false → f.hmax < 0) (g1 : f.sethmin = true → 0 ≤ f.hmin)
    (g2 : f.sethmax = true → 0 < f.hmax) :
    ((constantSize f).1 = true ↔
      (f.sethmin = true → f.hmin ≤ f.hsiz) ∧ (f.sethmax = true → f.hsiz ≤ f.hmax)) ∧
    ((constantSize f).1 = true →
      (constantSize f).2.2 = f.hsiz ∧ (constantSize f).2.1.hmin ≤ f.hsiz ∧
      f.hsiz ≤ (constantSize f).2.1.hmax ∧
      (f.sethmin = true → (constantSize f).2.1.hmin = f.hmin) ∧
      (f.sethmax = true → (constantSize f).2.1.hmax = f.hmax)) := by
  have hset : checkSetted f = true := (checkSetted_iff f).2 ⟨g1, fun h => (g2 h).le⟩
  unfold constantSize
  rw [hset]
  by_cases a1 : f.hmin > f.hsiz
  · have h1 : f.sethmin = true := by
      by_contra hc
      exact absurd (u1 (by simpa using hc)) (not_lt.2 (hsiz.le.trans a1.le))
    rw [if_pos a1]
    simp only [Bool.false_eq_true, false_iff, false_implies, and_true]
    exact fun hh => absurd (hh.1 h1) (not_le.2 a1)
  rw [if_neg a1]
  by_cases a2 : f.hmax > 0 ∧ f.hmax < f.hsiz
  · have h2 : f.sethmax = true := by
      by_contra hc
      exact absurd (u2 (by simpa using hc)) (not_lt.2 a2.1.le)
    rw [if_pos a2]
    simp only [Bool.false_eq_true, false_iff, false_implies, and_true]
    exact fun hh => absurd (hh.2 h2) (not_le.2 a2.2)
  rw [if_neg a2]
  rw [gt_iff_lt, not_lt] at a1
  have a3 : f.sethmax = true → f.hsiz ≤ f.hmax := fun h => not_lt.1 fun hh => a2 ⟨g2 h, hh⟩
  rcases h1 : f.sethmin with _ | _ <;> rcases h2 : f.sethmax with _ | _ <;>
    simp only [h1, h2, cmin_eq, cmax_eq, Bool.not_true, Bool.false_eq_true, if_true, if_false, true_implies,
      false_implies, and_self, true_iff, true_and, and_true]
  · constructor <;> linarith
  · have h3 := a3 h2
    rw [min_eq_right h3]
    exact ⟨h3, rfl, (min_le_left _ _).trans (by linarith), h3⟩
  · rw [max_eq_right a1]
    exact ⟨a1, rfl, a1, le_trans (by linarith) (le_max_left _ _)⟩
  · have h3 := a3 h2
    rw [max_eq_right a1, min_eq_right h3]
    exact ⟨⟨a1, h3⟩, rfl, a1, h3⟩

end

/-! ### Examples and counterexamples -/

/-- The constants of the C code. -/
def consts : Consts ℚ := ⟨2 ^ 1024, 2 ^ 128, 1 / 10 ^ 30⟩

/-- Three vertices (the second one is not used) with a level-set, a scalar metric and `hmax` given by the user. -/
def stEx : St ℚ where
  dim := 3
  np := 3
  valid := fun k => k != 2
  c := fun k i => (k : ℚ) * 4 + i
  flag := fun _ => 0
  base := 0
  info := { min := fun _ => 0, max := fun _ => 0, delta := 0, hmin := -1, hmax := 5, sethmin := false,
            sethmax := true, hausd := 1, ls := 2, hsiz := -1, optim := false, par := [⟨1, 2, 3⟩] }
  met := some ⟨3, 1, 1, true, fun k => k⟩
  sol := some ⟨3, 1, 1, true, fun k => k - 2⟩
  warn := false

/-- No tensor metric in the examples. -/
def noTrunc (s : St ℚ) (_ : Sol ℚ) : Bool × St ℚ := (true, s)

theorem noTrunc_frame : TruncFrame noTrunc := by
  intro s q s' _ h
  injection h with _ h
  subst h
  exact Frame.refl s

example : (scaleMesh consts noTrunc stEx).1 = true ∧ (scaleMesh consts noTrunc stEx).2.c 3 2 = 1 ∧
    (scaleMesh consts noTrunc stEx).2.info.hmax = 5 / 8 ∧
    (unscaleMesh (scaleMesh consts noTrunc stEx).2).c 3 2 = stEx.c 3 2 := by decide +kernel

/-- Level-set values at unused vertices are scaled but not unscaled. -/
theorem C31_unused_not_restored : (scaleMesh consts noTrunc stEx).1 = true ∧
    ((unscaleMesh (scaleMesh consts noTrunc { stEx with sol := some ⟨3, 1, 1, true, fun k => k⟩ }).2).sol.map
      fun o => o.m 2) = some (1 / 4) := by decide +kernel

/-- A call that fails leaves the mesh scaled: the user asked for a negative bound. -/
theorem C31_failure_leaves_scaled :
    (scaleMesh consts noTrunc { stEx with info := { stEx.info with hmax := -5 } }).1 = false ∧
    (scaleMesh consts noTrunc { stEx with info := { stEx.info with hmax := -5 } }).2.c 3 2 = 1 := by
  decide +kernel

/-- Two meshes with a negative size are scaled one after the other in the same process: the first is rejected, the second
is accepted, and the accepted metric has negative sizes. -/
theorem C32_second_accepted_false :
    ∃ (s : St ℚ) (q : Sol ℚ), q.m 1 < 0 ∧ s.valid 1 = true ∧ 1 ≤ s.np ∧ checkSetted s.info = true ∧
      (scaleScalar consts s q 1).1 = false ∧
      (scaleScalar consts { s with warn := (scaleScalar consts s q 1).2.warn } q 1).1 = true ∧
      ((scaleScalar consts { s with warn := (scaleScalar consts s q 1).2.warn } q 1).2.met.map
        fun q => decide (q.m 1 < 0)) = some true :=
  ⟨{ stEx with info := { stEx.info with sethmax := false } }, ⟨3, 1, 1, true, fun k => if k = 1 then -1 else 1⟩,
    by decide +kernel⟩

example : stEx.warn = false ∧ stEx.valid 1 ∧ (fun k : Nat => if k = 1 then (-1 : ℚ) else 1) 1 ≤ 0 := by
  decide +kernel

/-- With contradictory bounds the truncation succeeds and every size is below the lower bound. -/
theorem C33_contradictory_false :
    ∃ (s : St ℚ) (q : Sol ℚ), (∀ k, 1 ≤ k → 0 < q.m k) ∧ s.info.sethmin = true ∧ s.info.sethmax = true ∧
      (truncIso consts s q).1 = true ∧
      ((truncIso consts s q).2.met.map fun q => decide (q.m 1 < s.info.hmin)) = some true :=
  ⟨{ stEx with info := { stEx.info with sethmin := true, hmin := 7 } }, ⟨3, 1, 1, true, fun k => k⟩,
    fun k hk => by show (0 : ℚ) < (k : ℚ); exact_mod_cast hk, by decide +kernel⟩

example : (truncIso consts { stEx with flag := fun k => if k = 1 then 0 else 1, base := 1 }
    ⟨3, 1, 1, true, fun k => k * 4⟩).2.met.map (fun q => [q.m 1, q.m 2, q.m 3]) = some [5, 5, 5] := by
  decide +kernel

/-- A user-given upper bound equal to zero: the default lower bound is then zero as well and the call succeeds. -/
theorem C34_zero_bound : (defaultBounds { stEx.info with hmax := 0 } false true).1 = true ∧
    (defaultBounds { stEx.info with hmax := 0 } false true).2.hmin = 0 := by decide +kernel

example : (defaultBounds { stEx.info with hmax := 1 / 2 } false true).1 = true ∧
    (defaultBounds { stEx.info with hmax := 1 / 2 } false true).2.hmin = 1 / 2000 := by decide +kernel

example : (constantSize { stEx.info with hsiz := 3 }).1 = true ∧
    (constantSize { stEx.info with hsiz := 3 }).2.1.hmin = 3 / 10 ∧
    (constantSize { stEx.info with hsiz := 6 }).1 = false := by decide +kernel

end Mmg.Scale
