/- C93: Lagrangian motion. -/
import Verif.LagModel
import Verif.Qual
import Mathlib.Algebra.Order.Ring.Rat
import Mathlib.Data.Rat.Cast.Order
import Mathlib.Algebra.Module.Prod
import Mathlib.Algebra.Module.Pi
import Mathlib.Tactic.Module
import Mathlib.Tactic.FieldSimp

namespace Mmg.Lag

open Mmg.Hash (Outcome)

/-! ### The fraction -/

theorem dikLoop_spec (bad : Nat → Bool) : ∀ (fuel tmin tmax t : Nat), tmin < tmax → tmax - tmin ≤ 2 ^ fuel → bad tmax = true →
    (tmin ≠ 0 → bad tmin = false) →
    (dikLoop bad (fuel + 1) tmin tmax t).1 < tmax ∧ bad ((dikLoop bad (fuel + 1) tmin tmax t).1 + 1) = true ∧
      ((dikLoop bad (fuel + 1) tmin tmax t).1 ≠ 0 → bad (dikLoop bad (fuel + 1) tmin tmax t).1 = false) ∧
      (dikLoop bad (fuel + 1) tmin tmax t).2 = if (dikLoop bad (fuel + 1) tmin tmax t).1 = 0 then 1 else 0 := by
  intro fuel
  induction fuel with
  | zero =>
    intro tmin tmax t h1 h2 h3 h4
    have e1 : tmax = tmin + 1 := by simp at h2; omega
    unfold dikLoop
    rw [if_neg (by omega)]
    simp only
    rw [if_pos (by omega), h3, if_pos rfl]
    refine ⟨by simpa using h1, by rw [← e1]; exact h3, h4, ?_⟩
    simp only
    by_cases z : tmin = 0
    · rw [if_pos z, if_pos z]; omega
    · rw [if_neg z, if_neg z]
  | succ fuel ih =>
    intro tmin tmax t h1 h2 h3 h4
    unfold dikLoop
    rw [if_neg (by omega)]
    simp only
    by_cases e : (tmin + tmax) / 2 = tmin
    · have e1 : tmax = tmin + 1 := by omega
      rw [if_pos e, h3, if_pos rfl]
      refine ⟨by simpa using h1, by rw [← e1]; exact h3, h4, ?_⟩
      simp only
      by_cases z : tmin = 0
      · rw [if_pos z, if_pos z]; omega
      · rw [if_neg z, if_neg z]
    · rw [if_neg e]
      rw [Nat.pow_succ] at h2
      by_cases b : bad ((tmin + tmax) / 2) = true
      · rw [if_pos b]
        obtain ⟨a1, a2, a3, a4⟩ := ih tmin ((tmin + tmax) / 2) ((tmin + tmax) / 2) (by omega) (by omega) b h4
        exact ⟨by omega, a2, a3, a4⟩
      · rw [if_neg b]
        exact ih _ _ _ (by omega) (by omega) h3 (fun _ => by simpa using b)

/-- The fraction used for the motion: it is valid if it is not 0, the next larger one is not valid, and when nothing is possible the
fraction reported is 1, which is not valid. -/
theorem C93_fraction (bad : Nat → Bool) {smax : Nat} (h0 : 1 ≤ smax) (h1 : smax ≤ SMAX) :
    (dik bad smax).1 ≤ smax ∧ ((dik bad smax).1 ≠ 0 → bad (dik bad smax).1 = false) ∧
      ((dik bad smax).1 < smax → bad ((dik bad smax).1 + 1) = true) ∧ (dik bad smax).2 = if (dik bad smax).1 = 0 then 1 else 0 := by
  unfold dik
  by_cases b : bad smax = true
  · rw [if_pos b]
    obtain ⟨a1, a2, a3, a4⟩ := dikLoop_spec bad 199 0 smax 0 (by omega)
      (by
        have : smax < 2 ^ 15 := by unfold SMAX at h1; omega
        have : (2 : Nat) ^ 15 ≤ 2 ^ 199 := Nat.pow_le_pow_right (by decide) (by decide)
        omega) b (by simp)
    exact ⟨a1.le, a3, fun _ => a2, a4⟩
  · rw [if_neg b]
    refine ⟨le_refl _, fun _ => by simpa using b, fun h => absurd h (lt_irrefl _), ?_⟩
    simp only
    rw [if_neg (by omega)]

/-- If smaller fractions of a valid one are valid, the fraction is the largest valid one. -/
theorem C93_largest (bad : Nat → Bool) {smax : Nat} (h0 : 1 ≤ smax) (h1 : smax ≤ SMAX) (hm : ∀ a b, 1 ≤ a → a ≤ b → bad a = true → bad b = true)
    {t : Nat} (ht : 1 ≤ t) (hs : t ≤ smax) : bad t = false ↔ t ≤ (dik bad smax).1 := by
  obtain ⟨a1, a2, a3, _⟩ := C93_fraction bad h0 h1
  constructor
  · intro h
    by_contra c
    have := hm _ t (by omega) (by omega) (a3 (by omega))
    rw [h] at this
    cases this
  · intro h
    by_contra c
    have := hm t _ ht h (by simpa using c)
    rw [a2 (by omega)] at this
    cases this

/-- Otherwise it need not be the largest one, though the documentation of `MMG5_dikmov` says so. -/
theorem C93_largest_observed : ∃ bad : Nat → Bool, (dik bad SMAX).1 < 16383 ∧ bad 32766 = false :=
  ⟨fun t => decide (16383 ≤ t ∧ t ≤ 20000 ∨ t = 32767), by decide +kernel, by decide⟩

example : (dik (fun t => decide (12345 < t)) SMAX) = (12345, 0) := by decide +kernel
example : (dik (fun t => decide (0 < t)) SMAX) = (0, 1) := by decide +kernel

/-! ### The motion -/

section
variable {K V : Type} [Field K] [LinearOrder K] [IsStrictOrderedRing K] [AddCommGroup V] [Module K V]

/-- Used vertex. -/
def St.live (s : St V) (x : Nat) : Prop := 1 ≤ x ∧ x ≤ s.np ∧ s.vok x = true

/-- The vertices of used elements are used. -/
def St.Wf (s : St V) : Prop := ∀ k, 1 ≤ k → k ≤ s.ne → s.eok k = true → ∀ x ∈ s.vs k, s.live x

/-- All used elements have at least the quality of the threshold. -/
def Valid (P : Par K V) (s : St V) : Prop := ∀ k, 1 ≤ k → k ≤ s.ne → s.eok k = true → P.eps ≤ P.qual ((s.vs k).map s.c)

omit [IsStrictOrderedRing K] in
theorem mem_invalid {P : Par K V} {s : St V} {t k : Nat} :
    k ∈ invalid P s t ↔ (1 ≤ k ∧ k ≤ s.ne ∧ s.eok k = true) ∧ P.qual (at' (frac K t) s k) < P.eps := by
  unfold invalid
  simp only [List.mem_filter, List.mem_range'_1, Bool.and_eq_true, decide_eq_true_eq]
  constructor
  · rintro ⟨⟨a, b⟩, c, d⟩; exact ⟨⟨a, by omega, c⟩, d⟩
  · rintro ⟨⟨a, b, c⟩, d⟩; exact ⟨⟨a, by omega⟩, c, d⟩

omit [IsStrictOrderedRing K] in
theorem chk_false {P : Par K V} {s : St V} {t : Nat} (h : chk P s t = false) {k : Nat} (h1 : 1 ≤ k) (h2 : k ≤ s.ne) (h3 : s.eok k = true) :
    P.eps ≤ P.qual (at' (frac K t) s k) := by
  unfold chk at h
  by_contra c
  have : k ∈ invalid P s t := mem_invalid.2 ⟨⟨h1, h2, h3⟩, lt_of_not_ge c⟩
  have e : invalid P s t = [] := by simpa using h
  rw [e] at this
  cases this

omit [IsStrictOrderedRing K] in
theorem disp_valid {P : Par K V} {s : St V} {t : Nat} (hw : s.Wf) (h : chk P s t = false) (i : Nat) : Valid P (disp P s t i) := by
  intro k h1 h2 h3
  have := chk_false h h1 h2 h3
  have e : ((disp P s t i).vs k).map (disp P s t i).c = at' (frac K t) s k := by
    unfold at'
    apply List.map_congr_left
    intro x hx
    have := hw k h1 h2 h3 x hx
    show (if 1 ≤ x ∧ x ≤ s.np ∧ s.vok x = true then _ else _) = _
    exact if_pos this
  rw [e]
  exact this

/-- What the extension of the displacement and the local remeshing may do: both keep position and displacement of the vertices where
the displacement is given, and that they are used. -/
structure Ext (D : Nat → Prop) (ext : St V → Option (St V)) : Prop where
  c : ∀ s s', ext s = some s' → s'.c = s.c
  v : ∀ s s', ext s = some s' → ∀ k, D k → s'.v k = s.v k
  np : ∀ s s', ext s = some s' → s'.np = s.np
  ne : ∀ s s', ext s = some s' → s'.ne = s.ne
  vok : ∀ s s', ext s = some s' → s'.vok = s.vok
  eok : ∀ s s', ext s = some s' → s'.eok = s.eok
  vs : ∀ s s', ext s = some s' → s'.vs = s.vs

structure Rem (P : Par K V) (D : Nat → Prop) (rem : Nat → St V → Option (St V)) : Prop where
  wf : ∀ i s s', rem i s = some s' → s.Wf → s'.Wf
  valid : ∀ i s s', rem i s = some s' → s.Wf → Valid P s → Valid P s'
  live : ∀ i s s', rem i s = some s' → ∀ k, D k → s.live k → s'.live k
  c : ∀ i s s', rem i s = some s' → ∀ k, D k → s'.c k = s.c k
  v : ∀ i s s', rem i s = some s' → ∀ k, D k → s'.v k = s.v k

/-- Where the vertices with given displacement are. -/
structure Inv (D : Nat → Prop) (c0 v0 : Nat → V) (r : Run K V) : Prop where
  live : ∀ k, D k → r.s.live k
  c : ∀ k, D k → r.s.c k = c0 k + r.tau • v0 k
  v : ∀ k, D k → r.s.v k = (1 - r.tau) • v0 k
  wf : r.s.Wf
  nn : 0 ≤ r.tau
  le : r.tau ≤ 1

theorem frac_pos {t : Nat} (h : t ≠ 0) : frac K 1 ≤ frac K t ∧ 0 < frac K 1 := by
  unfold frac SMAX
  have h1 : (0 : K) < ((0x7fff : Nat) : K) := by norm_num
  refine ⟨?_, by positivity⟩
  apply div_le_div_of_nonneg_right _ h1.le
  exact_mod_cast Nat.one_le_iff_ne_zero.2 h

theorem frac_le {t : Nat} (h : t ≤ SMAX) : frac K t ≤ 1 := by
  unfold frac
  have h1 : (0 : K) < (SMAX : K) := by unfold SMAX; norm_num
  rw [div_le_one h1]
  exact_mod_cast h

theorem frac_max : frac K SMAX = 1 := by
  unfold frac
  exact div_self (by unfold SMAX; norm_num)

/-- One step. -/
theorem step_inv {P : Par K V} {D : Nat → Prop} {rem : Nat → St V → Option (St V)} (hR : Rem P D rem) {c0 v0 : Nat → V} {r : Run K V}
    (hi : Inv D c0 v0 r) {i : Nat} {s : St V} (h0 : (dik (chk P r.s) SMAX).1 ≠ 0)
    (h : rem i (disp P r.s (dik (chk P r.s) SMAX).1 i) = some s) (l : Nat) :
    Inv D c0 v0 (⟨s, r.tau + frac K (dik (chk P r.s) SMAX).1 * (1 - r.tau), (dik (chk P r.s) SMAX).1, l⟩ : Run K V) ∧ Valid P s ∧
      frac K 1 ≤ r.tau + frac K (dik (chk P r.s) SMAX).1 * (1 - r.tau) ∧
      ((dik (chk P r.s) SMAX).1 = SMAX → r.tau + frac K (dik (chk P r.s) SMAX).1 * (1 - r.tau) = 1) := by
  obtain ⟨a1, a2, _, _⟩ := C93_fraction (chk P r.s) (smax := SMAX) (by decide) (le_refl _)
  generalize (dik (chk P r.s) SMAX).1 = t at *
  have hf := frac_le (K := K) a1
  obtain ⟨hf1, hf0⟩ := frac_pos (K := K) h0
  have hwd : (disp P r.s t i).Wf := hi.wf
  have hc : ∀ k, D k → (disp P r.s t i).c k = r.s.c k + frac K t • r.s.v k := by
    intro k hk
    show (if 1 ≤ k ∧ k ≤ r.s.np ∧ r.s.vok k = true then _ else _) = _
    exact if_pos (hi.live k hk)
  have hv : ∀ k, D k → (disp P r.s t i).v k = (1 - frac K t) • r.s.v k := by
    intro k hk
    show (if 1 ≤ k ∧ k ≤ r.s.np ∧ r.s.vok k = true then _ else _) = _
    exact if_pos (hi.live k hk)
  refine ⟨⟨fun k hk => hR.live _ _ _ h k hk (hi.live k hk), ?_, ?_, hR.wf _ _ _ h hwd, ?_, ?_⟩, hR.valid _ _ _ h hwd (disp_valid hi.wf (a2 h0) i), ?_, ?_⟩
  · intro k hk
    rw [hR.c _ _ _ h k hk, hc k hk, hi.c k hk, hi.v k hk]
    simp only
    module
  · intro k hk
    rw [hR.v _ _ _ h k hk, hv k hk, hi.v k hk]
    simp only
    module
  · have := mul_nonneg (hf0.le.trans hf1) (sub_nonneg.2 hi.le)
    have := hi.nn
    simp only
    linarith
  · have := mul_nonneg (sub_nonneg.2 hf) (sub_nonneg.2 hi.le)
    simp only
    linarith
  · have h1 := mul_nonneg hi.nn (sub_nonneg.2 hf)
    linarith
  · rintro rfl
    rw [frac_max]
    ring

/-- The mesh after at least one step. -/
structure Good (P : Par K V) (D : Nat → Prop) (c0 v0 : Nat → V) (r : Run K V) : Prop where
  inv : Inv D c0 v0 r
  valid : Valid P r.s
  pos : frac K 1 ≤ r.tau
  full : r.t = SMAX → r.tau = 1

theorem dc_spec {P : Par K V} {D : Nat → Prop} {rem : Nat → St V → Option (St V)} (hR : Rem P D rem) {c0 v0 : Nat → V} :
    ∀ (fuel itdc : Nat) (r r' : Run K V) (i' : Nat), Inv D c0 v0 r → dcLoop P rem fuel itdc r = some (r', i') →
    (fuel = 0 ∧ r' = r ∧ i' = itdc) ∨
      (r' = { r with t := 0, lastt := 1 } ∧ i' = itdc ∧ chk P r.s 1 = true) ∨ (Good P D c0 v0 r' ∧ (r'.t = 0 → i' ≠ 0)) := by
  intro fuel
  induction fuel with
  | zero =>
    intro itdc r r' i' _ h
    unfold dcLoop at h
    have e := Option.some.inj h
    exact .inl ⟨rfl, (Prod.mk.inj e).1.symm, (Prod.mk.inj e).2.symm⟩
  | succ fuel ih =>
    intro itdc r r' i' hi h
    unfold dcLoop at h
    simp only at h
    obtain ⟨a1, a2, a3, a4⟩ := C93_fraction (chk P r.s) (smax := SMAX) (by decide) (le_refl _)
    by_cases h0 : (dik (chk P r.s) SMAX).1 = 0
    · rw [if_pos h0] at h
      have e := Option.some.inj h
      refine .inr (.inl ⟨?_, (Prod.mk.inj e).2.symm, ?_⟩)
      · rw [← (Prod.mk.inj e).1, a4, if_pos h0, h0]
      · have := a3 (by rw [h0]; decide)
        rwa [h0] at this
    · rw [if_neg h0] at h
      cases hs : rem itdc (disp P r.s (dik (chk P r.s) SMAX).1 itdc) with
      | none => rw [hs] at h; cases h
      | some s =>
        rw [hs] at h
        simp only at h
        obtain ⟨b1, b2, b3, b4⟩ := step_inv hR hi h0 hs (dik (chk P r.s) SMAX).2
        by_cases hm : (dik (chk P r.s) SMAX).1 = SMAX
        · rw [if_pos hm] at h
          have e := Option.some.inj h
          refine .inr (.inr ⟨?_, ?_⟩)
          · rw [← (Prod.mk.inj e).1]
            exact ⟨b1, b2, b3, b4⟩
          · rw [← (Prod.mk.inj e).1]
            exact fun q => absurd q h0
        · rw [if_neg hm] at h
          rcases ih _ _ _ _ b1 h with ⟨_, e, ei⟩ | ⟨e, ei, _⟩ | q
          · refine .inr (.inr ⟨?_, ?_⟩)
            · rw [e]; exact ⟨b1, b2, b3, b4⟩
            · omega
          · refine .inr (.inr ⟨?_, ?_⟩)
            · rw [e]
              exact ⟨⟨b1.live, b1.c, b1.v, b1.wf, b1.nn, b1.le⟩, b2, b3, fun q => by simp [SMAX] at q⟩
            · omega
          · exact .inr (.inr q)

theorem ext_inv {D : Nat → Prop} {ext : St V → Option (St V)} (hE : Ext D ext) {c0 v0 : Nat → V} {r : Run K V} (hi : Inv D c0 v0 r)
    {s : St V} (h : ext r.s = some s) : Inv D c0 v0 { r with s := s } := by
  have hl : ∀ k, r.s.live k → s.live k := by
    intro k q
    unfold St.live
    rw [hE.np _ _ h, hE.vok _ _ h]
    exact q
  refine ⟨fun k hk => hl k (hi.live k hk), fun k hk => ?_, fun k hk => ?_, ?_, hi.nn, hi.le⟩
  · show s.c k = _
    rw [hE.c _ _ h]; exact hi.c k hk
  · show s.v k = _
    rw [hE.v _ _ h k hk]; exact hi.v k hk
  · intro k h1 h2 h3 x hx
    rw [show ({ r with s := s } : Run K V).s = s from rfl] at h2 h3 hx
    rw [hE.ne _ _ h] at h2
    rw [hE.eok _ _ h] at h3
    rw [hE.vs _ _ h] at hx
    exact hl x (hi.wf k h1 h2 h3 x hx)

theorem mn_good {P : Par K V} {D : Nat → Prop} {rem : Nat → St V → Option (St V)} (hR : Rem P D rem) {ext : St V → Option (St V)}
    (hE : Ext D ext) {c0 v0 : Nat → V} : ∀ (fuel : Nat) (r r' : Run K V), Good P D c0 v0 r → mnLoop P rem ext fuel r = some r' →
    Good P D c0 v0 r' := by
  intro fuel
  induction fuel with
  | zero => intro r r' hg h; rw [← Option.some.inj h]; exact hg
  | succ fuel ih =>
    intro r r' hg h
    unfold mnLoop at h
    cases hx : ext r.s with
    | none => rw [hx] at h; cases h
    | some s =>
      rw [hx] at h
      simp only at h
      have hi := ext_inv hE hg.inv hx
      have hval : Valid P s := by
        intro k h1 h2 h3
        rw [hE.ne _ _ hx] at h2
        rw [hE.eok _ _ hx] at h3
        rw [hE.vs _ _ hx, hE.c _ _ hx]
        exact hg.valid k h1 h2 h3
      cases hd : dcLoop P rem 100 0 { r with s := s } with
      | none => rw [hd] at h; cases h
      | some q =>
        obtain ⟨q, i⟩ := q
        rw [hd] at h
        simp only at h
        have hq : Good P D c0 v0 q := by
          rcases dc_spec hR _ _ _ _ _ hi hd with ⟨a, _, _⟩ | ⟨e, _, _⟩ | ⟨a, _⟩
          · omega
          · rw [e]
            exact ⟨⟨hi.live, hi.c, hi.v, hi.wf, hi.nn, hi.le⟩, hval, hg.pos, fun q => by simp [SMAX] at q⟩
          · exact a
        by_cases c : q.t = SMAX ∨ (q.t = 0 ∧ i = 0)
        · rw [if_pos c] at h
          rw [← Option.some.inj h]
          exact hq
        · rw [if_neg c] at h
          exact ih _ _ hq h

theorem mn_first {P : Par K V} {D : Nat → Prop} {rem : Nat → St V → Option (St V)} (hR : Rem P D rem) {ext : St V → Option (St V)}
    (hE : Ext D ext) {c0 v0 : Nat → V} {fuel : Nat} {r r' : Run K V} (hi : Inv D c0 v0 r) (h : mnLoop P rem ext (fuel + 1) r = some r') :
    Good P D c0 v0 r' ∨ (∃ s, ext r.s = some s ∧ r'.s = s ∧ r'.tau = r.tau ∧ r'.lastt = 1 ∧ chk P s 1 = true) := by
  unfold mnLoop at h
  cases hx : ext r.s with
  | none => rw [hx] at h; cases h
  | some s =>
    rw [hx] at h
    simp only at h
    have hi' := ext_inv hE hi hx
    cases hd : dcLoop P rem 100 0 { r with s := s } with
    | none => rw [hd] at h; cases h
    | some q =>
      obtain ⟨q, i⟩ := q
      rw [hd] at h
      simp only at h
      rcases dc_spec hR _ _ _ _ _ hi' hd with ⟨a, _, _⟩ | ⟨e, ei, ec⟩ | ⟨a, _⟩
      · omega
      · rw [if_pos (.inr ⟨by rw [e], ei⟩)] at h
        rw [← Option.some.inj h, e]
        exact .inr ⟨s, rfl, rfl, rfl, rfl, ec⟩
      · by_cases c : q.t = SMAX ∨ (q.t = 0 ∧ i = 0)
        · rw [if_pos c] at h
          rw [← Option.some.inj h]
          exact .inl a
        · rw [if_neg c] at h
          exact .inl (mn_good hR hE _ _ _ a h)

/-- The state with which the loops begin. -/
theorem start_inv {D : Nat → Prop} {s : St V} (hw : s.Wf) (hD : ∀ k, D k → s.live k) (m : Nat → Nat) :
    Inv D s.c s.v (⟨{ s with mark := m }, 0, 0, 0⟩ : Run K V) := by
  refine ⟨hD, fun k _ => ?_, fun k _ => ?_, hw, le_refl _, zero_le_one⟩
  · simp
  · simp

/-- The motion.  Answer 1 (with the array of invalid elements allocated): a part `tau` of the displacement, positive and at most 1, is
done; every vertex where the displacement was given has moved by exactly `tau` times it; all elements have the required quality; the
whole displacement is done when the last fraction is the whole.  Negative answer: no vertex has moved, the list is not empty and has
exactly the elements that are not valid after the smallest fraction of the (extended) displacement. -/
theorem C93_motion {P : Par K V} {D : Nat → Prop} {rem : Nat → St V → Option (St V)} (hR : Rem P D rem) {ext : St V → Option (St V)}
    (hE : Ext D ext) (ht : 0 < P.tiny ∧ P.tiny ≤ frac K 1) {s : St V} (hw : s.Wf) (hD : ∀ k, D k → s.live k) :
    (∀ r, motion P rem ext true s = .moved r → 0 < r.tau ∧ r.tau ≤ 1 ∧ Valid P r.s ∧ (r.t = SMAX → r.tau = 1) ∧
      ∀ k, D k → r.s.live k ∧ r.s.c k = s.c k + r.tau • s.v k ∧ r.s.v k = (1 - r.tau) • s.v k) ∧
    (∀ r l, motion P rem ext true s = .stuck r l → r.s.c = s.c ∧ r.s.vs = s.vs ∧ (∀ k, D k → r.s.v k = s.v k) ∧ l ≠ [] ∧
      ∀ k, k ∈ l ↔ (1 ≤ k ∧ k ≤ s.ne ∧ s.eok k = true) ∧ P.qual ((s.vs k).map fun x => s.c x + frac K 1 • r.s.v x) < P.eps) := by
  unfold motion
  have hst := start_inv (K := K) hw hD (fun k => if 1 ≤ k ∧ k ≤ s.ne then 0 else s.mark k)
  cases hm : mnLoop P rem ext 10 ⟨{ s with mark := fun k => if 1 ≤ k ∧ k ≤ s.ne then 0 else s.mark k }, 0, 0, 0⟩ with
  | none => exact ⟨fun r h => (by cases h), fun r l h => (by cases h)⟩
  | some q =>
    simp only [Bool.not_true, Bool.false_eq_true, if_false]
    rcases mn_first hR hE hst hm with g | ⟨s1, e1, e2, e3, e4, e5⟩
    · have hp := (frac_pos (K := K) (t := 1) (by decide)).2
      have hnt : ¬ q.tau < P.tiny := not_lt.2 (ht.2.trans g.pos)
      rw [if_neg hnt]
      refine ⟨?_, fun r l h => (by cases h)⟩
      intro r h
      have e : q = r := by injection h
      rw [← e]
      exact ⟨hp.trans_le g.pos, g.inv.le, g.valid, g.full, fun k hk => ⟨g.inv.live k hk, g.inv.c k hk, g.inv.v k hk⟩⟩
    · rw [if_pos (by rw [e3]; exact ht.1)]
      have hne : (invalid P q.s q.lastt) ≠ [] := by
        rw [e2, e4]
        unfold chk at e5
        simpa using e5
      have hlen : ¬ (invalid P q.s q.lastt).length = 0 := fun q => hne (List.length_eq_zero_iff.1 q)
      by_cases c : q.s.np < (invalid P q.s q.lastt).length
      · rw [if_pos c]
        exact ⟨fun r h => (by cases h), fun r l h => (by cases h)⟩
      · rw [if_neg c, if_neg hlen]
        refine ⟨fun r h => (by cases h), ?_⟩
        intro r l h
        have er : q = r := by injection h
        have el : invalid P q.s q.lastt = l := by injection h
        have hc1 := hE.c _ _ e1
        have hv1 := hE.vs _ _ e1
        rw [← er, ← el, e2, e4]
        refine ⟨hc1, hv1, fun k hk => hE.v _ _ e1 k hk, by rw [← e2, ← e4]; exact hne, ?_⟩
        intro k
        rw [mem_invalid]
        unfold at'
        rw [hE.vs _ _ e1, hE.c _ _ e1, hE.ne _ _ e1, hE.eok _ _ e1]

/-- A write outside of the array happens only when nothing can be moved, and then exactly if there are more invalid elements than
vertices. -/
theorem C93_array {P : Par K V} {D : Nat → Prop} {rem : Nat → St V → Option (St V)} (hR : Rem P D rem) {ext : St V → Option (St V)}
    (hE : Ext D ext) (ht : 0 < P.tiny ∧ P.tiny ≤ frac K 1) {s : St V} (hw : s.Wf) (hD : ∀ k, D k → s.live k)
    (h : motion P rem ext true s = .ub) : ∃ s', s'.np < (invalid P s' 1).length ∧ s'.c = s.c ∧ s'.vs = s.vs ∧ s'.np = s.np := by
  unfold motion at h
  have hst := start_inv (K := K) hw hD (fun k => if 1 ≤ k ∧ k ≤ s.ne then 0 else s.mark k)
  cases hm : mnLoop P rem ext 10 ⟨{ s with mark := fun k => if 1 ≤ k ∧ k ≤ s.ne then 0 else s.mark k }, 0, 0, 0⟩ with
  | none => rw [hm] at h; cases h
  | some q =>
    rw [hm] at h
    simp only [Bool.not_true, Bool.false_eq_true, if_false] at h
    rcases mn_first hR hE hst hm with g | ⟨s1, e1, e2, e3, e4, e5⟩
    · rw [if_neg (not_lt.2 (ht.2.trans g.pos))] at h
      cases h
    · rw [if_pos (by rw [e3]; exact ht.1)] at h
      by_cases c : q.s.np < (invalid P q.s q.lastt).length
      · have hc1 := hE.c _ _ e1
        have hv1 := hE.vs _ _ e1
        have hn1 := hE.np _ _ e1
        exact ⟨s1, by rw [e2, e4] at c; exact c, hc1, hv1, hn1⟩
      · rw [if_neg c] at h
        split at h <;> cases h

/-- The vertex that is put at the middle of an edge stays at the middle whatever fractions of the displacement are done. -/
theorem C93_middle {P : Par K V} {s : St V} {p a b : Nat} (ha : s.live a) (hb : s.live b) (hp : 1 ≤ p ∧ p ≤ s.np) (hab : a ≠ p ∧ b ≠ p)
    (ts : List (Nat × Nat)) :
    (ts.foldl (fun s t => disp P s t.1 t.2) (addMid (K := K) s p a b)).c p =
      (1 / 2 : K) • ((ts.foldl (fun s t => disp P s t.1 t.2) (addMid (K := K) s p a b)).c a +
        (ts.foldl (fun s t => disp P s t.1 t.2) (addMid (K := K) s p a b)).c b) := by
  suffices H : ∀ (ts : List (Nat × Nat)) (s : St V), s.live a → s.live b → s.live p → s.c p = (1 / 2 : K) • (s.c a + s.c b) →
      s.v p = (1 / 2 : K) • (s.v a + s.v b) → (ts.foldl (fun s t => disp P s t.1 t.2) s).c p =
      (1 / 2 : K) • ((ts.foldl (fun s t => disp P s t.1 t.2) s).c a + (ts.foldl (fun s t => disp P s t.1 t.2) s).c b) by
    apply H
    · refine ⟨ha.1, ha.2.1, ?_⟩
      show (if a = p then true else s.vok a) = true
      rw [if_neg hab.1]; exact ha.2.2
    · refine ⟨hb.1, hb.2.1, ?_⟩
      show (if b = p then true else s.vok b) = true
      rw [if_neg hab.2]; exact hb.2.2
    · exact ⟨hp.1, hp.2, if_pos rfl⟩
    · show (if p = p then _ else _) = (1 / 2 : K) • ((if a = p then _ else s.c a) + if b = p then _ else s.c b)
      rw [if_pos rfl, if_neg hab.1, if_neg hab.2]
    · show (if p = p then _ else _) = (1 / 2 : K) • ((if a = p then _ else s.v a) + if b = p then _ else s.v b)
      rw [if_pos rfl, if_neg hab.1, if_neg hab.2, show (1 - 1 / 2 : K) = 1 / 2 by norm_num, smul_add]
  intro ts
  induction ts with
  | nil => intro s _ _ _ h _; exact h
  | cons t ts ih =>
    intro s h1 h2 h3 h4 h5
    rw [List.foldl_cons]
    have hc : ∀ x, s.live x → (disp P s t.1 t.2).c x = s.c x + frac K t.1 • s.v x := fun x hx => if_pos hx
    have hv : ∀ x, s.live x → (disp P s t.1 t.2).v x = (1 - frac K t.1) • s.v x := fun x hx => if_pos hx
    apply ih (disp P s t.1 t.2) h1 h2 h3
    · rw [hc a h1, hc b h2, hc p h3, h4, h5]; module
    · rw [hv a h1, hv b h2, hv p h3, h5]; module

/-- The elements that are remeshed are those marked by `itdc`; since all marks are 0 at the beginning and the first pass has number 0, all
elements are taken as distorted in it. -/
theorem C93_marks_observed {P : Par K V} {s : St V} {t : Nat} (h : ∀ k, s.mark k = 0) (k : Nat) : (disp P s t 0).mark k = 0 := by
  show (if _ then 0 else s.mark k) = 0
  rw [h k, ite_self]

/-- When the array cannot be allocated the answer is 1 though nothing has moved. -/
theorem C93_noroom_observed {P : Par K V} {rem : Nat → St V → Option (St V)} {ext : St V → Option (St V)} {s : St V} {r : Run K V}
    {l : List Nat} (h : motion P rem ext true s = .stuck r l) : motion P rem ext false s = .moved r := by
  unfold motion at h ⊢
  cases hm : mnLoop P rem ext 10 ⟨{ s with mark := fun k => if 1 ≤ k ∧ k ≤ s.ne then 0 else s.mark k }, 0, 0, 0⟩ with
  | none => rw [hm] at h; cases h
  | some q =>
    rw [hm] at h
    simp only [Bool.not_true, Bool.not_false, Bool.false_eq_true, if_false, if_true] at h ⊢
    by_cases c : q.tau < P.tiny
    · rw [if_pos c] at h ⊢
      by_cases c1 : q.s.np < (invalid P q.s q.lastt).length
      · rw [if_pos c1] at h; cases h
      · rw [if_neg c1] at h
        by_cases c2 : (invalid P q.s q.lastt).length = 0
        · rw [if_pos c2] at h; cases h
        · rw [if_neg c2] at h
          have er : q = r := by injection h
          rw [er]
    · rw [if_neg c] at h; cases h

end

/-! ### In three dimensions: positive volumes -/

open Mmg.Qual (calIso vol6 EPSOK EPSD2) in
/-- The quality of the code for tetrahedra, on lists of positions. -/
noncomputable def qual3 : List (Fin 3 → ℝ) → ℝ
  | [a, b, c, d] => calIso ⟨a 0, a 1, a 2⟩ ⟨b 0, b 1, b 2⟩ ⟨c 0, c 1, c 2⟩ ⟨d 0, d 1, d 2⟩
  | _ => 0

open Mmg.Qual (calIso vol6 EPSOK EPSD2) in
/-- So after an accepted motion every tetrahedron has a positive volume. -/
theorem C93_volume {P : Par ℝ (Fin 3 → ℝ)} (hq : P.qual = qual3) (he : P.eps = EPSOK) {s : St (Fin 3 → ℝ)} (hv : Valid P s)
    {k a b c d : Nat} (h1 : 1 ≤ k) (h2 : k ≤ s.ne) (h3 : s.eok k = true) (h4 : s.vs k = [a, b, c, d]) :
    0 < vol6 ⟨s.c a 0, s.c a 1, s.c a 2⟩ ⟨s.c b 0, s.c b 1, s.c b 2⟩ ⟨s.c c 0, s.c c 1, s.c c 2⟩ ⟨s.c d 0, s.c d 1, s.c d 2⟩ := by
  have h := hv k h1 h2 h3
  rw [hq, he, h4] at h
  simp only [List.map_cons, List.map_nil, qual3] at h
  by_contra hn
  have hz := (Mmg.Qual.C67_iso_zero _ _ _ _).2 ((not_lt.1 hn).trans_lt Mmg.Qual.eps_pos)
  rw [hz] at h
  have : (0 : ℝ) < EPSOK := by unfold EPSOK; positivity
  linarith

/-! ### Concrete cases -/

/-- Six times the volume, as quality. -/
def vq : List (ℚ × ℚ × ℚ) → ℚ
  | [a, b, c, d] =>
    (b.1 - a.1) * ((c.2.1 - a.2.1) * (d.2.2 - a.2.2) - (c.2.2 - a.2.2) * (d.2.1 - a.2.1)) +
    (b.2.1 - a.2.1) * ((c.2.2 - a.2.2) * (d.1 - a.1) - (c.1 - a.1) * (d.2.2 - a.2.2)) +
    (b.2.2 - a.2.2) * ((c.1 - a.1) * (d.2.1 - a.2.1) - (c.2.1 - a.2.1) * (d.1 - a.1))
  | _ => 0

def pq : Par ℚ (ℚ × ℚ × ℚ) := ⟨vq, 1 / 10 ^ 15, 1 / 10, 1 / 10 ^ 200⟩

/-- Seven points on a curve and the ten tetrahedra `i, i+1, j, j+1`. -/
def tets : List (List Nat) :=
  [[1, 2, 3, 4], [1, 2, 4, 5], [1, 2, 5, 6], [1, 2, 6, 7], [2, 3, 4, 5], [2, 3, 5, 6], [2, 3, 6, 7], [3, 4, 5, 6], [3, 4, 6, 7], [4, 5, 6, 7]]

def curve (v : Nat → ℚ × ℚ × ℚ) : St (ℚ × ℚ × ℚ) :=
  ⟨7, 10, fun _ => true, fun _ => true, fun k => tets.getD (k - 1) [], fun x => ((x : ℚ), (x : ℚ) ^ 2, (x : ℚ) ^ 3), v, fun _ => 0⟩

/-- A tag for the answer. -/
def Res.tag {K V : Type} : Res K V → Nat
  | .failed => 0
  | .moved _ => 1
  | .stuck _ _ => 2
  | .ub => 3

/-- The array for the invalid elements has as many places as there are vertices: with this displacement all ten tetrahedra are invalid,
and there are seven vertices. -/
theorem C93_array_observed :
    (motion pq (fun _ s => some s) some true (curve fun x => (-32767 : ℚ) • ((x : ℚ), (x : ℚ) ^ 2, (x : ℚ) ^ 3))).tag = 3 := by
  decide +kernel

/-- A translation is done completely. -/
example : (motion pq (fun _ s => some s) some true (curve fun _ => (5, 0, 0))).tag = 1 := by decide +kernel

example : Rem pq (fun _ => True) (fun _ s => some s) := by
  refine ⟨?_, ?_, ?_, ?_, ?_⟩ <;> intro i s s' h <;> cases h
  · exact fun h => h
  · exact fun _ h => h
  · exact fun _ _ h => h
  · exact fun _ _ => rfl
  · exact fun _ _ => rfl

example : Ext (fun _ => True) (some : St (ℚ × ℚ × ℚ) → _) := by
  refine ⟨?_, ?_, ?_, ?_, ?_, ?_, ?_⟩ <;> intro s s' h <;> cases h
  · rfl
  · exact fun _ _ => rfl
  all_goals rfl

example : (curve fun _ => (5, 0, 0)).Wf := by
  intro k h1 h2 _ x hx
  have h2 : k ≤ 10 := h2
  have : k ∈ List.range' 1 10 := by rw [List.mem_range'_1]; omega
  have hall : ∀ k ∈ List.range' 1 10, ∀ x ∈ tets.getD (k - 1) [], 1 ≤ x ∧ x ≤ 7 ∧ true = true := by decide
  exact hall k this x hx

example : 0 < pq.tiny ∧ pq.tiny ≤ frac ℚ 1 := by unfold pq frac SMAX; norm_num

/-- Displacements that turn the last tetrahedron over: a part is done. -/
example : dik (chk pq (curve fun x => if x = 7 then (0, 0, -1000) else 0)) SMAX = (196, 0) := by decide +kernel

end Mmg.Lag
