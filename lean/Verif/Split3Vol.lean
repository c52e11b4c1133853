/-
  Helper lemmas on volumes: the volume of a child is affine in the position of each edge point, so
  that it is determined by its values when all the edge points are at ends of their edges.
-/
import Verif.Split3Runs
import Mathlib.Tactic.Ring
import Mathlib.Tactic.LinearCombination
import Mathlib.Tactic.IntervalCases
import Mathlib.Algebra.Order.Field.Basic
import Mathlib.Tactic.Linarith
import Mathlib.Tactic.Positivity
import Mathlib.Logic.Function.Basic

namespace Mmg.Split3

section
variable {K : Type} [Field K]

/-- Affine in the coordinate `e`. -/
def AffIn (F : (Nat → K) → K) (e : Nat) : Prop :=
  ∀ s x, F (Function.update s e x) =
    (1 - x) * F (Function.update s e 0) + x * F (Function.update s e 1)

theorem AffIn.split {F : (Nat → K) → K} {e : Nat} (h : AffIn F e) (s : Nat → K) :
    F s = (1 - s e) * F (Function.update s e 0) + s e * F (Function.update s e 1) := by
  have := h s (s e)
  rwa [Function.update_eq_self] at this

/-- The coordinates of `es` are at the ends chosen by `b`. -/
def AtEnds (es b : List Nat) (s' : Nat → K) : Prop := ∀ e ∈ es, s' e = if e ∈ b then 1 else 0

theorem subs_subset {α : Type} {l b : List α} (h : b ∈ subs l) : ∀ x ∈ b, x ∈ l := by
  induction l generalizing b with
  | nil => simp only [subs, List.mem_singleton] at h; subst h; simp
  | cons a l ih =>
    simp only [subs, List.mem_append, List.mem_map] at h
    rcases h with ⟨c, hc, rfl⟩ | h
    · intro x hx
      rcases List.mem_cons.1 hx with rfl | hx
      · exact List.mem_cons_self
      · exact List.mem_cons_of_mem _ (ih hc x hx)
    · exact fun x hx => List.mem_cons_of_mem _ (ih h x hx)

/-- A property of the values at the ends that is kept by affine combinations (`Q x u w`: from `u`
and `w`, at the coordinate `x`) holds everywhere. -/
theorem ends_cons {e : Nat} {es : List Nat} (hn : (e :: es).Nodup) {s : Nat → K} {x : K}
    {b : List Nat} {s' : Nat → K} (hb : b ∈ subs es) (h1 : AtEnds es b s')
    (h2 : ∀ e' ∉ es, s' e' = Function.update s e x e') (hx : x = 0 ∨ x = 1) :
    ∃ b' ∈ subs (e :: es), AtEnds (e :: es) b' s' ∧ (∀ e' ∉ e :: es, s' e' = s e') := by
  have he : e ∉ es := (List.nodup_cons.1 hn).1
  have hse : s' e = x := by rw [h2 e he, Function.update_self]
  have heb : e ∉ b := fun h => he (subs_subset hb e h)
  have hoff : ∀ e' ∉ e :: es, s' e' = s e' := by
    intro e' h'
    rw [List.mem_cons, not_or] at h'
    rw [h2 e' h'.2, Function.update_of_ne h'.1]
  rcases hx with rfl | rfl
  · refine ⟨b, by simp [subs, hb], ?_, hoff⟩
    intro e' h'
    rcases List.mem_cons.1 h' with rfl | h'
    · rw [hse, if_neg heb]
    · exact h1 e' h'
  · refine ⟨e :: b, by simp [subs, hb], ?_, hoff⟩
    intro e' h'
    rcases List.mem_cons.1 h' with rfl | h'
    · rw [hse, if_pos List.mem_cons_self]
    · have : e' ≠ e := fun hh => he (hh ▸ h')
      rw [h1 e' h']
      simp [this]

theorem const_of_ends {F : (Nat → K) → K} {c : K} (es : List Nat) (hn : es.Nodup)
    (ha : ∀ e ∈ es, AffIn F e) (s : Nat → K)
    (h : ∀ b ∈ subs es, ∀ s', AtEnds es b s' → (∀ e ∉ es, s' e = s e) → F s' = c) : F s = c := by
  induction es generalizing s with
  | nil => exact h [] (by simp [subs]) s (by simp [AtEnds]) (fun _ _ => rfl)
  | cons e es ih =>
    have step : ∀ x : K, x = 0 ∨ x = 1 → F (Function.update s e x) = c := by
      intro x hx
      refine ih (List.nodup_cons.1 hn).2 (fun e' h' => ha e' (List.mem_cons_of_mem _ h')) _ ?_
      intro b hb s' h1 h2
      obtain ⟨b', hb', h3, h4⟩ := ends_cons hn hb h1 h2 hx
      exact h b' hb' s' h3 h4
    rw [(ha e List.mem_cons_self).split s, step 0 (.inl rfl), step 1 (.inr rfl)]
    ring

/-! ### Volumes are affine -/

theorem vol_lerp0 (p q b c d : Pt K) (s : K) :
    vol (p.lerp q s) b c d = (1 - s) * vol p b c d + s * vol q b c d := by
  simp only [vol, Pt.lerp]; ring

theorem vol_lerp1 (p q a c d : Pt K) (s : K) :
    vol a (p.lerp q s) c d = (1 - s) * vol a p c d + s * vol a q c d := by
  simp only [vol, Pt.lerp]; ring

theorem vol_lerp2 (p q a b d : Pt K) (s : K) :
    vol a b (p.lerp q s) d = (1 - s) * vol a b p d + s * vol a b q d := by
  simp only [vol, Pt.lerp]; ring

theorem vol_lerp3 (p q a b c : Pt K) (s : K) :
    vol a b c (p.lerp q s) = (1 - s) * vol a b c p + s * vol a b c q := by
  simp only [vol, Pt.lerp]; ring

theorem lerp_zero (p q : Pt K) : p.lerp q 0 = p := by
  cases p; simp [Pt.lerp]

theorem lerp_one (p q : Pt K) : p.lerp q 1 = q := by
  cases q; simp [Pt.lerp]

/-- Location of a place. -/
def place (X : Nat → Pt K) (s : Nat → K) : Pos → Pt K
  | .corner i => X i
  | .mid e => (X (iare.getD e (0, 0)).1).lerp (X (iare.getD e (0, 0)).2) (s e)
  | .centre => X 0

def volAt (X : Nat → Pt K) (ps : List Pos) (s : Nat → K) : K :=
  vol (place X s (ps.getD 0 .centre)) (place X s (ps.getD 1 .centre))
    (place X s (ps.getD 2 .centre)) (place X s (ps.getD 3 .centre))

theorem place_of_ne (X : Nat → Pt K) (s : Nat → K) {e : Nat} {p : Pos} (h : p ≠ .mid e) (x : K) :
    place X (Function.update s e x) p = place X s p := by
  cases p with
  | mid e' =>
    have : e' ≠ e := fun hh => h (by rw [hh])
    simp only [place, Function.update_of_ne this]
  | _ => rfl

theorem place_mid (X : Nat → Pt K) (s : Nat → K) (e : Nat) (x : K) :
    place X (Function.update s e x) (.mid e) =
      (X (iare.getD e (0, 0)).1).lerp (X (iare.getD e (0, 0)).2) x := by
  simp only [place, Function.update_self]

theorem volAt_aff (X : Nat → Pt K) {ps : List Pos} (h4 : ps.length = 4) {e : Nat}
    (h : occ ps e ≤ 1) : AffIn (volAt X ps) e := by
  match ps, h4 with
  | [p0, p1, p2, p3], _ =>
    intro s x
    simp only [volAt, List.getD_cons_zero, List.getD_cons_succ]
    simp only [occ, List.count_cons, List.count_nil, beq_iff_eq] at h
    by_cases h0 : p0 = .mid e
    · have h1 : p1 ≠ .mid e := fun hh => by rw [if_pos h0, if_pos hh] at h; omega
      have h2 : p2 ≠ .mid e := fun hh => by rw [if_pos h0, if_pos hh] at h; omega
      have h3 : p3 ≠ .mid e := fun hh => by rw [if_pos h0, if_pos hh] at h; omega
      subst h0
      simp only [place_mid, place_of_ne X s h1, place_of_ne X s h2, place_of_ne X s h3, lerp_zero,
        lerp_one, vol_lerp0]
    by_cases h1 : p1 = .mid e
    · have h2 : p2 ≠ .mid e := fun hh => by rw [if_pos h1, if_pos hh] at h; omega
      have h3 : p3 ≠ .mid e := fun hh => by rw [if_pos h1, if_pos hh] at h; omega
      subst h1
      simp only [place_mid, place_of_ne X s h0, place_of_ne X s h2, place_of_ne X s h3, lerp_zero,
        lerp_one, vol_lerp1]
    by_cases h2 : p2 = .mid e
    · have h3 : p3 ≠ .mid e := fun hh => by rw [if_pos h2, if_pos hh] at h; omega
      subst h2
      simp only [place_mid, place_of_ne X s h0, place_of_ne X s h1, place_of_ne X s h3, lerp_zero,
        lerp_one, vol_lerp2]
    by_cases h3 : p3 = .mid e
    · subst h3
      simp only [place_mid, place_of_ne X s h0, place_of_ne X s h1, place_of_ne X s h2, lerp_zero,
        lerp_one, vol_lerp3]
    simp only [place_of_ne X s h0, place_of_ne X s h1, place_of_ne X s h2, place_of_ne X s h3]
    ring

theorem sum_aff {ι : Type} (l : List ι) (F : ι → (Nat → K) → K) {e : Nat}
    (h : ∀ i ∈ l, AffIn (F i) e) : AffIn (fun s => (l.map fun i => F i s).sum) e := by
  induction l with
  | nil => intro s x; simp
  | cons a l ih =>
    intro s x
    have h1 := h a List.mem_cons_self s x
    have h2 := ih (fun i hi => h i (List.mem_cons_of_mem _ hi)) s x
    simp only [List.map_cons, List.sum_cons] at h2 ⊢
    rw [h1, h2]; ring

/-- Volume of a quadruple of corners. -/
theorem vol_corners (X : Nat → Pt K) {a b c d : Nat} (ha : a < 4) (hb : b < 4) (hc : c < 4)
    (hd : d < 4) :
    vol (X a) (X b) (X c) (X d) = (sgn a b c d : K) * vol (X 0) (X 1) (X 2) (X 3) := by
  interval_cases a <;> interval_cases b <;> interval_cases c <;> interval_cases d <;>
    simp [sgn] <;> simp only [vol] <;> ring

/-- At the ends a place is a corner. -/
theorem place_ends (X : Nat → Pt K) {es b : List Nat} {s : Nat → K} (h : AtEnds es b s) {p : Pos}
    (hp : (∃ i < 4, p = .corner i) ∨ ∃ e < 6, e ∈ es ∧ p = .mid e) :
    place X s p = X (collapse b p) ∧ collapse b p < 4 := by
  rcases hp with ⟨i, hi, rfl⟩ | ⟨e, he, hes, rfl⟩
  · exact ⟨rfl, hi⟩
  · have hlt : (iare.getD e (0, 0)).1 < 4 ∧ (iare.getD e (0, 0)).2 < 4 := by
      interval_cases e <;> decide
    simp only [place, collapse, h e hes]
    split_ifs
    · exact ⟨lerp_one _ _, hlt.2⟩
    · exact ⟨lerp_zero _ _, hlt.1⟩

theorem volAt_ends (X : Nat → Pt K) {es b : List Nat} {s : Nat → K} (h : AtEnds es b s)
    {ps : List Pos} (h4 : ps.length = 4)
    (hp : ∀ p ∈ ps, (∃ i < 4, p = .corner i) ∨ ∃ e < 6, e ∈ es ∧ p = .mid e) :
    volAt X ps s = (sgnOf b ps : K) * vol (X 0) (X 1) (X 2) (X 3) := by
  match ps, h4 with
  | [p0, p1, p2, p3], _ =>
    have e0 := place_ends X h (hp p0 (by simp))
    have e1 := place_ends X h (hp p1 (by simp))
    have e2 := place_ends X h (hp p2 (by simp))
    have e3 := place_ends X h (hp p3 (by simp))
    simp only [volAt, sgnOf, List.getD_cons_zero, List.getD_cons_succ, e0.1, e1.1, e2.1, e3.1]
    exact vol_corners X e0.2 e1.2 e2.2 e3.2

end

section
variable {K : Type} [Field K] [LinearOrder K] [IsStrictOrderedRing K]

theorem nonneg_of_ends {F : (Nat → K) → K} (es : List Nat) (hn : es.Nodup)
    (ha : ∀ e ∈ es, AffIn F e) (s : Nat → K) (hs : ∀ e ∈ es, 0 ≤ s e ∧ s e ≤ 1)
    (h : ∀ b ∈ subs es, ∀ s', AtEnds es b s' → (∀ e ∉ es, s' e = s e) → 0 ≤ F s') : 0 ≤ F s := by
  induction es generalizing s with
  | nil => exact h [] (by simp [subs]) s (by simp [AtEnds]) (fun _ _ => rfl)
  | cons e es ih =>
    have he : e ∉ es := (List.nodup_cons.1 hn).1
    have step : ∀ x : K, x = 0 ∨ x = 1 → 0 ≤ F (Function.update s e x) := by
      intro x hx
      refine ih (List.nodup_cons.1 hn).2 (fun e' h' => ha e' (List.mem_cons_of_mem _ h')) _ ?_ ?_
      · intro e' h'
        rw [Function.update_of_ne (fun hh : e' = e => he (hh ▸ h'))]
        exact hs e' (List.mem_cons_of_mem _ h')
      intro b hb s' h1 h2
      obtain ⟨b', hb', h3, h4⟩ := ends_cons hn hb h1 h2 hx
      exact h b' hb' s' h3 h4
    rw [(ha e List.mem_cons_self).split s]
    have h0 := step 0 (.inl rfl)
    have h1 := step 1 (.inr rfl)
    have hse := hs e List.mem_cons_self
    have := mul_nonneg (sub_nonneg.2 hse.2) h0
    have := mul_nonneg hse.1 h1
    linarith

theorem pos_of_ends {F : (Nat → K) → K} (es : List Nat) (hn : es.Nodup)
    (ha : ∀ e ∈ es, AffIn F e) (s : Nat → K) (hs : ∀ e ∈ es, 0 < s e ∧ s e < 1)
    (h : ∀ b ∈ subs es, ∀ s', AtEnds es b s' → (∀ e ∉ es, s' e = s e) → 0 ≤ F s')
    (hp : ∃ b ∈ subs es, ∀ s', AtEnds es b s' → (∀ e ∉ es, s' e = s e) → 0 < F s') : 0 < F s := by
  induction es generalizing s with
  | nil =>
    obtain ⟨b, _, hb⟩ := hp
    exact hb s (by simp [AtEnds]) (fun _ _ => rfl)
  | cons e es ih =>
    have he : e ∉ es := (List.nodup_cons.1 hn).1
    have hse := hs e List.mem_cons_self
    have hup : ∀ x : K, ∀ e' ∈ es, Function.update s e x e' = s e' := fun x e' h' =>
      Function.update_of_ne (fun hh : e' = e => he (hh ▸ h')) _ _
    have ha' : ∀ e' ∈ es, AffIn F e' := fun e' h' => ha e' (List.mem_cons_of_mem _ h')
    have hends : ∀ x : K, x = 0 ∨ x = 1 → ∀ b ∈ subs es, ∀ s', AtEnds es b s' →
        (∀ e' ∉ es, s' e' = Function.update s e x e') → 0 ≤ F s' := by
      intro x hx b hb s' h1 h2
      obtain ⟨b', hb', h3, h4⟩ := ends_cons hn hb h1 h2 hx
      exact h b' hb' s' h3 h4
    have nn : ∀ x : K, x = 0 ∨ x = 1 → 0 ≤ F (Function.update s e x) := by
      intro x hx
      refine nonneg_of_ends es (List.nodup_cons.1 hn).2 ha' _ ?_ (hends x hx)
      intro e' h'
      rw [hup x e' h']
      have := hs e' (List.mem_cons_of_mem _ h')
      exact ⟨this.1.le, this.2.le⟩
    have pp : ∀ x : K, x = 0 ∨ x = 1 → (∃ b ∈ subs es, ∀ s', AtEnds es b s' →
        (∀ e' ∉ es, s' e' = Function.update s e x e') → 0 < F s') →
        0 < F (Function.update s e x) := by
      intro x hx hpx
      refine ih (List.nodup_cons.1 hn).2 ha' _ ?_ (hends x hx) hpx
      intro e' h'
      rw [hup x e' h']
      exact hs e' (List.mem_cons_of_mem _ h')
    rw [(ha e List.mem_cons_self).split s]
    obtain ⟨b, hb, hpos⟩ := hp
    have hoff : ∀ (x : K) (s' : Nat → K), (∀ e' ∉ es, s' e' = Function.update s e x e') →
        s' e = x ∧ ∀ e' ∉ e :: es, s' e' = s e' := by
      intro x s' h2
      refine ⟨by rw [h2 e he, Function.update_self], ?_⟩
      intro e' h'
      rw [List.mem_cons, not_or] at h'
      rw [h2 e' h'.2, Function.update_of_ne h'.1]
    simp only [subs, List.mem_append, List.mem_map] at hb
    rcases hb with ⟨c, hc, rfl⟩ | hb
    · have : 0 < F (Function.update s e 1) := by
        refine pp 1 (.inr rfl) ⟨c, hc, ?_⟩
        intro s' h1 h2
        obtain ⟨h3, h4⟩ := hoff 1 s' h2
        refine hpos s' ?_ h4
        intro e' h'
        rcases List.mem_cons.1 h' with rfl | h'
        · rw [h3, if_pos List.mem_cons_self]
        · have : e' ≠ e := fun hh => he (hh ▸ h')
          rw [h1 e' h']
          simp [this]
      have h0 := mul_nonneg (sub_nonneg.2 hse.2.le) (nn 0 (.inl rfl))
      have h1 := mul_pos hse.1 this
      linarith
    · have : 0 < F (Function.update s e 0) := by
        refine pp 0 (.inl rfl) ⟨b, hb, ?_⟩
        intro s' h1 h2
        obtain ⟨h3, h4⟩ := hoff 0 s' h2
        refine hpos s' ?_ h4
        intro e' h'
        rcases List.mem_cons.1 h' with rfl | h'
        · rw [h3, if_neg (fun hh => he (subs_subset hb _ hh))]
        · exact h1 e' h'
      have h0 := mul_pos (sub_pos.2 hse.2) this
      have h1 := mul_nonneg hse.1.le (nn 1 (.inr rfl))
      linarith

end

end Mmg.Split3
