/-
  The two loops of `MMG5_rmc` and `MMG3D_rmc` remove exactly the small components.
-/
import Verif.RmcLemmas

namespace Mmg.Rmc
open Mmg.Split3 Mmg.Ls3

variable {K : Type} [Field K] [LinearOrder K] {M : Mesh} {P : Par K}

/-- What one loop has to do: the values of the part that are in a component to be removed get the new value; the
others do not change. -/
structure Cleaned (M : Mesh) (P : Par K) (sol sol' : Nat → K) : Prop where
  gone : ∀ k p l, M.Elt k → M.Has k p → P.inside (sol p) = true → IsComp M P.inside sol k l →
    Removed M P sol l → sol' p = P.newv
  kept : ∀ k p l, M.Elt k → M.Has k p → P.inside (sol p) = true → IsComp M P.inside sol k l →
    ¬ Removed M P sol l → sol' p = sol p
  other : ∀ p, P.inside (sol p) = false → sol' p = sol p
  alone : ∀ p, (∀ k, M.Elt k → ¬ M.Has k p) → sol' p = sol p

theorem attached_iff (h : M.d = 3 ∨ M.d = 4) (sol : Nat → K) (l : List Nat) :
    attached M P sol l = true ↔ Attached M P sol l := by
  unfold attached Attached
  simp only [List.any_eq_true, List.mem_range, Bool.and_eq_true]
  constructor
  · rintro ⟨k, hk, i, hi, hb, j, hj, hs⟩
    obtain ⟨hj, hne⟩ := (mem_faces h hi j).1 hj
    exact ⟨k, hk, i, hi, hb, _, ⟨j, hj, hne, rfl⟩, hs⟩
  · rintro ⟨k, hk, i, hi, hb, p, ⟨j, hj, hne, rfl⟩, hs⟩
    exact ⟨k, hk, i, hi, hb, j, (mem_faces h hi j).2 ⟨hj, hne⟩, hs⟩

theorem wipe_aux (L : List Nat) : ∀ (sol : Nat → K) (p : Nat),
    L.foldl (fun sol p => if P.inside (sol p) then upd sol p P.newv else sol) sol p =
      if p ∈ L ∧ P.inside (sol p) = true then P.newv else sol p := by
  induction L with
  | nil => intro sol p; simp
  | cons q L ih =>
    intro sol p
    rw [List.foldl_cons, ih]
    by_cases hq : P.inside (sol q) = true
    · rw [if_pos hq]
      by_cases hp : p = q
      · subst hp
        simp [upd, hq]
      · simp [upd, hp]
    · rw [if_neg hq]
      by_cases hp : p = q
      · subst hp
        simp [hq]
      · simp [hp]

theorem wipe_eq (pile : List Nat) (sol : Nat → K) (p : Nat) (h : (∃ e ∈ pile, M.Has e p) ∧ P.inside (sol p) = true) :
    wipe M P pile sol p = P.newv := by
  unfold wipe
  rw [wipe_aux, if_pos]
  obtain ⟨⟨e, he, i, hi, rfl⟩, hs⟩ := h
  exact ⟨List.mem_flatMap.2 ⟨e, he, List.mem_map.2 ⟨i, List.mem_range.2 hi, rfl⟩⟩, hs⟩

theorem wipe_ne (pile : List Nat) (sol : Nat → K) (p : Nat) (h : ¬ ((∃ e ∈ pile, M.Has e p) ∧ P.inside (sol p) = true)) :
    wipe M P pile sol p = sol p := by
  unfold wipe
  rw [wipe_aux, if_neg]
  rintro ⟨hm, hs⟩
  obtain ⟨e, he, hm⟩ := List.mem_flatMap.1 hm
  obtain ⟨i, hi, rfl⟩ := List.mem_map.1 hm
  exact h ⟨⟨e, he, i, List.mem_range.1 hi, rfl⟩, hs⟩

/-- The values after the removal of one component. -/
def after (M : Mesh) (P : Par K) (pile : List Nat) (sol : Nat → K) : Nat → K :=
  let sol1 := if (pile.map (P.frac sol)).sum < P.small then wipe M P pile sol else sol
  if P.attach && !attached M P sol1 pile then wipe M P pile sol1 else sol1

theorem after_spec (h : M.d = 3 ∨ M.d = 4) (hn : P.inside P.newv = false) (pile : List Nat) (sol : Nat → K) (p : Nat) :
    ((∃ e ∈ pile, M.Has e p) ∧ P.inside (sol p) = true ∧ Removed M P sol pile → after M P pile sol p = P.newv) ∧
    (¬ ((∃ e ∈ pile, M.Has e p) ∧ P.inside (sol p) = true ∧ Removed M P sol pile) →
      after M P pile sol p = sol p) := by
  unfold after
  by_cases hv : (pile.map (P.frac sol)).sum < P.small
  · rw [if_pos hv]
    have hw : wipe M P pile (wipe M P pile sol) p = wipe M P pile sol p := by
      apply wipe_ne
      rintro ⟨he, hs⟩
      by_cases hi : P.inside (sol p) = true
      · rw [wipe_eq pile sol p ⟨he, hi⟩, hn] at hs
        cases hs
      · rw [wipe_ne pile sol p fun hh => hi hh.2] at hs
        exact hi hs
    have hw' : (if (P.attach && !attached M P (wipe M P pile sol) pile) = true
        then wipe M P pile (wipe M P pile sol) else wipe M P pile sol) p = wipe M P pile sol p := by
      split
      · exact hw
      · rfl
    simp only [hw']
    constructor
    · rintro ⟨he, hi, -⟩
      exact wipe_eq pile sol p ⟨he, hi⟩
    · intro hh
      exact wipe_ne pile sol p fun ⟨he, hi⟩ => hh ⟨he, hi, .inl hv⟩
  · rw [if_neg hv]
    by_cases ha : P.attach = true ∧ ¬ Attached M P sol pile
    · have : (P.attach && !attached M P sol pile) = true := by
        rw [Bool.and_eq_true, Bool.not_eq_true']
        exact ⟨ha.1, Bool.eq_false_iff.2 fun hh => ha.2 ((attached_iff h sol pile).1 hh)⟩
      rw [if_pos this]
      constructor
      · rintro ⟨he, hi, -⟩
        exact wipe_eq pile sol p ⟨he, hi⟩
      · intro hh
        exact wipe_ne pile sol p fun ⟨he, hi⟩ => hh ⟨he, hi, .inr ha⟩
    · have : ¬ (P.attach && !attached M P sol pile) = true := by
        rw [Bool.and_eq_true, Bool.not_eq_true']
        rintro ⟨h1, h2⟩
        refine ha ⟨h1, fun hh => ?_⟩
        rw [(attached_iff h sol pile).2 hh] at h2
        cases h2
      rw [if_neg this]
      constructor
      · rintro ⟨-, -, hr⟩
        rcases hr with hr | hr
        · exact absurd hr hv
        · exact absurd hr ha
      · intro _; rfl

/-- State of a loop: the marked elements are whole components, which have been treated. -/
structure Good (M : Mesh) (P : Par K) (sol0 : Nat → K) (s : (Nat → K) × (Nat → Bool)) : Prop where
  closed : ∀ a b, M.Elt a → s.2 a = true → Link M P.inside sol0 a b → s.2 b = true
  gone : ∀ e p l, M.Elt e → s.2 e = true → M.Has e p → P.inside (sol0 p) = true → IsComp M P.inside sol0 e l →
    Removed M P sol0 l → s.1 p = P.newv
  kept : ∀ e p l, M.Elt e → s.2 e = true → M.Has e p → P.inside (sol0 p) = true → IsComp M P.inside sol0 e l →
    ¬ Removed M P sol0 l → s.1 p = sol0 p
  other : ∀ p, P.inside (sol0 p) = false → s.1 p = sol0 p
  alone : ∀ p, (∀ e, M.Elt e → s.2 e = true → ¬ M.Has e p) → s.1 p = sol0 p
  vals : ∀ p, s.1 p = sol0 p ∨ s.1 p = P.newv

theorem Good.comp (h : M.Wf) {sol0 : Nat → K} {s : (Nat → K) × (Nat → Bool)} (g : Good M P sol0 s) {a b : Nat}
    (ha : M.Elt a) (hf : s.2 a = true) (hc : Comp M P.inside sol0 a b) : s.2 b = true := by
  induction hc with
  | refl => exact hf
  | tail h1 hl ih => exact g.closed _ _ (Comp.elt h ha h1) ih hl

theorem Good.agree (h : M.Wf) {sol0 : Nat → K} {s : (Nat → K) × (Nat → Bool)} (g : Good M P sol0 s) {e p : Nat}
    (he : M.Elt e) (hf : s.2 e = false) (hp : M.Has e p) : s.1 p = sol0 p := by
  by_cases hi : P.inside (sol0 p) = true
  · apply g.alone
    intro a ha haf hap
    have := g.comp h ha haf (comp_of_vertex h ha he hap hp hi)
    rw [hf] at this
    cases this
  · exact g.other p (Bool.eq_false_iff.2 hi)

theorem IsComp.of_mem (h : M.Wf) {inside : K → Bool} {sol : Nat → K} {k e : Nat} {l : List Nat} (hk : M.Elt k)
    (hl : IsComp M inside sol k l) (he : Comp M inside sol k e) : IsComp M inside sol e l := by
  refine ⟨hl.1, fun x => ?_⟩
  rw [hl.2 x]
  exact ⟨fun hx => (Comp.symm h hk he).trans hx, fun hx => Relation.ReflTransGen.trans he hx⟩

theorem IsComp.perm {inside : K → Bool} {sol : Nat → K} {k : Nat} {l l' : List Nat}
    (hl : IsComp M inside sol k l) (hl' : IsComp M inside sol k l') : l.Perm l' :=
  (List.perm_ext_iff_of_nodup hl.1 hl'.1).2 fun e => (hl.2 e).trans (hl'.2 e).symm

theorem attached_congr {sol sol' : Nat → K} {l l' : List Nat} (hm : ∀ e, e ∈ l → e ∈ l')
    (hv : ∀ e ∈ l, ∀ p, M.Has e p → sol p = sol' p) (ha : Attached M P sol l) : Attached M P sol' l' := by
  obtain ⟨k, hk, j, hj, hb, p, hp, hs⟩ := ha
  exact ⟨k, hm k hk, j, hj, hb, p, hp, by rw [← hv k hk p hp.has]; exact hs⟩

theorem removed_congr (hloc : Local M P.frac) {sol sol' : Nat → K} {l l' : List Nat} (hp : l.Perm l')
    (hv : ∀ e ∈ l, ∀ p, M.Has e p → sol p = sol' p) : Removed M P sol l ↔ Removed M P sol' l' := by
  unfold Removed
  have hs : (l.map (P.frac sol)).sum = (l'.map (P.frac sol')).sum := by
    rw [← (hp.map (P.frac sol')).sum_eq]
    congr 1
    exact List.map_congr_left fun e he => hloc e sol sol' (hv e he)
  have ha : Attached M P sol l ↔ Attached M P sol' l' :=
    ⟨attached_congr (fun e he => hp.mem_iff.1 he) hv,
      attached_congr (fun e he => hp.mem_iff.2 he) fun e he p hh => (hv e (hp.mem_iff.2 he) p hh).symm⟩
  rw [hs, ha]

theorem one_eq (s : (Nat → K) × (Nat → Bool)) (k : Nat) (hk : M.ok k = true) (hf : s.2 k = false)
    (hi : ∃ p, M.Has k p ∧ P.inside (s.1 p) = true) :
    one M P s k = (grow M P s.1 (M.n + 1) 0 ⟨upd s.2 k true, [k]⟩).bind fun t =>
      some (after M P t.pile s.1, t.flag) := by
  unfold one
  rw [if_neg (by simp [hk]), if_neg (by simp [hf]), if_neg]
  · rfl
  · obtain ⟨p, ⟨i, hi, rfl⟩, hs⟩ := hi
    rw [Bool.eq_false_iff]
    intro hh
    exact hh (List.any_eq_true.2 ⟨i, List.mem_range.2 hi, hs⟩)

theorem one_spec (h : M.Wf) (hn : P.inside P.newv = false) (hloc : Local M P.frac) {sol0 : Nat → K}
    {s : (Nat → K) × (Nat → Bool)} (g : Good M P sol0 s) (k : Nat) (hk : 1 ≤ k ∧ k ≤ M.n) :
    ∃ s', one M P s k = some s' ∧ Good M P sol0 s' ∧ (∀ e, s.2 e = true → s'.2 e = true) ∧
      (M.ok k = true → (∃ p, M.Has k p ∧ P.inside (sol0 p) = true) → s'.2 k = true) := by
  by_cases hok : M.ok k = true
  swap
  · refine ⟨s, ?_, g, fun _ => id, fun hh => absurd hh hok⟩
    unfold one
    rw [if_pos (Bool.eq_false_iff.2 hok)]
  by_cases hf : s.2 k = true
  · refine ⟨s, ?_, g, fun _ => id, fun _ _ => hf⟩
    unfold one
    rw [if_neg (by simp [hok]), if_pos hf]
  have hf' := Bool.eq_false_iff.2 hf
  have hE : M.Elt k := ⟨hk.1, hk.2, hok⟩
  by_cases hin : ∃ p, M.Has k p ∧ P.inside (s.1 p) = true
  swap
  · refine ⟨s, ?_, g, fun _ => id, ?_⟩
    · unfold one
      rw [if_neg (by simp [hok]), if_neg hf, if_pos]
      rw [Bool.eq_false_iff]
      intro hh
      obtain ⟨i, hi, hs⟩ := List.any_eq_true.1 hh
      exact hin ⟨_, ⟨i, List.mem_range.1 hi, rfl⟩, hs⟩
    · rintro - ⟨p, hp, hs⟩
      exact absurd ⟨p, hp, by rw [g.agree h hE hf' hp]; exact hs⟩ hin
  -- the component
  have hcF : ∀ e, Comp M P.inside sol0 k e → s.2 e = false := by
    intro e he
    refine Bool.eq_false_iff.2 fun hh => hf ?_
    exact g.comp h (Comp.elt h hE he) hh (Comp.symm h hE he)
  have hag : ∀ e, Comp M P.inside sol0 k e → ∀ p, M.Has e p → sol0 p = s.1 p := fun e he p hp =>
    (g.agree h (Comp.elt h hE he) (hcF e he) hp).symm
  have hcc := comp_congr (M := M) (inside := P.inside) (sol := sol0) (sol' := s.1) (k := k)
    fun e he p hp => by rw [hag e he p hp]
  obtain ⟨t, et, ht, hfl, hnew⟩ := grow_comp (P := P) (sol := s.1) h hE (F := s.2) (by
    rintro a b ha hfa ⟨h0, j, hj, e, p, hp, hs⟩
    refine g.closed a b ha hfa ⟨h0, j, hj, e, p, hp, ?_⟩
    rcases g.vals p with hv | hv
    · rw [← hv]; exact hs
    · rw [hv, hn] at hs; cases hs) hf'
  have ht0 : IsComp M P.inside sol0 k t.pile := ⟨ht.1, fun e => (ht.2 e).trans (hcc e).symm⟩
  have hrem : Removed M P sol0 t.pile ↔ Removed M P s.1 t.pile :=
    removed_congr hloc (List.Perm.refl _) fun e he p hp => hag e ((ht0.2 e).1 he) p hp
  have hspec := after_spec (M := M) (P := P) h.dim hn t.pile s.1
  have hold : ∀ e p, M.Elt e → s.2 e = true → M.Has e p → P.inside (sol0 p) = true →
      ¬ ∃ e' ∈ t.pile, M.Has e' p := by
    rintro e p he hfe hp hs ⟨e', he', hp'⟩
    have hc' := (ht0.2 e').1 he'
    have := g.comp h he hfe (comp_of_vertex h he (Comp.elt h hE hc') hp hp' hs)
    rw [hcF e' hc'] at this
    cases this
  refine ⟨(after M P t.pile s.1, t.flag), by rw [one_eq s k hok hf' hin, et]; rfl, ?_, ?_, ?_⟩
  · refine ⟨?_, ?_, ?_, ?_, ?_, ?_⟩
    · intro a b ha hfa hl
      rcases (hfl a).1 hfa with h1 | h1
      · exact (hfl b).2 (.inl (g.closed a b ha h1 hl))
      · exact (hfl b).2 (.inr ((ht0.2 b).2 (((ht0.2 a).1 h1).tail hl)))
    · intro e p l he hfe hp hs hl hr
      show after M P t.pile s.1 p = P.newv
      rcases (hfl e).1 hfe with h1 | h1
      · rw [(hspec p).2 fun hh => hold e p he h1 hp hs hh.1]
        exact g.gone e p l he h1 hp hs hl hr
      · have hc := (ht0.2 e).1 h1
        refine (hspec p).1 ⟨⟨e, h1, hp⟩, by rw [← hag e hc p hp]; exact hs, hrem.1 ?_⟩
        exact (removed_congr hloc (hl.perm (ht0.of_mem h hE hc)) fun _ _ _ _ => rfl).1 hr
    · intro e p l he hfe hp hs hl hr
      show after M P t.pile s.1 p = sol0 p
      rcases (hfl e).1 hfe with h1 | h1
      · rw [(hspec p).2 fun hh => hold e p he h1 hp hs hh.1]
        exact g.kept e p l he h1 hp hs hl hr
      · have hc := (ht0.2 e).1 h1
        rw [hag e hc p hp]
        refine (hspec p).2 fun hh => hr ?_
        exact (removed_congr hloc (hl.perm (ht0.of_mem h hE hc)) fun _ _ _ _ => rfl).2 (hrem.2 hh.2.2)
    · intro p hs
      show after M P t.pile s.1 p = sol0 p
      rw [(hspec p).2, g.other p hs]
      rintro ⟨-, hh, -⟩
      rw [g.other p hs, hs] at hh
      cases hh
    · intro p hp
      show after M P t.pile s.1 p = sol0 p
      rw [(hspec p).2]
      · exact g.alone p fun e he hfe => hp e he ((hfl e).2 (.inl hfe))
      · rintro ⟨⟨e, he, hep⟩, -⟩
        exact hp e (Comp.elt h hE ((ht0.2 e).1 he)) ((hfl e).2 (.inr he)) hep
    · intro p
      show after M P t.pile s.1 p = sol0 p ∨ after M P t.pile s.1 p = P.newv
      by_cases hh : (∃ e ∈ t.pile, M.Has e p) ∧ P.inside (s.1 p) = true ∧ Removed M P s.1 t.pile
      · exact .inr ((hspec p).1 hh)
      · rw [(hspec p).2 hh]
        exact g.vals p
  · intro e he
    exact (hfl e).2 (.inl he)
  · intro _ _
    exact (hfl k).2 (.inr ((ht0.2 k).2 .refl))

theorem phase_spec (h : M.Wf) (hn : P.inside P.newv = false) (hloc : Local M P.frac) {sol0 : Nat → K}
    (l : List Nat) : ∀ {s : (Nat → K) × (Nat → Bool)}, Good M P sol0 s → (∀ k ∈ l, 1 ≤ k ∧ k ≤ M.n) →
    ∃ s', phase M P l s = some s' ∧ Good M P sol0 s' ∧ (∀ e, s.2 e = true → s'.2 e = true) ∧
      ∀ k ∈ l, M.ok k = true → (∃ p, M.Has k p ∧ P.inside (sol0 p) = true) → s'.2 k = true := by
  induction l with
  | nil => intro s g _; exact ⟨s, rfl, g, fun _ => id, by simp⟩
  | cons k l ih =>
    intro s g hl
    obtain ⟨s1, e1, g1, m1, c1⟩ := one_spec h hn hloc g k (hl k (by simp))
    obtain ⟨s2, e2, g2, m2, c2⟩ := ih g1 fun a ha => hl a (by simp [ha])
    refine ⟨s2, by rw [phase, e1]; exact e2, g2, fun e he => m2 e (m1 e he), ?_⟩
    intro a ha hok hs
    rcases List.mem_cons.1 ha with rfl | ha
    · exact m2 _ (c1 hok hs)
    · exact c2 a ha hok hs

/-- **C76** (one loop) : the loop ends without the error on the length of the pile, and it gives the new value
exactly to the values of the part that are in a component that has to be removed. -/
theorem C76_phase (h : M.Wf) (hn : P.inside P.newv = false) (hloc : Local M P.frac) (sol : Nat → K) :
    ∃ s, phase M P (List.range' 1 M.n) (sol, fun _ => false) = some s ∧ Cleaned M P sol s.1 := by
  have g0 : Good M P sol (sol, fun _ => false) :=
    ⟨by simp, by simp, by simp, fun _ _ => rfl, fun _ _ => rfl, fun _ => .inl rfl⟩
  obtain ⟨s, e, g, -, c⟩ := phase_spec h hn hloc (List.range' 1 M.n) g0 fun k hk => by
    rw [List.mem_range'_1] at hk; omega
  have hfl : ∀ k p, M.Elt k → M.Has k p → P.inside (sol p) = true → s.2 k = true := fun k p hk hp hs =>
    c k (by rw [List.mem_range'_1]; have := hk.1; have := hk.2.1; omega) hk.2.2 ⟨p, hp, hs⟩
  refine ⟨s, e, ?_, ?_, g.other, ?_⟩
  · exact fun k p l hk hp hs => g.gone k p l hk (hfl k p hk hp hs) hp hs
  · exact fun k p l hk hp hs => g.kept k p l hk (hfl k p hk hp hs) hp hs
  · exact fun p hp => g.alone p fun e he _ => hp e he

/-- Every element has a component. -/
theorem C76_exists (h : M.Wf) (inside : K → Bool) (sol : Nat → K) (k : Nat) (hk : M.Elt k) :
    ∃ l, IsComp M inside sol k l := by
  obtain ⟨s, -, hs, -⟩ := grow_comp (P := ⟨inside, 0, fun _ _ => 0, 0, false, fun _ _ => false⟩) (sol := sol) h hk
    (F := fun _ => false) (by simp) rfl
  exact ⟨_, hs⟩

/-- **C76** (what is left) : after the loop no component of the part has to be removed. -/
theorem C76_left (h : M.Wf) (hn : P.inside P.newv = false) (hloc : Local M P.frac) {sol sol' : Nat → K}
    (hc : Cleaned M P sol sol') (k p : Nat) (l : List Nat) (hk : M.Elt k) (hp : M.Has k p)
    (hs : P.inside (sol' p) = true) (hl : IsComp M P.inside sol' k l) : ¬ Removed M P sol' l := by
  obtain ⟨l0, hl0⟩ := C76_exists h P.inside sol k hk
  have hs0 : P.inside (sol p) = true := by
    by_contra hh
    rw [hc.other p (Bool.eq_false_iff.2 hh)] at hs
    exact hh hs
  have hnr : ¬ Removed M P sol l0 := by
    intro hr
    rw [hc.gone k p l0 hk hp hs0 hl0 hr, hn] at hs
    cases hs
  have hag : ∀ e, Comp M P.inside sol k e → ∀ q, M.Has e q → sol q = sol' q := by
    intro e he q hq
    by_cases hi : P.inside (sol q) = true
    · exact (hc.kept e q l0 (Comp.elt h hk he) hq hi (hl0.of_mem h hk he) hnr).symm
    · exact (hc.other q (Bool.eq_false_iff.2 hi)).symm
  have hl1 : IsComp M P.inside sol' k l0 := ⟨hl0.1, fun e => (hl0.2 e).trans
    (comp_congr (fun e he q hq => by rw [hag e he q hq]) e)⟩
  intro hr
  refine hnr ((removed_congr hloc (hl1.perm hl) fun e he q hq => ?_).2 hr)
  exact hag e ((hl0.2 e).1 he) q hq

/-- The parameters of the loop on the positive components. -/
def posPar (eps small : K) (frac : Bool → (Nat → K) → Nat → K) (base : Nat → Nat → Bool) : Par K :=
  ⟨fun x => decide (0 < x), -100 * eps, frac true, small, false, base⟩

/-- The parameters of the loop on the negative components. -/
def negPar (eps small : K) (frac : Bool → (Nat → K) → Nat → K) (nbr : Bool) (base : Nat → Nat → Bool) : Par K :=
  ⟨fun x => decide (x < 0), 100 * eps, frac false, small, nbr, base⟩

variable [IsStrictOrderedRing K]

/-- **C76** : the function succeeds; it removes the positive components that are too small, then the negative
components of the result that are too small or, if there are base references, not attached to one. -/
theorem C76_rmc (h : M.Wf) {eps : K} (he : 0 < eps) (r total : K) (frac : Bool → (Nat → K) → Nat → K)
    (hloc : ∀ b, Local M (frac b)) (nbr : Bool) (base : Nat → Nat → Bool) (sol : Nat → K) :
    ∃ sol1 sol2, rmc M eps r total frac nbr base sol = some sol2 ∧
      Cleaned M (posPar eps (r * total) frac base) sol sol1 ∧
      Cleaned M (negPar eps (r * total) frac nbr base) sol1 sol2 := by
  have h100 : (0 : K) < 100 := by norm_num
  obtain ⟨s1, e1, c1⟩ := C76_phase (P := posPar eps (r * total) frac base) h
    (by simp only [posPar, decide_eq_false_iff_not, not_lt]; nlinarith [mul_pos h100 he]) (hloc true) sol
  obtain ⟨s2, e2, c2⟩ := C76_phase (P := negPar eps (r * total) frac nbr base) h
    (by simp only [negPar, decide_eq_false_iff_not, not_lt]; exact (mul_pos h100 he).le) (hloc false) s1.1
  refine ⟨s1.1, s2.1, ?_, c1, c2⟩
  unfold rmc
  unfold posPar at e1
  unfold negPar at e2
  rw [e1, Option.bind_some, e2, Option.map_some]

/-- **C76** (user) : at the end every negative component is large enough and attached, whatever the
values given. -/
theorem C76_negative (h : M.Wf) {eps : K} (he : 0 < eps) (r total : K) (frac : Bool → (Nat → K) → Nat → K)
    (hloc : ∀ b, Local M (frac b)) (nbr : Bool) (base : Nat → Nat → Bool) (sol sol' : Nat → K)
    (hr : rmc M eps r total frac nbr base sol = some sol') (k p : Nat) (l : List Nat) (hk : M.Elt k)
    (hp : M.Has k p) (hs : sol' p < 0) (hl : IsComp M (fun x => decide (x < 0)) sol' k l) :
    r * total ≤ (l.map (frac false sol')).sum ∧
    (nbr = true → ∃ e ∈ l, ∃ j < M.d, base e j = true ∧ ∃ q, M.OnFace e j q ∧ sol' q < 0) := by
  obtain ⟨s1, s2, e, -, c2⟩ := C76_rmc h he r total frac hloc nbr base sol
  rw [hr] at e
  obtain rfl := Option.some.inj e
  have h100 : (0 : K) < 100 := by norm_num
  have := C76_left (P := negPar eps (r * total) frac nbr base) h
    (by simp only [negPar, decide_eq_false_iff_not, not_lt]; exact (mul_pos h100 he).le) (hloc false) c2 k p l hk hp
    (decide_eq_true hs) hl
  unfold Removed Attached negPar at this
  simp only [not_or, not_lt, not_and, not_not, decide_eq_true_eq] at this
  exact this

/-- **C76** (user) : with a null or negative fraction and no base reference nothing changes. -/
theorem C76_zero (h : M.Wf) {eps : K} (he : 0 < eps) {r total : K} (hr : r * total ≤ 0)
    (frac : Bool → (Nat → K) → Nat → K) (hloc : ∀ b, Local M (frac b)) (hpos : ∀ b sol k, 0 ≤ frac b sol k)
    (base : Nat → Nat → Bool) (sol : Nat → K) : rmc M eps r total frac false base sol = some sol := by
  obtain ⟨s1, s2, e, c1, c2⟩ := C76_rmc h he r total frac hloc false base sol
  have key : ∀ {P : Par K} {s s' : Nat → K}, P.small ≤ 0 → P.attach = false → (∀ s k, 0 ≤ P.frac s k) →
      Cleaned M P s s' → s' = s := by
    intro P s s' h1 h2 h3 hc
    have hn : ∀ l, ¬ Removed M P s l := by
      rintro l (hh | ⟨hh, -⟩)
      · have : 0 ≤ (l.map (P.frac s)).sum := List.sum_nonneg (by
          intro x hx
          obtain ⟨k, -, rfl⟩ := List.mem_map.1 hx
          exact h3 s k)
        exact absurd (hh.trans_le h1) (not_lt.2 this)
      · rw [h2] at hh; cases hh
    funext p
    by_cases hi : P.inside (s p) = true
    · by_cases hk : ∃ k, M.Elt k ∧ M.Has k p
      · obtain ⟨k, hk, hp⟩ := hk
        obtain ⟨l, hl⟩ := C76_exists h P.inside s k hk
        exact hc.kept k p l hk hp hi hl (hn l)
      · exact hc.alone p fun k hk' hp => hk ⟨k, hk', hp⟩
    · exact hc.other p (Bool.eq_false_iff.2 hi)
  rw [e, key (P := negPar eps (r * total) frac false base) hr rfl (hpos false) c2,
    key (P := posPar eps (r * total) frac base) hr rfl (hpos true) c1]

end Mmg.Rmc
