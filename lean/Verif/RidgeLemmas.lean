/-
  C87: what the loops of `MMG5_setdhd` do to the tags.
-/
import Mathlib.Tactic.Tauto
import Mathlib.Tactic.IntervalCases
import Mathlib.Tactic.FinCases
import Mathlib.Data.Fintype.Basic
import Mathlib.Data.List.Induction
import Mathlib.Data.List.Nodup
import Verif.RidgeModel
import Verif.Tri2Lemmas

namespace Mmg.Ridge

open Mmg.Tri2
open Mmg.Orient (has skipped set1 orP mgREF mgGEO mgREQ mgNOM mgBDY mgNOSURF mgPARBDY mgPARBDYBDY)

theorem has_bit (t : BitVec 16) {i : Nat} (hi : i < 16) : has t (BitVec.twoPow 16 i) = t.getLsbD i := by
  unfold has
  rw [BitVec.and_twoPow]
  cases t.getLsbD i
  · simp
  · simp only [if_true, bne_iff_ne, ne_eq]
    intro h
    have := congrArg (fun z => BitVec.getLsbD z i) h
    simp [hi] at this

theorem has_ref (t : BitVec 16) : has t mgREF = t.getLsbD 0 := has_bit t (i := 0) (by decide)
theorem has_geo (t : BitVec 16) : has t mgGEO = t.getLsbD 1 := has_bit t (i := 1) (by decide)
theorem has_req (t : BitVec 16) : has t mgREQ = t.getLsbD 2 := has_bit t (i := 2) (by decide)
theorem has_nom (t : BitVec 16) : has t mgNOM = t.getLsbD 3 := has_bit t (i := 3) (by decide)
theorem has_bdy (t : BitVec 16) : has t mgBDY = t.getLsbD 4 := has_bit t (i := 4) (by decide)
theorem has_crn (t : BitVec 16) : has t mgCRN = t.getLsbD 5 := has_bit t (i := 5) (by decide)
theorem has_nosurf (t : BitVec 16) : has t mgNOSURF = t.getLsbD 6 := has_bit t (i := 6) (by decide)
theorem has_parbdybdy (t : BitVec 16) : has t mgPARBDYBDY = t.getLsbD 12 := has_bit t (i := 12) (by decide)
theorem has_parbdy (t : BitVec 16) : has t mgPARBDY = t.getLsbD 13 := has_bit t (i := 13) (by decide)

theorem bit_ref {i : Nat} : (mgREF).getLsbD i = decide (i = 0) := by
  by_cases h : i < 16
  · interval_cases i <;> rfl
  · rw [BitVec.getLsbD_of_ge _ _ (by omega)]; symm; simp; omega
theorem bit_geo {i : Nat} : (mgGEO).getLsbD i = decide (i = 1) := by
  by_cases h : i < 16
  · interval_cases i <;> rfl
  · rw [BitVec.getLsbD_of_ge _ _ (by omega)]; symm; simp; omega

theorem skipped_eq (t : BitVec 16) : skipped t = ((t.getLsbD 13 && !t.getLsbD 12) || t.getLsbD 4) := by
  unfold skipped; rw [has_parbdy, has_parbdybdy, has_bdy]

section
variable {K : Type} [Field K] [LinearOrder K] {E : Env K}

/-! ### Specification -/

/-- The side `h` is linked to `h'` of a triangle with a larger number and is to be looked at: not a parallel boundary, not
already marked as boundary, not non-manifold. -/
structure Pair (E : Env K) (tag : HE → BitVec 16) (h h' : HE) : Prop where
  skip : skipped (tag h) = false
  nom : has (tag h) mgNOM = false
  adj : E.M.adj h = some h'
  lt : h.1 < h'.1

/-- The two triangles are in one plane. -/
def Flat (E : Env K) (h h' : HE) : Prop := |E.cos h h' - 1| < E.epsok

/-- The angle is larger than the angle of detection. -/
def Sharp (E : Env K) (h h' : HE) : Prop := E.cos h h' ≤ E.dhd

/-- A ridge before, on one side at least. -/
def Given (tag : HE → BitVec 16) (h h' : HE) : Prop := has (tag h) mgGEO = true ∨ has (tag h') mgGEO = true

/-- The vertex is an end of the side. -/
def End (E : Env K) (p : Nat) (h : HE) : Prop := p = E.e1 h ∨ p = E.e2 h

/-! ### One step -/

theorem Pair.congr {f g : HE → BitVec 16} {h h' : HE} (e : ∀ x i, 1 < i → (f x).getLsbD i = (g x).getLsbD i) :
    Pair E f h h' ↔ Pair E g h h' := by
  have : ∀ {f g : HE → BitVec 16} {h h' : HE}, (∀ x i, 1 < i → (f x).getLsbD i = (g x).getLsbD i) →
      Pair E f h h' → Pair E g h h' := by
    rintro f g h h' e ⟨a, b, c, d⟩
    refine ⟨?_, ?_, c, d⟩
    · rw [skipped_eq] at a ⊢
      rw [← e _ _ (by decide), ← e _ _ (by decide), ← e _ _ (by decide)]; exact a
    · rw [has_nom] at b ⊢
      rw [← e _ _ (by decide)]; exact b
  exact ⟨this e, this fun x i hi => (e x i hi).symm⟩

theorem mark_tag (b : BitVec 16) (h h' : HE) (s : St) (x : HE) (i : Nat) :
    ((mark E b h h' s).tag x).getLsbD i = ((s.tag x).getLsbD i || (decide (x = h ∨ x = h') && b.getLsbD i)) := by
  unfold mark setT
  simp only
  by_cases e1 : x = h' <;> by_cases e2 : x = h <;> by_cases e3 : h' = h
  all_goals (first | subst e1 | skip); (first | subst e2 | skip); simp_all [BitVec.getLsbD_or]

theorem mark_ptag (b : BitVec 16) (h h' : HE) (s : St) (p : Nat) (i : Nat) :
    ((mark E b h h' s).ptag p).getLsbD i =
      ((s.ptag p).getLsbD i || (decide (p = E.e1 h ∨ p = E.e2 h) && b.getLsbD i)) := by
  unfold mark orP set1
  simp only
  by_cases e1 : p = E.e1 h <;> by_cases e2 : p = E.e2 h <;> by_cases e3 : E.e2 h = E.e1 h <;>
    simp_all [BitVec.getLsbD_or]

theorem unmark_tag (b : BitVec 16) (h h' : HE) (s : St) (x : HE) {i : Nat} (hi : i < 16) :
    ((unmark E b h h' s).tag x).getLsbD i = ((s.tag x).getLsbD i && !(decide (x = h ∨ x = h') && b.getLsbD i)) := by
  unfold unmark setT
  simp only
  by_cases e1 : x = h' <;> by_cases e2 : x = h <;> by_cases e3 : h' = h
  all_goals (first | subst e1 | skip); (first | subst e2 | skip); simp_all [BitVec.getLsbD_and, BitVec.getLsbD_not]

theorem unmark_ptag (b : BitVec 16) (h h' : HE) (s : St) (p : Nat) {i : Nat} (hi : i < 16) :
    ((unmark E b h h' s).ptag p).getLsbD i =
      ((s.ptag p).getLsbD i && !(decide (p = E.e1 h ∨ p = E.e2 h) && b.getLsbD i)) := by
  unfold unmark set1
  simp only
  by_cases e1 : p = E.e1 h <;> by_cases e2 : p = E.e2 h <;> by_cases e3 : E.e2 h = E.e1 h <;>
    simp_all [BitVec.getLsbD_and, BitVec.getLsbD_not]

theorem step1_cases (s : St) (h : HE) :
    (∃ h', Pair E s.tag h h' ∧ Given s.tag h h' ∧ Flat E h h' ∧ step1 E s h = unmark E mgGEO h h' s) ∨
    ((∀ h', Pair E s.tag h h' → ¬ (Given s.tag h h' ∧ Flat E h h')) ∧ step1 E s h = s) := by
  unfold step1
  by_cases h1 : skipped (s.tag h) = true
  · rw [if_pos h1]
    exact .inr ⟨fun h' P => (by rw [P.skip] at h1; cases h1), rfl⟩
  rw [if_neg h1]
  by_cases h2 : has (s.tag h) mgNOM = true
  · rw [if_pos h2]
    exact .inr ⟨fun h' P => (by rw [P.nom] at h2; cases h2), rfl⟩
  rw [if_neg h2]
  cases h3 : E.M.adj h with
  | none => exact .inr ⟨fun h' P => (by rw [P.adj] at h3; cases h3), rfl⟩
  | some h' =>
    simp only
    by_cases h4 : h.1 < h'.1
    · rw [if_pos h4]
      by_cases h5 : (has (s.tag h) mgGEO || has (s.tag h') mgGEO) = true
      · rw [if_pos h5]
        by_cases h6 : |E.cos h h' - 1| < E.epsok
        · rw [if_pos h6]
          exact .inl ⟨h', ⟨by simpa using h1, by simpa using h2, h3, h4⟩, by simpa [Given] using h5, h6, rfl⟩
        · rw [if_neg h6]
          refine .inr ⟨fun h'' P hh => h6 ?_, rfl⟩
          have := P.adj; rw [h3] at this; cases this
          exact hh.2
      · rw [if_neg h5]
        refine .inr ⟨fun h'' P hh => h5 ?_, rfl⟩
        have := P.adj; rw [h3] at this; cases this
        simpa [Given] using hh.1
    · rw [if_neg h4]
      refine .inr ⟨fun h'' P hh => h4 ?_, rfl⟩
      have := P.adj; rw [h3] at this; cases this
      exact P.lt

theorem step2_cases (s : St) (h : HE) :
    (∃ h', Pair E s.tag h h' ∧ step2 E s h = angStep E h h' (refStep E h h' s)) ∨
    ((∀ h', ¬ Pair E s.tag h h') ∧ step2 E s h = s) := by
  unfold step2
  by_cases h1 : skipped (s.tag h) = true
  · rw [if_pos h1]
    exact .inr ⟨fun h' P => (by rw [P.skip] at h1; cases h1), rfl⟩
  rw [if_neg h1]
  by_cases h2 : has (s.tag h) mgNOM = true
  · rw [if_pos h2]
    exact .inr ⟨fun h' P => (by rw [P.nom] at h2; cases h2), rfl⟩
  rw [if_neg h2]
  cases h3 : E.M.adj h with
  | none => exact .inr ⟨fun h' P => (by have := P.adj; rw [h3] at this; cases this), rfl⟩
  | some h' =>
    simp only
    by_cases h4 : h.1 < h'.1
    · rw [if_pos h4]
      exact .inl ⟨h', ⟨by simpa using h1, by simpa using h2, h3, h4⟩, rfl⟩
    · rw [if_neg h4]
      refine .inr ⟨fun h'' P => h4 ?_, rfl⟩
      have := P.adj; rw [h3] at this; cases this
      exact P.lt

/-- Bits of the result of the reference and angle tests for one pair. -/
theorem pair_bits (h h' : HE) (s : St) :
    (∀ x i, 1 < i → ((angStep E h h' (refStep E h h' s)).tag x).getLsbD i = (s.tag x).getLsbD i) ∧
    (∀ p i, 1 < i → ((angStep E h h' (refStep E h h' s)).ptag p).getLsbD i = (s.ptag p).getLsbD i) ∧
    (∀ x, ((angStep E h h' (refStep E h h' s)).tag x).getLsbD 0 = true ↔
      (s.tag x).getLsbD 0 = true ∨ (x = h ∨ x = h') ∧ (E.M.tri h'.1).ref ≠ (E.M.tri h.1).ref) ∧
    (∀ p, ((angStep E h h' (refStep E h h' s)).ptag p).getLsbD 0 = true ↔
      (s.ptag p).getLsbD 0 = true ∨ End E p h ∧ (E.M.tri h'.1).ref ≠ (E.M.tri h.1).ref) ∧
    (∀ x, ((angStep E h h' (refStep E h h' s)).tag x).getLsbD 1 = true ↔
      (s.tag x).getLsbD 1 = true ∨ (x = h ∨ x = h') ∧ (Sharp E h h' ∨ Given s.tag h h')) ∧
    (∀ p, ((angStep E h h' (refStep E h h' s)).ptag p).getLsbD 1 = true ↔
      (s.ptag p).getLsbD 1 = true ∨ End E p h ∧ (Sharp E h h' ∨ Given s.tag h h')) := by
  -- reference
  obtain ⟨r1, r2⟩ : (∀ x i, ((refStep E h h' s).tag x).getLsbD i =
        ((s.tag x).getLsbD i || (decide ((E.M.tri h'.1).ref ≠ (E.M.tri h.1).ref) && (decide (x = h ∨ x = h') && decide (i = 0))))) ∧
      (∀ p i, ((refStep E h h' s).ptag p).getLsbD i =
        ((s.ptag p).getLsbD i || (decide ((E.M.tri h'.1).ref ≠ (E.M.tri h.1).ref) &&
          (decide (p = E.e1 h ∨ p = E.e2 h) && decide (i = 0))))) := by
    unfold refStep
    by_cases hr : (E.M.tri h'.1).ref ≠ (E.M.tri h.1).ref
    · rw [if_pos hr]
      refine ⟨fun x i => ?_, fun p i => ?_⟩
      · rw [mark_tag, bit_ref]; simp [hr]
      · rw [mark_ptag, bit_ref]; simp [hr]
    · rw [if_neg hr]
      refine ⟨fun x i => ?_, fun p i => ?_⟩ <;> simp at hr <;> simp [hr]
  have hg : ∀ x, has ((refStep E h h' s).tag x) mgGEO = has (s.tag x) mgGEO := by
    intro x; rw [has_geo, has_geo, r1]; simp
  obtain ⟨a1, a2⟩ : (∀ x i, ((angStep E h h' (refStep E h h' s)).tag x).getLsbD i = true ↔
        ((refStep E h h' s).tag x).getLsbD i = true ∨ (x = h ∨ x = h') ∧ i = 1 ∧ (Sharp E h h' ∨ Given s.tag h h')) ∧
      (∀ p i, ((angStep E h h' (refStep E h h' s)).ptag p).getLsbD i = true ↔
        ((refStep E h h' s).ptag p).getLsbD i = true ∨ End E p h ∧ i = 1 ∧ (Sharp E h h' ∨ Given s.tag h h')) := by
    unfold angStep
    rw [hg, hg]
    by_cases hc : E.cos h h' ≤ E.dhd
    · rw [if_pos hc]
      have : Sharp E h h' := hc
      refine ⟨fun x i => ?_, fun p i => ?_⟩
      · rw [mark_tag, bit_geo]; simp [this]
      · rw [mark_ptag, bit_geo]; simp [this, End]
    · rw [if_neg hc]
      have hs : ¬ Sharp E h h' := hc
      by_cases hv : (has (s.tag h) mgGEO || has (s.tag h') mgGEO) = true
      · rw [if_pos hv]
        have : Given s.tag h h' := by simpa [Given] using hv
        refine ⟨fun x i => ?_, fun p i => ?_⟩
        · rw [mark_tag, bit_geo]; simp [this]
        · rw [mark_ptag, bit_geo]; simp [this, End]
      · rw [if_neg hv]
        have : ¬ Given s.tag h h' := by simpa [Given] using hv
        exact ⟨fun x i => by simp [hs, this], fun p i => by simp [hs, this]⟩
  refine ⟨fun x i hi => ?_, fun p i hi => ?_, fun x => ?_, fun p => ?_, fun x => ?_, fun p => ?_⟩
  · rw [Bool.eq_iff_iff, a1, r1]
    have : i ≠ 0 ∧ i ≠ 1 := by omega
    simp [this]
  · rw [Bool.eq_iff_iff, a2, r2]
    have : i ≠ 0 ∧ i ≠ 1 := by omega
    simp [this]
  · rw [a1, r1]; simp; tauto
  · rw [a2, r2]; simp [End]; tauto
  · rw [a1, r1]; simp
  · rw [a2, r2]; simp

/-! ### The loops -/

theorem mem_sides {h : HE} : h ∈ sides E ↔ 1 ≤ h.1 ∧ h.1 ≤ E.nt ∧ E.M.live h.1 := by
  obtain ⟨k, i⟩ := h
  unfold sides
  rw [List.mem_flatMap]
  constructor
  · rintro ⟨j, hj, hm⟩
    rw [List.mem_filter, List.mem_range'_1] at hj
    have : k = j := by fin_cases hm <;> rfl
    subst this
    simp only [eok, decide_eq_true_eq] at hj
    exact ⟨hj.1.1, by have := hj.1.2; simp only; omega, hj.2⟩
  · rintro ⟨h1, h2, h3⟩
    refine ⟨k, ?_, ?_⟩
    · rw [List.mem_filter, List.mem_range'_1]
      simp only at h1 h2
      exact ⟨⟨h1, by omega⟩, by simp only [eok, decide_eq_true_eq]; exact h3⟩
    · fin_cases i <;> simp

theorem nodup_sides : (sides E).Nodup := by
  unfold sides
  rw [List.nodup_flatMap]
  refine ⟨fun k _ => by simp, ?_⟩
  have hnd : ((List.range' 1 E.nt).filter (eok E)).Nodup := (List.nodup_range' (step := 1)).filter (eok E)
  apply List.Pairwise.imp (R := (· ≠ ·)) _ hnd
  intro a b hab x hx hy
  simp only [List.mem_cons, List.not_mem_nil, or_false] at hx hy
  apply hab
  have e1 : x.1 = a := by rcases hx with h | h | h <;> rw [h]
  have e2 : x.1 = b := by rcases hy with h | h | h <;> rw [h]
  rw [← e1, ← e2]

/-- `h` takes its decision on tags that no other side has changed. -/
theorem alone (hv : Valid E.M) {f : HE → BitVec 16} {h h' g g' : HE} (hh : E.M.live h.1) (hg : E.M.live g.1)
    (P : Pair E f h h') (Q : Pair E f g g') (hne : g ≠ h) : h ≠ g ∧ h ≠ g' ∧ h' ≠ g ∧ h' ≠ g' := by
  have l1 := (hv.link h h' hh P.adj).2.1
  have l2 := (hv.link g g' hg Q.adj).2.1
  refine ⟨hne.symm, ?_, ?_, ?_⟩
  · rintro rfl
    rw [P.adj] at l2; cases l2
    have := P.lt; have := Q.lt; omega
  · rintro rfl
    rw [Q.adj] at l1; cases l1
    have := P.lt; have := Q.lt; omega
  · rintro rfl
    rw [l1] at l2; cases l2
    exact hne rfl

/-- After step 1 on the sides of `L`. -/
structure Inv1 (E : Env K) (s0 : St) (L : List HE) (s : St) : Prop where
  tag : ∀ x i, i ≠ 1 → (s.tag x).getLsbD i = (s0.tag x).getLsbD i
  ptag : ∀ p i, i ≠ 1 → (s.ptag p).getLsbD i = (s0.ptag p).getLsbD i
  geo : ∀ x, (s.tag x).getLsbD 1 = true ↔ (s0.tag x).getLsbD 1 = true ∧
    ¬ ∃ h ∈ L, ∃ h', Pair E s0.tag h h' ∧ Flat E h h' ∧ (x = h ∨ x = h')
  pgeo : ∀ p, (s.ptag p).getLsbD 1 = true ↔ (s0.ptag p).getLsbD 1 = true ∧
    ¬ ∃ h ∈ L, ∃ h', Pair E s0.tag h h' ∧ Flat E h h' ∧ Given s0.tag h h' ∧ End E p h

theorem inv1 (hv : Valid E.M) (s0 : St) (L : List HE) (hn : L.Nodup) (hl : ∀ h ∈ L, E.M.live h.1) :
    Inv1 E s0 L (L.foldl (step1 E) s0) := by
  induction L using List.reverseRecOn with
  | nil => exact ⟨fun _ _ _ => rfl, fun _ _ _ => rfl, fun _ => by simp, fun _ => by simp⟩
  | append_singleton L h ih =>
    have hn' := List.nodup_append.1 hn
    have I := ih hn'.1 fun x hx => hl x (by simp [hx])
    have hnot : h ∉ L := fun hm => hn'.2.2 h hm h (by simp) rfl
    have hlh := hl h (by simp)
    rw [List.foldl_append]
    simp only [List.foldl_cons, List.foldl_nil]
    generalize L.foldl (step1 E) s0 = s at I ⊢
    have hP : ∀ h h', Pair E s.tag h h' ↔ Pair E s0.tag h h' := fun a b =>
      Pair.congr fun x i hi => I.tag x i (by omega)
    have hG : ∀ h', Pair E s0.tag h h' → (Given s.tag h h' ↔ Given s0.tag h h') := by
      intro h' P
      have key : ∀ x, (x = h ∨ x = h') → ((s.tag x).getLsbD 1 = true ↔ (s0.tag x).getLsbD 1 = true) := by
        intro x hx
        rw [I.geo]
        refine ⟨fun a => a.1, fun a => ⟨a, ?_⟩⟩
        rintro ⟨g, hg, g', Q, _, hx'⟩
        have := alone hv hlh (hl g (by simp [hg])) P Q (fun e => hnot (e ▸ hg))
        rcases hx with rfl | rfl <;> rcases hx' with e | e
        · exact this.1 e
        · exact this.2.1 e
        · exact this.2.2.1 e
        · exact this.2.2.2 e
      unfold Given
      rw [has_geo, has_geo, has_geo, has_geo, key h (.inl rfl), key h' (.inr rfl)]
    have ext : ∀ {P : HE → Prop}, (∃ g ∈ L ++ [h], P g) ↔ (∃ g ∈ L, P g) ∨ P h := by
      intro P
      constructor
      · rintro ⟨g, hg, hp⟩
        rcases List.mem_append.1 hg with hg | hg
        · exact .inl ⟨g, hg, hp⟩
        · rw [List.mem_singleton] at hg; subst hg; exact .inr hp
      · rintro (⟨g, hg, hp⟩ | hp)
        · exact ⟨g, by simp [hg], hp⟩
        · exact ⟨h, by simp, hp⟩
    have uniq : ∀ {a b}, Pair E s0.tag h a → Pair E s0.tag h b → a = b := by
      intro a b P Q
      have := P.adj.symm.trans Q.adj
      cases this; rfl
    rcases step1_cases (E := E) s h with ⟨h', P, G, F, e⟩ | ⟨hno, e⟩
    · rw [e]
      rw [hP] at P
      rw [hG h' P] at G
      refine ⟨fun x i hi => ?_, fun p i hi => ?_, fun x => ?_, fun p => ?_⟩
      · by_cases h16 : i < 16
        · rw [unmark_tag _ _ _ _ _ h16, bit_geo, I.tag x i hi]; simp [hi]
        · rw [BitVec.getLsbD_of_ge _ _ (by omega), BitVec.getLsbD_of_ge _ _ (by omega)]
      · by_cases h16 : i < 16
        · rw [unmark_ptag _ _ _ _ _ h16, bit_geo, I.ptag p i hi]; simp [hi]
        · rw [BitVec.getLsbD_of_ge _ _ (by omega), BitVec.getLsbD_of_ge _ _ (by omega)]
      · rw [unmark_tag _ _ _ _ _ (by decide), bit_geo, Bool.and_eq_true, I.geo, ext]
        have : (∃ h'', Pair E s0.tag h h'' ∧ Flat E h h'' ∧ (x = h ∨ x = h'')) ↔ (x = h ∨ x = h') := by
          constructor
          · rintro ⟨h'', Q, _, hx⟩
            rw [uniq P Q]; exact hx
          · intro hx; exact ⟨h', P, F, hx⟩
        rw [this]
        simp only [decide_true, Bool.and_true, Bool.not_eq_true', decide_eq_false_iff_not]
        rw [and_assoc, not_or (p := ∃ h ∈ L, _)]
      · rw [unmark_ptag _ _ _ _ _ (by decide), bit_geo, Bool.and_eq_true, I.pgeo, ext]
        have : (∃ h'', Pair E s0.tag h h'' ∧ Flat E h h'' ∧ Given s0.tag h h'' ∧ End E p h) ↔ End E p h := by
          constructor
          · rintro ⟨_, _, _, _, hx⟩; exact hx
          · intro hx; exact ⟨h', P, F, G, hx⟩
        rw [this]
        simp only [decide_true, Bool.and_true, Bool.not_eq_true', decide_eq_false_iff_not]
        rw [and_assoc, not_or (p := ∃ h ∈ L, _)]
        rfl
    · rw [e]
      refine ⟨I.tag, I.ptag, fun x => ?_, fun p => ?_⟩
      · rw [I.geo, ext]
        refine ⟨fun ⟨a, b⟩ => ⟨a, ?_⟩, fun ⟨a, b⟩ => ⟨a, fun hh => b (.inl hh)⟩⟩
        rintro (hh | ⟨h', P, F, hx⟩)
        · exact b hh
        · refine hno h' ((hP _ _).2 P) ⟨?_, F⟩
          have hx1 : (s.tag x).getLsbD 1 = true := (I.geo x).2 ⟨a, b⟩
          unfold Given
          rw [has_geo, has_geo]
          rcases hx with rfl | rfl
          · exact .inl hx1
          · exact .inr hx1
      · rw [I.pgeo, ext]
        refine ⟨fun ⟨a, b⟩ => ⟨a, ?_⟩, fun ⟨a, b⟩ => ⟨a, fun hh => b (.inl hh)⟩⟩
        rintro (hh | ⟨h', P, F, G, hx⟩)
        · exact b hh
        · exact hno h' ((hP _ _).2 P) ⟨(hG h' P).2 G, F⟩

/-- After step 2 on the sides of `L`. -/
structure Inv2 (E : Env K) (s0 : St) (L : List HE) (s : St) : Prop where
  tag : ∀ x i, 1 < i → (s.tag x).getLsbD i = (s0.tag x).getLsbD i
  ptag : ∀ p i, 1 < i → (s.ptag p).getLsbD i = (s0.ptag p).getLsbD i
  ref : ∀ x, (s.tag x).getLsbD 0 = true ↔ (s0.tag x).getLsbD 0 = true ∨
    ∃ h ∈ L, ∃ h', Pair E s0.tag h h' ∧ (E.M.tri h'.1).ref ≠ (E.M.tri h.1).ref ∧ (x = h ∨ x = h')
  pref : ∀ p, (s.ptag p).getLsbD 0 = true ↔ (s0.ptag p).getLsbD 0 = true ∨
    ∃ h ∈ L, ∃ h', Pair E s0.tag h h' ∧ (E.M.tri h'.1).ref ≠ (E.M.tri h.1).ref ∧ End E p h
  geo : ∀ x, (s.tag x).getLsbD 1 = true ↔ (s0.tag x).getLsbD 1 = true ∨
    ∃ h ∈ L, ∃ h', Pair E s0.tag h h' ∧ (Sharp E h h' ∨ Given s0.tag h h') ∧ (x = h ∨ x = h')
  pgeo : ∀ p, (s.ptag p).getLsbD 1 = true ↔ (s0.ptag p).getLsbD 1 = true ∨
    ∃ h ∈ L, ∃ h', Pair E s0.tag h h' ∧ (Sharp E h h' ∨ Given s0.tag h h') ∧ End E p h

theorem inv2 (hv : Valid E.M) (s0 : St) (L : List HE) (hn : L.Nodup) (hl : ∀ h ∈ L, E.M.live h.1) :
    Inv2 E s0 L (L.foldl (step2 E) s0) := by
  induction L using List.reverseRecOn with
  | nil => exact ⟨fun _ _ _ => rfl, fun _ _ _ => rfl, fun _ => by simp, fun _ => by simp, fun _ => by simp, fun _ => by simp⟩
  | append_singleton L h ih =>
    have hn' := List.nodup_append.1 hn
    have I := ih hn'.1 fun x hx => hl x (by simp [hx])
    have hnot : h ∉ L := fun hm => hn'.2.2 h hm h (by simp) rfl
    have hlh := hl h (by simp)
    rw [List.foldl_append]
    simp only [List.foldl_cons, List.foldl_nil]
    generalize L.foldl (step2 E) s0 = s at I ⊢
    have hP : ∀ h h', Pair E s.tag h h' ↔ Pair E s0.tag h h' := fun a b => Pair.congr I.tag
    have hG : ∀ h', Pair E s0.tag h h' → (Given s.tag h h' ↔ Given s0.tag h h') := by
      intro h' P
      have key : ∀ x, (x = h ∨ x = h') → ((s.tag x).getLsbD 1 = true ↔ (s0.tag x).getLsbD 1 = true) := by
        intro x hx
        rw [I.geo]
        refine ⟨?_, .inl⟩
        rintro (a | ⟨g, hg, g', Q, _, hx'⟩)
        · exact a
        exfalso
        have := alone hv hlh (hl g (by simp [hg])) P Q (fun e => hnot (e ▸ hg))
        rcases hx with rfl | rfl <;> rcases hx' with e | e
        · exact this.1 e
        · exact this.2.1 e
        · exact this.2.2.1 e
        · exact this.2.2.2 e
      unfold Given
      rw [has_geo, has_geo, has_geo, has_geo, key h (.inl rfl), key h' (.inr rfl)]
    have ext : ∀ {P : HE → Prop}, (∃ g ∈ L ++ [h], P g) ↔ (∃ g ∈ L, P g) ∨ P h := by
      intro P
      constructor
      · rintro ⟨g, hg, hp⟩
        rcases List.mem_append.1 hg with hg | hg
        · exact .inl ⟨g, hg, hp⟩
        · rw [List.mem_singleton] at hg; subst hg; exact .inr hp
      · rintro (⟨g, hg, hp⟩ | hp)
        · exact ⟨g, by simp [hg], hp⟩
        · exact ⟨h, by simp, hp⟩
    rcases step2_cases (E := E) s h with ⟨h', P, e⟩ | ⟨hno, e⟩
    · rw [e]
      rw [hP] at P
      have one : ∀ {Q : HE → Prop}, (∃ h'', Pair E s0.tag h h'' ∧ Q h'') ↔ Q h' := by
        intro Q
        constructor
        · rintro ⟨h'', R, q⟩
          have := P.adj.symm.trans R.adj
          cases this; exact q
        · intro q; exact ⟨h', P, q⟩
      obtain ⟨b1, b2, b3, b4, b5, b6⟩ := pair_bits (E := E) h h' s
      refine ⟨fun x i hi => (b1 x i hi).trans (I.tag x i hi), fun p i hi => (b2 p i hi).trans (I.ptag p i hi),
        fun x => ?_, fun p => ?_, fun x => ?_, fun p => ?_⟩
      · rw [b3, I.ref, ext, one, or_assoc, and_comm (a := x = h ∨ x = h')]
      · rw [b4, I.pref, ext, one, or_assoc, and_comm (a := End E p h)]
      · rw [b5, I.geo, ext, one, hG h' P, or_assoc, and_comm (a := x = h ∨ x = h')]
      · rw [b6, I.pgeo, ext, one, hG h' P, or_assoc, and_comm (a := End E p h)]
    · rw [e]
      have none : ∀ {Q : HE → Prop}, (∃ h'', Pair E s0.tag h h'' ∧ Q h'') ↔ False := by
        intro Q
        rw [iff_false]
        rintro ⟨h'', R, _⟩
        exact hno h'' ((hP _ _).2 R)
      refine ⟨I.tag, I.ptag, fun x => ?_, fun p => ?_, fun x => ?_, fun p => ?_⟩
      · rw [I.ref, ext, none, or_false]
      · rw [I.pref, ext, none, or_false]
      · rw [I.geo, ext, none, or_false]
      · rw [I.pgeo, ext, none, or_false]

end

end Mmg.Ridge
