/-
  C83: what one side does.
-/
import Verif.Edge2Lemmas

namespace Mmg.Edge2
open Mmg.Orient (mgREF mgGEO mgREQ mgBDY mgNOSURF mgPARBDY has special set1 set2 m3 orP has_or has_zero)

variable {E : Env} {s : St} {k ncc : Nat} {i : Fin 3} {pile : List Nat}

/-- The same tag for the two sides of an edge. -/
def put2 (tag : Nat → Fin 3 → BitVec 16) (k : Nat) (i : Fin 3) (k' : Nat) (i' : Fin 3) (x : BitVec 16) :
    Nat → Fin 3 → BitVec 16 := fun j l => if (j = k ∧ l = i) ∨ (j = k' ∧ l = i') then x else tag j l

theorem put2_l (tag k i k' i' x) : put2 tag k i k' i' x k i = x := by simp [put2]
theorem put2_r (tag k i k' i' x) : put2 tag k i k' i' x k' i' = x := by simp [put2]

theorem set2_self {α : Type} (f : Nat → Fin 3 → α) (k i) (x : α) : set2 f k i x k i = x := by simp [set2]
theorem set2_ne {α : Type} (f : Nat → Fin 3 → α) (k i) (x : α) {k' i'} (h : k' ≠ k) : set2 f k i x k' i' = f k' i' := by
  simp [set2, h]

/-- The edge separates, `u` being what its sides say. -/
def Sep (E : Env) (k : Nat) (i : Fin 3) (u : BitVec 16) : Prop :=
  (E.ref (nb E k i)).natAbs ≠ (E.ref k).natAbs ∨ (E.opnbdy = true ∧ u ≠ 0#16)

instance (E k i u) : Decidable (Sep E k i u) := by unfold Sep; infer_instance

theorem new_eq (x y : BitVec 16) : newTag E k i x y =
    if Sep E k i (join E k i x y) then freeze E.nosurf (mgREF ||| mgBDY) (join E k i x y) else join E k i x y := rfl

theorem share_eq (h : E.adj k i ≠ 0) (hne : nb E k i ≠ k) (tag : Nat → Fin 3 → BitVec 16) :
    share E tag k i (nb E k i) (np E k i) =
      put2 tag k i (nb E k i) (np E k i) (join E k i (tag k i) (tag (nb E k i) (np E k i))) := by
  have hi : (!E.opnbdy && decide (E.ref k = E.ref (nb E k i))) = decide (Inner E k i) := by
    rw [Bool.eq_iff_iff]
    simp [Inner, h]
  unfold share
  rw [hi]
  generalize nb E k i = kk at *
  generalize np E k i = ii at *
  have gen : ∀ t1 : Nat → Fin 3 → BitVec 16,
      (let t2 := set2 t1 kk ii (t1 kk ii ||| t1 k i)
       set2 t2 k i (t2 k i ||| t2 kk ii)) = put2 t1 k i kk ii (t1 k i ||| t1 kk ii) := by
    intro t1
    simp only
    rw [set2_self, set2_ne _ _ _ _ hne.symm]
    funext j l
    unfold put2 set2
    by_cases h1 : j = k ∧ l = i
    · simp only [h1, and_self, true_or, if_true]
      rw [BitVec.or_comm (t1 kk ii), ← BitVec.or_assoc, BitVec.or_self]
    · by_cases h2 : j = kk ∧ l = ii
      · simp only [h1, h2, and_self, or_true, if_true, if_false]
        rw [if_neg (by intro e; exact h1 ⟨h2.1.trans e.1, h2.2.trans e.2⟩)]
        exact BitVec.or_comm ..
      · simp only [h1, h2, or_self, if_false]
  by_cases hI : Inner E k i
  · simp only [hI, decide_true, if_true]
    refine (gen _).trans ?_
    rw [set2_self, set2_ne _ _ _ _ hne, set2_ne _ _ _ _ hne.symm, set2_self]
    unfold join
    rw [if_pos hI]
    funext j l
    unfold put2
    by_cases h1 : j = k ∧ l = i
    · simp [h1]
    · by_cases h2 : j = kk ∧ l = ii
      · simp [h2]
      · simp only [h1, h2, or_self, if_false]
        simp only [set2, h1, h2, if_false]
  · simp only [hI, decide_false, Bool.false_eq_true, if_false]
    refine (gen _).trans ?_
    unfold join
    rw [if_neg hI]

/-- Marks given to the vertices of a boundary edge. -/
theorem give_freeze (f : Bool) (t u b : BitVec 16) (ht : special t = true) (hd : has t mgBDY = true) (hb : b ∈ bits) :
    ((special u && has u b) || (has t b || (f && decide (b = mgREQ)))) =
      (special (freeze f t u) && has (freeze f t u) b) := by
  have hs : special (freeze f t u) = true := by
    rw [freeze_eq]
    unfold special at *
    simp only [has_or]
    revert ht
    cases has t mgGEO <;> cases has t mgREF <;> cases has t mgREQ <;> simp
  rw [hs, has_freeze _ _ _ _ hb, Bool.true_and]
  cases hu : special u
  · unfold special at hu
    simp only [Bool.or_eq_false_iff] at hu
    simp only [bits, List.mem_cons, List.not_mem_nil, or_false] at hb
    rcases hb with rfl | rfl | rfl | rfl
    · simp [hu.1.2]
    · simp [hu.1.1]
    · simp [hu.2]
    · simp [hd]
  · rw [Bool.true_and, Bool.or_assoc]

theorem side_outer (h : E.adj k i = 0) (ncc pile) :
    ∃ pt, side E ncc k i s pile = ({ s with
        tag := set2 s.tag k i (freeze (E.nosurf || has (s.tag k i) mgPARBDY) (mgGEO ||| mgBDY) (s.tag k i)), ptag := pt }, pile) ∧
      ∀ r b, b ∈ bits → has (pt r) b = (has (s.ptag r) b ||
        (special (freeze (E.nosurf || has (s.tag k i) mgPARBDY) (mgGEO ||| mgBDY) (s.tag k i)) &&
         has (freeze (E.nosurf || has (s.tag k i) mgPARBDY) (mgGEO ||| mgBDY) (s.tag k i)) b &&
         (decide (r = E.v k (i + 1)) || decide (r = E.v k (i + 2))))) := by
  unfold side
  simp only [h, ne_eq, not_true_eq_false, if_false, if_true]
  refine ⟨_, rfl, ?_⟩
  intro r b hb
  have hp : has (freeze (E.nosurf || has (s.tag k i) mgPARBDY) (mgGEO ||| mgBDY) (s.tag k i)) mgPARBDY
      = has (s.tag k i) mgPARBDY := by
    rw [freeze_eq, has_or, has_or]
    split <;> simp [show has (mgGEO ||| mgBDY) mgPARBDY = false from by decide,
      show has (mgREQ ||| mgNOSURF) mgPARBDY = false from by decide, has_zero]
  rw [set2_self, hp, has_freezeP _ _ _ _ _ _ hb, has_freezeP _ _ _ _ _ _ hb, has_give]
  have := give_freeze (E.nosurf || has (s.tag k i) mgPARBDY) (mgGEO ||| mgBDY) (s.tag k i) b (by decide) (by decide) hb
  rw [← this]
  generalize has (s.ptag r) b = x0
  generalize special (s.tag k i) = x1
  generalize has (s.tag k i) b = x2
  generalize has (mgGEO ||| mgBDY) b = x3
  generalize decide (b = mgREQ) = x4
  generalize (E.nosurf || has (s.tag k i) mgPARBDY) = x5
  generalize decide (r = E.v k (i + 1)) = x6
  generalize decide (r = E.v k (i + 2)) = x7
  revert x0 x1 x2 x3 x4 x5 x6 x7
  decide

theorem side_inner (h : E.adj k i ≠ 0) (hne : nb E k i ≠ k) (ncc pile) :
    let x := s.tag k i
    let y := s.tag (nb E k i) (np E k i)
    ∃ pt, side E ncc k i s pile =
      (if Sep E k i (join E k i x y) then
        ({ s with tag := put2 s.tag k i (nb E k i) (np E k i) (newTag E k i x y), ptag := pt }, pile)
      else if s.cc (nb E k i) > 0 then
        ({ s with tag := put2 s.tag k i (nb E k i) (np E k i) (newTag E k i x y), ptag := pt }, pile)
      else
        (⟨put2 s.tag k i (nb E k i) (np E k i) (newTag E k i x y), set1 s.cc (nb E k i) ncc, pt⟩, nb E k i :: pile)) ∧
      ∀ r b, b ∈ bits → has (pt r) b = (has (s.ptag r) b || (special (newTag E k i x y) && has (newTag E k i x y) b &&
         (decide (r = E.v k (i + 1)) || decide (r = E.v k (i + 2))))) := by
  intro x y
  unfold side
  simp only [h, ne_eq, not_false_eq_true, if_true, if_false]
  have e := share_eq h hne s.tag
  rw [show E.adj k i / 3 = nb E k i from rfl, show m3 (E.adj k i) = np E k i from rfl, e]
  have hJ : join E k i (s.tag k i) (s.tag (nb E k i) (np E k i)) = join E k i x y := rfl
  rw [hJ]
  simp only [put2_l, put2_r]
  have hcond : ((E.opnbdy && (join E k i x y != 0#16 || join E k i x y != 0#16)) ||
      decide (¬ (E.ref (nb E k i)).natAbs = (E.ref k).natAbs)) = decide (Sep E k i (join E k i x y)) := by
    rw [Bool.eq_iff_iff]
    simp [Sep, or_comm]
  rw [hcond, new_eq]
  by_cases hS : Sep E k i (join E k i x y)
  · simp only [hS, decide_true, if_true]
    refine ⟨freezeP E.nosurf (mgREF ||| mgBDY) (freezeP E.nosurf (mgREF ||| mgBDY)
      (give s.ptag (E.v k (i + 1)) (E.v k (i + 2)) (join E k i x y)) (E.v k (i + 1))) (E.v k (i + 2)), ?_, ?_⟩
    · refine congrArg (fun t => ((⟨t, s.cc, _⟩ : St), pile)) ?_
      rw [set2_ne _ _ _ _ hne, put2_r]
      funext j l
      unfold put2 set2
      by_cases h1 : j = k ∧ l = i
      · by_cases h2 : j = nb E k i ∧ l = np E k i
        · simp [h1]
        · simp [h1]
      · by_cases h2 : j = nb E k i ∧ l = np E k i
        · simp [h2]
        · simp [h1, h2]
    · intro r b hb
      rw [has_freezeP _ _ _ _ _ _ hb, has_freezeP _ _ _ _ _ _ hb, has_give]
      have := give_freeze E.nosurf (mgREF ||| mgBDY) (join E k i x y) b (by decide) (by decide) hb
      rw [← this]
      generalize has (s.ptag r) b = x0
      generalize special (join E k i x y) = x1
      generalize has (join E k i x y) b = x2
      generalize has (mgREF ||| mgBDY) b = x3
      generalize decide (b = mgREQ) = x4
      generalize E.nosurf = x5
      generalize decide (r = E.v k (i + 1)) = x6
      generalize decide (r = E.v k (i + 2)) = x7
      revert x0 x1 x2 x3 x4 x5 x6 x7
      decide
  · simp only [hS, decide_false, Bool.false_eq_true, if_false]
    refine ⟨_, rfl, ?_⟩
    intro r b hb
    rw [has_give]

end Mmg.Edge2
