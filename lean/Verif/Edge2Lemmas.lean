/-
  C83: tags along one edge.
-/
import Verif.Edge2Spec
import Verif.OrientLemmas

namespace Mmg.Edge2
open Mmg.Orient (mgREF mgGEO mgREQ mgBDY mgNOSURF mgPARBDY has special set1 set2 m3 orP has_or has_zero)

variable {E : Env} {tag : Nat → Fin 3 → BitVec 16} {k : Nat} {i : Fin 3}

theorem wipe_or (x y : BitVec 16) : wipe x ||| wipe y = (x ||| y) &&& ~~~(mgREF ||| mgGEO ||| mgBDY) := by
  unfold wipe
  ext j h
  simp only [BitVec.getElem_or, BitVec.getElem_and, BitVec.getElem_not]
  cases x[j] <;> cases y[j] <;> cases mgREF[j] <;> cases mgBDY[j] <;> cases mgGEO[j] <;> rfl

theorem wipe_eq (x : BitVec 16) : wipe x = x &&& ~~~(mgREF ||| mgGEO ||| mgBDY) := by
  have := wipe_or x x
  rwa [BitVec.or_self, BitVec.or_self] at this

theorem wipe_wipe (x : BitVec 16) : wipe (wipe x) = wipe x := by
  unfold wipe
  ext j h
  simp only [BitVec.getElem_and, BitVec.getElem_not]
  cases x[j] <;> cases mgREF[j] <;> cases mgBDY[j] <;> cases mgGEO[j] <;> rfl

theorem freeze_eq (f : Bool) (t x : BitVec 16) :
    freeze f t x = x ||| t ||| (if has x mgREQ = false ∧ f = true then mgREQ ||| mgNOSURF else 0#16) := by
  unfold freeze
  cases has x mgREQ <;> cases f <;> simp [BitVec.or_assoc]

/-- The new tag of the two sides of an edge whose sides have the tags `x` and `y`. -/
def join (E : Env) (k : Nat) (i : Fin 3) (x y : BitVec 16) : BitVec 16 :=
  if Inner E k i then wipe x ||| wipe y else x ||| y

def newTag (E : Env) (k : Nat) (i : Fin 3) (x y : BitVec 16) : BitVec 16 :=
  if (E.ref (nb E k i)).natAbs ≠ (E.ref k).natAbs ∨ (E.opnbdy = true ∧ join E k i x y ≠ 0#16) then
    freeze E.nosurf (mgREF ||| mgBDY) (join E k i x y) else join E k i x y

theorem said_join (h : E.adj k i ≠ 0) : said E tag k i = join E k i (tag k i) (tag (nb E k i) (np E k i)) := by
  unfold said join
  rw [if_neg h]
  split
  · rw [wipe_or]
  · rfl

theorem due_new (h : E.adj k i ≠ 0) : due E tag k i = newTag E k i (tag k i) (tag (nb E k i) (np E k i)) := by
  unfold due newTag Interface Frozen
  simp only [said_join h]
  simp only [h, not_false_eq_true, ne_eq, true_and, false_or, if_false, false_and, or_false]
  generalize join E k i (tag k i) (tag (nb E k i) (np E k i)) = u
  by_cases hc : ¬(E.ref (nb E k i)).natAbs = (E.ref k).natAbs ∨ (E.opnbdy = true ∧ ¬ u = 0#16)
  · simp only [hc, true_and, if_true]
    rw [freeze_eq]
  · simp only [hc, false_and, if_false, BitVec.or_zero]

theorem join_self (u : BitVec 16) (h : Inner E k i → wipe u = u) : join E k i u u = u := by
  unfold join
  split
  · rename_i hi; rw [BitVec.or_self, h hi]
  · exact BitVec.or_self

theorem wipe_join (h : Inner E k i) (x y) : wipe (join E k i x y) = join E k i x y := by
  unfold join
  rw [if_pos h, wipe_or, ← wipe_eq, wipe_wipe]

theorem freeze_freeze (f : Bool) (t u : BitVec 16) : freeze f t (freeze f t u) = freeze f t u := by
  have h1 : has (freeze f t u) mgREQ = true ∨ f = false := by
    unfold freeze
    cases f <;> cases hu : has u mgREQ <;> simp [has_or, hu]
    exact Or.inl (Or.inr (by decide))
  have h2 : freeze f t u ||| t = freeze f t u := by
    unfold freeze
    split
    · ext j h
      simp only [BitVec.getElem_or]
      cases u[j] <;> cases t[j] <;> simp
    · ext j h
      simp only [BitVec.getElem_or]
      cases u[j] <;> cases t[j] <;> simp
  rw [freeze_eq f t (freeze f t u), h2, if_neg, BitVec.or_zero]
  rintro ⟨a, b⟩
  rcases h1 with h1 | h1
  · rw [h1] at a; exact absurd a (by decide)
  · rw [h1] at b; exact absurd b (by decide)

/-- Going over the edge once more changes nothing. -/
theorem new_new (x y : BitVec 16) : newTag E k i (newTag E k i x y) (newTag E k i x y) = newTag E k i x y := by
  by_cases hc : (E.ref (nb E k i)).natAbs ≠ (E.ref k).natAbs ∨ (E.opnbdy = true ∧ join E k i x y ≠ 0#16)
  · have hN : newTag E k i x y = freeze E.nosurf (mgREF ||| mgBDY) (join E k i x y) := by
      unfold newTag; rw [if_pos hc]
    have hni : ¬ Inner E k i := by
      rintro ⟨_, b, c⟩
      rcases hc with h | ⟨h, _⟩
      · exact h (by rw [c])
      · rw [b] at h; exact absurd h (by decide)
    have hj : join E k i (newTag E k i x y) (newTag E k i x y) = newTag E k i x y :=
      join_self _ (fun h => absurd h hni)
    have hz : newTag E k i x y ≠ 0#16 := by
      intro e
      have : has (newTag E k i x y) mgREF = true := by
        rw [hN, freeze_eq]
        simp only [has_or]
        simp [show has mgREF mgREF = true from by decide]
      rw [e, has_zero] at this
      exact absurd this (by decide)
    rw [newTag.eq_def E k i (newTag E k i x y), hj, if_pos, hN, freeze_freeze]
    rcases hc with h | ⟨h, _⟩
    · exact Or.inl h
    · exact Or.inr ⟨h, hz⟩
  · have hN : newTag E k i x y = join E k i x y := by
      unfold newTag; rw [if_neg hc]
    have hj : join E k i (newTag E k i x y) (newTag E k i x y) = newTag E k i x y := by
      refine join_self _ (fun h => ?_)
      rw [hN]; exact wipe_join h _ _
    rw [newTag.eq_def E k i (newTag E k i x y), hj, if_neg]
    rw [hN]; exact hc

theorem inner_back (G : Good E) (hk : Ex E k) (h : E.adj k i ≠ 0) :
    nb E (nb E k i) (np E k i) = k ∧ np E (nb E k i) (np E k i) = i ∧ E.adj (nb E k i) (np E k i) ≠ 0 := by
  have a := (G.link k i hk h).2.2
  have hi := i.isLt
  refine ⟨?_, ?_, ?_⟩
  · rw [nb, a]; omega
  · rw [np, a]
    apply Fin.ext
    show (3 * k + i.val) % 3 = i.val
    omega
  · rw [a]; have := hk.1; omega

theorem inner_sym (G : Good E) (hk : Ex E k) (h : E.adj k i ≠ 0) :
    Inner E (nb E k i) (np E k i) ↔ Inner E k i := by
  obtain ⟨a, _, c⟩ := inner_back G hk h
  unfold Inner
  rw [a]
  constructor
  · rintro ⟨_, x, y⟩; exact ⟨h, x, y.symm⟩
  · rintro ⟨_, x, y⟩; exact ⟨c, x, y.symm⟩

theorem new_sym (G : Good E) (hk : Ex E k) (h : E.adj k i ≠ 0) (x y) :
    newTag E (nb E k i) (np E k i) y x = newTag E k i x y := by
  obtain ⟨a, _, c⟩ := inner_back G hk h
  have hj : join E (nb E k i) (np E k i) y x = join E k i x y := by
    unfold join
    rw [BitVec.or_comm y x, BitVec.or_comm (wipe y)]
    simp only [inner_sym G hk h]
  unfold newTag
  rw [hj, a]
  simp only [ne_comm (a := (E.ref k).natAbs)]

/-- The two sides of an edge have to get the same tag. -/
theorem due_sym (G : Good E) (hk : Ex E k) (h : E.adj k i ≠ 0) : due E tag (nb E k i) (np E k i) = due E tag k i := by
  obtain ⟨a, b, c⟩ := inner_back G hk h
  rw [due_new h, due_new c, a, b, new_sym G hk h]

theorem said_sym (G : Good E) (hk : Ex E k) (h : E.adj k i ≠ 0) : said E tag (nb E k i) (np E k i) = said E tag k i := by
  obtain ⟨a, b, c⟩ := inner_back G hk h
  rw [said_join h, said_join c, a, b]
  unfold join
  rw [BitVec.or_comm (tag (nb E k i) (np E k i)), BitVec.or_comm (wipe (tag (nb E k i) (np E k i)))]
  simp only [inner_sym G hk h]

theorem interface_sym (G : Good E) (hk : Ex E k) (h : E.adj k i ≠ 0) :
    Interface E tag (nb E k i) (np E k i) ↔ Interface E tag k i := by
  obtain ⟨a, b, c⟩ := inner_back G hk h
  unfold Interface
  rw [said_sym G hk h, a, ne_comm (a := (E.ref k).natAbs)]
  simp only [ne_eq, h, c, not_false_eq_true, true_and]

/-- Outer sides. -/
theorem due_outer (h : E.adj k i = 0) :
    due E tag k i = freeze (E.nosurf || has (tag k i) mgPARBDY) (mgGEO ||| mgBDY) (tag k i) := by
  have hs : said E tag k i = tag k i := by unfold said; rw [if_pos h]
  rw [freeze_eq]
  unfold due Frozen
  simp only [hs]
  simp only [h, if_true, true_or, true_and, Bool.or_eq_true]

/-! ### Tags of vertices -/

/-- The marks that are followed exactly. -/
def bits : List (BitVec 16) := [mgREF, mgGEO, mgREQ, mgBDY]

theorem has_set1 (f : Nat → BitVec 16) (p q : Nat) (x b : BitVec 16) :
    has (set1 f p x q) b = if q = p then has x b else has (f q) b := by
  unfold set1; split <;> rfl

theorem has_give (pt : Nat → BitVec 16) (p q t b r) :
    has (give pt p q t r) b = (has (pt r) b || (special t && has t b && (decide (r = p) || decide (r = q)))) := by
  unfold give
  cases special t
  · simp
  · simp only [if_true, orP, has_set1]
    by_cases h1 : r = q
    · subst h1
      by_cases h2 : r = p
      · subst h2; simp [has_or, set1]
      · simp [has_or, set1, h2]
    · by_cases h2 : r = p
      · subst h2; simp [has_or, h1]
      · simp [h1, h2]

/-- Bits added by freezing. -/
theorem has_freeze (f : Bool) (t x b : BitVec 16) (hb : b ∈ bits) :
    has (freeze f t x) b = (has x b || has t b || (f && decide (b = mgREQ))) := by
  have e : has (mgREQ ||| mgNOSURF) b = decide (b = mgREQ) := by
    simp only [bits, List.mem_cons, List.not_mem_nil, or_false] at hb
    rcases hb with rfl | rfl | rfl | rfl <;> decide
  rw [freeze_eq, has_or, has_or]
  by_cases h : has x mgREQ = false ∧ f = true
  · rw [if_pos h, h.2, e]; simp
  · rw [if_neg h, has_zero]
    cases hf : f
    · simp
    · have hx : has x mgREQ = true := by
        cases hx : has x mgREQ
        · exact absurd ⟨hx, hf⟩ h
        · rfl
      by_cases hbr : b = mgREQ
      · subst hbr; simp [hx]
      · simp [hbr]

theorem has_freezeP (f : Bool) (t : BitVec 16) (pt : Nat → BitVec 16) (p r) (b) (hb : b ∈ bits) :
    has (freezeP f t pt p r) b = (has (pt r) b || ((has t b || (f && decide (b = mgREQ))) && decide (r = p))) := by
  unfold freezeP
  rw [has_set1]
  by_cases h : r = p
  · subst h; rw [if_pos rfl, has_freeze _ _ _ _ hb]; simp [Bool.or_assoc]
  · rw [if_neg h]; simp [h]

end Mmg.Edge2
