/-
Property C10: `MMG5_paktet` (mmg3d/hash_3d.c:50-81), on the element pool of `PoolModel`.
-/
import Verif.PoolProps
import Mathlib.Algebra.BigOperators.Group.Finset.Basic
import Mathlib.Algebra.Order.Group.Multiset
import Mathlib.Order.Interval.Finset.Nat
import Mathlib.Logic.Equiv.Basic

namespace Mmg.Pool

variable {α : Type}

/-! ### Model -/

/-- Body of the loop, hash_3d.c:56-62: fill the hole `k` with the last element and delete the
latter. `none`: out of bounds or failure of `delElt`. -/
def pakStep (zd : α) (p : Pool α) (k : Nat) : Option (Pool α) :=
  if p.cap < k then none
  else if (p.cell k).live then some p
  else
    let p1 := { p with cell := put p.cell k (p.cell p.top) }
    match delElt zd p1 p1.top with
    | some (q, true) => some q
    | _ => none

/-- `do { .. } while ( ++k < mesh->ne )`, hash_3d.c:54-64; running out of fuel is `none`. -/
def pakLoop (zd : α) : Nat → Nat → Pool α → Option (Pool α)
  | 0, _, _ => none
  | fuel + 1, k, p =>
    match pakStep zd p k with
    | none => none
    | some q => if k + 1 < q.top then pakLoop zd fuel (k + 1) q else some q

/-- `MMG5_paktet`, hash_3d.c:50-81. -/
def paktet (zd : α) (p : Pool α) : Option (Pool α) :=
  match pakLoop zd (p.top + 1) 1 p with
  | none => none
  | some q =>
    if q.top = q.cap then some { q with nil := 0 }
    else
      let cell := linkUp (q.top + 1) q.cap q.cell
      some { q with
        nil := q.top + 1
        cell := put cell q.cap { cell q.cap with link := 0 } }

/-! ### Specification -/

/-- The elements of the pool, with repetition: content of every valid slot. -/
def elements (p : Pool α) : Multiset (α × Nat) :=
  (((Finset.Icc 1 p.cap).filter (fun k => (p.cell k).live = true)).val).map
    (fun k => ((p.cell k).data, (p.cell k).link))

/-- The valid slots lie in `1..top` and `top` is one of them. -/
structure WellCounted (p : Pool α) : Prop where
  topcap : p.top ≤ p.cap
  top1 : 1 ≤ p.top
  toplive : (p.cell p.top).live = true
  above : ∀ k, p.top < k → k ≤ p.cap → (p.cell k).live = false

/-! ### Proofs -/

def contrib (c : Cell α) : Multiset (α × Nat) := if c.live = true then {(c.data, c.link)} else 0

theorem elements_eq_sum (p : Pool α) : elements p = ∑ k ∈ Finset.Icc 1 p.cap, contrib (p.cell k) := by
  unfold elements contrib
  rw [← Finset.sum_filter, Finset.sum_eq_multiset_sum]
  conv_lhs => rw [← Multiset.sum_map_singleton (Multiset.map _ _), Multiset.map_map]
  rfl

/-- One step keeps the elements and the counting, and makes slot `k` valid. -/
theorem pakStep_spec (zd : α) {p : Pool α} (h : WellCounted p) {k : Nat} (hk1 : 1 ≤ k)
    (hk : k ≤ p.top) :
    ∃ q, pakStep zd p k = some q ∧ WellCounted q ∧ q.cap = p.cap ∧ elements q = elements p ∧
      (∀ j, j ≤ k → (j = k ∨ (p.cell j).live = true) → (q.cell j).live = true) ∧
      k ≤ q.top ∧ q.top ≤ p.top := by
  have hcap := h.topcap
  unfold pakStep
  rw [if_neg (by omega)]
  by_cases hl : (p.cell k).live = true
  · rw [if_pos hl]
    exact ⟨p, rfl, h, rfl, rfl, fun j _ hj => by rcases hj with rfl | hj <;> assumption, hk, Nat.le_refl _⟩
  · rw [if_neg hl]
    have hkt : k ≠ p.top := fun e => hl (e ▸ h.toplive)
    have hl' : (p.cell k).live = false := by simpa using hl
    have htl : (put p.cell k (p.cell p.top) p.top).live = true := by
      rw [put_ne _ _ (Ne.symm hkt)]; exact h.toplive
    -- the pool after the deletion
    have hdel : delElt zd { p with cell := put p.cell k (p.cell p.top) } p.top =
        some ({ p with
          nil := p.top
          cell := put (put p.cell k (p.cell p.top)) p.top ⟨false, p.nil, zd⟩
          top := shrink (put (put p.cell k (p.cell p.top)) p.top ⟨false, p.nil, zd⟩) p.top }, true) := by
      unfold delElt
      simp only []
      rw [if_neg (by omega), if_pos htl]
      unfold delPt
      simp only []
      rw [if_neg (by omega), if_pos trivial]
      rfl
    simp only [hdel]
    refine ⟨_, rfl, ?_, rfl, ?_, ?_, ?_, ?_⟩
    · have hle := shrink_le (put (put p.cell k (p.cell p.top)) p.top ⟨false, p.nil, zd⟩) p.top
      have hkl : (put (put p.cell k (p.cell p.top)) p.top ⟨false, p.nil, zd⟩ k).live = true := by
        rw [put_ne _ _ hkt, put_same]; exact h.toplive
      have hge := le_shrink _ p.top k hk hkl
      constructor
      · show shrink _ p.top ≤ p.cap; omega
      · show 1 ≤ shrink _ p.top; omega
      · show (put (put p.cell k (p.cell p.top)) p.top ⟨false, p.nil, zd⟩ (shrink _ p.top)).live = true
        rcases shrink_live (put (put p.cell k (p.cell p.top)) p.top ⟨false, p.nil, zd⟩) p.top with h0 | h0
        · omega
        · exact h0
      · intro j j1 j2
        have j1' : shrink (put (put p.cell k (p.cell p.top)) p.top ⟨false, p.nil, zd⟩) p.top < j := j1
        show (put (put p.cell k (p.cell p.top)) p.top ⟨false, p.nil, zd⟩ j).live = false
        by_cases hjt : j ≤ p.top
        · by_contra hc
          have := le_shrink _ p.top j hjt (by simpa using hc)
          omega
        · rw [put_ne _ _ (by omega), put_ne _ _ (by omega)]
          exact h.above j (by omega) j2
    · rw [elements_eq_sum, elements_eq_sum]
      refine Finset.sum_equiv (Equiv.swap k p.top) ?_ ?_
      · intro i
        simp only [Finset.mem_Icc]
        by_cases h1 : i = k
        · subst h1; rw [Equiv.swap_apply_left]; omega
        · by_cases h2 : i = p.top
          · subst h2; rw [Equiv.swap_apply_right]; omega
          · rw [Equiv.swap_apply_of_ne_of_ne h1 h2]
      · intro i _
        show contrib (put (put p.cell k (p.cell p.top)) p.top ⟨false, p.nil, zd⟩ i) = _
        by_cases h1 : i = k
        · subst h1; rw [Equiv.swap_apply_left, put_ne _ _ hkt, put_same]
        · by_cases h2 : i = p.top
          · subst h2; rw [Equiv.swap_apply_right, put_same]
            simp [contrib, hl']
          · rw [Equiv.swap_apply_of_ne_of_ne h1 h2, put_ne _ _ h2, put_ne _ _ h1]
    · intro j hjk hj
      show (put (put p.cell k (p.cell p.top)) p.top ⟨false, p.nil, zd⟩ j).live = true
      rw [put_ne _ _ (by omega)]
      by_cases h1 : j = k
      · subst h1; rw [put_same]; exact h.toplive
      · rw [put_ne _ _ h1]; exact hj.resolve_left h1
    · refine le_shrink _ p.top k hk ?_
      rw [put_ne _ _ hkt, put_same]; exact h.toplive
    · exact shrink_le _ _

theorem pakLoop_spec (zd : α) : ∀ (fuel k : Nat) (p : Pool α), WellCounted p → 1 ≤ k → k ≤ p.top →
    p.top < k + fuel → (∀ j, 1 ≤ j → j < k → (p.cell j).live = true) →
    ∃ q, pakLoop zd fuel k p = some q ∧ WellCounted q ∧ q.cap = p.cap ∧ elements q = elements p ∧
      ∀ j, 1 ≤ j → j ≤ q.top → (q.cell j).live = true
  | 0, k, p, _, _, h2, h3, _ => by omega
  | fuel + 1, k, p, h, h1, h2, h3, h4 => by
    obtain ⟨q, e1, e2, e3, e4, e5, e6, e7⟩ := pakStep_spec zd h h1 h2
    rw [pakLoop, e1]
    simp only []
    have hlow : ∀ j, 1 ≤ j → j ≤ k → (q.cell j).live = true := by
      intro j j1 j2
      rcases Nat.lt_or_ge j k with hj | hj
      · exact e5 j j2 (Or.inr (h4 j j1 hj))
      · exact e5 j j2 (Or.inl (by omega))
    by_cases hk : k + 1 < q.top
    · rw [if_pos hk]
      obtain ⟨r, f1, f2, f3, f4, f5⟩ := pakLoop_spec zd fuel (k + 1) q e2 (by omega) (by omega) (by omega)
        (fun j j1 j2 => hlow j j1 (by omega))
      exact ⟨r, f1, f2, by rw [f3, e3], by rw [f4, e4], f5⟩
    · rw [if_neg hk]
      refine ⟨q, rfl, e2, e3, e4, ?_⟩
      intro j j1 j2
      rcases Nat.lt_or_ge k j with hj | hj
      · have : j = q.top := by omega
        subst this; exact e2.toplive
      · exact hlow j j1 hj

/-- **C10.** Packing an element array whose last counted slot is valid succeeds; afterwards the
first `ne` slots are all valid, no other slot is, the elements (with multiplicity) are the same as
before, their number is `ne`, and the free list is exactly `ne+1, ..., nemax`. -/
theorem C10_pack_keeps_elements (zd : α) (p : Pool α) (h : WellCounted p) :
    ∃ q, paktet zd p = some q ∧ q.cap = p.cap ∧ q.top ≤ q.cap ∧
      (∀ k, 1 ≤ k → k ≤ q.cap → ((q.cell k).live = true ↔ k ≤ q.top)) ∧
      elements q = elements p ∧ Multiset.card (elements p) = q.top ∧
      freeList q = List.range' (q.top + 1) (q.cap - q.top) := by
  obtain ⟨q, e1, e2, e3, e4, e5⟩ := pakLoop_spec zd (p.top + 1) 1 p h (Nat.le_refl _) h.top1 (by omega)
    (fun j j1 j2 => by omega)
  have hcap := e2.topcap
  have hiff : ∀ k, 1 ≤ k → k ≤ q.cap → ((q.cell k).live = true ↔ k ≤ q.top) := by
    intro k k1 k2
    refine ⟨fun hl => ?_, e5 k k1⟩
    by_contra hc
    have := e2.above k (by omega) k2
    rw [this] at hl; simp at hl
  have hcard : Multiset.card (elements p) = q.top := by
    rw [← e4]
    unfold elements
    rw [Multiset.card_map]
    have : (Finset.Icc 1 q.cap).filter (fun k => (q.cell k).live = true) = Finset.Icc 1 q.top := by
      ext k
      simp only [Finset.mem_filter, Finset.mem_Icc]
      constructor
      · rintro ⟨⟨a, b⟩, c⟩; exact ⟨a, (hiff k a b).1 c⟩
      · rintro ⟨a, b⟩; exact ⟨⟨a, by omega⟩, (hiff k a (by omega)).2 b⟩
    rw [this]
    show (Finset.Icc 1 q.top).card = _
    simp
  unfold paktet
  rw [e1]
  simp only []
  by_cases hfull : q.top = q.cap
  · rw [if_pos hfull]
    refine ⟨_, rfl, e3, hcap, hiff, e4, hcard, ?_⟩
    show follow q.cell (q.cap + 1) 0 = List.range' (q.top + 1) (q.cap - q.top)
    rw [hfull]; simp [follow]
  · rw [if_neg hfull]
    refine ⟨_, rfl, e3, hcap, ?_, ?_, hcard, ?_⟩
    · intro k k1 k2
      have : (put (linkUp (q.top + 1) q.cap q.cell) q.cap
          { linkUp (q.top + 1) q.cap q.cell q.cap with link := 0 } k).live = (q.cell k).live := by
        unfold put linkUp
        split
        · rename_i h1; subst h1; split <;> rfl
        · split <;> rfl
      show (put (linkUp (q.top + 1) q.cap q.cell) q.cap
          { linkUp (q.top + 1) q.cap q.cell q.cap with link := 0 } k).live = true ↔ _
      rw [this]; exact hiff k k1 k2
    · rw [← e4, elements_eq_sum, elements_eq_sum]
      refine Finset.sum_congr rfl ?_
      intro k hk
      have hk' : 1 ≤ k ∧ k ≤ q.cap := Finset.mem_Icc.1 hk
      show contrib (put (linkUp (q.top + 1) q.cap q.cell) q.cap
          { linkUp (q.top + 1) q.cap q.cell q.cap with link := 0 } k) = _
      by_cases hkt : k ≤ q.top
      · have : put (linkUp (q.top + 1) q.cap q.cell) q.cap
          { linkUp (q.top + 1) q.cap q.cell q.cap with link := 0 } k = q.cell k := by
          rw [put_ne _ _ (by omega)]
          unfold linkUp; rw [if_neg (by omega)]
        rw [this]
      · have hd := e2.above k (by omega) hk'.2
        have : (put (linkUp (q.top + 1) q.cap q.cell) q.cap
          { linkUp (q.top + 1) q.cap q.cell q.cap with link := 0 } k).live = false := by
          unfold put linkUp
          split
          · rename_i h1; subst h1; split <;> exact hd
          · split <;> exact hd
        unfold contrib
        rw [this, hd]; rfl
    · unfold freeList
      apply follow_chain
      · have hc := chain_range (put (linkUp (q.top + 1) q.cap q.cell) q.cap
          { linkUp (q.top + 1) q.cap q.cell q.cap with link := 0 }) (q.cap - q.top) (q.top + 1)
          (by omega) ?_ ?_
        · rw [if_neg (by omega)] at hc; exact hc
        · intro k k1 k2
          rw [put_ne _ _ (by omega)]
          unfold linkUp; rw [if_pos ⟨k1, by omega⟩]
        · intro _
          have : q.top + 1 + (q.cap - q.top) - 1 = q.cap := by omega
          rw [this, put_same]
      · simp only [List.length_range']
        show q.cap - q.top ≤ q.cap + 1
        omega

/-- Holes at 1, 3 and 4 in an array of 5 elements. -/
def exPak : Pool Nat :=
  { cap := 8, top := 5, nil := 3,
    cell := fun k => if k = 2 ∨ k = 5 then ⟨true, 7, 10 * k⟩ else ⟨false, 0, 0⟩ }

example : WellCounted exPak := by
  refine ⟨by decide, by decide, by decide, ?_⟩
  intro k h1 h2
  have : 5 < k := h1
  show (if k = 2 ∨ k = 5 then _ else _ : Cell Nat).live = false
  rw [if_neg (by omega)]

example : (paktet 0 exPak).map (fun q => (q.top, (q.cell 1).data, (q.cell 2).data, freeList q)) =
    some (2, 50, 20, [3, 4, 5, 6, 7, 8]) := by decide

/-- Every reachable element pool with at least one element, whose loaded part ends with a valid
element, satisfies the hypothesis of C10. -/
theorem C10_reachable_pools_can_be_packed {z : Cell α} {zd : α} (hz : z.link = 0)
    (hzl : z.live = false) {p : Pool α} {S : Nat → Option α} (hE : ReachE z zd p S)
    (hT : ReachTop z zd p S) (hne : ∃ k, S k ≠ none) : WellCounted p := by
  obtain ⟨_, hl⟩ := hE.reach hz hzl
  have h8 := C08_point_slots hz hT.reach
  rcases C08_count_is_highest_used hz hT with ⟨_, h⟩ | ⟨h1, h2⟩
  · obtain ⟨k, hk⟩ := hne; exact absurd (h k) hk
  · obtain ⟨d, hd⟩ := Option.ne_none_iff_exists'.1 h1
    have h3 := h8.1 _ _ hd
    refine ⟨h8.2.1, h3.1, h3.2.2.1, ?_⟩
    intro k k1 k2
    by_contra hc
    have := h2 k ((hl k (by omega) k2).1 (by simpa using hc))
    omega

end Mmg.Pool
