/-
Properties C08 (points) and C09 (elements): slots are allocated at most once, contents of used
slots are kept, deleted slots are recycled, the counters bound the used slots.
-/
import Verif.PoolLemmas
import Mathlib.Data.List.Perm.Subperm
import Mathlib.Data.Finset.Card

namespace Mmg.Pool

variable {α : Type}

/-! ### Specification: histories coupled with the map of used slots -/

/-- `Reach z zd B p S`: some history of creations, deletions of used slots and scratch writes,
starting from a freshly allocated pool with `n < cap` loaded slots, ends in pool `p`; `S` maps each
used slot to the content given at creation (or at loading). -/
inductive Reach (z : Cell α) (zd : α) : Pool α → (Nat → Option α) → Prop
  | init {cap n : Nat} (ld : Nat → Cell α) (h : n < cap) :
      Reach z zd (alloc z cap n ld)
        (fun k => if 1 ≤ k ∧ k ≤ n ∧ (ld k).live = true then some (ld k).data else none)
  | new {p p' S r} (d : α) (x : Nat) (gap : Option Nat) (hg : ∀ g, gap = some g → 1 ≤ g)
      (hr : Reach z zd p S) (h : create z p d x gap = some (p', r)) (h0 : r ≠ 0) :
      Reach z zd p' (put S r (some d))
  | newFail {p p' S} (d : α) (x : Nat) (gap : Option Nat) (hg : ∀ g, gap = some g → 1 ≤ g)
      (hr : Reach z zd p S) (h : create z p d x gap = some (p', 0)) : Reach z zd p' S
  | del {p p' S k} (hr : Reach z zd p S) (hk : S k ≠ none) (h : delPt zd p k = some p') :
      Reach z zd p' (put S k none)
  | scr {p S k} (x : Nat) (hr : Reach z zd p S) (hk : S k ≠ none) : Reach z zd (scribble p k x) S

/-- The free slots in the order in which they will be given, read by following the links. -/
def follow (cell : Nat → Cell α) : Nat → Nat → List Nat
  | 0, _ => []
  | fuel + 1, n => if n = 0 then [] else n :: follow cell fuel (cell n).link

def freeList (p : Pool α) : List Nat := follow p.cell (p.cap + 1) p.nil

theorem follow_chain (cell : Nat → Cell α) : ∀ (L : List Nat) (n fuel : Nat), Chain cell n L →
    L.length ≤ fuel → follow cell fuel n = L
  | [], n, fuel, h, _ => by
    have : n = 0 := h
    subst this
    cases fuel <;> simp [follow]
  | a :: t, n, 0, _, hl => by simp at hl
  | a :: t, n, fuel + 1, ⟨h1, h2, h3⟩, hl => by
    subst h1
    rw [follow, if_neg h2, follow_chain cell t _ fuel h3 (by simpa using hl)]

theorem nodup_length_le {L : List Nat} {N : Nat} (hn : L.Nodup) (h : ∀ k ∈ L, 1 ≤ k ∧ k ≤ N) :
    L.length ≤ N := by
  have hs : L ⊆ List.range' 1 N := fun k hk => by
    rw [List.mem_range'_1]; have := h k hk; omega
  have := (hn.subperm hs).length_le
  simpa using this

theorem Inv.free {z : Cell α} {B p S D f e} (I : Inv (α := α) z B p S D f e) :
    freeList p = D ++ List.range' f (e - f) ∧ (D ++ List.range' f (e - f)).Nodup ∧
    ∀ k ∈ D ++ List.range' f (e - f), 1 ≤ k ∧ k ≤ p.cap ∧ S k = none := by
  have hf1 := I.f1; have hfe := I.fe; have hec := I.ecap
  have hnd : (D ++ List.range' f (e - f)).Nodup := by
    refine List.nodup_append'.2 ⟨I.nodup, List.nodup_range', ?_⟩
    intro a h1 h2
    have := (I.Dlt a h1).2.1
    have := (List.mem_range'_1.1 h2).1
    omega
  have hin : ∀ k ∈ D ++ List.range' f (e - f), 1 ≤ k ∧ k ≤ p.cap ∧ S k = none := by
    intro k hk
    rcases List.mem_append.1 hk with hk | hk
    · obtain ⟨h1, h2, h3⟩ := I.Dlt k hk
      refine ⟨h1, by omega, ?_⟩
      cases hS : S k with
      | none => rfl
      | some d => have := (I.used k d hS).2.2.1; rw [h3] at this; simp at this
    · have := List.mem_range'_1.1 hk
      refine ⟨by omega, by omega, ?_⟩
      cases hS : S k with
      | none => rfl
      | some d => have := (I.used k d hS).2.1; omega
  refine ⟨?_, hnd, hin⟩
  apply follow_chain _ _ _ _ I.chain
  have := nodup_length_le hnd (fun k hk => ⟨(hin k hk).1, (hin k hk).2.1⟩)
  omega

theorem create_cases {z : Cell α} (hz : z.link = 0) {B p S D f e} (I : Inv (α := α) z B p S D f e)
    (d : α) (x : Nat) (gap : Option Nat) (hg : ∀ g, gap = some g → 1 ≤ g) :
    (p.nil = 0 ∧ gap = none ∧ create z p d x gap = some (p, 0)) ∨
    ∃ p' r, create z p d x gap = some (p', r) ∧ 1 ≤ r ∧ r ≤ p'.cap ∧ S r = none ∧
      p.cap ≤ p'.cap ∧ p'.top = max p.top r ∧ (p.nil ≠ 0 → r = p.nil ∧ p'.cap = p.cap) ∧
      ∃ D' f' e', Inv z B p' (put S r (some d)) D' f' e' := by
  by_cases h0 : p.nil = 0
  · have hns : newSlot p d x = some (p, 0) := by rw [newSlot, if_pos h0]
    cases gap with
    | none => left; exact ⟨h0, rfl, by rw [create, hns]; rfl⟩
    | some g =>
      right
      have I' := realloc_inv hz I h0 (hg g rfl)
      have hn' : (realloc z p g).nil ≠ 0 := by show p.top + 1 ≠ 0; omega
      obtain ⟨p', r, h1, h2, h3, h4, h5, h6, h7, D', f', h8⟩ := newSlot_inv I' d x hn'
      refine ⟨p', r, ?_, h3, h4, h6, ?_, ?_, fun h => absurd h0 h, D', f', _, h8⟩
      · rw [create, hns]
        exact h1
      · rw [h5]; show p.cap ≤ p.cap + g; omega
      · rw [h7]
        show (if p.top < r then r else p.top) = max p.top r
        rw [Nat.max_def]; split <;> split <;> omega
  · right
    obtain ⟨p', r, h1, h2, h3, h4, h5, h6, h7, D', f', h8⟩ := newSlot_inv I d x h0
    refine ⟨p', r, ?_, h3, h4, h6, Nat.le_of_eq h5.symm, ?_, fun _ => ⟨h2, h5⟩, D', f', e, h8⟩
    · rw [create, h1]
      have : r ≠ 0 := by omega
      simp only [this, if_false]
    · rw [h7, Nat.max_def]; split <;> split <;> omega

theorem Reach.inv {z : Cell α} {zd : α} (hz : z.link = 0) {p : Pool α} {S : Nat → Option α}
    (h : Reach z zd p S) : ∃ B D f e, Inv z B p S D f e := by
  induction h with
  | init ld h => exact ⟨_, _, _, _, alloc_inv z hz h ld⟩
  | new d x gap hg hr h h0 ih =>
    obtain ⟨B, D, f, e, I⟩ := ih
    rcases create_cases hz I d x gap hg with ⟨_, _, h'⟩ | ⟨p', r, h', _, _, _, _, _, _, D', f', e', I'⟩
    · rw [h'] at h; simp at h; exact absurd h.2.symm h0
    · rw [h'] at h; simp at h; obtain ⟨rfl, rfl⟩ := h
      exact ⟨_, _, _, _, I'⟩
  | newFail d x gap hg hr h ih =>
    obtain ⟨B, D, f, e, I⟩ := ih
    rcases create_cases hz I d x gap hg with ⟨_, _, h'⟩ | ⟨p', r, h', h1, _, _, _, _, _, D', f', e', I'⟩
    · rw [h'] at h; simp at h; subst h; exact ⟨_, _, _, _, I⟩
    · rw [h'] at h; simp at h; omega
  | del hr hk h ih =>
    obtain ⟨B, D, f, e, I⟩ := ih
    obtain ⟨p', h', _, _, _, _, I', _⟩ := delPt_inv I zd hk
    rw [h'] at h; simp at h; subst h
    exact ⟨_, _, _, _, I'⟩
  | scr x hr hk ih =>
    obtain ⟨B, D, f, e, I⟩ := ih
    exact ⟨_, _, _, _, scribble_inv I x hk⟩

/-! ### C08 -/

/-- **C08.** In every reachable pool: (1) used slots keep their content, are valid and lie in
`1..top ≤ cap`; (2) a creation never leaves the array; it returns 0 only when the free list is
empty and growth is refused; otherwise it returns a slot that was not in use, in range, and the
counter becomes the maximum of its value and the slot; (3) deleting a used slot never leaves the
array and the next creation returns precisely this slot; (4) the free list is duplicate free,
disjoint from the used slots, a creation pops it and a deletion pushes on it. -/
theorem C08_point_slots {z : Cell α} {zd : α} (hz : z.link = 0) {p : Pool α} {S : Nat → Option α}
    (h : Reach z zd p S) :
    (∀ k d, S k = some d → 1 ≤ k ∧ k ≤ p.top ∧ (p.cell k).live = true ∧ (p.cell k).data = d) ∧
    p.top ≤ p.cap ∧
    (∀ d x gap, (∀ g, gap = some g → 1 ≤ g) → ∃ p' r, create z p d x gap = some (p', r) ∧
      (r = 0 → freeList p = [] ∧ gap = none ∧ p' = p) ∧
      (r ≠ 0 → S r = none ∧ r ≤ p'.cap ∧ p'.top = max p.top r) ∧
      (freeList p ≠ [] → freeList p = r :: freeList p' ∧ p'.cap = p.cap)) ∧
    (∀ k, S k ≠ none → ∃ p', delPt zd p k = some p' ∧ freeList p' = k :: freeList p ∧
      p'.cap = p.cap ∧
      ∀ d x gap, ∃ p'', create z p' d x gap = some (p'', k)) ∧
    (freeList p).Nodup ∧ (∀ k ∈ freeList p, 1 ≤ k ∧ k ≤ p.cap ∧ S k = none) := by
  obtain ⟨B, D, f, e, I⟩ := h.inv hz
  have hF := I.free
  refine ⟨I.used, ?_, ?_, ?_, ?_, ?_⟩
  · have := I.f1; have := I.fe; have := I.ecap; omega
  · intro d x gap hg
    rcases create_cases hz I d x gap hg with ⟨h0, h1, h2⟩ | ⟨p', r, h1, h2, h3, h4, h5, h6, h7, D', f', e', I'⟩
    · have hfl : freeList p = [] := by
        unfold freeList; rw [h0]; simp [follow]
      exact ⟨p, 0, h2, fun _ => ⟨hfl, h1, rfl⟩, fun h => absurd rfl h, fun h => absurd hfl h⟩
    · refine ⟨p', r, h1, fun h0 => by omega, fun _ => ⟨h4, h3, h6⟩, ?_⟩
      intro hne
      have hn : p.nil ≠ 0 := by
        intro h0; apply hne; unfold freeList; rw [h0]; simp [follow]
      obtain ⟨rfl, hcap⟩ := h7 hn
      refine ⟨?_, hcap⟩
      -- the new list is the tail of the old one
      have hc := I.chain
      rw [hF.1]
      have hlen := nodup_length_le hF.2.1 (fun k hk => ⟨(hF.2.2 k hk).1, (hF.2.2 k hk).2.1⟩)
      have hnd := hF.2.1
      revert hc hlen hnd
      generalize D ++ List.range' f (e - f) = L
      intro hc hlen hnd
      cases L with
      | nil => exact absurd hc hn
      | cons a t =>
        obtain ⟨c1, c2, c3⟩ := hc
        have hp' : p' = { p with
            top := if p.top < p.nil then p.nil else p.top
            nil := (p.cell p.nil).link
            cell := put p.cell p.nil ⟨true, x, d⟩ } := by
          have hle : ¬ p.cap < p.nil := by omega
          have : newSlot p d x = some ({ p with
            top := if p.top < p.nil then p.nil else p.top
            nil := (p.cell p.nil).link
            cell := put p.cell p.nil ⟨true, x, d⟩ }, p.nil) := by
            rw [newSlot, if_neg hn, if_neg hle]
          rw [create, this] at h1
          simp only [hn, if_false] at h1
          simpa using h1.symm
        have hct : Chain p'.cell p'.nil t := by
          rw [hp']
          show Chain (put p.cell p.nil _) (p.cell p.nil).link t
          rw [c1]
          refine Chain.congr c3 ?_
          intro b hb
          have : b ≠ a := by rintro rfl; exact (List.nodup_cons.1 hnd).1 hb
          rw [put_ne _ _ this]
        have : freeList p' = t := by
          apply follow_chain _ _ _ _ hct
          rw [hcap]
          simp only [List.length_cons] at hlen; omega
        rw [this, c1]
  · intro k hk
    obtain ⟨p', h', hn, hcap, _, _, I', _⟩ := delPt_inv I zd hk
    refine ⟨p', h', ?_, hcap, ?_⟩
    · rw [I'.free.1, hF.1]; rfl
    · intro d x gap
      have hk0 : p'.nil ≠ 0 := by
        obtain ⟨d', hd'⟩ := Option.ne_none_iff_exists'.1 hk
        have := (I.used k d' hd').1; omega
      obtain ⟨p'', r, h1, h2, h3, _⟩ := newSlot_inv I' d x hk0
      refine ⟨p'', ?_⟩
      rw [create, h1]
      have : r ≠ 0 := by omega
      simp only [this, if_false]
      rw [h2, hn]
  · rw [hF.1]; exact hF.2.1
  · rw [hF.1]; exact hF.2.2

/-- **C08, counter.** If the last loaded slot is valid (or nothing is loaded), the counter always is
the highest used slot (0 when there is none). -/
inductive ReachTop (z : Cell α) (zd : α) : Pool α → (Nat → Option α) → Prop
  | init {cap n : Nat} (ld : Nat → Cell α) (h : n < cap) (hl : n = 0 ∨ (ld n).live = true) :
      ReachTop z zd (alloc z cap n ld)
        (fun k => if 1 ≤ k ∧ k ≤ n ∧ (ld k).live = true then some (ld k).data else none)
  | new {p p' S r} (d : α) (x : Nat) (gap : Option Nat) (hg : ∀ g, gap = some g → 1 ≤ g)
      (hr : ReachTop z zd p S) (h : create z p d x gap = some (p', r)) (h0 : r ≠ 0) :
      ReachTop z zd p' (put S r (some d))
  | newFail {p p' S} (d : α) (x : Nat) (gap : Option Nat) (hg : ∀ g, gap = some g → 1 ≤ g)
      (hr : ReachTop z zd p S) (h : create z p d x gap = some (p', 0)) : ReachTop z zd p' S
  | del {p p' S k} (hr : ReachTop z zd p S) (hk : S k ≠ none) (h : delPt zd p k = some p') :
      ReachTop z zd p' (put S k none)
  | scr {p S k} (x : Nat) (hr : ReachTop z zd p S) (hk : S k ≠ none) : ReachTop z zd (scribble p k x) S

theorem ReachTop.reach {z : Cell α} {zd : α} {p : Pool α} {S : Nat → Option α}
    (h : ReachTop z zd p S) : Reach z zd p S := by
  induction h with
  | init ld h _ => exact .init ld h
  | new d x gap hg hr h h0 ih => exact .new d x gap hg ih h h0
  | newFail d x gap hg hr h ih => exact .newFail d x gap hg ih h
  | del hr hk h ih => exact .del ih hk h
  | scr x hr hk ih => exact .scr x ih hk

theorem C08_count_is_highest_used {z : Cell α} {zd : α} (hz : z.link = 0) {p : Pool α}
    {S : Nat → Option α} (h : ReachTop z zd p S) :
    (p.top = 0 ∧ ∀ k, S k = none) ∨ (S p.top ≠ none ∧ ∀ k, S k ≠ none → k ≤ p.top) := by
  have hb : ∀ k, S k ≠ none → 1 ≤ k ∧ k ≤ p.top := by
    intro k hk
    obtain ⟨d, hd⟩ := Option.ne_none_iff_exists'.1 hk
    have := (C08_point_slots hz h.reach).1 k d hd
    exact ⟨this.1, this.2.1⟩
  have key : p.top = 0 ∨ S p.top ≠ none := by
    clear hb
    induction h with
    | @init cap n ld h hl =>
      show n = 0 ∨ _
      rcases hl with hl | hl
      · exact Or.inl hl
      · by_cases hn : n = 0
        · exact Or.inl hn
        · right
          show (if 1 ≤ n ∧ n ≤ n ∧ (ld n).live = true then _ else _) ≠ none
          rw [if_pos ⟨by omega, Nat.le_refl _, hl⟩]; simp
    | @new p p' S r d x gap hg hr h h0 ih =>
      right
      obtain ⟨B, D, f, e, I⟩ := hr.reach.inv hz
      rcases create_cases hz I d x gap hg with ⟨_, _, h'⟩ | ⟨q, r', h', h1, _, h4, _, h6, _⟩
      · rw [h'] at h; simp at h; exact absurd h.2.symm h0
      · rw [h'] at h; simp at h; obtain ⟨rfl, rfl⟩ := h
        rw [h6]
        by_cases hr' : max p.top r' = r'
        · rw [hr', put_same]; simp
        · rw [put_ne _ _ hr']
          have : max p.top r' = p.top := by rw [Nat.max_def] at hr' ⊢; split at hr' <;> simp_all
          rw [this]
          rcases ih with ih | ih
          · rw [ih] at hr'; simp at hr'
          · exact ih
    | newFail d x gap hg hr h ih =>
      obtain ⟨B, D, f, e, I⟩ := hr.reach.inv hz
      rcases create_cases hz I d x gap hg with ⟨_, _, h'⟩ | ⟨q, r', h', h1, _⟩
      · rw [h'] at h; simp at h; subst h; exact ih
      · rw [h'] at h; simp at h; omega
    | @del p p' S k hr hk h ih =>
      obtain ⟨B, D, f, e, I⟩ := hr.reach.inv hz
      obtain ⟨q, h', _, _, _, h5, _, h7⟩ := delPt_inv I zd hk
      rw [h'] at h; simp at h; subst h
      by_cases hkt : k = p.top
      · exact h7 hkt
      · rw [h5 hkt, put_ne _ _ (Ne.symm hkt)]; exact ih
    | scr x hr hk ih => exact ih
  rcases key with h0 | h0
  · left
    refine ⟨h0, fun k => ?_⟩
    cases hS : S k with
    | none => rfl
    | some d => have := hb k (by rw [hS]; simp); omega
  · exact Or.inr ⟨h0, fun k hk => (hb k hk).2⟩

/-- Points of a mesh: a zeroed point has tag 0, hence is "valid". -/
def zPt : Cell Nat := ⟨true, 0, 0⟩

/-- Non-trivial history: 2 loaded points, capacity 4, one creation, deletion of point 1, two
creations (the second after growing by 2). -/
example : ∃ p S, Reach zPt 0 p S ∧ S 1 = some 50 ∧ S 3 = some 70 ∧ S 4 = some 60 ∧ p.top = 4 ∧
    freeList p = [5] := by
  refine ⟨_, _, Reach.new 60 0 (some 2) (by simp)
    (Reach.new (p' := _) (r := 1) 50 0 none (by simp)
      (Reach.del (k := 1)
        (Reach.new (p' := _) (r := 3) 70 0 none (by simp)
          (Reach.init (cap := 4) (n := 2) (fun k => ⟨true, 0, 10 * k⟩) (by decide)) rfl (by decide))
        (by decide) rfl) rfl (by decide)) rfl (by decide), ?_⟩
  decide

/-- The precondition "delete only used points" is needed: `delPt` does not check, and deleting the
same point twice makes the same slot be returned twice. -/
theorem C08_double_delete_corrupts : ∃ p p1 p2 p3 p4 : Pool Nat,
    p = alloc zPt 10 3 (fun k => ⟨true, 0, k⟩) ∧
    delPt 0 p 2 = some p1 ∧ delPt 0 p1 2 = some p2 ∧
    newSlot p2 77 0 = some (p3, 2) ∧ newSlot p3 88 2 = some (p4, 2) :=
  ⟨_, _, _, _, _, rfl, rfl, rfl, rfl, rfl⟩

/-- The precondition `n < cap` on allocation is needed: when the memory option leaves no room
(`npmax = np`), the free chain starts one slot above the array and the first creation leaves it. -/
theorem C08_full_allocation_overflows (n : Nat) (ld : Nat → Cell α) (z : Cell α) (d : α) (x : Nat) :
    newSlot (alloc z n n ld) d x = none := by
  have h1 : (alloc z n n ld).nil = n + 1 := rfl
  have h2 : (alloc z n n ld).cap = n := rfl
  rw [newSlot, h1, h2, if_neg (by omega), if_pos (by omega)]

/-- When the growth of the `xpoint` table is refused, `newPt` answers 0 but the slot has left the
free list: it is lost (neither used nor free), and the counter has moved. -/
theorem C08_failed_boundary_creation_leaks : ∃ p p' : Pool Nat,
    p = alloc zPt 10 3 (fun k => ⟨true, 0, k⟩) ∧ newPtBdy p 77 false = some (p', 0) ∧
    4 ∈ freeList p ∧ 4 ∉ freeList p' ∧ p.top = 3 ∧ p'.top = 4 := by
  refine ⟨_, _, rfl, rfl, ?_⟩
  decide

/-! ### C09 -/

/-- Histories on elements; deletions are arbitrary (also of unused elements). -/
inductive ReachE (z : Cell α) (zd : α) : Pool α → (Nat → Option α) → Prop
  | init {cap n : Nat} (ld : Nat → Cell α) (h : n < cap) :
      ReachE z zd (alloc z cap n ld)
        (fun k => if 1 ≤ k ∧ k ≤ n ∧ (ld k).live = true then some (ld k).data else none)
  | new {p p' S r} (d : α) (x : Nat) (gap : Option Nat) (hg : ∀ g, gap = some g → 1 ≤ g)
      (hr : ReachE z zd p S) (h : create z p d x gap = some (p', r)) (h0 : r ≠ 0) :
      ReachE z zd p' (put S r (some d))
  | newFail {p p' S} (d : α) (x : Nat) (gap : Option Nat) (hg : ∀ g, gap = some g → 1 ≤ g)
      (hr : ReachE z zd p S) (h : create z p d x gap = some (p', 0)) : ReachE z zd p' S
  | del {p p' S k} (hr : ReachE z zd p S) (hk : 1 ≤ k) (h : delElt zd p k = some (p', true)) :
      ReachE z zd p' (put S k none)
  | delRefused {p p' S k} (hr : ReachE z zd p S) (hk : 1 ≤ k) (h : delElt zd p k = some (p', false)) :
      ReachE z zd p' S
  | scr {p S k} (x : Nat) (hr : ReachE z zd p S) (hk : S k ≠ none) : ReachE z zd (scribble p k x) S

/-- In an element pool (zeroed cells are not valid) validity is exactly use. -/
theorem ReachE.reach {z : Cell α} {zd : α} (hz : z.link = 0) (hzl : z.live = false)
    {p : Pool α} {S : Nat → Option α} (h : ReachE z zd p S) :
    Reach z zd p S ∧ ∀ k, 1 ≤ k → k ≤ p.cap → ((p.cell k).live = true ↔ S k ≠ none) := by
  -- valid ⇒ used is the part to be carried; used ⇒ valid comes from the invariant
  have conv : ∀ {p : Pool α} {S}, Reach z zd p S → ∀ k, S k ≠ none → (p.cell k).live = true := by
    intro p S hr k hk
    obtain ⟨d, hd⟩ := Option.ne_none_iff_exists'.1 hk
    exact ((C08_point_slots hz hr).1 k d hd).2.2.1
  suffices hs : Reach z zd p S ∧ ∀ k, 1 ≤ k → k ≤ p.cap → (p.cell k).live = true → S k ≠ none from
    ⟨hs.1, fun k h1 h2 => ⟨hs.2 k h1 h2, conv hs.1 k⟩⟩
  induction h with
  | @init cap n ld h =>
    refine ⟨.init ld h, ?_⟩
    intro k h1 h2 h3
    have h3' : (linkUp (n + 1) (cap - 1) (fun k => if 1 ≤ k ∧ k ≤ n then ld k else z) k).live = true := h3
    unfold linkUp at h3'
    have h4 : (if 1 ≤ k ∧ k ≤ n then ld k else z).live = true := by
      split at h3' <;> exact h3'
    split at h4
    · rename_i h5
      show (if 1 ≤ k ∧ k ≤ n ∧ (ld k).live = true then _ else _) ≠ none
      rw [if_pos ⟨h5.1, h5.2, h4⟩]; simp
    · rw [hzl] at h4; simp at h4
  | @new p p' S r d x gap hg hr h h0 ih =>
    obtain ⟨ih1, ih2⟩ := ih
    refine ⟨.new d x gap hg ih1 h h0, ?_⟩
    intro k k1 k2 k3
    by_cases hkr : k = r
    · subst hkr; rw [put_same]; simp
    · rw [put_ne _ _ hkr]
      -- the cell is unchanged or comes from the growth
      have hns : ∀ (q q' : Pool α) (s : Nat), newSlot q d x = some (q', s) → s ≠ 0 →
          q'.cell = put q.cell s ⟨true, x, d⟩ ∧ q'.cap = q.cap := by
        intro q q' s hq hs
        unfold newSlot at hq
        split at hq
        · simp at hq; exact absurd hq.2.symm hs
        · split at hq
          · simp at hq
          · simp at hq; obtain ⟨rfl, rfl⟩ := hq; exact ⟨rfl, rfl⟩
      unfold create at h
      cases hq : newSlot p d x with
      | none => rw [hq] at h; simp at h
      | some v =>
        obtain ⟨q, s⟩ := v
        rw [hq] at h
        simp only [] at h
        by_cases hs : s = 0
        · rw [if_pos hs] at h
          have hqp : q = p ∧ p.nil = 0 := by
            unfold newSlot at hq
            split at hq
            · rename_i hnil
              simp at hq; exact ⟨hq.1.symm, hnil⟩
            · split at hq
              · simp at hq
              · rename_i hnil _; simp at hq; exact absurd (hq.2.trans hs) hnil
          cases gap with
          | none => simp at h; exact absurd h.2.symm h0
          | some g =>
            simp only [] at h
            obtain ⟨e1, e2⟩ := hns _ _ _ h h0
            rw [e1, put_ne _ _ hkr] at k3
            rw [hqp.1] at k3 e2
            have k3' : (if p.cap < k then z else p.cell k).live = true := by
              have : (linkUp (p.top + 1) (p.cap + g - 1)
                (fun k => if p.cap < k then z else p.cell k) k).live = true := k3
              unfold linkUp at this
              split at this <;> exact this
            split at k3'
            · rw [hzl] at k3'; simp at k3'
            · rename_i hc; exact ih2 k k1 (by omega) k3'
        · rw [if_neg hs] at h
          simp at h; obtain ⟨rfl, rfl⟩ := h
          obtain ⟨e1, e2⟩ := hns _ _ _ hq h0
          rw [e1, put_ne _ _ hkr] at k3
          exact ih2 k k1 (by omega) k3
  | @newFail p p' S d x gap hg hr h ih =>
    obtain ⟨ih1, ih2⟩ := ih
    refine ⟨.newFail d x gap hg ih1 h, ?_⟩
    obtain ⟨p2, r2, h2, h3, _⟩ := (C08_point_slots hz ih1).2.2.1 d x gap hg
    rw [h] at h2; simp at h2; obtain ⟨rfl, rfl⟩ := h2
    have := (h3 rfl).2.2
    subst this
    exact ih2
  | @del p p' S k hr hk h ih =>
    obtain ⟨ih1, ih2⟩ := ih
    unfold delElt at h
    split at h
    · simp at h
    · rename_i hcap
      split at h
      · rename_i hl
        simp at h
        have hu := ih2 k hk (by omega) hl
        refine ⟨.del ih1 hu h, ?_⟩
        intro j j1 j2 j3
        unfold delPt at h
        rw [if_neg hcap] at h
        simp at h; subst h
        have j3' : (put p.cell k ⟨false, p.nil, zd⟩ j).live = true := j3
        by_cases hjk : j = k
        · subst hjk; rw [put_same] at j3'; simp at j3'
        · rw [put_ne _ _ hjk] at j3' ⊢
          exact ih2 j j1 j2 j3'
      · simp at h
  | @delRefused p p' S k hr hk h ih =>
    obtain ⟨ih1, ih2⟩ := ih
    unfold delElt at h
    split at h
    · simp at h
    · split at h
      · cases hd : delPt zd p k <;> rw [hd] at h <;> simp at h
      · simp at h; subst h; exact ⟨ih1, ih2⟩
  | @scr p S k x hr hk ih =>
    obtain ⟨ih1, ih2⟩ := ih
    refine ⟨.scr x ih1 hk, ?_⟩
    intro j j1 j2 j3
    have j3' : (put p.cell k { p.cell k with link := x } j).live = true := j3
    by_cases hjk : j = k
    · subst hjk; exact hk
    · rw [put_ne _ _ hjk] at j3'
      exact ih2 j j1 j2 j3'

/-- **C09.** Elements: everything of C08, and deletion of an unused element is refused without any
change, deletion of a used one succeeds and frees exactly it; used + free slots are conserved by
deletions and by creations that need no growth (through the free list). -/
theorem C09_element_slots {z : Cell α} {zd : α} (hz : z.link = 0) (hzl : z.live = false)
    {p : Pool α} {S : Nat → Option α} (h : ReachE z zd p S) :
    (∀ k d, S k = some d → 1 ≤ k ∧ k ≤ p.top ∧ (p.cell k).data = d) ∧
    p.top ≤ p.cap ∧
    (∀ d x gap, (∀ g, gap = some g → 1 ≤ g) → ∃ p' r, create z p d x gap = some (p', r) ∧
      (r = 0 → freeList p = [] ∧ gap = none ∧ p' = p) ∧
      (r ≠ 0 → S r = none ∧ r ≤ p'.cap ∧ p'.top = max p.top r) ∧
      (freeList p ≠ [] → freeList p = r :: freeList p' ∧ p'.cap = p.cap)) ∧
    (∀ k, 1 ≤ k → k ≤ p.cap → S k = none → delElt zd p k = some (p, false)) ∧
    (∀ k, S k ≠ none → ∃ p', delElt zd p k = some (p', true) ∧ freeList p' = k :: freeList p ∧
      p'.cap = p.cap ∧
      (∀ d x gap, ∃ p'', create z p' d x gap = some (p'', k)) ∧
      ReachE z zd p' (put S k none)) ∧
    (freeList p).Nodup ∧ (∀ k ∈ freeList p, 1 ≤ k ∧ k ≤ p.cap ∧ S k = none) := by
  obtain ⟨hr, hl⟩ := h.reach hz hzl
  obtain ⟨a1, a2, a3, a4, a5, a6⟩ := C08_point_slots hz hr
  refine ⟨fun k d hk => ⟨(a1 k d hk).1, (a1 k d hk).2.1, (a1 k d hk).2.2.2⟩, a2, a3, ?_, ?_, a5, a6⟩
  · intro k h1 h2 h3
    have : ¬ (p.cell k).live = true := fun h' => (hl k h1 h2).1 h' h3
    rw [delElt, if_neg (by omega), if_neg this]
  · intro k hk
    obtain ⟨d, hd⟩ := Option.ne_none_iff_exists'.1 hk
    obtain ⟨b1, b2, b3, _⟩ := a1 k d hd
    obtain ⟨p', c1, c2, c3, c4⟩ := a4 k hk
    have hdel : delElt zd p k = some (p', true) := by
      rw [delElt, if_neg (by omega), if_pos b3, c1]; rfl
    exact ⟨p', hdel, c2, c3, c4, .del h b1 hdel⟩

def zElt : Cell (Nat × Nat × Nat) := ⟨false, 0, (0, 0, 0)⟩

/-- Two loaded elements, deletion of the first, refused second deletion, creation in its place. -/
example : ∃ p S, ReachE zElt (0, 0, 0) p S ∧ S 1 = some (7, 8, 9) ∧ S 2 = some (2, 2, 2) ∧ p.top = 2 ∧
    freeList p = [3, 4] := by
  refine ⟨_, _, ReachE.new (r := 1) (7, 8, 9) 3 none (by simp)
    (ReachE.delRefused (k := 1)
      (ReachE.del (k := 1)
        (ReachE.init (cap := 5) (n := 2) (fun k => ⟨true, 5, (k, k, k)⟩) (by decide))
        (by decide) rfl) (by decide) rfl) rfl (by decide), ?_⟩
  decide

end Mmg.Pool
