/-
  The pieces of one triangle.
-/
import Verif.LsTriLemmas
import Mathlib.Data.Sym.Sym2
import Mathlib.Algebra.Order.BigOperators.Group.Multiset
import Mathlib.Tactic.Abel

namespace Mmg.Ls2
open Mmg.Split3 Mmg.Ls3

/-! ### Specification -/

/-- `p` is on edge `e` of the triangle `m`: an end or the new point. -/
def On (m : Tri) (vx : Nat → Nat) (e p : Nat) : Prop :=
  p = (ends m e).1 ∨ p = (ends m e).2 ∨ (vx e ≠ 0 ∧ p = vx e)

/-- Data of the edges of a piece `x` of `m`: an edge that is a part of an edge of `m` has its tag and
its reference, the other ones have none. -/
def Inherits (m : Tri) (vx : Nat → Nat) (x : Tri) : Prop :=
  ∀ i < 3,
    (∃ e < 3, On m vx e (ends x i).1 ∧ On m vx e (ends x i).2 ∧
      x.tag.getD i 0 = m.tag.getD e 0 ∧ x.edg.getD i 0 = m.edg.getD e 0) ∨
    ((∀ e < 3, ¬ (On m vx e (ends x i).1 ∧ On m vx e (ends x i).2)) ∧
      x.tag.getD i 0 = 0 ∧ x.edg.getD i 0 = 0)

/-- The edges of a triangle. -/
def sides (m : Tri) : Multiset (Sym2 Nat) :=
  {s((ends m 0).1, (ends m 0).2)} + {s((ends m 1).1, (ends m 1).2)} + {s((ends m 2).1, (ends m 2).2)}

/-- An edge cut at its new point. -/
def cutSide (a b p : Nat) : Multiset (Sym2 Nat) := if p = 0 then {s(a, b)} else {s(a, p)} + {s(p, b)}

section
variable {K : Type} [Field K]

/-- The area vector (half of it): `(q - p) × (r - p)`. -/
def cross (p q r : Pt K) : Pt K :=
  ⟨(q.y - p.y) * (r.z - p.z) - (q.z - p.z) * (r.y - p.y),
   (q.z - p.z) * (r.x - p.x) - (q.x - p.x) * (r.z - p.z),
   (q.x - p.x) * (r.y - p.y) - (q.y - p.y) * (r.x - p.x)⟩

def area (c : Nat → Pt K) (m : Tri) : Pt K := cross (c (m.v.getD 0 0)) (c (m.v.getD 1 0)) (c (m.v.getD 2 0))

def scl (l : K) (p : Pt K) : Pt K := ⟨l * p.x, l * p.y, l * p.z⟩

end

/-! ### Lemmas -/

theorem list3 {α : Type} {l : List α} (h : l.length = 3) : ∃ a b c, l = [a, b, c] := by
  match l, h with
  | [a, b, c], _ => exact ⟨a, b, c, rfl⟩

theorem WF.eq {m : Tri} (h : WF m) : ∃ a b c t0 t1 t2 e0 e1 e2 r,
    m = ⟨[a, b, c], [t0, t1, t2], [e0, e1, e2], r⟩ ∧ a ≠ b ∧ a ≠ c ∧ b ≠ c := by
  obtain ⟨v, tag, edg, ref⟩ := m
  obtain ⟨h1, h2, h3, h4⟩ := h
  obtain ⟨a, b, c, rfl⟩ := list3 h1
  obtain ⟨t0, t1, t2, rfl⟩ := list3 h2
  obtain ⟨e0, e1, e2, rfl⟩ := list3 h3
  refine ⟨a, b, c, t0, t1, t2, e0, e1, e2, ref, rfl, ?_⟩
  simp only [List.nodup_cons, List.mem_cons, List.not_mem_nil, or_false, not_or, not_false_eq_true,
    List.nodup_nil, and_true] at h4
  exact ⟨h4.1.1, h4.1.2, h4.2⟩

theorem WF.mk3 (a b c : Nat) (t0 t1 t2 : BitVec 16) (e0 e1 e2 r : Int) :
    WF ⟨[a, b, c], [t0, t1, t2], [e0, e1, e2], r⟩ ↔ a ≠ b ∧ a ≠ c ∧ b ≠ c := by
  constructor
  · intro h
    have h4 := h.nodup
    simp only [List.nodup_cons, List.mem_cons, List.not_mem_nil, or_false, not_or, not_false_eq_true,
      List.nodup_nil, and_true] at h4
    exact ⟨h4.1.1, h4.1.2, h4.2⟩
  · rintro ⟨h1, h2, h3⟩
    exact ⟨rfl, rfl, rfl, by simp [h1, h2, h3]⟩

theorem ends0 (a b c : Nat) (t : List (BitVec 16)) (e : List Int) (r : Int) :
    ends ⟨[a, b, c], t, e, r⟩ 0 = (b, c) := rfl

theorem ends1 (a b c : Nat) (t : List (BitVec 16)) (e : List Int) (r : Int) :
    ends ⟨[a, b, c], t, e, r⟩ 1 = (c, a) := rfl

theorem ends2 (a b c : Nat) (t : List (BitVec 16)) (e : List Int) (r : Int) :
    ends ⟨[a, b, c], t, e, r⟩ 2 = (a, b) := rfl

/-- The pieces, written out. -/
def kids (surf : Bool) (a b c : Nat) (t0 t1 t2 : BitVec 16) (e0 e1 e2 r : Int) (x y z : Nat) : List Tri :=
  if x = 0 then
    if y = 0 then
      if z = 0 then [⟨[a, b, c], [t0, t1, t2], [e0, e1, e2], r⟩]
      else [⟨[a, z, c], [0, t1, t2], [0, e1, e2], r⟩, ⟨[z, b, c], [t0, 0, t2], [e0, 0, e2], r⟩]
    else
      if z = 0 then [⟨[y, b, c], [t0, t1, 0], [e0, e1, 0], r⟩, ⟨[a, b, y], [0, t1, t2], [0, e1, e2], r⟩]
      else if surf then
        [⟨[z, b, y], [0, 0, t2], [0, 0, e2], r⟩, ⟨[y, b, c], [t0, t1, 0], [e0, e1, 0], r⟩,
          ⟨[a, z, y], [0, t1, t2], [0, e1, e2], r⟩]
      else
        [⟨[a, z, y], [0, t1, t2], [0, e1, e2], r⟩, ⟨[z, b, c], [t0, 0, t2], [e0, 0, e2], r⟩,
          ⟨[y, z, c], [0, t1, 0], [0, e1, 0], r⟩]
  else
    if y = 0 then
      if z = 0 then [⟨[a, b, x], [t0, 0, t2], [e0, 0, e2], r⟩, ⟨[a, x, c], [t0, t1, 0], [e0, e1, 0], r⟩]
      else if surf then
        [⟨[z, x, c], [t0, 0, 0], [e0, 0, 0], r⟩, ⟨[a, z, c], [0, t1, t2], [0, e1, e2], r⟩,
          ⟨[z, b, x], [t0, 0, t2], [e0, 0, e2], r⟩]
      else
        [⟨[z, b, x], [t0, 0, t2], [e0, 0, e2], r⟩, ⟨[a, x, c], [t0, t1, 0], [e0, e1, 0], r⟩,
          ⟨[a, z, x], [0, 0, t2], [0, 0, e2], r⟩]
    else
      if z = 0 then
        if surf then
          [⟨[a, x, y], [0, t1, 0], [0, e1, 0], r⟩, ⟨[a, b, x], [t0, 0, t2], [e0, 0, e2], r⟩,
            ⟨[y, x, c], [t0, t1, 0], [e0, e1, 0], r⟩]
        else
          [⟨[y, x, c], [t0, t1, 0], [e0, e1, 0], r⟩, ⟨[a, b, y], [0, t1, t2], [0, e1, e2], r⟩,
            ⟨[y, b, x], [t0, 0, 0], [e0, 0, 0], r⟩]
      else [⟨[a, b, c], [t0, t1, t2], [e0, e1, e2], r⟩]

theorem cut3_kids (surf : Bool) (a b c : Nat) (t0 t1 t2 : BitVec 16) (e0 e1 e2 r : Int) (vx : Nat → Nat) :
    (cut3 surf vx ⟨[a, b, c], [t0, t1, t2], [e0, e1, e2], r⟩).1 =
      kids surf a b c t0 t1 t2 e0 e1 e2 r (vx 0) (vx 1) (vx 2) := by
  unfold cut3 kids flagOf
  by_cases hx : vx 0 = 0 <;> by_cases hy : vx 1 = 0 <;> by_cases hz : vx 2 = 0 <;> cases surf <;>
    simp [hx, hy, hz, split1, split2, split2s, nxt, prv, Tri.put, Tri.clear]

theorem cut3_flag (surf : Bool) (vx : Nat → Nat) (m : Tri) (h : ¬ (vx 0 ≠ 0 ∧ vx 1 ≠ 0 ∧ vx 2 ≠ 0)) :
    (cut3 surf vx m).2 = true ↔ vx 0 ≠ 0 ∨ vx 1 ≠ 0 ∨ vx 2 ≠ 0 := by
  unfold cut3 flagOf
  by_cases hx : vx 0 = 0 <;> by_cases hy : vx 1 = 0 <;> by_cases hz : vx 2 = 0 <;> simp_all

/-- The data of the pieces. -/
theorem cut3_inherits {surf : Bool} {vx : Nat → Nat} {m : Tri} (wf : WF m)
    (h7 : ¬ (vx 0 ≠ 0 ∧ vx 1 ≠ 0 ∧ vx 2 ≠ 0)) (hnew : ∀ e < 3, vx e ≠ 0 → vx e ∉ m.v)
    (hdis : ∀ e < 3, ∀ f < 3, e ≠ f → vx e ≠ 0 → vx e ≠ vx f) :
    ∀ x ∈ (cut3 surf vx m).1, WF x ∧ x.ref = m.ref ∧ Inherits m vx x ∧
      ∀ p ∈ x.v, p ∈ m.v ∨ ∃ e < 3, vx e ≠ 0 ∧ p = vx e := by
  obtain ⟨a, b, c, t0, t1, t2, e0, e1, e2, r, rfl, hab, hac, hbc⟩ := wf.eq
  rw [cut3_kids]
  have n0 := hnew 0 (by omega)
  have n1 := hnew 1 (by omega)
  have n2 := hnew 2 (by omega)
  have d01 := hdis 0 (by omega) 1 (by omega) (by omega)
  have d02 := hdis 0 (by omega) 2 (by omega) (by omega)
  have d12 := hdis 1 (by omega) 2 (by omega) (by omega)
  have d10 := hdis 1 (by omega) 0 (by omega) (by omega)
  have d20 := hdis 2 (by omega) 0 (by omega) (by omega)
  have d21 := hdis 2 (by omega) 1 (by omega) (by omega)
  simp only [List.mem_cons, List.not_mem_nil, or_false, not_or] at n0 n1 n2
  have A0 := fun h => (n0 h).1
  have B0 := fun h => (n0 h).2.1
  have C0 := fun h => (n0 h).2.2
  have A1 := fun h => (n1 h).1
  have B1 := fun h => (n1 h).2.1
  have C1 := fun h => (n1 h).2.2
  have A2 := fun h => (n2 h).1
  have B2 := fun h => (n2 h).2.1
  have C2 := fun h => (n2 h).2.2
  have A0' : vx 0 ≠ 0 → a ≠ vx 0 := fun h => Ne.symm (A0 h)
  have B0' : vx 0 ≠ 0 → b ≠ vx 0 := fun h => Ne.symm (B0 h)
  have C0' : vx 0 ≠ 0 → c ≠ vx 0 := fun h => Ne.symm (C0 h)
  have A1' : vx 1 ≠ 0 → a ≠ vx 1 := fun h => Ne.symm (A1 h)
  have B1' : vx 1 ≠ 0 → b ≠ vx 1 := fun h => Ne.symm (B1 h)
  have C1' : vx 1 ≠ 0 → c ≠ vx 1 := fun h => Ne.symm (C1 h)
  have A2' : vx 2 ≠ 0 → a ≠ vx 2 := fun h => Ne.symm (A2 h)
  have B2' : vx 2 ≠ 0 → b ≠ vx 2 := fun h => Ne.symm (B2 h)
  have C2' : vx 2 ≠ 0 → c ≠ vx 2 := fun h => Ne.symm (C2 h)
  have hI : ∀ (y : Tri), Inherits ⟨[a, b, c], [t0, t1, t2], [e0, e1, e2], r⟩ vx y ↔
      (((∃ e < 3, On ⟨[a, b, c], [t0, t1, t2], [e0, e1, e2], r⟩ vx e (y.v.getD 1 0) ∧
          On ⟨[a, b, c], [t0, t1, t2], [e0, e1, e2], r⟩ vx e (y.v.getD 2 0) ∧
          y.tag.getD 0 0 = [t0, t1, t2].getD e 0 ∧ y.edg.getD 0 0 = [e0, e1, e2].getD e 0) ∨
        ((∀ e < 3, ¬ (On ⟨[a, b, c], [t0, t1, t2], [e0, e1, e2], r⟩ vx e (y.v.getD 1 0) ∧
          On ⟨[a, b, c], [t0, t1, t2], [e0, e1, e2], r⟩ vx e (y.v.getD 2 0))) ∧
          y.tag.getD 0 0 = 0 ∧ y.edg.getD 0 0 = 0)) ∧
       ((∃ e < 3, On ⟨[a, b, c], [t0, t1, t2], [e0, e1, e2], r⟩ vx e (y.v.getD 2 0) ∧
          On ⟨[a, b, c], [t0, t1, t2], [e0, e1, e2], r⟩ vx e (y.v.getD 0 0) ∧
          y.tag.getD 1 0 = [t0, t1, t2].getD e 0 ∧ y.edg.getD 1 0 = [e0, e1, e2].getD e 0) ∨
        ((∀ e < 3, ¬ (On ⟨[a, b, c], [t0, t1, t2], [e0, e1, e2], r⟩ vx e (y.v.getD 2 0) ∧
          On ⟨[a, b, c], [t0, t1, t2], [e0, e1, e2], r⟩ vx e (y.v.getD 0 0))) ∧
          y.tag.getD 1 0 = 0 ∧ y.edg.getD 1 0 = 0)) ∧
       ((∃ e < 3, On ⟨[a, b, c], [t0, t1, t2], [e0, e1, e2], r⟩ vx e (y.v.getD 0 0) ∧
          On ⟨[a, b, c], [t0, t1, t2], [e0, e1, e2], r⟩ vx e (y.v.getD 1 0) ∧
          y.tag.getD 2 0 = [t0, t1, t2].getD e 0 ∧ y.edg.getD 2 0 = [e0, e1, e2].getD e 0) ∨
        ((∀ e < 3, ¬ (On ⟨[a, b, c], [t0, t1, t2], [e0, e1, e2], r⟩ vx e (y.v.getD 0 0) ∧
          On ⟨[a, b, c], [t0, t1, t2], [e0, e1, e2], r⟩ vx e (y.v.getD 1 0))) ∧
          y.tag.getD 2 0 = 0 ∧ y.edg.getD 2 0 = 0))) := by
    intro y
    unfold Inherits
    constructor
    · intro h; exact ⟨h 0 (by omega), h 1 (by omega), h 2 (by omega)⟩
    · rintro ⟨h0, h1, h2⟩ i hi
      match i, hi with
      | 0, _ => exact h0
      | 1, _ => exact h1
      | 2, _ => exact h2
  have three : ∀ (p : Nat → Prop), (∀ e < 3, p e) ↔ p 0 ∧ p 1 ∧ p 2 := by
    intro p
    constructor
    · intro h; exact ⟨h 0 (by omega), h 1 (by omega), h 2 (by omega)⟩
    · rintro ⟨h0, h1, h2⟩ i hi
      match i, hi with
      | 0, _ => exact h0
      | 1, _ => exact h1
      | 2, _ => exact h2
  have three' : ∀ (p : Nat → Prop), (∃ e < 3, p e) ↔ p 0 ∨ p 1 ∨ p 2 := by
    intro p
    constructor
    · rintro ⟨i, hi, h⟩
      match i, hi with
      | 0, _ => exact .inl h
      | 1, _ => exact .inr (.inl h)
      | 2, _ => exact .inr (.inr h)
    · rintro (h | h | h)
      · exact ⟨0, by omega, h⟩
      · exact ⟨1, by omega, h⟩
      · exact ⟨2, by omega, h⟩
  simp only [hI, three, three']
  by_cases hx : vx 0 = 0 <;> by_cases hy : vx 1 = 0 <;> by_cases hz : vx 2 = 0 <;> cases surf
  all_goals try (exfalso; revert h7; simp [hx, hy, hz]; done)
  all_goals
    simp only [kids, hx, hy, hz, if_true, if_false, Bool.false_eq_true, List.mem_cons, List.not_mem_nil,
      or_false, forall_eq_or_imp, forall_eq]
  all_goals
    simp only [WF.mk3, On, ends, nxt, prv, List.getD_cons_zero, List.getD_cons_succ, hx, hy, hz,
      List.length_cons, List.length_nil, List.nodup_cons, List.mem_cons, List.not_mem_nil, or_false,
      List.nodup_nil]
  all_goals
    simp [hx, hy, hz, hab, hac, hbc, hab.symm, hac.symm, hbc.symm, A0, A1, A2, B0, B1, B2, C0, C1, C2, A0', A1',
      A2', B0', B1', B2', C0', C1', C2', d01, d02, d12, d10, d20, d21]

/-- The edges of the pieces: those of the triangle, cut at the new points, and inner edges that are
in two pieces. -/
theorem cut3_sides {surf : Bool} {vx : Nat → Nat} {m : Tri} (wf : WF m)
    (h7 : ¬ (vx 0 ≠ 0 ∧ vx 1 ≠ 0 ∧ vx 2 ≠ 0)) :
    ∃ inn : Multiset (Sym2 Nat),
      ((cut3 surf vx m).1.map sides).sum =
        cutSide (ends m 0).1 (ends m 0).2 (vx 0) + cutSide (ends m 1).1 (ends m 1).2 (vx 1) +
          cutSide (ends m 2).1 (ends m 2).2 (vx 2) + (inn + inn) := by
  obtain ⟨a, b, c, t0, t1, t2, e0, e1, e2, r, rfl, -, -, -⟩ := wf.eq
  rw [cut3_kids]
  obtain ⟨F, hF⟩ : ∃ F : Nat → Nat → Multiset (Sym2 Nat), ∀ p q, ({s(p, q)} : Multiset (Sym2 Nat)) = F p q :=
    ⟨_, fun _ _ => rfl⟩
  have hs : ∀ p q, F p q = F q p := by
    intro p q
    rw [← hF, ← hF, Sym2.eq_swap]
  have hS : ∀ (p q k : Nat) (tt : List (BitVec 16)) (ee : List Int) (rr : Int),
      sides ⟨[p, q, k], tt, ee, rr⟩ = F q k + F k p + F p q := by
    intro p q k tt ee rr
    simp only [sides, hF, ends0, ends1, ends2]
  simp only [cutSide, hF, ends0, ends1, ends2]
  by_cases hx : vx 0 = 0 <;> by_cases hy : vx 1 = 0 <;> by_cases hz : vx 2 = 0
  · exact ⟨0, by simp [kids, hx, hy, hz, hS]⟩
  · refine ⟨F (vx 2) c, ?_⟩
    simp [kids, hx, hy, hz, hS]
    rw [hs c (vx 2)]
    abel
  · refine ⟨F (vx 1) b, ?_⟩
    simp [kids, hx, hy, hz, hS]
    rw [hs b (vx 1)]
    abel
  · cases surf
    · refine ⟨F (vx 1) (vx 2) + F (vx 2) c, ?_⟩
      simp [kids, hx, hy, hz, hS]
      rw [hs (vx 2) (vx 1), hs c (vx 2)]
      abel
    · refine ⟨F (vx 1) (vx 2) + F (vx 1) b, ?_⟩
      simp [kids, hx, hy, hz, hS]
      rw [hs (vx 2) (vx 1), hs b (vx 1)]
      abel
  · refine ⟨F (vx 0) a, ?_⟩
    simp [kids, hx, hy, hz, hS]
    rw [hs a (vx 0)]
    abel
  · cases surf
    · refine ⟨F (vx 0) (vx 2) + F (vx 0) a, ?_⟩
      simp [kids, hx, hy, hz, hS]
      rw [hs (vx 2) (vx 0), hs a (vx 0)]
      abel
    · refine ⟨F (vx 0) (vx 2) + F (vx 2) c, ?_⟩
      simp [kids, hx, hy, hz, hS]
      rw [hs (vx 2) (vx 0), hs c (vx 2)]
      abel
  · cases surf
    · refine ⟨F (vx 0) (vx 1) + F (vx 1) b, ?_⟩
      simp [kids, hx, hy, hz, hS]
      rw [hs (vx 1) (vx 0), hs b (vx 1)]
      abel
    · refine ⟨F (vx 0) (vx 1) + F (vx 0) a, ?_⟩
      simp [kids, hx, hy, hz, hS]
      rw [hs (vx 1) (vx 0), hs a (vx 0)]
      abel
  · exact absurd ⟨hx, hy, hz⟩ h7

section
variable {K : Type} [Field K] [LinearOrder K] [IsStrictOrderedRing K]

/-- The areas of the pieces. -/
theorem cut3_area {surf : Bool} {vx : Nat → Nat} {m : Tri} (wf : WF m)
    (h7 : ¬ (vx 0 ≠ 0 ∧ vx 1 ≠ 0 ∧ vx 2 ≠ 0)) {c c' : Nat → Pt K}
    (hc : ∀ p ∈ m.v, c' p = c p)
    (hn : ∀ e < 3, vx e ≠ 0 → ∃ t : K, 0 < t ∧ t < 1 ∧
      c' (vx e) = (c (ends m e).1).lerp (c (ends m e).2) t) :
    ∃ fs : List K, List.Forall₂ (fun x l => 0 < l ∧ area c' x = scl l (area c m)) (cut3 surf vx m).1 fs ∧
      fs.sum = 1 := by
  obtain ⟨a, b, d, t0, t1, t2, e0, e1, e2, r, rfl, -, -, -⟩ := wf.eq
  rw [cut3_kids]
  have ha := hc a (by simp)
  have hb := hc b (by simp)
  have hd := hc d (by simp)
  have h0 := hn 0 (by omega)
  have h1 := hn 1 (by omega)
  have h2 := hn 2 (by omega)
  simp only [ends0, ends1, ends2] at h0 h1 h2
  have fin : ∀ (p q k : Nat) (tt : List (BitVec 16)) (ee : List Int) (l : K), 0 < l →
      cross (c' p) (c' q) (c' k) = scl l (cross (c a) (c b) (c d)) →
      0 < l ∧ area c' ⟨[p, q, k], tt, ee, r⟩ = scl l (area c ⟨[a, b, d], [t0, t1, t2], [e0, e1, e2], r⟩) :=
    fun p q k tt ee l h1 h2 => ⟨h1, h2⟩
  by_cases hx : vx 0 = 0 <;> by_cases hy : vx 1 = 0 <;> by_cases hz : vx 2 = 0
  · have g0 := ha
    have g1 := ha
    refine ⟨[1], ?_, by simp⟩
    simp only [kids, hx, hy, hz, if_true, if_false, Bool.false_eq_true]
    refine .cons (fin _ _ _ _ _ _ ?_ ?_) (List.Forall₂.nil)
    · exact one_pos
    · simp only [ha, hb, hd, g0, g1, cross, scl, Pt.lerp, Pt.mk.injEq]
      refine ⟨?_, ?_, ?_⟩ <;> ring
  · obtain ⟨t, p1, p2, g0⟩ := h2 hz
    have g1 := g0
    refine ⟨[t, (1 - t)], ?_, by simp only [List.sum_cons, List.sum_nil]; ring⟩
    simp only [kids, hx, hy, hz, if_true, if_false, Bool.false_eq_true]
    refine .cons (fin _ _ _ _ _ _ ?_ ?_) (.cons (fin _ _ _ _ _ _ ?_ ?_) (List.Forall₂.nil))
    · first | linarith | exact mul_pos (by linarith) (by linarith)
    · simp only [ha, hb, hd, g0, g1, cross, scl, Pt.lerp, Pt.mk.injEq]
      refine ⟨?_, ?_, ?_⟩ <;> ring
    · first | linarith | exact mul_pos (by linarith) (by linarith)
    · simp only [ha, hb, hd, g0, g1, cross, scl, Pt.lerp, Pt.mk.injEq]
      refine ⟨?_, ?_, ?_⟩ <;> ring
  · obtain ⟨t, p1, p2, g0⟩ := h1 hy
    have g1 := g0
    refine ⟨[t, (1 - t)], ?_, by simp only [List.sum_cons, List.sum_nil]; ring⟩
    simp only [kids, hx, hy, hz, if_true, if_false, Bool.false_eq_true]
    refine .cons (fin _ _ _ _ _ _ ?_ ?_) (.cons (fin _ _ _ _ _ _ ?_ ?_) (List.Forall₂.nil))
    · first | linarith | exact mul_pos (by linarith) (by linarith)
    · simp only [ha, hb, hd, g0, g1, cross, scl, Pt.lerp, Pt.mk.injEq]
      refine ⟨?_, ?_, ?_⟩ <;> ring
    · first | linarith | exact mul_pos (by linarith) (by linarith)
    · simp only [ha, hb, hd, g0, g1, cross, scl, Pt.lerp, Pt.mk.injEq]
      refine ⟨?_, ?_, ?_⟩ <;> ring
  · obtain ⟨t, p1, p2, g0⟩ := h2 hz
    obtain ⟨u, q1, q2, g1⟩ := h1 hy
    cases surf
    · refine ⟨[t * (1 - u), (1 - t), t * u], ?_, by simp only [List.sum_cons, List.sum_nil]; ring⟩
      simp only [kids, hx, hy, hz, if_true, if_false, Bool.false_eq_true]
      refine .cons (fin _ _ _ _ _ _ ?_ ?_) (.cons (fin _ _ _ _ _ _ ?_ ?_) (.cons (fin _ _ _ _ _ _ ?_ ?_) (List.Forall₂.nil)))
      · first | linarith | exact mul_pos (by linarith) (by linarith)
      · simp only [ha, hb, hd, g0, g1, cross, scl, Pt.lerp, Pt.mk.injEq]
        refine ⟨?_, ?_, ?_⟩ <;> ring
      · first | linarith | exact mul_pos (by linarith) (by linarith)
      · simp only [ha, hb, hd, g0, g1, cross, scl, Pt.lerp, Pt.mk.injEq]
        refine ⟨?_, ?_, ?_⟩ <;> ring
      · first | linarith | exact mul_pos (by linarith) (by linarith)
      · simp only [ha, hb, hd, g0, g1, cross, scl, Pt.lerp, Pt.mk.injEq]
        refine ⟨?_, ?_, ?_⟩ <;> ring
    · refine ⟨[(1 - t) * (1 - u), u, t * (1 - u)], ?_, by simp only [List.sum_cons, List.sum_nil]; ring⟩
      simp only [kids, hx, hy, hz, if_true, if_false, Bool.false_eq_true]
      refine .cons (fin _ _ _ _ _ _ ?_ ?_) (.cons (fin _ _ _ _ _ _ ?_ ?_) (.cons (fin _ _ _ _ _ _ ?_ ?_) (List.Forall₂.nil)))
      · first | linarith | exact mul_pos (by linarith) (by linarith)
      · simp only [ha, hb, hd, g0, g1, cross, scl, Pt.lerp, Pt.mk.injEq]
        refine ⟨?_, ?_, ?_⟩ <;> ring
      · first | linarith | exact mul_pos (by linarith) (by linarith)
      · simp only [ha, hb, hd, g0, g1, cross, scl, Pt.lerp, Pt.mk.injEq]
        refine ⟨?_, ?_, ?_⟩ <;> ring
      · first | linarith | exact mul_pos (by linarith) (by linarith)
      · simp only [ha, hb, hd, g0, g1, cross, scl, Pt.lerp, Pt.mk.injEq]
        refine ⟨?_, ?_, ?_⟩ <;> ring
  · obtain ⟨t, p1, p2, g0⟩ := h0 hx
    have g1 := g0
    refine ⟨[t, (1 - t)], ?_, by simp only [List.sum_cons, List.sum_nil]; ring⟩
    simp only [kids, hx, hy, hz, if_true, if_false, Bool.false_eq_true]
    refine .cons (fin _ _ _ _ _ _ ?_ ?_) (.cons (fin _ _ _ _ _ _ ?_ ?_) (List.Forall₂.nil))
    · first | linarith | exact mul_pos (by linarith) (by linarith)
    · simp only [ha, hb, hd, g0, g1, cross, scl, Pt.lerp, Pt.mk.injEq]
      refine ⟨?_, ?_, ?_⟩ <;> ring
    · first | linarith | exact mul_pos (by linarith) (by linarith)
    · simp only [ha, hb, hd, g0, g1, cross, scl, Pt.lerp, Pt.mk.injEq]
      refine ⟨?_, ?_, ?_⟩ <;> ring
  · obtain ⟨t, p1, p2, g0⟩ := h2 hz
    obtain ⟨u, q1, q2, g1⟩ := h0 hx
    cases surf
    · refine ⟨[(1 - t) * u, (1 - u), t * u], ?_, by simp only [List.sum_cons, List.sum_nil]; ring⟩
      simp only [kids, hx, hy, hz, if_true, if_false, Bool.false_eq_true]
      refine .cons (fin _ _ _ _ _ _ ?_ ?_) (.cons (fin _ _ _ _ _ _ ?_ ?_) (.cons (fin _ _ _ _ _ _ ?_ ?_) (List.Forall₂.nil)))
      · first | linarith | exact mul_pos (by linarith) (by linarith)
      · simp only [ha, hb, hd, g0, g1, cross, scl, Pt.lerp, Pt.mk.injEq]
        refine ⟨?_, ?_, ?_⟩ <;> ring
      · first | linarith | exact mul_pos (by linarith) (by linarith)
      · simp only [ha, hb, hd, g0, g1, cross, scl, Pt.lerp, Pt.mk.injEq]
        refine ⟨?_, ?_, ?_⟩ <;> ring
      · first | linarith | exact mul_pos (by linarith) (by linarith)
      · simp only [ha, hb, hd, g0, g1, cross, scl, Pt.lerp, Pt.mk.injEq]
        refine ⟨?_, ?_, ?_⟩ <;> ring
    · refine ⟨[(1 - t) * (1 - u), t, (1 - t) * u], ?_, by simp only [List.sum_cons, List.sum_nil]; ring⟩
      simp only [kids, hx, hy, hz, if_true, if_false, Bool.false_eq_true]
      refine .cons (fin _ _ _ _ _ _ ?_ ?_) (.cons (fin _ _ _ _ _ _ ?_ ?_) (.cons (fin _ _ _ _ _ _ ?_ ?_) (List.Forall₂.nil)))
      · first | linarith | exact mul_pos (by linarith) (by linarith)
      · simp only [ha, hb, hd, g0, g1, cross, scl, Pt.lerp, Pt.mk.injEq]
        refine ⟨?_, ?_, ?_⟩ <;> ring
      · first | linarith | exact mul_pos (by linarith) (by linarith)
      · simp only [ha, hb, hd, g0, g1, cross, scl, Pt.lerp, Pt.mk.injEq]
        refine ⟨?_, ?_, ?_⟩ <;> ring
      · first | linarith | exact mul_pos (by linarith) (by linarith)
      · simp only [ha, hb, hd, g0, g1, cross, scl, Pt.lerp, Pt.mk.injEq]
        refine ⟨?_, ?_, ?_⟩ <;> ring
  · obtain ⟨t, p1, p2, g0⟩ := h1 hy
    obtain ⟨u, q1, q2, g1⟩ := h0 hx
    cases surf
    · refine ⟨[t * (1 - u), (1 - t), t * u], ?_, by simp only [List.sum_cons, List.sum_nil]; ring⟩
      simp only [kids, hx, hy, hz, if_true, if_false, Bool.false_eq_true]
      refine .cons (fin _ _ _ _ _ _ ?_ ?_) (.cons (fin _ _ _ _ _ _ ?_ ?_) (.cons (fin _ _ _ _ _ _ ?_ ?_) (List.Forall₂.nil)))
      · first | linarith | exact mul_pos (by linarith) (by linarith)
      · simp only [ha, hb, hd, g0, g1, cross, scl, Pt.lerp, Pt.mk.injEq]
        refine ⟨?_, ?_, ?_⟩ <;> ring
      · first | linarith | exact mul_pos (by linarith) (by linarith)
      · simp only [ha, hb, hd, g0, g1, cross, scl, Pt.lerp, Pt.mk.injEq]
        refine ⟨?_, ?_, ?_⟩ <;> ring
      · first | linarith | exact mul_pos (by linarith) (by linarith)
      · simp only [ha, hb, hd, g0, g1, cross, scl, Pt.lerp, Pt.mk.injEq]
        refine ⟨?_, ?_, ?_⟩ <;> ring
    · refine ⟨[(1 - u) * (1 - t), u, t * (1 - u)], ?_, by simp only [List.sum_cons, List.sum_nil]; ring⟩
      simp only [kids, hx, hy, hz, if_true, if_false, Bool.false_eq_true]
      refine .cons (fin _ _ _ _ _ _ ?_ ?_) (.cons (fin _ _ _ _ _ _ ?_ ?_) (.cons (fin _ _ _ _ _ _ ?_ ?_) (List.Forall₂.nil)))
      · first | linarith | exact mul_pos (by linarith) (by linarith)
      · simp only [ha, hb, hd, g0, g1, cross, scl, Pt.lerp, Pt.mk.injEq]
        refine ⟨?_, ?_, ?_⟩ <;> ring
      · first | linarith | exact mul_pos (by linarith) (by linarith)
      · simp only [ha, hb, hd, g0, g1, cross, scl, Pt.lerp, Pt.mk.injEq]
        refine ⟨?_, ?_, ?_⟩ <;> ring
      · first | linarith | exact mul_pos (by linarith) (by linarith)
      · simp only [ha, hb, hd, g0, g1, cross, scl, Pt.lerp, Pt.mk.injEq]
        refine ⟨?_, ?_, ?_⟩ <;> ring
  · exact absurd ⟨hx, hy, hz⟩ h7
/-- All values on the same side of 0 and not all 0. -/
def Clean (sol : Nat → K) (v : List Nat) : Prop :=
  ((∀ p ∈ v, 0 ≤ sol p) ∨ ∀ p ∈ v, sol p ≤ 0) ∧ ∃ p ∈ v, sol p ≠ 0

/-- The signs of the pieces. -/
theorem cut3_clean {surf : Bool} {vx : Nat → Nat} {m : Tri} (wf : WF m) {sol sol' : Nat → K}
    (hold : ∀ p ∈ m.v, sol' p = sol p) (hz : ∀ e < 3, vx e ≠ 0 → sol' (vx e) = 0)
    (hopp : ∀ e < 3, vx e ≠ 0 ↔ Opposite sol (ends m e).1 (ends m e).2) (hnz : ∃ p ∈ m.v, sol p ≠ 0) :
    ∀ x ∈ (cut3 surf vx m).1, Clean sol' x.v := by
  obtain ⟨a, b, d, t0, t1, t2, e0, e1, e2, r, rfl, -, -, -⟩ := wf.eq
  rw [cut3_kids]
  have ha := hold a (by simp)
  have hb := hold b (by simp)
  have hd := hold d (by simp)
  have h0 := hopp 0 (by omega)
  have h1 := hopp 1 (by omega)
  have h2 := hopp 2 (by omega)
  have z0 := hz 0 (by omega)
  have z1 := hz 1 (by omega)
  have z2 := hz 2 (by omega)
  simp only [ends0, ends1, ends2, Opposite] at h0 h1 h2
  have key : ∀ v : K, (0 < v ∧ ¬ v < 0 ∧ v ≠ 0 ∧ ¬ v ≤ 0 ∧ 0 ≤ v) ∨ (v < 0 ∧ ¬ 0 < v ∧ v ≠ 0 ∧ ¬ 0 ≤ v ∧ v ≤ 0) ∨
      (v = 0 ∧ ¬ 0 < v ∧ ¬ v < 0 ∧ 0 ≤ v ∧ v ≤ 0) := by
    intro v
    rcases lt_trichotomy v 0 with h | h | h
    · exact .inr (.inl ⟨h, h.le.not_gt, h.ne, h.not_ge, h.le⟩)
    · exact .inr (.inr ⟨h, by simp [h], by simp [h], by simp [h], by simp [h]⟩)
    · exact .inl ⟨h, h.le.not_gt, h.ne', h.not_ge, h.le⟩
  rcases key (sol a) with ⟨a1, a2, a3, a4, a5⟩ | ⟨a1, a2, a3, a4, a5⟩ | ⟨a1, a2, a3, a4, a5⟩ <;>
    rcases key (sol b) with ⟨b1, b2, b3, b4, b5⟩ | ⟨b1, b2, b3, b4, b5⟩ | ⟨b1, b2, b3, b4, b5⟩ <;>
    rcases key (sol d) with ⟨d1, d2, d3, d4, d5⟩ | ⟨d1, d2, d3, d4, d5⟩ | ⟨d1, d2, d3, d4, d5⟩ <;>
    simp only [a1, a2, a3, b1, b2, b3, d1, d2, d3, true_and, and_true, false_and, and_false, or_false, false_or,
      or_true, true_or, iff_true, iff_false, not_not, lt_irrefl, ne_eq, not_true_eq_false,
      not_false_eq_true] at h0 h1 h2
  all_goals try (exfalso; revert hnz; simp [a1, b1, d1]; done)
  all_goals
    simp only [h0, h1, h2, ne_eq, not_true_eq_false, not_false_eq_true, true_implies, false_implies] at z0 z1 z2
  all_goals
    cases surf <;> simp [kids, h0, h1, h2, Clean, ha, hb, hd, a1, a3, a4, a5, b1, b3, b4, b5, d1, d3, d4, d5, z0, z1, z2]
end

end Mmg.Ls2
