/-
  Specification of a consistent mesh and lemmas for the mesh checks (C70).
-/
import Verif.ChkmshModel

namespace Mmg.Chk

open Mmg.Split3

/-! ### Specification -/

/-- Faces of the domain or between two references carry a boundary tag. -/
def M3.Tagged (m : M3) (k i : Nat) : Prop := m.xt k ≠ 0 ∧ m.ftag (m.xt k) i &&& 16 ≠ 0

/-- A tetrahedron of the mesh: a used slot with a non-negative reference. -/
def M3.Elt (m : M3) (k : Nat) : Prop :=
  1 ≤ k ∧ k ≤ m.ne ∧ 0 < (m.V k).getD 0 0 ∧ 0 ≤ m.ref k

/-- Consistent tetrahedral mesh: the links are symmetric, join two different tetrahedra of the mesh
through faces that have the same three vertices; faces without neighbour and faces between two
references are tagged as boundary faces. -/
structure M3.Consistent (m : M3) : Prop where
  adj : AdjOK m.A m.V m.Elt
  bdy : ∀ k, m.Elt k → ∀ i < 4, link m.A k i = 0 → m.Tagged k i
  sub : ∀ k, m.Elt k → ∀ i < 4, link m.A k i ≠ 0 →
    m.ref (link m.A k i / 4) ≠ m.ref k → m.Tagged k i

/-! ### Loops -/

theorem seq_ok {a b : Res} : a.seq b = .ok ↔ a = .ok ∧ b = .ok := by
  cases a <;> simp [Res.seq]

theorem seq_ub {a b : Res} : a.seq b = .ub → a = .ub ∨ (a = .ok ∧ b = .ub) := by
  cases a <;> simp [Res.seq]

theorem loop_ok {f : Nat → Res} {n : Nat} : loop f n = .ok ↔ ∀ i < n, f i = .ok := by
  induction n with
  | zero => simp [loop]
  | succ n ih =>
    rw [loop, seq_ok, ih]
    constructor
    · rintro ⟨h1, h2⟩ i hi
      rcases Nat.lt_succ_iff_lt_or_eq.mp hi with h | rfl
      · exact h1 i h
      · exact h2
    · intro h
      exact ⟨fun i hi => h i (by omega), h n (by omega)⟩

theorem loop_ub {f : Nat → Res} {n : Nat} (h : loop f n = .ub) : ∃ i < n, f i = .ub := by
  induction n with
  | zero => simp [loop] at h
  | succ n ih =>
    rw [loop] at h
    rcases seq_ub h with h | ⟨_, h⟩
    · obtain ⟨i, h1, h2⟩ := ih h
      exact ⟨i, by omega, h2⟩
    · exact ⟨n, by omega, h⟩

theorem failIf_ok {b : Bool} : failIf b = .ok ↔ b = false := by
  cases b <;> simp [failIf]

theorem failIf_ub {b : Bool} : failIf b ≠ .ub := by
  cases b <;> simp [failIf]

theorem faces3_ok {m : M3} {f : Nat → Nat → Res} :
    faces3 m f = .ok ↔ ∀ k, m.Elt k → ∀ i < 4, f k i = .ok := by
  unfold faces3
  rw [loop_ok]
  constructor
  · intro h k ⟨h1, h2, h3, h4⟩ i hi
    have := h (k - 1) (by omega)
    have e : k - 1 + 1 = k := by omega
    rw [e, if_pos (by simp [M3.live, eok]; exact ⟨h3, h4⟩), loop_ok] at this
    exact this i hi
  · intro h k0 hk
    by_cases hl : m.live (k0 + 1) = true
    · rw [if_pos hl, loop_ok]
      simp only [M3.live, eok, Bool.and_eq_true, decide_eq_true_eq] at hl
      exact fun i hi => h (k0 + 1) ⟨by omega, by omega, hl.1, hl.2⟩ i hi
    · rw [if_neg hl]

theorem faces3_ub {m : M3} {f : Nat → Nat → Res} (h : faces3 m f = .ub) :
    ∃ k i, 1 ≤ k ∧ k ≤ m.ne ∧ i < 4 ∧ f k i = .ub := by
  obtain ⟨k0, h1, h2⟩ := loop_ub h
  by_cases hl : m.live (k0 + 1) = true
  · rw [if_pos hl] at h2
    obtain ⟨i, h3, h4⟩ := loop_ub h2
    exact ⟨k0 + 1, i, by omega, by omega, h3, h4⟩
  · rw [if_neg hl] at h2; cases h2

/-! ### Faces -/

theorem faceTri_fv (v : List Nat) (i : Nat) (hi : i < 4) :
    faceTri 0 v i = (fv v i 0 ::ₘ fv v i 1 ::ₘ {fv v i 2} : Multiset Nat) := by
  have hsw : ∀ a b c : Nat, (([a, b, c] : List Nat) : Multiset Nat) = a ::ₘ b ::ₘ {c} :=
    fun a b c => rfl
  rcases i with _ | _ | _ | _ | i
  · rfl
  · show (([v.getD 0 0, v.getD 2 0, v.getD 3 0] : List Nat) : Multiset Nat) =
      v.getD 0 0 ::ₘ v.getD 3 0 ::ₘ {v.getD 2 0}
    rw [hsw]
    congr 1
    exact Multiset.cons_swap _ _ 0
  · rfl
  · show (([v.getD 0 0, v.getD 1 0, v.getD 2 0] : List Nat) : Multiset Nat) =
      v.getD 0 0 ::ₘ v.getD 2 0 ::ₘ {v.getD 1 0}
    rw [hsw]
    congr 1
    exact Multiset.cons_swap _ _ 0
  · omega

theorem s01 (a b c : Nat) : (a ::ₘ b ::ₘ {c} : Multiset Nat) = b ::ₘ a ::ₘ {c} :=
  Multiset.cons_swap _ _ _

theorem s12 (a b c : Nat) : (a ::ₘ b ::ₘ {c} : Multiset Nat) = a ::ₘ c ::ₘ {b} :=
  congrArg _ (Multiset.cons_swap _ _ 0)

theorem pair_eq {x y a b : Nat} (h : (x ::ₘ {y} : Multiset Nat) = a ::ₘ {b}) :
    (a = x ∧ b = y) ∨ (a = y ∧ b = x) := by
  have ha : a ∈ (x ::ₘ {y} : Multiset Nat) := h ▸ Multiset.mem_cons_self _ _
  rcases Multiset.mem_cons.mp ha with rfl | ha
  · left
    exact ⟨rfl, (Multiset.singleton_inj.mp ((Multiset.cons_inj_right _).mp h)).symm⟩
  · obtain rfl := Multiset.mem_singleton.mp ha
    right
    have : (a ::ₘ {x} : Multiset Nat) = a ::ₘ {b} := by rw [← h]; exact Multiset.cons_swap _ _ 0
    exact ⟨rfl, (Multiset.singleton_inj.mp ((Multiset.cons_inj_right _).mp this)).symm⟩

theorem triple_eq (a0 a1 a2 b0 b1 b2 : Nat) :
    ((b0 ::ₘ b1 ::ₘ {b2} : Multiset Nat) = a0 ::ₘ a1 ::ₘ {a2}) ↔
      ((a0 = b0 ∧ a1 = b1 ∧ a2 = b2) ∨ (a0 = b0 ∧ a1 = b2 ∧ a2 = b1) ∨
       (a0 = b1 ∧ a1 = b0 ∧ a2 = b2) ∨ (a0 = b1 ∧ a1 = b2 ∧ a2 = b0) ∨
       (a0 = b2 ∧ a1 = b0 ∧ a2 = b1) ∨ (a0 = b2 ∧ a1 = b1 ∧ a2 = b0)) := by
  constructor
  · intro h
    have ha : a0 ∈ (b0 ::ₘ b1 ::ₘ {b2} : Multiset Nat) := h ▸ Multiset.mem_cons_self _ _
    rcases Multiset.mem_cons.mp ha with rfl | ha
    · rcases pair_eq ((Multiset.cons_inj_right _).mp h) with ⟨p, q⟩ | ⟨p, q⟩
      · exact Or.inl ⟨rfl, p, q⟩
      · exact Or.inr (Or.inl ⟨rfl, p, q⟩)
    · rcases Multiset.mem_cons.mp ha with rfl | ha
      · rw [s01] at h
        rcases pair_eq ((Multiset.cons_inj_right _).mp h) with ⟨p, q⟩ | ⟨p, q⟩
        · exact Or.inr (Or.inr (Or.inl ⟨rfl, p, q⟩))
        · exact Or.inr (Or.inr (Or.inr (Or.inl ⟨rfl, p, q⟩)))
      · obtain rfl := Multiset.mem_singleton.mp ha
        rw [s12, s01] at h
        rcases pair_eq ((Multiset.cons_inj_right _).mp h) with ⟨p, q⟩ | ⟨p, q⟩
        · exact Or.inr (Or.inr (Or.inr (Or.inr (Or.inl ⟨rfl, p, q⟩))))
        · exact Or.inr (Or.inr (Or.inr (Or.inr (Or.inr ⟨rfl, p, q⟩))))
  · rintro (⟨rfl, rfl, rfl⟩ | ⟨rfl, rfl, rfl⟩ | ⟨rfl, rfl, rfl⟩ | ⟨rfl, rfl, rfl⟩ |
      ⟨rfl, rfl, rfl⟩ | ⟨rfl, rfl, rfl⟩)
    · rfl
    · exact s12 _ _ _
    · exact s01 _ _ _
    · exact (s01 _ _ _).trans (s12 _ _ _)
    · exact (s12 _ _ _).trans (s01 _ _ _)
    · exact ((s12 _ _ _).trans (s01 _ _ _)).trans (s12 _ _ _)

theorem sameFace_iff {v w : List Nat} {i j : Nat} (hi : i < 4) (hj : j < 4) :
    sameFace v i w j = true ↔ faceTri 0 w j = faceTri 0 v i := by
  rw [faceTri_fv v i hi, faceTri_fv w j hj, triple_eq]
  simp only [sameFace, Bool.or_eq_true, Bool.and_eq_true, beq_iff_eq, and_assoc, or_assoc]

end Mmg.Chk
