/- Small general lemmas. -/
import Mathlib.Data.List.Perm.Basic
import Mathlib.Data.Multiset.ZeroCons
import Mathlib.Data.Multiset.AddSub
import Mathlib.Data.Sym.Sym2

namespace Mmg

theorem perm2_iff {α : Type} {a b c d : α} :
    [a, b].Perm [c, d] ↔ (a = c ∧ b = d) ∨ (a = d ∧ b = c) := by
  constructor
  · intro h
    have hm : a ∈ [c, d] := h.subset (by simp)
    simp only [List.mem_cons, List.not_mem_nil, or_false] at hm
    rcases hm with rfl | rfl
    · left; have := (List.perm_cons a).1 h; simpa using this
    · right
      have := (List.perm_cons a).1 (h.trans (List.Perm.swap a c []))
      simpa using this
  · rintro (⟨rfl, rfl⟩ | ⟨rfl, rfl⟩)
    · exact List.Perm.refl _
    · exact List.Perm.swap _ _ _

theorem perm3_iff {α : Type} {a b c d e f : α} :
    [a, b, c].Perm [d, e, f] ↔
      (a = d ∧ b = e ∧ c = f) ∨ (a = d ∧ b = f ∧ c = e) ∨ (a = e ∧ b = d ∧ c = f) ∨
        (a = e ∧ b = f ∧ c = d) ∨ (a = f ∧ b = d ∧ c = e) ∨ (a = f ∧ b = e ∧ c = d) := by
  have s1 : [d, e, f].Perm [e, d, f] := List.Perm.swap _ _ _
  have s2 : [d, e, f].Perm [f, d, e] :=
    ((List.Perm.swap f e []).cons d).trans (List.Perm.swap _ _ _)
  constructor
  · intro h
    have hm : a ∈ [d, e, f] := h.subset (by simp)
    simp only [List.mem_cons, List.not_mem_nil, or_false] at hm
    rcases hm with rfl | rfl | rfl
    · have := perm2_iff.1 ((List.perm_cons a).1 h)
      rcases this with ⟨rfl, rfl⟩ | ⟨rfl, rfl⟩ <;> simp
    · have := perm2_iff.1 ((List.perm_cons a).1 (h.trans s1))
      rcases this with ⟨rfl, rfl⟩ | ⟨rfl, rfl⟩ <;> simp
    · have := perm2_iff.1 ((List.perm_cons a).1 (h.trans s2))
      rcases this with ⟨rfl, rfl⟩ | ⟨rfl, rfl⟩ <;> simp
  · rintro (⟨rfl, rfl, rfl⟩ | ⟨rfl, rfl, rfl⟩ | ⟨rfl, rfl, rfl⟩ | ⟨rfl, rfl, rfl⟩ |
      ⟨rfl, rfl, rfl⟩ | ⟨rfl, rfl, rfl⟩)
    · exact List.Perm.refl _
    · exact (perm2_iff.2 (Or.inr ⟨rfl, rfl⟩)).cons _
    · exact List.Perm.swap _ _ _
    · exact ((perm2_iff.2 (Or.inr ⟨rfl, rfl⟩)).cons a).trans s1.symm
    · exact ((perm2_iff.2 (Or.inl ⟨rfl, rfl⟩)).cons a).trans s2.symm
    · exact ((perm2_iff.2 (Or.inr ⟨rfl, rfl⟩)).cons a).trans s2.symm

theorem mset3_iff {a b c d e f : Nat} : ({a, b, c} : Multiset Nat) = {d, e, f} ↔
      (a = d ∧ b = e ∧ c = f) ∨ (a = d ∧ b = f ∧ c = e) ∨ (a = e ∧ b = d ∧ c = f) ∨
        (a = e ∧ b = f ∧ c = d) ∨ (a = f ∧ b = d ∧ c = e) ∨ (a = f ∧ b = e ∧ c = d) := by
  rw [← perm3_iff]
  show ((a ::ₘ b ::ₘ ({c} : Multiset Nat)) = d ::ₘ e ::ₘ ({f} : Multiset Nat)) ↔ _
  exact Multiset.coe_eq_coe

theorem min_def' (a b : Nat) : Nat.min a b = if a ≤ b then a else b := rfl
theorem max_def' (a b : Nat) : Nat.max a b = if a ≤ b then b else a := rfl

/-- min, max and sum of three naturals determine their multiset. -/
theorem min_max_sum3 {a b c d e f : Nat} :
    (Nat.min a (Nat.min b c) = Nat.min d (Nat.min e f) ∧
      Nat.max a (Nat.max b c) = Nat.max d (Nat.max e f) ∧ a + b + c = d + e + f) ↔
    ({a, b, c} : Multiset Nat) = {d, e, f} := by
  rw [mset3_iff]
  simp only [min_def', max_def']
  constructor
  · rintro ⟨h1, h2, h3⟩
    split_ifs at h1 h2 <;> omega
  · rintro (⟨rfl, rfl, rfl⟩ | ⟨rfl, rfl, rfl⟩ | ⟨rfl, rfl, rfl⟩ | ⟨rfl, rfl, rfl⟩ |
      ⟨rfl, rfl, rfl⟩ | ⟨rfl, rfl, rfl⟩)
    all_goals refine ⟨?_, ?_, by omega⟩
    all_goals split_ifs <;> omega

end Mmg
