/-
  Lemmas on the 2-3 swap.
-/
import Verif.Swap23Model

namespace Mmg.Swap23

open Mmg.Split3

/-! ### Configurations -/

/-- A numbering of the four local vertices. -/
structure Perm4 (t : Nat → Nat) : Prop where
  lt : ∀ j < 4, t j < 4
  inj : ∀ i < 4, ∀ j < 4, t i = t j → i = j
  surj : ∀ i < 4, ∃ j < 4, i = t j

theorem perm_tau0 {j0 : Nat} (h : j0 < 4) : Perm4 (tau0 j0) := by
  interval_cases j0 <;> exact ⟨by decide, by decide, by decide⟩

theorem perm_tau1 {c : Nat} (h : c < 12) : Perm4 (tau1 c) := by
  interval_cases c <;> exact ⟨by decide, by decide, by decide⟩

theorem tau0_zero {j0 : Nat} (h : j0 < 4) : tau0 j0 0 = j0 := by
  interval_cases j0 <;> rfl

/-- The two tetrahedra see their common face with opposite orientations. -/
def Facing (v0 v1 : List Nat) (j0 j1 : Nat) : Prop :=
  ∃ r < 3, ∀ i < 3, v1.getD (idirf j1 ((r + i) % 3)) 0 = v0.getD (idirf j0 ((3 - i) % 3)) 0

/-- Reading of the neighbour in a configuration: the vertices of the common face correspond. -/
structure Reads (v0 v1 : List Nat) (t u : Nat → Nat) : Prop where
  e1 : v1.getD (u 1) 0 = v0.getD (t 1) 0
  e2 : v1.getD (u 2) 0 = v0.getD (t 3) 0
  e3 : v1.getD (u 3) 0 = v0.getD (t 2) 0

theorem conf1_spec {v0 v1 : List Nat} {j0 j1 : Nat} (h0 : j0 < 4) (h1 : j1 < 4)
    (hl : v0.length = 4) (hnd : v0.Nodup) (hf : Facing v0 v1 j0 j1) :
    ∃ c, conf1 v0 v1 j0 j1 = some c ∧ c < 12 ∧ tau1 c 0 = j1 ∧
      Reads v0 v1 (tau0 j0) (tau1 c) := by
  obtain ⟨r, hr, hf⟩ := hf
  have f0 := hf 0 (by decide)
  have f1 := hf 1 (by decide)
  have f2 := hf 2 (by decide)
  match v0, hl with
  | [a, b, c, d], _ =>
    simp only [List.nodup_cons, List.mem_cons, List.not_mem_nil, or_false, not_or] at hnd
    obtain ⟨⟨n1, n2, n3⟩, ⟨n4, n5⟩, n6, _⟩ := hnd
    have m1 := Ne.symm n1
    have m2 := Ne.symm n2
    have m3 := Ne.symm n3
    have m4 := Ne.symm n4
    have m5 := Ne.symm n5
    have m6 := Ne.symm n6
    interval_cases j0 <;> interval_cases r <;>
      simp only [idirf, List.getD_cons_zero, List.getD_cons_succ, Nat.reduceAdd, Nat.reduceMod,
        Nat.reduceSub, Nat.zero_add] at f0 f1 f2 <;>
      interval_cases j1 <;>
      simp only [List.getD_cons_zero, List.getD_cons_succ] at f0 f1 f2 <;>
      simp only [conf1, idirf, List.getD_cons_zero, List.getD_cons_succ, f0, f1, f2, if_true,
        n1, n2, n3, n4, n5, n6, m1, m2, m3, m4, m5, m6, if_false, Option.some.injEq] <;>
      (refine ⟨_, rfl, by decide, by decide, ?_⟩
       refine ⟨?_, ?_, ?_⟩ <;>
        simp only [tau0, tau1, Nat.reduceMul, Nat.reduceAdd, List.getD_cons_zero,
          List.getD_cons_succ, f0, f1, f2])

/-! ### Faces -/

theorem faceTri_add {v : List Nat} (h : v.length = 4) {i : Nat} (hi : i < 4) :
    faceTri 0 v i + {v.getD i 0} = (v : Multiset Nat) := by
  match v, h with
  | [a, b, c, d], _ =>
    interval_cases i <;>
      simp only [faceTri, others, List.getD_cons_zero, List.getD_cons_succ, List.map_cons,
        List.map_nil] <;>
      (rw [← Multiset.coe_singleton, Multiset.coe_add, Multiset.coe_eq_coe, List.perm_iff_count]
       intro x
       simp only [List.count_cons, List.count_nil, List.cons_append, List.nil_append]
       all_goals omega)

theorem coe_perm {α : Type} [DecidableEq α] {o : α} {v : List α} (h : v.length = 4)
    {t : Nat → Nat} (ht : Perm4 t) :
    (v : Multiset α) = {v.getD (t 0) o, v.getD (t 1) o, v.getD (t 2) o, v.getD (t 3) o} := by
  have a0 := ht.lt 0 (by decide)
  have a1 := ht.lt 1 (by decide)
  have a2 := ht.lt 2 (by decide)
  have a3 := ht.lt 3 (by decide)
  have d01 : t 0 ≠ t 1 := fun e => absurd (ht.inj 0 (by decide) 1 (by decide) e) (by decide)
  have d02 : t 0 ≠ t 2 := fun e => absurd (ht.inj 0 (by decide) 2 (by decide) e) (by decide)
  have d03 : t 0 ≠ t 3 := fun e => absurd (ht.inj 0 (by decide) 3 (by decide) e) (by decide)
  have d12 : t 1 ≠ t 2 := fun e => absurd (ht.inj 1 (by decide) 2 (by decide) e) (by decide)
  have d13 : t 1 ≠ t 3 := fun e => absurd (ht.inj 1 (by decide) 3 (by decide) e) (by decide)
  have d23 : t 2 ≠ t 3 := fun e => absurd (ht.inj 2 (by decide) 3 (by decide) e) (by decide)
  generalize t 0 = x0 at *
  generalize t 1 = x1 at *
  generalize t 2 = x2 at *
  generalize t 3 = x3 at *
  match v, h with
  | [a, b, c, d], _ =>
    interval_cases x0 <;> interval_cases x1 <;> first | exact (d01 rfl).elim | skip
    all_goals interval_cases x2 <;>
      first | exact (d02 rfl).elim | exact (d12 rfl).elim | skip
    all_goals interval_cases x3 <;>
      first | exact (d03 rfl).elim | exact (d13 rfl).elim | exact (d23 rfl).elim | skip
    all_goals
      simp only [List.getD_cons_zero, List.getD_cons_succ, Multiset.insert_eq_cons,
        ← Multiset.singleton_add, ← Multiset.coe_singleton, Multiset.coe_add]
      rw [Multiset.coe_eq_coe, List.perm_iff_count]
      intro x
      simp only [List.count_cons, List.count_nil, List.cons_append, List.nil_append]
      all_goals omega

theorem getD_set_eq {v : List Nat} (h : v.length = 4) {i : Nat} (hi : i < 4) (q : Nat) :
    (v.set i q).getD i 0 = q := by
  rw [List.getD_eq_getElem?_getD, List.getElem?_set_self (by omega)]; rfl

theorem getD_set_ne {v : List Nat} {i j : Nat} (hij : i ≠ j) (q : Nat) :
    (v.set i q).getD j 0 = v.getD j 0 := by
  rw [List.getD_eq_getElem?_getD, List.getElem?_set_ne hij, ← List.getD_eq_getElem?_getD]

/-- Face of the first tetrahedron with one vertex of the common face replaced. -/
theorem face_replaced {v0 v1 : List Nat} (h0 : v0.length = 4) (h1 : v1.length = 4)
    {t u : Nat → Nat} (ht : Perm4 t) (hu : Perm4 u) (hr : Reads v0 v1 t u) :
    faceTri 0 (v0.set (t 1) (v1.getD (u 0) 0)) (t 0) = faceTri 0 v1 (u 1) ∧
    faceTri 0 (v0.set (t 2) (v1.getD (u 0) 0)) (t 0) = faceTri 0 v1 (u 3) ∧
    faceTri 0 (v0.set (t 3) (v1.getD (u 0) 0)) (t 0) = faceTri 0 v1 (u 2) := by
  have d : ∀ i < 4, ∀ j < 4, i ≠ j → t i ≠ t j := fun i hi j hj hij e => hij (ht.inj i hi j hj e)
  have key : ∀ i, 1 ≤ i → i < 4 → ∀ m < 4,
      v1.getD (u m) 0 = v0.getD (t i) 0 →
      faceTri 0 (v0.set (t i) (v1.getD (u 0) 0)) (t 0) = faceTri 0 v1 (u m) := by
    intro i hi1 hi4 m hm he
    have hlen : (v0.set (t i) (v1.getD (u 0) 0)).length = 4 := by simpa using h0
    have a1 := faceTri_add hlen (ht.lt 0 (by decide))
    have a2 := faceTri_add h1 (hu.lt m hm)
    rw [coe_perm (o := 0) hlen ht, getD_set_ne (d i hi4 0 (by decide) (by omega))] at a1
    rw [coe_perm (o := 0) h1 hu, he, hr.e1, hr.e2, hr.e3] at a2
    apply add_right_cancel (b := ({v0.getD (t 0) 0} + {v0.getD (t i) 0} : Multiset Nat))
    rw [← add_assoc, a1, add_comm ({v0.getD (t 0) 0} : Multiset Nat), ← add_assoc, a2]
    have g := getD_set_eq h0 (ht.lt i hi4) (v1.getD (u 0) 0)
    interval_cases i
    all_goals
      rw [g]
      first
        | rw [getD_set_ne (d 1 (by decide) 2 (by decide) (by decide)),
            getD_set_ne (d 1 (by decide) 3 (by decide) (by decide))]
        | rw [getD_set_ne (d 2 (by decide) 1 (by decide) (by decide)),
            getD_set_ne (d 2 (by decide) 3 (by decide) (by decide))]
        | rw [getD_set_ne (d 3 (by decide) 1 (by decide) (by decide)),
            getD_set_ne (d 3 (by decide) 2 (by decide) (by decide))]
      simp only [Multiset.insert_eq_cons, ← Multiset.singleton_add]
      abel
  exact ⟨key 1 (by decide) (by decide) 1 (by decide) hr.e1,
    key 2 (by decide) (by decide) 3 (by decide) hr.e3,
    key 3 (by decide) (by decide) 2 (by decide) hr.e2⟩

theorem mem_face {v : List Nat} (h : v.length = 4) {i j : Nat} (hi : i < 4) (hj : j < 4)
    (hij : i ≠ j) : v.getD i 0 ∈ faceTri 0 v j := by
  match v, h with
  | [a, b, c, d], _ =>
    interval_cases i <;> interval_cases j <;> first | exact (hij rfl).elim | skip
    all_goals simp [faceTri, others]

theorem mem_of_face {v : List Nat} (h : v.length = 4) {j : Nat} (hj : j < 4) {x : Nat}
    (hx : x ∈ faceTri 0 v j) : x ∈ v := by
  have := faceTri_add h hj
  have h2 : x ∈ faceTri 0 v j + {v.getD j 0} := Multiset.mem_add.2 (.inl hx)
  rw [this] at h2
  exact h2

end Mmg.Swap23
