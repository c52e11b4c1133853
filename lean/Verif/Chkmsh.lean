/-
  What the consistency checks accept (C70).
-/
import Verif.ChkmshLemmas

namespace Mmg.Chk

open Mmg.Split3

/-! ### 3D -/

theorem has_iff {t b : Nat} : has t b = true ↔ t &&& b ≠ 0 := by simp [has]

theorem tagged3_ok {m : M3} {k i : Nat} : tagged3 m k i = .ok ↔ m.Tagged k i := by
  unfold tagged3 M3.Tagged
  by_cases h : m.xt k = 0
  · simp [h]
  · rw [if_neg h]
    by_cases hb : has (m.ftag (m.xt k) i) BDY = true
    · have := has_iff.mp hb
      simp [hb, h]; exact this
    · have := mt has_iff.mpr hb
      simp only [ne_eq, not_not] at this
      simp [hb, h]; exact this

theorem tagged3_ub {m : M3} {k i : Nat} : tagged3 m k i ≠ .ub := by
  unfold tagged3
  split_ifs <;> simp

/-- Slots beyond the last element are unused. -/
def M3.Tail (m : M3) : Prop := m.ne ≤ m.nemax ∧ ∀ k, k = 0 ∨ m.ne < k → (m.V k).getD 0 0 = 0

theorem live_iff {m : M3} (ht : m.Tail) {k : Nat} : m.live k = true ↔ m.Elt k := by
  simp only [M3.live, eok, Bool.and_eq_true, decide_eq_true_eq, M3.Elt]
  constructor
  · rintro ⟨h1, h2⟩
    by_cases hk : k = 0 ∨ m.ne < k
    · have := ht.2 k hk; omega
    · exact ⟨by omega, by omega, h1, h2⟩
  · rintro ⟨_, _, h1, h2⟩
    exact ⟨h1, h2⟩

theorem adj3_ok {m : M3} (ht : m.Tail) {k i : Nat} (hi : i < 4) :
    adj3 m k i = .ok ↔ (link m.A k i ≠ 0 → m.Elt (link m.A k i / 4) ∧ link m.A k i / 4 ≠ k ∧
      link m.A (link m.A k i / 4) (link m.A k i % 4) = 4 * k + i ∧
      faceTri 0 (m.V (link m.A k i / 4)) (link m.A k i % 4) = faceTri 0 (m.V k) i) := by
  have hl : m.A (4 * (k - 1) + 1 + i) = link m.A k i := rfl
  have hl1 : ∀ a b, m.A (4 * (a - 1) + 1 + b) = link m.A a b := fun _ _ => rfl
  unfold adj3
  simp only [hl1]
  set l := link m.A k i with hldef
  by_cases h0 : l = 0
  · simp [h0]
  rw [if_neg h0]
  by_cases h1 : l / 4 = k
  · simp [h1, h0]
  rw [if_neg h1]
  by_cases h2 : m.nemax < l / 4
  · rw [if_pos h2]
    simp only [reduceCtorEq, false_iff]
    intro h
    have := (h h0).1.2.1
    have := ht.1
    omega
  rw [if_neg h2]
  by_cases h3 : m.live (l / 4) = true
  · have h3' := (live_iff ht).mp h3
    simp only [h3, Bool.not_true, Bool.false_eq_true, if_false]
    by_cases h4 : link m.A (l / 4) (l % 4) / 4 ≠ k ∨ link m.A (l / 4) (l % 4) % 4 ≠ i
    · rw [if_pos h4]
      simp only [reduceCtorEq, false_iff]
      intro h
      have := (h h0).2.2.1
      omega
    · rw [if_neg h4]
      have e : link m.A (l / 4) (l % 4) = 4 * k + i := by omega
      by_cases h5 : sameFace (m.V k) i (m.V (l / 4)) (l % 4) = true
      · simp only [h5, Bool.not_true, Bool.false_eq_true, if_false, true_iff]
        exact fun _ => ⟨h3', h1, e, (sameFace_iff hi (Nat.mod_lt _ (by decide))).mp h5⟩
      · simp only [h5, Bool.not_false, if_true, reduceCtorEq, false_iff]
        intro h
        exact h5 ((sameFace_iff hi (Nat.mod_lt _ (by decide))).mpr (h h0).2.2.2)
  · simp only [h3, Bool.not_false, if_true, reduceCtorEq, false_iff]
    exact fun h => h3 ((live_iff ht).mpr (h h0).1)

/-- The 3D check answers 1 exactly for consistent meshes. -/
theorem C70_accept {m : M3} (ht : m.Tail) : chk3 m = .ok ↔ m.Consistent := by
  have key : ∀ k i, m.A (4 * (k - 1) + 1 + i) = link m.A k i := fun _ _ => rfl
  unfold chk3
  rw [seq_ok, seq_ok, faces3_ok, faces3_ok, faces3_ok]
  constructor
  · rintro ⟨⟨h1, h2⟩, h3⟩
    have ha : AdjOK m.A m.V m.Elt :=
      ⟨fun k hk => hk.1, fun k hk i hi => (adj3_ok ht hi).mp (h1 k hk i hi)⟩
    refine ⟨ha, ?_, ?_⟩
    · intro k hk i hi h0
      have := h2 k hk i hi
      unfold bdy3 at this
      rw [key, if_pos h0] at this
      exact tagged3_ok.mp this
    · intro k hk i hi h0 hr
      have := h3 k hk i hi
      unfold sub3 at this
      simp only [key] at this
      have hin := (ha.ok k hk i hi h0).1.2.1
      have hne := ht.1
      rw [if_neg h0, if_neg (by omega), if_pos (Ne.symm hr)] at this
      exact tagged3_ok.mp this
  · rintro ⟨ha, hb, hs⟩
    refine ⟨⟨fun k hk i hi => (adj3_ok ht hi).mpr (ha.ok k hk i hi), ?_⟩, ?_⟩
    · intro k hk i hi
      unfold bdy3
      rw [key]
      by_cases h0 : link m.A k i = 0
      · rw [if_pos h0]; exact tagged3_ok.mpr (hb k hk i hi h0)
      · rw [if_neg h0]
    · intro k hk i hi
      unfold sub3
      simp only [key]
      by_cases h0 : link m.A k i = 0
      · rw [if_pos h0]
      · have hin := (ha.ok k hk i hi h0).1.2.1
        have := ht.1
        rw [if_neg h0, if_neg (by omega)]
        by_cases hr : m.ref k ≠ m.ref (link m.A k i / 4)
        · rw [if_pos hr]; exact tagged3_ok.mpr (hs k hk i hi h0 (Ne.symm hr))
        · rw [if_neg hr]

/-- Hence, if no reference is negative, all the used tetrahedra of an accepted mesh are correctly
linked: this is the hypothesis on the mesh of the theorems on the operators. -/
theorem C70_links {m : M3} (ht : m.Tail) (h : chk3 m = .ok) (hr : ∀ k, 0 ≤ m.ref k) :
    AdjOK m.A m.V (fun k => 1 ≤ k ∧ k ≤ m.ne ∧ 0 < (m.V k).getD 0 0) := by
  have hc := ((C70_accept ht).mp h).adj
  have e : (fun k => 1 ≤ k ∧ k ≤ m.ne ∧ 0 < (m.V k).getD 0 0) = m.Elt := by
    funext k
    simp [M3.Elt, hr]
  rw [e]; exact hc

/-- The check reads outside of the array of tetrahedra only if a link goes there. -/
theorem C70_inside {m : M3}
    (hl : ∀ k i, 1 ≤ k → k ≤ m.ne → i < 4 → link m.A k i / 4 ≤ m.nemax) : chk3 m ≠ .ub := by
  have key : ∀ k i, m.A (4 * (k - 1) + 1 + i) = link m.A k i := fun _ _ => rfl
  intro h
  unfold chk3 at h
  rcases seq_ub h with h | ⟨_, h⟩
  · rcases seq_ub h with h | ⟨_, h⟩
    · obtain ⟨k, i, h1, h2, h3, h4⟩ := faces3_ub h
      unfold adj3 at h4
      simp only [key] at h4
      have := hl k i h1 h2 h3
      split_ifs at h4
      omega
    · obtain ⟨k, i, h1, h2, h3, h4⟩ := faces3_ub h
      unfold bdy3 at h4
      split_ifs at h4
      exact tagged3_ub h4
  · obtain ⟨k, i, h1, h2, h3, h4⟩ := faces3_ub h
    unfold sub3 at h4
    simp only [key] at h4
    have := hl k i h1 h2 h3
    split_ifs at h4
    · omega
    · exact tagged3_ub h4

namespace Ex

/-- Two tetrahedra with the common face 2 3 4; all the other faces are tagged. -/
def m3 (w : List Nat) (a : Nat) (r : Int) (tg : Nat) : M3 where
  ne := 2
  nemax := 4
  V k := if k = 1 then [1, 2, 3, 4] else if k = 2 then w else []
  ref k := if k = 2 then r else 1
  xt k := k
  ftag x i := if i = 0 then tg else if x = 1 ∨ x = 2 then 16 else 0
  A n := if n = 1 then a else if n = 5 then 4 else 0

theorem tail3 (w : List Nat) (a : Nat) (r : Int) (tg : Nat) : (m3 w a r tg).Tail := by
  refine ⟨(by decide : 2 ≤ 4), ?_⟩
  rintro k (rfl | h)
  · rfl
  · have h' : 2 < k := h
    have h1 : k ≠ 1 := by omega
    have h2 : k ≠ 2 := by omega
    simp [m3, h1, h2]

/-- A consistent mesh, accepted. -/
example : (m3 [5, 2, 4, 3] 8 1 0).Consistent := (C70_accept (tail3 _ _ _ _)).mp (by decide)

/-- Rejected: wrong link, common face with other vertices, untagged face between two references,
link to an unused slot; a link outside of the array. -/
example : chk3 (m3 [5, 2, 4, 3] 9 1 0) = .ko ∧ chk3 (m3 [5, 2, 4, 6] 8 1 0) = .ko ∧
    chk3 (m3 [5, 2, 4, 3] 8 2 0) = .ko ∧ chk3 (m3 [5, 2, 4, 3] 8 2 16) = .ok ∧
    chk3 (m3 [5, 2, 4, 3] 12 1 0) = .ko ∧ chk3 (m3 [5, 2, 4, 3] 20 1 0) = .ub := by decide

/-- Corners of the two tetrahedra of the next theorem: 1 and 5 are on the same side of 2 3 4. -/
def c3 (n : Nat) : Pt ℚ :=
  if n = 1 then ⟨0, 0, 1⟩ else if n = 5 then ⟨0, 0, 2⟩ else if n = 2 then ⟨1, 0, 0⟩
  else if n = 3 then ⟨0, 0, 0⟩ else ⟨0, 1, 0⟩

/-- The point is inside the tetrahedron, which is positively oriented. -/
def Inside (p a b c d : Pt ℚ) : Prop :=
  0 < vol p b c d ∧ 0 < vol a p c d ∧ 0 < vol a b p d ∧ 0 < vol a b c p

/-- The orientation is not compared: two tetrahedra of positive volume that lie on the same side of
their common face, and overlap, are accepted as neighbours. -/
theorem C70_folded_observed :
    (m3 [5, 2, 3, 4] 8 1 0).Tail ∧ chk3 (m3 [5, 2, 3, 4] 8 1 0) = .ok ∧
    Inside ⟨1 / 8, 1 / 8, 1 / 8⟩ (c3 1) (c3 2) (c3 3) (c3 4) ∧
    Inside ⟨1 / 8, 1 / 8, 1 / 8⟩ (c3 5) (c3 2) (c3 3) (c3 4) := by
  refine ⟨tail3 _ _ _ _, by decide, ?_, ?_⟩ <;> norm_num [Inside, vol, c3]

/-- A tetrahedron with a negative reference is not looked at: here it has a repeated vertex, is
linked to itself, and has no tagged face. -/
theorem C70_negative_observed :
    let m : M3 := { ne := 1, nemax := 1, V := fun k => if k = 1 then [1, 1, 2, 3] else [],
                    ref := fun _ => -1, xt := fun _ => 0, ftag := fun _ _ => 0, A := fun _ => 4 }
    chk3 m = .ok ∧ link m.A 1 2 / 4 = 1 := by decide

/-- Two tetrahedra with a common face that are not linked are accepted when both faces are tagged:
the check does not look for missing links. -/
theorem C70_unlinked_observed :
    let m : M3 := { m3 [5, 2, 4, 3] 8 1 16 with A := fun _ => 0 }
    chk3 m = .ok ∧ m.ref 1 = m.ref 2 ∧ faceTri 0 (m.V 1) 0 = faceTri 0 (m.V 2) 0 := by
  refine ⟨by decide, by decide, by decide⟩

end Ex

end Mmg.Chk
