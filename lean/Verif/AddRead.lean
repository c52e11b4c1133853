import Verif.AddReadModel
import Verif.Add

/-!
# C109: reading and checking a mesh to which vertices were added
-/

namespace Mmg.Add

variable {K : Type}

/-- Calls before the last entity. -/
theorem reads_from {np : Nat} : ∀ (n c : Nat), c + n ≤ np → reads np n c = (c + n, (List.range' (c + 1) n).map some) ∨ c = np
  | 0, c, _ => .inl (by simp [reads])
  | n + 1, c, h => by
    have hc : c ≠ np := by omega
    have g : getNext c np = (c + 1, some (c + 1)) := by
      unfold getNext
      simp only [hc, if_false]
      rw [if_neg (by omega)]
    rcases reads_from (np := np) n (c + 1) (by omega) with e | e
    · refine .inl ?_
      unfold reads
      rw [g]
      simp only
      rw [e]
      simp [List.range'_succ]
      omega
    · have : n = 0 := by omega
      subst this
      refine .inl ?_
      simp [reads, g]

theorem reads_add (np : Nat) : ∀ (n m c : Nat), reads np (n + m) c = ((reads np m (reads np n c).1).1, (reads np n c).2 ++ (reads np m (reads np n c).1).2)
  | 0, m, c => by simp [reads]
  | n + 1, m, c => by
    have e : n + 1 + m = (n + m) + 1 := by omega
    rw [e]
    have h1 : ∀ k d, reads np (k + 1) d = ((reads np k (getNext d np).1).1, (getNext d np).2 :: (reads np k (getNext d np).1).2) := fun _ _ => rfl
    rw [h1 (n + m), h1 n, reads_add np n m]
    rfl

/-- All entities from the first, when the counter is at the last. -/
theorem reads_all {np n : Nat} (h : n ≤ np) (h0 : 0 < n) : reads np n np = (n, (List.range' 1 n).map some) := by
  obtain ⟨m, rfl⟩ : ∃ m, n = m + 1 := ⟨n - 1, by omega⟩
  have g : getNext np np = (1, some 1) := by
    unfold getNext
    simp only [if_true]
    rw [if_neg (by omega)]
  unfold reads
  rw [g]
  simp only
  rcases reads_from (np := np) m 1 (by omega) with e | e
  · rw [e]
    simp [List.range'_succ]
    omega
  · have : m = 0 := by omega
    subst this
    simp [reads]

/-- C109: from a mesh in which nothing was added since its size was set, as many calls as there are vertices read them from the first to the last,
and the counter is ready for the next time. -/
theorem C109_sweep_partial {np : Nat} (h : 0 < np) : reads np np np = (np, (List.range' 1 np).map some) := reads_all (le_refl _) h

/-- C109 fails for the order: with `m` vertices added to `n`, the first calls read the added vertices, and then the others. As many calls as there are
vertices read each of them once; but the call number `i` does not read vertex `i`. -/
theorem C109_order_observed {n m : Nat} (hn : 0 < n) (hm : 0 < m) :
    reads (n + m) (n + m) n = (n, (List.range' (n + 1) m ++ List.range' 1 n).map some) ∧
      (reads (n + m) (n + m) n).2.head? = some (some (n + 1)) := by
  have e : reads (n + m) (n + m) n = (n, (List.range' (n + 1) m ++ List.range' 1 n).map some) := by
    rw [Nat.add_comm n m, reads_add]
    rcases reads_from (np := m + n) m n (by omega) with e | e
    · rw [e]
      simp only
      rw [Nat.add_comm n m, reads_all (by omega) hn]
      simp
    · omega
  refine ⟨e, ?_⟩
  rw [e]
  obtain ⟨k, rfl⟩ : ∃ k, m = k + 1 := ⟨m - 1, by omega⟩
  simp [List.range'_succ]

/-- C109, check: a mesh is accepted if and only if the counters are at the last entities and the dimensions are 3. -/
theorem C109_check (A : Api K) (s : MetC) : chkData A s = true ↔
    A.npi = A.mesh.pts.top ∧ A.nei = A.mesh.tets.top ∧ s.npi = s.np ∧ A.dim = 3 ∧ s.dim = 3 := by
  unfold chkData
  split
  · simp; omega
  · split
    · simp; omega
    · split
      · simp; omega
      · split
        · simp; omega
        · simp; omega

/-- C109 fails for the check: after any sequence of additions that adds a vertex or a tetrahedron to a mesh that was accepted, the mesh is refused,
with a message on missing data. -/
theorem C109_refused_observed [CommRing K] [LinearOrder K] [IsOrderedRing K] {eps : K} (he : 0 ≤ eps) {A : Api K} {s : MetC} {V : List (Pt K)}
    {T : List Tet} (hA : chkData A s = true) (F : Fine A.mesh) (S : Shows A.mesh V T) (os : List (Op K)) (h : ∀ o ∈ os, Asked o) :
    ∃ M' as, run eps A.mesh os = some (M', as) ∧ (addedV os as ≠ [] ∨ addedT os as ≠ 0 → chkData { A with mesh := M' } s = false) := by
  obtain ⟨M', as, W, h1, _, _, h4, h5⟩ := C107_history_partial he os F S h
  refine ⟨M', as, h1, fun hne => ?_⟩
  rw [← Bool.not_eq_true, C109_check]
  rintro ⟨g1, g2, _⟩
  obtain ⟨k1, k2, _⟩ := (C109_check A s).mp hA
  simp only at g1 g2
  rw [h4.np, k1, S.np, List.length_append] at g1
  rw [h4.ne, k2, S.ne, List.length_append] at g2
  rcases hne with c | c
  · exact c (List.eq_nil_of_length_eq_zero (by omega))
  · omega

/-! ### Cases -/

example : (reads 5 5 3).2 = [some 4, some 5, some 1, some 2, some 3] ∧ (reads 3 4 3).2 = [some 1, some 2, some 3, some 1] := by decide

example : chkData (⟨m0, 0, 0, 3⟩ : Api Int) ⟨0, 0, 3⟩ = true ∧
    ((run 0 m0 os0).map fun q => chkData (⟨q.1, 0, 0, 3⟩ : Api Int) ⟨0, 0, 3⟩) = some false := by decide +kernel

end Mmg.Add
