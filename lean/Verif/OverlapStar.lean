/-
  C66. Starring a cavity does not make tetrahedra overlap.
-/
import Verif.OverlapGeo

namespace Mmg.Over

open Mmg.Split3 Mmg.Swap23 Mmg.Shell Mmg.Delone Mmg.Cavity

section
variable {A : Nat → Nat} {V : Nat → List Nat} {used : Nat → Prop} {l : List Nat}

open Classical in
/-- A quantity that is opposite on the two sides of a face: its sums over all the faces of a set of
tetrahedra and over the faces of its surface are the same. -/
theorem faces_sum (hm : Mesh A V used) (hl : ∀ k ∈ l, used k) {M : Type} [AddCommGroup M]
    (σ : Nat × Nat → M)
    (h2 : ∀ k ∈ l, ∀ f < 4, link A k f ≠ 0 → link A k f / 4 ∈ l →
      σ (k, f) + σ (link A k f / 4, link A k f % 4) = 0) :
    ∑ d ∈ l.toFinset ×ˢ Finset.range 4, σ d =
      ∑ d ∈ (l.toFinset ×ˢ Finset.range 4).filter (fun d => Outer A l d.1 d.2), σ d := by
  set P : Finset (Nat × Nat) := l.toFinset ×ˢ Finset.range 4
  have hP : ∀ d, d ∈ P ↔ d.1 ∈ l ∧ d.2 < 4 := fun d => by simp [P]
  have h3 : ∑ d ∈ P.filter (fun d => ¬ Outer A l d.1 d.2), σ d = 0 := by
    have inn : ∀ d ∈ P.filter (fun d => ¬ Outer A l d.1 d.2),
        d.1 ∈ l ∧ d.2 < 4 ∧ used d.1 ∧ link A d.1 d.2 ≠ 0 ∧ link A d.1 d.2 / 4 ∈ l := by
      intro d hd
      obtain ⟨hd, ho⟩ := Finset.mem_filter.1 hd
      obtain ⟨hd1, hd2⟩ := (hP d).1 hd
      refine ⟨hd1, hd2, hl _ hd1, fun h => ho ⟨hd1, hd2, .inl h⟩, ?_⟩
      by_contra h
      exact ho ⟨hd1, hd2, .inr h⟩
    have m4 : ∀ x : Nat, x % 4 < 4 := fun x => Nat.mod_lt _ (by decide)
    refine Finset.sum_involution (fun d _ => (link A d.1 d.2 / 4, link A d.1 d.2 % 4))
      (fun d hd => ?_) (fun d hd _ he => ?_) (fun d hd => ?_) (fun d hd => ?_)
    · obtain ⟨i1, i2, i3, i4, i5⟩ := inn d hd
      exact h2 _ i1 _ i2 i4 i5
    · obtain ⟨i1, i2, i3, i4, i5⟩ := inn d hd
      exact (hm.adj.ok _ i3 _ i2 i4).2.1 (congrArg Prod.fst he)
    · obtain ⟨i1, i2, i3, i4, i5⟩ := inn d hd
      have hs := (hm.adj.ok _ i3 _ i2 i4).2.2.1
      have := hm.adj.pos _ i3
      refine Finset.mem_filter.2 ⟨(hP _).2 ⟨i5, m4 _⟩, ?_⟩
      rintro ⟨_, _, ho⟩
      simp only [hs] at ho
      rcases ho with ho | ho
      · omega
      · apply ho; rw [show (4 * d.1 + d.2) / 4 = d.1 by omega]; exact i1
    · obtain ⟨i1, i2, i3, i4, i5⟩ := inn d hd
      have hs := (hm.adj.ok _ i3 _ i2 i4).2.2.1
      simp only [hs]
      rw [show (4 * d.1 + d.2) / 4 = d.1 by omega, show (4 * d.1 + d.2) % 4 = d.2 by omega]
  have h5 := Finset.sum_filter_add_sum_filter_not P (fun d => Outer A l d.1 d.2) σ
  rw [h3, add_zero] at h5
  exact h5.symm

end

section
variable {K : Type} [Field K] [LinearOrder K] [IsStrictOrderedRing K]

theorem move_self (c : Nat → Pt K) (z : Nat) : move c z (c z) = c := by
  funext n
  unfold move
  split_ifs with h
  · rw [h]
  · rfl

theorem bary_self (c : Nat → Pt K) {v : List Nat} (hl : v.length = 4) {z : Nat} (hz : z ∉ v) {f : Nat}
    (hf : f < 4) (p x : Pt K) : bary (move c z p) (v.set f z) x f = bary c v x f := by
  match v, hl with
  | [a, b, d, e], _ =>
    simp only [List.mem_cons, List.not_mem_nil, or_false, not_or] at hz
    obtain ⟨z1, z2, z3, z4⟩ := hz
    interval_cases f <;>
    · simp only [bary, List.set, List.getD_cons_zero, List.getD_cons_succ, move, Ne.symm z1, Ne.symm z2,
        Ne.symm z3, Ne.symm z4, if_false]

theorem bary_back (c : Nat → Pt K) {v : List Nat} (hl : v.length = 4) {z : Nat} (hz : z ∉ v) {f i : Nat}
    (hf : f < 4) (hi : i < 4) (x : Pt K) :
    bary (move c z (c (v.getD f 0))) (v.set f z) x i = bary c v x i := by
  match v, hl with
  | [a, b, d, e], _ =>
    simp only [List.mem_cons, List.not_mem_nil, or_false, not_or] at hz
    obtain ⟨z1, z2, z3, z4⟩ := hz
    interval_cases f <;> interval_cases i <;>
    · simp only [bary, List.set, List.getD_cons_zero, List.getD_cons_succ, move, Ne.symm z1, Ne.symm z2,
        Ne.symm z3, Ne.symm z4, if_true, if_false]

theorem bary_move (c : Nat → Pt K) {v : List Nat} (hl : v.length = 4) {z : Nat} (hz : z ∉ v) {i : Nat}
    (hi : i < 4) (p x : Pt K) : bary (move c z p) v x i = bary c v x i := by
  match v, hl with
  | [a, b, d, e], _ =>
    simp only [List.mem_cons, List.not_mem_nil, or_false, not_or] at hz
    obtain ⟨z1, z2, z3, z4⟩ := hz
    interval_cases i <;>
    · simp only [bary, List.getD_cons_zero, List.getD_cons_succ, move, Ne.symm z1, Ne.symm z2,
        Ne.symm z3, Ne.symm z4, if_false]

theorem J_move (c : Nat → Pt K) {v : List Nat} (hl : v.length = 4) {z : Nat} (hz : z ∉ v) (p x : Pt K) :
    J (move c z p) v x = J c v x := by
  apply J_congr
  · exact ⟨fun h i hi => by rw [← bary_move c hl hz hi p]; exact h i hi,
      fun h i hi => by rw [bary_move c hl hz hi p]; exact h i hi⟩
  · exact ⟨fun h i hi => by rw [← bary_move c hl hz hi p]; exact h i hi,
      fun h i hi => by rw [bary_move c hl hz hi p]; exact h i hi⟩

theorem bary_at (c : Nat → Pt K) (v : List Nat) {f : Nat} (hf : f < 4) :
    bary c v (c (v.getD f 0)) f = volOf c v := by
  interval_cases f <;> rfl

variable {V : Nat → List Nat} {l : List Nat}

theorem aff_ite {p : Prop} [Decidable p] {f : Pt K → K} (h : Aff f) : Aff fun x => if p then f x else 1 := by
  intro x y t
  by_cases hp : p
  · simp only [hp, if_true]; exact h x y t
  · simp only [hp, if_false]; ring

/-- The point `x0` and the apex can be moved a little such that no four points are in a plane. -/
theorem generic_star (c : Nat → Pt K) {z : Nat} (p0 : Pt K) (hl : ∀ k ∈ l, (V k).length = 4) (hz : ∀ k ∈ l, z ∉ V k)
    (hpos : ∀ k ∈ l, 0 < volOf c (V k)) (x0 : Pt K) (D : List (Nat × Nat)) (T : List Nat)
    (hD : ∀ d ∈ D, d.1 ∈ l ∧ d.2 < 4 ∧ ∀ i < 4, 0 < bary (move c z p0) ((V d.1).set d.2 z) x0 i)
    (hT : ∀ k ∈ T, ∀ i < 4, 0 < bary c (V k) x0 i) :
    ∃ x p : Pt K, (∀ d ∈ D, ∀ i < 4, 0 < bary (move c z p) ((V d.1).set d.2 z) x i) ∧
      (∀ k ∈ T, ∀ i < 4, 0 < bary c (V k) x i) ∧
      (∀ k ∈ l, ∀ f < 4, ∀ i < 4, bary (move c z p) ((V k).set f z) x i ≠ 0) ∧
      (∀ k ∈ l, ∀ f < 4, 0 < volOf (move c z p0) ((V k).set f z) → 0 < volOf (move c z p) ((V k).set f z)) ∧
      ∀ k ∈ l, ∀ f < 4, volOf (move c z p0) ((V k).set f z) = 0 → J (move c z p) ((V k).set f z) x = 0 := by
  have r4 : ∀ i, i ∈ List.range 4 ↔ i < 4 := fun i => List.mem_range
  -- the point
  obtain ⟨x, hx1, hx2⟩ := generic
    ((D.flatMap fun d => (List.range 4).map fun i => fun x => bary (move c z p0) ((V d.1).set d.2 z) x i) ++
      T.flatMap fun k => (List.range 4).map fun i => fun x => bary c (V k) x i)
    (by
      intro g hg
      rcases List.mem_append.1 hg with hg | hg
      · obtain ⟨d, hd, hg⟩ := List.mem_flatMap.1 hg
        obtain ⟨i, hi, rfl⟩ := List.mem_map.1 hg
        exact aff_bary _ _ _
      · obtain ⟨d, hd, hg⟩ := List.mem_flatMap.1 hg
        obtain ⟨i, hi, rfl⟩ := List.mem_map.1 hg
        exact aff_bary _ _ _) x0
    (by
      intro g hg
      rcases List.mem_append.1 hg with hg | hg
      · obtain ⟨d, hd, hg⟩ := List.mem_flatMap.1 hg
        obtain ⟨i, hi, rfl⟩ := List.mem_map.1 hg
        exact (hD d hd).2.2 i ((r4 i).1 hi)
      · obtain ⟨d, hd, hg⟩ := List.mem_flatMap.1 hg
        obtain ⟨i, hi, rfl⟩ := List.mem_map.1 hg
        exact hT d hd i ((r4 i).1 hi))
    (l.flatMap fun k => (List.range 4).map fun i => fun x => bary c (V k) x i)
    (by
      intro g hg
      obtain ⟨d, hd, hg⟩ := List.mem_flatMap.1 hg
      obtain ⟨i, hi, rfl⟩ := List.mem_map.1 hg
      exact aff_bary _ _ _)
    (by
      intro g hg
      obtain ⟨k, hk, hg⟩ := List.mem_flatMap.1 hg
      obtain ⟨i, hi, rfl⟩ := List.mem_map.1 hg
      exact ⟨c ((V k).getD i 0), by
        simp only [bary_at c (V k) ((r4 i).1 hi)]; exact (hpos k hk).ne'⟩)
  have xD : ∀ d ∈ D, ∀ i < 4, 0 < bary (move c z p0) ((V d.1).set d.2 z) x i := fun d hd i hi =>
    hx1 _ (List.mem_append_left _ (List.mem_flatMap.2 ⟨d, hd, List.mem_map.2 ⟨i, (r4 i).2 hi, rfl⟩⟩))
  have xT : ∀ k ∈ T, ∀ i < 4, 0 < bary c (V k) x i := fun k hk i hi =>
    hx1 _ (List.mem_append_right _ (List.mem_flatMap.2 ⟨k, hk, List.mem_map.2 ⟨i, (r4 i).2 hi, rfl⟩⟩))
  have xl : ∀ k ∈ l, ∀ i < 4, bary c (V k) x i ≠ 0 := fun k hk i hi =>
    hx2 _ (List.mem_flatMap.2 ⟨k, hk, List.mem_map.2 ⟨i, (r4 i).2 hi, rfl⟩⟩)
  clear hx1 hx2
  -- the apex
  let P1 : List (Pt K → K) := D.flatMap fun d => (List.range 4).map fun i =>
    fun p => bary (move c z p) ((V d.1).set d.2 z) x i
  let P2 : List (Pt K → K) := l.flatMap fun k => (List.range 4).map fun f =>
    fun p => if 0 < volOf (move c z p0) ((V k).set f z) then volOf (move c z p) ((V k).set f z) else 1
  let P3 : List (Pt K → K) := l.flatMap fun k => (List.range 4).map fun f =>
    fun p => if volOf (move c z p0) ((V k).set f z) = 0 then
      |bary c (V k) x f| - volOf (move c z p) ((V k).set f z) else 1
  let P4 : List (Pt K → K) := l.flatMap fun k => (List.range 4).map fun f =>
    fun p => if volOf (move c z p0) ((V k).set f z) = 0 then
      |bary c (V k) x f| + volOf (move c z p) ((V k).set f z) else 1
  obtain ⟨p, hp1, hp2⟩ := generic (P1 ++ (P2 ++ (P3 ++ P4)))
    (by
      intro g hg
      rcases List.mem_append.1 hg with hg | hg
      · obtain ⟨d, hd, hg⟩ := List.mem_flatMap.1 hg
        obtain ⟨i, hi, rfl⟩ := List.mem_map.1 hg
        exact aff_move c (hl _ (hD d hd).1) (hz _ (hD d hd).1) (hD d hd).2.1 ((r4 i).1 hi) x
      · rcases List.mem_append.1 hg with hg | hg
        · obtain ⟨k, hk, hg⟩ := List.mem_flatMap.1 hg
          obtain ⟨i, hi, rfl⟩ := List.mem_map.1 hg
          exact aff_ite (aff_vol c (hl k hk) (hz k hk) ((r4 i).1 hi))
        · rcases List.mem_append.1 hg with hg | hg
          · obtain ⟨k, hk, hg⟩ := List.mem_flatMap.1 hg
            obtain ⟨i, hi, rfl⟩ := List.mem_map.1 hg
            refine aff_ite fun p q t => ?_
            have := aff_vol c (hl k hk) (hz k hk) ((r4 i).1 hi) p q t
            simp only at this
            rw [this]; ring
          · obtain ⟨k, hk, hg⟩ := List.mem_flatMap.1 hg
            obtain ⟨i, hi, rfl⟩ := List.mem_map.1 hg
            refine aff_ite fun p q t => ?_
            have := aff_vol c (hl k hk) (hz k hk) ((r4 i).1 hi) p q t
            simp only at this
            rw [this]; ring) p0
    (by
      intro g hg
      rcases List.mem_append.1 hg with hg | hg
      · obtain ⟨d, hd, hg⟩ := List.mem_flatMap.1 hg
        obtain ⟨i, hi, rfl⟩ := List.mem_map.1 hg
        exact xD d hd i ((r4 i).1 hi)
      · rcases List.mem_append.1 hg with hg | hg
        · obtain ⟨k, hk, hg⟩ := List.mem_flatMap.1 hg
          obtain ⟨i, hi, rfl⟩ := List.mem_map.1 hg
          simp only
          split_ifs with h
          · exact h
          · exact one_pos
        · rcases List.mem_append.1 hg with hg | hg
          · obtain ⟨k, hk, hg⟩ := List.mem_flatMap.1 hg
            obtain ⟨i, hi, rfl⟩ := List.mem_map.1 hg
            simp only
            split_ifs with h
            · rw [h, sub_zero]; exact abs_pos.2 (xl k hk i ((r4 i).1 hi))
            · exact one_pos
          · obtain ⟨k, hk, hg⟩ := List.mem_flatMap.1 hg
            obtain ⟨i, hi, rfl⟩ := List.mem_map.1 hg
            simp only
            split_ifs with h
            · rw [h, add_zero]; exact abs_pos.2 (xl k hk i ((r4 i).1 hi))
            · exact one_pos)
    (l.flatMap fun k => (List.range 4).flatMap fun f => (List.range 4).map fun i =>
      fun p => bary (move c z p) ((V k).set f z) x i)
    (by
      intro g hg
      obtain ⟨k, hk, hg⟩ := List.mem_flatMap.1 hg
      obtain ⟨f, hf, hg⟩ := List.mem_flatMap.1 hg
      obtain ⟨i, hi, rfl⟩ := List.mem_map.1 hg
      exact aff_move c (hl k hk) (hz k hk) ((r4 f).1 hf) ((r4 i).1 hi) x)
    (by
      intro g hg
      obtain ⟨k, hk, hg⟩ := List.mem_flatMap.1 hg
      obtain ⟨f, hf, hg⟩ := List.mem_flatMap.1 hg
      obtain ⟨i, hi, rfl⟩ := List.mem_map.1 hg
      exact ⟨c ((V k).getD f 0), by
        simp only [bary_back c (hl k hk) (hz k hk) ((r4 f).1 hf) ((r4 i).1 hi)]
        exact xl k hk i ((r4 i).1 hi)⟩)
  refine ⟨x, p, ?_, xT, ?_, ?_, ?_⟩
  · intro d hd i hi
    exact hp1 _ (List.mem_append_left _ (List.mem_flatMap.2 ⟨d, hd, List.mem_map.2 ⟨i, (r4 i).2 hi, rfl⟩⟩))
  · intro k hk f hf i hi
    exact hp2 _ (List.mem_flatMap.2 ⟨k, hk, List.mem_flatMap.2 ⟨f, (r4 f).2 hf,
      List.mem_map.2 ⟨i, (r4 i).2 hi, rfl⟩⟩⟩)
  · intro k hk f hf h
    have := hp1 _ (List.mem_append_right P1 (List.mem_append_left _ (List.mem_flatMap.2 ⟨k, hk,
      List.mem_map.2 ⟨f, (r4 f).2 hf, rfl⟩⟩)))
    simp only [h, if_true] at this
    exact this
  · intro k hk f hf h
    have h1 := hp1 _ (List.mem_append_right P1 (List.mem_append_right P2 (List.mem_append_left _
      (List.mem_flatMap.2 ⟨k, hk, List.mem_map.2 ⟨f, (r4 f).2 hf, rfl⟩⟩))))
    have h2 := hp1 _ (List.mem_append_right P1 (List.mem_append_right P2 (List.mem_append_right P3
      (List.mem_flatMap.2 ⟨k, hk, List.mem_map.2 ⟨f, (r4 f).2 hf, rfl⟩⟩))))
    simp only [h, if_true] at h1 h2
    apply J_thin hf
    · rw [bary_self c (hl k hk) (hz k hk) hf]; linarith
    · rw [bary_self c (hl k hk) (hz k hk) hf]; linarith

variable {A : Nat → Nat} {used : Nat → Prop}

open Classical in
/-- In general position a point is in as many tetrahedra before as after. -/
theorem count (hm : Mesh A V used) (ho : Oriented A V used) (hnd : l.Nodup) (hl : ∀ k ∈ l, used k)
    (c : Nat → Pt K) {z : Nat} (x : Pt K)
    (hg : ∀ k ∈ l, ∀ f < 4, ∀ i < 4, bary c ((V k).set f z) x i ≠ 0) :
    ∑ d ∈ (l.toFinset ×ˢ Finset.range 4).filter (fun d => Outer A l d.1 d.2), J c ((V d.1).set d.2 z) x =
      ∑ k ∈ l.toFinset, J c (V k) x := by
  rw [← faces_sum hm hl (fun d => J c ((V d.1).set d.2 z) x), Finset.sum_product]
  · refine Finset.sum_congr rfl fun k hk => ?_
    have hk := List.mem_toFinset.1 hk
    exact J_fan (hm.len k (hl k hk)) (hg k hk)
  · intro k hk f hf h0 hin
    exact J_facing c (hm.len k (hl k hk)) (hm.len _ (hl _ hin)) hf (Nat.mod_lt _ (by decide))
      (ho k (hl k hk) f hf h0) z x

open Classical in
/-- A set of tetrahedra replaced by the tetrahedra from a point over the faces of its surface: if the
point is not behind any of these faces, the new tetrahedra overlap neither one another nor the rest. -/
theorem star (hm : Mesh A V used) (ho : Oriented A V used) (hnd : l.Nodup) (hl : ∀ k ∈ l, used k)
    (c : Nat → Pt K) {z : Nat} (p0 : Pt K) (hz : ∀ k ∈ l, z ∉ V k) (hpos : ∀ k, used k → 0 < volOf c (V k))
    (hno : NoOverlap c V used) (hvis : ∀ k f, Outer A l k f → 0 ≤ volOf (move c z p0) ((V k).set f z)) :
    (∀ d d' : Nat × Nat, Outer A l d.1 d.2 → Outer A l d'.1 d'.2 → d ≠ d' → ∀ x,
      (∀ i < 4, 0 < bary (move c z p0) ((V d.1).set d.2 z) x i) → ¬ ∀ i < 4, 0 < bary (move c z p0) ((V d'.1).set d'.2 z) x i) ∧
    (∀ d : Nat × Nat, Outer A l d.1 d.2 → ∀ k, used k → k ∉ l → ∀ x,
      (∀ i < 4, 0 < bary (move c z p0) ((V d.1).set d.2 z) x i) → ¬ ∀ i < 4, 0 < bary c (V k) x i) := by
  have len : ∀ k ∈ l, (V k).length = 4 := fun k hk => hm.len k (hl k hk)
  have ins : ∀ k, used k → ∀ x, Inside c (V k) x ↔ ∀ i < 4, 0 < bary c (V k) x i := fun k hk x =>
    inside_iff (hm.len k hk) (hm.nd k hk) (hpos k hk) x
  -- the number of new tetrahedra around a point
  have key : ∀ (x p : Pt K),
      (∀ k ∈ l, ∀ f < 4, ∀ i < 4, bary (move c z p) ((V k).set f z) x i ≠ 0) →
      (∀ k ∈ l, ∀ f < 4, 0 < volOf (move c z p0) ((V k).set f z) → 0 < volOf (move c z p) ((V k).set f z)) →
      (∀ k ∈ l, ∀ f < 4, volOf (move c z p0) ((V k).set f z) = 0 → J (move c z p) ((V k).set f z) x = 0) →
      ∀ D : Finset (Nat × Nat), (∀ d ∈ D, Outer A l d.1 d.2 ∧
        ∀ i < 4, 0 < bary (move c z p) ((V d.1).set d.2 z) x i) →
      D.card ≤ 1 ∧ (D.Nonempty → ∃ k ∈ l, ∀ i < 4, 0 < bary c (V k) x i) := by
    intro x p g1 g2 g3 D hD
    have hc := count hm ho hnd hl (move c z p) (z := z) x g1
    have hnn : ∀ d ∈ (l.toFinset ×ˢ Finset.range 4).filter (fun d => Outer A l d.1 d.2),
        0 ≤ J (move c z p) ((V d.1).set d.2 z) x := by
      intro d hd
      obtain ⟨_, hdo⟩ := Finset.mem_filter.1 hd
      rcases (hvis _ _ hdo).lt_or_eq with h | h
      · rcases J_pos (x := x) (g2 _ hdo.1 _ hdo.2.1 h) with h | h <;> rw [h.1]; decide
      · rw [g3 _ hdo.1 _ hdo.2.1 h.symm]
    have hsub : D ⊆ (l.toFinset ×ˢ Finset.range 4).filter (fun d => Outer A l d.1 d.2) := by
      intro d hd
      have := (hD d hd).1
      refine Finset.mem_filter.2 ⟨?_, this⟩
      simp only [Finset.mem_product, List.mem_toFinset, Finset.mem_range]
      exact ⟨this.1, this.2.1⟩
    have hge : (D.card : Int) ≤ ∑ k ∈ l.toFinset, J c (V k) x := by
      have e : ∑ k ∈ l.toFinset, J (move c z p) (V k) x = ∑ k ∈ l.toFinset, J c (V k) x :=
        Finset.sum_congr rfl fun k hk => by
          have hk := List.mem_toFinset.1 hk
          exact J_move c (len k hk) (hz k hk) p x
      rw [← e, ← hc]
      refine le_trans ?_ (Finset.sum_le_sum_of_subset_of_nonneg hsub fun d hd _ => hnn d hd)
      rw [Finset.card_eq_sum_ones, Nat.cast_sum]
      refine Finset.sum_le_sum fun d hd => ?_
      have : J (move c z p) ((V d.1).set d.2 z) x = 1 := if_pos (hD d hd).2
      rw [this]; rfl
    obtain ⟨Q, hQ⟩ : ∃ Q : Nat → Prop, ∀ k, Q k ↔ ∀ i < 4, 0 < bary c (V k) x i := ⟨_, fun _ => Iff.rfl⟩
    have hle : ∑ k ∈ l.toFinset, J c (V k) x ≤
        ((l.toFinset.filter Q).card : Int) := by
      rw [Finset.card_filter, Nat.cast_sum]
      refine Finset.sum_le_sum fun k hk => ?_
      have hk := List.mem_toFinset.1 hk
      rcases J_pos (x := x) (hpos k (hl k hk)) with h | h
      · rw [h.1, if_pos ((hQ k).2 h.2)]; rfl
      · rw [h.1, if_neg (fun q => h.2 ((hQ k).1 q))]; rfl
    constructor
    · have : (l.toFinset.filter Q).card ≤ 1 := by
        rw [Finset.card_le_one]
        intro k hk k' hk'
        rw [Finset.mem_filter] at hk hk'
        obtain ⟨m1, m2⟩ := hk
        obtain ⟨m1', m2'⟩ := hk'
        have u := hl k (List.mem_toFinset.1 m1)
        have u' := hl k' (List.mem_toFinset.1 m1')
        by_contra hne
        exact hno k k' u u' hne x ((ins k u x).2 ((hQ k).1 m2)) ((ins k' u' x).2 ((hQ k').1 m2'))
      omega
    · intro hDn
      have := Finset.card_pos.2 hDn
      have : 0 < (l.toFinset.filter Q).card := by omega
      obtain ⟨k, hk⟩ := Finset.card_pos.1 this
      rw [Finset.mem_filter] at hk
      obtain ⟨m1, m2⟩ := hk
      exact ⟨k, List.mem_toFinset.1 m1, (hQ k).1 m2⟩
  constructor
  · intro d d' hd hd' hne x0 h h'
    obtain ⟨x, p, q1, _, q3, q4, q5⟩ := generic_star c p0 len hz (fun k hk => hpos k (hl k hk)) x0 [d, d'] []
      (by
        intro e he
        simp only [List.mem_cons, List.not_mem_nil, or_false] at he
        rcases he with rfl | rfl
        · exact ⟨hd.1, hd.2.1, h⟩
        · exact ⟨hd'.1, hd'.2.1, h'⟩) (by simp)
    have := (key x p q3 q4 q5 {d, d'} (by
      intro e he
      rw [Finset.mem_insert, Finset.mem_singleton] at he
      rcases he with rfl | rfl
      · exact ⟨hd, q1 _ (by simp)⟩
      · exact ⟨hd', q1 _ (by simp)⟩)).1
    rw [Finset.card_pair hne] at this
    omega
  · intro d hd k' hk' hkl x0 h h'
    obtain ⟨x, p, q1, q2, q3, q4, q5⟩ := generic_star c p0 len hz (fun k hk => hpos k (hl k hk)) x0 [d] [k']
      (by
        intro e he
        simp only [List.mem_cons, List.not_mem_nil, or_false] at he
        subst he
        exact ⟨hd.1, hd.2.1, h⟩)
      (by
        intro e he
        simp only [List.mem_cons, List.not_mem_nil, or_false] at he
        subst he
        exact h')
    obtain ⟨k, hk, hin⟩ := (key x p q3 q4 q5 {d} (by
      intro e he
      rw [Finset.mem_singleton] at he
      subst he
      exact ⟨hd, q1 _ (by simp)⟩)).2 ⟨d, by simp⟩
    exact hno k k' (hl k hk) hk' (fun h => hkl (h ▸ hk)) x ((ins k (hl k hk) x).2 hin)
      ((ins k' hk' x).2 (q2 k' (by simp)))

end

end Mmg.Over
