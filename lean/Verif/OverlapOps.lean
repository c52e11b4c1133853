/-
  C66. Consequences of the absence of overlaps; the local operations as stars.
-/
import Verif.OverlapStar
import Verif.ColverModel

namespace Mmg.Over

open Mmg.Split3 Mmg.Swap23 Mmg.Shell Mmg.Delone Mmg.Cavity

section
variable {K : Type} [Field K] [LinearOrder K] [IsStrictOrderedRing K]
variable {A : Nat → Nat} {V : Nat → List Nat} {used : Nat → Prop} {l : List Nat}

/-- Two tetrahedra on the same side of a face overlap. -/
theorem same_side {P P' X Y Z : Pt K} (h : 0 < vol P X Y Z) (h' : 0 < vol P' X Y Z) :
    ∃ x : Pt K, (0 < vol x X Y Z ∧ 0 < vol P x Y Z ∧ 0 < vol P X x Z ∧ 0 < vol P X Y x) ∧
      (0 < vol x X Y Z ∧ 0 < vol P' x Y Z ∧ 0 < vol P' X x Z ∧ 0 < vol P' X Y x) := by
  let g : Pt K := ⟨(X.x + Y.x + Z.x) / 3, (X.y + Y.y + Z.y) / 3, (X.z + Y.z + Z.z) / 3⟩
  have aff1 : ∀ A B C : Pt K, Aff fun x => vol A x B C := fun A B C x y t => by
    simp only [vol, Pt.lerp]; ring
  have aff2 : ∀ A B C : Pt K, Aff fun x => vol A B x C := fun A B C x y t => by
    simp only [vol, Pt.lerp]; ring
  have aff3 : ∀ A B C : Pt K, Aff fun x => vol A B C x := fun A B C x y t => by
    simp only [vol, Pt.lerp]; ring
  have v1 : ∀ Q : Pt K, vol Q g Y Z = vol Q X Y Z / 3 := fun Q => by simp only [vol, g]; ring
  have v2 : ∀ Q : Pt K, vol Q X g Z = vol Q X Y Z / 3 := fun Q => by simp only [vol, g]; ring
  have v3 : ∀ Q : Pt K, vol Q X Y g = vol Q X Y Z / 3 := fun Q => by simp only [vol, g]; ring
  obtain ⟨d, d0, hd⟩ := small_list g P [fun x => vol P x Y Z, fun x => vol P X x Z, fun x => vol P X Y x,
      fun x => vol P' x Y Z, fun x => vol P' X x Z, fun x => vol P' X Y x]
    (by
      intro f hf
      simp only [List.mem_cons, List.not_mem_nil, or_false] at hf
      rcases hf with rfl | rfl | rfl | rfl | rfl | rfl
      · exact aff1 _ _ _
      · exact aff2 _ _ _
      · exact aff3 _ _ _
      · exact aff1 _ _ _
      · exact aff2 _ _ _
      · exact aff3 _ _ _)
    (by
      intro f hf
      simp only [List.mem_cons, List.not_mem_nil, or_false] at hf
      rcases hf with rfl | rfl | rfl | rfl | rfl | rfl <;> simp only [v1, v2, v3] <;> positivity)
  have h0 : 0 < vol (Pt.lerp g P d) X Y Z := by
    have : vol (Pt.lerp g P d) X Y Z = d * vol P X Y Z := by simp only [vol, Pt.lerp, g]; ring
    rw [this]; positivity
  have hd := hd d d0 le_rfl
  exact ⟨Pt.lerp g P d, ⟨h0, hd (fun x => vol P x Y Z) (by simp), hd (fun x => vol P X x Z) (by simp),
    hd (fun x => vol P X Y x) (by simp)⟩, h0, hd (fun x => vol P' x Y Z) (by simp),
    hd (fun x => vol P' X x Z) (by simp), hd (fun x => vol P' X Y x) (by simp)⟩

theorem set_own {v : List Nat} (hl : v.length = 4) {f : Nat} (hf : f < 4) : v.set f (v.getD f 0) = v := by
  rw [List.getD_eq_getElem?_getD, List.getElem?_eq_getElem (by rw [hl]; exact hf)]
  simp

theorem J_one {c : Nat → Pt K} {v : List Nat} {x : Pt K} :
    J c v x = 1 ↔ ∀ i < 4, 0 < bary c v x i := by
  unfold J
  constructor
  · intro h
    by_contra hc
    rw [if_neg hc] at h
    by_cases h2 : ∀ i < 4, bary c v x i < 0
    · rw [if_pos h2] at h; exact absurd h (by decide)
    · rw [if_neg h2] at h; exact absurd h (by decide)
  · intro h; exact if_pos h

theorem cyc1 (c : Nat → Pt K) (p a b d : Nat) (x : Pt K) : J c [p, a, b, d] x = J c [p, b, d, a] x := by
  apply J_congr <;>
  · simp only [all4, bary, List.getD_cons_zero, List.getD_cons_succ]
    rw [show vol x (c a) (c b) (c d) = vol x (c b) (c d) (c a) by (simp only [vol]; ring),
      show vol (c p) x (c b) (c d) = vol (c p) (c b) (c d) x by (simp only [vol]; ring),
      show vol (c p) (c a) x (c d) = vol (c p) x (c d) (c a) by (simp only [vol]; ring),
      show vol (c p) (c a) (c b) x = vol (c p) (c b) x (c a) by (simp only [vol]; ring)]
    tauto

/-- If tetrahedra with positive volumes do not overlap, linked faces are seen with opposite
orientations. -/
theorem oriented_of (hm : Mesh A V used) (c : Nat → Pt K) (hpos : ∀ k, used k → 0 < volOf c (V k))
    (hno : NoOverlap c V used) : Oriented A V used := by
  intro k hk f hf h0
  obtain ⟨u', hne, hsym, hface⟩ := hm.adj.ok k hk f hf h0
  have m4 : link A k f % 4 < 4 := Nat.mod_lt _ (by decide)
  have l1 := hm.len k hk
  have l2 := hm.len _ u'
  have hn := hm.nd k hk
  have nf : (faceTri 0 (V k) f).Nodup := by
    have h2 : ((V k : List Nat) : Multiset Nat).Nodup := Multiset.coe_nodup.2 hn
    rw [← faceTri_add l1 hf, Multiset.nodup_add] at h2
    exact h2.1
  have p1 : 0 < volOf c ((V k).set f ((V k).getD f 0)) := by rw [set_own l1 hf]; exact hpos k hk
  have p2 : 0 < volOf c ((V (link A k f / 4)).set (link A k f % 4)
      ((V (link A k f / 4)).getD (link A k f % 4) 0)) := by rw [set_own l2 m4]; exact hpos _ u'
  rw [vol_face c l1 hf] at p1
  rw [vol_face c l2 m4] at p2
  have j1 := J_face c l1 hf ((V k).getD f 0)
  have j2 := J_face c l2 m4 ((V (link A k f / 4)).getD (link A k f % 4) 0)
  rw [set_own l1 hf] at j1
  rw [set_own l2 m4] at j2
  rw [face_getD l1 hf] at nf
  rw [face_getD l2 m4, face_getD l1 hf] at hface
  have contra : ¬ ∃ x, J c (V k) x = 1 ∧ J c (V (link A k f / 4)) x = 1 := by
    rintro ⟨x, e1, e2⟩
    exact hno k _ hk u' (Ne.symm hne) x
      ((inside_iff l1 hn (hpos k hk) x).2 (J_one.1 e1))
      ((inside_iff l2 (hm.nd _ u') (hpos _ u') x).2 (J_one.1 e2))
  unfold Facing
  generalize (V (link A k f / 4)).getD (link A k f % 4) 0 = P' at *
  generalize (V k).getD f 0 = P at *
  generalize g1 : (V k).getD (idirf f 0) 0 = q0 at *
  generalize g2 : (V k).getD (idirf f 1) 0 = q1 at *
  generalize g3 : (V k).getD (idirf f 2) 0 = q2 at *
  generalize g4 : (V (link A k f / 4)).getD (idirf (link A k f % 4) 0) 0 = r0 at *
  generalize g5 : (V (link A k f / 4)).getD (idirf (link A k f % 4) 1) 0 = r1 at *
  generalize g6 : (V (link A k f / 4)).getD (idirf (link A k f % 4) 2) 0 = r2 at *
  have nn : q0 ≠ q1 ∧ q2 ≠ q0 ∧ q2 ≠ q1 := by
    simp only [Multiset.insert_eq_cons, Multiset.nodup_cons, Multiset.mem_cons, Multiset.mem_singleton,
      not_or] at nf
    exact ⟨nf.1.1, Ne.symm nf.1.2, Ne.symm nf.2.1⟩
  have even : (∀ x, J c [P', r0, r1, r2] x = J c [P', q0, q1, q2] x) →
      vol (c P') (c r0) (c r1) (c r2) = vol (c P') (c q0) (c q1) (c q2) → False := by
    intro e1 e2
    rw [e2] at p2
    obtain ⟨x, a, b⟩ := same_side p1 p2
    refine contra ⟨x, ?_, ?_⟩
    · rw [j1, J_one, all4]; exact a
    · rw [j2, e1, J_one, all4]; exact b
  have i3 : ∀ (a b : Nat → Nat), a 0 = b 0 → a 1 = b 1 → a 2 = b 2 → ∀ i < 3, a i = b i := by
    intro a b h0 h1 h2 i hi
    interval_cases i <;> assumption
  rcases order3 nn.1 nn.2.1 nn.2.2 hface with ⟨rfl, rfl, rfl⟩ | ⟨rfl, rfl, rfl⟩ | ⟨rfl, rfl, rfl⟩ |
      ⟨rfl, rfl, rfl⟩ | ⟨rfl, rfl, rfl⟩ | ⟨rfl, rfl, rfl⟩
  · exact absurd (even (fun _ => rfl) rfl) id
  · refine ⟨0, by decide, i3 _ _ ?_ ?_ ?_⟩ <;> simp only [Nat.zero_add, Nat.reduceAdd, Nat.reduceMod, Nat.reduceSub, Nat.sub_zero] <;> simp only [*]
  · refine ⟨1, by decide, i3 _ _ ?_ ?_ ?_⟩ <;> simp only [Nat.zero_add, Nat.reduceAdd, Nat.reduceMod, Nat.reduceSub, Nat.sub_zero] <;> simp only [*]
  · refine absurd (even (fun x => ?_) ?_) id
    · rw [cyc1, cyc1]
    · simp only [vol]; ring
  · refine absurd (even (fun x => ?_) ?_) id
    · rw [cyc1]
    · simp only [vol]; ring
  · refine ⟨2, by decide, i3 _ _ ?_ ?_ ?_⟩ <;> simp only [Nat.zero_add, Nat.reduceAdd, Nat.reduceMod, Nat.reduceSub, Nat.sub_zero] <;> simp only [*]

/-- And no tetrahedron has the vertices of a neighbour. -/
theorem noTwins_of (hm : Mesh A V used) (c : Nat → Pt K) (hpos : ∀ k, used k → 0 < volOf c (V k))
    (hno : NoOverlap c V used) : Colver.NoTwins A V used := by
  intro k hk f hf h0 he
  obtain ⟨u', hne, hsym, hface⟩ := hm.adj.ok k hk f hf h0
  have m4 : link A k f % 4 < 4 := Nat.mod_lt _ (by decide)
  have h := vol_facing c (hm.len k hk) (hm.len _ u') hf m4 (oriented_of hm c hpos hno k hk f hf h0)
    ((V k).getD f 0)
  rw [set_own (hm.len k hk) hf, ← he, set_own (hm.len _ u') m4] at h
  have := hpos k hk
  have := hpos _ u'
  linarith

/-! ### Replacement of a set of tetrahedra by a star -/

theorem star_noOverlap (hm : Mesh A V used) (hnd : l.Nodup) (hl : ∀ k ∈ l, used k)
    (c : Nat → Pt K) {z : Nat} (p0 : Pt K) (hz : ∀ k ∈ l, z ∉ V k)
    (hpos : ∀ k, used k → 0 < volOf c (V k)) (hno : NoOverlap c V used)
    (hvis : ∀ k f, Outer A l k f → 0 ≤ volOf (move c z p0) ((V k).set f z))
    {c' : Nat → Pt K} {V' : Nat → List Nat} {used' : Nat → Prop} (New : Nat → Prop)
    (face : Nat → Nat × Nat)
    (hold : ∀ k, used' k → ¬ New k → used k ∧ k ∉ l ∧ ∀ x, Inside c' (V' k) x → Inside c (V k) x)
    (hnew : ∀ k, used' k → New k → Outer A l (face k).1 (face k).2 ∧ ∀ x, Inside c' (V' k) x →
      ∀ i < 4, 0 < bary (move c z p0) ((V (face k).1).set (face k).2 z) x i)
    (hinj : ∀ k k', used' k → used' k' → New k → New k' → face k = face k' → k = k') :
    NoOverlap c' V' used' := by
  obtain ⟨s1, s2⟩ := star hm (oriented_of hm c hpos hno) hnd hl c p0 hz hpos hno hvis
  have ins : ∀ k, used k → ∀ x, Inside c (V k) x → ∀ i < 4, 0 < bary c (V k) x i := fun k hk x =>
    (inside_iff (hm.len k hk) (hm.nd k hk) (hpos k hk) x).1
  intro k k' hk hk' hne x hx hx'
  by_cases n1 : New k <;> by_cases n2 : New k'
  · obtain ⟨o1, i1⟩ := hnew k hk n1
    obtain ⟨o2, i2⟩ := hnew k' hk' n2
    exact s1 _ _ o1 o2 (fun h => hne (hinj k k' hk hk' n1 n2 h)) x (i1 x hx) (i2 x hx')
  · obtain ⟨o1, i1⟩ := hnew k hk n1
    obtain ⟨u2, l2, i2⟩ := hold k' hk' n2
    exact s2 _ o1 k' u2 l2 x (i1 x hx) (ins k' u2 x (i2 x hx'))
  · obtain ⟨o2, i2⟩ := hnew k' hk' n2
    obtain ⟨u1, l1, i1⟩ := hold k hk n1
    exact s2 _ o2 k u1 l1 x (i2 x hx') (ins k u1 x (i1 x hx))
  · obtain ⟨u1, _, i1⟩ := hold k hk n1
    obtain ⟨u2, _, i2⟩ := hold k' hk' n2
    exact hno k k' u1 u2 hne x (i1 x hx) (i2 x hx')

/-- A number that is not a vertex of the set. -/
theorem exists_fresh (V : Nat → List Nat) (l : List Nat) : ∃ z, ∀ k ∈ l, z ∉ V k := by
  refine ⟨(l.flatMap V).sum + 1, fun k hk hz => ?_⟩
  have := List.le_sum_of_mem (List.mem_flatMap.2 ⟨k, hk, hz⟩)
  omega

theorem bary_set (c : Nat → Pt K) {v : List Nat} (hl : v.length = 4) {z : Nat} (hz : z ∉ v) {f : Nat}
    (hf : f < 4) (q : Nat) (x : Pt K) {i : Nat} (hi : i < 4) :
    bary (move c z (c q)) (v.set f z) x i = bary c (v.set f q) x i := by
  match v, hl with
  | [a, b, d, e], _ =>
    simp only [List.mem_cons, List.not_mem_nil, or_false, not_or] at hz
    obtain ⟨z1, z2, z3, z4⟩ := hz
    interval_cases f <;> interval_cases i <;>
    · simp only [bary, List.set, List.getD_cons_zero, List.getD_cons_succ, move, Ne.symm z1, Ne.symm z2,
        Ne.symm z3, Ne.symm z4, if_true, if_false]

theorem vol_set (c : Nat → Pt K) {v : List Nat} (hl : v.length = 4) {z : Nat} (hz : z ∉ v) {f : Nat}
    (hf : f < 4) (q : Nat) : volOf (move c z (c q)) (v.set f z) = volOf c (v.set f q) := by
  match v, hl with
  | [a, b, d, e], _ =>
    simp only [List.mem_cons, List.not_mem_nil, or_false, not_or] at hz
    obtain ⟨z1, z2, z3, z4⟩ := hz
    interval_cases f <;>
    · simp only [volOf, List.set, List.getD_cons_zero, List.getD_cons_succ, move, Ne.symm z1, Ne.symm z2,
        Ne.symm z3, Ne.symm z4, if_true, if_false]

/-- A tetrahedron with a repeated vertex has no volume. -/
theorem vol_twice (c : Nat → Pt K) {v : List Nat} (hl : v.length = 4) {f g : Nat} (hf : f < 4) (hg : g < 4)
    (hfg : g ≠ f) : volOf c (v.set f (v.getD g 0)) = 0 := by
  match v, hl with
  | [a, b, d, e], _ =>
    interval_cases f <;> interval_cases g <;>
    first
      | exact absurd rfl hfg
      | (simp only [volOf, List.set, List.getD_cons_zero, List.getD_cons_succ, vol]; ring)

/-- The star from a vertex of the mesh. -/
theorem star_vertex (hm : Mesh A V used) (hnd : l.Nodup) (hl : ∀ k ∈ l, used k)
    (c : Nat → Pt K) (q : Nat) (hpos : ∀ k, used k → 0 < volOf c (V k)) (hno : NoOverlap c V used)
    (hvis : ∀ k f, Outer A l k f → 0 ≤ volOf c ((V k).set f q))
    {c' : Nat → Pt K} {V' : Nat → List Nat} {used' : Nat → Prop} (New : Nat → Prop)
    (face : Nat → Nat × Nat)
    (hold : ∀ k, used' k → ¬ New k → used k ∧ k ∉ l ∧ ∀ x, Inside c' (V' k) x → Inside c (V k) x)
    (hnew : ∀ k, used' k → New k → Outer A l (face k).1 (face k).2 ∧ ∀ x, Inside c' (V' k) x →
      ∀ i < 4, 0 < bary c ((V (face k).1).set (face k).2 q) x i)
    (hinj : ∀ k k', used' k → used' k' → New k → New k' → face k = face k' → k = k') :
    NoOverlap c' V' used' := by
  obtain ⟨z, hz⟩ := exists_fresh V l
  refine star_noOverlap hm hnd hl c (z := z) (c q) hz hpos hno ?_ New face hold ?_ hinj
  · intro k f ho
    rw [vol_set c (hm.len k (hl k ho.1)) (hz k ho.1) ho.2.1]
    exact hvis k f ho
  · intro k hk hn
    obtain ⟨o, i1⟩ := hnew k hk hn
    refine ⟨o, fun x hx i hi => ?_⟩
    rw [bary_set c (hm.len _ (hl _ o.1)) (hz _ o.1) o.2.1 q x hi]
    exact i1 x hx i hi

end

end Mmg.Over
