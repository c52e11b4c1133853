/-
  Geometry of a cavity seen from the new vertex: tetrahedra that do not overlap give a surface
  without pinched edges.
-/
import Verif.CavityModel
import Mathlib.Tactic.FieldSimp
import Mathlib.Tactic.Linarith
import Mathlib.Tactic.Positivity

namespace Mmg.Cavity

open Mmg.Split3 Mmg.Swap23 Mmg.Shell Mmg.Delone

section
variable {K : Type} [Field K] [LinearOrder K] [IsStrictOrderedRing K]

/-- The point is strictly inside of the tetrahedron: barycentre of its vertices with positive
weights. -/
def Inside (c : Nat → Pt K) (v : List Nat) (x : Pt K) : Prop :=
  ∃ w : Nat → K, (∀ n ∈ v, 0 < w n) ∧ (v.map w).sum = 1 ∧
    x.x = (v.map fun n => w n * (c n).x).sum ∧ x.y = (v.map fun n => w n * (c n).y).sum ∧
    x.z = (v.map fun n => w n * (c n).z).sum

/-- No point is strictly inside of two tetrahedra. -/
def NoOverlap (c : Nat → Pt K) (V : Nat → List Nat) (used : Nat → Prop) : Prop :=
  ∀ k k', used k → used k' → k ≠ k' → ∀ x, Inside c (V k) x → ¬ Inside c (V k') x

/-! ### Small perturbations -/

theorem exists_small {u v : K} (h : 0 < u ∨ u = 0 ∧ 0 < v) :
    ∃ d > 0, ∀ e, 0 < e → e ≤ d → 0 < u + e * v := by
  rcases h with h | ⟨rfl, h⟩
  · refine ⟨u / (2 * (|v| + 1)), by positivity, fun e h0 h1 => ?_⟩
    have h2 : e * (2 * (|v| + 1)) ≤ u := by
      rwa [le_div_iff₀ (by positivity)] at h1
    have h3 : -(e * |v|) ≤ e * v := by
      rw [← mul_neg]; exact mul_le_mul_of_nonneg_left (neg_abs_le v) h0.le
    have h4 : 0 ≤ e * |v| := by positivity
    nlinarith
  · exact ⟨1, one_pos, fun e h0 _ => by rw [zero_add]; positivity⟩

/-- Near the middle of the edge `A B`, in a direction between `C` and `D`. -/
theorem wedge_point {A B C D Q : Pt K} (h : 0 < vol D A B C) (h1 : 0 < vol D A B Q)
    (h2 : 0 < vol Q A B C) : ∃ d > 0, ∀ e, 0 < e → e ≤ d → ∃ wa wb wc wd : K,
      0 < wa ∧ 0 < wb ∧ 0 < wc ∧ 0 < wd ∧ wa + wb + wc + wd = 1 ∧
      (A.x + B.x) / 2 + e * (Q.x - A.x) = wa * A.x + wb * B.x + wc * C.x + wd * D.x ∧
      (A.y + B.y) / 2 + e * (Q.y - A.y) = wa * A.y + wb * B.y + wc * C.y + wd * D.y ∧
      (A.z + B.z) / 2 + e * (Q.z - A.z) = wa * A.z + wb * B.z + wc * C.z + wd * D.z := by
  have hv : vol D A B C ≠ 0 := h.ne'
  obtain ⟨al, hal⟩ : ∃ al, al = vol D A B Q / vol D A B C := ⟨_, rfl⟩
  obtain ⟨be, hbe⟩ : ∃ be, be = vol Q A B C / vol D A B C := ⟨_, rfl⟩
  obtain ⟨ga, hga⟩ : ∃ ga, ga = vol A Q D C / vol D A B C := ⟨_, rfl⟩
  have hal0 : 0 < al := by rw [hal]; positivity
  have hbe0 : 0 < be := by rw [hbe]; positivity
  obtain ⟨d1, p1, q1⟩ := exists_small (u := 1 / 2) (v := ga) (.inl (by norm_num))
  obtain ⟨d2, p2, q2⟩ := exists_small (u := 1 / 2) (v := -(ga + al + be)) (.inl (by norm_num))
  refine ⟨min d1 d2, lt_min p1 p2, fun e h0 he => ?_⟩
  have r1 := q1 e h0 (he.trans (min_le_left _ _))
  have r2 := q2 e h0 (he.trans (min_le_right _ _))
  refine ⟨1 / 2 + e * -(ga + al + be), 1 / 2 + e * ga, e * al, e * be, r2, r1, by positivity,
    by positivity, by ring, ?_, ?_, ?_⟩
  · have : Q.x - A.x = ga * (B.x - A.x) + be * (D.x - A.x) + al * (C.x - A.x) := by
      rw [hal, hbe, hga]
      field_simp
      simp only [vol]
      ring
    rw [this]; ring
  · have : Q.y - A.y = ga * (B.y - A.y) + be * (D.y - A.y) + al * (C.y - A.y) := by
      rw [hal, hbe, hga]
      field_simp
      simp only [vol]
      ring
    rw [this]; ring
  · have : Q.z - A.z = ga * (B.z - A.z) + be * (D.z - A.z) + al * (C.z - A.z) := by
      rw [hal, hbe, hga]
      field_simp
      simp only [vol]
      ring
    rw [this]; ring

/-- Two wedges around an edge that contain the direction of `P` have a direction inside in common. -/
theorem wedge_common {A B C D C' D' P : Pt K} (h : 0 < vol D A B C) (h' : 0 < vol D' A B C') (h1 : vol P A B D < 0)
    (h2 : 0 ≤ vol P A B C) (h1' : vol P A B D' < 0) (h2' : 0 ≤ vol P A B C') :
    ∃ Q : Pt K, 0 < vol D A B Q ∧ 0 < vol Q A B C ∧ 0 < vol D' A B Q ∧ 0 < vol Q A B C' := by
  have anti : ∀ X Y : Pt K, vol X A B Y = -vol Y A B X := fun X Y => by simp only [vol]; ring
  let q : K → Pt K := fun e =>
    ⟨P.x + e * (D.x - A.x), P.y + e * (D.y - A.y), P.z + e * (D.z - A.z)⟩
  have lin : ∀ e (Y : Pt K), vol (q e) A B Y = vol P A B Y + e * vol D A B Y := fun e Y => by
    simp only [vol, q]; ring
  have lin' : ∀ e (Y : Pt K), vol Y A B (q e) = vol Y A B P + e * vol Y A B D := fun e Y => by
    simp only [vol, q]; ring
  have e1 : 0 < vol D A B P := by rw [anti]; linarith
  have e2 : 0 < vol D' A B P := by rw [anti]; linarith
  have e3 : 0 < vol P A B C' ∨ vol P A B C' = 0 ∧ 0 < vol D A B C' := by
    rcases h2'.lt_or_eq with hc | hc
    · exact .inl hc
    · refine .inr ⟨hc.symm, ?_⟩
      -- `P` is in the direction of `C'`
      have key : vol D A B C' * vol D' A B P = vol D A B P * vol D' A B C' +
          vol D' A B D * vol P A B C' := by
        simp only [vol]; ring
      rw [← hc, mul_zero, add_zero] at key
      have hk : 0 < vol D A B C' * vol D' A B P := by rw [key]; positivity
      exact (mul_pos_iff_of_pos_right e2).1 hk
  obtain ⟨d1, p1, q1⟩ := exists_small e3
  obtain ⟨d2, p2, q2⟩ := exists_small (u := vol D' A B P) (v := vol D' A B D) (.inl e2)
  have hd : 0 < min d1 d2 := lt_min p1 p2
  refine ⟨q (min d1 d2), ?_, ?_, ?_, ?_⟩
  · rw [lin', show vol D A B D = 0 by simp only [vol]; ring, mul_zero, add_zero]; exact e1
  · rw [lin]
    have : 0 < min d1 d2 * vol D A B C := by positivity
    linarith
  · rw [lin']; exact q2 _ hd (min_le_right _ _)
  · rw [lin]; exact q1 _ hd (min_le_left _ _)

/-- Two tetrahedra on the edge `A B` whose wedges contain the direction of `P` overlap. -/
theorem wedge_overlap {A B C D C' D' P : Pt K} (h : 0 < vol D A B C) (h' : 0 < vol D' A B C')
    (h1 : vol P A B D < 0) (h2 : 0 ≤ vol P A B C) (h1' : vol P A B D' < 0)
    (h2' : 0 ≤ vol P A B C') : ∃ x : Pt K,
    (∃ wa wb wc wd : K, 0 < wa ∧ 0 < wb ∧ 0 < wc ∧ 0 < wd ∧ wa + wb + wc + wd = 1 ∧
      x.x = wa * A.x + wb * B.x + wc * C.x + wd * D.x ∧
      x.y = wa * A.y + wb * B.y + wc * C.y + wd * D.y ∧
      x.z = wa * A.z + wb * B.z + wc * C.z + wd * D.z) ∧
    (∃ wa wb wc wd : K, 0 < wa ∧ 0 < wb ∧ 0 < wc ∧ 0 < wd ∧ wa + wb + wc + wd = 1 ∧
      x.x = wa * A.x + wb * B.x + wc * C'.x + wd * D'.x ∧
      x.y = wa * A.y + wb * B.y + wc * C'.y + wd * D'.y ∧
      x.z = wa * A.z + wb * B.z + wc * C'.z + wd * D'.z) := by
  obtain ⟨Q, g1, g2, g3, g4⟩ := wedge_common h h' h1 h2 h1' h2'
  obtain ⟨d1, p1, q1⟩ := wedge_point h g1 g2
  obtain ⟨d2, p2, q2⟩ := wedge_point h' g3 g4
  have hd : 0 < min d1 d2 := lt_min p1 p2
  exact ⟨⟨_, _, _⟩, q1 _ hd (min_le_left _ _), q2 _ hd (min_le_right _ _)⟩

/-! ### Tetrahedra -/

/-- The vertices of a tetrahedron around an edge. -/
theorem perm_edge {v : List Nat} {a b f : Nat} (h : Has v a b) (ht : Thru v a b f) :
    v.Perm [a, b, v.getD (oth v a b f) 0, v.getD f 0] := by
  have h1 := faceTri_add h.len ht.1
  rw [(face_thru h ht).1] at h1
  rw [← Multiset.coe_eq_coe, ← h1]
  rfl

theorem inside_of {c : Nat → Pt K} {v : List Nat} {a b f : Nat} (h : Has v a b) (ht : Thru v a b f)
    {x : Pt K} {wa wb wc wd : K} (ha : 0 < wa) (hb : 0 < wb) (hc : 0 < wc) (hd : 0 < wd)
    (hs : wa + wb + wc + wd = 1)
    (hx : x.x = wa * (c a).x + wb * (c b).x + wc * (c (v.getD (oth v a b f) 0)).x +
      wd * (c (v.getD f 0)).x)
    (hy : x.y = wa * (c a).y + wb * (c b).y + wc * (c (v.getD (oth v a b f) 0)).y +
      wd * (c (v.getD f 0)).y)
    (hz : x.z = wa * (c a).z + wb * (c b).z + wc * (c (v.getD (oth v a b f) 0)).z +
      wd * (c (v.getD f 0)).z) : Inside c v x := by
  have hp := perm_edge h ht
  have hnd := hp.nodup_iff.1 h.nd
  generalize v.getD (oth v a b f) 0 = z at *
  generalize v.getD f 0 = y at *
  obtain ⟨⟨n1, n2, n3, n4, n5, n6⟩, m1, m2, m3, m4, m5, m6⟩ := nodup4 hnd
  refine ⟨fun n => if n = a then wa else if n = b then wb else if n = z then wc else wd, ?_, ?_, ?_,
    ?_, ?_⟩
  · intro n _
    simp only
    split_ifs <;> assumption
  · rw [(hp.map _).sum_eq]
    simp [n1, n2, n3, n4, n5, n6, m1, m2, m3, m4, m5, m6]
    rw [← hs]; ring
  · rw [(hp.map _).sum_eq, hx]
    simp [n1, n2, n3, n4, n5, n6, m1, m2, m3, m4, m5, m6]
    ring
  · rw [(hp.map _).sum_eq, hy]
    simp [n1, n2, n3, n4, n5, n6, m1, m2, m3, m4, m5, m6]
    ring
  · rw [(hp.map _).sum_eq, hz]
    simp [n1, n2, n3, n4, n5, n6, m1, m2, m3, m4, m5, m6]
    ring

/-- Volume over a face through the edge. -/
theorem vol_thru (c : Nat → Pt K) {v : List Nat} {a b f : Nat} (h : Has v a b) (ht : Thru v a b f)
    (p : Nat) :
    (Follows v f a b → volOf c (v.set f p) = vol (c p) (c a) (c b) (c (v.getD (oth v a b f) 0))) ∧
    (¬ Follows v f a b →
      volOf c (v.set f p) = -vol (c p) (c a) (c b) (c (v.getD (oth v a b f) 0))) := by
  obtain ⟨e1, t1, o1, d1⟩ := face_thru h ht
  have e2 := e1
  rw [face_getD h.len ht.1] at e2
  rw [vol_face c h.len ht.1, follows_iff]
  have hz := t1.2
  generalize v.getD (oth v a b f) 0 = z at *
  generalize v.getD (idirf f 0) 0 = q0 at *
  generalize v.getD (idirf f 1) 0 = q1 at *
  generalize v.getD (idirf f 2) 0 = q2 at *
  have hab := h.ne
  rcases order3 h.ne hz.1 hz.2 e2 with ⟨rfl, rfl, rfl⟩ | ⟨rfl, rfl, rfl⟩ | ⟨rfl, rfl, rfl⟩ |
      ⟨rfl, rfl, rfl⟩ | ⟨rfl, rfl, rfl⟩ | ⟨rfl, rfl, rfl⟩ <;>
    simp [hab, hab.symm, hz.1, hz.2, Ne.symm hz.1, Ne.symm hz.2, vol] <;> ring

/-! ### Surface of the cavity -/

theorem follows_swap {v : List Nat} {a b f : Nat} (h : Has v a b) (ht : Thru v a b f) :
    Follows v f a b ↔ ¬ Follows v f b a := by
  obtain ⟨e1, t1, o1, d1⟩ := face_thru h ht
  rw [face_getD h.len ht.1] at e1
  rw [follows_iff, follows_iff]
  have hz := t1.2
  generalize v.getD (oth v a b f) 0 = z at *
  generalize v.getD (idirf f 0) 0 = q0 at *
  generalize v.getD (idirf f 1) 0 = q1 at *
  generalize v.getD (idirf f 2) 0 = q2 at *
  have hab := h.ne
  rcases order3 h.ne hz.1 hz.2 e1 with ⟨rfl, rfl, rfl⟩ | ⟨rfl, rfl, rfl⟩ | ⟨rfl, rfl, rfl⟩ |
      ⟨rfl, rfl, rfl⟩ | ⟨rfl, rfl, rfl⟩ | ⟨rfl, rfl, rfl⟩ <;>
    simp [hab, hab.symm, hz.1, hz.2, Ne.symm hz.1, Ne.symm hz.2]

theorem thru_two {v : List Nat} {a b f g : Nat} (h : Has v a b) (hf : Thru v a b f)
    (hg : Thru v a b g) (hfg : g ≠ f) : g = oth v a b f := by
  have hp := perm_edge h hf
  have hl := h.len
  have hmem : v.getD g 0 ∈ v := by
    rw [List.getD_eq_getElem?_getD, List.getElem?_eq_getElem (by rw [hl]; exact hg.1)]
    exact List.getElem_mem _
  have inj : ∀ i j, i < 4 → j < 4 → v.getD i 0 = v.getD j 0 → i = j := by
    intro i j hi hj he
    rw [List.getD_eq_getElem?_getD, List.getD_eq_getElem?_getD,
      List.getElem?_eq_getElem (by omega), List.getElem?_eq_getElem (by omega)] at he
    exact (List.Nodup.getElem_inj_iff h.nd).1 he
  rw [hp.mem_iff] at hmem
  simp only [List.mem_cons, List.not_mem_nil, or_false] at hmem
  rcases hmem with hm | hm | hm | hm
  · exact absurd hm hg.2.1
  · exact absurd hm hg.2.2
  · exact inj _ _ hg.1 (face_thru h hf).2.1.1 hm
  · exact absurd (inj _ _ hg.1 hf.1 hm) hfg

variable {A : Nat → Nat} {V : Nat → List Nat} {used : Nat → Prop} {l : List Nat} {ip : Nat}

open Classical in
/-- Two faces of the surface cannot see an edge in the same order, if the new vertex is on the
positive side of all the faces. -/
theorem same_order (hm : Mesh A V used) (ho : Oriented A V used) (hl : ∀ k ∈ l, used k)
    (c : Nat → Pt K) (hpos : ∀ k ∈ l, 0 < volOf c (V k)) (hno : NoOverlap c V used)
    (hvis : ∀ k f, Outer A l k f → 0 < volOf c ((V k).set f ip)) {a b : Nat} {x y : Nat × Nat}
    (hx : x ∈ around V l a b) (hy : y ∈ around V l a b) (ox : Outer A l x.1 x.2)
    (oy : Outer A l y.1 y.2) (fx : Follows (V x.1) x.2 a b) (fy : Follows (V y.1) y.2 a b) :
    x = y := by
  by_contra hxy
  let E : Nat × Nat → K := fun d => vol (c ip) (c a) (c b) (c ((V d.1).getD (oth (V d.1) a b d.2) 0))
  let χ : Nat × Nat → ℤ := fun d => if 0 ≤ E d then 1 else 0
  let σ : Nat × Nat → ℤ := fun d => if Follows (V d.1) d.2 a b then χ d else -χ d
  have χ0 : ∀ d, 0 ≤ χ d := fun d => by simp only [χ]; split_ifs <;> decide
  have χ1 : ∀ d, χ d ≤ 1 := fun d => by simp only [χ]; split_ifs <;> decide
  have dart : ∀ d ∈ around V l a b, Dart V used a b d := fun d hd =>
    ⟨hl _ (mem_around.1 hd).1, (mem_around.1 hd).2.1, (mem_around.1 hd).2.2⟩
  have revm : ∀ d ∈ around V l a b, rev V a b d ∈ around V l a b := fun d hd => by
    have := (dart d hd).rv.1
    exact mem_around.2 ⟨(mem_around.1 hd).1, this.has, this.thru⟩
  -- inside faces
  have hinn : ∑ d ∈ (around V l a b).filter (fun d => ¬ Outer A l d.1 d.2), σ d = 0 := by
    refine inner_sum hm hl σ fun d hd hdo => ?_
    obtain ⟨h1, h2, h3⟩ := mem_around.1 hd
    have h0 : link A d.1 d.2 ≠ 0 := fun h => hdo ⟨h1, h3.1, .inl h⟩
    obtain ⟨_, c2, c3, _⟩ := (dart d hd).cross hm h0
    have hfl := follows_facing h2 h3 (ho d.1 (hl _ h1) d.2 h3.1 h0)
    have hface := (hm.adj.ok d.1 (hl _ h1) d.2 h3.1 h0).2.2.2
    have hEq : χ (link A d.1 d.2 / 4, link A d.1 d.2 % 4) = χ d := by
      rw [(face_thru h2 h3).1, (face_thru c2 c3).1] at hface
      have : (V (link A d.1 d.2 / 4)).getD (oth (V (link A d.1 d.2 / 4)) a b (link A d.1 d.2 % 4)) 0
          = (V d.1).getD (oth (V d.1) a b d.2) 0 := by
        have h := congrArg (fun s => s - {a, b}) hface
        simpa using h
      simp only [χ, E, this]
    simp only [σ]
    by_cases hF : Follows (V d.1) d.2 a b
    · rw [if_pos hF, if_neg (hfl.1 hF), hEq]; ring
    · rw [if_neg hF, if_pos (by by_contra h; exact hF (hfl.2 h)), hEq]; ring
  -- faces of the surface
  have houter : 2 ≤ ∑ d ∈ (around V l a b).filter (fun d => Outer A l d.1 d.2), σ d := by
    have val : ∀ d ∈ (around V l a b).filter (fun d => Outer A l d.1 d.2),
        σ d = if Follows (V d.1) d.2 a b then 1 else 0 := by
      intro d hd
      obtain ⟨hd, hdo⟩ := Finset.mem_filter.1 hd
      obtain ⟨h1, h2, h3⟩ := mem_around.1 hd
      obtain ⟨v1, v2⟩ := vol_thru c h2 h3 ip
      have hv := hvis _ _ hdo
      simp only [σ, χ, E]
      by_cases hF : Follows (V d.1) d.2 a b
      · rw [if_pos hF, if_pos hF, if_pos (by rw [← v1 hF]; exact hv.le)]
      · rw [if_neg hF, if_neg hF, if_neg (by rw [v2 hF] at hv; linarith)]; rfl
    rw [Finset.sum_congr rfl val]
    have sub : ({x, y} : Finset (Nat × Nat)) ⊆
        (around V l a b).filter (fun d => Outer A l d.1 d.2) := by
      intro d hd
      rw [Finset.mem_insert, Finset.mem_singleton] at hd
      rcases hd with rfl | rfl
      · exact Finset.mem_filter.2 ⟨hx, ox⟩
      · exact Finset.mem_filter.2 ⟨hy, oy⟩
    refine le_trans ?_ (Finset.sum_le_sum_of_subset_of_nonneg sub fun d _ _ => ?_)
    · rw [Finset.sum_pair hxy, if_pos fx, if_pos fy]; norm_num
    · split_ifs <;> norm_num
  -- tetrahedra
  have hall : ∑ d ∈ around V l a b, σ d ≤ 1 := by
    rw [← Finset.sum_filter_add_sum_filter_not (around V l a b)
      (fun d => Follows (V d.1) d.2 a b) σ]
    have hrev : ∑ d ∈ (around V l a b).filter (fun d => ¬ Follows (V d.1) d.2 a b), σ d =
        ∑ d ∈ (around V l a b).filter (fun d => Follows (V d.1) d.2 a b), σ (rev V a b d) := by
      symm
      refine Finset.sum_nbij' (rev V a b) (rev V a b) ?_ ?_ ?_ ?_ ?_
      · intro d hd
        obtain ⟨hd, hF⟩ := Finset.mem_filter.1 hd
        exact Finset.mem_filter.2 ⟨revm d hd, (follows_oth (dart d hd).has (dart d hd).thru).1 hF⟩
      · intro d hd
        obtain ⟨hd, hF⟩ := Finset.mem_filter.1 hd
        refine Finset.mem_filter.2 ⟨revm d hd, ?_⟩
        by_contra h
        exact hF ((follows_oth (dart d hd).has (dart d hd).thru).2 h)
      · intro d hd; exact (dart d (Finset.mem_filter.1 hd).1).rv.2.1
      · intro d hd; exact (dart d (Finset.mem_filter.1 hd).1).rv.2.1
      · intro d _; rfl
    rw [hrev, ← Finset.sum_add_distrib]
    let W := ((around V l a b).filter (fun d => Follows (V d.1) d.2 a b)).filter
      fun d => 0 ≤ E d ∧ E (rev V a b d) < 0
    have hW : ∑ d ∈ (around V l a b).filter (fun d => Follows (V d.1) d.2 a b),
        (σ d + σ (rev V a b d)) ≤ (W.card : ℤ) := by
      rw [Finset.card_filter, Nat.cast_sum]
      refine Finset.sum_le_sum fun d hd => ?_
      obtain ⟨hd, hF⟩ := Finset.mem_filter.1 hd
      have hF' : ¬ Follows (V (rev V a b d).1) (rev V a b d).2 a b :=
        (follows_oth (dart d hd).has (dart d hd).thru).1 hF
      simp only [σ]
      rw [if_pos hF, if_neg hF']
      simp only [χ]
      by_cases g1 : 0 ≤ E d <;> by_cases g2 : 0 ≤ E (rev V a b d) <;>
        simp [g1, g2, not_lt.2, not_le.1]
    refine hW.trans ?_
    have : W.card ≤ 1 := by
      rw [Finset.card_le_one]
      intro d hd d' hd'
      obtain ⟨hd, w1, w2⟩ := Finset.mem_filter.1 hd
      obtain ⟨hd', w1', w2'⟩ := Finset.mem_filter.1 hd'
      obtain ⟨hd, hF⟩ := Finset.mem_filter.1 hd
      obtain ⟨hd', hF'⟩ := Finset.mem_filter.1 hd'
      have D := dart d hd
      have D' := dart d' hd'
      by_cases hk : d.1 = d'.1
      · obtain ⟨k, f⟩ := d
        obtain ⟨k', f'⟩ := d'
        simp only at hk
        subst hk
        by_contra hne
        have hff : f' ≠ f := fun h => hne (by rw [h])
        have := thru_two D.has D.thru D'.thru hff
        simp only at hF hF' this
        rw [this] at hF'
        exact (follows_oth D.has D.thru).1 hF hF'
      · exfalso
        have volk : ∀ d ∈ around V l a b, Follows (V d.1) d.2 a b →
            0 < vol (c ((V d.1).getD d.2 0)) (c a) (c b) (c ((V d.1).getD (oth (V d.1) a b d.2) 0)) := by
          intro d hd hF
          have D := dart d hd
          rw [← (vol_thru c D.has D.thru ((V d.1).getD d.2 0)).1 hF]
          have : (V d.1).set d.2 ((V d.1).getD d.2 0) = V d.1 := by
            rw [List.getD_eq_getElem?_getD, List.getElem?_eq_getElem (by
              rw [D.has.len]; exact D.thru.1)]
            simp
          rw [this]
          exact hpos _ (mem_around.1 hd).1
        have rv : ∀ d ∈ around V l a b, E (rev V a b d) =
            vol (c ip) (c a) (c b) (c ((V d.1).getD d.2 0)) := by
          intro d hd
          have := (face_thru (dart d hd).has (dart d hd).thru).2.2.1
          simp only [E, rev, this]
        rw [rv d hd] at w2
        rw [rv d' hd'] at w2'
        obtain ⟨p, ⟨a1, a2, a3, a4, i1, i2, i3, i4, i5, i6, i7, i8⟩,
          ⟨b1, b2, b3, b4, j1, j2, j3, j4, j5, j6, j7, j8⟩⟩ :=
          wedge_overlap (volk d hd hF) (volk d' hd' hF') w2 w1 w2' w1'
        exact hno _ _ D.used D'.used hk p
          (inside_of D.has D.thru i1 i2 i3 i4 i5 i6 i7 i8)
          (inside_of D'.has D'.thru j1 j2 j3 j4 j5 j6 j7 j8)
    exact_mod_cast this
  have := Finset.sum_filter_add_sum_filter_not (around V l a b) (fun d => Outer A l d.1 d.2) σ
  rw [hinn] at this
  omega

/-- If the tetrahedra do not overlap and the new vertex is on the positive side of all the faces of
the surface of the cavity, no edge is on more than two of them. -/
theorem noPinch (hm : Mesh A V used) (ho : Oriented A V used) (hl : ∀ k ∈ l, used k)
    (c : Nat → Pt K) (hpos : ∀ k ∈ l, 0 < volOf c (V k)) (hno : NoOverlap c V used)
    (hvis : ∀ k f, Outer A l k f → 0 < volOf c ((V k).set f ip)) : NoPinch A V l := by
  intro a b hab x y z hx hy hz
  have mem : ∀ d : Nat × Nat, (Outer A l d.1 d.2 ∧ a ∈ faceTri 0 (V d.1) d.2 ∧
      b ∈ faceTri 0 (V d.1) d.2) → d ∈ around V l a b := by
    rintro ⟨k, f⟩ ⟨ho, ha, hb⟩
    have hlen := hm.len _ (hl _ ho.1)
    have hnd := hm.nd _ (hl _ ho.1)
    have h1 : Has (V k) a b := ⟨hlen, hnd, hab, mem_of_face hlen ho.2.1 ha, mem_of_face hlen ho.2.1 hb⟩
    have dis : ∀ n ∈ faceTri 0 (V k) f, (V k).getD f 0 ≠ n := by
      intro n hn he
      have h2 : ((V k : List Nat) : Multiset Nat).Nodup := Multiset.coe_nodup.2 hnd
      rw [← faceTri_add hlen ho.2.1, Multiset.nodup_add] at h2
      exact Multiset.disjoint_left.1 h2.2.2 hn (by rw [Multiset.mem_singleton, he])
    exact mem_around.2 ⟨ho.1, h1, ho.2.1, dis a ha, dis b hb⟩
  have swap : ∀ d, d ∈ around V l a b → d ∈ around V l b a := fun d hd => by
    obtain ⟨h1, h2, h3⟩ := mem_around.1 hd
    exact mem_around.2 ⟨h1, has_symm h2, thru_symm h3⟩
  have two : ∀ d d' : Nat × Nat, d ∈ around V l a b → d' ∈ around V l a b → Outer A l d.1 d.2 →
      Outer A l d'.1 d'.2 → (Follows (V d.1) d.2 a b ↔ Follows (V d'.1) d'.2 a b) → d = d' := by
    intro d d' hd hd' od od' hF
    by_cases h : Follows (V d.1) d.2 a b
    · exact same_order hm ho hl c hpos hno hvis hd hd' od od' h (hF.1 h)
    · have m := mem_around.1 hd
      have m' := mem_around.1 hd'
      refine same_order hm ho hl c hpos hno hvis (swap d hd) (swap d' hd') od od' ?_ ?_
      · by_contra hc; exact h ((follows_swap m.2.1 m.2.2).2 hc)
      · by_contra hc; exact h (hF.2 ((follows_swap m'.2.1 m'.2.2).2 hc))
  by_cases h1 : Follows (V x.1) x.2 a b <;> by_cases h2 : Follows (V y.1) y.2 a b <;>
    by_cases h3 : Follows (V z.1) z.2 a b
  · exact .inl (two x y (mem x hx) (mem y hy) hx.1 hy.1 (by simp [h1, h2]))
  · exact .inl (two x y (mem x hx) (mem y hy) hx.1 hy.1 (by simp [h1, h2]))
  · exact .inr (.inr (two x z (mem x hx) (mem z hz) hx.1 hz.1 (by simp [h1, h3])))
  · exact .inr (.inl (two y z (mem y hy) (mem z hz) hy.1 hz.1 (by simp [h2, h3])))
  · exact .inr (.inl (two y z (mem y hy) (mem z hz) hy.1 hz.1 (by simp [h2, h3])))
  · exact .inr (.inr (two x z (mem x hx) (mem z hz) hx.1 hz.1 (by simp [h1, h3])))
  · exact .inl (two x y (mem x hx) (mem y hy) hx.1 hy.1 (by simp [h1, h2]))
  · exact .inl (two x y (mem x hx) (mem y hy) hx.1 hy.1 (by simp [h1, h2]))

end

end Mmg.Cavity
