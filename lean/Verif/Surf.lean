import Verif.SurfCol
import Mathlib.Data.Multiset.Bind
import Mathlib.Algebra.Order.Group.Multiset
import Mathlib.Tactic.Abel

/-!
# C94: splitting and swapping in the surface remesher
-/

namespace Mmg.Surf

open Mmg.Tri2 Relation

/-! ### One edge split -/

theorem split1b_eq {M : Mesh} {P : Pts} {k ip iel kel : Nat} {i : Fin 3} {M' : Mesh} {P' : Pts} {kel' : Option Nat}
    (e : split1b M P k i ip (some iel) kel' = (true, M', P')) (hkel : M.adj (k, i) ≠ none → kel' = some kel) :
    M' = Tri2.split1b M k i ip iel kel := by
  unfold split1b at e
  unfold Tri2.split1b
  simp only at e ⊢
  cases ho : M.adj (k, i) with
  | none =>
    rw [ho] at e
    exact (Prod.mk.inj (Prod.mk.inj e).2).1.symm
  | some o =>
    obtain ⟨jel, j⟩ := o
    rw [ho, hkel (by simp [ho])] at e
    exact (Prod.mk.inj (Prod.mk.inj e).2).1.symm

theorem split1b_pts {M : Mesh} {P : Pts} {k ip iel : Nat} {i : Fin 3} {M' : Mesh} {P' : Pts} {kel' : Option Nat} {b : Bool}
    (e : split1b M P k i ip (some iel) kel' = (b, M', P')) :
    P'.ref ip = (if (M.tri k).edg i ≠ 0 then (M.tri k).edg i else P.ref ip) ∧
    P'.tag ip = (if (M.tri k).tag i ≠ 0 then (M.tri k).tag i else P.tag ip) ∧
    ∀ x, x ≠ ip → P'.ref x = P.ref x ∧ P'.tag x = P.tag x := by
  have : P' = ⟨fun x => if x = ip ∧ (M.tri k).edg i ≠ 0 then (M.tri k).edg i else P.ref x,
      fun x => if x = ip ∧ (M.tri k).tag i ≠ 0 then (M.tri k).tag i else P.tag x⟩ := by
    unfold split1b at e
    simp only at e
    cases ho : M.adj (k, i) with
    | none => rw [ho] at e; exact (Prod.mk.inj (Prod.mk.inj e).2).2.symm
    | some o =>
      rw [ho] at e
      cases kel' with
      | none => exact (Prod.mk.inj (Prod.mk.inj e).2).2.symm
      | some kel => exact (Prod.mk.inj (Prod.mk.inj e).2).2.symm
  subst this
  refine ⟨by simp, by simp, fun x hx => ⟨by simp [hx], by simp [hx]⟩⟩

theorem edge_od {M M' : Mesh} {z : HE} {a b g : Nat} {e : Int} (h : M'.edge z = (a, b, g, e)) : M'.org z = a ∧ M'.dst z = b := by
  simp only [Mesh.edge, Prod.mk.injEq] at h
  exact ⟨h.1, h.2.1⟩

theorem edge_od' {M M' : Mesh} {z z' : HE} (h : M'.edge z = M.edge z') : M'.org z = M.org z' ∧ M'.dst z = M.dst z' := by
  simp only [Mesh.edge, Prod.mk.injEq] at h
  exact ⟨h.1, h.2.1⟩

/-- C94: splitting an edge of two triangles.  `ip` is a new vertex, the two triangles have different third vertices.  The surface is
again conforming with directed edges in one triangle; each triangle is cut in two, the halves of the edge keep its marks and the new
edges have none; the new point takes the marks of the edge. -/
theorem C94_split {M M' : Mesh} {P P' : Pts} {k ip iel kel jel : Nat} {i j : Fin 3} (h : Valid M) (hI : Inj M) (hk : M.live k)
    (ho : M.adj (k, i) = some (jel, j)) (n1 : ¬ M.live iel) (n2 : ¬ M.live kel) (h6 : iel ≠ kel)
    (h10 : iel ≠ 0) (h20 : kel ≠ 0) (hip : ip ≠ 0) (hfr : ∀ x, M.live x → ∀ y, (M.tri x).v y ≠ ip)
    (hap : (M.tri k).v i ≠ (M.tri jel).v j) (e : split1b M P k i ip (some iel) (some kel) = (true, M', P')) :
    Valid M' ∧ Inj M' ∧ SideSplit M M' k iel i ip true ∧ SideSplit M M' jel kel j ip false ∧
    (∀ x, M'.live x ↔ M.live x ∨ x = iel ∨ x = kel) ∧
    (∀ x, x ≠ k → x ≠ jel → x ≠ iel → x ≠ kel → M'.tri x = M.tri x) ∧ M'.boundary = M.boundary ∧
    P'.ref ip = (if (M.tri k).edg i ≠ 0 then (M.tri k).edg i else P.ref ip) ∧
    P'.tag ip = (if (M.tri k).tag i ≠ 0 then (M.tri k).tag i else P.tag ip) ∧
    ∀ x, x ≠ ip → P'.ref x = P.ref x ∧ P'.tag x = P.tag x := by
  have hp := split1b_pts e
  have em := split1b_eq (kel := kel) e (fun _ => rfl)
  obtain ⟨hj, h3, ea, eb, ec⟩ := h.lnk hk _ _ _ ho
  obtain ⟨V, S1, S2, L, T, B⟩ := C13_split_interior_edge (ip := ip) h hk ho n1 n2 h6 h10 h20 hip (hfr k hk) (hfr jel hj)
  rw [← em] at V S1 S2 L T B
  refine ⟨V, ?_, S1, S2, L, T, B, hp⟩
  obtain ⟨a1, a2, a3, a4, a5, a6, a7, a8⟩ := f3 i
  obtain ⟨b1, b2, b3, b4, b5, b6, b7, b8⟩ := f3 j
  have n3 : k ≠ iel := fun q => n1 (q ▸ hk)
  have n4 : k ≠ kel := fun q => n2 (q ▸ hk)
  have n5 : jel ≠ iel := fun q => n1 (q ▸ hj)
  have n6 : jel ≠ kel := fun q => n2 (q ▸ hj)
  -- where the directed edges come from
  let back : HE → HE := fun z => if z = (k, i + 1) then (iel, i + 1) else if z = (jel, j + 2) then (kel, j + 2) else z
  have key : ∀ z : HE, M'.live z.1 → (∃ z', M.live z'.1 ∧ z = back z' ∧ M'.org z = M.org z' ∧ M'.dst z = M.dst z') ∨
      (z = (k, i) ∧ M'.org z = (M.tri k).v (i + 1) ∧ M'.dst z = ip) ∨ (z = (iel, i) ∧ M'.org z = ip ∧ M'.dst z = (M.tri k).v (i + 2)) ∨
      (z = (k, i + 1) ∧ M'.org z = ip ∧ M'.dst z = (M.tri k).v i) ∨ (z = (iel, i + 2) ∧ M'.org z = (M.tri k).v i ∧ M'.dst z = ip) ∨
      (z = (kel, j) ∧ M'.org z = (M.tri k).v (i + 2) ∧ M'.dst z = ip) ∨ (z = (jel, j) ∧ M'.org z = ip ∧ M'.dst z = (M.tri k).v (i + 1)) ∨
      (z = (kel, j + 1) ∧ M'.org z = ip ∧ M'.dst z = (M.tri jel).v j) ∨ (z = (jel, j + 2) ∧ M'.org z = (M.tri jel).v j ∧ M'.dst z = ip) := by
    rintro ⟨x, y⟩ hz
    by_cases x1 : x = k
    · subst x1
      rcases a8 y with rfl | rfl | rfl
      · exact Or.inr (Or.inl ⟨rfl, edge_od (M := M) S1.half1⟩)
      · exact Or.inr (Or.inr (Or.inr (Or.inl ⟨rfl, edge_od (M := M) S1.inner1⟩)))
      · left
        refine ⟨(x, i + 2), hk, ?_, edge_od' S1.other2⟩
        simp only [back]
        rw [if_neg (fun q => a3 (Prod.mk.inj q).2.symm), if_neg (fun q => h3 (Prod.mk.inj q).1.symm)]
    · by_cases x2 : x = iel
      · subst x2
        rcases a8 y with rfl | rfl | rfl
        · exact Or.inr (Or.inr (Or.inl ⟨rfl, edge_od (M := M) S1.half2⟩))
        · left
          refine ⟨(k, i + 1), hk, ?_, edge_od' S1.other1⟩
          simp only [back, if_true]
        · exact Or.inr (Or.inr (Or.inr (Or.inr (Or.inl ⟨rfl, edge_od (M := M) S1.inner2⟩))))
      · by_cases x3 : x = jel
        · subst x3
          rcases b8 y with rfl | rfl | rfl
          · obtain ⟨q1, q2⟩ := edge_od (M := M) S2.half2
            refine Or.inr (Or.inr (Or.inr (Or.inr (Or.inr (Or.inr (Or.inl ⟨rfl, q1, q2.trans ?_⟩))))))
            exact ec
          · left
            refine ⟨(x, j + 1), hj, ?_, edge_od' S2.other1⟩
            simp only [back]
            rw [if_neg (fun q => x1 (Prod.mk.inj q).1), if_neg (fun q => b3 (Prod.mk.inj q).2)]
          · exact Or.inr (Or.inr (Or.inr (Or.inr (Or.inr (Or.inr (Or.inr (Or.inr ⟨rfl, edge_od (M := M) S2.inner2⟩)))))))
        · by_cases x4 : x = kel
          · subst x4
            rcases b8 y with rfl | rfl | rfl
            · obtain ⟨q1, q2⟩ := edge_od (M := M) S2.half1
              refine Or.inr (Or.inr (Or.inr (Or.inr (Or.inr (Or.inl ⟨rfl, q1.trans ?_, q2⟩)))))
              exact eb
            · exact Or.inr (Or.inr (Or.inr (Or.inr (Or.inr (Or.inr (Or.inr (Or.inl ⟨rfl, edge_od (M := M) S2.inner1⟩)))))))
            · left
              refine ⟨(jel, j + 2), hj, ?_, edge_od' S2.other2⟩
              simp only [back]
              rw [if_neg (fun q => h3 (Prod.mk.inj q).1), if_pos trivial]
          · left
            have hz' : M.live x := by
              rcases (L x).1 hz with q | q | q
              · exact q
              · exact absurd q x2
              · exact absurd q x4
            refine ⟨(x, y), hz', ?_, ?_, ?_⟩
            · simp only [back]
              rw [if_neg (fun q => x1 (Prod.mk.inj q).1), if_neg (fun q => x3 (Prod.mk.inj q).1)]
            · simp only [Mesh.org, T x x1 x3 x2 x4]
            · simp only [Mesh.dst, T x x1 x3 x2 x4]
  have fo : ∀ z : HE, M.live z.1 → M.org z ≠ ip ∧ M.dst z ≠ ip := fun z hz => ⟨hfr _ hz _, hfr _ hz _⟩
  have d1 := h.distinct k hk (i + 1) (i + 2) a3
  have d2 := h.distinct k hk (i + 1) i a1
  have d3 := h.distinct k hk (i + 2) i a2
  have d4 := h.distinct jel hj (j + 1) j b1
  have d5 := h.distinct jel hj (j + 2) j b2
  rw [eb] at d4
  rw [ec] at d5
  have f0 := hfr k hk i
  have f1 := hfr k hk (i + 1)
  have f2 := hfr k hk (i + 2)
  have f3' := hfr jel hj j
  intro x y hx hy eo ed
  have Hx := key x hx
  have Hy := key y hy
  rw [eo, ed] at Hx
  clear key S1 S2 T B hp em e V L
  generalize M'.org y = O at *
  generalize M'.dst y = D at *
  rcases Hx with ⟨x', lx, rfl, xo, xd⟩ | Hx
  · rcases Hy with ⟨y', ly, rfl, yo, yd⟩ | Hy
    · rw [hI x' y' lx ly (xo.symm.trans yo) (xd.symm.trans yd)]
    · exfalso
      have := fo x' lx
      rw [← xo, ← xd] at this
      grind
  · rcases Hy with ⟨y', ly, rfl, yo, yd⟩ | Hy
    · exfalso
      have := fo y' ly
      rw [← yo, ← yd] at this
      grind
    · grind

/-- C94: splitting an edge of the border. -/
theorem C94_split_border {M M' : Mesh} {P P' : Pts} {k ip iel : Nat} {i : Fin 3} {kel' : Option Nat} (h : Valid M) (hI : Inj M) (hk : M.live k)
    (ho : M.adj (k, i) = none) (n1 : ¬ M.live iel) (h10 : iel ≠ 0) (hip : ip ≠ 0) (hfr : ∀ x, M.live x → ∀ y, (M.tri x).v y ≠ ip)
    (e : split1b M P k i ip (some iel) kel' = (true, M', P')) :
    Valid M' ∧ Inj M' ∧ SideSplit M M' k iel i ip true ∧ (∀ x, M'.live x ↔ M.live x ∨ x = iel) ∧
    (∀ x, x ≠ k → x ≠ iel → M'.tri x = M.tri x) ∧
    M'.boundary = {e | ∃ h, h ≠ (k, i) ∧ M.live h.1 ∧ M.adj h = none ∧ M.edge h = e} ∪
      {(M.org (k, i), ip, (M.tri k).tag i, (M.tri k).edg i), (ip, M.dst (k, i), (M.tri k).tag i, (M.tri k).edg i)} ∧
    P'.ref ip = (if (M.tri k).edg i ≠ 0 then (M.tri k).edg i else P.ref ip) ∧
    P'.tag ip = (if (M.tri k).tag i ≠ 0 then (M.tri k).tag i else P.tag ip) ∧
    ∀ x, x ≠ ip → P'.ref x = P.ref x ∧ P'.tag x = P.tag x := by
  have hp := split1b_pts e
  have em := split1b_eq (kel := 0) e (fun q => absurd ho q)
  obtain ⟨V, S1, L, T, B⟩ := C13_split_boundary_edge (ip := ip) (kel := 0) h hk ho n1 h10 hip (hfr k hk)
  rw [← em] at V S1 L T B
  refine ⟨V, ?_, S1, L, T, B, hp⟩
  obtain ⟨a1, a2, a3, a4, a5, a6, a7, a8⟩ := f3 i
  have n3 : k ≠ iel := fun q => n1 (q ▸ hk)
  let back : HE → HE := fun z => if z = (k, i + 1) then (iel, i + 1) else z
  have key : ∀ z : HE, M'.live z.1 → (∃ z', M.live z'.1 ∧ z = back z' ∧ M'.org z = M.org z' ∧ M'.dst z = M.dst z') ∨
      (z = (k, i) ∧ M'.org z = (M.tri k).v (i + 1) ∧ M'.dst z = ip) ∨ (z = (iel, i) ∧ M'.org z = ip ∧ M'.dst z = (M.tri k).v (i + 2)) ∨
      (z = (k, i + 1) ∧ M'.org z = ip ∧ M'.dst z = (M.tri k).v i) ∨ (z = (iel, i + 2) ∧ M'.org z = (M.tri k).v i ∧ M'.dst z = ip) := by
    rintro ⟨x, y⟩ hz
    by_cases x1 : x = k
    · subst x1
      rcases a8 y with rfl | rfl | rfl
      · exact Or.inr (Or.inl ⟨rfl, edge_od (M := M) S1.half1⟩)
      · exact Or.inr (Or.inr (Or.inr (Or.inl ⟨rfl, edge_od (M := M) S1.inner1⟩)))
      · left
        refine ⟨(x, i + 2), hk, ?_, edge_od' S1.other2⟩
        simp only [back]
        rw [if_neg (fun q => a3 (Prod.mk.inj q).2.symm)]
    · by_cases x2 : x = iel
      · subst x2
        rcases a8 y with rfl | rfl | rfl
        · exact Or.inr (Or.inr (Or.inl ⟨rfl, edge_od (M := M) S1.half2⟩))
        · left
          refine ⟨(k, i + 1), hk, ?_, edge_od' S1.other1⟩
          simp only [back, if_true]
        · exact Or.inr (Or.inr (Or.inr (Or.inr ⟨rfl, edge_od (M := M) S1.inner2⟩)))
      · left
        have hz' : M.live x := by
          rcases (L x).1 hz with q | q
          · exact q
          · exact absurd q x2
        refine ⟨(x, y), hz', ?_, ?_, ?_⟩
        · simp only [back]
          rw [if_neg (fun q => x1 (Prod.mk.inj q).1)]
        · simp only [Mesh.org, T x x1 x2]
        · simp only [Mesh.dst, T x x1 x2]
  have fo : ∀ z : HE, M.live z.1 → M.org z ≠ ip ∧ M.dst z ≠ ip := fun z hz => ⟨hfr _ hz _, hfr _ hz _⟩
  have d2 := h.distinct k hk (i + 1) i a1
  have d3 := h.distinct k hk (i + 2) i a2
  have f0 := hfr k hk i
  have f1 := hfr k hk (i + 1)
  have f2 := hfr k hk (i + 2)
  intro x y hx hy eo ed
  have Hx := key x hx
  have Hy := key y hy
  rw [eo, ed] at Hx
  clear key S1 T B hp em e V L
  generalize M'.org y = O at *
  generalize M'.dst y = D at *
  rcases Hx with ⟨x', lx, rfl, xo, xd⟩ | Hx
  · rcases Hy with ⟨y', ly, rfl, yo, yd⟩ | Hy
    · rw [hI x' y' lx ly (xo.symm.trans yo) (xd.symm.trans yd)]
    · exfalso
      have := fo x' lx
      rw [← xo, ← xd] at this
      grind
  · rcases Hy with ⟨y', ly, rfl, yo, yd⟩ | Hy
    · exfalso
      have := fo y' ly
      rw [← yo, ← yd] at this
      grind
    · grind

/-- C94: when the second slot cannot be had, the answer is failure, but the first triangle has lost half of its area, its link leads to
a slot that is not used, and the mesh is not conforming any more. -/
theorem C94_split_failure_observed {M : Mesh} {P : Pts} {k ip iel : Nat} {i : Fin 3} {o : HE} (h : Valid M) (hk : M.live k)
    (ho : M.adj (k, i) = some o) (n1 : ¬ M.live iel) (hip : ip ≠ 0) :
    ∃ M' P', split1b M P k i ip (some iel) none = (false, M', P') ∧ M'.live k ∧ (M'.tri k).v (i + 2) = ip ∧
      M'.adj (k, i + 1) = some (iel, i + 2) ∧ ¬ M'.live iel ∧ ¬ Valid M' := by
  obtain ⟨a1, a2, a3, a4, a5, a6, a7, a8⟩ := f3 i
  have n3 : k ≠ iel := fun q => n1 (q ▸ hk)
  obtain ⟨jel, j⟩ := o
  refine ⟨(cutSide M k iel (i + 2) (i + 1) ip).delTri iel, _, by unfold split1b; simp only [ho]; rfl, ?_⟩
  have t : ((cutSide M k iel (i + 2) (i + 1) ip).delTri iel).tri k = (M.tri k).cut (i + 2) (i + 1) ip := by
    rw [delTri_tag _ _ _ n3, cutSide_tri n3, if_pos rfl]
  have l1 : ((cutSide M k iel (i + 2) (i + 1) ip).delTri iel).live k := by
    unfold Mesh.live
    rw [t]
    show (if (0 : Fin 3) = i + 2 then ip else (M.tri k).v 0) ≠ 0
    split
    · exact hip
    · exact hk
  have ad : ((cutSide M k iel (i + 2) (i + 1) ip).delTri iel).adj (k, i + 1) = some (iel, i + 2) := by
    rw [delTri_adj, if_neg (show ¬ (k, i + 1).1 = iel from n3), cutSide_adj n3 a3.symm, if_pos rfl, if_pos rfl]
    intro x y q
    obtain ⟨q1, q2, -⟩ := h.lnk hk _ _ _ q
    exact ⟨q2, fun z => n1 (z ▸ q1)⟩
  have nl : ¬ ((cutSide M k iel (i + 2) (i + 1) ip).delTri iel).live iel := by
    unfold Mesh.live
    rw [delTri_v, if_pos rfl]
    simp
  refine ⟨l1, ?_, ad, nl, fun V => nl (V.link (k, i + 1) _ l1 ad).1⟩
  rw [t]
  simp [Tri.cut]

/-! ### Edge swap -/

/-- C94: a swap that is carried out.  The mesh is again conforming, the four outer edges keep their marks; directed edges still belong
to one triangle exactly if the new edge did not exist before. -/
theorem C94_swap {M M' : Mesh} {k a : Nat} {i j : Fin 3} (bl : Nat → Bool) (h : Valid M) (hI : Inj M) (hk : M.live k)
    (ho : M.adj (k, i) = some (a, j)) (hne : (M.tri k).v i ≠ (M.tri a).v j) (e : swapar bl M k i = some (true, M')) :
    bl ((M.tri k).tag i) = false ∧ Valid M' ∧
    (Inj M' ↔ ∀ x : HE, M.live x.1 → ¬ (M.org x = (M.tri a).v j ∧ M.dst x = (M.tri k).v i) ∧
      ¬ (M.org x = (M.tri k).v i ∧ M.dst x = (M.tri a).v j)) ∧
    M'.edge (k, i + 1) = ((M.tri a).v j, (M.tri k).v i, 0, 0) ∧ M'.edge (a, j + 1) = ((M.tri k).v i, (M.tri a).v j, 0, 0) ∧
    M'.edge (k, i) = M.edge (a, j + 1) ∧ M'.edge (k, i + 2) = M.edge (k, i + 2) ∧
    M'.edge (a, j) = M.edge (k, i + 1) ∧ M'.edge (a, j + 2) = M.edge (a, j + 2) ∧
    (M'.tri k).ref = (M.tri k).ref ∧ (M'.tri a).ref = (M.tri a).ref ∧
    (∀ x, M'.live x ↔ M.live x) ∧ (∀ x, x ≠ k → x ≠ a → M'.tri x = M.tri x) ∧ M'.boundary = M.boundary ∧
    ∃ k11 k21, M.adj (k, i + 1) = some k11 ∧ M.adj (a, j + 1) = some k21 ∧
      (M.tri k).v i ≠ (M.tri k21.1).v k21.2 ∧ (M.tri a).v j ≠ (M.tri k11.1).v k11.2 := by
  have hs : bl ((M.tri k).tag i) = false ∧ Tri2.swapar bl M k i = some (some M') ∧
      ∃ k11 k21, M.adj (k, i + 1) = some k11 ∧ M.adj (a, j + 1) = some k21 ∧
      (M.tri k).v i ≠ (M.tri k21.1).v k21.2 ∧ (M.tri a).v j ≠ (M.tri k11.1).v k11.2 := by
    unfold swapar at e
    split at e
    · simp at e
    rename_i hb
    simp only [Bool.not_eq_true] at hb
    simp only [ho] at e
    cases c1 : M.adj (k, i + 1) with
    | none => simp [c1] at e
    | some k11 =>
      cases c2 : M.adj (a, j + 1) with
      | none => simp [c1, c2] at e
      | some k21 =>
        simp only [c1, c2] at e
        split at e
        · simp at e
        rename_i q1
        split at e
        · simp at e
        rename_i q2
        refine ⟨hb, ?_, k11, k21, rfl, rfl, q1, q2⟩
        unfold Tri2.swapar
        rw [hb]
        simp only [Bool.false_eq_true, if_false, ho, c1, c2]
        rw [← (Prod.mk.inj (Option.some.inj e)).2]
  obtain ⟨hb, hs, K⟩ := hs
  obtain ⟨ha, h3, ea, eb, ec⟩ := h.lnk hk _ _ _ ho
  obtain ⟨a1, a2, a3, a4, a5, a6, a7, a8⟩ := f3 i
  obtain ⟨b1, b2, b3, b4, b5, b6, b7, b8⟩ := f3 j
  rcases C14_swap bl h hk ho hne with ⟨q, -⟩ | ⟨-, M1, hs', V, s1, s2, s3, s4, s5, s6, s7, s8, L, T, B, -⟩
  · rw [hb] at q; cases q
  rw [hs] at hs'
  cases hs'
  refine ⟨hb, V, ?_, s1, s2, s3, s4, s5, s6, s7, s8, L, T, B, K⟩
  let back : HE → HE := fun z => if z = (a, j + 1) then (k, i) else if z = (k, i + 1) then (a, j) else z
  have key : ∀ z : HE, M'.live z.1 → (∃ z', M.live z'.1 ∧ z = back z' ∧ M'.org z = M.org z' ∧ M'.dst z = M.dst z') ∨
      (z = (k, i + 1) ∧ M'.org z = (M.tri a).v j ∧ M'.dst z = (M.tri k).v i) ∨
      (z = (a, j + 1) ∧ M'.org z = (M.tri k).v i ∧ M'.dst z = (M.tri a).v j) := by
    rintro ⟨x, y⟩ hz
    by_cases x1 : x = k
    · subst x1
      rcases a8 y with rfl | rfl | rfl
      · left
        refine ⟨(a, j + 1), ha, ?_, edge_od' s3⟩
        simp only [back, if_true]
      · exact Or.inr (Or.inl ⟨rfl, edge_od (M := M) s1⟩)
      · left
        refine ⟨(x, i + 2), hk, ?_, edge_od' s4⟩
        simp only [back]
        rw [if_neg (fun q => h3 (Prod.mk.inj q).1.symm), if_neg (fun q => a3 (Prod.mk.inj q).2.symm)]
    · by_cases x3 : x = a
      · subst x3
        rcases b8 y with rfl | rfl | rfl
        · left
          refine ⟨(k, i + 1), hk, ?_, edge_od' s5⟩
          simp only [back]
          rw [if_neg (fun q => x1 (Prod.mk.inj q).1.symm), if_pos trivial]
        · exact Or.inr (Or.inr ⟨rfl, edge_od (M := M) s2⟩)
        · left
          refine ⟨(x, j + 2), ha, ?_, edge_od' s6⟩
          simp only [back]
          rw [if_neg (fun q => b3 (Prod.mk.inj q).2.symm), if_neg (fun q => x1 (Prod.mk.inj q).1)]
      · left
        refine ⟨(x, y), (L x).1 hz, ?_, ?_, ?_⟩
        · simp only [back]
          rw [if_neg (fun q => x3 (Prod.mk.inj q).1), if_neg (fun q => x1 (Prod.mk.inj q).1)]
        · simp only [Mesh.org, T x x1 x3]
        · simp only [Mesh.dst, T x x1 x3]
  constructor
  · intro hI' x hx
    -- the edge would still be there
    have fwd : ∀ x : HE, M.live x.1 → x ≠ (k, i) → x ≠ (a, j) →
        ∃ z : HE, M'.live z.1 ∧ z ≠ (k, i + 1) ∧ z ≠ (a, j + 1) ∧ M'.org z = M.org x ∧ M'.dst z = M.dst x := by
      rintro ⟨x, y⟩ hx x1 x2
      by_cases c1 : x = k
      · subst c1
        rcases a8 y with rfl | rfl | rfl
        · exact absurd rfl x1
        · exact ⟨(a, j), (L a).2 ha, fun q => h3 (Prod.mk.inj q).1, fun q => b1 (Prod.mk.inj q).2.symm, edge_od' s5⟩
        · exact ⟨(x, i + 2), (L x).2 hk, fun q => a3 (Prod.mk.inj q).2.symm, fun q => h3 (Prod.mk.inj q).1.symm, edge_od' s4⟩
      · by_cases c2 : x = a
        · subst c2
          rcases b8 y with rfl | rfl | rfl
          · exact absurd rfl x2
          · exact ⟨(k, i), (L k).2 hk, fun q => a1 (Prod.mk.inj q).2.symm, fun q => h3 (Prod.mk.inj q).1.symm, edge_od' s3⟩
          · exact ⟨(x, j + 2), (L x).2 ha, fun q => h3 (Prod.mk.inj q).1, fun q => b3 (Prod.mk.inj q).2.symm, edge_od' s6⟩
        · refine ⟨(x, y), (L x).2 hx, fun q => c1 (Prod.mk.inj q).1, fun q => c2 (Prod.mk.inj q).1, ?_, ?_⟩
          · simp only [Mesh.org, T x c1 c2]
          · simp only [Mesh.dst, T x c1 c2]
    have d1 := h.distinct k hk (i + 1) i a1
    have d2 := h.distinct k hk (i + 2) i a2
    have nk : M.org (k, i) ≠ (M.tri k).v i ∧ M.dst (k, i) ≠ (M.tri k).v i := ⟨d1, d2⟩
    have na : M.org (a, j) ≠ (M.tri k).v i ∧ M.dst (a, j) ≠ (M.tri k).v i := by
      simp only [Mesh.org, Mesh.dst]
      rw [eb, ec]
      exact ⟨d2, d1⟩
    constructor
    · rintro ⟨xo, xd⟩
      obtain ⟨z, z1, z2, z3, z4, z5⟩ := fwd x hx (by rintro rfl; exact nk.2 xd) (by rintro rfl; exact na.2 xd)
      obtain ⟨q1, q2⟩ := edge_od (M := M) s1
      exact z2 (hI' z (k, i + 1) z1 ((L k).2 hk) (by rw [z4, q1, xo]) (by rw [z5, q2, xd]))
    · rintro ⟨xo, xd⟩
      obtain ⟨z, z1, z2, z3, z4, z5⟩ := fwd x hx (by rintro rfl; exact nk.1 xo) (by rintro rfl; exact na.1 xo)
      obtain ⟨q1, q2⟩ := edge_od (M := M) s2
      exact z3 (hI' z (a, j + 1) z1 ((L a).2 ha) (by rw [z4, q1, xo]) (by rw [z5, q2, xd]))
  · intro hd x y hx hy eo ed
    have Hx := key x hx
    have Hy := key y hy
    rw [eo, ed] at Hx
    rcases Hx with ⟨x', lx, rfl, xo, xd⟩ | Hx
    · rcases Hy with ⟨y', ly, rfl, yo, yd⟩ | Hy
      · rw [hI x' y' lx ly (xo.symm.trans yo) (xd.symm.trans yd)]
      · exfalso
        obtain ⟨g1, g2⟩ := hd x' lx
        rw [← xo, ← xd] at g1 g2
        rcases Hy with Hy | Hy
        · exact g1 Hy.2
        · exact g2 Hy.2
    · rcases Hy with ⟨y', ly, rfl, yo, yd⟩ | Hy
      · exfalso
        obtain ⟨g1, g2⟩ := hd y' ly
        rw [← yo, ← yd] at g1 g2
        rcases Hx with Hx | Hx
        · exact g1 Hx.2
        · exact g2 Hx.2
      · rcases Hx with Hx | Hx <;> rcases Hy with Hy | Hy
        · rw [Hx.1, Hy.1]
        · exact absurd (Hy.2.1.symm.trans Hx.2.1) hne
        · exact absurd (Hx.2.1.symm.trans Hy.2.1) hne
        · rw [Hx.1, Hy.1]

/-- C94: a refused swap leaves the mesh as it is. -/
theorem C94_swap_refused {M M' : Mesh} {k : Nat} {i : Fin 3} (bl : Nat → Bool) (e : swapar bl M k i = some (false, M')) : M' = M := by
  unfold swapar at e
  split at e
  · simpa using e.symm
  · split at e
    · cases e
    · split at e
      · simp only at e
        split at e
        · simpa using e.symm
        · split at e
          · simpa using e.symm
          · simp at e
      · simpa using e.symm

/-! ### Splitting all marked edges -/

abbrev Side := Nat × Nat × Nat × Int

/-- The directed edges of a triangle with tag and reference. -/
def sides (t : Tri) : Multiset Side :=
  {(t.v 1, t.v 2, t.tag 0, t.edg 0), (t.v 2, t.v 0, t.tag 1, t.edg 1), (t.v 0, t.v 1, t.tag 2, t.edg 2)}

/-- The same edge seen from the other side. -/
def flip (s : Side) : Side := (s.2.1, s.1, s.2.2)

/-- An edge cut at the point that `m` gives for its ends. -/
def halves (m : Nat → Nat → Nat) (s : Side) : Multiset Side :=
  if m s.1 s.2.1 = 0 then {s} else {(s.1, m s.1 s.2.1, s.2.2), (m s.1 s.2.1, s.2.1, s.2.2)}

/-- The points on the three edges. -/
def vxOf (m : Nat → Nat → Nat) (t : Tri) : Fin 3 → Nat := fun i => m (t.v (i + 1)) (t.v (i + 2))

/-- One triangle: the edges of the pieces are the halves of its edges and, twice, new edges without mark. -/
theorem splitAny_sides (m : Nat → Nat → Nat) (t : Tri) : ∃ I : Multiset Side, (∀ s ∈ I, s.2.2 = (0, 0)) ∧
    ((splitAny t (vxOf m t)).map sides).sum = (sides t).bind (halves m) + (I + I.map flip) := by
  have e0 : vxOf m t 0 = m (t.v 1) (t.v 2) := rfl
  have e1 : vxOf m t 1 = m (t.v 2) (t.v 0) := rfl
  have e2 : vxOf m t 2 = m (t.v 0) (t.v 1) := rfl
  have hb : (sides t).bind (halves m) = halves m (t.v 1, t.v 2, t.tag 0, t.edg 0) + (halves m (t.v 2, t.v 0, t.tag 1, t.edg 1) +
      halves m (t.v 0, t.v 1, t.tag 2, t.edg 2)) := by
    simp [sides]
  rw [hb]
  simp only [halves]
  rw [← e0, ← e1, ← e2]
  generalize vxOf m t = vx
  by_cases c0 : vx 0 = 0 <;> by_cases c1 : vx 1 = 0 <;> by_cases c2 : vx 2 = 0 <;> simp only [c0, c1, c2, if_true, if_false]
  · refine ⟨0, by simp, ?_⟩
    simp [splitAny, c0, c1, c2, sides, ← Multiset.singleton_add]
  · refine ⟨{(vx 2, t.v 2, 0, 0)}, by simp, ?_⟩
    simp [splitAny, split1, split2, split3, c0, c1, c2, sides, flip, Tri.cut, Tri.setV, Tri.setE, ← Multiset.singleton_add]
    abel
  · refine ⟨{(vx 1, t.v 1, 0, 0)}, by simp, ?_⟩
    simp [splitAny, split1, split2, split3, c0, c1, c2, sides, flip, Tri.cut, Tri.setV, Tri.setE, ← Multiset.singleton_add]
    abel
  · refine ⟨{(vx 1, vx 2, 0, 0), (t.v 1, vx 1, 0, 0)}, by simp, ?_⟩
    simp [splitAny, split1, split2, split3, c0, c1, c2, sides, flip, Tri.cut, Tri.setV, Tri.setE, ← Multiset.singleton_add]
    abel
  · refine ⟨{(vx 0, t.v 0, 0, 0)}, by simp, ?_⟩
    simp [splitAny, split1, split2, split3, c0, c1, c2, sides, flip, Tri.cut, Tri.setV, Tri.setE, ← Multiset.singleton_add]
    abel
  · refine ⟨{(vx 2, vx 0, 0, 0), (t.v 2, vx 2, 0, 0)}, by simp, ?_⟩
    simp [splitAny, split1, split2, split3, c0, c1, c2, sides, flip, Tri.cut, Tri.setV, Tri.setE, ← Multiset.singleton_add]
    abel
  · refine ⟨{(vx 0, vx 1, 0, 0), (t.v 0, vx 0, 0, 0)}, by simp, ?_⟩
    simp [splitAny, split1, split2, split3, c0, c1, c2, sides, flip, Tri.cut, Tri.setV, Tri.setE, ← Multiset.singleton_add]
    abel
  · refine ⟨{(vx 2, vx 1, 0, 0), (vx 0, vx 2, 0, 0), (vx 1, vx 0, 0, 0)}, by simp, ?_⟩
    simp [splitAny, split1, split2, split3, c0, c1, c2, sides, flip, Tri.cut, Tri.setV, Tri.setE, ← Multiset.singleton_add]
    abel

theorem halves_flip {m : Nat → Nat → Nat} (hm : ∀ a b, m a b = m b a) (s : Side) : (halves m s).map flip = halves m (flip s) := by
  unfold halves
  have : m (flip s).1 (flip s).2.1 = m s.1 s.2.1 := hm _ _
  rw [this]
  split
  · simp
  · simp [flip, ← Multiset.singleton_add]
    abel

/-- C94: splitting all triangles of a surface along the edges that have a point in the edge table `m`.  If the directed edges of the
triangles are matched in pairs of opposite directions with equal marks, but for a border `B`, then so are those of the new triangles,
and their border consists of the halves of `B`: no hanging point arises, and marks are kept. -/
theorem C94_split_all {m : Nat → Nat → Nat} (hm : ∀ a b, m a b = m b a) (L : List Tri) (F B : Multiset Side)
    (hE : (L.map sides).sum = F + B) (hF : F.map flip = F) :
    ∃ F', (((L.flatMap (fun t => splitAny t (vxOf m t))).map sides).sum = F' + B.bind (halves m)) ∧ F'.map flip = F' ∧
      ∀ s ∈ F', s.2.2 = (0, 0) ∨ ∃ s0 ∈ F, s.2.2 = s0.2.2 := by
  have H : ∀ L : List Tri, ∃ I : Multiset Side, (∀ s ∈ I, s.2.2 = (0, 0)) ∧
      ((L.flatMap (fun t => splitAny t (vxOf m t))).map sides).sum = ((L.map sides).sum).bind (halves m) + (I + I.map flip) := by
    intro L
    induction L with
    | nil => exact ⟨0, by simp, by simp⟩
    | cons t L ih =>
      obtain ⟨I, h0, h1⟩ := ih
      obtain ⟨J, g0, g1⟩ := splitAny_sides m t
      refine ⟨J + I, ?_, ?_⟩
      · intro s hs
        rcases Multiset.mem_add.1 hs with q | q
        · exact g0 s q
        · exact h0 s q
      · rw [List.flatMap_cons, List.map_append, List.sum_append, h1, g1, List.map_cons, List.sum_cons, Multiset.add_bind, Multiset.map_add]
        abel
  obtain ⟨I, h0, h1⟩ := H L
  have ff : ∀ s : Side, flip (flip s) = s := fun s => rfl
  refine ⟨F.bind (halves m) + (I + I.map flip), ?_, ?_, ?_⟩
  · rw [h1, hE, Multiset.add_bind]
    abel
  · rw [Multiset.map_add, Multiset.map_add, Multiset.map_map]
    have e1 : (I.map (flip ∘ flip)) = I := by
      conv_rhs => rw [← Multiset.map_id I]
      exact Multiset.map_congr rfl (fun s _ => ff s)
    rw [e1]
    have e2 : (F.bind (halves m)).map flip = F.bind (halves m) := by
      rw [Multiset.map_bind]
      conv_rhs => rw [← hF, Multiset.bind_map]
      exact Multiset.bind_congr (fun s _ => halves_flip hm s)
    rw [e2]
    abel
  · intro s hs
    rcases Multiset.mem_add.1 hs with q | q
    · right
      obtain ⟨s0, a, b⟩ := Multiset.mem_bind.1 q
      refine ⟨s0, a, ?_⟩
      unfold halves at b
      split at b
      · rw [Multiset.mem_singleton.1 b]
      · simp only [Multiset.insert_eq_cons, Multiset.mem_cons, Multiset.mem_singleton] at b
        rcases b with rfl | rfl <;> rfl
    · left
      rcases Multiset.mem_add.1 q with q | q
      · exact h0 s q
      · obtain ⟨s0, a, rfl⟩ := Multiset.mem_map.1 q
        exact h0 s0 a

end Mmg.Surf
