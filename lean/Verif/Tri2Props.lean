/-
Properties C13 to C16: 2D edge split, edge swap, triangle split, and histories of them.
-/
import Mathlib.Algebra.BigOperators.Ring.Finset
import Mathlib.Data.Fintype.Prod
import Mathlib.Tactic.LinearCombination
import Mathlib.Logic.Relation
import Mathlib.Data.Finset.Max
import Verif.Tri2Circ

set_option linter.unusedSimpArgs false

namespace Mmg.Tri2

/-! ### Specification vocabulary -/

/-- Ends, tag and reference of a directed edge. -/
def Mesh.edge (M : Mesh) (h : HE) : Nat × Nat × Nat × Int :=
  (M.org h, M.dst h, (M.tri h.1).tag h.2, (M.tri h.1).edg h.2)

/-- Twice the signed area of a triangle for coordinates `cx`, `cy`. -/
def area2 {K : Type} [CommRing K] (cx cy : Nat → K) (t : Tri) : K :=
  (cx (t.v 1) - cx (t.v 0)) * (cy (t.v 2) - cy (t.v 0)) - (cx (t.v 2) - cx (t.v 0)) * (cy (t.v 1) - cy (t.v 0))

/-- The point `p` is at parameter `t` on the segment `a b`. -/
def OnEdge {K : Type} [CommRing K] (cx cy : Nat → K) (t : K) (a b p : Nat) : Prop :=
  cx p = (1 - t) * cx a + t * cx b ∧ cy p = (1 - t) * cy a + t * cy b

/-- Boundary edges with tag and reference. -/
def Mesh.boundary (M : Mesh) : Set (Nat × Nat × Nat × Int) :=
  {e | ∃ h, M.live h.1 ∧ M.adj h = none ∧ M.edge h = e}

theorem area2_rot {K : Type} [CommRing K] (cx cy : Nat → K) (t : Tri) (i : Fin 3) :
    area2 cx cy t = (cx (t.v (i + 1)) - cx (t.v i)) * (cy (t.v (i + 2)) - cy (t.v i)) -
      (cx (t.v (i + 2)) - cx (t.v i)) * (cy (t.v (i + 1)) - cy (t.v i)) := by
  unfold area2
  fin_cases i
  · simp
  · simp; ring
  · simp; ring

/-! ### C13 -/

/-- One side of a split: triangle `k` (before) became `k` and `iel` (after), cut at `ip` on edge `i`. `fwd`
tells whether `k` kept the first half of the directed edge. -/
structure SideSplit (M M' : Mesh) (k iel : Nat) (i : Fin 3) (ip : Nat) (fwd : Bool) : Prop where
  /-- the two halves of the edge keep its tag and reference -/
  half1 : M'.edge (if fwd then k else iel, i) = (M.org (k, i), ip, (M.tri k).tag i, (M.tri k).edg i)
  half2 : M'.edge (if fwd then iel else k, i) = (ip, M.dst (k, i), (M.tri k).tag i, (M.tri k).edg i)
  /-- the two other edges of the triangle are kept unchanged -/
  other1 : M'.edge (if fwd then iel else k, i + 1) = M.edge (k, i + 1)
  other2 : M'.edge (if fwd then k else iel, i + 2) = M.edge (k, i + 2)
  /-- the new interior edge is plain -/
  inner1 : M'.edge (if fwd then k else iel, i + 1) = (ip, (M.tri k).v i, 0, 0)
  inner2 : M'.edge (if fwd then iel else k, i + 2) = ((M.tri k).v i, ip, 0, 0)
  ref1 : (M'.tri k).ref = (M.tri k).ref
  ref2 : (M'.tri iel).ref = (M.tri k).ref
  /-- a split on the edge shares the area in the ratio of the split -/
  areas : ∀ (K : Type) [CommRing K] (cx cy : Nat → K) (t : K),
    OnEdge cx cy t (M.org (k, i)) (M.dst (k, i)) ip →
    area2 cx cy (M'.tri (if fwd then k else iel)) = t * area2 cx cy (M.tri k) ∧
    area2 cx cy (M'.tri (if fwd then iel else k)) = (1 - t) * area2 cx cy (M.tri k)

theorem sideSplit_of {M M' : Mesh} {k iel : Nat} {i : Fin 3} {ip : Nat}
    (e1 : M'.tri k = (M.tri k).cut (i + 2) (i + 1) ip) (e2 : M'.tri iel = (M.tri k).cut (i + 1) (i + 2) ip) :
    SideSplit M M' k iel i ip true := by
  obtain ⟨f1, f2, f3', f4, f5, f6, f7, f8⟩ := f3 i
  constructor <;> simp only [if_true, Mesh.edge, Mesh.org, Mesh.dst, e1, e2, f4, f5, f6, f7, Tri.cut,
    if_neg f1, if_neg f1.symm, if_neg f2, if_neg f2.symm, if_neg f3', if_neg f3'.symm]
  intro K _ cx cy t ht
  obtain ⟨hx, hy⟩ := ht
  simp only [area2_rot cx cy _ i]
  simp only [if_neg f1.symm, if_neg f2.symm, if_neg f3', if_neg f3'.symm, if_true, hx, hy]
  constructor <;> ring

theorem sideSplit_of' {M M' : Mesh} {k iel : Nat} {i : Fin 3} {ip : Nat}
    (e1 : M'.tri k = (M.tri k).cut (i + 1) (i + 2) ip) (e2 : M'.tri iel = (M.tri k).cut (i + 2) (i + 1) ip) :
    SideSplit M M' k iel i ip false := by
  obtain ⟨f1, f2, f3', f4, f5, f6, f7, f8⟩ := f3 i
  constructor <;> simp only [if_true, Bool.false_eq_true, if_false, Mesh.edge, Mesh.org, Mesh.dst, e1, e2, f4, f5, f6, f7, Tri.cut,
    if_neg f1, if_neg f1.symm, if_neg f2, if_neg f2.symm, if_neg f3', if_neg f3'.symm]
  intro K _ cx cy t ht
  obtain ⟨hx, hy⟩ := ht
  simp only [area2_rot cx cy _ i]
  simp only [if_neg f1.symm, if_neg f2.symm, if_neg f3', if_neg f3'.symm, if_true, hx, hy]
  constructor <;> ring

/-- **C13 (interior edge).** -/
theorem C13_split_interior_edge {M : Mesh} {k ip iel kel jel : Nat} {i j : Fin 3} (h : Valid M) (hk : M.live k)
    (ho : M.adj (k, i) = some (jel, j)) (n1 : ¬ M.live iel) (n2 : ¬ M.live kel) (h6 : iel ≠ kel)
    (h10 : iel ≠ 0) (h20 : kel ≠ 0) (hip : ip ≠ 0) (hfr : ∀ i, (M.tri k).v i ≠ ip)
    (hfr' : ∀ i, (M.tri jel).v i ≠ ip) :
    let M' := split1b M k i ip iel kel
    Valid M' ∧ SideSplit M M' k iel i ip true ∧ SideSplit M M' jel kel j ip false ∧
    (∀ x, M'.live x ↔ M.live x ∨ x = iel ∨ x = kel) ∧
    (∀ x, x ≠ k → x ≠ jel → x ≠ iel → x ≠ kel → M'.tri x = M.tri x) ∧
    M'.boundary = M.boundary := by
  intro M'
  have h1 : k ≠ iel := fun e => n1 (e ▸ hk)
  obtain ⟨hj, h3, ea, eb, ec⟩ := h.lnk hk _ _ _ ho
  have h2 : jel ≠ kel := fun e => n2 (e ▸ hj)
  have h4 : k ≠ kel := fun e => n2 (e ▸ hk)
  have h5 : jel ≠ iel := fun e => n1 (e ▸ hj)
  have htri : ∀ x, M'.tri x = _ := split1b_tri_int (M := M) (ip := ip) ho h1 h2 h3.symm h4 h5 h6
  have hadj : ∀ x y, M'.adj (x, y) = _ := split1b_adj_int (ip := ip) h hk ho n1 n2 h6
  have S1 : SideSplit M M' k iel i ip true :=
    sideSplit_of (by rw [htri, if_pos rfl]) (by rw [htri, if_neg h1.symm, if_pos rfl])
  have S2 : SideSplit M M' jel kel j ip false :=
    sideSplit_of' (by rw [htri, if_neg h3, if_neg h5, if_pos rfl])
      (by rw [htri, if_neg h4.symm, if_neg h6.symm, if_neg h2.symm, if_pos rfl])
  have hlive : ∀ x, M'.live x ↔ M.live x ∨ x = iel ∨ x = kel := by
    intro x
    have := h.pos k hk
    have := h.pos jel hj
    clear hadj S1 S2
    simp only [Mesh.live, htri, Tri.cut]
    simp only [Mesh.live] at *
    grind
  refine ⟨split1b_valid_int h hk ho n1 n2 h6 h10 h20 hip hfr hfr', S1, S2, hlive, ?_, ?_⟩
  · intro x a b c d
    rw [htri, if_neg a, if_neg c, if_neg b, if_neg d]
  · obtain ⟨f1, f2, f3', f4, f5, f6, f7, f8⟩ := f3 i
    obtain ⟨g1, g2, g3', g4, g5, g6, g7, g8⟩ := f3 j
    have o1 := S1.other1; have o2 := S1.other2
    have p1 := S2.other1; have p2 := S2.other2
    simp only [if_true, Bool.false_eq_true, if_false] at o1 o2 p1 p2
    have hs : ∀ x y, x ≠ k → x ≠ jel → x ≠ iel → x ≠ kel → M'.edge (x, y) = M.edge (x, y) := by
      intro x y a b c d
      simp only [Mesh.edge, Mesh.org, Mesh.dst]
      rw [htri, if_neg a, if_neg c, if_neg b, if_neg d]
    clear_value M'
    clear htri S1 S2
    ext e
    simp only [Mesh.boundary, Set.mem_ofPred_eq]
    generalize i + 1 = i1 at *
    generalize i + 2 = i2 at *
    generalize j + 1 = j1 at *
    generalize j + 2 = j2 at *
    constructor
    · rintro ⟨⟨x, y⟩, hl, ha, he⟩
      rw [hlive] at hl
      rw [hadj] at ha
      simp only [] at hl
      by_cases q1 : x = k
      · subst q1
        rcases f8 y with rfl | rfl | rfl
        · grind
        · grind
        · exact ⟨(x, y), hk, by grind, by grind⟩
      · by_cases q2 : x = iel
        · subst q2
          rcases f8 y with rfl | rfl | rfl
          · grind
          · exact ⟨(k, y), hk, by grind, by grind⟩
          · grind
        · by_cases q3 : x = jel
          · subst q3
            rcases g8 y with rfl | rfl | rfl
            · grind
            · exact ⟨(x, y), hj, by grind, by grind⟩
            · grind
          · by_cases q4 : x = kel
            · subst q4
              rcases g8 y with rfl | rfl | rfl
              · grind
              · grind
              · exact ⟨(jel, y), hj, by grind, by grind⟩
            · refine ⟨(x, y), by grind, by grind, ?_⟩
              rw [← hs x y q1 q3 q2 q4]; exact he
    · rintro ⟨⟨x, y⟩, hl, ha, he⟩
      simp only [] at hl
      have w1 : x ≠ iel := fun e => n1 (e ▸ hl)
      have w2 : x ≠ kel := fun e => n2 (e ▸ hl)
      by_cases q1 : x = k
      · subst q1
        rcases f8 y with rfl | rfl | rfl
        · grind
        · exact ⟨(iel, y), by grind, by grind, by grind⟩
        · exact ⟨(x, y), by grind, by grind, by grind⟩
      · by_cases q3 : x = jel
        · subst q3
          rcases g8 y with rfl | rfl | rfl
          · grind
          · exact ⟨(x, y), by grind, by grind, by grind⟩
          · have := h.lnk hk i1 x y
            exact ⟨(kel, y), by grind, by grind, by grind⟩
        · refine ⟨(x, y), by grind, ?_, by rw [hs x y q1 q3 w1 w2]; exact he⟩
          rw [hadj, if_neg q1, if_neg w1, if_neg q3, if_neg w2]
          have := h.lnk hk i1 x y
          have := h.lnk hj j2 x y
          grind


/-- **C13 (boundary edge).** The boundary edge is replaced by its two halves with the same tag and
reference. -/
theorem C13_split_boundary_edge {M : Mesh} {k ip iel kel : Nat} {i : Fin 3} (h : Valid M) (hk : M.live k)
    (ho : M.adj (k, i) = none) (n1 : ¬ M.live iel)
    (h10 : iel ≠ 0) (hip : ip ≠ 0) (hfr : ∀ i, (M.tri k).v i ≠ ip) :
    let M' := split1b M k i ip iel kel
    Valid M' ∧ SideSplit M M' k iel i ip true ∧
    (∀ x, M'.live x ↔ M.live x ∨ x = iel) ∧
    (∀ x, x ≠ k → x ≠ iel → M'.tri x = M.tri x) ∧
    M'.boundary = {e | ∃ h, h ≠ (k, i) ∧ M.live h.1 ∧ M.adj h = none ∧ M.edge h = e} ∪
      {(M.org (k, i), ip, (M.tri k).tag i, (M.tri k).edg i), (ip, M.dst (k, i), (M.tri k).tag i, (M.tri k).edg i)} := by
  intro M'
  have h1 : k ≠ iel := fun e => n1 (e ▸ hk)
  have htri : ∀ x, M'.tri x = _ := split1b_tri_bdy (M := M) (ip := ip) (kel := kel) ho h1
  have hadj : ∀ x y, M'.adj (x, y) = _ := split1b_adj_bdy (ip := ip) (kel := kel) h hk ho n1
  have S1 : SideSplit M M' k iel i ip true :=
    sideSplit_of (by rw [htri, if_pos rfl]) (by rw [htri, if_neg h1.symm, if_pos rfl])
  have hlive : ∀ x, M'.live x ↔ M.live x ∨ x = iel := by
    intro x
    have := h.pos k hk
    clear hadj S1
    simp only [Mesh.live, htri, Tri.cut]
    simp only [Mesh.live] at *
    grind
  refine ⟨split1b_valid_bdy h hk ho n1 h10 hip hfr, S1, hlive, ?_, ?_⟩
  · intro x a b
    rw [htri, if_neg a, if_neg b]
  · obtain ⟨f1, f2, f3', f4, f5, f6, f7, f8⟩ := f3 i
    have o1 := S1.other1; have o2 := S1.other2
    have p1 := S1.half1; have p2 := S1.half2
    simp only [if_true] at o1 o2 p1 p2
    have hs : ∀ x y, x ≠ k → x ≠ iel → M'.edge (x, y) = M.edge (x, y) := by
      intro x y a b
      simp only [Mesh.edge, Mesh.org, Mesh.dst]
      rw [htri, if_neg a, if_neg b]
    clear_value M'
    clear htri S1
    ext e
    simp only [Mesh.boundary, Set.mem_ofPred_eq, Set.mem_union, Set.mem_insert_iff, Set.mem_singleton_iff]
    generalize i + 1 = i1 at *
    generalize i + 2 = i2 at *
    constructor
    · rintro ⟨⟨x, y⟩, hl, ha, he⟩
      rw [hlive] at hl
      rw [hadj] at ha
      simp only [] at hl
      by_cases q1 : x = k
      · subst q1
        rcases f8 y with rfl | rfl | rfl
        · right; left; rw [← he, p1]
        · grind
        · left; exact ⟨(x, y), by grind, hk, by grind, by grind⟩
      · by_cases q2 : x = iel
        · subst q2
          rcases f8 y with rfl | rfl | rfl
          · right; right; rw [← he, p2]
          · left; exact ⟨(k, y), by grind, hk, by grind, by grind⟩
          · grind
        · left
          refine ⟨(x, y), by grind, by grind, by grind, ?_⟩
          rw [← hs x y q1 q2]; exact he
    · rintro (⟨⟨x, y⟩, hne, hl, ha, he⟩ | rfl | rfl)
      · simp only [] at hl
        have w1 : x ≠ iel := fun e => n1 (e ▸ hl)
        by_cases q1 : x = k
        · subst q1
          rcases f8 y with rfl | rfl | rfl
          · grind
          · exact ⟨(iel, y), by grind, by grind, by grind⟩
          · exact ⟨(x, y), by grind, by grind, by grind⟩
        · refine ⟨(x, y), by grind, ?_, by rw [hs x y q1 w1]; exact he⟩
          rw [hadj, if_neg q1, if_neg w1]
          have := h.lnk hk i1 x y
          grind
      · exact ⟨(k, i), by grind, by grind, p1⟩
      · exact ⟨(iel, i), by grind, by grind, p2⟩

/-! ### C14 -/

/-- **C14.** Either the edge is protected by its tag and nothing is done, or the two triangles are replaced
by the two triangles on the other diagonal, with outer edges, tags, references and boundary kept. -/
theorem C14_swap {M : Mesh} {k a : Nat} {i j : Fin 3} (bl : Nat → Bool) (h : Valid M) (hk : M.live k)
    (ho : M.adj (k, i) = some (a, j)) (hne : (M.tri k).v i ≠ (M.tri a).v j) :
    (bl ((M.tri k).tag i) = true ∧ swapar bl M k i = some none) ∨
    (bl ((M.tri k).tag i) = false ∧ ∃ M', swapar bl M k i = some (some M') ∧ Valid M' ∧
      -- new diagonal, from the apex of `k` to the apex of `a`
      M'.edge (k, i + 1) = ((M.tri a).v j, (M.tri k).v i, 0, 0) ∧
      M'.edge (a, j + 1) = ((M.tri k).v i, (M.tri a).v j, 0, 0) ∧
      -- the four outer edges
      M'.edge (k, i) = M.edge (a, j + 1) ∧ M'.edge (k, i + 2) = M.edge (k, i + 2) ∧
      M'.edge (a, j) = M.edge (k, i + 1) ∧ M'.edge (a, j + 2) = M.edge (a, j + 2) ∧
      (M'.tri k).ref = (M.tri k).ref ∧ (M'.tri a).ref = (M.tri a).ref ∧
      (∀ x, M'.live x ↔ M.live x) ∧ (∀ x, x ≠ k → x ≠ a → M'.tri x = M.tri x) ∧
      M'.boundary = M.boundary ∧
      ∀ (K : Type) [CommRing K] (cx cy : Nat → K),
        area2 cx cy (M'.tri k) + area2 cx cy (M'.tri a) = area2 cx cy (M.tri k) + area2 cx cy (M.tri a)) := by
  obtain ⟨hj, h3, ea, eb, ec⟩ := h.lnk hk _ _ _ ho
  cases hb : bl ((M.tri k).tag i)
  · right
    refine ⟨rfl, ?_⟩
    obtain ⟨M', hs⟩ : ∃ M', swapar bl M k i = some (some M') := by
      unfold swapar; rw [hb, ho]; exact ⟨_, rfl⟩
    have htri := swapar_tri ho h3 hs
    have hadj := swapar_adj h hk ho hne hs
    have tk := htri k
    have ta := htri a
    rw [if_pos rfl] at tk
    rw [if_neg h3, if_pos rfl] at ta
    obtain ⟨f1, f2, f3', f4, f5, f6, f7, f8⟩ := f3 i
    obtain ⟨g1, g2, g3', g4, g5, g6, g7, g8⟩ := f3 j
    have E1 : M'.edge (k, i + 1) = ((M.tri a).v j, (M.tri k).v i, 0, 0) := by
      simp only [Mesh.edge, Mesh.org, Mesh.dst, tk, f4, f5, if_true, if_neg f2.symm]
    have E2 : M'.edge (a, j + 1) = ((M.tri k).v i, (M.tri a).v j, 0, 0) := by
      simp only [Mesh.edge, Mesh.org, Mesh.dst, ta, g4, g5, if_true, if_neg g2.symm]
    have E3 : M'.edge (k, i) = M.edge (a, j + 1) := by
      simp only [Mesh.edge, Mesh.org, Mesh.dst, tk, g4, g5, if_true, if_neg f1.symm, if_neg f3', ec]
    have E4 : M'.edge (k, i + 2) = M.edge (k, i + 2) := by
      simp only [Mesh.edge, Mesh.org, Mesh.dst, tk, f6, f7, if_neg f2.symm, if_neg f3', if_neg f2, if_neg f3'.symm]
    have E5 : M'.edge (a, j) = M.edge (k, i + 1) := by
      simp only [Mesh.edge, Mesh.org, Mesh.dst, ta, f4, f5, if_true, if_neg g1.symm, if_neg g3', eb]
    have E6 : M'.edge (a, j + 2) = M.edge (a, j + 2) := by
      simp only [Mesh.edge, Mesh.org, Mesh.dst, ta, g6, g7, if_neg g2.symm, if_neg g3', if_neg g2, if_neg g3'.symm]
    have hlive : ∀ x, M'.live x ↔ M.live x := by
      intro x
      have := h.pos k hk
      have := h.pos a hj
      clear hadj E1 E2 E3 E4 E5 E6
      simp only [Mesh.live, htri]
      simp only [Mesh.live] at *
      grind
    have hs' : ∀ x y, x ≠ k → x ≠ a → M'.edge (x, y) = M.edge (x, y) := by
      intro x y c d
      simp only [Mesh.edge, Mesh.org, Mesh.dst]
      rw [htri, if_neg c, if_neg d]
    refine ⟨M', hs, swapar_valid h hk ho hne hs, E1, E2, E3, E4, E5, E6, by rw [tk], by rw [ta], hlive, ?_, ?_, ?_⟩
    · intro x c d; rw [htri, if_neg c, if_neg d]
    · clear htri tk ta hs
      ext e
      simp only [Mesh.boundary, Set.mem_ofPred_eq]
      have l1 := h.lnk hk (i + 1)
      have m1 := h.lnk hj (j + 1)
      generalize i + 1 = i1 at *
      generalize i + 2 = i2 at *
      generalize j + 1 = j1 at *
      generalize j + 2 = j2 at *
      constructor
      · rintro ⟨⟨x, y⟩, hl, ha, he⟩
        rw [hlive] at hl
        rw [hadj] at ha
        simp only [] at hl
        by_cases q1 : x = k
        · subst q1
          rcases f8 y with rfl | rfl | rfl
          · exact ⟨(a, j1), hj, by grind, by grind⟩
          · grind
          · exact ⟨(x, y), hk, by grind, by grind⟩
        · by_cases q2 : x = a
          · subst q2
            rcases g8 y with rfl | rfl | rfl
            · exact ⟨(k, i1), hk, by grind, by grind⟩
            · grind
            · exact ⟨(x, y), hj, by grind, by grind⟩
          · refine ⟨(x, y), hl, by grind, ?_⟩
            rw [← hs' x y q1 q2]; exact he
      · rintro ⟨⟨x, y⟩, hl, ha, he⟩
        simp only [] at hl
        by_cases q1 : x = k
        · subst q1
          rcases f8 y with rfl | rfl | rfl
          · grind
          · exact ⟨(a, j), by grind, by grind, by grind⟩
          · exact ⟨(x, y), by grind, by grind, by grind⟩
        · by_cases q2 : x = a
          · subst q2
            rcases g8 y with rfl | rfl | rfl
            · grind
            · exact ⟨(k, i), by grind, by grind, by grind⟩
            · exact ⟨(x, y), by grind, by grind, by grind⟩
          · refine ⟨(x, y), by grind, ?_, by rw [hs' x y q1 q2]; exact he⟩
            rw [hadj, if_neg q1, if_neg q2]
            have := l1 x y
            have := m1 x y
            grind
    · intro K _ cx cy
      rw [area2_rot cx cy (M'.tri k) i, area2_rot cx cy (M'.tri a) j, area2_rot cx cy (M.tri k) i, area2_rot cx cy (M.tri a) j]
      rw [tk, ta]
      simp only [if_neg f3', if_neg g3', if_neg f2.symm, if_neg g2.symm, if_true, eb, ec]
      ring
  · left
    refine ⟨rfl, ?_⟩
    unfold swapar
    rw [hb]
    rfl

/-! ### C15 -/

/-- **C15, partial.** Splitting a triangle at a point: everything but the tags. If no edge of the triangle
carries a tag or a reference, the tags are right too. Missing: tagged triangles, for which the claim is
false (`C15_tags_misplaced`). -/
theorem C15_split_triangle_partial {M : Mesh} {k ip iel1 iel2 : Nat} (h : Valid M) (hk : M.live k)
    (n1 : ¬ M.live iel1) (n2 : ¬ M.live iel2) (h12 : iel1 ≠ iel2) (h10 : iel1 ≠ 0) (h20 : iel2 ≠ 0)
    (hip : ip ≠ 0) (hfr : ∀ i, (M.tri k).v i ≠ ip) :
    let M' := splitbar M k ip iel1 iel2
    Valid M' ∧
    (∀ x, M'.live x ↔ M.live x ∨ x = iel1 ∨ x = iel2) ∧
    (∀ x, x ≠ k → x ≠ iel1 → x ≠ iel2 → M'.tri x = M.tri x) ∧
    (M'.org (iel2, 0), M'.dst (iel2, 0)) = (M.org (k, 0), M.dst (k, 0)) ∧
    (M'.org (k, 1), M'.dst (k, 1)) = (M.org (k, 1), M.dst (k, 1)) ∧
    (M'.org (iel1, 2), M'.dst (iel1, 2)) = (M.org (k, 2), M.dst (k, 2)) ∧
    (M'.tri k).v 1 = ip ∧ (M'.tri iel1).v 2 = ip ∧ (M'.tri iel2).v 0 = ip ∧
    (M'.tri k).ref = (M.tri k).ref ∧ (M'.tri iel1).ref = (M.tri k).ref ∧ (M'.tri iel2).ref = (M.tri k).ref ∧
    (∀ (K : Type) [CommRing K] (cx cy : Nat → K),
      area2 cx cy (M'.tri k) + area2 cx cy (M'.tri iel1) + area2 cx cy (M'.tri iel2) = area2 cx cy (M.tri k)) ∧
    ((∀ y, (M.tri k).tag y = 0 ∧ (M.tri k).edg y = 0) → ∀ x, (x = k ∨ x = iel1 ∨ x = iel2) →
      ∀ y, (M'.tri x).tag y = 0 ∧ (M'.tri x).edg y = 0) := by
  intro M'
  have h1 : k ≠ iel1 := fun e => n1 (e ▸ hk)
  have h2 : k ≠ iel2 := fun e => n2 (e ▸ hk)
  have htri : ∀ x, M'.tri x = _ := splitbar_tri (M := M) (ip := ip) h1 h2 h12
  have hlive : ∀ x, M'.live x ↔ M.live x ∨ x = iel1 ∨ x = iel2 := by
    intro x
    have := h.pos k hk
    simp only [Mesh.live, htri, Tri.cut]
    simp only [Mesh.live] at *
    grind
  have t0 : M'.tri k = (M.tri k).cut 1 1 ip := by rw [htri, if_pos rfl]
  have t1 : M'.tri iel1 = (M.tri k).cut 2 2 ip := by rw [htri, if_neg h1.symm, if_pos rfl]
  have t2 : M'.tri iel2 = (M.tri k).cut 0 0 ip := by rw [htri, if_neg h2.symm, if_neg h12.symm, if_pos rfl]
  refine ⟨splitbar_valid h hk n1 n2 h12 h10 h20 hip hfr, hlive, ?_, ?_, ?_, ?_, ?_, ?_, ?_, ?_, ?_, ?_, ?_, ?_⟩
  · intro x a b c; rw [htri, if_neg a, if_neg b, if_neg c]
  · simp [Mesh.org, Mesh.dst, t2, Tri.cut]
  · simp [Mesh.org, Mesh.dst, t0, Tri.cut]
  · simp [Mesh.org, Mesh.dst, t1, Tri.cut]
  · simp [t0, Tri.cut]
  · simp [t1, Tri.cut]
  · simp [t2, Tri.cut]
  · simp [t0, Tri.cut]
  · simp [t1, Tri.cut]
  · simp [t2, Tri.cut]
  · intro K _ cx cy
    simp only [t0, t1, t2, area2, Tri.cut]
    simp
    ring
  · rintro ht x (rfl | rfl | rfl) y
    · rw [t0]; simp [Tri.cut, (ht _).1, (ht _).2]
    · rw [t1]; simp [Tri.cut, (ht _).1, (ht _).2]
    · rw [t2]; simp [Tri.cut, (ht _).1, (ht _).2]

/-- One triangle (1,2,3) whose three edges carry tags 2, 2, 2 and references 10, 11, 12. -/
def oneTri : Mesh where
  tri := fun k => if k = 1 then ⟨fun i => i.val + 1, fun _ => 2, fun i => 10 + i.val, 7⟩ else ⟨fun _ => 0, fun _ => 0, fun _ => 0, 0⟩
  adj := fun _ => none

theorem oneTri_valid : Valid oneTri := by
  have hl : ∀ k, oneTri.live k → k = 1 := by
    intro k hk
    by_contra hne
    apply hk
    simp [oneTri, hne]
  constructor
  · intro k hk; rw [hl k hk]; decide
  · intro k hk; rw [hl k hk]; decide
  · intro a b _ e; simp [oneTri] at e

/-- **C15, counterexample.** Splitting a triangle with tagged edges removes the tag of the outer edges and
leaves tags on the inner edges. -/
theorem C15_tags_misplaced :
    Valid oneTri ∧ ∃ M', M' = splitbar oneTri 1 4 2 3 ∧ Valid M' ∧
      -- outer edge 3 -> 1 was tagged, and is not any more
      oneTri.edge (1, 1) = (3, 1, 2, 11) ∧ M'.edge (1, 1) = (3, 1, 0, 0) ∧
      -- inner edge 4 -> 3 is tagged with a reference
      M'.edge (1, 0) = (4, 3, 2, 10) := by
  refine ⟨oneTri_valid, _, rfl, ?_, by decide, by decide, by decide⟩
  exact splitbar_valid oneTri_valid (by decide) (by decide) (by decide) (by decide) (by decide) (by decide)
    (by decide) (by decide)

/-! ### C16 -/

/-- One operator applied somewhere in a mesh whose triangles have indices below `N`. `okb a p b`: the split
point `p` is acceptable for the boundary edge `a b`. -/
inductive Step (okb : Nat → Nat → Nat → Prop) (N : Nat) : Mesh → Mesh → Prop
  | splitInterior {M : Mesh} {k ip iel kel jel : Nat} {i j : Fin 3} (hk : M.live k)
      (ho : M.adj (k, i) = some (jel, j)) (n1 : ¬ M.live iel) (n2 : ¬ M.live kel) (h6 : iel ≠ kel)
      (h10 : iel ≠ 0) (h20 : kel ≠ 0) (hip : ip ≠ 0) (hfr : ∀ i, (M.tri k).v i ≠ ip)
      (hfr' : ∀ i, (M.tri jel).v i ≠ ip) (b1 : iel < N) (b2 : kel < N) :
      Step okb N M (split1b M k i ip iel kel)
  | splitBoundary {M : Mesh} {k ip iel kel : Nat} {i : Fin 3} (hk : M.live k) (ho : M.adj (k, i) = none)
      (n1 : ¬ M.live iel) (h10 : iel ≠ 0) (hip : ip ≠ 0) (hfr : ∀ i, (M.tri k).v i ≠ ip) (b1 : iel < N)
      (hok : okb (M.org (k, i)) ip (M.dst (k, i))) :
      Step okb N M (split1b M k i ip iel kel)
  | swap {M M' : Mesh} {bl : Nat → Bool} {k a : Nat} {i j : Fin 3} (hk : M.live k)
      (ho : M.adj (k, i) = some (a, j)) (hne : (M.tri k).v i ≠ (M.tri a).v j)
      (hs : swapar bl M k i = some (some M')) : Step okb N M M'
  | splitTriangle {M : Mesh} {k ip iel1 iel2 : Nat} (hk : M.live k)
      (n1 : ¬ M.live iel1) (n2 : ¬ M.live iel2) (h12 : iel1 ≠ iel2) (h10 : iel1 ≠ 0) (h20 : iel2 ≠ 0)
      (hip : ip ≠ 0) (hfr : ∀ i, (M.tri k).v i ≠ ip) (b1 : iel1 < N) (b2 : iel2 < N) :
      Step okb N M (splitbar M k ip iel1 iel2)

theorem Step.spec {okb : Nat → Nat → Nat → Prop} {N : Nat} {M M' : Mesh} (s : Step okb N M M')
    (h : Valid M) (hN : ∀ k, M.live k → k < N) :
    Valid M' ∧ (∀ k, M'.live k → k < N) ∧
    ∀ (G : Type) [AddCommGroup G] (f : Nat → Nat → G), Anti f →
      (∀ a p b, okb a p b → f a p + f p b = f a b) → circ f N M' = circ f N M := by
  cases s with
  | splitInterior hk ho n1 n2 h6 h10 h20 hip hfr hfr' b1 b2 =>
    obtain ⟨v, _, _, l, _⟩ := C13_split_interior_edge h hk ho n1 n2 h6 h10 h20 hip hfr hfr'
    refine ⟨v, fun x hx => ?_, fun G _ f hf _ => ?_⟩
    · rcases (l x).1 hx with c | rfl | rfl
      · exact hN _ c
      · exact b1
      · exact b2
    · exact split1b_circ_int hf h hk ho n1 n2 h6 hip (hN _ hk) b1 (hN _ (h.lnk hk _ _ _ ho).1) b2
  | splitBoundary hk ho n1 h10 hip hfr b1 hok =>
    obtain ⟨v, _, l, _⟩ := C13_split_boundary_edge (kel := _) h hk ho n1 h10 hip hfr
    refine ⟨v, fun x hx => ?_, fun G _ f hf hb => ?_⟩
    · rcases (l x).1 hx with c | rfl
      · exact hN _ c
      · exact b1
    · rw [split1b_circ_bdy hf h hk ho n1 hip (hN _ hk) b1, hb _ _ _ hok, sub_self, add_zero]
  | swap hk ho hne hs =>
    rename_i bl k a i j
    have := C14_swap bl h hk ho hne
    rcases this with ⟨_, e⟩ | ⟨_, M'', e, v, _, _, _, _, _, _, _, _, l, _⟩
    · rw [e] at hs; simp at hs
    · rw [e] at hs
      simp only [Option.some.injEq] at hs
      subst hs
      refine ⟨v, fun x hx => hN _ ((l x).1 hx), fun G _ f hf _ => ?_⟩
      exact swapar_circ hf h hk ho e (hN _ hk) (hN _ (h.lnk hk _ _ _ ho).1)
  | splitTriangle hk n1 n2 h12 h10 h20 hip hfr b1 b2 =>
    obtain ⟨v, l, _⟩ := C15_split_triangle_partial h hk n1 n2 h12 h10 h20 hip hfr
    refine ⟨v, fun x hx => ?_, fun G _ f hf _ => ?_⟩
    · rcases (l x).1 hx with c | rfl | rfl
      · exact hN _ c
      · exact b1
      · exact b2
    · exact splitbar_circ hf h hk n1 n2 h12 hip (hN _ hk) b1 b2

/-- **C16 (histories).** Every sequence of operators keeps a conforming triangulation and every circulation
for which the boundary splits are neutral. -/
theorem C16_histories {okb : Nat → Nat → Nat → Prop} {N : Nat} {M M' : Mesh}
    (s : Relation.ReflTransGen (Step okb N) M M') (h : Valid M) (hN : ∀ k, M.live k → k < N) :
    Valid M' ∧ (∀ k, M'.live k → k < N) ∧
    ∀ (G : Type) [AddCommGroup G] (f : Nat → Nat → G), Anti f →
      (∀ a p b, okb a p b → f a p + f p b = f a b) → circ f N M' = circ f N M := by
  induction s with
  | refl => exact ⟨h, hN, fun _ _ _ _ _ => rfl⟩
  | tail _ st ih =>
    obtain ⟨a, b, c⟩ := ih
    obtain ⟨a', b', c'⟩ := st.spec a b
    exact ⟨a', b', fun G _ f hf hb => (c' G f hf hb).trans (c G f hf hb)⟩

/-- **C16 (area).** If boundary edges are only split at points of their supporting line, the total signed
area never changes. -/
theorem C16_area_conserved {K : Type} [CommRing K] (cx cy : Nat → K) {N : Nat} {M M' : Mesh}
    (s : Relation.ReflTransGen (Step (fun a p b => ∃ t, OnEdge cx cy t a b p) N) M M') (h : Valid M)
    (hN : ∀ k, M.live k → k < N) :
    (∑ k ∈ Finset.range N, if M'.live k then area2 cx cy (M'.tri k) else 0) =
      ∑ k ∈ Finset.range N, if M.live k then area2 cx cy (M.tri k) else 0 := by
  have := (C16_histories s h hN).2.2 K (fun a b => cx a * cy b - cx b * cy a)
    (fun a b => by ring) (by
      rintro a p b ⟨t, hx, hy⟩
      rw [hx, hy]; ring)
  have e : ∀ t, triCirc (fun a b => cx a * cy b - cx b * cy a) t = area2 cx cy t := by
    intro t; unfold triCirc area2; ring
  unfold circ at this
  simp only [e] at this
  exact this

/-- **C16 (boundary).** A circulation is a sum over boundary edges only, so `C16_histories` with values in a
free group says that the boundary chain of the domain is conserved. -/
theorem C16_circulation_is_boundary {G : Type} [AddCommGroup G] {f : Nat → Nat → G} (hf : Anti f) {N : Nat} {M : Mesh} (h : Valid M)
    (hN : ∀ k, M.live k → k < N) :
    circ f N M = ∑ e ∈ ((Finset.range N) ×ˢ (Finset.univ : Finset (Fin 3))).filter
      (fun e => M.live e.1 ∧ M.adj e = none), f (M.org e) (M.dst e) := by
  have e1 : circ f N M = ∑ e ∈ ((Finset.range N) ×ˢ (Finset.univ : Finset (Fin 3))).filter
      (fun e => M.live e.1), f (M.org e) (M.dst e) := by
    rw [Finset.sum_filter, Finset.sum_product]
    unfold circ
    apply Finset.sum_congr rfl
    intro k _
    by_cases c : M.live k
    · simp only [c, if_true, Fin.sum_univ_three, Mesh.org, Mesh.dst, triCirc]
      simp
      abel
    · simp [c]
  rw [e1, ← sub_eq_zero]
  have e2 : (((Finset.range N) ×ˢ (Finset.univ : Finset (Fin 3))).filter (fun e => M.live e.1 ∧ M.adj e = none)) =
      (((Finset.range N) ×ˢ (Finset.univ : Finset (Fin 3))).filter (fun e => M.live e.1)).filter (fun e => M.adj e = none) := by
    rw [Finset.filter_filter]
  rw [e2, ← Finset.sum_filter_add_sum_filter_not _ (fun e => M.adj e = none), add_sub_cancel_left]
  apply Finset.sum_involution (fun e _ => (M.adj e).getD e)
  · rintro ⟨x, y⟩ he
    simp only [Finset.mem_filter, Finset.mem_product] at he
    obtain ⟨⟨⟨_, _⟩, hl⟩, ha⟩ := he
    obtain ⟨e', he'⟩ := Option.ne_none_iff_exists'.1 ha
    obtain ⟨_, _, o, d⟩ := h.link _ _ hl he'
    rw [he', Option.getD_some, o, d, hf (M.org (x, y)), add_neg_cancel]
  · rintro ⟨x, y⟩ he _ heq
    simp only [Finset.mem_filter, Finset.mem_product] at he
    obtain ⟨⟨⟨_, _⟩, hl⟩, ha⟩ := he
    obtain ⟨⟨x', y'⟩, he'⟩ := Option.ne_none_iff_exists'.1 ha
    rw [he', Option.getD_some] at heq
    rw [heq] at he'
    exact h.no_self hl _ _ he'
  · rintro ⟨x, y⟩ he
    simp only [Finset.mem_filter, Finset.mem_product] at he
    obtain ⟨⟨⟨_, _⟩, hl⟩, ha⟩ := he
    obtain ⟨e', he'⟩ := Option.ne_none_iff_exists'.1 ha
    obtain ⟨l, b, _, _⟩ := h.link _ _ hl he'
    simp only [Finset.mem_filter, Finset.mem_product, he', Option.getD_some, Finset.mem_range, Finset.mem_univ,
      and_true, b]
    exact ⟨⟨hN _ l, l⟩, by simp⟩
  · rintro ⟨x, y⟩ he
    simp only [Finset.mem_filter, Finset.mem_product] at he
    obtain ⟨⟨⟨_, _⟩, hl⟩, ha⟩ := he
    obtain ⟨e', he'⟩ := Option.ne_none_iff_exists'.1 ha
    obtain ⟨l, b, _, _⟩ := h.link _ _ hl he'
    simp only [he', Option.getD_some, b]

/-! ### Non-vacuity: the hypotheses hold on small meshes -/

/-- Two triangles (1,2,3) and (3,2,4) sharing the edge 2 3. -/
def twoTri : Mesh where
  tri := fun k => if k = 1 then ⟨![1, 2, 3], fun _ => 0, fun _ => 0, 7⟩
    else if k = 2 then ⟨![3, 2, 4], fun _ => 0, fun _ => 0, 7⟩ else ⟨fun _ => 0, fun _ => 0, fun _ => 0, 0⟩
  adj := fun h => if h = (1, 0) then some (2, 2) else if h = (2, 2) then some (1, 0) else none

theorem twoTri_valid : Valid twoTri := by
  have hl : ∀ k, twoTri.live k → k = 1 ∨ k = 2 := by
    intro k hk
    by_contra hne
    apply hk
    simp only [not_or] at hne
    simp [twoTri, hne]
  constructor
  · intro k hk; rcases hl k hk with rfl | rfl <;> decide
  · intro k hk; rcases hl k hk with rfl | rfl <;> decide
  · rintro a b _ e
    simp only [twoTri] at e
    split at e
    · subst_vars; simp at e; subst e; decide
    · split at e
      · subst_vars; simp at e; subst e; decide
      · simp at e

/-- A history of three operators: interior split, swap, boundary split. -/
example : ∃ M', Relation.ReflTransGen (Step (fun _ _ _ => True) 9) twoTri M' ∧ Valid M' ∧ M'.live 5 := by
  have s1 : Step (fun _ _ _ => True) 9 twoTri (split1b twoTri 1 0 5 3 4) :=
    .splitInterior (jel := 2) (j := 2) (by decide) (by decide) (by decide) (by decide) (by decide) (by decide)
      (by decide) (by decide) (by decide) (by decide) (by decide) (by decide)
  have s2 : Step (fun _ _ _ => True) 9 (split1b twoTri 1 0 5 3 4) (split1b (split1b twoTri 1 0 5 3 4) 1 2 6 5 0) :=
    .splitBoundary (by decide) (by decide) (by decide) (by decide) (by decide) (by decide) (by decide) trivial
  have r := (Relation.ReflTransGen.refl.tail s1).tail s2
  refine ⟨_, r, (C16_histories r twoTri_valid ?_).1, by decide⟩
  intro k hk
  by_contra hne
  apply hk
  have h1 : k ≠ 1 := by omega
  have h2 : k ≠ 2 := by omega
  simp [twoTri, h1, h2]

example : ∃ M', swapar (fun t => t != 0) twoTri 1 0 = some (some M') ∧ Valid M' := by
  rcases C14_swap (fun t => t != 0) twoTri_valid (k := 1) (i := 0) (a := 2) (j := 2) (by decide) (by decide) (by decide) with
    ⟨h, _⟩ | ⟨_, M', h, v, _⟩
  · exact absurd h (by decide)
  · exact ⟨M', h, v⟩

end Mmg.Tri2
