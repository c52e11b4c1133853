/-
Closed forms and validity of the 2D operators (helper lemmas of Tri2Props).
-/
import Verif.Tri2Model
namespace Mmg.Tri2

theorem f3 (i : Fin 3) : i + 1 ≠ i ∧ i + 2 ≠ i ∧ i + 1 ≠ i + 2 ∧ i + 1 + 1 = i + 2 ∧ i + 1 + 2 = i ∧
    i + 2 + 1 = i ∧ i + 2 + 2 = i + 1 ∧ ∀ y, y = i ∨ y = i + 1 ∨ y = i + 2 := by
  revert i; decide

theorem backLink_adj (M : Mesh) (o : Option HE) (a x : HE) :
    (M.backLink o a).adj x = if o = some x then some a else M.adj x := by
  cases o with
  | none => simp [Mesh.backLink]
  | some y =>
    simp only [Mesh.backLink, Mesh.setAdj, Option.some.injEq]
    by_cases h : x = y
    · subst h; simp
    · rw [if_neg h, if_neg (fun e => h e.symm)]

theorem backLink_tri (M : Mesh) (o : Option HE) (a : HE) : (M.backLink o a).tri = M.tri := by
  cases o <;> rfl

theorem Valid.no_self {M : Mesh} (h : Valid M) {k : Nat} (hk : M.live k) (i j : Fin 3) :
    M.adj (k, i) ≠ some (k, j) := by
  intro e
  obtain ⟨_, _, h1, h2⟩ := h.link (k, i) (k, j) hk e
  have hd := h.distinct k hk
  simp only [Mesh.org, Mesh.dst] at h1 h2
  have a1 : j + 1 = i + 2 := by
    by_contra hne; exact hd _ _ hne h1
  have a2 : j + 2 = i + 1 := by
    by_contra hne; exact hd _ _ hne h2
  exact (by decide : ∀ i j : Fin 3, j + 1 = i + 2 → j + 2 = i + 1 → False) i j a1 a2

theorem Valid.lnk {M : Mesh} (h : Valid M) {k : Nat} (hk : M.live k) (i : Fin 3) (x : Nat) (y : Fin 3)
    (e : M.adj (k, i) = some (x, y)) : M.live x ∧ x ≠ k ∧ M.adj (x, y) = some (k, i) ∧
      (M.tri x).v (y + 1) = (M.tri k).v (i + 2) ∧ (M.tri x).v (y + 2) = (M.tri k).v (i + 1) := by
  obtain ⟨h1, h2, h3, h4⟩ := h.link _ _ hk e
  exact ⟨h1, fun e' => by subst e'; exact h.no_self hk _ _ e, h2, h3, h4⟩

section splitbar
variable {M : Mesh} {k ip iel1 iel2 : Nat}

theorem splitbar_tri (h1 : k ≠ iel1) (h2 : k ≠ iel2) (h12 : iel1 ≠ iel2) (x : Nat) :
    (splitbar M k ip iel1 iel2).tri x = if x = k then (M.tri k).cut 1 1 ip
      else if x = iel1 then (M.tri k).cut 2 2 ip else if x = iel2 then (M.tri k).cut 0 0 ip else M.tri x := by
  simp only [splitbar, Mesh.copyTri, Mesh.setTri, Mesh.setAdj, backLink_tri] at *
  grind

theorem splitbar_adj (h : Valid M) (hk : M.live k) (n1 : ¬ M.live iel1) (n2 : ¬ M.live iel2)
    (h12 : iel1 ≠ iel2) (x : Nat) (y : Fin 3) :
    (splitbar M k ip iel1 iel2).adj (x, y) =
      if x = k then (if y = 0 then some (iel2, 1) else if y = 2 then some (iel1, 1) else M.adj (k, 1))
      else if x = iel1 then (if y = 0 then some (iel2, 2) else if y = 1 then some (k, 2) else M.adj (k, 2))
      else if x = iel2 then (if y = 0 then M.adj (k, 0) else if y = 1 then some (k, 0) else some (iel1, 0))
      else if M.adj (k, 0) = some (x, y) then some (iel2, 0)
      else if M.adj (k, 2) = some (x, y) then some (iel1, 2)
      else M.adj (x, y) := by
  have h1 : k ≠ iel1 := fun e => n1 (e ▸ hk)
  have h2 : k ≠ iel2 := fun e => n2 (e ▸ hk)
  have a0 : M.adj (k, 0) = some (x, y) → M.live x ∧ x ≠ k := fun e => ⟨(h.lnk hk _ _ _ e).1, (h.lnk hk _ _ _ e).2.1⟩
  have a2 : M.adj (k, 2) = some (x, y) → M.live x ∧ x ≠ k := fun e => ⟨(h.lnk hk _ _ _ e).1, (h.lnk hk _ _ _ e).2.1⟩
  simp only [splitbar, Mesh.copyTri, Mesh.setTri, Mesh.setAdj, backLink_adj, Prod.mk.injEq]
  have hy := (f3 0).2.2.2.2.2.2.2 y
  grind

theorem splitbar_valid (h : Valid M) (hk : M.live k)
    (n1 : ¬ M.live iel1) (n2 : ¬ M.live iel2) (h12 : iel1 ≠ iel2) (h10 : iel1 ≠ 0) (h20 : iel2 ≠ 0)
    (hip : ip ≠ 0) (hfr : ∀ i, (M.tri k).v i ≠ ip) : Valid (splitbar M k ip iel1 iel2) := by
  have h1 : k ≠ iel1 := fun e => n1 (e ▸ hk)
  have h2 : k ≠ iel2 := fun e => n2 (e ▸ hk)
  have htri := splitbar_tri (M := M) (ip := ip) h1 h2 h12
  have hadj := splitbar_adj (ip := ip) h hk n1 n2 h12
  generalize splitbar M k ip iel1 iel2 = M' at *
  have hlive : ∀ x, M'.live x ↔ M.live x ∨ x = iel1 ∨ x = iel2 := by
    intro x
    have := h.pos k hk
    simp only [Mesh.live, htri, Tri.cut]
    simp only [Mesh.live] at *
    grind
  constructor
  · intro x hx
    rw [hlive] at hx
    have := h.pos x
    have := h.pos k hk
    rw [htri]
    constructor
    · grind
    · intro i
      simp only [Tri.cut]
      grind
  · intro x hx
    rw [hlive] at hx
    have := h.distinct x
    have := h.distinct k hk
    rw [htri]
    intro i j
    simp only [Tri.cut]
    grind
  · have e1 := @Valid.lnk _ h _ hk 0
    have e2 := @Valid.lnk _ h _ hk 1
    have e3 := @Valid.lnk _ h _ hk 2
    have hv : ∀ x y, (M'.tri x).v y = if x = k then (if y = 1 then ip else (M.tri k).v y)
        else if x = iel1 then (if y = 2 then ip else (M.tri k).v y)
        else if x = iel2 then (if y = 0 then ip else (M.tri k).v y) else (M.tri x).v y := by
      intro x y; rw [htri]; simp only [Tri.cut]; grind
    clear htri
    rintro ⟨x, y⟩ ⟨x', y'⟩ hx he
    rw [hlive] at hx
    rw [hadj] at he
    simp only [hlive, Mesh.org, Mesh.dst] at *
    have e4 := fun hx => @Valid.lnk _ h x hx y
    by_cases c1 : x = k
    · subst c1
      clear e4
      rcases (f3 0).2.2.2.2.2.2.2 y with rfl | rfl | rfl <;>
      simp at he e1 e2 e3 <;> simp <;> grind
    · by_cases c2 : x = iel1
      · subst c2
        clear e4
        rcases (f3 0).2.2.2.2.2.2.2 y with rfl | rfl | rfl <;>
        simp at he e1 e2 e3 <;> simp <;> grind
      · by_cases c3 : x = iel2
        · subst c3
          clear e4
          rcases (f3 0).2.2.2.2.2.2.2 y with rfl | rfl | rfl <;>
          simp at he e1 e2 e3 <;> simp <;> grind
        · simp at he e1 e2 e3
          grind
end splitbar

section split1b
variable {M : Mesh} {k ip iel kel : Nat} {i : Fin 3}

theorem cutSide_tri {a b : Fin 3} (h1 : k ≠ iel) (x : Nat) :
    (cutSide M k iel a b ip).tri x = if x = k then (M.tri k).cut a b ip
      else if x = iel then (M.tri k).cut b a ip else M.tri x := by
  simp only [cutSide, Mesh.copyTri, Mesh.setTri, Mesh.setAdj, backLink_tri]
  grind

theorem cutSide_adj {a b : Fin 3} (h1 : k ≠ iel)
    (_hab : a ≠ b) (hl : ∀ x y, M.adj (k, b) = some (x, y) → x ≠ k ∧ x ≠ iel) (x : Nat) (y : Fin 3) :
    (cutSide M k iel a b ip).adj (x, y) =
      if x = k then (if y = b then some (iel, a) else M.adj (k, y))
      else if x = iel then (if y = a then some (k, b) else M.adj (k, y))
      else if M.adj (k, b) = some (x, y) then some (iel, b) else M.adj (x, y) := by
  have hl := hl x y
  simp only [cutSide, Mesh.copyTri, Mesh.setTri, Mesh.setAdj, backLink_adj, Prod.mk.injEq]
  grind

theorem split1b_tri_bdy (ho : M.adj (k, i) = none) (h1 : k ≠ iel) (x : Nat) :
    (split1b M k i ip iel kel).tri x = if x = k then (M.tri k).cut (i + 2) (i + 1) ip
      else if x = iel then (M.tri k).cut (i + 1) (i + 2) ip else M.tri x := by
  simp only [split1b, ho]
  exact cutSide_tri h1 x

theorem split1b_adj_bdy (h : Valid M) (hk : M.live k) (ho : M.adj (k, i) = none) (n1 : ¬ M.live iel)
    (x : Nat) (y : Fin 3) :
    (split1b M k i ip iel kel).adj (x, y) =
      if x = k then (if y = i + 1 then some (iel, i + 2) else M.adj (k, y))
      else if x = iel then (if y = i + 2 then some (k, i + 1) else M.adj (k, y))
      else if M.adj (k, i + 1) = some (x, y) then some (iel, i + 1) else M.adj (x, y) := by
  have h1 : k ≠ iel := fun e => n1 (e ▸ hk)
  simp only [split1b, ho]
  apply cutSide_adj h1 (f3 i).2.2.1.symm
  intro x y e
  have := h.lnk hk _ _ _ e
  exact ⟨this.2.1, fun e' => n1 (e' ▸ this.1)⟩

theorem split1b_valid_bdy (h : Valid M) (hk : M.live k) (ho : M.adj (k, i) = none) (n1 : ¬ M.live iel)
    (h10 : iel ≠ 0) (hip : ip ≠ 0) (hfr : ∀ i, (M.tri k).v i ≠ ip) :
    Valid (split1b M k i ip iel kel) := by
  have h1 : k ≠ iel := fun e => n1 (e ▸ hk)
  have htri := split1b_tri_bdy (ip := ip) (kel := kel) ho h1
  have hadj := split1b_adj_bdy (ip := ip) (kel := kel) h hk ho n1
  obtain ⟨f1, f2, f3', f4, f5, f6, f7, f8⟩ := f3 i
  have e0 := fun y => @Valid.lnk _ h _ hk y
  have e1 := e0 (i + 1)
  have e2 := e0 (i + 2)
  rw [f4, f5] at e1
  rw [f6, f7] at e2
  generalize split1b M k i ip iel kel = M' at *
  generalize i + 1 = i1 at *
  generalize i + 2 = i2 at *
  have hlive : ∀ x, M'.live x ↔ M.live x ∨ x = iel := by
    intro x
    have := h.pos k hk
    simp only [Mesh.live, htri, Tri.cut]
    simp only [Mesh.live] at *
    grind
  constructor
  · intro x hx
    rw [hlive] at hx
    have := h.pos x
    have := h.pos k hk
    rw [htri]
    constructor
    · grind
    · intro i
      simp only [Tri.cut]
      grind
  · intro x hx
    rw [hlive] at hx
    have := h.distinct x
    have := h.distinct k hk
    rw [htri]
    intro i j
    simp only [Tri.cut]
    grind
  · have hv : ∀ x y, (M'.tri x).v y = if x = k then (if y = i2 then ip else (M.tri k).v y)
        else if x = iel then (if y = i1 then ip else (M.tri k).v y) else (M.tri x).v y := by
      intro x y; rw [htri]; simp only [Tri.cut]; grind
    clear htri
    rintro ⟨x, y⟩ ⟨x', y'⟩ hx he
    rw [hlive] at hx
    rw [hadj] at he
    simp only [hlive, Mesh.org, Mesh.dst] at *
    have e4 := fun hx => @Valid.lnk _ h x hx y
    by_cases c1 : x = k
    · subst c1
      clear e4 e0
      rcases f8 y with rfl | rfl | rfl <;> grind
    · by_cases c2 : x = iel
      · subst c2
        clear e4 e0
        rcases f8 y with rfl | rfl | rfl <;> grind
      · grind


theorem split1b_tri_int {jel : Nat} {j : Fin 3} (ho : M.adj (k, i) = some (jel, j)) (h1 : k ≠ iel)
    (h2 : jel ≠ kel) (h3 : k ≠ jel) (h4 : k ≠ kel) (h5 : jel ≠ iel) (h6 : iel ≠ kel) (x : Nat) :
    (split1b M k i ip iel kel).tri x = if x = k then (M.tri k).cut (i + 2) (i + 1) ip
      else if x = iel then (M.tri k).cut (i + 1) (i + 2) ip
      else if x = jel then (M.tri jel).cut (j + 1) (j + 2) ip
      else if x = kel then (M.tri jel).cut (j + 2) (j + 1) ip else M.tri x := by
  simp only [split1b, ho, Mesh.setAdj]
  rw [cutSide_tri h2, cutSide_tri h1, cutSide_tri h1]
  grind

theorem split1b_adj_int (h : Valid M) (hk : M.live k) {jel : Nat} {j : Fin 3}
    (ho : M.adj (k, i) = some (jel, j)) (n1 : ¬ M.live iel) (n2 : ¬ M.live kel) (h6 : iel ≠ kel)
    (x : Nat) (y : Fin 3) :
    (split1b M k i ip iel kel).adj (x, y) =
      if x = k then (if y = i + 1 then some (iel, i + 2) else M.adj (k, y))
      else if x = iel then (if y = i then some (kel, j) else if y = i + 2 then some (k, i + 1)
        else if M.adj (k, i + 1) = some (jel, j + 2) then some (kel, j + 2) else M.adj (k, i + 1))
      else if x = jel then (if y = j + 2 then some (kel, j + 1) else M.adj (jel, y))
      else if x = kel then (if y = j then some (iel, i) else if y = j + 1 then some (jel, j + 2)
        else if M.adj (k, i + 1) = some (jel, j + 2) then some (iel, i + 1) else M.adj (jel, j + 2))
      else if M.adj (k, i + 1) = some (x, y) then some (iel, i + 1)
      else if M.adj (jel, j + 2) = some (x, y) then some (kel, j + 2) else M.adj (x, y) := by
  have h1 : k ≠ iel := fun e => n1 (e ▸ hk)
  obtain ⟨hj, h3, e1, e2, e3⟩ := h.lnk hk _ _ _ ho
  have h2 : jel ≠ kel := fun e => n2 (e ▸ hj)
  have h4 : k ≠ kel := fun e => n2 (e ▸ hk)
  have h5 : jel ≠ iel := fun e => n1 (e ▸ hj)
  have d1 := h.distinct k hk
  have d2 := h.distinct jel hj
  have A := cutSide_adj (M := M) (ip := ip) h1 (f3 i).2.2.1.symm (fun x y e => by
      have := h.lnk hk _ _ _ e
      exact ⟨this.2.1, fun e' => n1 (e' ▸ this.1)⟩)
  obtain ⟨f1, f2, f3', f4, f5, f6, f7, f8⟩ := f3 i
  obtain ⟨g1, g2, g3', g4, g5, g6, g7, g8⟩ := f3 j
  have l1 := h.lnk hk (i + 1)
  have l2 := h.lnk hk (i + 2)
  have l3 := h.lnk hj (j + 1)
  have l4 := h.lnk hj (j + 2)
  rw [f4, f5] at l1
  rw [f6, f7] at l2
  rw [g4, g5] at l3
  rw [g6, g7] at l4
  have c1 : M.adj (k, i + 1) ≠ some (jel, j + 1) := fun e => by
    have := l1 _ _ e
    rw [g4, g5] at this
    exact d1 _ _ f1 (e3.symm.trans this.2.2.2.1)
  have hkk : kel ≠ k := fun e => h4 e.symm
  have hjj : jel ≠ k := h3
  have B := cutSide_adj (M := cutSide M k iel (i + 2) (i + 1) ip) (k := jel) (iel := kel) (ip := ip) h2 g3' (fun x y => by
      rw [A]
      have := l1 x y
      have := l4 x y
      grind)
  simp only [split1b, ho, Mesh.setAdj, Prod.mk.injEq]
  rw [B]
  simp only [A]
  clear A B
  have := l1 x y
  have := l4 x y
  have := f8 y
  have := g8 y
  generalize i + 1 = i1 at *
  generalize i + 2 = i2 at *
  generalize j + 1 = j1 at *
  generalize j + 2 = j2 at *
  clear l2 l3 f8 g8
  by_cases q1 : x = k
  · subst q1
    grind
  · by_cases q2 : x = iel
    · subst q2
      grind
    · by_cases q3 : x = jel
      · subst q3
        grind
      · by_cases q4 : x = kel
        · subst q4
          grind
        · grind


theorem split1b_valid_int (h : Valid M) (hk : M.live k) {jel : Nat} {j : Fin 3}
    (ho : M.adj (k, i) = some (jel, j)) (n1 : ¬ M.live iel) (n2 : ¬ M.live kel) (h6 : iel ≠ kel)
    (h10 : iel ≠ 0) (h20 : kel ≠ 0) (hip : ip ≠ 0) (hfr : ∀ i, (M.tri k).v i ≠ ip)
    (hfr' : ∀ i, (M.tri jel).v i ≠ ip) :
    Valid (split1b M k i ip iel kel) := by
  have h1 : k ≠ iel := fun e => n1 (e ▸ hk)
  obtain ⟨hj, h3, ea, eb, ec⟩ := h.lnk hk _ _ _ ho
  have h2 : jel ≠ kel := fun e => n2 (e ▸ hj)
  have h4 : k ≠ kel := fun e => n2 (e ▸ hk)
  have h5 : jel ≠ iel := fun e => n1 (e ▸ hj)
  have d1 := h.distinct k hk
  have d2 := h.distinct jel hj
  have htri := split1b_tri_int (ip := ip) ho h1 h2 h3.symm h4 h5 h6
  have hadj := split1b_adj_int (ip := ip) h hk ho n1 n2 h6
  obtain ⟨f1, f2, f3', f4, f5, f6, f7, f8⟩ := f3 i
  obtain ⟨g1, g2, g3', g4, g5, g6, g7, g8⟩ := f3 j
  have l0 := h.lnk hk i
  have l1 := h.lnk hk (i + 1)
  have l2 := h.lnk hk (i + 2)
  have m0 := h.lnk hj j
  have m1 := h.lnk hj (j + 1)
  have m2 := h.lnk hj (j + 2)
  rw [f4, f5] at l1
  rw [f6, f7] at l2
  rw [g4, g5] at m1
  rw [g6, g7] at m2
  generalize split1b M k i ip iel kel = M' at *
  generalize i + 1 = i1 at *
  generalize i + 2 = i2 at *
  generalize j + 1 = j1 at *
  generalize j + 2 = j2 at *
  have hlive : ∀ x, M'.live x ↔ M.live x ∨ x = iel ∨ x = kel := by
    intro x
    have := h.pos k hk
    have := h.pos jel hj
    clear l0 l1 l2 m0 m1 m2 hadj
    simp only [Mesh.live, htri, Tri.cut]
    simp only [Mesh.live] at *
    grind
  constructor
  · intro x hx
    rw [hlive] at hx
    have := h.pos x
    have := h.pos k hk
    have := h.pos jel hj
    clear l0 l1 l2 m0 m1 m2 hadj
    rw [htri]
    constructor
    · grind
    · intro i
      simp only [Tri.cut]
      grind
  · intro x hx
    rw [hlive] at hx
    have := h.distinct x
    clear l0 l1 l2 m0 m1 m2 hadj
    rw [htri]
    intro i j
    simp only [Tri.cut]
    grind
  · have hv : ∀ x y, (M'.tri x).v y = if x = k then (if y = i2 then ip else (M.tri k).v y)
        else if x = iel then (if y = i1 then ip else (M.tri k).v y)
        else if x = jel then (if y = j1 then ip else (M.tri jel).v y)
        else if x = kel then (if y = j2 then ip else (M.tri jel).v y) else (M.tri x).v y := by
      intro x y; rw [htri]; simp only [Tri.cut]; clear l0 l1 l2 m0 m1 m2 hadj htri; grind
    clear htri
    rintro ⟨x, y⟩ ⟨x', y'⟩ hx he
    rw [hlive] at hx
    rw [hadj] at he
    simp only [hlive, Mesh.org, Mesh.dst] at *
    by_cases q1 : x = k
    · subst q1
      rcases f8 y with rfl | rfl | rfl
      · grind
      · grind
      · grind
    · by_cases q2 : x = iel
      · subst q2
        rcases f8 y with rfl | rfl | rfl
        · grind
        · grind
        · grind
      · by_cases q3 : x = jel
        · subst q3
          rcases g8 y with rfl | rfl | rfl
          · grind
          · grind
          · grind
        · by_cases q4 : x = kel
          · subst q4
            rcases g8 y with rfl | rfl | rfl
            · grind
            · grind
            · grind
          · have := fun hx => h.lnk (k := x) hx y
            grind

end split1b
section swapar
variable {M M' : Mesh} {k : Nat} {i : Fin 3} {bl : Nat → Bool}

theorem swapar_tri {a : Nat} {j : Fin 3} (ho : M.adj (k, i) = some (a, j)) (h3 : a ≠ k)
    (hs : swapar bl M k i = some (some M')) (x : Nat) :
    M'.tri x = if x = k then
        { (M.tri k) with
          v := fun y => if y = i + 2 then (M.tri a).v j else (M.tri k).v y
          tag := fun y => if y = i + 1 then 0 else if y = i then (M.tri a).tag (j + 1) else (M.tri k).tag y
          edg := fun y => if y = i + 1 then 0 else if y = i then (M.tri a).edg (j + 1) else (M.tri k).edg y }
      else if x = a then
        { (M.tri a) with
          v := fun y => if y = j + 2 then (M.tri k).v i else (M.tri a).v y
          tag := fun y => if y = j + 1 then 0 else if y = j then (M.tri k).tag (i + 1) else (M.tri a).tag y
          edg := fun y => if y = j + 1 then 0 else if y = j then (M.tri k).edg (i + 1) else (M.tri a).edg y }
      else M.tri x := by
  obtain ⟨f1, f2, f3', f4, f5, f6, f7, f8⟩ := f3 i
  obtain ⟨g1, g2, g3', g4, g5, g6, g7, g8⟩ := f3 j
  unfold swapar at hs
  rw [ho] at hs
  split at hs
  · simp at hs
  · simp only [Option.some.injEq] at hs
    subst hs
    simp only [swapLinks, Mesh.setAdj, backLink_tri, Mesh.setTri, swapTris, Tri.setV, Tri.setE]
    clear f8 g8
    grind

theorem swapar_adj (h : Valid M) (hk : M.live k) {a : Nat} {j : Fin 3} (ho : M.adj (k, i) = some (a, j))
    (hne : (M.tri k).v i ≠ (M.tri a).v j) (hs : swapar bl M k i = some (some M')) (x : Nat) (y : Fin 3) :
    M'.adj (x, y) =
      if x = k then (if y = i then M.adj (a, j + 1) else if y = i + 1 then some (a, j + 1) else M.adj (k, i + 2))
      else if x = a then (if y = j then M.adj (k, i + 1) else if y = j + 1 then some (k, i + 1) else M.adj (a, j + 2))
      else if M.adj (a, j + 1) = some (x, y) then some (k, i)
      else if M.adj (k, i + 1) = some (x, y) then some (a, j) else M.adj (x, y) := by
  obtain ⟨hj, h3, ea, eb, ec⟩ := h.lnk hk _ _ _ ho
  have d1 := h.distinct k hk
  have d2 := h.distinct a hj
  obtain ⟨f1, f2, f3', f4, f5, f6, f7, f8⟩ := f3 i
  obtain ⟨g1, g2, g3', g4, g5, g6, g7, g8⟩ := f3 j
  have l1 := h.lnk hk (i + 1)
  have m1 := h.lnk hj (j + 1)
  rw [f4, f5] at l1
  rw [g4, g5] at m1
  unfold swapar at hs
  rw [ho] at hs
  split at hs
  · simp at hs
  · simp only [Option.some.injEq] at hs
    subst hs
    simp only [swapLinks, Mesh.setAdj, backLink_adj, Mesh.setTri, Prod.mk.injEq]
    have := f8 y
    have := g8 y
    generalize i + 1 = i1 at *
    generalize i + 2 = i2 at *
    generalize j + 1 = j1 at *
    generalize j + 2 = j2 at *
    have := l1 x y
    have := m1 x y
    by_cases q1 : x = k
    · subst q1
      grind
    · by_cases q2 : x = a
      · subst q2
        grind
      · grind

theorem swapar_valid (h : Valid M) (hk : M.live k) {a : Nat} {j : Fin 3} (ho : M.adj (k, i) = some (a, j))
    (hne : (M.tri k).v i ≠ (M.tri a).v j) (hs : swapar bl M k i = some (some M')) : Valid M' := by
  obtain ⟨hj, h3, ea, eb, ec⟩ := h.lnk hk _ _ _ ho
  have d1 := h.distinct k hk
  have d2 := h.distinct a hj
  have htri := swapar_tri ho h3 hs
  have hadj := swapar_adj h hk ho hne hs
  obtain ⟨f1, f2, f3', f4, f5, f6, f7, f8⟩ := f3 i
  obtain ⟨g1, g2, g3', g4, g5, g6, g7, g8⟩ := f3 j
  have l1 := h.lnk hk (i + 1)
  have l2 := h.lnk hk (i + 2)
  have m1 := h.lnk hj (j + 1)
  have m2 := h.lnk hj (j + 2)
  rw [f4, f5] at l1
  rw [f6, f7] at l2
  rw [g4, g5] at m1
  rw [g6, g7] at m2
  clear hs
  generalize i + 1 = i1 at *
  generalize i + 2 = i2 at *
  generalize j + 1 = j1 at *
  generalize j + 2 = j2 at *
  have hv : ∀ x y, (M'.tri x).v y = if x = k then (if y = i2 then (M.tri a).v j else (M.tri k).v y)
      else if x = a then (if y = j2 then (M.tri k).v i else (M.tri a).v y) else (M.tri x).v y := by
    intro x y; rw [htri]; clear l1 l2 m1 m2 hadj htri; grind
  clear htri
  have hlive : ∀ x, M'.live x ↔ M.live x := by
    intro x
    have := h.pos k hk
    have := h.pos a hj
    clear l1 l2 m1 m2 hadj
    simp only [Mesh.live, hv]
    simp only [Mesh.live] at *
    grind
  constructor
  · intro x hx
    rw [hlive] at hx
    have := h.pos x
    have := h.pos k hk
    have := h.pos a hj
    clear l1 l2 m1 m2 hadj
    refine ⟨this.1 |> fun _ => (h.pos x hx).1, ?_⟩
    intro i
    rw [hv]
    grind
  · intro x hx
    rw [hlive] at hx
    have := h.distinct x
    clear l1 l2 m1 m2 hadj
    intro y z hyz
    rw [hv, hv]
    by_cases q1 : x = k
    · rcases f8 y with rfl | rfl | rfl <;> rcases f8 z with rfl | rfl | rfl <;> grind
    · by_cases q2 : x = a
      · rcases g8 y with rfl | rfl | rfl <;> rcases g8 z with rfl | rfl | rfl <;> grind
      · grind
  · rintro ⟨x, y⟩ ⟨x', y'⟩ hx he
    rw [hlive] at hx
    rw [hadj] at he
    simp only [hlive, Mesh.org, Mesh.dst] at *
    by_cases q1 : x = k
    · subst q1
      rcases f8 y with rfl | rfl | rfl
      · grind
      · grind
      · grind
    · by_cases q2 : x = a
      · subst q2
        rcases g8 y with rfl | rfl | rfl
        · grind
        · grind
        · grind
      · have := fun hx => h.lnk (k := x) hx y
        grind

end swapar
end Mmg.Tri2
