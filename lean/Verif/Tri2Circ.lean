/-
Circulations of the 2D operators (helper lemmas of Tri2Props).
-/
import Mathlib.Algebra.BigOperators.Group.Finset.Basic
import Mathlib.Algebra.BigOperators.Fin
import Mathlib.Algebra.Ring.Rat
import Mathlib.Tactic.Abel
import Mathlib.Tactic.Ring
import Mathlib.Tactic.FinCases
import Verif.Tri2Lemmas

namespace Mmg.Tri2

instance (M : Mesh) (k : Nat) : Decidable (M.live k) := by unfold Mesh.live; infer_instance

/-! ### Circulations

A circulation adds, over the valid triangles, an antisymmetric quantity `f a b` of the three directed
edges. With `f a b = x_a y_b - x_b y_a` it is twice the signed area; with values in a free group it is
the boundary of the meshed domain. -/

variable {G : Type} [AddCommGroup G]

def triCirc (f : Nat → Nat → G) (t : Tri) : G := f (t.v 0) (t.v 1) + f (t.v 1) (t.v 2) + f (t.v 2) (t.v 0)

/-- Circulation of the mesh; all valid triangles have an index below `N`. -/
def circ (f : Nat → Nat → G) (N : Nat) (M : Mesh) : G :=
  ∑ k ∈ Finset.range N, if M.live k then triCirc f (M.tri k) else 0

def Anti (f : Nat → Nat → G) : Prop := ∀ a b, f b a = - f a b

theorem triCirc_rot (f : Nat → Nat → G) (t : Tri) (i : Fin 3) :
    triCirc f t = f (t.v i) (t.v (i + 1)) + f (t.v (i + 1)) (t.v (i + 2)) + f (t.v (i + 2)) (t.v i) := by
  unfold triCirc
  fin_cases i
  · simp
  · simp; abel
  · simp; abel

theorem circ_diff {f : Nat → Nat → G} {N : Nat} {M M' : Mesh} (S : Finset Nat) (hS : ∀ x ∈ S, x < N)
    (hout : ∀ x, x ∉ S → M'.tri x = M.tri x) :
    circ f N M' - circ f N M = ∑ x ∈ S, ((if M'.live x then triCirc f (M'.tri x) else 0)
      - (if M.live x then triCirc f (M.tri x) else 0)) := by
  unfold circ
  rw [← Finset.sum_sub_distrib]
  symm
  apply Finset.sum_subset
  · intro x hx; exact Finset.mem_range.2 (hS x hx)
  · intro x _ hx
    have e := hout x hx
    have : M'.live x ↔ M.live x := by simp only [Mesh.live, e]
    by_cases c : M.live x
    · rw [if_pos c, if_pos (this.2 c), e, sub_self]
    · rw [if_neg c, if_neg (fun h => c (this.1 h)), sub_self]

/-! ### C15 -/

/-- What a split of triangle `k` at a point does to triangles, outside of tags. -/
theorem splitbar_circ {f : Nat → Nat → G} (hf : Anti f) {N : Nat} {M : Mesh} {k ip iel1 iel2 : Nat}
    (h : Valid M) (hk : M.live k) (n1 : ¬ M.live iel1) (n2 : ¬ M.live iel2) (h12 : iel1 ≠ iel2)
    (hip : ip ≠ 0) (b0 : k < N) (b1 : iel1 < N) (b2 : iel2 < N) :
    circ f N (splitbar M k ip iel1 iel2) = circ f N M := by
  have h1 : k ≠ iel1 := fun e => n1 (e ▸ hk)
  have h2 : k ≠ iel2 := fun e => n2 (e ▸ hk)
  have htri := splitbar_tri (M := M) (ip := ip) h1 h2 h12
  have hd := circ_diff (f := f) (N := N) (M := M) (M' := splitbar M k ip iel1 iel2) {k, iel1, iel2}
    (by intro x hx; simp at hx; omega)
    (by intro x hx; simp at hx; rw [htri]; simp [hx])
  rw [← sub_eq_zero, hd]
  have hp := (h.pos k hk).2
  rw [Finset.sum_insert (by simp [h1, h2]), Finset.sum_insert (by simp [h12]), Finset.sum_singleton]
  generalize splitbar M k ip iel1 iel2 = M' at *
  have l0 : M'.live k := by simp only [Mesh.live, htri, Tri.cut]; simp [hp]
  have l1 : M'.live iel1 := by simp only [Mesh.live, htri, Tri.cut]; simp [h1.symm, hp]
  have l2 : M'.live iel2 := by simp only [Mesh.live, htri, Tri.cut]; simp [h2.symm, h12.symm, hip]
  rw [if_pos l0, if_pos l1, if_pos l2, if_pos hk, if_neg n1, if_neg n2]
  simp only [htri, if_neg h1.symm, if_neg h2.symm, if_neg h12.symm, if_true, triCirc, Tri.cut]
  simp
  generalize (M.tri k).v 0 = a
  generalize (M.tri k).v 1 = b
  generalize (M.tri k).v 2 = c
  rw [hf b ip, hf c ip, hf a ip]
  abel


theorem split1b_circ_int {f : Nat → Nat → G} (hf : Anti f) {N : Nat} {M : Mesh} {k ip iel kel : Nat}
    {i : Fin 3} {jel : Nat} {j : Fin 3} (h : Valid M) (hk : M.live k)
    (ho : M.adj (k, i) = some (jel, j)) (n1 : ¬ M.live iel) (n2 : ¬ M.live kel) (h6 : iel ≠ kel)
    (hip : ip ≠ 0) (b0 : k < N) (b1 : iel < N) (b2 : jel < N) (b3 : kel < N) :
    circ f N (split1b M k i ip iel kel) = circ f N M := by
  have h1 : k ≠ iel := fun e => n1 (e ▸ hk)
  obtain ⟨hj, h3, ea, eb, ec⟩ := h.lnk hk _ _ _ ho
  have h2 : jel ≠ kel := fun e => n2 (e ▸ hj)
  have h4 : k ≠ kel := fun e => n2 (e ▸ hk)
  have h5 : jel ≠ iel := fun e => n1 (e ▸ hj)
  have htri := split1b_tri_int (M := M) (ip := ip) ho h1 h2 h3.symm h4 h5 h6
  have hd := circ_diff (f := f) (N := N) (M := M) (M' := split1b M k i ip iel kel) {k, iel, jel, kel}
    (by intro x hx; simp at hx; omega)
    (by intro x hx; simp at hx; rw [htri]; simp [hx])
  rw [← sub_eq_zero, hd]
  have hp := (h.pos k hk).2
  have hq := (h.pos jel hj).2
  rw [Finset.sum_insert (by simp [h1, h3.symm, h4]), Finset.sum_insert (by simp [h5.symm, h6]),
    Finset.sum_insert (by simp [h2]), Finset.sum_singleton]
  generalize split1b M k i ip iel kel = M' at *
  have l0 : M'.live k := by simp only [Mesh.live, htri, Tri.cut]; simp; grind
  have l1 : M'.live iel := by simp only [Mesh.live, htri, Tri.cut]; simp [h1.symm]; grind
  have l2 : M'.live jel := by simp only [Mesh.live, htri, Tri.cut]; simp [h3, h5]; grind
  have l3 : M'.live kel := by simp only [Mesh.live, htri, Tri.cut]; simp [h4.symm, h6.symm, h2.symm]; grind
  rw [if_pos l0, if_pos l1, if_pos l2, if_pos l3, if_pos hk, if_pos hj, if_neg n1, if_neg n2]
  obtain ⟨f1, f2, f3', f4, f5, f6, f7, f8⟩ := f3 i
  obtain ⟨g1, g2, g3', g4, g5, g6, g7, g8⟩ := f3 j
  rw [triCirc_rot f _ i, triCirc_rot f (M'.tri iel) i, triCirc_rot f (M'.tri jel) j, triCirc_rot f (M'.tri kel) j,
    triCirc_rot f (M.tri k) i, triCirc_rot f (M.tri jel) j]
  simp only [htri, h1.symm, h3, h4.symm, h5, h6.symm, h2.symm, if_true, if_false, Tri.cut, f3', f3'.symm,
    g3', g3'.symm, f1.symm, f2.symm, g1.symm, g2.symm]
  rw [eb, ec]
  generalize (M.tri k).v i = a
  generalize (M.tri k).v (i + 1) = b
  generalize (M.tri k).v (i + 2) = c
  generalize (M.tri jel).v j = d
  rw [hf a ip, hf b ip, hf c ip, hf d ip, hf b c]
  abel

theorem split1b_circ_bdy {f : Nat → Nat → G} (hf : Anti f) {N : Nat} {M : Mesh} {k ip iel kel : Nat}
    {i : Fin 3} (h : Valid M) (hk : M.live k)
    (ho : M.adj (k, i) = none) (n1 : ¬ M.live iel) (hip : ip ≠ 0) (b0 : k < N) (b1 : iel < N) :
    circ f N (split1b M k i ip iel kel) = circ f N M +
      (f (M.org (k, i)) ip + f ip (M.dst (k, i)) - f (M.org (k, i)) (M.dst (k, i))) := by
  have h1 : k ≠ iel := fun e => n1 (e ▸ hk)
  have htri := split1b_tri_bdy (M := M) (ip := ip) (kel := kel) ho h1
  have hd := circ_diff (f := f) (N := N) (M := M) (M' := split1b M k i ip iel kel) {k, iel}
    (by intro x hx; simp at hx; omega)
    (by intro x hx; simp at hx; rw [htri]; simp [hx])
  rw [← sub_eq_iff_eq_add', hd]
  have hp := (h.pos k hk).2
  rw [Finset.sum_insert (by simp [h1]), Finset.sum_singleton]
  generalize split1b M k i ip iel kel = M' at *
  have l0 : M'.live k := by simp only [Mesh.live, htri, Tri.cut]; simp; grind
  have l1 : M'.live iel := by simp only [Mesh.live, htri, Tri.cut]; simp [h1.symm]; grind
  rw [if_pos l0, if_pos l1, if_pos hk, if_neg n1]
  obtain ⟨f1, f2, f3', f4, f5, f6, f7, f8⟩ := f3 i
  rw [triCirc_rot f _ i, triCirc_rot f (M'.tri iel) i, triCirc_rot f (M.tri k) i]
  simp only [htri, h1.symm, if_true, if_false, Tri.cut, f3', f3'.symm, f1.symm, f2.symm, Mesh.org, Mesh.dst]
  generalize (M.tri k).v i = a
  generalize (M.tri k).v (i + 1) = b
  generalize (M.tri k).v (i + 2) = c
  rw [hf a ip]
  abel

theorem swapar_circ {f : Nat → Nat → G} (hf : Anti f) {N : Nat} {M M' : Mesh} {k : Nat} {i : Fin 3}
    {bl : Nat → Bool} {a : Nat} {j : Fin 3} (h : Valid M) (hk : M.live k)
    (ho : M.adj (k, i) = some (a, j)) (hs : swapar bl M k i = some (some M')) (b0 : k < N) (b1 : a < N) :
    circ f N M' = circ f N M := by
  obtain ⟨hj, h3, ea, eb, ec⟩ := h.lnk hk _ _ _ ho
  have htri := swapar_tri ho h3 hs
  have hd := circ_diff (f := f) (N := N) (M := M) (M' := M') {k, a}
    (by intro x hx; simp at hx; omega)
    (by intro x hx; simp at hx; rw [htri]; simp [hx])
  rw [← sub_eq_zero, hd]
  have hp := (h.pos k hk).2
  have hq := (h.pos a hj).2
  rw [Finset.sum_insert (by simp [h3.symm]), Finset.sum_singleton]
  have l0 : M'.live k := by simp only [Mesh.live, htri]; simp; grind
  have l1 : M'.live a := by simp only [Mesh.live, htri]; simp [h3]; grind
  rw [if_pos l0, if_pos l1, if_pos hk, if_pos hj]
  obtain ⟨f1, f2, f3', f4, f5, f6, f7, f8⟩ := f3 i
  obtain ⟨g1, g2, g3', g4, g5, g6, g7, g8⟩ := f3 j
  rw [triCirc_rot f _ i, triCirc_rot f (M'.tri a) j, triCirc_rot f (M.tri k) i, triCirc_rot f (M.tri a) j]
  simp only [htri, h3, if_true, if_false, f3', g3', f2.symm, g2.symm]
  rw [eb, ec]
  generalize (M.tri k).v i = p
  generalize (M.tri k).v (i + 1) = q
  generalize (M.tri k).v (i + 2) = r
  generalize (M.tri a).v j = s
  rw [hf p s, hf q r]
  abel

end Mmg.Tri2
