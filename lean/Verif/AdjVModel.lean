/-
Model of the question for the neighbours of a vertex (`MMG2D_Get_adjaVerticesFast`, `MMGS_Get_adjaVerticesFast`), on the triangle mesh of Tri2Model.
-/
import Verif.BallModel

namespace Mmg.Tri2

/-- First loop, mmg2d/libmmg2d_tools.c:879-896 (mmgs/libmmgs_tools.c:740-757), at the corner `c` with room for `n` more vertices: the vertices
stored, the last corner visited and whether the walk came back to the triangle `start`.  `none`: 0 is returned (lines 880-885). -/
def adjFwd (M : Mesh) (start : Nat) : Nat → HE → Option (List Nat × HE × Bool)
  | 0, _ => none
  | n + 1, c =>
    match M.adj (c.1, c.2 + 1) with
    | none => some ([(M.tri c.1).v (c.2 + 1)], c, false)
    | some (k, e) =>
      if k = start then some ([(M.tri c.1).v (c.2 + 1)], c, true)
      else (adjFwd M start n (k, e + 1)).map fun r => ((M.tri c.1).v (c.2 + 1) :: r.1, r.2)

/-- Second loop, libmmg2d_tools.c:914-932: the side `i2 = iprv2[i]` is crossed; the vertex opposite to it in the neighbour is stored. -/
def adjBwd (M : Mesh) : Nat → HE → Option (List Nat)
  | n, c =>
    match M.adj (c.1, c.2 + 2) with
    | none => some []
    | some (k, e) =>
      match n with
      | 0 => none
      | n + 1 => (adjBwd M n (k, e + 2)).map fun l => (M.tri k).v e :: l

/-- `MMG2D_Get_adjaVerticesFast`, libmmg2d_tools.c:862-935, for a vertex found at the corner `c` of the triangle `start` (lines 870-877);
`lmax = MMG2D_LMAX`.  The content of `lispoi[0..nbpoi-1]`; `none`: 0 is returned.  The adjacency table is taken as built: the function does not
build it, unlike `MMG2D_Get_adjaTri`. -/
def adjaVert (M : Mesh) (lmax : Nat) (c : HE) : Option (List Nat) :=
  match adjFwd M c.1 lmax c with
  | none => none
  | some (l, _, true) => some l
  | some (l, z, false) =>
    if l.length = lmax then none
    else (adjBwd M (lmax - (l.length + 1)) c).map fun l' => l ++ (M.tri z.1).v (z.2 + 2) :: l'

/-! ### Specification -/

/-- `p` and `w` are two vertices of a triangle of the mesh. -/
def Mesh.Joined (M : Mesh) (p w : Nat) : Prop := ∃ k, M.live k ∧ ∃ i j, i ≠ j ∧ (M.tri k).v i = p ∧ (M.tri k).v j = w

/-- A directed edge belongs to one triangle, and two triangles with a common edge, in opposite directions, are neighbours. -/
structure Simple (M : Mesh) : Prop where
  uniq : ∀ h h', M.live h.1 → M.live h'.1 → M.org h = M.org h' → M.dst h = M.dst h' → h = h'
  full : ∀ h h', M.live h.1 → M.live h'.1 → M.org h = M.dst h' → M.dst h = M.org h' → M.adj h = some h'

end Mmg.Tri2
