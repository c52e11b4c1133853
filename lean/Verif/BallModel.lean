/-
Model of the enumerations of the triangles around a vertex (`MMG5_boulet`, `MMG5_boulep` in
common/boulep.c) on the triangle mesh of Tri2Model. A corner is a pair (triangle, local vertex).
-/
import Mathlib.Logic.Relation
import Verif.Tri2Model

namespace Mmg.Tri2

/-- Next corner, boulep.c:382-386: `i1 = inxt2[i]; k = adja[i1]/3; i = adja[i1]%3; i = inxt2[i]`;
`none`: `k = 0`. -/
def Mesh.rot (M : Mesh) (c : HE) : Option HE := (M.adj (c.1, c.2 + 1)).map (fun h => (h.1, h.2 + 1))

/-- Previous corner, boulep.c:405-411: `i2 = iprv2[i]; k = adja[i2]/3; i = iprv2[adja[i2]%3]`. -/
def Mesh.rotb (M : Mesh) (c : HE) : Option HE := (M.adj (c.1, c.2 + 2)).map (fun h => (h.1, h.2 + 2))

/-- First loop of `MMG5_boulet`, boulep.c:373-389, from corner `c` with room for `n` more entries:
the corners stored and whether the walk came back to the triangle `start`. `none`: the size test
`ilist > MMG5_TRIA_LMAX-2` made the function return 0. -/
def fwd (M : Mesh) (start : Nat) : Nat → HE → Option (List HE × Bool)
  | 0, _ => none
  | n + 1, c =>
    match M.rot c with
    | none => some ([c], false)
    | some c' =>
      if c'.1 = start then some ([c], true)
      else (fwd M start n c').map (fun r => (c :: r.1, r.2))

/-- Second loop of `MMG5_boulet`, boulep.c:404-417. -/
def bwd (M : Mesh) : Nat → HE → Option (List HE)
  | n, c =>
    match M.rotb c with
    | none => some []
    | some c' =>
      match n with
      | 0 => none
      | n + 1 => (bwd M n c').map (fun l => c' :: l)

/-- `MMG5_boulet`, boulep.c:363-418; `lmax = MMG5_TRIA_LMAX`; `nom` : called from mmgs (`s` is 1) for a
point with tag MG_NOM. The result is the content of `list[0..ilist-1]` and `*opn`; `none` when 0
is returned. -/
def boulet (M : Mesh) (lmax : Nat) (nom : Bool) (c : HE) : Option (List HE × Bool) :=
  match fwd M c.1 (lmax - 1) c with
  | none => none
  | some (l, true) => some (l, false)
  | some (l, false) =>
    if nom then none
    else (bwd M (lmax - 1 - l.length) c).map (fun l' => (l ++ l', true))

/-- Second loop of `MMG5_boulep`, boulep.c:86-103: state triangle `k` with its two local indices `i1`
(vertex to store) and `i2` (edge to cross); entries are (`list`, `tlist`). Line 98 sets
`i2 = iprv2[i1]`. -/
def revLoop (M : Mesh) : Nat → Nat → Fin 3 → Fin 3 → Option (List (Nat × Nat))
  | 0, _, _, _ => none
  | n + 1, k, i1, i2 =>
    match M.adj (k, i2) with
    | none => some [((M.tri k).v i1, 0)]
    | some (k', e) => (revLoop M n k' e (e + 2)).map (fun l => ((M.tri k).v i1, k') :: l)

/-- `MMG5_boulep`, boulep.c:52-106: entries `(list[j], tlist[j-1])` for `j = 1..ilist`. The first loop
(lines 67-83) visits the corners as the one of `MMG5_boulet` does and stores the vertex that follows the
edge to be crossed. `none`: a negative number is returned. `lmax = MMG5_LMAX`. -/
def boulep (M : Mesh) (lmax : Nat) (c : HE) : Option (List (Nat × Nat)) :=
  match fwd M c.1 (lmax - 1) c with
  | none => none
  | some (l, closed) =>
    let r := l.map (fun x => ((M.tri x.1).v (x.2 + 2), x.1))
    if closed then some r
    else (revLoop M (lmax - 1 - l.length) c.1 (c.2 + 1) (c.2 + 2)).map (fun r' => r ++ r')

/-! ### Specification -/

/-- The vertex at a corner. -/
def Mesh.at (M : Mesh) (c : HE) : Nat := (M.tri c.1).v c.2

/-- Two corners with the same vertex whose triangles are neighbours across an edge that contains
this vertex (edge `h` contains the vertex at corner `c` iff `h.2 ≠ c.2`). -/
def Mesh.Fan (M : Mesh) (c c' : HE) : Prop :=
  M.at c' = M.at c ∧ ∃ e e' : Fin 3, e ≠ c.2 ∧ e' ≠ c'.2 ∧ M.adj (c.1, e) = some (c'.1, e')

/-- Vertices joined to the vertex of corner `c` by an edge of a triangle of its fan. -/
def Mesh.Neighbour (M : Mesh) (c : HE) (w : Nat) : Prop :=
  ∃ x, Relation.ReflTransGen M.Fan c x ∧ ∃ i, i ≠ x.2 ∧ w = (M.tri x.1).v i

end Mmg.Tri2
