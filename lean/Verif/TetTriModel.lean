/-
  C106. The tetrahedra of a triangle: the field `cc` that the final reconstruction of the triangles (`MMG5_bdryTria` called by `MMG3D_bdryBuild`
  with `nt = 0`, mmg3d/hash_3d.c 1308-1515) leaves in each triangle, and the questions `MMG3D_Get_tetFromTria` and `MMG3D_Get_tetsFromTria`
  (mmg3d/libmmg3d_tools.c 1323-1384).

  On the mesh of BdryModel, whose loops `addTet` and `addPrism` are repeated here with the field `cc`; `Verif.TetTri` proves that the triangles are the same.
-/
import Verif.BdryModel

namespace Mmg.Bdry

/-- The loop on the tetrahedra (hash_3d.c 1309-1432), with `ptt->cc = 4*k + i` (line 1361). -/
def addTetC (M : Mesh) (O : Opt) : List (Nat × Nat) → List (Tri × Nat) × Tab → List (Tri × Nat) × Tab
  | [], s => s
  | q :: l, s =>
    if tadd M O q && decide (s.2 (fkey (M.tface q)) = 0) then
      addTetC M O l (s.1 ++ [(tnew M O q, 4 * q.1 + q.2)], if M.np = 0 then s.2 else s.2.put (fkey (M.tface q)) (s.1.length + 1))
    else addTetC M O l s

/-- The loop on the prisms (hash_3d.c 1434-1514), with `ptt->cc = 5*k + i` (line 1499). -/
def addPrismC (M : Mesh) (O : Opt) (T : Tab) : List (Nat × Nat) → List (Tri × Nat) → List (Tri × Nat)
  | [], s => s
  | q :: l, s =>
    if M.padj q.1 q.2 < 0 then
      (if s = [] then addPrismC M O T l s
       else if T (fkey (M.pface q)) = 0 then addPrismC M O T l s
       else addPrismC M O T l (s.modify (T (fkey (M.pface q)) - 1) fun t => (t.1.req, t.2)))
    else if M.padj q.1 q.2 / 5 ≠ 0 ∧ M.pref q.1 ≤ M.pref (M.padj q.1 q.2 / 5).toNat then addPrismC M O T l s
    else if T (fkey (M.pface q)) ≠ 0 then addPrismC M O T l s
    else addPrismC M O T l (s ++ [(pnew M O q, 5 * q.1 + q.2)])

/-- The triangles of the final mesh with their field `cc`. -/
def lastTria (M : Mesh) (O : Opt) : List (Tri × Nat) :=
  let s := addTetC M O M.tfaces ([], fun _ => 0)
  addPrismC M O s.2 M.pfaces s.1

/-- `MMG3D_Get_tetFromTria`, libmmg3d_tools.c 1323-1339, for the triangle `ktri` (from 1); `none`: 0 is returned. -/
def tetFromTria (L : List (Tri × Nat)) (ktri : Nat) : Option (Nat × Nat) :=
  let val := (L[ktri - 1]?.map Prod.snd).getD 0
  if val = 0 then none else some (val / 4, val % 4)

/-- `MMG3D_Get_tetsFromTria`, libmmg3d_tools.c 1342-1384: both tetrahedra and faces; zeros if there is no second one. -/
def tetsFromTria (M : Mesh) (L : List (Tri × Nat)) (ktri : Nat) : Option ((Nat × Nat) × (Nat × Nat)) :=
  match tetFromTria L ktri with
  | none => none
  | some q =>
    let itet := M.tadj q.1 q.2
    if itet ≠ 0 then some (q, (itet / 4, itet % 4)) else some (q, (0, 0))

end Mmg.Bdry
