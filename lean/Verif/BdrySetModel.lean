/-
  Model of the transfer of the triangles to the faces of the tetrahedra, `MMG5_bdrySet` (mmg3d/hash_3d.c 1958-2205), and
  of the reconstruction of the triangles at the end, `MMG3D_bdryBuild` (mmg3d/libmmg3d.c 99-118).

  Simplifications.  As in `BdryModel` for the face table and the allocations.  The transfer of the edge tags along the
  shells (`MMG5_settag`) is not modelled; neither are the prisms nor the tetrahedra with the tag `MG_OVERLAP` (of the parallel code).
  The tag of a face apart from its boundary bit is the table `ftag`.
-/
import Verif.BdryModel
import Mathlib.Data.Nat.Bitwise

namespace Mmg.Bdry

/-- A new `xtetra`. -/
def blank : XT := ⟨fun _ => 0, fun _ => false, fun _ => false, fun _ => 0, fun _ => 0⟩

/-- The data of the tetrahedra: `xtetra`, and tags of the faces. -/
structure Sx where
  xt : Nat → Option XT
  ftag : Nat → Nat → Nat

/-- `MG_GEO`, `MG_NOM`, `MG_BDY`. -/
def mgGEO : Nat := 2
def mgNOM : Nat := 8
def mgBDY : Nat := 16

/-- Tags common to the three edges, without the ones that make no sense on a face (lines 2028-2037). -/
def Tri.common (t : Tri) : Nat := Nat.ldiff (Nat.ldiff (t.tag.1 &&& t.tag.2.1 &&& t.tag.2.2) mgGEO) mgNOM

/-- `&mesh->tria[kt]`; index 0 is not a triangle. -/
def triAt (l : List Tri) (kt : Nat) : Tri := l.getD (kt - 1) ⟨0, 0, 0, 0, (0, 0, 0), (0, 0, 0)⟩

/-- The first loop treats the face (lines 2003, 2056). -/
def setCond (M : Mesh) (O : Opt) (T : Tab) (q : Nat × Nat) : Bool :=
  if O.opnbdy then decide (T (fkey (M.tface q)) ≠ 0)
  else decide (M.tadj q.1 q.2 / 4 = 0) || decide (M.tref q.1 ≠ M.tref (M.tadj q.1 q.2 / 4))

/-- First loop: reference and tag of the face (lines 2005-2037, 2058-2083). -/
def setRef (M : Mesh) (O : Opt) (T : Tab) (s : Sx) (q : Nat × Nat) : Sx :=
  if setCond M O T q then
    let t := triAt M.tri (T (fkey (M.tface q)))
    let x := (s.xt q.1).getD blank
    { xt := fun k => if k = q.1 then some { x with
        ref := fun i => if i = q.2 then t.ref else x.ref i
        bdy := fun i => if i = q.2 then true else x.bdy i } else s.xt k
      ftag := fun k i => if k = q.1 ∧ i = q.2 then (s.ftag k i ||| mgBDY) ||| t.common else s.ftag k i }
  else s

/-- Orientation bit of a face. -/
def setOri (g : Nat → Option XT) (q : Nat × Nat) (b : Bool) : Nat → Option XT := fun k =>
  if k = q.1 then (g k).map fun x => { x with ori := fun i => if i = q.2 then b else x.ori i } else g k

/-- Second loop, classical mode (lines 2087-2124). -/
def oriClassic (M : Mesh) (T : Tab) (g : Nat → Option XT) (q : Nat × Nat) : Nat → Option XT :=
  match g q.1 with
  | none => g
  | some x =>
    if x.bdy q.2 = true then
      (if M.tadj q.1 q.2 / 4 ≠ 0 ∧ M.tref q.1 = M.tref (M.tadj q.1 q.2 / 4) then g
       else
        let t := triAt M.tri (T (fkey (M.tface q)))
        setOri g q (decide ((t.a, t.b, t.c) = M.tface q)))
    else g

/-- The triangle read from its second vertex. -/
def Tri.rot (t : Tri) : Tri := ⟨t.b, t.c, t.a, t.ref, (t.tag.2.1, t.tag.2.2, t.tag.1), (t.edg.2.1, t.edg.2.2, t.edg.1)⟩

/-- The rotation of the triangle that has the vertices of the face in this order (lines 2149-2182). -/
def Tri.fit (t : Tri) (f : Nat × Nat × Nat) : Option Tri :=
  if (t.a, t.b, t.c) = f then some t
  else if (t.rot.a, t.rot.b, t.rot.c) = f then some t.rot
  else if (t.rot.rot.a, t.rot.rot.b, t.rot.rot.c) = f then some t.rot.rot
  else none

/-- Second loop, internal triangles preserved (lines 2126-2202). -/
def oriOpen (M : Mesh) (T : Tab) (s : (Nat → Option XT) × List Tri) (q : Nat × Nat) : (Nat → Option XT) × List Tri :=
  match s.1 q.1 with
  | none => s
  | some _ =>
    if T (fkey (M.tface q)) = 0 then s
    else if M.tadj q.1 q.2 / 4 ≠ 0 then
      match (triAt s.2 (T (fkey (M.tface q)))).fit (M.tface q) with
      | some t => (setOri s.1 q true, s.2.set (T (fkey (M.tface q)) - 1) t)
      | none => (setOri s.1 q false, s.2)
    else (setOri s.1 q true, s.2)

/-- `MMG5_bdrySet`: the mesh and the tags of the faces.  `MMG5_freeXTets` has been called before. -/
def bdrySet (M : Mesh) (O : Opt) : Mesh × (Nat → Nat → Nat) :=
  if M.tri = [] then (M, fun _ _ => 0)
  else
    let T := putTris M.tri 1 fun _ => 0
    let s := M.tfaces.foldl (setRef M O T) ⟨fun _ => none, fun _ _ => 0⟩
    if O.opnbdy then
      let r := M.tfaces.foldl (oriOpen M T) (s.xt, M.tri)
      ({ M with xt := r.1, tri := r.2, hasXt := true }, s.ftag)
    else
      ({ M with xt := M.tfaces.foldl (oriClassic M T) s.xt, hasXt := true }, s.ftag)

/-- The triangles are removed and made again (`MMG3D_bdryBuild`). -/
def rebuild (M : Mesh) (O : Opt) : Mesh := chkBdryTria { M with tri := [] } O

end Mmg.Bdry
