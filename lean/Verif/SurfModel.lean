/-
  C94. Operators of the surface remesher: `split1b`, `MMGS_split1`, `MMGS_split2`, `MMGS_split3` (mmgs/split_s.c), `swapar`
  (mmgs/swapar_s.c), `boulechknm` (mmgs/boulep_s.c), `colver`, `colver3`, `colver2` (mmgs/colver_s.c) with the choice between them
  (mmgs/mmgs1.c 1092-1115, 1242-1265).

  Meshes are those of Tri2Model (same simplifications).  `colver` and `colver3` make the same assignments as `MMG2D_colver` and
  `MMG2D_colver3`, so the definitions of Tri2ColModel are used for both.  The tests of shape (`chkswp`, the rest of `chkcol`) are a
  parameter `geo`.  A slot of `MMGS_newElt` is an argument, `none` if there is no memory.
-/
import Verif.Tri2ColModel

namespace Mmg.Surf

open Mmg.Tri2

/-- `ref` and `tag` of the points. -/
structure Pts where
  ref : Nat → Int
  tag : Nat → Nat

/-- `split1b`, split_s.c 277-368: answer, mesh, points. -/
def split1b (M : Mesh) (P : Pts) (k : Nat) (i : Fin 3) (ip : Nat) (iel kel : Option Nat) : Bool × Mesh × Pts :=
  match iel with
  | none => (false, M, P)
  | some iel =>
    let P' : Pts := ⟨fun x => if x = ip ∧ (M.tri k).edg i ≠ 0 then (M.tri k).edg i else P.ref x,
      fun x => if x = ip ∧ (M.tri k).tag i ≠ 0 then (M.tri k).tag i else P.tag x⟩
    let M1 := cutSide M k iel (i + 2) (i + 1) ip
    match M.adj (k, i) with
    | none => (true, M1, P')
    | some (jel, j) =>
      match kel with
      | none => (false, M1.delTri iel, P')
      | some kel =>
        let M2 := cutSide M1 jel kel (j + 1) (j + 2) ip
        (true, (M2.setAdj (iel, i) (some (kel, j))).setAdj (kel, j) (some (iel, i)), P')

/-- `swapar`, swapar_s.c 318-392: answer and mesh; `none`: the assertion fails. -/
def swapar (blocked : Nat → Bool) (M : Mesh) (k : Nat) (i : Fin 3) : Option (Bool × Mesh) :=
  if blocked ((M.tri k).tag i) then some (false, M)
  else
    match M.adj (k, i) with
    | none => none
    | some (adj, j) =>
      match M.adj (k, i + 1), M.adj (adj, j + 1) with
      | some k11, some k21 =>
        let p := swapTris (M.tri k) (M.tri adj) i j
        if (M.tri k).v i = (M.tri k21.1).v k21.2 then some (false, M)
        else if (M.tri adj).v j = (M.tri k11.1).v k11.2 then some (false, M)
        else some (true, swapLinks ((M.setTri k p.1).setTri adj p.2) k i adj j (some k11) (some k21))
      | _, _ => some (false, M)

/-- The vertices marked by `boulechknm`, boulep_s.c 66-114: those of the triangles of the ball, 117-133: but two of the first triangle
and the one opposite in its neighbour. -/
def marked (M : Mesh) (c : HE) (l : List HE) (w : Nat) : Bool :=
  l.any (fun x => (M.tri x.1).v (x.2 + 1) == w || (M.tri x.1).v (x.2 + 2) == w) &&
    !((M.tri c.1).v (c.2 + 1) == w) && !((M.tri c.1).v (c.2 + 2) == w) &&
    !(match M.adj (c.1, c.2 + 2) with
      | none => false
      | some o => (M.tri o.1).v o.2 == w)

/-- `boulechknm`, boulep_s.c 51-179, for the corner `c`; the walk around the next vertex (135-176) has no bound and stops at the first
marked vertex: `none` if it has more than `n` triangles, `some none` if the answer is not positive. -/
def boulechk (M : Mesh) (nom : Nat → Bool) (lmax n : Nat) (c : HE) : Option (Option (List HE)) :=
  if (M.tri c.1).v 0 = 0 ∨ nom ((M.tri c.1).v c.2) = true then some none
  else
    match boulet M lmax false c with
    | none => some none
    | some (l, _) =>
      match boulet M n false (c.1, c.2 + 1) with
      | none => none
      | some (l', _) =>
        if l'.any (fun x => marked M c l ((M.tri x.1).v (x.2 + 1)) || marked M c l ((M.tri x.1).v (x.2 + 2))) then some none
        else some (some l)

/-- `colver2`, colver_s.c 433-470, for a list of two entries: here the second triangle is removed. -/
def colver2 (M : Mesh) (a b : HE) : Mesh :=
  let pt1 := M.tri b.1
  let t := (M.tri a.1).setV a.2 (pt1.v (b.2 + 2))
  let t := t.setE (a.2 + 1) (t.tag (a.2 + 1) ||| pt1.tag b.2) (pt1.edg b.2)
  let M := M.setTri a.1 t
  let o := M.adj b
  let M := M.setAdj (a.1, a.2 + 1) o
  let M := M.backLink o (a.1, a.2 + 1)
  M.delTri b.1

/-- Collapse of the vertex at corner `c` along the edge to the next vertex: colver_s.c 100-104, 230-250, mmgs1.c 1092-1115.
`none`: the walk does not end; `some none`: no collapse. -/
def collapse (M : Mesh) (nom : Nat → Bool) (geo : List HE → Bool) (lmax n : Nat) (c : HE) : Option (Option Mesh) :=
  match boulechk M nom lmax n c with
  | none => none
  | some none => some none
  | some (some l) =>
    if !geo l then some none
    else if 3 < l.length + (if (M.adj (c.1, c.2 + 2)).isNone then 1 else 0) then some (colver M l)
    else
      match l with
      | [a, b, d] => some (some (colver3 M a b d))
      | [a, b] =>
        if !(M.adj (c.1, c.2 + 2)).isNone then some none
        else
          match M.adj b with
          | none => some (some (colver2 M a b))
          | some o => if (M.tri o.1).v o.2 = (M.tri c.1).v (c.2 + 1) then some none else some (some (colver2 M a b))
      | _ => some none

/-! ### Splitting without neighbour links -/

/-- `MMGS_split1`, split_s.c 103-140. -/
def split1 (t : Tri) (i : Fin 3) (vx : Fin 3 → Nat) : List Tri :=
  [t.cut (i + 2) (i + 1) (vx i), t.cut (i + 1) (i + 2) (vx i)]

/-- `MMGS_split2`, split_s.c 451-512. -/
def split2 (t : Tri) (vx : Fin 3 → Nat) : List Tri :=
  let i : Fin 3 := if vx 0 = 0 then 1 else if vx 1 = 0 then 2 else 0
  let pt := (((t.setV (i + 1) (vx i)).setV (i + 2) (vx (i + 1))).setE i 0 0).setE (i + 2) 0 0
  let pt1 := (t.setV (i + 2) (vx i)).setE (i + 1) 0 0
  let pt2 := ((t.setV (i + 1) (vx i)).setV i (vx (i + 1))).setE (i + 2) 0 0
  [pt, pt1, pt2]

/-- `MMGS_split3`, split_s.c 608-684. -/
def split3 (t : Tri) (vx : Fin 3 → Nat) : List Tri :=
  let pt := ((t.setV 1 (vx 2)).setV 2 (vx 1)).setE 0 0 0
  let pt1 := ((t.setV 0 (vx 2)).setV 2 (vx 0)).setE 1 0 0
  let pt2 := ((t.setV 0 (vx 1)).setV 1 (vx 0)).setE 2 0 0
  let pt3 := ((((((t.setV 0 (vx 2)).setV 2 (vx 1)).setV 1 (vx 0)).setE 0 0 0).setE 1 0 0).setE 2 0 0)
  [pt, pt1, pt2, pt3]

/-- The choice in `anaelt`, mmgs1.c 897-935: by the sides that have a new point. -/
def splitAny (t : Tri) (vx : Fin 3 → Nat) : List Tri :=
  if vx 0 ≠ 0 ∧ vx 1 ≠ 0 ∧ vx 2 ≠ 0 then split3 t vx
  else if vx 0 = 0 ∧ vx 1 = 0 ∧ vx 2 = 0 then [t]
  else if vx 1 = 0 ∧ vx 2 = 0 then split1 t 0 vx
  else if vx 0 = 0 ∧ vx 2 = 0 then split1 t 1 vx
  else if vx 0 = 0 ∧ vx 1 = 0 then split1 t 2 vx
  else split2 t vx

end Mmg.Surf
