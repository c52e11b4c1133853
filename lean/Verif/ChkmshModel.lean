/-
  Consistency checks of the three codes: `MMG5_mmg3dChkmsh` (mmg3d/chkmsh_3d.c 508-704),
  `MMG5_mmg2dChkmsh` (mmg2d/chkmsh_2d.c 36-367) and `MMG5_mmgsChkmsh` (mmgs/chkmsh_s.c 48-231).

  These are the functions run before and after the remeshing when the debug mode is on; a 0 stops
  the run with a strong failure.

  Simplifications, common to the three:
  * messages are not modelled; the answer is `ok` (return 1), `ko` (return 0) or `ub` (read of an
    element beyond the allocated array);
  * the links of `adja` are natural numbers, `A (nv*(k-1)+1+i)` as in the code.
-/
import Verif.Split3Star

namespace Mmg.Chk

/-- Outcome of a check. -/
inductive Res where
  | ok
  | ko
  | ub
deriving DecidableEq, Repr

/-- Continue if nothing was found (`return` otherwise). -/
def Res.seq : Res → Res → Res
  | .ok, b => b
  | .ko, _ => .ko
  | .ub, _ => .ub

/-- `for (i=0; i<n; i++) f(i)`, left at the first answer that is not `ok`. -/
def loop (f : Nat → Res) : Nat → Res
  | 0 => .ok
  | n + 1 => (loop f n).seq (f n)

/-- `if ( bad ) return 0;` -/
def failIf (b : Bool) : Res := if b then .ko else .ok

/-! ### 3D -/

/-- What the 3D check reads: vertices (`v[0] = 0` for unused elements, `MG_EOK`), references, index
of the extra record, tags of the faces of the extra records, links.
`ne` is the number of elements, `nemax` the size of the arrays. -/
structure M3 where
  ne : Nat
  nemax : Nat
  V : Nat → List Nat
  ref : Nat → Int
  xt : Nat → Nat
  ftag : Nat → Nat → Nat
  A : Nat → Nat

/-- `MG_EOK(pt)`: common/mmgcommon_private.h 167. -/
def eok (v : List Nat) : Bool := decide (0 < v.getD 0 0)

/-- `MG_BDY`. -/
def BDY : Nat := 16

/-- `tag & bit`. -/
def has (t b : Nat) : Bool := decide (t &&& b ≠ 0)

/-- The table `MMG5_idir`, mmg3d/libmmg3d_private.h 176 (face `i` is opposite to vertex `i`). -/
def idir (i : Nat) : List Nat := [[1, 2, 3], [0, 3, 2], [0, 1, 3], [0, 2, 1]].getD i []

/-- `pt->v[MMG5_idir[i][j]]`. -/
def fv (v : List Nat) (i j : Nat) : Nat := v.getD ((idir i).getD j 0) 0

/-- Comparison of the two faces up to the order of their vertices, mmg3d/chkmsh_3d.c 601-612. -/
def sameFace (v : List Nat) (i : Nat) (w : List Nat) (j : Nat) : Bool :=
  let a0 := fv v i 0
  let a1 := fv v i 1
  let a2 := fv v i 2
  let b0 := fv w j 0
  let b1 := fv w j 1
  let b2 := fv w j 2
  (a0 == b0 && a1 == b1 && a2 == b2) || (a0 == b0 && a1 == b2 && a2 == b1) ||
  (a0 == b1 && a1 == b0 && a2 == b2) || (a0 == b1 && a1 == b2 && a2 == b0) ||
  (a0 == b2 && a1 == b0 && a2 == b1) || (a0 == b2 && a1 == b1 && a2 == b0)

/-- Elements that are looked at: `if ( !MG_EOK(pt) || pt->ref < 0 ) continue;`. -/
def M3.live (m : M3) (k : Nat) : Bool := eok (m.V k) && decide (0 ≤ m.ref k)

/-- One face in the first loop, mmg3d/chkmsh_3d.c 537-625. -/
def adj3 (m : M3) (k i : Nat) : Res :=
  let l := m.A (4 * (k - 1) + 1 + i)
  if l = 0 then .ok else
  let adj := l / 4
  let voy := l % 4
  if adj = k then .ko else
  if m.nemax < adj then .ub else
  if !m.live adj then .ko else
  let l1 := m.A (4 * (adj - 1) + 1 + voy)
  if l1 / 4 ≠ k ∨ l1 % 4 ≠ i then .ko else
  if !sameFace (m.V k) i (m.V adj) voy then .ko else .ok

/-- Test of the tag of a face that must be a boundary face, mmg3d/chkmsh_3d.c 634-653 and
673-699. -/
def tagged3 (m : M3) (k i : Nat) : Res :=
  if m.xt k = 0 then .ko else if !has (m.ftag (m.xt k) i) BDY then .ko else .ok

/-- One face in the second loop, mmg3d/chkmsh_3d.c 634. -/
def bdy3 (m : M3) (k i : Nat) : Res :=
  if m.A (4 * (k - 1) + 1 + i) = 0 then tagged3 m k i else .ok

/-- One face in the third loop, mmg3d/chkmsh_3d.c 666-670. -/
def sub3 (m : M3) (k i : Nat) : Res :=
  let l := m.A (4 * (k - 1) + 1 + i)
  if l = 0 then .ok else
  if m.nemax < l / 4 then .ub else
  if m.ref k ≠ m.ref (l / 4) then tagged3 m k i else .ok

/-- `for (k=1; k<=ne; k++) if live for (i=0; i<4; i++) f(k,i)`. -/
def faces3 (m : M3) (f : Nat → Nat → Res) : Res :=
  loop (fun k0 => if m.live (k0 + 1) then loop (f (k0 + 1)) 4 else .ok) m.ne

/-- `MMG5_mmg3dChkmsh` with an adjacency table, mmg3d/chkmsh_3d.c 508-704.  The four checks of
lines 518-529 are called for their messages (and assertions) only: their answers are dropped, so
that they do not appear here.  Without adjacency table the function returns 1 (line 526). -/
def chk3 (m : M3) : Res :=
  ((faces3 m (adj3 m)).seq (faces3 m (bdy3 m))).seq (faces3 m (sub3 m))

/-! ### 2D -/

/-- What the 2D check reads.  `pvok` is `MG_VOK` of the points. -/
structure M2 where
  nt : Nat
  ntmax : Nat
  V : Nat → List Nat
  ref : Nat → Int
  tag : Nat → Nat → Nat
  ptag : Nat → Nat
  pvok : Nat → Bool
  A : Nat → Nat
  opnbdy : Bool

/-- `MMG5_inxt2`, `MMG5_iprv2`. -/
def nx (i : Nat) : Nat := [1, 2, 0].getD i 0
def pv (i : Nat) : Nat := [2, 0, 1].getD i 0

def REF : Nat := 1
def GEO : Nat := 2
def REQ : Nat := 4
def CRN : Nat := 32

/-- `MG_SIN(tag)`: `CRN` or `REQ`, common/mmgcommon_private.h 169. -/
def sin (t : Nat) : Bool := has t CRN || has t REQ

def M2.v (m : M2) (k i : Nat) : Nat := (m.V k).getD i 0

/-- First loop, mmg2d/chkmsh_2d.c 55-124 (here the vertices of the two edges are not compared). -/
def adj2 (m : M2) (k i : Nat) : Res :=
  let l := m.A (3 * (k - 1) + 1 + i)
  let adj := l / 3
  let voy := l % 3
  if adj = 0 then .ok else
  if adj = k then .ko else
  if m.ntmax < adj then .ub else
  if !eok (m.V adj) then .ko else
  let l1 := m.A (3 * (adj - 1) + 1 + voy)
  if l1 / 3 ≠ k ∨ l1 % 3 ≠ i then .ko else .ok

/-- Second loop, mmg2d/chkmsh_2d.c 128-180. -/
def vtag2 (m : M2) (k i : Nat) : Res :=
  let t := m.tag k i
  let t1 := m.ptag (m.v k (nx i))
  let t2 := m.ptag (m.v k (pv i))
  (if has t GEO then
    (failIf (!has t1 GEO && !sin t1)).seq (failIf (!has t2 GEO && !sin t2)) else .ok).seq
  (if has t REF then
    (failIf (!has t1 REF && !sin t1)).seq (failIf (!has t2 REF && !sin t2)) else .ok)

/-- Third loop, mmg2d/chkmsh_2d.c 183-237. -/
def rtag2 (m : M2) (base : Bool) (k i : Nat) : Res :=
  let jel := m.A (3 * (k - 1) + 1 + i) / 3
  let t := m.tag k i
  (if base then
    if jel = 0 then failIf (!has t GEO) else failIf (has t GEO)
   else .ok).seq
  (if !m.opnbdy then
    if has t REF then
      if m.ntmax < jel then .ub else failIf (decide (m.ref k = m.ref jel))
    else .ok
   else .ok)

/-- Fourth loop, mmg2d/chkmsh_2d.c 240-286. -/
def btag2 (m : M2) (k i : Nat) : Res :=
  let t := m.tag k i
  if has t GEO || has t REF then
    ((failIf (!has t BDY)).seq (failIf (!has (m.ptag (m.v k (nx i))) BDY))).seq
      (failIf (!has (m.ptag (m.v k (pv i))) BDY))
  else .ok

/-- `for (k=1; k<=nt; k++) if MG_EOK for (i=0; i<3; i++) f(k,i)`. -/
def edges2 (nt : Nat) (V : Nat → List Nat) (f : Nat → Nat → Res) : Res :=
  loop (fun k0 => if eok (V (k0 + 1)) then loop (f (k0 + 1)) 3 else .ok) nt

/-- One travel of `MMG2D_boulep`: from `(iel, i)` go through the edge `step i` of each triangle
until no neighbour, the first triangle or an unused triangle; `none` when the list is full
(`ilist == MMG2D_LMAX-1`), mmg2d/boulep_2d.c 59-68 (`step = inxt`) and 77-88 (`step = iprev`).
Answers the list and the last `iel`.  (`mesh->tria[iel]` is in range: the links were checked.) -/
def walk2 (m : M2) (step : Nat → Nat) (ifirst : Nat) :
    Nat → Nat → Nat → Option (List (Nat × Nat) × Nat)
  | room, iel, i =>
    if iel ≠ 0 ∧ iel ≠ ifirst ∧ 0 < m.v iel 0 then
      match room with
      | 0 => none
      | r + 1 =>
        let l := m.A (3 * (iel - 1) + 1 + step i)
        match walk2 m step ifirst r (l / 3) (step (l % 3)) with
        | none => none
        | some (q, e) => some ((iel, i) :: q, e)
    else some ([], iel)

/-- `MMG2D_boulep`, mmg2d/boulep_2d.c 36-92; the answer 0 is `none`. `lmax` is `MMG2D_LMAX`. -/
def boulep2 (m : M2) (lmax k i : Nat) : Option (List (Nat × Nat)) :=
  if k < 1 ∨ eok (m.V k) = false ∨ m.pvok (m.v k i) = false then none else
  let l := m.A (3 * (k - 1) + 1 + nx i)
  match walk2 m nx k (lmax - 2) (l / 3) (nx (l % 3)) with
  | none => none
  | some (q, e) =>
    if e = k then some ((k, i) :: q) else
    let l := m.A (3 * (k - 1) + 1 + pv i)
    match walk2 m pv k (lmax - 2 - q.length) (l / 3) (pv (l % 3)) with
    | none => none
    | some (q', _) => some ((k, i) :: (q ++ q'))

/-- Number of used triangles with the vertex `ip`, mmg2d/chkmsh_2d.c 343-351. -/
def count2 (m : M2) (ip : Nat) : Nat :=
  (List.range m.nt).countP fun k0 =>
    eok (m.V (k0 + 1)) &&
      (m.v (k0 + 1) 0 == ip || m.v (k0 + 1) 1 == ip || m.v (k0 + 1) 2 == ip)

/-- One vertex in the severe part, mmg2d/chkmsh_2d.c 294-363.  The number computed in line 301 from
the link is never 0 (`(adja[i]-1)/3+1`), so that the `continue` of line 302 is never taken. -/
def vert2 (m : M2) (lmax k i : Nat) : Res :=
  let ip := m.v k i
  if !m.pvok ip then .ko else
  match boulep2 m lmax k i with
  | none => .ok
  | some l =>
    if l.any (fun q => m.v q.1 q.2 != ip) then .ko
    else if count2 m ip ≠ l.length then .ko else .ok

/-- `MMG5_mmg2dChkmsh`, mmg2d/chkmsh_2d.c 36-367. -/
def chk2 (m : M2) (lmax : Nat) (severe base : Bool) : Res :=
  let basic := (((edges2 m.nt m.V (adj2 m)).seq (edges2 m.nt m.V (vtag2 m))).seq
    (edges2 m.nt m.V (rtag2 m base))).seq (edges2 m.nt m.V (btag2 m))
  if severe then basic.seq (edges2 m.nt m.V (vert2 m lmax)) else basic

/-! ### Surface -/

/-- What the first loop of the surface check reads; `edg` are the references of the edges. -/
structure MS where
  nt : Nat
  ntmax : Nat
  V : Nat → List Nat
  tag : Nat → Nat → Nat
  edg : Nat → Nat → Int
  A : Nat → Nat

def NOM : Nat := 8

/-- `MS_SIN(tag)`: `CRN`, `REQ` or `NOM`, mmgs/libmmgs_private.h 49. -/
def sinS (t : Nat) : Bool := has t CRN || has t REQ || has t NOM

/-- One edge of the first loop of `MMG5_mmgsChkmsh`, mmgs/chkmsh_s.c 63-158. -/
def adjS (m : MS) (k i : Nat) : Res :=
  let l := m.A (3 * (k - 1) + 1 + i)
  if l = 0 then .ok else
  let adj := l / 3
  let voy := l % 3
  if adj = 0 ∧ has (m.tag k i) GEO = false then .ko else
  if adj = k then .ko else
  if m.ntmax < adj then .ub else
  if !eok (m.V adj) then .ko else
  if m.tag k i ≠ m.tag adj voy ∨ m.edg k i ≠ m.edg adj voy then .ko else
  let l1 := m.A (3 * (adj - 1) + 1 + voy)
  if l1 / 3 ≠ k ∨ l1 % 3 ≠ i then .ko else
  if !sinS (m.tag k i) then
    failIf (decide ((m.V adj).getD (pv voy) 0 ≠ (m.V k).getD (nx i) 0 ∨
      (m.V adj).getD (nx voy) 0 ≠ (m.V k).getD (pv i) 0))
  else .ok

/-- `MMG5_mmgsChkmsh(mesh,0,base)`, mmgs/chkmsh_s.c 48-160. -/
def chkS (m : MS) : Res := edges2 m.nt m.V (adjS m)

end Mmg.Chk
