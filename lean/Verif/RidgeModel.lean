/-
  Model of the detection of the sharp edges and of the singular vertices of a surface: `MMG5_setdhd` and `MMG5_singul`
  (mmg3d/analys_3d.c 310-458 and 544-628; mmgs/analys_s.c 445-486 and 496-556) with `MMG5_bouler` (common/boulep.c 287-357).

  Simplifications.  The surface (vertices of the triangles, references, adjacency) is the one of Tri2Model, it is not changed;
  the tags of the sides are a separate table.  The normals of the triangles (`MMG5_nortri`), the square root and the constants
  `MMG5_EPSOK`, `MMG5_EPSD` are parameters.  Counters and messages are left out, also the last loops of the function of mmgs
  ("check for handle").  `none` stands for a loop that has not ended after as many steps as there are triangles (it is proved
  that this does not happen).
-/
import Mathlib.Algebra.Order.Field.Basic
import Mathlib.Algebra.Order.Group.Abs
import Verif.BallModel
import Verif.OrientModel

namespace Mmg.Ridge

open Mmg.Tri2
open Mmg.Orient (has skipped set1 orP mgREF mgGEO mgREQ mgNOM mgNOSURF mgPARBDY)

/-- mmgcommon_private.h 145-160. -/
def mgCRN : BitVec 16 := 32#16
def mgNUL : BitVec 16 := 32768#16

/-- `MG_EDG(tag)`, mmgcommon_private.h 173. -/
def edg (t : BitVec 16) : Bool := has t mgGEO || has t mgREF

structure Vec (K : Type) where
  x : K
  y : K
  z : K

section
variable {K : Type} [Field K] [LinearOrder K]

def Vec.dot (a b : Vec K) : K := a.x * b.x + a.y * b.y + a.z * b.z
def Vec.sub (a b : Vec K) : Vec K := ⟨a.x - b.x, a.y - b.y, a.z - b.z⟩

/-- What is not changed: surface, number of triangles, normals, positions, `info.dhd`, constants. -/
structure Env (K : Type) where
  M : Mesh
  nt : Nat
  nor : Nat → Vec K
  pos : Nat → Vec K
  dhd : K
  epsok : K
  epsd : K
  sqrt : K → K

/-- Tags of the sides and of the vertices. -/
structure St where
  tag : HE → BitVec 16
  ptag : Nat → BitVec 16

variable (E : Env K)

/-- Ends of a side: `v[inxt2[i]]`, `v[inxt2[inxt2[i]]]`. -/
def Env.e1 (h : HE) : Nat := (E.M.tri h.1).v (h.2 + 1)
def Env.e2 (h : HE) : Nat := (E.M.tri h.1).v (h.2 + 2)

/-- `dhd`: scalar product of the normals. -/
def Env.cos (h h' : HE) : K := (E.nor h.1).dot (E.nor h'.1)

def setT (f : HE → BitVec 16) (h : HE) (t : BitVec 16) : HE → BitVec 16 := fun x => if x = h then t else f x

/-- `tag |= b` for both sides of an edge and both ends. -/
def mark (b : BitVec 16) (h h' : HE) (s : St) : St where
  tag := let f := setT s.tag h (s.tag h ||| b); setT f h' (f h' ||| b)
  ptag := orP (orP s.ptag (E.e1 h) b) (E.e2 h) b

/-- `tag &= ~b`. -/
def unmark (b : BitVec 16) (h h' : HE) (s : St) : St where
  tag := let f := setT s.tag h (s.tag h &&& ~~~b); setT f h' (f h' &&& ~~~b)
  ptag := let f := set1 s.ptag (E.e1 h) (s.ptag (E.e1 h) &&& ~~~b); set1 f (E.e2 h) (f (E.e2 h) &&& ~~~b)

/-- Step 1 for side `h`, analys_3d.c 334-375. -/
def step1 (s : St) (h : HE) : St :=
  if skipped (s.tag h) then s
  else if has (s.tag h) mgNOM then s
  else match E.M.adj h with
    | none => s
    | some h' =>
      if h.1 < h'.1 then
        if has (s.tag h) mgGEO || has (s.tag h') mgGEO then
          if |E.cos h h' - 1| < E.epsok then unmark E mgGEO h h' s else s
        else s
      else s

/-- Reference change, lines 415-423. -/
def refStep (h h' : HE) (s : St) : St :=
  if (E.M.tri h'.1).ref ≠ (E.M.tri h.1).ref then mark E mgREF h h' s else s

/-- Angle, lines 425-447. -/
def angStep (h h' : HE) (s : St) : St :=
  if E.cos h h' ≤ E.dhd then mark E mgGEO h h' s
  else if has (s.tag h) mgGEO || has (s.tag h') mgGEO then mark E mgGEO h h' s
  else s

/-- Step 2 for side `h`, lines 390-449. -/
def step2 (s : St) (h : HE) : St :=
  if skipped (s.tag h) then s
  else if has (s.tag h) mgNOM then s
  else match E.M.adj h with
    | none => s
    | some h' => if h.1 < h'.1 then angStep E h h' (refStep E h h' s) else s

/-- `MG_EOK`. -/
def eok (k : Nat) : Bool := decide ((E.M.tri k).v 0 ≠ 0)

/-- The sides in the order of the loops. -/
def sides : List HE := ((List.range' 1 E.nt).filter (eok E)).flatMap fun k => [(k, 0), (k, 1), (k, 2)]

/-- `MMG5_setdhd` of mmg3d. -/
def setdhd (s : St) : St := (sides E).foldl (step2 E) ((sides E).foldl (step1 E) s)

/-- One side in `setdhd` of mmgs, analys_s.c 455-478. -/
def stepS (s : St) (h : HE) : St :=
  if has (s.tag h) mgGEO then s
  else match E.M.adj h with
    | none => s
    | some h' => if h.1 < h'.1 then (if E.cos h h' ≤ E.dhd then mark E mgGEO h h' s else s) else s

/-- `setdhd` of mmgs. -/
def setdhdS (s : St) : St := (sides E).foldl (stepS E) s

/-- `MMG5_bouler`: the special edges at the vertex of corner `c` with their other end, at most `lmax - 1`; the loops turn
around the vertex as those of `MMG5_boulet` (`fwd`, `bwd`); the first one looks at the side `inxt2[i]`, the second one,
which begins again with the first triangle, at the side `iprv2[i]`. -/
def bouler (tag : HE → BitVec 16) (lmax : Nat) (c : HE) : Option (List (HE × Nat)) :=
  match fwd E.M c.1 (E.nt + 1) c with
  | none => none
  | some (l, closed) =>
    let r := l.map fun x => (((x.1, x.2 + 1) : HE), (E.M.tri x.1).v (x.2 + 2))
    if closed then some ((r.filter fun x => edg (tag x.1)).take (lmax - 1))
    else (bwd E.M (E.nt + 1 - l.length) c).map fun l' =>
      ((r ++ (c :: l').map fun x => (((x.1, x.2 + 2) : HE), (E.M.tri x.1).v (x.2 + 1))).filter fun x =>
        edg (tag x.1)).take (lmax - 1)

/-- Number of ridges. -/
def nGeo (tag : HE → BitVec 16) (l : List HE) : Nat := l.countP fun h => has (tag h) mgGEO

/-- Number of the other reference edges. -/
def nRef (tag : HE → BitVec 16) (l : List HE) : Nat := l.countP fun h => !has (tag h) mgGEO && has (tag h) mgREF

/-- The angle at `p` between the edges to `a` and `b` is too small to be smooth, analys_3d.c 600-616. -/
def sharp (p a b : Nat) : Bool :=
  let u := (E.pos a).sub (E.pos p)
  let v := (E.pos b).sub (E.pos p)
  decide (E.epsd < |u.dot u * v.dot v|) && decide (- E.dhd < u.dot v / E.sqrt (u.dot u * v.dot v))

/-- Vertex with the list `l` of special edges and tag `t`, lines 566-620 (`s3`: mmg3d, which also removes `MG_NOSURF`). -/
def verdict (s3 : Bool) (tag : HE → BitVec 16) (p : Nat) (l : List (HE × Nat)) (t : BitVec 16) : BitVec 16 :=
  let xp := nGeo tag (l.map (·.1))
  let nr := nRef tag (l.map (·.1))
  let clr (t : BitVec 16) := if s3 then t &&& ~~~mgNOSURF else t
  if l.length = 0 then t
  else if 2 < xp + nr then clr (t ||| (mgCRN ||| mgREQ))
  else if xp = 1 ∧ nr = 1 then clr (t ||| mgREQ)
  else if xp = 1 ∧ nr = 0 then clr (t ||| (mgCRN ||| mgREQ))
  else if nr = 1 ∧ xp = 0 then clr (t ||| (mgCRN ||| mgREQ))
  else if sharp E p ((l.map (·.2)).getD 0 0) ((l.map (·.2)).getD 1 0) then t ||| mgCRN
  else t

/-- The vertex is looked at, lines 556-560. -/
def looked (s3 : Bool) (t : BitVec 16) : Bool :=
  decide (t < mgNUL) && !has t mgCRN && !has t mgNOM && !(s3 && has t mgPARBDY) && edg t

/-- One corner, lines 555-622. -/
def corner (s3 : Bool) (lmax : Nat) (tag : HE → BitVec 16) (ptag : Nat → BitVec 16) (c : HE) : Option (Nat → BitVec 16) :=
  if looked s3 (ptag (E.M.at c)) then
    (bouler E tag lmax c).map fun l => set1 ptag (E.M.at c) (verdict E s3 tag (E.M.at c) l (ptag (E.M.at c)))
  else some ptag

/-- `MMG5_singul`: the new tags of the vertices. -/
def singul (s3 : Bool) (lmax : Nat) (s : St) : Option (Nat → BitVec 16) :=
  (sides E).foldlM (corner E s3 lmax s.tag) s.ptag

end

end Mmg.Ridge
