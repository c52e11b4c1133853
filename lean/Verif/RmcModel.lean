/-
  Model of the removal of small components of the two parts of a level set: `MMG5_rmc`
  (common/mmg2.c 912-1178, triangles) and `MMG3D_rmc` (mmg3d/mmg3d2.c 778-1018, tetrahedra), with
  `MMG5_voltri`, `MMG5_vfrac` (common/mmg2.c 746-890), `MMG3D_vfrac` (mmg3d/mmg3d2.c 58-310) and
  `MMG5_isbr` (common/mmg2.c 893-901).

  Simplifications.  Numbers are elements of an ordered field.  The two loops of the functions only
  differ by the sign, by the new value and by the test on the base references, which are parameters.
  The sum of the fractions, made while the component is listed, is made afterwards (the values do not
  change in between).  The messages, the counters and the memory of the pile are not modelled.
-/
import Mathlib.Algebra.Order.Field.Basic
import Mathlib.Algebra.BigOperators.Group.List.Basic
import Verif.LsTriModel

namespace Mmg.Rmc
open Mmg.Split3 Mmg.Ls3

/-- A mesh: `n` elements numbered from 1, their vertices (3 or 4), which are used, and the neighbour
through the face opposite to a vertex (0: none). -/
structure Mesh where
  n : Nat
  d : Nat
  v : Nat → Nat → Nat
  ok : Nat → Bool
  adj : Nat → Nat → Nat

/-- Faces having the vertex `i`, in the order of the loops (`MMG5_inxt2` twice; `MMG5_idir`). -/
def Mesh.faces (M : Mesh) (i : Nat) : List Nat :=
  if M.d = 3 then [(i + 1) % 3, (i + 2) % 3] else [[1, 2, 3], [0, 3, 2], [0, 1, 3], [0, 2, 1]].getD i []

/-- One of the two loops: which values are in the part, the new value, the fraction of an element, the
smallest volume that is kept, whether the part has to be attached, the faces it may be attached to. -/
structure Par (K : Type) where
  inside : K → Bool
  newv : K
  frac : (Nat → K) → Nat → K
  small : K
  attach : Bool
  base : Nat → Nat → Bool

variable {K : Type} [Field K] [LinearOrder K]

/-- Marks and pile. -/
structure St where
  flag : Nat → Bool
  pile : List Nat

/-- mmg2.c 990-1001, mmg3d2.c 857-870 (only there the neighbour has to be used); `none`: too many elements
in the pile. -/
def push (M : Mesh) (s : St) (l : Nat) : Option St :=
  if l = 0 then some s
  else if M.d ≠ 3 ∧ M.ok l = false then some s
  else if s.flag l then some s
  else if s.pile.length + 1 > M.n then none
  else some ⟨upd s.flag l true, s.pile ++ [l]⟩

def pushAll (M : Mesh) : List Nat → St → Option St
  | [], s => some s
  | l :: ls, s => (push M s l).bind (pushAll M ls)

/-- Neighbours of the element `k` through its vertices in the part, in order. -/
def nbrs (M : Mesh) (P : Par K) (sol : Nat → K) (k : Nat) : List Nat :=
  (List.range M.d).flatMap fun i =>
    if P.inside (sol (M.v k i)) then (M.faces i).map fun j => M.adj k j else []

/-- The loop `do ... while ( ++cur < ipile )`. -/
def grow (M : Mesh) (P : Par K) (sol : Nat → K) : Nat → Nat → St → Option St
  | 0, _, _ => none
  | fuel + 1, cur, s =>
    (pushAll M (nbrs M P sol (s.pile.getD cur 0)) s).bind fun s =>
      if cur + 1 < s.pile.length then grow M P sol fuel (cur + 1) s else some s

/-- All the values of the pile in the part are changed. -/
def wipe (M : Mesh) (P : Par K) (pile : List Nat) (sol : Nat → K) : Nat → K :=
  (pile.flatMap fun k => (List.range M.d).map fun i => M.v k i).foldl
    (fun sol p => if P.inside (sol p) then upd sol p P.newv else sol) sol

/-- The pile has a base face with a vertex in the part, mmg2.c 1123-1142, mmg3d2.c 970-988. -/
def attached (M : Mesh) (P : Par K) (sol : Nat → K) (pile : List Nat) : Bool :=
  pile.any fun k => (List.range M.d).any fun i =>
    P.base k i && (M.faces i).any fun j => P.inside (sol (M.v k j))

/-- One element of the main loop. -/
def one (M : Mesh) (P : Par K) (s : (Nat → K) × (Nat → Bool)) (k : Nat) :
    Option ((Nat → K) × (Nat → Bool)) :=
  if M.ok k = false then some s
  else if s.2 k then some s
  else if (List.range M.d).any (fun i => P.inside (s.1 (M.v k i))) = false then some s
  else
    (grow M P s.1 (M.n + 1) 0 ⟨upd s.2 k true, [k]⟩).bind fun t =>
      let vol := (t.pile.map (P.frac s.1)).sum
      let sol := if vol < P.small then wipe M P t.pile s.1 else s.1
      let sol := if P.attach && !attached M P sol t.pile then wipe M P t.pile sol else sol
      some (sol, t.flag)

def phase (M : Mesh) (P : Par K) : List Nat → (Nat → K) × (Nat → Bool) → Option ((Nat → K) × (Nat → Bool))
  | [], s => some s
  | k :: l, s => (one M P s k).bind (phase M P l)

/-- `MMG5_rmc`, `MMG3D_rmc`: `frac pm sol k` is the part of the element `k` of sign `pm`, `total` the
volume of the mesh; `none`: return 0. -/
def rmc (M : Mesh) (eps r total : K) (frac : Bool → (Nat → K) → Nat → K) (nbr : Bool) (base : Nat → Nat → Bool)
    (sol : Nat → K) : Option (Nat → K) :=
  (phase M ⟨fun x => decide (0 < x), -100 * eps, frac true, r * total, false, base⟩ (List.range' 1 M.n)
    (sol, fun _ => false)).bind fun s =>
  (phase M ⟨fun x => decide (x < 0), 100 * eps, frac false, r * total, nbr, base⟩ (List.range' 1 M.n)
    (s.1, fun _ => false)).map fun s => s.1

/-! ### Volumes -/

/-- `MMG5_voltri`: the coordinates x and y only. -/
def det2 (p q r : Pt K) : K := (q.x - p.x) * (r.y - p.y) - (q.y - p.y) * (r.x - p.x)

def voltri (p q r : Pt K) : K := 1 / 2 * |det2 p q r|

/-- `MMG5_vfrac`: the cases are found with the values; `p i`, `v i` are the point and the value of
vertex `i`, `pm` the sign. -/
def vfrac2 (eps : K) (p : Nat → Pt K) (v : Nat → K) (pm : Bool) : K :=
  let zer := (List.range 3).filter fun i => decide (|v i| < eps)
  let pls := (List.range 3).filter fun i => decide (¬ |v i| < eps) && decide (eps ≤ v i)
  let mns := (List.range 3).filter fun i => decide (¬ |v i| < eps) && !decide (eps ≤ v i)
  let all := 1 / 2 * |det2 (p 0) (p 1) (p 2)|
  let corner (i : Nat) : K :=
    let o (j : Nat) := (p i).lerp (p j) (v i / (v i - v j))
    1 / 2 * |det2 (p i) (o ((i + 1) % 3)) (o ((i + 2) % 3))|
  if zer.length = 3 then 0
  else if mns.length = 0 then (if pm then all else 0)
  else if pls.length = 0 then (if pm then 0 else all)
  else if mns.length = 1 then
    (if pm then all - corner (mns.getD 0 0) else corner (mns.getD 0 0))
  else if pls.length = 1 then
    (if pm then corner (pls.getD 0 0) else all - corner (pls.getD 0 0))
  else 0

/-- `MMG3D_vfrac_1vertex`. -/
def corner3 (p : Nat → Pt K) (v : Nat → K) (i : Nat) (opp : Bool) : K :=
  let f := [[1, 2, 3], [0, 3, 2], [0, 1, 3], [0, 2, 1]].getD i []
  let o (j : Nat) := (p i).lerp (p j) (v i / (v i - v j))
  let c := |vol (p i) (o (f.getD 0 0)) (o (f.getD 1 0)) (o (f.getD 2 0))|
  if opp = false then c else |vol (p 0) (p 1) (p 2) (p 3)| - c

/-- Detection of the edges that are cut, mmg3d2.c 196-211; `d2` is `MMG5_EPSD2`. -/
def cuts (d2 : K) (v : Nat → K) (e : Nat) : Bool :=
  !(decide (|v (iare.getD e (0, 0)).1| < d2) || decide (|v (iare.getD e (0, 0)).2| < d2)) &&
    !decide (0 < v (iare.getD e (0, 0)).1 * v (iare.getD e (0, 0)).2)

/-- The points of `MMG3D_vfrac`. -/
def zeroPt (d2 : K) (p : Nat → Pt K) (v : Nat → K) (e : Nat) : Pt K :=
  let i := (iare.getD e (0, 0)).1
  let j := (iare.getD e (0, 0)).2
  if cuts d2 v e then (p i).lerp (p j) (v i / (v i - v j)) else ⟨0, 0, 0⟩

/-- The two parts of a tetrahedron with two vertices on each side, mmg3d2.c 250-266. -/
def wedge (p o : Nat → Pt K) (tau taued : List Nat) (cfg : Bool) : K :=
  let t (i : Nat) := p (tau.getD i 0)
  let q (e : Nat) := o (taued.getD e 0)
  if cfg then |vol (t 0) (t 1) (q 3) (q 4)| + |vol (t 0) (q 4) (q 3) (q 2)| + |vol (t 0) (q 3) (q 1) (q 2)|
  else |vol (q 2) (q 4) (t 2) (t 3)| + |vol (q 2) (q 3) (t 2) (q 4)| + |vol (q 1) (q 3) (t 2) (q 2)|

/-- Two vertices on each side, mmg3d2.c 190-266. -/
def twoTwo (d2 : K) (p : Nat → Pt K) (v : Nat → K) (pm : Bool) : K :=
  let flag := ((List.range 6).map fun e => if cuts d2 v e then 2 ^ e else 0).sum
  let tau := if flag = 45 then [1, 3, 2, 0] else if flag = 51 then [1, 2, 0, 3] else [0, 1, 2, 3]
  let taued := if flag = 45 then [4, 3, 0, 5, 2, 1] else if flag = 51 then [3, 0, 4, 1, 5, 2]
    else [0, 1, 2, 3, 4, 5]
  let neg : Bool := decide (v (tau.getD 0 0) < 0)
  wedge p (zeroPt d2 p v) tau taued (if pm then !neg else neg)

/-- `MMG3D_vfrac` (six times the volume). -/
def vfrac3 (eps d2 : K) (p : Nat → Pt K) (v : Nat → K) (pm : Bool) : K :=
  let zer := (List.range 4).filter fun i => decide (|v i| < eps)
  let pls := (List.range 4).filter fun i => decide (¬ |v i| < eps) && decide (eps ≤ v i)
  let mns := (List.range 4).filter fun i => decide (¬ |v i| < eps) && !decide (eps ≤ v i)
  let all := |vol (p 0) (p 1) (p 2) (p 3)|
  if zer.length = 4 then 0
  else if mns.length = 0 then (if pm then all else 0)
  else if pls.length = 0 then (if pm then 0 else all)
  else if mns.length = 1 then corner3 p v (mns.getD 0 0) pm
  else if pls.length = 1 then corner3 p v (pls.getD 0 0) (!pm)
  else twoTwo d2 p v pm

/-- `MMG5_orvol`, `MMG5_voltri`: volume of the mesh. -/
def total (f : Nat → K) (M : Mesh) : K :=
  ((List.range' 1 M.n).map fun k => if M.ok k then f k else 0).sum

end Mmg.Rmc
