/-
  Split of an edge of a tetrahedral mesh with all the tetrahedra around it (`MMG5_split1b` and `MMG5_split1b_eltspl`,
  mmg3d/split_3d.c 519-611 and 629-1025): used to refine boundary edges, and as first half of the edge swaps
  (`MMG5_swpgen`, `MMG5_swpbdy`).

  Simplifications.  The numbers of the new tetrahedra are given by the allocator (`new`); the tests on lengths and ridge
  vertices done before anything is modified (lines 642-717), the qualities and the marks are left out; growth of the table
  of boundary records is an answer of the allocator.  The three branches `k==0`, `k==ilist-1`, else (lines 838-993) have the
  same body with other positions (`prv`, `oth`) and are written once.  A failing assertion is `none`.
-/
import Verif.ShellProps
import Verif.ColverModel

namespace Mmg.Spl1b

open Mmg.Split3 Mmg.Swap23 Mmg.Shell

/-- Arguments: the list of the shell (`6*tetra + edge`), its length `ilist`, whether it is open, the numbers the allocator
gives, the new vertex. -/
structure In where
  l : Nat → Nat
  n : Nat
  op : Bool
  new : Nat → Nat
  ip : Nat

variable (I : In)

/-- `iel = list[k]/6`. -/
def In.iel (k : Nat) : Nat := I.l k / 6

/-- `tau` and `taued` of `MMG3D_split1_cfg` for edge `list[k]%6`, split_3d.c 52-82. -/
def In.t (k i : Nat) : Nat := (cfg1 (2 ^ (I.l k % 6))).L i
def In.u (k e : Nat) : Nat := (cfg1 (2 ^ (I.l k % 6))).E e

/-- `nump`, line 723. -/
def In.nump (V : Nat → List Nat) : Nat := (V (I.iel 0)).getD (iare.getD (I.l 0 % 6) (0, 0)).1 0

/-- Sign of `newtet[k]`, lines 753-756. -/
def In.sg (V : Nat → List Nat) (k : Nat) : Bool := decide ((V (I.iel k)).getD (I.t k 0) 0 = I.nump V)

/-- The new tetrahedra are copies, lines 728-757. -/
def copy1 (s : State) (k : Nat) : State :=
  { s with V := upd s.V (I.new k) (s.V (I.iel k)), xt := upd s.xt (I.new k) (s.xt (I.iel k)) }

def create (s : State) : State := (List.range I.n).foldl (copy1 I) s

/-- Records of the two parts, lines 551-570. -/
def part0 (t u : Nat → Nat) (x : XT) : XT where
  tag := upd (upd x.tag (u 3) (clr (x.ftag (t 3)) 1)) (u 4) (clr (x.ftag (t 2)) 1)
  edg := upd (upd x.edg (u 3) 0) (u 4) 0
  ref := upd x.ref (t 0) 0
  ftag := upd x.ftag (t 0) 0
  ori := upd x.ori (t 0) true

def part1 (t u : Nat → Nat) (x : XT) : XT where
  tag := upd (upd x.tag (u 1) (clr (x.ftag (t 3)) 1)) (u 2) (clr (x.ftag (t 2)) 1)
  edg := upd (upd x.edg (u 1) 0) (u 2) 0
  ref := upd x.ref (t 1) 0
  ftag := upd x.ftag (t 1) 0
  ori := upd x.ori (t 1) true

/-- Slots of the records, lines 574-609. -/
def slots (room : Nat → Bool) (i j : Nat) (x x1 : XT) (s : State) : Option State :=
  if s.xt i = 0 then some s
  else if x.isxt then
    if x1.isxt then
      if room (s.nxt + 1) then
        some { s with nxt := s.nxt + 1, xt := upd s.xt j (s.nxt + 1), X := upd (upd s.X (s.xt i) x) (s.nxt + 1) x1 }
      else none
    else some { s with xt := upd s.xt j 0, X := upd s.X (s.xt i) x }
  else if x1.isxt then some { s with xt := upd (upd s.xt j (s.xt i)) i 0, X := upd s.X (s.xt i) x1 }
  else some { s with xt := upd (upd s.xt i 0) j 0 }

/-- `MMG5_split1b_eltspl`. -/
def eltspl (room : Nat → Bool) (k : Nat) (s : State) : Option State :=
  let i := I.iel k
  let j := I.new k
  slots room i j (part0 (I.t k) (I.u k) (s.X (s.xt i))) (part1 (I.t k) (I.u k) (s.X (s.xt i)))
    { s with V := upd (upd s.V i ((s.V i).set (I.t k 1) I.ip)) j ((s.V j).set (I.t k 0) I.ip) }

/-- Face `f` of `list[k]` and of the new tetrahedron is shared with those of position `m`, e.g. lines 840-847. -/
def side (sg : Nat → Bool) (A : Nat → Nat) (k f m : Nat) : Nat → Nat :=
  let nei := link A (I.iel k) f
  if sg k = sg m then
    setAt (setAt A (adjIdx (I.iel k) f) nei) (adjIdx (I.new k) f) (4 * I.new m + nei % 4)
  else
    setAt (setAt A (adjIdx (I.iel k) f) (4 * I.new m + nei % 4)) (adjIdx (I.new k) f) nei

/-- Face `f` is on the boundary, e.g. lines 849-852. -/
def free (A : Nat → Nat) (k f : Nat) : Nat → Nat := setAt (setAt A (adjIdx (I.iel k) f) 0) (adjIdx (I.new k) f) 0

/-- The position looked for first, and the other one. -/
def prv (n k : Nat) : Nat := if k = 0 then 1 else if k = n - 1 then n - 2 else k - 1
def nxtp (n k : Nat) : Nat := if k = 0 then n - 1 else if k = n - 1 then 0 else k + 1

/-- Links through the two faces that contain the edge, lines 783-786 (one tetrahedron) and 832-993. -/
def around (sg : Nat → Bool) (k : Nat) (A : Nat → Nat) : Option (Nat → Nat) :=
  let t := I.t k
  if I.n = 1 then (if I.op then some (free I (free I A k (t 2)) k (t 3)) else none)
  else
    let nei2 := link A (I.iel k) (t 2)
    let nei3 := link A (I.iel k) (t 3)
    let e := I.op && (decide (k = 0) || decide (k = I.n - 1))
    if I.iel (prv I.n k) = nei2 / 4 then
      if e then some (free I (side I sg A k (t 2) (prv I.n k)) k (t 3))
      else if I.iel (nxtp I.n k) = nei3 / 4 then
        some (side I sg (side I sg A k (t 2) (prv I.n k)) k (t 3) (nxtp I.n k))
      else none
    else if I.iel (prv I.n k) = nei3 / 4 then
      if e then some (free I (side I sg A k (t 3) (prv I.n k)) k (t 2))
      else if I.iel (nxtp I.n k) = nei2 / 4 then
        some (side I sg (side I sg A k (t 3) (prv I.n k)) k (t 2) (nxtp I.n k))
      else none
    else none

/-- Links between the two parts and with the neighbour of the second part, lines 788-797 and 996-1006. -/
def inner (k : Nat) (A : Nat → Nat) : Nat → Nat :=
  let t := I.t k
  let a := link A (I.iel k) (t 0)
  let A := setAt A (adjIdx (I.iel k) (t 0)) (4 * I.new k + t 1)
  let A := setAt A (adjIdx (I.new k) (t 0)) a
  let A := setAt A (adjIdx (I.new k) (t 1)) (4 * I.iel k + t 0)
  back A a (4 * I.new k + t 0)

/-- One round of the loop, lines 817-1023. -/
def step (sg : Nat → Bool) (room : Nat → Bool) (k : Nat) (s : State) : Option State :=
  (eltspl I room k s).bind fun s => (around I sg k s.A).map fun A => { s with A := inner I k A }

/-- The first `j` rounds. -/
def run (sg : Nat → Bool) (room : Nat → Bool) : Nat → State → Option State
  | 0, s => some s
  | j + 1, s => (run sg room j s).bind (step I sg room j)

/-- `MMG5_split1b`; `none`: an assertion fails, or there is no memory for the records (return -1). -/
def split1b (room : Nat → Bool) (s : State) : Option State := run I (I.sg s.V) room I.n (create I s)

end Mmg.Spl1b
