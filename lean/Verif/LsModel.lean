/-
  Model of the discretization of a level set in a tetrahedral mesh: `MMG3D_snpval_ls` (mmg3d/mmg3d2.c
  668-766), `MMG3D_cuttet_ls` (1026-1248), `MMG3D_setref_ls` (1257-1300) and their calls in
  `MMG3D_mmg3d2` (2219-2341).

  Simplifications.  Numbers are elements of an ordered field.  Only the used tetrahedra are listed.
  The table of edges is a finite map on unordered pairs (C01); whether an insertion finds memory is
  told by the environment.  The metric is not modelled, nor the removal of small components
  (`rmc`, off by default), nor a lack of memory for the new tetrahedra (0 is then returned).  The
  order of the tetrahedra after the cut is not modelled: the children of a tetrahedron are put in its
  place.
-/
import Verif.Split3Mesh
import Mathlib.Algebra.Order.Field.Basic
import Mathlib.Algebra.Order.Group.Abs

namespace Mmg.Ls3
open Mmg.Split3

variable {K : Type} [Field K] [LinearOrder K]

/-- A tetrahedron: vertices and boundary record (`t`; `xt` tells whether there is one), reference,
`tag & MG_REQ`. -/
structure LTet where
  t : CTet
  ref : Int
  req : Bool := false
  xt : Bool := false

/-- Ends of edge `e` (`MMG5_iare`). -/
def ends (m : LTet) (e : Nat) : Nat × Nat :=
  (m.t.v.getD (iare.getD e (0, 0)).1 0, m.t.v.getD (iare.getD e (0, 0)).2 0)

/-- The edges of all tetrahedra, in the order of the loops. -/
def edges (ms : List LTet) : List (LTet × Nat) :=
  ms.flatMap fun m => (List.range 6).map fun e => (m, e)

def upd {α : Type} (f : Nat → α) (i : Nat) (x : α) : Nat → α := fun j => if j = i then x else f j

/-! ### First loop: points to be separated -/

/-- Flags of the points and `nb`. -/
structure P1 where
  flag : Nat → Nat
  nb : Nat

def P1.mark (s : P1) (p : Nat) : P1 :=
  if s.flag p = 0 then ⟨upd s.flag p (s.nb + 1), s.nb + 1⟩ else s

/-- 1043-1061; `e2` is `MMG5_EPSD2`. -/
def mark1 (e2 : K) (sol : Nat → K) (s : P1) (x : LTet × Nat) : P1 :=
  let a := (ends x.1 x.2).1
  let b := (ends x.1 x.2).2
  if s.flag a ≠ 0 ∧ s.flag b ≠ 0 then s
  else if e2 < |sol a| ∧ e2 < |sol b| ∧ sol a * sol b < 0 then (s.mark a).mark b
  else s

/-- 1037-1062. -/
def pass1 (e2 : K) (sol : Nat → K) (ms : List LTet) : P1 :=
  (edges ms).foldl (mark1 e2 sol) ⟨fun _ => 0, 0⟩

/-! ### The table of edges -/

/-- Content of the table (0: no entry), number of insertions so far. -/
structure Tab where
  get : Nat → Nat → Int
  n : Nat

/-- `MMG5_hashGet`. -/
def Tab.find (T : Tab) (a b : Nat) : Int := T.get (min a b) (max a b)

def Tab.set (T : Tab) (a b : Nat) (k : Int) : Nat → Nat → Int :=
  fun i j => if i = min a b ∧ j = max a b then k else T.get i j

/-- `MMG5_hashEdge`: `false` when there is no memory for a new entry; nothing is changed when there
is an entry. -/
def Tab.add (ok : Nat → Bool) (T : Tab) (a b : Nat) (k : Int) : Bool × Tab :=
  if T.find a b ≠ 0 then (true, T)
  else if ok T.n then (true, ⟨T.set a b k, T.n + 1⟩)
  else (false, ⟨T.get, T.n + 1⟩)

/-! ### Second loop: the required edges -/

/-- `MG_BDY`, `MG_REQ`, common/mmgcommon_private.h. -/
def bdyBit : BitVec 16 := 16#16
def reqBit : BitVec 16 := 4#16

/-- `MMG5_iarf`, `MMG5_idir`. -/
def iarf (f : Nat) : List Nat := [[5, 4, 3], [5, 1, 2], [4, 2, 0], [3, 0, 1]].getD f []
def idir (f : Nat) : List Nat := [[1, 2, 3], [0, 3, 2], [0, 1, 3], [0, 2, 1]].getD f []

/-- The edges entered with the value -1, 1071-1096. -/
def reqEdges (m : LTet) : List (Nat × Nat) :=
  if m.req then (List.range 6).map (ends m)
  else if m.xt then
    (List.range 4).flatMap fun f =>
      if m.t.ftag.getD f 0 &&& bdyBit ≠ 0 then
        (List.range 3).filterMap fun j =>
          if m.t.tag.getD ((iarf f).getD j 0) 0 &&& reqBit ≠ 0 then
            some (m.t.v.getD ((idir f).getD ((j + 1) % 3) 0) 0,
              m.t.v.getD ((idir f).getD ((j + 2) % 3) 0) 0)
          else none
      else []
  else []

def addReq (ok : Nat → Bool) : List (Nat × Nat) → Tab → Option Tab
  | [], T => some T
  | (a, b) :: l, T =>
    match T.add ok a b (-1) with
    | (true, T) => addReq ok l T
    | (false, _) => none

/-! ### Third loop: the new points -/

/-- Coordinates, values of the level set, table, number of new points. -/
structure S3 (K : Type) where
  c : Nat → Pt K
  sol : Nat → K
  tab : Tab
  n : Nat

/-- `MG_MAX(MG_MIN(s,1.0-MMG5_EPS),MMG5_EPS)`, 1121. -/
def clamp (eps s : K) : K := max (min s (1 - eps)) eps

/-- What the environment tells: references that are split with the two new ones (`MMG5_isSplit`),
memory of the table and of the points, numbers of the new points (`MMG3D_newPt`). -/
structure Env where
  spl : Int → Option (Int × Int)
  ok : Nat → Bool
  room : Nat → Bool
  new : Nat → Nat

/-- One edge of one tetrahedron, 1103-1190; `none`: return 0. -/
def point3 (E : Env) (eps e2 : K) (flag : Nat → Nat) (s : S3 K) (x : LTet × Nat) :
    Option (S3 K) :=
  let a := (ends x.1 x.2).1
  let b := (ends x.1 x.2).2
  let np := s.tab.find a b
  if 0 < np then some s
  else if (E.spl x.1.ref).isNone then some s
  else if |s.sol a| < e2 ∨ |s.sol b| < e2 then some s
  else if 0 < s.sol a * s.sol b then some s
  else if flag a = 0 ∨ flag b = 0 then some s
  else if E.room s.n then
    some {
      c := upd s.c (E.new s.n)
        ((s.c a).lerp (s.c b) (clamp eps (s.sol a / (s.sol a - s.sol b))))
      sol := upd s.sol (E.new s.n) 0
      tab := if np < 0 then ⟨s.tab.set a b (E.new s.n), s.tab.n⟩
        else (s.tab.add E.ok a b (E.new s.n)).2
      n := s.n + 1 }
  else none

def points (E : Env) (eps e2 : K) (flag : Nat → Nat) : List (LTet × Nat) → S3 K → Option (S3 K)
  | [], s => some s
  | x :: l, s =>
    match point3 E eps e2 flag s x with
    | some s => points E eps e2 flag l s
    | none => none

/-! ### Fourth loop: the tetrahedra -/

/-- The cases of the `switch`, 1208-1238. -/
def patterns : List Nat :=
  [1, 2, 4, 8, 16, 32, 48, 24, 40, 6, 34, 36, 20, 5, 17, 9, 3, 10, 7, 25, 42, 52, 30, 45, 51]

/-- Points of the edges of a tetrahedron (0: none), 1204-1207. -/
def vxOf (T : Tab) (m : LTet) (e : Nat) : Nat := (T.find (ends m e).1 (ends m e).2).toNat

/-- One tetrahedron: the children and whether it has been cut, 1198-1240.  Without debugging the
`default` case does nothing. -/
def cut4 (T : Tab) (junk : Nat → BitVec 16) (m : LTet) : List LTet × Bool :=
  let fl := flagOf (vxOf T m)
  if fl ∈ patterns then
    (((split fl junk (vxOf T m) m.t).getD [m.t]).map fun x => { m with t := x }, true)
  else ([m], false)

/-- Result: the value returned, the points and the tetrahedra. -/
structure Out (K : Type) where
  ret : Int
  s : S3 K
  ms : List LTet

def noTab : Tab := ⟨fun _ _ => 0, 0⟩

/-- `MMG3D_cuttet_ls`, mmg3d/mmg3d2.c 1026-1248; `alloc`: the table has been allocated. -/
def cuttet (E : Env) (alloc : Bool) (eps e2 : K) (junk : Nat → BitVec 16) (c : Nat → Pt K)
    (sol : Nat → K) (ms : List LTet) : Out K :=
  let s0 : S3 K := ⟨c, sol, noTab, 0⟩
  let p := pass1 e2 sol ms
  if p.nb = 0 then ⟨1, s0, ms⟩
  else if alloc = false then ⟨0, s0, ms⟩
  else
    match addReq E.ok (ms.flatMap reqEdges) noTab with
    | none => ⟨-1, s0, ms⟩
    | some T =>
      match points E eps e2 p.flag (edges ms) { s0 with tab := T } with
      | none => ⟨0, s0, ms⟩
      | some s =>
        ⟨((ms.filter fun m => (cut4 s.tab junk m).2).length : Nat), s,
          ms.flatMap fun m => (cut4 s.tab junk m).1⟩

/-! ### References -/

/-- `MMG3D_setref_ls`, mmg3d/mmg3d2.c 1257-1300, without the assertions. -/
def setref (spl : Int → Option (Int × Int)) (sol : Nat → K) (m : LTet) : LTet :=
  match spl m.ref with
  | none => m
  | some (rin, rex) =>
    if m.t.v.any fun p => decide (0 < sol p) then { m with ref := rex } else { m with ref := rin }

/-! ### Snapping -/

/-- A tetrahedron with its quality. -/
structure QTet (K : Type) where
  v : List Nat
  qual : K

/-- Tetrahedra of very poor quality, 691-707. -/
def poor (eps : K) (sol : Nat → K) (q : QTet K) : Nat → K :=
  if q.qual < eps ∧ ∃ p ∈ q.v, sol p < 1000 * eps then
    fun p => if p ∈ q.v then -1000 * eps else sol p
  else sol

/-- Values, saved values, flags. -/
structure Sn (K : Type) where
  sol : Nat → K
  tmp : Nat → K
  flag : Nat → Bool

/-- 710-725; `ed` is `MMG5_EPSD`. -/
def snap1 (eps ed : K) (valid : Nat → Bool) (s : Sn K) (k : Nat) : Sn K :=
  if valid k = true ∧ |s.sol k| < eps then
    { tmp := upd s.tmp k (if |s.sol k| < ed then -100 * eps else s.sol k)
      flag := upd s.flag k true
      sol := upd s.sol k 0 }
  else s

/-- 735-747; `mani sol k i` is the answer of `MMG3D_ismaniball`; the number of corrections is
counted. -/
def back1 (eps : K) (mani : (Nat → K) → Nat → Nat → Bool) (qs : Nat → List Nat) (s : Sn K × Nat)
    (x : Nat × Nat) : Sn K × Nat :=
  let p := (qs x.1).getD x.2 0
  if s.1.flag p = true ∧ mani s.1.sol x.1 x.2 = false then
    ({ s.1 with
        sol := upd s.1.sol p (if s.1.tmp p < 0 then -100 * eps else 100 * eps)
        flag := upd s.1.flag p false }, s.2 + 1)
  else s

/-- All the corners, in the order of the loops. -/
def corners (ne : Nat) : List (Nat × Nat) :=
  (List.range ne).flatMap fun k => (List.range 4).map fun i => (k, i)

/-- The loop 728-752; `fuel` bounds the number of turns. -/
def backLoop (eps : K) (mani : (Nat → K) → Nat → Nat → Bool) (qs : Nat → List Nat) (ne : Nat) :
    Nat → Sn K → Option (Sn K)
  | 0, _ => none
  | fuel + 1, s =>
    match (corners ne).foldl (back1 eps mani qs) (s, 0) with
    | (s, 0) => some s
    | (s, _ + 1) => backLoop eps mani qs ne fuel s

/-- `MMG3D_snpval_ls`, mmg3d/mmg3d2.c 668-766. -/
def snpval (eps ed : K) (valid : Nat → Bool) (mani : (Nat → K) → Nat → Nat → Bool)
    (np : Nat) (ts : List (QTet K)) (sol : Nat → K) (fuel : Nat) : Option (Sn K) :=
  let sol := ts.foldl (poor eps) sol
  let s := (List.range' 1 np).foldl (snap1 eps ed valid) ⟨sol, fun _ => 0, fun _ => false⟩
  backLoop eps mani (fun k => (ts.getD k ⟨[], 0⟩).v) ts.length fuel s

/-! ### The calls -/

/-- The end of `MMG3D_mmg3d2`, mmg3d/mmg3d2.c 2313-2330, after the snapping: `none` is an error;
only 0 is taken as a failure of the cut. -/
def discretize (E : Env) (alloc : Bool) (eps e2 : K) (junk : Nat → BitVec 16) (c : Nat → Pt K)
    (sol : Nat → K) (ms : List LTet) : Option (S3 K × List LTet) :=
  let o := cuttet E alloc eps e2 junk c sol ms
  if o.ret = 0 then none else some (o.s, o.ms.map (setref E.spl o.s.sol))

end Mmg.Ls3
