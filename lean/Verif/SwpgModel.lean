/-
  Swap of an edge inside of a tetrahedral mesh: the choice of the configuration (`MMG5_chkswpgen`, mmg3d/swapgen_3d.c
  57-253) and the swap (`MMG5_swpgen`, 271-361), which splits the edge (`MMG5_split1b`, model of C85), takes the ball of the
  new vertex (`MMG5_boulevolp`, model of C62) and collapses it on a vertex around the edge (`MMG5_colver`, model of C63).

  Simplifications.  Qualities are numbers of an ordered field and the quality of a tetrahedron with given vertices is a
  function `cal` (`MMG5_orcal`, `MMG5_caltet33_ani`).  The creation of the vertex and of its metric always succeed; the number
  of the vertex and those of the new tetrahedra are given by the allocator, also the answers when tables of records grow.
  `lmax` is `MMG3D_LMAX`.  The chains of free vertices and tetrahedra and the edge tags in the collapse are left out.
-/
import Verif.Spl1bModel
import Verif.Boule3

namespace Mmg.Swpg

open Mmg.Split3 Mmg.Swap23 Mmg.Shell

/-- What `MMG5_chkswpgen` reads: the mesh, `MG_REQ` and references of the tetrahedra, whether the tetrahedron has a record
with `MG_BDY` on a face, qualities, `MG_BDY` of the vertices, options. -/
structure Env (K : Type) where
  A : Nat → Nat
  V : Nat → List Nat
  req : Nat → Bool
  tref : Nat → Int
  bdyf : Nat → Nat → Bool
  qual : Nat → K
  cal : List Nat → K
  pbdy : Nat → Bool
  opnbdy : Bool
  fem : Bool

section
variable {K : Type} [Field K] [LinearOrder K] (E : Env K)

/-- Result of the tour around the edge: return 0, return -1, failing assertion, or the list, the polygon (both reversed)
and the smallest quality. -/
inductive Tour (K : Type)
  | no
  | fail
  | asrt
  | closed (l pol : List Nat) (cal : K)

/-- `while ( adj )`, lines 91-130; `x` is the link (`4*adj + ifac`), `fuel` the number of tetrahedra that can be added. -/
def tour (start na nb : Nat) : Nat → Nat → Nat → List Nat → List Nat → K → Tour K
  | fuel, x, piv, l, pol, c =>
    if x = 0 then .no
    else if x / 4 = start then .closed l pol c
    else if E.req (x / 4) then .no
    else if E.tref (x / 4) ≠ E.tref start then .no
    else if E.opnbdy && E.bdyf (x / 4) (x % 4) then .no
    else match findEdge (E.V (x / 4)) na nb with
      | none => .fail
      | some i =>
        match fuel with
        | 0 => .no
        | fuel + 1 =>
          if (E.V (x / 4)).getD (ifar i).1 0 = piv then
            tour start na nb fuel (link E.A (x / 4) (ifar i).1) ((E.V (x / 4)).getD (ifar i).2 0)
              ((6 * (x / 4) + i) :: l) ((4 * (x / 4) + (ifar i).2) :: pol) (min c (E.qual (x / 4)))
          else if (E.V (x / 4)).getD (ifar i).2 0 = piv then
            tour start na nb fuel (link E.A (x / 4) (ifar i).2) ((E.V (x / 4)).getD (ifar i).1 0)
              ((6 * (x / 4) + i) :: l) ((4 * (x / 4) + (ifar i).1) :: pol) (min c (E.qual (x / 4)))
          else .asrt

/-- Vertex of an entry of the polygon. -/
def vtx (p : Nat) : Nat := (E.V (p / 4)).getD (p % 4) 0

/-- The two positions left out for the candidate `k`, lines 156-163 and 181-188. -/
def skip (n k j : Nat) : Bool :=
  if k < n - 1 then decide (j = k) || decide (j = k + 1) else decide (j = n - 1) || decide (j = 0)

/-- Another vertex of the polygon is on the boundary (`info.fem`), lines 150-177. -/
def femBad (pol : List Nat) (k : Nat) : Bool :=
  E.fem && E.pbdy (vtx E (pol.getD k 0)) &&
    (List.range pol.length).any fun j => !skip pol.length k j && E.pbdy (vtx E (pol.getD j 0))

/-- The neighbour by face `f` of `iel` has `np` in front of it, lines 195-207. -/
def facing (iel f np : Nat) : Bool :=
  decide (link E.A iel f / 4 ≠ 0) &&
    decide ((E.V (link E.A iel f / 4)).getD (link E.A iel f % 4) 0 = np)

/-- The tests for one tetrahedron (entry `x` of the list), lines 189-249; `none`: the candidate is rejected, otherwise the
smallest quality. -/
def test (crit old : K) (np x : Nat) (c : K) : Option K :=
  let v := E.V (x / 6)
  let a := (iare.getD (x % 6) (0, 0)).1
  let b := (iare.getD (x % 6) (0, 0)).2
  if facing E (x / 6) a np || facing E (x / 6) b np then none
  else if E.pbdy np && (E.pbdy (v.getD (ifar (x % 6)).1 0) && E.pbdy (v.getD (ifar (x % 6)).2 0)) &&
      (E.pbdy (v.getD a 0) || E.pbdy (v.getD b 0)) then none
  else if min c (E.cal (v.set a np)) ≤ crit * old then none
  else if min (min c (E.cal (v.set a np))) (E.cal (v.set b np)) ≤ crit * old then none
  else some (min (min c (E.cal (v.set a np))) (E.cal (v.set b np)))

/-- The tetrahedra of the list from position `j` on, lines 179-249. -/
def tests (crit old : K) (np n k : Nat) : List Nat → Nat → K → Bool
  | [], _, _ => true
  | x :: r, j, c =>
    if skip n k j then tests crit old np n k r (j + 1) c
    else match test E crit old np x c with
      | none => false
      | some c' => tests crit old np n k r (j + 1) c'

/-- The candidate `k` is accepted. -/
def accepted (crit old : K) (l pol : List Nat) (k : Nat) : Bool :=
  !femBad E pol k && tests E crit old (vtx E (pol.getD k 0)) pol.length k l 0 1

inductive Conf
  /-- return 0 -/
  | no
  /-- return -1 -/
  | fail
  | asrt
  /-- the configuration and the list -/
  | conf (nconf : Nat) (l : List Nat)
  deriving DecidableEq

/-- `MMG5_chkswpgen`. -/
def chkswpgen (crit : K) (lmax start ia : Nat) : Conf :=
  let v := E.V start
  if E.opnbdy && E.bdyf start (ifar ia).2 then .no
  else
    match tour E start (ends v ia).1 (ends v ia).2 (lmax - 3 - 1) (link E.A start (ifar ia).1) (v.getD (ifar ia).2 0)
        [6 * start + ia] [4 * start + (ifar ia).2] (E.qual start) with
    | .no => .no
    | .fail => .fail
    | .asrt => .asrt
    | .closed l pol c =>
      match (List.range pol.length).find? (accepted E crit c l.reverse pol.reverse) with
      | none => .no
      | some k => .conf (pol.reverse.getD k 0) l.reverse

end

/-- The new tetrahedra have the references of those they come from (copies, `MMG5_split1b`). -/
def refs (I : Spl1b.In) (tref : Nat → Int) : Nat → Int :=
  (List.range I.n).foldl (fun r k => upd r (I.new k) (r (I.iel k))) tref

inductive Out
  /-- an allocation fails: return -1 -/
  | nomem
  | asrt
  /-- the ball does not fit in the list: nothing is collapsed and the new vertex is deleted though tetrahedra have it
  (lines 344-354: `MMG5_boulevolp` returns 0, `MMG5_colver` does nothing for an empty list and returns the vertex) -/
  | lost (s : State)
  /-- return 1 -/
  | done (s : Colver.St)

/-- The part of the state the collapse works on. -/
def ofState (s : State) : Colver.St :=
  ⟨s.A, s.V, s.xt, fun n => ⟨(s.X n).ref, (s.X n).ftag, (s.X n).ori⟩, s.nxt⟩

/-- `MMG5_swpgen`; `new` and `ip` are the numbers of the new tetrahedra and of the new vertex. -/
def swpgen (tref : Nat → Int) (room : Nat → Bool) (lmax base : Nat) (flag : Nat → Nat) (new : Nat → Nat) (ip nconf : Nat)
    (l : List Nat) (s : State) : Out :=
  let I : Spl1b.In := ⟨fun j => l.getD j 0, l.length, false, new, ip⟩
  match Spl1b.split1b I room s with
  | none => .nomem
  | some s1 =>
    let start := nconf / 4
    match Boule3.boulevolp s1.A s1.V lmax base flag start (Boule3.find (s1.V start) ip) with
    | .asrt => .asrt
    | .full => .lost s1
    | .ok b =>
      match Colver.colver (refs I tref) room b.l (nconf % 4) (ofState s1) with
      | .refused => .asrt
      | .nomem => .nomem
      | .asrt => .asrt
      | .done _ s' => .done s'

end Mmg.Swpg
