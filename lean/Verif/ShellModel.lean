/-
  Shell of an edge in a tetrahedral mesh: the tetrahedra around the edge, found by turning around
  it (`MMG5_coquil`, `MMG5_settag`, `MMG5_deltag`, `MMG5_srcbdy`, mmg3d/boulep_3d.c;
  `MMG3D_get_shellEdgeTag`, mmg3d/colver_3d.c).
-/
import Verif.Swap23Lemmas

namespace Mmg.Shell

open Mmg.Split3

/-- `MMG5_ifar`: the two faces that share an edge (they are opposite to the two vertices that are
not on the edge), mmg3d/libmmg3d_private.h 186. -/
def ifar (i : Nat) : Nat × Nat :=
  [(2, 3), (1, 3), (1, 2), (0, 3), (0, 2), (0, 1)].getD i (0, 0)

def ends (v : List Nat) (i : Nat) : Nat × Nat :=
  (v.getD (iare.getD i (0, 0)).1 0, v.getD (iare.getD i (0, 0)).2 0)

/-- `MMG3D_findEdge`, mmg3d/boulep_3d.c 116-150: first edge with the two ends. -/
def findEdge (v : List Nat) (na nb : Nat) : Option Nat :=
  (List.range 6).find? fun i => decide (ends v i = (na, nb)) || decide (ends v i = (nb, na))

/-- The mesh as seen by the shell functions: links, vertices, required tetrahedra, and boundary
faces (`pt->xt && (mesh->xtetra[pt->xt].ftag[f] & MG_BDY)`). -/
structure M where
  A : Nat → Nat
  V : Nat → List Nat
  req : Nat → Bool
  bdy : Nat → Nat → Bool

/-! ### `MMG5_coquil`, mmg3d/boulep_3d.c 1406-1545

The list is built in reverse order. `lmax` is `MMG3D_LMAX`. -/

inductive Res
  /-- one of the tetrahedra is required: return 0 -/
  | required
  /-- edge not found or list too long: return -1 -/
  | failed
  /-- an assertion fails -/
  | asrt
  /-- `2*ilist` (closed) or `2*ilist+1` (open), with the list and `*isbdy` -/
  | shell (l : List Nat) (closed : Bool) (isbdy : Bool)

inductive S1
  | stop (r : Res)
  | closed (acc : List Nat) (isb : Bool)
  | opened (acc : List Nat) (piv : Nat)

/-- First loop, 1433-1487; `fuel` is the number of entries that fit before the overflow. -/
def sweep1 (m : M) (start na nb : Nat) : Nat → Nat → Nat → Bool → List Nat → S1
  | fuel, adj, piv, isb, acc =>
    if adj = 0 then .opened acc piv
    else if adj = start then .closed acc isb
    else if m.req adj then .stop .required
    else match findEdge (m.V adj) na nb with
      | none => .stop .failed
      | some i =>
        match fuel with
        | 0 => .stop .failed
        | fuel + 1 =>
          if (m.V adj).getD (ifar i).1 0 = piv then
            sweep1 m start na nb fuel (link m.A adj (ifar i).1 / 4) ((m.V adj).getD (ifar i).2 0)
              (isb || m.bdy adj (ifar i).1) ((6 * adj + i) :: acc)
          else if (m.V adj).getD (ifar i).2 0 = piv then
            sweep1 m start na nb fuel (link m.A adj (ifar i).2 / 4) ((m.V adj).getD (ifar i).1 0)
              (isb || m.bdy adj (ifar i).2) ((6 * adj + i) :: acc)
          else .stop .asrt

/-- Second loop, 1519-1542, from the boundary face; `adj` is here the link itself. -/
def sweep2 (m : M) (na nb : Nat) : Nat → Nat → Nat → List Nat → Res
  | fuel, adj, piv, acc =>
    if adj = 0 then .shell acc.reverse false true
    else if m.req (adj / 4) then .required
    else match findEdge (m.V (adj / 4)) na nb with
      | none => .failed
      | some i =>
        match fuel with
        | 0 => .failed
        | fuel + 1 =>
          if (m.V (adj / 4)).getD (ifar i).1 0 = piv then
            sweep2 m na nb fuel (link m.A (adj / 4) (ifar i).1) ((m.V (adj / 4)).getD (ifar i).2 0)
              ((6 * (adj / 4) + i) :: acc)
          else
            sweep2 m na nb fuel (link m.A (adj / 4) (ifar i).2) ((m.V (adj / 4)).getD (ifar i).1 0)
              ((6 * (adj / 4) + i) :: acc)

/-- `MMG5_coquil`. -/
def coquil (m : M) (lmax start ia : Nat) : Res :=
  let na := (ends (m.V start) ia).1
  let nb := (ends (m.V start) ia).2
  let v := m.V start
  match sweep1 m start na nb (lmax - 3 - 1) (link m.A start (ifar ia).1 / 4)
      (v.getD (ifar ia).2 0) (m.bdy start (ifar ia).1) [6 * start + ia] with
  | .stop r => r
  | .closed acc isb => .shell acc.reverse true isb
  | .opened acc piv =>
    let e := acc.headD 0
    let v := m.V (e / 6)
    if lmax - 3 < 1 then .failed
    else if v.getD (ifar (e % 6)).1 0 = piv then
      sweep2 m na nb (lmax - 2 - 1) (link m.A (e / 6) (ifar (e % 6)).1)
        (v.getD (ifar (e % 6)).2 0) [e]
    else
      sweep2 m na nb (lmax - 2 - 1) (link m.A (e / 6) (ifar (e % 6)).2)
        (v.getD (ifar (e % 6)).1 0) [e]

/-! ### Edge data of the shell

`X` holds what the functions below read and write: `pt->xt`, `pxt->ftag[face]` and, for each edge
of a slot, `pxt->tag[edge]` with `pxt->edg[edge]`. -/

structure X where
  xt : Nat → Nat
  ftag : Nat → Nat → Nat
  cell : Nat → Nat → Nat × Int

inductive Out (σ : Type)
  /-- the edge is not found -/
  | fail
  /-- the loop has made as many rounds as the fuel allows -/
  | noFuel
  /-- the body of the loop returns -/
  | early (k : Nat) (s : σ)
  /-- end of the loop, with the value of `adj` -/
  | fin (adj : Nat) (s : σ)

/-- The loop shared by `MMG3D_settag_oneDir` (mmg3d/boulep_3d.c 1178-1219),
`MMG3D_deltag_oneDir` (1300-1334), `MMG5_srcbdy` (1579-1603), `MMG3D_get_shellEdgeTag_oneDir`
(mmg3d/colver_3d.c 381-423) and `MMG3D_update_shellEdgeTag_oneDir` (1012-1063):
`while ( adj && (adj != start) )`, find the edge in `adj`, do something there (`body`, given the
tetrahedron, the edge and the face of exit), leave through the face opposite to the pivot. -/
def oneDir {σ : Type} (A : Nat → Nat) (V : Nat → List Nat) (body : σ → Nat → Nat → Nat → σ × Bool)
    (start na nb : Nat) : Nat → Nat → Nat → σ → Out σ
  | fuel, adj, piv, s =>
    if adj = 0 ∨ adj = start then .fin adj s
    else match findEdge (V adj) na nb with
      | none => .fail
      | some i =>
        match fuel with
        | 0 => .noFuel
        | fuel + 1 =>
          if (V adj).getD (ifar i).1 0 = piv then
            match body s adj i (ifar i).1 with
            | (s', true) => .early adj s'
            | (s', false) => oneDir A V body start na nb fuel (link A adj (ifar i).1 / 4)
                ((V adj).getD (ifar i).2 0) s'
          else
            match body s adj i (ifar i).2 with
            | (s', true) => .early adj s'
            | (s', false) => oneDir A V body start na nb fuel (link A adj (ifar i).2 / 4)
                ((V adj).getD (ifar i).1 0) s'

inductive Done (σ : Type)
  | fail
  | noFuel
  /-- return 1 -/
  | ok (s : σ)

/-- One direction, then the other one if a boundary face has been met: `MMG5_settag` 1264-1282,
`MMG5_deltag` 1372-1390, `MMG3D_get_shellEdgeTag` 469-494, `MMG3D_update_shellEdgeTag` 1113-1136. -/
def bothDirs {σ : Type} (A : Nat → Nat) (V : Nat → List Nat)
    (body : σ → Nat → Nat → Nat → σ × Bool) (fuel start ia : Nat) (s : σ) : Done σ :=
  let na := (ends (V start) ia).1
  let nb := (ends (V start) ia).2
  match oneDir A V body start na nb fuel (link A start (ifar ia).1 / 4)
      ((V start).getD (ifar ia).2 0) s with
  | .fail => .fail
  | .noFuel => .noFuel
  | .early _ s' => .ok s'
  | .fin adj s' =>
    if adj = start then .ok s'
    else
      match oneDir A V body start na nb fuel (link A start (ifar ia).2 / 4)
          ((V start).getD (ifar ia).1 0) s' with
      | .fail => .fail
      | .noFuel => .noFuel
      | .early _ s'' => .ok s''
      | .fin _ s'' => .ok s''

def REQ : Nat := 4
def BDY : Nat := 16
def NOSURF : Nat := 64

/-- The bit is set. -/
def hasB (t b : Nat) : Bool := decide (t &&& b ≠ 0)

/-- Remove bits of a 16 bit tag. -/
def clr (t b : Nat) : Nat := t &&& (65535 - b)

/-- Really required: required, and not only because of the `nosurf` option. -/
def really (t : Nat) : Bool := hasB t REQ && !hasB t NOSURF

/-- Union of two edge tags, mmg3d/boulep_3d.c 1197-1204. -/
def joinTag (old tag : Nat) : Nat :=
  if really old || really tag then clr (old ||| tag) NOSURF else old ||| tag

/-- Change of the data of the edge in the slot of the tetrahedron, if it has one. -/
def cellBody (g : (Nat → Nat) → Nat → Nat × Int → Nat × Int) (x : X) (k i _f : Nat) : X × Bool :=
  (if x.xt k = 0 then x
   else { x with cell := fun s j =>
      if s = x.xt k ∧ j = i then g (x.ftag (x.xt k)) i (x.cell s j) else x.cell s j }, false)

/-- mmg3d/boulep_3d.c 1194-1206. -/
def setG (tag : Nat) (edg : Int) (_ft : Nat → Nat) (_i : Nat) (c : Nat × Int) : Nat × Int :=
  (joinTag c.1 tag, max c.2 edg)

/-- One of the two faces that share the edge is a boundary face. -/
def bdyFace (ft : Nat → Nat) (i : Nat) : Bool := hasB (ft (ifar i).1) BDY || hasB (ft (ifar i).2) BDY

/-- mmg3d/boulep_3d.c 1315-1321. -/
def delG (tag : Nat) (ft : Nat → Nat) (i : Nat) (c : Nat × Int) : Nat × Int :=
  if bdyFace ft i then (clr c.1 tag, c.2) else c

/-- `MMG5_settag`, mmg3d/boulep_3d.c 1234-1282. -/
def settag (A : Nat → Nat) (V : Nat → List Nat) (fuel start ia tag : Nat) (edg : Int) (x : X) :
    Done X :=
  bothDirs A V (cellBody (setG tag edg)) fuel start ia (cellBody (setG tag edg) x start ia 0).1

/-- `MMG5_deltag`, mmg3d/boulep_3d.c 1347-1390. -/
def deltag (A : Nat → Nat) (V : Nat → List Nat) (fuel start ia tag : Nat) (x : X) : Done X :=
  bothDirs A V (cellBody (delG tag)) fuel start ia (cellBody (delG tag) x start ia 0).1

/-- Body of `MMG3D_get_shellEdgeTag_oneDir`, mmg3d/colver_3d.c 397-409; the state is `(*tag, *ref)`
and the mesh data is only read. -/
def getBody (x : X) (s : Nat × Int) (k i _f : Nat) : (Nat × Int) × Bool :=
  if x.xt k = 0 then (s, false)
  else
    let c := x.cell (x.xt k) i
    if hasB c.1 BDY then ((s.1 ||| c.1, c.2), true)
    else if bdyFace (x.ftag (x.xt k)) i then ((s.1 ||| (c.1 ||| BDY), c.2), true)
    else ((s.1, c.2), false)

/-- `MMG3D_get_shellEdgeTag`, mmg3d/colver_3d.c 439-495; the starting tetrahedron gets the same
treatment as the others (454-467). -/
def getTag (A : Nat → Nat) (V : Nat → List Nat) (fuel start ia : Nat) (x : X) (s : Nat × Int) :
    Done (Nat × Int) :=
  match getBody x s start ia 0 with
  | (s', true) => .ok s'
  | (s', false) => bothDirs A V (getBody x) fuel start ia s'

/-- Body of `MMG3D_update_shellEdgeTag_oneDir`, mmg3d/colver_3d.c 1029-1048. -/
def updBody (tag : Nat) (ref : Int) (x : X) (k i _f : Nat) : X × Bool :=
  if x.xt k = 0 then (x, false)
  else
    let c := x.cell (x.xt k) i
    if hasB c.1 BDY && decide (c.1 ||| BDY = tag) && decide (c.2 = ref) then (x, true)
    else
      ({ x with cell := fun s j =>
          if s = x.xt k ∧ j = i then
            (if really (c.1 ||| BDY) || really tag then clr (c.1 ||| tag) NOSURF else c.1 ||| tag,
              ref)
          else x.cell s j }, false)

/-- `MMG3D_update_shellEdgeTag`, mmg3d/colver_3d.c 1077-1137. -/
def updTag (A : Nat → Nat) (V : Nat → List Nat) (fuel start ia tag : Nat) (ref : Int) (x : X) :
    Done X :=
  match updBody tag ref x start ia 0 with
  | (x', true) => .ok x'
  | (x', false) => bothDirs A V (updBody tag ref) fuel start ia x'

/-- Body of `MMG5_srcbdy`: `return 1` when the face of exit is a boundary face, mmg3d/boulep_3d.c
1598-1602. -/
def srcBody (m : M) (_ : Unit) (k _i f : Nat) : Unit × Bool := ((), m.bdy k f)

/-- `MMG5_srcbdy`, mmg3d/boulep_3d.c 1557-1606: `some true` for 1, `some false` for 0. -/
def srcbdy (m : M) (fuel start ia : Nat) : Option Bool :=
  if m.bdy start (ifar ia).1 then some true
  else
    match oneDir m.A m.V (srcBody m) start (ends (m.V start) ia).1 (ends (m.V start) ia).2 fuel
        (link m.A start (ifar ia).1 / 4) ((m.V start).getD (ifar ia).2 0) () with
    | .fail => none
    | .noFuel => none
    | .early _ _ => some true
    | .fin _ _ => some false

end Mmg.Shell
