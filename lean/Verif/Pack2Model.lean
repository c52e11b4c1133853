/-
Final packing of a 2D mesh: `MMG2D_pack` (mmg2d/hash_2d.c:530-891), and the look-up of the triangles of an output edge:
`MMG2D_Get_triFromEdge`, `MMG2D_Get_trisFromEdge` (mmg2d/libmmg2d_tools.c:937-994).

Simplifications: arrays are functions on `Nat` (index 0 is not used by the code); indices are natural numbers; the entries
of the quadrilateral adjacency are integers (negative: the neighbour is a triangle). Points consist of tag, `tmp` and the
rest `dat`; triangles and quadrilaterals of their vertices, reference, side tags, side references and the rest. The removal
of the other sub-domains (line 540, see `SubProps`), the hashing of triangles (543, see `AdjProps`) and of quadrilaterals
(575) come before: the adjacency tables are given. Whether the edge table can be allocated is given by the environment.
-/
import Verif.Pack3Tet

namespace Mmg.Pack2

open Mmg.Pack3 (upd Elt eok Els packEls has REF REQ BDY CRN NOSURF)

/-- `MMG5_Point`. -/
structure Pt (α : Type) where
  tag : BitVec 16
  tmp : Nat
  dat : α

/-- Fields of `MMG5_Tria` and `MMG5_Quad` other than the vertices. -/
structure Side (β : Type) where
  ref : Int
  tag : Nat → BitVec 16
  edg : Nat → Int
  dat : β

/-- `MMG5_Edge`. -/
structure Edge where
  a : Nat
  b : Nat
  base : Nat
  ref : Int
  tag : BitVec 16

/-- `MMG5_Sol`. -/
structure Sol (K : Type) where
  size : Nat
  np : Nat
  m : Nat → K

variable {α β K : Type}

/-- `MG_VOK` (mmgcommon_private.h:166). -/
def vok (p : Pt α) : Bool := decide (p.tag.toNat < 32768)

/-- Removal of the tags of the option `-nosurf` (hash_2d.c:560-563, 591-594). -/
def untag (t : BitVec 16) : BitVec 16 := if has t NOSURF then t &&& ~~~NOSURF &&& ~~~REQ else t

/-- One turn of the numbering loop (hash_2d.c:553-564); state: number of points, of corners, points. -/
def numStep (s : Nat × Nat × (Nat → Pt α)) (k : Nat) : Nat × Nat × (Nat → Pt α) :=
  if vok (s.2.2 k) then
    (s.1 + 1, (if has (s.2.2 k).tag CRN then s.2.1 + 1 else s.2.1),
      upd s.2.2 k { s.2.2 k with tmp := s.1 + 1, tag := untag (s.2.2 k).tag })
  else s

def number (np : Nat) (pt : Nat → Pt α) : Nat × Nat × (Nat → Pt α) := (List.range' 1 np).foldl numStep (0, 0, pt)

/-! ### Edges -/

/-- `MG_SIN` (mmgcommon_private.h). -/
def sin (t : BitVec 16) : Bool := has t CRN || has t REQ

def tidx (k i : Nat) : Nat := 3 * (k - 1) + 1 + i
def qidx (k i : Nat) : Nat := 4 * (k - 1) + 1 + i

/-- Whether the counting loop counts a side with tag `t` between elements of reference `r` and `r1` (hash_2d.c:597-609,
628-640); `nb`: there is a neighbour; `opn`: the option of open boundaries. -/
def counts (opn nb : Bool) (r r1 : Int) (t : BitVec 16) : Bool :=
  if !nb || decide (r > r1) then true
  else if decide (r = r1) && sin t then true
  else if opn then (has t REF || has t BDY)
  else false

/-- The condition of the filling loop (hash_2d.c:677-679, 713-715). -/
def lists (opn nb : Bool) (r r1 : Int) (t : BitVec 16) : Bool :=
  !nb || decide (r > r1) || (decide (r = r1) && sin t) || (opn && (has t REF || has t BDY))

/-- One side of the counting loop over triangles (hash_2d.c:588-609); state: count, triangles. -/
def countTriSide (opn : Bool) (adja : Nat → Nat) (k : Nat) (s : Nat × (Nat → Elt (Side β))) (i : Nat) :
    Nat × (Nat → Elt (Side β)) :=
  let p := s.2 k
  let p1 : Elt (Side β) := { p with dat := { p.dat with tag := upd p.dat.tag i (untag (p.dat.tag i)) } }
  let tri := upd s.2 k p1
  let iel := adja (tidx k i) / 3
  (if counts opn (decide (iel ≠ 0)) p1.dat.ref (tri iel).dat.ref (p1.dat.tag i) then s.1 + 1 else s.1, tri)

/-- hash_2d.c:582-611. -/
def countTri (opn : Bool) (adja : Nat → Nat) (nt : Nat) (s : Nat × (Nat → Elt (Side β))) : Nat × (Nat → Elt (Side β)) :=
  (List.range' 1 nt).foldl
    (fun s k => if eok (s.2 k) then [0, 1, 2].foldl (countTriSide opn adja k) s else s) s

/-- hash_2d.c:613-642. Dividing a negative entry by four gives a negative number or, for -1..-3, zero. -/
def countQuad (opn : Bool) (quad : Nat → Elt (Side β)) (adjq : Nat → Int) (nq na : Nat) : Nat :=
  (List.range' 1 nq).foldl
    (fun na k => if eok (quad k) then [0, 1, 2, 3].foldl (fun na i =>
        let iel := (adjq (qidx k i)).tdiv 4
        if iel < 0 then na
        else if counts opn (decide (iel ≠ 0)) (quad k).dat.ref (quad iel.toNat).dat.ref ((quad k).dat.tag i) then na + 1
        else na) na else na) na

def inxt2 : Nat → Nat
  | 0 => 1
  | 1 => 2
  | _ => 0

def iprv2 : Nat → Nat
  | 0 => 2
  | 1 => 0
  | _ => 1

/-- `MMG2D_idir_q` (libmmg2d_private.h:73). -/
def idirq : Nat → Nat × Nat
  | 0 => (0, 1)
  | 1 => (0, 3)
  | 2 => (1, 2)
  | _ => (2, 3)

/-- The edge table during the filling: number of entries, entries, and whether a write was outside the table, of capacity
`namax + 1`. -/
structure Tab where
  ned : Nat
  edge : Nat → Edge
  bad : Bool

/-- Writing of the next entry. -/
def Tab.push (namax : Nat) (T : Tab) (e : Edge) : Tab :=
  ⟨T.ned + 1, upd T.edge (T.ned + 1) e, T.bad || decide (namax < T.ned + 1)⟩

/-- hash_2d.c:663-693: the edges of the triangles; state: `nt` and the table. -/
def fillTri (opn : Bool) (tri : Nat → Elt (Side β)) (adja : Nat → Nat) (n namax : Nat) (T : Tab) : Nat × Tab :=
  (List.range' 1 n).foldl
    (fun s k => if eok (tri k) then
      (s.1 + 1, [0, 1, 2].foldl (fun T i =>
        let iel := adja (tidx k i) / 3
        if lists opn (decide (iel ≠ 0)) (tri k).dat.ref (tri iel).dat.ref ((tri k).dat.tag i) then
          T.push namax ⟨(tri k).v (inxt2 i), (tri k).v (iprv2 i), 3 * (s.1 + 1) + i, (tri k).dat.edg i, (tri k).dat.tag i⟩
        else T) s.2)
      else s) (0, T)

/-- hash_2d.c:695-729: the edges of the quadrilaterals. -/
def fillQuad (opn : Bool) (quad : Nat → Elt (Side β)) (adjq : Nat → Int) (n namax : Nat) (T : Tab) : Nat × Tab :=
  (List.range' 1 n).foldl
    (fun s k => if eok (quad k) then
      (s.1 + 1, [0, 1, 2, 3].foldl (fun T i =>
        let iel := (adjq (qidx k i)).tdiv 4
        if iel < 0 then T
        else if lists opn (decide (iel ≠ 0)) (quad k).dat.ref (quad iel.toNat).dat.ref ((quad k).dat.tag i) then
          T.push namax ⟨(quad k).v (idirq i).1, (quad k).v (idirq i).2, 4 * (s.1 + 1) + i, (quad k).dat.edg i,
            (quad k).dat.tag i⟩
        else T) s.2)
      else s) (0, T)

/-- Renumbering of the edge vertices (hash_2d.c:733-738). -/
def renumEdges (pt : Nat → Pt α) (na : Nat) (edge : Nat → Edge) : Nat → Edge :=
  fun k => if 1 ≤ k ∧ k ≤ na ∧ (edge k).a ≠ 0 then
    { edge k with a := (pt (edge k).a).tmp, b := (pt (edge k).b).tmp } else edge k

/-! ### Triangles -/

/-- One side of the loop hash_2d.c:762-770: the neighbour of triangle `k` becomes that of `l` and points to it. -/
def moveSide (l k : Nat) (ad : Nat → Nat) (i : Nat) : Nat → Nat :=
  let a := ad (tidx k i)
  let ad1 := upd ad (tidx l i) a
  if a = 0 then ad1
  else upd (upd ad1 (tidx (a / 3) (a % 3)) (3 * l + i)) (tidx k i) 0

/-- State of the loop over the triangles: `nbl`, `nt`, triangles, adjacency. -/
structure TSt (β : Type) where
  nbl : Nat
  nt : Nat
  tri : Nat → Elt (Side β)
  adja : Nat → Nat

/-- Vertices through the point numbering. -/
def renumV (pt : Nat → Pt α) (nv : Nat) (e : Elt (Side β)) : Elt (Side β) :=
  { e with v := fun i => if i < nv then (pt (e.v i)).tmp else e.v i }

/-- One turn of hash_2d.c:743-774; `z`: the zeroed triangle. -/
def triStep (z : Side β) (pt : Nat → Pt α) (s : TSt β) (k : Nat) : TSt β :=
  if eok (s.tri k) then
    let e := renumV pt 3 (s.tri k)
    let tri := upd s.tri k e
    if k ≠ s.nbl then
      ⟨s.nbl + 1, s.nt + 1, upd (upd tri s.nbl e) k ⟨fun _ => 0, z⟩, [0, 1, 2].foldl (moveSide s.nbl k) s.adja⟩
    else ⟨s.nbl + 1, s.nt + 1, tri, s.adja⟩
  else s

def packTri (z : Side β) (pt : Nat → Pt α) (nt : Nat) (tri : Nat → Elt (Side β)) (adja : Nat → Nat) : TSt β :=
  (List.range' 1 nt).foldl (triStep z pt) ⟨1, 0, tri, adja⟩

/-! ### Solutions and points -/

/-- Copy of the values of point `k` to `l` (hash_2d.c:808-812). -/
def copyVals (size l k : Nat) (m : Nat → K) : Nat → K :=
  (List.range size).foldl (fun m i => upd m (l * size + i) (m (k * size + i))) m

/-- hash_2d.c:801-814, 816-829: state `nbl` and values. -/
def packVals (np : Nat) (pt : Nat → Pt α) (size : Nat) (m : Nat → K) : Nat → K :=
  ((List.range' 1 np).foldl
    (fun s k => if vok (pt k) then (s.1 + 1, copyVals size s.1 k s.2) else s) (1, m)).2

/-- One turn of the loop over the points (hash_2d.c:834-851); state: `np`, `nbl`, points; `z`: zeroed content. -/
def ptStep (z : α) (s : Nat × Nat × (Nat → Pt α)) (k : Nat) : Nat × Nat × (Nat → Pt α) :=
  if vok (s.2.2 k) then
    (s.1 + 1, s.2.1 + 1, if k ≠ s.2.1 then upd (upd s.2.2 s.2.1 (s.2.2 k)) k ⟨0, 0, z⟩ else s.2.2)
  else s

def packPts (z : α) (np : Nat) (pt : Nat → Pt α) : Nat × Nat × (Nat → Pt α) :=
  (List.range' 1 np).foldl (ptStep z) (0, 1, pt)

/-- hash_2d.c:856-867: `tmp` is reset and the chain of free points is rebuilt. -/
def chainPts (np npmax : Nat) (pt : Nat → Pt α) : Nat × (Nat → Pt α) :=
  let pt0 := fun k => if 1 ≤ k ∧ k ≤ np then { pt k with tmp := 0 } else pt k
  if np + 3 < npmax then (np + 1, fun k => if np + 1 ≤ k ∧ k + 1 < npmax then { pt0 k with tmp := k + 1 } else pt0 k)
  else (0, pt0)

/-- hash_2d.c:870-877: the chain of free triangles. -/
def chainTri (nt ntmax : Nat) (tri : Nat → Elt (Side β)) : Nat × (Nat → Elt (Side β)) :=
  if nt + 3 < ntmax then
    (nt + 1, fun k => if nt + 1 ≤ k ∧ k + 1 < ntmax then { tri k with v := upd (tri k).v 2 (k + 1) } else tri k)
  else (0, tri)

/-! ### The whole mesh -/

structure Mesh (α β K : Type) where
  np : Nat
  npmax : Nat
  npnil : Nat
  pt : Nat → Pt α
  nt : Nat
  ntmax : Nat
  nenil : Nat
  tri : Nat → Elt (Side β)
  adja : Nat → Nat
  quads : Els (Side β)
  adjq : Nat → Int
  na : Nat
  edge : Nat → Edge
  sol : Option (Sol K)
  met : Option (Sol K)

/-- `MMG2D_pack`. `opn`: option of open boundaries; `mem`: the edge table can be allocated; `e0`: its zeroed content.
Result: mesh, number of corners, return value; `none`: a write outside the edge table. -/
def pack (zp : α) (zt : Side β) (e0 : Nat → Edge) (opn mem : Bool) (M : Mesh α β K) : Option (Mesh α β K × Nat × Bool) :=
  let r := number M.np M.pt
  let c := countTri opn M.adja M.nt (0, M.tri)
  let na := countQuad opn M.quads.el M.adjq M.quads.n c.1
  let T1 := (fillTri opn c.2 M.adja M.nt na ⟨0, e0, false⟩).2
  let T := (fillQuad opn M.quads.el M.adjq M.quads.n na T1).2
  if decide (na ≠ 0) && mem && T.bad then none
  else
    let na' := if na ≠ 0 ∧ mem = false then 0 else na
    let t := packTri zt r.2.2 M.nt c.2 M.adja
    let q := packEls M.quads
    let p := packPts zp M.np r.2.2
    let cp := chainPts p.1 M.npmax p.2.2
    let ct := chainTri t.nt M.ntmax t.tri
    some ({ M with
      np := p.1
      npnil := cp.1
      pt := cp.2
      nt := t.nt
      nenil := ct.1
      tri := ct.2
      adja := t.adja
      quads := ⟨q.n, fun k => if 1 ≤ k ∧ k ≤ q.n ∧ eok (q.el k) = true then renumV r.2.2 4 (q.el k) else q.el k⟩
      na := na'
      edge := if na' = 0 then M.edge else renumEdges r.2.2 na' T.edge
      sol := M.sol.map fun s => { s with np := p.1, m := packVals M.np r.2.2 s.size s.m }
      met := M.met.map fun s => { s with m := packVals M.np r.2.2 s.size s.m } }, r.2.1,
      !(decide (na ≠ 0) && !mem))

/-- `MMG2D_Get_triFromEdge` (libmmg2d_tools.c:937-954): triangle and side of edge `ked`. -/
def triFromEdge (edge : Nat → Edge) (ked : Nat) : Option (Nat × Nat) :=
  if (edge ked).base = 0 then none else some ((edge ked).base / 3, (edge ked).base % 3)

/-- `MMG2D_Get_trisFromEdge` (libmmg2d_tools.c:956-994), with existing adjacency: both triangles of the edge, the second
one 0 if there is none. -/
def trisFromEdge (edge : Nat → Edge) (adja : Nat → Nat) (ked : Nat) : Option ((Nat × Nat) × (Nat × Nat)) :=
  match triFromEdge edge ked with
  | none => none
  | some (k, i) => some ((k, i), (adja (tidx k i) / 3, adja (tidx k i) % 3))

end Mmg.Pack2
