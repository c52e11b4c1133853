/-
  The 2-3 swap: two tetrahedra that share a face are replaced by three tetrahedra around the edge
  that joins their opposite vertices (`MMG3D_swap23`, mmg3d/swap_3d.c 625-1095; the configuration
  is chosen in `MMG3D_anatet4_sim`, mmg3d/mmg3d1.c 2833-2990).

  Simplifications: the tags and references `tag[i]`, `ref[i]` collected by
  `MMG3D_get_shellEdgeTag` over the shells of the six edges of the neighbour are inputs; the
  qualities and marks are left out; the number of the new tetrahedron is given by the allocator;
  growth of the table of boundary records is an answer of the allocator.
-/
import Verif.Reglue

namespace Mmg.Swap23

open Mmg.Split3

/-! ### Tables -/

/-- `tau0` of configuration `conf0 = 3*j0`, mmg3d/swap_3d.c 663-684. -/
def tau0 (j0 i : Nat) : Nat :=
  ([[0, 1, 2, 3], [1, 0, 3, 2], [2, 0, 1, 3], [3, 0, 2, 1]].getD j0 []).getD i 0

/-- `taued0`, mmg3d/swap_3d.c 663-684. -/
def ed0 (j0 e : Nat) : Nat := (permedge.getD (3 * j0) []).getD e 0

/-- `tau1` of configuration `conf1`, mmg3d/swap_3d.c 689-741. -/
def tau1 (c i : Nat) : Nat :=
  ([[0, 1, 2, 3], [0, 2, 3, 1], [0, 3, 1, 2], [1, 0, 3, 2], [1, 3, 2, 0], [1, 2, 0, 3],
    [2, 0, 1, 3], [2, 1, 3, 0], [2, 3, 0, 1], [3, 0, 2, 1], [3, 2, 1, 0], [3, 1, 0, 2]].getD c
      []).getD i 0

/-- `taued1`, mmg3d/swap_3d.c 689-741 (configurations 4 and 5, 10 and 11 use each other's row). -/
def ed1 (c e : Nat) : Nat :=
  (permedge.getD ([0, 1, 2, 3, 5, 4, 6, 7, 8, 9, 11, 10].getD c 0) []).getD e 0

/-- `MMG5_idir`, mmg3d/libmmg3d_private.h: the vertices of each face. -/
def idirf (f i : Nat) : Nat :=
  ([[1, 2, 3], [0, 3, 2], [0, 1, 3], [0, 2, 1]].getD f []).getD i 0

/-- `loc_conf1 = 3*j1+i` with the first `i` such that the vertex `i` of face `j1` of the neighbour
is the first vertex of face `j0`, mmg3d/mmg3d1.c 2887-2891; `none`: the assertion fails. -/
def conf1 (v0 v1 : List Nat) (j0 j1 : Nat) : Option Nat :=
  if v0.getD (idirf j0 0) 0 = v1.getD (idirf j1 0) 0 then some (3 * j1)
  else if v0.getD (idirf j0 0) 0 = v1.getD (idirf j1 1) 0 then some (3 * j1 + 1)
  else if v0.getD (idirf j0 0) 0 = v1.getD (idirf j1 2) 0 then some (3 * j1 + 2)
  else none

/-! ### Boundary records -/

/-- Boundary record of a tetrahedron (`MMG5_xTetra`, common/libmmgtypes.h). -/
structure XT where
  ref : Nat → Int
  ftag : Nat → Nat
  ori : Nat → Bool
  edg : Nat → Int
  tag : Nat → Nat

def upd {α : Type} (f : Nat → α) (i : Nat) (x : α) : Nat → α := fun n => if n = i then x else f n

/-- `if ( MG_GET(b) ) MG_SET(ori, i)`: the bit is never cleared. -/
def orSet (o : Nat → Bool) (i : Nat) (b : Bool) : Nat → Bool := if b then upd o i true else o

/-- Records of the three new tetrahedra, mmg3d/swap_3d.c 890-975.  `x0` is the record of the first
tetrahedron, `x1 = mesh->xtetra[xt1]`, `tag` and `ref` are those of the edges of the neighbour.
(The test `!pt1->xt` of line 826 reads the tetrahedron that was overwritten by the first one at
line 756, whose record exists: the branch 827-888 is never taken.) -/
def newRec (t0 t1 e0 : Nat → Nat) (x0 x1 : XT) (tag : Nat → Nat) (ref : Nat → Int) : Nat → XT
  | 0 =>
    { tag := upd (upd (upd (upd x0.tag (e0 0) 0) (e0 3) (tag 2)) (e0 4) (tag 1)) (e0 5) (tag 5)
      edg := upd (upd (upd (upd x0.edg (e0 0) 0) (e0 3) (ref 2)) (e0 4) (ref 1)) (e0 5) (ref 5)
      ref := upd (upd (upd x0.ref (t0 0) (x1.ref (t1 1))) (t0 2) 0) (t0 3) 0
      ftag := upd (upd (upd x0.ftag (t0 0) (x1.ftag (t1 1))) (t0 2) 0) (t0 3) 0
      ori := upd (upd (orSet x0.ori (t0 0) (x1.ori (t1 1))) (t0 2) true) (t0 3) true }
  | 1 =>
    { tag := upd (upd (upd (upd x0.tag (e0 1) 0) (e0 3) (tag 0)) (e0 5) (tag 1)) (e0 4) (tag 3)
      edg := upd (upd (upd (upd x0.edg (e0 1) 0) (e0 3) (ref 0)) (e0 5) (ref 1)) (e0 4) (ref 3)
      ref := upd (upd (upd x0.ref (t0 0) (x1.ref (t1 3))) (t0 1) 0) (t0 3) 0
      ftag := upd (upd (upd x0.ftag (t0 0) (x1.ftag (t1 3))) (t0 1) 0) (t0 3) 0
      ori := upd (upd (orSet x0.ori (t0 0) (x1.ori (t1 3))) (t0 1) true) (t0 3) true }
  | _ =>
    { tag := upd (upd (upd (upd x0.tag (e0 2) 0) (e0 4) (tag 0)) (e0 5) (tag 2)) (e0 3) (tag 4)
      edg := upd (upd (upd (upd x0.edg (e0 2) 0) (e0 4) (ref 0)) (e0 5) (ref 2)) (e0 3) (ref 4)
      ref := upd (upd (upd x0.ref (t0 0) (x1.ref (t1 2))) (t0 1) 0) (t0 2) 0
      ftag := upd (upd (upd x0.ftag (t0 0) (x1.ftag (t1 2))) (t0 1) 0) (t0 2) 0
      ori := upd (upd (orSet x0.ori (t0 0) (x1.ori (t1 2))) (t0 1) true) (t0 2) true }

/-- `isxt`: some face carries a reference or a tag, mmg3d/swap_3d.c 978-983. -/
def XT.isxt (x : XT) : Bool :=
  (List.range 4).any fun i => decide (x.ref i ≠ 0) || decide (x.ftag i ≠ 0)

/-! ### State -/

/-- Vertices, adjacency, slot of the boundary record of each tetrahedron (0: none), boundary
records and number of the last record (`mesh->xt`). -/
structure State where
  V : Nat → List Nat
  A : Nat → Nat
  xt : Nat → Nat
  X : Nat → XT
  nxt : Nat

/-- Vertices of the three tetrahedra: `k1` and `iel` are copies of `k` with one vertex replaced,
mmg3d/swap_3d.c 756-780. -/
def swapVerts (t0 : Nat → Nat) (k k1 iel np : Nat) (V : Nat → List Nat) : Nat → List Nat :=
  let v := V k
  upd (upd (upd V k (v.set (t0 1) np)) k1 (v.set (t0 2) np)) iel (v.set (t0 3) np)

/-- Update of the adjacency, mmg3d/swap_3d.c 786-823. -/
def swapAdj (t0 t1 : Nat → Nat) (k k1 iel : Nat) (A : Nat → Nat) : Nat → Nat :=
  let adj0_2 := A (adjIdx k (t0 2))
  let adj0_3 := A (adjIdx k (t0 3))
  let adj1_1 := A (adjIdx k1 (t1 1))
  let adj1_2 := A (adjIdx k1 (t1 2))
  let adj1_3 := A (adjIdx k1 (t1 3))
  let A := setAt A (adjIdx k (t0 0)) adj1_1
  let A := setAt A (adjIdx k (t0 2)) (4 * k1 + t0 1)
  let A := setAt A (adjIdx k (t0 3)) (4 * iel + t0 1)
  let A := back A adj1_1 (4 * k + t0 0)
  let A := setAt A (adjIdx k1 (t0 0)) adj1_3
  let A := setAt A (adjIdx k1 (t0 1)) (4 * k + t0 2)
  let A := setAt A (adjIdx k1 (t0 2)) adj0_2
  let A := setAt A (adjIdx k1 (t0 3)) (4 * iel + t0 2)
  let A := back A adj1_3 (4 * k1 + t0 0)
  let A := back A adj0_2 (4 * k1 + t0 2)
  let A := setAt A (adjIdx iel (t0 0)) adj1_2
  let A := setAt A (adjIdx iel (t0 1)) (4 * k + t0 3)
  let A := setAt A (adjIdx iel (t0 2)) (4 * k1 + t0 3)
  let A := setAt A (adjIdx iel (t0 3)) adj0_3
  let A := back A adj1_2 (4 * iel + t0 0)
  back A adj0_3 (4 * iel + t0 3)

/-- Store a record in a new slot: `++mesh->xt`, with growth of the table when needed; `room n`
says whether slot `n` exists or can be allocated.  On failure the function returns -1. -/
def newSlot (room : Nat → Bool) (q : Nat) (x : XT) (s : State) : Option State :=
  if room (s.nxt + 1) then
    some { s with nxt := s.nxt + 1, xt := upd s.xt q (s.nxt + 1), X := upd s.X (s.nxt + 1) x }
  else none

/-- Slots of the records, mmg3d/swap_3d.c 987-1072.  On entry the slots of `k1` and `iel` are
copies of that of `k`; `xt1` is the old slot of the neighbour. -/
def place (room : Nat → Bool) (k k1 iel xt1 : Nat) (x : Nat → XT) (s : State) : Option State :=
  let slot0 := s.xt k
  let s := { s with xt := upd (upd s.xt k1 slot0) iel slot0 }
  if (x 0).isxt then
    let s := { s with X := upd s.X slot0 (x 0) }
    if xt1 ≠ 0 then
      if (x 1).isxt then
        let s := { s with xt := upd s.xt k1 xt1, X := upd s.X xt1 (x 1) }
        if (x 2).isxt then newSlot room iel (x 2) s
        else some { s with xt := upd s.xt iel 0 }
      else
        some { s with xt := upd (upd s.xt k1 0) iel xt1, X := upd s.X xt1 (x 2) }
    else
      let s1 := if (x 1).isxt then newSlot room k1 (x 1) s
        else some { s with xt := upd s.xt k1 0 }
      s1.bind fun s => if (x 2).isxt then newSlot room iel (x 2) s
        else some { s with xt := upd s.xt iel 0 }
  else
    let s := { s with xt := upd s.xt k 0, X := upd s.X slot0 (x 2) }
    if xt1 ≠ 0 then
      some { s with xt := upd s.xt k1 xt1, X := upd s.X xt1 (x 1) }
    else newSlot room k1 (x 1) s

/-- The 2-3 swap of tetrahedron `k` through its face `j0` with the neighbour `k1` in configuration
`c`; `iel` is the new tetrahedron; `T e`, `R e` are the tag and reference collected for the edge
`e` of `k1` (744-754).  `none`: failure of the allocator. -/
def swap23 (room : Nat → Bool) (k j0 k1 c iel : Nat) (T : Nat → Nat) (R : Nat → Int)
    (s : State) : Option State :=
  let np := (s.V k1).getD (tau1 c 0) 0
  let x := newRec (tau0 j0) (tau1 c) (ed0 j0) (s.X (s.xt k)) (s.X (s.xt k1))
    (fun i => T (ed1 c i)) (fun i => R (ed1 c i))
  place room k k1 iel (s.xt k1) x
    { s with V := swapVerts (tau0 j0) k k1 iel np s.V, A := swapAdj (tau0 j0) (tau1 c) k k1 iel s.A }

end Mmg.Swap23
