/-
  Subdivision patterns of a tetrahedron (mmg3d/split_3d.c): the eleven functions that cut a
  tetrahedron when one to six of its edges carry a new point, the star split around a new
  barycentre, and the simulations run before them.

  The assignment blocks of the C functions are transcribed statement by statement into lists of
  `Stmt`.  Every index in a statement is the index written in the C source, i.e. an index of the
  reference configuration; the interpreter maps it through `tau` / `taued` (and through
  `sym` / `symed` for `split3op`), exactly as the C code does.

  Not modelled here: allocation of the new tetrahedra (see PoolModel), the update of the quality
  field.  The slots of the boundary records are modelled in Split3Xt.
-/
import Mathlib.Data.List.Basic

namespace Mmg.Split3

/-! ### Static tables -/

/-- `MMG5_iare`: end points of the six edges, mmg3d/libmmg3d_private.h 176-216. -/
def iare : List (Nat × Nat) := [(0, 1), (0, 2), (0, 3), (1, 2), (1, 3), (2, 3)]

/-- `MMG5_permedge`: the twelve even permutations of the edges,
mmg3d/libmmg3d_private.h 176-216. -/
def permedge : List (List Nat) :=
  [[0, 1, 2, 3, 4, 5], [1, 2, 0, 5, 3, 4], [2, 0, 1, 4, 5, 3], [0, 4, 3, 2, 1, 5],
   [3, 0, 4, 1, 5, 2], [4, 3, 0, 5, 2, 1], [1, 3, 5, 0, 2, 4], [3, 5, 1, 4, 0, 2],
   [5, 1, 3, 2, 4, 0], [2, 5, 4, 1, 0, 3], [4, 2, 5, 0, 3, 1], [5, 4, 2, 3, 1, 0]]

/-! ### Statements and their interpreter -/

/-- One assignment of a split function.  The first argument is the child that is written. -/
inductive Stmt
  /-- `pt[c]->v[tau[i]] = vx[taued[e]]` -/
  | v (c i e : Nat)
  /-- `pt[c]->v[i] = ib` -/
  | vb (c i : Nat)
  /-- `xt[c].tag[taued[e]] = ftag[tau[f]]` -/
  | tag (c e f : Nat)
  /-- `xt[c].tag[taued[e]] = 0` -/
  | tag0 (c e : Nat)
  /-- `xt[c].edg[taued[e]] = 0` -/
  | edg0 (c e : Nat)
  /-- `xt[c].ref[tau[f]] = 0` -/
  | ref0 (c f : Nat)
  /-- `xt[c].ftag[tau[f]] = 0` -/
  | ftag0 (c f : Nat)
  /-- `MG_SET(xt[c].ori, tau[f])` -/
  | ori (c f : Nat)

/-- A tetrahedron with its boundary record: four vertices, tag and reference of the six edges,
reference, tag and orientation bit of the four faces (`MMG5_Tetra` and `MMG5_xTetra`,
common/libmmgtypes.h).  `V`, `T`, `R`, `B` are the types of vertices, tags, references and
orientation bits. -/
structure Tet (V T R B : Type) where
  v : List V
  tag : List T
  edg : List R
  ref : List R
  ftag : List T
  ori : List B
  deriving DecidableEq

/-- Values a split function reads: the points of the edges, the new barycentre, the face tags
stored in the local array `ftag`, and the constants `0` and `1`. -/
structure Src (V T R B : Type) where
  vx : Nat → V
  ib : V
  fs : Nat → T
  zT : T
  zR : R
  one : B

/-- Row of a configuration table: `tau`, the row of `MMG5_permedge`, and for `split3op` the
symmetry `sym` / `symed`. -/
structure Cfg where
  tau : List Nat
  row : Nat
  sym : List Nat := [0, 1, 2, 3]
  symed : List Nat := [0, 1, 2, 3, 4, 5]

/-- Entry of a static table. -/
def nth (l : List Nat) (i : Nat) : Nat := l.getD i 0

/-- Vertex index used for the reference index `i`: `tau[i]`, or `tau[sym[i]]`. -/
def Cfg.L (c : Cfg) (i : Nat) : Nat := nth c.tau (nth c.sym i)

/-- Edge index used for the reference index `e`: `taued[e]`, or `taued[symed[e]]`. -/
def Cfg.E (c : Cfg) (e : Nat) : Nat := nth (permedge.getD c.row []) (nth c.symed e)

/-- A split selected for a tetrahedron: number of children, index maps, assignments. -/
structure Prog where
  ne : Nat
  cfg : Cfg
  body : List Stmt

variable {V T R B : Type}

/-- Effect of one assignment on the list of children. -/
def step (c : Cfg) (s : Src V T R B) (ch : List (Tet V T R B)) : Stmt → List (Tet V T R B)
  | .v k i e => ch.modify k fun t => { t with v := t.v.set (c.L i) (s.vx (c.E e)) }
  | .vb k i => ch.modify k fun t => { t with v := t.v.set (c.L i) s.ib }
  | .tag k e f => ch.modify k fun t => { t with tag := t.tag.set (c.E e) (s.fs (c.L f)) }
  | .tag0 k e => ch.modify k fun t => { t with tag := t.tag.set (c.E e) s.zT }
  | .edg0 k e => ch.modify k fun t => { t with edg := t.edg.set (c.E e) s.zR }
  | .ref0 k f => ch.modify k fun t => { t with ref := t.ref.set (c.L f) s.zR }
  | .ftag0 k f => ch.modify k fun t => { t with ftag := t.ftag.set (c.L f) s.zT }
  | .ori k f => ch.modify k fun t => { t with ori := t.ori.set (c.L f) s.one }

/-- A split: every child starts as a copy of the parent (`MMG3D_crea_newTetra`,
mmg3d/split_3d.c 1165-1203), then the assignments are executed in order. -/
def exec (p : Prog) (s : Src V T R B) (t : Tet V T R B) : List (Tet V T R B) :=
  p.body.foldl (step p.cfg s) (List.replicate p.ne t)

/-! ### Comparison of the vertex numbers

The choice between the sub-patterns only depends on comparisons between the four vertex numbers:
`lt i j` stands for `v[i] < v[j]`. -/

abbrev Cmp := Nat → Nat → Bool

/-- `v[i] < v[j]`. -/
def cmpOf (v : Nat → Nat) : Cmp := fun i j => decide (v i < v j)

/-- `(v[i] < v[j]) ? i : j`. -/
def imin (lt : Cmp) (i j : Nat) : Nat := if lt i j then i else j

/-- `ia` and `ib` of `MMG3D_split3cone_cfg`: the vertices with the smallest and the second
smallest number among `tau[1]`, `tau[2]`, `tau[3]`, mmg3d/split_3d.c 1886-1907. -/
def cone (lt : Cmp) (a b c : Nat) : Nat × Nat :=
  let ia := if lt a b then a else b
  let ib := if lt a b then b else a
  if lt c ia then (c, ia)
  else if lt c ib then (ia, c) else (ia, ib)

/-! ### Configuration tables and assignment blocks -/

/-- One split edge: permutation of the reference configuration 1.
mmg3d/split_3d.c 52-82 -/
def cfg1 : Nat → Cfg
  | 2 => { tau := [2, 0, 1, 3], row := 6 }
  | 4 => { tau := [0, 3, 1, 2], row := 2 }
  | 8 => { tau := [1, 2, 0, 3], row := 4 }
  | 16 => { tau := [3, 1, 0, 2], row := 10 }
  | 32 => { tau := [3, 2, 1, 0], row := 11 }
  | _ => { tau := [0, 1, 2, 3], row := 0 }

/-- `split2sf`: permutation from the reference configuration 48.
mmg3d/split_3d.c 1036-1090 -/
def cfg2sf : Nat → Cfg
  | 24 => { tau := [0, 2, 3, 1], row := 1 }
  | 40 => { tau := [0, 3, 1, 2], row := 2 }
  | 6 => { tau := [1, 3, 2, 0], row := 5 }
  | 34 => { tau := [1, 0, 3, 2], row := 3 }
  | 36 => { tau := [1, 2, 0, 3], row := 4 }
  | 20 => { tau := [2, 0, 1, 3], row := 6 }
  | 5 => { tau := [2, 1, 3, 0], row := 7 }
  | 17 => { tau := [2, 3, 0, 1], row := 8 }
  | 9 => { tau := [3, 0, 2, 1], row := 9 }
  | 3 => { tau := [3, 2, 1, 0], row := 11 }
  | 10 => { tau := [3, 1, 0, 2], row := 10 }
  | _ => { tau := [0, 1, 2, 3], row := 0 }

/-- `split2`: permutation from the reference configuration 33.
mmg3d/split_3d.c 1489-1633 (switch; the same table in the simulation) -/
def cfg2 : Nat → Cfg
  | 18 => { tau := [3, 1, 0, 2], row := 10 }
  | 12 => { tau := [0, 3, 1, 2], row := 2 }
  | _ => { tau := [0, 1, 2, 3], row := 0 }

/-- `split3`: permutation from the reference configuration 11.
mmg3d/split_3d.c 1707-1848 (switch; the same table in the simulation) -/
def cfg3 : Nat → Cfg
  | 21 => { tau := [0, 3, 1, 2], row := 2 }
  | 38 => { tau := [3, 0, 2, 1], row := 9 }
  | 56 => { tau := [1, 3, 2, 0], row := 5 }
  | _ => { tau := [0, 1, 2, 3], row := 0 }

/-- `split3cone`: permutation from the reference configuration 7.
mmg3d/split_3d.c 1862-1908 -/
def cfg3cone : Nat → Cfg
  | 25 => { tau := [1, 2, 0, 3], row := 4 }
  | 42 => { tau := [2, 0, 1, 3], row := 6 }
  | 52 => { tau := [3, 1, 0, 2], row := 10 }
  | _ => { tau := [0, 1, 2, 3], row := 0 }

/-- `split3op`: permutation from the reference configuration 35.
mmg3d/split_3d.c 2364-2509 -/
def cfg3op : Nat → Cfg
  | 19 => { tau := [0, 1, 2, 3], row := 0, sym := [0, 2, 1, 3], symed := [1, 0, 2, 3, 5, 4] }
  | 13 => { tau := [0, 3, 1, 2], row := 2, sym := [0, 1, 2, 3], symed := [0, 1, 2, 3, 4, 5] }
  | 37 => { tau := [0, 3, 1, 2], row := 2, sym := [0, 2, 1, 3], symed := [1, 0, 2, 3, 5, 4] }
  | 22 => { tau := [3, 1, 0, 2], row := 10, sym := [0, 1, 2, 3], symed := [0, 1, 2, 3, 4, 5] }
  | 28 => { tau := [3, 1, 0, 2], row := 10, sym := [0, 2, 1, 3], symed := [1, 0, 2, 3, 5, 4] }
  | 26 => { tau := [2, 0, 1, 3], row := 6, sym := [0, 1, 2, 3], symed := [0, 1, 2, 3, 4, 5] }
  | 14 => { tau := [0, 2, 3, 1], row := 1, sym := [0, 2, 1, 3], symed := [1, 0, 2, 3, 5, 4] }
  | 49 => { tau := [3, 2, 1, 0], row := 11, sym := [0, 1, 2, 3], symed := [0, 1, 2, 3, 4, 5] }
  | 50 => { tau := [3, 2, 1, 0], row := 11, sym := [0, 2, 1, 3], symed := [1, 0, 2, 3, 5, 4] }
  | 44 => { tau := [3, 0, 2, 1], row := 9, sym := [0, 1, 2, 3], symed := [0, 1, 2, 3, 4, 5] }
  | 41 => { tau := [1, 2, 0, 3], row := 4, sym := [0, 2, 1, 3], symed := [1, 0, 2, 3, 5, 4] }
  | _ => { tau := [0, 1, 2, 3], row := 0, sym := [0, 1, 2, 3], symed := [0, 1, 2, 3, 4, 5] }

/-- `split4sf`: permutation from the reference configuration 23.
mmg3d/split_3d.c 3259-3324 -/
def cfg4sf : Nat → Cfg
  | 29 => { tau := [1, 3, 2, 0], row := 5 }
  | 53 => { tau := [3, 0, 2, 1], row := 9 }
  | 60 => { tau := [3, 1, 0, 2], row := 10 }
  | 57 => { tau := [1, 2, 0, 3], row := 4 }
  | 58 => { tau := [2, 3, 0, 1], row := 8 }
  | 27 => { tau := [1, 0, 3, 2], row := 3 }
  | 15 => { tau := [0, 2, 3, 1], row := 1 }
  | 43 => { tau := [2, 1, 3, 0], row := 7 }
  | 39 => { tau := [0, 3, 1, 2], row := 2 }
  | 54 => { tau := [3, 2, 1, 0], row := 11 }
  | 46 => { tau := [2, 0, 1, 3], row := 6 }
  | _ => { tau := [0, 1, 2, 3], row := 0 }

/-- `split4op`: permutation from the reference configuration 30.
mmg3d/split_3d.c 3648-3672 (the same table is repeated in the simulation) -/
def cfg4op : Nat → Cfg
  | 45 => { tau := [1, 3, 2, 0], row := 5 }
  | 51 => { tau := [1, 2, 0, 3], row := 4 }
  | _ => { tau := [0, 1, 2, 3], row := 0 }

/-- `split5`: permutation from the reference configuration 62.
mmg3d/split_3d.c 4061-4098 -/
def cfg5 : Nat → Cfg
  | 61 => { tau := [2, 0, 1, 3], row := 6 }
  | 59 => { tau := [0, 3, 1, 2], row := 2 }
  | 55 => { tau := [1, 2, 0, 3], row := 4 }
  | 47 => { tau := [3, 1, 0, 2], row := 10 }
  | 31 => { tau := [3, 2, 1, 0], row := 11 }
  | _ => { tau := [0, 1, 2, 3], row := 0 }

/-- Assignments of `MMG5_split1`, mmg3d/split_3d.c 178-189. -/
def body1 : List Stmt :=
  [.v 0 1 0, .v 1 0 0, .tag 0 3 3, .tag 0 4 2, .tag 1 1 3, .tag 1 2 2, .edg0 0 3, .edg0 0 4,
   .edg0 1 1, .edg0 1 2, .ref0 0 0, .ftag0 0 0, .ori 0 0, .ref0 1 1, .ftag0 1 1, .ori 1 1]

/-- Assignments of `MMG5_split2sf`, mmg3d/split_3d.c 1310-1349. -/
def body2sf (L : Nat → Nat) (imin : Nat) : List Stmt :=
  ([.v 0 1 4, .v 0 2 5, .tag 0 0 2, .tag 0 1 1, .tag 0 3 0, .edg0 0 0, .edg0 0 1, .edg0 0 3,
   .ref0 0 3, .ftag0 0 3, .ori 0 3] : List Stmt) ++
  (if imin = L 1 then
    ([.v 1 2 5, .v 1 3 4, .v 2 3 5, .tag 1 1 1, .tag 1 2 2, .tag 1 3 0, .tag 1 5 0, .edg0 1 1,
     .edg0 1 2, .edg0 1 3, .edg0 1 5, .ref0 1 1, .ref0 1 3, .ftag0 1 1, .ftag0 1 3, .ori 1 1,
     .ori 1 3, .tag 2 2 1, .tag 2 4 0, .edg0 2 2, .edg0 2 4, .ref0 2 2, .ftag0 2 2, .ori 2 2] : List Stmt)
  else
    ([.v 1 3 4, .v 2 1 4, .v 2 3 5, .tag 1 2 2, .tag 1 5 0, .edg0 1 2, .edg0 1 5, .ref0 1 1,
     .ftag0 1 1, .ori 1 1, .tag 2 0 2, .tag 2 2 1, .tag 2 3 0, .tag 2 4 0, .edg0 2 0,
     .edg0 2 2, .edg0 2 3, .edg0 2 4, .ref0 2 2, .ref0 2 3, .ftag0 2 2, .ftag0 2 3, .ori 2 2,
     .ori 2 3] : List Stmt))

/-- Assignments of `MMG5_split2`, mmg3d/split_3d.c 1530-1563. -/
def body2 : List Stmt :=
  ([.v 0 1 0, .v 0 2 5, .v 1 1 0, .v 1 3 5, .v 2 0 0, .v 2 2 5, .v 3 0 0, .v 3 3 5,
   .tag 0 1 1, .tag0 0 3, .tag 0 4 2, .edg0 0 1, .edg0 0 3, .edg0 0 4, .ref0 0 0, .ref0 0 3,
   .ftag0 0 0, .ftag0 0 3, .ori 0 0, .ori 0 3, .tag 1 2 1, .tag 1 3 3, .tag0 1 4, .edg0 1 2,
   .edg0 1 3, .edg0 1 4, .ref0 1 0, .ref0 1 2, .ftag0 1 0, .ftag0 1 2, .ori 1 0, .ori 1 2,
   .tag0 2 1, .tag 2 2 2, .tag 2 3 0, .edg0 2 1, .edg0 2 2, .edg0 2 3, .ref0 2 1, .ref0 2 3,
   .ftag0 2 1, .ftag0 2 3, .ori 2 1, .ori 2 3, .tag 3 1 3, .tag0 3 2, .tag 3 4 0, .edg0 3 1,
   .edg0 3 2, .edg0 3 4, .ref0 3 1, .ref0 3 2, .ftag0 3 1, .ftag0 3 2, .ori 3 1, .ori 3 2] : List Stmt)

/-- Assignments of `MMG5_split3`, mmg3d/split_3d.c 1752-1782. -/
def body3 : List Stmt :=
  ([.v 0 1 0, .v 0 2 1, .v 1 0 0, .v 1 2 3, .v 2 0 1, .v 2 1 3, .v 3 0 0, .v 3 1 3, .v 3 2 1,
   .tag 0 3 3, .tag 0 4 2, .tag 0 5 1, .edg0 0 3, .edg0 0 4, .edg0 0 5, .ref0 0 0,
   .ftag0 0 0, .ori 0 0, .tag 1 1 3, .tag 1 2 2, .tag 1 5 0, .edg0 1 1, .edg0 1 2,
   .edg0 1 5, .ref0 1 1, .ftag0 1 1, .ori 1 1, .tag 2 0 3, .tag 2 2 1, .tag 2 4 0,
   .edg0 2 0, .edg0 2 2, .edg0 2 4, .ref0 2 2, .ftag0 2 2, .ori 2 2, .tag 3 0 3, .tag 3 1 3,
   .tag 3 2 2, .tag 3 3 3, .tag 3 4 0, .tag 3 5 1, .edg0 3 0, .edg0 3 1, .edg0 3 2,
   .edg0 3 3, .edg0 3 4, .edg0 3 5, .ref0 3 0, .ref0 3 1, .ref0 3 2, .ftag0 3 0, .ftag0 3 1,
   .ftag0 3 2, .ori 3 0, .ori 3 1, .ori 3 2] : List Stmt)

/-- Assignments of `MMG5_split3cone`, mmg3d/split_3d.c 2115-2271. -/
def body3cone (L : Nat → Nat) (ia ib : Nat) : List Stmt :=
  ([.v 0 1 0, .v 0 2 1, .v 0 3 2, .tag 0 3 3, .tag 0 4 2, .tag 0 5 1, .edg0 0 3, .edg0 0 4,
   .edg0 0 5, .ref0 0 0, .ftag0 0 0, .ori 0 0] : List Stmt) ++
  (if ia = L 3 then
    ([.v 1 0 2, .v 1 1 0, .v 1 2 1, .tag 1 0 2, .tag 1 1 1, .tag 1 3 3, .tag 1 4 2, .tag 1 5 1,
     .edg0 1 0, .edg0 1 1, .edg0 1 3, .edg0 1 4, .edg0 1 5, .ref0 1 0, .ref0 1 3, .ftag0 1 0,
     .ftag0 1 3, .ori 1 0, .ori 1 3] : List Stmt) ++
    (if ib = L 1 then
      ([.v 2 0 0, .v 2 2 1, .tag 2 1 3, .tag 2 2 2, .tag 2 3 3, .tag 2 5 1, .edg0 2 1, .edg0 2 2,
       .edg0 2 3, .edg0 2 5, .ref0 2 0, .ref0 2 1, .ftag0 2 0, .ftag0 2 1, .ori 2 0, .ori 2 1,
       .v 3 0 1, .tag 3 0 3, .tag 3 2 1, .edg0 3 0, .edg0 3 2, .ref0 3 2, .ftag0 3 2, .ori 3 2] : List Stmt)
    else
      ([.v 2 0 1, .v 2 1 0, .tag 2 0 3, .tag 2 2 1, .tag 2 3 3, .tag 2 4 2, .edg0 2 0, .edg0 2 2,
       .edg0 2 3, .edg0 2 4, .ref0 2 0, .ref0 2 2, .ftag0 2 0, .ftag0 2 2, .ori 2 0, .ori 2 2,
       .v 3 0 0, .tag 3 1 3, .tag 3 2 2, .edg0 3 1, .edg0 3 2, .ref0 3 1, .ftag0 3 1, .ori 3 1] : List Stmt))
  else
    (if ia = L 2 then
      ([.v 1 0 1, .v 1 1 0, .v 1 3 2, .tag 1 0 3, .tag 1 2 1, .tag 1 3 3, .tag 1 4 2, .tag 1 5 1,
       .edg0 1 0, .edg0 1 2, .edg0 1 3, .edg0 1 4, .edg0 1 5, .ref0 1 0, .ref0 1 2, .ftag0 1 0,
       .ftag0 1 2, .ori 1 0, .ori 1 2] : List Stmt) ++
      (if ib = L 3 then
        ([.v 2 0 2, .v 2 1 0, .tag 2 0 2, .tag 2 1 1, .tag 2 3 3, .tag 2 4 2, .edg0 2 0, .edg0 2 1,
         .edg0 2 3, .edg0 2 4, .ref0 2 0, .ref0 2 3, .ftag0 2 0, .ftag0 2 3, .ori 2 0, .ori 2 3,
         .v 3 0 0, .tag 3 1 3, .tag 3 2 2, .edg0 3 1, .edg0 3 2, .ref0 3 1, .ftag0 3 1, .ori 3 1] : List Stmt)
      else
        ([.v 2 0 0, .v 2 3 2, .tag 2 1 3, .tag 2 2 2, .tag 2 4 2, .tag 2 5 1, .edg0 2 1, .edg0 2 2,
         .edg0 2 4, .edg0 2 5, .ref0 2 0, .ref0 2 1, .ftag0 2 0, .ftag0 2 1, .ori 2 0, .ori 2 1,
         .v 3 0 2, .tag 3 0 2, .tag 3 1 1, .edg0 3 0, .edg0 3 1, .ref0 3 3, .ftag0 3 3, .ori 3 3] : List Stmt))
    else
      ([.v 1 0 0, .v 1 2 1, .v 1 3 2, .tag 1 1 3, .tag 1 2 2, .tag 1 3 3, .tag 1 4 2, .tag 1 5 1,
       .edg0 1 1, .edg0 1 2, .edg0 1 3, .edg0 1 4, .edg0 1 5, .ref0 1 0, .ref0 1 1, .ftag0 1 0,
       .ftag0 1 1, .ori 1 0, .ori 1 1] : List Stmt) ++
      (if ib = L 2 then
        ([.v 2 0 1, .v 2 3 2, .tag 2 0 3, .tag 2 2 1, .tag 2 4 2, .tag 2 5 1, .edg0 2 0, .edg0 2 2,
         .edg0 2 4, .edg0 2 5, .ref0 2 0, .ref0 2 2, .ftag0 2 0, .ftag0 2 2, .ori 2 0, .ori 2 2,
         .v 3 0 2, .tag 3 0 2, .tag 3 1 1, .edg0 3 0, .edg0 3 1, .ref0 3 3, .ftag0 3 3, .ori 3 3] : List Stmt)
      else
        ([.v 2 0 2, .v 2 2 1, .tag 2 0 2, .tag 2 1 1, .tag 2 3 3, .tag 2 5 1, .edg0 2 0, .edg0 2 1,
         .edg0 2 3, .edg0 2 5, .ref0 2 0, .ref0 2 3, .ftag0 2 0, .ftag0 2 3, .ori 2 0, .ori 2 3,
         .v 3 0 1, .tag 3 0 3, .tag 3 2 1, .edg0 3 0, .edg0 3 2, .ref0 3 2, .ftag0 3 2, .ori 3 2] : List Stmt))))

/-- Assignments of `MMG5_split3op`, mmg3d/split_3d.c 2712-2883. -/
def body3op (L : Nat → Nat) (imin03 imin12 : Nat) : List Stmt :=
  (if imin12 = L 2 ∧ imin03 = L 0 then
    ([.v 0 0 1, .v 0 1 0, .v 0 3 5, .tag 0 0 3, .tag 0 2 1, .tag 0 3 3, .tag0 0 4, .edg0 0 0,
     .edg0 0 2, .edg0 0 3, .edg0 0 4, .ref0 0 0, .ref0 0 2, .ftag0 0 0, .ftag0 0 2, .ori 0 0,
     .ori 0 2, .v 1 0 0, .v 1 3 5, .tag 1 1 3, .tag0 1 2, .tag 1 4 0, .edg0 1 1, .edg0 1 2,
     .edg0 1 4, .ref0 1 1, .ref0 1 2, .ftag0 1 1, .ftag0 1 2, .ori 1 1, .ori 1 2, .v 2 0 0,
     .v 2 2 5, .tag0 2 1, .tag 2 2 2, .tag 2 3 0, .edg0 2 1, .edg0 2 2, .edg0 2 3, .ref0 2 1,
     .ref0 2 3, .ftag0 2 1, .ftag0 2 3, .ori 2 1, .ori 2 3, .v 3 1 0, .v 3 2 1, .v 3 3 5,
     .tag 3 2 1, .tag 3 3 3, .tag0 3 4, .tag 3 5 1, .edg0 3 2, .edg0 3 3, .edg0 3 4,
     .edg0 3 5, .ref0 3 0, .ref0 3 2, .ftag0 3 0, .ftag0 3 2, .ori 3 0, .ori 3 2, .v 4 1 0,
     .v 4 2 5, .tag 4 1 1, .tag0 4 3, .tag 4 4 2, .edg0 4 1, .edg0 4 3, .edg0 4 4, .ref0 4 0,
     .ref0 4 3, .ftag0 4 0, .ftag0 4 3, .ori 4 0, .ori 4 3] : List Stmt)
  else
    (if imin12 = L 1 ∧ imin03 = L 0 then
      ([.v 0 0 1, .v 0 3 5, .tag 0 0 3, .tag 0 2 1, .tag 0 4 0, .edg0 0 0, .edg0 0 2, .edg0 0 4,
       .ref0 0 2, .ftag0 0 2, .ori 0 2, .v 1 0 0, .v 1 2 1, .v 1 3 5, .tag 1 1 3, .tag0 1 2,
       .tag 1 3 3, .tag 1 4 0, .tag 1 5 1, .edg0 1 1, .edg0 1 2, .edg0 1 3, .edg0 1 4,
       .edg0 1 5, .ref0 1 0, .ref0 1 1, .ref0 1 2, .ftag0 1 0, .ftag0 1 1, .ftag0 1 2, .ori 1 0,
       .ori 1 1, .ori 1 2, .v 2 0 0, .v 2 2 5, .tag0 2 1, .tag 2 2 2, .tag 2 3 0, .edg0 2 1,
       .edg0 2 2, .edg0 2 3, .ref0 2 1, .ref0 2 3, .ftag0 2 1, .ftag0 2 3, .ori 2 1, .ori 2 3,
       .v 3 1 0, .v 3 2 5, .tag 3 1 1, .tag0 3 3, .tag 3 4 2, .edg0 3 1, .edg0 3 3, .edg0 3 4,
       .ref0 3 0, .ref0 3 3, .ftag0 3 0, .ftag0 3 3, .ori 3 0, .ori 3 3, .v 4 1 0, .v 4 2 1,
       .v 4 3 5, .tag 4 2 1, .tag 4 3 3, .tag0 4 4, .tag 4 5 1, .edg0 4 2, .edg0 4 3, .edg0 4 4,
       .edg0 4 5, .ref0 4 0, .ref0 4 2, .ftag0 4 0, .ftag0 4 2, .ori 4 0, .ori 4 2] : List Stmt)
    else
      (if imin12 = L 2 ∧ imin03 = L 3 then
        ([.v 0 1 0, .v 0 2 1, .tag 0 3 3, .tag 0 4 2, .tag 0 5 1, .edg0 0 3, .edg0 0 4, .edg0 0 5,
         .ref0 0 0, .ftag0 0 0, .ori 0 0, .v 1 0 1, .v 1 1 0, .v 1 2 5, .tag 1 0 3, .tag 1 1 1,
         .tag 1 2 1, .tag0 1 3, .tag 1 4 2, .edg0 1 0, .edg0 1 1, .edg0 1 2, .edg0 1 3, .edg0 1 4,
         .ref0 1 0, .ref0 1 2, .ref0 1 3, .ftag0 1 0, .ftag0 1 2, .ftag0 1 3, .ori 1 1, .ori 1 2,
         .ori 1 3, .v 2 0 0, .v 2 2 5, .tag0 2 1, .tag 2 2 2, .tag 2 3 0, .edg0 2 1, .edg0 2 2,
         .edg0 2 3, .ref0 2 1, .ref0 2 3, .ftag0 2 1, .ftag0 2 3, .ori 2 1, .ori 2 3, .v 3 0 1,
         .v 3 1 0, .v 3 3 5, .tag 3 0 3, .tag 3 2 1, .tag 3 3 3, .tag0 3 4, .edg0 3 0, .edg0 3 2,
         .edg0 3 3, .edg0 3 4, .ref0 3 0, .ref0 3 2, .ftag0 3 0, .ftag0 3 2, .ori 3 0, .ori 3 2,
         .v 4 0 0, .v 4 3 5, .tag 4 1 3, .tag0 4 2, .tag 4 4 0, .edg0 4 1, .edg0 4 2, .edg0 4 4,
         .ref0 4 1, .ref0 4 2, .ftag0 4 1, .ftag0 4 2, .ori 4 1, .ori 4 2] : List Stmt)
      else
        ([.v 0 1 0, .v 0 2 1, .tag 0 3 3, .tag 0 4 2, .tag 0 5 1, .edg0 0 3, .edg0 0 4, .edg0 0 5,
         .ref0 0 0, .ftag0 0 0, .ori 0 0, .v 1 0 1, .v 1 3 5, .tag 1 0 3, .tag 1 2 1, .tag 1 4 0,
         .edg0 1 0, .edg0 1 2, .edg0 1 4, .ref0 1 2, .ftag0 1 2, .ori 1 2, .v 2 0 0, .v 2 2 1,
         .tag 2 1 3, .tag 2 2 2, .tag 2 3 3, .tag 2 5 1, .edg0 2 1, .edg0 2 2, .edg0 2 3,
         .edg0 2 5, .ref0 2 0, .ref0 2 1, .ftag0 2 0, .ftag0 2 1, .ori 2 0, .ori 2 1, .v 3 0 1,
         .v 3 2 5, .tag 3 0 3, .tag 3 1 1, .tag 3 2 1, .tag 3 3 0, .edg0 3 0, .edg0 3 1,
         .edg0 3 2, .edg0 3 3, .ref0 3 2, .ref0 3 3, .ftag0 3 2, .ftag0 3 3, .ori 3 2, .ori 3 3] : List Stmt))))

/-- Assignments of `MMG5_split4sf`, mmg3d/split_3d.c 3468-3567. -/
def body4sf (L : Nat → Nat) (imin23 imin12 : Nat) : List Stmt :=
  ([.v 0 1 0, .v 0 2 1, .v 0 3 2, .tag 0 3 3, .tag 0 4 2, .tag 0 5 1, .edg0 0 3, .edg0 0 4,
   .edg0 0 5, .ref0 0 0, .ftag0 0 0, .ori 0 0, .v 1 0 2, .v 1 1 0, .v 1 2 1, .v 1 3 4,
   .tag 1 0 2, .tag 1 1 1, .tag 1 2 2, .tag 1 3 3, .tag 1 4 2, .tag0 1 5, .edg0 1 0,
   .edg0 1 1, .edg0 1 2, .edg0 1 3, .edg0 1 4, .edg0 1 5, .ref0 1 0, .ref0 1 1, .ref0 1 3,
   .ftag0 1 0, .ftag0 1 1, .ftag0 1 3, .ori 1 0, .ori 1 1, .ori 1 3] : List Stmt) ++
  (if imin12 = L 1 then
    ([.v 2 0 0, .v 2 2 1, .v 2 3 4, .tag 2 1 3, .tag 2 2 2, .tag 2 3 3, .tag0 2 5, .edg0 2 1,
     .edg0 2 2, .edg0 2 3, .edg0 2 5, .ref0 2 0, .ref0 2 1, .ftag0 2 0, .ftag0 2 1, .ori 2 0,
     .ori 2 1, .v 3 0 1, .v 3 3 4, .tag 3 0 3, .tag0 3 2, .tag 3 5 0, .edg0 3 0, .edg0 3 2,
     .edg0 3 5, .ref0 3 1, .ref0 3 2, .ftag0 3 1, .ftag0 3 2, .ori 3 1, .ori 3 2] : List Stmt)
  else
    ([.v 2 0 1, .v 2 1 0, .v 2 3 4, .tag 2 0 3, .tag0 2 2, .tag 2 3 3, .tag 2 4 2, .tag 2 5 0,
     .edg0 2 0, .edg0 2 2, .edg0 2 3, .edg0 2 4, .edg0 2 5, .ref0 2 0, .ref0 2 1, .ref0 2 2,
     .ftag0 2 0, .ftag0 2 1, .ftag0 2 2, .ori 2 0, .ori 2 1, .ori 2 2, .v 3 0 0, .v 3 3 4,
     .tag 3 1 3, .tag 3 2 2, .tag 3 5 0, .edg0 3 1, .edg0 3 2, .edg0 3 5, .ref0 3 1,
     .ftag0 3 1, .ori 3 1] : List Stmt)) ++
  (if imin23 = L 2 then
    ([.v 4 0 1, .v 4 1 4, .v 4 3 2, .tag0 4 0, .tag 4 2 1, .tag 4 3 0, .tag 4 4 2, .tag 4 5 1,
     .edg0 4 0, .edg0 4 2, .edg0 4 3, .edg0 4 4, .edg0 4 5, .ref0 4 0, .ref0 4 2, .ref0 4 3,
     .ftag0 4 0, .ftag0 4 2, .ftag0 4 3, .ori 4 0, .ori 4 2, .ori 4 3, .v 5 0 2, .v 5 1 4,
     .tag 5 0 2, .tag 5 1 1, .tag 5 3 0, .edg0 5 0, .edg0 5 1, .edg0 5 3, .ref0 5 3,
     .ftag0 5 3, .ori 5 3] : List Stmt)
  else
    ([.v 4 0 2, .v 4 1 4, .v 4 2 1, .tag 4 0 2, .tag 4 1 1, .tag0 4 3, .tag 4 5 1, .edg0 4 0,
     .edg0 4 1, .edg0 4 3, .edg0 4 5, .ref0 4 0, .ref0 4 3, .ftag0 4 0, .ftag0 4 3, .ori 4 0,
     .ori 4 3, .v 5 0 1, .v 5 1 4, .tag0 5 0, .tag 5 2 1, .tag 5 3 0, .edg0 5 0, .edg0 5 2,
     .edg0 5 3, .ref0 5 2, .ref0 5 3, .ftag0 5 2, .ftag0 5 3, .ori 5 2, .ori 5 3] : List Stmt))

/-- Assignments of `MMG5_split4op`, mmg3d/split_3d.c 3864-3978. -/
def body4op (L : Nat → Nat) (imin01 imin23 : Nat) : List Stmt :=
  (if imin01 = L 0 then
    ([.v 0 2 3, .v 0 3 4, .tag 0 1 3, .tag 0 5 0, .tag 0 2 2, .edg0 0 1, .edg0 0 5, .edg0 0 2,
     .ref0 0 1, .ftag0 0 1, .ori 0 1, .v 1 1 4, .v 1 2 3, .v 1 3 2, .tag 1 0 2, .tag 1 1 3,
     .tag 1 3 0, .tag 1 4 2, .tag0 1 5, .edg0 1 0, .edg0 1 1, .edg0 1 3, .edg0 1 4, .edg0 1 5,
     .ref0 1 0, .ref0 1 1, .ref0 1 3, .ftag0 1 0, .ftag0 1 1, .ftag0 1 3, .ori 1 0, .ori 1 1,
     .ori 1 3, .v 2 1 3, .v 2 2 1, .v 2 3 2, .tag 2 0 3, .tag 2 3 3, .tag0 2 4, .tag 2 5 1,
     .edg0 2 0, .edg0 2 3, .edg0 2 4, .edg0 2 5, .ref0 2 0, .ref0 2 2, .ftag0 2 0, .ftag0 2 2,
     .ori 2 0, .ori 2 2] : List Stmt)
  else
    ([.v 0 2 1, .v 0 3 2, .tag 0 3 3, .tag 0 4 2, .tag 0 5 1, .edg0 0 3, .edg0 0 4, .edg0 0 5,
     .ref0 0 0, .ftag0 0 0, .ori 0 0, .v 1 0 1, .v 1 2 3, .v 1 3 2, .tag 1 0 3, .tag 1 1 3,
     .tag 1 2 1, .tag 1 4 2, .tag0 1 5, .edg0 1 0, .edg0 1 1, .edg0 1 2, .edg0 1 4, .edg0 1 5,
     .ref0 1 0, .ref0 1 1, .ref0 1 2, .ftag0 1 0, .ftag0 1 1, .ftag0 1 2, .ori 1 0, .ori 1 1,
     .ori 1 2, .v 2 0 2, .v 2 2 3, .v 2 3 4, .tag 2 0 2, .tag0 2 1, .tag 2 2 2, .tag 2 5 0,
     .edg0 2 0, .edg0 2 1, .edg0 2 2, .edg0 2 5, .ref0 2 1, .ref0 2 3, .ftag0 2 1, .ftag0 2 3,
     .ori 2 1, .ori 2 3] : List Stmt)) ++
  (if imin23 = L 2 then
    ([.v 3 0 2, .v 3 1 4, .tag 3 0 2, .tag 3 1 1, .tag 3 3 0, .edg0 3 0, .edg0 3 1, .edg0 3 3,
     .ref0 3 3, .ftag0 3 3, .ori 3 3, .v 4 0 2, .v 4 1 3, .v 4 3 4, .tag0 4 0, .tag 4 1 1,
     .tag 4 2 2, .tag 4 4 0, .tag 4 5 0, .edg0 4 0, .edg0 4 1, .edg0 4 2, .edg0 4 4,
     .edg0 4 5, .ref0 4 1, .ref0 4 2, .ref0 4 3, .ftag0 4 1, .ftag0 4 2, .ftag0 4 3, .ori 4 1,
     .ori 4 2, .ori 4 3, .v 5 0 1, .v 5 1 3, .v 5 3 2, .tag 5 0 3, .tag 5 2 1, .tag0 5 4,
     .tag 5 5 1, .edg0 5 0, .edg0 5 2, .edg0 5 4, .edg0 5 5, .ref0 5 0, .ref0 5 2, .ftag0 5 0,
     .ftag0 5 2, .ori 5 0, .ori 5 2] : List Stmt)
  else
    ([.v 3 0 1, .v 3 1 3, .tag 3 0 3, .tag 3 2 1, .tag 3 4 0, .edg0 3 0, .edg0 3 2, .edg0 3 4,
     .ref0 3 2, .ftag0 3 2, .ori 3 2, .v 4 0 2, .v 4 1 3, .v 4 2 1, .tag0 4 0, .tag 4 1 1,
     .tag 4 3 3, .tag 4 4 0, .tag 4 5 1, .edg0 4 0, .edg0 4 1, .edg0 4 3, .edg0 4 4,
     .edg0 4 5, .ref0 4 0, .ref0 4 2, .ref0 4 3, .ftag0 4 0, .ftag0 4 2, .ftag0 4 3, .ori 4 0,
     .ori 4 2, .ori 4 3, .v 5 0 2, .v 5 1 4, .v 5 2 3, .tag 5 0 2, .tag0 5 1, .tag 5 3 0,
     .tag 5 5 0, .edg0 5 0, .edg0 5 1, .edg0 5 3, .edg0 5 5, .ref0 5 1, .ref0 5 3, .ftag0 5 1,
     .ftag0 5 3, .ori 5 1, .ori 5 3] : List Stmt))

/-- Assignments of `MMG5_split5`, mmg3d/split_3d.c 4232-4332. -/
def body5 (L : Nat → Nat) (imin : Nat) : List Stmt :=
  ([.v 0 0 2, .v 0 1 4, .v 0 2 5, .tag 0 0 2, .tag 0 1 1, .tag 0 3 0, .edg0 0 0, .edg0 0 1,
   .edg0 0 3, .ref0 0 3, .ftag0 0 3, .ori 0 3, .v 1 0 1, .v 1 1 3, .v 1 3 5, .tag 1 0 3,
   .tag 1 2 1, .tag 1 4 0, .edg0 1 0, .edg0 1 2, .edg0 1 4, .ref0 1 2, .ftag0 1 2, .ori 1 2,
   .v 2 0 2, .v 2 1 4, .v 2 2 3, .v 2 3 5, .tag 2 0 2, .tag0 2 1, .tag 2 2 1, .tag 2 3 0,
   .tag 2 4 0, .tag 2 5 0, .edg0 2 0, .edg0 2 1, .edg0 2 2, .edg0 2 3, .edg0 2 4, .edg0 2 5,
   .ref0 2 1, .ref0 2 2, .ref0 2 3, .ftag0 2 1, .ftag0 2 2, .ftag0 2 3, .ori 2 1, .ori 2 2,
   .ori 2 3, .v 3 0 2, .v 3 1 3, .v 3 2 1, .v 3 3 5, .tag0 3 0, .tag 3 1 1, .tag 3 2 1,
   .tag 3 3 3, .tag 3 4 0, .tag 3 5 1, .edg0 3 0, .edg0 3 1, .edg0 3 2, .edg0 3 3,
   .edg0 3 4, .edg0 3 5, .ref0 3 0, .ref0 3 2, .ref0 3 3, .ftag0 3 0, .ftag0 3 2,
   .ftag0 3 3, .ori 3 0, .ori 3 2, .ori 3 3] : List Stmt) ++
  (if imin = L 0 then
    ([.v 4 2 3, .v 4 3 4, .tag 4 1 3, .tag 4 2 2, .tag 4 5 0, .edg0 4 1, .edg0 4 2, .edg0 4 5,
     .ref0 4 1, .ftag0 4 1, .ori 4 1, .v 5 1 4, .v 5 2 3, .v 5 3 2, .tag 5 0 2, .tag 5 1 3,
     .tag 5 3 0, .tag 5 4 2, .tag0 5 5, .edg0 5 0, .edg0 5 1, .edg0 5 3, .edg0 5 4, .edg0 5 5,
     .ref0 5 0, .ref0 5 1, .ref0 5 3, .ftag0 5 0, .ftag0 5 1, .ftag0 5 3, .ori 5 0, .ori 5 1,
     .ori 5 3, .v 6 1 3, .v 6 2 1, .v 6 3 2, .tag 6 0 3, .tag 6 3 3, .tag0 6 4, .tag 6 5 1,
     .edg0 6 0, .edg0 6 3, .edg0 6 4, .edg0 6 5, .ref0 6 0, .ref0 6 2, .ftag0 6 0, .ftag0 6 2,
     .ori 6 0, .ori 6 2] : List Stmt)
  else
    ([.v 4 2 1, .v 4 3 2, .tag 4 3 3, .tag 4 4 2, .tag 4 5 1, .edg0 4 3, .edg0 4 4, .edg0 4 5,
     .ref0 4 0, .ftag0 4 0, .ori 4 0, .v 5 0 2, .v 5 2 3, .v 5 3 4, .tag 5 0 2, .tag0 5 1,
     .tag 5 2 2, .tag 5 5 0, .edg0 5 0, .edg0 5 1, .edg0 5 2, .edg0 5 5, .ref0 5 1, .ref0 5 3,
     .ftag0 5 1, .ftag0 5 3, .ori 5 1, .ori 5 3, .v 6 0 1, .v 6 2 3, .v 6 3 2, .tag 6 0 3,
     .tag 6 1 3, .tag 6 2 1, .tag 6 4 2, .tag0 6 5, .edg0 6 0, .edg0 6 1, .edg0 6 2,
     .edg0 6 4, .edg0 6 5, .ref0 6 0, .ref0 6 1, .ref0 6 2, .ftag0 6 0, .ftag0 6 1,
     .ftag0 6 2, .ori 6 0, .ori 6 1, .ori 6 2] : List Stmt))

/-- Assignments of `MMG5_split6`, mmg3d/split_3d.c 4524-4846. -/
def body6 : List Stmt :=
  [.v 0 1 0, .v 0 2 1, .v 0 3 2, .tag 0 3 3, .tag 0 4 2, .tag 0 5 1, .edg0 0 3, .edg0 0 4,
   .edg0 0 5, .ref0 0 0, .ftag0 0 0, .ori 0 0, .v 1 0 0, .v 1 2 3, .v 1 3 4, .tag 1 1 3,
   .tag 1 2 2, .tag 1 5 0, .edg0 1 1, .edg0 1 2, .edg0 1 5, .ref0 1 1, .ftag0 1 1, .ori 1 1,
   .v 2 0 1, .v 2 1 3, .v 2 3 5, .tag 2 0 3, .tag 2 2 1, .tag 2 4 0, .edg0 2 0, .edg0 2 2,
   .edg0 2 4, .ref0 2 2, .ftag0 2 2, .ori 2 2, .v 3 0 2, .v 3 1 4, .v 3 2 5, .tag 3 0 2,
   .tag 3 1 1, .tag 3 3 0, .edg0 3 0, .edg0 3 1, .edg0 3 3, .ref0 3 3, .ftag0 3 3, .ori 3 3,
   .v 4 0 0, .v 4 1 3, .v 4 2 1, .v 4 3 2, .tag 4 0 3, .tag 4 1 3, .tag 4 2 2, .tag 4 3 3,
   .edg0 4 0, .edg0 4 1, .edg0 4 2, .edg0 4 3, .tag0 4 4, .edg0 4 4, .tag 4 5 1, .edg0 4 5,
   .ref0 4 0, .ref0 4 1, .ref0 4 2, .ftag0 4 0, .ftag0 4 1, .ftag0 4 2, .ori 4 0, .ori 4 1,
   .ori 4 2, .v 5 0 2, .v 5 1 0, .v 5 2 3, .v 5 3 4, .tag 5 0 2, .tag0 5 1, .tag 5 2 2,
   .tag 5 3 3, .tag 5 4 2, .tag 5 5 0, .edg0 5 0, .edg0 5 1, .edg0 5 2, .edg0 5 3,
   .edg0 5 4, .edg0 5 5, .ref0 5 0, .ref0 5 1, .ref0 5 3, .ftag0 5 0, .ftag0 5 1,
   .ftag0 5 3, .ori 5 0, .ori 5 1, .ori 5 3, .v 6 0 2, .v 6 1 3, .v 6 2 1, .v 6 3 5,
   .tag0 6 0, .edg0 6 0, .tag 6 1 1, .tag 6 2 1, .tag 6 3 3, .tag 6 4 0, .edg0 6 1,
   .edg0 6 2, .edg0 6 3, .edg0 6 4, .tag 6 5 3, .edg0 6 5, .ref0 6 0, .ref0 6 2, .ref0 6 3,
   .ftag0 6 0, .ftag0 6 2, .ftag0 6 3, .ori 6 0, .ori 6 2, .ori 6 3, .v 7 0 2, .v 7 1 3,
   .v 7 2 5, .v 7 3 4, .tag0 7 0, .tag 7 1 1, .tag 7 2 2, .tag 7 3 0, .tag 7 4 0,
   .tag 7 5 0, .edg0 7 0, .edg0 7 1, .edg0 7 2, .edg0 7 3, .edg0 7 4, .edg0 7 5, .ref0 7 1,
   .ref0 7 2, .ref0 7 3, .ftag0 7 1, .ftag0 7 2, .ftag0 7 3, .ori 7 1, .ori 7 2, .ori 7 3]

/-- Assignments of `MMG5_split4bar` (`ib` is the new barycentre),
mmg3d/split_3d.c 3147-3177. -/
def body4bar : List Stmt :=
  [.vb 0 0, .vb 1 1, .vb 2 2, .vb 3 3, .tag0 0 0, .edg0 0 0, .tag0 0 1, .edg0 0 1,
   .tag0 0 2, .edg0 0 2, .ref0 0 1, .ref0 0 2, .ref0 0 3, .ftag0 0 1, .ftag0 0 2,
   .ftag0 0 3, .ori 0 1, .ori 0 2, .ori 0 3, .tag0 1 0, .edg0 1 0, .tag0 1 3, .edg0 1 3,
   .tag0 1 4, .edg0 1 4, .ref0 1 0, .ref0 1 2, .ref0 1 3, .ftag0 1 0, .ftag0 1 2,
   .ftag0 1 3, .ori 1 0, .ori 1 2, .ori 1 3, .tag0 2 1, .edg0 2 1, .tag0 2 3, .edg0 2 3,
   .tag0 2 5, .edg0 2 5, .ref0 2 0, .ref0 2 1, .ref0 2 3, .ftag0 2 0, .ftag0 2 1,
   .ftag0 2 3, .ori 2 0, .ori 2 1, .ori 2 3, .tag0 3 2, .edg0 3 2, .tag0 3 4, .edg0 3 4,
   .tag0 3 5, .edg0 3 5, .ref0 3 0, .ref0 3 1, .ref0 3 2, .ftag0 3 0, .ftag0 3 1,
   .ftag0 3 2, .ori 3 0, .ori 3 1, .ori 3 2]

/-- Tetrahedra tested by `MMG3D_split1_sim`: each is the old one with the listed vertices
replaced by edge points, mmg3d/split_3d.c 111-121. -/
def sim1 : List (List (Nat × Nat)) :=
  [[(1, 0)],
   [(0, 0)]]

/-- Tetrahedra tested by `MMG3D_split2sf_sim`, mmg3d/split_3d.c 1119-1149. -/
def sim2sf (L : Nat → Nat) (imin : Nat) : List (List (Nat × Nat)) :=
  [[(1, 4), (2, 5)]] ++
  (if imin = L 1 then
    [[(2, 5), (3, 4)],
     [(3, 5)]]
  else
    [[(3, 4)],
     [(1, 4), (3, 5)]])

/-- Tetrahedra tested by `MMG3D_split2_sim`, mmg3d/split_3d.c 1454-1474. -/
def sim2 : List (List (Nat × Nat)) :=
  [[(1, 0), (2, 5)],
   [(1, 0), (3, 5)],
   [(0, 0), (2, 5)],
   [(0, 0), (3, 5)]]

/-- Tetrahedra tested by `MMG3D_split3_sim`, mmg3d/split_3d.c 1667-1692. -/
def sim3 : List (List (Nat × Nat)) :=
  [[(1, 0), (2, 1)],
   [(0, 0), (2, 3)],
   [(0, 1), (1, 3)],
   [(0, 0), (1, 3), (2, 1)]]

/-- Tetrahedra tested by `MMG3D_split3cone_sim`, mmg3d/split_3d.c 1937-2046. -/
def sim3cone (L : Nat → Nat) (ia ib : Nat) : List (List (Nat × Nat)) :=
  [[(1, 0), (2, 1), (3, 2)]] ++
  (if ia = L 3 then
    [[(0, 2), (1, 0), (2, 1)]] ++
    (if ib = L 1 then
      [[(0, 0), (2, 1)],
       [(0, 1)]]
    else
      [[(0, 1), (1, 0)],
       [(0, 0)]])
  else
    (if ia = L 2 then
      [[(0, 1), (1, 0), (3, 2)]] ++
      (if ib = L 3 then
        [[(0, 2), (1, 0)],
         [(0, 0)]]
      else
        [[(0, 0), (3, 2)],
         [(0, 2)]])
    else
      [[(0, 0), (2, 1), (3, 2)]] ++
      (if ib = L 2 then
        [[(0, 1), (3, 2)],
         [(0, 2)]]
      else
        [[(0, 2), (2, 1)],
         [(0, 1)]])))

/-- Tetrahedra tested by `MMG3D_split3op_sim`, mmg3d/split_3d.c 2539-2639. -/
def sim3op (L : Nat → Nat) (imin03 imin12 : Nat) : List (List (Nat × Nat)) :=
  (if imin12 = L 2 ∧ imin03 = L 0 then
    [[(0, 1), (1, 0), (3, 5)],
     [(0, 0), (3, 5)],
     [(0, 0), (2, 5)],
     [(1, 0), (2, 1), (3, 5)],
     [(1, 0), (2, 5)]]
  else
    (if imin12 = L 1 ∧ imin03 = L 0 then
      [[(0, 1), (3, 5)],
       [(0, 0), (2, 1), (3, 5)],
       [(0, 0), (2, 5)],
       [(1, 0), (2, 5)],
       [(1, 0), (2, 1), (3, 5)]]
    else
      (if imin12 = L 2 ∧ imin03 = L 3 then
        [[(1, 0), (2, 1)],
         [(0, 1), (1, 0), (2, 5)],
         [(0, 0), (2, 5)],
         [(0, 1), (1, 0), (3, 5)],
         [(0, 0), (3, 5)]]
      else
        [[(1, 0), (2, 1)],
         [(0, 1), (3, 5)],
         [(0, 0), (2, 1)],
         [(0, 1), (2, 5)]])))

/-- Tetrahedra tested by `MMG3D_split4sf_sim`, mmg3d/split_3d.c 3354-3425. -/
def sim4sf (L : Nat → Nat) (imin23 imin12 : Nat) : List (List (Nat × Nat)) :=
  [[(1, 0), (2, 1), (3, 2)],
   [(0, 2), (1, 0), (2, 1), (3, 4)]] ++
  (if imin12 = L 1 then
    [[(0, 0), (2, 1), (3, 4)],
     [(0, 1), (3, 4)]]
  else
    [[(0, 1), (1, 0), (3, 4)],
     [(0, 0), (3, 4)]]) ++
  (if imin23 = L 2 then
    [[(0, 1), (1, 4), (3, 2)],
     [(0, 2), (1, 4)]]
  else
    [[(0, 2), (1, 4), (2, 1)],
     [(0, 1), (1, 4)]])

/-- Tetrahedra tested by `MMG3D_split4op_sim`, mmg3d/split_3d.c 3719-3791. -/
def sim4op (L : Nat → Nat) (imin01 imin23 : Nat) : List (List (Nat × Nat)) :=
  (if imin01 = L 0 then
    [[(2, 3), (3, 4)],
     [(1, 4), (2, 3), (3, 2)],
     [(1, 3), (2, 1), (3, 2)]]
  else
    [[(2, 1), (3, 2)],
     [(0, 1), (2, 3), (3, 2)],
     [(0, 2), (2, 3), (3, 4)]]) ++
  (if imin23 = L 2 then
    [[(0, 2), (1, 4)],
     [(0, 2), (1, 3), (3, 4)],
     [(0, 1), (1, 3), (3, 2)]]
  else
    [[(0, 1), (1, 3)],
     [(0, 2), (1, 3), (2, 1)],
     [(0, 2), (1, 4), (2, 3)]])

/-- Tetrahedra tested by `MMG3D_split5_sim`, mmg3d/split_3d.c 4128-4188. -/
def sim5 (L : Nat → Nat) (imin : Nat) : List (List (Nat × Nat)) :=
  [[(0, 2), (1, 4), (2, 5)],
   [(0, 1), (1, 3), (3, 5)],
   [(0, 2), (1, 4), (2, 3), (3, 5)],
   [(0, 2), (1, 3), (2, 1), (3, 5)]] ++
  (if imin = L 0 then
    [[(2, 3), (3, 4)],
     [(1, 4), (2, 3), (3, 2)],
     [(1, 3), (2, 1), (3, 2)]]
  else
    [[(2, 1), (3, 2)],
     [(0, 2), (2, 3), (3, 4)],
     [(0, 1), (2, 3), (3, 2)]])

/-- Tetrahedra tested by `MMG3D_split6_sim`, mmg3d/split_3d.c 4424-4468. -/
def sim6 : List (List (Nat × Nat)) :=
  [[(1, 0), (2, 1), (3, 2)],
   [(0, 0), (2, 3), (3, 4)],
   [(0, 1), (1, 3), (3, 5)],
   [(0, 2), (1, 4), (2, 5)],
   [(0, 0), (1, 3), (2, 1), (3, 2)],
   [(0, 2), (1, 0), (2, 3), (3, 4)],
   [(0, 2), (1, 3), (2, 1), (3, 5)],
   [(0, 2), (1, 3), (2, 5), (3, 4)]]
/-! ### The split functions -/

/-- `MMG5_split1`, mmg3d/split_3d.c 134-250. -/
def split1 (flag : Nat) : Prog := { ne := 2, cfg := cfg1 flag, body := body1 }

/-- `MMG5_split2sf_globNum`, mmg3d/split_3d.c 1276-1414. -/
def split2sf (flag : Nat) (lt : Cmp) : Prog :=
  let c := cfg2sf flag
  { ne := 3, cfg := c, body := body2sf c.L (imin lt (c.L 1) (c.L 2)) }

/-- `MMG5_split2`, mmg3d/split_3d.c 1489-1633. -/
def split2 (flag : Nat) : Prog := { ne := 4, cfg := cfg2 flag, body := body2 }

/-- `MMG5_split3`, mmg3d/split_3d.c 1707-1848. -/
def split3 (flag : Nat) : Prog := { ne := 4, cfg := cfg3 flag, body := body3 }

/-- `MMG5_split3cone_globNum`, mmg3d/split_3d.c 2081-2338. -/
def split3cone (flag : Nat) (lt : Cmp) : Prog :=
  let c := cfg3cone flag
  let ab := cone lt (c.L 1) (c.L 2) (c.L 3)
  { ne := 4, cfg := c, body := body3cone c.L ab.1 ab.2 }

/-- `MMG5_split3op`, mmg3d/split_3d.c 2654-3035: the fifth tetrahedron is created unless
`imin12 == ip1` and `imin03 == ip3`. -/
def split3op (flag : Nat) (lt : Cmp) : Prog :=
  let c := cfg3op flag
  let imin03 := imin lt (c.L 0) (c.L 3)
  let imin12 := imin lt (c.L 1) (c.L 2)
  { ne := if imin12 = c.L 1 ∧ imin03 = c.L 3 then 4 else 5, cfg := c,
    body := body3op c.L imin03 imin12 }

/-- `MMG5_split4sf`, mmg3d/split_3d.c 3440-3634. -/
def split4sf (flag : Nat) (lt : Cmp) : Prog :=
  let c := cfg4sf flag
  { ne := 6, cfg := c, body := body4sf c.L (imin lt (c.L 2) (c.L 3)) (imin lt (c.L 1) (c.L 2)) }

/-- `MMG5_split4op_globNum`, mmg3d/split_3d.c 3826-4048. -/
def split4op (flag : Nat) (lt : Cmp) : Prog :=
  let c := cfg4op flag
  { ne := 6, cfg := c, body := body4op c.L (imin lt (c.L 0) (c.L 1)) (imin lt (c.L 2) (c.L 3)) }

/-- `MMG5_split5`, mmg3d/split_3d.c 4203-4401. -/
def split5 (flag : Nat) (lt : Cmp) : Prog :=
  let c := cfg5 flag
  { ne := 7, cfg := c, body := body5 c.L (imin lt (c.L 0) (c.L 1)) }

/-- Identity configuration used by `split6` and `split4bar`, which index directly. -/
def cfgId : Cfg := { tau := [0, 1, 2, 3], row := 0 }

/-- `MMG5_split6`, mmg3d/split_3d.c 4483-4846. -/
def split6 : Prog := { ne := 8, cfg := cfgId, body := body6 }

/-- `MMG5_split4bar`, mmg3d/split_3d.c 3050-3245. -/
def split4bar : Prog := { ne := 4, cfg := cfgId, body := body4bar }

/-- Choice of the split function from the set of split edges (bit `e` of `flag` is set when edge
`e` carries a new point), mmg3d/mmg3d1.c 1554-1608 (the same `switch` is repeated at
160-290, 2580-2720 and mmg3d/mmg3d2.c 1215-1250). -/
def prog (flag : Nat) (lt : Cmp) : Option Prog :=
  if flag ∈ [1, 2, 4, 8, 16, 32] then some (split1 flag)
  else if flag ∈ [48, 24, 40, 6, 34, 36, 20, 5, 17, 9, 3, 10] then some (split2sf flag lt)
  else if flag ∈ [33, 18, 12] then some (split2 flag)
  else if flag ∈ [11, 21, 38, 56] then some (split3 flag)
  else if flag ∈ [7, 25, 42, 52] then some (split3cone flag lt)
  else if flag ∈ [35, 19, 13, 37, 22, 28, 26, 14, 49, 50, 44, 41] then some (split3op flag lt)
  else if flag ∈ [23, 29, 53, 60, 57, 58, 27, 15, 43, 39, 54, 46] then some (split4sf flag lt)
  else if flag ∈ [30, 45, 51] then some (split4op flag lt)
  else if flag ∈ [62, 61, 59, 55, 47, 31] then some (split5 flag lt)
  else if flag = 63 then some split6
  else none

/-! ### Simulations -/

/-- Tetrahedron tested by a simulation: the old one with some vertices replaced by the points of
edges. -/
def simTet (c : Cfg) (vx : Nat → V) (v : List V) (l : List (Nat × Nat)) : List V :=
  l.foldl (fun w p => w.set (c.L p.1) (vx (c.E p.2))) v

/-- The tetrahedra tested before a split: dispatch of mmg3d/mmg3d1.c 182-219 on the simulations
of mmg3d/split_3d.c. -/
def simList (flag : Nat) (lt : Cmp) : Option (Cfg × List (List (Nat × Nat))) :=
  if flag ∈ [1, 2, 4, 8, 16, 32] then some (cfg1 flag, sim1)
  else if flag ∈ [48, 24, 40, 6, 34, 36, 20, 5, 17, 9, 3, 10] then
    let c := cfg2sf flag
    some (c, sim2sf c.L (imin lt (c.L 1) (c.L 2)))
  else if flag ∈ [33, 18, 12] then some (cfg2 flag, sim2)
  else if flag ∈ [11, 21, 38, 56] then some (cfg3 flag, sim3)
  else if flag ∈ [7, 25, 42, 52] then
    let c := cfg3cone flag
    let ab := cone lt (c.L 1) (c.L 2) (c.L 3)
    some (c, sim3cone c.L ab.1 ab.2)
  else if flag ∈ [35, 19, 13, 37, 22, 28, 26, 14, 49, 50, 44, 41] then
    let c := cfg3op flag
    some (c, sim3op c.L (imin lt (c.L 0) (c.L 3)) (imin lt (c.L 1) (c.L 2)))
  else if flag ∈ [23, 29, 53, 60, 57, 58, 27, 15, 43, 39, 54, 46] then
    let c := cfg4sf flag
    some (c, sim4sf c.L (imin lt (c.L 2) (c.L 3)) (imin lt (c.L 1) (c.L 2)))
  else if flag ∈ [30, 45, 51] then
    let c := cfg4op flag
    some (c, sim4op c.L (imin lt (c.L 0) (c.L 1)) (imin lt (c.L 2) (c.L 3)))
  else if flag ∈ [62, 61, 59, 55, 47, 31] then
    let c := cfg5 flag
    some (c, sim5 c.L (imin lt (c.L 0) (c.L 1)))
  else if flag = 63 then some (cfgId, sim6)
  else none

/-! ### Instances -/

/-- Values of the C code: vertex numbers, 16-bit tags, references, orientation bits. -/
abbrev CTet := Tet Nat (BitVec 16) Int Bool

/-- `tag & ~MG_REF` (`MG_REF` is 1). -/
def stripRef (t : BitVec 16) : BitVec 16 := t &&& ~~~1#16

/-- The local array `ftag` of a split function.  All functions but `MMG5_split6` fill it from the
boundary record of the parent; `MMG5_split6` (mmg3d/split_3d.c 4520-4522) fills it from the local
variable `xt` before this variable is initialised, so its content is arbitrary (`junk`). -/
def ftagLocal (flag : Nat) (junk : Nat → BitVec 16) (t : CTet) (f : Nat) : BitVec 16 :=
  if flag = 63 then stripRef (junk f) else stripRef (t.ftag.getD f 0)

/-- The values read by a split function. -/
def srcC (flag : Nat) (junk : Nat → BitVec 16) (vx : Nat → Nat) (ib : Nat) (t : CTet) :
    Src Nat (BitVec 16) Int Bool :=
  { vx := vx, ib := ib, fs := ftagLocal flag junk t, zT := 0, zR := 0, one := true }

/-- Split of the tetrahedron `t` whose edges in `flag` carry the points `vx`. -/
def split (flag : Nat) (junk : Nat → BitVec 16) (vx : Nat → Nat) (t : CTet) :
    Option (List CTet) :=
  (prog flag (cmpOf fun i => t.v.getD i 0)).map fun p => exec p (srcC flag junk vx 0 t) t

/-- Star split of the tetrahedron `t` around the new point `ib`. -/
def starSplit (ib : Nat) (t : CTet) : List CTet :=
  exec split4bar (srcC 0 (fun _ => 0) (fun _ => 0) ib t) t

/-- Vertices of the tetrahedra tested before the split. -/
def simTets (flag : Nat) (vx : Nat → Nat) (v : List Nat) : Option (List (List Nat)) :=
  (simList flag (cmpOf fun i => v.getD i 0)).map fun cl => cl.2.map (simTet cl.1 vx v)

end Mmg.Split3
