/-
  Model of the table of the geometric edges of a 3D mesh: `MMG5_hNew`, `MMG5_hEdge`, `MMG5_hTag`, `MMG5_hGet`
  (mmg3d/hash_3d.c 914-1105), of `MMG5_hGeom` (hash_3d.c 1111-1246), which gives the edges of the user to the triangles, and of
  the part of `MMG3D_bdryBuild` (mmg3d/libmmg3d.c 116-168) that makes the edges of the output.

  Simplifications.  Indices are unbounded naturals.  A growth of the table (`MMG5_TAB_RECALLOC`) is answered by the environment,
  `some g` or `none`, as in `Verif.HashModel`; the first allocation succeeds.  An access outside of the table and an endless walk
  are the outcome `ub`.  `MMG5_hPop`, which no function of the library calls, is left out.  An extra structure `xtetra[pt->xt]`
  is part of its tetrahedron.
-/
import Verif.HashModel
import Verif.OrientModel

namespace Mmg.GEdge

open Mmg.Hash (Outcome WalkRes bucket)
open Mmg.Orient (has mgREF mgGEO mgREQ mgNOM mgNOSURF mgPARBDY mgPARBDYBDY)

/-- `MMG5_hgeom` (common/libmmgtypes.h). -/
structure GCell where
  a : Nat
  b : Nat
  ref : Int
  tag : BitVec 16
  nxt : Nat

def GCell.zero : GCell := ⟨0, 0, 0, 0, 0⟩

/-- `MMG5_HGeom`; `geom` has `max + 1` cells. -/
structure HGeom where
  siz : Nat
  max : Nat
  nxt : Nat
  geom : Nat → GCell

def HGeom.put (h : HGeom) (p : Nat) (c : GCell) : HGeom := { h with geom := fun j => if j = p then c else h.geom j }

/-- `MMG5_hNew`, lines 1083-1105. -/
def hNew (hsiz hmax : Nat) : HGeom where
  siz := hsiz + 1
  max := hmax + 2
  nxt := hsiz + 1
  geom := fun k => if hsiz + 1 ≤ k ∧ k < hmax + 2 then { GCell.zero with nxt := k + 1 } else GCell.zero

/-- `ph->a == ia && ph->b == ib`. -/
def gmatch (ia ib : Nat) (c : GCell) : Bool := c.a == ia && c.b == ib

/-- `while ( ph->nxt ) { ph = &hash->geom[ph->nxt]; if match ... }`. -/
def walk (ia ib : Nat) (h : HGeom) : Nat → Nat → Outcome WalkRes
  | 0, _ => .ub
  | fuel + 1, p =>
    if h.max < p then .ub
    else
      let n := (h.geom p).nxt
      if n ≠ 0 then
        if h.max < n then .ub
        else if gmatch ia ib (h.geom n) then .ok (.hit n)
        else walk ia ib h fuel n
      else .ok (.tail p)

/-- The cell of an edge: the search of `hTag`, `hGet` (lines 920-940, 1016-1036). -/
def find (h : HGeom) (a b : Nat) : Outcome (Option Nat) :=
  let ia := Nat.min a b
  let ib := Nat.max a b
  if h.siz = 0 then .ub
  else
    let p := bucket h.siz ia ib
    if h.max < p then .ub
    else if (h.geom p).a = 0 then .ok none
    else if gmatch ia ib (h.geom p) then .ok (some p)
    else
      match walk ia ib h (h.max + 2) p with
      | .ub => .ub
      | .fail => .fail
      | .ok (.hit q) => .ok (some q)
      | .ok (.tail _) => .ok none

/-- `MMG5_hGet`, lines 1007-1037: reference and tag, zero when the edge is not there. -/
def hGet (h : HGeom) (a b : Nat) : Outcome (Int × BitVec 16) :=
  match find h a b with
  | .ub => .ub
  | .fail => .fail
  | .ok none => .ok (0, 0)
  | .ok (some p) => .ok ((h.geom p).ref, (h.geom p).tag)

/-- `MMG5_hTag`, lines 914-944. -/
def hTag (h : HGeom) (a b : Nat) (ref : Int) (tag : BitVec 16) : Outcome (HGeom × Bool) :=
  match find h a b with
  | .ub => .ub
  | .fail => .fail
  | .ok none => .ok (h, false)
  | .ok (some p) =>
    let c := h.geom p
    .ok (h.put p { c with tag := c.tag ||| tag, ref := if ref ≠ 0 then ref else c.ref }, true)

/-- The end of `MMG5_hEdge`, lines 1059-1073: a new cell after the cell `t`. -/
def append (h : HGeom) (t ia ib : Nat) (ref : Int) (tag : BitVec 16) (g : Option Nat) : Outcome HGeom :=
  let h1 := h.put t { h.geom t with nxt := h.nxt }
  if h1.max < h.nxt then .ub
  else
    let c := h1.geom h.nxt
    let h2 := ({ h1 with nxt := c.nxt } : HGeom).put h.nxt { a := ia, b := ib, ref := ref, tag := tag, nxt := 0 }
    if h2.max ≤ h2.nxt then
      match g with
      | none => .fail
      | some g =>
        let h3 : HGeom := { h2 with max := h2.max + g, geom := fun j => if h2.max < j then GCell.zero else h2.geom j }
        .ok { h3 with geom := fun j => if h3.nxt ≤ j ∧ j < h3.max then { h3.geom j with nxt := j + 1 } else h3.geom j }
    else .ok h2

/-- `MMG5_hEdge`, lines 1040-1080. -/
def hEdge (h : HGeom) (a b : Nat) (ref : Int) (tag : BitVec 16) (g : Option Nat) : Outcome HGeom :=
  let ia := Nat.min a b
  let ib := Nat.max a b
  if h.siz = 0 then .ub
  else
    let p := bucket h.siz ia ib
    if h.max < p then .ub
    else if gmatch ia ib (h.geom p) then .ok h
    else if (h.geom p).a ≠ 0 then
      match walk ia ib h (h.max + 2) p with
      | .ub => .ub
      | .fail => .fail
      | .ok (.hit _) => .ok h
      | .ok (.tail t) => append h t ia ib ref tag g
    else .ok (h.put p { a := ia, b := ib, ref := ref, tag := tag, nxt := 0 })

/-- An edge: `MMG5_Edge`. -/
structure Edge where
  a : Nat
  b : Nat
  ref : Int
  tag : BitVec 16

/-- `hEdge` for a list of edges; `g j` is the answer of the allocator at the `j`-th call. -/
def storeAll (g : Nat → Option Nat) : List Edge → Nat → HGeom → Outcome HGeom
  | [], _, h => .ok h
  | e :: l, j, h =>
    match hEdge h e.a e.b e.ref e.tag (g j) with
    | .ub => .ub
    | .fail => .fail
    | .ok h' => storeAll g l (j + 1) h'

/-! ### `MMG5_hGeom` -/

/-- The triangles; `adj k i` is the neighbour `adjt[3*(k-1)+1+i] / 3`. -/
structure Env where
  nt : Nat
  v : Nat → Fin 3 → Nat
  adj : Nat → Fin 3 → Nat
  nosurf : Bool
  iso : Bool
  isoref : Int

structure St where
  h : HGeom
  edg : Nat → Fin 3 → Int
  tag : Nat → Fin 3 → BitVec 16

def set2 {α : Type} (f : Nat → Fin 3 → α) (x : Nat × Fin 3) (c : α) : Nat → Fin 3 → α :=
  fun k i => if k = x.1 ∧ i = x.2 then c else f k i

/-- The loops `for k, for i`. -/
def sides (E : Env) : List (Nat × Fin 3) := (List.range' 1 E.nt).flatMap fun k => [(k, 0), (k, 1), (k, 2)]

/-- `(pt->tag[i] & MG_PARBDY) && !(pt->tag[i] & MG_PARBDYBDY)`. -/
def skip (t : BitVec 16) : Bool := has t mgPARBDY && !has t mgPARBDYBDY

/-- Loop over the sides; `g j` is the answer of the allocator at the `j`-th side. -/
def overSides (f : Option Nat → St → Nat × Fin 3 → Outcome St) (g : Nat → Option Nat) : List (Nat × Fin 3) → Nat → St → Outcome St
  | [], _, s => .ok s
  | x :: l, j, s =>
    match f (g j) s x with
    | .ub => .ub
    | .fail => .fail
    | .ok s' => overSides f g l (j + 1) s'

/-- Lines 1152-1160: a non-manifold side. -/
def nomSide (E : Env) (g : Option Nat) (s : St) (x : Nat × Fin 3) : Outcome HGeom :=
  let a := E.v x.1 (x.2 + 1)
  let b := E.v x.1 (x.2 + 2)
  if has (s.tag x.1 x.2) mgNOM then
    match hTag s.h a b (s.edg x.1 x.2) (s.tag x.1 x.2) with
    | .ub => .ub
    | .fail => .fail
    | .ok (h', true) => .ok h'
    | .ok (_, false) => hEdge s.h a b (s.edg x.1 x.2) (s.tag x.1 x.2) g
  else .ok s.h

/-- One side when edges are given, lines 1147-1174. -/
def sideA (E : Env) (g : Option Nat) (s : St) (x : Nat × Fin 3) : Outcome St :=
  let a := E.v x.1 (x.2 + 1)
  let b := E.v x.1 (x.2 + 2)
  let t := s.tag x.1 x.2
  if skip t then .ok s
  else
    match nomSide E g s x with
    | .ub => .ub
    | .fail => .fail
    | .ok h1 =>
      match hGet h1 a b with
      | .ub => .ub
      | .fail => .fail
      | .ok (edg, tag) =>
        let t1 := (if E.nosurf && has tag mgREQ then t &&& ~~~mgNOSURF else t) ||| tag
        match hTag h1 a b edg t1 with
        | .ub => .ub
        | .fail => .fail
        | .ok (h2, _) => .ok { h := h2, edg := set2 s.edg x edg, tag := set2 s.tag x t1 }

/-- `namax`, lines 1123, 1203. -/
def namax (na : Nat) : Nat := Nat.max (3 * na / 2) 200000

/-- `MMG5_hGeom` with edges of the user, lines 1121-1177. -/
def hGeomA (E : Env) (es : List Edge) (g g' : Nat → Option Nat) (edg : Nat → Fin 3 → Int) (tag : Nat → Fin 3 → BitVec 16) :
    Outcome St :=
  match storeAll g es 1 (hNew es.length (3 * namax es.length)) with
  | .ub => .ub
  | .fail => .fail
  | .ok h => overSides (sideA E) g' (sides E) 1 ⟨h, edg, tag⟩

/-- A side that is stored, lines 1194-1196 and 1218-1226. -/
def stored (E : Env) (s : St) (x : Nat × Fin 3) : Bool :=
  let kk := E.adj x.1 x.2
  let t := s.tag x.1 x.2
  kk == 0 || has t mgNOM || (decide (x.1 < kk) && (s.edg x.1 x.2 != 0 || t != 0))

/-- One side in the loop of lines 1209-1230. -/
def sideB (E : Env) (g : Option Nat) (s : St) (x : Nat × Fin 3) : Outcome St :=
  let a := E.v x.1 (x.2 + 1)
  let b := E.v x.1 (x.2 + 2)
  let t := s.tag x.1 x.2
  if skip t then .ok s
  else if stored E s x then
    let e := s.edg x.1 x.2
    let e' : Int := if has t mgNOM && E.iso then (if e ≠ 0 then -(e.natAbs : Int) else E.isoref) else e
    match hEdge s.h a b e' t g with
    | .ub => .ub
    | .fail => .fail
    | .ok h' => .ok { s with h := h', edg := set2 s.edg x e' }
  else .ok s

/-- One side in the loop of lines 1232-1243. -/
def sideC (E : Env) (_ : Option Nat) (s : St) (x : Nat × Fin 3) : Outcome St :=
  let t := s.tag x.1 x.2
  if skip t then .ok s
  else
    match hGet s.h (E.v x.1 (x.2 + 1)) (E.v x.1 (x.2 + 2)) with
    | .ub => .ub
    | .fail => .fail
    | .ok (edg, tag) => .ok { s with edg := set2 s.edg x edg, tag := set2 s.tag x (t ||| tag) }

/-- `MMG5_hGeom` without edges, lines 1180-1244. -/
def hGeomB (E : Env) (g : Nat → Option Nat) (edg : Nat → Fin 3 → Int) (tag : Nat → Fin 3 → BitVec 16) : Outcome St :=
  let s0 : St := ⟨hNew 0 0, edg, tag⟩
  let na := (sides E).countP fun x => !skip (tag x.1 x.2) && stored E s0 x
  match overSides (sideB E) g (sides E) 1 { s0 with h := hNew na (3 * namax na) } with
  | .ub => .ub
  | .fail => .fail
  | .ok s => overSides (sideC E) g (sides E) 1 s

/-! ### `MMG3D_bdryBuild` -/

/-- A tetrahedron: valid or not, with or without extra structure. -/
structure Tet where
  ok : Bool
  v : Fin 4 → Nat
  x : Option ((Fin 6 → Int) × (Fin 6 → BitVec 16))

/-- `MMG5_iare`. -/
def iare (i : Fin 6) : Fin 4 × Fin 4 :=
  if i = 0 then (0, 1) else if i = 1 then (0, 2) else if i = 2 then (0, 3) else if i = 3 then (1, 2) else if i = 4 then (1, 3)
  else (2, 3)

/-- Lines 128-140: the edges of one tetrahedron that are stored. -/
def tetEdges (t : Tet) : List Edge :=
  match t.x with
  | none => []
  | some (edg, tag) =>
    if t.ok then
      ([0, 1, 2, 3, 4, 5].filter fun i : Fin 6 => edg i != 0 || has (tag i) mgREQ || has (tag i) mgGEO || has (tag i) mgREF).map
        fun i => ⟨t.v (iare i).1, t.v (iare i).2, edg i, tag i⟩
    else []

/-- The edges of the output and the number of ridges, lines 116-168; `nt` is the number of triangles. -/
def bdryBuild (nt : Nat) (tets : List Tet) (g : Nat → Option Nat) : Outcome (List Edge × Nat) :=
  match storeAll g (tets.flatMap tetEdges) 1 (hNew nt (3 * nt)) with
  | .ub => .ub
  | .fail => .fail
  | .ok h =>
    let cells := ((List.range (h.max + 1)).map h.geom).filter fun c => c.a != 0
    .ok (cells.map fun c => ⟨c.a, c.b, c.ref, c.tag ||| mgREF⟩, cells.countP fun c => has c.tag mgGEO)

end Mmg.GEdge
