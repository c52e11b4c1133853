/-
Final packing of a 3D mesh: `MMG3D_packMesh` (mmg3d/libmmg3d.c:905-973) without Scotch: packing of the tetrahedra with or
without their adjacency table (275-324, 335-371), of the prisms and quadrilaterals (379-413), of the solutions (423-463),
of the points (200-264, 807-843, 472-526).

Simplifications: arrays are functions on `Nat` (index 0 is not used by the code); indices are natural numbers; a point
consists of its tag, reference, `tmp`, `xp`, normal `n` and the rest `dat`; an element of its vertices and the rest.
Reading a point at a negative index (no used point at all) is the outcome `none`. The removal of the other sub-domains
(line 909, see `SubProps`), the prism hashing (see `AdjProps`) and the rebuilding of boundary entities (line 955) are not
part of the model; nor is the corner count in `nc1`.
-/
import Verif.Util

namespace Mmg.Pack3

/-! ### Arrays and points -/

def upd {β : Type} (f : Nat → β) (k : Nat) (x : β) : Nat → β := fun j => if j = k then x else f j

/-- `MMG5_Point` (common/libmmgtypes.h): `ν` is the type of normals, `α` of coordinates and other fields. -/
structure Pt (α ν : Type) where
  tag : BitVec 16
  ref : Int
  tmp : Nat
  xp : Nat
  n : ν
  dat : α

/-- Tag values (common/libmmgtypes.h). -/
def REF : BitVec 16 := 1
def GEO : BitVec 16 := 2
def REQ : BitVec 16 := 4
def NOM : BitVec 16 := 8
def BDY : BitVec 16 := 16
def CRN : BitVec 16 := 32
def NOSURF : BitVec 16 := 64
def NUL : BitVec 16 := 0x8000#16

def has (t m : BitVec 16) : Bool := t &&& m ≠ 0#16

variable {α ν : Type}

/-- `MG_VOK` (mmgcommon_private.h:166). -/
def vok (p : Pt α ν) : Bool := decide (p.tag.toNat < 32768)

/-- libmmg3d.c:240-247: removal of the tags of the option `-nosurf`, absolute value of the reference. -/
def clean (p : Pt α ν) : Pt α ν :=
  { p with
    tag := if has p.tag NOSURF then p.tag &&& ~~~NOSURF &&& ~~~REQ else p.tag
    ref := (p.ref.natAbs : Int) }

/-- The point `p` gets the new index `d` (libmmg3d.c:238-247). -/
def stamp (d : Nat) (p : Pt α ν) : Pt α ν := clean { p with tmp := d }

/-- `while ( !VOK(n) && k < n ) --n` (libmmg3d.c:218-221, 451-455). -/
def searchDown (ok : Nat → Bool) (k : Nat) : Nat → Nat
  | 0 => 0
  | n + 1 => if !ok (n + 1) && decide (k < n + 1) then searchDown ok k n else n + 1

/-- The loop of `MMG3D_mark_packedPoints` (libmmg3d.c:211-250): `tmp` of every used point receives its new index.
Returns the final `*np` before the last decrement, the number of corners and the points. -/
def markLoop : Nat → Nat → Nat → Nat → (Nat → Pt α ν) → Nat × Nat × (Nat → Pt α ν)
  | 0, _, np, nc, pt => (np, nc, pt)
  | f + 1, k, np, nc, pt =>
    let m := if vok (pt k) then k else searchDown (fun j => vok (pt j)) k (np - 1)
    let np1 := if vok (pt k) then np else m
    if k = np1 then (np1, nc, pt)
    else
      let q := stamp k (pt m)
      let nc1 := if has q.tag CRN then nc + 1 else nc
      if k + 1 < np1 then markLoop f (k + 1) np1 nc1 (upd pt m q) else (np1, nc1, upd pt m q)

/-- `MMG3D_mark_packedPoints` (libmmg3d.c:200-264): new number of points, number of corners, points. -/
def mark (np : Nat) (pt : Nat → Pt α ν) : Nat × Nat × (Nat → Pt α ν) :=
  let pt0 := fun k => if 1 ≤ k ∧ k ≤ np then { pt k with tmp := 0 } else pt k
  let r := markLoop (np + 1) 1 (np + 1) 0 pt0
  (r.1 - 1, r.2)

/-! ### Solutions -/

structure Sol (K : Type) where
  size : Nat
  np : Nat
  m : Nat → K

variable {K : Type}

/-- `for (i=0; i<size; i++) m[d*size+i] = m[s*size+i]` (libmmg3d.c:442-448). -/
def copyBlock (size d s : Nat) (m : Nat → K) : Nat → K :=
  (List.range size).foldl (fun m i => upd m (d * size + i) (m (s * size + i))) m

/-- `while ( !VOK(np) && np ) --np` (libmmg3d.c:432-434, 478-480). -/
def lastUsed (ok : Nat → Bool) : Nat → Nat
  | 0 => 0
  | n + 1 => if ok (n + 1) then n + 1 else lastUsed ok n

/-- The loop of `MMG3D_pack_sol` (libmmg3d.c:436-457). -/
def solLoop (ok : Nat → Bool) (size : Nat) : Nat → Nat → Nat → (Nat → K) → Nat × (Nat → K)
  | 0, _, np, m => (np, m)
  | f + 1, k, np, m =>
    let m1 := if ok k then m else copyBlock size k np m
    let np1 := if ok k then np else searchDown ok k (np - 1)
    if k + 1 < np1 then solLoop ok size f (k + 1) np1 m1 else (np1, m1)

/-- `MMG3D_pack_sol` (libmmg3d.c:423-463). Without used point `point[-1]` is read: `none`. -/
def packSol (np : Nat) (pt : Nat → Pt α ν) (s : Sol K) : Option (Sol K) :=
  let n := lastUsed (fun j => vok (pt j)) np
  if n = 0 then none
  else
    let r := solLoop (fun j => vok (pt j)) s.size (n + 1) 1 n s.m
    some { s with np := r.1, m := r.2 }

/-! ### Points -/

structure Pts (α ν : Type) where
  np : Nat
  npnil : Nat
  pt : Nat → Pt α ν

/-- The zeroed point with tag `MG_NUL` (libmmg3d.c:491-492, zaldy_3d.c:89-91); `z` is the zeroed point. -/
def nulPt (z : Pt α ν) (link : Nat) : Pt α ν := { z with tag := NUL, tmp := link }

/-- `MMG3D_delPt` on the last point (zaldy_3d.c:80-96), without the `xpoint` record. -/
def delLast (z : Pt α ν) (s : Pts α ν) : Pts α ν :=
  let pt := upd s.pt s.np (nulPt z s.npnil)
  { np := lastUsed (fun j => vok (pt j)) s.np
    npnil := s.np
    pt := pt }

/-- libmmg3d.c:478-480; the deletion of the last point leaves a used one or none, so one turn is enough, a second one
finds nothing to do. -/
def delTail (z : Pt α ν) : Nat → Pts α ν → Pts α ν
  | 0, s => s
  | f + 1, s => if !vok (s.pt s.np) && decide (s.np ≠ 0) then delTail z f (delLast z s) else s

/-- libmmg3d.c:497-505: the normal of a regular boundary point is taken from its `xpoint` record. -/
def setNormal (xn : Nat → ν) (p : Pt α ν) : Pt α ν :=
  if has p.tag BDY && !(has p.tag CRN || has p.tag NOM || (has p.tag GEO || has p.tag REF)) && decide (p.xp ≠ 0) then
    { p with n := xn p.xp }
  else p

/-- The loop of `MMG3D_pack_pointArray` (libmmg3d.c:482-507). -/
def ptLoop (z : Pt α ν) (xn : Nat → ν) : Nat → Nat → Nat → (Nat → Pt α ν) → Nat × (Nat → Pt α ν)
  | 0, _, np, pt => (np, pt)
  | f + 1, k, np, pt =>
    let pt1 := if vok (pt k) then pt else upd (upd pt k (pt np)) np (nulPt z 0)
    let np1 := if vok (pt k) then np else lastUsed (fun j => vok (pt1 j)) np
    let pt2 := upd pt1 k (setNormal xn (pt1 k))
    if k + 1 < np1 then ptLoop z xn f (k + 1) np1 pt2 else (np1, pt2)

/-- The new chain of free points (libmmg3d.c:509-521). -/
def relink (np npmax : Nat) (pt : Nat → Pt α ν) : Nat × (Nat → Pt α ν) :=
  let nil := if np + 1 ≥ npmax then 0 else np + 1
  (nil, fun k => if 1 ≤ k ∧ k ≤ np then { pt k with tmp := 0 }
    else if nil ≠ 0 ∧ nil ≤ k ∧ k + 1 < npmax then { pt k with tmp := k + 1 } else pt k)

/-- `MMG3D_pack_pointArray` (libmmg3d.c:472-526). -/
def packPts (z : Pt α ν) (xn : Nat → ν) (npmax : Nat) (s : Pts α ν) : Option (Pts α ν) :=
  let s1 := delTail z (s.np + 1) s
  if s1.np = 0 then none
  else
    let r := ptLoop z xn (s1.np + 1) 1 s1.np s1.pt
    let c := relink r.1 npmax r.2
    some ⟨r.1, c.1, c.2⟩

/-! ### Elements -/

structure Elt (β : Type) where
  v : Nat → Nat
  dat : β

/-- `MG_EOK` (mmgcommon_private.h:167). -/
def eok {β : Type} (e : Elt β) : Bool := decide (0 < e.v 0)

structure Tets (β : Type) where
  ne : Nat
  nenil : Nat
  el : Nat → Elt β
  adja : Nat → Nat

variable {β : Type}

/-- Place of neighbour `i` of element `k` in the table `adja`. -/
def idx (k i : Nat) : Nat := 4 * (k - 1) + 1 + i

/-- libmmg3d.c:293-303: the neighbours of `last` become those of `k`, and point to `k`. -/
def moveAdja (k last : Nat) (ad : Nat → Nat) : Nat → Nat :=
  [0, 1, 2, 3].foldl (fun ad i =>
    let a := ad (idx last i)
    let ad1 := upd ad (idx k i) a
    if a = 0 then ad1 else upd ad1 (idx (a / 4) (a % 4)) (4 * k + i)) ad

/-- `MMG3D_delElt` on the last element (zaldy_3d.c:122-141); `z` is the zeroed content. -/
def delLastElt (z : β) (b : Bool) (s : Tets β) : Tets β :=
  let el := upd s.el s.ne ⟨fun i => if i = 3 then s.nenil else 0, z⟩
  { ne := lastUsed (fun j => eok (el j)) s.ne
    nenil := s.ne
    el := el
    adja := if b then (fun j => if idx s.ne 0 ≤ j ∧ j < idx s.ne 0 + 4 then 0 else s.adja j) else s.adja }

/-- The loop of `MMG3D_pack_tetraAndAdja` (`b` true, libmmg3d.c:284-308) and of `MMG3D_pack_tetra` (`b` false,
343-352). `none`: the deletion fails. -/
def tetLoop (z : β) (b : Bool) : Nat → Nat → Tets β → Option (Tets β)
  | 0, _, s => some s
  | f + 1, k, s =>
    if eok (s.el k) then (if k + 1 < s.ne then tetLoop z b f (k + 1) s else some s)
    else if !eok (s.el s.ne) then none
    else
      let s1 := delLastElt z b { s with
        el := upd s.el k (s.el s.ne)
        adja := if b then moveAdja k s.ne s.adja else s.adja }
      if k + 1 < s1.ne then tetLoop z b f (k + 1) s1 else some s1

/-- The chain of free tetrahedra after the packing: with adjacency (libmmg3d.c:310-321) the links are rewritten, without
(354-363) the first vertex is set to zero instead and the links keep their value. -/
def relinkElt (b : Bool) (nemax : Nat) (s : Tets β) : Tets β :=
  let nil := if s.ne + 1 ≥ nemax then 0 else s.ne + 1
  { s with
    nenil := nil
    el := fun k =>
      if nil ≠ 0 ∧ nil ≤ k ∧ k + 1 < nemax then
        { s.el k with v := if b then (fun i => if i = 3 then k + 1 else (s.el k).v i)
                      else (fun i => if i = 0 then 0 else (s.el k).v i) }
      else s.el k }

/-- `MMG3D_pack_tetraAndAdja` and `MMG3D_pack_tetra`. -/
def packTets (z : β) (b : Bool) (nemax : Nat) (s : Tets β) : Option (Tets β) :=
  if s.ne = 0 then some s
  else (tetLoop z b (s.ne + 1) 1 s).map (relinkElt b nemax)

structure Els (β : Type) where
  n : Nat
  el : Nat → Elt β

/-- The loops of `MMG3D_pack_prismsAndQuads` (libmmg3d.c:384-396, 398-410). -/
def elsLoop : Nat → Nat → Els β → Els β
  | 0, _, s => s
  | f + 1, k, s =>
    let s1 : Els β := if eok (s.el k) then s else ⟨s.n - 1, upd s.el k (s.el s.n)⟩
    if k + 1 < s1.n then elsLoop f (k + 1) s1 else s1

/-- The arrays are allocated only if there is at least one prism (quadrilateral). -/
def packEls (s : Els β) : Els β := if s.n = 0 then s else elsLoop (s.n + 1) 1 s

/-- `MMG3D_update_eltsVertices` (libmmg3d.c:807-843) on one array; `nv` vertices per element. -/
def renumber (nv n : Nat) (pt : Nat → Pt α ν) (el : Nat → Elt β) : Nat → Elt β :=
  fun k => if 1 ≤ k ∧ k ≤ n ∧ eok (el k) = true then
    { el k with v := fun i => if i < nv then (pt ((el k).v i)).tmp else (el k).v i } else el k

/-! ### The whole mesh -/

structure Mesh (α ν β K : Type) where
  pts : Pts α ν
  npmax : Nat
  xn : Nat → ν
  tets : Tets β
  nemax : Nat
  hasAdja : Bool
  prisms : Els β
  quads : Els β
  sols : List (Sol K)

/-- `MMG3D_pack_points` (libmmg3d.c:853-867): new mesh and number of corners. -/
def packPoints (zp : Pt α ν) (M : Mesh α ν β K) : Option (Mesh α ν β K × Nat) :=
  let r := mark M.pts.np M.pts.pt
  match packPts zp M.xn M.npmax { M.pts with pt := r.2.2 } with
  | none => none
  | some ps => some ({ M with
      pts := ps
      tets := { M.tets with el := renumber 4 M.tets.ne r.2.2 M.tets.el }
      prisms := { M.prisms with el := renumber 6 M.prisms.n r.2.2 M.prisms.el }
      quads := { M.quads with el := renumber 4 M.quads.n r.2.2 M.quads.el } }, r.2.1)

/-- `MMG3D_packMesh` (libmmg3d.c:905-973). -/
def packMesh (zp : Pt α ν) (zt : β) (M : Mesh α ν β K) : Option (Mesh α ν β K × Nat) :=
  match packTets zt M.hasAdja M.nemax M.tets with
  | none => none
  | some ts =>
    match M.sols.mapM (packSol M.pts.np M.pts.pt) with
    | none => none
    | some ss => packPoints zp { M with
        tets := ts
        prisms := packEls M.prisms
        quads := packEls M.quads
        sols := ss }

end Mmg.Pack3
