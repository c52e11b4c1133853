/-
Model of the mesh part of the 3D library interface: mmg3d/API_functions_3d.c:264-288 (mesh size) and 362-1378
(vertices, tetrahedra, prisms, triangles, quadrilaterals, edges and their flags).

Simplifications: numbers are unbounded integers and coordinates are elements of an arbitrary linearly ordered
commutative ring `K`; vertex numbers given by the caller are non-negative; messages are dropped; the fields
`flag` and `tmp` of a point are dropped (they are only reset). `Set_meshSize` is modelled by the state it
leaves (`fresh`) once memory was obtained. A write outside an array is the distinct outcome `none`. Optional
output pointers are always given; an optional input pointer (`refs`) is an `Option`.
-/
import Mathlib.Algebra.Order.Ring.Defs
import Mathlib.Order.Lattice
import Mathlib.Algebra.Order.Group.Abs
import Mathlib.Data.Fin.VecNotation

namespace Mmg.Api

/-- Flags are 16 bit words (common/libmmgtypes.h:290, 316, 348, 378, 417). -/
abbrev Tag := BitVec 16

/-- common/mmgcommon_private.h (flags `MG_REF` ... `MG_NUL`). -/
def REF : Tag := 1
def GEO : Tag := 2
def REQ : Tag := 4
def CRN : Tag := 32
def PARBDY : Tag := 8192
def NUL : Tag := 32768

/-- `MMG5_Point`, common/libmmgtypes.h:278-300. -/
structure Point (K : Type) where
  c : Fin 3 → K
  ref : Int
  tag : Tag

/-- `MMG5_Tetra`, `MMG5_Prism` and `MMG5_Edge` (`a`, `b` are `v 0`, `v 1`), common/libmmgtypes.h:308-325,
405-425, 462-485: `n` vertices, a reference and one tag word. -/
structure Elt (n : Nat) where
  v : Fin n → Nat
  ref : Int
  tag : Tag

/-- `MMG5_Tria` and `MMG5_Quad`, common/libmmgtypes.h:334-395: `n` vertices, a reference, a tag word per edge. -/
structure Face (n : Nat) where
  v : Fin n → Nat
  ref : Int
  tag : Fin n → Tag

/-- The part of `MMG5_Mesh` used by the interface (common/libmmgtypes.h:600-660). -/
structure Mesh (K : Type) where
  np : Nat
  npmax : Nat
  ne : Nat
  nemax : Nat
  nprism : Nat
  nt : Nat
  ntmax : Nat
  nquad : Nat
  na : Nat
  namax : Nat
  point : Nat → Point K
  tetra : Nat → Elt 4
  prism : Nat → Elt 6
  tria : Nat → Face 3
  quadra : Nat → Face 4
  edge : Nat → Elt 2
  xt : Nat
  xp : Nat

section
variable {α : Type}

/-- Array store. -/
def put (f : Nat → α) (k : Nat) (x : α) : Nat → α := fun i => if i = k then x else f i

/-- `for (i=1; i<=n; i++) s = f i s`. -/
def forTo (f : Nat → α → α) : Nat → α → α
  | 0, s => s
  | n + 1, s => f (n + 1) (forTo f n s)

end

variable {K : Type}

/-- The state left by `MMG3D_Set_meshSize`, API_functions_3d.c:222-288: zeroed arrays (`MMG5_SAFE_CALLOC`,
zaldy_3d.c:186-230). The allocated sizes `npmax`, `nemax`, `ntmax`, `namax` are at least the announced ones. -/
def fresh [Zero K] (np npmax ne nemax nprism nt ntmax nquad na namax : Nat) : Mesh K where
  np := np
  npmax := npmax
  ne := ne
  nemax := nemax
  nprism := nprism
  nt := nt
  ntmax := ntmax
  nquad := nquad
  na := na
  namax := namax
  point := fun _ => ⟨fun _ => 0, 0, 0⟩
  tetra := fun _ => ⟨fun _ => 0, 0, 0⟩
  prism := fun _ => ⟨fun _ => 0, 0, 0⟩
  tria := fun _ => ⟨fun _ => 0, 0, fun _ => 0⟩
  quadra := fun _ => ⟨fun _ => 0, 0, fun _ => 0⟩
  edge := fun _ => ⟨fun _ => 0, 0, 0⟩
  xt := 0
  xp := 0

/-- Announced sizes fit in the allocated ones. -/
structure Mesh.Fits (m : Mesh K) : Prop where
  p : m.np ≤ m.npmax
  e : m.ne ≤ m.nemax
  t : m.nt ≤ m.ntmax
  a : m.na ≤ m.namax

/-- `if ( refs != NULL ) x->ref = refs[i-1]`. -/
def pickRef (refs : Option (Nat → Int)) (i : Nat) (old : Int) : Int :=
  match refs with
  | none => old
  | some r => r (i - 1)

/-! ### Vertices -/

/-- `MMG3D_Set_vertex`, API_functions_3d.c:362-396. There is no test `pos < 1`. -/
def setVertex (m : Mesh K) (c : Fin 3 → K) (ref : Int) (pos : Int) : Option (Mesh K × Bool) :=
  if m.np = 0 then some (m, false)
  else if pos > m.npmax then some (m, false)
  else if pos > m.np then some (m, false)
  else if pos < 0 then none
  else some ({ m with point := put m.point pos.toNat ⟨c, ref, NUL⟩ }, true)

/-- What a getter reports about a vertex. -/
structure VertexOut (K : Type) where
  c : Fin 3 → K
  ref : Int
  corner : Bool
  required : Bool

/-- `tag & mask` used as a truth value. -/
def has (t mask : Tag) : Bool := t &&& mask != 0

/-- `MMG3D_GetByIdx_vertex`, API_functions_3d.c:425-456. `none`: the call returns 0. -/
def getByIdxVertex (m : Mesh K) (idx : Int) : Option (VertexOut K) :=
  if idx < 1 ∨ idx > m.np then none
  else
    let p := m.point idx.toNat
    some ⟨p.c, p.ref, has p.tag CRN, has p.tag REQ⟩

/-- Body of the loop of `MMG3D_Set_vertices`, API_functions_3d.c:466-479. -/
def setVerticesBody (vertices : Nat → K) (refs : Option (Nat → Int)) (i : Nat) (m : Mesh K) : Mesh K :=
  let j := (i - 1) * 3
  let p := m.point i
  let ref := pickRef refs i p.ref
  { m with point := put m.point i ⟨![vertices j, vertices (j + 1), vertices (j + 2)], ref, NUL⟩ }

/-- `MMG3D_Set_vertices`, API_functions_3d.c:458-483. -/
def setVertices (m : Mesh K) (vertices : Nat → K) (refs : Option (Nat → Int)) : Mesh K :=
  forTo (setVerticesBody vertices refs) m.np m

/-- Output buffers of `MMG3D_Get_vertices`. -/
structure VBuf (K : Type) where
  vertices : Nat → K
  refs : Nat → Int
  corners : Nat → Bool
  required : Nat → Bool

/-- Body of the loop of `MMG3D_Get_vertices`, API_functions_3d.c:491-515. -/
def getVerticesBody (m : Mesh K) (i : Nat) (b : VBuf K) : VBuf K :=
  let p := m.point i
  let j := (i - 1) * 3
  { vertices := put (put (put b.vertices j (p.c 0)) (j + 1) (p.c 1)) (j + 2) (p.c 2)
    refs := put b.refs (i - 1) p.ref
    corners := put b.corners (i - 1) (has p.tag CRN)
    required := put b.required (i - 1) (has p.tag REQ) }

/-- `MMG3D_Get_vertices`, API_functions_3d.c:485-519. -/
def getVertices (m : Mesh K) (b : VBuf K) : VBuf K := forTo (getVerticesBody m) m.np b

/-! ### Tetrahedra -/

/-- `mesh->point[v].tag &= ~MG_NUL`; `none` outside the point array. -/
def unNul (m : Mesh K) (v : Nat) : Option (Mesh K) :=
  if v ≤ m.npmax then
    some { m with point := put m.point v { m.point v with tag := (m.point v).tag &&& ~~~NUL } }
  else none

/-- The same for a list of vertices, in order. -/
def unNuls (m : Mesh K) : List Nat → Option (Mesh K)
  | [] => some m
  | v :: l => (unNul m v).bind (fun m' => unNuls m' l)

/-- `MMG5_det3pt1vec`, common/tools.c:920-929. -/
def det3pt1vec [CommRing K] (c0 c1 c2 v : Fin 3 → K) : K :=
  let m00 := c1 0 - c0 0
  let m01 := c2 0 - c0 0
  let m10 := c1 1 - c0 1
  let m11 := c2 1 - c0 1
  let m20 := c1 2 - c0 2
  let m21 := c2 2 - c0 2
  v 0 * (m10 * m21 - m20 * m11) - v 1 * (m00 * m21 - m20 * m01) + v 2 * (m00 * m11 - m10 * m01)

/-- `MMG5_det4pt`, common/tools.c:932-940. -/
def det4pt [CommRing K] (c0 c1 c2 c3 : Fin 3 → K) : K :=
  det3pt1vec c0 c1 c2 (fun i => c3 i - c0 i)

/-- `MMG5_orvol`, common/tools.c:951-960. -/
def orvol [CommRing K] (point : Nat → Point K) (v : Fin 4 → Nat) : K :=
  det4pt (point (v 0)).c (point (v 1)).c (point (v 2)).c (point (v 3)).c

section tetra
variable [CommRing K] [LinearOrder K]

/-- The part common to `MMG3D_Set_tetrahedron` and `MMG3D_Set_tetrahedra`: element `i` was given its vertices
and reference; its vertices are marked used and its orientation is examined. Result: the mesh, whether the
volume was not null and whether the element was turned (API_functions_3d.c:556-588 and 657-687).
`eps` is `MMG5_EPSD2`. -/
def orient (eps : K) (m : Mesh K) (i : Nat) : Option (Mesh K × Bool × Bool) :=
  let v := (m.tetra i).v
  match unNuls m [v 0, v 1, v 2, v 3] with
  | none => none
  | some m =>
    let vol := orvol m.point v
    if |vol| ≤ eps then some (m, false, false)
    else if vol < 0 then
      some ({ m with tetra := put m.tetra i { m.tetra i with v := ![v 0, v 1, v 3, v 2] } }, true, true)
    else some (m, true, false)

/-- `MMG3D_Set_tetrahedron`, API_functions_3d.c:521-591. -/
def setTetrahedron (eps : K) (m : Mesh K) (v : Fin 4 → Nat) (ref : Int) (pos : Int) :
    Option (Mesh K × Bool) :=
  if m.ne = 0 then some (m, false)
  else if pos > m.nemax then some (m, false)
  else if pos > m.ne then some (m, false)
  else if pos < 0 then none
  else
    let k := pos.toNat
    let m := { m with tetra := put m.tetra k { m.tetra k with v := v, ref := ref.natAbs } }
    match orient eps m k with
    | none => none
    | some (m, false, _) => some (m, false)
    | some (m, true, true) => some ({ m with xt := m.xt + 1 }, true)
    | some (m, true, false) => some (m, true)

/-- The loop of `MMG3D_Set_tetrahedra` from element `i` on, `n` elements left,
API_functions_3d.c:643-688. -/
def setTetrahedraLoop (eps : K) (tetra : Nat → Nat) (refs : Option (Nat → Int)) :
    Nat → Nat → Mesh K → Option (Mesh K × Bool)
  | 0, _, m => some (m, true)
  | n + 1, i, m =>
    let j := (i - 1) * 4
    let ref := pickRef (refs.map fun r n => ((r n).natAbs : Int)) i (m.tetra i).ref
    let m := { m with tetra := put m.tetra i <|
      { m.tetra i with v := ![tetra j, tetra (j + 1), tetra (j + 2), tetra (j + 3)], ref := ref } }
    match orient eps m i with
    | none => none
    | some (m, false, _) => some (m, false)
    | some (m, true, true) => setTetrahedraLoop eps tetra refs n (i + 1) { m with xp := m.xp + 1 }
    | some (m, true, false) => setTetrahedraLoop eps tetra refs n (i + 1) m

/-- `MMG3D_Set_tetrahedra`, API_functions_3d.c:635-691. -/
def setTetrahedra (eps : K) (m : Mesh K) (tetra : Nat → Nat) (refs : Option (Nat → Int)) :
    Option (Mesh K × Bool) :=
  setTetrahedraLoop eps tetra refs m.ne 1 { m with xp := 0 }

end tetra

/-- Output buffers of the block getters of elements. -/
structure EBuf where
  v : Nat → Nat
  refs : Nat → Int
  required : Nat → Bool

/-- `MMG3D_Get_tetrahedra`, API_functions_3d.c:693-715. -/
def getTetrahedra (m : Mesh K) (b : EBuf) : EBuf :=
  forTo (fun i b =>
    let j := (i - 1) * 4
    let pt := m.tetra i
    { v := put (put (put (put b.v j (pt.v 0)) (j + 1) (pt.v 1)) (j + 2) (pt.v 2)) (j + 3) (pt.v 3)
      refs := put b.refs (i - 1) pt.ref
      required := put b.required (i - 1) (has pt.tag REQ) }) m.ne b

/-! ### Prisms -/

/-- `MMG3D_Set_prism`, API_functions_3d.c:717-756. -/
def setPrism (m : Mesh K) (v : Fin 6 → Nat) (ref : Int) (pos : Int) : Option (Mesh K × Bool) :=
  if m.nprism = 0 then some (m, false)
  else if pos > m.nprism then some (m, false)
  else if pos < 0 then none
  else
    let k := pos.toNat
    let m := { m with prism := put m.prism k { m.prism k with v := v, ref := ref } }
    (unNuls m [v 0, v 1, v 2, v 3, v 4, v 5]).map (·, true)

/-- Body of the loop of `MMG3D_Set_prisms`, API_functions_3d.c:807-829. -/
def setPrismsBody (prisms : Nat → Nat) (refs : Option (Nat → Int)) (i : Nat) (m : Mesh K) :
    Option (Mesh K) :=
  let j := (i - 1) * 6
  let ref := pickRef refs i (m.prism i).ref
  let m := { m with prism := put m.prism i <|
    { m.prism i with
        v := ![prisms j, prisms (j + 1), prisms (j + 2), prisms (j + 3), prisms (j + 4), prisms (j + 5)],
        ref := ref } }
  unNuls m [prisms j, prisms (j + 1), prisms (j + 2), prisms (j + 3), prisms (j + 4), prisms (j + 5)]

/-- `MMG3D_Set_prisms`, API_functions_3d.c:802-832. -/
def setPrisms (m : Mesh K) (prisms : Nat → Nat) (refs : Option (Nat → Int)) : Option (Mesh K) :=
  forTo (fun i om => om.bind (setPrismsBody prisms refs i)) m.nprism (some m)

/-- `MMG3D_Get_prisms`, API_functions_3d.c:834-859. Vertices 1 and 2 are written exchanged (844-845). -/
def getPrisms (m : Mesh K) (b : EBuf) : EBuf :=
  forTo (fun i b =>
    let j := (i - 1) * 6
    let pp := m.prism i
    { v := put (put (put (put (put (put b.v j (pp.v 0)) (j + 2) (pp.v 1)) (j + 1) (pp.v 2)) (j + 3) (pp.v 3))
        (j + 4) (pp.v 4)) (j + 5) (pp.v 5)
      refs := put b.refs (i - 1) pp.ref
      required := put b.required (i - 1) (has pp.tag REQ) }) m.nprism b

/-! ### Triangles -/

/-- `MMG3D_Set_triangle`, API_functions_3d.c:862-894. -/
def setTriangle (m : Mesh K) (v : Fin 3 → Nat) (ref : Int) (pos : Int) : Option (Mesh K × Bool) :=
  if m.nt = 0 then some (m, false)
  else if pos > m.ntmax then some (m, false)
  else if pos > m.nt then some (m, false)
  else if pos < 0 then none
  else some ({ m with tria := put m.tria pos.toNat { m.tria pos.toNat with v := v, ref := ref } }, true)

/-- Body of the loop of `MMG3D_Set_triangles`, API_functions_3d.c:945-952. -/
def setTrianglesBody (tria : Nat → Nat) (refs : Option (Nat → Int)) (i : Nat) (m : Mesh K) : Mesh K :=
  let j := (i - 1) * 3
  let ref := pickRef refs i (m.tria i).ref
  { m with tria := put m.tria i <|
      { m.tria i with v := ![tria j, tria (j + 1), tria (j + 2)], ref := ref } }

/-- `MMG3D_Set_triangles`, API_functions_3d.c:940-955. -/
def setTriangles (m : Mesh K) (tria : Nat → Nat) (refs : Option (Nat → Int)) : Mesh K :=
  forTo (setTrianglesBody tria refs) m.nt m

/-- `MMG3D_Get_triangles`, API_functions_3d.c:957-979. -/
def getTriangles (m : Mesh K) (b : EBuf) : EBuf :=
  forTo (fun i b =>
    let j := (i - 1) * 3
    let pt := m.tria i
    { v := put (put (put b.v j (pt.v 0)) (j + 1) (pt.v 1)) (j + 2) (pt.v 2)
      refs := put b.refs (i - 1) pt.ref
      required := put b.required (i - 1)
        (has (pt.tag 0) REQ && has (pt.tag 1) REQ && has (pt.tag 2) REQ) }) m.nt b

/-! ### Quadrilaterals -/

/-- `MMG3D_Set_quadrilateral`, API_functions_3d.c:981-1007. -/
def setQuadrilateral (m : Mesh K) (v : Fin 4 → Nat) (ref : Int) (pos : Int) : Option (Mesh K × Bool) :=
  if m.nquad = 0 then some (m, false)
  else if pos > m.nquad then some (m, false)
  else if pos < 0 then none
  else some ({ m with quadra := put m.quadra pos.toNat { m.quadra pos.toNat with v := v, ref := ref } }, true)

/-- Body of the loop of `MMG3D_Set_quadrilaterals`, API_functions_3d.c:1058-1067. -/
def setQuadrilateralsBody (quads : Nat → Nat) (refs : Option (Nat → Int)) (i : Nat) (m : Mesh K) : Mesh K :=
  let j := (i - 1) * 4
  let ref := pickRef refs i (m.quadra i).ref
  { m with quadra := put m.quadra i <|
      { m.quadra i with v := ![quads j, quads (j + 1), quads (j + 2), quads (j + 3)], ref := ref } }

/-- `MMG3D_Set_quadrilaterals`, API_functions_3d.c:1054-1069. -/
def setQuadrilaterals (m : Mesh K) (quads : Nat → Nat) (refs : Option (Nat → Int)) : Mesh K :=
  forTo (setQuadrilateralsBody quads refs) m.nquad m

/-- `MMG3D_Get_quadrilaterals`, API_functions_3d.c:1071-1096. -/
def getQuadrilaterals (m : Mesh K) (b : EBuf) : EBuf :=
  forTo (fun i b =>
    let j := (i - 1) * 4
    let pq := m.quadra i
    { v := put (put (put (put b.v j (pq.v 0)) (j + 1) (pq.v 1)) (j + 2) (pq.v 2)) (j + 3) (pq.v 3)
      refs := put b.refs (i - 1) pq.ref
      required := put b.required (i - 1)
        (has (pq.tag 0) REQ && has (pq.tag 1) REQ && has (pq.tag 2) REQ && has (pq.tag 3) REQ) })
    m.nquad b

/-! ### Edges -/

/-- `MMG3D_Set_edge`, API_functions_3d.c:1098-1129. -/
def setEdge (m : Mesh K) (v : Fin 2 → Nat) (ref : Int) (pos : Int) : Option (Mesh K × Bool) :=
  if m.na = 0 then some (m, false)
  else if pos > m.namax then some (m, false)
  else if pos > m.na then some (m, false)
  else if pos < 0 then none
  else some ({ m with edge := put m.edge pos.toNat ⟨v, ref, (m.edge pos.toNat).tag ||| REF⟩ }, true)

/-- Body of the loop of `MMG3D_Set_edges`, API_functions_3d.c:1178-1187. -/
def setEdgesBody (edges : Nat → Nat) (refs : Option (Nat → Int)) (i : Nat) (m : Mesh K) : Mesh K :=
  let j := (i - 1) * 2
  let ref := pickRef refs i (m.edge i).ref
  { m with edge := put m.edge i ⟨![edges j, edges (j + 1)], ref, (m.edge i).tag ||| REF⟩ }

/-- `MMG3D_Set_edges`, API_functions_3d.c:1175-1190. -/
def setEdges (m : Mesh K) (edges : Nat → Nat) (refs : Option (Nat → Int)) : Mesh K :=
  forTo (setEdgesBody edges refs) m.na m

/-- Output buffers of `MMG3D_Get_edges`. -/
structure AEBuf extends EBuf where
  ridges : Nat → Bool

/-- `MMG3D_Get_edges`, API_functions_3d.c:1192-1221. -/
def getEdges (m : Mesh K) (b : AEBuf) : AEBuf :=
  forTo (fun i b =>
    let j := (i - 1) * 2
    let e := m.edge i
    { v := put (put b.v j (e.v 0)) (j + 1) (e.v 1)
      refs := put b.refs (i - 1) e.ref
      ridges := put b.ridges (i - 1) (has e.tag GEO)
      required := put b.required (i - 1) (has e.tag REQ) }) m.na b

/-! ### Flags, API_functions_3d.c:1223-1378 -/

/-- Change of the tag word of a vertex. The position must be inside the array (`none` otherwise). -/
def ptag (m : Mesh K) (k : Nat) (f : Tag → Tag) : Option (Mesh K) :=
  if k ≤ m.npmax then some { m with point := put m.point k { m.point k with tag := f (m.point k).tag } } else none

/-- Change of the tag word of a tetrahedron. -/
def ttag (m : Mesh K) (k : Nat) (f : Tag → Tag) : Option (Mesh K) :=
  if k ≤ m.nemax then some { m with tetra := put m.tetra k { m.tetra k with tag := f (m.tetra k).tag } } else none

/-- Change of the three tag words of a triangle. -/
def ftag (m : Mesh K) (k : Nat) (f : Tag → Tag) : Option (Mesh K) :=
  if k ≤ m.ntmax then
    some { m with tria := put m.tria k <|
            { m.tria k with tag := ![f ((m.tria k).tag 0), f ((m.tria k).tag 1), f ((m.tria k).tag 2)] } }
  else none

/-- Change of the tag word of an edge. -/
def etag (m : Mesh K) (k : Nat) (f : Tag → Tag) : Option (Mesh K) :=
  if k ≤ m.namax then some { m with edge := put m.edge k { m.edge k with tag := f (m.edge k).tag } } else none

/-- `MMG3D_Set_corner`, 1223-1227. -/
def setCorner (m : Mesh K) (k : Nat) := ptag m k (· ||| CRN)
/-- `MMG3D_Unset_corner`, 1229-1233. -/
def unsetCorner (m : Mesh K) (k : Nat) := ptag m k (· &&& ~~~CRN)
/-- `MMG3D_Set_requiredVertex`, 1235-1240. -/
def setRequiredVertex (m : Mesh K) (k : Nat) := ptag m k (fun t => (t ||| REQ) &&& ~~~NUL)
/-- `MMG3D_Unset_requiredVertex`, 1242-1246. -/
def unsetRequiredVertex (m : Mesh K) (k : Nat) := ptag m k (· &&& ~~~REQ)
/-- `MMG3D_Set_requiredTetrahedron`, 1248-1252. -/
def setRequiredTetrahedron (m : Mesh K) (k : Nat) := ttag m k (· ||| REQ)
/-- `MMG3D_Unset_requiredTetrahedron`, 1254-1258. -/
def unsetRequiredTetrahedron (m : Mesh K) (k : Nat) := ttag m k (· &&& ~~~REQ)

/-- A loop over a list of indices. -/
def overList (f : Mesh K → Nat → Option (Mesh K)) : List Nat → Mesh K → Option (Mesh K)
  | [], m => some m
  | k :: l, m => (f m k).bind (overList f l)

/-- `MMG3D_Set_requiredTetrahedra`, 1260-1268. -/
def setRequiredTetrahedra (m : Mesh K) (l : List Nat) := overList setRequiredTetrahedron l m
/-- `MMG3D_Unset_requiredTetrahedra`, 1270-1278. -/
def unsetRequiredTetrahedra (m : Mesh K) (l : List Nat) := overList unsetRequiredTetrahedron l m
/-- `MMG3D_Set_requiredTriangle`, 1280-1286. -/
def setRequiredTriangle (m : Mesh K) (k : Nat) := ftag m k (· ||| REQ)
/-- `MMG3D_Unset_requiredTriangle`, 1288-1294. -/
def unsetRequiredTriangle (m : Mesh K) (k : Nat) := ftag m k (· &&& ~~~REQ)
/-- `MMG3D_Set_requiredTriangles`, 1296-1305. -/
def setRequiredTriangles (m : Mesh K) (l : List Nat) := overList setRequiredTriangle l m
/-- `MMG3D_Unset_requiredTriangles`, 1307-1316. -/
def unsetRequiredTriangles (m : Mesh K) (l : List Nat) := overList unsetRequiredTriangle l m
/-- `MMG3D_Set_parallelTriangle`, 1318-1324. -/
def setParallelTriangle (m : Mesh K) (k : Nat) := ftag m k (· ||| PARBDY)
/-- `MMG3D_Unset_parallelTriangle`, 1326-1332. -/
def unsetParallelTriangle (m : Mesh K) (k : Nat) := ftag m k (· &&& ~~~PARBDY)
/-- `MMG3D_Set_parallelTriangles`, 1334-1343. -/
def setParallelTriangles (m : Mesh K) (l : List Nat) := overList setParallelTriangle l m
/-- `MMG3D_Unset_parallelTriangles`, 1345-1354. -/
def unsetParallelTriangles (m : Mesh K) (l : List Nat) := overList unsetParallelTriangle l m
/-- `MMG3D_Set_ridge`, 1356-1360. -/
def setRidge (m : Mesh K) (k : Nat) := etag m k (· ||| GEO)
/-- `MMG3D_Unset_ridge`, 1362-1366. -/
def unsetRidge (m : Mesh K) (k : Nat) := etag m k (· &&& ~~~GEO)
/-- `MMG3D_Set_requiredEdge`, 1368-1372. -/
def setRequiredEdge (m : Mesh K) (k : Nat) := etag m k (· ||| REQ)
/-- `MMG3D_Unset_requiredEdge`, 1374-1378. -/
def unsetRequiredEdge (m : Mesh K) (k : Nat) := etag m k (· &&& ~~~REQ)

/-! ### Histories of calls -/

/-- A call of the interface. -/
inductive Op (K : Type) where
  | setVertex (c : Fin 3 → K) (ref pos : Int)
  | setVertices (vertices : Nat → K) (refs : Option (Nat → Int))
  | setTetrahedron (v : Fin 4 → Nat) (ref pos : Int)
  | setTetrahedra (tetra : Nat → Nat) (refs : Option (Nat → Int))
  | setPrism (v : Fin 6 → Nat) (ref pos : Int)
  | setPrisms (prisms : Nat → Nat) (refs : Option (Nat → Int))
  | setTriangle (v : Fin 3 → Nat) (ref pos : Int)
  | setTriangles (tria : Nat → Nat) (refs : Option (Nat → Int))
  | setQuadrilateral (v : Fin 4 → Nat) (ref pos : Int)
  | setQuadrilaterals (quads : Nat → Nat) (refs : Option (Nat → Int))
  | setEdge (v : Fin 2 → Nat) (ref pos : Int)
  | setEdges (edges : Nat → Nat) (refs : Option (Nat → Int))
  | setCorner (k : Nat) | unsetCorner (k : Nat)
  | setRequiredVertex (k : Nat) | unsetRequiredVertex (k : Nat)
  | setRequiredTetrahedron (k : Nat) | unsetRequiredTetrahedron (k : Nat)
  | setRequiredTetrahedra (l : List Nat) | unsetRequiredTetrahedra (l : List Nat)
  | setRequiredTriangle (k : Nat) | unsetRequiredTriangle (k : Nat)
  | setRequiredTriangles (l : List Nat) | unsetRequiredTriangles (l : List Nat)
  | setParallelTriangle (k : Nat) | unsetParallelTriangle (k : Nat)
  | setParallelTriangles (l : List Nat) | unsetParallelTriangles (l : List Nat)
  | setRidge (k : Nat) | unsetRidge (k : Nat)
  | setRequiredEdge (k : Nat) | unsetRequiredEdge (k : Nat)

/-- One call: the state after it, `none` if it accesses memory outside an array. A call that returns 0 is
followed by the next one. -/
def step [CommRing K] [LinearOrder K] (eps : K) (m : Mesh K) : Op K → Option (Mesh K)
  | .setVertex c ref pos => (setVertex m c ref pos).map (·.1)
  | .setVertices v r => some (setVertices m v r)
  | .setTetrahedron v ref pos => (setTetrahedron eps m v ref pos).map (·.1)
  | .setTetrahedra t r => (setTetrahedra eps m t r).map (·.1)
  | .setPrism v ref pos => (setPrism m v ref pos).map (·.1)
  | .setPrisms p r => setPrisms m p r
  | .setTriangle v ref pos => (setTriangle m v ref pos).map (·.1)
  | .setTriangles t r => some (setTriangles m t r)
  | .setQuadrilateral v ref pos => (setQuadrilateral m v ref pos).map (·.1)
  | .setQuadrilaterals q r => some (setQuadrilaterals m q r)
  | .setEdge v ref pos => (setEdge m v ref pos).map (·.1)
  | .setEdges e r => some (setEdges m e r)
  | .setCorner k => setCorner m k
  | .unsetCorner k => unsetCorner m k
  | .setRequiredVertex k => setRequiredVertex m k
  | .unsetRequiredVertex k => unsetRequiredVertex m k
  | .setRequiredTetrahedron k => setRequiredTetrahedron m k
  | .unsetRequiredTetrahedron k => unsetRequiredTetrahedron m k
  | .setRequiredTetrahedra l => setRequiredTetrahedra m l
  | .unsetRequiredTetrahedra l => unsetRequiredTetrahedra m l
  | .setRequiredTriangle k => setRequiredTriangle m k
  | .unsetRequiredTriangle k => unsetRequiredTriangle m k
  | .setRequiredTriangles l => setRequiredTriangles m l
  | .unsetRequiredTriangles l => unsetRequiredTriangles m l
  | .setParallelTriangle k => setParallelTriangle m k
  | .unsetParallelTriangle k => unsetParallelTriangle m k
  | .setParallelTriangles l => setParallelTriangles m l
  | .unsetParallelTriangles l => unsetParallelTriangles m l
  | .setRidge k => setRidge m k
  | .unsetRidge k => unsetRidge m k
  | .setRequiredEdge k => setRequiredEdge m k
  | .unsetRequiredEdge k => unsetRequiredEdge m k

/-- A history, most recent call first. -/
def run [CommRing K] [LinearOrder K] (eps : K) (m : Mesh K) : List (Op K) → Option (Mesh K)
  | [] => some m
  | op :: older => (run eps m older).bind (fun m' => step eps m' op)

end Mmg.Api
