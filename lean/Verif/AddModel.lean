import Verif.PoolModel
import Mathlib.Algebra.Order.Ring.Defs
import Mathlib.Algebra.Order.Group.Unbundled.Abs
import Mathlib.Data.Int.Order.Basic
import Mathlib.Algebra.Ring.Int.Defs

/-
Adding vertices and tetrahedra to a mesh, through the API:

  MMG3D_Add_vertex       mmg3d/API_functions_3d.c:2081-2113
  MMG3D_Add_tetrahedron  mmg3d/API_functions_3d.c:2007-2079

The tables are those of PoolModel.lean (`create` is `MMG3D_newPt`/`MMG3D_newElt` and, if there is no free slot, the growth of the table and a
second try). The answer of the allocator is an argument of each call: `none` if the growth is refused (also by the test on 32 bits numbers).
Coordinates are in an ordered ring. Not modelled: the table of adjacency, the counter `mesh->xt` of inverted tetrahedra.
-/

namespace Mmg.Add
open Mmg.Pool

/-- What a vertex holds: coordinates and reference. -/
structure Pt (K : Type) where
  x : K
  y : K
  z : K
  ref : Int

/-- What a tetrahedron holds. -/
structure Tet where
  v0 : Nat
  v1 : Nat
  v2 : Nat
  v3 : Nat
  ref : Int
deriving DecidableEq

structure Mesh (K : Type) where
  pts : Pool (Pt K)
  tets : Pool Tet

variable {K : Type} [CommRing K] [LinearOrder K]

/-- A zeroed vertex (tag 0: used). -/
def zP : Cell (Pt K) := ⟨true, 0, ⟨0, 0, 0, 0⟩⟩

/-- A zeroed tetrahedron (`v[0] = 0`: not used). -/
def zT : Cell Tet := ⟨false, 0, ⟨0, 0, 0, 0, 0⟩⟩

/-- `MMG3D_Add_vertex`: API_functions_3d.c:2081-2113. The reference `d.ref` is an argument of the function; `MMG3D_newPt` writes 0
(zaldy_3d.c:52) and nothing else is written. -/
def addVertex (M : Mesh K) (d : Pt K) (gap : Option Nat) : Option (Mesh K × Int) :=
  (create zP M.pts ⟨d.x, d.y, d.z, 0⟩ 0 gap).map fun q => ({ M with pts := q.1 }, (q.2 : Int))

/-- `MMG5_orvol`: tools.c:918-960. -/
def orvol (c : Nat → Pt K) (t : Tet) : K :=
  let m1 := (c t.v1).x - (c t.v0).x
  let m2 := (c t.v1).y - (c t.v0).y
  let m3 := (c t.v1).z - (c t.v0).z
  let n1 := (c t.v2).x - (c t.v0).x
  let n2 := (c t.v2).y - (c t.v0).y
  let n3 := (c t.v2).z - (c t.v0).z
  ((c t.v3).x - (c t.v0).x) * (m2 * n3 - m3 * n2) + ((c t.v3).y - (c t.v0).y) * (m3 * n1 - m1 * n3) +
    ((c t.v3).z - (c t.v0).z) * (m1 * n2 - m2 * n1)

/-- `mesh->point[v].tag &= ~MG_NUL`: API_functions_3d.c:2045-2048. -/
def revive (p : Pool (Pt K)) (t : Tet) : Pool (Pt K) :=
  { p with cell := fun k => if k = t.v0 ∨ k = t.v1 ∨ k = t.v2 ∨ k = t.v3 then { p.cell k with live := true } else p.cell k }

/-- `MMG3D_Add_tetrahedron`: API_functions_3d.c:2007-2079; `eps` is `MMG5_EPSD2`. Vertex 0 is not treated (`live` is the test on `v[0]`). -/
def addTet (eps : K) (M : Mesh K) (t : Tet) (gap : Option Nat) : Option (Mesh K × Int) :=
  if M.pts.top < t.v0 ∨ M.pts.top < t.v1 ∨ M.pts.top < t.v2 ∨ M.pts.top < t.v3 then some (M, 0)
  else
    match create zT M.tets { t with ref := |t.ref| } t.v3 gap with
    | none => none
    | some (q, r) =>
      if r = 0 then some ({ M with tets := q }, 0)
      else
        let P := revive M.pts t
        let vol := orvol (fun k => (P.cell k).data) t
        if |vol| ≤ eps then some (⟨P, q⟩, -(r : Int))
        else if vol < 0 then
          some (⟨P, { q with cell := put q.cell r ⟨true, t.v2, { t with v2 := t.v3, v3 := t.v2, ref := |t.ref| }⟩ }⟩, -(r : Int))
        else some (⟨P, q⟩, (r : Int))

/-- Calls, with the answer of the allocator. -/
inductive Op (K : Type) where
  | vertex (d : Pt K) (gap : Option Nat)
  | tet (t : Tet) (gap : Option Nat)

/-- One call. -/
def call (eps : K) (M : Mesh K) : Op K → Option (Mesh K × Int)
  | .vertex d gap => addVertex M d gap
  | .tet t gap => addTet eps M t gap

/-- Calls one after the other, with their answers. -/
def run (eps : K) : Mesh K → List (Op K) → Option (Mesh K × List Int)
  | M, [] => some (M, [])
  | M, o :: os =>
    match call eps M o with
    | none => none
    | some (M', a) => (run eps M' os).map fun q => (q.1, a :: q.2)

end Mmg.Add
