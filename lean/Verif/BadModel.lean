import Verif.LenRepModel

/-
The check of a mesh through the API, which lists the bad tetrahedra:

  MMG3D_searchqua    mmg3d/libmmg3d_tools.c:1295-1321
  MMG3D_searchlen    mmg3d/libmmg3d_tools.c:1387-1452
  MMG3D_mmg3dcheck   mmg3d/libmmg3d_tools.c:1283-1289 (the two calls)

`eltab` is zero at the beginning. The table of edges is a set of pairs (C01, C103), as in LenRepModel.lean. Qualities and lengths are data, for each
of the two functions that compute them. Not modelled: failure of the allocation of the table of edges, scaling of the mesh.
-/

namespace Mmg.LenRep

variable {K : Type} [LinearOrder K]

/-- A tetrahedron: `MG_EOK`, vertices, quality by `MMG5_caltet33_ani` and by `MMG5_caltet` (times `MMG3D_ALPHAD`), lengths of its edges by
`MMG5_lenedg33_ani` and by `MMG5_lenedg`. The first functions read a tensor stored classically. -/
structure Chk (K : Type) where
  ok : Bool
  v : Nat → Nat
  qual33 : K
  qual : K
  len33 : Nat → K
  len : Nat → K

/-- The metric: type of storage at ridges (`metRidTyp`), `met->m`, `met->size`. -/
structure Met where
  rid : Bool
  m : Bool
  size : Nat

/-- `(!metRidTyp) && met->m && met->size>1`. -/
def Met.classic (M : Met) : Bool := !M.rid && M.m && decide (1 < M.size)

/-- `MMG3D_searchqua`: libmmg3d_tools.c:1303-1320, `zero` is 0.0. -/
def searchqua (zero crit : K) (M : Met) (ts : List (Chk K)) : List Bool :=
  ts.map fun t =>
    let rap := if M.classic then t.qual33 else t.qual
    t.ok && (decide (rap = zero) || decide (rap < crit))

/-- The length taken by `MMG3D_searchlen`: libmmg3d_tools.c:1430-1441. -/
def lenUsed (M : Met) (t : Chk K) : Nat → K := if M.classic then t.len else t.len33

/-- The tetrahedron with the lengths taken. -/
def elt (M : Met) (t : Chk K) : Elt K := ⟨t.ok, t.v, lenUsed M t⟩

/-- `(len < lmin) || (len > lmax)`. -/
def bad (lmin lmax : K) (l : K) : Bool := decide (l < lmin) || decide (lmax < l)

/-- The loop on the edges of a tetrahedron: libmmg3d_tools.c:1421-1447; the set is what is left in the table. The loop is left at the first edge
found to be bad. -/
def scan (lmin lmax : K) : List E → List (E × K) → List E × Bool
  | s, [] => (s, false)
  | s, x :: xs =>
    if norm x.1 ∈ s then
      if bad lmin lmax x.2 then (s.filter fun e => decide (e ≠ norm x.1), true)
      else scan lmin lmax (s.filter fun e => decide (e ≠ norm x.1)) xs
    else scan lmin lmax s xs

/-- The second loop: libmmg3d_tools.c:1417-1449. -/
def marks (lmin lmax : K) : List E → List (Elt K) → List Bool
  | _, [] => []
  | s, t :: ts =>
    if t.ok then (scan lmin lmax s (sides3 t)).2 :: marks lmin lmax (scan lmin lmax s (sides3 t)).1 ts
    else false :: marks lmin lmax s ts

/-- `MMG3D_searchlen`: libmmg3d_tools.c:1387-1452. -/
def searchlen (lmin lmax : K) (M : Met) (ts : List (Chk K)) : List Bool :=
  marks lmin lmax (hashed (ts.map (elt M))) (ts.map (elt M))

/-- `eltab` after `MMG3D_mmg3dcheck`: libmmg3d_tools.c:1283-1289. -/
def check (zero crit lmin lmax : K) (M : Met) (ts : List (Chk K)) : List Bool :=
  List.zipWith (· || ·) (searchqua zero crit M ts) (searchlen lmin lmax M ts)

end Mmg.LenRep
