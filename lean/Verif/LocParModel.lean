/-
  C101. Local parameters around a vertex or an edge: `MMG3D_localParamReg`, `MMG3D_localParamNm` (mmg3d/tools_3d.c 1025-1280), the part of
  `MMG5_chkswpbdy` on local parameters (mmg3d/swap_3d.c 194-268) and of `MMG2D_defmetbdy_2d` (mmg2d/anisosiz_2d.c 99-196).

  The table is the list of its entries.  A bit of `parTyp` is set as soon as an entry of the kind has been set (API_functions_3d.c 2510-2523),
  it is a parameter of the functions; the `do`/`while` loops are run with a table that is not empty.  Balls and shells are given by the
  references of their elements.
-/
import Mathlib.Order.Lattice
import Mathlib.Order.Defs.LinearOrder

namespace Mmg.LocPar

inductive Elt
  | none | vert | edge | tria | tetra
  deriving DecidableEq

/-- Sizes. -/
structure Sz (K : Type) where
  hausd : K
  hmin : K
  hmax : K
  deriving DecidableEq

/-- `MMG5_Par`. -/
structure Par (K : Type) where
  elt : Elt
  ref : Int
  sz : Sz K

variable {K : Type} [LinearOrder K]

/-- `MG_MIN`, `MG_MAX`, `MG_MIN` of the sizes so far and those of an entry. -/
def meet (a b : Sz K) : Sz K := ⟨min a.hausd b.hausd, max a.hmin b.hmin, min a.hmax b.hmax⟩

/-- `isloc` and the sizes. -/
structure St (K : Type) where
  loc : Bool
  sz : Sz K

/-- The `do`/`while` loop, tools_3d.c 1042-1059: the state and the entries that are left. -/
def first (hit : Par K → Bool) : St K → List (Par K) → St K × List (Par K)
  | s, [] => (s, [])
  | s, p :: ps =>
    if s.loc then (s, p :: ps)
    else if hit p then first hit ⟨true, p.sz⟩ ps
    else first hit s ps

/-- The `for` loop, tools_3d.c 1061-1074. -/
def rest (hit : Par K → Bool) : St K → List (Par K) → St K
  | s, [] => s
  | s, p :: ps => rest hit (if hit p then { s with sz := meet s.sz p.sz } else s) ps

/-- Both. -/
def phase (flag : Bool) (hit : Par K → Bool) (tab : List (Par K)) (s : St K) : St K :=
  if flag then
    let a := first hit s tab
    rest hit a.1 a.2
  else s

/-- An entry about a kind and one of the references. -/
def hits (e : Elt) (refs : List Int) (p : Par K) : Bool := decide (p.elt = e) && refs.any (fun r => decide (p.ref = r))

/-- `MMG3D_localParamReg`, tools_3d.c 1025-1121: `v` and `f` are the references of the tetrahedra of the ball and of the triangles of the
surface ball. -/
def reg (fTet fTri : Bool) (g : Sz K) (v f : List Int) (tab : List (Par K)) : Sz K :=
  (phase fTri (hits .tria f) tab (phase fTet (hits .tetra v) tab ⟨false, g⟩)).sz

/-- The loop over the triangle entries, tools_3d.c 1186-1208, 1215-1236. -/
def every (hit : Par K → Bool) : St K → List (Par K) → St K
  | s, [] => s
  | s, p :: ps => every hit (if hit p then (if s.loc then { s with sz := meet s.sz p.sz } else ⟨true, p.sz⟩) else s) ps

/-- `MMG3D_localParamNm`, tools_3d.c 1145-1280: `f` are the references of the two boundary triangles found in the shell (of the triangle at hand
if the search failed, with `v` empty), `v` those of the tetrahedra of the shell. -/
def nm (fTet fTri : Bool) (g : Sz K) (v f : List Int) (tab : List (Par K)) : Sz K :=
  (phase fTet (hits .tetra v) tab (if fTri then every (hits .tria f) ⟨false, g⟩ tab else ⟨false, g⟩)).sz

/-! ### Swap of a boundary edge -/

/-- The first entry about triangles, swap_3d.c 201-208. -/
def firstTria : List (Par K) → Option (Par K)
  | [] => Option.none
  | p :: ps => if p.elt = .tria then some p else firstTria ps

/-- The `do`/`while` loop for two references, swap_3d.c 211-224, with `info`. -/
def firstOf (a b : Int) : Bool × K × Int → List (Par K) → (Bool × K × Int) × List (Par K)
  | s, [] => (s, [])
  | s, p :: ps =>
    if s.1 then (s, p :: ps)
    else if p.elt = .tria ∧ (a = p.ref ∨ b = p.ref) then firstOf a b (true, p.sz.hausd, p.ref) ps
    else firstOf a b s ps

/-- The loop after it, swap_3d.c 226-234: the first other entry. -/
def secondOf (a b : Int) (info : Int) (h : K) : List (Par K) → K
  | [] => h
  | p :: ps =>
    if p.elt = .tria ∧ p.ref ≠ info ∧ (a = p.ref ∨ b = p.ref) then min h p.sz.hausd else secondOf a b info h ps

/-- The two loops for tetrahedra, swap_3d.c 240-266 (only `hausd` is used). -/
def swapTet (hit : Par K → Bool) (tab : List (Par K)) (loc : Bool) (h : K) : K :=
  (phase true hit tab ⟨loc, ⟨h, h, h⟩⟩).sz.hausd

/-- The distance used by `MMG5_chkswpbdy`, swap_3d.c 194-268: `a`, `b` the references of the two triangles, `v` of the tetrahedra. -/
def swapHausd (fTet fTri : Bool) (g : K) (a b : Int) (v : List Int) (tab : List (Par K)) : K :=
  let s : Bool × K :=
    if fTri then
      if a = b then
        match firstTria tab with
        | some p => (true, p.sz.hausd)
        | Option.none => (false, g)
      else
        let q := firstOf a b (false, g, -1000) tab
        (q.1.1, secondOf a b q.1.2.2 q.1.2.1 q.2)
    else (false, g)
  if fTet then swapTet (hits .tetra v) tab s.1 s.2 else s.2

/-! ### Boundary vertices in the plane -/

/-- `isloc`, `hausdloc` and the sizes. -/
structure Pl (K : Type) where
  loc : Bool
  hloc : Bool
  sz : Sz K

/-- The first entry of a kind and a reference. -/
def look (e : Elt) (r : Int) (tab : List (Par K)) : Option (Par K) := tab.find? fun p => decide (p.elt = e ∧ p.ref = r)

/-- Sizes of an entry on a triangle or on the vertex, anisosiz_2d.c 126-136, 172-182. -/
def plTria (s : Pl K) : Option (Par K) → Pl K
  | Option.none => s
  | some p =>
    if !s.loc then ⟨true, s.hloc, ⟨s.sz.hausd, p.sz.hmin, p.sz.hmax⟩⟩
    else { s with sz := ⟨s.sz.hausd, max s.sz.hmin p.sz.hmin, min s.sz.hmax p.sz.hmax⟩ }

/-- Sizes of an entry on a boundary edge, anisosiz_2d.c 146-163. -/
def plEdge (s : Pl K) : Option (Par K) → Pl K
  | Option.none => s
  | some p =>
    let h := if !s.hloc then p.sz.hausd else min s.sz.hausd p.sz.hausd
    if !s.loc then ⟨s.loc, true, ⟨h, p.sz.hmin, p.sz.hmax⟩⟩
    else ⟨s.loc, true, ⟨h, max s.sz.hmin p.sz.hmin, min s.sz.hmax p.sz.hmax⟩⟩

/-- One triangle of the ball, its reference and those of its boundary edges, anisosiz_2d.c 118-167. -/
def plOne (tab : List (Par K)) (s : Pl K) (t : Int × List Int) : Pl K :=
  t.2.foldl (fun s e => plEdge s (look .edge e tab)) (plTria s (look .tria t.1 tab))

/-- The sizes at a boundary vertex of reference `r` before the test of line 187, anisosiz_2d.c 99-185. -/
def plane (g : Sz K) (tab : List (Par K)) (ball : List (Int × List Int)) (r : Int) : Sz K :=
  (plTria (ball.foldl (plOne tab) ⟨false, false, g⟩) (look .vert r tab)).sz

/-- The test of lines 187-195; `warned` is the static variable `mmgWarn2`, `far h` is `MMG5_HMINMAXGAP*h`. -/
def repair (far : K → K) (warned : Bool) (s : Sz K) : Sz K × Bool :=
  if s.hmax < s.hmin then ((if !warned then { s with hmax := far s.hmin } else s), true) else (s, warned)

end Mmg.LocPar
