/-
  Memory given by the user, maximal numbers of entities and sizes of the arrays.

  src/mmg3d/zaldy_3d.c: MMG3D_memOption_memSet, MMG3D_memOption_memRepartition, MMG3D_memOption,
  MMG3D_setMeshSize_alloc; src/common/tools.c: MMG5_memOption_memSet;
  src/mmg3d/API_functions_3d.c: MMG3D_Set_meshSize, MMG3D_Set_iparameter (MMG3D_IPARAM_mem);
  src/mmg3d/hash_3d.c: MMG5_paktet.

  Simplifications: `size_t` and `MMG5_int` do not overflow (natural numbers); the conversions
  through `double` (1.5*np, memMax/0.5) are exact; the numbers of edges are left out (no limit is
  computed for them).
-/
import Mathlib.Tactic.Linarith
import Mathlib.Tactic.SplitIfs

namespace Mmg.Limit

/-- Sizes of the C types in bytes (`sizeof`), common/libmmgtypes.h 275-605. -/
structure Sizes where
  point : Nat
  xpoint : Nat
  tria : Nat
  tetra : Nat
  xtetra : Nat
  prism : Nat
  quad : Nat
  hedge : Nat
  int : Nat

/-- Compilation flags and the machine: `USE_SCOTCH`, `MMG5_int` of 32 bits, size of the physical
memory in bytes (`MMG5_memSize`). -/
structure Cfg where
  sz : Sizes
  scotch : Bool
  int32 : Bool
  ram : Nat

/-- Numbers of entities of the mesh. -/
structure Cnt where
  np : Nat
  ne : Nat
  nt : Nat
  nprism : Nat
  nquad : Nat

/-- The fields of the mesh that are used: counts, limits, memory allowed (`memMax`, bytes), memory
asked by the user (`info.mem`, megabytes) and the last indices of the arrays of points and
tetrahedra, when allocated. -/
structure St where
  cnt : Cnt
  npmax : Nat
  ntmax : Nat
  nemax : Nat
  memMax : Nat
  mem : Int
  arr : Option (Nat × Nat)

/-- common/mmgcommon_private.h 87. -/
def MILLION : Nat := 1048576
/-- common/mmgcommon_private.h 111. -/
def MEMMIN : Nat := 38
/-- mmg3d/libmmg3d_private.h 153-156. -/
def NPMAX : Nat := 1000000
def NTMAX : Nat := 2000000
def NEMAX : Nat := 6000000

/-- Memory for the initial mesh, zaldy_3d.c 183-191. -/
def used (z : Sizes) (c : Cnt) : Nat :=
  MEMMIN + (c.nprism * z.prism + c.nquad * z.quad)
    + (c.np + 1) * z.point + (c.nt + 1) * z.tria + (c.ne + 1) * z.tetra
    + (3 * c.nt + 1) * z.int + (4 * c.ne + 1) * z.int + (c.np + 1) * 8

/-- Memory for a new point, zaldy_3d.c 200-212. -/
def bytes (z : Sizes) (scotch : Bool) : Nat :=
  z.point + z.xpoint + 6 * z.tetra + 2 * z.xtetra + 24 * z.int + 6 * z.int + 4 * z.hedge + 48
    + (if scotch then 18 * z.int else 0)

/-- Number of points that can be added, zaldy_3d.c 214-219. -/
def npadd (cfg : Cfg) (c : Cnt) (memMax : Nat) : Nat :=
  (memMax - used cfg.sz c) / (2 * bytes cfg.sz cfg.scotch)

/-- Largest number of tetrahedra with 32-bit integers, zaldy_3d.c 224-238. -/
def int32Max (c : Cnt) : Nat :=
  let coef := if c.nprism = 0 then 4 else 5
  (2147483647 - (coef + 1)) / coef

/-- `MMG5_memOption_memSet`, tools.c 891-916. -/
def memSet (cfg : Cfg) (s : St) : St :=
  if s.mem ≤ 0 then { s with memMax := cfg.ram / 2 }
  else if s.memMax * 2 < s.mem.toNat * MILLION then s
  else { s with memMax := s.mem.toNat * MILLION }

/-- `MMG3D_memOption_memRepartition`, zaldy_3d.c 177-262: the state and the returned value. -/
def repart (cfg : Cfg) (s : St) : St × Bool :=
  if s.memMax < used cfg.sz s.cnt then (s, false)
  else
    let a := npadd cfg s.cnt s.memMax
    let s := { s with npmax := min s.npmax (s.cnt.np + a)
                      ntmax := min s.ntmax (2 * a + s.cnt.nt)
                      nemax := min s.nemax (6 * a + s.cnt.ne) }
    if cfg.int32 = true ∧ int32Max s.cnt < s.nemax then
      if int32Max s.cnt ≤ s.cnt.ne then (s, false)
      else ({ s with nemax := int32Max s.cnt }, true)
    else (s, true)

/-- `MMG3D_memOption`, zaldy_3d.c 271-278. -/
def memOption (cfg : Cfg) (s : St) : St × Bool :=
  repart cfg (memSet cfg { s with npmax := max (3 * s.cnt.np / 2) NPMAX
                                  nemax := max (3 * s.cnt.ne / 2) NEMAX
                                  ntmax := max (3 * s.cnt.nt / 2) NTMAX })

/-- `MMG3D_Set_iparameter` with `MMG3D_IPARAM_mem`, API_functions_3d.c 2121-2130. -/
def setMem (cfg : Cfg) (s : St) (v : Int) : St × Bool :=
  memOption cfg { s with mem := if v ≤ 0 then s.mem else v }

/-- Memory asked by `MMG3D_setMeshSize_alloc` for points, tetrahedra, prisms, triangles and
quadrilaterals, zaldy_3d.c 288-316. -/
def asked (z : Sizes) (s : St) : Nat :=
  (s.npmax + 1) * z.point + (s.nemax + 1) * z.tetra
    + (if s.cnt.nprism = 0 then 0 else (s.cnt.nprism + 1) * z.prism)
    + (if s.cnt.nt = 0 then 0 else (s.cnt.nt + 1) * z.tria)
    + (if s.cnt.nquad = 0 then 0 else (s.cnt.nquad + 1) * z.quad)

/-- The limits of `MMG3D_Set_meshSize`, API_functions_3d.c 270-282. -/
def sizeLimits (cfg : Cfg) (s : St) : St × Bool :=
  if 0 < s.mem then
    if s.npmax < s.cnt.np ∨ s.ntmax < s.cnt.nt ∨ s.nemax < s.cnt.ne then memOption cfg s
    else (s, decide (¬ s.mem < 39))
  else memOption cfg s

/-- `MMG3D_Set_meshSize`, API_functions_3d.c 263-288, with the deletion of the old arrays and the
new counts (222-261); `ok` is the answer of the allocator (and of the memory counter). -/
def setSize (cfg : Cfg) (s : St) (c : Cnt) (ok : Bool) : St × Bool :=
  if c.np = 0 then (s, false)
  else
    let r := sizeLimits cfg { s with cnt := c, arr := none }
    if r.2 = false then r
    else if ok then ({ r.1 with arr := some (r.1.npmax, r.1.nemax) }, true) else (r.1, false)

/-- Indices of the tetrahedra written when the free chain is made again, `MMG5_paktet`,
hash_3d.c 66-79. -/
def chainWrites (ne nemax : Nat) : List Nat :=
  if ne = nemax then [] else (List.range (nemax - ne)).map (fun i => ne + 1 + i)

end Mmg.Limit
