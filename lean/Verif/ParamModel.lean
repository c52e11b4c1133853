/-
  Integer and real parameters of the three codes:
  `MMG3D_Set_iparameter` (mmg3d/API_functions_3d.c 2113-2295), `MMG3D_Get_iparameter` (2297-2362),
  `MMG3D_Set_dparameter` (2364-2445); `MMGS_*` (mmgs/API_functions_s.c 1305-1589);
  `MMG2D_*` (mmg2d/API_functions_2d.c 112-378).

  Simplifications:
  * memory: whether an allocation, `MMG3D_memOption` or `MMG3D_skipIso` succeeds is an answer of the
    environment; arrays are `none` when the pointer is NULL;
  * doubles are real numbers;
  * messages and the deletion of tables of old ridges (`IPARAM_angle`) are not modelled.
-/
import Mathlib.Analysis.SpecialFunctions.Trigonometric.Basic
import Mathlib.Analysis.SpecialFunctions.Log.Basic

namespace Mmg.Param

/-- The three codes. -/
inductive Code where
  | d3 | d2 | surf
deriving DecidableEq

/-- Integer parameters (`MMG3D_IPARAM_*`, `MMGS_IPARAM_*`, `MMG2D_IPARAM_*`). -/
inductive IP where
  | verbose | mem | octree | debug | angle | nofem | opnbdy | iso | isoref | isosurf | keepRef
  | lag | medit3d | numsubdomain | optim | optimLES | noinsert | noswap | nomove | nosurf | nreg
  | xreg | nosizreq | nLocal | nBase | nMat | renum | anisosize
deriving DecidableEq

/-- Real parameters (`MMG3D_DPARAM_*`, ...). -/
inductive DP where
  | angleDetection | hmin | hmax | hsiz | hgrad | hgradreq | hausd | ls | xreg | rmc
deriving DecidableEq

/-- Conversions to `int8_t`, `uint8_t` and `int`. -/
def i8 (v : Int) : Int := (v + 128) % 256 - 128
def u8 (v : Int) : Int := v % 256
def i32 (v : Int) : Int := (v + 2147483648) % 4294967296 - 2147483648

/-- `MMG5_Info`, common/libmmgtypes.h 523-564 (the fields that the parameters write). -/
structure Info where
  dhd : ℝ
  hmin : ℝ
  hmax : ℝ
  hsiz : ℝ
  hgrad : ℝ
  hgradreq : ℝ
  hausd : ℝ
  ls : ℝ
  lxreg : ℝ
  rmc : ℝ
  sethmin : Bool
  sethmax : Bool
  isoref : Int
  nsd : Int
  mem : Int
  npar : Int
  npari : Int
  par : Option Unit
  nbr : Int
  nbri : Int
  br : Option (List Int)
  nmat : Int
  nmati : Int
  mat : Option Unit
  opnbdy : Int
  renum : Int
  octree : Int
  imprim : Int
  nreg : Int
  xreg : Int
  ddebug : Int
  iso : Int
  isosurf : Int
  setfem : Int
  lag : Int
  ani : Int
  optim : Int
  optimLES : Int
  noinsert : Int
  noswap : Int
  nomove : Int
  nosurf : Int
  nosizreq : Int

/-- Compilation flags: `USE_ELAS`, `USE_SCOTCH`, absence of `MMG_PATTERN`. -/
structure Cfg where
  elas : Bool
  scotch : Bool
  delaunay : Bool

/-- Answers of the environment to one call: success of the allocation of the array (of
`MMG3D_memOption`, of `MMG3D_skipIso`). -/
structure Env where
  ok : Bool

/-- `MMG5_ANGEDG`, common/mmgcommon_private.h 90. -/
noncomputable def ANGEDG : ℝ := 0.707106781186548

/-- Number of elements of an array of `val` elements. -/
def zeros (v : Int) : List Int := List.replicate v.toNat 0

/-- `MMG3D_Set_iparameter` / `MMGS_Set_iparameter` / `MMG2D_Set_iparameter`: the state and the
returned value (`true` for 1). -/
noncomputable def setI (code : Code) (cfg : Cfg) (env : Env) (s : Info) (p : IP) (v : Int) :
    Info × Bool :=
  match p with
  | .verbose => ({ s with imprim := i32 v }, true)
  | .mem => ({ s with mem := if v ≤ 0 then s.mem else i32 v }, env.ok)
  | .octree =>
    if code = .d3 ∧ cfg.delaunay = true then ({ s with octree := i32 v }, true) else (s, false)
  | .debug => ({ s with ddebug := i8 v }, true)
  | .angle => ({ s with dhd := if v = 0 then -1 else ANGEDG }, true)
  | .nofem => if code = .surf then (s, false)
    else ({ s with setfem := if v = 1 then 0 else 1 }, true)
  | .opnbdy => if code = .surf then (s, false) else ({ s with opnbdy := i32 v }, true)
  | .iso =>
    match code with
    | .d3 => ({ s with iso := i8 v }, decide (i8 v = 0) || env.ok)
    | .d2 => ({ s with iso := i8 v }, true)
    | .surf => ({ s with iso := if s.iso = 0 then i8 v else s.iso }, true)
  | .isoref => ({ s with isoref := v }, true)
  | .isosurf => ({ s with isosurf := i8 v }, true)
  | .keepRef =>
    if code = .surf then
      ({ s with iso := if s.nmat ≠ 0 then s.iso else if v ≠ 0 then 2 else s.iso }, true)
    else (s, false)
  | .lag =>
    if code = .surf then (s, false)
    else if cfg.elas = true then
      if v < 0 ∨ 2 < v then (s, false)
      else if v < 2 then ({ s with lag := i8 v, noinsert := u8 1 }, true)
      else ({ s with lag := i8 v }, true)
    else (s, false)
  | .medit3d => if code = .d2 then ({ s with renum := i32 v }, true) else (s, false)
  | .numsubdomain => ({ s with nsd := v }, true)
  | .optim => ({ s with optim := u8 v }, true)
  | .optimLES => if code = .d3 then ({ s with optimLES := u8 v }, true) else (s, false)
  | .noinsert => ({ s with noinsert := u8 v }, true)
  | .noswap => ({ s with noswap := u8 v }, true)
  | .nomove => ({ s with nomove := u8 v }, true)
  | .nosurf => if code = .surf then (s, false) else ({ s with nosurf := u8 v }, true)
  | .nreg => ({ s with nreg := i8 v }, true)
  | .xreg => ({ s with xreg := i8 v }, true)
  | .nosizreq => ({ s with nosizreq := u8 v }, true)
  | .nLocal =>
    ({ s with npar := i32 v, npari := 0, par := if env.ok then some () else none }, env.ok)
  | .nBase =>
    match code with
    | .d3 =>
      -- the old array is not freed and the counter is not reset (2251-2261)
      if env.ok then ({ s with nbr := i32 v, br := some (zeros v) }, true)
      else ({ s with nbr := i32 v }, false)
    | _ =>
      ({ s with nbr := i32 v, nbri := 0, br := if env.ok then some (zeros v) else none }, env.ok)
  | .nMat =>
    let s := if code = .surf ∧ s.iso = 2 then { s with iso := 1 } else s
    ({ s with nmat := i32 v, nmati := 0, mat := if env.ok then some () else none }, env.ok)
  | .renum =>
    if code ≠ .d2 ∧ cfg.scotch = true then ({ s with renum := i32 v }, true) else (s, false)
  | .anisosize => ({ s with ani := u8 v }, true)

/-- `MMG3D_Get_iparameter` and `MMGS_Get_iparameter`; `none` is the error ("unknown type of
parameter", value 0).  There is no such function in 2D. -/
noncomputable def getI (code : Code) (cfg : Cfg) (s : Info) (p : IP) : Option Int :=
  match p with
  | .verbose => some s.imprim
  | .mem => some s.mem
  | .octree => if code = .d3 ∧ cfg.delaunay = true then some s.octree else none
  | .debug => some s.ddebug
  | .angle => some (if s.dhd ≤ 0 then 0 else 1)
  | .iso => if code = .d3 then some s.iso else none
  | .lag => if code = .d3 then some s.lag else none
  | .noinsert => some s.noinsert
  | .noswap => some s.noswap
  | .nomove => some s.nomove
  | .nosurf => if code = .d3 then some s.nosurf else none
  | .nreg => some s.nreg
  | .xreg => some s.xreg
  | .nLocal => some s.npar
  | .nMat => if code = .d3 then some s.nmat else none
  | .renum => if cfg.scotch = true then some s.renum else none
  | _ => none

/-- `MMG3D_Set_dparameter` / `MMGS_Set_dparameter` / `MMG2D_Set_dparameter`. -/
noncomputable def setD (code : Code) (s : Info) (p : DP) (x : ℝ) : Info × Bool :=
  match p with
  | .angleDetection =>
    ({ s with dhd := Real.cos (max 0 (min 180 x) * Real.pi / 180) }, true)
  | .hmin =>
    ({ s with sethmin := true, hmin := x },
      if code = .d2 then !(s.sethmax && decide (s.hmax ≤ x)) && !decide (x ≤ 0) else true)
  | .hmax =>
    ({ s with sethmax := true, hmax := x },
      if code = .d2 then !(s.sethmin && decide (x ≤ s.hmin)) && !decide (x ≤ 0) else true)
  | .hsiz => ({ s with hsiz := x }, true)
  | .hgrad => ({ s with hgrad := if x ≤ 0 then -1 else Real.log x }, true)
  | .hgradreq => ({ s with hgradreq := if x ≤ 0 then -1 else Real.log x }, true)
  | .hausd => if x ≤ 0 then (s, false) else ({ s with hausd := x }, true)
  | .ls => ({ s with ls := x }, true)
  | .xreg => if x < 0 ∨ 1 < x then (s, true) else ({ s with lxreg := x }, true)
  | .rmc => ({ s with rmc := if x = 0 then 1 / 100000 else x }, true)

/-- A call of one of the two functions. -/
inductive Call where
  | i (p : IP) (v : Int) (env : Env)
  | d (p : DP) (x : ℝ)

/-- The state after a call. -/
noncomputable def step (code : Code) (cfg : Cfg) (s : Info) : Call → Info
  | .i p v env => (setI code cfg env s p v).1
  | .d p x => (setD code s p x).1

/-- `MMG5_Set_lsBaseReference`, common/libtools.c 176-203: `none` when the function returns 0; a
write outside of the array is `some none`. -/
def setBase (s : Info) (b : Int) : Option (Option Info) :=
  if s.nbr = 0 then none
  else if s.nbr ≤ s.nbri then none
  else if b < 0 then none
  else match s.br with
    | none => some none
    | some l =>
      if 0 ≤ s.nbri ∧ s.nbri < l.length then
        some (some { s with br := some (l.set s.nbri.toNat b), nbri := s.nbri + 1 })
      else some none

/-- All the references of a list, one call after the other. -/
def setBases (s : Info) : List Int → Option (Option Info)
  | [] => some (some s)
  | b :: bs => match setBase s b with
    | none => none
    | some none => some none
    | some (some s') => setBases s' bs

/-- `MMG3D_Set_localParameter` (2448-2530) for the first parameter that is set: the tests on its
arguments pass, the list is empty (`npari = 0`).  `some none`: access to `info.par` which is
NULL. -/
def firstLocal (s : Info) : Option (Option Info) :=
  if s.npar = 0 then none
  else if s.npar ≤ s.npari then none
  else match s.par with
    | none => some none
    | some _ => some (some { s with npari := s.npari + 1 })

end Mmg.Param
