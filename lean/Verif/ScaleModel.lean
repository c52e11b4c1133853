/-
Model of the scaling of a mesh to the unit box, of its inverse, and of the computation and use of the size bounds
(src/common/scalem.c and src/common/API_functions.c). Reals are elements of an ordered field (exact arithmetic).
Prints are dropped, and so is the reset of the scratch field `tmp` of the points.
-/
import Mathlib.Algebra.Order.Field.Basic

namespace Mmg.Scale

/-- Constants of the C headers: `DBL_MAX`, `FLT_MAX`, `MMG5_EPSD` (mmgcommon_private.h 94). -/
structure Consts (K : Type) where
  dblMax : K
  fltMax : K
  epsd : K

/-- A local parameter (`MMG5_Par`). -/
structure Par (K : Type) where
  hmin : K
  hmax : K
  hausd : K

/-- The fields of `MMG5_Info` used here. -/
structure Info (K : Type) where
  min : Nat → K
  max : Nat → K
  delta : K
  hmin : K
  hmax : K
  sethmin : Bool
  sethmax : Bool
  hausd : K
  ls : K
  hsiz : K
  optim : Bool
  par : List (Par K)

/-- A solution (`MMG5_Sol`): `alloc` tells whether the pointer `m` is set. -/
structure Sol (K : Type) where
  np : Nat
  size : Nat
  type : Nat
  alloc : Bool
  m : Nat → K

/-- Mesh, metric, level-set or displacement, and the static variable `mmgWarn0` of `MMG5_scale_scalarMetric` (`warn`),
which lives as long as the process. `valid k` is `MG_VOK(&mesh->point[k])`. -/
structure St (K : Type) where
  dim : Nat
  np : Nat
  valid : Nat → Bool
  c : Nat → Nat → K
  flag : Nat → Nat
  base : Nat
  info : Info K
  met : Option (Sol K)
  sol : Option (Sol K)
  warn : Bool

/-- A loop `for (k=1; k<=n; k++)`. -/
def loop {σ : Type} (body : Nat → σ → σ) : Nat → σ → σ
  | 0, s => s
  | n + 1, s => body (n + 1) (loop body n s)

/-- Assignment of one entry. -/
def upd {β : Type} (f : Nat → β) (k : Nat) (x : β) : Nat → β := fun j => if j = k then x else f j

section
variable {K : Type} [Field K] [LinearOrder K]

/-- scalem.c 56-66: the body of the loop over the points: update of the two corners by one point. -/
def boxPoint (s : St K) (k : Nat) (b : (Nat → K) × (Nat → K)) : (Nat → K) × (Nat → K) :=
  if s.valid k then
    (fun i => if i < s.dim ∧ s.c k i < b.1 i then s.c k i else b.1 i,
      fun i => if i < s.dim ∧ b.2 i < s.c k i then s.c k i else b.2 i)
  else b

/-- `MMG5_boundingBox` (scalem.c 46-78). -/
def boundingBox (P : Consts K) (s : St K) : Bool × St K :=
  let b := loop (boxPoint s) s.np
    (fun i => if i < s.dim then P.dblMax else s.info.min i,
      fun i => if i < s.dim then - P.dblMax else s.info.max i)
  let delta := (List.range s.dim).foldl
    (fun d i => let dd := b.2 i - b.1 i; if d < dd then dd else d) 0
  let s' := { s with info := { s.info with min := b.1, max := b.2, delta := delta } }
  if delta < P.epsd then (false, s') else (true, s')

/-- `MMG5_check_hminhmax` (scalem.c 89-107). -/
def checkBounds (f : Info K) : Info K :=
  let f1 := if f.sethmin then f else
    let h := f.hmin * (1 / 10)
    { f with hmin := if h > f.hmax then 1 / 10 * f.hmax else h }
  if f1.sethmax then f1 else
    let h := f1.hmax * 10
    { f1 with hmax := if h < f1.hmin then 10 * f1.hmin else h }

/-- `MMG5_check_setted_hminhmax` (scalem.c 116-135). -/
def checkSetted (f : Info K) : Bool :=
  if f.hmin < 0 ∧ f.sethmin then false
  else if f.hmax < 0 ∧ f.sethmax then false
  else true

/-- scalem.c 311-322: extremal sizes over the points that carry a size. -/
def extremal (s : St K) (m : Nat → K) (k : Nat) (h : K × K) : K × K :=
  if ¬ s.valid k ∨ s.flag k < s.base then h
  else (if h.1 < m k then h.1 else m k, if h.2 > m k then h.2 else m k)

/-- `MG_MIN(a,b)` and `MG_MAX(a,b)`. -/
def cmin (a b : K) : K := if a < b then a else b
def cmax (a b : K) : K := if a > b then a else b

/-- `MMG5_solTruncature_iso` (scalem.c 299-353) for the metric `q`. -/
def truncIso (P : Consts K) (s : St K) (q : Sol K) : Bool × St K :=
  if !checkSetted s.info then (false, s) else
  let h := if !s.info.sethmin || !s.info.sethmax then
      loop (extremal s q.m) s.np (P.fltMax, 0) else (P.fltMax, 0)
  let f1 := if s.info.sethmin then s.info else { s.info with hmin := h.1 }
  let f2 := if f1.sethmax then f1 else { f1 with hmax := h.2 }
  let f := checkBounds f2
  let m := loop (fun k m => upd m k
    (if s.flag k < s.base then f.hmax else cmin f.hmax (cmax f.hmin (m k)))) s.np q.m
  (true, { s with info := f, met := some { q with m := m } })

/-- State of the loop of `MMG5_scale_scalarMetric`: `run` is false once the function has returned. -/
structure ScalarLoop (K : Type) where
  run : Bool
  flag : Nat → Nat
  m : Nat → K
  warn : Bool

/-- scalem.c 219-240: body of the loop over the points. -/
def scalarBody (s : St K) (base : Nat) (dd : K) (k : Nat) (l : ScalarLoop K) : ScalarLoop K :=
  if !l.run then l
  else if !s.valid k then l
  else
    let l1 := { l with flag := upd l.flag k base }
    if l.m k ≤ 0 ∧ l.warn = false then { l1 with warn := true, run := false }
    else { l1 with m := upd l.m k (l.m k * dd) }

/-- `MMG5_scale_scalarMetric` (scalem.c 206-245). -/
def scaleScalar (P : Consts K) (s : St K) (q : Sol K) (dd : K) : Bool × St K :=
  let base := s.base + 1
  let l := loop (scalarBody s base dd) s.np ⟨true, s.flag, q.m, s.warn⟩
  let q' := { q with m := l.m }
  let s' := { s with base := base, flag := l.flag, warn := l.warn, met := some q' }
  if l.run then truncIso P s' q' else (false, s')

/-- `MMG5_scale_tensorMetric` (scalem.c 260-288); the truncation `MMG5_solTruncature_ani` is a function pointer in the
C code and an argument here. -/
def scaleTensor (trunc : St K → Sol K → Bool × St K) (s : St K) (q : Sol K) (dd : K) : Bool × St K :=
  let dd := 1 / (dd * dd)
  let base := s.base + 1
  let r := loop (fun k (r : (Nat → Nat) × (Nat → K)) =>
    if !s.valid k then r
    else (upd r.1 k base,
      fun j => if k * q.size ≤ j ∧ j < k * q.size + q.size then r.2 j * dd else r.2 j)) s.np
    (s.flag, q.m)
  let q' := { q with m := r.2 }
  trunc { s with base := base, flag := r.1, met := some q' } q'

/-- `MMG5_Set_defaultTruncatureSizes` (API_functions.c 586-621); `MMG5_HMINCOE` is 0.001 and `MMG5_HMAXCOE` is 2. -/
def defaultBounds (f : Info K) (sethmin sethmax : Bool) : Bool × Info K :=
  let f1 := if sethmin then f else
    if sethmax then { f with hmin := cmin (1 / 1000) (1 / 1000 * f.hmax) }
    else { f with hmin := 1 / 1000 }
  let f2 := if sethmax then f1 else
    if sethmin then { f1 with hmax := cmax 2 (1 / (1 / 1000) * f1.hmin) }
    else { f1 with hmax := 2 }
  if f2.hmax < f2.hmin then (false, f2) else (true, f2)

/-- `MMG5_Compute_constantSize` (API_functions.c 623-680); the last component is `*hsiz` (0 when it is not set). -/
def constantSize (f : Info K) : Bool × Info K × K :=
  if f.hmin > f.hsiz then (false, f, 0)
  else if f.hmax > 0 ∧ f.hmax < f.hsiz then (false, f, 0)
  else
    let h := f.hsiz
    if !checkSetted f then (false, f, h) else
    let h := if f.sethmin then cmax f.hmin h else h
    let h := if f.sethmax then cmin f.hmax h else h
    let f1 := if f.sethmin then f else
      if f.sethmax then { f with hmin := cmin (1 / 10 * h) (1 / 10 * f.hmax) }
      else { f with hmin := 1 / 10 * h }
    let f2 := if f1.sethmax then f1 else
      if f1.sethmin then { f1 with hmax := cmax (10 * h) (10 * f1.hmin) }
      else { f1 with hmax := 10 * h }
    (true, f2, h)

/-- Multiplication of the local parameters by `d` (scalem.c 594-599 and 729-734). -/
def scalePar (d : K) (p : Par K) : Par K := ⟨p.hmin * d, p.hmax * d, p.hausd * d⟩

/-- scalem.c 581-587: normalisation of the coordinates. -/
def scaleCoord (s : St K) (d : K) : Nat → Nat → K :=
  loop (fun k c => if s.valid k then
    upd c k (fun i => if i < s.dim then d * (c k i - s.info.min i) else c k i) else c) s.np s.c

/-- scalem.c 589-599: parameters and local parameters. -/
def scaleParams (d : K) (f : Info K) : Info K :=
  { f with
    hausd := f.hausd * d, ls := f.ls * d, hsiz := f.hsiz * d
    par := f.par.map (scalePar d) }

/-- scalem.c 607-612: bounds given by the user. -/
def scaleBounds (d : K) (f : Info K) : Info K :=
  { f with
    hmin := if f.sethmin then f.hmin * d else f.hmin
    hmax := if f.sethmax then f.hmax * d else f.hmax }

/-- scalem.c 614-626: default bounds when neither a size, nor `optim`, nor a metric is given. -/
def defaultStep (metNp : Nat) (f : Info K) : Bool × Info K :=
  if ¬ (f.hsiz > 0 ∨ f.optim) ∧ metNp = 0 then defaultBounds f f.sethmin f.sethmax else (true, f)

/-- scalem.c 628-632: level-set or displacement. -/
def scaleSol (np : Nat) (d : K) (o : Sol K) : Sol K :=
  if o.np ≠ 0 then
    { o with m := fun j => if o.size ≤ j ∧ j < o.size * (np + 1) then o.m j * d else o.m j }
  else o

/-- `met && met->np`. -/
def metNp (q : Option (Sol K)) : Nat := match q with | some q => q.np | none => 0

/-- `MMG5_scale_meshAndSol` (scalem.c 561-636); the last component is `*dd`. -/
def scaleMeshAndSol (P : Consts K) (s : St K) : Bool × St K × K :=
  let r := boundingBox P s
  if !r.1 then (false, r.2, 0) else
  let s := r.2
  let dd := 1 / s.info.delta
  let s := { s with c := scaleCoord s dd, info := scaleParams dd s.info }
  if !checkSetted s.info then (false, s, dd) else
  let r := defaultStep (metNp s.met) (scaleBounds dd s.info)
  let s := { s with info := r.2 }
  if !r.1 then (false, s, dd) else
  (true, { s with sol := s.sol.map (scaleSol s.np dd) }, dd)

/-- scalem.c 656-677: the metric. -/
def scaleMetric (P : Consts K) (trunc : St K → Sol K → Bool × St K) (s : St K) (dd : K) : Bool × St K :=
  match s.met with
  | none => (true, s)
  | some q =>
    if q.np = 0 ∨ q.alloc = false then (true, s)
    else if q.size = 1 then scaleScalar P s q dd
    else if q.size = (s.dim - 1) * 3 then scaleTensor trunc s q dd
    else (true, s)

/-- `MMG5_scaleMesh` (scalem.c 649-678). -/
def scaleMesh (P : Consts K) (trunc : St K → Sol K → Bool × St K) (s : St K) : Bool × St K :=
  let r := scaleMeshAndSol P s
  if !r.1 then (false, r.2.1) else scaleMetric P trunc r.2.1 r.2.2

/-- Multiplication by `d` of the `size` values of every valid point (scalem.c 737-744, 758-774). -/
def mulValid (s : St K) (size : Nat) (d : K) (m : Nat → K) : Nat → K :=
  loop (fun k m => if s.valid k then
    fun j => if k * size ≤ j ∧ j < k * size + size then m j * d else m j else m) s.np m

/-- scalem.c 736-745: level-set or displacement. -/
def unscaleSol (s : St K) (dd : K) (o : Sol K) : Sol K :=
  if o.np ≠ 0 ∧ o.alloc then { o with m := mulValid s o.size dd o.m } else o

/-- scalem.c 754-775: metric. Case `1` of the switch is the multiplication with one value per point. -/
def unscaleMet (s : St K) (dd : K) (q : Sol K) : Sol K :=
  if q.np ≠ 0 ∧ q.alloc then
    if q.type = 1 then { q with m := mulValid s 1 dd q.m }
    else if q.type = 3 then { q with m := mulValid s q.size (1 / (dd * dd)) q.m }
    else q
  else q

/-- `MMG5_unscaleMesh` (scalem.c 689-776); `MMG5_NONSET_HMIN` and `MMG5_NONSET_HMAX` are -1. -/
def unscaleMesh (s : St K) : St K :=
  let dd := s.info.delta
  let f := s.info
  { s with
    c := loop (fun k c => if s.valid k then
      upd c k (fun i => if i < s.dim then c k i * dd + f.min i else c k i) else c) s.np s.c
    info := { f with
      hmin := if f.sethmin then f.hmin * dd else -1
      hmax := if f.sethmax then f.hmax * dd else -1
      hausd := f.hausd * dd
      ls := f.ls * dd
      hsiz := f.hsiz * dd
      par := f.par.map (scalePar dd)
      delta := 1
      min := fun i => if i < 3 then 0 else f.min i }
    sol := s.sol.map (unscaleSol s dd)
    met := s.met.map (unscaleMet s dd) }

end

end Mmg.Scale
