/-
  C68. Statistics on the qualities and the verdict they give.

  The qualities are in an ordered field; they are given with the tetrahedra (C67 is about their values).
  Texts are not modelled: what is printed is the list of the values.
-/
import Mathlib.Algebra.Order.Field.Basic
import Mathlib.Algebra.Order.Floor.Semiring
import Mathlib.Data.Rat.Floor
import Mathlib.Algebra.BigOperators.Group.List.Basic
import Mathlib.Tactic.Ring
import Mathlib.Tactic.Linarith
import Mathlib.Tactic.NormNum

namespace Mmg.Histo

variable {K : Type} [Field K] [LinearOrder K] [IsStrictOrderedRing K] [FloorSemiring K]

/-- An entry of the array of tetrahedra: used or not (`MG_EOK`), its quality times `MMG3D_ALPHAD`, and
whether its four vertices are ridge points (mmg3d/quality_3d.c 735-746). -/
structure Slot (K : Type) where
  used : Bool
  rap : K
  rid : Bool := false

/-- The values computed by `MMG3D_computeInqua`, `MMG3D_computeOutqua`, `MMG3D_computeLESqua`; `ok` and
`nex` are their local counters. -/
structure Stat (K : Type) where
  ok : Nat
  nex : Nat
  max : K
  avg : K
  min : K
  iel : Nat
  good : Nat
  med : Nat
  his : List Nat
  nrid : Nat
  badkal : Bool

/-- mmg3d/quality_3d.c 599-607 and 714-722. -/
def init : Stat K := ⟨0, 0, 0, 0, 2, 0, 0, 0, [0, 0, 0, 0, 0], 0, false⟩

/-- `MG_MIN(4,(int)(5.0*rap))`, mmg3d/quality_3d.c 630. -/
def bin (rap : K) : Nat := min 4 ⌊5 * rap⌋₊

/-- mmg3d/quality_3d.c 620-631 and 752-763. -/
def account (s : Stat K) (rap : K) : Stat K :=
  { s with
    min := if rap < s.min then rap else s.min
    iel := if rap < s.min then s.ok else s.iel
    med := if 1 / 2 < rap then s.med + 1 else s.med
    good := if 12 / 100 < rap then s.good + 1 else s.good
    badkal := if rap < 1 / 5 then true else s.badkal
    avg := s.avg + rap
    max := if s.max > rap then s.max else rap
    his := s.his.modify (bin rap) (· + 1) }

/-- Body of the loop of `MMG3D_computeInqua`, mmg3d/quality_3d.c 608-632. -/
def stepIn (s : Stat K) (t : Slot K) : Stat K :=
  if !t.used then { s with nex := s.nex + 1 } else account { s with ok := s.ok + 1 } t.rap

/-- Body of the loop of `MMG3D_computeOutqua`, mmg3d/quality_3d.c 724-764; `metRidTyp` tells whether the
metric is stored the special way at ridges. -/
def stepOut (metRidTyp : Bool) (s : Stat K) (t : Slot K) : Stat K :=
  if !t.used then { s with nex := s.nex + 1 }
  else if metRidTyp && t.rid then { s with ok := s.ok + 1, nrid := s.nrid + 1 }
  else account { s with ok := s.ok + 1 } t.rap

def computeIn (ts : List (Slot K)) : Stat K := ts.foldl stepIn init

def computeOut (metRidTyp : Bool) (ts : List (Slot K)) : Stat K := ts.foldl (stepOut metRidTyp) init

/-- `(*ne) = mesh->ne-nex`, mmg3d/quality_3d.c 634. -/
def Stat.ne (s : Stat K) (ts : List (Slot K)) : Nat := ts.length - s.nex

/-- Result of `MMG5_minQualCheck`, common/quality.c 343-360, with `nulkal` for `MMG5_NULKAL`. -/
def minQualCheck (nulkal minqual alpha : K) : Bool := !decide (minqual * alpha < nulkal)

/-- The rows of the histogram from the best: the bin and its count, mmg3d/quality_3d.c 544-548. -/
def rows (s : Stat K) : List (Nat × Nat) :=
  ((List.range 5).reverse.filter fun i => decide (i ≤ bin s.max ∧ ⌊5 * s.min⌋₊ ≤ i)).map
    fun i => (i, s.his.getD i 0)

/-- Result of `MMG3D_inqua` without optimLES (mmg3d/quality_3d.c 648-682, 553). -/
def inqua (nulkal : K) (imprim : Int) (ts : List (Slot K)) : Bool :=
  if imprim ≤ 0 then true else minQualCheck nulkal (computeIn ts).min 1

/-- Result of `MMG3D_outqua` without optimLES (mmg3d/quality_3d.c 780-813, 553). -/
def outqua (nulkal : K) (imprim : Int) (metRidTyp : Bool) (ts : List (Slot K)) : Bool :=
  if imprim ≤ 0 then true else minQualCheck nulkal (computeOut metRidTyp ts).min 1

/-- What is printed as the average, mmg3d/quality_3d.c 491-492. -/
def avgOut (s : Stat K) (ts : List (Slot K)) : K := s.avg / (s.ne ts : K)

/-! ### optimLES -/

/-- mmg3d/quality_3d.c 410-416. -/
def initLES : Stat K := ⟨0, 0, 1, 0, 0, 0, 0, 0, [0, 0, 0, 0, 0], 0, false⟩

/-- mmg3d/quality_3d.c 440-449. -/
def binLES (rap : K) : Nat :=
  if rap < 6 / 10 then 0 else if rap < 9 / 10 then 1 else if rap < 93 / 100 then 2
  else if rap < 99 / 100 then 3 else 4

/-- Body of the loop of `MMG3D_computeLESqua`, mmg3d/quality_3d.c 418-450. `t.rap` is here the quality
times `MMG3D_ALPHAD`, 1 for the best. -/
def stepLES (s : Stat K) (t : Slot K) : Stat K :=
  if !t.used then { s with nex := s.nex + 1 }
  else
    let rap := 1 - t.rap
    { s with
      ok := s.ok + 1
      min := if s.min < rap then rap else s.min
      iel := if s.min < rap then s.ok + 1 else s.iel
      med := if rap < 9 / 10 then s.med + 1 else s.med
      good := if rap < 6 / 10 then s.good + 1 else s.good
      avg := s.avg + rap
      max := if s.max < rap then s.max else rap
      his := s.his.modify (binLES rap) (· + 1) }

def computeLES (ts : List (Slot K)) : Stat K := ts.foldl stepLES initLES

/-- Result of `MMG3D_inqua` and `MMG3D_outqua` with optimLES: with `abs(imprim) >= 3` it is 1
(mmg3d/quality_3d.c 516-537), else the verdict on `min` (553). -/
def quaLES (nulkal : K) (imprim : Int) (ts : List (Slot K)) : Bool :=
  if imprim ≤ 0 then true else if 3 ≤ imprim then true else minQualCheck nulkal (computeLES ts).min 1

/-! ### The test on the input mesh -/

/-- Loop of `MMG3D_tetraQual` from the entry number `k` on: worst quality and its tetrahedron,
mmg3d/quality_3d.c 58-90. `rap` is here the quality, not multiplied by `MMG3D_ALPHAD`. -/
def worst (metRidTyp : Bool) : List (Slot K) → Nat → K × Nat → K × Nat
  | [], _, r => r
  | t :: ts, k, r =>
    worst metRidTyp ts (k + 1)
      (if t.used && !(metRidTyp && t.rid) && decide (t.rap < r.1) then (t.rap, k) else r)

/-- `MMG3D_tetraQual`, mmg3d/quality_3d.c 50-95: result, worst quality and its tetrahedron. -/
def tetraQual (nulkal alpha : K) (metRidTyp : Bool) (ts : List (Slot K)) : Bool × K × Nat :=
  let r := worst metRidTyp ts 1 (2 / alpha, 1)
  (minQualCheck nulkal r.1 alpha, r)

end Mmg.Histo
