/-
  C104. Sizes taken from the mesh (`-optim`): the loops of `MMG3D_doSol_iso` (mmg3d/libmmg3d_tools.c 1514-1576), `MMGS_doSol_iso`
  (mmgs/libmmgs_tools.c 859-918) and `MMG2D_doSol_iso` (mmg2d/solmap_2d.c 97-158), before the truncation by `hmin` and `hmax`.

  `MMG*_Set_solSize` gives an array of zeros; `mark` is a `calloc`.  `dist` is the distance of two vertices.  Doubles are a field with
  an order.
-/
import Mathlib.Algebra.Field.Defs
import Mathlib.Data.Nat.Cast.Defs

namespace Mmg.Mean

variable {K : Type} [Field K]

/-- `MG_EOK` and the vertices of an element. -/
structure Elt where
  ok : Bool
  v : Nat → Nat

/-- The size array and `mark`. -/
structure Acc (K : Type) where
  m : Nat → K
  mark : Nat → Nat

/-- `m[ipa] += dd; mark[ipa]++;` -/
def add1 (s : Acc K) (p : Nat) (dd : K) : Acc K :=
  ⟨fun q => if q = p then s.m q + dd else s.m q, fun q => if q = p then s.mark q + 1 else s.mark q⟩

/-- One edge, libmmg3d_tools.c 1544-1559, libmmgs_tools.c 889-904, solmap_2d.c 123-136. -/
def edge (dist : Nat → Nat → K) (s : Acc K) (e : Nat × Nat) : Acc K :=
  add1 (add1 s e.1 (dist e.1 e.2)) e.2 (dist e.1 e.2)

/-- `MMG5_iare`, and the three sides of a triangle (`MMG5_inxt2`, `MMG_inxtt`). -/
def iare : List (Nat × Nat) := [(0, 1), (0, 2), (0, 3), (1, 2), (1, 3), (2, 3)]

def sides : List (Nat × Nat) := [(0, 1), (1, 2), (2, 0)]

/-- One element, libmmg3d_tools.c 1540-1560. -/
def elt (tab : List (Nat × Nat)) (dist : Nat → Nat → K) (s : Acc K) (t : Elt) : Acc K :=
  if t.ok then tab.foldl (fun s e => edge dist s (t.v e.1, t.v e.2)) s else s

/-- All elements. -/
def sums (tab : List (Nat × Nat)) (dist : Nat → Nat → K) (ts : List Elt) : Acc K := ts.foldl (elt tab dist) ⟨fun _ => 0, fun _ => 0⟩

/-- The sizes, libmmg3d_tools.c 1563-1569. -/
def size (tab : List (Nat × Nat)) (dist : Nat → Nat → K) (ts : List Elt) (k : Nat) : K :=
  let s := sums tab dist ts
  if s.mark k = 0 then s.m k else s.m k / (s.mark k : K)

end Mmg.Mean
