/-
  C102. The report on edge lengths: `MMG3D_computePrilen` (mmg3d/quality_3d.c 221-344), `MMGS_prilen` (mmgs/quality_s.c 283-387),
  `MMG2D_prilen` (mmg2d/length_2d.c 125-208).

  The hash table of edges is the list of the edges in it (`MMG5_hashEdge` adds, `MMG5_hashPop` removes and tells whether the edge was there,
  mmg3d/hash_3d.c 850-898); its allocation succeeds.  The length of an edge is a parameter, for every element and local edge.  The bounds `bd`
  and the first value of the smallest length are parameters.
-/
import Mathlib.Algebra.Group.Defs
import Mathlib.Order.Defs.LinearOrder
import Mathlib.Data.List.Basic

namespace Mmg.LenRep

abbrev E := Nat × Nat

/-- `MG_MIN(a,b)`, `MG_MAX(a,b)`, hash_3d.c 855-856. -/
def norm (e : E) : E := (min e.1 e.2, max e.1 e.2)

variable {K : Type} [LinearOrder K] [AddCommMonoid K]

/-- The numbers of the report, quality_3d.c 236-242. -/
structure Rep (K : Type) where
  ned : Nat
  null : Nat
  sum : K
  lmin : K
  lmax : K
  emin : E
  emax : E
  hl : Nat → Nat

/-- quality_3d.c 236-242, quality_s.c 292-298, length_2d.c 134-142. -/
def start (big : K) : Rep K := ⟨0, 0, 0, big, 0, (0, 0), (0, 0), fun _ => 0⟩

/-- The histogram, quality_3d.c 331-337, quality_s.c 370-376. -/
def bin3 (bd : Nat → K) (len : K) : Option Nat :=
  some (((List.range 8).find? fun i => decide (bd i ≤ len ∧ len < bd (i + 1))).getD 8)

/-- The histogram in the plane, length_2d.c 187-199. -/
def bin2 (bd : Nat → K) (len : K) : Option Nat :=
  if len < bd 3 then
    if bd 2 < len then some 2 else if bd 1 < len then some 1 else some 0
  else if len < bd 5 then
    if bd 4 < len then some 4 else if bd 3 < len then some 3 else none
  else if len < bd 6 then some 5
  else if len < bd 7 then some 6
  else if len < bd 8 then some 7
  else some 8

/-- One edge, quality_3d.c 311-338, quality_s.c 350-377; in the plane (`zero = false`) lengths of 0 are not set apart, length_2d.c 171-199. -/
def count (bin : K → Option Nat) (zero : Bool) (r : Rep K) (x : E × K) : Rep K :=
  if zero = true ∧ x.2 = 0 then { r with null := r.null + 1 }
  else
    { ned := r.ned + 1
      null := r.null
      sum := r.sum + x.2
      lmin := if x.2 < r.lmin then x.2 else r.lmin
      lmax := if r.lmax < x.2 then x.2 else r.lmax
      emin := if x.2 < r.lmin then x.1 else r.emin
      emax := if r.lmax < x.2 then x.1 else r.emax
      hl := fun i => if bin x.2 = some i then r.hl i + 1 else r.hl i }

/-! ### Tetrahedra -/

/-- `MG_EOK`, the vertices, and the length of the local edges. -/
structure Elt (K : Type) where
  ok : Bool
  v : Nat → Nat
  len : Nat → K

/-- `MMG5_iare`, mmg3d/libmmg3d_private.h. -/
def iare : List (Nat × Nat) := [(0, 1), (0, 2), (0, 3), (1, 2), (1, 3), (2, 3)]

/-- The edges of a tetrahedron with their lengths, quality_3d.c 288-309. -/
def sides3 (t : Elt K) : List (E × K) := (List.range 6).map fun ia => ((t.v (iare.getD ia (0, 0)).1, t.v (iare.getD ia (0, 0)).2), t.len ia)

/-- The first loop, quality_3d.c 258-276. -/
def hashed (ts : List (Elt K)) : List E := (ts.filter fun t => t.ok).flatMap fun t => (sides3 t).map fun x => norm x.1

/-- The number `n` is not 0, quality_3d.c 282-290; `rid` says that a vertex is a ridge vertex and neither singular nor non-manifold. -/
def seen (rid : Nat → Bool) (t : Elt K) : Bool := (List.range 4).any fun i => !rid (t.v i)

/-- Edges found in the table are taken out of it and kept, quality_3d.c 291-309. -/
def pops : List E → List (E × K) → List (E × K)
  | _, [] => []
  | s, x :: xs => if norm x.1 ∈ s then x :: pops (s.filter fun e => decide (e ≠ norm x.1)) xs else pops s xs

/-- The edges counted by `MMG3D_computePrilen`. -/
def kept3 (rid : Nat → Bool) (ts : List (Elt K)) : List (E × K) :=
  pops (hashed ts) ((ts.filter fun t => t.ok && seen rid t).flatMap sides3)

/-- `MMG3D_computePrilen`, quality_3d.c 221-344, with a metric and tetrahedra. -/
def report3 (bd : Nat → K) (big : K) (rid : Nat → Bool) (ts : List (Elt K)) : Rep K :=
  (kept3 rid ts).foldl (count (bin3 bd) true) (start big)

/-! ### Surface triangles -/

/-- `MMG5_iprv2`, `MMG5_inxt2` of the local edges. -/
def iarf : List (Nat × Nat) := [(2, 1), (0, 2), (1, 0)]

/-- The edges of a triangle, quality_s.c 334-349. -/
def sidesS (t : Elt K) : List (E × K) := (List.range 3).map fun ia => ((t.v (iarf.getD ia (0, 0)).1, t.v (iarf.getD ia (0, 0)).2), t.len ia)

/-- `MMGS_prilen`, quality_s.c 283-380: the answer of `MMG5_hashGet` is not used and nothing is removed, line 342. -/
def keptS (ts : List (Elt K)) : List (E × K) := (ts.filter fun t => t.ok).flatMap sidesS

def reportS (bd : Nat → K) (big : K) (ts : List (Elt K)) : Rep K := (keptS ts).foldl (count (bin3 bd) true) (start big)

/-! ### The plane -/

/-- Triangles `1..nt`; `adja k i` is `3*k'+i'` or 0. -/
structure Plane (K : Type) where
  nt : Nat
  ok : Nat → Bool
  v : Nat → Nat → Nat
  adja : Nat → Nat → Nat
  len : Nat → Nat → K

/-- The sides that are not skipped, length_2d.c 157-163. -/
def sides2 (m : Plane K) : List (Nat × Nat) :=
  ((List.range' 1 m.nt).filter fun k => m.ok k).flatMap fun k =>
    ((List.range 3).filter fun i => decide (¬m.adja k i < 3 * k)).map fun i => (k, i)

/-- `MMG2D_iare`, mmg2d/libmmg2d_private.h. -/
def iar2 : List (Nat × Nat) := [(1, 2), (2, 0), (0, 1)]

def kept2 (m : Plane K) : List (E × K) :=
  (sides2 m).map fun s => ((m.v s.1 (iar2.getD s.2 (0, 0)).1, m.v s.1 (iar2.getD s.2 (0, 0)).2), m.len s.1 s.2)

/-- `MMG2D_prilen`, length_2d.c 125-208. -/
def report2 (bd : Nat → K) (big : K) (m : Plane K) : Rep K := (kept2 m).foldl (count (bin2 bd) false) (start big)

end Mmg.LenRep
