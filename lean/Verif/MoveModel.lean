/-
  C69. Relocation of an interior vertex and test before the collapse of an interior vertex.

  Ordered field arithmetic. The quality `cal` of four points is a parameter (C67 is about it), and so are
  the tests of lengths.
-/
import Verif.Overlap

namespace Mmg.Move

open Mmg.Split3 Mmg.Over

variable {K : Type} [Field K] [LinearOrder K] [IsStrictOrderedRing K]

/-- Thresholds and kernels: `MMG5_EPSD2`, `MMG5_NULKAL`, `MMG5_EPSOK`, `DBL_MAX`, the quality
(`MMG5_orcal`) as a function of the four points, and the tests of lengths for an entry of the list
(mmg3d/movpt_3d.c 115-130, mmg3d/colver_3d.c 151-166). -/
structure Env (K : Type) where
  (epsd2 nulkal epsok big : K)
  cal : Pt K → Pt K → Pt K → Pt K → K
  lenBad : Nat → Bool

/-- Coordinates, vertices and qualities of the tetrahedra, marks. -/
structure St (K : Type) where
  c : Nat → Pt K
  V : Nat → List Nat
  qual : Nat → K
  mark : Nat → Nat

/-- Quality of a tetrahedron given by its vertices. -/
def calOf (E : Env K) (c : Nat → Pt K) (v : List Nat) : K :=
  E.cal (c (v.getD 0 0)) (c (v.getD 1 0)) (c (v.getD 2 0)) (c (v.getD 3 0))

/-- Volume and coordinates of the point in construction and worst quality, mmg3d/movpt_3d.c 72-91. -/
structure Acc (K : Type) where
  tot : K
  pt : Pt K
  old : K

def accStep (s : St K) (a : Acc K) (x : Nat) : Acc K :=
  let v := s.V (x / 4)
  let p0 := s.c (v.getD 0 0)
  let p1 := s.c (v.getD 1 0)
  let p2 := s.c (v.getD 2 0)
  let p3 := s.c (v.getD 3 0)
  let w := vol p0 p1 p2 p3
  ⟨a.tot + w, ⟨a.pt.x + 1 / 4 * w * (p0.x + p1.x + p2.x + p3.x), a.pt.y + 1 / 4 * w * (p0.y + p1.y + p2.y + p3.y),
    a.pt.z + 1 / 4 * w * (p0.z + p1.z + p2.z + p3.z)⟩, min a.old (s.qual (x / 4))⟩

def acc (E : Env K) (s : St K) (l : List Nat) : Acc K := l.foldl (accStep s) ⟨0, ⟨0, 0, 0⟩, E.big⟩

/-- The position tried, mmg3d/movpt_3d.c 97-100. -/
def target (E : Env K) (s : St K) (l : List Nat) : Pt K :=
  let a := acc E s l
  ⟨a.pt.x * (1 / a.tot), a.pt.y * (1 / a.tot), a.pt.z * (1 / a.tot)⟩

/-- Loop of the validity tests, mmg3d/movpt_3d.c 106-134: the new qualities (in the order of the list)
and the worst one. The new tetrahedron has vertex 0 of the mesh, which holds the new position. -/
def tryAll (E : Env K) (s : St K) (x0 : Pt K) (improve : Nat) : List Nat → K → Option (List K × K)
  | [], calnew => some ([], calnew)
  | x :: l, calnew =>
    let q := calOf E (move s.c 0 x0) ((s.V (x / 4)).set (x % 4) 0)
    if q < E.nulkal then none
    else if improve = 2 ∧ E.lenBad x = true then none
    else match tryAll E s x0 improve l (min calnew q) with
      | none => none
      | some (qs, r) => some (q :: qs, r)

/-- Storage of the qualities and the marks, mmg3d/movpt_3d.c 155-158. -/
def store (base : Nat) (qual : Nat → K) (mark : Nat → Nat) : List (Nat × K) → (Nat → K) × (Nat → Nat)
  | [] => (qual, mark)
  | (x, q) :: l => store base (fun k => if k = x / 4 then q else qual k)
      (fun k => if k = x / 4 then base else mark k) l

/-- A call of the update of the octree: vertex, new position, old position. -/
structure OctCall (K : Type) where
  no : Nat
  new : Pt K
  old : Pt K

/-- `MMG5_movintpt_iso`, mmg3d/movpt_3d.c 57-161. `none`: refused (0 is returned, and besides the entries
of index 0, used as a scratch, nothing has changed). Otherwise the new state and the arguments of the
update of the octree. -/
def movint (E : Env K) (improve base : Nat) (l : List Nat) (s : St K) : Option (St K × OctCall K) :=
  let a := acc E s l
  if a.tot < E.epsd2 then none
  else
    let x0 := target E s l
    match tryAll E s x0 improve l E.big with
    | none => none
    | some (qs, calnew) =>
      if a.old < E.epsok ∧ calnew ≤ a.old then none
      else if calnew < E.epsok then none
      else if improve ≠ 0 ∧ calnew < 102 / 100 * a.old then none
      else if calnew < 3 / 10 * a.old then none
      else
        let last := l.getLastD 0
        let ip := (s.V (last / 4)).getD (last % 4) 0
        let r := store base s.qual s.mark (l.zip qs)
        some (⟨move s.c ip x0, s.V, r.1, r.2⟩, ⟨ip, x0, s.c ((s.V (last / 4)).getD 0 0)⟩)

/-! ### Test before a collapse -/

/-- Loop of `MMG5_chkcol_int`, mmg3d/colver_3d.c 70-168, on the list of the tetrahedra around the removed
vertex: worst old and new qualities, `none` if refused. `edgeBad` is the test on the new edges between
boundary (or ridge) points, 78-143. -/
def chkAll (E : Env K) (s : St K) (q : Nat) (edgeBad : Nat → Bool) (checkLen : Bool) :
    List Nat → K → K → Option (K × K)
  | [], o, n => some (o, n)
  | x :: l, o, n =>
    if q ∈ s.V (x / 4) then chkAll E s q edgeBad checkLen l o n
    else if edgeBad x then none
    else
      let cn := calOf E s.c ((s.V (x / 4)).set (x % 4) q)
      if cn < E.nulkal then none
      else if checkLen && E.lenBad x then none
      else chkAll E s q edgeBad checkLen l (min o (s.qual (x / 4))) (min n cn)

/-- `MMG5_chkcol_int`, mmg3d/colver_3d.c 43-173: whether vertex `q` may replace the vertex of the list. -/
def chkcol (E : Env K) (s : St K) (q : Nat) (edgeBad : Nat → Bool) (checkLen : Bool) (l : List Nat) : Bool :=
  match chkAll E s q edgeBad checkLen l E.big E.big with
  | none => false
  | some (o, n) =>
    if o < E.epsok ∧ n ≤ o then false
    else if n < E.epsok ∨ n < 3 / 10 * o then false
    else true

end Mmg.Move
