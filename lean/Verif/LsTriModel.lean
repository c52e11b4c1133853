/-
  Model of the discretization of a level set in a mesh of triangles: `MMG2D_cuttri` (mmg2d/mmg2d6.c
  49-190), `MMGS_cuttri` (mmgs/mmgs2.c 49-218), the splits `MMG2D_split1`, `MMG2D_split2`
  (mmg2d/split_2d.c 390-443, 505-575), `MMGS_split1`, `MMGS_split2` (mmgs/split_s.c 109-149, 459-515),
  `MMG5_setref_ls` and `MMG5_resetRef_ls` (common/mmg2.c 1225-1292, 1189-1215), and the calls in
  `MMG2D_mmg2d6` and `MMGS_mmgs2`.

  Simplifications.  Numbers are elements of an ordered field; a point of the plane has z = 0.  Only
  the used triangles are listed.  The table of edges is a finite map on unordered pairs (C01); whether
  an insertion finds memory is told by the environment.  The metric is not modelled, nor the
  discretization of the boundary only (`isosurf`), nor a lack of memory for the new triangles (0 is
  then returned).  The children of a triangle are put in its place.
-/
import Verif.LsModel

namespace Mmg.Ls2
open Mmg.Split3 Mmg.Ls3

variable {K : Type} [Field K] [LinearOrder K]

/-- A triangle: vertices, tags and references of the edges (edge `i` is opposite to vertex `i`),
reference. -/
structure Tri where
  v : List Nat
  tag : List (BitVec 16)
  edg : List Int
  ref : Int
deriving DecidableEq

/-- `MMG5_inxt2`, `MMG5_iprv2`. -/
def nxt (i : Nat) : Nat := (i + 1) % 3
def prv (i : Nat) : Nat := (i + 2) % 3

/-- Ends of edge `i`. -/
def ends (m : Tri) (i : Nat) : Nat × Nat := (m.v.getD (nxt i) 0, m.v.getD (prv i) 0)

/-- The edges of all triangles, in the order of the loops. -/
def edges (ms : List Tri) : List (Tri × Nat) :=
  ms.flatMap fun m => (List.range 3).map fun e => (m, e)

/-! ### First loop: points to be separated -/

/-- mmg2d6.c 71-86, mmgs2.c 77-92. -/
def mark1 (e2 : K) (sol : Nat → K) (s : P1) (x : Tri × Nat) : P1 :=
  let a := (ends x.1 x.2).1
  let b := (ends x.1 x.2).2
  if s.flag a ≠ 0 ∧ s.flag b ≠ 0 then s
  else if e2 < |sol a| ∧ e2 < |sol b| ∧ sol a * sol b < 0 then (s.mark a).mark b
  else s

def pass1 (e2 : K) (sol : Nat → K) (ms : List Tri) : P1 :=
  (edges ms).foldl (mark1 e2 sol) ⟨fun _ => 0, 0⟩

/-! ### Second loop: the new points -/

/-- One edge of one triangle, mmg2d6.c 99-146, mmgs2.c 104-166; `none`: return 0. -/
def point2 (E : Env) (eps e2 : K) (flag : Nat → Nat) (s : S3 K) (x : Tri × Nat) :
    Option (S3 K) :=
  let a := (ends x.1 x.2).1
  let b := (ends x.1 x.2).2
  if s.tab.find a b ≠ 0 then some s
  else if (E.spl x.1.ref).isNone then some s
  else if |s.sol a| < e2 ∨ |s.sol b| < e2 then some s
  else if 0 < s.sol a * s.sol b then some s
  else if flag a = 0 ∨ flag b = 0 then some s
  else if E.room s.n then
    some {
      c := upd s.c (E.new s.n)
        ((s.c a).lerp (s.c b) (clamp eps (s.sol a / (s.sol a - s.sol b))))
      sol := upd s.sol (E.new s.n) 0
      tab := (s.tab.add E.ok a b (E.new s.n)).2
      n := s.n + 1 }
  else none

def points (E : Env) (eps e2 : K) (flag : Nat → Nat) : List (Tri × Nat) → S3 K → Option (S3 K)
  | [], s => some s
  | x :: l, s =>
    match point2 E eps e2 flag s x with
    | some s => points E eps e2 flag l s
    | none => none

/-! ### Third loop: the triangles -/

/-- No tag and no reference on edge `i`. -/
def Tri.clear (m : Tri) (i : Nat) : Tri := { m with tag := m.tag.set i 0, edg := m.edg.set i 0 }

def Tri.put (m : Tri) (i p : Nat) : Tri := { m with v := m.v.set i p }

/-- `MMG2D_split1` and `MMGS_split1`: edge `i` is cut. -/
def split1 (vx : Nat → Nat) (i : Nat) (m : Tri) : List Tri :=
  [(m.put (prv i) (vx i)).clear (nxt i), (m.put (nxt i) (vx i)).clear (prv i)]

/-- `MMG2D_split2`: edge `i` is not cut. -/
def split2 (vx : Nat → Nat) (i : Nat) (m : Tri) : List Tri :=
  [((m.put (nxt i) (vx (prv i))).put (prv i) (vx (nxt i))).clear i,
   (m.put i (vx (prv i))).clear (nxt i),
   (((m.put i (vx (nxt i))).put (nxt i) (vx (prv i))).clear i).clear (prv i)]

/-- `MMGS_split2`: edges `i` and `nxt i` are cut. -/
def split2s (vx : Nat → Nat) (i : Nat) (m : Tri) : List Tri :=
  [(((m.put (nxt i) (vx i)).put (prv i) (vx (nxt i))).clear i).clear (prv i),
   (m.put (prv i) (vx i)).clear (nxt i),
   ((m.put (nxt i) (vx i)).put i (vx (nxt i))).clear (prv i)]

/-- Points of the edges of a triangle (0: none). -/
def vxOf (T : Tab) (m : Tri) (e : Nat) : Nat := (T.find (ends m e).1 (ends m e).2).toNat

def flagOf (vx : Nat → Nat) : Nat :=
  (if vx 0 = 0 then 0 else 1) + (if vx 1 = 0 then 0 else 2) + (if vx 2 = 0 then 0 else 4)

/-- One triangle: the children and whether it has been cut, mmg2d6.c 153-184, mmgs2.c 172-207;
`s`: surface mesh. -/
def cut3 (s : Bool) (vx : Nat → Nat) (m : Tri) : List Tri × Bool :=
  match flagOf vx with
  | 1 => (split1 vx 0 m, true)
  | 2 => (split1 vx 1 m, true)
  | 4 => (split1 vx 2 m, true)
  | 3 => (if s then split2s vx 0 m else split2 vx 2 m, true)
  | 5 => (if s then split2s vx 2 m else split2 vx 1 m, true)
  | 6 => (if s then split2s vx 1 m else split2 vx 0 m, true)
  | _ => ([m], false)

/-- References of the points: the point of a cut edge gets the reference of the edge if it is
positive. -/
def refs3 (vx : Nat → Nat) (r : Nat → Int) (x : Tri × Nat) : Nat → Int :=
  if vx x.2 ≠ 0 ∧ 0 < x.1.edg.getD x.2 0 then upd r (vx x.2) (x.1.edg.getD x.2 0) else r

def refs (T : Tab) (ms : List Tri) (r : Nat → Int) : Nat → Int :=
  (edges ms).foldl (fun r x => refs3 (vxOf T x.1) r x) r

/-- Result: the value returned, the points, their references and the triangles. -/
structure Out (K : Type) where
  ret : Nat
  s : S3 K
  r : Nat → Int
  ms : List Tri

/-- `MMG2D_cuttri` (`surf = false`), `MMGS_cuttri` (`surf = true`); `alloc`: the table has been
allocated. -/
def cuttri (surf : Bool) (E : Env) (alloc : Bool) (eps e2 : K) (c : Nat → Pt K) (sol : Nat → K)
    (r : Nat → Int) (ms : List Tri) : Out K :=
  let s0 : S3 K := ⟨c, sol, noTab, 0⟩
  let p := pass1 e2 sol ms
  if p.nb = 0 then ⟨1, s0, r, ms⟩
  else if alloc = false then ⟨0, s0, r, ms⟩
  else
    match points E eps e2 p.flag (edges ms) s0 with
    | none => ⟨0, s0, r, ms⟩
    | some s =>
      ⟨(ms.filter fun m => (cut3 surf (vxOf s.tab m) m).2).length, s, refs s.tab ms r,
        ms.flatMap fun m => (cut3 surf (vxOf s.tab m) m).1⟩

/-! ### References -/

/-- `MG_REF`. -/
def refBit : BitVec 16 := 1#16

/-- Edge `i` is on the level set. -/
def onLs (sol : Nat → K) (m : Tri) (i : Nat) : Bool :=
  decide (sol (ends m i).1 = 0) && decide (sol (ends m i).2 = 0)

/-- Number of vertices on the level set. -/
def nzero (sol : Nat → K) (m : Tri) : Nat := m.v.countP fun p => decide (sol p = 0)

/-- References of a triangle and of its edges, common/mmg2.c 1254-1283, without the assertions;
`keep`: the references of the triangles are kept (`iso` is 2). -/
def setref (keep : Bool) (isoref : Int) (spl : Int → Option (Int × Int)) (sol : Nat → K) (m : Tri) :
    Tri :=
  let ref := if keep then m.ref else
    match spl m.ref with
    | none => m.ref
    | some (rin, rex) => if m.v.any fun p => decide (0 < sol p) then rex else rin
  if nzero sol m = 2 then
    { m with
      ref := ref
      tag := m.tag.mapIdx fun i t => if onLs sol m i then t ||| refBit else t
      edg := m.edg.mapIdx fun i e => if onLs sol m i then isoref else e }
  else { m with ref := ref }

/-- References of the points, common/mmg2.c 1284-1285. -/
def setPref (isoref : Int) (sol : Nat → K) (r : Nat → Int) (x : Tri × Nat) : Nat → Int :=
  if nzero sol x.1 = 2 ∧ onLs sol x.1 x.2 = true then
    upd (upd r (ends x.1 x.2).1 isoref) (ends x.1 x.2).2 isoref
  else r

/-- `MMG5_resetRef_ls`, common/mmg2.c 1189-1215: references of a triangle; `start` is
`MMG5_getStartRef`. -/
def resetTri (isoref : Int) (start : Int → Int) (m : Tri) : Tri :=
  { m with edg := m.edg.map fun e => if e = isoref then 0 else e, ref := start m.ref }

/-- References of the points of the triangles. -/
def resetPref (isoref : Int) (ms : List Tri) (r : Nat → Int) (p : Nat) : Int :=
  if (ms.any fun m => decide (p ∈ m.v)) = true ∧ r p = isoref then 0 else r p

/-- The result: points, references of the points, triangles. -/
structure Res (K : Type) where
  s : S3 K
  r : Nat → Int
  ms : List Tri

/-- `MMG2D_mmg2d6` and `MMGS_mmgs2` after the snapping, up to the references: `none` is an error.
With `keep` the references are not reset and all triangles are split. -/
def discretize (surf keep : Bool) (isoref : Int) (start : Int → Int) (E : Env) (alloc : Bool) (eps e2 : K)
    (c : Nat → Pt K) (sol : Nat → K) (r : Nat → Int) (ms : List Tri) : Option (Res K) :=
  let ms1 := if keep then ms else ms.map (resetTri isoref start)
  let r1 := if keep then r else resetPref isoref ms r
  let o := cuttri surf E alloc eps e2 c sol r1 ms1
  if o.ret = 0 then none
  else some ⟨o.s, (edges o.ms).foldl (setPref isoref o.s.sol) o.r,
    o.ms.map (setref keep isoref E.spl o.s.sol)⟩

/-! ### Snapping, `MMG5_snpval_ls`, common/mmg2.c 503-608 -/

/-- A corner in the second loop, 538-568; `mani sol k i` is the answer of `MMG5_ismaniball`. -/
def back2 (eps : K) (mani : (Nat → K) → Nat → Nat → Bool) (ts : Nat → List Nat) (s : Sn K)
    (x : Nat × Nat) : Sn K :=
  let p := (ts x.1).getD x.2 0
  let v1 := s.sol ((ts x.1).getD (nxt x.2) 0)
  let v2 := s.sol ((ts x.1).getD (prv x.2) 0)
  if s.flag p = true ∧ ¬ (|v2| < eps ∨ 0 < v1 * v2) then
    { s with
      sol := if mani s.sol x.1 x.2 then s.sol else upd s.sol p (if s.tmp p < 0 then -100 * eps else 100 * eps)
      flag := upd s.flag p false }
  else s

/-- A corner in the third loop, 571-600; `ball k i` is the answer of `MMG5_boulet`: triangles and local
indices; the second neighbour is taken with the index `prv i` of the first triangle (578). -/
def lone3 (eps : K) (ball : Nat → Nat → List (Nat × Nat)) (ts : Nat → List Nat) (sol : Nat → K)
    (x : Nat × Nat) : Nat → K :=
  let p := (ts x.1).getD x.2 0
  if eps ≤ |sol p| then sol
  else
    let seen := (ball x.1 x.2).flatMap fun q => [(ts q.1).getD (nxt q.2) 0, (ts q.1).getD (prv x.2) 0]
    let npl := seen.any fun q => decide (eps ≤ sol q)
    let nmn := seen.any fun q => decide (sol q ≤ -eps)
    if npl && !nmn then upd sol p (100 * eps)
    else if !npl && nmn then upd sol p (-100 * eps)
    else sol

def corners3 (nt : Nat) : List (Nat × Nat) :=
  (List.range nt).flatMap fun k => (List.range 3).map fun i => (k, i)

/-- The first loop is `Ls3.snap1` with the value kept as it is. -/
def snpval (eps : K) (valid : Nat → Bool) (mani : (Nat → K) → Nat → Nat → Bool)
    (ball : Nat → Nat → List (Nat × Nat)) (np nt : Nat) (ts : Nat → List Nat) (sol : Nat → K) : Nat → K :=
  let s := (List.range' 1 np).foldl (snap1 eps 0 valid) ⟨sol, fun _ => 0, fun _ => false⟩
  let s := (corners3 nt).foldl (back2 eps mani ts) s
  (corners3 nt).foldl (lone3 eps ball ts) s.sol

end Mmg.Ls2
