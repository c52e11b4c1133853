/-
  C63. Collapse of an edge of a tetrahedral mesh (`MMG5_colver`, mmg3d/colver_3d.c 1154-1531):
  model and specification.

  Modelled: adjacency, vertices, boundary records of the tetrahedra (face references, face tags and
  face orientations), slots of the records.  Not modelled: edge tags and references of the records
  (1213-1322 and `MMG3D_update_edgeTag`; they write nothing else), qualities and marks, the chain of
  the free tetrahedra (`MMG3D_delElt`; C01).
-/
import Verif.Boule3

namespace Mmg.Colver

open Mmg.Split3 Mmg.Swap23 Mmg.Shell

/-- Boundary record of a tetrahedron (`MMG5_xTetra`), by face. -/
structure Rec where
  ref : Nat → Int
  ftag : Nat → Nat
  ori : Nat → Bool

/-- State of the mesh. `xt k` is the record of tetrahedron `k` (0: none), `top` is `mesh->xt`. -/
structure St where
  A : Nat → Nat
  V : Nat → List Nat
  xt : Nat → Nat
  R : Nat → Rec
  top : Nat

/-- `tag & MG_BDY`. -/
abbrev bdy (t : Nat) : Bool := t.testBit 4

/-- `tag & MG_PARBDY`. -/
abbrev parb (t : Nat) : Bool := t.testBit 13

/-- Local number of `nq` in a tetrahedron that has vertex `np` at `ip`: 1185-1193 (the order of the
three vertices differs from 1330-1335, which does not matter as the vertices differ). -/
def findq (v : List Nat) (ip nq : Nat) : Option Nat :=
  [(ip + 1) % 4, (ip + 2) % 4, (ip + 3) % 4].find? fun j => v.getD j 0 = nq

/-- Merge of a face of record `own` with face `g` of the record `px`; `tr` is the reference of the
tetrahedron, `other` that of the new neighbour: 1361-1384 and 1426-1449. -/
def mergeRec (own : Rec) (f : Nat) (px : Rec) (g : Nat) (tr : Int) (other : Option Int) : Rec where
  ref := fun j => if j = f then max (own.ref f) (px.ref g) else own.ref j
  ftag := fun j => if j = f then own.ftag f ||| px.ftag g else own.ftag j
  ori := fun j =>
    if j = f then
      let o := if bdy (px.ftag g) then px.ori g else own.ori f
      match other with
      | none => o
      | some r => if r < tr then true else if tr < r then false else o
    else own.ori j

/-- New record with only face `f` set: 1401-1405, 1464-1469, 1514-1518. -/
def freshRec (f : Nat) (px : Rec) (g : Nat) (o : Bool) : Rec where
  ref := fun j => if j = f then px.ref g else 0
  ftag := fun j => if j = f then px.ftag g else 0
  ori := fun j => if j = f then o else true

/-- `pxt1->ref[f] = r; pxt1->ftag[f] = t; MG_SET(pxt1->ori,f)`. -/
def putRec (own : Rec) (f : Nat) (r : Int) (t : Nat) : Rec where
  ref := fun j => if j = f then r else own.ref j
  ftag := fun j => if j = f then t else own.ftag j
  ori := fun j => if j = f then true else own.ori j

def setR (s : St) (n : Nat) (r : Rec) : St := { s with R := fun j => if j = n then r else s.R j }

def setXt (s : St) (k n : Nat) : St := { s with xt := fun j => if j = k then n else s.xt j }

inductive Res
  /-- an assertion fails -/
  | asrt
  /-- no memory for a new record: return -1 -/
  | nomem
  | ok (s : St)

/-- Adjacency, 1341-1353: `P` is `adja[iq]`, `Q` is `adja[ip]`. -/
def relink (A : Nat → Nat) (P Q : Nat) : Nat → Nat :=
  let A := if P / 4 ≠ 0 then setAt A (adjIdx (P / 4) (P % 4)) (4 * (Q / 4) + Q % 4) else A
  if Q / 4 ≠ 0 then setAt A (adjIdx (Q / 4) (Q % 4)) (4 * (P / 4) + P % 4) else A

/-- Face of `pel`, 1357-1421. -/
def pelPart (tref : Nat → Int) (e ip P Q : Nat) (s : St) : Res :=
  let pel := P / 4
  let voyp := P % 4
  if s.xt e ≠ 0 then
    let px := s.R (s.xt e)
    if s.xt pel ≠ 0 then
      let r := mergeRec (s.R (s.xt pel)) voyp px ip (tref pel)
        (if Q / 4 ≠ 0 then some (tref (Q / 4)) else none)
      if Q / 4 = 0 && bdy (r.ftag voyp) && !parb (r.ftag voyp) && !r.ori voyp then .asrt
      else .ok (setR s (s.xt pel) r)
    else .ok (setR (setXt s pel (s.xt e)) (s.xt e) (freshRec voyp px ip (px.ori ip)))
  else if s.xt pel ≠ 0 then .ok (setR s (s.xt pel) (putRec (s.R (s.xt pel)) voyp 0 0))
  else .ok s

/-- Face of `qel` when `pel` exists, 1423-1499. `hadx` tells whether the deleted tetrahedron has a
record, `px` is the copy `xts` of it; `room` is the answer of the allocator. -/
def qelPart (tref : Nat → Int) (room : Nat → Bool) (hadx : Bool) (px : Rec) (iq P Q : Nat) (s : St) :
    Res :=
  let qel := Q / 4
  let voyq := Q % 4
  if hadx then
    if s.xt qel ≠ 0 then
      .ok (setR s (s.xt qel) (mergeRec (s.R (s.xt qel)) voyq px iq (tref qel) (some (tref (P / 4)))))
    else if !room (s.top + 1) then .nomem
    else .ok (setR (setXt { s with top := s.top + 1 } qel (s.top + 1)) (s.top + 1)
      (freshRec voyq px iq (px.ori iq)))
  else if s.xt qel ≠ 0 then .ok (setR s (s.xt qel) (putRec (s.R (s.xt qel)) voyq 0 0))
  else .ok s

/-- Face of `qel` when there is no `pel`, 1501-1524. -/
def qelAlone (e iq Q : Nat) (s : St) : Res :=
  let qel := Q / 4
  let voyq := Q % 4
  if s.xt e = 0 then .asrt
  else if qel ≠ 0 then
    let px := s.R (s.xt e)
    if s.xt qel ≠ 0 then
      .ok (setR s (s.xt qel) (putRec (s.R (s.xt qel)) voyq (px.ref iq) (px.ftag iq)))
    else .ok (setR (setXt s qel (s.xt e)) (s.xt e) (freshRec voyq px iq true))
  else .ok s

/-- `MMG3D_delElt`, mmg3d/zaldy_3d.c 122-141, without the chain of free tetrahedra. -/
def delElt (e : Nat) (s : St) : St :=
  { s with
    V := fun k => if k = e then [0, 0, 0, 0] else s.V k
    xt := fun k => if k = e then 0 else s.xt k
    A := fun n => if n = adjIdx e 0 ∨ n = adjIdx e 1 ∨ n = adjIdx e 2 ∨ n = adjIdx e 3 then 0
      else s.A n }

/-- One tetrahedron of the shell, 1325-1529; `x` is `-list[k]`. -/
def step (tref : Nat → Int) (room : Nat → Bool) (nq x : Nat) (s : St) : Res :=
  let e := x / 4
  let ip := x % 4
  match findq (s.V e) ip nq with
  | none => .asrt
  | some iq =>
    let P := link s.A e iq
    let Q := link s.A e ip
    let px := s.R (s.xt e)
    let hadx := decide (s.xt e ≠ 0)
    let s := { s with A := relink s.A P Q }
    if P / 4 ≠ 0 then
      match pelPart tref e ip P Q s with
      | .ok s =>
        if Q / 4 ≠ 0 then
          match qelPart tref room hadx px iq P Q s with
          | .ok s => .ok (delElt e s)
          | r => r
        else .ok (delElt e s)
      | r => r
    else
      match qelAlone e iq Q s with
      | .ok s => .ok (delElt e s)
      | r => r

/-- The tetrahedra of the shell, 1324-1530. -/
def steps (tref : Nat → Int) (room : Nat → Bool) (nq : Nat) : List Nat → St → Res
  | [], s => .ok s
  | x :: xs, s =>
    match step tref room nq x s with
    | .ok s => steps tref room nq xs s
    | r => r

/-- The other tetrahedra of the ball, 1532-1545 (`pt->v[ip] = nq`). -/
def rename (nq : Nat) : List Nat → (Nat → List Nat) → (Nat → List Nat)
  | [], V => V
  | x :: xs, V => rename nq xs (fun k => if k = x / 4 then (V k).set (x % 4) nq else V k)

inductive Out
  /-- return 0 -/
  | refused
  /-- return -1 -/
  | nomem
  | asrt
  /-- return `np` -/
  | done (np : Nat) (s : St)

/-- `MMG5_colver`; `l` is the ball of the removed vertex, `indq` the number of the other end of the
edge in the first tetrahedron. -/
def colver (tref : Nat → Int) (room : Nat → Bool) (l : List Nat) (indq : Nat) (s : St) : Out :=
  let x0 := l.headD 0
  let np := (s.V (x0 / 4)).getD (x0 % 4) 0
  let nq := (s.V (x0 / 4)).getD indq 0
  let inShell := fun x => (findq (s.V (x / 4)) (x % 4) nq).isSome
  if l.any fun x => !inShell x && decide (link s.A (x / 4) (x % 4) ≠ 0) &&
      decide ((s.V (link s.A (x / 4) (x % 4) / 4)).getD (link s.A (x / 4) (x % 4) % 4) 0 = nq) then
    .refused
  else
    match steps tref room nq (l.filter inShell) s with
    | .ok s' => .done np { s' with V := rename nq (l.filter fun x => !inShell x) s'.V }
    | .nomem => .nomem
    | .asrt => .asrt

/-! ### Specification -/

/-- Reference and tags of a face: nothing without a record. -/
def fd (s : St) (k f : Nat) : Int × Nat :=
  if s.xt k = 0 then (0, 0) else ((s.R (s.xt k)).ref f, (s.R (s.xt k)).ftag f)

def ori (s : St) (k f : Nat) : Bool := (s.R (s.xt k)).ori f

/-- No two tetrahedra share a record; the records are among the first `top`. -/
def Slots (used : Nat → Prop) (s : St) : Prop :=
  (∀ k k', used k → used k' → s.xt k ≠ 0 → s.xt k = s.xt k' → k = k') ∧ ∀ k, used k → s.xt k ≤ s.top

/-- The boundary data of the faces is right: both sides agree, faces without neighbour and faces
between different references are boundary faces, the orientation of a boundary face tells the side of
the outside or of the smaller reference. -/
structure FaceOK (tref : Nat → Int) (used : Nat → Prop) (s : St) : Prop where
  nonneg : ∀ k, used k → ∀ f < 4, 0 ≤ (fd s k f).1
  sides : ∀ k, used k → ∀ f < 4, link s.A k f ≠ 0 →
    fd s (link s.A k f / 4) (link s.A k f % 4) = fd s k f
  outer : ∀ k, used k → ∀ f < 4, link s.A k f = 0 → bdy (fd s k f).2 = true ∧ ori s k f = true
  diff : ∀ k, used k → ∀ f < 4, link s.A k f ≠ 0 → tref k ≠ tref (link s.A k f / 4) →
    bdy (fd s k f).2 = true
  ori : ∀ k, used k → ∀ f < 4, link s.A k f ≠ 0 →
    (tref (link s.A k f / 4) < tref k → ori s k f = true) ∧
    (tref k < tref (link s.A k f / 4) → ori s k f = false)

/-- Two neighbours are not the same tetrahedron. -/
def NoTwins (A : Nat → Nat) (V : Nat → List Nat) (used : Nat → Prop) : Prop :=
  ∀ k, used k → ∀ f < 4, link A k f ≠ 0 →
    (V (link A k f / 4)).getD (link A k f % 4) 0 ≠ (V k).getD f 0

/-- Two faces with the same vertices are linked. -/
def Complete (A : Nat → Nat) (V : Nat → List Nat) (used : Nat → Prop) : Prop :=
  ∀ k k', used k → used k' → ∀ f < 4, ∀ f' < 4, (k, f) ≠ (k', f') →
    faceTri 0 (V k) f = faceTri 0 (V k') f' → link A k f = 4 * k' + f'

/-- The list is the ball of vertex `p`: every tetrahedron with this vertex once, with its local
number. -/
structure IsBall (V : Nat → List Nat) (used : Nat → Prop) (p : Nat) (l : List Nat) : Prop where
  nd : (l.map (· / 4)).Nodup
  ent : ∀ x ∈ l, used (x / 4) ∧ (V (x / 4)).getD (x % 4) 0 = p
  all : ∀ k, used k → p ∈ V k → k ∈ l.map (· / 4)

/-- Boundary data of the face that results from two faces. -/
def merge (a b : Int × Nat) : Int × Nat := (max a.1 b.1, a.2 ||| b.2)

end Mmg.Colver
