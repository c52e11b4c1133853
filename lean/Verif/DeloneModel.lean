/-
  C64. Insertion of a vertex in a cavity (`MMG5_delone` and `MMG5_hashEdgeDelone`,
  mmg3d/delaunay_3d.c 55-334): model and specification.

  Modelled: adjacency, vertices, flags and references of the tetrahedra, boundary records with all
  their fields, slots of the records, table of the edges.  Not modelled: qualities and marks; the
  chain of the free tetrahedra (`MMG3D_newElt`, `MMG3D_delElt`; C09): the numbers of the new
  tetrahedra are given (`new n` is `ielnum[n+1]`), so that their allocation succeeds.
-/
import Verif.HashLemmas
import Verif.Swap23Props
import Verif.ShellLemmas

namespace Mmg.Delone

open Mmg.Split3 Mmg.Swap23 Mmg.Shell Mmg.Hash

/-- `MMG5_hashEdgeDelone`, mmg3d/delaunay_3d.c 55-120: looks for the edge `a b`; if it is there,
face `i` of `iel` is linked with the face that is stored with it, otherwise the face is stored.
`MMG3D_KTA` and `MMG3D_KTB` are 7 and 11, as for the other tables (`bucket`). -/
def hashEdgeDelone (g : Option Nat) (iel i a b : Nat) (x : Hash × (Nat → Nat)) :
    Outcome (Hash × (Nat → Nat)) :=
  let (h, A) := x
  let mins := Nat.min a b
  let maxs := Nat.max a b
  let glue (k : Nat) : Nat → Nat :=
    setAt (setAt A (adjIdx iel i) k) (adjIdx (k / 4) (k % 4)) (4 * iel + i)
  if h.siz = 0 then .ub
  else
    let p := bucket h.siz mins maxs
    if h.max < p then .ub
    else if (h.item p).a ≠ 0 then
      if cmatch false (mins, maxs, 0) (h.item p) then .ok (h, glue (h.item p).k)
      else
        match walkIns false (mins, maxs, 0) h h.fuel p with
        | .ub => .ub
        | .fail => .fail
        | .ok (.hit q) => .ok (h, glue (h.item q).k)
        | .ok (.tail t) =>
          match appendThenGrow h t (fun c => { c with a := mins, b := maxs, k := 4 * iel + i }) g with
          | .ub => .ub
          | .fail => .fail
          | .ok h' => .ok (h', A)
    else
      .ok (h.put p { h.item p with a := mins, b := maxs, k := 4 * iel + i, nxt := 0 }, A)

/-- `v[0]`, `v[1]`: the vertices of face `j` that are not `ip`, 306-311. -/
def edgeOf (v : List Nat) (ip j : Nat) : List Nat :=
  ((List.range 3).map fun l => v.getD (idirf j l) 0).filter (· ≠ ip)

/-- Internal faces of the new tetrahedron `iel`, 303-315. -/
def inner (g : Option Nat) (v : List Nat) (ip iel i : Nat) :
    List Nat → Hash × (Nat → Nat) → Outcome (Hash × (Nat → Nat))
  | [], x => .ok x
  | j :: js, x =>
    if j ≠ i then
      match hashEdgeDelone g iel j ((edgeOf v ip j).getD 0 0) ((edgeOf v ip j).getD 1 0) x with
      | .ok x' => inner g v ip iel i js x'
      | .ub => .ub
      | .fail => .fail
    else inner g v ip iel i js x

/-- State of the mesh: adjacency, vertices, flags, references, slots of the records (0: none),
records, number of the last record (`mesh->xt`). -/
structure St where
  A : Nat → Nat
  V : Nat → List Nat
  flag : Nat → Nat
  tref : Nat → Int
  xt : Nat → Nat
  X : Nat → XT
  top : Nat

/-- `MMG5_iarf`: the edges of each face, mmg3d/libmmg3d_private.h. -/
def iarf (f : Nat) : List Nat := [[5, 4, 3], [5, 1, 2], [4, 2, 0], [3, 0, 1]].getD f []

/-- A zeroed record. -/
def XT.zero : XT := ⟨fun _ => 0, fun _ => 0, fun _ => false, fun _ => 0, fun _ => 0⟩

/-- Copy of the data of face `i` of `x` and of its edges over the record `old`, 263-270 and
282-289. -/
def faceRec (old x : XT) (i : Nat) : XT where
  ref := upd old.ref i (x.ref i)
  ftag := upd old.ftag i (x.ftag i)
  edg := fun e => if e ∈ iarf i then x.edg e else old.edg e
  tag := fun e => if e ∈ iarf i then x.tag e else old.tag e
  ori := x.ori

/-- State of the loops: mesh, number of new tetrahedra, table, `isused`. -/
structure Acc where
  s : St
  n : Nat
  h : Hash
  isused : Bool

inductive Res
  /-- no memory for a new record: return -1 -/
  | nomem
  /-- access outside of the table of the edges -/
  | ub
  /-- the table of the edges cannot grow (return value ignored by the caller) -/
  | full
  | ok (a : Acc)

/-- The tetrahedra of the cavity carry the flag `base`: 171, 241. -/
def isExt (s : St) (base x : Nat) : Bool := x / 4 = 0 || s.flag (x / 4) ≠ base

/-- The new tetrahedron `iel` is a copy of `old` with `ip` as vertex `i`, 245-253. -/
def copyTet (ip iel old i : Nat) (s : St) : St :=
  { s with
    V := upd s.V iel ((s.V old).set i ip)
    flag := upd s.flag iel (s.flag old)
    tref := upd s.tref iel (s.tref old)
    xt := upd s.xt iel (s.xt old)
    A := setAt s.A (adjIdx iel i) (link s.A old i) }

/-- Record of the new tetrahedron, 255-295; `xts` is the copy of the record of `old` at the start
(`none`: no record). -/
def record (room : Nat → Bool) (xts : Option XT) (iel old i : Nat) (a : Acc) : Option Acc :=
  match xts with
  | none => some a
  | some x =>
    if x.ref i ≠ 0 ∨ x.ftag i ≠ 0 then
      if !a.isused then
        let slot := a.s.xt old
        some { a with
          s := { a.s with xt := upd (upd a.s.xt iel slot) old 0, X := upd a.s.X slot (faceRec XT.zero x i) }
          isused := true }
      else if room (a.s.top + 1) then
        let slot := a.s.top + 1
        some { a with
          s := { a.s with
            top := slot
            xt := upd a.s.xt iel slot
            X := upd a.s.X slot (faceRec (a.s.X slot) x i) } }
      else none
    else some { a with s := { a.s with xt := upd a.s.xt iel 0 } }

/-- Face `i` of `old`, 237-316; `vois` is the copy of its links. -/
def face (g : Option Nat) (room : Nat → Bool) (new : Nat → Nat) (base ip old : Nat)
    (vois : Nat → Nat) (xts : Option XT) (i : Nat) (a : Acc) : Res :=
  if isExt a.s base (vois i) then
    let iel := new a.n
    let a := { a with n := a.n + 1, s := copyTet ip iel old i a.s }
    match record room xts iel old i a with
    | none => .nomem
    | some a =>
      let A := back a.s.A (vois i) (4 * iel + i)
      match inner g (a.s.V iel) ip iel i [0, 1, 2, 3] (a.h, A) with
      | .ok (h, A) => .ok { a with h := h, s := { a.s with A := A } }
      | .ub => .ub
      | .fail => .full
  else .ok a

def faces (g : Option Nat) (room : Nat → Bool) (new : Nat → Nat) (base ip old : Nat)
    (vois : Nat → Nat) (xts : Option XT) : List Nat → Acc → Res
  | [], a => .ok a
  | i :: is, a =>
    match face g room new base ip old vois xts i a with
    | .ok a => faces g room new base ip old vois xts is a
    | r => r

/-- The tetrahedra of the cavity, 215-318. -/
def tets (g : Option Nat) (room : Nat → Bool) (new : Nat → Nat) (base ip : Nat) :
    List Nat → Acc → Res
  | [], a => .ok a
  | old :: l, a =>
    match faces g room new base ip old (fun i => link a.s.A old i)
        (if a.s.xt old ≠ 0 then some (a.s.X (a.s.xt old)) else none) [0, 1, 2, 3]
        { a with isused := false } with
    | .ok a => tets g room new base ip l a
    | r => r

/-- `MMG3D_delElt`, mmg3d/zaldy_3d.c 122-141, without the chain of free tetrahedra. -/
def delElt (s : St) (e : Nat) : St :=
  { s with
    V := upd s.V e [0, 0, 0, 0]
    xt := upd s.xt e 0
    A := fun n => if n = adjIdx e 0 ∨ n = adjIdx e 1 ∨ n = adjIdx e 2 ∨ n = adjIdx e 3 then 0
      else s.A n }

/-- The external faces, in the order of the loops (162-182). -/
def extFaces (s : St) (base : Nat) (l : List Nat) : List (Nat × Nat) :=
  l.flatMap fun k => ((List.range 4).filter fun i => isExt s base (link s.A k i)).map fun i => (k, i)

/-- Some vertex of the cavity is on no external face, 184-193. -/
def isolated (s : St) (base : Nat) (l : List Nat) : Bool :=
  l.any fun k => (List.range 4).any fun i =>
    !((extFaces s base l).any fun d => (List.range 3).any fun j =>
      (s.V d.1).getD (idirf d.2 j) 0 = (s.V k).getD i 0)

inductive Out
  /-- return 0: nothing has been changed -/
  | refused
  /-- return -1 -/
  | nomem
  | ub
  | full
  /-- return 1, with the number of new tetrahedra -/
  | done (s : St) (n : Nat)

/-- `MMG5_delone`, mmg3d/delaunay_3d.c 140-334; `lonmax` is `MMG3D_LONMAX`. -/
def delone (lonmax : Nat) (g : Option Nat) (room : Nat → Bool) (new : Nat → Nat) (base ip : Nat)
    (l : List Nat) (s : St) : Out :=
  let size := (extFaces s base l).length
  if isolated s base l then .refused
  else if 3 * lonmax < size then .refused
  else
    match tets g room new base ip l ⟨s, 0, hashNew size (3 * size), false⟩ with
    | .nomem => .nomem
    | .ub => .ub
    | .full => .full
    | .ok a => .done (l.foldl delElt a.s) a.n

/-! ### Specification -/

/-- Face `f` of `k` is on the surface of the cavity `l`. -/
def Outer (A : Nat → Nat) (l : List Nat) (k f : Nat) : Prop :=
  k ∈ l ∧ f < 4 ∧ (link A k f = 0 ∨ link A k f / 4 ∉ l)

/-- The list is a set of tetrahedra of the mesh, those with the flag `base`. -/
structure Cavity (s : St) (used : Nat → Prop) (base : Nat) (l : List Nat) : Prop where
  nd : l.Nodup
  sub : ∀ k ∈ l, used k
  flag : ∀ k, used k → (s.flag k = base ↔ k ∈ l)

/-- No edge lies on more than two faces of the surface of the cavity. -/
def NoPinch (A : Nat → Nat) (V : Nat → List Nat) (l : List Nat) : Prop :=
  ∀ a b, a ≠ b → ∀ x y z : Nat × Nat,
    (Outer A l x.1 x.2 ∧ a ∈ faceTri 0 (V x.1) x.2 ∧ b ∈ faceTri 0 (V x.1) x.2) →
    (Outer A l y.1 y.2 ∧ a ∈ faceTri 0 (V y.1) y.2 ∧ b ∈ faceTri 0 (V y.1) y.2) →
    (Outer A l z.1 z.2 ∧ a ∈ faceTri 0 (V z.1) z.2 ∧ b ∈ faceTri 0 (V z.1) z.2) →
    x = y ∨ y = z ∨ x = z

/-- The numbers of the new tetrahedra are free and different. -/
structure Fresh (new : Nat → Nat) (used : Nat → Prop) (n : Nat) : Prop where
  pos : ∀ j < n, 1 ≤ new j
  free : ∀ j < n, ¬ used (new j)
  inj : ∀ i < n, ∀ j < n, new i = new j → i = j

/-- Linked faces are seen with opposite orientations. -/
def Oriented (A : Nat → Nat) (V : Nat → List Nat) (used : Nat → Prop) : Prop :=
  ∀ k, used k → ∀ f < 4, link A k f ≠ 0 → Facing (V k) (V (link A k f / 4)) f (link A k f % 4)

/-- Boundary data of a face: reference, tag (nothing without a record). -/
def fd (s : St) (k f : Nat) : Int × Nat :=
  if s.xt k = 0 then (0, 0) else ((s.X (s.xt k)).ref f, (s.X (s.xt k)).ftag f)

/-- Data of an edge of a tetrahedron: reference, tag. -/
def ed (s : St) (k e : Nat) : Int × Nat :=
  if s.xt k = 0 then (0, 0) else ((s.X (s.xt k)).edg e, (s.X (s.xt k)).tag e)

/-- The face has the orientation of its triangle (nothing without a record). -/
def od (s : St) (k f : Nat) : Bool := s.xt k ≠ 0 ∧ (s.X (s.xt k)).ori f = true

/-- No two tetrahedra share a record; the records are among the first `top`; the others are
blank. -/
structure Slots (s : St) (used : Nat → Prop) : Prop where
  le : ∀ k, used k → s.xt k ≤ s.top
  inj : ∀ k k', used k → used k' → s.xt k = s.xt k' → s.xt k ≠ 0 → k = k'
  blank : ∀ n, s.top < n → (s.X n).ref = (fun _ => 0) ∧ (s.X n).ftag = (fun _ => 0) ∧
    (s.X n).edg = (fun _ => 0) ∧ (s.X n).tag = fun _ => 0

/-- The mesh after the insertion. -/
def After (used : Nat → Prop) (l : List Nat) (new : Nat → Nat) (n k : Nat) : Prop :=
  (used k ∧ k ∉ l) ∨ ∃ j < n, k = new j

end Mmg.Delone
