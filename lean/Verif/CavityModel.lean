/-
  C65. Cavity of a vertex inserted on an edge: growth and correction (`MMG5_cavity_iso`,
  `MMG5_cavity_ani`, `MMG5_correction_iso`, `MMG5_correction_ani`, mmg3d/delaunay_3d.c 340-870).

  The two variants have the same text but for their numerical tests, which are parameters here
  (`sphere`, `bad`); the tests of the faces are modelled too (`badIso`, `badAni`), over an ordered
  field.  Modelled: list, flags, boundary faces, references, required tetrahedra.  Not modelled:
  rounding, circumscribed spheres (`MMG5_cenrad_*`).
-/
import Verif.Delone
import Verif.ShellProps
import Mathlib.Algebra.Order.Field.Basic

namespace Mmg.Cavity

open Mmg.Split3 Mmg.Swap23 Mmg.Shell Mmg.Delone

/-- The mesh as seen by these functions: links, vertices, references, `pt->tag & MG_REQ`,
`pt->xt && (mesh->xtetra[pt->xt].ftag[f] & MG_BDY)`, `mesh->info.opnbdy`. -/
structure M where
  A : Nat → Nat
  V : Nat → List Nat
  tref : Nat → Int
  req : Nat → Bool
  bdy : Nat → Nat → Bool
  opnbdy : Bool

/-- Marks and tests on the shell, 594-614 and 757-776; `false` is the return with 0. -/
def mark (m : M) (base : Nat) (tref : Int) : List Nat → (Nat → Nat) → Bool × (Nat → Nat)
  | [], flag => (true, flag)
  | x :: xs, flag =>
    let flag := upd flag (x / 6) base
    if !m.opnbdy then
      if tref ≠ m.tref (x / 6) then (false, flag) else mark m base tref xs flag
    else if m.bdy (x / 6) (ifar (x % 6)).1 || m.bdy (x / 6) (ifar (x % 6)).2 then (false, flag)
    else mark m base tref xs flag

/-- State of the growth: list, flags, `isreq`. -/
structure G where
  l : List Nat
  flag : Nat → Nat
  isreq : Bool

/-- Would a boundary face be lost inside of the cavity?  682-698 and 817-832. -/
def lost (m : M) (base : Nat) (flag : Nat → Nat) (adj voy : Nat) : Bool :=
  (List.range 4).any fun j => decide (j ≠ voy) && decide (link m.A adj j ≠ 0) &&
    decide (flag (link m.A adj j / 4) = base) && m.bdy (link m.A adj j / 4) (link m.A adj j % 4)

/-- Face by face, 629-705 and 789-840; `x` is the link `vois[i]`; `cap` is the size of the array:
`none` is a write outside of it. -/
def growFace (m : M) (sphere : Nat → Bool) (cap base x : Nat) (g : G) : Option G :=
  if x = 0 then some g
  else if g.flag (x / 4) = base then some g
  else if m.bdy (x / 4) (x % 4) then some g
  else if !sphere (x / 4) then some g
  else if lost m base g.flag (x / 4) (x % 4) then some g
  else if cap ≤ g.l.length then none
  else some ⟨g.l ++ [x / 4], upd g.flag (x / 4) base, g.isreq || m.req (x / 4)⟩

def growFaces (m : M) (sphere : Nat → Bool) (cap base jel : Nat) : List Nat → G → Option G
  | [], g => some g
  | i :: is, g =>
    match growFace m sphere cap base (link m.A jel i) g with
    | none => none
    | some g => growFaces m sphere cap base jel is g

inductive Grown
  /-- write outside of the list -/
  | ub
  /-- the loop does not end -/
  | loop
  /-- more than `MMG3D_LONMAX - 3` tetrahedra: return -1 -/
  | big (g : G)
  | ok (g : G)

/-- Growth of the cavity, 626-709 and 786-844; `lonmax` is `MMG3D_LONMAX`. -/
def growLoop (m : M) (sphere : Nat → Bool) (cap lonmax base : Nat) : Nat → Nat → G → Grown
  | 0, _, _ => .loop
  | fuel + 1, ipil, g =>
    match growFaces m sphere cap base (g.l.getD ipil 0) [0, 1, 2, 3] g with
    | none => .ub
    | some g =>
      if lonmax < g.l.length + 3 then .big g
      else if ipil + 1 < g.l.length then growLoop m sphere cap lonmax base fuel (ipil + 1) g
      else .ok g

/-- One of the faces of `iel` towards the outside is bad, or `iel` is required: 388-441, 504-550. -/
def fails (m : M) (bad : Nat → Nat → Bool) (base : Nat) (flag : Nat → Nat) (iel : Nat) : Bool :=
  (List.range 4).any (fun i =>
    !(decide (link m.A iel i / 4 ≠ 0) && decide (flag (link m.A iel i / 4) = base)) && bad iel i) ||
  m.req iel

/-- The last of the first `n` tetrahedra of the list that fails. -/
def scan (m : M) (bad : Nat → Nat → Bool) (base : Nat) (flag : Nat → Nat) (l : List Nat) :
    Nat → Option Nat
  | 0 => none
  | n + 1 => if fails m bad base flag (l.getD n 0) then some n else scan m bad base flag l n

inductive Corrected
  | loop
  /-- return 0 -/
  | zero (flag : Nat → Nat)
  | ok (l : List Nat) (flag : Nat → Nat)

/-- `MMG5_correction_iso` and `MMG5_correction_ani`: 374-459, 495-566. -/
def correct (m : M) (bad : Nat → Nat → Bool) (base nedep : Nat) :
    Nat → List Nat → (Nat → Nat) → Corrected
  | 0, _, _ => .loop
  | fuel + 1, l, flag =>
    match scan m bad base flag l l.length with
    | none => .ok l flag
    | some ipil =>
      if ipil ≤ nedep then .zero flag
      else
        let flag := upd flag (l.getD ipil 0) (base - 1)
        let l := (l.set ipil (l.getD (l.length - 1) 0)).dropLast
        if nedep ≤ l.length then correct m bad base nedep fuel l flag else .ok l flag

inductive Out
  | ub
  | loop
  /-- return value, the list and the flags -/
  | ret (r : Int) (l : List Nat) (flag : Nat → Nat)

/-- `MMG5_cavity_iso` and `MMG5_cavity_ani`, mmg3d/delaunay_3d.c 581-731 and 741-867; `base` is the
value of `mesh->base` after its increment, `shell` the list of `6 * tetra + edge`, `ipnul` says that
the point is not used. -/
def cavity (m : M) (sphere : Nat → Bool) (bad : Nat → Nat → Bool) (cap lonmax base : Nat)
    (ipnul : Bool) (shell : List Nat) (flag : Nat → Nat) : Out :=
  if shell.length < 1 then .ret 0 [] flag
  else if ipnul then .ret 0 [] flag
  else
    match mark m base (m.tref (shell.headD 0 / 6)) shell flag with
    | (false, flag) => .ret 0 [] flag
    | (true, flag) =>
      match growLoop m sphere cap lonmax base (max lonmax 1) 0 ⟨shell.map (· / 6), flag, false⟩ with
      | .ub => .ub
      | .loop => .loop
      | .big g => .ret (-1) g.l g.flag
      | .ok g =>
        match correct m bad base shell.length (g.l.length + 1) g.l g.flag with
        | .loop => .loop
        | .zero flag => .ret 0 g.l flag
        | .ok l flag => .ret (if g.isreq then -(l.length : Int) else l.length) l flag

/-! ### Tests of the faces -/

section
variable {K : Type} [Field K] [LinearOrder K]

/-- `dd`, 400-417 and 516-533: the face is `MMG5_idir[i]`. -/
def ddOf (c : Nat → Pt K) (v : List Nat) (i ip : Nat) : K × (K × K × K) :=
  let p1 := c (v.getD (idirf i 0) 0)
  let p2 := c (v.getD (idirf i 1) 0)
  let p3 := c (v.getD (idirf i 2) 0)
  let ppt := c ip
  let ux := p2.x - p1.x
  let uy := p2.y - p1.y
  let uz := p2.z - p1.z
  let vx := p3.x - p1.x
  let vy := p3.y - p1.y
  let vz := p3.z - p1.z
  let v1 := uz * vy - uy * vz
  let v2 := ux * vz - uz * vx
  let v3 := uy * vx - ux * vy
  (v1 * (ppt.x - p1.x) + v2 * (ppt.y - p1.y) + v3 * (ppt.z - p1.z), v1, v2, v3)

/-- Test of a face, 516-548; `eps2` is the square of `MMG3D_EPSCON`. -/
def badIso (c : Nat → Pt K) (V : Nat → List Nat) (ip : Nat) (volmin eps2 : K) (k i : Nat) : Bool :=
  let (dd, v1, v2, v3) := ddOf c (V k) i ip
  if dd < volmin then true
  else
    let nn := v1 * v1 + v2 * v2 + v3 * v3
    decide (dd * dd < nn * eps2)

/-- Square of the length of a segment. -/
def sqlen (p q : Pt K) : K :=
  (p.x - q.x) * (p.x - q.x) + (p.y - q.y) * (p.y - q.y) + (p.z - q.z) * (p.z - q.z)

/-- Test of a face with a metric, 400-440; `met v j` is `met->m[6*v+j]`, `sqrt` the square root,
`epsok` is `MMG5_EPSOK`. -/
def badAni (sqrt : K → K) (met : Nat → Nat → K) (c : Nat → Pt K) (V : Nat → List Nat) (ip : Nat)
    (volmin eps2 epsok : K) (k i : Nat) : Bool :=
  let (dd, v1, v2, v3) := ddOf c (V k) i ip
  let ib := (V k).getD (idirf i 0) 0
  let ic := (V k).getD (idirf i 1) 0
  let id := (V k).getD (idirf i 2) 0
  let h1 := sqlen (c ic) (c ib)
  let h2 := sqlen (c id) (c ib)
  let h3 := sqlen (c ic) (c id)
  if dd < volmin * sqrt (h1 * h2 * h3) then true
  else
    let mm := fun j => (met ip j + met ib j + met ic j + met id j) / 4
    let det := mm 0 * (mm 3 * mm 5 - mm 4 * mm 4) - mm 1 * (mm 1 * mm 5 - mm 2 * mm 4) +
      mm 2 * (mm 1 * mm 4 - mm 2 * mm 3)
    if det < epsok then true
    else
      let nn := mm 0 * v1 * v1 + mm 3 * v2 * v2 + mm 5 * v3 * v3 +
        2 * (mm 1 * v1 * v2 + mm 2 * v1 * v3 + mm 4 * v2 * v3)
      decide (det * dd * dd < nn * eps2)

end

/-! ### Specification -/

/-- The list is the shell of the edge `a b`, or a part of it: tetrahedra of the mesh with this edge,
with its number, once each. -/
structure IsShell (V : Nat → List Nat) (used : Nat → Prop) (a b : Nat) (shell : List Nat) :
    Prop where
  nd : (shell.map (· / 6)).Nodup
  ent : ∀ x ∈ shell, used (x / 6) ∧ IsEdge (V (x / 6)) a b (x % 6)

/-- A face on the surface of the cavity: `Mmg.Delone.Outer`.  The growth cannot go through a face:
outside of the mesh, already in, on the boundary, not in the sphere, or a boundary face between the
neighbour and the cavity would be lost. -/
def Blocked (m : M) (sphere : Nat → Bool) (l : List Nat) (x : Nat) : Prop :=
  x = 0 ∨ x / 4 ∈ l ∨ m.bdy (x / 4) (x % 4) = true ∨ sphere (x / 4) = false ∨
  ∃ j < 4, j ≠ x % 4 ∧ link m.A (x / 4) j ≠ 0 ∧ link m.A (x / 4) j / 4 ∈ l ∧
    m.bdy (link m.A (x / 4) j / 4) (link m.A (x / 4) j % 4) = true

/-- Both sides of a face agree; boundary faces separate different references unless open boundaries
are kept; faces between different references are on the boundary. -/
structure FacesOK (m : M) (used : Nat → Prop) : Prop where
  two : ∀ k, used k → ∀ f < 4, link m.A k f ≠ 0 →
    m.bdy (link m.A k f / 4) (link m.A k f % 4) = m.bdy k f
  diff : ∀ k, used k → ∀ f < 4, link m.A k f ≠ 0 → m.tref k ≠ m.tref (link m.A k f / 4) →
    m.bdy k f = true
  same : m.opnbdy = false → ∀ k, used k → ∀ f < 4, link m.A k f ≠ 0 →
    m.tref k = m.tref (link m.A k f / 4) → m.bdy k f = false

end Mmg.Cavity
