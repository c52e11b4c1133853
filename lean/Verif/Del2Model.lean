/-
  C91. Insertion of a vertex in a 2D triangulation: `MMG2D_cavity`, `MMG2D_correction_iso`, `MMG2D_delone`,
  `MMG2D_hashEdgeDelone` (mmg2d/delone_2d.c) and one turn of `MMG2D_insertpointdelone` (mmg2d/mmg2d2.c 229-264).

  Conventions of `Verif.Tri2Model`: an adjacency word `3*k+i` is the pair `(k, i)`.  Modelled besides: the marks `pt->base`, the
  table of edges with the word that it stores.  Simplifications: the coordinates are in an ordered field; the circle test
  (`MMG2D_cenrad_iso` and the distance, 184-195) is a parameter `circle`; the vertex is valid (`MG_VOK`, otherwise no correction is
  made, 40); `tagdel` is 0 at the start; the numbers of the new triangles are given (`new`), with the answer of the allocator
  (`room`); qualities are left out.
-/
import Verif.HashModel
import Verif.Tri2ColModel
import Mathlib.Algebra.Order.Field.Basic

namespace Mmg.Del2

open Mmg.Hash (Outcome Hash hashNew hashGet hashEdge)
open Mmg.Tri2

/-- Write of one mark. -/
def setM (m : Nat → Nat) (k b : Nat) : Nat → Nat := fun x => if x = k then b else m x

/-! ### The cavity -/

/-- The test "lost face", delone_2d.c 197-211. -/
def lost (M : Mesh) (mark : Nat → Nat) (base : Nat) (tref : Int) (jel adj : Nat) (voy : Fin 3) : Bool :=
  [0, 1, 2].any fun j : Fin 3 => j != voy &&
    match M.adj (adj, j) with
    | none => false
    | some (adi, _) => mark adi == base && adi != jel && (M.tri adi).ref != tref

/-- Side `i` of the triangle `jel`, 173-225; the state is marks and list. -/
def look (M : Mesh) (circle : Nat → Bool) (base : Nat) (tref : Int) (jel : Nat) (s : (Nat → Nat) × List Nat) (i : Fin 3) :
    (Nat → Nat) × List Nat :=
  match M.adj (jel, i) with
  | none => s
  | some (adj, voy) =>
    if s.1 adj = base ∨ (M.tri adj).ref ≠ (M.tri jel).ref then s
    else if circle adj = false then s
    else if lost M s.1 base tref jel adj voy then s
    else (setM s.1 adj base, s.2 ++ [adj])

/-- The loop of 163-230: `pre` is the part of the list that is treated, `s.2` the other part.  `none`: return -1. -/
def grow (M : Mesh) (circle : Nat → Bool) (lmax base : Nat) (tref : Int) :
    Nat → List Nat → (Nat → Nat) × List Nat → Option ((Nat → Nat) × List Nat)
  | 0, _, _ => none
  | fuel + 1, pre, s =>
    match s.2 with
    | [] => some (s.1, pre)
    | jel :: rest =>
      let s' := [0, 1, 2].foldl (look M circle base tref jel) (s.1, rest)
      if lmax < (pre ++ [jel] ++ s'.2).length + 3 then none
      else grow M circle lmax base tref fuel (pre ++ [jel]) s'

section
variable {K : Type} [Field K] [LinearOrder K]

/-- Twice the area of `a b c`. -/
def area (cx cy : Nat → K) (a b c : Nat) : K := (cx b - cx a) * (cy c - cy a) - (cy b - cy a) * (cx c - cx a)

/-- An external side: no neighbour, or a neighbour without the mark, 57, 283, 344. -/
def isExt (mark : Nat → Nat) (base : Nat) (o : Option HE) : Bool :=
  match o with
  | none => true
  | some h => mark h.1 != base

/-- A triangle that has to leave the cavity, 54-77: seen from `ip` an external side has an area less than `amin`. -/
def bad (cx cy : Nat → K) (amin : K) (M : Mesh) (mark : Nat → Nat) (base ip k : Nat) : Bool :=
  [0, 1, 2].any fun i : Fin 3 => isExt mark base (M.adj (k, i)) &&
    decide (area cx cy ((M.tri k).v (i + 1)) ((M.tri k).v (i + 2)) ip < amin)

/-- `MMG2D_correction_iso`, 32-92, with `nedep = 1`: the last triangle that has to leave is replaced by the last of the list. -/
def correct (cx cy : Nat → K) (amin : K) (M : Mesh) (base ip : Nat) : Nat → (Nat → Nat) × List Nat → (Nat → Nat) × List Nat
  | 0, s => s
  | fuel + 1, s =>
    match (List.range s.2.length).reverse.find? fun p => bad cx cy amin M s.1 base ip (s.2.getD p 0) with
    | none => s
    | some p =>
      correct cx cy amin M base ip fuel
        (setM s.1 (s.2.getD p 0) (base - 1), (s.2.set p (s.2.getD (s.2.length - 1) 0)).dropLast)

/-- `MMG2D_cavity`, 149-236, from the triangle `k0`; `base` is the value after `++mesh->base`; `none`: return -1. -/
def cavity (cx cy : Nat → K) (amin : K) (circle : Nat → Bool) (lmax : Nat) (M : Mesh) (mark : Nat → Nat) (base ip k0 : Nat) :
    Option ((Nat → Nat) × List Nat) :=
  match grow M circle lmax base (M.tri k0).ref (lmax + 1) [] (setM mark k0 base, [k0]) with
  | none => none
  | some s => some (correct cx cy amin M base ip s.2.length s)

end

/-! ### The insertion -/

/-- `jel % 3`, `jel / 3`. -/
def decode (w : Nat) : HE := (w / 3, ⟨w % 3, Nat.mod_lt _ (by decide)⟩)

/-- `MMG2D_hashEdgeDelone`, 106-144. -/
def glue (g : Option Nat) (iel : Nat) (x : Mesh × Hash) (i : Fin 3) : Outcome (Mesh × Hash) :=
  let a := (x.1.tri iel).v (i + 1)
  let b := (x.1.tri iel).v (i + 2)
  match hashGet x.2 a b with
  | .ub => .ub
  | .fail => .fail
  | .ok w =>
    if w = 0 then
      match hashEdge x.2 a b (3 * iel + i) g with
      | .ub => .ub
      | .fail => .fail
      | .ok (h, _) => .ok (x.1, h)
    else .ok ((x.1.setAdj (iel, i) (some (decode w))).setAdj (decode w) (some (iel, i)), x.2)

/-- The internal sides of the new triangle `iel`, 374-385. -/
def inner (g : Option Nat) (iel : Nat) (i : Fin 3) : List (Fin 3) → Mesh × Hash → Outcome (Mesh × Hash)
  | [], x => .ok x
  | j :: l, x =>
    if j ≠ i then
      match glue g iel x j with
      | .ub => .ub
      | .fail => .fail
      | .ok x' => inner g iel i l x'
    else inner g iel i l x

structure Acc where
  M : Mesh
  mark : Nat → Nat
  h : Hash
  n : Nat

/-- Side `i` of the triangle `old` of the cavity, 339-387; `nei` is the copy of its row. -/
def side (g : Option Nat) (new : Nat → Nat) (base ip old : Nat) (nei : Fin 3 → Option HE) (i : Fin 3) (a : Acc) : Outcome Acc :=
  if isExt a.mark base (nei i) then
    let iel := new a.n
    let M := a.M.setTri iel ((a.M.tri old).setV i ip)
    let M := M.setAdj (iel, i) (M.adj (old, i))
    let M := M.backLink (nei i) (iel, i)
    match inner g iel i [0, 1, 2] (M, a.h) with
    | .ub => .ub
    | .fail => .fail
    | .ok (M, h) => .ok { M := M, mark := setM a.mark iel (a.mark old), h := h, n := a.n + 1 }
  else .ok a

def sidesOf (g : Option Nat) (new : Nat → Nat) (base ip old : Nat) (nei : Fin 3 → Option HE) : List (Fin 3) → Acc → Outcome Acc
  | [], a => .ok a
  | i :: l, a =>
    match side g new base ip old nei i a with
    | .ub => .ub
    | .fail => .fail
    | .ok a' => sidesOf g new base ip old nei l a'

/-- The triangles of the cavity, 327-389. -/
def trias (g : Option Nat) (new : Nat → Nat) (base ip : Nat) : List Nat → Acc → Outcome Acc
  | [], a => .ok a
  | old :: l, a =>
    match sidesOf g new base ip old (fun i => a.M.adj (old, i)) [0, 1, 2] a with
    | .ub => .ub
    | .fail => .fail
    | .ok a' => trias g new base ip l a'

/-- The external sides, in the order of the loops, 268-290. -/
def extSides (M : Mesh) (mark : Nat → Nat) (base : Nat) (l : List Nat) : List HE :=
  l.flatMap fun k => (([0, 1, 2] : List (Fin 3)).filter fun i => isExt mark base (M.adj (k, i))).map fun i => (k, i)

/-- A vertex of the cavity is on no external side, 293-304. -/
def isolated (M : Mesh) (mark : Nat → Nat) (base : Nat) (l : List Nat) : Bool :=
  l.any fun k => [0, 1, 2].any fun i : Fin 3 =>
    !(extSides M mark base l).any fun x => M.org x == (M.tri k).v i || M.dst x == (M.tri k).v i

inductive Res
  /-- return 0 -/
  | refused
  /-- return -1; nothing is changed (but the chain of free triangles) when `early`, otherwise the work is half done -/
  | nomem (early : Bool)
  | ub
  /-- return 1 -/
  | done (M : Mesh) (mark : Nat → Nat) (n : Nat)

/-- `MMG2D_delone`, 251-408; `room` is the answer for the table and the new triangles. -/
def delone (lmax : Nat) (g : Option Nat) (room : Bool) (new : Nat → Nat) (base ip : Nat) (l : List Nat) (M : Mesh) (mark : Nat → Nat) :
    Res :=
  let size := (extSides M mark base l).length
  if isolated M mark base l then .refused
  else if 3 * lmax ≤ size then .refused
  else if !room then .nomem true
  else
    match trias g new base ip l ⟨M, mark, hashNew size (3 * size), 0⟩ with
    | .ub => .ub
    | .fail => .nomem false
    | .ok a => .done (l.foldl Mesh.delTri a.M) a.mark a.n

/-- One turn of `MMG2D_insertpointdelone`, mmg2d2.c 234-264, from the triangle `k0` that is found: mesh and "the vertex is counted as
inserted" (258-259: every answer of `MMG2D_delone` other than 0).  `none`: memory is lacking in the middle of the work. -/
def turn {K : Type} [Field K] [LinearOrder K] (cx cy : Nat → K) (amin : K) (lmax : Nat) (circle : Nat → Bool) (g : Option Nat)
    (room : Bool) (new : Nat → Nat) (mark : Nat → Nat) (base ip k0 : Nat) (M : Mesh) : Option (Mesh × Bool) :=
  match cavity cx cy amin circle lmax M mark base ip k0 with
  | none => some (M, false)
  | some (mark', l) =>
    if l = [] then some (M, false)
    else
      match delone lmax g room new base ip l M mark' with
      | .refused => some (M, false)
      | .nomem true => some (M, true)
      | .nomem false => none
      | .ub => none
      | .done M' _ _ => some (M', true)

end Mmg.Del2
