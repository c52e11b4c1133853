/-
  Model of the separation of the sub-domains after the triangulation of 2D points and edges: `MMG2D_markSD`
  (mmg2d/mmg2d2.c 320-498) with the deletion of triangles `MMG2D_delElt` (mmg2d/zaldy_2d.c 107-128).

  Simplifications.  The references are a separate table, and the list of the free triangles is left out, as are the last loops on
  vertices and edges (475-496).  `none` stands for an access outside of the list of `nt` triangles, or for a first triangle that
  does not exist (it is proved that the first does not happen).
-/
import Verif.Tri2Model

namespace Mmg.Subd

open Mmg.Tri2

/-- What is not changed by the first part: mesh, `nt`, `np`, edges given by the user. -/
structure Env where
  M : Mesh
  nt : Nat
  np : Nat
  na : Nat
  edge : Nat → Nat × Nat

variable (E : Env)

/-- `MG_EOK`. -/
def eok (M : Mesh) (k : Nat) : Bool := decide ((M.tri k).v 0 ≠ 0)

/-- The search among the edges, lines 371-376: side `h` is an edge of the user. -/
def cut (h : HE) : Bool :=
  let p0 := (E.M.tri h.1).v (h.2 + 1)
  let p1 := (E.M.tri h.1).v (h.2 + 2)
  (List.range' 1 E.na).any fun l =>
    ((E.edge l).1 == p0 && (E.edge l).2 == p1) || ((E.edge l).2 == p0 && (E.edge l).1 == p1)

def set1 (f : Nat → Nat) (k x : Nat) : Nat → Nat := fun y => if y = k then x else f y

/-- One side of triangle `k`, lines 359-380. -/
def visit (nref k : Nat) (s : (Nat → Nat) × List Nat) (i : Fin 3) : (Nat → Nat) × List Nat :=
  match E.M.adj (k, i) with
  | none => s
  | some h' => if s.1 h'.1 = nref then s else if cut E (k, i) then s else (set1 s.1 h'.1 nref, s.2 ++ [h'.1])

/-- The inner loop, lines 352-384: references and the part of the list still to be treated. -/
def fill (nref : Nat) : Nat → (Nat → Nat) × List Nat → Option (Nat → Nat)
  | _, (ref, []) => some ref
  | 0, (_, _ :: _) => none
  | n + 1, (ref, k :: q) => fill nref n ([0, 1, 2].foldl (visit E nref k) (set1 ref k nref, q))

/-- First valid triangle without reference, lines 386-392. -/
def nextK (ref : Nat → Nat) : Option Nat := (List.range' 1 E.nt).find? fun k => eok E.M k && ref k == 0

/-- The outer loop, lines 347-394, from the triangle `kinit`. -/
def regions : Nat → Nat → Nat → (Nat → Nat) → Option (Nat × (Nat → Nat))
  | 0, _, _, _ => none
  | n + 1, nref, kinit, ref =>
    match fill E (nref + 1) E.nt (ref, [kinit]) with
    | none => none
    | some ref' =>
      match nextK E ref' with
      | none => some (nref + 1, ref')
      | some k => regions n (nref + 1) k ref'

/-- First triangle with vertex `np`, lines 338-344. -/
def firstK : Option Nat :=
  (List.range' 1 E.nt).find? fun k => eok E.M k &&
    ((E.M.tri k).v 0 == E.np || (E.M.tri k).v 1 == E.np || (E.M.tri k).v 2 == E.np)

/-- Number of references and references. -/
def mark : Option (Nat × (Nat → Nat)) :=
  match firstK E with
  | none => none
  | some k => regions E E.nt 0 k fun _ => 0

def noTri : Tri := ⟨fun _ => 0, fun _ => 0, fun _ => 0, 0⟩

/-- `if ( adja[i] ) adja(neighbour)[voy] = 0`, lines 419-424. -/
def unlink (k : Nat) (M : Mesh) (i : Fin 3) : Mesh :=
  match M.adj (k, i) with
  | none => M
  | some h' => M.setAdj h' none

/-- `MMG2D_delElt`. -/
def delElt (M : Mesh) (k : Nat) : Mesh where
  tri := fun x => if x = k then noTri else M.tri x
  adj := fun h => if h.1 = k then none else M.adj h

/-- Deletion of one triangle, lines 416-425. -/
def del (M : Mesh) (k : Nat) : Mesh := delElt ([0, 1, 2].foldl (unlink k) M) k

/-- The vertices of the bounding box. -/
def box (k : Nat) : Bool :=
  [0, 1, 2].any fun i : Fin 3 => let p := (E.M.tri k).v i
    p == E.np - 3 || p == E.np - 2 || p == E.np - 1 || p == E.np

/-- Triangles deleted first, lines 409-454. -/
def outer (nref : Nat) (ref : Nat → Nat) : List Nat :=
  (List.range' 1 E.nt).filter fun k => eok E.M k && (if nref ≠ 1 then ref k == 1 else box E k)

/-- Triangles deleted by the option `nsd`, lines 459-468. -/
def others (nsd : Nat) (M : Mesh) (ref : Nat → Nat) : List Nat :=
  if nsd = 0 then [] else (List.range' 1 E.nt).filter fun k => eok M k && !(ref k == nsd)

/-- `MMG2D_markSD`. -/
def markSD (nsd : Nat) : Option (Mesh × (Nat → Nat) × Nat) :=
  match mark E with
  | none => none
  | some (nref, ref) =>
    let M1 := (outer E nref ref).foldl del E.M
    some ((others E nsd M1 ref).foldl delElt M1, ref, nref)

end Mmg.Subd
