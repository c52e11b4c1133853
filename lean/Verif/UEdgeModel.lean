/-
  Model of the transfer of the edges given by the user to the elements of a 2D mesh: `MMG2D_assignEdge`
  (mmg2d/hash_2d.c 333-432).  The table is the one of `HashModel` (C01).

  Simplifications.  Numbers of vertices are naturals, references integers, tags 16 bits; the first allocation of the table
  succeeds; the answers of the allocator when the table grows are given by the environment (`g k` for edge `k`).
-/
import Verif.HashModel
import Verif.Edge2Model

namespace Mmg.UEdge
open Mmg.Hash (Hash Outcome hashNew hashEdge hashGet)
open Mmg.Orient (mgREQ has set2)

/-- `MMG5_Edge`: end points, reference, tag. -/
structure Edge where
  a : Nat
  b : Nat
  ref : Int
  tag : BitVec 16

/-- Elements: numbers of triangles and quadrilaterals and their vertices. -/
structure Env where
  nt : Nat
  v : Nat → Fin 3 → Nat
  nq : Nat
  w : Nat → Fin 4 → Nat

/-- References and tags of the sides of triangles and quadrilaterals; the edges; `info.metRidTyp`. -/
structure St where
  tag : Nat → Fin 3 → BitVec 16
  edg : Nat → Fin 3 → Int
  qtag : Nat → Fin 4 → BitVec 16
  qedg : Nat → Fin 4 → Int
  edges : List Edge
  called : Bool

/-- The required sides of a triangle, unless all are required (lines 361-373). -/
def clean (t : Fin 3 → BitVec 16) : Fin 3 → BitVec 16 :=
  if has (t 0) mgREQ && has (t 1) mgREQ && has (t 2) mgREQ then t else fun i => t i &&& ~~~mgREQ

/-- Lines 357-376. -/
def cleanAll (E : Env) (tag : Nat → Fin 3 → BitVec 16) : Nat → Fin 3 → BitVec 16 :=
  (List.range' 1 E.nt).foldl (fun t k => if E.v k 0 = 0 then t else fun j => if j = k then clean (t k) else t j) tag

/-- The edges are put in the table, from number `k` on (lines 387-395). -/
def hashAll (g : Nat → Option Nat) : List Edge → Nat → Hash → Outcome Hash
  | [], _, h => .ok h
  | e :: r, k, h =>
    match hashEdge h e.a e.b k (g k) with
    | .ok (h', _) => hashAll g r (k + 1) h'
    | .fail => .fail
    | .ub => .ub

/-- Side of a triangle (lines 403-412): the edge found for the vertices `i` and `i+1` is the one of side `i+2`. -/
def triSide (E : Env) (h : Hash) (es : List Edge) (s : St) (x : Nat × Fin 3) : Outcome St :=
  match hashGet h (E.v x.1 x.2) (E.v x.1 (x.2 + 1)) with
  | .ok ia =>
    if ia = 0 then .ok s
    else
      match es[ia - 1]? with
      | none => .ub
      | some e => .ok { s with
          edg := set2 s.edg x.1 (x.2 + 1 + 1) e.ref
          tag := set2 s.tag x.1 (x.2 + 1 + 1) (s.tag x.1 (x.2 + 1 + 1) ||| e.tag) }
  | .fail => .fail
  | .ub => .ub

/-- `MMG2D_idir_q` (libmmg2d_private.h 73). -/
def idirq (i : Fin 4) : Fin 4 × Fin 4 := if i = 0 then (0, 1) else if i = 1 then (0, 3) else if i = 2 then (1, 2) else (2, 3)

/-- Side of a quadrilateral (lines 420-428). -/
def quadSide (E : Env) (h : Hash) (es : List Edge) (s : St) (x : Nat × Fin 4) : Outcome St :=
  match hashGet h (E.w x.1 (idirq x.2).1) (E.w x.1 (idirq x.2).2) with
  | .ok ia =>
    if ia = 0 then .ok s
    else
      match es[ia - 1]? with
      | none => .ub
      | some e => .ok { s with
          qedg := fun k i => if k = x.1 ∧ i = x.2 then e.ref else s.qedg k i
          qtag := fun k i => if k = x.1 ∧ i = x.2 then s.qtag k i ||| e.tag else s.qtag k i }
  | .fail => .fail
  | .ub => .ub

/-- A loop. -/
def loop {α : Type} (f : St → α → Outcome St) : List α → St → Outcome St
  | [], s => .ok s
  | x :: r, s =>
    match f s x with
    | .ok s' => loop f r s'
    | .fail => .fail
    | .ub => .ub

/-- The sides of the elements, in the order of the loops (lines 398-402, 416-419). -/
def triSides (E : Env) : List (Nat × Fin 3) :=
  (List.range' 1 E.nt).flatMap fun k => if E.v k 0 = 0 then [] else [(k, 0), (k, 1), (k, 2)]
def quadSides (E : Env) : List (Nat × Fin 4) :=
  (List.range' 1 E.nq).flatMap fun k => if E.w k 0 = 0 then [] else [(k, 0), (k, 1), (k, 2), (k, 3)]

/-- `MMG2D_assignEdge`. -/
def assignEdge (E : Env) (g : Nat → Option Nat) (s : St) : Outcome St :=
  let s := if s.called then s else { s with tag := cleanAll E s.tag, called := true }
  if s.edges.length = 0 then .ok s
  else
    match hashAll g s.edges 1 (hashNew s.edges.length (3 * s.edges.length)) with
    | .ub => .ub
    | .fail => .fail
    | .ok h =>
      match loop (triSide E h s.edges) (triSides E) s with
      | .ub => .ub
      | .fail => .fail
      | .ok s1 =>
        match loop (quadSide E h s.edges) (quadSides E) s1 with
        | .ub => .ub
        | .fail => .fail
        | .ok s2 => .ok { s2 with edges := [] }

end Mmg.UEdge
