/-
  Model of the analysis of the edges of a 2D mesh: `MMG2D_setadj` (mmg2d/analys_2d.c 50-267), the traversal that gives
  their tags to the sides of the triangles and to the vertices and numbers the sub-domains.

  Simplifications.  The adjacency array is indexed by triangle and side (`adja[3*(k-1)+1+i]`); numbers of vertices and
  triangles are naturals, references integers, tags 16 bits; the allocation of the stack succeeds; the counters `nr` and
  `nref`, used for messages only, are left out.  For the quadrilaterals (second step) the sides that touch a triangle are
  given as a list in the order of the loop.  `none` stands for a traversal that has not ended within the number of steps
  given to the model (it is proved that this does not happen).
-/
import Verif.OrientModel

namespace Mmg.Edge2
open Mmg.Orient (mgREF mgGEO mgREQ mgBDY mgNOSURF mgPARBDY has special set1 set2 m3 orP)

/-- What does not change: number of triangles, their vertices, neighbours and references, the options `info.opnbdy` and
`info.nosurf`. -/
structure Env where
  nt : Nat
  v : Nat → Fin 3 → Nat
  adj : Nat → Fin 3 → Nat
  ref : Nat → Int
  opnbdy : Bool
  nosurf : Bool

/-- What changes: tags of the sides, field `cc` of the triangles, tags of the vertices. -/
structure St where
  tag : Nat → Fin 3 → BitVec 16
  cc : Nat → Nat
  ptag : Nat → BitVec 16

/-- Removal of the marks of an edge (lines 104-106, 108-110). -/
def wipe (t : BitVec 16) : BitVec 16 := t &&& ~~~mgREF &&& ~~~mgBDY &&& ~~~mgGEO

/-- The two sides of an edge get the same tag (lines 101-120). -/
def share (E : Env) (tag : Nat → Fin 3 → BitVec 16) (k : Nat) (i : Fin 3) (kk : Nat) (ii : Fin 3) :
    Nat → Fin 3 → BitVec 16 :=
  let t1 := if !E.opnbdy && decide (E.ref k = E.ref kk) then
      let t := set2 tag k i (wipe (tag k i))
      set2 t kk ii (wipe (t kk ii)) else tag
  let t2 := set2 t1 kk ii (t1 kk ii ||| t1 k i)
  set2 t2 k i (t2 k i ||| t2 kk ii)

/-- `tag |= t`, with `MG_REQ+MG_NOSURF` if it is not required and `f` holds (lines 133-137, 139-145, 175-193). -/
def freeze (f : Bool) (t x : BitVec 16) : BitVec 16 :=
  if !has x mgREQ && f then x ||| t ||| mgREQ ||| mgNOSURF else x ||| t

/-- `freeze` of the tag of a vertex. -/
def freezeP (f : Bool) (t : BitVec 16) (pt : Nat → BitVec 16) (p : Nat) : Nat → BitVec 16 :=
  set1 pt p (freeze f t (pt p))

/-- `MG_EDG(tag) || tag & MG_REQ`: the tag is given to the two vertices (lines 123-126). -/
def give (pt : Nat → BitVec 16) (p q : Nat) (t : BitVec 16) : Nat → BitVec 16 :=
  if special t then orP (orP pt p t) q t else pt

/-- Side `i` of triangle `k`, `ncc` the number of the current sub-domain (lines 90-203).  In the mode `nosurf` the lines
175-193 are four times `freeze`; without it (lines 168-172) nothing is frozen. -/
def side (E : Env) (ncc k : Nat) (i : Fin 3) (s : St) (pile : List Nat) : St × List Nat :=
  let ip1 := E.v k (i + 1)
  let ip2 := E.v k (i + 2)
  let kk := E.adj k i / 3
  let ii := m3 (E.adj k i)
  let tag := if E.adj k i ≠ 0 then share E s.tag k i kk ii else s.tag
  let pt := give s.ptag ip1 ip2 (tag k i)
  if E.adj k i = 0 then
    let t := mgGEO ||| mgBDY
    let tag := set2 tag k i (freeze (E.nosurf || has (tag k i) mgPARBDY) t (tag k i))
    let f := E.nosurf || has (tag k i) mgPARBDY
    ({ s with tag := tag, ptag := freezeP f t (freezeP f t pt ip1) ip2 }, pile)
  else if (E.opnbdy && (tag k i != 0#16 || tag kk ii != 0#16)) || decide ((E.ref kk).natAbs ≠ (E.ref k).natAbs) then
    let t := mgREF ||| mgBDY
    let tag := set2 tag k i (freeze E.nosurf t (tag k i))
    let tag := set2 tag kk ii (freeze E.nosurf t (tag kk ii))
    ({ s with tag := tag, ptag := freezeP E.nosurf t (freezeP E.nosurf t pt ip1) ip2 }, pile)
  else if s.cc kk > 0 then ({ s with tag := tag, ptag := pt }, pile)
  else ({ tag := tag, cc := set1 s.cc kk ncc, ptag := pt }, kk :: pile)

/-- The sides of the list, one after the other. -/
def sides (E : Env) (ncc k : Nat) : List (Fin 3) → St → List Nat → St × List Nat
  | [], s, pile => (s, pile)
  | i :: r, s, pile => sides E ncc k r (side E ncc k i s pile).1 (side E ncc k i s pile).2

/-- First triangle without number, if any (lines 207-217). -/
def nextTria (E : Env) (s : St) : Option Nat :=
  (List.range' 1 E.nt).find? fun k => E.v k 0 != 0 && s.cc k == 0

/-- The traversal (lines 80-218). -/
def walk (E : Env) : Nat → St → List Nat → Nat → Option (St × Nat)
  | 0, _, _, _ => none
  | fuel + 1, s, k :: pile, ncc =>
    if E.v k 0 = 0 then walk E fuel s pile ncc
    else walk E fuel (sides E ncc k [0, 1, 2] s pile).1 (sides E ncc k [0, 1, 2] s pile).2 ncc
  | fuel + 1, s, [], ncc =>
    match nextTria E s with
    | some k => walk E fuel { s with cc := set1 s.cc k (ncc + 1) } [k] (ncc + 1)
    | none => some (s, ncc)

/-- First step: initialisation and traversal (lines 57-219); `init` is the argument `init_cc`. -/
def step1 (E : Env) (init : Bool) (s : St) : Option (St × Nat) :=
  let cc := if init then fun k => if 1 ≤ k ∧ k ≤ E.nt then 0 else s.cc k else s.cc
  walk E (2 * E.nt + 3) { s with cc := set1 cc 1 1 } [1] 1

/-- A side shared by a quadrilateral and a triangle: the side of the triangle, its vertices, the side of the
quadrilateral. -/
structure QSide where
  k : Nat
  i : Fin 3
  p : Nat
  q : Nat
  quad : Nat
  j : Fin 4

/-- Tags of the sides of the quadrilaterals. -/
abbrev QTag := Nat → Fin 4 → BitVec 16

/-- `x |= MG_REQ + MG_NOSURF + MG_BDY` unless `x` is required (lines 240-257). -/
def lock (x : BitVec 16) : BitVec 16 := if has x mgREQ then x else x ||| (mgREQ ||| mgNOSURF ||| mgBDY)

/-- One side of the second step (lines 235-258). -/
def qside (a : St × QTag) (e : QSide) : St × QTag :=
  let pt := set1 a.1.ptag e.p (lock (a.1.ptag e.p))
  ({ a.1 with tag := set2 a.1.tag e.k e.i (lock (a.1.tag e.k e.i)), ptag := set1 pt e.q (lock (pt e.q)) },
   fun k j => if k = e.quad ∧ j = e.j then lock (a.2 k j) else a.2 k j)

/-- `MMG2D_setadj`: tags and number of sub-domains. -/
def setadj (E : Env) (init : Bool) (Q : List QSide) (s : St) (qt : QTag) : Option (St × QTag × Nat) :=
  if E.nt = 0 then some (s, qt, 0)
  else
    match step1 E init s with
    | none => none
    | some (s1, n) => some ((Q.foldl qside (s1, qt)).1, (Q.foldl qside (s1, qt)).2, n)

end Mmg.Edge2
