/-
  Model of the traversal of the surface that fixes the orientation of the triangles, numbers the connected components
  and transfers the special edges to the vertices, `MMG5_setadj` (mmg3d/analys_3d.c 108-312).

  Simplifications.  The adjacency array is indexed by triangle and side (`adjt[3*(k-1)+1+i]`); numbers of vertices and
  triangles are naturals, references and the field `base` integers; the allocation of the stack succeeds; the
  numbering `point[].tmp` of the vertices and the counters used for messages (`nvf`, `ned`, `nf` and the ones of the
  final loop) are left out.  `Outcome.fail` is the error "Moebius strip?"; `Outcome.ub` stands for a traversal that
  has not ended within the number of steps given to the model (it is proved that this does not happen).
-/
import Verif.HashTriaModel

namespace Mmg.Orient
open Mmg.Hash (Outcome)

/-- Triangles: vertices, sides with neighbour, tag and edge reference, `flag`, `base`; tags of the vertices. -/
structure St where
  v : Nat → Fin 3 → Nat
  adj : Nat → Fin 3 → Nat
  tag : Nat → Fin 3 → BitVec 16
  edg : Nat → Fin 3 → Int
  flag : Nat → Nat
  base : Nat → Int
  ptag : Nat → BitVec 16

/-- What does not change: number of triangles, their references, mode `info.opnbdy`. -/
structure Env where
  nt : Nat
  ref : Nat → Int
  opnbdy : Bool

/-- Tags, `src/common/mmgcommon_private.h` 145-155. -/
def mgREF : BitVec 16 := 1#16
def mgGEO : BitVec 16 := 2#16
def mgREQ : BitVec 16 := 4#16
def mgNOM : BitVec 16 := 8#16
def mgBDY : BitVec 16 := 16#16
def mgNOSURF : BitVec 16 := 64#16
def mgOPNBDY : BitVec 16 := 128#16
def mgPARBDYBDY : BitVec 16 := 4096#16
def mgPARBDY : BitVec 16 := 8192#16

/-- `t & b`. -/
def has (t b : BitVec 16) : Bool := (t &&& b) != 0#16

/-- Sides left out of the traversal (lines 133-134). -/
def skipped (t : BitVec 16) : Bool := (has t mgPARBDY && !has t mgPARBDYBDY) || has t mgBDY

/-- `MG_EDG(tag) || tag & MG_REQ` (mmgcommon_private.h 173, line 143). -/
def special (t : BitVec 16) : Bool := has t mgGEO || has t mgREF || has t mgREQ

/-- Function update. -/
def set1 {α : Type} (f : Nat → α) (k : Nat) (x : α) : Nat → α := fun j => if j = k then x else f j
def set2 {α : Type} (f : Nat → Fin 3 → α) (k : Nat) (i : Fin 3) (x : α) : Nat → Fin 3 → α :=
  fun j l => if j = k ∧ l = i then x else f j l

/-- `a % 3`. -/
def m3 (a : Nat) : Fin 3 := ⟨a % 3, Nat.mod_lt _ (by decide)⟩

/-- `mesh->point[p].tag |= t`. -/
def orP (f : Nat → BitVec 16) (p : Nat) (t : BitVec 16) : Nat → BitVec 16 := set1 f p (f p ||| t)

/-- Tag of a special edge given to a vertex; `MG_NOSURF` is removed if the vertex is really required (lines 143-156). -/
def giveP (f : Nat → BitVec 16) (p : Nat) (t : BitVec 16) : Nat → BitVec 16 :=
  set1 f p (if has (f p) mgREQ && !has (f p) mgNOSURF then (f p ||| t) &&& ~~~mgNOSURF else f p ||| t)

/-- Exchange of two entries. -/
def swp {α : Type} (f : Nat → Fin 3 → α) (k : Nat) (a b : Fin 3) : Nat → Fin 3 → α :=
  set2 (set2 f k a (f k b)) k b (f k a)

/-- The triangle on the other side is told the new position of the common edge (lines 235-245). -/
def tell (adj : Nat → Fin 3 → Nat) (kk : Nat) (a : Fin 3) : Nat → Fin 3 → Nat :=
  if adj kk a ≠ 0 then set2 adj (adj kk a / 3) (m3 (adj kk a)) (3 * kk + a.val) else adj

/-- Triangle `kk` is turned over: its vertices `a` and `b` are exchanged (lines 214-246). -/
def flip (s : St) (kk : Nat) (a b : Fin 3) (ip1 ip2 : Nat) : St :=
  { s with
    base := set1 s.base kk (- s.base kk)
    v := set2 (set2 s.v kk a ip2) kk b ip1
    adj := tell (tell (swp s.adj kk a b) kk a) kk b
    tag := swp s.tag kk a b
    edg := swp s.edg kk a b }

/-- Side `i` of triangle `k`, `ncc` the number of the current component (lines 132-254). -/
def side (E : Env) (ncc k : Nat) (i : Fin 3) (s : St) (pile : List Nat) : Outcome (St × List Nat) :=
  if skipped (s.tag k i) then .ok (s, pile)
  else
    let ip1 := s.v k (i + 1)
    let ip2 := s.v k (i + 2)
    let s := if special (s.tag k i) then
        { s with ptag := giveP (giveP s.ptag ip1 (s.tag k i)) ip2 (s.tag k i) } else s
    if s.adj k i = 0 then
      let t := if E.opnbdy then mgOPNBDY ||| mgNOM else mgNOM
      .ok ({ s with tag := set2 s.tag k i (s.tag k i ||| t), ptag := orP (orP s.ptag ip1 t) ip2 t }, pile)
    else
      let kk := s.adj k i / 3
      let ii := m3 (s.adj k i)
      if has (s.tag k i) mgNOM then
        .ok ({ s with ptag := orP (orP s.ptag ip1 mgNOM) ip2 mgNOM }, pile)
      else
        let s := if (E.ref kk).natAbs ≠ (E.ref k).natAbs then
            let tg := set2 s.tag k i (s.tag k i ||| mgREF)
            { s with
              tag := set2 tg kk ii (tg kk ii ||| mgREF)
              ptag := orP (orP s.ptag ip1 mgREF) ip2 mgREF } else s
        let pile := if s.flag kk = 0 then kk :: pile else pile
        let s := if s.flag kk = 0 then { s with flag := set1 s.flag kk ncc } else s
        if s.v kk (ii + 1) = ip1 then
          if s.base kk < 0 then .fail
          else .ok (flip s kk (ii + 1) (ii + 2) ip1 ip2, pile)
        else .ok ({ s with base := set1 s.base kk (- s.base kk) }, pile)

/-- The sides of the list, one after the other. -/
def sides (E : Env) (ncc k : Nat) : List (Fin 3) → St → List Nat → Outcome (St × List Nat)
  | [], s, pile => .ok (s, pile)
  | i :: r, s, pile =>
    match side E ncc k i s pile with
    | .ok (s', pile') => sides E ncc k r s' pile'
    | .fail => .fail
    | .ub => .ub

/-- First triangle of the mesh without number, if any (lines 258-268). -/
def nextTria (E : Env) (s : St) : Option Nat :=
  (List.range' 1 E.nt).find? fun k => s.v k 0 != 0 && s.flag k == 0

/-- The traversal: the triangle on top of the stack is treated, or a new component is begun when the stack is empty
(lines 119-269). -/
def walk (E : Env) : Nat → St → List Nat → Nat → Outcome (St × Nat)
  | 0, _, _, _ => .ub
  | fuel + 1, s, k :: pile, ncc =>
    let s := { s with flag := set1 s.flag k ncc }
    if s.v k 0 = 0 then walk E fuel s pile ncc
    else
      match sides E ncc k [0, 1, 2] s pile with
      | .ok (s', pile') => walk E fuel s' pile' ncc
      | .fail => .fail
      | .ub => .ub
  | fuel + 1, s, [], ncc =>
    match nextTria E s with
    | some k => walk E fuel { s with flag := set1 s.flag k (ncc + 1) } [k] (ncc + 1)
    | none => .ok (s, ncc)

/-- `MMG5_setadj`: the mesh and the number of components. -/
def setadj (E : Env) (s : St) : Outcome (St × Nat) := walk E (2 * E.nt + 2) s [1] 1

end Mmg.Orient
