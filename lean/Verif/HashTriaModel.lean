/-
Model of the construction of the surface adjacency, `MMG5_mmgHashTria`
(`src/common/hash.c` 58-270), called by `MMGS_hashTria` (`src/mmgs/hash_s.c` 92) and
`MMG3D_hashTria` (`src/mmg3d/hash_3d.c` 845).

Simplifications:
* vertex numbers and the packed entries `3*k+i` are naturals, references are integers;
* the edge table is the one of `Verif.HashModel` (chains, growth answered by the
  environment: `g c` is the answer of the growth needed when the record of the side with
  code `c = 3*k+i` is stored);
* the fields `flag` and `base` of the triangles and the counters `dup`, `nmf` (used for a
  message only) are left out;
* `hash->max` is `hm + 1` where `hm` is the value of `(MMG5_int)(3.71*np)`, kept as a
  parameter because of the rounding of the product;
* the assertion `assert(ok)` and accesses outside the triangle array are the outcome `ub`.
-/
import Verif.HashModel

namespace Mmg.HTri
open Mmg.Hash

/-- What `MMG5_mmgHashTria` reads and writes: the edge table, the vertices and edge tags of
the triangles, the adjacency array (linear index) and the point tags. -/
structure St where
  h : Hash
  v : Nat → Nat → Nat
  tag : Nat → Nat → BitVec 16
  adj : Nat → Nat
  ptag : Nat → BitVec 16

/-- Inputs that do not change: number of triangles, references, `chkISO`, `info.isoref` and
the answers of the allocator. -/
structure Env where
  nt : Nat
  ref : Nat → Int
  iso : Bool
  isoref : Int
  g : Nat → Option Nat

/-- `MMG5_inxt2`, `MMG5_iprv2`, `src/common/mmgcommon_private.h`. -/
def inxt2 (i : Nat) : Nat := (i + 1) % 3
def iprv2 (i : Nat) : Nat := (i + 2) % 3

/-- `MG_NOM`, `MG_BDY + MG_PARBDYBDY`, `MG_PARBDYBDY`, `MG_PARBDY`
(`mmgcommon_private.h`). -/
def nom : BitVec 16 := 8#16
def bdyPar : BitVec 16 := 4112#16
def parBdyBdy : BitVec 16 := 4096#16
def parBdy : BitVec 16 := 8192#16

/-- `(tag & MG_PARBDY) && !(tag & MG_PARBDYBDY)`, hash.c 103, 215. -/
def onlyPar (t : BitVec 16) : Bool := (t &&& parBdy) != 0#16 && (t &&& parBdyBdy) == 0#16

/-- Linear index `3*(k-1)+1+i` of the adjacency array. -/
def aidx (k i : Nat) : Nat := 3 * (k - 1) + 1 + i

/-- Function update. -/
def set1 {α : Type} (f : Nat → α) (p : Nat) (x : α) : Nat → α := fun j => if j = p then x else f j
def set2 {α : Type} (f : Nat → Nat → α) (p q : Nat) (x : α) : Nat → Nat → α :=
  fun j l => if j = p ∧ l = q then x else f j l

/-- The table of hash.c 68-76: `siz = np`, `max = hm + 1`, `nxt = siz`, cells zeroed, the
free cells chained. -/
def hashInit (np hm : Nat) : Hash :=
  { siz := np
    max := hm + 1
    nxt := np
    item := fun k =>
      if np ≤ k ∧ k < hm + 1 then { Cell.zero with nxt := k + 1 } else Cell.zero }

/-- The loop `while ( ph->a ) {...}`, hash.c 126-196: cell with the key, or end of the
chain. Reaching an empty cell violates `assert(ok)`. -/
def walkTri (x : Nat × Nat × Nat) (h : Hash) : Nat → Nat → Outcome WalkRes
  | 0, _ => .ub
  | fuel + 1, p =>
    if h.max < p then .ub
    else
      let c := h.item p
      if c.a ≠ 0 then
        if cmatch false x c then .ok (.hit p)
        else if c.nxt = 0 then .ok (.tail p)
        else walkTri x h fuel c.nxt
      else .ub

/-- A new record at the end `t` of a chain, hash.c 165-192 (growth before the cell is
written). -/
def addCell (h : Hash) (t ia ib kk : Nat) (g : Option Nat) : Outcome Hash :=
  let h1 := h.put t { h.item t with nxt := h.nxt }
  let p := h.nxt
  let r : Outcome Hash :=
    if h.max ≤ h.nxt + 1 then
      match g with
      | none => .fail
      | some n => let h2 := h1.grow n; .ok (h2.relink (h2.item p).nxt)
    else .ok h1
  match r with
  | .ub => .ub
  | .fail => .fail
  | .ok h2 =>
    if h2.max < p then .ub
    else
      let c := h2.item p
      .ok ({ h2 with nxt := c.nxt }.put p ⟨ia, ib, c.s + 1, kk, 0⟩)

/-- `++ph->s`. -/
def incS (h : Hash) (q : Nat) : Hash := h.put q { h.item q with s := (h.item q).s + 1 }

/-- The record of the edge exists in cell `q`: hash.c 128-162. -/
def onHit (E : Env) (s : St) (k i q : Nat) : Outcome St :=
  let jel := (s.h.item q).k / 3
  let j := (s.h.item q).k % 3
  if jel = 0 ∨ E.nt < jel then .ub
  else if s.v jel j = s.v k i then .ok { s with v := set2 s.v k 0 0 }
  else if s.adj (aidx jel j) = 0 then
    .ok { s with adj := set1 (set1 s.adj (aidx k i) (3 * jel + j)) (aidx jel j) (3 * k + i)
                 h := incS s.h q }
  else if s.adj (aidx k i) ≠ 3 * jel + j then
    let lel := s.adj (aidx jel j) / 3
    let l := s.adj (aidx jel j) % 3
    if lel = 0 ∨ E.nt < lel then .ub
    else
      let adj' :=
        if E.iso ∧ (E.ref k = E.isoref ∨ E.ref k < 0) then
          set1 (set1 (set1 s.adj (aidx lel l) 0) (aidx k i) (3 * jel + j)) (aidx jel j) (3 * k + i)
        else s.adj
      let t1 := set2 s.tag k i (s.tag k i ||| nom)
      let t2 := set2 t1 jel j (t1 jel j ||| nom)
      let t3 := set2 t2 lel l (t2 lel l ||| nom)
      .ok { s with adj := adj', tag := t3, h := incS s.h q }
  else .ok s

/-- One turn of the inner loop of the first pass, hash.c 97-198. -/
def sideStep (E : Env) (s : St) (k i : Nat) : Outcome St :=
  if s.v k 0 = 0 then .ok s
  else if onlyPar (s.tag k i) then .ok s
  else
    let a := s.v k (inxt2 i)
    let b := s.v k (iprv2 i)
    let ia := Nat.min a b
    let ib := Nat.max a b
    if s.h.siz = 0 then .ub
    else
      let p := bucket s.h.siz ia ib
      if s.h.max < p then .ub
      else if (s.h.item p).a = 0 then
        .ok { s with h := s.h.put p ⟨ia, ib, (s.h.item p).s + 1, 3 * k + i, 0⟩ }
      else
        match walkTri (ia, ib, 0) s.h s.h.fuel p with
        | .ub => .ub
        | .fail => .fail
        | .ok (.hit q) => onHit E s k i q
        | .ok (.tail t) =>
          match addCell s.h t ia ib (3 * k + i) (E.g (3 * k + i)) with
          | .ub => .ub
          | .fail => .fail
          | .ok h' => .ok { s with h := h' }

/-- Marking of an edge record found for an only-parallel side, hash.c 228-242. -/
def markPar (E : Env) (s : St) (ia ib q : Nat) : Outcome St :=
  let jel := (s.h.item q).k / 3
  let j := (s.h.item q).k % 3
  if jel = 0 ∨ E.nt < jel then .ub
  else
    let t1 := set2 s.tag jel j (s.tag jel j ||| bdyPar)
    let p1 := set1 s.ptag ia (s.ptag ia ||| parBdyBdy)
    let p2 := set1 p1 ib (p1 ib ||| parBdyBdy)
    let lel := s.adj (aidx jel j) / 3
    let l := s.adj (aidx jel j) % 3
    if lel = 0 then .ok { s with tag := t1, ptag := p2 }
    else if E.nt < lel then .ub
    else
      let t2 := set2 t1 lel l (t1 lel l ||| bdyPar)
      let p3 := set1 p2 ia (p2 ia ||| parBdyBdy)
      let p4 := set1 p3 ib (p3 ib ||| parBdyBdy)
      .ok { s with tag := t2, ptag := p4 }

/-- One turn of the inner loop of the second pass, hash.c 211-250. -/
def parStep (E : Env) (s : St) (k i : Nat) : Outcome St :=
  if s.v k 0 = 0 then .ok s
  else if !onlyPar (s.tag k i) then .ok s
  else
    let a := s.v k (inxt2 i)
    let b := s.v k (iprv2 i)
    let ia := Nat.min a b
    let ib := Nat.max a b
    if s.h.siz = 0 then .ub
    else
      let p := bucket s.h.siz ia ib
      if s.h.max < p then .ub
      else if (s.h.item p).a = 0 then .ok s
      else
        match walkUpd (ia, ib, 0) s.h s.h.fuel p with
        | .ub => .ub
        | .fail => .fail
        | .ok none => .ok s
        | .ok (some q) => markPar E s ia ib q

/-- One turn of the inner loop of the third pass, hash.c 256-263 (no test that the triangle
is valid). -/
def nomStep (_ : Env) (s : St) (k i : Nat) : Outcome St :=
  if (s.tag k i &&& nom) ≠ 0#16 then
    let a := s.v k (inxt2 i)
    let b := s.v k (iprv2 i)
    let p1 := set1 s.ptag a (s.ptag a ||| nom)
    .ok { s with ptag := set1 p1 b (p1 b ||| nom) }
  else .ok s

/-- The sides of triangles `1..n` in the order of the double loop. -/
def sides : Nat → List (Nat × Nat)
  | 0 => []
  | n + 1 => sides n ++ [(n + 1, 0), (n + 1, 1), (n + 1, 2)]

/-- A pass over a list of sides. -/
def run (f : St → Nat → Nat → Outcome St) : List (Nat × Nat) → St → Outcome St
  | [], s => .ok s
  | x :: l, s =>
    match f s x.1 x.2 with
    | .ub => .ub
    | .fail => .fail
    | .ok s' => run f l s'

/-- The three passes. -/
def bindO {α β : Type} (r : Outcome α) (f : α → Outcome β) : Outcome β :=
  match r with
  | .ub => .ub
  | .fail => .fail
  | .ok x => f x

/-- `MMG5_mmgHashTria`, hash.c 58-270, with a zeroed adjacency array
(`MMG5_SAFE_CALLOC` in both callers). -/
def hashTria (E : Env) (np hm : Nat) (v : Nat → Nat → Nat) (tag : Nat → Nat → BitVec 16)
    (ptag : Nat → BitVec 16) : Outcome St :=
  bindO (run (sideStep E) (sides E.nt) ⟨hashInit np hm, v, tag, fun _ => 0, ptag⟩) fun s =>
  bindO (run (parStep E) (sides E.nt) s) fun s =>
  run (nomStep E) (sides E.nt) s

end Mmg.HTri
