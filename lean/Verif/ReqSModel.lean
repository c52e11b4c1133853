/-
  C97. The loops of the surface remesher that decide which edges and vertices are touched (mmgs/mmgs1.c): pattern splitting (`anaelt`),
  collapse (`colelt`, `adpcol`), swap (`swpmsh`), edge splitting (`adpspl` with `chkspl`), relocation (`movtri`); and the two parts of
  the analysis that mark required edges on all sides and at their ends: `MMGS_bdryUpdate` (mmgs/hash_s.c 169-223) and the first lines of
  the loop of `MMGS_setadj` (mmgs/analys_s.c 84-87).

  As in Req2Model the loops are given body by body, and lengths, tests of shape and new positions are parameters.  The operators are those
  of SurfModel, the states those of Req2Model.  New triangles get memory (`C94_split_failure_observed` tells what happens otherwise).
-/
import Verif.SurfModel
import Verif.Req2Model

namespace Mmg.ReqS

open Mmg.Tri2 Mmg.Req2

/-- `MS_SIN(tag)`, mmgs/libmmgs_private.h 49. -/
def ms (t : Nat) : Bool := crn t || req t || nom t

variable {K : Type}

/-- Tests of `colelt` 1048-1057 and `adpcol` 1226-1240 on the tags: `true` if the edge is left. -/
def colSkip (S : St K) (k : Nat) (i : Fin 3) : Bool :=
  let g := (S.M.tri k).tag i
  let t1 := S.tag ((S.M.tri k).v (i + 1))
  let t2 := S.tag ((S.M.tri k).v (i + 2))
  ms g || nom t1 || nom t2 || ms t1 || decide (t2 < t1) || decide (g < t1)

/-- Collapse of edge `i` of triangle `k`, mmgs1.c 1047-1116, 1225-1265: `short` the test of length, `geo` the tests of shape of `chkcol`;
`lmax`: bound of the list of the ball, `n`: see `Surf.boulechk`.  The vertex removed by `MMGS_delPt` gets the tag `MG_NUL`; the other
keeps its tag. -/
def colBody (S : St K) (k : Nat) (i : Fin 3) (short : Bool) (geo : List HE → Bool) (lmax n : Nat) : St K :=
  if colSkip S k i then S
  else if !short then S
  else
    match Surf.collapse S.M (fun x => nom (S.tag x)) geo lmax n (k, i + 1) with
    | some (some M) => { S with M := M, tag := fun x => if x = (S.M.tri k).v (i + 1) then nul else S.tag x }
    | _ => S

/-- Swap of edge `i` of triangle `k`, mmgs1.c 450-456; `chk`: answer of `chkswp`. -/
def swpBody (S : St K) (k : Nat) (i : Fin 3) (chk : Bool) : St K :=
  if ms ((S.M.tri k).tag i) || edg ((S.M.tri k).tag i) then S
  else if !chk then S
  else
    match Surf.swapar (fun t => edg t || ms t) S.M k i with
    | some (true, M) => { S with M := M }
    | _ => S

/-- Split of edge `i` of triangle `k`, mmgs1.c 1161-1197 with `chkspl` (968-1010): the edge, the ends and the other sides of both triangles
are tested; the new point `ip` is at `o`; `MMGS_newPt` clears `MG_NUL`. -/
def splBody (S : St K) (k : Nat) (i : Fin 3) (ip iel kel : Nat) (o : K) : St K :=
  let t := S.M.tri k
  if ms (t.tag i) then S
  else if nom (S.tag (t.v (i + 1))) || nom (S.tag (t.v (i + 2))) then S
  else if ms (t.tag (i + 1)) || ms (t.tag (i + 2)) then S
  else if (match S.M.adj (k, i) with
      | none => false
      | some (a, j) => ms ((S.M.tri a).tag (j + 1)) || ms ((S.M.tri a).tag (j + 2))) then S
  else
    let r := Surf.split1b S.M ⟨fun _ => 0, fun x => if x = ip then (if edg (t.tag i) then t.tag i else S.tag ip &&& 32767) else S.tag x⟩
      k i ip (some iel) (some kel)
    { M := r.2.1
      pos := fun x => if x = ip then o else S.pos x
      tag := r.2.2.tag }

/-! ### Pattern splitting -/

/-- One side in step 1 of `anaelt`, mmgs1.c 594-756: required triangles and required sides are left (the second test is made in
`chkedg`, line 252, or in line 618), a side that has its point gets no other. -/
def want (M : Mesh) (a : Tab × (Nat → K) × (Nat → Nat)) (w : Want K) : Tab × (Nat → K) × (Nat → Nat) :=
  let t := M.tri w.k
  if ms (t.tag 0) && ms (t.tag 1) && ms (t.tag 2) then a
  else if req (t.tag w.i) then a
  else if 0 < a.1.get (t.v (w.i + 1)) (t.v (w.i + 2)) then a
  else (a.1.put (t.v (w.i + 1)) (t.v (w.i + 2)) w.ip, fun x => if x = w.ip then w.o else a.2.1 x,
    fun x => if x = w.ip then (if edg (t.tag w.i) then t.tag w.i else a.2.2 x &&& 32767) else a.2.2 x)

/-- Step 1. -/
def wants (S : St K) (ws : List (Want K)) : Tab × (Nat → K) × (Nat → Nat) :=
  ws.foldl (want S.M) (fun _ _ => 0, S.pos, S.tag)

/-- Points removed again, with their entry: mmgs1.c 743-746 and in step 3 860-872. -/
def drop (rm : Nat → Bool) (a : Tab × (Nat → K) × (Nat → Nat)) : Tab × (Nat → K) × (Nat → Nat) :=
  (fun x y => if rm (a.1 x y) then 0 else a.1 x y, a.2.1, fun x => if rm x then nul else a.2.2 x)

/-- Steps 2 to 4, 761-793, 817-830, 893-913: a side is cut if its edge has a point.  (There is no test of tags here.) -/
def marks (M : Mesh) (h : Tab) (k : Nat) (i : Fin 3) : Nat := h.get ((M.tri k).v (i + 1)) ((M.tri k).v (i + 2))

/-- The triangles after step 4 (914-927): the first piece replaces the triangle, piece number `j` of triangle `k` is in the slot `x`
with `own x = some (k, j)`. -/
def cutAll (P : Tri → (Fin 3 → Nat) → List Tri) (M : Mesh) (vx : Nat → Fin 3 → Nat) (own : Nat → Option (Nat × Nat)) (x : Nat) : Tri :=
  match own x with
  | some (k, j) => (P (M.tri k) (vx k)).getD j (M.tri x)
  | none => if (M.tri x).v 0 = 0 then M.tri x else (P (M.tri x) (vx x)).getD 0 (M.tri x)

/-- `anaelt`; `adj`: the neighbours computed afterwards by `MMGS_hashTria`. -/
def anaBody (S : St K) (ws : List (Want K)) (rm : Nat → Bool) (own : Nat → Option (Nat × Nat)) (adj : HE → Option HE) : St K :=
  let a := drop rm (wants S ws)
  { M := ⟨cutAll Surf.splitAny S.M (marks S.M a.1) own, adj⟩
    pos := a.2.1
    tag := a.2.2 }

/-! ### The analysis -/

/-- `MMG5_hashEdgeTag`, common/hash.c 441-488. -/
def orPut (h : Tab) (a b t : Nat) : Tab := fun x y => if x = min a b ∧ y = max a b then h x y ||| t else h x y

/-- The sides in the order of the loops. -/
def sides (n : Nat) : List (Nat × Fin 3) := (List.range' 1 n).flatMap fun k => [(k, 0), (k, 1), (k, 2)]

/-- First loop of `MMGS_bdryUpdate`, 184-199. -/
def collect (M : Mesh) (n : Nat) : Tab :=
  (sides n).foldl (fun h s => if (M.tri s.1).v 0 = 0 then h
    else if (M.tri s.1).tag s.2 = 0 then h
    else orPut h ((M.tri s.1).v (s.2 + 1)) ((M.tri s.1).v (s.2 + 2)) ((M.tri s.1).tag s.2)) (fun _ _ => 0)

/-- Second loop, 202-217. -/
def spread (S : St K) (n : Nat) : St K :=
  let h := collect S.M n
  { S with M := ⟨fun k => if (S.M.tri k).v 0 = 0 ∨ k < 1 ∨ n < k then S.M.tri k
      else { S.M.tri k with tag := fun i => (S.M.tri k).tag i ||| h.get ((S.M.tri k).v (i + 1)) ((S.M.tri k).v (i + 2)) }, S.M.adj⟩ }

/-- One side in `MMGS_setadj`, analys_s.c 84-87. -/
def markEnd (M : Mesh) (t : Nat → Nat) (s : Nat × Fin 3) : Nat → Nat :=
  let g := (M.tri s.1).tag s.2
  if (M.tri s.1).v 0 = 0 then t
  else if edg g || req g then
    fun x => if x = (M.tri s.1).v (s.2 + 1) ∨ x = (M.tri s.1).v (s.2 + 2) then t x ||| g else t x
  else t

/-- These lines for all triangles, in any order `L` of the sides. -/
def markEnds (S : St K) (L : List (Nat × Fin 3)) : St K := { S with tag := L.foldl (markEnd S.M) S.tag }

end Mmg.ReqS
