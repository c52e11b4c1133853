/-
  C95. The loops of the 2D remesher that decide which edges and vertices are touched (mmg2d/mmg2d1.c): pattern splitting
  (`MMG2D_anaelt`), collapse (`MMG2D_colelt`, `MMG2D_adpcol`), swap (`MMG2D_swpmsh`), edge splitting (`MMG2D_adpspl`), relocation
  (`MMG2D_movtri`).  The loops are given body by body: what is done for edge `i` (or vertex `i`) of triangle `k`; the order of the
  bodies is free.

  Meshes and operators are those of Tri2Model and Tri2ColModel.  The points have a position (any type) and a tag.  Lengths, shape
  tests and new positions are parameters.  Triangles of negative reference, which the loops leave out, are not treated apart: each
  body may be left out.
-/
import Verif.Tri2ColModel

namespace Mmg.Req2

open Mmg.Tri2

/-- Bits of the tags, common/mmgcommon_private.h 145-157. -/
def req (t : Nat) : Bool := t.testBit 2
def geo (t : Nat) : Bool := t.testBit 1
def ref (t : Nat) : Bool := t.testBit 0
def nom (t : Nat) : Bool := t.testBit 3
def crn (t : Nat) : Bool := t.testBit 5

/-- `MG_SIN(tag)`, mmgcommon_private.h 169. -/
def sin (t : Nat) : Bool := crn t || req t

/-- `MG_EDG(tag)`, mmgcommon_private.h 173. -/
def edg (t : Nat) : Bool := geo t || ref t

/-- `MG_NUL`. -/
def nul : Nat := 32768

/-- Mesh and points. -/
structure St (K : Type) where
  M : Mesh
  pos : Nat → K
  tag : Nat → Nat

variable {K : Type}

/-- Tests of `MMG2D_colelt` 452-463 and `MMG2D_adpcol` 708-722 on the tags before an edge is collapsed: `true` if the edge is left. -/
def colSkip (S : St K) (k : Nat) (i : Fin 3) : Bool :=
  let g := (S.M.tri k).tag i
  let t1 := S.tag ((S.M.tri k).v (i + 1))
  let t2 := S.tag ((S.M.tri k).v (i + 2))
  sin g || sin t1 || nom t1 ||
    (if geo t1 then !geo t2 || !geo g
     else if ref t1 then !(geo t2 || ref t2) || !ref g
     else false)

/-- Points after a collapse of `p` on `q`: colver_2d.c 345-349, 408-412, 452-456 (`MMG2D_delPt` sets the tag to `MG_NUL`). -/
def colPts (S : St K) (p q : Nat) : Nat → Nat :=
  fun x => if x = p then nul else if x = q then S.tag q ||| S.tag p else S.tag x

/-- Collapse of edge `i` of triangle `k`, mmg2d1.c 449-503 and 702-745; `short`: the test of length; `ball`: the list of `MMG2D_chkcol`
if its answer is not 0. -/
def colBody (S : St K) (k : Nat) (i : Fin 3) (short : Bool) (ball : Option (List HE)) : St K :=
  if colSkip S k i then S
  else if !short then S
  else
    let opn := (S.M.adj (k, i)).isNone
    let pts := colPts S ((S.M.tri k).v (i + 1)) ((S.M.tri k).v (i + 2))
    match ball with
    | none => S
    | some l =>
      if 3 < l.length ∨ (l.length = 3 ∧ opn = true) then
        match colver S.M l with
        | none => S
        | some M => { S with M := M, tag := pts }
      else
        match l with
        | [a, b, c] => { S with M := colver3 S.M a b c, tag := pts }
        | [a, b] => { S with M := Tri2.colver2 S.M a b, tag := pts }
        | _ => S

/-- Swap of edge `i` of triangle `k`, mmg2d1.c 531-537; `chk`: answer of `MMG2D_chkswp`. -/
def swpBody (S : St K) (k : Nat) (i : Fin 3) (chk : Bool) : St K :=
  if sin ((S.M.tri k).tag i) || edg ((S.M.tri k).tag i) then S
  else if !chk then S
  else
    match swapar (fun t => edg t || sin t) S.M k i with
    | some (some M) => { S with M := M }
    | _ => S

/-- Split of edge `i` of triangle `k`, mmg2d1.c 655-684 with `MMG2D_chkspl` (split_2d.c 51-240): the new point `ip` is at `o` and gets
the tag of the edge. -/
def splBody (S : St K) (k : Nat) (i : Fin 3) (ip iel kel : Nat) (o : K) : St K :=
  if sin ((S.M.tri k).tag i) then S
  else
    { M := split1b S.M k i ip iel kel
      pos := fun x => if x = ip then o else S.pos x
      tag := fun x => if x = ip then (S.M.tri k).tag i else S.tag x }

/-- Relocation of vertex `i` of triangle `k`, mmg2d1.c 776-800; `o`: the new position, `none` if the functions that move the vertex
refuse. -/
def movBody (S : St K) (k : Nat) (i : Fin 3) (o : Option K) : St K :=
  let p := (S.M.tri k).v i
  if sin (S.tag p) || nom (S.tag p) then S
  else
    match o with
    | none => S
    | some o => { S with pos := fun x => if x = p then o else S.pos x }

/-! ### Pattern splitting -/

/-- A point that step 1 of `MMG2D_anaelt` wants to create: side `i` of triangle `k`, slot `ip`, position `o` (the one it has at the end
of step 3, where only created points are moved). -/
structure Want (K : Type) where
  k : Nat
  i : Fin 3
  ip : Nat
  o : K

/-- The hash table of the edges: key by the two ends, 0 if there is no point (C08). -/
abbrev Tab := Nat → Nat → Nat

def Tab.get (h : Tab) (a b : Nat) : Nat := h (min a b) (max a b)
def Tab.put (h : Tab) (a b p : Nat) : Tab := fun x y => if x = min a b ∧ y = max a b then p else h x y

/-- One side in step 1, mmg2d1.c 127-198: triangles with a corner or required side are left, a side that has its point gets no other. -/
def want (M : Mesh) (a : Tab × (Nat → K) × (Nat → Nat)) (w : Want K) : Tab × (Nat → K) × (Nat → Nat) :=
  let t := M.tri w.k
  if sin (t.tag 0) || sin (t.tag 1) || sin (t.tag 2) then a
  else if 0 < a.1.get (t.v (w.i + 1)) (t.v (w.i + 2)) then a
  else (a.1.put (t.v (w.i + 1)) (t.v (w.i + 2)) w.ip, fun x => if x = w.ip then w.o else a.2.1 x,
    fun x => if x = w.ip then t.tag w.i else a.2.2 x)

/-- Step 1. -/
def wants (S : St K) (ws : List (Want K)) : Tab × (Nat → K) × (Nat → Nat) :=
  ws.foldl (want S.M) (fun _ _ => 0, S.pos, S.tag)

/-- Steps 2 and 3, mmg2d1.c 204-263: a triangle is cut if its flag is not 0 before (`old`) or if a side that is neither corner nor
required has a point; then all its sides that have a point are cut. -/
def marks (M : Mesh) (h : Tab) (old : Nat → Bool) (k : Nat) : Fin 3 → Nat :=
  let t := M.tri k
  let p : Fin 3 → Nat := fun i => h.get (t.v (i + 1)) (t.v (i + 2))
  if old k || (!sin (t.tag 0) && decide (0 < p 0)) || (!sin (t.tag 1) && decide (0 < p 1)) || (!sin (t.tag 2) && decide (0 < p 2)) then p
  else fun _ => 0

/-- `MMG2D_split1`, split_2d.c 390-443. -/
def split1 (t : Tri) (i : Fin 3) (vx : Fin 3 → Nat) : List Tri :=
  [t.cut (i + 2) (i + 1) (vx i), t.cut (i + 1) (i + 2) (vx i)]

/-- `MMG2D_split2`, split_2d.c 505-580; `i`: the side that is not cut. -/
def split2 (t : Tri) (i : Fin 3) (vx : Fin 3 → Nat) : List Tri :=
  [((t.setV (i + 1) (vx (i + 2))).setV (i + 2) (vx (i + 1))).setE i 0 0,
   (t.setV i (vx (i + 2))).setE (i + 1) 0 0,
   (((t.setV i (vx (i + 1))).setV (i + 1) (vx (i + 2))).setE i 0 0).setE (i + 2) 0 0]

/-- `MMG2D_split3`, split_2d.c 630-705. -/
def split3 (t : Tri) (vx : Fin 3 → Nat) : List Tri :=
  [((t.setV 1 (vx 2)).setV 2 (vx 1)).setE 0 0 0,
   ((t.setV 0 (vx 2)).setV 2 (vx 0)).setE 1 0 0,
   ((t.setV 0 (vx 1)).setV 1 (vx 0)).setE 2 0 0,
   ((((((t.setV 0 (vx 1)).setV 1 (vx 2)).setV 2 (vx 0)).setE 0 0 0).setE 1 0 0).setE 2 0 0)]

/-- Step 4, mmg2d1.c 306-342. -/
def pieces (t : Tri) (vx : Fin 3 → Nat) : List Tri :=
  if vx 0 = 0 then
    if vx 1 = 0 then
      if vx 2 = 0 then [t] else split1 t 2 vx
    else if vx 2 = 0 then split1 t 1 vx else split2 t 0 vx
  else if vx 1 = 0 then
    if vx 2 = 0 then split1 t 0 vx else split2 t 1 vx
  else if vx 2 = 0 then split2 t 2 vx else split3 t vx

/-- The triangles after step 4: the first piece replaces the triangle, piece number `j` of triangle `k` is in the slot `x` with
`own x = some (k, j)`. -/
def cutAll (M : Mesh) (vx : Nat → Fin 3 → Nat) (own : Nat → Option (Nat × Nat)) (x : Nat) : Tri :=
  match own x with
  | some (k, j) => (pieces (M.tri k) (vx k)).getD j (M.tri x)
  | none => if (M.tri x).v 0 = 0 then M.tri x else (pieces (M.tri x) (vx x)).getD 0 (M.tri x)

/-- `MMG2D_anaelt`; `adj`: the neighbours computed afterwards by `MMG2D_hashTria` (C06). -/
def anaBody (S : St K) (ws : List (Want K)) (old : Nat → Bool) (own : Nat → Option (Nat × Nat)) (adj : HE → Option HE) : St K :=
  let a := wants S ws
  { M := ⟨cutAll S.M (marks S.M a.1 old) own, adj⟩
    pos := a.2.1
    tag := a.2.2 }

/-! ### Steps -/

/-- The list given by `MMG2D_chkcol` for edge `i` of triangle `k`: the ball of the vertex to remove, with the conditions of C45 that
its tests of shape give: the other vertex is in no other triangle of the ball than those of the edge, whose third vertices differ. -/
def Ball (M : Mesh) (k : Nat) (i : Fin 3) (l : List HE) : Prop :=
  (∃ lmax opn, boulet M lmax false (k, i + 1) = some (l, opn) ∧ opn = (M.adj (k, i)).isNone) ∧ 2 ≤ l.length ∧
  (M.adj (k, i) ≠ none → 3 ≤ l.length) ∧
  (∀ c ∈ l, c.1 ≠ k → (∀ o, M.adj (k, i) = some o → c.1 ≠ o.1) → ∀ j, (M.tri c.1).v j ≠ (M.tri k).v (i + 2)) ∧
  ∀ o, M.adj (k, i) = some o → (M.tri k).v i ≠ (M.tri o.1).v o.2

/-- A point slot that is free. -/
def Free (S : St K) (ip : Nat) : Prop := ip ≠ 0 ∧ req (S.tag ip) = false ∧ ∀ k, S.M.live k → ∀ i, (S.M.tri k).v i ≠ ip

/-- One step of the remesher. -/
inductive Step : St K → St K → Prop
  | col {S : St K} {k : Nat} {i : Fin 3} {short : Bool} {ball : Option (List HE)} (hk : S.M.live k)
      (hb : ∀ l, ball = some l → Ball S.M k i l) : Step S (colBody S k i short ball)
  | swp {S : St K} {k : Nat} {i : Fin 3} {chk : Bool} (hk : S.M.live k)
      (hc : chk = true → ∀ o, S.M.adj (k, i) = some o → (S.M.tri k).v i ≠ (S.M.tri o.1).v o.2) : Step S (swpBody S k i chk)
  | spl {S : St K} {k : Nat} {i : Fin 3} {ip iel kel : Nat} {o : K} (hk : S.M.live k) (hp : Free S ip) (h1 : iel ≠ 0) (h2 : kel ≠ 0)
      (h3 : iel ≠ kel) (h4 : ¬ S.M.live iel) (h5 : ¬ S.M.live kel) : Step S (splBody S k i ip iel kel o)
  | mov {S : St K} {k : Nat} {i : Fin 3} {o : Option K} (hk : S.M.live k) : Step S (movBody S k i o)
  /-- `adj`: neighbours of the new mesh; before, an edge is passed once in each direction (`hi`) and the two triangles are neighbours
  (`hf`); `ho`, `ha`: the slots of the pieces -/
  | ana {S : St K} {ws : List (Want K)} {old : Nat → Bool} {own : Nat → Option (Nat × Nat)} {adj : HE → Option HE}
      (hw : ∀ w ∈ ws, S.M.live w.k ∧ Free S w.ip)
      (hi : ∀ h h', S.M.live h.1 → S.M.live h'.1 → S.M.org h' = S.M.org h → S.M.dst h' = S.M.dst h → h' = h)
      (hf : ∀ h h', S.M.live h.1 → S.M.live h'.1 → S.M.org h' = S.M.dst h → S.M.dst h' = S.M.org h → S.M.adj h = some h')
      (ho : ∀ x k j, own x = some (k, j) → ¬ S.M.live x ∧ S.M.live k ∧ 0 < j ∧
        j < (pieces (S.M.tri k) (marks S.M (wants S ws).1 old k)).length)
      (ha : ∀ k j, S.M.live k → 0 < j → j < (pieces (S.M.tri k) (marks S.M (wants S ws).1 old k)).length → ∃ x, own x = some (k, j))
      (hv : Valid (anaBody S ws old own adj).M) : Step S (anaBody S ws old own adj)

/-! ### Specification -/

/-- What the analysis provides (C83): an edge required in one triangle is required in the other, and its ends are required. -/
structure Ready (S : St K) : Prop where
  valid : Valid S.M
  sym : ∀ h h', S.M.live h.1 → S.M.adj h = some h' → req ((S.M.tri h.1).tag h.2) = true → req ((S.M.tri h'.1).tag h'.2) = true
  ends : ∀ h : HE, S.M.live h.1 → req ((S.M.tri h.1).tag h.2) = true →
    req (S.tag (S.M.org h)) = true ∧ req (S.tag (S.M.dst h)) = true

/-- The required entities of the first state are in the second. -/
structure Keeps (S S' : St K) : Prop where
  /-- a required vertex stays where it is, stays required, and stays in the mesh -/
  vertex : ∀ p, req (S.tag p) = true → S'.pos p = S.pos p ∧ req (S'.tag p) = true ∧
    ∀ k i, S.M.live k → (S.M.tri k).v i = p → ∃ k' i', S'.M.live k' ∧ (S'.M.tri k').v i' = p
  /-- a required edge stays an edge of the mesh, with its ends, and stays required -/
  edge : ∀ h : HE, S.M.live h.1 → req ((S.M.tri h.1).tag h.2) = true →
    ∃ h' : HE, S'.M.live h'.1 ∧ req ((S'.M.tri h'.1).tag h'.2) = true ∧ S'.M.org h' = S.M.org h ∧ S'.M.dst h' = S.M.dst h
  /-- a required triangle stays the same triangle: number, vertices, reference; and stays required -/
  tria : ∀ k, S.M.live k → (∀ i, req ((S.M.tri k).tag i) = true) →
    S'.M.live k ∧ (S'.M.tri k).v = (S.M.tri k).v ∧ (S'.M.tri k).ref = (S.M.tri k).ref ∧ ∀ i, req ((S'.M.tri k).tag i) = true

end Mmg.Req2
