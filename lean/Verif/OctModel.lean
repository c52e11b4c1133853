/-
Model of the point-region octree of `src/mmg3d/PRoctree_3d.c`: insertion
(`MMG3D_addPROctreeRec`), deletion with merging (`MMG3D_delPROctreeRec`,
`MMG3D_delPROctreeVertex`, `MMG3D_mergeBranches`), move (`MMG3D_movePROctree`), search
(`MMG3D_getListSquare`) and the insertion filter (`MMG3D_PROctreein_iso`).

Simplifications:
* `dim = 3` (eight branches, maximum depth `64/3 - 1 = 20`);
* coordinates are exact (an ordered field); the operations done on them by the insertion
  and the deletion (`ver -= 0.5` when `ver > 0.5`, `ver *= 2`) are exact in floating point
  for coordinates in `[0,1]`;
* a cell without sub-cells is `leaf d cap l`: depth `d`, `l` the first `nbVer` entries of `v`
  (so that `nbVer = l.length`), `cap` the number of allocated entries of `v` (0: `v` is NULL);
  a cell with sub-cells is `branch d nb br`, where `v` is NULL;
* allocations succeed; writing outside the allocated entries, following a null pointer and a
  violated assertion are the outcome `none`.
-/
import Mathlib.Algebra.Order.Field.Basic
import Mathlib.Algebra.Order.Floor.Defs

namespace Mmg.Oct

/-- `MMG3D_PROctree_s`, `PRoctree_3d_private.h` 34-40. -/
inductive Oct where
  | leaf (d cap : Nat) (l : List Nat)
  | branch (d nb : Nat) (br : Nat → Oct)

/-- `q->nbVer`. -/
def Oct.cnt : Oct → Nat
  | .leaf _ _ l => l.length
  | .branch _ nb _ => nb

/-- The vertices below a cell. -/
def Oct.items : Oct → List Nat
  | .leaf _ _ l => l
  | .branch _ _ br => (List.range 8).flatMap fun b => (br b).items

/-- Replace one branch. -/
def setBr (br : Nat → Oct) (b : Nat) (q : Oct) : Nat → Oct := fun j => if j = b then q else br j

/-- `!(n & (n - 1))`. -/
def pow2 (n : Nat) : Bool := n &&& (n - 1) == 0

/-- Number of allocated entries when a vertex is appended to a list of `nb` vertices,
PRoctree_3d.c 667-680 (`d < 20`) and 730-751 (maximum depth). -/
def newCap (nv d cap nb : Nat) : Nat :=
  if nb < nv then
    if nb = 0 then 1 else if pow2 nb then 2 * nb else cap
  else if 20 ≤ d ∧ nb % nv = 0 then nb + nv
  else cap

/-- `q->v[q->nbVer] = no; q->nbVer++`, 682-684, 753-754. -/
def append (nv d cap : Nat) (l : List Nat) (no : Nat) : Option Oct :=
  if l.length < newCap nv d cap l.length then
    some (.leaf d (newCap nv d cap l.length) (l ++ [no]))
  else none

section
variable {α : Type} [Field α] [LinearOrder α]

/-- Sub-cell of a scaled point: `quadrant += (ver[i]>0.5)*(1<<i)`, 715-722, 914-920. -/
def quad (ver : Fin 3 → α) : Nat :=
  (if ver 0 > 1 / 2 then 1 else 0) + (if ver 1 > 1 / 2 then 2 else 0) +
    (if ver 2 > 1 / 2 then 4 else 0)

/-- `ver[i] -= (ver[i]>0.5)*0.5; ver[i] *= 2`, 719-720. -/
def shift (ver : Fin 3 → α) : Fin 3 → α :=
  fun i => (ver i - (if ver i > 1 / 2 then 1 / 2 else 0)) * 2

/-- The loop 700-707 that rescales a stored vertex down to the depth of the cell. -/
def scale : Nat → (Fin 3 → α) → (Fin 3 → α)
  | 0, ver => ver
  | d + 1, ver => shift (scale d ver)

/-- The recursive call in the sub-cell, 713-726. -/
def addBr (f : Oct → (Fin 3 → α) → Nat → Option Oct) (br : Nat → Oct) (ver : Fin 3 → α)
    (no : Nat) : Option (Nat → Oct) :=
  (f (br (quad ver)) (shift ver) no).map fun q => setBr br (quad ver) q

/-- `MMG3D_addPROctreeRec`, 650-765. The subdivision (685-711) sets `nbVer` to `nv+1`, sends
the `nv` stored vertices and the new one to the sub-cells (each time `nbVer` is incremented
by the recursive call and decremented after it) and frees `v`. The fuel bounds the depth of
the recursion. -/
def add (nv : Nat) (pos : Nat → Fin 3 → α) : Nat → Oct → (Fin 3 → α) → Nat → Option Oct
  | 0, _, _, _ => none
  | f + 1, .leaf d cap l, ver, no =>
    if d < 20 then
      if l.length < nv then append nv d cap l no
      else if l.length = nv then
        match l.foldlM (fun br x => addBr (add nv pos f) br (scale d (pos x)) x)
            (fun _ => .leaf (d + 1) 0 []) with
        | none => none
        | some br => (addBr (add nv pos f) br ver no).map fun br => .branch d (nv + 1) br
      else none
    else append nv d cap l no
  | f + 1, .branch d nb br, ver, no =>
    if d < 20 then
      if nb < nv then none
      else (addBr (add nv pos f) br ver no).map fun br => .branch d (nb + 1) br
    else none

/-- Number of allocated entries after a removal, `MMG3D_delPROctreeVertex` 811-820 and
903-906: reallocated when the new number is a power of 2, freed when it is 0. -/
def delCap (cap nb : Nat) : Nat := if nb = 0 then 0 else if pow2 nb then nb else cap

/-- `MMG3D_delPROctreeRec`, 896-966, with `MMG3D_mergeBranches` 864-880: the merged cell gets an
array of `nv` entries, filled with the vertices of the sub-cells in order. -/
def del (nv : Nat) : Oct → (Fin 3 → α) → Nat → Option Oct
  | .leaf d cap l, _, no =>
    if cap ≠ 0 then
      if no ∈ l then some (.leaf d (delCap cap (l.erase no).length) (l.erase no))
      else some (.leaf d cap l)
    else if l.length = nv + 1 then none
    else some (.leaf d cap l)
  | .branch d nb br, ver, no =>
    match del nv (br (quad ver)) (shift ver) no with
    | none => none
    | some q =>
      if nb = nv + 1 then
        if q.cnt < (br (quad ver)).cnt then
          if (Oct.branch d nb (setBr br (quad ver) q)).items.length = nv then
            some (.leaf d nv (Oct.branch d nb (setBr br (quad ver) q)).items)
          else none
        else some (.branch d nb (setBr br (quad ver) q))
      else
        if (br (quad ver)).cnt ≤ q.cnt then some (.branch d nb (setBr br (quad ver) q))
        else some (.branch d (nb - 1) (setBr br (quad ver) q))

/-- `MMG3D_initPROctree_s`, 48-54. -/
def initCell : Oct := .leaf 0 0 []

/-- `MMG3D_addPROctree`, 774-790; the depth of the recursion is at most 20. -/
def addV (nv : Nat) (pos : Nat → Fin 3 → α) (q : Oct) (no : Nat) : Option Oct :=
  add nv pos 21 q (pos no) no

/-- `MMG3D_delPROctree`, 977-992. -/
def delV (nv : Nat) (pos : Nat → Fin 3 → α) (q : Oct) (no : Nat) : Option Oct :=
  del nv q (pos no) no

/-- `MMG3D_initPROctree`, 75-81: `nv` is rounded up to a power of 2 (`nv ≥ 1`). -/
def roundNv (nv : Nat) : Nat :=
  let n := nv - 1
  let n := n ||| (n >>> 1)
  let n := n ||| (n >>> 2)
  let n := n ||| (n >>> 4)
  let n := n ||| (n >>> 8)
  let n := n ||| (n >>> 16)
  n + 1

/-- One coordinate of `MMG3D_getPROctreeCoordinate`, 183-207: `floor((x-prec)*2^20)` with
`prec = 2^-30`, replaced by 0 when negative, of which the 20 lowest bits are used. -/
def code1 [FloorRing α] (x : α) : Nat := (⌊(x - 1 / 2 ^ 30) * 2 ^ 20⌋).toNat % 2 ^ 20

/-- `MMG3D_getPROctreeCoordinate`: the interleaving of the 3 times 20 bits in one integer is
replaced by the triple, which carries the same information. -/
def code [FloorRing α] (x : Fin 3 → α) : Nat × Nat × Nat := (code1 (x 0), code1 (x 1), code1 (x 2))

/-- `MMG3D_movePROctree`, 225-254: `pos` are the coordinates stored in the mesh at the time of
the call, `newV` and `oldV` the two other arguments. -/
def moveV [FloorRing α] (nv : Nat) (pos : Nat → Fin 3 → α) (q : Oct) (no : Nat)
    (newV oldV : Fin 3 → α) : Option Oct :=
  if code (pos no) = code oldV then some q
  else (del nv q oldV no).bind fun q => add nv pos 21 q newV no

/-! ### Search -/

/-- A box: lower corner and lengths. -/
structure Box (α : Type) where
  lo : Fin 3 → α
  len : Fin 3 → α

/-- `MMG3D_intersectRect`, 385-417: `none` when a length is not positive. -/
def intersectRect (r1 r2 : Box α) : Option (Box α) :=
  let lo := fun i => if r1.lo i > r2.lo i then r1.lo i else r2.lo i
  let hi := fun i =>
    if r1.len i + r1.lo i < r2.len i + r2.lo i then r1.len i + r1.lo i else r2.len i + r2.lo i
  let len := fun i => hi i - lo i
  if len 0 ≤ 0 ∨ len 1 ≤ 0 ∨ len 2 ≤ 0 then none else some ⟨lo, len⟩

/-- `MMG3D_seekIndex`, 337-371, for `indexMin = 0`: the values of the recursive calls are
dropped, so that 1 is returned for three entries or more. -/
def seekIndex (dist : List α) (x : α) (imax : Nat) : Nat :=
  if imax < 2 then (if x > dist.getD imax 0 then imax else 0) else 1

/-- The insertion of a cell in the ordered list, 488-507; `placeInList` puts it at position
`indexTemp + 1`. -/
def place (L : List (α × Oct)) (x : α) (q : Oct) : List (α × Oct) :=
  if 0 < L.length then
    let t := seekIndex (L.map Prod.fst) x (L.length - 1)
    if t + 1 < L.length then L.take (t + 1) ++ (x, q) :: L.drop (t + 1)
    else L ++ [(x, q)]
  else L ++ [(x, q)]

/-- Bit `i` of a branch number. -/
def bit (b : Nat) (i : Fin 3) : Bool := b.testBit i

/-- Size of a sub-cell of a cell of depth `d`: `l = 1./(1<<(depth+1))`, 450. -/
def half (d : Nat) : α := 1 / 2 ^ (d + 1)

/-- `recttemp`, 527-531. -/
def subBox (c : Fin 3 → α) (d b : Nat) : Box α :=
  ⟨fun i => c i - half d * (1 - if bit b i then 1 else 0), fun _ => half d⟩

/-- `centertemp`, 536-538. -/
def subCenter (c : Fin 3 → α) (d b : Nat) : Fin 3 → α :=
  fun i => c i - half d / 2 + (if bit b i then 1 else 0) * half d

/-- The test 521-523 with `recCenter` of 511-514. -/
def meets (r : Box α) (c : Fin 3 → α) (b : Nat) : Bool :=
  decide (∀ i : Fin 3, if bit b i then r.lo i + r.len i > c i else ¬ r.lo i > c i)

/-- Order of the three loops 517-521: `(i,j,k)` with branch number `i + 2*j + 4*k`. -/
def order : List Nat := [0, 4, 2, 6, 1, 5, 3, 7]

/-- `MMG3D_getListSquareRec`, 443-556: return value and list. `nc` is the maximum number of
cells plus 3, `ctr` the centre of the zone. -/
def listRec (nc : Nat) (ctr : Fin 3 → α) :
    Oct → (Fin 3 → α) → Box α → List (α × Oct) → Bool × List (α × Oct)
  | .leaf d cap l, c, _, L =>
    if L.length + 4 > nc then (true, L)
    else if cap ≠ 0 then
      let x := ctr 0 - c 0
      let y := ctr 1 - c 1
      let z := ctr 2 - c 2
      (true, place L (x * x + y * y + z * z) (.leaf d cap l))
    else (true, L)
  | .branch d _ br, c, r, L =>
    if L.length + 4 > nc then (true, L)
    else
      order.foldl (fun acc b =>
        if acc.1 then
          if meets r c b then
            match intersectRect r (subBox c d b) with
            | none => (false, acc.2)
            | some r' => listRec nc ctr (br b) (subCenter c d b) r' acc.2
          else acc
        else acc) (true, L)

/-- `MMG3D_getListSquare`, 574-635: the listed cells; the return value is their number, and 0
(an empty list for the callers) when the search was given up. -/
def getListSquare (nc : Nat) (q : Oct) (r : Box α) : List Oct :=
  let res := listRec nc (fun i => r.lo i + r.len i / 2) q (fun _ => 1 / 2) r []
  if res.1 = false then [] else if res.2.length + 4 > nc then [] else res.2.map Prod.snd

/-- The box of the filter, 1167-1170. -/
def halo (p : Fin 3 → α) (h : α) : Box α := ⟨fun i => p i - h, fun _ => 2 * h⟩

/-- Squared distance, 1190-1194. -/
def dist2 (p q : Fin 3 → α) : α :=
  (p 0 - q 0) * (p 0 - q 0) + (p 1 - q 1) * (p 1 - q 1) + (p 2 - q 2) * (p 2 - q 2)

/-- `MMG3D_PROctreein_iso`, 1143-1209: may the point `ip` be inserted? `m` holds the sizes. -/
def inIso (nc : Nat) (q : Oct) (pos : Nat → Fin 3 → α) (m : Nat → α) (ip : Nat) (lmax : α) :
    Bool :=
  let hpi := lmax * m ip
  (getListSquare nc q (halo (pos ip) hpi)).all fun cell =>
    cell.items.all fun ip1 =>
      let d2 := dist2 (pos ip1) (pos ip)
      !(decide (d2 < hpi * hpi) || decide (d2 < (lmax * m ip1) * (lmax * m ip1)))

end

end Mmg.Oct
