/-
Slot pools: the points (`mesh->point`, `np`, `npmax`, `npnil`) and the elements (`mesh->tetra` /
`mesh->tria`, `ne`/`nt`, `nemax`/`ntmax`, `nenil`) with their free chains.

  3D points    mmg3d/zaldy_3d.c:39-96,  mmg3d/libmmg3d_private.h:54-94 (POINT_REALLOC)
  3D elements  mmg3d/zaldy_3d.c:99-141, mmg3d/libmmg3d_private.h:97-136 (TETRA_REALLOC)
  2D points    mmg2d/zaldy_2d.c:37-70,  2D elements mmg2d/zaldy_2d.c:87-132
  allocation   mmg3d/zaldy_3d.c:320-331, mmg2d/zaldy_2d.c:276-293

A cell is (live, link, data): for a point `live` is `MG_VOK` (tag < MG_NUL), `link` is `tmp` and
data is the rest; for an element `live` is `MG_EOK` (v[0] > 0), `link` is `v[3]` (3D) / `v[2]` (2D)
and data is the rest.  A zeroed cell of the array is live for points (tag 0) and not live for
elements (v[0] = 0): parameter `z`.  The free chain goes through `link`, 0 ends it.  Access to a
slot above the capacity is undefined behaviour: result `none`.
Not modelled: `xpoint`, adjacency (`memset` of the deleted entry), solution array.
-/

namespace Mmg.Pool

structure Cell (α : Type) where
  live : Bool
  link : Nat
  data : α

structure Pool (α : Type) where
  cap : Nat
  top : Nat
  nil : Nat
  cell : Nat → Cell α

variable {α : Type}

/-- Array write. -/
def put {β : Type} (f : Nat → β) (i : Nat) (x : β) : Nat → β := fun j => if j = i then x else f j

/-- `for (k=a; k<b; k++) cell[k].link = k+1`: zaldy_3d.c:324-330, libmmg3d_private.h:64, 120. -/
def linkUp (a b : Nat) (cell : Nat → Cell α) : Nat → Cell α :=
  fun k => if a ≤ k ∧ k < b then { cell k with link := k + 1 } else cell k

/-- `setMeshSize_alloc` followed by the loading of cells `1..n`: zaldy_3d.c:320-331.
`z` is the zeroed cell, `ld` the loaded content of slots `1..n`. -/
def alloc (z : Cell α) (cap n : Nat) (ld : Nat → Cell α) : Pool α where
  cap := cap
  top := n
  nil := n + 1
  cell := linkUp (n + 1) (cap - 1) (fun k => if 1 ≤ k ∧ k ≤ n then ld k else z)

/-- `newPt`: zaldy_3d.c:39-77 (zaldy_2d.c:37-53), and `newElt` (zaldy_3d.c:99-111,
zaldy_2d.c:87-104) followed by the filling of the new element by its caller; `x` is the value left
in the link field, `d` the content written. Slot 0 means that the chain is empty. -/
def newSlot (p : Pool α) (d : α) (x : Nat) : Option (Pool α × Nat) :=
  if p.nil = 0 then some (p, 0)
  else if p.cap < p.nil then none
  else
    some ({ p with
      top := if p.top < p.nil then p.nil else p.top
      nil := (p.cell p.nil).link
      cell := put p.cell p.nil ⟨true, x, d⟩ }, p.nil)

/-- `while ( !OK(cell[top]) && top ) top--`: zaldy_3d.c:93, 138; zaldy_2d.c:68, 129. -/
def shrink (cell : Nat → Cell α) : Nat → Nat
  | 0 => 0
  | n + 1 => if (cell (n + 1)).live then n + 1 else shrink cell n

/-- `delPt`: zaldy_3d.c:80-96, zaldy_2d.c:56-70 (no check); `zd` is the zeroed data. -/
def delPt (zd : α) (p : Pool α) (k : Nat) : Option (Pool α) :=
  if p.cap < k then none
  else
    let cell := put p.cell k ⟨false, p.nil, zd⟩
    some { p with
      nil := k
      cell := cell
      top := if k = p.top then shrink cell p.top else p.top }

/-- `delElt`: zaldy_3d.c:122-141, zaldy_2d.c:107-132: refuses unused elements. -/
def delElt (zd : α) (p : Pool α) (k : Nat) : Option (Pool α × Bool) :=
  if p.cap < k then none
  else if (p.cell k).live then (delPt zd p k).map (fun q => (q, true))
  else some (p, false)

/-- The growing part of `POINT_REALLOC` / `TETRA_REALLOC` (libmmg3d_private.h:59-65, 117-121) when
`gap` more slots are granted: the new cells are zeroed and the chain is rebuilt above `top`. -/
def realloc (z : Cell α) (p : Pool α) (gap : Nat) : Pool α where
  cap := p.cap + gap
  top := p.top
  nil := p.top + 1
  cell := linkUp (p.top + 1) (p.cap + gap - 1)
    (fun k => if p.cap < k then z else p.cell k)

/-- Creation as done by the remesher: `newPt`/`newElt`, and in case of failure growth by the
granted gap (`none`: the allocation is refused) and a second try. -/
def create (z : Cell α) (p : Pool α) (d : α) (x : Nat) (gap : Option Nat) :
    Option (Pool α × Nat) :=
  match newSlot p d x with
  | none => none
  | some (p', r) =>
    if r = 0 then
      match gap with
      | none => some (p', 0)
      | some g => newSlot (realloc z p' g) d x
    else some (p', r)

/-- The rest of the program writes the link field of a used slot (`tmp` serves as scratch, `v[3]`
is a vertex). -/
def scribble (p : Pool α) (k x : Nat) : Pool α :=
  { p with cell := put p.cell k { p.cell k with link := x } }

/-- `MMG3D_newPt` for a boundary point (tag & MG_BDY), zaldy_3d.c:45-66: the slot is taken from the
chain first, then the `xpoint` table may have to grow; `xok = false` means this growth is refused
and 0 is returned with the slot already removed from the chain (the tag is not yet written:
`live` keeps the value it had in the free slot). -/
def newPtBdy (p : Pool α) (d : α) (xok : Bool) : Option (Pool α × Nat) :=
  if p.nil = 0 then some (p, 0)
  else if p.cap < p.nil then none
  else if xok then newSlot p d 0
  else
    some ({ p with
      top := if p.top < p.nil then p.nil else p.top
      nil := (p.cell p.nil).link
      cell := put p.cell p.nil ⟨(p.cell p.nil).live, 0, d⟩ }, 0)

/-- Operations on a pool. -/
inductive Op (α : Type) where
  /-- creation; content, link value, growth granted by the allocator -/
  | new (d : α) (x : Nat) (gap : Option Nat)
  /-- deletion -/
  | del (k : Nat)
  /-- scratch write in the link field of a slot -/
  | scr (k x : Nat)

end Mmg.Pool
