/-
Model of the edge / face hash table of `src/common/hash.c`
(`MMG5_hashNew`, `MMG5_hashEdge`, `MMG5_hashUpdate`, `MMG5_hashEdgeTag`,
`MMG5_hashGet`, `MMG5_hashFace`) and of `MMG5_hashGetFace`
(`src/mmg3d/hash_3d.c`).

Simplifications:
* indices and values are unbounded naturals (`MMG5_int` in C);
* the memory limit is abstracted: a table growth (`MMG5_TAB_RECALLOC`,
  `src/common/mmgcommon_private.h` 406-429) is answered by the environment with
  `some g` (array extended by `g` zeroed cells; the macro ensures `g ≥ 1`) or
  `none` (allocation refused, the C function returns 0);
* an access outside the allocated cells and an endless chain walk are the
  distinct outcome `ub`.
-/
namespace Mmg.Hash

/-- `MMG5_hedge`, `src/common/libmmgtypes.h`: `a`, `b` (min and max vertex), `s`
(sum, faces only), `k` (stored value), `nxt` (next cell of the chain). -/
structure Cell where
  a : Nat
  b : Nat
  s : Nat
  k : Nat
  nxt : Nat
deriving DecidableEq, Repr, Inhabited

/-- A zeroed cell (`calloc`, `memset 0`). -/
def Cell.zero : Cell := ⟨0, 0, 0, 0, 0⟩

/-- `MMG5_Hash`, `src/common/libmmgtypes.h`. `item` has `max + 1` allocated cells
(hash.c 540-542, and `MMG5_TAB_RECALLOC` allocates `initSize+gap+1`). -/
structure Hash where
  siz : Nat
  max : Nat
  nxt : Nat
  item : Nat → Cell

/-- Outcome of an operation: undefined behaviour, reported failure, success. -/
inductive Outcome (α : Type) where
  | ub
  | fail
  | ok (x : α)

/-- Store a cell. -/
def Hash.put (h : Hash) (p : Nat) (c : Cell) : Hash :=
  { h with item := fun j => if j = p then c else h.item j }

/-- `MMG5_hashNew`, hash.c 532-548 (successful allocation). -/
def hashNew (hsiz hmax : Nat) : Hash :=
  { siz := hsiz + 1
    max := hmax + 2
    nxt := hsiz + 1
    item := fun k =>
      if hsiz + 1 ≤ k ∧ k < hmax + 2 then { Cell.zero with nxt := k + 1 } else Cell.zero }

/-- Bucket index `(MMG5_KA*ia + MMG5_KB*ib) % siz`, hash.c 296, 353, 411, 448, 510;
`MMG5_KA = 7`, `MMG5_KB = 11` (mmgcommon_private.h). -/
def bucket (siz ia ib : Nat) : Nat := (7 * ia + 11 * ib) % siz

/-- The cell test `ph->a == ia && ph->b == ib` (edges) or
`ph->a == mins && ph->b == maxs && ph->s == sum` (faces). -/
def cmatch (face : Bool) (x : Nat × Nat × Nat) (c : Cell) : Bool :=
  c.a == x.1 && c.b == x.2.1 && (!face || c.s == x.2.2)

/-- Result of a chain walk: `hit p` (matching cell found) or `tail p` (end of chain). -/
inductive WalkRes where
  | hit (p : Nat)
  | tail (p : Nat)

/-- Chain walk of the insertions: hash.c 303-306 (face), 359-362 (edge), 457-463 (tag):
`while ( ph->nxt && ph->nxt < hash->max ) { ph = &item[ph->nxt]; if match return }`.
Fuel exhaustion (`ub`) stands for an endless loop. -/
def walkIns (face : Bool) (x : Nat × Nat × Nat) (h : Hash) : Nat → Nat → Outcome WalkRes
  | 0, _ => .ub
  | fuel + 1, p =>
    if h.max < p then .ub
    else
      let n := (h.item p).nxt
      if n ≠ 0 ∧ n < h.max then
        if cmatch face x (h.item n) then .ok (.hit n)
        else walkIns face x h fuel n
      else .ok (.tail p)

/-- Chain walk of the lookups: hash.c 515-518 (`MMG5_hashGet`) and hash_3d.c 103-106
(`MMG5_hashGetFace`): `while ( ph->nxt ) {...}` with no capacity test. -/
def walkGet (face : Bool) (x : Nat × Nat × Nat) (h : Hash) : Nat → Nat → Outcome (Option Nat)
  | 0, _ => .ub
  | fuel + 1, p =>
    if h.max < p then .ub
    else
      let n := (h.item p).nxt
      if n ≠ 0 then
        if h.max < n then .ub
        else if cmatch face x (h.item n) then .ok (some (h.item n).k)
        else walkGet face x h fuel n
      else .ok none

/-- Chain walk of `MMG5_hashUpdate`, hash.c 414-424: index of the matching cell. -/
def walkUpd (x : Nat × Nat × Nat) (h : Hash) : Nat → Nat → Outcome (Option Nat)
  | 0, _ => .ub
  | fuel + 1, p =>
    if h.max < p then .ub
    else
      let c := h.item p
      if c.a ≠ 0 then
        if cmatch false x c then .ok (some p)
        else if c.nxt = 0 then .ok none
        else walkUpd x h fuel c.nxt
      else .ok none

/-- Enough fuel for any walk that visits each allocated cell at most once. -/
def Hash.fuel (h : Hash) : Nat := h.max + 2

/-- `MMG5_TAB_RECALLOC` on the cell array (mmgcommon_private.h 406-429): cells above the old
`max` are zeroed, `max` grows by `g`. -/
def Hash.grow (h : Hash) (g : Nat) : Hash :=
  { h with
    max := h.max + g
    item := fun j => if h.max < j then Cell.zero else h.item j }

/-- `for (j=j0; j<hash->max; j++) hash->item[j].nxt = j+1;` hash.c 319, 376, 476. -/
def Hash.relink (h : Hash) (j0 : Nat) : Hash :=
  { h with
    item := fun j => if j0 ≤ j ∧ j < h.max then { h.item j with nxt := j + 1 } else h.item j }

/-- `MMG5_hashEdge`, hash.c 346-388. Returns the table and 1 (already listed) or 2 (added). -/
def hashEdge (h : Hash) (a b k : Nat) (g : Option Nat) : Outcome (Hash × Nat) :=
  let ia := Nat.min a b
  let ib := Nat.max a b
  if h.siz = 0 then .ub
  else
    let p := bucket h.siz ia ib
    if h.max < p then .ub
    else if cmatch false (ia, ib, 0) (h.item p) then .ok (h, 1)
    else if (h.item p).a ≠ 0 then
      match walkIns false (ia, ib, 0) h h.fuel p with
      | .ub => .ub
      | .fail => .fail
      | .ok (.hit _) => .ok (h, 1)
      | .ok (.tail t) =>
        -- ph->nxt = hash->nxt
        let h1 := h.put t { h.item t with nxt := h.nxt }
        if h.max ≤ h.nxt + 1 then
          match g with
          | none => .fail
          | some g =>
            let h2 := h1.grow g
            if h2.max < h2.nxt then .ub
            else
              let h3 := h2.relink (h2.item h2.nxt).nxt
              let c := h3.item h.nxt
              .ok (({ h3 with nxt := c.nxt } : Hash).put h.nxt
                { c with a := ia, b := ib, k := k, nxt := 0 }, 2)
        else
          let c := h1.item h.nxt
          .ok (({ h1 with nxt := c.nxt } : Hash).put h.nxt
            { c with a := ia, b := ib, k := k, nxt := 0 }, 2)
    else
      .ok (h.put p { h.item p with a := ia, b := ib, k := k, nxt := 0 }, 2)

/-- `MMG5_hashUpdate`, hash.c 404-427. -/
def hashUpdate (h : Hash) (a b k : Nat) : Outcome (Hash × Nat) :=
  let ia := Nat.min a b
  let ib := Nat.max a b
  if h.siz = 0 then .ub
  else
    match walkUpd (ia, ib, 0) h h.fuel (bucket h.siz ia ib) with
    | .ub => .ub
    | .fail => .fail
    | .ok none => .ok (h, 0)
    | .ok (some p) => .ok (h.put p { h.item p with k := k }, 1)

/-- The append of hash.c 308-321 (`MMG5_hashFace`) and 465-478 (`MMG5_hashEdgeTag`): the new
cell is written first, and the array is grown afterwards when the free list is exhausted. -/
def appendThenGrow (h : Hash) (t : Nat) (new : Cell → Cell) (g : Option Nat) : Outcome Hash :=
  let h1 := h.put t { h.item t with nxt := h.nxt }
  if h1.max < h.nxt then .ub
  else
    let c := h1.item h.nxt
    let h2 := ({ h1 with nxt := c.nxt } : Hash).put h.nxt { new c with nxt := 0 }
    if h2.max ≤ h2.nxt then
      match g with
      | none => .fail
      | some g =>
        let h3 := h2.grow g
        .ok (h3.relink h3.nxt)
    else .ok h2

/-- `MMG5_hashEdgeTag`, hash.c 441-488. Returns the table and the stored tag. -/
def hashEdgeTag (h : Hash) (a b tag : Nat) (g : Option Nat) : Outcome (Hash × Nat) :=
  let ia := Nat.min a b
  let ib := Nat.max a b
  if h.siz = 0 then .ub
  else
    let p := bucket h.siz ia ib
    if h.max < p then .ub
    else if (h.item p).a ≠ 0 then
      if cmatch false (ia, ib, 0) (h.item p) then
        let c := h.item p
        .ok (h.put p { c with k := c.k ||| tag }, c.k ||| tag)
      else
        match walkIns false (ia, ib, 0) h h.fuel p with
        | .ub => .ub
        | .fail => .fail
        | .ok (.hit q) =>
          let c := h.item q
          .ok (h.put q { c with k := c.k ||| tag }, c.k ||| tag)
        | .ok (.tail t) =>
          match appendThenGrow h t (fun c => { c with a := ia, b := ib, k := tag }) g with
          | .ub => .ub
          | .fail => .fail
          | .ok h' => .ok (h', tag)
    else
      .ok (h.put p { h.item p with a := ia, b := ib, k := tag, nxt := 0 }, tag)

/-- `MMG5_hashGet`, hash.c 501-520 (allocated table). -/
def hashGet (h : Hash) (a b : Nat) : Outcome Nat :=
  let ia := Nat.min a b
  let ib := Nat.max a b
  if h.siz = 0 then .ub
  else
    let p := bucket h.siz ia ib
    if h.max < p then .ub
    else if (h.item p).a = 0 then .ok 0
    else if cmatch false (ia, ib, 0) (h.item p) then .ok (h.item p).k
    else
      match walkGet false (ia, ib, 0) h h.fuel p with
      | .ub => .ub
      | .fail => .fail
      | .ok none => .ok 0
      | .ok (some k) => .ok k

/-- `mins`, `maxs`, `sum` of a face, hash.c 291-295, hash_3d.c 91-95. -/
def faceKey (a b c : Nat) : Nat × Nat × Nat :=
  (Nat.min a (Nat.min b c), Nat.max a (Nat.max b c), a + b + c)

/-- `MMG5_hashFace`, hash.c 286-332. Returns the table and `-1` (new) or the stored index. -/
def hashFace (h : Hash) (a b c k : Nat) (g : Option Nat) : Outcome (Hash × Int) :=
  let x := faceKey a b c
  if h.siz = 0 then .ub
  else
    let p := bucket h.siz x.1 x.2.1
    if h.max < p then .ub
    else if (h.item p).a ≠ 0 then
      if cmatch true x (h.item p) then .ok (h, (h.item p).k)
      else
        match walkIns true x h h.fuel p with
        | .ub => .ub
        | .fail => .fail
        | .ok (.hit q) => .ok (h, (h.item q).k)
        | .ok (.tail t) =>
          match appendThenGrow h t
              (fun c => { c with a := x.1, b := x.2.1, s := x.2.2, k := k }) g with
          | .ub => .ub
          | .fail => .fail
          | .ok h' => .ok (h', -1)
    else
      .ok (h.put p { a := x.1, b := x.2.1, s := x.2.2, k := k, nxt := 0 }, -1)

/-- `MMG5_hashGetFace`, hash_3d.c 84-111 (allocated table). -/
def hashGetFace (h : Hash) (a b c : Nat) : Outcome Nat :=
  let x := faceKey a b c
  if h.siz = 0 then .ub
  else
    let p := bucket h.siz x.1 x.2.1
    if h.max < p then .ub
    else if (h.item p).a ≠ 0 then
      if cmatch true x (h.item p) then .ok (h.item p).k
      else
        match walkGet true x h h.fuel p with
        | .ub => .ub
        | .fail => .fail
        | .ok none => .ok 0
        | .ok (some k) => .ok k
    else .ok 0

end Mmg.Hash
