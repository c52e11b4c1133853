/-
  C96. The inner edges of a 2D mesh and the inner faces of a 3D mesh as given by the API:
  `MMG2D_Get_numberOfNonBdyEdges` (mmg2d/libmmg2d_tools.c 699-790), `MMG2D_Get_nonBdyEdge` (792-832),
  `MMG3D_Get_numberOfNonBdyTriangles` (mmg3d/libmmg3d_tools.c 916-1129), `MMG3D_Get_nonBdyTriangle` (1131-1175),
  `MMG5_saveEdge` (common/inout.c 2818-2910), and the blocks of memory with their size in front
  (common/mmgcommon_private.h 228-290, 383-401).

  Simplifications.  The neighbours (and in 3D the analysis of the surface) are there; prisms are left out; element numbers start at 1;
  an adjacency word is an element with the number of its side; sizes do not overflow.  The contents of the array are any type.
-/
import Mathlib.Data.List.FinRange

namespace Mmg.NonBdy

/-- What a call does: it returns, reads or writes outside of its array, or stops by an assertion. -/
inductive Out (α : Type) where
  | ret (v : α)
  | ub
  | abort

/-- Elements with `m` sides: their number, which exist, the neighbours, the references, and the sides that are boundary for another
reason than the references. -/
structure Cx (m : Nat) where
  n : Nat
  ok : Nat → Bool
  adj : Nat → Fin m → Option (Nat × Fin m)
  ref : Nat → Int
  mark : Nat → Fin m → Bool

variable {m : Nat} {α : Type}

/-- Sides in the order of the two loops over the elements and their sides (2D: 715-718, 756-759; 3D: 991-997, 1066-1072). -/
def all (C : Cx m) : List (Nat × Fin m) :=
  (List.range' 1 C.n).flatMap fun k => if C.ok k then (List.finRange m).map fun i => (k, i) else []

/-- The side is listed: it is not left out (2D: 726-731 and 768-773, 3D: 1003-1008 and 1080-1085) and it is seen from the element with
the lower number (2D: 732, 774; 3D: 1009, 1086). -/
def listed (C : Cx m) (h : Nat × Fin m) : Bool :=
  match C.adj h.1 h.2 with
  | none => false
  | some o => !(C.ref h.1 != C.ref o.1 || C.mark h.1 h.2) && decide (h.1 < o.1)

/-- First loop: the number. -/
def count (C : Cx m) : Nat := (all C).foldl (fun c h => if listed C h then c + 1 else c) 0

/-- One turn of the second loop: the next cell is written (2D: 776-779; 3D: 1088-1092). -/
def put (C : Cx m) (pay : Nat × Fin m → α) (a : Nat × (Nat → α)) (h : Nat × Fin m) : Nat × (Nat → α) :=
  if listed C h then (a.1 + 1, fun x => if x = a.1 then pay h else a.2 x) else a

/-- Second loop: cells from `j` on are written. -/
def fill (C : Cx m) (pay : Nat × Fin m → α) (j : Nat) (cell : Nat → α) : Nat × (Nat → α) := (all C).foldl (put C pay) (j, cell)

/-- An array with the size in front, in bytes. -/
structure Arr (α : Type) where
  bytes : Nat
  cell : Nat → α

/-- The array of the boundary entities and the size field of the mesh (`namax` in 2D, `nt` in 3D). -/
structure Store (α : Type) where
  max : Nat
  arr : Option (Arr α)

/-- `MMG5_SAFE_RECALLOC(arr, prev, new)`, `siz` the size of one cell, `zero` the cell with all bytes 0, `junk` what is in new memory,
`dbg`: assertions are compiled, `sys`: the system gives the memory.  `none` if the block is freed because there is no memory. -/
def recalloc (dbg sys : Bool) (siz prev new : Nat) (zero junk : α) (arr : Option (Arr α)) : Out (Option (Arr α)) :=
  match arr with
  | none =>
    if dbg && prev != 0 then .abort
    else if !sys then .ret none
    else .ret (some ⟨new * siz, fun x => if prev ≤ x ∧ x < new then zero else junk⟩)
  | some T =>
    if dbg && T.bytes != prev * siz then .abort
    else if !sys then .ret none
    else .ret (some ⟨new * siz, fun x => if prev ≤ x ∧ x < new then zero else T.cell x⟩)

/-- `MMG2D_Get_numberOfNonBdyEdges` (`early = false`) and `MMG3D_Get_numberOfNonBdyTriangles` (`early = true`, lines 1043-1045);
`mem`: the memory limit of the mesh allows the growth. -/
def number (early dbg mem sys : Bool) (siz : Nat) (zero junk : α) (C : Cx m) (pay : Nat × Fin m → α) (S : Store α) :
    Out (Bool × Nat × Store α) :=
  let nb := count C
  if early && nb == 0 then .ret (true, 0, S)
  else if !mem then .ret (false, nb, S)
  else
    match recalloc dbg sys siz (if S.max = 0 then 0 else S.max + 1) (S.max + nb + 1) zero junk S.arr with
    | .ub => .ub
    | .abort => .abort
    | .ret none => .ret (false, nb, { S with arr := none })
    | .ret (some T) => .ret (true, nb, { S with arr := some { T with cell := (fill C pay (S.max + 1) T.cell).2 } })

/-- `MMG2D_Get_nonBdyEdge`, `MMG3D_Get_nonBdyTriangle`: `none` stands for the value 0. -/
def get (siz : Nat) (S : Store α) (idx : Int) : Out (Option α) :=
  match S.arr with
  | none => .ret none
  | some T =>
    if (S.max : Int) = T.bytes then .ret none
    else if (T.bytes : Int) < S.max + idx then .ret none
    else if 0 ≤ S.max + idx ∧ S.max + idx < (T.bytes / siz : Nat) then .ret (some (T.cell (S.max + idx).toNat))
    else .ub

/-- The cells written by `MMG5_saveEdge` (inout.c 2876-2891). -/
def saved (siz : Nat) (S : Store α) : List α :=
  match S.arr with
  | none => []
  | some T => (List.range' 1 (T.bytes / siz - 1)).map T.cell

/-! ### The two kinds of meshes -/

/-- Triangles: vertices, tags and references of the sides, references, neighbours. -/
structure Mesh2 where
  n : Nat
  v : Nat → Fin 3 → Nat
  tag : Nat → Fin 3 → Nat
  edg : Nat → Fin 3 → Int
  ref : Nat → Int
  adj : Nat → Fin 3 → Option (Nat × Fin 3)
  opnbdy : Bool

/-- Lines 726-728 of libmmg2d_tools.c; `MG_SIN` is the mark of a corner or of a required edge. -/
def Mesh2.cx (M : Mesh2) : Cx 3 where
  n := M.n
  ok := fun k => M.v k 0 != 0
  adj := M.adj
  ref := M.ref
  mark := fun k i => ((M.tag k i).testBit 5 || (M.tag k i).testBit 2) || (M.opnbdy && M.tag k i != 0)

/-- `MMG5_Edge`: ends and reference (777-779). -/
def Mesh2.pay (M : Mesh2) (h : Nat × Fin 3) : Nat × Nat × Int := (M.v h.1 (h.2 + 1), M.v h.1 (h.2 + 2), M.edg h.1 h.2)

/-- Tetrahedra: vertices, references, neighbours, and per face the tag `MG_BDY` and the reference kept in the `xtetra` (`false` and 0 if
there is none: number 0). -/
structure Mesh3 where
  n : Nat
  v : Nat → Fin 4 → Nat
  bdy : Nat → Fin 4 → Bool
  fref : Nat → Fin 4 → Int
  ref : Nat → Int
  adj : Nat → Fin 4 → Option (Nat × Fin 4)
  opnbdy : Bool

/-- Lines 1003-1005 of libmmg3d_tools.c. -/
def Mesh3.cx (M : Mesh3) : Cx 4 where
  n := M.n
  ok := fun k => M.v k 0 != 0
  adj := M.adj
  ref := M.ref
  mark := fun k i => M.opnbdy && M.bdy k i

/-- `MMG5_idir`, libmmg3d_private.h. -/
def idir (i : Fin 4) (j : Fin 3) : Fin 4 :=
  match i, j with
  | 0, 0 => 1 | 0, 1 => 2 | 0, 2 => 3
  | 1, 0 => 0 | 1, 1 => 3 | 1, 2 => 2
  | 2, 0 => 0 | 2, 1 => 1 | 2, 2 => 3
  | 3, 0 => 0 | 3, 1 => 2 | 3, 2 => 1

/-- Vertices and reference of the face (1089-1092). -/
def Mesh3.pay (M : Mesh3) (h : Nat × Fin 4) : (Fin 3 → Nat) × Int := (fun j => M.v h.1 (idir h.2 j), M.fref h.1 h.2)

/-! ### Specification -/

/-- Neighbours lead to another existing element, and back; both sides are marked or none. -/
structure Good (C : Cx m) : Prop where
  link : ∀ k i k' j, 1 ≤ k → k ≤ C.n → C.ok k = true → C.adj k i = some (k', j) →
    1 ≤ k' ∧ k' ≤ C.n ∧ C.ok k' = true ∧ k' ≠ k ∧ C.adj k' j = some (k, i)
  mark : ∀ k i k' j, 1 ≤ k → k ≤ C.n → C.ok k = true → C.adj k i = some (k', j) → C.mark k' j = C.mark k i

/-- A side of an existing element with a neighbour of the same reference, not marked. -/
def Inner (C : Cx m) (h o : Nat × Fin m) : Prop :=
  1 ≤ h.1 ∧ h.1 ≤ C.n ∧ C.ok h.1 = true ∧ C.adj h.1 h.2 = some o ∧ C.ref h.1 = C.ref o.1 ∧ C.mark h.1 h.2 = false

end Mmg.NonBdy
