/-
  Model of the renumbering of a tetrahedral mesh: `MMG5_mmg3dRenumbering` (mmg3d/librnbg_3d.c 113-423), `MMG5_swapTet` (55-98),
  `MMG5_swapNod` (common/librnbg.c 150-210) and the end of `MMG5_kPartBoxCompute` (126-131).

  Simplifications.  The partition of the graph and the sort by boxes (libscotch) are given by the environment: `some ord` is the
  order of the elements after the sort, `none` a failure of `SCOTCH_graphMap` or of the allocation before it, after which
  `MMG5_kPartBoxCompute` returns 0, which its caller takes for a success (the table of the new numbers is then zero).  The
  returns before the permutation of the tetrahedra leave the mesh as it is and are left out, the creation of the adjacency table
  at the end too (C01).  What a tetrahedron or a vertex has besides the fields used here is a payload of any type, metric,
  level-set and fields are in the payload of the vertex.  The links of the lists of free slots (`tmp`, `v[3]` of free slots) are
  separate tables.
-/
import Mathlib.Data.List.Basic

namespace Mmg.Renum

/-- Tetrahedron: vertices and everything else. -/
structure Tet (δ : Type) where
  v : Fin 4 → Nat
  x : δ

/-- Vertex: `MG_NUL`, `MG_REQ` and everything else. -/
structure Pt (π : Type) where
  nul : Bool
  req : Bool
  x : π

structure Mesh (δ π : Type) where
  tetra : Nat → Tet δ
  ne : Nat
  nemax : Nat
  nenil : Nat
  tnext : Nat → Nat
  point : Nat → Pt π
  np : Nat
  npmax : Nat
  npnil : Nat
  pnext : Nat → Nat
  prism : Nat → Fin 6 → Nat
  nprism : Nat
  quad : Nat → Fin 4 → Nat
  nquad : Nat
  /-- `permNodGlob`. -/
  glob : Nat → Nat
  npi : Nat

variable {α δ π : Type}

def set1 (f : Nat → Nat) (i x : Nat) : Nat → Nat := fun y => if y = i then x else f y

/-- Exchange of two entries of a table, `memcpy` through a temporary. -/
def swp (f : Nat → α) (i j : Nat) : Nat → α := fun x => if x = i then f j else if x = j then f i else f x

/-- `MMG5_swapTet`, `MMG5_swapNod`: the data and the table of the new numbers. -/
def swap2 (s : (Nat → Nat) × (Nat → α)) (i j : Nat) : (Nat → Nat) × (Nat → α) := (swp s.1 i j, swp s.2 i j)

/-- `while ( perm[j] != j && perm[j] )`, lines 299-300 and 390-391; `none` if it has not ended after `fuel` turns. -/
def turn (j : Nat) : Nat → (Nat → Nat) × (Nat → α) → Option ((Nat → Nat) × (Nat → α))
  | fuel, s => if s.1 j ≠ j ∧ s.1 j ≠ 0 then
      match fuel with
      | 0 => none
      | fuel + 1 => turn j fuel (swap2 s j (s.1 j))
    else some s

/-- The loop over the table, lines 298-301 and 389-392. -/
def permute (n : Nat) (s : (Nat → Nat) × (Nat → α)) : Option ((Nat → Nat) × (Nat → α)) :=
  (List.range' 1 n).foldlM (fun s j => turn j n s) s

/-- `if ( !perm[v] && !nul ) perm[v] = ++n`, lines 130-135, 315-326, 333-343, 348-360. -/
def number (nul : Nat → Bool) (s : (Nat → Nat) × Nat) (v : Nat) : (Nat → Nat) × Nat :=
  if s.1 v ≠ 0 then s else if nul v then s else (set1 s.1 v (s.2 + 1), s.2 + 1)

/-- `permVrtTab[sortPartTb[2*i+1]] = i+1`, librnbg.c 127-129. -/
def put (s : (Nat → Nat) × Nat) (v : Nat) : (Nat → Nat) × Nat := (set1 s.1 v (s.2 + 1), s.2 + 1)

/-- The new numbers of the elements: `permVrtTab`. -/
def permVrt (part : Option (List Nat)) : Nat → Nat :=
  match part with
  | none => fun _ => 0
  | some ord => (ord.foldl put (fun _ => 0, 0)).1

variable (m : Mesh δ π)

/-- `!v[0]`. -/
def Mesh.dead (k : Nat) : Bool := (m.tetra k).v 0 == 0

/-- `vertOldTab`, lines 128-135. -/
def vertOld : (Nat → Nat) × Nat := (List.range' 1 m.ne).foldl (number m.dead) (fun _ => 0, 0)

/-- The permutation of the tetrahedra, lines 290-294. -/
def tetTab (part : Option (List Nat)) (k : Nat) : Nat :=
  if m.dead k then (vertOld m).1 k else permVrt part ((vertOld m).1 k)

/-- The valid tetrahedra in the order of the table. -/
def liveT : List Nat := (List.range' 1 m.ne).filter fun k => !m.dead k

/-- Vertices in the order in which they are met, lines 308-360. -/
def met : List Nat :=
  (liveT m).flatMap (fun k => (List.finRange 4).map (m.tetra k).v) ++
  ((List.range' 1 m.nprism).filter fun k => !(m.prism k 0 == 0)).flatMap (fun k => (List.finRange 6).map (m.prism k)) ++
  (List.range' 1 m.np).filter fun k => !(m.point k).nul && (m.point k).req

/-- `permNodTab`, `npreal`. -/
def nodTab : (Nat → Nat) × Nat := (met m).foldl (number fun k => (m.point k).nul) (fun _ => 0, 0)

/-- Lists of the free slots, lines 395-418. -/
def relink (n max : Nat) (next : Nat → Nat) : Nat × (Nat → Nat) :=
  let nil := if max - 1 ≤ n then 0 else n + 1
  (nil, if nil ≠ 0 then fun k => if k = max ∨ k = max - 1 then 0 else if nil ≤ k ∧ k < max - 1 then k + 1 else next k
    else next)

/-- After the permutation of the tetrahedra, lines 303-423. -/
def second (m : Mesh δ π) : Option (Mesh δ π) :=
  let t := (nodTab m).1
  let nereal := (liveT m).length
  let npreal := (nodTab m).2
  match permute m.np (t, m.point) with
  | none => none
  | some (_, point) =>
    some { m with
      tetra := fun k => if 1 ≤ k ∧ k < nereal + 1 then ⟨fun j => t ((m.tetra k).v j), (m.tetra k).x⟩ else m.tetra k
      prism := fun k => if 1 ≤ k ∧ k ≤ m.nprism then fun j => t (m.prism k j) else m.prism k
      quad := fun k => if 1 ≤ k ∧ k ≤ m.nquad then fun j => t (m.quad k j) else m.quad k
      glob := fun k => if 1 ≤ k ∧ k ≤ m.npi ∧ (m.point (m.glob k)).nul = false then t (m.glob k) else m.glob k
      point := point
      ne := nereal
      np := npreal
      npnil := (relink npreal m.npmax m.pnext).1
      pnext := (relink npreal m.npmax m.pnext).2
      nenil := (relink nereal m.nemax m.tnext).1
      tnext := (relink nereal m.nemax m.tnext).2 }

/-- `MMG5_mmg3dRenumbering`; `mem` is the answer to the allocation of `permNodTab`, line 304. -/
def renumber (part : Option (List Nat)) (mem : Bool) (m : Mesh δ π) : Option (Mesh δ π) :=
  match permute m.ne (tetTab m part, m.tetra) with
  | none => none
  | some (_, tetra) => if mem then second { m with tetra := tetra } else some { m with tetra := tetra }

end Mmg.Renum
