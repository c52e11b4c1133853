/-
Model of the construction of adjacency tables by in-place chained hashing:
`MMG3D_hashTetra`, `MMG3D_hashPrism` (src/mmg3d/hash_3d.c 122-227, 240-443),
`MMG2D_hashTria`, first step of `MMG2D_hashQuad` (src/mmg2d/hash_2d.c 35-136, 151-275).

The four functions share the same skeleton:
* stage 1 threads all (element, face) slots `iadr = d*(k-1)+i+1` having the same hash key on a
  chain: `link[iadr] = hcode[key]; hcode[key] = -iadr`;
* stage 2 visits the slots downwards and, for each slot still on a chain (`link[l] < 0`), looks
  along the chain for a slot with the same face and replaces both links by adjacency codes
  `d*k+i`.

Simplifications: unbounded integers; the allocation of `adja`/`hcode` is assumed to succeed;
a slot index outside `1..N` and an endless walk are the distinct outcome `none`.
-/
namespace Mmg.Adj

/-- Store in an integer array. -/
def put (t : Nat → Int) (p : Nat) (v : Int) : Nat → Int := fun j => if j = p then v else t j

/-- What the skeleton is parametrised by: number of faces per element `d`, number of slots `N`
threaded in stage 1, which slots belong to existing elements, hash key of a slot, comparison of
the faces of two slots, and the end-of-chain mark `inival = MMG5_INTMAX`. -/
structure Params where
  d : Nat
  N : Nat
  valid : Nat → Bool
  key : Nat → Nat
  same : Nat → Nat → Bool
  inival : Nat

/-- Adjacency code of a slot: `d*k + i` with `k = (l-1)/d + 1`, `i = (l-1)%d`
(hash_3d.c 187-188, 202-203, 216-217; hash_2d.c 93-94, 108-109, 125-126). -/
def code (d l : Nat) : Int := (d * ((l - 1) / d + 1) + (l - 1) % d : Nat)

/-- Stage 1 after `n` slots: (`link`, `hcode`). hash_2d.c 57-88 (`link` is zeroed by calloc,
`hcode` filled with `-inival`; slots of unused elements are skipped). -/
def stage1 (P : Params) : Nat → (Nat → Int) × (Nat → Int)
  | 0 => (fun _ => 0, fun _ => -(P.inival : Int))
  | n + 1 =>
    let s := stage1 P n
    if P.valid (n + 1) then
      (put s.1 (n + 1) (s.2 (P.key (n + 1))), put s.2 (P.key (n + 1)) (-((n + 1 : Nat) : Int)))
    else s

/-- Inner loop of stage 2, hash_3d.c 201-223, hash_2d.c 107-131: looks for the partner of slot
`l`; `ll` current slot, `pp` previous slot of the walk (0 at start). -/
def walk (P : Params) (l : Nat) : Nat → (Nat → Int) → Nat → Nat → Option (Nat → Int)
  | 0, _, _, _ => none
  | fuel + 1, link, pp, ll =>
    if ll = P.inival then some link
    else if ll = 0 ∨ P.N < ll then none
    else if P.same l ll then
      let link1 := if pp ≠ 0 then put link pp (link ll) else link
      let link2 := put link1 l (code P.d ll)
      some (put link2 ll (code P.d l))
    else walk P l fuel link ll (-(link ll)).toNat

/-- Stage 2, hash_3d.c 183-224, hash_2d.c 91-132: slots `l`, `l-1`, ..., 1. -/
def stage2 (P : Params) : Nat → (Nat → Int) → Option (Nat → Int)
  | 0, link => some link
  | l + 1, link =>
    if 0 ≤ link (l + 1) then stage2 P l link
    else
      match walk P (l + 1) (P.N + 2) (put link (l + 1) 0) 0 (-(link (l + 1))).toNat with
      | none => none
      | some link' => stage2 P l link'

/-- The whole construction. -/
def build (P : Params) : Option (Nat → Int) := stage2 P P.N (stage1 P P.N).1

/-! ### Tetrahedra -/

/-- `MMG5_idir`, libmmg3d_private.h 176: vertices of the face opposite to vertex `i`. -/
def idir : Nat → Nat × Nat × Nat
  | 0 => (1, 2, 3)
  | 1 => (0, 3, 2)
  | 2 => (0, 1, 3)
  | _ => (0, 2, 1)

/-- A tetrahedral mesh: number of elements and vertices `v k i` of element `k` (1-based);
`v k 0 = 0` marks an unused slot (`MG_EOK`: `v[0] > 0`). -/
structure TetMesh where
  ne : Nat
  v : Nat → Nat → Nat

/-- (mins, maxs, sum) of face `i` of tetra `k`: hash_3d.c 166-173, 189-195, 204-211. -/
def tface (m : TetMesh) (k i : Nat) : Nat × Nat × Nat :=
  let a := m.v k (idir i).1
  let b := m.v k (idir i).2.1
  let c := m.v k (idir i).2.2
  (Nat.min a (Nat.min b c), Nat.max a (Nat.max b c), a + b + c)

/-- hash_3d.c 174: `(KA*mins+KB*maxs+KC*sum)%hsize+1`, `hsize = ne`. -/
def tkey (m : TetMesh) (k i : Nat) : Nat :=
  let f := tface m k i
  (7 * f.1 + 11 * f.2.1 + 13 * f.2.2) % m.ne + 1

/-- Stage 1 of `MMG3D_hashTetra`, hash_3d.c 157-179, inner loop over the four faces: state
(`iadr`, `link`, `hcode`). The counter `iadr` only advances on existing elements. -/
def tetFaces (m : TetMesh) (k : Nat) (s : Nat × (Nat → Int) × (Nat → Int)) :
    Nat → Nat × (Nat → Int) × (Nat → Int)
  | 0 => s
  | i + 1 =>
    let s' := tetFaces m k s i
    let iadr := s'.1 + 1
    (iadr, put s'.2.1 iadr (s'.2.2 (tkey m k i)), put s'.2.2 (tkey m k i) (-(iadr : Int)))

/-- Stage 1 of `MMG3D_hashTetra`: elements 1..n. -/
def tetStage1 (m : TetMesh) (inival : Nat) : Nat → Nat × (Nat → Int) × (Nat → Int)
  | 0 => (0, fun _ => 0, fun _ => -(inival : Int))
  | k + 1 =>
    let s := tetStage1 m inival k
    if m.v (k + 1) 0 = 0 then s else tetFaces m (k + 1) s 4

/-- Parameters of stage 2 of `MMG3D_hashTetra`: slot `l` is face `(l-1)%4` of element
`(l-1)/4+1` (hash_3d.c 187-188), faces are compared by sum, min and max (209-214). -/
def tetParams (m : TetMesh) (inival N : Nat) : Params where
  d := 4
  N := N
  valid := fun _ => true
  key := fun l => tkey m ((l - 1) / 4 + 1) ((l - 1) % 4)
  same := fun l ll => tface m ((l - 1) / 4 + 1) ((l - 1) % 4) == tface m ((ll - 1) / 4 + 1) ((ll - 1) % 4)
  inival := inival

/-- `MMG3D_hashTetra` (`pack = 0`): the adjacency table, `adja[4*(k-1)+1+i]`. -/
def hashTetra (m : TetMesh) (inival : Nat) : Option (Nat → Int) :=
  let s := tetStage1 m inival m.ne
  stage2 (tetParams m inival s.1) s.1 s.2.1

/-! ### 2D triangles -/

/-- A triangle mesh; `v k 0 = 0` marks an unused slot. -/
structure TriMesh where
  nt : Nat
  v : Nat → Nat → Nat

/-- Edge `i` of triangle `k`: vertices `MMG2D_idir[i+1]`, `MMG2D_idir[i+2]` with
`MMG2D_idir = {0,1,2,0,1}`, as (mins, maxs): hash_2d.c 69-78, 95-100, 110-120. -/
def tedge (m : TriMesh) (k i : Nat) : Nat × Nat :=
  let a := m.v k ((i + 1) % 3)
  let b := m.v k ((i + 2) % 3)
  if a < b then (a, b) else (b, a)

/-- Parameters of `MMG2D_hashTria`: slots `3*(k-1)+i+1`, key hash_2d.c 81. -/
def triParams (m : TriMesh) (inival : Nat) : Params where
  d := 3
  N := 3 * m.nt
  valid := fun l => m.v ((l - 1) / 3 + 1) 0 != 0
  key := fun l =>
    let e := tedge m ((l - 1) / 3 + 1) ((l - 1) % 3)
    (7 * e.1 + 11 * e.2) % m.nt + 1
  same := fun l ll => tedge m ((l - 1) / 3 + 1) ((l - 1) % 3) == tedge m ((ll - 1) / 3 + 1) ((ll - 1) % 3)
  inival := inival

/-- `MMG2D_hashTria`, hash_2d.c 35-136: the adjacency table `adja[3*(k-1)+1+i]`. -/
def hashTria (m : TriMesh) (inival : Nat) : Option (Nat → Int) := build (triParams m inival)

/-! ### Prisms -/

/-- `MMG5_idir_pr`, libmmg3d_private.h 193. -/
def idirPr : Nat → Nat × Nat × Nat × Nat
  | 0 => (0, 1, 2, 0)
  | 1 => (3, 5, 4, 3)
  | 2 => (1, 4, 5, 2)
  | 3 => (0, 2, 5, 3)
  | _ => (0, 3, 4, 1)

structure PriMesh where
  np : Nat
  v : Nat → Nat → Nat

/-- (mins, mins_b, maxs) of face `i` of prism `k`: hash_3d.c 286-334, 346-381, 391-427. -/
def pface (m : PriMesh) (k i : Nat) : Nat × Nat × Nat :=
  let a := m.v k (idirPr i).1
  let b := m.v k (idirPr i).2.1
  let c := m.v k (idirPr i).2.2.1
  let e := m.v k (idirPr i).2.2.2
  if i < 2 then
    let mins := Nat.min (Nat.min a b) c
    let maxs := Nat.max (Nat.max a b) c
    (mins, a + b + c - mins - maxs, maxs)
  else
    let min12 := Nat.min a b
    let min34 := Nat.min c e
    let max12 := Nat.max a b
    let max34 := Nat.max c e
    (Nat.min min12 min34, Nat.min (Nat.min max12 max34) (Nat.max min12 min34), Nat.max max12 max34)

/-- Parameters of `MMG3D_hashPrism` (all prisms are valid: assertion hash_3d.c 285). -/
def priParams (m : PriMesh) (inival : Nat) : Params where
  d := 5
  N := 5 * m.np
  valid := fun _ => true
  key := fun l =>
    let f := pface m ((l - 1) / 5 + 1) ((l - 1) % 5)
    (7 * f.1 + 11 * f.2.1 + 13 * f.2.2) % m.np + 1
  same := fun l ll => pface m ((l - 1) / 5 + 1) ((l - 1) % 5) == pface m ((ll - 1) / 5 + 1) ((ll - 1) % 5)
  inival := inival

/-- `MMG3D_hashPrism`, hash_3d.c 240-443. -/
def hashPrism (m : PriMesh) (inival : Nat) : Option (Nat → Int) := build (priParams m inival)

end Mmg.Adj
