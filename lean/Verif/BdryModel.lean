/-
  Model of the identification of the boundary triangles of a mesh of tetrahedra and prisms: `MMG5_bdryPerm`,
  `MMG5_chkBdryTria` (with `_countBoundaries`, `_hashBoundaries`, `_flagExtraTriangles`, `_deleteExtraTriangles`,
  `_addMissingTriangles`) and `MMG5_bdryTria` (mmg3d/hash_3d.c 1265-1955, 2385-2443).

  Simplifications.  A hash table of faces is a map from the sets of three vertices to indices (0: absent), which is what
  property C03 proves about the code while memory is available; the failures of the allocations are not modelled (the return
  values are not used by `MMG5_chkBdryTria`).  The tags of the points are the set of those that are on the boundary.
  The edge data copied from the tetrahedra to a new triangle (hash_3d.c 1365-1405) are a parameter.
-/
import Mathlib.Data.Multiset.Basic
import Mathlib.Data.Multiset.Defs
import Mathlib.Data.Nat.Bitwise

namespace Mmg.Bdry

/-- A triangle: vertices, reference, tags and references of the edges. -/
structure Tri where
  a : Nat
  b : Nat
  c : Nat
  ref : Int
  tag : Nat × Nat × Nat
  edg : Int × Int × Int
deriving DecidableEq

/-- The data kept for a tetrahedron (`xtetra`): reference of the faces, which faces are boundary ones, which have the
orientation of the triangle, tags and references of the edges. -/
structure XT where
  ref : Nat → Int
  bdy : Nat → Bool
  ori : Nat → Bool
  tag : Nat → Nat
  edg : Nat → Int

/-- The mesh.  `tadj k i` is `4 k' + i'` or 0; `padj k i` is `5 k' + i'`, 0, or minus the code of a face of a
tetrahedron. -/
structure Mesh where
  ne : Nat
  tv : Nat → Nat → Nat
  tref : Nat → Int
  tok : Nat → Bool
  tadj : Nat → Nat → Nat
  np : Nat
  pv : Nat → Nat → Nat
  pref : Nat → Int
  pok : Nat → Bool
  padj : Nat → Nat → Int
  tri : List Tri
  bdy : Nat → Bool
  hasXt : Bool
  xt : Nat → Option XT

/-- Options: keep the internal triangles, level-set mode, its reference, `MMG5_isLevelSet`. -/
structure Opt where
  opnbdy : Bool
  iso : Bool
  isoref : Int
  isLS : Int → Int → Bool
  /-- tags and references of the edges of a triangle made from the face `i` -/
  edge : XT → Nat → (Nat × Nat × Nat) × (Int × Int × Int)

/-- A set of three vertices. -/
def key (a b c : Nat) : Multiset Nat := {a, b, c}

def Tri.key (t : Tri) : Multiset Nat := Bdry.key t.a t.b t.c

/-- `MMG5_idir`. -/
def idir : List (Nat × Nat × Nat) := [(1, 2, 3), (0, 3, 2), (0, 1, 3), (0, 2, 1)]

/-- The three vertices of the face `i` of the tetrahedron `k`. -/
def Mesh.tface (M : Mesh) (q : Nat × Nat) : Nat × Nat × Nat :=
  (M.tv q.1 (idir.getD q.2 (0, 0, 0)).1, M.tv q.1 (idir.getD q.2 (0, 0, 0)).2.1, M.tv q.1 (idir.getD q.2 (0, 0, 0)).2.2)

/-- The three vertices of the triangular face `i` (0 or 1) of the prism `k`. -/
def Mesh.pface (M : Mesh) (q : Nat × Nat) : Nat × Nat × Nat :=
  (M.pv q.1 (0 + q.2 * 3), M.pv q.1 (1 + q.2 * 3), M.pv q.1 (2 + q.2 * 3))

def fkey (f : Nat × Nat × Nat) : Multiset Nat := key f.1 f.2.1 f.2.2

/-- The faces, in the order of the loops. -/
def Mesh.tfaces (M : Mesh) : List (Nat × Nat) :=
  ((List.range' 1 M.ne).filter fun k => M.tok k).flatMap fun k => [(k, 0), (k, 1), (k, 2), (k, 3)]

def Mesh.pfaces (M : Mesh) : List (Nat × Nat) :=
  ((List.range' 1 M.np).filter fun k => M.pok k).flatMap fun k => [(k, 0), (k, 1)]

/-- A table of faces. -/
abbrev Tab := Multiset Nat → Nat

/-- `MMG5_hashFace`: a face that is present is not changed. -/
def Tab.put (T : Tab) (f : Multiset Nat) (k : Nat) : Tab := fun g => if g = f then (if T f = 0 then k else T f) else T g

/-- The triangles are put in a table, from index `n`. -/
def putTris : List Tri → Nat → Tab → Tab
  | [], _, T => T
  | t :: l, n, T => putTris l (n + 1) (T.put t.key n)

/-! ### Orientation -/

/-- The test of `MMG5_bdryPerm` (line 2416); 2 is `MG_PLUS`. -/
def permOwn (M : Mesh) (q : Nat × Nat) : Bool :=
  decide (M.tadj q.1 q.2 / 4 = 0) ||
    !(decide (M.tref q.1 ≤ M.tref (M.tadj q.1 q.2 / 4)) || decide (M.tref q.1 = 2))

/-- A triangle with the vertices of a face. -/
def Tri.turn (t : Tri) (f : Nat × Nat × Nat) : Tri := { t with a := f.1, b := f.2.1, c := f.2.2 }

/-- `MMG5_bdryPerm`. -/
def bdryPerm (M : Mesh) : Mesh :=
  let T := putTris M.tri 1 fun _ => 0
  { M with tri := M.tfaces.foldl (fun l q =>
      if permOwn M q then
        (if T (fkey (M.tface q)) = 0 then l else l.modify (T (fkey (M.tface q)) - 1) fun t => t.turn (M.tface q))
      else l) M.tri }

/-! ### Count -/

/-- Faces counted by `MMG5_chkBdryTria_countBoundaries`. -/
def tcount (M : Mesh) (q : Nat × Nat) : Bool :=
  decide (M.tadj q.1 q.2 = 0) || decide (M.tref q.1 > M.tref (M.tadj q.1 q.2 / 4))

def pcount (M : Mesh) (q : Nat × Nat) : Bool :=
  decide (M.padj q.1 q.2 = 0) ||
    (!decide (M.padj q.1 q.2 < 0) && decide (M.pref q.1 > M.pref (M.padj q.1 q.2 / 5).toNat))

/-- Faces between tetrahedra of the same reference that have been kept. -/
def tpres (M : Mesh) (q : Nat × Nat) : Bool :=
  match M.xt q.1 with
  | none => false
  | some x => !decide (M.tadj q.1 q.2 = 0) && decide (M.tref q.1 = M.tref (M.tadj q.1 q.2 / 4)) && x.bdy q.2 && x.ori q.2

/-- The table of the faces of tetrahedra without neighbour. -/
def alone (M : Mesh) : Tab :=
  M.tfaces.foldl (fun (T : Tab) q => if M.tadj q.1 q.2 = 0 then T.put (fkey (M.tface q)) (5 * q.1 + q.2) else T) fun _ => 0

/-- The triangular faces of prisms that are faces of a tetrahedron get a negative neighbour. -/
def mark (M : Mesh) : Mesh :=
  { M with padj := fun k i =>
      if (k, i) ∈ M.pfaces ∧ M.padj k i = 0 ∧ alone M (fkey (M.pface (k, i))) ≠ 0 then
        -(alone M (fkey (M.pface (k, i))) : Int)
      else M.padj k i }

/-- `ntmesh`: the faces that have been marked are counted once. -/
def ntmesh (M : Mesh) : Nat :=
  M.tfaces.countP (tcount M) + M.pfaces.countP (pcount M) -
    M.pfaces.countP fun q => decide (M.padj q.1 q.2 = 0) && decide (alone M (fkey (M.pface q)) ≠ 0)

/-- `ntpres`, first part. -/
def ntpres (M : Mesh) (O : Opt) : Nat := if O.opnbdy && M.hasXt then M.tfaces.countP (tpres M) else 0

/-! ### Extra triangles -/

/-- `MMG5_chkBdryTria_hashBoundaries`. -/
def hashBdy (M : Mesh) (O : Opt) : Tab :=
  let T : Tab := M.tfaces.foldl (fun (T : Tab) q =>
    if O.opnbdy then T.put (fkey (M.tface q)) (4 * q.1 + q.2)
    else
      let T : Tab := if M.tadj q.1 q.2 = 0 then T.put (fkey (M.tface q)) (4 * q.1 + q.2) else T
      if M.tref q.1 > M.tref (M.tadj q.1 q.2 / 4) then T.put (fkey (M.tface q)) (4 * q.1 + q.2) else T) fun _ => 0
  M.pfaces.foldl (fun (T : Tab) q =>
    if M.padj q.1 q.2 = 0 then
      let T : Tab := T.put (fkey (M.pface q)) (5 * q.1 + q.2)
      if M.pref q.1 > M.pref 0 then T.put (fkey (M.pface q)) (5 * q.1 + q.2) else T
    else if M.padj q.1 q.2 < 0 then T
    else if M.pref q.1 > M.pref (M.padj q.1 q.2 / 5).toNat then T.put (fkey (M.pface q)) (5 * q.1 + q.2) else T) T

/-- `MMG5_chkBdryTria_flagExtraTriangles` and `_deleteExtraTriangles`: `U` are the triangles already met, `k` the index;
the result is the list of the triangles that are kept and the number of those between tetrahedra of the same
reference. -/
def sieve (M : Mesh) (O : Opt) (H : Tab) : List Tri → Nat → Tab → List Tri × Nat
  | [], _, _ => ([], 0)
  | t :: l, k, U =>
    let r := sieve M O H l (k + 1) (U.put t.key k)
    if U t.key ≠ 0 then r
    else if H t.key = 0 then r
    else
      let n := M.tadj (H t.key / 4) (H t.key % 4)
      (t :: r.1, if O.opnbdy && decide (n ≠ 0) && decide (M.tref (H t.key / 4) = M.tref (n / 4)) then r.2 + 1 else r.2)

/-! ### Missing triangles -/

/-- The test of `MMG5_bdryTria` on a face of a tetrahedron (lines 1318-1328). -/
def tadd (M : Mesh) (O : Opt) (q : Nat × Nat) : Bool :=
  decide (M.tadj q.1 q.2 / 4 = 0) ||
    (if !O.opnbdy || !M.hasXt then !decide (M.tref q.1 ≤ M.tref (M.tadj q.1 q.2 / 4))
     else !decide (M.tref q.1 < M.tref (M.tadj q.1 q.2 / 4)) &&
      match M.xt q.1 with
      | none => false
      | some x => x.bdy q.2 && x.ori q.2)

/-- Reference of the new triangle (lines 1407-1429). -/
def tnewref (M : Mesh) (O : Opt) (q : Nat × Nat) : Int :=
  let n := M.tadj q.1 q.2 / 4
  if n ≠ 0 then
    (if O.iso then
      match M.xt q.1 with
      | some x => if x.bdy q.2 then x.ref q.2 else if O.isLS (M.tref q.1) (M.tref n) then O.isoref
          else min (M.tref q.1) (M.tref n)
      | none => if O.isLS (M.tref q.1) (M.tref n) then O.isoref else min (M.tref q.1) (M.tref n)
    else
      match M.xt q.1 with
      | some x => x.ref q.2
      | none => min (M.tref q.1) (M.tref n))
  else
    match M.xt q.1 with
    | some x => x.ref q.2
    | none => M.tref q.1

/-- The new triangle of a face of a tetrahedron. -/
def tnew (M : Mesh) (O : Opt) (q : Nat × Nat) : Tri :=
  let d : (Nat × Nat × Nat) × (Int × Int × Int) := match M.xt q.1 with
    | some x => O.edge x q.2
    | none => ((0, 0, 0), (0, 0, 0))
  ⟨(M.tface q).1, (M.tface q).2.1, (M.tface q).2.2, tnewref M O q, d.1, d.2⟩

/-- `MG_REQ`, `MG_NOSURF`. -/
def mgREQ : Nat := 4
def mgNOSURF : Nat := 64

def reqTag (t : Nat) : Nat := if t &&& mgREQ ≠ 0 then t else (t ||| mgREQ) ||| mgNOSURF

def Tri.req (t : Tri) : Tri := { t with tag := (reqTag t.tag.1, reqTag t.tag.2.1, reqTag t.tag.2.2) }

/-- The loop on the tetrahedra: triangles and table. -/
def addTet (M : Mesh) (O : Opt) : List (Nat × Nat) → List Tri × Tab → List Tri × Tab
  | [], s => s
  | q :: l, s =>
    if tadd M O q && decide (s.2 (fkey (M.tface q)) = 0) then
      addTet M O l (s.1 ++ [tnew M O q], if M.np = 0 then s.2 else s.2.put (fkey (M.tface q)) (s.1.length + 1))
    else addTet M O l s

/-- The new triangle of a face of a prism (the data of `xprism` are not modelled). -/
def pnew (M : Mesh) (O : Opt) (q : Nat × Nat) : Tri :=
  ⟨(M.pface q).1, (M.pface q).2.1, (M.pface q).2.2,
    if M.padj q.1 q.2 / 5 ≠ 0 ∧ O.iso then O.isoref else 0, (0, 0, 0), (0, 0, 0)⟩

/-- The loop on the prisms. -/
def addPrism (M : Mesh) (O : Opt) (T : Tab) : List (Nat × Nat) → List Tri → List Tri
  | [], s => s
  | q :: l, s =>
    if M.padj q.1 q.2 < 0 then
      (if s = [] then addPrism M O T l s
       else if T (fkey (M.pface q)) = 0 then addPrism M O T l s
       else addPrism M O T l (s.modify (T (fkey (M.pface q)) - 1) Tri.req))
    else if M.padj q.1 q.2 / 5 ≠ 0 ∧ M.pref q.1 ≤ M.pref (M.padj q.1 q.2 / 5).toNat then addPrism M O T l s
    else if T (fkey (M.pface q)) ≠ 0 then addPrism M O T l s
    else addPrism M O T l (s ++ [pnew M O q])

def touch (l : List Tri) (f : Nat → Bool) : Nat → Bool := fun p => f p || l.any fun t => t.a == p || t.b == p || t.c == p

/-- `MMG5_bdryTria`. -/
def bdryTria (M : Mesh) (O : Opt) (n : Nat) : Mesh :=
  let T := putTris M.tri 1 fun _ => 0
  let s := if n ≠ M.tri.length then addTet M O M.tfaces (M.tri, T) else (M.tri, T)
  let l := addPrism M O s.2 M.pfaces s.1
  let bdy := if O.iso then M.bdy else touch M.tri M.bdy
  { M with tri := l, bdy := touch (l.drop M.tri.length) (if n ≠ M.tri.length then touch l bdy else bdy) }

/-- `MMG5_chkBdryTria`. -/
def chkBdryTria (M : Mesh) (O : Opt) : Mesh :=
  let n := ntmesh M
  let p := ntpres M O
  let M := mark M
  let r := if M.tri = [] then ([], 0) else sieve M O (hashBdy M O) M.tri 1 fun _ => 0
  let M := { M with tri := r.1 }
  if M.tri.length = n + (p + r.2) ∧ M.np = 0 then { M with bdy := touch M.tri M.bdy }
  else bdryTria M O (n + (p + r.2))

end Mmg.Bdry
