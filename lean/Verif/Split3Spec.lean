/-
  Specification of the subdivision of a tetrahedron, independent of the split functions: where a
  vertex of a child lies in the parent, which edge or face of the parent carries an edge or a face
  of a child, what a child inherits, volumes, and the trace of a subdivision on a face.
-/
import Verif.Split3Model
import Mathlib.Data.Multiset.Basic
import Mathlib.Data.Multiset.MapFold
import Mathlib.Algebra.Field.Basic

namespace Mmg.Split3

/-! ### Places in the parent -/

/-- Place of a vertex of a child in the parent: a corner, a point of an edge, the barycentre. -/
inductive Pos
  | corner (i : Nat)
  | mid (e : Nat)
  | centre
  deriving DecidableEq

/-- Corners of the smallest edge, face or volume of the parent that contains the place, as a set
of bits. -/
def Pos.mask : Pos → Nat
  | .corner i => [1, 2, 4, 8].getD i 0
  | .mid e => [3, 5, 9, 6, 10, 12].getD e 0
  | .centre => 15

/-- Part of the parent that carries an edge or a face of a child. -/
inductive Carrier
  | edge (e : Nat)
  | face (f : Nat)
  | inside
  deriving DecidableEq

/-- Edge `e` joins the corners of `iare`; face `f` is opposite to corner `f`. -/
def carrierOf : Nat → Carrier
  | 3 => .edge 0 | 5 => .edge 1 | 9 => .edge 2 | 6 => .edge 3 | 10 => .edge 4 | 12 => .edge 5
  | 14 => .face 0 | 13 => .face 1 | 11 => .face 2 | 7 => .face 3
  | _ => .inside

def maskAt (ps : List Pos) (i : Nat) : Nat := (ps.getD i .centre).mask

/-- Part of the parent carrying edge `e` of a child whose vertices are at `ps`. -/
def edgeCarrier (ps : List Pos) (e : Nat) : Carrier :=
  carrierOf (maskAt ps (iare.getD e (0, 0)).1 ||| maskAt ps (iare.getD e (0, 0)).2)

/-- The three vertices of face `f`. -/
def others (f : Nat) : List Nat := [[1, 2, 3], [0, 2, 3], [0, 1, 3], [0, 1, 2]].getD f []

/-- Part of the parent carrying face `f` of a child whose vertices are at `ps`. -/
def faceCarrier (ps : List Pos) (f : Nat) : Carrier :=
  carrierOf ((others f).foldl (fun m i => m ||| maskAt ps i) 0)

/-! ### What a child inherits -/

section
variable {T R : Type}

/-- Tags of the edges of a child: the tag of the parent edge that carries it, the tag `fs` of the
face that carries it, nothing for an inner edge. -/
def specTag (tag fs : Nat → T) (z : T) (ps : List Pos) : List T :=
  (List.range 6).map fun e =>
    match edgeCarrier ps e with
    | .edge e' => tag e'
    | .face f => fs f
    | .inside => z

/-- References of the edges of a child: inherited along the edges of the parent only. -/
def specEdg (edg : Nat → R) (z : R) (ps : List Pos) : List R :=
  (List.range 6).map fun e =>
    match edgeCarrier ps e with
    | .edge e' => edg e'
    | _ => z

/-- Data of the faces of a child: the data of the face that carries it, `z` for an inner face. -/
def specFace (a : Nat → R) (z : R) (ps : List Pos) : List R :=
  (List.range 4).map fun f =>
    match faceCarrier ps f with
    | .face f' => a f'
    | _ => z
end

/-- Number of the vertex at a place: a vertex of the parent, the point of an edge, the new inner
point. -/
def val (t : CTet) (vx : Nat → Nat) (ib : Nat) : Pos → Nat
  | .corner i => t.v.getD i 0
  | .mid e => vx e
  | .centre => ib

/-- A complete tetrahedron: four vertices, six edges, four faces. -/
structure WF (t : CTet) : Prop where
  v : t.v.length = 4
  tag : t.tag.length = 6
  edg : t.edg.length = 6
  ref : t.ref.length = 4
  ftag : t.ftag.length = 4
  ori : t.ori.length = 4

/-- `x` is a child of `t` with vertices at `ps`: its vertex numbers are those of the places, and
the references of its edges and the references and tags of its faces are inherited. -/
structure Child (t : CTet) (vx : Nat → Nat) (ib : Nat) (ps : List Pos) (x : CTet) : Prop where
  four : ps.length = 4
  v : x.v = ps.map (val t vx ib)
  edg : x.edg = specEdg (t.edg.getD · 0) 0 ps
  ref : x.ref = specFace (t.ref.getD · 0) 0 ps
  ftag : x.ftag = specFace (t.ftag.getD · 0) 0 ps

/-- The edge tags of a child are inherited from the edges and faces of the parent; a new edge in
a face gets the tag of the face without the bit `MG_REF`. -/
def TagsInherited (t : CTet) (ps : List Pos) (x : CTet) : Prop :=
  x.tag = specTag (t.tag.getD · 0) (fun f => stripRef (t.ftag.getD f 0)) 0 ps

/-- The orientation of a face of a child is that of the face of the parent carrying it, and the
default one for an inner face. -/
def OriInherited (t : CTet) (ps : List Pos) (x : CTet) : Prop :=
  x.ori = specFace (t.ori.getD · false) true ps

/-- The places are corners or points of split edges. -/
def OnSplitEdges (flag : Nat) (ps : List Pos) : Prop :=
  ∀ p ∈ ps, (∃ i < 4, p = .corner i) ∨ ∃ e < 6, flag.testBit e = true ∧ p = .mid e

/-! ### Volumes -/

section
variable {K : Type} [Field K]

/-- A point of space. -/
structure Pt (K : Type) where
  (x y z : K)

/-- Six times the oriented volume: `MMG5_orvol`, `MMG5_det4pt` and `MMG5_det3pt1vec`,
common/tools.c 918-960. -/
def vol (p0 p1 p2 p3 : Pt K) : K :=
  (p3.x - p0.x) * ((p1.y - p0.y) * (p2.z - p0.z) - (p1.z - p0.z) * (p2.y - p0.y)) -
  (p3.y - p0.y) * ((p1.x - p0.x) * (p2.z - p0.z) - (p1.z - p0.z) * (p2.x - p0.x)) +
  (p3.z - p0.z) * ((p1.x - p0.x) * (p2.y - p0.y) - (p1.y - p0.y) * (p2.x - p0.x))

/-- Point at the fraction `s` of the segment from `p` to `q`. -/
def Pt.lerp (p q : Pt K) (s : K) : Pt K :=
  ⟨(1 - s) * p.x + s * q.x, (1 - s) * p.y + s * q.y, (1 - s) * p.z + s * q.z⟩

/-- Volume of a tetrahedron given by the numbers of its vertices. -/
def volOf (c : Nat → Pt K) (v : List Nat) : K :=
  vol (c (v.getD 0 0)) (c (v.getD 1 0)) (c (v.getD 2 0)) (c (v.getD 3 0))

/-- The point of every split edge lies on the edge, at the fraction `s e` from its first end. -/
def PointsOnEdges (flag : Nat) (c : Nat → Pt K) (v : List Nat) (vx : Nat → Nat) (s : Nat → K) :
    Prop :=
  ∀ e < 6, flag.testBit e = true →
    c (vx e) = Pt.lerp (c (v.getD (iare.getD e (0, 0)).1 0)) (c (v.getD (iare.getD e (0, 0)).2 0))
      (s e)
end

/-! ### Traces on faces -/

/-- Face `f` of a tetrahedron as an unordered triangle. -/
def faceTri {V : Type} (d : V) (v : List V) (f : Nat) : Multiset V :=
  ((others f).map fun i => v.getD i d : List V)

/-- All the faces of a list of tetrahedra. -/
def allFaces {V : Type} (d : V) (vs : List (List V)) : Multiset (Multiset V) :=
  (vs.flatMap fun v => [faceTri d v 0, faceTri d v 1, faceTri d v 2, faceTri d v 3] :
    List (Multiset V))

/-- Subdivision of the triangle `a b c` when some of its sides carry a point.  When two sides are
cut, the remaining quadrangle is cut by the diagonal that starts at the one of its two corners
that comes first (`aLtB`, `aLtC`, `bLtC` are the comparisons of the corners). -/
def cut {V : Type} (a b c : V) (mab mac mbc : Option V) (aLtB aLtC bLtC : Bool) :
    Multiset (Multiset V) :=
  match mab, mac, mbc with
  | none, none, none => {{a, b, c}}
  | some m, none, none => {{a, m, c}, {b, m, c}}
  | none, some m, none => {{a, m, b}, {c, m, b}}
  | none, none, some m => {{b, m, a}, {c, m, a}}
  | some m, some n, none =>
    if bLtC then {{a, m, n}, {b, m, n}, {b, c, n}} else {{a, m, n}, {c, m, n}, {b, c, m}}
  | some m, none, some n =>
    if aLtC then {{b, m, n}, {a, m, n}, {a, c, n}} else {{b, m, n}, {c, m, n}, {a, c, m}}
  | none, some m, some n =>
    if aLtB then {{c, m, n}, {a, m, n}, {a, b, n}} else {{c, m, n}, {b, m, n}, {a, b, m}}
  | some m, some n, some o => {{a, m, n}, {b, m, o}, {c, n, o}, {m, n, o}}

end Mmg.Split3
