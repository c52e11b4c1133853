/-
  Mesh files: `MMG3D_saveMesh` (mmg3d/inout_3d.c 1273-2059) and `MMG3D_loadMesh_opened`
  (mmg3d/inout_3d.c 113-1036), ASCII (.mesh) and binary (.meshb).

  Simplifications:
  * a file is a list of tokens: words, integers and reals.  For ASCII files this is the text cut at
    the blanks; a real `r` printed with `%.15lg` is the token of the value `pr r` read from the
    digits.  For binary files an integer is a word of 4 bytes and a real is 8 bytes; positions in
    the file are counted in bytes;
  * reading an integer where the file has something else is a failure; comments (`#`) and files of
    the other byte order are not modelled; no allocation fails;
  * tags are one Boolean per bit; a triangle (a quadrilateral) is required or parallel when its
    three (four) edges are: the code writes and reads nothing else of their tags;
  * negative vertex numbers, or numbers beyond the array, in a file are answered by `none` like
    the failures (the code goes out of its arrays).
-/
import Mathlib.Data.List.Basic
import Mathlib.Tactic.SplitIfs

namespace Mmg.Io

variable {R : Type}

inductive Tok (R : Type) where
  | word (w : String)
  | int (i : Int)
  | real (r : R)
deriving DecidableEq

/-! ### Meshes -/

/-- A vertex: coordinates, reference, tags `MG_NUL`, `MG_CRN`, `MG_REQ`, `MG_PARBDY`, `MG_BDY`,
`MG_GEO`, `MG_REF`, `MG_NOM`, the field `flag`, normal of the surface point (`xpoint[].n1`), and the
field `n` (tangent when writing, normal after reading). -/
structure Pt (R : Type) where
  c : R × R × R
  ref : Int
  nul : Bool
  crn : Bool
  req : Bool
  par : Bool
  bdy : Bool
  geo : Bool
  rf : Bool
  nom : Bool
  flag : Bool
  n1 : R × R × R
  n : R × R × R
deriving DecidableEq

/-- An element of any kind: vertices, reference, required, parallel, ridge (edges). -/
structure Elt where
  v : List Nat
  ref : Int
  req : Bool
  par : Bool
  geo : Bool
deriving DecidableEq

/-- `MG_VOK`, common/mmgcommon_private.h 166. -/
def Pt.ok (p : Pt R) : Bool := !p.nul

/-- `MG_EOK`, common/mmgcommon_private.h 167. -/
def Elt.ok (e : Elt) : Bool := decide (0 < e.v.getD 0 0)

/-- `xp`: `mesh->xp && mesh->xpoint`. -/
structure Mesh (R : Type) where
  pts : List (Pt R)
  tets : List Elt
  prisms : List Elt
  tris : List Elt
  quads : List Elt
  edges : List Elt
  xp : Bool
deriving DecidableEq

/-! ### Writing -/

/-- The loop that numbers the used vertices (`ppt->tmp = ++np`), 1319-1329; 0 for the others. -/
def tmps : List (Pt R) → Nat → List Nat
  | [], _ => []
  | p :: l, n => if p.ok then (n + 1) :: tmps l (n + 1) else 0 :: tmps l n

/-- `mesh->point[k].tmp`. -/
def tmp (m : Mesh R) (k : Nat) : Nat := (0 :: tmps m.pts 0).getD k 0

/-- `ppt->flag` after the tetrahedra are written, 1322 and 1478-1481. -/
def flags (m : Mesh R) : List (Pt R) :=
  m.pts.mapIdx fun i p => { p with flag := m.tets.any fun e => e.ok && e.v.contains (i + 1) }

/-- Numbers of the used vertices with a property, e.g. 1376-1385. -/
def ptIdx (f : Pt R → Bool) (l : List (Pt R)) : List (Tok R) :=
  ((l.zip (tmps l 0)).filter fun q => q.1.ok && f q.1).map fun q => .int q.2

/-- Ranks among the used elements of those with a property, e.g. 1511-1523. -/
def eltIdx (f : Elt → Bool) : List Elt → Nat → List (Tok R)
  | [], _ => []
  | e :: l, n =>
    if e.ok then (if f e then .int ((n : Int) + 1) :: eltIdx f l (n + 1) else eltIdx f l (n + 1))
    else eltIdx f l n

/-- Ranks among all the elements (loops over `k` that print `k`), e.g. 1771-1781. The loops start
from the unused element 0, whose tags are 0. -/
def rawIdx (f : Elt → Bool) : List Elt → Nat → List (Tok R)
  | [], _ => []
  | e :: l, n => if f e then .int ((n : Int) + 1) :: rawIdx f l (n + 1) else rawIdx f l (n + 1)

/-- One line for an element: numbers of the vertices and reference. -/
def row (m : Mesh R) (e : Elt) : List (Tok R) :=
  e.v.map (fun k => .int (tmp m k)) ++ [.int e.ref]

/-- Three reals. -/
def reals (pr : R → R) (c : R × R × R) : List (Tok R) :=
  [.real (pr c.1), .real (pr c.2.1), .real (pr c.2.2)]

/-- Vertices whose normal is written, 1604-1618. -/
def hasN (p : Pt R) : Bool :=
  p.ok && p.flag && !(p.crn || p.req) && (p.bdy && (!p.geo || p.nom))

/-- Vertices whose tangent is written, 1619-1621. -/
def hasT (p : Pt R) : Bool := p.ok && p.flag && !(p.crn || p.req) && (p.geo || p.rf || p.nom)

/-- Pairs (vertex, rank); `f` gives the written rank, 1662-1680. -/
def pairs (f : Nat → Nat) : List (Tok R) → Nat → List (Tok R)
  | [], _ => []
  | t :: l, j => t :: .int (f (j + 1)) :: pairs f l (j + 1)

/-- A part of the file: keyword, code in binary files (`none`: not written), count, number of
4-byte words of a line, data. -/
structure Sec (R : Type) where
  name : String
  code : Option Int
  n : Nat
  w : Nat
  data : List (Tok R)

/-- A part that is written only if its count is not 0. -/
def opt (s : Sec R) : Bool × Sec R := (decide (s.n ≠ 0), s)

/-- The parts of the file in the order of the code, and whether they are written.  `bin`: binary
file. -/
def parts (bin : Bool) (pr : R → R) (m : Mesh R) : List (Bool × Sec R) :=
  let l := flags m
  let nn := l.countP hasN
  let nt := l.countP hasT
  [(true, ⟨"Vertices", some 4, l.countP (fun p => p.ok), 7,
    (l.filter (fun p => p.ok)).flatMap fun p => reals pr p.c ++ [.int p.ref.natAbs]⟩),
  opt ⟨"Corners", some 13, l.countP (fun p => p.ok && p.crn), 1, ptIdx (fun p => p.crn) l⟩,
  opt ⟨"RequiredVertices", some 15, l.countP (fun p => p.ok && p.req), 1,
    ptIdx (fun p => p.req) l⟩,
  opt ⟨"ParallelVertices", none, l.countP (fun p => p.ok && p.par), 1,
    ptIdx (fun p => p.par) l⟩,
  (true, ⟨"Tetrahedra", some 8, m.tets.countP (fun e => e.ok), 5,
    (m.tets.filter (fun e => e.ok)).flatMap (row m)⟩),
  opt ⟨"RequiredTetrahedra", some 12, m.tets.countP (fun e => e.ok && e.req), 1,
    eltIdx (fun e => e.req) m.tets 0⟩,
  opt ⟨"ParallelTetrahedra", none, m.tets.countP (fun e => e.ok && e.par), 1,
    eltIdx (fun e => e.par) m.tets 0⟩,
  opt ⟨"Prisms", some 9, m.prisms.countP (fun e => e.ok), 7,
    (m.prisms.filter (fun e => e.ok)).flatMap (row m)⟩,
  (m.xp, ⟨"Normals", some 60, nn, 6, (l.filter hasN).flatMap fun p => reals pr p.n1⟩),
  (m.xp, ⟨"NormalAtVertices", some 20, nn, 2, pairs id (ptIdx hasN l) 0⟩),
  (m.xp && decide (nt ≠ 0),
    ⟨"Tangents", some 59, nt, 6, (l.filter hasT).flatMap fun p => reals pr p.n⟩),
  -- in binary files the number of normals is written as rank (1740)
  (m.xp && decide (nt ≠ 0),
    ⟨"TangentAtVertices", some 61, nt, 2,
      pairs (if bin then fun _ => nn else id) (ptIdx hasT l) 0⟩),
  opt ⟨"Triangles", some 6, m.tris.length, 4, m.tris.flatMap (row m)⟩,
  opt ⟨"RequiredTriangles", some 17, m.tris.countP (fun e => e.req), 1,
    rawIdx (fun e => e.req) m.tris 0⟩,
  opt ⟨"ParallelTriangles", none, m.tris.countP (fun e => e.par), 1,
    rawIdx (fun e => e.par) m.tris 0⟩,
  opt ⟨"Quadrilaterals", some 7, m.quads.countP (fun e => e.ok), 5,
    (m.quads.filter (fun e => e.ok)).flatMap (row m)⟩,
  opt ⟨"RequiredQuadrilaterals", some 18, m.quads.countP (fun e => e.ok && e.req), 1,
    rawIdx (fun e => e.req) m.quads 0⟩,
  opt ⟨"ParallelQuadrilaterals", none, m.quads.countP (fun e => e.ok && e.par), 1,
    rawIdx (fun e => e.par) m.quads 0⟩,
  opt ⟨"Edges", some 5, m.edges.length, 3, m.edges.flatMap (row m)⟩,
  opt ⟨"Ridges", some 14, m.edges.countP (fun e => e.geo), 1,
    rawIdx (fun e => e.geo) m.edges 0⟩,
  opt ⟨"RequiredEdges", some 16, m.edges.countP (fun e => e.req), 1,
    rawIdx (fun e => e.req) m.edges 0⟩,
  opt ⟨"ParallelEdges", none, m.edges.countP (fun e => e.par), 1,
    rawIdx (fun e => e.par) m.edges 0⟩]

/-- The written parts. -/
def sections (bin : Bool) (pr : R → R) (m : Mesh R) : List (Sec R) :=
  ((parts bin pr m).filter fun q => q.1).map fun q => q.2

/-- A part in an ASCII file. -/
def txt (s : Sec R) : List (Tok R) := .word s.name :: .int s.n :: s.data

/-- The ASCII file. -/
def saveA (pr : R → R) (m : Mesh R) : List (Tok R) :=
  [.word "MeshVersionFormatted", .int 2, .word "Dimension", .int 3] ++
    (sections false pr m).flatMap txt ++ [.word "End"]

/-- The parts of a binary file, with the position (in bytes) of the next part. -/
def binParts : Int → List (Sec R) → List (Tok R)
  | bpos, [] => [.int 54, .int (bpos + 8)]
  | bpos, s :: l =>
    match s.code with
    | none => binParts bpos l
    | some k =>
      .int k :: .int (bpos + (3 + s.w * s.n) * 4) :: .int s.n :: s.data
        ++ binParts (bpos + (3 + s.w * s.n) * 4) l

/-- The binary file. -/
def saveB (m : Mesh R) : List (Tok R) :=
  [.int 1, .int 2, .int 3, .int 20, .int 3] ++ binParts 20 (sections true id m)

/-! ### Reading: keywords -/

/-- `!strncmp(chaine,p,strlen(p))`. -/
def pre (p w : String) : Bool := p.toList.isPrefixOf w.toList

/-- Parts that are read. -/
inductive Kw where
  | vert | reqV | parV | tria | reqTria | parTria | quad | reqQuad | parQuad | tet | prism
  | reqTet | parTet | corn | edge | reqEdge | parEdge | ridge | norm | normAt
deriving DecidableEq

inductive Act where
  | stop | ver | dim | skip
  | sec (k : Kw)
deriving DecidableEq

/-- Tests on a word, 143-243. -/
def classify (w : String) : Act :=
  if pre "End" w then .stop
  else if pre "MeshVersionFormatted" w then .ver
  else if pre "Dimension" w then .dim
  else if pre "Vertices" w then .sec .vert
  else if pre "RequiredVertices" w then .sec .reqV
  else if pre "ParallelVertices" w then .sec .parV
  else if pre "Triangles" w then (if pre "TrianglesP" w then .skip else .sec .tria)
  else if pre "RequiredTriangles" w then .sec .reqTria
  else if pre "ParallelTriangles" w then .sec .parTria
  else if pre "Quadrilaterals" w then .sec .quad
  else if pre "RequiredQuadrilaterals" w then .sec .reqQuad
  else if pre "ParallelQuadrilaterals" w then .sec .parQuad
  else if pre "Tetrahedra" w then (if pre "TetrahedraP" w then .skip else .sec .tet)
  else if pre "Prisms" w || pre "Pentahedra" w then .sec .prism
  else if pre "RequiredTetrahedra" w then .sec .reqTet
  else if pre "ParallelTetrahedra" w then .sec .parTet
  else if pre "Corners" w then .sec .corn
  else if pre "Edges" w then .sec .edge
  else if pre "RequiredEdges" w then .sec .reqEdge
  else if pre "ParallelEdges" w then .sec .parEdge
  else if pre "Ridges" w then .sec .ridge
  else if pre "Normals" w then .sec .norm
  else if pre "NormalAtVertices" w then .sec .normAt
  else .skip

/-- What the first pass finds: counts and positions; a position is the rest of the file.  The counts
of vertices, triangles, quadrilaterals, tetrahedra, prisms, edges and normals at vertices are fields
of the mesh, they have the value of the previous mesh before; the other ones are local and 0. -/
structure Hdr (R : Type) where
  ver : Int
  cnt : Kw → Int
  pos : Kw → List (Tok R)

def Hdr.set (h : Hdr R) (k : Kw) (n : Int) (p : List (Tok R)) : Hdr R :=
  { h with cnt := fun x => if x = k then n else h.cnt x,
           pos := fun x => if x = k then p else h.pos x }

/-- First pass on an ASCII file, 138-246. -/
def scanA : List (Tok R) → Hdr R → Option (Hdr R)
  | [], h => some h
  | .int _ :: r, h => scanA r h
  | .real _ :: r, h => scanA r h
  | .word w :: r, h =>
    match classify w with
    | .stop => some h
    | .skip => scanA r h
    | .ver => match r with
      | .int v :: r' => scanA r' { h with ver := v }
      | _ => none
    | .dim => match r with
      | .int d :: r' => if d = 3 then scanA r' h else none
      | _ => none
    | .sec k =>
      if k = .norm ∧ h.cnt .norm ≠ 0 then scanA r h
      else match r with
      | .int n :: r' => scanA r' (h.set k n r')
      | _ => none
termination_by structural l => l

/-- `fseek`: the position is in words. -/
def seek : List (Tok R) → Nat → Option (List (Tok R))
  | l, 0 => some l
  | .int _ :: l, n + 1 => seek l n
  | .real _ :: l, n + 2 => seek l n
  | _, _ => none

/-- The position is in bytes. -/
def seekB (l : List (Tok R)) (p : Int) : Option (List (Tok R)) :=
  if 0 ≤ p ∧ p % 4 = 0 then seek l (p / 4).toNat else none

/-- Codes of binary files, with the conditions that the part was not met before, 262-415. -/
def codeOf (h : Hdr R) (b : Int) : Option Kw :=
  if b = 4 ∧ h.cnt .vert = 0 then some .vert
  else if b = 15 then some .reqV
  else if b = 6 ∧ h.cnt .tria = 0 then some .tria
  else if b = 17 then some .reqTria
  else if b = 7 ∧ h.cnt .quad = 0 then some .quad
  else if b = 18 then some .reqQuad
  else if b = 8 ∧ h.cnt .tet = 0 then some .tet
  else if b = 9 ∧ h.cnt .prism = 0 then some .prism
  else if b = 12 then some .reqTet
  else if b = 13 ∧ h.cnt .corn = 0 then some .corn
  else if b = 5 ∧ h.cnt .edge = 0 then some .edge
  else if b = 16 then some .reqEdge
  else if b = 14 then some .ridge
  else if b = 60 ∧ h.cnt .norm = 0 then some .norm
  else if b = 20 then some .normAt
  else none

/-- First pass on a binary file, 258-423; `bdim` as in the code.  (`fuel`: bound on the number of
parts; the code would not stop when the positions of a file make a cycle.) -/
def scanB (file : List (Tok R)) : Nat → List (Tok R) → Int → Hdr R → Option (Hdr R)
  | 0, _, _, _ => none
  | _ + 1, [], _, h => some h
  | fuel + 1, .int b :: r, bdim, h =>
    if b = 54 then some h
    else if bdim = 0 ∧ b = 3 then
      match r with
      | .int _ :: .int d :: r' => if d = 3 then scanB file fuel r' d h else none
      | _ => none
    else
      match codeOf h b, r with
      | some k, .int p :: .int n :: r' =>
        match seekB file p with
        | none => none
        | some t => scanB file fuel t bdim (h.set k n r')
      | none, .int p :: _ =>
        match seekB file p with
        | none => none
        | some t => scanB file fuel t bdim h
      | _, _ => none
  | _ + 1, _, _, _ => none

/-! ### Reading: data -/

/-- `n` times the same reading. -/
def readN {α : Type} (f : List (Tok R) → Option (α × List (Tok R))) :
    Nat → List (Tok R) → Option (List α)
  | 0, _ => some []
  | n + 1, t =>
    match f t with
    | none => none
    | some (x, t') => match readN f n t' with
      | none => none
      | some l => some (x :: l)

def readInt : List (Tok R) → Option (Int × List (Tok R))
  | .int i :: t => some (i, t)
  | _ => none

/-- Three reals; `ver < 2`: single precision (`fl`). -/
def readReals (fl : R → R) (ver : Int) : List (Tok R) → Option ((R × R × R) × List (Tok R))
  | .real x :: .real y :: .real z :: t =>
    some (if ver < 2 then (fl x, fl y, fl z) else (x, y, z), t)
  | _ => none

/-- A vertex, 437-472: the absolute value of the reference is taken, the vertex is unused. -/
def readPt (fl : R → R) (ver : Int) (zero : R) (t : List (Tok R)) :
    Option (Pt R × List (Tok R)) :=
  match readReals fl ver t with
  | some (c, .int r :: t') =>
    some ({ c := c, ref := r.natAbs, nul := true, crn := false, req := false, par := false, bdy := false,
            geo := false, rf := false, nom := false, flag := false, n1 := (zero, zero, zero),
            n := (zero, zero, zero) }, t')
  | _ => none

/-- Vertices of an element. -/
def readVs : Nat → List (Tok R) → Option (List Nat × List (Tok R))
  | 0, t => some ([], t)
  | a + 1, .int i :: t =>
    if i < 0 then none
    else match readVs a t with
      | some (l, t') => some (i.toNat :: l, t')
      | none => none
  | _, _ => none

/-- An element with `a` vertices, e.g. 776-789. -/
def readElt (a : Nat) (t : List (Tok R)) : Option (Elt × List (Tok R)) :=
  match readVs a t with
  | some (l, .int r :: t') => some ({ v := l, ref := r.natAbs, req := false, par := false, geo := false }, t')
  | _ => none

/-- `f` applied to the entity `i` of the list; larger numbers are ignored with a warning (e.g.
489-496), 0 is the unused entity 0. -/
def mark {α : Type} (f : α → α) (l : List α) (i : Int) : Option (List α) :=
  if i < 0 then none
  else if i = 0 ∨ (l.length : Int) < i then some l
  else some (l.modify (i - 1).toNat f)

def marks {α : Type} (f : α → α) (l : List α) : List Int → Option (List α)
  | [] => some l
  | i :: is => match mark f l i with
    | none => none
    | some l' => marks f l' is

/-- `if (n) { seek; for (k=1..n) read i, mark }`, e.g. 475-499. -/
def readMarks {α : Type} (f : α → α) (h : Hdr R) (k : Kw) (l : List α) : Option (List α) :=
  if h.cnt k = 0 then some l
  else match readN readInt (h.cnt k).toNat (h.pos k) with
    | none => none
    | some is => marks f l is

/-- `if (n) { seek; for (k=1..n) read }`. -/
def readElts (a : Nat) (h : Hdr R) (k : Kw) : Option (List Elt) :=
  readN (readElt a) (h.cnt k).toNat (h.pos k)

/-- Elements with their required and parallel ones: nothing is read when there is no element. -/
def readPart (a : Nat) (h : Hdr R) (k kreq kpar : Kw) : Option (List Elt) :=
  if h.cnt k = 0 then some []
  else (readElts a h k).bind fun l =>
    (readMarks (fun e => { e with req := true }) h kreq l).bind fun l =>
      readMarks (fun e => { e with par := true }) h kpar l

/-- The vertices of elements are used: `ppt->tag &= ~MG_NUL`, 791-794 and 885-888. -/
def touch (l : List (Pt R)) : List Nat → Option (List (Pt R))
  | [] => some l
  | v :: vs =>
    if v = 0 then touch l vs
    else if l.length < v then none
    else touch (l.modify (v - 1) fun p => { p with nul := false }) vs

/-- Test of the orientation (`MMG5_orvol(...) < 0`): the last two vertices are exchanged,
797-803. -/
def orient (neg : List (R × R × R) → Bool) (l : List (Pt R)) (e : Elt) : Elt :=
  if neg (e.v.filterMap fun k => (l[k - 1]?).map (fun p => p.c)) then
    { e with v := e.v.take 2 ++ [e.v.getD 3 0, e.v.getD 2 0] }
  else e

/-- A normal at a vertex, 958-974. -/
def setNormals (norms : List (R × R × R)) (l : List (Pt R)) :
    List (Int × Int) → Option (List (Pt R))
  | [] => some l
  | (ip, idn) :: q =>
    if 0 < idn ∧ ip < (l.length : Int) + 1 then
      if ip < 0 ∨ (norms.length : Int) < idn then none
      else if ip = 0 then setNormals norms l q
      else setNormals norms (l.modify (ip - 1).toNat fun p =>
        { p with n := norms.getD (idn - 1).toNat p.n }) q
    else setNormals norms l q

def readPair : List (Tok R) → Option ((Int × Int) × List (Tok R))
  | .int a :: .int b :: t => some ((a, b), t)
  | _ => none

/-- Second pass, 425-985.  `iso`: level-set mode; `nz`: normalisation of a vector. -/
def readMesh (fl : R → R) (zero : R) (neg : List (R × R × R) → Bool)
    (nz : R × R × R → R × R × R) (iso : Bool) (h : Hdr R) : Option (Mesh R) :=
  if h.cnt .vert = 0 ∨ h.cnt .tet = 0 then none
  else
    (readN (readPt fl h.ver zero) (h.cnt .vert).toNat (h.pos .vert)).bind fun pts =>
    (readMarks (fun p => { p with req := true, nul := false }) h .reqV pts).bind fun pts =>
    (readMarks (fun p => { p with par := true }) h .parV pts).bind fun pts =>
    (readMarks (fun p => { p with crn := true }) h .corn pts).bind fun pts =>
    (readPart 3 h .tria .reqTria .parTria).bind fun tris =>
    (readPart 4 h .quad .reqQuad .parQuad).bind fun quads =>
    (if h.cnt .edge = 0 then some []
     else (readElts 2 h .edge).bind fun l =>
      (readMarks (fun e => { e with geo := true }) h .ridge l).bind fun l =>
      (readMarks (fun e => { e with req := true }) h .reqEdge l).bind fun l =>
       readMarks (fun e => { e with par := true }) h .parEdge l).bind fun edges =>
    (readElts 4 h .tet).bind fun tets =>
    (touch pts (tets.flatMap fun e => e.v)).bind fun pts =>
    (readMarks (fun e => { e with req := true }) h .reqTet
      (tets.map (orient neg pts))).bind fun tets =>
    (readMarks (fun e => { e with par := true }) h .parTet tets).bind fun tets =>
    (readElts 6 h .prism).bind fun prisms =>
    (touch pts (prisms.flatMap fun e => e.v)).bind fun pts =>
    (if iso then some pts
     else if h.cnt .norm ≤ 0 then some pts
     else
      (readN (readReals fl (if h.ver = 1 then 1 else 2)) (h.cnt .norm).toNat (h.pos .norm)).bind
        fun norms =>
      (readN readPair (h.cnt .normAt).toNat (h.pos .normAt)).bind fun q =>
        setNormals (norms.map nz) pts q).bind fun pts =>
    some { pts := pts, tets := tets, prisms := prisms, tris := tris, quads := quads, edges := edges,
           xp := false }

/-- The counts of the mesh before the reading. -/
def initHdr (file : List (Tok R)) (old : Kw → Int) (ver : Int) : Hdr R :=
  { ver := ver
    cnt := fun k => match k with
      | .vert | .tria | .quad | .tet | .prism | .edge | .normAt => old k
      | _ => 0
    pos := fun _ => file }

/-- `MMG3D_loadMesh_opened` on an ASCII file. -/
def loadA (fl : R → R) (zero : R) (neg : List (R × R × R) → Bool)
    (nz : R × R × R → R × R × R) (iso : Bool) (old : Kw → Int) (ver : Int)
    (file : List (Tok R)) : Option (Mesh R) :=
  (scanA file (initHdr file old ver)).bind (readMesh fl zero neg nz iso)

/-- `MMG3D_loadMesh_opened` on a binary file: the first two words are the encoding (not tested
further) and the version. -/
def loadB (fl : R → R) (zero : R) (neg : List (R × R × R) → Bool)
    (nz : R × R × R → R × R × R) (iso : Bool) (old : Kw → Int)
    (file : List (Tok R)) : Option (Mesh R) :=
  match file with
  | .int _ :: .int v :: r =>
    (scanB file (file.length + 1) r 0 (initHdr file old v)).bind (readMesh fl zero neg nz iso)
  | _ => none

end Mmg.Io
