/-
  C92. Solution files: `MMG5_saveSolHeader`, `MMG5_loadSolHeader`, `MMG5_writeDoubleSol3D`, `MMG5_readDoubleSol3D`,
  `MMG5_readFloatSol3D`, `MMG5_chkMetricType` (common/inout.c), `MMG3D_saveSol`, `MMG3D_saveAllSols`, `MMG3D_loadSol`,
  `MMG3D_loadAllSols` (mmg3d/inout_3d.c; those of mmgs have the same text), `MMG2D_writeDoubleSol`, `MMG2D_readDoubleSol`,
  `MMG2D_saveSol`, `MMG2D_saveAllSols`, `MMG2D_loadSol`, `MMG2D_loadAllSols` (mmg2d/inout_2d.c).

  Simplifications: an ASCII file is the list of its words and numbers, `%.15lg` is the function `pr` on the numbers; a binary file is
  a list of bytes, the coding of numbers is a parameter (`Codec`); files of the other byte order are left out (so is `MMG5_swapf`
  of a double in 2D); the values of a solution are given for each entity as a row (the flat array is the subject of C27); messages,
  names of solutions and statistics are left out; memory is not lacking.
-/
import Verif.HashModel

namespace Mmg.SolIo

open Mmg.Hash (Outcome)

variable {R B : Type}

inductive Tok (R : Type) where
  | word (w : String)
  | num (n : Int)
  | real (x : R)

/-- The library: mmg3d and mmgs, or mmg2d. -/
inductive Lib where
  | d3
  | d2
  deriving DecidableEq

/-- `sol->size`, set by `MMG3D_Set_solSize` (API_functions_3d.c 127-144), `MMG2D_Set_solSize`, for the types scalar, vector, tensor;
`none`: type refused. -/
def Lib.size (L : Lib) (t : Int) : Option Nat :=
  if t = 1 then some 1
  else if t = 2 then some (match L with | .d3 => 3 | .d2 => 2)
  else if t = 3 then some (match L with | .d3 => 6 | .d2 => 3)
  else none

/-- `MMG5_Noentity` and `MMG5_Vertex`; `MMG5_Tetrahedron` (3D) or `MMG5_Triangle` (2D); the others. -/
inductive Ent where
  | vertex
  | cell
  | other
  deriving DecidableEq

structure Sol (R : Type) where
  ent : Ent
  type : Int
  val : Nat → List R

/-- The exchange of the terms 2 and 3 of tensors, inout.c 2254-2256, 2305-2307, 2365-2367. -/
def swap23 : List R → List R
  | [a, b, c, d, e, f] => [a, b, d, c, e, f]
  | l => l

/-- What is written besides of the solution: library, vertices with the special storage of ridges (`MMG5_build3DMetric` 1531-1533) and
the metric that is written for them, mode `-3dMedit` (`gmsh`), the numbers 0 and 1. -/
structure Job (R : Type) where
  lib : Lib
  rid : Nat → Bool
  rot : Nat → List R
  gmsh : Bool
  zero : R
  one : R

/-- The numbers written for one entity: `MMG5_writeDoubleSol3D`, inout.c 2320-2378; `MMG2D_writeDoubleSol`, inout_2d.c 1555-1606. -/
def out (J : Job R) (metric : Bool) (k : Nat) (row : List R) : List R :=
  match J.lib with
  | .d3 => if row.length = 6 then swap23 (if metric && J.rid k then J.rot k else row) else row
  | .d2 =>
    if J.gmsh then
      match row.length with
      | 2 => row ++ [J.zero]
      | 3 => row ++ [J.zero, J.zero, J.one]
      | _ => row
    else row

/-- Dimension in the file, inout_3d.c 2329 (`met->dim`), inout_2d.c 1635-1640, 1695-1702. -/
def Job.dim (J : Job R) : Int :=
  match J.lib with
  | .d3 => 3
  | .d2 => if J.gmsh then 3 else 2

/-- The solutions at vertices, inout.c 2472-2475. -/
def atV (l : List (Sol R)) : List (Sol R) := l.filter fun s => decide (s.ent = .vertex)

def atC (l : List (Sol R)) : List (Sol R) := l.filter fun s => decide (s.ent = .cell)

/-- Numbers of the used entities. -/
def used (n : Nat) (ok : Nat → Bool) : List Nat := (List.range' 1 n).filter ok

/-- The values at the entities `ks`. -/
def body (J : Job R) (metric : Bool) (l : List (Sol R)) (ks : List Nat) : List R :=
  ks.flatMap fun k => l.flatMap fun s => out J metric k (s.val k)

/-- The ASCII file of `saveSol` (`all = false`, with one solution) and `saveAllSols`. -/
def saveA (J : Job R) (pr : R → R) (all : Bool) (np : Nat) (ok : Nat → Bool) (ne : Nat) (eok : Nat → Bool) (l : List (Sol R)) :
    List (Tok R) :=
  [.word "MeshVersionFormatted", .num 2, .word "Dimension", .num J.dim, .word "SolAtVertices", .num (used np ok).length,
    .num (atV l).length] ++ (atV l).map (fun s => .num s.type) ++
  (body J (!all) (atV l) (used np ok)).map (fun x => .real (pr x)) ++
  (if all then
    [.word (match J.lib with | .d3 => "SolAtTetrahedra" | .d2 => "SolAtTriangles"), .num (used ne eok).length,
      .num (atC l).length] ++ (atC l).map (fun s => .num s.type) ++
    (body J false (atC l) (used ne eok)).map (fun x => .real (pr x))
  else []) ++ [.word "End"]

/-- `!strncmp(chaine,p,strlen(p))`. -/
def pre (p w : String) : Bool := p.toList.isPrefixOf w.toList

/-- Header: number of entities, types of the solutions, rest of the file. -/
structure Hdr (α : Type) where
  np : Int
  types : List Int
  rest : List α

/-- `for (i=0; i<*nsols; ++i) fscanf("%d",&type[i])`. -/
def typesA : Nat → List (Tok R) → Option (List Int × List (Tok R))
  | 0, t => some ([], t)
  | n + 1, .num x :: t => (typesA n t).map fun r => (x :: r.1, r.2)
  | _, _ => none

/-- `MMG5_loadSolHeader` on an ASCII file, inout.c 2134-2158.  `ok none`: the keyword is not found (return 1 all the same). -/
def scanA (mdim : Int) : List (Tok R) → Outcome (Option (Hdr (Tok R)))
  | [] => .ok none
  | .word w :: t =>
    if pre "End" w then .ok none
    else if pre "Dimension" w then
      match t with
      | .num d :: t' => if d ≠ mdim then .fail else scanA mdim t'
      | _ => .fail
    else if pre "SolAtVertices" w then
      match t with
      | .num np :: .num ns :: t' =>
        match typesA ns.toNat t' with
        | none => .fail
        | some (ty, t'') => .ok (some ⟨np, ty, t''⟩)
      | _ => .fail
    else scanA mdim t
  | _ :: t => scanA mdim t

/-- One number. -/
def realA (fl : R → R) : List (Tok R) → Option (R × List (Tok R))
  | .real x :: t => some (fl x, t)
  | _ => none

/-- `n` times the same reading. -/
def many {α β : Type} (f : List α → Option (β × List α)) : Nat → List α → Option (List β × List α)
  | 0, t => some ([], t)
  | n + 1, t =>
    match f t with
    | none => none
    | some (x, t') => (many f n t').map fun r => (x :: r.1, r.2)

/-- The values of all solutions at one vertex: `MMG5_readDoubleSol3D` 2271-2308, `MMG2D_readDoubleSol` 878-895. -/
def vert {α : Type} (L : Lib) (f : List α → Option (R × List α)) : List Nat → List α → Option (List (List R) × List α)
  | [], t => some ([], t)
  | n :: ns, t =>
    match many f n t with
    | none => none
    | some (x, t') => (vert L f ns t').map fun r => ((match L with | .d3 => swap23 x | .d2 => x) :: r.1, r.2)

/-- Result of a reading: types of the solutions; values for each vertex and solution. -/
structure Loaded (R : Type) where
  types : List Int
  vals : List (List (List R))

/-- Sizes of the solutions, `none` when a type is refused. -/
def sizes (L : Lib) : List Int → Option (List Nat)
  | [] => some []
  | t :: ts =>
    match L.size t, sizes L ts with
    | some n, some ns => some (n :: ns)
    | _, _ => none

/-- What is common to the four functions after the header: `mesh->np != np`, the test `chk` on the types, the reading. -/
def load {α : Type} (L : Lib) (chk : List Int → Outcome Unit) (mnp : Nat) (f : List α → Option (R × List α))
    (h : Outcome (Option (Hdr α))) : Outcome (Loaded R) :=
  match h with
  | .ub => .ub
  | .fail => .fail
  | .ok none => .ub
  | .ok (some h) =>
    if h.np ≠ mnp then .fail
    else
      match chk h.types with
      | .ub => .ub
      | .fail => .fail
      | .ok _ =>
        match sizes L h.types with
        | none => .fail
        | some ns =>
          match many (vert L f ns) mnp h.rest with
          | none => .fail
          | some r => .ok ⟨h.types, r.1⟩

/-- `nsols!=1` and `MMG5_chkMetricType`, inout.c 2663-2697; `lag`: Lagrangian mode. -/
def chkOne (lag : Bool) : List Int → Outcome Unit
  | [t] => if lag then (if t ≠ 2 then .fail else .ok ()) else if t ≠ 1 ∧ t ≠ 3 then .fail else .ok ()
  | _ => .fail

/-- `nsols > MMG5_NSOLS_MAX` (100), then `(*sol)[0].ver`, inout_3d.c 2251, 2288. -/
def chkAll (l : List Int) : Outcome Unit := if 100 < l.length then .fail else if l.length = 0 then .ub else .ok ()

/-- `loadSol` and `loadAllSols` on an ASCII file: the precision is that of the structure (`fl`: rounding if it is single). -/
def loadA (L : Lib) (chk : List Int → Outcome Unit) (mdim : Int) (mnp : Nat) (fl : R → R) (file : List (Tok R)) : Outcome (Loaded R) :=
  load L chk mnp (realA fl) (scanA mdim file)

/-! ### Binary files -/

/-- Coding of numbers by 4 and 8 bytes. -/
structure Codec (R B : Type) where
  e4 : Int → List B
  d4 : List B → Int
  e8 : R → List B
  d8 : List B → R
  l4 : ∀ n, (e4 n).length = 4
  l8 : ∀ x, (e8 x).length = 8
  r4 : ∀ n, -2 ^ 31 ≤ n → n < 2 ^ 31 → d4 (e4 n) = n
  r8 : ∀ x, d8 (e8 x) = x

/-- Values at the entities, with the bytes `sep` after each entity (`fprintf(inm,"\n")`, inout_3d.c 2338, 2406, 2422; inout_2d.c 1653,
1744, 1760: one byte, also in binary files). -/
def bodyB (C : Codec R B) (sep : List B) (J : Job R) (metric : Bool) (l : List (Sol R)) (ks : List Nat) : List B :=
  ks.flatMap fun k => (l.flatMap fun s => (out J metric k (s.val k)).flatMap C.e8) ++ sep

/-- `(*bpos)`, inout.c 2462, 2496-2504: 20, 16, and for each solution 4 and the values of the `np` vertices with 8 bytes each. -/
def bpos (L : Lib) (np : Nat) (l : List (Sol R)) : Int :=
  l.foldl (fun p s => p + 4 + ((L.size s.type).getD 0 * 2) * 4 * np) 36

/-- Header of a binary file, inout.c 2454-2516. -/
def headB (C : Codec R B) (J : Job R) (np : Nat) (l : List (Sol R)) : List B :=
  C.e4 1 ++ C.e4 2 ++ C.e4 3 ++ C.e4 20 ++ C.e4 J.dim ++ C.e4 62 ++ C.e4 (bpos J.lib np l) ++ C.e4 np ++ C.e4 l.length ++
  l.flatMap fun s => C.e4 s.type

/-- The binary file of `saveSol`. -/
def saveB (C : Codec R B) (sep : List B) (J : Job R) (np : Nat) (ok : Nat → Bool) (l : List (Sol R)) : List B :=
  headB C J (used np ok).length (atV l) ++ bodyB C sep J true (atV l) (used np ok) ++ C.e4 54

/-- `fread` of `n` bytes. -/
def rd (n : Nat) (t : List B) : Option (List B × List B) := if t.length < n then none else some (t.take n, t.drop n)

def int4 (C : Codec R B) (t : List B) : Option (Int × List B) := (rd 4 t).map fun r => (C.d4 r.1, r.2)

def realB (C : Codec R B) (t : List B) : Option (R × List B) := (rd 8 t).map fun r => (C.d8 r.1, r.2)

/-- The loop on keywords of a binary file, inout.c 2170-2206. -/
def scanB (C : Codec R B) (mdim : Int) (file : List B) : Nat → List B → Outcome (Option (Hdr B))
  | 0, _ => .ok none
  | fuel + 1, t =>
    match int4 C t with
    | none => .fail
    | some (b, t) =>
      if b = 54 then .ok none
      else if b = 3 then
        match int4 C t with
        | none => .fail
        | some (_, t) =>
          match int4 C t with
          | none => .fail
          | some (d, t) => if d ≠ mdim then .fail else scanB C mdim file fuel t
      else if b = 62 then
        match int4 C t with
        | none => .fail
        | some (_, t) =>
          match int4 C t with
          | none => .fail
          | some (np, t) =>
            match int4 C t with
            | none => .fail
            | some (ns, t) =>
              match many (int4 C) ns.toNat t with
              | none => .fail
              | some (ty, t) => .ok (some ⟨np, ty, t⟩)
      else
        match int4 C t with
        | none => .fail
        | some (p, _) => scanB C mdim file fuel (file.drop p.toNat)

/-- The reading of a binary file in double precision (version 2), `loadSol`. -/
def loadB (C : Codec R B) (L : Lib) (chk : List Int → Outcome Unit) (mdim : Int) (mnp : Nat) (file : List B) : Outcome (Loaded R) :=
  match int4 C file with
  | none => .fail
  | some (enc, t) =>
    if enc ≠ 1 then .fail
    else
      match int4 C t with
      | none => .fail
      | some (ver, t) => if ver ≠ 2 then .fail else load L chk mnp (realB C) (scanB C mdim file (file.length + 1) t)

/-! ### Names of files -/

/-- `strstr(s,p)`: what comes before the first occurrence. -/
def cutAt (p : List Char) : List Char → Option (List Char)
  | [] => if p = [] then some [] else none
  | c :: s => if p.isPrefixOf (c :: s) then some [] else (cutAt p s).map (c :: ·)

/-- `strrchr(s,'.')` as a splitting. -/
def lastDot : List Char → Option (List Char × List Char)
  | [] => none
  | c :: s =>
    match lastDot s with
    | some (a, b) => some (c :: a, b)
    | none => if c = '.' then some ([], c :: s) else none

def has (p s : List Char) : Bool := (cutAt p s).isSome

/-- File opened by `MMG5_saveSolHeader`, inout.c 2403-2438, and whether it is binary; `can`: the file can be opened. -/
def nameSave (can : List Char → Bool) (s : List Char) : Outcome (List Char × Bool) :=
  if has ".sol".toList s then (if can s then .ok (s, has ".solb".toList s) else .fail)
  else
    let d := (cutAt ".mesh".toList s).getD s ++ ".sol".toList
    if can d then .ok (d, false)
    else
      match cutAt ".solb".toList d with
      | none => .ub
      | some e => if can (e ++ ".sol".toList) then .ok (e ++ ".sol".toList, true) else .fail

/-- The name without `.mesh` in its last part, inout.c 2091-2101. -/
def nameBase (s : List Char) : List Char :=
  match lastDot s with
  | none => s
  | some (a, b) =>
    match cutAt ".mesh".toList b with
    | none => s
    | some c => a ++ c

/-- File opened by `MMG5_loadSolHeader`, 2091-2127; `there`: the file exists. -/
def nameLoad (there : List Char → Bool) (s : List Char) : Option (List Char × Bool) :=
  let d := nameBase s
  if has ".sol".toList d then (if there d then some (d, has ".solb".toList d) else none)
  else if there (d ++ ".solb".toList) then some (d ++ ".solb".toList, true)
  else if there (d ++ ".sol".toList) then some (d ++ ".sol".toList, false)
  else none

end Mmg.SolIo
