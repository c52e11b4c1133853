/-
  C99. The file of local parameters: `-default` writes it (`MMG2D_writeLocalParam`, mmg2d/mmg2d.c 51-172, with `MMG5_Add_inode` and
  `MMG5_countLocalParamAtTri`, `MMG5_writeLocalParamAtTri`, common/apptools.c 69-204), `MMG2D_parsop` reads it
  (mmg2d/libmmg2d_tools.c 547-688).

  A file is a list of words separated by white space; `nl` tells whether white space follows the last one.  Numbers that are not whole are
  kept as they are written (`R`): `pos` tells whether such a text is positive as a `float`, `whole` is the text of a whole number.
  Left out: the sections `LSReferences` and `LSBaseReferences`, a number read with `%d` that is not whole, a negative number of
  parameters (outcome `other`), and failures of memory.
-/
import Mathlib.Data.List.Sort
import Mathlib.Data.Int.Order.Basic

namespace Mmg.ParFile

/-! ### The sorted list of references -/

/-- The search in `MMG5_Add_inode`, apptools.c 86-95, from the node `c` on. -/
def walk (v : Int) (c : Int) : List Int → List Int × Bool
  | [] => if v = c then ([c], false) else ([c, v], true)
  | y :: ys =>
    if y ≤ v then
      let r := walk v y ys
      (c :: r.1, r.2)
    else if v = c then (c :: y :: ys, false) else (c :: v :: y :: ys, true)

/-- `MMG5_Add_inode`, apptools.c 69-108: the list and whether a node was added. -/
def add (v : Int) : List Int → List Int × Bool
  | [] => ([v], true)
  | x :: xs => if v < x then (v :: x :: xs, true) else if v = x then (x :: xs, false) else walk v x xs

/-- `MMG2D_countLocalParamAtEdg`, mmg2d.c 51-85, `MMG5_countLocalParamAtTri`, apptools.c 137-171; `cut` is the conversion to `int` of the
argument of `MMG5_Add_inode`.  The list and the number. -/
def count (cut : Int → Int) (refs : List Int) : List Int × Nat :=
  let first := match refs with
    | [] => 0
    | r :: _ => r
  refs.foldl (fun a r => let b := add (cut r) a.1; (b.1, if b.2 then a.2 + 1 else a.2)) ((add (cut first) []).1, 1)

/-! ### The file -/

variable {R : Type}

inductive Kind
  | edge | tria
  deriving DecidableEq

inductive Tok (R : Type)
  | word (w : List Char)
  | int (n : Int)
  | real (r : R)

/-- One line, mmg2d.c 102-104, apptools.c 192-194. -/
def line (k : Kind) (h : R × R × R) (r : Int) : List (Tok R) :=
  [.int r, .word (match k with | .edge => "Edge".toList | .tria => "Triangle".toList), .real h.1, .real h.2.1, .real h.2.2]

/-- `MMG2D_writeLocalParam`, mmg2d.c 121-172. -/
def write (cut : Int → Int) (h : R × R × R) (edges trias : List Int) : List (Tok R) :=
  let e := count cut edges
  let t := count cut trias
  [.word "parameters".toList, .int (t.2 + e.2 : Nat)] ++ e.1.flatMap (line .edge h) ++ t.1.flatMap (line .tria h)

/-! ### The table of local parameters -/

structure Par (R : Type) where
  elt : Kind
  ref : Int
  h : R × R × R

/-- `npar` and the entries that are set. -/
structure Tab (R : Type) where
  npar : Nat
  par : List (Par R)

inductive Res (α : Type)
  | ok (a : α)
  | fail
  | ub
  | other

/-- The loop of `MMG2D_Set_localParameter`, API_functions_2d.c 424-439: the first entry of the kind and reference is changed. -/
def upd (k : Kind) (ref : Int) (h : R × R × R) : List (Par R) → List (Par R)
  | [] => []
  | p :: ps => if p.elt = k ∧ p.ref = ref then { p with h := h } :: ps else p :: upd k ref h ps

/-- `MMG2D_Set_localParameter`, mmg2d/API_functions_2d.c 380-465. -/
def setLocal (pos : R → Bool) (k : Kind) (ref : Int) (h : R × R × R) (t : Tab R) : Option (Tab R) :=
  if t.npar = 0 then none
  else if t.npar ≤ t.par.length then none
  else if ref < 0 then none
  else if !pos h.1 then none
  else if !pos h.2.1 then none
  else if !pos h.2.2 then none
  else if t.par.any (fun p => p.elt = k ∧ p.ref = ref) then
    some { t with par := upd k ref h t.par }
  else some { t with par := t.par ++ [⟨k, ref, h⟩] }

/-! ### Reading -/

/-- The variables of `MMG2D_parsop`; `none`: without value. -/
structure Vars (R : Type) where
  ref : Option Int
  data : List Char
  f1 : Option R
  f2 : Option R
  f3 : Option R

/-- `%f` on one word. -/
def getF (whole : Int → R) : Tok R → Option R
  | .word _ => none
  | .int n => some (whole n)
  | .real r => some r

/-- `fscanf(in,"%f %f %f",..)`: the number of values read (`none`: end of file before the first) and what is left. -/
def scan3 (whole : Int → R) (v : Vars R) (toks : List (Tok R)) : Option Nat × Vars R × List (Tok R) :=
  match toks with
  | [] => (none, v, [])
  | a :: r =>
    match getF whole a with
    | none => (some 0, v, a :: r)
    | some x =>
      let v := { v with f1 := some x }
      match r with
      | [] => (some 1, v, [])
      | b :: r =>
        match getF whole b with
        | none => (some 1, v, b :: r)
        | some x =>
          let v := { v with f2 := some x }
          match r with
          | [] => (some 2, v, [])
          | c :: r =>
            match getF whole c with
            | none => (some 2, v, c :: r)
            | some x => (some 3, { v with f3 := some x }, r)

/-- `%255s` on a word of any kind; `txt` gives the characters of numbers. -/
def chars (txt : Tok R → List Char) : Tok R → List Char
  | .word w => w
  | t => txt t

/-- `fscanf(in,"%d %255s",&ref,data)`; `none` in the last place: a number that is not whole. -/
def scan2 (txt : Tok R → List Char) (v : Vars R) (toks : List (Tok R)) : Option (Option Nat × Vars R × List (Tok R)) :=
  match toks with
  | [] => some (none, v, [])
  | .word w :: r => some (some 0, v, .word w :: r)
  | .real _ :: _ => none
  | .int n :: r =>
    let v := { v with ref := some n }
    match r with
    | [] => some (some 1, v, [])
    | a :: r => some (some 2, { v with data := chars txt a }, r)

/-- The call of `MMG2D_Set_localParameter` with the values of the variables, libmmg2d_tools.c 650-659. -/
def store (pos : R → Bool) (v : Vars R) (toks : List (Tok R)) (t : Tab R) (k : Kind) : Res (Vars R × List (Tok R) × Tab R) :=
  match v.ref, v.f1, v.f2, v.f3 with
  | some n, some a, some b, some c =>
    match setLocal pos k n (a, b, c) t with
    | some t => .ok (v, toks, t)
    | none => .fail
  | _, _, _, _ => .ub

/-- The word between the reference and the values, libmmg2d_tools.c 649-663. -/
def kind (d : List Char) : Option Kind :=
  if d = "triangles".toList ∨ d = "triangle".toList then some .tria
  else if d = "edges".toList ∨ d = "edge".toList then some .edge
  else none

/-- One turn of the loop over the parameters, libmmg2d_tools.c 641-663. -/
def turn (txt : Tok R → List Char) (whole : Int → R) (pos : R → Bool) (v : Vars R) (toks : List (Tok R)) (t : Tab R) :
    Res (Vars R × List (Tok R) × Tab R) :=
  match scan2 txt v toks with
  | none => .other
  | some q =>
    let r := if q.1 = some 0 then q else scan3 whole q.2.1 q.2.2
    if r.1 = some 0 then .fail
    else
      let v : Vars R := { r.2.1 with data := r.2.1.data.map Char.toLower }
      match kind v.data with
      | some k => store pos v r.2.2 t k
      | none => .fail

/-- The loop, libmmg2d_tools.c 640-664. -/
def turns (txt : Tok R → List Char) (whole : Int → R) (pos : R → Bool) : Nat → Vars R → List (Tok R) → Tab R →
    Res (Vars R × List (Tok R) × Tab R)
  | 0, v, toks, t => .ok (v, toks, t)
  | n + 1, v, toks, t =>
    match turn txt whole pos v toks t with
    | .ok (v, toks, t) => turns txt whole pos n v toks t
    | .fail => .fail
    | .ub => .ub
    | .other => .other

/-- `MMG5_LPARMAX`, mmgcommon_private.h 67. -/
def lparmax : Int := 200

/-- The section `parameters`, libmmg2d_tools.c 623-666; `MMG2D_Set_iparameter` empties the table. -/
def section_ (txt : Tok R → List Char) (whole : Int → R) (pos : R → Bool) (v : Vars R) (toks : List (Tok R)) (t : Tab R) :
    Res (Vars R × List (Tok R) × Tab R) :=
  match toks with
  | [] => .ub
  | .word _ :: _ => .fail
  | .real _ :: _ => .other
  | .int n :: toks =>
    if lparmax < n then .fail
    else if n = 0 then .ok (v, toks, t)
    else if n < 0 then .other
    else turns txt whole pos n.toNat v toks ⟨n.toNat, []⟩

/-- The main loop of `MMG2D_parsop`, libmmg2d_tools.c 589-686, at most `fuel` sections. -/
def read (txt : Tok R → List Char) (whole : Int → R) (pos : R → Bool) (nl : Bool) : Nat → Vars R → List (Tok R) → Tab R → Res (Tab R)
  | 0, _, _, _ => .other
  | fuel + 1, v, toks, t =>
    match toks with
    | [] => .ok t
    | a :: r =>
      if r.isEmpty && !nl then .ok t
      else
        let d := (chars txt a).map Char.toLower
        if d = "lsreferences".toList ∨ d = "lsbasereferences".toList then .other
        else if d = "parameters".toList then
          match section_ txt whole pos { v with data := d } r t with
          | .ok (v, r, t) => read txt whole pos nl fuel v r t
          | .fail => .fail
          | .ub => .ub
          | .other => .other
        else .fail

/-- At the beginning. -/
def start : Vars R := ⟨none, [], none, none, none⟩

end Mmg.ParFile
