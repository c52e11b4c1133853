/-
  C100. Local parameters of the surface library: `MMGS_Set_iparameter(MMGS_IPARAM_numberOfLocalParam)` and `MMGS_Set_localParameter`
  (mmgs/API_functions_s.c 1381-1409, 1591-1674), the file written by `-default` (`MMGS_writeLocalParam`, mmgs/mmgs.c 212-253) and its
  reader (`MMGS_parsop`, mmgs/mmgs.c 64-200, called at 491).

  Files, tables and number texts as in `ParFileModel` (all entries have the kind `tria`).  `MMG_FSCANF` (mmgcommon_private.h 464-472, the
  POSIX version) leaves the calling function with -1 if not all values were read.  Left out: sections `LSReferences` and
  `LSBaseReferences`, numbers read with `%d` that are not whole, negative numbers of parameters, failures of memory.
-/
import Verif.ParFileModel

namespace Mmg.ParS

open Mmg.ParFile

variable {R : Type}

/-- `oob`: a write outside the table. -/
inductive Set (R : Type)
  | done (t : Tab R)
  | refused
  | oob

/-- `MMGS_Set_localParameter`, API_functions_s.c 1591-1674; `tri`: the type given is `MMG5_Triangle`.  The table has `npar` places
(1392-1395), the new entry is written at place `npari`, the number of entries. -/
def setLocal (pos : R → Bool) (tri : Bool) (ref : Int) (h : R × R × R) (t : Tab R) : Set R :=
  if t.npar = 0 then .refused
  else if t.npar < t.par.length then .refused
  else if !tri then .refused
  else if ref < 0 then .refused
  else if !pos h.1 then .refused
  else if !pos h.2.1 then .refused
  else if !pos h.2.2 then .refused
  else if t.par.any (fun p => p.elt = .tria ∧ p.ref = ref) then .done { t with par := upd .tria ref h t.par }
  else if t.par.length < t.npar then .done { t with par := t.par ++ [⟨.tria, ref, h⟩] }
  else .oob

/-- The calls of a user. -/
inductive Op (R : Type)
  | number (n : Nat)
  | set (tri : Bool) (ref : Int) (h : R × R × R)

/-- A sequence of calls; `none`: a write outside the table. -/
def run (pos : R → Bool) : Tab R → List (Op R) → Option (Tab R)
  | t, [] => some t
  | _, .number n :: ops => run pos ⟨n, []⟩ ops
  | t, .set tri ref h :: ops =>
    match setLocal pos tri ref h t with
    | .done t => run pos t ops
    | .refused => run pos t ops
    | .oob => none

/-! ### The file -/

/-- `MMGS_writeLocalParam`, mmgs.c 212-253. -/
def write (cut : Int → Int) (h : R × R × R) (trias : List Int) : List (Tok R) :=
  [.word "parameters".toList, .int (count cut trias).2] ++ (count cut trias).1.flatMap (line .tria h)

/-- What a function returns: `ok` 1, `minus` -1 (with what was done until there), `fail` 0. -/
inductive Ret (α β : Type)
  | ok (a : α)
  | minus (b : β)
  | fail
  | ub
  | oob
  | other

/-- The call of `MMGS_Set_localParameter` with the values of the variables, mmgs.c 168-172. -/
def store (pos : R → Bool) (v : Vars R) (toks : List (Tok R)) (t : Tab R) : Ret (Vars R × List (Tok R) × Tab R) (Tab R) :=
  match v.ref, v.f1, v.f2, v.f3 with
  | some n, some a, some b, some c =>
    match setLocal pos true n (a, b, c) t with
    | .done t => .ok (v, toks, t)
    | .refused => .fail
    | .oob => .oob
  | _, _, _, _ => .ub

/-- One turn of the loop, mmgs.c 158-177. -/
def turn (txt : Tok R → List Char) (whole : Int → R) (pos : R → Bool) (v : Vars R) (toks : List (Tok R)) (t : Tab R) :
    Ret (Vars R × List (Tok R) × Tab R) (Tab R) :=
  match scan2 txt v toks with
  | none => .other
  | some q =>
    if q.1 ≠ some 2 then .minus t
    else
      let r := scan3 whole q.2.1 q.2.2
      if r.1 = some 0 then .fail
      else
        let v : Vars R := { r.2.1 with data := r.2.1.data.map Char.toLower }
        if v.data = "triangles".toList ∨ v.data = "triangle".toList then store pos v r.2.2 t
        else .fail

/-- The loop, mmgs.c 157-178. -/
def turns (txt : Tok R → List Char) (whole : Int → R) (pos : R → Bool) : Nat → Vars R → List (Tok R) → Tab R →
    Ret (Vars R × List (Tok R) × Tab R) (Tab R)
  | 0, v, toks, t => .ok (v, toks, t)
  | n + 1, v, toks, t =>
    match turn txt whole pos v toks t with
    | .ok (v, toks, t) => turns txt whole pos n v toks t
    | .minus t => .minus t
    | .fail => .fail
    | .ub => .ub
    | .oob => .oob
    | .other => .other

/-- The section `parameters`, mmgs.c 140-180; the test of `ret` (143) looks at the value of the word before. -/
def section_ (txt : Tok R → List Char) (whole : Int → R) (pos : R → Bool) (v : Vars R) (toks : List (Tok R)) (t : Tab R) :
    Ret (Vars R × List (Tok R) × Tab R) (Tab R) :=
  match toks with
  | [] => .minus t
  | .word _ :: _ => .minus t
  | .real _ :: _ => .other
  | .int n :: toks =>
    if lparmax < n then .fail
    else if n = 0 then .ok (v, toks, t)
    else if n < 0 then .other
    else turns txt whole pos n.toNat v toks ⟨n.toNat, []⟩

/-- What follows a section: `next` reads on. -/
def after (next : Vars R → List (Tok R) → Tab R → Ret (Tab R) (Tab R)) :
    Ret (Vars R × List (Tok R) × Tab R) (Tab R) → Ret (Tab R) (Tab R)
  | .ok (v, r, t) => next v r t
  | .minus t => .minus t
  | .fail => .fail
  | .ub => .ub
  | .oob => .oob
  | .other => .other

/-- The main loop of `MMGS_parsop`, mmgs.c 104-198, at most `fuel` sections. -/
def read (txt : Tok R → List Char) (whole : Int → R) (pos : R → Bool) (nl : Bool) : Nat → Vars R → List (Tok R) → Tab R →
    Ret (Tab R) (Tab R)
  | 0, _, _, _ => .other
  | fuel + 1, v, toks, t =>
    match toks with
    | [] => .ok t
    | a :: r =>
      if r.isEmpty && !nl then .ok t
      else if (chars txt a).map Char.toLower = "lsreferences".toList ∨ (chars txt a).map Char.toLower = "lsbasereferences".toList then .other
      else if (chars txt a).map Char.toLower = "parameters".toList then
        after (read txt whole pos nl fuel) (section_ txt whole pos v r t)
      else .fail

/-- `main`, mmgs.c 491: the table the program goes on with, if it goes on (`if ( !MMGS_parsop(mesh,met) )`). -/
def goesOn : Ret (Tab R) (Tab R) → Option (Tab R)
  | .ok t => some t
  | .minus t => some t
  | _ => none

end Mmg.ParS
