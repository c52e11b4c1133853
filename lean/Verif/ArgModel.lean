/-
  C98. The command line of the 2D program: `MMG2D_parsar`, mmg2d/libmmg2d_tools.c 102-521.

  An argument is the list of its characters.  The functions of the C library and the setters of the API are an environment: `strtof` gives
  the value and what is left of the text, a setter answers `none` if it refuses.  The program gives a solution structure `sol` and a metric
  structure `met` (mmg2d.c 305-326).  File names are kept as they are given to the functions that set them; that these functions get their
  memory is assumed.
-/
import Mathlib.Data.List.Basic

namespace Mmg.Arg

abbrev Arg := List Char

/-- Integer parameters set by the command line (libmmg2d.h, `MMG2D_Param`). -/
inductive IP
  | verbose | mem | debug | angle | iso | isosurf | isoref | lag | medit | numsubdomain | noinsert | noswap | nomove | nosurf | nreg | xreg
  | nosizreq | nofem | opnbdy | optim
  deriving DecidableEq

/-- Real parameters. -/
inductive DP
  | angleDetection | hmin | hmax | hsiz | hausd | hgrad | hgradreq | ls | xreg | rmc
  deriving DecidableEq

/-- The environment: `mode` tells whether the program cuts a mesh along an isovalue or moves it (`iso || isosurf || lag >= 0`),
`unset` whether the verbosity is the initial one (-99). -/
structure Env (K σ : Type) where
  strtof : Arg → K × Arg
  zero : K
  atoi : Arg → Int
  setI : IP → Int → σ → Option σ
  setD : DP → K → σ → Option σ
  tensor : σ → Option σ
  dflt : σ → σ
  mode : σ → Bool
  unset : σ → Bool

/-- Parameters and the names that were set: input mesh, output mesh, parameter file, metric, solution, output metric. -/
structure St (σ : Type) where
  par : σ
  inp : Option Arg
  out : Option Arg
  fpar : Option Arg
  met : Option Arg
  sol : Option Arg
  metOut : Option Arg
  deriving DecidableEq

/-- `ok`, the answer 0, or a null pointer given to `atoi` or to `%s`. -/
inductive Res (α : Type)
  | ok (a : α)
  | fail
  | ub

variable {K σ : Type}

/-- A parameter is set; the answer 0 of the setter stops the program.  `b`: one further argument was used. -/
def put (r : Option σ) (s : St σ) (b : Bool) : Res (St σ × Bool) :=
  match r with
  | some p => .ok ({ s with par := p }, b)
  | none => .fail

/-- First character, `'\0'` at the end of the text. -/
def hd (a : Arg) : Char := a.headD '\x00'

/-- `val = strtof(argv[i+1],&endptr); endptr == &(argv[i+1][strlen(argv[i+1])])`. -/
def num (E : Env K σ) (a : Arg) : Option K := if (E.strtof a).2 = [] then some (E.strtof a).1 else none

/-- `isascii(argv[i][0]) && argv[i][0]!='-'`. -/
def isFile (a : Arg) : Bool := (hd a).val < 128 && hd a != '-'

/-- A number has to follow, lines 127-145 and 204-216. -/
def needNum (E : Env K σ) (p : DP) (next : Option Arg) (s : St σ) : Res (St σ × Bool) :=
  match next with
  | none => .fail
  | some b =>
    match num E b with
    | some v => put (E.setD p v s.par) s true
    | none => .fail

/-- A number may follow, lines 259-266. -/
def optNum (E : Env K σ) (p : DP) (next : Option Arg) (s : St σ) : Res (St σ × Bool) :=
  match next with
  | none => .ok (s, false)
  | some b =>
    match num E b with
    | some v => put (E.setD p v s.par) s true
    | none => .ok (s, false)

/-- `++i < argc && isdigit(argv[i][0])`, lines 245-253. -/
def needDig (E : Env K σ) (p : IP) (next : Option Arg) (s : St σ) : Res (St σ × Bool) :=
  match next with
  | none => .fail
  | some b => if (hd b).isDigit then put (E.setI p (E.atoi b) s.par) s true else .fail

/-- A file name has to follow, lines 160-169. -/
def needFile (next : Option Arg) (f : Arg → St σ) : Res (St σ × Bool) :=
  match next with
  | none => .fail
  | some b => if isFile b then .ok (f b, true) else .fail

/-- First a parameter, then the rest. -/
def andThen (r : Option σ) (s : St σ) (f : St σ → Res (St σ × Bool)) : Res (St σ × Bool) :=
  match r with
  | some p => f { s with par := p }
  | none => .fail

/-- An argument that is no option, lines 455-473. -/
def bare (E : Env K σ) (a : Arg) (s : St σ) : Res (St σ × Bool) :=
  if s.inp = none then
    let s := { s with inp := some a }
    if E.unset s.par then put (E.setI .verbose 5 s.par) s false else .ok (s, false)
  else if s.out = none then .ok ({ s with out := some a }, false)
  else .fail

/-- One turn of the second loop, lines 124-473: argument `a`, the one after it, and the state. -/
def step (E : Env K σ) (a : Arg) (next : Option Arg) (s : St σ) : Res (St σ × Bool) :=
  if hd a ≠ '-' then bare E a s
  else
    match hd a.tail with
    | 'a' => if a = "-ar".toList then needNum E .angleDetection next s else .ok (s, false)
    | 'A' => put (E.tensor s.par) s false
    | 'd' => if a = "-default".toList then .ok ({ s with par := E.dflt s.par }, false) else put (E.setI .debug 1 s.par) s false
    | 'f' => if a = "-f".toList then needFile next (fun b => { s with fpar := some b }) else .ok (s, false)
    | 'h' =>
      if next = none then .fail
      else if a = "-hmin".toList then needNum E .hmin next s
      else if a = "-hmax".toList then needNum E .hmax next s
      else if a = "-hsiz".toList then needNum E .hsiz next s
      else if a = "-hausd".toList then needNum E .hausd next s
      else if a = "-hgradreq".toList then needNum E .hgradreq next s
      else if a = "-hgrad".toList then needNum E .hgrad next s
      else .fail
    | 'i' =>
      if a = "-in".toList then
        match next with
        | none => .ub
        | some b => if isFile b then put (E.setI .verbose 5 s.par) { s with inp := some b } true else .fail
      else if a = "-isoref".toList then
        match next with
        | none => .ub
        | some b => put (E.setI .isoref (E.atoi b) s.par) s true
      else .fail
    | 'l' =>
      if a = "-lag".toList then needDig E .lag next s
      else if a = "-ls".toList then andThen (E.setI .iso 1 s.par) s (optNum E .ls next)
      else if a = "-lssurf".toList then andThen (E.setI .isosurf 1 s.par) s (optNum E .ls next)
      else .ok (s, false)
    | 'm' =>
      if a = "-met".toList then needFile next (fun b => { s with met := some b })
      else if a = "-m".toList then needDig E .mem next s
      else .ok (s, false)
    | 'n' =>
      andThen (if a = "-nofem".toList then E.setI .nofem 1 s.par else some s.par) s fun s =>
      if a = "-nreg".toList then put (E.setI .nreg 1 s.par) s false
      else if a = "-nr".toList then put (E.setI .angle 0 s.par) s false
      else if a = "-nsd".toList then needDig E .numsubdomain next s
      else if a = "-noswap".toList then put (E.setI .noswap 1 s.par) s false
      else if a = "-noinsert".toList then put (E.setI .noinsert 1 s.par) s false
      else if a = "-nomove".toList then put (E.setI .nomove 1 s.par) s false
      else if a = "-nosurf".toList then put (E.setI .nosurf 1 s.par) s false
      else if a = "-nosizreq".toList then put (E.setI .nosizreq 1 s.par) s false
      else .ok (s, false)
    | 'o' =>
      if a = "-out".toList ∨ a = "-o".toList then needFile next (fun b => { s with out := some b })
      else if a = "-opnbdy".toList then put (E.setI .opnbdy 1 s.par) s false
      else if a = "-optim".toList then put (E.setI .optim 1 s.par) s false
      else .ok (s, false)
    | 'r' => if a = "-rmc".toList then andThen (E.setD .rmc E.zero s.par) s (optNum E .rmc next) else .ok (s, false)
    | 's' => if a = "-sol".toList then needFile next (fun b => { s with sol := some b }) else .ok (s, false)
    | 'v' =>
      match next with
      | none => .fail
      | some b => if hd b = '-' ∨ (hd b).isDigit then put (E.setI .verbose (E.atoi b) s.par) s true else .ok (s, false)
    | 'x' => if a = "-xreg".toList then andThen (E.setI .xreg 1 s.par) s (optNum E .xreg next) else .ok (s, false)
    | '3' => if a = "-3dMedit".toList then needDig E .medit next s else .ok (s, false)
    | _ => .fail

/-- The second loop, lines 122-475. -/
def loop (E : Env K σ) : List Arg → St σ → Res (St σ)
  | [], s => .ok s
  | [a], s =>
    match step E a none s with
    | .ok (s, _) => .ok s
    | .fail => .fail
    | .ub => .ub
  | a :: b :: r, s =>
    match step E a (some b) s with
    | .ok (s, false) => loop E (b :: r) s
    | .ok (s, true) => loop E r s
    | .fail => .fail
    | .ub => .ub

/-- The last part, lines 479-520; `iv` and `nm` are what the user types if asked. -/
def finish (E : Env K σ) (iv : Int) (nm : Arg) (s : St σ) : Res (St σ) :=
  match (if E.unset s.par then E.setI .verbose iv s.par else some s.par) with
  | none => .fail
  | some p =>
    let s := { s with par := p }
    let s := if s.inp = none then { s with inp := some nm } else s
    let s := if s.out = none then { s with out := some [] } else s
    let s := if s.met = none ∧ s.sol ≠ none ∧ E.mode s.par = false then { s with met := s.sol, sol := none } else s
    let s := if E.mode s.par then (if s.sol = none then { s with sol := some [] } else s)
      else (if s.met = none then { s with met := some [] } else s)
    .ok (if s.metOut = none then { s with metOut := some [] } else s)

/-- `MMG2D_parsar`; the arguments without the name of the program. -/
def parsar (E : Env K σ) (iv : Int) (nm : Arg) (args : List Arg) (s : St σ) : Res (St σ) :=
  if args.any (fun a => a = "-val".toList ∨ a = "-?".toList ∨ a = "-h".toList) then .fail
  else
    match loop E args s with
    | .ok s => finish E iv nm s
    | .fail => .fail
    | .ub => .ub

/-! ### Specification: the options as the usage text gives them -/

/-- Options without argument. -/
def flags : List (Arg × IP × Int) :=
  [("-d".toList, .debug, 1), ("-nofem".toList, .nofem, 1), ("-nreg".toList, .nreg, 1), ("-nr".toList, .angle, 0),
   ("-noswap".toList, .noswap, 1), ("-noinsert".toList, .noinsert, 1), ("-nomove".toList, .nomove, 1), ("-nosurf".toList, .nosurf, 1),
   ("-nosizreq".toList, .nosizreq, 1), ("-opnbdy".toList, .opnbdy, 1), ("-optim".toList, .optim, 1)]

/-- Options with a real number. -/
def nums : List (Arg × DP) :=
  [("-ar".toList, .angleDetection), ("-hmin".toList, .hmin), ("-hmax".toList, .hmax), ("-hsiz".toList, .hsiz), ("-hausd".toList, .hausd),
   ("-hgrad".toList, .hgrad), ("-hgradreq".toList, .hgradreq)]

/-- Options with a real number that may be left out; the integer parameter they switch on. -/
def opts : List (Arg × IP × DP) := [("-ls".toList, .iso, .ls), ("-lssurf".toList, .isosurf, .ls), ("-xreg".toList, .xreg, .xreg)]

/-- Options with a natural number. -/
def digs : List (Arg × IP) := [("-lag".toList, .lag), ("-m".toList, .mem), ("-nsd".toList, .numsubdomain), ("-3dMedit".toList, .medit)]

/-- `Item E toks P act`: the arguments `toks` are an option with its argument, or a file name; `act` is their meaning; `P` is what has to hold
of the argument after them. -/
inductive Item (E : Env K σ) : List Arg → (Option Arg → Prop) → (St σ → Option (St σ)) → Prop
  | flag {n p v} (h : (n, p, v) ∈ flags) : Item E [n] (fun _ => True) (fun s => (E.setI p v s.par).map fun q => { s with par := q })
  | num {n p a v} (h : (n, p) ∈ nums) (ha : num E a = some v) :
      Item E [n, a] (fun _ => True) (fun s => (E.setD p v s.par).map fun q => { s with par := q })
  | opt0 {n i p} (h : (n, i, p) ∈ opts) :
      Item E [n] (fun b => ∀ a ∈ b, num E a = none) (fun s => (E.setI i 1 s.par).map fun q => { s with par := q })
  | opt1 {n i p a v} (h : (n, i, p) ∈ opts) (ha : num E a = some v) :
      Item E [n, a] (fun _ => True) (fun s => ((E.setI i 1 s.par).bind (E.setD p v)).map fun q => { s with par := q })
  | rmc0 : Item E ["-rmc".toList] (fun b => ∀ a ∈ b, num E a = none) (fun s => (E.setD .rmc E.zero s.par).map fun q => { s with par := q })
  | rmc1 {a v} (ha : num E a = some v) : Item E ["-rmc".toList, a] (fun _ => True)
      (fun s => ((E.setD .rmc E.zero s.par).bind (E.setD .rmc v)).map fun q => { s with par := q })
  | dig {n p a} (h : (n, p) ∈ digs) (ha : (hd a).isDigit = true) :
      Item E [n, a] (fun _ => True) (fun s => (E.setI p (E.atoi a) s.par).map fun q => { s with par := q })
  | isoref {a} : Item E ["-isoref".toList, a] (fun _ => True) (fun s => (E.setI .isoref (E.atoi a) s.par).map fun q => { s with par := q })
  | aniso : Item E ["-A".toList] (fun _ => True) (fun s => (E.tensor s.par).map fun q => { s with par := q })
  | dflt : Item E ["-default".toList] (fun _ => True) (fun s => some { s with par := E.dflt s.par })
  | verbose {a} (ha : (hd a).isDigit = true ∨ hd a = '-' ∧ (hd a.tail).isDigit = true) :
      Item E ["-v".toList, a] (fun _ => True) (fun s => (E.setI .verbose (E.atoi a) s.par).map fun q => { s with par := q })
  | fin {a} (ha : isFile a = true) :
      Item E ["-in".toList, a] (fun _ => True) (fun s => (E.setI .verbose 5 s.par).map fun q => { s with par := q, inp := some a })
  | fout {n a} (h : n = "-out".toList ∨ n = "-o".toList) (ha : isFile a = true) :
      Item E [n, a] (fun _ => True) (fun s => some { s with out := some a })
  | fsol {a} (ha : isFile a = true) : Item E ["-sol".toList, a] (fun _ => True) (fun s => some { s with sol := some a })
  | fmet {a} (ha : isFile a = true) : Item E ["-met".toList, a] (fun _ => True) (fun s => some { s with met := some a })
  | fpar {a} (ha : isFile a = true) : Item E ["-f".toList, a] (fun _ => True) (fun s => some { s with fpar := some a })
  | name {a} (ha : hd a ≠ '-') : Item E [a] (fun _ => True) (fun s =>
      match s.inp, s.out with
      | none, _ => if E.unset s.par then (E.setI .verbose 5 s.par).map fun q => { s with par := q, inp := some a } else some { s with inp := some a }
      | some _, none => some { s with out := some a }
      | some _, some _ => none)

/-- A command line made of such items, and its meaning: one after the other, refused if one is refused. -/
inductive Line (E : Env K σ) : List Arg → (St σ → Option (St σ)) → Prop
  | nil : Line E [] some
  | cons {t P f r g} (h : Item E t P f) (hr : Line E r g) (hP : P r.head?) : Line E (t ++ r) (fun s => (f s).bind g)

end Mmg.Arg
