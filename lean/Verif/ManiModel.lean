/-
  Model of the check that the two parts of a discretized level set are manifold: `MMG5_chkmaniball` and
  `MMG5_chkmanimesh` (common/mmg2.c 1293-1504).

  Simplifications.  The loops have a number of steps at least equal to the number of triangles; `none` is a
  loop that has not ended.  The first check of `MMG5_chkmanimesh` only prints a warning and is left out.  The assertions are not evaluated
  (release mode).
-/
import Mathlib.Tactic.Basic
import Mathlib.Data.Nat.Notation

namespace Mmg.Mani

/-- Triangles: neighbour and its edge (`adja / 3`, `adja % 3`; 0: none), reference, references of the edges, number of
triangles, used ones. -/
structure Mesh where
  adj : Nat → Nat → Nat × Nat
  ref : Nat → Int
  edg : Nat → Nat → Int
  nt : Nat
  ok : Nat → Bool
  iso : Int

/-- `MMG5_inxt2`, `MMG5_iprv2`. -/
def inxt (i : Nat) : Nat := [1, 2, 0].getD i 0
def iprv (i : Nat) : Nat := [2, 0, 1].getD i 0

/-- The loop `do ... while ( k != start )` of the function: `nx` is the direction (`inxt` or `iprv`), `stop` the test
on the triangle and edge reached. -/
def walk (M : Mesh) (nx : Nat → Nat) (stop : Nat × Nat → Bool) (start : Nat) : Nat → Nat × Nat → Option (Nat × Nat)
  | 0, _ => none
  | fuel + 1, (k, i) =>
    let q := M.adj k (nx i)
    if q.1 = 0 then some q
    else if stop q then some q
    else if q.1 = start then some (q.1, nx q.2)
    else walk M nx stop start fuel (q.1, nx q.2)

/-- Test of the loops: in the mode that keeps the references an edge of the level set; else a change of reference
(`same`: that the reference is again the first one). -/
def stop (M : Mesh) (keep : Bool) (r : Int) (same : Bool) (q : Nat × Nat) : Bool :=
  if keep then decide (M.edg q.1 q.2 = M.iso) else if same then decide (M.ref q.1 = r) else decide (M.ref q.1 ≠ r)

/-- `MMG5_chkmaniball`. -/
def chkmaniball (M : Mesh) (keep : Bool) (start istart : Nat) : Option Bool :=
  let r := M.ref start
  (walk M inxt (stop M keep r false) start (M.nt + 1) (start, istart)).bind fun q =>
    if q.1 = 0 then
      let q := M.adj start (iprv istart)
      if q.1 = 0 then some true
      else (walk M iprv (stop M keep r true) start (M.nt + 1) (q.1, iprv q.2)).map fun q => decide (q.1 = 0)
    else (walk M inxt (stop M keep r true) start (M.nt + 1) (q.1, inxt q.2)).map fun q => decide (q.1 = start)

/-- A corner examined by `MMG5_chkmanimesh`. -/
def onFront (M : Mesh) (keep : Bool) (k i : Nat) : Bool :=
  if (M.adj k i).1 = 0 then false
  else if keep then decide (M.edg k i = M.iso)
  else !(decide (M.ref k = M.ref (M.adj k i).1) || decide (M.edg k i ≠ M.iso))

/-- `MMG5_chkmanimesh`. -/
def chkmanimesh (M : Mesh) (keep : Bool) : List (Nat × Nat) → Option Bool
  | [] => some true
  | (k, i) :: l =>
    if M.ok k && onFront M keep k i then
      (chkmaniball M keep k (inxt i)).bind fun b => if b then chkmanimesh M keep l else some false
    else chkmanimesh M keep l

/-- The corners, in the order of the loops. -/
def corners (M : Mesh) : List (Nat × Nat) := (List.range' 1 M.nt).flatMap fun k => [(k, 0), (k, 1), (k, 2)]

end Mmg.Mani
