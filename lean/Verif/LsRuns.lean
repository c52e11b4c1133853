/-
  Signs of the children of a tetrahedron cut along a level set: the symbolic runs.
-/
import Verif.LsModel

namespace Mmg.Ls3
open Mmg.Split3

/-- Signs: 0, 1 (positive), 2 (negative). -/
def opp (a b : Nat) : Bool := (a == 1 && b == 2) || (a == 2 && b == 1)

/-- The edges whose ends have opposite signs. -/
def flagS (σ : List Nat) : Nat :=
  flagOf fun e => if opp (σ.getD (iare.getD e (0, 0)).1 0) (σ.getD (iare.getD e (0, 0)).2 0) then 1 else 0

def signs : List (List Nat) :=
  [0, 1, 2].flatMap fun a => [0, 1, 2].flatMap fun b => [0, 1, 2].flatMap fun c =>
    [0, 1, 2].map fun d => [a, b, c, d]

/-- Sign at a place: the value is 0 at the new points. -/
def sgAt (σ : List Nat) : Pos → Nat
  | .corner i => σ.getD i 0
  | _ => 0

/-- One sign only, and not only zeros. -/
def oneSide (l : List Nat) : Bool := (l.all (· != 1) || l.all (· != 2)) && l.any (· != 0)

theorem runs_sides : ∀ σ ∈ signs, flagS σ ≠ 0 → flagS σ ∈ patterns ∧
    ∀ cs ∈ subs (queries (flagS σ)), ∀ x ∈ kids (flagS σ) cs,
      oneSide (x.v.map (sgAt σ)) = true := by
  decide +kernel

/-- If there are not two corners of each sign, any subset of the edges with opposite signs is one of
the cases. -/
theorem runs_subsets : ∀ σ ∈ signs, (σ.count 1 ≠ 2 ∨ σ.count 2 ≠ 2) → ∀ f < 64,
    (∀ e < 6, f.testBit e = true → (flagS σ).testBit e = true) → f = 0 ∨ f ∈ patterns := by
  decide +kernel

end Mmg.Ls3
