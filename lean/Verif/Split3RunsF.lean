/-
  The symbolic runs of the split functions: traces on the faces of the parent and inner faces.
-/
import Verif.Split3Lemmas
import Mathlib.Data.Multiset.Dedup

namespace Mmg.Split3

/-- Place of the point of edge `e`, if there is one. -/
def midOpt (f e : Nat) : Option Pos := if f.testBit e then some (.mid e) else none

/-- Result of a comparison between two corners, from the list of the comparisons that hold. -/
def cmpAt (f : Nat) (cs : List (Nat × Nat)) (i j : Nat) : Bool :=
  if (i, j) ∈ queries f then decide ((i, j) ∈ cs) else !decide ((j, i) ∈ cs)

/-- Corners and edges (`ab`, `ac`, `bc`) of a face. -/
def faceIdx (g : Nat) : (Nat × Nat × Nat) × (Nat × Nat × Nat) :=
  [((1, 2, 3), (3, 4, 5)), ((0, 2, 3), (1, 2, 5)), ((0, 1, 3), (0, 2, 4)),
    ((0, 1, 2), (0, 1, 3))].getD g ((0, 0, 0), (0, 0, 0))

/-- Symbolic trace on face `g`. -/
def symCut (f : Nat) (cs : List (Nat × Nat)) (g : Nat) : Multiset (Multiset Pos) :=
  let c := (faceIdx g).1
  let m := (faceIdx g).2
  cut (.corner c.1) (.corner c.2.1) (.corner c.2.2) (midOpt f m.1) (midOpt f m.2.1)
    (midOpt f m.2.2) (cmpAt f cs c.1 c.2.1) (cmpAt f cs c.1 c.2.2) (cmpAt f cs c.2.1 c.2.2)

def symTraces (f : Nat) (cs : List (Nat × Nat)) : Multiset (Multiset Pos) :=
  symCut f cs 0 + symCut f cs 1 + symCut f cs 2 + symCut f cs 3

/-- Faces of the children that lie inside the parent, once each. -/
def symInner (f : Nat) (cs : List (Nat × Nat)) : Multiset (Multiset Pos) :=
  (((kids f cs).flatMap fun x => (List.range 4).filterMap fun g =>
    if faceCarrier x.v g = .inside then some (faceTri .centre x.v g) else none).dedup :
      List (Multiset Pos))

/-- The comparisons of a cone are transitive: `q1` is `a < b`, `q2` is `c < a`, `q3` is
`c < b`. -/
def transitive (f : Nat) (cs : List (Nat × Nat)) : Bool :=
  match queries f with
  | [q1, q2, q3] => !((q1 ∈ cs && q2 ∈ cs && q3 ∉ cs) || (q1 ∉ cs && q2 ∉ cs && q3 ∈ cs))
  | _ => true

theorem runs_faces : forRuns (fun f cs => !transitive f cs ||
    decide (allFaces .centre ((kids f cs).map (·.v)) =
      symTraces f cs + symInner f cs + symInner f cs)) = true := by
  decide +kernel

theorem runs_nodup : forRuns (fun f cs => decide (symTraces f cs + symInner f cs).Nodup) = true := by
  decide +kernel

end Mmg.Split3
