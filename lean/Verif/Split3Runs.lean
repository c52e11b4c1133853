/-
  The symbolic runs of the split functions: for every set of split edges and every outcome of the
  comparisons, the children computed by the model are checked by the kernel.  The general theorems
  follow by naturality (Split3Lemmas), so these finite checks cover all values.
-/
import Verif.Split3Lemmas

namespace Mmg.Split3

/-! ### Attributes -/

def okVert (f : Nat) (x : Tet Pos Sym Sym Sym) : Bool :=
  x.v.length == 4 && x.v.all fun p =>
    match p with
    | .corner i => decide (i < 4)
    | .mid e => decide (e < 6) && f.testBit e
    | .centre => false

def okMain (x : Tet Pos Sym Sym Sym) : Bool :=
  decide (x.edg = specEdg .edge .zero x.v) && decide (x.ref = specFace .face .zero x.v) &&
    decide (x.ftag = specFace .face .zero x.v)

theorem runs_vert : forRuns (fun f cs => (kids f cs).all (okVert f)) = true := by
  decide +kernel

theorem runs_main : forRuns (fun f cs => (kids f cs).all okMain) = true := by
  decide +kernel

theorem runs_some : forRuns (fun f cs => (prog f (ltOf cs)).isSome) = true := by
  decide +kernel

/-- The tags of the edges that lie along an edge of the parent or inside it. -/
theorem runs_tag6 : forRuns (fun f cs => f != 63 || (kids f cs).all fun x =>
    decide (x.tag.length = 6) && (List.range 6).all fun e =>
    (match edgeCarrier x.v e with
      | .edge e' => decide (x.tag.getD e .one = .edge e')
      | .inside => decide (x.tag.getD e .one = .zero)
      | .face _ => true)) = true := by
  decide +kernel

theorem runs_tag : forRuns (fun f cs => f == 63 || (kids f cs).all fun x =>
    decide (x.tag = specTag .edge .strip .zero x.v)) = true := by
  decide +kernel

/-- The branch of `split3op` in which the orientation is not inherited: both comparisons fail. -/
def threeOp : List Nat := [35, 19, 13, 37, 22, 28, 26, 14, 49, 50, 44, 41]

theorem runs_ori : forRuns (fun f cs => (decide (f ∈ threeOp) && decide (cs = [])) ||
    (kids f cs).all fun x => decide (x.ori = specFace .face .one x.v)) = true := by
  decide +kernel

/-! ### Simulations -/

def symV : List Pos := [.corner 0, .corner 1, .corner 2, .corner 3]

theorem runs_sim : forRuns (fun f cs =>
    decide ((simList f (ltOf cs)).map (fun cl => cl.2.map (simTet cl.1 Pos.mid symV)) =
      some ((kids f cs).map (·.v)))) = true := by
  decide +kernel

/-! ### Volumes at the ends of the edges -/

/-- Corner reached by a place when the points of the edges of `b` go to the second end and the
others to the first one. -/
def collapse (b : List Nat) : Pos → Nat
  | .corner i => i
  | .mid e => if e ∈ b then (iare.getD e (0, 0)).2 else (iare.getD e (0, 0)).1
  | .centre => 0

/-- Sign of a quadruple of corners; `0` when two of them are equal. -/
def sgn (a b c d : Nat) : Int :=
  if a = b ∨ a = c ∨ a = d ∨ b = c ∨ b = d ∨ c = d then 0
  else
    if ((decide (a < b)) ^^ (decide (a < c)) ^^ (decide (a < d)) ^^ (decide (b < c)) ^^
      (decide (b < d)) ^^ (decide (c < d))) then -1 else 1

def sgnOf (b : List Nat) (ps : List Pos) : Int :=
  sgn (collapse b (ps.getD 0 .centre)) (collapse b (ps.getD 1 .centre))
    (collapse b (ps.getD 2 .centre)) (collapse b (ps.getD 3 .centre))

/-- The split edges. -/
def edgesOf (f : Nat) : List Nat := (List.range 6).filter fun e => f.testBit e

/-- Number of occurrences of the point of an edge. -/
def occ (ps : List Pos) (e : Nat) : Nat := ps.count (.mid e)

theorem runs_occ : forRuns (fun f cs => (kids f cs).all fun x =>
    (List.range 6).all fun e => decide (occ x.v e ≤ 1)) = true := by
  decide +kernel

theorem runs_sum : forRuns (fun f cs => (subs (edgesOf f)).all fun b =>
    decide (((kids f cs).map fun x => sgnOf b x.v).sum = 1)) = true := by
  decide +kernel

theorem runs_nonneg : forRuns (fun f cs => (subs (edgesOf f)).all fun b =>
    (kids f cs).all fun x => decide (0 ≤ sgnOf b x.v)) = true := by
  decide +kernel

theorem runs_pos : forRuns (fun f cs => (kids f cs).all fun x =>
    (subs (edgesOf f)).any fun b => decide (0 < sgnOf b x.v)) = true := by
  decide +kernel

end Mmg.Split3
