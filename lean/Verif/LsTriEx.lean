/-
  C75: concrete cases.
-/
import Verif.LsTriSnap
import Verif.LsEx

namespace Mmg.Ls2.Ex
open Mmg.Split3 Mmg.Ls3 Mmg.Ls3.Ex

def tri (v : List Nat) (ref : Int) (edg : List Int := [0, 0, 0]) : Tri := ⟨v, [0, 0, 0], edg, ref⟩

def pts (p : Nat) : Pt ℚ :=
  [⟨0, 0, 0⟩, ⟨0, 0, 0⟩, ⟨2, 0, 0⟩, ⟨0, 2, 0⟩, ⟨2, 2, 0⟩, ⟨-2, 0, 0⟩].getD p ⟨0, 0, 0⟩

def r0 (_ : Nat) : Int := 0

/-! ### Two triangles cut by the level set -/

def two : List Tri := [tri [1, 2, 3] 1 [0, 7, 10], tri [4, 3, 2] 9]

def val (p : Nat) : ℚ := [0, -1, 1, 1, -3].getD p 0

theorem two_given (E : Env) (hE : E.new = fun i => i + 10) (hk : ∀ n, E.ok n = true) :
    Given E (1/1000) (1/100000) val two where
  small := by norm_num
  pos := by norm_num
  half := by norm_num
  fresh := by
    refine ⟨fun i => by simp [hE], fun i j h => by simpa [hE] using h, ?_⟩
    intro i m hm
    have : ∀ m ∈ two, ∀ p ∈ m.v, p < 10 := by decide
    intro h
    have := this m hm _ h
    simp only [hE] at this
    omega
  wf := by
    intro m hm
    simp only [two, List.mem_cons, List.not_mem_nil, or_false] at hm
    rcases hm with rfl | rfl <;> exact ⟨rfl, rfl, rfl, by decide⟩
  vals := by decide +kernel
  mem := hk

def res (surf : Bool) : Out ℚ := cuttri surf E0 true (1/1000) (1/100000) pts val r0 two

/-- Each triangle is cut in three; the point of the edge 3 1 of reference 7 gets this reference. -/
example : (res false).ret = 2 ∧ (res false).s.n = 4 ∧ (res false).ms.map (·.v) =
      [[1, 11, 10], [11, 2, 3], [10, 11, 3], [4, 13, 12], [13, 3, 2], [12, 13, 2]] ∧
    (res false).r 10 = 7 ∧ (res false).s.c 10 = ⟨0, 1, 0⟩ := by decide +kernel

example : (res true).ret = 2 ∧ (res true).ms.map (·.v) =
      [[11, 2, 10], [10, 2, 3], [1, 11, 10], [13, 3, 12], [12, 3, 2], [4, 13, 12]] := by decide +kernel

/-- The hypotheses of the theorems hold; after the step the references are right, and so is the second
edge on the level set. -/
example : Given E0 (1/1000) (1/100000) val two ∧ (∀ m ∈ two, ∃ p ∈ m.v, val p ≠ 0) ∧
    (res false).ret ≠ 0 ∧ (res true).ret ≠ 0 ∧
    (discretize false false 10 id E0 true (1/1000) (1/100000) pts val r0 two).map
      (fun o => (o.ms.map (·.ref), o.ms.map (·.edg), (List.range' 10 4).map o.r)) =
      some ([3, 2, 2, 3, 2, 2],
        [[10, 7, 0], [0, 0, 0], [0, 7, 10], [10, 0, 0], [0, 0, 0], [0, 0, 10]], [10, 10, 10, 10]) := by
  refine ⟨two_given E0 rfl fun _ => rfl, by decide +kernel, by decide +kernel, by decide +kernel, by decide +kernel⟩

/-- The hypotheses of C75_restart: the second triangle is not split. -/
def twoMat : List Tri := [tri [1, 2, 3] 1, tri [4, 3, 2] 5]

example : Mat.init 1000 mats [1, 5] = some im ∧ Mat.Unambiguous mats ∧
    (∀ m ∈ twoMat, ∃ row ∈ mats, id m.ref = row.ref) ∧
    (discretize false false 10 id E1 true (1/1000) (1/100000) pts val r0 twoMat).map (fun x => x.ms.map (·.ref)) =
      some [10, 1, 1, 5] :=
  ⟨(Option.some_get _).symm, mats_ok, by decide +kernel, by decide +kernel⟩

/-! ### Snapping -/

def tv (k : Nat) : List Nat := [[1, 2, 3], [3, 4, 1]].getD k []

/-- Vertex 1 is small and in a manifold position, vertex 3 is small and is not. -/
example : (List.range' 1 4).map (snpval (1/100 : ℚ) (fun _ => true)
      (fun _ k i => decide ((tv k).getD i 0 = 1)) (fun _ _ => []) 4 2 tv
      (fun p => [0, 1/1000, 1, -1/1000, -1].getD p 0)) = [0, 1, -1, -1] ∧
    (List.range' 1 4).map (snpval (1/100 : ℚ) (fun _ => true)
      (fun _ _ _ => false) (fun _ _ => []) 4 2 tv
      (fun p => [0, 1/1000, 1, 1, -1].getD p 0)) = [1, 1, 1, -1] := by decide +kernel

/-! ### What is not protected -/

/-- The ball of vertex 1 in the mesh of the two triangles. -/
def ball1 (k i : Nat) : List (Nat × Nat) :=
  if (k, i) = (0, 0) then [(0, 0), (1, 2)] else if (k, i) = (1, 2) then [(1, 2), (0, 0)] else []

/-- **C75.** Vertex 1 is on the level set, which crosses its ball (vertices 2 and 3 are positive, vertex 4
is negative), and nothing is wrong there; it is taken for an isolated zero, because the second neighbour
in a triangle of the ball is read at the index of another triangle, and is moved away. -/
theorem C75_lone_observed :
    (ball1 0 0).map (fun q => (tv q.1).getD q.2 0) = [1, 1] ∧
    (List.range' 1 4).map (snpval (1/10000 : ℚ) (fun _ => true) (fun _ _ _ => true) ball1 4 2 tv
      (fun p => [0, 0, 1, 1, -1].getD p 0)) = [1/100, 1, 1, -1] := by decide +kernel

/-- The first triangle is not split, its two neighbours are. -/
def three : List Tri := [tri [1, 2, 3] 5, tri [2, 1, 4] 1, tri [1, 3, 5] 1]

def val3 (p : Nat) : ℚ := [0, -1, 1, 1, 1, 1].getD p 0

/-- **C75.** Inside a triangle of a reference that is not split, whose two neighbours are cut, an edge that
is not on the boundary of the two parts gets the reference of the level set. -/
theorem C75_inner_unsplit_observed :
    (discretize false false 10 id E1 true (1/1000) (1/100000) pts val3 r0 three).map
      (fun o => (o.ms.take 3).map fun x => (x.v, x.ref, x.edg)) =
      some [([1, 11, 13], 5, [10, 0, 0]), ([11, 2, 3], 5, [0, 0, 0]), ([13, 11, 3], 5, [0, 0, 10])] := by
  decide +kernel

/-- **C75.** A triangle whose three vertices are on the level set is put in the inner part. -/
theorem C75_flat_observed :
    (discretize false false 10 id E0 true (1/1000) (1/100000) pts (fun p => if p = 4 then (1 : ℚ) else 0) r0 two).map
      (fun o => o.ms.map fun x => (x.v, x.ref)) = some [([1, 2, 3], 3), ([4, 3, 2], 2)] := by decide +kernel

/-- **C75.** When the level set only crosses references that are not split, an error is returned though
nothing has to be done. -/
theorem C75_only_unsplit_observed :
    discretize false false 10 id E1 true (1/1000) (1/100000) pts val r0 [tri [1, 2, 3] 5] = none ∧
    (discretize false false 10 id E1 true (1/1000) (1/100000) pts (fun _ => (1 : ℚ)) r0 [tri [1, 2, 3] 5]).isSome := by
  constructor
  · rw [← Option.isNone_iff_eq_none]
    decide +kernel
  · decide +kernel

end Mmg.Ls2.Ex
