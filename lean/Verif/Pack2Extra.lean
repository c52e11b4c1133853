/- Examples for `Pack2Props`, and inputs for which the full statements of C12 and C56 do not hold. -/
import Verif.Pack2Props
import Mathlib.Tactic.IntervalCases

namespace Mmg.Pack2

open Mmg.Pack3 (upd Elt eok Els has REF REQ BDY CRN NOSURF NUL)

def zE : Edge := ⟨0, 0, 0, 0, 0⟩
def zS : Side Nat := ⟨0, fun _ => 0, fun _ => 0, 0⟩

/-- Triangle with vertices `l`, reference `r`, the tag `t` on side 0. -/
def mkTri (l : List Nat) (r : Int) (t : BitVec 16) (d : Nat) : Elt (Side Nat) :=
  ⟨fun i => l.getD i 0, ⟨r, fun i => if i = 0 then t else 0, fun i => 10 + i, d⟩⟩

/-- Two triangles (2 and 4) on points 1, 3, 4, 6, with unused points 2, 5 and unused triangles 1, 3. They share the edge
(3, 4): side 0 of both. The reference of triangle 4 and the tag of the common side are parameters. -/
def meshEx (r : Int) (t : BitVec 16) : Mesh Nat Nat Nat where
  np := 6
  npmax := 20
  npnil := 0
  pt := fun k => ⟨if k = 2 ∨ k = 5 then NUL else if k = 1 then CRN ||| NOSURF ||| REQ else 0, 0, 100 * k⟩
  nt := 4
  ntmax := 20
  nenil := 0
  tri := fun k => if k = 2 then mkTri [1, 3, 4] 1 t 2 else if k = 4 then mkTri [6, 4, 3] r t 4 else mkTri [] 0 0 0
  adja := fun j => if j = tidx 2 0 then 12 else if j = tidx 4 0 then 6 else 0
  quads := ⟨0, fun _ => mkTri [] 0 0 0⟩
  adjq := fun _ => 0
  na := 0
  edge := fun _ => zE
  sol := some ⟨1, 6, fun j => j⟩
  met := some ⟨2, 6, fun j => j⟩

theorem meshEx_val (r : Int) (t : BitVec 16) : ∀ k, ValT (meshEx r t) k ↔ k = 2 ∨ k = 4 := by
  intro k
  constructor
  · rintro ⟨h1, h2, h3⟩
    have h2 : k ≤ 4 := h2
    interval_cases k
    · exact absurd h3 (Nat.lt_irrefl 0)
    · exact Or.inl rfl
    · exact absurd h3 (Nat.lt_irrefl 0)
    · exact Or.inr rfl
  · rintro (rfl | rfl)
    · exact ⟨by decide, show 2 ≤ 4 by decide, show 0 < 1 by decide⟩
    · exact ⟨by decide, show 4 ≤ 4 by decide, show 0 < 6 by decide⟩

theorem meshEx_ready (r : Int) (t : BitVec 16) : Ready (meshEx r t) := by
  have hu : ∀ i ∈ [1, 3, 4, 6], Used (meshEx r t) i := by
    intro i hi
    have : ∀ i ∈ [1, 3, 4, 6], 1 ≤ i ∧ i ≤ 6 ∧ (if i = 2 ∨ i = 5 then NUL else if i = 1 then CRN ||| NOSURF ||| REQ
      else (0 : BitVec 16)).toNat < 32768 := by decide
    exact this i hi
  refine ⟨?_, ?_, ?_⟩
  · intro k hk i hi
    apply hu
    rcases (meshEx_val r t k).1 hk with rfl | rfl
    · have : ∀ i < 3, [1, 3, 4].getD i 0 ∈ [1, 3, 4, 6] := by decide
      exact this i hi
    · have : ∀ i < 3, [6, 4, 3].getD i 0 ∈ [1, 3, 4, 6] := by decide
      exact this i hi
  · rintro k ⟨h1, h2, _⟩
    have h2 : k ≤ 0 := h2
    omega
  · intro k hk i hi h0
    rcases (meshEx_val r t k).1 hk with rfl | rfl
    · interval_cases i
      · exact ⟨4, 0, by decide, (meshEx_val r t 4).2 (Or.inr rfl), by decide, rfl, rfl⟩
      · exact absurd rfl h0
      · exact absurd rfl h0
    · interval_cases i
      · exact ⟨2, 0, by decide, (meshEx_val r t 2).2 (Or.inl rfl), by decide, rfl, rfl⟩
      · exact absurd rfl h0
      · exact absurd rfl h0

/-- Result of the packing of a mesh, in an order that can be compared. -/
def summary (M : Mesh Nat Nat Nat) : Option (List (List Nat)) :=
  (pack 0 zS (fun _ => zE) false true M).map fun R =>
    [[R.1.np, R.1.nt, R.1.na, R.2.1], (List.range' 1 R.1.np).map fun k => (R.1.pt k).dat,
      (List.range' 1 R.1.nt).flatMap fun k => (List.range 3).map (R.1.tri k).v,
      (List.range' 1 R.1.nt).flatMap fun k => (List.range 3).map fun i => R.1.adja (tidx k i),
      (List.range' 1 R.1.na).flatMap fun e => [(R.1.edge e).a, (R.1.edge e).b, (R.1.edge e).base]]

/-- Different references: the common edge is listed once. -/
example : summary (meshEx 2 0) = some [[4, 2, 5, 1], [100, 300, 400, 600], [1, 2, 3, 4, 3, 2], [6, 0, 0, 3, 0, 0],
    [3, 1, 4, 1, 2, 5, 3, 2, 6, 2, 4, 7, 4, 3, 8]] := by decide +kernel

/-- The hypotheses of the theorems hold for this mesh, with both kinds of sides. -/
example : Ready (meshEx 2 0) ∧ (meshEx 2 0).quads.n = 0 ∧ Interface (meshEx 2 0) 2 0 ∧ Interface (meshEx 2 0) 2 1 ∧
    TriSide false (meshEx 2 0) 4 0 ∧ ¬ TriSide false (meshEx 2 0) 2 0 ∧ ¬ Interface (meshEx 1 0) 2 0 := by
  refine ⟨meshEx_ready 2 0, rfl, Or.inr ⟨4, 0, (meshEx_val 2 0 4).2 (Or.inr rfl), by decide, rfl, by decide⟩, Or.inl rfl,
    ⟨(meshEx_val 2 0 4).2 (Or.inr rfl), by decide, Or.inr (Or.inl (by decide))⟩, ?_, ?_⟩
  · rintro ⟨_, _, h⟩
    revert h
    decide
  · rintro (h | ⟨c, j, hc, hj, hJ, hr⟩)
    · exact absurd h (by decide)
    · rcases (meshEx_val 1 0 c).1 hc with rfl | rfl
      · exact hr rfl
      · exact hr rfl

/-- C56 is false for a required edge inside a domain: it is listed twice, once from each side. -/
theorem C56_required_twice : Ready (meshEx 1 REQ) ∧ ∃ M' nc, pack 0 zS (fun _ => zE) false true (meshEx 1 REQ) =
    some (M', nc, true) ∧ M'.na = 6 ∧ ((M'.edge 1).a, (M'.edge 1).b) = (2, 3) ∧
    ((M'.edge 4).a, (M'.edge 4).b) = (3, 2) :=
  ⟨meshEx_ready 1 REQ, _, _, rfl, by decide +kernel, by decide +kernel, by decide +kernel⟩

/-- C12: the number of values of the second solution (third argument of the routine) stays the old number of points. -/
theorem C12_second_count_stale : Ready (meshEx 2 0) ∧ ∃ M' nc, pack 0 zS (fun _ => zE) false true (meshEx 2 0) =
    some (M', nc, true) ∧ M'.np = 4 ∧ M'.sol.map (·.np) = some 4 ∧ M'.met.map (·.np) = some 6 :=
  ⟨meshEx_ready 2 0, _, _, rfl, by decide +kernel, by decide +kernel, by decide +kernel⟩

/-- One triangle (1, 2, 3) and one quadrilateral (2, 4, 5, 3): the common edge is side 0 of the triangle and, with
endpoints 0 and 3, side 1 of the quadrilateral, whose adjacency is minus (three times one plus zero). -/
def mixed : Mesh Nat Nat Nat where
  np := 5
  npmax := 20
  npnil := 0
  pt := fun k => ⟨0, 0, k⟩
  nt := 1
  ntmax := 20
  nenil := 0
  tri := fun k => if k = 1 then mkTri [1, 2, 3] 1 0 0 else mkTri [] 0 0 0
  adja := fun _ => 0
  quads := ⟨1, fun k => if k = 1 then mkTri [2, 4, 5, 3] 1 0 0 else mkTri [] 0 0 0⟩
  adjq := fun j => if j = qidx 1 1 then -3 else 0
  na := 0
  edge := fun _ => zE
  sol := none
  met := none

theorem mixed_ready : Ready mixed := by
  have hu : ∀ i, 1 ≤ i → i ≤ 5 → Used mixed i := fun i h1 h2 => ⟨h1, h2, by show (0 : BitVec 16).toNat < 32768; decide⟩
  refine ⟨?_, ?_, ?_⟩
  · rintro k ⟨h1, h2, _⟩ i hi
    have h2 : k ≤ 1 := h2
    obtain rfl : k = 1 := by omega
    have : ∀ i < 3, 1 ≤ [1, 2, 3].getD i 0 ∧ [1, 2, 3].getD i 0 ≤ 5 := by decide
    exact hu _ (this i hi).1 (this i hi).2
  · rintro k ⟨h1, h2, _⟩ i hi
    have h2 : k ≤ 1 := h2
    obtain rfl : k = 1 := by omega
    have : ∀ i < 4, 1 ≤ [2, 4, 5, 3].getD i 0 ∧ [2, 4, 5, 3].getD i 0 ≤ 5 := by decide
    exact hu _ (this i hi).1 (this i hi).2
  · intro k _ i _ h0
    exact absurd rfl h0

/-- C56 is false for a quadrilateral next to side 0 of the first triangle: the edge is listed from the triangle and from
the quadrilateral. -/
theorem C56_first_triangle_twice : Ready mixed ∧ ∃ M' nc, pack 0 zS (fun _ => zE) false true mixed = some (M', nc, true) ∧
    M'.na = 7 ∧ ((M'.edge 1).a, (M'.edge 1).b) = (2, 3) ∧ ((M'.edge 5).a, (M'.edge 5).b) = (2, 3) :=
  ⟨mixed_ready, _, _, rfl, by decide +kernel, by decide +kernel, by decide +kernel⟩

/-- C56: for an edge of a quadrilateral the look-up function answers with a triangle that does not contain it: edge 6 is
(4, 5), and the answer is side 0 of triangle 2, of which there is none. -/
theorem C56_quad_edge_lookup : ∃ M' nc, pack 0 zS (fun _ => zE) false true mixed = some (M', nc, true) ∧
    ((M'.edge 6).a, (M'.edge 6).b) = (4, 5) ∧ triFromEdge M'.edge 6 = some (2, 0) ∧ M'.nt = 1 :=
  ⟨_, _, rfl, by decide +kernel, by decide +kernel, by decide +kernel⟩

end Mmg.Pack2
