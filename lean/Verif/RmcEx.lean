/-
  Examples for the removal of small components.
-/
import Verif.RmcFrac
import Mathlib.Algebra.Order.Ring.Rat
import Mathlib.Tactic.NormNum

namespace Mmg.Rmc.Ex
open Mmg.Split3 Mmg.Ls3 Mmg.Rmc

/-! ### A check of the conditions on the mesh -/

def onFace (M : Mesh) (k j p : Nat) : Bool := (List.range M.d).any fun i => decide (i ≠ j) && decide (M.v k i = p)

theorem onFace_iff {M : Mesh} {k j p : Nat} : onFace M k j p = true ↔ M.OnFace k j p := by
  unfold onFace Mesh.OnFace
  simp only [List.any_eq_true, List.mem_range, Bool.and_eq_true, decide_eq_true_eq]

/-- Elements reached from those of a list through faces having the vertex `p`. -/
def reach (M : Mesh) (p : Nat) : Nat → List Nat → List Nat
  | 0, l => l
  | n + 1, l => reach M p n (l ++ l.flatMap fun a => ((List.range M.d).filter fun j =>
      decide (M.adj a j ≠ 0) && onFace M a j p).map fun j => M.adj a j)

theorem reach_sound (M : Mesh) (p k : Nat) : ∀ n l,
    (∀ a ∈ l, Relation.ReflTransGen (fun a b => b ≠ 0 ∧ ∃ j < M.d, M.adj a j = b ∧ M.OnFace a j p) k a) →
    ∀ b ∈ reach M p n l, Relation.ReflTransGen (fun a b => b ≠ 0 ∧ ∃ j < M.d, M.adj a j = b ∧ M.OnFace a j p) k b := by
  intro n
  induction n with
  | zero => intro l h; exact h
  | succ n ih =>
    intro l h
    refine ih _ ?_
    intro a ha
    rcases List.mem_append.1 ha with ha | ha
    · exact h a ha
    · obtain ⟨x, hx, ha⟩ := List.mem_flatMap.1 ha
      obtain ⟨j, hj, rfl⟩ := List.mem_map.1 ha
      simp only [List.mem_filter, List.mem_range, Bool.and_eq_true, decide_eq_true_eq] at hj
      exact .tail (h x hx) ⟨hj.2.1, j, hj.1, rfl, onFace_iff.1 hj.2.2⟩

def verts (M : Mesh) (k : Nat) : List Nat := (List.range M.d).map (M.v k)

theorem mem_verts {M : Mesh} {k p : Nat} : p ∈ verts M k ↔ M.Has k p := by
  unfold verts Mesh.Has
  simp [List.mem_map, List.mem_range]

/-- The conditions, checked. -/
def check (M : Mesh) : Bool :=
  (decide (M.d = 3) || decide (M.d = 4)) && (List.range' 1 M.n).all fun k => !M.ok k || (
    ((List.range M.d).all fun j => decide (M.adj k j = 0) ||
      (decide (1 ≤ M.adj k j) && decide (M.adj k j ≤ M.n) && M.ok (M.adj k j) &&
        (List.range M.d).any fun j' => decide (M.adj (M.adj k j) j' = k) &&
          (verts M k).all (fun p => !onFace M k j p || onFace M (M.adj k j) j' p) &&
          (verts M (M.adj k j)).all fun p => !onFace M (M.adj k j) j' p || onFace M k j p)) &&
    (List.range' 1 M.n).all fun l => !M.ok l || (verts M k).all fun p => !decide (p ∈ verts M l) ||
      decide (l ∈ reach M p M.n [k]))

theorem check_wf {M : Mesh} (h : check M = true) : M.Wf := by
  unfold check at h
  simp only [Bool.and_eq_true, Bool.or_eq_true, decide_eq_true_eq, List.all_eq_true, Bool.not_eq_true',
    List.mem_range, List.mem_range'_1, List.any_eq_true, decide_eq_false_iff_not] at h
  obtain ⟨hd, hk⟩ := h
  have hE : ∀ k, M.Elt k → (1 ≤ k ∧ k < 1 + M.n) ∧ ¬ M.ok k = false := fun k hk =>
    ⟨⟨hk.1, by have := hk.2.1; omega⟩, by rw [hk.2.2]; simp⟩
  have hface : ∀ {k j p}, M.OnFace k j p → M.Has k p := fun h => h.has
  refine ⟨hd, ?_, ?_, ?_⟩
  · intro k j hk' hj h0
    have := ((hk k (hE k hk').1).resolve_left (hE k hk').2).1 j hj
    obtain ⟨⟨⟨h1, h2⟩, h3⟩, -⟩ := this.resolve_left h0
    exact ⟨h1, h2, h3⟩
  · intro k j hk' hj h0
    have := ((hk k (hE k hk').1).resolve_left (hE k hk').2).1 j hj
    obtain ⟨-, j', hj', ⟨ha, hb⟩, hc⟩ := this.resolve_left h0
    refine ⟨j', hj', ha, fun p => ⟨fun hp => ?_, fun hp => ?_⟩⟩
    · exact onFace_iff.1 ((hb p (mem_verts.2 hp.has)).resolve_left (by rw [onFace_iff.2 hp]; simp))
    · exact onFace_iff.1 ((hc p (mem_verts.2 hp.has)).resolve_left (by rw [onFace_iff.2 hp]; simp))
  · intro k l p hk' hl' hp hq
    have := ((hk k (hE k hk').1).resolve_left (hE k hk').2).2 l (hE l hl').1
    have := (this.resolve_left (hE l hl').2) p (mem_verts.2 hp)
    have := this.resolve_left (not_not.2 (mem_verts.2 hq))
    exact reach_sound M p k M.n [k] (by intro a ha; rw [List.mem_singleton.1 ha]) l this

/-! ### A strip of four triangles -/

/-- Two squares, each cut into two triangles. -/
def strip : Mesh where
  n := 4
  d := 3
  v k i := (([[], [1, 2, 4], [2, 5, 4], [2, 3, 5], [3, 6, 5]].getD k []).getD i 0)
  ok _ := true
  adj k i := (([[], [2, 0, 0], [0, 1, 3], [4, 2, 0], [0, 3, 0]].getD k []).getD i 0)

theorem strip_wf : strip.Wf := check_wf (by decide +kernel)

def flat (p : Nat) : Pt ℚ := [⟨0, 0, 0⟩, ⟨0, 0, 0⟩, ⟨1, 0, 0⟩, ⟨2, 0, 0⟩, ⟨0, 1, 0⟩, ⟨1, 1, 0⟩, ⟨2, 1, 0⟩].getD p ⟨0, 0, 0⟩

def frac (c : Nat → Pt ℚ) (M : Mesh) (pm : Bool) (sol : Nat → ℚ) (k : Nat) : ℚ :=
  vfrac2 (1 / 1000) (fun i => c (M.v k i)) (fun i => sol (M.v k i)) pm

def area (c : Nat → Pt ℚ) (M : Mesh) : ℚ := total (fun k => voltri (c (M.v k 0)) (c (M.v k 1)) (c (M.v k 2))) M

def run (c : Nat → Pt ℚ) (M : Mesh) (r : ℚ) (nbr : Bool) (base : Nat → Nat → Bool) (vals : List ℚ) :
    Option (List ℚ) :=
  (rmc M (1 / 100) r (area c M) (frac c M) nbr base (fun p => vals.getD p 0)).map fun s =>
    (List.range vals.length).map s

example : area flat strip = 2 := by decide +kernel

/-- The positive part at the point 1 has the area 1/8: kept with the fraction 1/20, removed with 1/10. -/
example : run flat strip (1 / 20) false (fun _ _ => false) [0, 1, -1, -1, -1, -1, -1] =
    some [0, 1, -1, -1, -1, -1, -1] := by decide +kernel

example : run flat strip (1 / 10) false (fun _ _ => false) [0, 1, -1, -1, -1, -1, -1] =
    some [0, -1, -1, -1, -1, -1, -1] := by decide +kernel

/-- The negative part has to be attached. -/
example : run flat strip (1 / 20) true (fun k i => k == 4 && i == 0) [0, -1, 1, 1, 1, 1, 1] =
    some [0, 1, 1, 1, 1, 1, 1] := by decide +kernel

example : run flat strip (1 / 20) true (fun k i => k == 1 && i == 2) [0, -1, 1, 1, 1, 1, 1] =
    some [0, -1, 1, 1, 1, 1, 1] := by decide +kernel

/-- The conditions of the theorems hold here. -/
example : ∀ b, Local strip (frac flat strip b) := fun b => C76_local2 strip rfl _ flat b

example : ∃ sol', rmc strip (1 / 100) (1 / 10) (area flat strip) (frac flat strip) false (fun _ _ => false)
    (fun p => [0, 1, -1, -1, -1, -1, -1].getD p 0) = some sol' :=
  (C76_tria strip_wf rfl (by norm_num : (0 : ℚ) < 1 / 100) (1 / 10) flat false (fun _ _ => false) _).imp fun _ h => h.1

example : IsComp strip (fun x : ℚ => decide (0 < x)) (fun p => [0, 1, -1, -1, -1, -1, -1].getD p 0) 1 [1] := by
  refine ⟨by simp, fun e => ⟨fun h => ?_, fun h => ?_⟩⟩
  · rw [List.mem_singleton.1 h]; exact .refl
  · rw [List.mem_singleton]
    induction h with
    | refl => rfl
    | tail _ hl ih =>
      subst ih
      obtain ⟨h0, j, hj, ea, p, ⟨i, hi, hne, rfl⟩, hs⟩ := hl
      have hj' : j < 3 := hj
      have hi' : i < 3 := hi
      exfalso
      revert hs h0
      subst ea
      clear hj hi
      interval_cases j <;> interval_cases i <;> revert hne <;> decide +kernel

/-- Values for the theorems on the fractions: a triangle and a tetrahedron with two vertices on each side. -/
example : Clean 3 (1 / 1000) (fun i => [2, -1, -3].getD i (0 : ℚ)) ∧ Distinct 3 (fun i => [2, -1, -3].getD i (0 : ℚ)) := by
  constructor
  · intro i hi; interval_cases i <;> decide +kernel
  · intro i hi j hj; interval_cases i <;> interval_cases j <;> decide +kernel

example : Clean 4 (1 / 1000) (fun i => [2, -1, 1, -3].getD i (0 : ℚ)) ∧
    Distinct 4 (fun i => [2, -1, 1, -3].getD i (0 : ℚ)) := by
  constructor
  · intro i hi; interval_cases i <;> decide +kernel
  · intro i hi j hj; interval_cases i <;> interval_cases j <;> decide +kernel

def unit4 (i : Nat) : Pt ℚ := [⟨0, 0, 0⟩, ⟨1, 0, 0⟩, ⟨0, 1, 0⟩, ⟨0, 0, 1⟩].getD i ⟨0, 0, 0⟩

example : vfrac3 (1 / 1000) (1 / 1000) unit4 (fun i => [2, -1, 1, -3].getD i (0 : ℚ)) true = 49 / 120 ∧
    vfrac3 (1 / 1000) (1 / 1000) unit4 (fun i => [2, -1, 1, -3].getD i (0 : ℚ)) false = 71 / 120 := by
  decide +kernel

/-! ### Observations -/

/-- A wall of area 10 on a floor of area 1. -/
def wall (p : Nat) : Pt ℚ := [⟨0, 0, 0⟩, ⟨0, 0, 10⟩, ⟨0, 0, 0⟩, ⟨1, 0, 0⟩, ⟨0, 1, 10⟩, ⟨0, 1, 0⟩, ⟨1, 1, 0⟩].getD p ⟨0, 0, 0⟩

/-- On a surface the areas are those of the projection on the plane of the first two coordinates: the part on the
wall, which covers more than half of the surface, is removed with the fraction 1/100. -/
theorem C76_projected_observed :
    run wall strip (1 / 100) false (fun _ _ => false) [0, 1, -1, -1, 1, -1, -1] = some [0, -1, -1, -1, -1, -1, -1] ∧
    frac wall strip true (fun p => [0, 1, -1, -1, 1, -1, -1].getD p 0) 1 = 0 ∧
    area wall strip = 1 := by decide +kernel

/-- A small negative part surrounded by null values becomes a positive part of the same size, which is not
removed: its area 1/2 is less than the fraction 3/10 of the area 2. -/
theorem C76_small_positive_observed :
    run flat strip (3 / 10) false (fun _ _ => false) [0, -1, 0, -1, 0, -1, -1] = some [0, 1, 0, -1, 0, -1, -1] ∧
    frac flat strip true (fun p => [0, 1, 0, -1, 0, -1, -1].getD p 0) 1 = 1 / 2 ∧
    ∀ k ∈ [2, 3, 4], frac flat strip true (fun p => [0, 1, 0, -1, 0, -1, -1].getD p 0) k = 0 := by
  decide +kernel

end Mmg.Rmc.Ex
