import Verif.MeanModel
import Mathlib.Data.List.Induction
import Mathlib.Algebra.Order.Field.Basic
import Mathlib.Algebra.BigOperators.Group.List.Basic
import Mathlib.Algebra.Order.BigOperators.Group.List
import Mathlib.Data.Rat.Cast.Order
import Mathlib.Algebra.Field.Rat
import Mathlib.Tactic.Ring
import Mathlib.Tactic.Linarith
import Mathlib.Tactic.NormNum

/-!
# C104: sizes taken from the mesh
-/

namespace Mmg.Mean

variable {K : Type} [Field K]

/-- The edges of the elements in use, with repetitions. -/
def edges (tab : List (Nat × Nat)) (ts : List Elt) : List (Nat × Nat) :=
  (ts.filter fun t => t.ok).flatMap fun t => tab.map fun e => (t.v e.1, t.v e.2)

/-- The other ends of the edges at `k`, one for each element and edge. -/
def around (k : Nat) (es : List (Nat × Nat)) : List Nat :=
  es.flatMap fun e => (if e.1 = k then [e.2] else []) ++ (if e.2 = k then [e.1] else [])

theorem sums_eq (tab : List (Nat × Nat)) (dist : Nat → Nat → K) (ts : List Elt) :
    sums tab dist ts = (edges tab ts).foldl (edge dist) ⟨fun _ => 0, fun _ => 0⟩ := by
  unfold sums edges
  generalize (⟨fun _ => 0, fun _ => 0⟩ : Acc K) = s
  induction ts generalizing s with
  | nil => rfl
  | cons t ts ih =>
    rw [List.foldl_cons, ih]
    unfold elt
    cases h : t.ok with
    | false => rw [List.filter_cons_of_neg (by simp [h])]; simp
    | true =>
      rw [List.filter_cons_of_pos (by simp [h]), List.flatMap_cons, List.foldl_append, List.foldl_map]
      simp

theorem sums_spec (dist : Nat → Nat → K) (hd : ∀ a b, dist a b = dist b a) (es : List (Nat × Nat)) (k : Nat) :
    let s := es.foldl (edge dist) ⟨fun _ => 0, fun _ => 0⟩
    s.m k = ((around k es).map fun w => dist k w).sum ∧ s.mark k = (around k es).length := by
  induction es using List.reverseRecOn with
  | nil => exact ⟨rfl, rfl⟩
  | append_singleton es e ih =>
    dsimp only at ih ⊢
    rw [List.foldl_append]
    have ha : around k (es ++ [e]) = around k es ++ ((if e.1 = k then [e.2] else []) ++ (if e.2 = k then [e.1] else [])) := by
      unfold around
      rw [List.flatMap_append]
      simp
    rw [ha]
    simp only [List.foldl_cons, List.foldl_nil, edge, add1]
    obtain ⟨i1, i2⟩ := ih
    by_cases c1 : e.1 = k <;> by_cases c2 : e.2 = k
    · have c3 : e.1 = e.2 := c1.trans c2.symm
      simp [c1, c2, i1, i2, add_assoc]
    · simp [c1, c2, i1, i2, Ne.symm c2]
    · simp [c1, c2, i1, i2, Ne.symm c1, hd e.1 k]
    · simp [c1, c2, i1, i2, Ne.symm c1, Ne.symm c2]

/-- C104: the size at a vertex is the mean of the lengths of its edges, each edge taken as often as there are elements that have it; a vertex of no
element has the size 0. -/
theorem C104_weighted (tab : List (Nat × Nat)) (dist : Nat → Nat → K) (hd : ∀ a b, dist a b = dist b a) (ts : List Elt) (k : Nat) :
    size tab dist ts k = if around k (edges tab ts) = [] then 0 else
      ((around k (edges tab ts)).map fun w => dist k w).sum / ((around k (edges tab ts)).length : K) := by
  unfold size
  rw [sums_eq]
  obtain ⟨a, b⟩ := sums_spec dist hd (edges tab ts) k
  dsimp only at a b ⊢
  rw [a, b]
  by_cases c : around k (edges tab ts) = []
  · rw [if_pos c, c]; simp
  · rw [if_neg c, if_neg (by simpa using c)]

/-- Vertex `w` is at the other end of an edge of an element at `k`. -/
def Linked (tab : List (Nat × Nat)) (ts : List Elt) (k w : Nat) : Prop :=
  ∃ t ∈ ts, t.ok = true ∧ ∃ e ∈ tab, (t.v e.1 = k ∧ t.v e.2 = w) ∨ (t.v e.2 = k ∧ t.v e.1 = w)

theorem mem_around (tab : List (Nat × Nat)) (ts : List Elt) (k w : Nat) : w ∈ around k (edges tab ts) ↔ Linked tab ts k w := by
  unfold around edges Linked
  simp only [List.mem_flatMap, List.mem_filter, List.mem_map, List.mem_append]
  constructor
  · rintro ⟨_, ⟨t, ⟨h1, h2⟩, e, he, rfl⟩, h⟩
    refine ⟨t, h1, h2, e, he, ?_⟩
    rcases h with h | h
    · by_cases c : t.v e.1 = k
      · left; simp [c] at h; exact ⟨c, h.symm⟩
      · simp [c] at h
    · by_cases c : t.v e.2 = k
      · right; simp [c] at h; exact ⟨c, h.symm⟩
      · simp [c] at h
  · rintro ⟨t, h1, h2, e, he, h⟩
    refine ⟨_, ⟨t, ⟨h1, h2⟩, e, he, rfl⟩, ?_⟩
    rcases h with ⟨a, b⟩ | ⟨a, b⟩
    · left; simp [a, b]
    · right; simp [a, b]

variable [LinearOrder K] [IsStrictOrderedRing K]

theorem sum_bounds (l : List Nat) (f : Nat → K) (lo hi : K) (h : ∀ w ∈ l, lo ≤ f w ∧ f w ≤ hi) :
    lo * (l.length : K) ≤ (l.map f).sum ∧ (l.map f).sum ≤ hi * (l.length : K) := by
  induction l with
  | nil => simp
  | cons w l ih =>
    obtain ⟨a, b⟩ := ih (fun x hx => h x (List.mem_cons_of_mem _ hx))
    obtain ⟨c, d⟩ := h w (by simp)
    simp only [List.length_cons, List.map_cons, List.sum_cons, Nat.cast_succ]
    constructor <;> nlinarith

/-- C104: the size at a vertex lies between the shortest and the longest of its edges. -/
theorem C104_between (tab : List (Nat × Nat)) (dist : Nat → Nat → K) (hd : ∀ a b, dist a b = dist b a) (ts : List Elt) (k : Nat) (lo hi : K)
    (hk : ∃ w, Linked tab ts k w) (h : ∀ w, Linked tab ts k w → lo ≤ dist k w ∧ dist k w ≤ hi) :
    lo ≤ size tab dist ts k ∧ size tab dist ts k ≤ hi := by
  obtain ⟨w, hw⟩ := hk
  have hne : around k (edges tab ts) ≠ [] := by
    intro e
    have := (mem_around tab ts k w).mpr hw
    rw [e] at this; cases this
  rw [C104_weighted tab dist hd ts k, if_neg hne]
  have hpos : (0 : K) < ((around k (edges tab ts)).length : K) := by
    have : 0 < (around k (edges tab ts)).length := List.length_pos_of_ne_nil hne
    exact_mod_cast this
  obtain ⟨a, b⟩ := sum_bounds (around k (edges tab ts)) (fun w => dist k w) lo hi
    (fun w hw => h w ((mem_around tab ts k w).mp hw))
  exact ⟨(le_div_iff₀ hpos).mpr a, (div_le_iff₀ hpos).mpr b⟩

/-- C104: a mesh whose edges at a vertex all have the length `h` asks for the size `h` there. -/
theorem C104_uniform (tab : List (Nat × Nat)) (dist : Nat → Nat → K) (hd : ∀ a b, dist a b = dist b a) (ts : List Elt) (k : Nat) (x : K)
    (hk : ∃ w, Linked tab ts k w) (h : ∀ w, Linked tab ts k w → dist k w = x) : size tab dist ts k = x := by
  obtain ⟨a, b⟩ := C104_between tab dist hd ts k x x hk (fun w hw => by rw [h w hw]; exact ⟨le_refl _, le_refl _⟩)
  exact le_antisymm b a

/-- C104: the order of the elements plays no role. -/
theorem C104_order (tab : List (Nat × Nat)) (dist : Nat → Nat → K) (hd : ∀ a b, dist a b = dist b a) (ts ts' : List Elt) (h : ts.Perm ts') (k : Nat) :
    size tab dist ts k = size tab dist ts' k := by
  have hp : (around k (edges tab ts)).Perm (around k (edges tab ts')) := by
    unfold around edges
    exact ((h.filter _).flatMap_right _).flatMap_right _
  rw [C104_weighted tab dist hd ts k, C104_weighted tab dist hd ts' k, (hp.map _).sum_eq, hp.length_eq]
  have : around k (edges tab ts) = [] ↔ around k (edges tab ts') = [] := by
    constructor
    · intro e; rw [e] at hp; exact hp.nil_eq.symm
    · intro e; rw [e] at hp; exact hp.eq_nil
  simp only [this]

/-! ### Cases -/

/-- Two triangles 1 2 3 and 1 3 4 with a common edge 1-3 of length 2; the other edges have the length 1. -/
def quad : List Elt := [⟨true, fun i => [1, 2, 3].getD i 0⟩, ⟨true, fun i => [1, 3, 4].getD i 0⟩]

def dq (a b : Nat) : ℚ := if (a = 1 ∧ b = 3) ∨ (a = 3 ∧ b = 1) then 2 else 1

/-- C104 fails for the mean over the edges through a vertex, as the comment of the functions has it: the inner edge counts twice.  The mean over the
three edges of vertex 1 is 4/3. -/
theorem C104_mean_observed : size sides dq quad 1 = 3 / 2 ∧ (∀ w, Linked sides quad 1 w ↔ w = 2 ∨ w = 3 ∨ w = 4) ∧ (dq 1 2 + dq 1 3 + dq 1 4) / 3 = 4 / 3 := by
  refine ⟨?_, ?_, ?_⟩
  · rw [C104_weighted sides dq (by intro a b; unfold dq; simp only [or_comm, and_comm])]
    have : around 1 (edges sides quad) = [2, 3, 3, 4] := by decide
    rw [this, if_neg (by simp)]
    norm_num [dq]
  · intro w
    rw [← mem_around]
    have : around 1 (edges sides quad) = [2, 3, 3, 4] := by decide
    rw [this]
    simp
  · norm_num [dq]

example : ∃ w, Linked sides quad 2 w := ⟨1, ⟨true, fun i => [1, 2, 3].getD i 0⟩, by simp [quad], rfl, (0, 1), by simp [sides], .inr ⟨rfl, rfl⟩⟩

/-- A tetrahedron: three edges at each vertex. -/
example : around 7 (edges iare [⟨true, fun i => [5, 6, 7, 8].getD i 0⟩, ⟨false, fun _ => 7⟩]) = [5, 6, 8] := by decide

end Mmg.Mean
