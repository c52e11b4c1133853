import Verif.LenRepModel
import Mathlib.Data.List.Induction
import Mathlib.Data.List.Nodup
import Mathlib.Data.Sym.Sym2
import Mathlib.Data.Finset.Card
import Mathlib.Data.Int.Order.Basic
import Mathlib.Algebra.BigOperators.Group.List.Basic
import Mathlib.Order.MinMax
import Mathlib.Algebra.Ring.Int.Defs

/-!
# C102: the report on edge lengths
-/

namespace Mmg.LenRep

variable {K : Type} [LinearOrder K] [AddCommMonoid K]

/-! ### The numbers of the report -/

/-- The entries that have a length. -/
def measured (zero : Bool) (xs : List (E × K)) : List (E × K) := xs.filter fun x => decide ¬(zero = true ∧ x.2 = 0)

/-- What a report on the entries `xs` has to say. -/
structure Says (bin : K → Option Nat) (zero : Bool) (big : K) (xs : List (E × K)) (r : Rep K) : Prop where
  ned : r.ned = (measured zero xs).length
  null : r.ned + r.null = xs.length
  sum : r.sum = ((measured zero xs).map fun x => x.2).sum
  small : (r.lmin = big ∧ ∀ x ∈ measured zero xs, big ≤ x.2) ∨ (r.lmin < big ∧ (r.emin, r.lmin) ∈ measured zero xs ∧ ∀ x ∈ measured zero xs, r.lmin ≤ x.2)
  large : (r.lmax = 0 ∧ ∀ x ∈ measured zero xs, x.2 ≤ 0) ∨ (0 < r.lmax ∧ (r.emax, r.lmax) ∈ measured zero xs ∧ ∀ x ∈ measured zero xs, x.2 ≤ r.lmax)
  hl : ∀ i, r.hl i = ((measured zero xs).filter fun x => decide (bin x.2 = some i)).length

theorem says_start (bin : K → Option Nat) (zero : Bool) (big : K) : Says bin zero big [] (start big) :=
  ⟨rfl, rfl, rfl, .inl ⟨rfl, by simp [measured]⟩, .inl ⟨rfl, by simp [measured]⟩, fun _ => rfl⟩

theorem says_count (bin : K → Option Nat) (zero : Bool) (big : K) (xs : List (E × K)) (x : E × K) (r : Rep K) (h : Says bin zero big xs r) :
    Says bin zero big (xs ++ [x]) (count bin zero r x) := by
  unfold count
  by_cases c : zero = true ∧ x.2 = 0
  · rw [if_pos c]
    have hm : measured zero (xs ++ [x]) = measured zero xs := by
      unfold measured
      rw [List.filter_append, List.filter_cons_of_neg (fun h => (of_decide_eq_true h) c)]
      simp
    refine ⟨?_, ?_, ?_, ?_, ?_, ?_⟩
    · rw [hm]; exact h.ned
    · have := h.null
      simp only [List.length_append, List.length_singleton]
      omega
    · rw [hm]; exact h.sum
    · rw [hm]; exact h.small
    · rw [hm]; exact h.large
    · rw [hm]; exact h.hl
  · rw [if_neg c]
    have hm : measured zero (xs ++ [x]) = measured zero xs ++ [x] := by
      unfold measured
      rw [List.filter_append, List.filter_cons_of_pos (p := fun x : E × K => decide ¬(zero = true ∧ x.2 = 0)) (decide_eq_true c)]
      simp
    refine ⟨?_, ?_, ?_, ?_, ?_, ?_⟩
    · rw [hm]; simp [h.ned]
    · have := h.null
      simp only [List.length_append, List.length_singleton]
      omega
    · rw [hm]; simp [h.sum]
    · rw [hm]
      dsimp only
      by_cases d : x.2 < r.lmin
      · rw [if_pos d, if_pos d]
        refine .inr ⟨?_, by simp, ?_⟩
        · rcases h.small with ⟨a, _⟩ | ⟨a, _⟩
          · rw [a] at d; exact d
          · exact lt_trans d a
        · intro y hy
          rcases List.mem_append.mp hy with hy | hy
          · rcases h.small with ⟨a, b⟩ | ⟨a, _, b⟩
            · rw [a] at d; exact le_trans (le_of_lt d) (b y hy)
            · exact le_trans (le_of_lt d) (b y hy)
          · rw [List.mem_singleton.mp hy]
      · rw [if_neg d, if_neg d]
        have d := not_lt.mp d
        rcases h.small with ⟨a, b⟩ | ⟨a, m, b⟩
        · refine .inl ⟨a, ?_⟩
          intro y hy
          rcases List.mem_append.mp hy with hy | hy
          · exact b y hy
          · rw [List.mem_singleton.mp hy, ← a]; exact d
        · refine .inr ⟨a, List.mem_append_left _ m, ?_⟩
          intro y hy
          rcases List.mem_append.mp hy with hy | hy
          · exact b y hy
          · rw [List.mem_singleton.mp hy]; exact d
    · rw [hm]
      dsimp only
      by_cases d : r.lmax < x.2
      · rw [if_pos d, if_pos d]
        refine .inr ⟨?_, by simp, ?_⟩
        · rcases h.large with ⟨a, _⟩ | ⟨a, _⟩
          · rw [a] at d; exact d
          · exact lt_trans a d
        · intro y hy
          rcases List.mem_append.mp hy with hy | hy
          · rcases h.large with ⟨a, b⟩ | ⟨a, _, b⟩
            · rw [a] at d; exact le_trans (b y hy) (le_of_lt d)
            · exact le_trans (b y hy) (le_of_lt d)
          · rw [List.mem_singleton.mp hy]
      · rw [if_neg d, if_neg d]
        have d := not_lt.mp d
        rcases h.large with ⟨a, b⟩ | ⟨a, m, b⟩
        · refine .inl ⟨a, ?_⟩
          intro y hy
          rcases List.mem_append.mp hy with hy | hy
          · exact b y hy
          · rw [List.mem_singleton.mp hy, ← a]; exact d
        · refine .inr ⟨a, List.mem_append_left _ m, ?_⟩
          intro y hy
          rcases List.mem_append.mp hy with hy | hy
          · exact b y hy
          · rw [List.mem_singleton.mp hy]; exact d
    · intro i
      rw [hm, List.filter_append, List.length_append]
      dsimp only
      by_cases d : bin x.2 = some i
      · rw [if_pos d, List.filter_cons_of_pos (by simpa using d), h.hl i]; simp
      · rw [if_neg d, List.filter_cons_of_neg (by simpa using d), h.hl i]; simp

theorem fold_says (bin : K → Option Nat) (zero : Bool) (big : K) (xs : List (E × K)) :
    Says bin zero big xs (xs.foldl (count bin zero) (start big)) := by
  induction xs using List.reverseRecOn with
  | nil => exact says_start bin zero big
  | append_singleton xs x ih =>
    rw [List.foldl_append]
    exact says_count bin zero big xs x _ ih

/-- C102, the numbers in the three reports: number, sum, least and greatest length (with an edge that has it) and the columns are those of the edges
that are looked at. -/
theorem C102_numbers (bd : Nat → K) (big : K) (rid : Nat → Bool) (ts : List (Elt K)) (m : Plane K) :
    Says (bin3 bd) true big (kept3 rid ts) (report3 bd big rid ts) ∧ Says (bin3 bd) true big (keptS ts) (reportS bd big ts) ∧
      Says (bin2 bd) false big (kept2 m) (report2 bd big m) := ⟨fold_says _ _ _ _, fold_says _ _ _ _, fold_says _ _ _ _⟩

/-! ### Columns -/

theorem bd_mono (bd : Nat → K) (hb : ∀ i < 8, bd i < bd (i + 1)) : ∀ i j, i < j → j ≤ 8 → bd i < bd j := by
  intro i j
  induction j with
  | zero => intro h; omega
  | succ j ih =>
    intro h1 h2
    by_cases c : i = j
    · rw [c]; exact hb j (by omega)
    · exact lt_trans (ih (by omega) (by omega)) (hb j (by omega))

/-- C102, the columns in 3D and on surfaces: column `i < 8` holds the lengths from `bd i` (included) to `bd (i+1)` (excluded), the last one
those from `bd 8`; every length has one column. -/
theorem C102_columns (bd : Nat → K) (hb : ∀ i < 8, bd i < bd (i + 1)) (len : K) (h0 : bd 0 ≤ len) :
    (∀ i < 8, bin3 bd len = some i ↔ bd i ≤ len ∧ len < bd (i + 1)) ∧ (bin3 bd len = some 8 ↔ bd 8 ≤ len) ∧ ∃ i ≤ 8, bin3 bd len = some i := by
  have mono := bd_mono bd hb
  have uniq : ∀ i < 8, ∀ j < 8, bd i ≤ len ∧ len < bd (i + 1) → bd j ≤ len ∧ len < bd (j + 1) → i = j := by
    intro i hi j hj a b
    rcases lt_trichotomy i j with c | c | c
    · have : bd (i + 1) ≤ bd j := by
        by_cases e : i + 1 = j
        · rw [e]
        · exact le_of_lt (mono _ _ (by omega) (by omega))
      exact absurd (lt_of_lt_of_le a.2 (le_trans this b.1)) (lt_irrefl _)
    · exact c
    · have : bd (j + 1) ≤ bd i := by
        by_cases e : j + 1 = i
        · rw [e]
        · exact le_of_lt (mono _ _ (by omega) (by omega))
      exact absurd (lt_of_lt_of_le b.2 (le_trans this a.1)) (lt_irrefl _)
  unfold bin3
  cases hf : (List.range 8).find? fun i => decide (bd i ≤ len ∧ len < bd (i + 1)) with
  | some k =>
    have hk : decide (bd k ≤ len ∧ len < bd (k + 1)) = true := List.find?_some (p := fun i => decide (bd i ≤ len ∧ len < bd (i + 1))) hf
    have hk := of_decide_eq_true hk
    have hk8 : k < 8 := List.mem_range.mp (List.mem_of_find?_eq_some hf)
    simp only [Option.getD_some, Option.some.injEq]
    refine ⟨?_, ?_, k, by omega, rfl⟩
    · intro i hi
      constructor
      · rintro rfl; exact hk
      · intro h; exact uniq k hk8 i hi hk h
    · constructor
      · intro h; omega
      · intro h
        exfalso
        have : bd (k + 1) ≤ bd 8 := by
          by_cases e : k + 1 = 8
          · rw [e]
          · exact le_of_lt (mono _ _ (by omega) (by omega))
        exact lt_irrefl _ (lt_of_lt_of_le hk.2 (le_trans this h))
  | none =>
    rw [List.find?_eq_none] at hf
    have hf : ∀ i < 8, ¬(bd i ≤ len ∧ len < bd (i + 1)) := by
      intro i hi h
      exact hf i (List.mem_range.mpr hi) (decide_eq_true h)
    have up : ∀ i ≤ 8, bd i ≤ len := by
      intro i
      induction i with
      | zero => intro _; exact h0
      | succ i ih =>
        intro hi
        by_contra c
        exact hf i (by omega) ⟨ih (by omega), not_le.mp c⟩
    simp only [Option.getD_none, Option.some.injEq]
    refine ⟨?_, ⟨fun _ => up 8 (by omega), fun _ => by trivial⟩, 8, by omega, by trivial⟩
    intro i hi
    constructor
    · intro h; omega
    · intro h; exact absurd h (hf i hi)

/-- C102, the columns in the plane: every length other than `bd 3` has one column, within its bounds. -/
theorem C102_columns_plane_partial (bd : Nat → K) (hb : ∀ i < 8, bd i < bd (i + 1)) (len : K) (h0 : bd 0 ≤ len) (h3 : len ≠ bd 3) :
    ∃ i ≤ 8, bin2 bd len = some i ∧ bd i ≤ len ∧ (i < 8 → len ≤ bd (i + 1)) := by
  have h01 := hb 0 (by omega)
  have h12 := hb 1 (by omega)
  have h23 := hb 2 (by omega)
  have h34 := hb 3 (by omega)
  have h45 := hb 4 (by omega)
  have h56 := hb 5 (by omega)
  have h67 := hb 6 (by omega)
  have h78 := hb 7 (by omega)
  unfold bin2
  split_ifs with c1 c2 c3 c4 c5 c6 c7 c8 c9
  · exact ⟨2, by omega, rfl, le_of_lt c2, fun _ => le_of_lt c1⟩
  · exact ⟨1, by omega, rfl, le_of_lt c3, fun _ => not_lt.mp c2⟩
  · exact ⟨0, by omega, rfl, h0, fun _ => not_lt.mp c3⟩
  · exact ⟨4, by omega, rfl, le_of_lt c5, fun _ => le_of_lt c4⟩
  · exact ⟨3, by omega, rfl, le_of_lt c6, fun _ => not_lt.mp c5⟩
  · exact absurd (le_antisymm (not_lt.mp c6) (not_lt.mp c1)) h3
  · exact ⟨5, by omega, rfl, not_lt.mp c4, fun _ => le_of_lt c7⟩
  · exact ⟨6, by omega, rfl, not_lt.mp c7, fun _ => le_of_lt c8⟩
  · exact ⟨7, by omega, rfl, not_lt.mp c8, fun _ => le_of_lt c9⟩
  · exact ⟨8, by omega, rfl, not_lt.mp c9, fun h => by omega⟩

/-- C102 fails in the plane for edges of length `bd 3` (0.7071): they are in no column. -/
theorem C102_column_observed (bd : Nat → K) (hb : ∀ i < 8, bd i < bd (i + 1)) : bin2 bd (bd 3) = none := by
  have mono := bd_mono bd hb
  unfold bin2
  rw [if_neg (lt_irrefl _), if_pos (mono 3 5 (by omega) (by omega)), if_neg (not_lt.mpr (le_of_lt (hb 3 (by omega)))), if_neg (lt_irrefl _)]

/-! ### Edges of tetrahedra -/

theorem pops_spec : ∀ (xs : List (E × K)) (s : List E),
    ((pops s xs).map fun x => norm x.1).Nodup ∧ (∀ x ∈ pops s xs, x ∈ xs) ∧
      ∀ e, e ∈ (pops s xs).map (fun x => norm x.1) ↔ e ∈ s ∧ e ∈ xs.map fun x => norm x.1 := by
  intro xs
  induction xs with
  | nil => intro s; simp [pops]
  | cons x xs ih =>
    intro s
    unfold pops
    by_cases c : norm x.1 ∈ s
    · rw [if_pos c]
      obtain ⟨a, b, d⟩ := ih (s.filter fun e => decide (e ≠ norm x.1))
      refine ⟨?_, ?_, ?_⟩
      · rw [List.map_cons, List.nodup_cons]
        refine ⟨?_, a⟩
        intro h
        have := ((d _).mp h).1
        rw [List.mem_filter] at this
        exact (of_decide_eq_true this.2) rfl
      · intro y hy
        rcases List.mem_cons.mp hy with rfl | hy
        · simp
        · exact List.mem_cons_of_mem _ (b y hy)
      · intro e
        rw [List.map_cons, List.mem_cons, d e, List.mem_filter, List.map_cons, List.mem_cons]
        simp only [decide_eq_true_eq]
        constructor
        · rintro (h | ⟨⟨h1, h2⟩, h3⟩)
          · exact ⟨h ▸ c, .inl h⟩
          · exact ⟨h1, .inr h3⟩
        · rintro ⟨h1, h2⟩
          by_cases f : e = norm x.1
          · exact .inl f
          · rcases h2 with h2 | h2
            · exact .inl h2
            · exact .inr ⟨⟨h1, f⟩, h2⟩
    · rw [if_neg c]
      obtain ⟨a, b, d⟩ := ih s
      refine ⟨a, fun y hy => List.mem_cons_of_mem _ (b y hy), ?_⟩
      intro e
      rw [d e, List.map_cons, List.mem_cons]
      constructor
      · rintro ⟨h1, h2⟩; exact ⟨h1, .inr h2⟩
      · rintro ⟨h1, h2 | h2⟩
        · exact absurd (h2 ▸ h1) c
        · exact ⟨h1, h2⟩

/-- `e` joins two vertices of the tetrahedron, in the form used by the table. -/
def JoinsN (t : Elt K) (e : E) : Prop := ∃ i j, i < j ∧ j < 4 ∧ e = norm (t.v i, t.v j)

/-- The pair `z`, without an order, joins two vertices of the tetrahedron. -/
def Joins (t : Elt K) (z : Sym2 Nat) : Prop := ∃ i j, i < j ∧ j < 4 ∧ z = s(t.v i, t.v j)

/-- The form used by the table, of a pair without an order. -/
def form : Sym2 Nat → E := Sym2.lift ⟨fun a b => norm (a, b), fun a b => by
  unfold norm; simp only [Prod.mk.injEq]; exact ⟨min_comm a b, max_comm a b⟩⟩

theorem form_mk (a b : Nat) : form s(a, b) = norm (a, b) := rfl

theorem form_inj : Function.Injective form := by
  intro x y
  induction x with | _ a b => ?_
  induction y with | _ c d => ?_
  rw [form_mk, form_mk, Sym2.eq_iff]
  unfold norm
  simp only [Prod.mk.injEq]
  omega

theorem joins_form (t : Elt K) (z : Sym2 Nat) : JoinsN t (form z) ↔ Joins t z := by
  unfold JoinsN Joins
  constructor
  · rintro ⟨i, j, h1, h2, h3⟩
    exact ⟨i, j, h1, h2, form_inj h3⟩
  · rintro ⟨i, j, h1, h2, rfl⟩
    exact ⟨i, j, h1, h2, rfl⟩

theorem joins_iff (t : Elt K) (e : E) : e ∈ (sides3 t).map (fun x => norm x.1) ↔ JoinsN t e := by
  unfold sides3 JoinsN iare
  simp only [List.map_map, List.mem_map, List.mem_range, Function.comp]
  constructor
  · rintro ⟨ia, h, rfl⟩
    have : ia = 0 ∨ ia = 1 ∨ ia = 2 ∨ ia = 3 ∨ ia = 4 ∨ ia = 5 := by omega
    rcases this with rfl | rfl | rfl | rfl | rfl | rfl
    · exact ⟨0, 1, by omega, by omega, rfl⟩
    · exact ⟨0, 2, by omega, by omega, rfl⟩
    · exact ⟨0, 3, by omega, by omega, rfl⟩
    · exact ⟨1, 2, by omega, by omega, rfl⟩
    · exact ⟨1, 3, by omega, by omega, rfl⟩
    · exact ⟨2, 3, by omega, by omega, rfl⟩
  · rintro ⟨i, j, h1, h2, rfl⟩
    have : (i = 0 ∧ j = 1) ∨ (i = 0 ∧ j = 2) ∨ (i = 0 ∧ j = 3) ∨ (i = 1 ∧ j = 2) ∨ (i = 1 ∧ j = 3) ∨ (i = 2 ∧ j = 3) := by omega
    rcases this with ⟨rfl, rfl⟩ | ⟨rfl, rfl⟩ | ⟨rfl, rfl⟩ | ⟨rfl, rfl⟩ | ⟨rfl, rfl⟩ | ⟨rfl, rfl⟩
    · exact ⟨0, by omega, rfl⟩
    · exact ⟨1, by omega, rfl⟩
    · exact ⟨2, by omega, rfl⟩
    · exact ⟨3, by omega, rfl⟩
    · exact ⟨4, by omega, rfl⟩
    · exact ⟨5, by omega, rfl⟩

theorem once_norm (rid : Nat → Bool) (ts : List (Elt K)) :
    ((kept3 rid ts).map fun x => norm x.1).Nodup ∧
      (∀ e, e ∈ (kept3 rid ts).map (fun x => norm x.1) ↔ ∃ t ∈ ts, t.ok = true ∧ (∃ i < 4, rid (t.v i) = false) ∧ JoinsN t e) ∧
      ∀ x ∈ kept3 rid ts, ∃ t ∈ ts, t.ok = true ∧ ∃ ia < 6, x = ((t.v (iare.getD ia (0, 0)).1, t.v (iare.getD ia (0, 0)).2), t.len ia) := by
  obtain ⟨a, b, d⟩ := pops_spec ((ts.filter fun t => t.ok && seen rid t).flatMap sides3) (hashed ts)
  refine ⟨a, ?_, ?_⟩
  · intro e
    unfold kept3
    rw [d e]
    have h1 : e ∈ ((ts.filter fun t => t.ok && seen rid t).flatMap sides3).map (fun x => norm x.1) ↔
        ∃ t ∈ ts, t.ok = true ∧ (∃ i < 4, rid (t.v i) = false) ∧ JoinsN t e := by
      rw [List.map_flatMap, List.mem_flatMap]
      simp only [List.mem_filter, Bool.and_eq_true, seen, List.any_eq_true, List.mem_range, Bool.not_eq_true', joins_iff]
      constructor
      · rintro ⟨t, ⟨h1, h2, h3⟩, h4⟩; exact ⟨t, h1, h2, h3, h4⟩
      · rintro ⟨t, h1, h2, h3, h4⟩; exact ⟨t, ⟨h1, h2, h3⟩, h4⟩
    rw [h1]
    constructor
    · exact fun h => h.2
    · intro h
      refine ⟨?_, h⟩
      obtain ⟨t, h1, h2, _, h4⟩ := h
      unfold hashed
      rw [List.mem_flatMap]
      exact ⟨t, List.mem_filter.mpr ⟨h1, h2⟩, (joins_iff t e).mpr h4⟩
  · intro x hx
    have := b x hx
    rw [List.mem_flatMap] at this
    obtain ⟨t, ht, hs⟩ := this
    rw [List.mem_filter, Bool.and_eq_true] at ht
    unfold sides3 at hs
    rw [List.mem_map] at hs
    obtain ⟨ia, hia, e⟩ := hs
    exact ⟨t, ht.1, ht.2.1, ia, List.mem_range.mp hia, e.symm⟩

/-- C102, for tetrahedra: no edge is looked at twice, and the edges looked at are those of the tetrahedra in use that have a vertex which is not an
ordinary ridge vertex; their length is computed in such a tetrahedron. -/
theorem C102_once (rid : Nat → Bool) (ts : List (Elt K)) :
    ((kept3 rid ts).map fun x => s(x.1.1, x.1.2)).Nodup ∧
      (∀ z, z ∈ (kept3 rid ts).map (fun x => s(x.1.1, x.1.2)) ↔
        ∃ t ∈ ts, t.ok = true ∧ (∃ i < 4, rid (t.v i) = false) ∧ Joins t z) ∧
      ∀ x ∈ kept3 rid ts, ∃ t ∈ ts, t.ok = true ∧ ∃ ia < 6, x = ((t.v (iare.getD ia (0, 0)).1, t.v (iare.getD ia (0, 0)).2), t.len ia) := by
  obtain ⟨a, b, c⟩ := once_norm rid ts
  have h : (kept3 rid ts).map (fun x => norm x.1) = ((kept3 rid ts).map fun x => s(x.1.1, x.1.2)).map form := by
    rw [List.map_map]; rfl
  refine ⟨(h ▸ a).of_map form, fun z => ?_, c⟩
  rw [← List.mem_map_of_injective form_inj, ← h, b]
  simp only [joins_form]

/-- C102, for tetrahedra: the numbers of edges with and without a length add up to the number of edges. -/
theorem C102_total (bd : Nat → K) (big : K) (rid : Nat → Bool) (ts : List (Elt K)) (S : Finset (Sym2 Nat))
    (hS : ∀ e, e ∈ S ↔ ∃ t ∈ ts, t.ok = true ∧ (∃ i < 4, rid (t.v i) = false) ∧ Joins t e) :
    (report3 bd big rid ts).ned + (report3 bd big rid ts).null = S.card := by
  obtain ⟨a, b, _⟩ := C102_once rid ts
  have h := (C102_numbers bd big rid ts ⟨0, fun _ => true, fun _ _ => 0, fun _ _ => 0, fun _ _ => big⟩).1.null
  rw [h]
  have e : S = ((kept3 rid ts).map fun x => s(x.1.1, x.1.2)).toFinset := by
    ext e
    rw [List.mem_toFinset, b e, hS e]
  rw [e, List.toFinset_card_of_nodup a, List.length_map]

/-! ### Edges of surface triangles -/

/-- C102 fails on surfaces: every edge is counted once for each triangle. -/
theorem C102_surface_observed (bd : Nat → K) (big : K) (ts : List (Elt K)) (h : ∀ t ∈ ts, t.ok = true) :
    (reportS bd big ts).ned + (reportS bd big ts).null = 3 * ts.length := by
  have := (fold_says (bin3 bd) true big (keptS ts)).null
  unfold reportS
  rw [this]
  unfold keptS
  rw [List.filter_eq_self.mpr h]
  clear this h
  induction ts with
  | nil => rfl
  | cons t ts ih =>
    rw [List.flatMap_cons, List.length_append, ih]
    simp [sidesS]
    omega

/-! ### Edges in the plane -/

/-- Adjacency of a mesh in the plane. -/
def Adjacent (m : Plane K) : Prop := ∀ k i, 1 ≤ k → k ≤ m.nt → m.ok k = true → i < 3 →
  m.adja k i = 0 ∨ ∃ k' i', 1 ≤ k' ∧ k' ≤ m.nt ∧ m.ok k' = true ∧ i' < 3 ∧ k' ≠ k ∧ m.adja k i = 3 * k' + i' ∧ m.adja k' i' = 3 * k + i

theorem mem_sides2 (m : Plane K) (k i : Nat) : (k, i) ∈ sides2 m ↔ 1 ≤ k ∧ k ≤ m.nt ∧ m.ok k = true ∧ i < 3 ∧ 3 * k ≤ m.adja k i := by
  unfold sides2
  simp only [List.mem_flatMap, List.mem_filter, List.mem_range'_1, List.mem_map, List.mem_range, decide_eq_true_eq, Prod.mk.injEq, not_lt]
  constructor
  · rintro ⟨k', ⟨h1, h2⟩, i', ⟨h3, h4⟩, rfl, rfl⟩
    exact ⟨h1.1, by omega, h2, h3, h4⟩
  · rintro ⟨h1, h2, h3, h4, h5⟩
    exact ⟨k, ⟨⟨h1, by omega⟩, h3⟩, i, ⟨h4, h5⟩, rfl, rfl⟩

/-- C102, in the plane: an edge between two triangles is counted in exactly one of them, once.  What is missing are the edges of one
triangle (`C102_plane_observed`). -/
theorem C102_plane_partial (m : Plane K) (h : Adjacent m) : (sides2 m).Nodup ∧
    ∀ k i k' i', 1 ≤ k → k ≤ m.nt → m.ok k = true → i < 3 → i' < 3 → m.adja k i = 3 * k' + i' → k' ≠ 0 →
      (((k, i) ∈ sides2 m ∧ (k', i') ∉ sides2 m) ∨ ((k, i) ∉ sides2 m ∧ (k', i') ∈ sides2 m)) := by
  constructor
  · unfold sides2
    rw [List.nodup_flatMap]
    constructor
    · intro k _
      refine List.Nodup.map ?_ (List.nodup_range.filter _)
      intro a b e
      exact (Prod.mk.inj e).2
    · refine List.Pairwise.filter _ ?_
      refine List.Pairwise.imp ?_ (List.nodup_range' (s := 1) (n := m.nt))
      intro a b hab
      rw [Function.onFun, List.disjoint_left]
      intro x hx hy
      rw [List.mem_map] at hx hy
      obtain ⟨i, _, rfl⟩ := hx
      obtain ⟨j, _, e⟩ := hy
      exact hab (Prod.mk.inj e).1.symm
  · intro k i k' i' h1 h2 h3 h4 h5 e h6
    rcases h k i h1 h2 h3 h4 with a | ⟨k'', i'', a1, a2, a3, a4, a5, a6, a7⟩
    · omega
    · have hk : k'' = k' := by omega
      have hi : i'' = i' := by omega
      subst hk; subst hi
      rw [mem_sides2, mem_sides2]
      rcases lt_or_gt_of_ne a5 with c | c
      · right
        exact ⟨fun x => by omega, a1, a2, a3, a4, by omega⟩
      · left
        exact ⟨⟨h1, h2, h3, h4, by omega⟩, fun x => by omega⟩

/-- C102 fails in the plane: an edge of one triangle only, that is every edge of the outer boundary, is never counted. -/
theorem C102_plane_observed (m : Plane K) (k i : Nat) (h : m.adja k i = 0) : (k, i) ∉ sides2 m := by
  rw [mem_sides2]
  omega

/-- For a mesh of one triangle no edge is counted, and the mean length is a division by 0. -/
theorem C102_mean_observed (bd : Nat → K) (big : K) (m : Plane K) (h : ∀ k i, m.adja k i = 0) :
    (report2 bd big m).ned = 0 ∧ (report2 bd big m).sum = 0 := by
  have e : kept2 m = [] := by
    unfold kept2
    rw [List.map_eq_nil_iff, List.eq_nil_iff_forall_not_mem]
    rintro ⟨k, i⟩
    exact C102_plane_observed m k i (h k i)
  unfold report2
  rw [e]
  exact ⟨rfl, rfl⟩

/-! ### Cases -/

/-- Two tetrahedra with a common face, and an unused one. -/
def two : List (Elt Int) := [⟨true, fun i => [1, 2, 3, 4].getD i 0, fun i => i⟩, ⟨true, fun i => [2, 3, 4, 5].getD i 0, fun i => i + 1⟩,
  ⟨false, fun i => i, fun _ => 1⟩]

/-- Nine edges; one has the length 0. -/
example : (report3 (fun i => (i : Int)) 100 (fun _ => false) two).ned = 8 ∧ (report3 (fun i => (i : Int)) 100 (fun _ => false) two).null = 1 ∧
    (report3 (fun i => (i : Int)) 100 (fun _ => false) two).lmin = 1 ∧ (report3 (fun i => (i : Int)) 100 (fun _ => false) two).lmax = 6 ∧
    (report3 (fun i => (i : Int)) 100 (fun _ => false) two).emax = (4, 5) ∧ (report3 (fun i => (i : Int)) 100 (fun _ => false) two).sum = 29 := by
  decide +kernel

/-- Two triangles with a common edge: five edges, six are counted. -/
example : (reportS (fun i => (i : Int)) 100 [⟨true, fun i => [1, 2, 3].getD i 0, fun _ => 1⟩, ⟨true, fun i => [2, 3, 4].getD i 0, fun _ => 1⟩]).ned = 6 ∧
    ((keptS (K := Int) [⟨true, fun i => [1, 2, 3].getD i 0, fun _ => 1⟩, ⟨true, fun i => [2, 3, 4].getD i 0, fun _ => 1⟩]).map
      fun x => s(x.1.1, x.1.2)).dedup.length = 5 := by
  decide +kernel

/-- Two triangles in the plane: one of five edges is counted. -/
def pl2 : Plane Int := ⟨2, fun _ => true, fun k i => if k = 1 then [1, 2, 3].getD i 0 else [2, 4, 3].getD i 0,
  fun k i => if k = 1 ∧ i = 0 then 7 else if k = 2 ∧ i = 1 then 3 else 0, fun _ _ => 1⟩

example : sides2 pl2 = [(1, 0)] ∧ kept2 pl2 = [((2, 3), 1)] := by decide +kernel

example : Adjacent pl2 := by
  intro k i h1 h2 _ hi
  have h2 : k ≤ 2 := h2
  have hk : k = 1 ∨ k = 2 := by omega
  have hi : i = 0 ∨ i = 1 ∨ i = 2 := by omega
  rcases hk with rfl | rfl <;> rcases hi with rfl | rfl | rfl
  · exact .inr ⟨2, 1, by decide, by decide, rfl, by decide, by decide, rfl, rfl⟩
  · exact .inl rfl
  · exact .inl rfl
  · exact .inl rfl
  · exact .inr ⟨1, 0, by decide, by decide, rfl, by decide, by decide, rfl, rfl⟩
  · exact .inl rfl

example : bin3 (fun i => (i : Int)) 3 = some 3 ∧ bin3 (fun i => (i : Int)) 50 = some 8 ∧ bin2 (fun i => (i : Int)) 3 = none ∧
    bin2 (fun i => (i : Int)) 1 = some 0 := by decide +kernel

end Mmg.LenRep
