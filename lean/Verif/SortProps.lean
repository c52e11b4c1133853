/-
Property C37: `MMG5_nsort` / `MMG5_nperm`, common/tools.c:49-90.
-/
import Mathlib.Data.List.Perm.Basic
import Mathlib.Data.List.Range
import Mathlib.Data.List.Sort
import Mathlib.Data.Rat.Defs
import Mathlib.Algebra.Order.Ring.Rat
import Verif.Util

namespace Mmg.Sort

variable {α : Type}

/-! ### Model -/

/-- Exchange of two cells of an array. -/
def swap (a : Nat → α) (i j : Nat) : Nat → α := fun k => if k = i then a j else if k = j then a i else a k

/-- Inner loop `for (j=i+1; j<n; j++) if (val[perm[i]] > val[perm[j]]) swap`, tools.c:55-61;
`c` iterations are left, `j = n - c`. -/
def inner [LinearOrder α] (val : Nat → α) (n i : Nat) : Nat → (Nat → Nat) → (Nat → Nat)
  | 0, perm => perm
  | c + 1, perm =>
    let j := n - (c + 1)
    inner val n i c (if val (perm j) < val (perm i) then swap perm i j else perm)

/-- Outer loop, tools.c:54-62; `c` iterations are left, `i = n - c`. -/
def outer [LinearOrder α] (val : Nat → α) (n : Nat) : Nat → (Nat → Nat) → (Nat → Nat)
  | 0, perm => perm
  | c + 1, perm =>
    let i := n - (c + 1)
    outer val n c (inner val n i (n - (i + 1)) perm)

/-- `MMG5_nsort`, tools.c:49-64: `perm` is first set to the identity on `0..n-1`; other cells are
untouched. -/
def nsort [LinearOrder α] (val : Nat → α) (n : Nat) (perm : Nat → Nat) : Nat → Nat :=
  outer val n n (fun i => if i < n then i else perm i)

/-- First loop of `MMG5_nperm`, tools.c:83-84. -/
def saveVals (n shift stride : Nat) (val old : Nat → α) : Nat → α :=
  fun i => if i < n then val (shift + i * stride) else old i

/-- Second loop of `MMG5_nperm`, tools.c:86-87; `c` iterations are left, `i = n - c`. -/
def storeVals (n shift stride : Nat) (old : Nat → α) (perm : Nat → Nat) : Nat → (Nat → α) → (Nat → α)
  | 0, val => val
  | c + 1, val =>
    let i := n - (c + 1)
    storeVals n shift stride old perm c
      (fun k => if k = shift + i * stride then old (perm i) else val k)

/-- `MMG5_nperm`, tools.c:80-90. -/
def nperm (n shift stride : Nat) (val old : Nat → α) (perm : Nat → Nat) : Nat → α :=
  storeVals n shift stride (saveVals n shift stride val old) perm n val

/-! ### Proofs -/

/-- `perm` restricted to `0..n-1` is a permutation of `0..n-1` and it coincides with `p0` elsewhere. -/
def IsPerm (n : Nat) (p0 perm : Nat → Nat) : Prop :=
  ((List.range n).map perm).Perm (List.range n) ∧ ∀ k, n ≤ k → perm k = p0 k

theorem IsPerm.maps {n : Nat} {p0 perm : Nat → Nat} (h : IsPerm n p0 perm) {i : Nat} (hi : i < n) :
    perm i < n := by
  have : perm i ∈ (List.range n).map perm := List.mem_map.2 ⟨i, List.mem_range.2 hi, rfl⟩
  exact List.mem_range.1 (h.1.mem_iff.1 this)

theorem swap_map {n : Nat} (a : Nat → α) {i j : Nat} (_hi : i < n) (hj : j < n) (hij : i < j) :
    ((List.range n).map (swap a i j)).Perm ((List.range n).map a) := by
  have e : ∀ (f : Nat → α), (List.range n).map f = (List.range i).map f ++ f i ::
      ((List.range (j - i - 1)).map (fun k => f (i + 1 + k)) ++ f j ::
        (List.range (n - j - 1)).map (fun k => f (j + 1 + k))) := by
    intro f
    apply List.ext_getElem
    · simp; omega
    · intro k h1 h2
      simp only [List.length_map, List.length_range] at h1
      simp only [List.getElem_map, List.getElem_range, List.getElem_append, List.length_map,
        List.length_range, List.getElem_cons]
      split
      · rfl
      · split
        · congr 1; omega
        · split
          · congr 1; omega
          · split
            · congr 1; omega
            · congr 1; omega
  rw [e (swap a i j), e a]
  have h1 : (List.range i).map (swap a i j) = (List.range i).map a := by
    apply List.map_congr_left; intro k hk; rw [List.mem_range] at hk
    unfold swap; rw [if_neg (by omega), if_neg (by omega)]
  have h2 : (List.range (j - i - 1)).map (fun k => swap a i j (i + 1 + k)) =
      (List.range (j - i - 1)).map (fun k => a (i + 1 + k)) := by
    apply List.map_congr_left; intro k hk; rw [List.mem_range] at hk
    unfold swap; rw [if_neg (by omega), if_neg (by omega)]
  have h3 : (List.range (n - j - 1)).map (fun k => swap a i j (j + 1 + k)) =
      (List.range (n - j - 1)).map (fun k => a (j + 1 + k)) := by
    apply List.map_congr_left; intro k hk
    unfold swap; rw [if_neg (by omega), if_neg (by omega)]
  have h4 : swap a i j i = a j := by unfold swap; rw [if_pos rfl]
  have h5 : swap a i j j = a i := by unfold swap; rw [if_neg (by omega), if_pos rfl]
  rw [h1, h2, h3, h4, h5]
  apply List.Perm.append_left
  generalize (List.range (j - i - 1)).map _ = L
  generalize (List.range (n - j - 1)).map _ = M
  calc (a j :: (L ++ a i :: M)).Perm (a j :: a i :: (L ++ M)) := List.Perm.cons _ List.perm_middle
    _ |>.Perm (a i :: a j :: (L ++ M)) := List.Perm.swap _ _ _
    _ |>.Perm (a i :: (L ++ a j :: M)) := List.Perm.cons _ List.perm_middle.symm

theorem IsPerm.swap {n : Nat} {p0 perm : Nat → Nat} (h : IsPerm n p0 perm) {i j : Nat} (hi : i < n)
    (hj : j < n) (hij : i < j) : IsPerm n p0 (swap perm i j) := by
  refine ⟨(swap_map perm hi hj hij).trans h.1, fun k hk => ?_⟩
  unfold Sort.swap
  rw [if_neg (by omega), if_neg (by omega)]
  exact h.2 k hk

theorem inner_spec [LinearOrder α] (val : Nat → α) (n i : Nat) (p0 : Nat → Nat) :
    ∀ (c : Nat) (perm : Nat → Nat), IsPerm n p0 perm → c + i + 1 ≤ n →
      (∀ j, i < j → j < n - c → val (perm i) ≤ val (perm j)) →
      (∀ k, k < i → ∀ j, k < j → j < n → val (perm k) ≤ val (perm j)) →
      IsPerm n p0 (inner val n i c perm) ∧
      (∀ k, k < i + 1 → ∀ j, k < j → j < n → val (inner val n i c perm k) ≤ val (inner val n i c perm j)) := by
  intro c
  induction c with
  | zero =>
    intro perm hp _ h1 h2
    unfold inner
    refine ⟨hp, fun k hk j hkj hj => ?_⟩
    by_cases e : k = i
    · subst e; exact h1 j hkj (by omega)
    · exact h2 k (by omega) j hkj hj
  | succ c ih =>
    intro perm hp hc h1 h2
    unfold inner
    simp only []
    split
    · rename_i hlt
      apply ih
      · exact hp.swap (by omega) (by omega) (by omega)
      · omega
      · intro j hij hj
        unfold swap
        rw [if_pos rfl, if_neg (by omega)]
        split
        · exact le_of_lt hlt
        · exact (le_of_lt hlt).trans (h1 j hij (by omega))
      · intro k hk j hkj hj
        unfold swap
        rw [if_neg (by omega), if_neg (by omega)]
        split
        · exact h2 k hk _ (by omega) (by omega)
        · split
          · exact h2 k hk _ (by omega) (by omega)
          · exact h2 k hk j hkj hj
    · rename_i hle
      apply ih _ hp (by omega) _ h2
      intro j hij hj
      by_cases e : j = n - (c + 1)
      · subst e; exact not_lt.1 hle
      · exact h1 j hij (by omega)

theorem outer_spec [LinearOrder α] (val : Nat → α) (n : Nat) (p0 : Nat → Nat) :
    ∀ (c : Nat) (perm : Nat → Nat), IsPerm n p0 perm → c ≤ n →
      (∀ k, k < n - c → ∀ j, k < j → j < n → val (perm k) ≤ val (perm j)) →
      IsPerm n p0 (outer val n c perm) ∧
      (∀ k, k < n → ∀ j, k < j → j < n → val (outer val n c perm k) ≤ val (outer val n c perm j)) := by
  intro c
  induction c with
  | zero => intro perm hp _ h; exact ⟨hp, by simpa [outer] using h⟩
  | succ c ih =>
    intro perm hp hc h
    unfold outer
    simp only []
    have := inner_spec val n (n - (c + 1)) p0 (n - (n - (c + 1) + 1)) perm hp (by omega)
      (fun j h1 h2 => by omega) h
    exact ih _ this.1 (by omega) (fun k hk j => this.2 k (by omega) j)

theorem storeVals_spec (n shift stride : Nat) (hs : 0 < stride) (old : Nat → α) (perm : Nat → Nat) :
    ∀ (c : Nat) (val : Nat → α), c ≤ n →
      (∀ i, n - c ≤ i → i < n → storeVals n shift stride old perm c val (shift + i * stride) = old (perm i)) ∧
      (∀ k, (∀ i, n - c ≤ i → i < n → k ≠ shift + i * stride) →
        storeVals n shift stride old perm c val k = val k) := by
  intro c
  induction c with
  | zero => intro val _; exact ⟨fun i h1 h2 => by omega, fun k _ => rfl⟩
  | succ c ih =>
    intro val hc
    unfold storeVals
    simp only []
    obtain ⟨h1, h2⟩ := ih (fun k => if k = shift + (n - (c + 1)) * stride then old (perm (n - (c + 1))) else val k) (by omega)
    constructor
    · intro i hi1 hi2
      by_cases e : i = n - (c + 1)
      · subst e
        rw [h2]
        · rw [if_pos rfl]
        · intro j hj1 hj2 he
          have : (n - (c + 1)) * stride = j * stride := by omega
          have := Nat.eq_of_mul_eq_mul_right hs this
          omega
      · exact h1 i (by omega) hi2
    · intro k hk
      rw [h2 k (fun i h3 h4 => hk i (by omega) h4), if_neg (hk _ (by omega) (by omega))]

/-! ### C37 -/

/-- **C37 (sort).** After `nsort`, the first `n` cells of `perm` are a permutation of 0..n-1, the
values read through it are in ascending order and no cell beyond `n` has been written. -/
theorem C37_sort [LinearOrder α] (val : Nat → α) (n : Nat) (perm : Nat → Nat) :
    ((List.range n).map (nsort val n perm)).Perm (List.range n) ∧
    ((List.range n).map (fun i => val (nsort val n perm i))).Pairwise (· ≤ ·) ∧
    ∀ k, n ≤ k → nsort val n perm k = perm k := by
  have h0 : IsPerm n perm (fun i => if i < n then i else perm i) := by
    refine ⟨?_, fun k hk => if_neg (by omega)⟩
    have : (List.range n).map (fun i => if i < n then i else perm i) = (List.range n).map id := by
      apply List.map_congr_left; intro k hk; rw [List.mem_range] at hk; simp [hk]
    rw [this, List.map_id]
  have h := outer_spec val n perm n _ h0 le_rfl (fun k hk => by omega)
  refine ⟨h.1.1, ?_, h.1.2⟩
  rw [List.pairwise_map]
  refine (List.pairwise_lt_range (n := n)).imp_of_mem ?_
  intro a b ha hb hab
  rw [List.mem_range] at ha hb
  exact h.2 a ha b hab hb

/-- **C37 (permute).** `nperm` moves, inside the strided sub-array only, value number `perm[i]` to
place `i`; all other cells of the array keep their value. -/
theorem C37_permute (n shift stride : Nat) (hs : 0 < stride) (val old : Nat → α) (perm : Nat → Nat)
    (hp : ∀ i, i < n → perm i < n) :
    (∀ i, i < n → nperm n shift stride val old perm (shift + i * stride) = val (shift + perm i * stride)) ∧
    (∀ k, (∀ i, i < n → k ≠ shift + i * stride) → nperm n shift stride val old perm k = val k) := by
  obtain ⟨h1, h2⟩ := storeVals_spec n shift stride hs (saveVals n shift stride val old) perm n val le_rfl
  constructor
  · intro i hi
    unfold nperm
    rw [h1 i (by omega) hi]
    unfold saveVals
    rw [if_pos (hp i hi)]
  · intro k hk
    exact h2 k (fun i _ hi => hk i hi)

/-- **C37 (together).** Sorting a strided sub-array and applying the permutation leaves it sorted,
with the same values. -/
theorem C37_sort_and_permute [LinearOrder α] (n shift stride : Nat) (hs : 0 < stride) (val old : Nat → α)
    (perm : Nat → Nat) :
    let keys := fun i => val (shift + i * stride)
    let out := fun i => nperm n shift stride val old (nsort keys n perm) (shift + i * stride)
    ((List.range n).map out).Pairwise (· ≤ ·) ∧
    ((List.range n).map out).Perm ((List.range n).map keys) := by
  intro keys out
  obtain ⟨h1, h2, h3⟩ := C37_sort keys n perm
  have hm : ∀ i, i < n → nsort keys n perm i < n := fun i hi =>
    IsPerm.maps (p0 := perm) ⟨h1, h3⟩ hi
  have e : (List.range n).map out = (List.range n).map (fun i => keys (nsort keys n perm i)) := by
    apply List.map_congr_left
    intro i hi
    exact (C37_permute n shift stride hs val old _ hm).1 i (List.mem_range.1 hi)
  rw [e]
  refine ⟨h2, ?_⟩
  have := h1.map keys
  rw [List.map_map] at this
  exact this

example : (List.range 4).map (nsort (fun i => ([3, 1, 2, 1] : List Nat).getD i 0) 4 (fun _ => 9)) = [1, 3, 2, 0] := by
  decide

example : ∀ i, i < 3 → (fun i => (i + 1) % 3) i < 3 := by decide

end Mmg.Sort
