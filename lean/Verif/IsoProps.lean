/-
Property C30: removal of the entities of the isosurface when a mesh is given to the level-set discretization
(`MMG3D_skipIso`).
-/
import Verif.Util
import Mathlib.Algebra.Order.Group.Unbundled.Int
import Mathlib.Algebra.Order.Group.Abs

namespace Mmg.Iso

/-! ### Model -/

/-- The part of a triangle or edge that matters: its vertices, seen as one value, and its reference. -/
structure Ent (α : Type) where
  data : α
  ref : Int
  deriving DecidableEq

variable {α : Type}

/-- `MMG5_abs(p->ref) == mesh->info.isoref`. -/
def isIso (iso : Nat) (e : Ent α) : Bool := e.ref.natAbs == iso

def put (f : Nat → Ent α) (i : Nat) (x : Ent α) : Nat → Ent α := fun j => if j = i then x else f j

/-- The inner loop `do { p1 = &a[n]; } while( iso(p1) && (k <= --n) )`, API_functions_3d.c:1944-1947 and 1975-1978.
Result: the final `n` and the index of `p1`. -/
def inner (iso : Nat) (a : Nat → Ent α) (k : Nat) : Nat → Nat × Nat
  | 0 => (0, 0)
  | n + 1 =>
    if isIso iso (a (n + 1)) then
      if k ≤ n then inner iso a k n else (n, n + 1)
    else (n + 1, n + 1)

/-- The loop over the triangles, API_functions_3d.c:1939-1952: `d` bounds the number of iterations left. -/
def triLoop (iso : Nat) : Nat → Nat → Nat → (Nat → Ent α) → Nat × (Nat → Ent α)
  | 0, _, n, a => (n, a)
  | d + 1, k, n, a =>
    let r : Nat × (Nat → Ent α) :=
      if isIso iso (a k) then
        let q := inner iso a k n
        (q.1, if isIso iso (a q.2) then a else put a k (a q.2))
      else (n, a)
    if k + 1 ≤ r.1 then triLoop iso d (k + 1) r.1 r.2 else r

/-- Removal of the triangles of reference `iso`: new number and new array. At most `nt` iterations are made. -/
def skipTria (iso nt : Nat) (a : Nat → Ent α) : Nat × (Nat → Ent α) := triLoop iso nt 1 nt a

/-- `p->ref = MMG5_abs(p->ref)` at index `k`. -/
def absRef (a : Nat → Ent α) (k : Nat) : Nat → Ent α := put a k ⟨(a k).data, (a k).ref.natAbs⟩

/-- The loop over the edges, API_functions_3d.c:1966-1985. The kept edges get a non-negative reference, except that
a moved edge is corrected at its old place only (1983). -/
def edgeLoop (iso : Nat) : Nat → Nat → Nat → (Nat → Ent α) → Nat × (Nat → Ent α)
  | 0, _, n, a => (n, a)
  | d + 1, k, n, a =>
    let r : Nat × (Nat → Ent α) :=
      if isIso iso (a k) then
        let q := inner iso a k n
        (q.1, if isIso iso (a q.2) then a else absRef (put a k (a q.2)) q.2)
      else (n, absRef a k)
    if k + 1 ≤ r.1 then edgeLoop iso d (k + 1) r.1 r.2 else r

/-- Removal of the edges (`if ( mesh->na )`, 1965). -/
def skipEdge (iso na : Nat) (a : Nat → Ent α) : Nat × (Nat → Ent α) :=
  if na = 0 then (na, a) else edgeLoop iso na 1 na a

/-! ### Specification -/

/-- `l` is the index of the last entity to keep among `1..n` (0 if there is none). -/
structure LastKept (iso n : Nat) (a : Nat → Ent α) (l : Nat) : Prop where
  le : l ≤ n
  keep : 1 ≤ l → isIso iso (a l) = false
  after : ∀ j, l < j → j ≤ n → isIso iso (a j) = true

/-- The full claim: the entities that remain are the ones not of the isosurface, each once and in some order. -/
def ExactlyKept (iso n : Nat) (a : Nat → Ent α) (n' : Nat) (a' : Nat → Ent α) : Prop :=
  ∃ f : Nat → Nat, (∀ k, 1 ≤ k → k ≤ n' → 1 ≤ f k ∧ f k ≤ n ∧ isIso iso (a (f k)) = false ∧ a' k = a (f k)) ∧
    (∀ k l, 1 ≤ k → k ≤ n' → 1 ≤ l → l ≤ n' → f k = f l → k = l) ∧
    (∀ j, 1 ≤ j → j ≤ n → isIso iso (a j) = false → ∃ k, 1 ≤ k ∧ k ≤ n' ∧ f k = j)

/-! ### Proofs -/

theorem inner_spec (iso : Nat) (a : Nat → Ent α) (k n l : Nat) (hk : 1 ≤ k) (hkn : k ≤ n)
    (h : LastKept iso n a l) :
    inner iso a k n = if k ≤ l then (l, l) else (k - 1, k) := by
  induction n with
  | zero => omega
  | succ n ih =>
    simp only [inner]
    by_cases hi : isIso iso (a (n + 1)) = true
    · rw [if_pos hi]
      have hl : l ≤ n := by
        by_contra hc
        have : l = n + 1 := by have := h.le; omega
        have := h.keep (by omega)
        rw [‹l = n + 1›] at this
        rw [this] at hi; cases hi
      by_cases hkn' : k ≤ n
      · rw [if_pos hkn']
        exact ih hkn' ⟨hl, h.keep, fun j a b => h.after j a (by omega)⟩
      · rw [if_neg hkn', if_neg (by omega)]
        have : n + 1 = k := by omega
        rw [← this]; rfl
    · rw [if_neg hi]
      have : l = n + 1 := by
        by_contra hc
        exact hi (h.after (n + 1) (by have := h.le; omega) (le_refl _))
      rw [if_pos (by omega), this]

theorem triLoop_spec (iso : Nat) (d k n l : Nat) (a : Nat → Ent α) (hk : 1 ≤ k) (hkn : k ≤ n) (hd : n - k < d)
    (hl : LastKept iso n a l) (hb : k - 1 ≤ l) :
    triLoop iso d k n a = (l, fun j => if k ≤ j ∧ j ≤ l ∧ isIso iso (a j) = true then a l else a j) := by
  induction d generalizing k n a with
  | zero => omega
  | succ d ih =>
    simp only [triLoop]
    by_cases hi : isIso iso (a k) = true
    · simp only [if_pos hi]
      rw [inner_spec iso a k n l hk hkn hl]
      by_cases hkl : k ≤ l
      · have hne : k ≠ l := by
          rintro rfl
          rw [hl.keep hk] at hi; cases hi
        have hln := hl.keep (by omega)
        simp only [if_pos hkl, hln, Bool.false_eq_true, if_false]
        rw [if_pos (by omega)]
        have hpl : put a k (a l) l = a l := by simp [put, Ne.symm hne]
        have hll := hl.le
        rw [ih (k + 1) l (put a k (a l)) (by omega) (by omega) (by omega)
          ⟨le_refl _, fun _ => by rw [hpl]; exact hln, fun j a b => by omega⟩ (by omega)]
        congr 1
        funext j
        rw [hpl]
        by_cases ej : j = k
        · subst ej
          rw [if_neg (by omega), if_pos ⟨le_refl _, hkl, hi⟩]
          simp [put]
        · have : put a k (a l) j = a j := by simp [put, ej]
          rw [this]
          by_cases hc : k ≤ j ∧ j ≤ l ∧ isIso iso (a j) = true
          · rw [if_pos hc, if_pos ⟨by omega, hc.2⟩]
          · rw [if_neg hc, if_neg (fun h => hc ⟨by omega, h.2⟩)]
      · simp only [if_neg hkl, if_pos hi]
        rw [if_neg (by omega)]
        have : l = k - 1 := by omega
        rw [this]
        congr 1
        funext j
        rw [if_neg (by omega)]
    · simp only [if_neg hi]
      have hkl : k ≤ l := by
        by_contra hc
        exact hi (hl.after k (by omega) hkn)
      have hfun : (fun j => if k + 1 ≤ j ∧ j ≤ l ∧ isIso iso (a j) = true then a l else a j) =
          fun j => if k ≤ j ∧ j ≤ l ∧ isIso iso (a j) = true then a l else a j := by
        funext j
        by_cases ej : j = k
        · subst ej
          rw [if_neg (by omega), if_neg (fun h => hi h.2.2)]
        · by_cases hc : k ≤ j ∧ j ≤ l ∧ isIso iso (a j) = true
          · rw [if_pos hc, if_pos ⟨by omega, hc.2⟩]
          · rw [if_neg hc, if_neg (fun h => hc ⟨by omega, h.2⟩)]
      by_cases hkn' : k + 1 ≤ n
      · rw [if_pos hkn', ih (k + 1) n a (by omega) hkn' (by omega) hl (by omega), hfun]
      · rw [if_neg hkn']
        have e1 : l = n := by have := hl.le; omega
        rw [← hfun, e1]
        congr 1
        funext j
        rw [if_neg (by omega)]

/-- **C30**, what the code does with triangles: every triangle up to the last one to keep is still there, at its
place, and the places of the triangles of the isosurface before it are all filled with the same last kept
triangle. -/
theorem C30_triangles_partial (iso nt : Nat) (a : Nat → Ent α) (l : Nat) (hn : 1 ≤ nt) (hl : LastKept iso nt a l) :
    skipTria iso nt a = (l, fun j => if 1 ≤ j ∧ j ≤ l ∧ isIso iso (a j) = true then a l else a j) :=
  triLoop_spec iso nt 1 nt l a (le_refl _) hn (by omega) hl (by omega)

/-- **C30** No triangle of the isosurface remains and none of the others is lost, partial: some are repeated. -/
theorem C30_triangles_kept_partial (iso nt : Nat) (a : Nat → Ent α) (l : Nat) (hn : 1 ≤ nt)
    (hl : LastKept iso nt a l) :
    (∀ k, 1 ≤ k → k ≤ (skipTria iso nt a).1 → isIso iso ((skipTria iso nt a).2 k) = false ∧
      ∃ j, 1 ≤ j ∧ j ≤ nt ∧ (skipTria iso nt a).2 k = a j) ∧
    (∀ j, 1 ≤ j → j ≤ nt → isIso iso (a j) = false →
      j ≤ (skipTria iso nt a).1 ∧ (skipTria iso nt a).2 j = a j) := by
  rw [C30_triangles_partial iso nt a l hn hl]
  simp only
  have hle := hl.le
  constructor
  · intro k h1 h2
    by_cases hi : isIso iso (a k) = true
    · rw [if_pos ⟨h1, h2, hi⟩]; exact ⟨hl.keep (by omega), l, by omega, hle, rfl⟩
    · rw [if_neg (fun h => hi h.2.2)]; exact ⟨by simpa using hi, k, h1, by omega, rfl⟩
  · intro j h1 h2 hi
    refine ⟨?_, by rw [if_neg]; rw [hi]; simp⟩
    by_contra hc
    rw [hl.after j (by omega) h2] at hi; cases hi

/-- **C30** The full claim holds when the triangles of the isosurface come last. -/
theorem C30_triangles_last_partial (iso nt : Nat) (a : Nat → Ent α) (l : Nat) (hn : 1 ≤ nt)
    (hl : LastKept iso nt a l) (hlast : ∀ j, 1 ≤ j → j ≤ l → isIso iso (a j) = false) :
    ExactlyKept iso nt a (skipTria iso nt a).1 (skipTria iso nt a).2 := by
  rw [C30_triangles_partial iso nt a l hn hl]
  have hle := hl.le
  refine ⟨id, ?_, fun _ _ _ _ _ _ h => h, ?_⟩
  · intro k h1 h2
    refine ⟨h1, by simp only [id]; omega, hlast k h1 h2, ?_⟩
    simp only [id]
    rw [if_neg]
    rintro ⟨_, _, h⟩
    rw [hlast k h1 h2] at h; cases h
  · intro j h1 h2 hi
    refine ⟨j, h1, ?_, rfl⟩
    by_contra hc
    rw [hl.after j (by simpa using hc) h2] at hi; cases hi

/-- Two triangles: one of the isosurface (reference 10), then one to keep. -/
def two : Nat → Ent Nat := fun k => if k = 1 then ⟨100, 10⟩ else ⟨200, 3⟩

/-- **C30**, refuted: removing the first of two triangles leaves two copies of the second. -/
theorem C30_false : (skipTria 10 2 two).1 = 2 ∧ (skipTria 10 2 two).2 1 = two 2 ∧ (skipTria 10 2 two).2 2 = two 2 ∧
    ¬ ExactlyKept 10 2 two (skipTria 10 2 two).1 (skipTria 10 2 two).2 := by
  refine ⟨by decide, by decide, by decide, ?_⟩
  rintro ⟨f, h1, h2, _⟩
  have e : (skipTria 10 2 two).1 = 2 := by decide
  rw [e] at h1 h2
  have key : ∀ k, 1 ≤ k → k ≤ 2 → f k = 2 := by
    intro k a b
    obtain ⟨q1, q2, q3, _⟩ := h1 k a b
    have : f k = 1 ∨ f k = 2 := by omega
    rcases this with e | e
    · rw [e] at q3; exact absurd q3 (by decide)
    · exact e
  have := h2 1 2 (by decide) (by decide) (by decide) (by decide) ((key 1 (by decide) (by decide)).trans
    (key 2 (by decide) (by decide)).symm)
  cases this

/-! ### Edges -/

theorem absRef_iso (iso : Nat) (a : Nat → Ent α) (k j : Nat) :
    isIso iso (absRef a k j) = isIso iso (a j) ∧ (absRef a k j).data = (a j).data ∧
    (absRef a k j).ref.natAbs = (a j).ref.natAbs ∧ (j ≠ k → absRef a k j = a j) ∧
    (j = k → 0 ≤ (absRef a k j).ref) ∧ (0 ≤ (a j).ref → absRef a k j = a j) := by
  by_cases h : j = k
  · subst h
    refine ⟨?_, ?_, ?_, fun h => absurd rfl h, ?_, ?_⟩ <;> simp [absRef, put, isIso]
    intro h
    cases e : a j
    rw [e] at h
    simp only at h
    simp only [Ent.mk.injEq, true_and]
    omega
  · simp [absRef, put, h, isIso]

/-- What the loop over edges guarantees from index `k` on. -/
structure EdgeOut (iso k l : Nat) (a : Nat → Ent α) (r : Nat × (Nat → Ent α)) : Prop where
  n : r.1 = l
  data : ∀ j, (r.2 j).data = if k ≤ j ∧ j ≤ l ∧ isIso iso (a j) = true then (a l).data else (a j).data
  ref : ∀ j, (r.2 j).ref.natAbs =
    if k ≤ j ∧ j ≤ l ∧ isIso iso (a j) = true then (a l).ref.natAbs else (a j).ref.natAbs
  sign : ∀ j, k ≤ j → j ≤ l → isIso iso (a j) = false → 0 ≤ (r.2 j).ref
  before : ∀ j, j < k → 0 ≤ (a j).ref → 0 ≤ (r.2 j).ref

theorem edgeLoop_spec (iso : Nat) (d k n l : Nat) (a : Nat → Ent α) (hk : 1 ≤ k) (hkn : k ≤ n) (hd : n - k < d)
    (hl : LastKept iso n a l) (hb : k - 1 ≤ l) : EdgeOut iso k l a (edgeLoop iso d k n a) := by
  induction d generalizing k n a with
  | zero => omega
  | succ d ih =>
    simp only [edgeLoop]
    by_cases hi : isIso iso (a k) = true
    · simp only [if_pos hi]
      rw [inner_spec iso a k n l hk hkn hl]
      by_cases hkl : k ≤ l
      · have hne : k ≠ l := by
          rintro rfl
          rw [hl.keep hk] at hi; cases hi
        have hln := hl.keep (by omega)
        simp only [if_pos hkl, hln, Bool.false_eq_true, if_false]
        rw [if_pos (by omega)]
        have hll := hl.le
        generalize hb1 : absRef (put a k (a l)) l = b
        have hbl : isIso iso (b l) = false ∧ (b l).data = (a l).data ∧ (b l).ref.natAbs = (a l).ref.natAbs := by
          have h := absRef_iso iso (put a k (a l)) l l
          rw [hb1] at h
          have e : put a k (a l) l = a l := by simp [put, Ne.symm hne]
          rw [e] at h
          exact ⟨h.1.trans hln, h.2.1, h.2.2.1⟩
        have hbk : b k = a l := by
          have h := (absRef_iso iso (put a k (a l)) l k).2.2.2.1 hne
          rw [hb1] at h
          rw [h]; simp [put]
        have hbj : ∀ j, j ≠ k → isIso iso (b j) = isIso iso (a j) ∧ (b j).data = (a j).data ∧
            (b j).ref.natAbs = (a j).ref.natAbs ∧ (0 ≤ (a j).ref → 0 ≤ (b j).ref) := by
          intro j hj
          have h := absRef_iso iso (put a k (a l)) l j
          rw [hb1] at h
          have e : put a k (a l) j = a j := by simp [put, hj]
          rw [e] at h
          exact ⟨h.1, h.2.1, h.2.2.1, fun h0 => by rw [h.2.2.2.2.2 h0]; exact h0⟩
        have E := ih (k + 1) l b (by omega) (by omega) (by omega)
          ⟨le_refl _, fun _ => hbl.1, fun j a b => by omega⟩ (by omega)
        refine ⟨E.n, ?_, ?_, ?_, ?_⟩
        · intro j
          rw [E.data j]
          by_cases ej : j = k
          · subst ej
            rw [if_neg (by omega), if_pos ⟨le_refl _, hkl, hi⟩, hbk]
          · rw [(hbj j ej).1, (hbj j ej).2.1, hbl.2.1]
            by_cases hc : k ≤ j ∧ j ≤ l ∧ isIso iso (a j) = true
            · rw [if_pos hc, if_pos ⟨by omega, hc.2⟩]
            · rw [if_neg hc, if_neg (fun h => hc ⟨by omega, h.2⟩)]
        · intro j
          rw [E.ref j]
          by_cases ej : j = k
          · subst ej
            rw [if_neg (by omega), if_pos ⟨le_refl _, hkl, hi⟩, hbk]
          · rw [(hbj j ej).1, (hbj j ej).2.2.1, hbl.2.2]
            by_cases hc : k ≤ j ∧ j ≤ l ∧ isIso iso (a j) = true
            · rw [if_pos hc, if_pos ⟨by omega, hc.2⟩]
            · rw [if_neg hc, if_neg (fun h => hc ⟨by omega, h.2⟩)]
        · intro j h1 h2 h3
          have ej : j ≠ k := by rintro rfl; rw [hi] at h3; cases h3
          exact E.sign j (by omega) h2 ((hbj j ej).1.trans h3)
        · intro j h1 h2
          exact E.before j (by omega) ((hbj j (by omega)).2.2.2 h2)
      · simp only [if_neg hkl, if_pos hi]
        rw [if_neg (by omega)]
        refine ⟨by simp only; omega, ?_, ?_, ?_, fun j _ h => h⟩
        · intro j; rw [if_neg (by omega)]
        · intro j; rw [if_neg (by omega)]
        · intro j _ _ _; omega
    · simp only [if_neg hi]
      have hkl : k ≤ l := by
        by_contra hc
        exact hi (hl.after k (by omega) hkn)
      have hB := absRef_iso iso a k
      generalize absRef a k = b at hB
      have hbk : 0 ≤ (b k).ref := (hB k).2.2.2.2.1 rfl
      have hbpos : ∀ j, 0 ≤ (a j).ref → 0 ≤ (b j).ref := fun j h => by rw [(hB j).2.2.2.2.2 h]; exact h
      have hcond : ∀ j, (k + 1 ≤ j ∧ j ≤ l ∧ isIso iso (b j) = true) ↔ (k ≤ j ∧ j ≤ l ∧ isIso iso (a j) = true) := by
        intro j
        rw [(hB j).1]
        constructor
        · rintro ⟨h1, h2⟩; exact ⟨by omega, h2⟩
        · rintro ⟨h1, h2⟩
          refine ⟨?_, h2⟩
          have : j ≠ k := by rintro rfl; exact hi h2.2
          omega
      by_cases hkn' : k + 1 ≤ n
      · rw [if_pos hkn']
        have E := ih (k + 1) n b (by omega) hkn' (by omega)
          ⟨hl.le, fun h => (hB l).1.trans (hl.keep h), fun j h1 h2 => (hB j).1.trans (hl.after j h1 h2)⟩ (by omega)
        refine ⟨E.n, ?_, ?_, ?_, ?_⟩
        · intro j; rw [E.data j, if_congr (hcond j) rfl rfl, (hB l).2.1, (hB j).2.1]
        · intro j; rw [E.ref j, if_congr (hcond j) rfl rfl, (hB l).2.2.1, (hB j).2.2.1]
        · intro j h1 h2 h3
          by_cases ej : j = k
          · subst ej; exact E.before j (by omega) hbk
          · exact E.sign j (by omega) h2 ((hB j).1.trans h3)
        · intro j h1 h2; exact E.before j (by omega) (hbpos j h2)
      · rw [if_neg hkn']
        have e1 : l = n := by have := hl.le; omega
        refine ⟨e1.symm, ?_, ?_, ?_, fun j _ h => hbpos j h⟩
        · intro j; rw [if_neg (fun h => by have := (hcond j).2 h; omega)]; exact (hB j).2.1
        · intro j; rw [if_neg (fun h => by have := (hcond j).2 h; omega)]; exact (hB j).2.2.1
        · intro j h1 h2 h3
          have : j = k := by omega
          rw [this]; exact hbk

/-- **C30**, what the code does with edges: the edges to keep are still at their places with the absolute value of
their reference; the places of the others, up to the last kept edge, are filled with copies of it. -/
theorem C30_edges_partial (iso na : Nat) (a : Nat → Ent α) (l : Nat) (hn : 1 ≤ na) (hl : LastKept iso na a l) :
    (skipEdge iso na a).1 = l ∧
    (∀ j, 1 ≤ j → j ≤ l → isIso iso (a j) = false → (skipEdge iso na a).2 j = ⟨(a j).data, (a j).ref.natAbs⟩) ∧
    (∀ j, 1 ≤ j → j ≤ l → isIso iso (a j) = true → ((skipEdge iso na a).2 j).data = (a l).data ∧
      ((skipEdge iso na a).2 j).ref.natAbs = (a l).ref.natAbs) := by
  have E := edgeLoop_spec iso na 1 na l a (le_refl _) hn (by omega) hl (by omega)
  have e : skipEdge iso na a = edgeLoop iso na 1 na a := by unfold skipEdge; rw [if_neg (by omega)]
  rw [e]
  refine ⟨E.n, ?_, ?_⟩
  · intro j h1 h2 h3
    have q1 := E.data j
    have q2 := E.ref j
    have q3 := E.sign j h1 h2 h3
    rw [if_neg (by rw [h3]; simp)] at q1 q2
    cases h : (edgeLoop iso na 1 na a).2 j with
    | mk d r =>
      rw [h] at q1 q2 q3
      simp only at q1 q2 q3
      rw [q1]
      congr 1
      omega
  · intro j h1 h2 h3
    have q1 := E.data j
    have q2 := E.ref j
    rw [if_pos ⟨h1, h2, h3⟩] at q1 q2
    exact ⟨q1, q2⟩

/-- **C30**, refuted for edges: an edge to keep of negative reference, moved to the place of a removed one, is
duplicated, and the copy keeps its negative reference. -/
theorem C30_edges_false :
    (skipEdge 10 2 (fun k => if k = 1 then ⟨100, 10⟩ else ⟨200, -3⟩ : Nat → Ent Nat)).1 = 2 ∧
    (skipEdge 10 2 (fun k => if k = 1 then ⟨100, 10⟩ else ⟨200, -3⟩ : Nat → Ent Nat)).2 1 = ⟨200, -3⟩ ∧
    (skipEdge 10 2 (fun k => if k = 1 then ⟨100, 10⟩ else ⟨200, -3⟩ : Nat → Ent Nat)).2 2 = ⟨200, 3⟩ := by decide

/-- The hypotheses hold with isosurface triangles first, in the middle and last: `l` is 3. -/
example : LastKept 10 4 (fun k => if k = 3 then ⟨5, 1⟩ else ⟨7, -10⟩ : Nat → Ent Nat) 3 :=
  ⟨by decide, by decide, by intro j h1 h2; have : j = 4 := by omega
                            subst this; decide⟩

/-- There is always a last kept index. -/
theorem lastKept_exists (iso n : Nat) (a : Nat → Ent α) : ∃ l, LastKept iso n a l := by
  induction n with
  | zero => exact ⟨0, le_refl _, by omega, by intro j; omega⟩
  | succ n ih =>
    by_cases h : isIso iso (a (n + 1)) = true
    · obtain ⟨l, hl⟩ := ih
      refine ⟨l, by have := hl.le; omega, hl.keep, ?_⟩
      intro j h1 h2
      by_cases e : j = n + 1
      · rw [e]; exact h
      · exact hl.after j h1 (by omega)
    · exact ⟨n + 1, le_refl _, fun _ => by simpa using h, by intro j; omega⟩

end Mmg.Iso
