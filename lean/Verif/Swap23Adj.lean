/-
  Links after a 2-3 swap.
-/
import Verif.Swap23Lemmas

namespace Mmg.Swap23

open Mmg.Split3

/-- Two tetrahedra `k`, `k1` share the face `j0 = t 0` of `k`, `u 0` of `k1`; `iel` is free.  Their
opposite vertices are not in the other one. -/
structure Pair (A : Nat → Nat) (V : Nat → List Nat) (used : Nat → Prop) (t u : Nat → Nat)
    (k k1 iel : Nat) : Prop where
  adj : AdjOK A V used
  ht : Perm4 t
  hu : Perm4 u
  uk : used k
  uk1 : used k1
  pos : 1 ≤ iel
  new : ¬ used iel
  lk : link A k (t 0) = 4 * k1 + u 0
  len0 : (V k).length = 4
  len1 : (V k1).length = 4
  p0 : (V k).getD (t 0) 0 ∉ V k1
  p1 : (V k1).getD (u 0) 0 ∉ V k
  reads : Reads (V k) (V k1) t u

theorem link_inj {A : Nat → Nat} {V : Nat → List Nat} {used : Nat → Prop} (h : AdjOK A V used)
    {k i k' i' : Nat} (hk : used k) (hi : i < 4) (hk' : used k') (hi' : i' < 4)
    (hne : link A k i ≠ 0) (he : link A k i = link A k' i') : k = k' ∧ i = i' := by
  have h1 := (h.ok k hk i hi hne).2.2.1
  have h2 := (h.ok k' hk' i' hi' (he ▸ hne)).2.2.1
  rw [he] at h1
  omega

section
variable {A : Nat → Nat} {V : Nat → List Nat} {used : Nat → Prop} {t u : Nat → Nat}
  {k k1 iel : Nat}

theorem Pair.ne01 (h : Pair A V used t u k k1 iel) : k ≠ k1 := by
  have hl := h.lk
  have h4 := h.hu.lt 0 (by decide)
  have h1 := h.adj.pos _ h.uk1
  obtain ⟨_, hs, _⟩ := h.adj.ok k h.uk (t 0) (h.ht.lt 0 (by decide)) (by omega)
  omega

theorem Pair.ne0 (h : Pair A V used t u k k1 iel) : k ≠ iel := fun e => h.new (e ▸ h.uk)
theorem Pair.ne1 (h : Pair A V used t u k k1 iel) : k1 ≠ iel := fun e => h.new (e ▸ h.uk1)

theorem Pair.lk1 (h : Pair A V used t u k k1 iel) : link A k1 (u 0) = 4 * k + t 0 := by
  have hl := h.lk
  have h4 := h.hu.lt 0 (by decide)
  have h1 := h.adj.pos _ h.uk1
  obtain ⟨_, _, hs, _⟩ := h.adj.ok k h.uk (t 0) (h.ht.lt 0 (by decide)) (by omega)
  rwa [hl, show (4 * k1 + u 0) / 4 = k1 by omega, show (4 * k1 + u 0) % 4 = u 0 by omega] at hs

/-- The neighbours through the other faces of `k` are outside of the pair. -/
theorem Pair.out0 (h : Pair A V used t u k k1 iel) {j : Nat} (hj : j < 4) (hj0 : j ≠ 0)
    (hne : link A k (t j) ≠ 0) :
    used (link A k (t j) / 4) ∧ link A k (t j) / 4 ≠ k ∧ link A k (t j) / 4 ≠ k1 ∧
      link A k (t j) / 4 ≠ iel := by
  obtain ⟨hu', hs, _, hf⟩ := h.adj.ok k h.uk (t j) (h.ht.lt j hj) hne
  refine ⟨hu', hs, fun e => ?_, fun e => h.new (e ▸ hu')⟩
  rw [e] at hf
  apply h.p0
  have hm : (V k).getD (t 0) 0 ∈ faceTri 0 (V k) (t j) :=
    mem_face h.len0 (h.ht.lt 0 (by decide)) (h.ht.lt j hj)
      (fun e => hj0 (h.ht.inj 0 (by decide) j hj e).symm)
  rw [← hf] at hm
  exact mem_of_face h.len1 (Nat.mod_lt _ (by decide)) hm

/-- The neighbours through the other faces of `k1` are outside of the pair. -/
theorem Pair.out1 (h : Pair A V used t u k k1 iel) {j : Nat} (hj : j < 4) (hj0 : j ≠ 0)
    (hne : link A k1 (u j) ≠ 0) :
    used (link A k1 (u j) / 4) ∧ link A k1 (u j) / 4 ≠ k ∧ link A k1 (u j) / 4 ≠ k1 ∧
      link A k1 (u j) / 4 ≠ iel := by
  obtain ⟨hu', hs, _, hf⟩ := h.adj.ok k1 h.uk1 (u j) (h.hu.lt j hj) hne
  refine ⟨hu', fun e => ?_, hs, fun e => h.new (e ▸ hu')⟩
  rw [e] at hf
  apply h.p1
  have hm : (V k1).getD (u 0) 0 ∈ faceTri 0 (V k1) (u j) :=
    mem_face h.len1 (h.hu.lt 0 (by decide)) (h.hu.lt j hj)
      (fun e => hj0 (h.hu.inj 0 (by decide) j hj e).symm)
  rw [← hf] at hm
  exact mem_of_face h.len0 (Nat.mod_lt _ (by decide)) hm

/-- All the links after the swap, as a cascade. -/
theorem link_swap (h : Pair A V used t u k k1 iel) {q i : Nat} (hq : 1 ≤ q) (hi : i < 4) :
    link (swapAdj t u k k1 iel A) q i =
      if link A k (t 3) ≠ 0 ∧ q = link A k (t 3) / 4 ∧ i = link A k (t 3) % 4 then 4 * iel + t 3
      else if link A k1 (u 2) ≠ 0 ∧ q = link A k1 (u 2) / 4 ∧ i = link A k1 (u 2) % 4 then
        4 * iel + t 0
      else if q = iel ∧ i = t 3 then link A k (t 3)
      else if q = iel ∧ i = t 2 then 4 * k1 + t 3
      else if q = iel ∧ i = t 1 then 4 * k + t 3
      else if q = iel ∧ i = t 0 then link A k1 (u 2)
      else if link A k (t 2) ≠ 0 ∧ q = link A k (t 2) / 4 ∧ i = link A k (t 2) % 4 then
        4 * k1 + t 2
      else if link A k1 (u 3) ≠ 0 ∧ q = link A k1 (u 3) / 4 ∧ i = link A k1 (u 3) % 4 then
        4 * k1 + t 0
      else if q = k1 ∧ i = t 3 then 4 * iel + t 2
      else if q = k1 ∧ i = t 2 then link A k (t 2)
      else if q = k1 ∧ i = t 1 then 4 * k + t 2
      else if q = k1 ∧ i = t 0 then link A k1 (u 3)
      else if link A k1 (u 1) ≠ 0 ∧ q = link A k1 (u 1) / 4 ∧ i = link A k1 (u 1) % 4 then
        4 * k + t 0
      else if q = k ∧ i = t 3 then 4 * iel + t 1
      else if q = k ∧ i = t 2 then 4 * k1 + t 1
      else if q = k ∧ i = t 0 then link A k1 (u 1)
      else link A q i := by
  have l0 := h.ht.lt 0 (by decide)
  have l1 := h.ht.lt 1 (by decide)
  have l2 := h.ht.lt 2 (by decide)
  have l3 := h.ht.lt 3 (by decide)
  have pk := h.adj.pos _ h.uk
  have pk1 := h.adj.pos _ h.uk1
  have b0 : ∀ j < 4, j ≠ 0 → link A k (t j) ≠ 0 → 1 ≤ link A k (t j) / 4 :=
    fun j hj h0 hne => h.adj.pos _ (h.out0 hj h0 hne).1
  have b1 : ∀ j < 4, j ≠ 0 → link A k1 (u j) ≠ 0 → 1 ≤ link A k1 (u j) / 4 :=
    fun j hj h0 hne => h.adj.pos _ (h.out1 hj h0 hne).1
  have c02 : A (adjIdx k (t 2)) = link A k (t 2) := rfl
  have c03 : A (adjIdx k (t 3)) = link A k (t 3) := rfl
  have c11 : A (adjIdx k1 (u 1)) = link A k1 (u 1) := rfl
  have c12 : A (adjIdx k1 (u 2)) = link A k1 (u 2) := rfl
  have c13 : A (adjIdx k1 (u 3)) = link A k1 (u 3) := rfl
  unfold swapAdj
  simp only [c02, c03, c11, c12, c13]
  rw [link_back (b0 3 (by decide) (by decide)) hq hi, link_back (b1 2 (by decide) (by decide)) hq hi,
    link_set h.pos hq l3 hi, link_set h.pos hq l2 hi, link_set h.pos hq l1 hi,
    link_set h.pos hq l0 hi, link_back (b0 2 (by decide) (by decide)) hq hi,
    link_back (b1 3 (by decide) (by decide)) hq hi, link_set pk1 hq l3 hi, link_set pk1 hq l2 hi,
    link_set pk1 hq l1 hi, link_set pk1 hq l0 hi, link_back (b1 1 (by decide) (by decide)) hq hi,
    link_set pk hq l3 hi, link_set pk hq l2 hi, link_set pk hq l0 hi]

/-- Rows of the three tetrahedra. -/
theorem link_swap_rows (h : Pair A V used t u k k1 iel) :
    (link (swapAdj t u k k1 iel A) k (t 0) = link A k1 (u 1) ∧
     link (swapAdj t u k k1 iel A) k (t 1) = link A k (t 1) ∧
     link (swapAdj t u k k1 iel A) k (t 2) = 4 * k1 + t 1 ∧
     link (swapAdj t u k k1 iel A) k (t 3) = 4 * iel + t 1) ∧
    (link (swapAdj t u k k1 iel A) k1 (t 0) = link A k1 (u 3) ∧
     link (swapAdj t u k k1 iel A) k1 (t 1) = 4 * k + t 2 ∧
     link (swapAdj t u k k1 iel A) k1 (t 2) = link A k (t 2) ∧
     link (swapAdj t u k k1 iel A) k1 (t 3) = 4 * iel + t 2) ∧
    (link (swapAdj t u k k1 iel A) iel (t 0) = link A k1 (u 2) ∧
     link (swapAdj t u k k1 iel A) iel (t 1) = 4 * k + t 3 ∧
     link (swapAdj t u k k1 iel A) iel (t 2) = 4 * k1 + t 3 ∧
     link (swapAdj t u k k1 iel A) iel (t 3) = link A k (t 3)) := by
  have pk := h.adj.pos _ h.uk
  have pk1 := h.adj.pos _ h.uk1
  have d : ∀ i < 4, ∀ j < 4, i ≠ j → t i ≠ t j :=
    fun i hi j hj hij e => hij (h.ht.inj i hi j hj e)
  have d01 := d 0 (by decide) 1 (by decide) (by decide)
  have d02 := d 0 (by decide) 2 (by decide) (by decide)
  have d03 := d 0 (by decide) 3 (by decide) (by decide)
  have d12 := d 1 (by decide) 2 (by decide) (by decide)
  have d13 := d 1 (by decide) 3 (by decide) (by decide)
  have d23 := d 2 (by decide) 3 (by decide) (by decide)
  have n0 : ∀ q, q = k ∨ q = k1 ∨ q = iel → ∀ j, j < 4 → j ≠ 0 → ∀ i,
      (link A k (t j) ≠ 0 ∧ q = link A k (t j) / 4 ∧ i = link A k (t j) % 4) = False := by
    intro q hq j hj hj0 i
    simp only [eq_iff_iff, iff_false]
    rintro ⟨h1, h2, _⟩
    obtain ⟨_, e1, e2, e3⟩ := h.out0 hj hj0 h1
    rcases hq with rfl | rfl | rfl
    exacts [e1 h2.symm, e2 h2.symm, e3 h2.symm]
  have n1 : ∀ q, q = k ∨ q = k1 ∨ q = iel → ∀ j, j < 4 → j ≠ 0 → ∀ i,
      (link A k1 (u j) ≠ 0 ∧ q = link A k1 (u j) / 4 ∧ i = link A k1 (u j) % 4) = False := by
    intro q hq j hj hj0 i
    simp only [eq_iff_iff, iff_false]
    rintro ⟨h1, h2, _⟩
    obtain ⟨_, e1, e2, e3⟩ := h.out1 hj hj0 h1
    rcases hq with rfl | rfl | rfl
    exacts [e1 h2.symm, e2 h2.symm, e3 h2.symm]
  have key : ∀ q, q = k ∨ q = k1 ∨ q = iel → ∀ i < 4, link (swapAdj t u k k1 iel A) q i =
      if q = iel ∧ i = t 3 then link A k (t 3)
      else if q = iel ∧ i = t 2 then 4 * k1 + t 3
      else if q = iel ∧ i = t 1 then 4 * k + t 3
      else if q = iel ∧ i = t 0 then link A k1 (u 2)
      else if q = k1 ∧ i = t 3 then 4 * iel + t 2
      else if q = k1 ∧ i = t 2 then link A k (t 2)
      else if q = k1 ∧ i = t 1 then 4 * k + t 2
      else if q = k1 ∧ i = t 0 then link A k1 (u 3)
      else if q = k ∧ i = t 3 then 4 * iel + t 1
      else if q = k ∧ i = t 2 then 4 * k1 + t 1
      else if q = k ∧ i = t 0 then link A k1 (u 1)
      else link A q i := by
    intro q hq i hi
    have hq1 : 1 ≤ q := by rcases hq with rfl | rfl | rfl <;> first | exact pk | exact pk1 | exact h.pos
    rw [link_swap h hq1 hi]
    simp only [n0 q hq 3 (by decide) (by decide), n0 q hq 2 (by decide) (by decide),
      n1 q hq 1 (by decide) (by decide), n1 q hq 2 (by decide) (by decide),
      n1 q hq 3 (by decide) (by decide), if_false]
  have e1 := h.ne01
  have e2 := h.ne0
  have e3 := h.ne1
  have l := h.ht.lt
  refine ⟨⟨?_, ?_, ?_, ?_⟩, ⟨?_, ?_, ?_, ?_⟩, ⟨?_, ?_, ?_, ?_⟩⟩ <;>
    rw [key _ (by simp) _ (l _ (by decide))] <;>
    simp only [e1, e2, e3, e1.symm, e2.symm, e3.symm, d01, d02, d03, d12, d13, d23, d01.symm,
      d02.symm, d03.symm, d12.symm, d13.symm, d23.symm, false_and, and_false, true_and, and_true,
      if_true, if_false, and_self]

/-- Links of the tetrahedra outside of the pair. -/
theorem link_swap_out (h : Pair A V used t u k k1 iel) {q i : Nat} (hq : used q) (hqk : q ≠ k)
    (hqk1 : q ≠ k1) (hi : i < 4) :
    (link A q i = 4 * k + t 1 → link (swapAdj t u k k1 iel A) q i = 4 * k + t 1) ∧
    (link A q i = 4 * k + t 2 → link (swapAdj t u k k1 iel A) q i = 4 * k1 + t 2) ∧
    (link A q i = 4 * k + t 3 → link (swapAdj t u k k1 iel A) q i = 4 * iel + t 3) ∧
    (link A q i = 4 * k1 + u 1 → link (swapAdj t u k k1 iel A) q i = 4 * k + t 0) ∧
    (link A q i = 4 * k1 + u 2 → link (swapAdj t u k k1 iel A) q i = 4 * iel + t 0) ∧
    (link A q i = 4 * k1 + u 3 → link (swapAdj t u k k1 iel A) q i = 4 * k1 + t 0) ∧
    ((link A q i = 0 ∨ link A q i / 4 ≠ k ∧ link A q i / 4 ≠ k1) →
      link (swapAdj t u k k1 iel A) q i = link A q i) := by
  have hq1 := h.adj.pos q hq
  have pk := h.adj.pos _ h.uk
  have pk1 := h.adj.pos _ h.uk1
  have hqi : q ≠ iel := fun e => h.new (e ▸ hq)
  have e01 := h.ne01
  have hlt := h.ht.lt
  have hlu := h.hu.lt
  have d : ∀ i < 4, ∀ j < 4, i ≠ j → t i ≠ t j :=
    fun i hi j hj hij e => hij (h.ht.inj i hi j hj e)
  have d' : ∀ i < 4, ∀ j < 4, i ≠ j → u i ≠ u j :=
    fun i hi j hj hij e => hij (h.hu.inj i hi j hj e)
  -- an address points to `q, i` exactly when `q, i` points back
  have key : ∀ e, used e → ∀ j < 4,
      (link A e j ≠ 0 ∧ q = link A e j / 4 ∧ i = link A e j % 4) = (link A q i = 4 * e + j) := by
    intro e he j hj
    have hep := h.adj.pos e he
    apply propext
    constructor
    · rintro ⟨h1, h2, h3⟩
      have := (h.adj.ok e he j hj h1).2.2.1
      rwa [← h2, ← h3] at this
    · intro h1
      have := (h.adj.ok q hq i hi (by omega)).2.2.1
      rw [h1, show (4 * e + j) / 4 = e by omega, show (4 * e + j) % 4 = j by omega] at this
      rw [this]
      omega
  have L : link (swapAdj t u k k1 iel A) q i =
      if link A q i = 4 * k + t 3 then 4 * iel + t 3
      else if link A q i = 4 * k1 + u 2 then 4 * iel + t 0
      else if link A q i = 4 * k + t 2 then 4 * k1 + t 2
      else if link A q i = 4 * k1 + u 3 then 4 * k1 + t 0
      else if link A q i = 4 * k1 + u 1 then 4 * k + t 0
      else link A q i := by
    rw [link_swap h hq1 hi]
    simp only [key k h.uk _ (hlt 3 (by decide)), key k h.uk _ (hlt 2 (by decide)),
      key k1 h.uk1 _ (hlu 1 (by decide)), key k1 h.uk1 _ (hlu 2 (by decide)),
      key k1 h.uk1 _ (hlu 3 (by decide)), hqk, hqk1, hqi, false_and, if_false]
  have t1 := hlt 1 (by decide)
  have t2 := hlt 2 (by decide)
  have t3 := hlt 3 (by decide)
  have u1 := hlu 1 (by decide)
  have u2 := hlu 2 (by decide)
  have u3 := hlu 3 (by decide)
  have d12 := d 1 (by decide) 2 (by decide) (by decide)
  have d13 := d 1 (by decide) 3 (by decide) (by decide)
  have d23 := d 2 (by decide) 3 (by decide) (by decide)
  have c12 := d' 1 (by decide) 2 (by decide) (by decide)
  have c13 := d' 1 (by decide) 3 (by decide) (by decide)
  have c23 := d' 2 (by decide) 3 (by decide) (by decide)
  rw [L]
  clear L key
  generalize link A q i = y
  refine ⟨fun e => ?_, fun e => ?_, fun e => ?_, fun e => ?_, fun e => ?_, fun e => ?_,
    fun e => ?_⟩
  · rw [if_neg (by omega), if_neg (by omega), if_neg (by omega), if_neg (by omega),
      if_neg (by omega), e]
  · rw [if_neg (by omega), if_neg (by omega), if_pos e]
  · rw [if_pos e]
  · rw [if_neg (by omega), if_neg (by omega), if_neg (by omega), if_neg (by omega), if_pos e]
  · rw [if_neg (by omega), if_pos e]
  · rw [if_neg (by omega), if_neg (by omega), if_neg (by omega), if_pos e]
  · rw [if_neg (by omega), if_neg (by omega), if_neg (by omega), if_neg (by omega),
      if_neg (by omega)]

/-- The adjacency after the swap is symmetric and joins faces with the same vertices. -/
theorem swap_adj (h : Pair A V used t u k k1 iel) :
    AdjOK (swapAdj t u k k1 iel A) (swapVerts t k k1 iel ((V k1).getD (u 0) 0) V)
      (fun q => used q ∨ q = iel) := by
  have e01 := h.ne01
  have e0 := h.ne0
  have e1 := h.ne1
  have pk := h.adj.pos _ h.uk
  have pk1 := h.adj.pos _ h.uk1
  obtain ⟨⟨r00, r01, r02, r03⟩, ⟨r10, r11, r12, r13⟩, ⟨r20, r21, r22, r23⟩⟩ := link_swap_rows h
  obtain ⟨f1, f2, f3⟩ := face_replaced h.len0 h.len1 h.ht h.hu h.reads
  have out := @link_swap_out A V used t u k k1 iel h
  have l := h.ht.lt
  have lu := h.hu.lt
  have v0 : swapVerts t k k1 iel ((V k1).getD (u 0) 0) V k = (V k).set (t 1) ((V k1).getD (u 0) 0) := by
    simp [swapVerts, upd, e01, e0]
  have v1 : swapVerts t k k1 iel ((V k1).getD (u 0) 0) V k1 = (V k).set (t 2) ((V k1).getD (u 0) 0) := by
    simp [swapVerts, upd, e1]
  have v2 : swapVerts t k k1 iel ((V k1).getD (u 0) 0) V iel = (V k).set (t 3) ((V k1).getD (u 0) 0) := by
    simp [swapVerts, upd]
  have vo : ∀ q, used q → q ≠ k → q ≠ k1 →
      swapVerts t k k1 iel ((V k1).getD (u 0) 0) V q = V q := by
    intro q hq h1 h2
    have h3 : q ≠ iel := fun e => h.new (e ▸ hq)
    simp [swapVerts, upd, h1, h2, h3]
  generalize hB : swapAdj t u k k1 iel A = B at *
  generalize hW : swapVerts t k k1 iel ((V k1).getD (u 0) 0) V = W at *
  have d : ∀ i < 4, ∀ j < 4, i ≠ j → t i ≠ t j :=
    fun i hi j hj hij e => hij (h.ht.inj i hi j hj e)
  have d01 := d 0 (by decide) 1 (by decide) (by decide)
  have d02 := d 0 (by decide) 2 (by decide) (by decide)
  have d03 := d 0 (by decide) 3 (by decide) (by decide)
  have d12 := d 1 (by decide) 2 (by decide) (by decide)
  have d13 := d 1 (by decide) 3 (by decide) (by decide)
  have d23 := d 2 (by decide) 3 (by decide) (by decide)
  -- back link of an outer neighbour
  have hb : ∀ e j x, used e → j < 4 → link A e j ≠ 0 →
      (∀ q i, used q → q ≠ k → q ≠ k1 → i < 4 → link A q i = 4 * e + j → link B q i = x) →
      link A e j / 4 ≠ k → link A e j / 4 ≠ k1 → link B (link A e j / 4) (link A e j % 4) = x := by
    intro e j x he hj hne hx h1 h2
    obtain ⟨hu', _, hs, _⟩ := h.adj.ok e he j hj hne
    exact hx _ _ hu' h1 h2 (Nat.mod_lt _ (by decide)) hs
  have hmain := reglue (A' := B) (V' := W) h.adj (fun q => q = k ∨ q = k1)
    (fun q => q = k ∨ q = k1 ∨ q = iel)
    (fun q i => i = t 0 ∨ (q = k ∧ i = t 1) ∨ (q = k1 ∧ i = t 2) ∨ (q = iel ∧ i = t 3))
    (fun q i => if i = t 0 then (if q = k then (k1, u 1) else if q = k1 then (k1, u 3)
      else (k1, u 2)) else (k, i)) ?_ ?_ ?_ ?_ ?_ ?_ ?_
  · refine ⟨fun q hq => ?_, fun q hq i hi hne => ?_⟩
    · apply hmain.pos
      by_cases h1 : q = k
      · exact .inr (.inl h1)
      · by_cases h2 : q = k1
        · exact .inr (.inr (.inl h2))
        · rcases hq with hq | hq
          · exact .inl ⟨hq, fun e => e.elim h1 h2⟩
          · exact .inr (.inr (.inr hq))
    · obtain ⟨a1, a2⟩ := hmain.ok q (by
        by_cases h1 : q = k
        · exact .inr (.inl h1)
        · by_cases h2 : q = k1
          · exact .inr (.inr (.inl h2))
          · rcases hq with hq | hq
            · exact .inl ⟨hq, fun e => e.elim h1 h2⟩
            · exact .inr (.inr (.inr hq))) i hi hne
      refine ⟨?_, a2⟩
      rcases a1 with ⟨a1, _⟩ | a1 | a1 | a1
      · exact .inl a1
      · exact .inl (a1 ▸ h.uk)
      · exact .inl (a1 ▸ h.uk1)
      · exact .inr a1
  · rintro q (rfl | rfl)
    exacts [h.uk, h.uk1]
  · rintro q (rfl | rfl | rfl)
    exacts [⟨pk, fun _ => .inl rfl⟩, ⟨pk1, fun _ => .inr rfl⟩, ⟨h.pos, fun e => absurd e h.new⟩]
  · -- outer faces
    rintro q i hq hi (rfl | ⟨rfl, rfl⟩ | ⟨rfl, rfl⟩ | ⟨rfl, rfl⟩)
    · rcases hq with rfl | rfl | rfl
      · simp only [if_true]
        refine ⟨by simp, lu 1 (by decide), r00, by rw [v0, f1], fun hne => ?_⟩
        rw [r00] at hne ⊢
        obtain ⟨_, g1, g2, _⟩ := h.out1 (j := 1) (by decide) (by decide) hne
        exact ⟨fun e => e.elim g1 g2, hb k1 _ _ h.uk1 (lu 1 (by decide)) hne
          (fun q i a b c d => (out a b c d).2.2.2.1) g1 g2⟩
      · simp only [if_true, e01.symm, if_false]
        refine ⟨by simp, lu 3 (by decide), r10, by rw [v1, f2], fun hne => ?_⟩
        rw [r10] at hne ⊢
        obtain ⟨_, g1, g2, _⟩ := h.out1 (j := 3) (by decide) (by decide) hne
        exact ⟨fun e => e.elim g1 g2, hb _ _ _ h.uk1 (lu 3 (by decide)) hne
          (fun q i a b c d => (out a b c d).2.2.2.2.2.1) g1 g2⟩
      · simp only [if_true, e0.symm, e1.symm, if_false]
        refine ⟨by simp, lu 2 (by decide), r20, by rw [v2, f3], fun hne => ?_⟩
        rw [r20] at hne ⊢
        obtain ⟨_, g1, g2, _⟩ := h.out1 (j := 2) (by decide) (by decide) hne
        exact ⟨fun e => e.elim g1 g2, hb _ _ _ h.uk1 (lu 2 (by decide)) hne
          (fun q i a b c d => (out a b c d).2.2.2.2.1) g1 g2⟩
    · simp only [d01.symm, if_false]
      refine ⟨by simp, l 1 (by decide), r01, by rw [v0, faceTri_set_self h.len0 (l 1 (by decide))],
        fun hne => ?_⟩
      rw [r01] at hne ⊢
      obtain ⟨_, g1, g2, _⟩ := h.out0 (j := 1) (by decide) (by decide) hne
      exact ⟨fun e => e.elim g1 g2, hb _ _ _ h.uk (l 1 (by decide)) hne
        (fun q i a b c d => (out a b c d).1) g1 g2⟩
    · simp only [d02.symm, if_false]
      refine ⟨by simp, l 2 (by decide), r12, by rw [v1, faceTri_set_self h.len0 (l 2 (by decide))],
        fun hne => ?_⟩
      rw [r12] at hne ⊢
      obtain ⟨_, g1, g2, _⟩ := h.out0 (j := 2) (by decide) (by decide) hne
      exact ⟨fun e => e.elim g1 g2, hb _ _ _ h.uk (l 2 (by decide)) hne
        (fun q i a b c d => (out a b c d).2.1) g1 g2⟩
    · simp only [d03.symm, if_false]
      refine ⟨by simp, l 3 (by decide), r23, by rw [v2, faceTri_set_self h.len0 (l 3 (by decide))],
        fun hne => ?_⟩
      rw [r23] at hne ⊢
      obtain ⟨_, g1, g2, _⟩ := h.out0 (j := 3) (by decide) (by decide) hne
      exact ⟨fun e => e.elim g1 g2, hb _ _ _ h.uk (l 3 (by decide)) hne
        (fun q i a b c d => (out a b c d).2.2.1) g1 g2⟩
  · -- inner faces
    intro q i hq hi ho
    obtain ⟨j, hj, rfl⟩ := h.ht.surj i hi
    have q1 : ∀ a j, j < 4 → (4 * a + t j) / 4 = a := fun a j hj => by have := l j hj; omega
    have q2 : ∀ a j, j < 4 → (4 * a + t j) % 4 = t j := fun a j hj => by have := l j hj; omega
    have cross : ∀ i < 4, ∀ j < 4, faceTri 0 ((V k).set (t i) ((V k1).getD (u 0) 0)) (t j) =
        faceTri 0 ((V k).set (t j) ((V k1).getD (u 0) 0)) (t i) :=
      fun i hi j hj => faceTri_set_cross h.len0 (l i hi) (l j hj) _
    rcases hq with rfl | rfl | rfl
    · interval_cases j
      · exact absurd (.inl rfl) ho
      · exact absurd (.inr (.inl ⟨rfl, rfl⟩)) ho
      · rw [r02, q1 _ 1 (by decide), q2 _ 1 (by decide), r11, v0, v1]
        exact ⟨by simp, e01.symm, rfl, cross 2 (by decide) 1 (by decide)⟩
      · rw [r03, q1 _ 1 (by decide), q2 _ 1 (by decide), r21, v0, v2]
        exact ⟨by simp, e0.symm, rfl, cross 3 (by decide) 1 (by decide)⟩
    · interval_cases j
      · exact absurd (.inl rfl) ho
      · rw [r11, q1 _ 2 (by decide), q2 _ 2 (by decide), r02, v0, v1]
        exact ⟨by simp, e01, rfl, cross 1 (by decide) 2 (by decide)⟩
      · exact absurd (.inr (.inr (.inl ⟨rfl, rfl⟩))) ho
      · rw [r13, q1 _ 2 (by decide), q2 _ 2 (by decide), r22, v1, v2]
        exact ⟨by simp, e1.symm, rfl, cross 3 (by decide) 2 (by decide)⟩
    · interval_cases j
      · exact absurd (.inl rfl) ho
      · rw [r21, q1 _ 3 (by decide), q2 _ 3 (by decide), r03, v0, v2]
        exact ⟨by simp, e0, rfl, cross 1 (by decide) 3 (by decide)⟩
      · rw [r22, q1 _ 3 (by decide), q2 _ 3 (by decide), r13, v1, v2]
        exact ⟨by simp, e1, rfl, cross 2 (by decide) 3 (by decide)⟩
      · exact absurd (.inr (.inr (.inr ⟨rfl, rfl⟩))) ho
  · -- every outer face of the pair is found again
    rintro e j (rfl | rfl) hj hne hnD
    · obtain ⟨m, hm, rfl⟩ := h.ht.surj j hj
      interval_cases m
      · rw [h.lk] at hnD
        have := lu 0 (by decide)
        exact absurd (.inr (by omega)) hnD
      · exact ⟨e, t 1, by simp, hj, .inr (.inl ⟨rfl, rfl⟩), by simp [d01.symm]⟩
      · exact ⟨k1, t 2, by simp, hj, .inr (.inr (.inl ⟨rfl, rfl⟩)), by simp [d02.symm]⟩
      · exact ⟨iel, t 3, by simp, hj, .inr (.inr (.inr ⟨rfl, rfl⟩)), by simp [d03.symm]⟩
    · obtain ⟨m, hm, rfl⟩ := h.hu.surj j hj
      interval_cases m
      · rw [h.lk1] at hnD
        have := l 0 (by decide)
        exact absurd (.inl (by omega)) hnD
      · exact ⟨k, t 0, by simp, l 0 (by decide), .inl rfl, by simp⟩
      · exact ⟨iel, t 0, by simp, l 0 (by decide), .inl rfl, by simp [e0.symm, e1.symm]⟩
      · exact ⟨e, t 0, by simp, l 0 (by decide), .inl rfl, by simp [e01.symm]⟩
  · intro q hq hnD i hi ho
    refine (out hq (fun e => hnD (.inl e)) (fun e => hnD (.inr e)) hi).2.2.2.2.2.2 ?_
    rcases ho with ho | ho
    · exact .inl ho
    · exact .inr ⟨fun e => ho (.inl e), fun e => ho (.inr e)⟩
  · intro q hq hnD
    exact vo q hq (fun e => hnD (.inl e)) (fun e => hnD (.inr e))

end

end Mmg.Swap23
