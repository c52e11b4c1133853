/-
  What the loops of the shell functions do.
-/
import Verif.ShellLemmas
import Mathlib.Data.Finset.Card
import Mathlib.Order.Interval.Finset.Nat

namespace Mmg.Shell

open Mmg.Split3 Mmg.Swap23

section
variable {m : M} {used : Nat → Prop} {na nb : Nat}

/-- Reversed list of the first entries. -/
def accOf (m : M) (na nb : Nat) (d : Nat × Nat) (n : Nat) : List Nat :=
  ((List.range (n + 1)).map fun j => entry m.V na nb (seq m.A m.V na nb d j)).reverse

theorem accOf_succ (d : Nat × Nat) (n : Nat) :
    accOf m na nb d (n + 1) = entry m.V na nb (seq m.A m.V na nb d (n + 1)) :: accOf m na nb d n := by
  simp [accOf, List.range_succ]

/-- What the first loop gives; `T` is the number of entries that fit. -/
def S1OK (m : M) (na nb : Nat) (d : Nat × Nat) (T : Nat) : S1 → Prop
  | .stop .required => ∃ j, 1 ≤ j ∧ Alive m.A m.V na nb d j ∧
      m.req (seq m.A m.V na nb d j).1 = true
  | .stop .failed => Alive m.A m.V na nb d (T + 1) ∧
      ∀ i, 1 ≤ i → i ≤ T + 1 → (seq m.A m.V na nb d i).1 ≠ d.1
  | .stop _ => False
  | .closed acc isb => ∃ n, n ≤ T ∧ Alive m.A m.V na nb d (n + 1) ∧
      (∀ i, 1 ≤ i → i ≤ n → (seq m.A m.V na nb d i).1 ≠ d.1) ∧
      (seq m.A m.V na nb d (n + 1)).1 = d.1 ∧
      (∀ i, 1 ≤ i → i ≤ n → m.req (seq m.A m.V na nb d i).1 = false) ∧
      acc = accOf m na nb d n ∧
      (isb = true ↔ ∃ j ≤ n, m.bdy (seq m.A m.V na nb d j).1 (seq m.A m.V na nb d j).2 = true)
  | .opened acc piv => ∃ n, n ≤ T ∧ Alive m.A m.V na nb d n ∧
      link m.A (seq m.A m.V na nb d n).1 (seq m.A m.V na nb d n).2 = 0 ∧
      (∀ i, 1 ≤ i → i ≤ n → (seq m.A m.V na nb d i).1 ≠ d.1) ∧
      (∀ i, 1 ≤ i → i ≤ n → m.req (seq m.A m.V na nb d i).1 = false) ∧
      acc = accOf m na nb d n ∧ piv = pivot m.V na nb (seq m.A m.V na nb d n)

theorem alive_succ {A : Nat → Nat} {V : Nat → List Nat} {d : Nat × Nat} {n : Nat}
    (ha : Alive A V na nb d n)
    (hl : link A (seq A V na nb d n).1 (seq A V na nb d n).2 ≠ 0) : Alive A V na nb d (n + 1) := by
  intro i hi
  rcases Nat.lt_succ_iff_lt_or_eq.1 hi with h | rfl
  · exact ha i h
  · exact hl

theorem upto_succ {P : Nat → Prop} {n : Nat} (h : ∀ i, 1 ≤ i → i ≤ n → P i) (hn : P (n + 1)) :
    ∀ i, 1 ≤ i → i ≤ n + 1 → P i := by
  intro i h1 h2
  rcases Nat.le_succ_iff.1 h2 with h' | rfl
  · exact h i h1 h'
  · exact hn

theorem sweep1_spec (hm : Mesh m.A m.V used) {d : Nat × Nat} (h : Dart m.V used na nb d) (T : Nat) :
    ∀ fuel n isb, fuel + n = T → Alive m.A m.V na nb d n →
      (∀ i, 1 ≤ i → i ≤ n → (seq m.A m.V na nb d i).1 ≠ d.1) →
      (∀ i, 1 ≤ i → i ≤ n → m.req (seq m.A m.V na nb d i).1 = false) →
      (isb = true ↔ ∃ j ≤ n, m.bdy (seq m.A m.V na nb d j).1 (seq m.A m.V na nb d j).2 = true) →
      S1OK m na nb d T (sweep1 m d.1 na nb fuel
        (link m.A (seq m.A m.V na nb d n).1 (seq m.A m.V na nb d n).2 / 4)
        (pivot m.V na nb (seq m.A m.V na nb d n)) isb (accOf m na nb d n)) := by
  intro fuel
  induction fuel with
  | zero =>
    intro n isb hT ha hne hreq hisb
    have hd := seq_dart hm h ha n le_rfl
    unfold sweep1
    split_ifs with c1 c2 c3
    · exact ⟨n, by omega, ha, (link_zero hm hd).1 c1, hne, hreq, rfl, rfl⟩
    · have hl : link m.A (seq m.A m.V na nb d n).1 (seq m.A m.V na nb d n).2 ≠ 0 :=
        fun e => c1 ((link_zero hm hd).2 e)
      exact ⟨n, by omega, alive_succ ha hl, hne, c2, hreq, rfl, hisb⟩
    · have hl : link m.A (seq m.A m.V na nb d n).1 (seq m.A m.V na nb d n).2 ≠ 0 :=
        fun e => c1 ((link_zero hm hd).2 e)
      exact ⟨n + 1, by omega, alive_succ ha hl, c3⟩
    · have hl : link m.A (seq m.A m.V na nb d n).1 (seq m.A m.V na nb d n).2 ≠ 0 :=
        fun e => c1 ((link_zero hm hd).2 e)
      obtain ⟨i, hi, _, _⟩ := step_ok hm hd hl
      have hi : findEdge (m.V (link m.A (seq m.A m.V na nb d n).1
        (seq m.A m.V na nb d n).2 / 4)) na nb = some i := hi
      rw [hi]
      have hTn : T = n := by omega
      subst hTn
      exact ⟨alive_succ ha hl, upto_succ hne c2⟩
  | succ fuel ih =>
    intro n isb hT ha hne hreq hisb
    have hd := seq_dart hm h ha n le_rfl
    unfold sweep1
    split_ifs with c1 c2 c3
    · exact ⟨n, by omega, ha, (link_zero hm hd).1 c1, hne, hreq, rfl, rfl⟩
    · have hl : link m.A (seq m.A m.V na nb d n).1 (seq m.A m.V na nb d n).2 ≠ 0 :=
        fun e => c1 ((link_zero hm hd).2 e)
      exact ⟨n, by omega, alive_succ ha hl, hne, c2, hreq, rfl, hisb⟩
    · have hl : link m.A (seq m.A m.V na nb d n).1 (seq m.A m.V na nb d n).2 ≠ 0 :=
        fun e => c1 ((link_zero hm hd).2 e)
      exact ⟨n + 1, by omega, alive_succ ha hl, c3⟩
    · have hl : link m.A (seq m.A m.V na nb d n).1 (seq m.A m.V na nb d n).2 ≠ 0 :=
        fun e => c1 ((link_zero hm hd).2 e)
      obtain ⟨i, hi, _, hcase⟩ := step_ok hm hd hl
      have e0 : link m.A (seq m.A m.V na nb d n).1 (seq m.A m.V na nb d n).2 / 4 =
        (seq m.A m.V na nb d (n + 1)).1 := rfl
      have e1 : nxt m.A m.V na nb (seq m.A m.V na nb d n) = seq m.A m.V na nb d (n + 1) := rfl
      rw [e1] at hi hcase
      rw [e0] at c2 c3 ⊢
      rw [hi]
      have hreq' := upto_succ (P := fun i => m.req (seq m.A m.V na nb d i).1 = false) hreq
        (by simpa using c3)
      have hacc : 6 * (seq m.A m.V na nb d (n + 1)).1 + i =
          entry m.V na nb (seq m.A m.V na nb d (n + 1)) := by
        simp [entry, edgeOf, hi]
      have hib : ∀ f, (seq m.A m.V na nb d (n + 1)).2 = f →
          ((isb || m.bdy (seq m.A m.V na nb d (n + 1)).1 f) = true ↔ ∃ j ≤ n + 1,
            m.bdy (seq m.A m.V na nb d j).1 (seq m.A m.V na nb d j).2 = true) := by
        intro f hf
        rw [Bool.or_eq_true, hisb]
        constructor
        · rintro (⟨j, hj, hb⟩ | hb)
          · exact ⟨j, by omega, hb⟩
          · exact ⟨n + 1, le_rfl, by rw [hf]; exact hb⟩
        · rintro ⟨j, hj, hb⟩
          rcases Nat.le_succ_iff.1 hj with h' | rfl
          · exact .inl ⟨j, h', hb⟩
          · right; rw [← hf]; exact hb
      rcases hcase with ⟨p1, p2, p3⟩ | ⟨p1, p2, p3, p4⟩
      · have := ih (n + 1) (isb || m.bdy (seq m.A m.V na nb d (n + 1)).1 (ifar i).1) (by omega)
          (alive_succ ha hl) (upto_succ hne c2) hreq' (hib _ p2)
        simp only [pivot, p3] at this ⊢
        rw [if_pos p1, hacc, ← accOf_succ, ← p2]
        rw [← p2] at this
        exact this
      · have := ih (n + 1) (isb || m.bdy (seq m.A m.V na nb d (n + 1)).1 (ifar i).2) (by omega)
          (alive_succ ha hl) (upto_succ hne c2) hreq' (hib _ p3)
        simp only [pivot, p4] at this ⊢
        rw [if_neg p1, if_pos p2, hacc, ← accOf_succ, ← p3]
        rw [← p3] at this
        exact this

/-- What the second loop gives. -/
def S2OK (m : M) (na nb : Nat) (d : Nat × Nat) (T : Nat) : Res → Prop
  | .required => ∃ j, 1 ≤ j ∧ Alive m.A m.V na nb d j ∧
      m.req (seq m.A m.V na nb d j).1 = true
  | .failed => Alive m.A m.V na nb d (T + 1)
  | .asrt => False
  | .shell l cl isb => ∃ n, n ≤ T ∧ Alive m.A m.V na nb d n ∧
      link m.A (seq m.A m.V na nb d n).1 (seq m.A m.V na nb d n).2 = 0 ∧
      (∀ i, 1 ≤ i → i ≤ n → m.req (seq m.A m.V na nb d i).1 = false) ∧
      l = (accOf m na nb d n).reverse ∧ cl = false ∧ isb = true

theorem sweep2_spec (hm : Mesh m.A m.V used) {d : Nat × Nat} (h : Dart m.V used na nb d) (T : Nat) :
    ∀ fuel n, fuel + n = T → Alive m.A m.V na nb d n →
      (∀ i, 1 ≤ i → i ≤ n → m.req (seq m.A m.V na nb d i).1 = false) →
      S2OK m na nb d T (sweep2 m na nb fuel
        (link m.A (seq m.A m.V na nb d n).1 (seq m.A m.V na nb d n).2)
        (pivot m.V na nb (seq m.A m.V na nb d n)) (accOf m na nb d n)) := by
  intro fuel
  induction fuel with
  | zero =>
    intro n hT ha hreq
    have hd := seq_dart hm h ha n le_rfl
    unfold sweep2
    split_ifs with c1 c3
    · exact ⟨n, by omega, ha, c1, hreq, rfl, rfl, rfl⟩
    · exact ⟨n + 1, by omega, alive_succ ha c1, c3⟩
    · obtain ⟨i, hi, _, _⟩ := step_ok hm hd c1
      have hi : findEdge (m.V (link m.A (seq m.A m.V na nb d n).1
        (seq m.A m.V na nb d n).2 / 4)) na nb = some i := hi
      rw [hi]
      have hTn : T = n := by omega
      subst hTn
      exact alive_succ ha c1
  | succ fuel ih =>
    intro n hT ha hreq
    have hd := seq_dart hm h ha n le_rfl
    unfold sweep2
    split_ifs with c1 c3
    · exact ⟨n, by omega, ha, c1, hreq, rfl, rfl, rfl⟩
    · exact ⟨n + 1, by omega, alive_succ ha c1, c3⟩
    · obtain ⟨i, hi, _, hcase⟩ := step_ok hm hd c1
      have e0 : link m.A (seq m.A m.V na nb d n).1 (seq m.A m.V na nb d n).2 / 4 =
        (seq m.A m.V na nb d (n + 1)).1 := rfl
      have e1 : nxt m.A m.V na nb (seq m.A m.V na nb d n) = seq m.A m.V na nb d (n + 1) := rfl
      rw [e1] at hi hcase
      rw [e0] at c3 ⊢
      rw [hi]
      have hreq' := upto_succ (P := fun i => m.req (seq m.A m.V na nb d i).1 = false) hreq
        (by simpa using c3)
      have hacc : 6 * (seq m.A m.V na nb d (n + 1)).1 + i =
          entry m.V na nb (seq m.A m.V na nb d (n + 1)) := by
        simp [entry, edgeOf, hi]
      have := ih (n + 1) (by omega) (alive_succ ha c1) hreq'
      rcases hcase with ⟨p1, p2, p3⟩ | ⟨p1, p2, p3, p4⟩
      · simp only [pivot, p3] at this ⊢
        rw [if_pos p1, hacc, ← accOf_succ, ← p2]
        exact this
      · simp only [pivot, p4] at this ⊢
        rw [if_neg p1, hacc, ← accOf_succ, ← p3]
        exact this

end

/-! ### The loop in one direction -/

section
variable {σ : Type} {A : Nat → Nat} {V : Nat → List Nat} {used : Nat → Prop} {na nb : Nat}
  {body : σ → Nat → Nat → Nat → σ × Bool}

/-- State after the first darts. -/
def runN (A : Nat → Nat) (V : Nat → List Nat) (body : σ → Nat → Nat → Nat → σ × Bool)
    (na nb : Nat) (d : Nat × Nat) (s : σ) : Nat → σ
  | 0 => s
  | n + 1 => (body (runN A V body na nb d s n) (seq A V na nb d (n + 1)).1
      (edgeOf V na nb (seq A V na nb d (n + 1)).1) (seq A V na nb d (n + 1)).2).1

/-- The body returns at dart `n + 1`. -/
def stopN (A : Nat → Nat) (V : Nat → List Nat) (body : σ → Nat → Nat → Nat → σ × Bool)
    (na nb : Nat) (d : Nat × Nat) (s : σ) (n : Nat) : Bool :=
  (body (runN A V body na nb d s n) (seq A V na nb d (n + 1)).1
      (edgeOf V na nb (seq A V na nb d (n + 1)).1) (seq A V na nb d (n + 1)).2).2

def OutOK (A : Nat → Nat) (V : Nat → List Nat) (body : σ → Nat → Nat → Nat → σ × Bool)
    (na nb : Nat) (d : Nat × Nat) (s0 : σ) (T : Nat) : Out σ → Prop
  | .fail => False
  | .noFuel => Alive A V na nb d (T + 1) ∧
      ∀ i, 1 ≤ i → i ≤ T + 1 → (seq A V na nb d i).1 ≠ d.1
  | .early k s => ∃ n, Alive A V na nb d (n + 1) ∧
      (∀ i, 1 ≤ i → i ≤ n + 1 → (seq A V na nb d i).1 ≠ d.1) ∧
      (∀ i < n, stopN A V body na nb d s0 i = false) ∧ stopN A V body na nb d s0 n = true ∧
      k = (seq A V na nb d (n + 1)).1 ∧ s = runN A V body na nb d s0 (n + 1)
  | .fin adj s => ∃ n, Alive A V na nb d n ∧
      (∀ i, 1 ≤ i → i ≤ n → (seq A V na nb d i).1 ≠ d.1) ∧
      (∀ i < n, stopN A V body na nb d s0 i = false) ∧ s = runN A V body na nb d s0 n ∧
      ((adj = 0 ∧ link A (seq A V na nb d n).1 (seq A V na nb d n).2 = 0) ∨
       (adj = d.1 ∧ Alive A V na nb d (n + 1) ∧ (seq A V na nb d (n + 1)).1 = d.1))

theorem oneDir_spec (hm : Mesh A V used) {d : Nat × Nat} (h : Dart V used na nb d) (s0 : σ)
    (T : Nat) : ∀ fuel n, fuel + n = T → Alive A V na nb d n →
      (∀ i, 1 ≤ i → i ≤ n → (seq A V na nb d i).1 ≠ d.1) →
      (∀ i < n, stopN A V body na nb d s0 i = false) →
      OutOK A V body na nb d s0 T (oneDir A V body d.1 na nb fuel
        (link A (seq A V na nb d n).1 (seq A V na nb d n).2 / 4)
        (pivot V na nb (seq A V na nb d n)) (runN A V body na nb d s0 n)) := by
  have fin : ∀ n, Alive A V na nb d n → (∀ i, 1 ≤ i → i ≤ n → (seq A V na nb d i).1 ≠ d.1) →
      (∀ i < n, stopN A V body na nb d s0 i = false) →
      (link A (seq A V na nb d n).1 (seq A V na nb d n).2 / 4 = 0 ∨
        link A (seq A V na nb d n).1 (seq A V na nb d n).2 / 4 = d.1) →
      OutOK A V body na nb d s0 T (.fin (link A (seq A V na nb d n).1 (seq A V na nb d n).2 / 4)
        (runN A V body na nb d s0 n)) := by
    intro n ha hne hst c
    have hd := seq_dart hm h ha n le_rfl
    refine ⟨n, ha, hne, hst, rfl, ?_⟩
    by_cases hz : link A (seq A V na nb d n).1 (seq A V na nb d n).2 = 0
    · left; exact ⟨by rw [hz], hz⟩
    · right
      rcases c with c | c
      · exact absurd ((link_zero hm hd).1 c) hz
      · exact ⟨c, alive_succ ha hz, c⟩
  intro fuel
  induction fuel with
  | zero =>
    intro n hT ha hne hst
    have hd := seq_dart hm h ha n le_rfl
    unfold oneDir
    split_ifs with c
    · exact fin n ha hne hst c
    · rw [not_or] at c
      have hl : link A (seq A V na nb d n).1 (seq A V na nb d n).2 ≠ 0 :=
        fun e => c.1 ((link_zero hm hd).2 e)
      obtain ⟨i, hi, _, _⟩ := step_ok hm hd hl
      have hi : findEdge (V (link A (seq A V na nb d n).1
        (seq A V na nb d n).2 / 4)) na nb = some i := hi
      rw [hi]
      have hTn : T = n := by omega
      subst hTn
      exact ⟨alive_succ ha hl, upto_succ hne c.2⟩
  | succ fuel ih =>
    intro n hT ha hne hst
    have hd := seq_dart hm h ha n le_rfl
    unfold oneDir
    split_ifs with c
    · exact fin n ha hne hst c
    · rw [not_or] at c
      have hl : link A (seq A V na nb d n).1 (seq A V na nb d n).2 ≠ 0 :=
        fun e => c.1 ((link_zero hm hd).2 e)
      obtain ⟨i, hi, _, hcase⟩ := step_ok hm hd hl
      have e0 : link A (seq A V na nb d n).1 (seq A V na nb d n).2 / 4 =
        (seq A V na nb d (n + 1)).1 := rfl
      have e1 : nxt A V na nb (seq A V na nb d n) = seq A V na nb d (n + 1) := rfl
      rw [e1] at hi hcase
      rw [e0] at c ⊢
      rw [hi]
      have hed : edgeOf V na nb (seq A V na nb d (n + 1)).1 = i := by simp [edgeOf, hi]
      obtain ⟨r, b, hr⟩ : ∃ r b, body (runN A V body na nb d s0 n) (seq A V na nb d (n + 1)).1 i
          (seq A V na nb d (n + 1)).2 = (r, b) := ⟨_, _, rfl⟩
      have hrun : runN A V body na nb d s0 (n + 1) = r := by
        simp only [runN, hed, hr]
      have hstop : stopN A V body na nb d s0 n = b := by
        simp only [stopN, hed, hr]
      have main : ∀ g, oth (V (seq A V na nb d (n + 1)).1) na nb (seq A V na nb d (n + 1)).2 = g →
          OutOK A V body na nb d s0 T (match (r, b) with
            | (s', true) => .early (seq A V na nb d (n + 1)).1 s'
            | (s', false) => oneDir A V body d.1 na nb fuel
                (link A (seq A V na nb d (n + 1)).1 (seq A V na nb d (n + 1)).2 / 4)
                ((V (seq A V na nb d (n + 1)).1).getD g 0) s') := by
        intro g hg
        cases b with
        | true =>
          exact ⟨n, alive_succ ha hl, upto_succ hne c.2, hst, hstop, rfl, hrun.symm⟩
        | false =>
          have := ih (n + 1) (by omega) (alive_succ ha hl) (upto_succ hne c.2) (by
            intro j hj
            rcases Nat.lt_succ_iff_lt_or_eq.1 hj with h' | rfl
            · exact hst j h'
            · exact hstop)
          rw [hrun] at this
          simp only [pivot, hg] at this
          exact this
      rcases hcase with ⟨p1, p2, p3⟩ | ⟨p1, p2, p3, p4⟩
      · have := main _ p3
        rw [p2] at hr this
        simp only [pivot]
        rw [if_pos p1, hr]
        exact this
      · have := main _ p4
        rw [p3] at hr this
        simp only [pivot]
        rw [if_neg p1, hr]
        exact this

/-- Before the loop is back, all the tetrahedra are different. -/
theorem seq_inj (hm : Mesh A V used) {d : Nat × Nat} (h : Dart V used na nb d) {n : Nat}
    (ha : Alive A V na nb d n) (hne : ∀ i, 1 ≤ i → i ≤ n → (seq A V na nb d i).1 ≠ d.1) :
    ∀ i j, i ≤ n → j ≤ n → (seq A V na nb d i).1 = (seq A V na nb d j).1 → i = j := by
  have key : ∀ i g, i + (g + 1) ≤ n →
      (seq A V na nb d i).1 ≠ (seq A V na nb d (i + (g + 1))).1 := by
    intro i g hg he
    have hb := seq_back hm h ha i (g + 1) hg he
    exact hne (g + 1) (by omega) (by omega) (by rw [hb])
  intro i j hi hj he
  rcases Nat.lt_trichotomy i j with hlt | rfl | hlt
  · have := key i (j - i - 1) (by omega)
    rw [show i + (j - i - 1 + 1) = j by omega] at this
    exact absurd he this
  · rfl
  · have := key j (i - j - 1) (by omega)
    rw [show j + (i - j - 1 + 1) = i by omega] at this
    exact absurd he.symm this

/-- The loop cannot make more rounds than there are tetrahedra. -/
theorem alive_bound (hm : Mesh A V used) {ne : Nat} (hne : ∀ k, used k → k ≤ ne)
    {d : Nat × Nat} (h : Dart V used na nb d) {n : Nat}
    (ha : Alive A V na nb d n) (hs : ∀ i, 1 ≤ i → i ≤ n → (seq A V na nb d i).1 ≠ d.1) :
    n + 1 ≤ ne := by
  have hinj := seq_inj hm h ha hs
  have := Finset.card_le_card_of_injOn (s := Finset.range (n + 1)) (t := Finset.Icc 1 ne)
    (fun i => (seq A V na nb d i).1) (by
      intro i hi
      simp only [Finset.coe_range, Set.mem_Iio] at hi
      have hd := seq_dart hm h ha i (by omega)
      have h1 := hm.adj.pos _ hd.used
      have h2 := hne _ hd.used
      simp only [Finset.coe_Icc, Set.mem_Icc]
      omega) (by
      intro i hi j hj he
      simp only [Finset.coe_range, Set.mem_Iio] at hi hj
      exact hinj i j (by omega) (by omega) he)
  simp only [Finset.card_range, Nat.card_Icc] at this
  omega

end

end Mmg.Shell
