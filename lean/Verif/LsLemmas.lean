/-
  Helper lemmas on the loops of the level-set discretization.
-/
import Verif.LsRuns
import Mathlib.Algebra.Order.AbsoluteValue.Basic
import Mathlib.Tactic.FieldSimp
import Mathlib.Tactic.Linarith
import Mathlib.Tactic.Ring

namespace Mmg.Ls3
open Mmg.Split3

/-! ### Specification -/

section
variable {K : Type} [Field K] [LinearOrder K]

/-- The ends have opposite signs. -/
def Opposite (sol : Nat → K) (a b : Nat) : Prop := sol a < 0 ∧ 0 < sol b ∨ 0 < sol a ∧ sol b < 0

/-- The edge `a b` has to be cut: it is an edge of a tetrahedron that is split and its ends have
opposite signs. -/
def Wanted (spl : Int → Option (Int × Int)) (sol : Nat → K) (ms : List LTet) (a b : Nat) : Prop :=
  Opposite sol a b ∧ ∃ m ∈ ms, (spl m.ref).isSome ∧ a ∈ m.t.v ∧ b ∈ m.t.v

/-- `p` is on the edge `a b`, at a distance from the ends; it is where the linear interpolation
of the values is 0, unless this is too close to an end. -/
def OnZero (eps : K) (c : Nat → Pt K) (sol : Nat → K) (a b : Nat) (p : Pt K) : Prop :=
  ∃ t, eps ≤ t ∧ t ≤ 1 - eps ∧ p = (c a).lerp (c b) t ∧
    (∀ r, eps ≤ r → r ≤ 1 - eps → (1 - r) * sol a + r * sol b = 0 → t = r)

/-- The numbers of the new points are not used, distinct and positive. -/
structure Fresh (new : Nat → Nat) (ms : List LTet) : Prop where
  pos : ∀ i, 0 < new i
  inj : ∀ i j, new i = new j → i = j
  out : ∀ i, ∀ m ∈ ms, new i ∉ m.t.v

end

variable {K : Type} [Field K] [LinearOrder K] [IsStrictOrderedRing K]

theorem Opposite.symm {sol : Nat → K} {a b : Nat} (h : Opposite sol a b) : Opposite sol b a := by
  rcases h with ⟨h1, h2⟩ | ⟨h1, h2⟩
  · exact .inr ⟨h2, h1⟩
  · exact .inl ⟨h2, h1⟩

theorem Opposite.mul {sol : Nat → K} {a b : Nat} (h : Opposite sol a b) : sol a * sol b < 0 := by
  rcases h with ⟨h1, h2⟩ | ⟨h1, h2⟩
  · exact mul_neg_of_neg_of_pos h1 h2
  · exact mul_neg_of_pos_of_neg h1 h2

theorem Opposite.ne {sol : Nat → K} {a b : Nat} (h : Opposite sol a b) : a ≠ b := by
  rintro rfl
  rcases h with ⟨h1, h2⟩ | ⟨h1, h2⟩ <;> exact absurd (h1.trans h2) (lt_irrefl _)

theorem Wanted.symm {spl : Int → Option (Int × Int)} {sol : Nat → K} {ms : List LTet} {a b : Nat}
    (h : Wanted spl sol ms a b) : Wanted spl sol ms b a := by
  obtain ⟨h1, m, hm, hs, ha, hb⟩ := h
  exact ⟨h1.symm, m, hm, hs, hb, ha⟩

theorem lerp_swap (p q : Pt K) (t : K) : p.lerp q t = q.lerp p (1 - t) := by
  simp only [Pt.lerp, Pt.mk.injEq]
  refine ⟨?_, ?_, ?_⟩ <;> ring

theorem OnZero.symm {eps : K} {c : Nat → Pt K} {sol : Nat → K} {a b : Nat} {p : Pt K}
    (h : OnZero eps c sol a b p) : OnZero eps c sol b a p := by
  obtain ⟨t, h1, h2, h3, h4⟩ := h
  refine ⟨1 - t, by linarith, by linarith, by rw [h3, lerp_swap], fun r hr1 hr2 hr => ?_⟩
  have := h4 (1 - r) (by linarith) (by linarith) (by linarith)
  linarith

theorem onZero_clamp {eps : K} (he : 2 * eps ≤ 1) (c : Nat → Pt K) {sol : Nat → K} {a b : Nat}
    (ho : Opposite sol a b) :
    OnZero eps c sol a b ((c a).lerp (c b) (clamp eps (sol a / (sol a - sol b)))) := by
  have hd : sol a - sol b ≠ 0 := by
    rcases ho with ⟨h1, h2⟩ | ⟨h1, h2⟩
    · exact ne_of_lt (by linarith)
    · exact ne_of_gt (by linarith)
  refine ⟨_, le_max_right _ _, ?_, rfl, ?_⟩
  · exact max_le (min_le_right _ _) (by linarith)
  · intro r h1 h2 h3
    have : sol a / (sol a - sol b) = r := by
      rw [div_eq_iff hd]; linarith
    rw [this, min_eq_left h2, max_eq_left h1]

/-! ### First loop -/

theorem mark_mono (s : P1) (q p : Nat) (h : s.flag p ≠ 0) : (s.mark q).flag p ≠ 0 := by
  unfold P1.mark
  split
  · simp only [upd]; split <;> omega
  · exact h

theorem mark_self (s : P1) (p : Nat) : (s.mark p).flag p ≠ 0 := by
  unfold P1.mark
  split
  · simp [upd]
  · assumption

theorem mark_nb (s : P1) (p : Nat) : s.nb ≤ (s.mark p).nb ∧
    ((∀ q, s.flag q ≠ 0 → s.nb ≠ 0) → ∀ q, (s.mark p).flag q ≠ 0 → (s.mark p).nb ≠ 0) := by
  unfold P1.mark
  split
  · simp
  · simp

theorem mark1_mono (e2 : K) (sol : Nat → K) (s : P1) (x : LTet × Nat) (p : Nat)
    (h : s.flag p ≠ 0) : (mark1 e2 sol s x).flag p ≠ 0 := by
  unfold mark1
  simp only
  split
  · exact h
  · split
    · exact mark_mono _ _ _ (mark_mono _ _ _ h)
    · exact h

theorem mark1_nb (e2 : K) (sol : Nat → K) (s : P1) (x : LTet × Nat)
    (h : ∀ q, s.flag q ≠ 0 → s.nb ≠ 0) :
    ∀ q, (mark1 e2 sol s x).flag q ≠ 0 → (mark1 e2 sol s x).nb ≠ 0 := by
  unfold mark1
  simp only
  split
  · exact h
  · split
    · exact (mark_nb _ _).2 ((mark_nb _ _).2 h)
    · exact h

theorem foldl_mark1 (e2 : K) (sol : Nat → K) (l : List (LTet × Nat)) (s : P1)
    (h : ∀ q, s.flag q ≠ 0 → s.nb ≠ 0) :
    (∀ q, (l.foldl (mark1 e2 sol) s).flag q ≠ 0 → (l.foldl (mark1 e2 sol) s).nb ≠ 0) ∧
    (∀ q, s.flag q ≠ 0 → (l.foldl (mark1 e2 sol) s).flag q ≠ 0) ∧
    ∀ x ∈ l, e2 < |sol (ends x.1 x.2).1| → e2 < |sol (ends x.1 x.2).2| →
      sol (ends x.1 x.2).1 * sol (ends x.1 x.2).2 < 0 →
      (l.foldl (mark1 e2 sol) s).flag (ends x.1 x.2).1 ≠ 0 ∧
      (l.foldl (mark1 e2 sol) s).flag (ends x.1 x.2).2 ≠ 0 := by
  induction l generalizing s with
  | nil => exact ⟨h, fun _ h => h, by simp⟩
  | cons y l ih =>
    obtain ⟨i1, i2, i3⟩ := ih (mark1 e2 sol s y) (mark1_nb e2 sol s y h)
    refine ⟨i1, fun q hq => i2 q (mark1_mono _ _ _ _ _ hq), ?_⟩
    intro x hx h1 h2 h3
    rcases List.mem_cons.1 hx with rfl | hx
    · have : (mark1 e2 sol s x).flag (ends x.1 x.2).1 ≠ 0 ∧
          (mark1 e2 sol s x).flag (ends x.1 x.2).2 ≠ 0 := by
        unfold mark1
        simp only
        split
        · assumption
        · rw [if_pos ⟨h1, h2, h3⟩]
          exact ⟨mark_mono _ _ _ (mark_self _ _), mark_self _ _⟩
      exact ⟨i2 _ this.1, i2 _ this.2⟩
    · exact i3 x hx h1 h2 h3

/-! ### Second loop -/

theorem addReq_spec {ok : Nat → Bool} (l : List (Nat × Nat)) {T T' : Tab}
    (h : addReq ok l T = some T') (h0 : ∀ i j, T.get i j = 0 ∨ T.get i j = -1) :
    ∀ i j, T'.get i j = 0 ∨ T'.get i j = -1 := by
  induction l generalizing T with
  | nil => simp only [addReq, Option.some.injEq] at h; exact h ▸ h0
  | cons x l ih =>
    obtain ⟨a, b⟩ := x
    simp only [addReq] at h
    split at h
    · rename_i T1 hT
      refine ih h ?_
      unfold Tab.add at hT
      split at hT
      · simp only [Prod.mk.injEq, true_and] at hT; exact hT ▸ h0
      · split at hT
        · simp only [Prod.mk.injEq, true_and] at hT
          subst hT
          intro i j
          simp only [Tab.set]
          split
          · exact .inr rfl
          · exact h0 i j
        · simp at hT
    · cases h

theorem addReq_ok {ok : Nat → Bool} (hok : ∀ n, ok n = true) (l : List (Nat × Nat)) (T : Tab) :
    ∃ T', addReq ok l T = some T' := by
  induction l generalizing T with
  | nil => exact ⟨T, rfl⟩
  | cons x l ih =>
    obtain ⟨a, b⟩ := x
    simp only [addReq, Tab.add]
    by_cases h : T.find a b ≠ 0
    · rw [if_pos h]; exact ih T
    · rw [if_neg h, if_pos (hok _)]; exact ih _

/-! ### Third loop -/

theorem mem_edges {ms : List LTet} {x : LTet × Nat} : x ∈ edges ms ↔ x.1 ∈ ms ∧ x.2 < 6 := by
  obtain ⟨m, e⟩ := x
  simp only [edges, List.mem_flatMap, List.mem_map, List.mem_range, Prod.mk.injEq]
  constructor
  · rintro ⟨m', h1, e', h2, rfl, rfl⟩; exact ⟨h1, h2⟩
  · rintro ⟨h1, h2⟩; exact ⟨m, h1, e, h2, rfl, rfl⟩

theorem iare_lt {e : Nat} (h : e < 6) : (iare.getD e (0, 0)).1 < 4 ∧ (iare.getD e (0, 0)).2 < 4 := by
  have : ∀ e < 6, (iare.getD e (0, 0)).1 < 4 ∧ (iare.getD e (0, 0)).2 < 4 := by decide
  exact this e h

theorem ends_mem {m : LTet} (h4 : m.t.v.length = 4) {e : Nat} (he : e < 6) :
    (ends m e).1 ∈ m.t.v ∧ (ends m e).2 ∈ m.t.v := by
  obtain ⟨h1, h2⟩ := iare_lt he
  simp only [ends]
  constructor
  · rw [List.getD_eq_getElem _ _ (by omega)]; exact List.getElem_mem _
  · rw [List.getD_eq_getElem _ _ (by omega)]; exact List.getElem_mem _

/-- Two different vertices are the ends of an edge. -/
theorem exists_edge {m : LTet} (h4 : m.t.v.length = 4) {a b : Nat} (ha : a ∈ m.t.v) (hb : b ∈ m.t.v)
    (hab : a ≠ b) : ∃ e < 6, ends m e = (a, b) ∨ ends m e = (b, a) := by
  obtain ⟨i, hi, rfl⟩ := List.getElem_of_mem ha
  obtain ⟨j, hj, rfl⟩ := List.getElem_of_mem hb
  have key : ∀ i < 4, ∀ j < 4, i ≠ j → ∃ e < 6, iare.getD e (0, 0) = (i, j) ∨
      iare.getD e (0, 0) = (j, i) := by decide
  obtain ⟨e, he, h⟩ := key i (by omega) j (by omega) (fun h => hab (by subst h; rfl))
  refine ⟨e, he, ?_⟩
  unfold ends
  rcases h with h | h
  · left; rw [h]; simp only; rw [List.getD_eq_getElem _ _ (by omega), List.getD_eq_getElem _ _ (by omega)]
  · right; rw [h]; simp only; rw [List.getD_eq_getElem _ _ (by omega), List.getD_eq_getElem _ _ (by omega)]

theorem sorted_eq {a b a' b' : Nat} (h1 : min a b = min a' b') (h2 : max a b = max a' b') :
    (a = a' ∧ b = b') ∨ (a = b' ∧ b = a') := by omega

/-- State of the third loop after the edges `P`. -/
structure Inv (E : Env) (eps : K) (c : Nat → Pt K) (sol : Nat → K) (ms : List LTet)
    (P : List (LTet × Nat)) (s : S3 K) : Prop where
  keep : ∀ p, (∀ i < s.n, p ≠ E.new i) → s.c p = c p ∧ s.sol p = sol p
  pt : ∀ a b, 0 < s.tab.find a b → ∃ q < s.n, s.tab.find a b = E.new q ∧
    Wanted E.spl sol ms a b ∧ s.sol (E.new q) = 0 ∧ OnZero eps c sol a b (s.c (E.new q))
  inj : ∀ a b a' b', 0 < s.tab.find a b → s.tab.find a' b' = s.tab.find a b →
    (a = a' ∧ b = b') ∨ (a = b' ∧ b = a')
  all : ∀ q < s.n, ∃ a b, s.tab.find a b = E.new q
  done : ∀ x ∈ P, Wanted E.spl sol ms (ends x.1 x.2).1 (ends x.1 x.2).2 →
    (E.spl x.1.ref).isSome → 0 < s.tab.find (ends x.1 x.2).1 (ends x.1 x.2).2

theorem find_comm (T : Tab) (a b : Nat) : T.find a b = T.find b a := by
  unfold Tab.find; rw [min_comm, max_comm]

theorem find_set (T : Tab) (a b : Nat) (k : Int) (n a' b' : Nat) :
    Tab.find ⟨T.set a b k, n⟩ a' b' =
      if (a' = a ∧ b' = b) ∨ (a' = b ∧ b' = a) then k else T.find a' b' := by
  simp only [Tab.find, Tab.set]
  by_cases h : (a' = a ∧ b' = b) ∨ (a' = b ∧ b' = a)
  · rw [if_pos h]
    rcases h with ⟨rfl, rfl⟩ | ⟨rfl, rfl⟩
    · simp
    · rw [if_pos ⟨min_comm _ _, max_comm _ _⟩]
  · rw [if_neg h, if_neg]
    rintro ⟨h1, h2⟩
    exact h (sorted_eq h1 h2)

theorem point3_spec {E : Env} {eps e2 : K} (he : 2 * eps ≤ 1) (h2 : 0 < e2)
    {c : Nat → Pt K} {sol : Nat → K} {ms : List LTet} (hok : ∀ n, E.ok n = true)
    (hF : Fresh E.new ms) (h4 : ∀ m ∈ ms, m.t.v.length = 4)
    (hD : ∀ m ∈ ms, ∀ p ∈ m.t.v, sol p = 0 ∨ e2 < |sol p|) {flag : Nat → Nat}
    (hflag : ∀ x ∈ edges ms, Opposite sol (ends x.1 x.2).1 (ends x.1 x.2).2 →
      flag (ends x.1 x.2).1 ≠ 0 ∧ flag (ends x.1 x.2).2 ≠ 0)
    {P : List (LTet × Nat)} {s s' : S3 K} (I : Inv E eps c sol ms P s) {x : LTet × Nat}
    (hx : x ∈ edges ms) (h : point3 E eps e2 flag s x = some s') :
    Inv E eps c sol ms (P ++ [x]) s' := by
  obtain ⟨hm, he6⟩ := mem_edges.1 hx
  obtain ⟨ma, mb⟩ := ends_mem (h4 _ hm) he6
  have hfl := hflag x hx
  generalize ha : (ends x.1 x.2).1 = a at *
  generalize hb : (ends x.1 x.2).2 = b at *
  have na : ∀ i, a ≠ E.new i := fun i h => hF.out i _ hm (h ▸ ma)
  have nb : ∀ i, b ≠ E.new i := fun i h => hF.out i _ hm (h ▸ mb)
  obtain ⟨ca, sa⟩ := I.keep a fun i _ => na i
  obtain ⟨cb, sb⟩ := I.keep b fun i _ => nb i
  -- nothing is done
  have skip : (Wanted E.spl sol ms a b → (E.spl x.1.ref).isSome → 0 < s.tab.find a b) →
      Inv E eps c sol ms (P ++ [x]) s := by
    intro hh
    refine ⟨I.keep, I.pt, I.inj, I.all, ?_⟩
    intro y hy hw hs
    rcases List.mem_append.1 hy with hy | hy
    · exact I.done y hy hw hs
    · rw [List.mem_singleton] at hy
      subst hy
      rw [ha, hb] at hw ⊢
      exact hh hw hs
  unfold point3 at h
  simp only [ha, hb] at h
  split at h
  · cases h; exact skip fun _ _ => by assumption
  rename_i hnp
  split at h
  · rename_i hn
    cases h
    exact skip fun _ hs => by rw [Option.isNone_iff_eq_none] at hn; simp [hn] at hs
  rename_i hn
  have hsome : (E.spl x.1.ref).isSome := by
    cases hh : E.spl x.1.ref with
    | none => rw [hh] at hn; exact absurd rfl hn
    | some _ => rfl
  split at h
  · rename_i hsm
    cases h
    refine skip fun hw _ => ?_
    exfalso
    rw [sa, sb] at hsm
    rcases hsm with hsm | hsm
    · rcases hD _ hm a ma with h0 | h0
      · rcases hw.1 with ⟨h1, _⟩ | ⟨h1, _⟩ <;> rw [h0] at h1 <;> exact lt_irrefl _ h1
      · exact absurd (h0.trans hsm) (lt_irrefl _)
    · rcases hD _ hm b mb with h0 | h0
      · rcases hw.1 with ⟨_, h1⟩ | ⟨_, h1⟩ <;> rw [h0] at h1 <;> exact lt_irrefl _ h1
      · exact absurd (h0.trans hsm) (lt_irrefl _)
  rename_i hsm
  split at h
  · rename_i hp
    cases h
    refine skip fun hw _ => ?_
    rw [sa, sb] at hp
    exact absurd (hw.1.mul.trans hp) (lt_irrefl _)
  rename_i hp
  split at h
  · rename_i hz
    cases h
    refine skip fun hw _ => ?_
    obtain ⟨f1, f2⟩ := hfl hw.1
    rcases hz with hz | hz
    · exact absurd hz f1
    · exact absurd hz f2
  split at h
  swap
  · cases h
  cases h
  -- a new point
  rw [sa, sb] at hsm hp
  simp only [not_or, not_lt] at hsm
  have za : sol a ≠ 0 := fun h0 => by
    have := hsm.1; rw [h0, abs_zero] at this; exact absurd (h2.trans_le this) (lt_irrefl _)
  have zb : sol b ≠ 0 := fun h0 => by
    have := hsm.2; rw [h0, abs_zero] at this; exact absurd (h2.trans_le this) (lt_irrefl _)
  have ho : Opposite sol a b := by
    rcases lt_or_gt_of_ne za with h1 | h1 <;> rcases lt_or_gt_of_ne zb with h3 | h3
    · exact absurd (mul_pos_of_neg_of_neg h1 h3) hp
    · exact .inl ⟨h1, h3⟩
    · exact .inr ⟨h1, h3⟩
    · exact absurd (mul_pos h1 h3) hp
  have hw : Wanted E.spl sol ms a b := ⟨ho, x.1, hm, hsome, ma, mb⟩
  have htab : ∀ a' b', Tab.find (if s.tab.find a b < 0 then ⟨s.tab.set a b (E.new s.n), s.tab.n⟩
      else (s.tab.add E.ok a b (E.new s.n)).2) a' b' =
      if (a' = a ∧ b' = b) ∨ (a' = b ∧ b' = a) then (E.new s.n : Int) else s.tab.find a' b' := by
    intro a' b'
    split
    · rw [find_set]
    · rename_i hneg
      have h0 : s.tab.find a b = 0 := by omega
      unfold Tab.add
      rw [if_neg (by simpa using h0), if_pos (hok _)]
      exact find_set _ _ _ _ _ _ _
  have hnew : ∀ q < s.n, E.new q ≠ E.new s.n := fun q hq h => by
    have := hF.inj _ _ h; omega
  have hold : ∀ a' b', 0 < s.tab.find a' b' → s.tab.find a' b' ≠ (E.new s.n : Int) := by
    intro a' b' hpos he
    obtain ⟨q, hq, hq', _⟩ := I.pt a' b' hpos
    exact hnew q hq (by omega)
  refine ⟨?_, ?_, ?_, ?_, ?_⟩
  · intro p hpn
    simp only at hpn
    have hne : p ≠ E.new s.n := hpn s.n (by omega)
    have := I.keep p fun i hi => hpn i (by omega)
    simpa [upd, hne] using this
  · intro a' b'
    simp only
    rw [htab]
    intro hpos
    by_cases hab : (a' = a ∧ b' = b) ∨ (a' = b ∧ b' = a)
    · rw [if_pos hab]
      refine ⟨s.n, by omega, rfl, ?_, by simp [upd], ?_⟩
      · rcases hab with ⟨rfl, rfl⟩ | ⟨rfl, rfl⟩
        · exact hw
        · exact hw.symm
      · have := onZero_clamp he c ho
        rw [ca, cb, sa, sb]
        simp only [upd, if_true]
        rcases hab with ⟨rfl, rfl⟩ | ⟨rfl, rfl⟩
        · exact this
        · exact this.symm
    · rw [if_neg hab] at hpos ⊢
      obtain ⟨q, hq, hq1, hq2, hq3, hq4⟩ := I.pt a' b' hpos
      refine ⟨q, by omega, hq1, hq2, ?_, ?_⟩
      · simpa [upd, hnew q hq] using hq3
      · simpa [upd, hnew q hq] using hq4
  · intro a1 b1 a2 b2
    simp only
    rw [htab, htab]
    intro hpos heq
    by_cases h1 : (a1 = a ∧ b1 = b) ∨ (a1 = b ∧ b1 = a)
    · by_cases h2' : (a2 = a ∧ b2 = b) ∨ (a2 = b ∧ b2 = a)
      · omega
      · rw [if_pos h1] at hpos heq
        rw [if_neg h2'] at heq
        exact absurd heq (hold a2 b2 (by omega))
    · rw [if_neg h1] at hpos heq
      by_cases h2' : (a2 = a ∧ b2 = b) ∨ (a2 = b ∧ b2 = a)
      · rw [if_pos h2'] at heq
        exact absurd heq.symm (hold a1 b1 hpos)
      · rw [if_neg h2'] at heq
        exact I.inj _ _ _ _ hpos heq
  · intro q hq
    simp only at hq ⊢
    rcases Nat.lt_succ_iff_lt_or_eq.1 hq with hq | rfl
    · obtain ⟨a', b', h'⟩ := I.all q hq
      refine ⟨a', b', ?_⟩
      rw [htab, if_neg, h']
      intro hab
      have : s.tab.find a b = E.new q := by
        rcases hab with ⟨rfl, rfl⟩ | ⟨rfl, rfl⟩
        · exact h'
        · rw [find_comm]; exact h'
      have := hF.pos q
      omega
    · exact ⟨a, b, by rw [htab, if_pos (.inl ⟨rfl, rfl⟩)]⟩
  · intro y hy hyw hys
    simp only
    rw [htab]
    split
    · exact_mod_cast hF.pos s.n
    · rename_i hne
      rcases List.mem_append.1 hy with hy | hy
      · exact I.done y hy hyw hys
      · rw [List.mem_singleton] at hy
        subst hy
        exact absurd (.inl ⟨ha, hb⟩) hne

theorem points_spec {E : Env} {eps e2 : K} (he : 2 * eps ≤ 1) (h2 : 0 < e2)
    {c : Nat → Pt K} {sol : Nat → K} {ms : List LTet} (hok : ∀ n, E.ok n = true)
    (hF : Fresh E.new ms) (h4 : ∀ m ∈ ms, m.t.v.length = 4)
    (hD : ∀ m ∈ ms, ∀ p ∈ m.t.v, sol p = 0 ∨ e2 < |sol p|) {flag : Nat → Nat}
    (hflag : ∀ x ∈ edges ms, Opposite sol (ends x.1 x.2).1 (ends x.1 x.2).2 →
      flag (ends x.1 x.2).1 ≠ 0 ∧ flag (ends x.1 x.2).2 ≠ 0)
    (l : List (LTet × Nat)) (hl : ∀ x ∈ l, x ∈ edges ms)
    {P : List (LTet × Nat)} {s s' : S3 K} (I : Inv E eps c sol ms P s)
    (h : points E eps e2 flag l s = some s') : Inv E eps c sol ms (P ++ l) s' := by
  induction l generalizing s P with
  | nil => simp only [points, Option.some.injEq] at h; rw [List.append_nil]; exact h ▸ I
  | cons x l ih =>
    simp only [points] at h
    cases h1 : point3 E eps e2 flag s x with
    | none => rw [h1] at h; cases h
    | some s1 =>
      rw [h1] at h
      have := ih (fun y hy => hl y (List.mem_cons_of_mem _ hy))
        (point3_spec he h2 hok hF h4 hD hflag I (hl x List.mem_cons_self) h1) h
      rwa [List.append_assoc] at this

end Mmg.Ls3
