/-
  Helper lemmas on the loops of the level-set discretization of triangles.
-/
import Verif.LsTriModel
import Verif.LsLemmas

namespace Mmg.Ls2
open Mmg.Split3 Mmg.Ls3

/-! ### Specification -/

section
variable {K : Type} [Field K] [LinearOrder K]

/-- The edge `a b` has to be cut: it is an edge of a triangle that is split and its ends have
opposite signs. -/
def Wanted (spl : Int → Option (Int × Int)) (sol : Nat → K) (ms : List Tri) (a b : Nat) : Prop :=
  Opposite sol a b ∧ ∃ m ∈ ms, (spl m.ref).isSome ∧ a ∈ m.v ∧ b ∈ m.v

/-- The numbers of the new points are not used, distinct and positive. -/
structure Fresh (new : Nat → Nat) (ms : List Tri) : Prop where
  pos : ∀ i, 0 < new i
  inj : ∀ i j, new i = new j → i = j
  out : ∀ i, ∀ m ∈ ms, new i ∉ m.v

/-- Complete triangles. -/
structure WF (m : Tri) : Prop where
  v : m.v.length = 3
  tag : m.tag.length = 3
  edg : m.edg.length = 3
  nodup : m.v.Nodup

end

variable {K : Type} [Field K] [LinearOrder K] [IsStrictOrderedRing K]

theorem Wanted.symm {spl : Int → Option (Int × Int)} {sol : Nat → K} {ms : List Tri} {a b : Nat}
    (h : Wanted spl sol ms a b) : Wanted spl sol ms b a := by
  obtain ⟨h1, m, hm, hs, ha, hb⟩ := h
  exact ⟨h1.symm, m, hm, hs, hb, ha⟩

/-! ### First loop -/

theorem mark1_mono (e2 : K) (sol : Nat → K) (s : P1) (x : Tri × Nat) (p : Nat)
    (h : s.flag p ≠ 0) : (mark1 e2 sol s x).flag p ≠ 0 := by
  unfold mark1
  simp only
  split
  · exact h
  · split
    · exact mark_mono _ _ _ (mark_mono _ _ _ h)
    · exact h

theorem mark1_nb (e2 : K) (sol : Nat → K) (s : P1) (x : Tri × Nat)
    (h : ∀ q, s.flag q ≠ 0 → s.nb ≠ 0) :
    ∀ q, (mark1 e2 sol s x).flag q ≠ 0 → (mark1 e2 sol s x).nb ≠ 0 := by
  unfold mark1
  simp only
  split
  · exact h
  · split
    · exact (mark_nb _ _).2 ((mark_nb _ _).2 h)
    · exact h

theorem foldl_mark1 (e2 : K) (sol : Nat → K) (l : List (Tri × Nat)) (s : P1)
    (h : ∀ q, s.flag q ≠ 0 → s.nb ≠ 0) :
    (∀ q, (l.foldl (mark1 e2 sol) s).flag q ≠ 0 → (l.foldl (mark1 e2 sol) s).nb ≠ 0) ∧
    (∀ q, s.flag q ≠ 0 → (l.foldl (mark1 e2 sol) s).flag q ≠ 0) ∧
    ∀ x ∈ l, e2 < |sol (ends x.1 x.2).1| → e2 < |sol (ends x.1 x.2).2| →
      sol (ends x.1 x.2).1 * sol (ends x.1 x.2).2 < 0 →
      (l.foldl (mark1 e2 sol) s).flag (ends x.1 x.2).1 ≠ 0 ∧
      (l.foldl (mark1 e2 sol) s).flag (ends x.1 x.2).2 ≠ 0 := by
  induction l generalizing s with
  | nil => exact ⟨h, fun _ h => h, by simp⟩
  | cons y l ih =>
    obtain ⟨i1, i2, i3⟩ := ih (mark1 e2 sol s y) (mark1_nb e2 sol s y h)
    refine ⟨i1, fun q hq => i2 q (mark1_mono _ _ _ _ _ hq), ?_⟩
    intro x hx h1 h2 h3
    rcases List.mem_cons.1 hx with rfl | hx
    · have : (mark1 e2 sol s x).flag (ends x.1 x.2).1 ≠ 0 ∧
          (mark1 e2 sol s x).flag (ends x.1 x.2).2 ≠ 0 := by
        unfold mark1
        simp only
        split
        · assumption
        · rw [if_pos ⟨h1, h2, h3⟩]
          exact ⟨mark_mono _ _ _ (mark_self _ _), mark_self _ _⟩
      exact ⟨i2 _ this.1, i2 _ this.2⟩
    · exact i3 x hx h1 h2 h3

/-! ### Second loop -/

theorem mem_edges {ms : List Tri} {x : Tri × Nat} : x ∈ edges ms ↔ x.1 ∈ ms ∧ x.2 < 3 := by
  obtain ⟨m, e⟩ := x
  simp only [edges, List.mem_flatMap, List.mem_map, List.mem_range, Prod.mk.injEq]
  constructor
  · rintro ⟨m', h1, e', h2, rfl, rfl⟩; exact ⟨h1, h2⟩
  · rintro ⟨h1, h2⟩; exact ⟨m, h1, e, h2, rfl, rfl⟩

theorem nxt_lt (i : Nat) : nxt i < 3 ∧ prv i < 3 := ⟨Nat.mod_lt _ (by omega), Nat.mod_lt _ (by omega)⟩

theorem ends_mem {m : Tri} (h3 : m.v.length = 3) (e : Nat) :
    (ends m e).1 ∈ m.v ∧ (ends m e).2 ∈ m.v := by
  obtain ⟨h1, h2⟩ := nxt_lt e
  simp only [ends]
  constructor
  · rw [List.getD_eq_getElem _ _ (by omega)]; exact List.getElem_mem _
  · rw [List.getD_eq_getElem _ _ (by omega)]; exact List.getElem_mem _

/-- Two different vertices are the ends of an edge. -/
theorem exists_edge {m : Tri} (h3 : m.v.length = 3) {a b : Nat} (ha : a ∈ m.v) (hb : b ∈ m.v)
    (hab : a ≠ b) : ∃ e < 3, ends m e = (a, b) ∨ ends m e = (b, a) := by
  obtain ⟨i, hi, rfl⟩ := List.getElem_of_mem ha
  obtain ⟨j, hj, rfl⟩ := List.getElem_of_mem hb
  have key : ∀ i < 3, ∀ j < 3, i ≠ j → ∃ e < 3, (nxt e, prv e) = (i, j) ∨ (nxt e, prv e) = (j, i) := by
    decide
  obtain ⟨e, he, h⟩ := key i (by omega) j (by omega) (fun h => hab (by subst h; rfl))
  refine ⟨e, he, ?_⟩
  unfold ends
  simp only [Prod.mk.injEq] at h ⊢
  rcases h with ⟨h, h'⟩ | ⟨h, h'⟩
  · left; rw [h, h', List.getD_eq_getElem _ _ (by omega), List.getD_eq_getElem _ _ (by omega)]; exact ⟨rfl, rfl⟩
  · right; rw [h, h', List.getD_eq_getElem _ _ (by omega), List.getD_eq_getElem _ _ (by omega)]; exact ⟨rfl, rfl⟩

/-- State of the second loop after the edges `P`. -/
structure Inv (E : Env) (eps : K) (c : Nat → Pt K) (sol : Nat → K) (ms : List Tri)
    (P : List (Tri × Nat)) (s : S3 K) : Prop where
  keep : ∀ p, (∀ i < s.n, p ≠ E.new i) → s.c p = c p ∧ s.sol p = sol p
  nneg : ∀ a b, 0 ≤ s.tab.find a b
  pt : ∀ a b, 0 < s.tab.find a b → ∃ q < s.n, s.tab.find a b = E.new q ∧
    Wanted E.spl sol ms a b ∧ s.sol (E.new q) = 0 ∧ OnZero eps c sol a b (s.c (E.new q))
  inj : ∀ a b a' b', 0 < s.tab.find a b → s.tab.find a' b' = s.tab.find a b →
    (a = a' ∧ b = b') ∨ (a = b' ∧ b = a')
  all : ∀ q < s.n, ∃ a b, s.tab.find a b = E.new q
  done : ∀ x ∈ P, Wanted E.spl sol ms (ends x.1 x.2).1 (ends x.1 x.2).2 →
    (E.spl x.1.ref).isSome → 0 < s.tab.find (ends x.1 x.2).1 (ends x.1 x.2).2

theorem point2_spec {E : Env} {eps e2 : K} (he : 2 * eps ≤ 1) (h2 : 0 < e2)
    {c : Nat → Pt K} {sol : Nat → K} {ms : List Tri} (hok : ∀ n, E.ok n = true)
    (hF : Fresh E.new ms) (h3 : ∀ m ∈ ms, m.v.length = 3)
    (hD : ∀ m ∈ ms, ∀ p ∈ m.v, sol p = 0 ∨ e2 < |sol p|) {flag : Nat → Nat}
    (hflag : ∀ x ∈ edges ms, Opposite sol (ends x.1 x.2).1 (ends x.1 x.2).2 →
      flag (ends x.1 x.2).1 ≠ 0 ∧ flag (ends x.1 x.2).2 ≠ 0)
    {P : List (Tri × Nat)} {s s' : S3 K} (I : Inv E eps c sol ms P s) {x : Tri × Nat}
    (hx : x ∈ edges ms) (h : point2 E eps e2 flag s x = some s') :
    Inv E eps c sol ms (P ++ [x]) s' := by
  obtain ⟨hm, he3⟩ := mem_edges.1 hx
  obtain ⟨ma, mb⟩ := ends_mem (h3 _ hm) x.2
  have hfl := hflag x hx
  generalize ha : (ends x.1 x.2).1 = a at *
  generalize hb : (ends x.1 x.2).2 = b at *
  have na : ∀ i, a ≠ E.new i := fun i h => hF.out i _ hm (h ▸ ma)
  have nb : ∀ i, b ≠ E.new i := fun i h => hF.out i _ hm (h ▸ mb)
  obtain ⟨ca, sa⟩ := I.keep a fun i _ => na i
  obtain ⟨cb, sb⟩ := I.keep b fun i _ => nb i
  -- nothing is done
  have skip : (Wanted E.spl sol ms a b → (E.spl x.1.ref).isSome → 0 < s.tab.find a b) →
      Inv E eps c sol ms (P ++ [x]) s := by
    intro hh
    refine ⟨I.keep, I.nneg, I.pt, I.inj, I.all, ?_⟩
    intro y hy hw hs
    rcases List.mem_append.1 hy with hy | hy
    · exact I.done y hy hw hs
    · rw [List.mem_singleton] at hy
      subst hy
      rw [ha, hb] at hw ⊢
      exact hh hw hs
  unfold point2 at h
  simp only [ha, hb] at h
  split at h
  · rename_i hne
    cases h
    exact skip fun _ _ => by have := I.nneg a b; omega
  rename_i hnp
  have h0 : s.tab.find a b = 0 := by omega
  split at h
  · rename_i hn
    cases h
    exact skip fun _ hs => by rw [Option.isNone_iff_eq_none] at hn; simp [hn] at hs
  rename_i hn
  have hsome : (E.spl x.1.ref).isSome := by
    cases hh : E.spl x.1.ref with
    | none => rw [hh] at hn; exact absurd rfl hn
    | some _ => rfl
  split at h
  · rename_i hsm
    cases h
    refine skip fun hw _ => ?_
    exfalso
    rw [sa, sb] at hsm
    rcases hsm with hsm | hsm
    · rcases hD _ hm a ma with h0 | h0
      · rcases hw.1 with ⟨h1, _⟩ | ⟨h1, _⟩ <;> rw [h0] at h1 <;> exact lt_irrefl _ h1
      · exact absurd (h0.trans hsm) (lt_irrefl _)
    · rcases hD _ hm b mb with h0 | h0
      · rcases hw.1 with ⟨_, h1⟩ | ⟨_, h1⟩ <;> rw [h0] at h1 <;> exact lt_irrefl _ h1
      · exact absurd (h0.trans hsm) (lt_irrefl _)
  rename_i hsm
  split at h
  · rename_i hp
    cases h
    refine skip fun hw _ => ?_
    rw [sa, sb] at hp
    exact absurd (hw.1.mul.trans hp) (lt_irrefl _)
  rename_i hp
  split at h
  · rename_i hz
    cases h
    refine skip fun hw _ => ?_
    obtain ⟨f1, f2⟩ := hfl hw.1
    rcases hz with hz | hz
    · exact absurd hz f1
    · exact absurd hz f2
  split at h
  swap
  · cases h
  cases h
  -- a new point
  rw [sa, sb] at hsm hp
  simp only [not_or, not_lt] at hsm
  have za : sol a ≠ 0 := fun h0 => by
    have := hsm.1; rw [h0, abs_zero] at this; exact absurd (h2.trans_le this) (lt_irrefl _)
  have zb : sol b ≠ 0 := fun h0 => by
    have := hsm.2; rw [h0, abs_zero] at this; exact absurd (h2.trans_le this) (lt_irrefl _)
  have ho : Opposite sol a b := by
    rcases lt_or_gt_of_ne za with h1 | h1 <;> rcases lt_or_gt_of_ne zb with h3 | h3
    · exact absurd (mul_pos_of_neg_of_neg h1 h3) hp
    · exact .inl ⟨h1, h3⟩
    · exact .inr ⟨h1, h3⟩
    · exact absurd (mul_pos h1 h3) hp
  have hw : Wanted E.spl sol ms a b := ⟨ho, x.1, hm, hsome, ma, mb⟩
  have htab : ∀ a' b', Tab.find (s.tab.add E.ok a b (E.new s.n)).2 a' b' =
      if (a' = a ∧ b' = b) ∨ (a' = b ∧ b' = a) then (E.new s.n : Int) else s.tab.find a' b' := by
    intro a' b'
    unfold Tab.add
    rw [if_neg (by simpa using h0), if_pos (hok _)]
    exact find_set _ _ _ _ _ _ _
  have hnew : ∀ q < s.n, E.new q ≠ E.new s.n := fun q hq h => by
    have := hF.inj _ _ h; omega
  have hold : ∀ a' b', 0 < s.tab.find a' b' → s.tab.find a' b' ≠ (E.new s.n : Int) := by
    intro a' b' hpos he
    obtain ⟨q, hq, hq', _⟩ := I.pt a' b' hpos
    exact hnew q hq (by omega)
  refine ⟨?_, ?_, ?_, ?_, ?_, ?_⟩
  · intro p hpn
    simp only at hpn
    have hne : p ≠ E.new s.n := hpn s.n (by omega)
    have := I.keep p fun i hi => hpn i (by omega)
    simpa [upd, hne] using this
  · intro a' b'
    simp only
    rw [htab]
    split
    · omega
    · exact I.nneg a' b'
  · intro a' b'
    simp only
    rw [htab]
    intro hpos
    by_cases hab : (a' = a ∧ b' = b) ∨ (a' = b ∧ b' = a)
    · rw [if_pos hab]
      refine ⟨s.n, by omega, rfl, ?_, by simp [upd], ?_⟩
      · rcases hab with ⟨rfl, rfl⟩ | ⟨rfl, rfl⟩
        · exact hw
        · exact hw.symm
      · have := onZero_clamp he c ho
        rw [ca, cb, sa, sb]
        simp only [upd, if_true]
        rcases hab with ⟨rfl, rfl⟩ | ⟨rfl, rfl⟩
        · exact this
        · exact this.symm
    · rw [if_neg hab] at hpos ⊢
      obtain ⟨q, hq, hq1, hq2, hq3, hq4⟩ := I.pt a' b' hpos
      refine ⟨q, by omega, hq1, hq2, ?_, ?_⟩
      · simpa [upd, hnew q hq] using hq3
      · simpa [upd, hnew q hq] using hq4
  · intro a1 b1 a2 b2
    simp only
    rw [htab, htab]
    intro hpos heq
    by_cases h1 : (a1 = a ∧ b1 = b) ∨ (a1 = b ∧ b1 = a)
    · by_cases h2' : (a2 = a ∧ b2 = b) ∨ (a2 = b ∧ b2 = a)
      · omega
      · rw [if_pos h1] at hpos heq
        rw [if_neg h2'] at heq
        exact absurd heq (hold a2 b2 (by omega))
    · rw [if_neg h1] at hpos heq
      by_cases h2' : (a2 = a ∧ b2 = b) ∨ (a2 = b ∧ b2 = a)
      · rw [if_pos h2'] at heq
        exact absurd heq.symm (hold a1 b1 hpos)
      · rw [if_neg h2'] at heq
        exact I.inj _ _ _ _ hpos heq
  · intro q hq
    simp only at hq ⊢
    rcases Nat.lt_succ_iff_lt_or_eq.1 hq with hq | rfl
    · obtain ⟨a', b', h'⟩ := I.all q hq
      refine ⟨a', b', ?_⟩
      rw [htab, if_neg, h']
      intro hab
      have : s.tab.find a b = E.new q := by
        rcases hab with ⟨rfl, rfl⟩ | ⟨rfl, rfl⟩
        · exact h'
        · rw [find_comm]; exact h'
      have := hF.pos q
      omega
    · exact ⟨a, b, by rw [htab, if_pos (.inl ⟨rfl, rfl⟩)]⟩
  · intro y hy hyw hys
    simp only
    rw [htab]
    split
    · exact_mod_cast hF.pos s.n
    · rename_i hne
      rcases List.mem_append.1 hy with hy | hy
      · exact I.done y hy hyw hys
      · rw [List.mem_singleton] at hy
        subst hy
        exact absurd (.inl ⟨ha, hb⟩) hne

theorem points_spec {E : Env} {eps e2 : K} (he : 2 * eps ≤ 1) (h2 : 0 < e2)
    {c : Nat → Pt K} {sol : Nat → K} {ms : List Tri} (hok : ∀ n, E.ok n = true)
    (hF : Fresh E.new ms) (h3 : ∀ m ∈ ms, m.v.length = 3)
    (hD : ∀ m ∈ ms, ∀ p ∈ m.v, sol p = 0 ∨ e2 < |sol p|) {flag : Nat → Nat}
    (hflag : ∀ x ∈ edges ms, Opposite sol (ends x.1 x.2).1 (ends x.1 x.2).2 →
      flag (ends x.1 x.2).1 ≠ 0 ∧ flag (ends x.1 x.2).2 ≠ 0)
    (l : List (Tri × Nat)) (hl : ∀ x ∈ l, x ∈ edges ms)
    {P : List (Tri × Nat)} {s s' : S3 K} (I : Inv E eps c sol ms P s)
    (h : points E eps e2 flag l s = some s') : Inv E eps c sol ms (P ++ l) s' := by
  induction l generalizing s P with
  | nil => simp only [points, Option.some.injEq] at h; rw [List.append_nil]; exact h ▸ I
  | cons x l ih =>
    simp only [points] at h
    cases h1 : point2 E eps e2 flag s x with
    | none => rw [h1] at h; cases h
    | some s1 =>
      rw [h1] at h
      have := ih (fun y hy => hl y (List.mem_cons_of_mem _ hy))
        (point2_spec he h2 hok hF h3 hD hflag I (hl x List.mem_cons_self) h1) h
      rwa [List.append_assoc] at this

end Mmg.Ls2
