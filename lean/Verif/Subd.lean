/-
  C89. Separation of the sub-domains of a 2D triangulation (`MMG2D_markSD`): statements and cases.
-/
import Mathlib.Data.Finset.Card
import Mathlib.Data.List.Nodup
import Mathlib.Data.List.Induction
import Mathlib.Order.Interval.Finset.Nat
import Mathlib.Logic.Relation
import Mathlib.Data.Fin.VecNotation
import Mathlib.Tactic.IntervalCases
import Mathlib.Tactic.FinCases
import Mathlib.Tactic.Tauto
import Verif.Tri2Lemmas
import Verif.SubdModel

namespace Mmg.Subd

open Mmg.Tri2 Relation

variable {E : Env}

/-! ### Specification -/

/-- The side is an edge of the user: one of the edges has the two ends of the side, in any order. -/
def IsEdge (E : Env) (h : HE) : Prop :=
  ∃ l, 1 ≤ l ∧ l ≤ E.na ∧ (((E.edge l) = ((E.M.tri h.1).v (h.2 + 1), (E.M.tri h.1).v (h.2 + 2))) ∨
    ((E.edge l) = ((E.M.tri h.1).v (h.2 + 2), (E.M.tri h.1).v (h.2 + 1))))

/-- Triangles `a` and `b` are neighbours and what is between them is not an edge of the user. -/
def Step (E : Env) (a b : Nat) : Prop := E.M.live a ∧ ∃ i j, E.M.adj (a, i) = some (b, j) ∧ ¬ IsEdge E (a, i)

/-- There is a path that crosses no edge of the user. -/
def Conn (E : Env) : Nat → Nat → Prop := ReflTransGen (Step E)

/-- The valid triangles are among the first `nt`. -/
def Bounded (E : Env) : Prop := ∀ k, E.M.live k → k ≤ E.nt

theorem cut_iff {h : HE} : cut E h = true ↔ IsEdge E h := by
  unfold cut IsEdge
  rw [List.any_eq_true]
  constructor
  · rintro ⟨l, hl, e⟩
    rw [List.mem_range'_1] at hl
    refine ⟨l, hl.1, by omega, ?_⟩
    simp only [Bool.or_eq_true, Bool.and_eq_true, beq_iff_eq] at e
    rcases e with ⟨a, b⟩ | ⟨a, b⟩
    · exact .inl (Prod.ext a b)
    · exact .inr (Prod.ext b a)
  · rintro ⟨l, h1, h2, e⟩
    refine ⟨l, by rw [List.mem_range'_1]; omega, ?_⟩
    simp only [Bool.or_eq_true, Bool.and_eq_true, beq_iff_eq]
    rcases e with e | e <;> rw [e] <;> simp

theorem eok_iff {M : Mesh} {k : Nat} : eok M k = true ↔ M.live k := by
  unfold eok; exact decide_eq_true_iff

theorem edge_twin (hv : Valid E.M) {h h' : HE} (hl : E.M.live h.1) (ha : E.M.adj h = some h') (hc : IsEdge E h') :
    IsEdge E h := by
  obtain ⟨_, _, l3, l4⟩ := hv.link h h' hl ha
  have e1 : (E.M.tri h'.1).v (h'.2 + 1) = (E.M.tri h.1).v (h.2 + 2) := l3
  have e2 : (E.M.tri h'.1).v (h'.2 + 2) = (E.M.tri h.1).v (h.2 + 1) := l4
  obtain ⟨l, a, b, c⟩ := hc
  rw [e1, e2] at c
  exact ⟨l, a, b, c.symm⟩

theorem Step.symm (hv : Valid E.M) {a b : Nat} (h : Step E a b) : Step E b a := by
  obtain ⟨hl, i, j, ha, hc⟩ := h
  obtain ⟨l1, l2, _, _⟩ := hv.link (a, i) (b, j) hl ha
  exact ⟨l1, j, i, l2, fun c => hc (edge_twin hv hl ha c)⟩

theorem Conn.symm (hv : Valid E.M) {a b : Nat} (h : Conn E a b) : Conn E b a := by
  induction h with
  | refl => exact .refl
  | tail _ s ih => exact .head (s.symm hv) ih

theorem Conn.live (hv : Valid E.M) {a b : Nat} (h : Conn E a b) (hl : E.M.live a) : E.M.live b := by
  induction h with
  | refl => exact hl
  | tail _ s _ => exact (s.symm hv).1

/-! ### One component -/

def Nb (E : Env) (h : HE) (a : Nat) : Prop := ∃ j, E.M.adj h = some (a, j) ∧ ¬ IsEdge E h

structure Visited (E : Env) (n k : Nat) (is : List (Fin 3)) (s s' : (Nat → Nat) × List Nat) (new : List Nat) : Prop where
  q : s'.2 = s.2 ++ new
  nd : new.Nodup
  mem : ∀ a, a ∈ new ↔ s.1 a ≠ n ∧ ∃ i ∈ is, Nb E (k, i) a
  ref : ∀ a, s'.1 a = n ↔ s.1 a = n ∨ a ∈ new
  old : ∀ a, s'.1 a ≠ n → s'.1 a = s.1 a

theorem visit_spec (n k : Nat) (s : (Nat → Nat) × List Nat) (is : List (Fin 3)) :
    ∃ new, Visited E n k is s (is.foldl (visit E n k) s) new := by
  induction is using List.reverseRecOn with
  | nil => exact ⟨[], by simp, by simp, by simp, by simp, fun _ _ => rfl⟩
  | append_singleton is i ih =>
    obtain ⟨new, V⟩ := ih
    rw [List.foldl_append]
    simp only [List.foldl_cons, List.foldl_nil]
    generalize is.foldl (visit E n k) s = t at V
    have same : ∀ {t' : (Nat → Nat) × List Nat}, t' = t → (∀ a, Nb E (k, i) a → t.1 a = n) →
        ∃ new, Visited E n k (is ++ [i]) s t' new := by
      rintro t' rfl hn
      refine ⟨new, V.q, V.nd, fun a => ?_, V.ref, V.old⟩
      rw [V.mem]
      constructor
      · rintro ⟨h1, j, hj, h2⟩; exact ⟨h1, j, by simp [hj], h2⟩
      · rintro ⟨h1, j, hj, h2⟩
        rcases List.mem_append.1 hj with hj | hj
        · exact ⟨h1, j, hj, h2⟩
        · rw [List.mem_singleton] at hj
          subst hj
          rcases (V.ref a).1 (hn a h2) with q | q
          · exact absurd q h1
          · exact (V.mem a).1 q
    unfold visit
    cases ha : E.M.adj (k, i) with
    | none =>
      apply same rfl
      rintro a ⟨j, e, _⟩
      rw [ha] at e; cases e
    | some h' =>
      simp only
      by_cases h1 : t.1 h'.1 = n
      · rw [if_pos h1]
        apply same rfl
        rintro a ⟨j, e, _⟩
        rw [ha] at e; cases e; exact h1
      rw [if_neg h1]
      by_cases h2 : cut E (k, i) = true
      · rw [if_pos h2]
        apply same rfl
        rintro a ⟨j, e, c⟩
        exact absurd (cut_iff.1 h2) c
      rw [if_neg h2]
      have hn1 : h'.1 ∉ new := fun q => h1 ((V.ref _).2 (.inr q))
      have hs1 : s.1 h'.1 ≠ n := fun q => h1 ((V.ref _).2 (.inl q))
      have hnb : Nb E (k, i) h'.1 := ⟨h'.2, ha, fun c => h2 (cut_iff.2 c)⟩
      refine ⟨new ++ [h'.1], ?_, ?_, fun a => ?_, fun a => ?_, fun a => ?_⟩
      · show t.2 ++ [h'.1] = _
        rw [V.q, List.append_assoc]
      · rw [List.nodup_append]
        refine ⟨V.nd, by simp, ?_⟩
        intro x hx y hy e
        rw [List.mem_singleton] at hy
        subst hy; subst e; exact hn1 hx
      · rw [List.mem_append, V.mem, List.mem_singleton]
        constructor
        · rintro (⟨q, j, hj, hb⟩ | rfl)
          · exact ⟨q, j, by simp [hj], hb⟩
          · exact ⟨hs1, i, by simp, hnb⟩
        · rintro ⟨q, j, hj, hb⟩
          rcases List.mem_append.1 hj with hj | hj
          · exact .inl ⟨q, j, hj, hb⟩
          · rw [List.mem_singleton] at hj
            subst hj
            obtain ⟨j', e, _⟩ := hb
            rw [ha] at e; cases e; exact .inr rfl
      · show set1 t.1 h'.1 n a = n ↔ _
        unfold set1
        by_cases q : a = h'.1
        · rw [if_pos q]; simp [q]
        · rw [if_neg q, V.ref]; simp [q]
      · show set1 t.1 h'.1 n a ≠ n → set1 t.1 h'.1 n a = s.1 a
        unfold set1
        by_cases q : a = h'.1
        · rw [if_pos q]; intro c; exact absurd rfl c
        · rw [if_neg q]; exact V.old a

/-- Not yet treated. -/
noncomputable def todo (E : Env) (n : Nat) (s : (Nat → Nat) × List Nat) : Nat :=
  open Classical in ((Finset.Icc 1 E.nt).filter fun a => E.M.live a ∧ (s.1 a ≠ n ∨ a ∈ s.2)).card

structure Inv (E : Env) (n k0 : Nat) (ref0 : Nat → Nat) (s : (Nat → Nat) × List Nat) : Prop where
  start : s.1 k0 = n ∨ k0 ∈ s.2
  marked : ∀ a ∈ s.2.tail, s.1 a = n
  nd : s.2.Nodup
  conn : ∀ a, s.1 a = n ∨ a ∈ s.2 → Conn E k0 a
  closed : ∀ a, s.1 a = n → a ∉ s.2 → ∀ b, Step E a b → s.1 b = n ∨ b ∈ s.2
  old : ∀ a, s.1 a ≠ n → s.1 a = ref0 a

theorem fill_spec (hv : Valid E.M) (hb : Bounded E) {n start : Nat} (hs : E.M.live start) {ref0 : Nat → Nat} :
    ∀ (fuel : Nat) (s : (Nat → Nat) × List Nat), Inv E n start ref0 s → todo E n s ≤ fuel →
      ∃ ref, fill E n fuel s = some ref ∧ (∀ a, ref a = n ↔ Conn E start a) ∧ ∀ a, ref a ≠ n → ref a = ref0 a := by
  classical
  have done : ∀ (ref : Nat → Nat), Inv E n start ref0 (ref, []) →
      (∀ a, ref a = n ↔ Conn E start a) ∧ ∀ a, ref a ≠ n → ref a = ref0 a := by
    intro ref I
    refine ⟨fun a => ⟨fun h => I.conn a (.inl h), fun h => ?_⟩, I.old⟩
    induction h with
    | refl => exact I.start.resolve_right (by simp)
    | tail _ s ih => exact (I.closed _ ih (by simp) _ s).resolve_right (by simp)
  intro fuel
  induction fuel with
  | zero =>
    rintro ⟨ref, q⟩ I ht
    cases q with
    | nil => exact ⟨ref, rfl, done ref I⟩
    | cons k q =>
      exfalso
      have hl : E.M.live k := (I.conn k (.inr (by simp))).live hv hs
      have : 0 < todo E n (ref, k :: q) := by
        unfold todo
        apply Finset.card_pos.2
        refine ⟨k, ?_⟩
        rw [Finset.mem_filter, Finset.mem_Icc]
        have := (hv.pos k hl).1
        exact ⟨⟨by omega, hb k hl⟩, hl, .inr (by simp)⟩
      omega
  | succ fuel ih =>
    rintro ⟨ref, q⟩ I ht
    cases q with
    | nil => exact ⟨ref, rfl, done ref I⟩
    | cons k q =>
      have hl : E.M.live k := (I.conn k (.inr (by simp))).live hv hs
      have hkq : k ∉ q := (List.nodup_cons.1 I.nd).1
      obtain ⟨new, V⟩ := visit_spec (E := E) n k (set1 ref k n, q) [0, 1, 2]
      unfold fill
      generalize [0, 1, 2].foldl (visit E n k) (set1 ref k n, q) = t at V
      have hs1 : ∀ a, set1 ref k n a = n ↔ ref a = n ∨ a = k := by
        intro a
        unfold set1
        by_cases e : a = k
        · rw [if_pos e]; simp [e]
        · rw [if_neg e]; simp [e]
      have hnew : ∀ a, a ∈ new ↔ ¬ (ref a = n ∨ a = k) ∧ Step E k a := by
        intro a
        rw [V.mem]
        refine and_congr (not_congr (hs1 a)) ⟨?_, ?_⟩
        · rintro ⟨i, _, j, e, c⟩; exact ⟨hl, i, j, e, c⟩
        · rintro ⟨_, i, j, e, c⟩
          exact ⟨i, by fin_cases i <;> simp, j, e, c⟩
      have htr : ∀ a, t.1 a = n ↔ ref a = n ∨ a = k ∨ a ∈ new := by
        intro a
        rw [V.ref, hs1, or_assoc]
      have htq : ∀ a, a ∈ t.2 ↔ a ∈ q ∨ a ∈ new := by
        intro a
        rw [V.q, List.mem_append]
      have hknew : k ∉ new := fun h => ((hnew k).1 h).1 (.inr rfl)
      have hk0 : Conn E start k := I.conn k (.inr (by simp))
      apply ih t
      · refine ⟨?_, fun a h => ?_, ?_, fun a h => ?_, fun a h1 h2 b hst => ?_, fun a h => ?_⟩
        · rw [htr, htq]
          rcases I.start with h | h
          · exact .inl (.inl h)
          · rcases List.mem_cons.1 h with h | h
            · exact .inl (.inr (.inl h))
            · exact .inr (.inl h)
        · rw [htr]
          rcases (htq a).1 (List.mem_of_mem_tail h) with h | h
          · exact .inl (I.marked a h)
          · exact .inr (.inr h)
        · rw [V.q, List.nodup_append]
          refine ⟨(List.nodup_cons.1 I.nd).2, V.nd, ?_⟩
          rintro x hx y hy rfl
          exact ((hnew x).1 hy).1 (.inl (I.marked x hx))
        · rw [htr, htq] at h
          have hn : a ∈ new → Conn E start a := fun h => hk0.tail ((hnew a).1 h).2
          rcases h with (h | rfl | h) | (h | h)
          · exact I.conn a (.inl h)
          · exact hk0
          · exact hn h
          · exact I.conn a (.inr (by simp [h]))
          · exact hn h
        · rw [htr] at h1
          rw [htq, not_or] at h2
          have cl : ∀ b, (ref b = n ∨ b ∈ k :: q) → t.1 b = n ∨ b ∈ t.2 := by
            intro b h
            rw [htr, htq]
            rcases h with h | h
            · exact .inl (.inl h)
            · rcases List.mem_cons.1 h with h | h
              · exact .inl (.inr (.inl h))
              · exact .inr (.inl h)
          by_cases e : a = k
          · subst e
            rw [htr, htq]
            by_cases c : ref b = n ∨ b = a
            · rcases c with c | c
              · exact .inl (.inl c)
              · exact .inl (.inr (.inl c))
            · exact .inr (.inr ((hnew b).2 ⟨c, hst⟩))
          · rcases h1 with h1 | h1 | h1
            · exact cl b (I.closed a h1 (by simp [e, h2.1]) b hst)
            · exact absurd h1 e
            · exact absurd h1 h2.2
        · have h' := fun c => h ((htr a).2 c)
          rw [V.old a h]
          show set1 ref k n a = ref0 a
          unfold set1
          rw [if_neg (fun c => h' (.inr (.inl c)))]
          exact I.old a (fun c => h' (.inl c))
      · have : todo E n t < todo E n (ref, k :: q) := by
          unfold todo
          apply Finset.card_lt_card
          rw [Finset.ssubset_iff_of_subset]
          · refine ⟨k, ?_, ?_⟩
            · rw [Finset.mem_filter, Finset.mem_Icc]
              have := (hv.pos k hl).1
              exact ⟨⟨by omega, hb k hl⟩, hl, .inr (by simp)⟩
            · rw [Finset.mem_filter]
              rintro ⟨_, _, h | h⟩
              · exact h ((htr k).2 (.inr (.inl rfl)))
              · rcases (htq k).1 h with h | h
                · exact hkq h
                · exact hknew h
          · intro x hx
            rw [Finset.mem_filter] at hx ⊢
            refine ⟨hx.1, hx.2.1, ?_⟩
            rcases hx.2.2 with h | h
            · left
              intro c
              exact h ((htr x).2 (.inl c))
            · rcases (htq x).1 h with h | h
              · right; simp [h]
              · left
                intro c
                exact ((hnew x).1 h).1 (.inl c)
        omega

/-! ### All components -/

/-- References from 1 to `n` for some of the components. -/
structure Parts (E : Env) (n : Nat) (ref : Nat → Nat) : Prop where
  le : ∀ a, ref a ≤ n
  same : ∀ a b, E.M.live a → E.M.live b → ref a ≠ 0 → (ref b = ref a ↔ Conn E a b)
  onto : ∀ c, 1 ≤ c → c ≤ n → ∃ a, E.M.live a ∧ ref a = c

noncomputable def left (E : Env) (ref : Nat → Nat) : Nat :=
  open Classical in ((Finset.Icc 1 E.nt).filter fun a => E.M.live a ∧ ref a = 0).card

theorem nextK_spec (hv : Valid E.M) (hb : Bounded E) (ref : Nat → Nat) :
    (nextK E ref = none → ∀ a, E.M.live a → ref a ≠ 0) ∧
    ∀ k, nextK E ref = some k → E.M.live k ∧ ref k = 0 := by
  unfold nextK
  constructor
  · intro h a ha h0
    rw [List.find?_eq_none] at h
    have := (hv.pos a ha).1
    have h2 := hb a ha
    have := h a (by rw [List.mem_range'_1]; omega)
    apply this
    have : eok E.M a = true := eok_iff.2 ha
    simp [this, h0]
  · intro k h
    have := List.find?_some h
    simp only [Bool.and_eq_true, beq_iff_eq] at this
    exact ⟨eok_iff.1 this.1, this.2⟩

theorem regions_spec (hv : Valid E.M) (hb : Bounded E) :
    ∀ (fuel n kinit : Nat) (ref : Nat → Nat), Parts E n ref → E.M.live kinit → ref kinit = 0 → left E ref ≤ fuel →
      ∃ N ref', regions E fuel n kinit ref = some (N, ref') ∧ Parts E N ref' ∧ (∀ a, E.M.live a → ref' a ≠ 0) ∧
        (∀ a, ref a ≠ 0 → ref' a = ref a) ∧ ref' kinit = n + 1 := by
  classical
  have pos : ∀ (ref : Nat → Nat) (k : Nat), E.M.live k → ref k = 0 → 0 < left E ref := by
    intro ref k hk h0
    unfold left
    apply Finset.card_pos.2
    refine ⟨k, ?_⟩
    rw [Finset.mem_filter, Finset.mem_Icc]
    have := (hv.pos k hk).1
    exact ⟨⟨by omega, hb k hk⟩, hk, h0⟩
  intro fuel
  induction fuel with
  | zero =>
    intro n kinit ref P hk h0 hf
    have := pos ref kinit hk h0
    omega
  | succ fuel ih =>
    intro n kinit ref P hk h0 hf
    have hno : ∀ a, ref a ≠ n + 1 := fun a e => by have := P.le a; omega
    obtain ⟨ref1, e1, r1, r2⟩ := fill_spec hv hb hk (ref0 := ref) (n := n + 1) E.nt (ref, [kinit])
      ⟨.inr (by simp), by simp, by simp, fun a h => by
          rcases h with h | h
          · exact absurd h (hno a)
          · rw [List.mem_singleton] at h; subst h; exact .refl,
        fun a h => absurd h (hno a), fun _ _ => rfl⟩
      (by
        unfold todo
        refine (Finset.card_filter_le _ _).trans ?_
        simp)
    have was0 : ∀ a, Conn E kinit a → ref a = 0 := by
      intro a ha
      by_contra h
      have hl := ha.live hv hk
      have := (P.same a kinit hl hk h).2 (ha.symm hv)
      rw [h0] at this
      exact h this.symm
    have P1 : Parts E (n + 1) ref1 := by
      refine ⟨fun a => ?_, fun a b ha hb' h => ?_, fun c c1 c2 => ?_⟩
      · by_cases h : ref1 a = n + 1
        · omega
        · rw [r2 a h]; have := P.le a; omega
      · by_cases h1 : ref1 a = n + 1
        · rw [h1, r1]
          have ca := (r1 a).1 h1
          exact ⟨fun q => (ca.symm hv).trans q, fun q => ca.trans q⟩
        · have e := r2 a h1
          rw [e] at h
          by_cases h2 : ref1 b = n + 1
          · constructor
            · intro q; exact absurd (q.symm.trans h2) h1
            · intro q
              exact absurd ((r1 a).2 (((r1 b).1 h2).trans (q.symm hv))) h1
          · rw [e, r2 b h2]
            exact P.same a b ha hb' h
      · by_cases h : c = n + 1
        · exact ⟨kinit, hk, by rw [h]; exact (r1 kinit).2 .refl⟩
        · obtain ⟨a, ha, q⟩ := P.onto c c1 (by omega)
          refine ⟨a, ha, ?_⟩
          have : ref1 a ≠ n + 1 := fun h' => by
            have := was0 a ((r1 a).1 h')
            omega
          rw [r2 a this, q]
    have keep : ∀ a, ref a ≠ 0 → ref1 a = ref a := by
      intro a ha
      apply r2
      intro h
      exact ha (was0 a ((r1 a).1 h))
    unfold regions
    rw [e1]
    simp only
    obtain ⟨k1, k2⟩ := nextK_spec hv hb ref1
    cases hn : nextK E ref1 with
    | none => exact ⟨n + 1, ref1, rfl, P1, k1 hn, keep, (r1 kinit).2 .refl⟩
    | some k =>
      obtain ⟨hkl, hk0⟩ := k2 k hn
      have hlt : left E ref1 < left E ref := by
        unfold left
        apply Finset.card_lt_card
        rw [Finset.ssubset_iff_of_subset]
        · refine ⟨kinit, ?_, ?_⟩
          · rw [Finset.mem_filter, Finset.mem_Icc]
            have := (hv.pos kinit hk).1
            exact ⟨⟨by omega, hb kinit hk⟩, hk, h0⟩
          · rw [Finset.mem_filter]
            rintro ⟨_, _, h⟩
            have := (r1 kinit).2 .refl
            omega
        · intro x hx
          rw [Finset.mem_filter] at hx ⊢
          refine ⟨hx.1, hx.2.1, ?_⟩
          by_contra h
          have := keep x h
          omega
      obtain ⟨N, ref', q1, q2, q3, q4, q5⟩ := ih (n + 1) k ref1 P1 hkl hk0 (by omega)
      refine ⟨N, ref', q1, q2, q3, fun a ha => ?_, ?_⟩
      · have h1 := keep a ha
        rw [q4 a (by omega), h1]
      · have := (r1 kinit).2 .refl
        rw [q4 kinit (by omega), this]

theorem firstK_spec (hv : Valid E.M) (hb : Bounded E) (hbox : ∃ k i, E.M.live k ∧ (E.M.tri k).v i = E.np) :
    ∃ k i, firstK E = some k ∧ E.M.live k ∧ (E.M.tri k).v i = E.np := by
  unfold firstK
  cases h : (List.range' 1 E.nt).find? fun k => eok E.M k &&
      ((E.M.tri k).v 0 == E.np || (E.M.tri k).v 1 == E.np || (E.M.tri k).v 2 == E.np) with
  | none =>
    exfalso
    rw [List.find?_eq_none] at h
    obtain ⟨k, i, hk, hi⟩ := hbox
    have h1 := (hv.pos k hk).1
    have h2 := hb k hk
    apply h k (by rw [List.mem_range'_1]; omega)
    have : eok E.M k = true := eok_iff.2 hk
    rw [this]
    fin_cases i <;> simp at hi <;> simp [hi]
  | some k =>
    have := List.find?_some h
    simp only [Bool.and_eq_true, Bool.or_eq_true, beq_iff_eq] at this
    rcases this.2 with (q | q) | q
    · exact ⟨k, 0, rfl, eok_iff.1 this.1, q⟩
    · exact ⟨k, 1, rfl, eok_iff.1 this.1, q⟩
    · exact ⟨k, 2, rfl, eok_iff.1 this.1, q⟩

/-- **C89.** The separation ends and two triangles have the same reference exactly when a path that crosses no edge of the user
joins them; the references are the numbers from 1, and those with 1 are the triangles joined to a triangle with the last
vertex of the bounding box. -/
theorem C89_regions (hv : Valid E.M) (hb : Bounded E) (hbox : ∃ k i, E.M.live k ∧ (E.M.tri k).v i = E.np) :
    ∃ N ref k0 i0, mark E = some (N, ref) ∧ E.M.live k0 ∧ (E.M.tri k0).v i0 = E.np ∧
      (∀ a b, E.M.live a → E.M.live b → (ref a = ref b ↔ Conn E a b)) ∧
      (∀ a, E.M.live a → 1 ≤ ref a ∧ ref a ≤ N) ∧ (∀ c, 1 ≤ c → c ≤ N → ∃ a, E.M.live a ∧ ref a = c) ∧
      ∀ a, E.M.live a → (ref a = 1 ↔ Conn E k0 a) := by
  classical
  obtain ⟨k0, i0, e0, l0, v0⟩ := firstK_spec hv hb hbox
  obtain ⟨N, ref, e, P, nz, _, r1⟩ := regions_spec hv hb E.nt 0 k0 (fun _ => 0)
    ⟨fun _ => le_rfl, fun _ _ _ _ h => absurd rfl h, fun c c1 c2 => by omega⟩ l0 rfl
    (by
      unfold left
      refine (Finset.card_filter_le _ _).trans ?_
      simp)
  refine ⟨N, ref, k0, i0, ?_, l0, v0, fun a b ha hb' => ?_, fun a ha => ?_, P.onto, fun a ha => ?_⟩
  · unfold mark; rw [e0]; exact e
  · rw [eq_comm]; exact P.same a b ha hb' (nz a ha)
  · have := nz a ha
    have := P.le a
    omega
  · have := P.same k0 a l0 ha (nz k0 l0)
    rw [r1] at this
    exact this

/-! ### Deletions -/

/-- `M'` is `M` without the triangles `R`; the sides of the others towards them are border. -/
structure CutOut (M : Mesh) (R : Nat → Prop) (M' : Mesh) : Prop where
  live : ∀ k, M'.live k ↔ M.live k ∧ ¬ R k
  tri : ∀ k, M'.live k → M'.tri k = M.tri k
  adj : ∀ h h', M'.live h.1 → (M'.adj h = some h' ↔ M.adj h = some h' ∧ ¬ R h'.1)

theorem CutOut.valid {M M' : Mesh} {R : Nat → Prop} (hv : Valid M) (h : CutOut M R M') : Valid M' := by
  refine ⟨fun k hk => ?_, fun k hk => ?_, fun g g' hg e => ?_⟩
  · rw [h.tri k hk]; exact hv.pos k ((h.live k).1 hk).1
  · rw [h.tri k hk]; exact hv.distinct k ((h.live k).1 hk).1
  · have hg0 := (h.live g.1).1 hg
    obtain ⟨e1, e2⟩ := (h.adj g g' hg).1 e
    obtain ⟨l1, l2, l3, l4⟩ := hv.link g g' hg0.1 e1
    have hg' : M'.live g'.1 := (h.live g'.1).2 ⟨l1, e2⟩
    refine ⟨hg', (h.adj g' g hg').2 ⟨l2, hg0.2⟩, ?_, ?_⟩
    · show (M'.tri g'.1).v _ = (M'.tri g.1).v _
      rw [h.tri _ hg, h.tri _ hg']; exact l3
    · show (M'.tri g'.1).v _ = (M'.tri g.1).v _
      rw [h.tri _ hg, h.tri _ hg']; exact l4

theorem unlink_spec {M : Mesh} {k : Nat} (hk : ∀ i h', M.adj (k, i) = some h' → h'.1 ≠ k) (is : List (Fin 3)) :
    (is.foldl (unlink k) M).tri = M.tri ∧
    (∀ h, (∀ i ∈ is, M.adj (k, i) ≠ some h) → (is.foldl (unlink k) M).adj h = M.adj h) ∧
    ∀ h, (∃ i ∈ is, M.adj (k, i) = some h) → (is.foldl (unlink k) M).adj h = none := by
  induction is using List.reverseRecOn with
  | nil => exact ⟨rfl, fun _ _ => rfl, fun h ⟨i, hi, _⟩ => by simp at hi⟩
  | append_singleton is i ih =>
    obtain ⟨i1, i2, i3⟩ := ih
    rw [List.foldl_append]
    simp only [List.foldl_cons, List.foldl_nil]
    generalize is.foldl (unlink k) M = M1 at i1 i2 i3
    have own : M1.adj (k, i) = M.adj (k, i) := i2 _ fun j _ e => hk j _ e rfl
    unfold unlink
    rw [own]
    cases ha : M.adj (k, i) with
    | none =>
      simp only
      refine ⟨i1, fun h hh => i2 h fun j hj => hh j (by simp [hj]), ?_⟩
      rintro h ⟨j, hj, e⟩
      rcases List.mem_append.1 hj with hj | hj
      · exact i3 h ⟨j, hj, e⟩
      · rw [List.mem_singleton] at hj; subst hj
        rw [ha] at e; cases e
    | some h' =>
      simp only [Mesh.setAdj]
      refine ⟨i1, fun h hh => ?_, ?_⟩
      · rw [if_neg]
        · exact i2 h fun j hj => hh j (by simp [hj])
        · rintro rfl
          exact hh i (by simp) ha
      · rintro h ⟨j, hj, e⟩
        by_cases q : h = h'
        · rw [if_pos q]
        · rw [if_neg q]
          rcases List.mem_append.1 hj with hj | hj
          · exact i3 h ⟨j, hj, e⟩
          · rw [List.mem_singleton] at hj; subst hj
            rw [ha] at e; cases e; exact absurd rfl q

theorem del_spec {M : Mesh} (hM : Valid M) {k : Nat} (hk : M.live k) : CutOut M (· = k) (del M k) := by
  have self : ∀ i h', M.adj (k, i) = some h' → h'.1 ≠ k := by
    intro i h' e
    exact (hM.lnk hk i h'.1 h'.2 e).2.1
  obtain ⟨u1, u2, u3⟩ := unlink_spec self [0, 1, 2]
  have hl : ∀ x, (del M k).live x ↔ M.live x ∧ ¬ x = k := by
    intro x
    unfold del delElt Mesh.live
    simp only
    by_cases e : x = k
    · rw [if_pos e]; simp [noTri, e]
    · rw [if_neg e, u1]; simp [e]
  refine ⟨hl, fun x hx => ?_, fun h h' hh => ?_⟩
  · have e := ((hl x).1 hx).2
    unfold del delElt
    simp only
    rw [if_neg e, u1]
  · obtain ⟨l, e⟩ := (hl h.1).1 hh
    unfold del delElt
    simp only
    rw [if_neg e]
    by_cases c : ∃ i ∈ ([0, 1, 2] : List (Fin 3)), M.adj (k, i) = some h
    · rw [u3 h c]
      obtain ⟨i, _, a⟩ := c
      have := (hM.link (k, i) h hk a).2.1
      rw [this]
      constructor
      · intro q; cases q
      · rintro ⟨q, q'⟩
        cases q
        exact absurd rfl q'
    · rw [u2 h (fun i hi a => c ⟨i, hi, a⟩)]
      constructor
      · intro a
        refine ⟨a, ?_⟩
        intro q
        have := (hM.link h h' l a).2.1
        apply c
        refine ⟨h'.2, by rcases h' with ⟨x, y⟩; fin_cases y <;> simp, ?_⟩
        rw [← this, ← q]
      · exact fun a => a.1

theorem CutOut.trans {M M1 M2 : Mesh} {R S : Nat → Prop} (h1 : CutOut M R M1) (h2 : CutOut M1 S M2) :
    CutOut M (fun k => R k ∨ S k) M2 := by
  have hl : ∀ k, M2.live k ↔ M.live k ∧ ¬ (R k ∨ S k) := by
    intro k
    rw [h2.live, h1.live, not_or, and_assoc]
  refine ⟨hl, fun k hk => ?_, fun h h' hh => ?_⟩
  · have a := ((h2.live k).1 hk).1
    rw [h2.tri k hk, h1.tri k a]
  · have a := ((h2.live h.1).1 hh).1
    rw [h2.adj h h' hh, h1.adj h h' a, not_or, and_assoc]

theorem dels_spec {M : Mesh} (hM : Valid M) (L : List Nat) (hn : L.Nodup) (hl : ∀ k ∈ L, M.live k) :
    CutOut M (· ∈ L) (L.foldl del M) := by
  induction L using List.reverseRecOn with
  | nil => exact ⟨fun k => by simp, fun _ _ => rfl, fun h h' _ => by simp⟩
  | append_singleton L k ih =>
    have hn' := List.nodup_append.1 hn
    have I := ih hn'.1 fun x hx => hl x (by simp [hx])
    rw [List.foldl_append]
    simp only [List.foldl_cons, List.foldl_nil]
    have hk : (L.foldl del M).live k := by
      rw [I.live]
      exact ⟨hl k (by simp), fun hm => hn'.2.2 k hm k (by simp) rfl⟩
    have J := I.trans (del_spec (I.valid hM) hk)
    have : (fun x => x ∈ L ∨ x = k) = (fun x => x ∈ L ++ [k]) := by
      funext x; simp
    rw [this] at J
    exact J

/-- A vertex of the bounding box. -/
def Box (E : Env) (k : Nat) : Prop := ∃ i, E.np - 3 ≤ (E.M.tri k).v i ∧ (E.M.tri k).v i ≤ E.np

theorem box_iff (h3 : 3 ≤ E.np) {k : Nat} : box E k = true ↔ Box E k := by
  have key : ∀ p, ((p == E.np - 3 || p == E.np - 2 || p == E.np - 1 || p == E.np) = true) ↔ E.np - 3 ≤ p ∧ p ≤ E.np := by
    intro p
    simp only [Bool.or_eq_true, beq_iff_eq]
    omega
  unfold box Box
  rw [List.any_eq_true]
  constructor
  · rintro ⟨i, _, e⟩; exact ⟨i, (key _).1 e⟩
  · rintro ⟨i, e⟩; exact ⟨i, by fin_cases i <;> simp, (key _).2 e⟩

theorem outer_cut (hv : Valid E.M) (hb : Bounded E) (N : Nat) (ref : Nat → Nat) {R : Nat → Prop}
    (hR : ∀ k, E.M.live k → ((if N ≠ 1 then ref k == 1 else box E k) = true ↔ R k)) :
    CutOut E.M R ((outer E N ref).foldl del E.M) := by
  have hm : ∀ k, k ∈ outer E N ref ↔ E.M.live k ∧ R k := by
    intro k
    unfold outer
    rw [List.mem_filter, Bool.and_eq_true, eok_iff, List.mem_range'_1]
    constructor
    · rintro ⟨_, l, q⟩; exact ⟨l, (hR k l).1 q⟩
    · rintro ⟨l, q⟩
      have := (hv.pos k l).1
      have := hb k l
      exact ⟨by omega, l, (hR k l).2 q⟩
  have C := dels_spec hv (outer E N ref) (List.Nodup.filter _ List.nodup_range') fun k hk => ((hm k).1 hk).1
  refine ⟨fun k => ?_, C.tri, fun h h' hh => ?_⟩
  · rw [C.live, hm]; tauto
  · rw [C.adj h h' hh, hm]
    have l := ((C.live h.1).1 hh).1
    constructor
    · rintro ⟨a, b⟩
      exact ⟨a, fun q => b ⟨(hv.link h h' l a).1, q⟩⟩
    · rintro ⟨a, b⟩
      exact ⟨a, fun q => b q.2⟩

/-- **C89.** What is outside is removed, and nothing else: if there is more than one sub-domain the triangles that remain are those
that no path without edge of the user joins to the bounding box, otherwise those without vertex of the box. The mesh that
remains has a symmetric adjacency and its new border is made of edges of the user. -/
theorem C89_outside (hv : Valid E.M) (hb : Bounded E) (h3 : 3 ≤ E.np)
    (hbox : ∃ k i, E.M.live k ∧ (E.M.tri k).v i = E.np) :
    ∃ M' ref N k0 i0, markSD E 0 = some (M', ref, N) ∧ E.M.live k0 ∧ (E.M.tri k0).v i0 = E.np ∧
      (∀ a b, E.M.live a → E.M.live b → (ref a = ref b ↔ Conn E a b)) ∧
      (N = 1 ↔ ∀ a, E.M.live a → Conn E k0 a) ∧ Valid M' ∧
      (N ≠ 1 → CutOut E.M (Conn E k0) M' ∧
        ∀ h h', M'.live h.1 → E.M.adj h = some h' → M'.adj h = none → IsEdge E h) ∧
      (N = 1 → CutOut E.M (Box E) M') := by
  obtain ⟨N, ref, k0, i0, e, l0, v0, same, rng, onto, one⟩ := C89_regions hv hb hbox
  have hN : N = 1 ↔ ∀ a, E.M.live a → Conn E k0 a := by
    constructor
    · intro h a ha
      have := rng a ha
      exact (one a ha).1 (by omega)
    · intro h
      by_contra q
      have := rng k0 l0
      obtain ⟨a, ha, r⟩ := onto 2 (by omega) (by omega)
      have := (one a ha).2 (h a ha)
      omega
  have h1 : N ≠ 1 → CutOut E.M (Conn E k0) ((outer E N ref).foldl del E.M) := by
    intro h
    apply outer_cut hv hb
    intro k hk
    rw [if_pos h, beq_iff_eq]
    exact one k hk
  have h2 : N = 1 → CutOut E.M (Box E) ((outer E N ref).foldl del E.M) := by
    intro h
    apply outer_cut hv hb
    intro k _
    rw [if_neg (by simp [h])]
    exact box_iff h3
  refine ⟨_, ref, N, k0, i0, by unfold markSD others; rw [e]; rfl, l0, v0, same, hN, ?_, fun h => ⟨h1 h, ?_⟩, h2⟩
  · by_cases h : N = 1
    · exact (h2 h).valid hv
    · exact (h1 h).valid hv
  · intro g g' hg a n
    have C := h1 h
    by_contra c
    have l := (C.live g.1).1 hg
    have hR : Conn E k0 g'.1 := by
      by_contra q
      have := (C.adj g g' hg).2 ⟨a, q⟩
      have n' : ((outer E N ref).foldl del E.M).adj g = none := n
      rw [n'] at this; cases this
    apply l.2
    have st : Step E g.1 g'.1 := ⟨l.1, g.2, g'.2, a, c⟩
    exact hR.tail (st.symm hv)

theorem delElts {M : Mesh} (L : List Nat) (k : Nat) :
    (L.foldl delElt M).tri k = (if k ∈ L then noTri else M.tri k) ∧
    ∀ i, (L.foldl delElt M).adj (k, i) = (if k ∈ L then none else M.adj (k, i)) := by
  induction L using List.reverseRecOn with
  | nil => simp
  | append_singleton L x ih =>
    rw [List.foldl_append]
    simp only [List.foldl_cons, List.foldl_nil, List.mem_append, List.mem_singleton]
    unfold delElt
    simp only
    by_cases e : k = x
    · simp [e]
    · simp only [e, if_false, or_false]; exact ih

theorem nsd_aux (hv : Valid E.M) (hb : Bounded E) {nsd : Nat} (hn : nsd ≠ 0) {M' M1 : Mesh} {ref : Nat → Nat} {N : Nat}
    (e0 : markSD E 0 = some (M1, ref, N)) (e : markSD E nsd = some (M', ref, N)) (hle : ∀ k, M1.live k → E.M.live k) (k : Nat) :
    (M'.live k ↔ M1.live k ∧ ref k = nsd) ∧ (M'.live k → M'.tri k = M1.tri k) := by
  unfold markSD at e0 e
  cases hm : mark E with
  | none => rw [hm] at e; cases e
  | some r =>
    obtain ⟨N', ref'⟩ := r
    rw [hm] at e e0
    simp only [Option.some.injEq, Prod.mk.injEq] at e e0
    obtain ⟨e1, rfl, rfl⟩ := e
    obtain ⟨e2, _, _⟩ := e0
    have : others E 0 ((outer E N' ref').foldl del E.M) ref' = [] := rfl
    rw [this] at e2
    simp only [List.foldl_nil] at e2
    rw [e2] at e1
    have hmem : ∀ x, M1.live x → (x ∈ others E nsd M1 ref' ↔ ref' x ≠ nsd) := by
      intro x hx
      unfold others
      rw [if_neg hn, List.mem_filter, List.mem_range'_1, Bool.and_eq_true, eok_iff]
      have := (hv.pos x (hle x hx)).1
      have := hb x (hle x hx)
      simp [hx]
      omega
    have D := (delElts (M := M1) (others E nsd M1 ref') k).1
    rw [e1] at D
    by_cases hx : M1.live k
    · by_cases hr : ref' k = nsd
      · have : k ∉ others E nsd M1 ref' := fun h => (hmem k hx).1 h hr
        rw [if_neg this] at D
        refine ⟨?_, fun _ => D⟩
        unfold Mesh.live
        rw [D]
        exact ⟨fun h => ⟨h, hr⟩, fun h => h.1⟩
      · have : k ∈ others E nsd M1 ref' := (hmem k hx).2 hr
        rw [if_pos this] at D
        have dd : ¬ M'.live k := by
          unfold Mesh.live; rw [D]; simp [noTri]
        exact ⟨⟨fun h => absurd h dd, fun h => absurd h.2 hr⟩, fun h => absurd h dd⟩
    · have dd : ¬ M'.live k := by
        unfold Mesh.live
        rw [D]
        split
        · simp [noTri]
        · exact hx
      exact ⟨⟨fun h => absurd h dd, fun h => absurd h.1 hx⟩, fun h => absurd h dd⟩

/-- **C89 (partial).** With the option that keeps one sub-domain only, the triangles that remain are those with this reference.
Missing: the adjacency, see `C89_nsd_links_observed`. -/
theorem C89_nsd_partial (hv : Valid E.M) (hb : Bounded E) (h3 : 3 ≤ E.np)
    (hbox : ∃ k i, E.M.live k ∧ (E.M.tri k).v i = E.np) {nsd : Nat} (hn : nsd ≠ 0) :
    ∃ M1 M' ref N, markSD E 0 = some (M1, ref, N) ∧ markSD E nsd = some (M', ref, N) ∧
      ∀ k, (M'.live k ↔ M1.live k ∧ ref k = nsd) ∧ (M'.live k → M'.tri k = M1.tri k) := by
  obtain ⟨M1, ref, N, k0, i0, e0, _, _, _, _, _, h1, h2⟩ := C89_outside hv hb h3 hbox
  have hle : ∀ k, M1.live k → E.M.live k := by
    intro k hk
    by_cases h : N = 1
    · exact (((h2 h).live k).1 hk).1
    · exact (((h1 h).1.live k).1 hk).1
  have hm : mark E = some (N, ref) := by
    unfold markSD at e0
    cases hm : mark E with
    | none => rw [hm] at e0; cases e0
    | some r =>
      obtain ⟨N', ref'⟩ := r
      rw [hm] at e0
      simp only [Option.some.injEq, Prod.mk.injEq] at e0
      rw [e0.2.1, e0.2.2]
  have e : ∃ M', markSD E nsd = some (M', ref, N) := by
    unfold markSD
    rw [hm]
    exact ⟨_, rfl⟩
  obtain ⟨M', e⟩ := e
  exact ⟨M1, M', ref, N, e0, e, fun k => nsd_aux hv hb hn e0 e hle k⟩

/-! ### Cases -/

/-- Triangle 1 has the last vertex of the box; edges 1-2 and 2-3 are edges of the user. -/
def three : Env where
  M := {
    tri := fun k => if k = 1 then ⟨![9, 2, 1], fun _ => 0, fun _ => 0, 0⟩
      else if k = 2 then ⟨![1, 2, 3], fun _ => 0, fun _ => 0, 0⟩
      else if k = 3 then ⟨![3, 2, 4], fun _ => 0, fun _ => 0, 0⟩ else ⟨fun _ => 0, fun _ => 0, fun _ => 0, 0⟩
    adj := fun h => if h = (1, 0) then some (2, 2) else if h = (2, 2) then some (1, 0)
      else if h = (2, 0) then some (3, 2) else if h = (3, 2) then some (2, 0) else none }
  nt := 3
  np := 9
  na := 2
  edge := fun l => if l = 1 then (1, 2) else (3, 2)

theorem three_bounded : Bounded three := by
  intro k hk
  by_contra h
  have h' : ¬ k ≤ 3 := h
  apply hk
  unfold three
  simp only
  rw [if_neg (by omega), if_neg (by omega), if_neg (by omega)]

theorem three_valid : Valid three.M := by
  have lv : ∀ k, three.M.live k → k = 1 ∨ k = 2 ∨ k = 3 := by
    intro k hk
    have : k ≤ 3 := three_bounded k hk
    have h0 : k ≠ 0 := by
      rintro rfl; exact hk (by decide)
    omega
  refine ⟨fun k hk => ?_, fun k hk => ?_, fun h h' hl e => ?_⟩
  · rcases lv k hk with rfl | rfl | rfl <;> decide
  · rcases lv k hk with rfl | rfl | rfl <;> decide
  · obtain ⟨k, i⟩ := h
    rcases lv k hl with rfl | rfl | rfl <;> fin_cases i <;>
      first
      | (cases e; done)
      | (have e' := Option.some.inj e; subst e'; exact ⟨by unfold Mesh.live; decide, by decide, by decide, by decide⟩)

/-- Three references; the first triangle is removed. -/
example : Valid three.M ∧ Bounded three ∧ 3 ≤ three.np ∧ (∃ k i, three.M.live k ∧ (three.M.tri k).v i = three.np) ∧
    ∃ M' ref, markSD three 0 = some (M', ref, 3) ∧ ref 1 = 1 ∧ ref 2 = 2 ∧ ref 3 = 3 ∧ ¬ M'.live 1 ∧ M'.live 2 ∧
      M'.adj (2, 2) = none ∧ M'.adj (2, 0) = some (3, 2) := by
  refine ⟨three_valid, three_bounded, by decide, ⟨1, 0, by unfold Mesh.live; decide, by decide⟩, ?_⟩
  refine ⟨((markSD three 0).getD (three.M, fun _ => 0, 0)).1, ((markSD three 0).getD (three.M, fun _ => 0, 0)).2.1, ?_,
    by decide, by decide, by decide, by unfold Mesh.live; decide, by unfold Mesh.live; decide, by decide, by decide⟩
  obtain ⟨M', ref, N, _, _, e, _⟩ := C89_outside three_valid three_bounded (by decide)
    ⟨1, 0, by unfold Mesh.live; decide, by decide⟩
  have : ((markSD three 0).getD (three.M, fun _ => 0, 0)).2.2 = 3 := by decide
  rw [e] at this ⊢
  simp only [Option.getD_some] at this ⊢
  rw [this]

/-- **C89, counterexample.** With the option that keeps one sub-domain only, the triangles of the others are deleted without
update of the adjacency: triangle 2 remains and has as neighbour the triangle 3 that no longer exists. -/
theorem C89_nsd_links_observed : Valid three.M ∧ Bounded three ∧ ∃ M' ref, markSD three 2 = some (M', ref, 3) ∧
    M'.live 2 ∧ ¬ M'.live 3 ∧ M'.adj (2, 0) = some (3, 2) ∧ ¬ Valid M' := by
  have hs : (markSD three 2).isSome = true := by decide
  obtain ⟨⟨M', ref, N⟩, e⟩ := Option.isSome_iff_exists.1 hs
  have hN : ((markSD three 2).getD (three.M, fun _ => 0, 0)).2.2 = 3 := by decide
  have h2 : (((markSD three 2).getD (three.M, fun _ => 0, 0)).1.tri 2).v 0 ≠ 0 := by decide
  have h3 : (((markSD three 2).getD (three.M, fun _ => 0, 0)).1.tri 3).v 0 = 0 := by decide
  have ha : ((markSD three 2).getD (three.M, fun _ => 0, 0)).1.adj (2, 0) = some (3, 2) := by decide
  rw [e] at hN h2 h3 ha
  simp only [Option.getD_some] at hN h2 h3 ha
  subst hN
  refine ⟨three_valid, three_bounded, M', ref, e, h2, fun h => h h3, ha, fun v => ?_⟩
  exact (v.link (2, 0) (3, 2) h2 ha).1 h3

end Mmg.Subd
