/-
  Lemmas on the turn around an edge.
-/
import Verif.ShellModel
import Mathlib.Logic.Relation

namespace Mmg.Shell

open Mmg.Split3 Mmg.Swap23

/-- Face `f` of the tetrahedron `v` contains the edge `na nb`. -/
def Thru (v : List Nat) (na nb f : Nat) : Prop := f < 4 ∧ v.getD f 0 ≠ na ∧ v.getD f 0 ≠ nb

/-- The other face through the edge. -/
def oth (v : List Nat) (na nb f : Nat) : Nat :=
  ((List.range 4).find? fun g => decide (g ≠ f) && decide (v.getD g 0 ≠ na) &&
    decide (v.getD g 0 ≠ nb)).getD 0

/-- A tetrahedron with four different vertices that contains the edge. -/
structure Has (v : List Nat) (na nb : Nat) : Prop where
  len : v.length = 4
  nd : v.Nodup
  ne : na ≠ nb
  a : na ∈ v
  b : nb ∈ v

theorem nodup4 {a b c d : Nat} (h : [a, b, c, d].Nodup) :
    (a ≠ b ∧ a ≠ c ∧ a ≠ d ∧ b ≠ c ∧ b ≠ d ∧ c ≠ d) ∧
    (b ≠ a ∧ c ≠ a ∧ d ≠ a ∧ c ≠ b ∧ d ≠ b ∧ d ≠ c) := by
  simp only [List.nodup_cons, List.mem_cons, List.not_mem_nil, or_false, not_or] at h
  obtain ⟨⟨n1, n2, n3⟩, ⟨n4, n5⟩, n6, _⟩ := h
  exact ⟨⟨n1, n2, n3, n4, n5, n6⟩, ⟨Ne.symm n1, Ne.symm n2, Ne.symm n3, Ne.symm n4, Ne.symm n5,
    Ne.symm n6⟩⟩

/-- The edge is found, and its two faces are the two faces through the edge. -/
theorem findEdge_spec {v : List Nat} {na nb : Nat} (h : Has v na nb) :
    ∃ i, findEdge v na nb = some i ∧ i < 6 ∧
      (ends v i = (na, nb) ∨ ends v i = (nb, na)) ∧
      Thru v na nb (ifar i).1 ∧ Thru v na nb (ifar i).2 ∧
      oth v na nb (ifar i).1 = (ifar i).2 ∧ oth v na nb (ifar i).2 = (ifar i).1 ∧
      (∀ f, Thru v na nb f → f = (ifar i).1 ∨ f = (ifar i).2) ∧ (ifar i).1 ≠ (ifar i).2 ∧
      v.getD (ifar i).1 0 ≠ v.getD (ifar i).2 0 := by
  obtain ⟨hl, hnd, hne, ha, hb⟩ := h
  match v, hl with
  | [a, b, c, d], _ =>
    obtain ⟨⟨n1, n2, n3, n4, n5, n6⟩, m1, m2, m3, m4, m5, m6⟩ := nodup4 hnd
    have R4 : List.range 4 = [0, 1, 2, 3] := rfl
    have R6 : List.range 6 = [0, 1, 2, 3, 4, 5] := rfl
    simp only [List.mem_cons, List.not_mem_nil, or_false] at ha hb
    rcases ha with rfl | rfl | rfl | rfl <;> rcases hb with rfl | rfl | rfl | rfl <;>
      first | exact absurd rfl hne | skip
    all_goals
      simp only [findEdge, R6, List.find?, ends, iare, List.getD_cons_zero, List.getD_cons_succ,
        Prod.mk.injEq, n1, n2, n3, n4, n5, n6, m1, m2, m3, m4, m5, m6, and_true, and_false,
        false_and, true_and, decide_true, decide_false, Bool.or_true, Bool.or_false, Bool.true_or,
        and_self, Option.some.injEq, exists_eq_left']
      refine ⟨by decide, by simp, ⟨by decide, ?_, ?_⟩, ⟨by decide, ?_, ?_⟩, ?_, ?_, ?_, by decide, ?_⟩
      all_goals
        first
        | (intro f hf
           obtain ⟨f4, f1, f2⟩ := hf
           interval_cases f <;> simp_all [ifar])
        | simp [ifar, oth, R4, List.find?, n1, n2, n3, n4, n5, n6, m1, m2, m3, m4, m5, m6]

/-- A face through the edge has the two ends and the vertex opposite to the other face. -/
theorem face_thru {v : List Nat} {na nb f : Nat} (h : Has v na nb) (hf : Thru v na nb f) :
    faceTri 0 v f = {na, nb, v.getD (oth v na nb f) 0} ∧ Thru v na nb (oth v na nb f) ∧
      oth v na nb (oth v na nb f) = f ∧ oth v na nb f ≠ f := by
  obtain ⟨i, _, hi, he, t1, t2, o1, o2, hall, hd, _⟩ := findEdge_spec h
  have key : ∀ f g, f < 4 → g < 4 → f ≠ g → Thru v na nb f → Thru v na nb g →
      faceTri 0 v f = {na, nb, v.getD g 0} := by
    intro f g hf4 hg4 hfg hf hg
    obtain ⟨hl, hnd, hne, ha, hb⟩ := h
    obtain ⟨_, f1, f2⟩ := hf
    obtain ⟨_, g1, g2⟩ := hg
    match v, hl with
    | [a, b, c, d], _ =>
      obtain ⟨⟨n1, n2, n3, n4, n5, n6⟩, m1, m2, m3, m4, m5, m6⟩ := nodup4 hnd
      simp only [List.mem_cons, List.not_mem_nil, or_false] at ha hb
      interval_cases f <;> interval_cases g <;> first | exact absurd rfl hfg | skip
      all_goals
        simp only [List.getD_cons_zero, List.getD_cons_succ] at f1 f2 g1 g2
        simp only [Ne.symm f1, Ne.symm f2, Ne.symm g1, Ne.symm g2, false_or, or_false] at ha hb
        rcases ha with rfl | rfl <;> rcases hb with rfl | rfl <;>
          first | exact absurd rfl hne | skip
        all_goals
          simp only [faceTri, others, List.getD_cons_zero, List.getD_cons_succ, List.map_cons,
            List.map_nil, Multiset.insert_eq_cons, ← Multiset.singleton_add,
            ← Multiset.coe_singleton, Multiset.coe_add]
          rw [Multiset.coe_eq_coe, List.perm_iff_count]
          intro x
          simp only [List.count_cons, List.count_nil, List.cons_append, List.nil_append]
          all_goals omega
  rcases hall f hf with rfl | rfl
  · rw [o1]; exact ⟨key _ _ t1.1 t2.1 hd t1 t2, t2, o2, hd.symm⟩
  · rw [o2]; exact ⟨key _ _ t2.1 t1.1 hd.symm t2 t1, t1, o1, hd⟩

/-! ### Darts -/

section
variable {A : Nat → Nat} {V : Nat → List Nat} {used : Nat → Prop} {na nb : Nat}

/-- Valid mesh: symmetric conforming links, four different vertices. -/
structure Mesh (A : Nat → Nat) (V : Nat → List Nat) (used : Nat → Prop) : Prop where
  adj : AdjOK A V used
  len : ∀ k, used k → (V k).length = 4
  nd : ∀ k, used k → (V k).Nodup

/-- A dart: a tetrahedron around the edge and the face by which it is left. -/
structure Dart (V : Nat → List Nat) (used : Nat → Prop) (na nb : Nat) (d : Nat × Nat) : Prop where
  used : used d.1
  has : Has (V d.1) na nb
  thru : Thru (V d.1) na nb d.2

/-- Go through the face, and to the other face of the neighbour. -/
def nxt (A : Nat → Nat) (V : Nat → List Nat) (na nb : Nat) (d : Nat × Nat) : Nat × Nat :=
  (link A d.1 d.2 / 4, oth (V (link A d.1 d.2 / 4)) na nb (link A d.1 d.2 % 4))

/-- The same tetrahedron, to be left by the other face. -/
def rev (V : Nat → List Nat) (na nb : Nat) (d : Nat × Nat) : Nat × Nat :=
  (d.1, oth (V d.1) na nb d.2)

theorem Dart.rv {d : Nat × Nat} (h : Dart V used na nb d) :
    Dart V used na nb (rev V na nb d) ∧ rev V na nb (rev V na nb d) = d ∧ rev V na nb d ≠ d := by
  obtain ⟨_, h2, h3, h4⟩ := face_thru h.has h.thru
  refine ⟨⟨h.used, h.has, h2⟩, ?_, ?_⟩
  · simp only [rev, h3]
  · intro e
    exact h4 (congrArg Prod.snd e)

/-- Crossing a face. -/
theorem Dart.cross (hm : Mesh A V used) {d : Nat × Nat} (h : Dart V used na nb d)
    (hl : link A d.1 d.2 ≠ 0) :
    used (link A d.1 d.2 / 4) ∧ Has (V (link A d.1 d.2 / 4)) na nb ∧
    Thru (V (link A d.1 d.2 / 4)) na nb (link A d.1 d.2 % 4) ∧ link A d.1 d.2 / 4 ≠ d.1 ∧
    (V d.1).getD (oth (V d.1) na nb d.2) 0 =
      (V (nxt A V na nb d).1).getD (nxt A V na nb d).2 0 := by
  obtain ⟨hu, hself, _, hf⟩ := hm.adj.ok d.1 h.used d.2 h.thru.1 hl
  obtain ⟨e1, _⟩ := face_thru h.has h.thru
  have hlen := hm.len _ hu
  have hnd := hm.nd _ hu
  have hmod : link A d.1 d.2 % 4 < 4 := Nat.mod_lt _ (by decide)
  rw [e1] at hf
  have ma : na ∈ faceTri 0 (V (link A d.1 d.2 / 4)) (link A d.1 d.2 % 4) := by rw [hf]; simp
  have mb : nb ∈ faceTri 0 (V (link A d.1 d.2 / 4)) (link A d.1 d.2 % 4) := by rw [hf]; simp
  have hhas : Has (V (link A d.1 d.2 / 4)) na nb :=
    ⟨hlen, hnd, h.has.ne, mem_of_face hlen hmod ma, mem_of_face hlen hmod mb⟩
  have hdis : ∀ x, x ∈ faceTri 0 (V (link A d.1 d.2 / 4)) (link A d.1 d.2 % 4) →
      (V (link A d.1 d.2 / 4)).getD (link A d.1 d.2 % 4) 0 ≠ x := by
    generalize link A d.1 d.2 % 4 = f at hmod
    generalize V (link A d.1 d.2 / 4) = v at hlen hnd
    intro x hx
    match v, hlen with
    | [a, b, c, e], _ =>
      obtain ⟨⟨n1, n2, n3, n4, n5, n6⟩, m1, m2, m3, m4, m5, m6⟩ := nodup4 hnd
      interval_cases f <;> simp [faceTri, others] at hx ⊢ <;>
        rcases hx with rfl | rfl | rfl <;> assumption
  have hthru : Thru (V (link A d.1 d.2 / 4)) na nb (link A d.1 d.2 % 4) :=
    ⟨hmod, hdis na ma, hdis nb mb⟩
  refine ⟨hu, hhas, hthru, hself, ?_⟩
  obtain ⟨e2, _⟩ := face_thru hhas hthru
  rw [e2] at hf
  simp only [Multiset.insert_eq_cons, Multiset.cons_inj_right, Multiset.singleton_inj] at hf
  exact hf.symm

theorem Dart.nx (hm : Mesh A V used) {d : Nat × Nat} (h : Dart V used na nb d)
    (hl : link A d.1 d.2 ≠ 0) :
    Dart V used na nb (nxt A V na nb d) ∧ (nxt A V na nb d).1 ≠ d.1 ∧
    link A (rev V na nb (nxt A V na nb d)).1 (rev V na nb (nxt A V na nb d)).2 ≠ 0 ∧
    nxt A V na nb (rev V na nb (nxt A V na nb d)) = rev V na nb d := by
  obtain ⟨hu, hhas, hthru, hself, _⟩ := h.cross hm hl
  obtain ⟨_, h2, h3, _⟩ := face_thru hhas hthru
  obtain ⟨_, _, hsym, _⟩ := hm.adj.ok d.1 h.used d.2 h.thru.1 hl
  have hp := hm.adj.pos _ h.used
  have hd4 := h.thru.1
  have e : rev V na nb (nxt A V na nb d) = (link A d.1 d.2 / 4, link A d.1 d.2 % 4) := by
    simp only [rev, nxt, h3]
  refine ⟨⟨hu, hhas, h2⟩, hself, ?_, ?_⟩
  · rw [e]
    simp only [hsym]
    omega
  · rw [e]
    simp only [nxt, rev, hsym]
    have e1 : (4 * d.1 + d.2) / 4 = d.1 := by omega
    have e2 : (4 * d.1 + d.2) % 4 = d.2 := by omega
    rw [e1, e2]

/-- The sequence of darts from `d`. -/
def seq (A : Nat → Nat) (V : Nat → List Nat) (na nb : Nat) (d : Nat × Nat) : Nat → Nat × Nat
  | 0 => d
  | n + 1 => nxt A V na nb (seq A V na nb d n)

/-- The first `n` faces lead to a neighbour. -/
def Alive (A : Nat → Nat) (V : Nat → List Nat) (na nb : Nat) (d : Nat × Nat) (n : Nat) : Prop :=
  ∀ i < n, link A (seq A V na nb d i).1 (seq A V na nb d i).2 ≠ 0

theorem seq_dart (hm : Mesh A V used) {d : Nat × Nat} (h : Dart V used na nb d) {n : Nat}
    (ha : Alive A V na nb d n) : ∀ i ≤ n, Dart V used na nb (seq A V na nb d i)
  | 0, _ => h
  | i + 1, hi => ((seq_dart hm h ha i (by omega)).nx hm (ha i (by omega))).1

theorem nxt_inj (hm : Mesh A V used) {d e : Nat × Nat} (hd : Dart V used na nb d)
    (he : Dart V used na nb e) (ld : link A d.1 d.2 ≠ 0) (le : link A e.1 e.2 ≠ 0)
    (h : nxt A V na nb d = nxt A V na nb e) : d = e := by
  have h1 := (hd.nx hm ld).2.2.2
  have h2 := (he.nx hm le).2.2.2
  rw [h, h2] at h1
  have := congrArg (rev V na nb) h1
  rw [hd.rv.2.1, he.rv.2.1] at this
  exact this.symm

/-- The sequence never comes to a tetrahedron in the opposite direction. -/
theorem seq_no_rev (hm : Mesh A V used) {d : Nat × Nat} (h : Dart V used na nb d) {n : Nat}
    (ha : Alive A V na nb d n) : ∀ g i, i + g ≤ n →
      seq A V na nb d (i + g) ≠ rev V na nb (seq A V na nb d i) := by
  intro g
  induction g using Nat.strong_induction_on with
  | _ g ih =>
    intro i hi he
    have hdi := seq_dart hm h ha i (by omega)
    match g with
    | 0 => exact hdi.rv.2.2 he.symm
    | 1 =>
      have := ((hdi.nx hm (ha i (by omega))).2.1)
      apply this
      have h1 : seq A V na nb d (i + 1) = nxt A V na nb (seq A V na nb d i) := rfl
      rw [← h1, he]
      rfl
    | g + 2 =>
      refine ih g (by omega) (i + 1) (by omega) ?_
      have hl := seq_dart hm h ha (i + g + 1) (by omega)
      have hn := hl.nx hm (ha (i + g + 1) (by omega))
      have e1 : nxt A V na nb (seq A V na nb d (i + g + 1)) = seq A V na nb d (i + (g + 2)) := rfl
      rw [e1, he, hdi.rv.2.1] at hn
      have h3 := hn.2.2.2
      have e2 : nxt A V na nb (seq A V na nb d i) = seq A V na nb d (i + 1) := rfl
      rw [e2] at h3
      rw [h3, hl.rv.2.1]
      congr 1
      omega

/-- A tetrahedron met twice brings the sequence back to its first dart. -/
theorem seq_back (hm : Mesh A V used) {d : Nat × Nat} (h : Dart V used na nb d) {n : Nat}
    (ha : Alive A V na nb d n) : ∀ i g, i + g ≤ n →
      (seq A V na nb d i).1 = (seq A V na nb d (i + g)).1 → seq A V na nb d g = d := by
  intro i
  induction i with
  | zero =>
    intro g hg he
    have hdg := seq_dart hm h ha g (by omega)
    rw [Nat.zero_add] at he
    obtain ⟨i, _, _, _, _, _, o1, o2, hall, _⟩ := findEdge_spec h.has
    have hno := seq_no_rev hm h ha g 0 (by omega)
    rw [Nat.zero_add] at hno
    have ht : Thru (V d.1) na nb (seq A V na nb d g).2 := by
      have := hdg.thru
      rwa [← he] at this
    have e0 : seq A V na nb d 0 = d := rfl
    rw [e0] at he hno
    by_contra hcon
    apply hno
    refine Prod.ext he.symm ?_
    have h2 : (seq A V na nb d g).2 ≠ d.2 := fun e => hcon (Prod.ext he.symm e)
    simp only [rev]
    rcases hall _ h.thru with e | e <;> rcases hall _ ht with e' | e'
    · exact absurd (e'.trans e.symm) h2
    · rw [e, o1, e']
    · rw [e, o2, e']
    · exact absurd (e'.trans e.symm) h2
  | succ i ih =>
    intro g hg he
    have hd1 := seq_dart hm h ha (i + 1) (by omega)
    have hd2 := seq_dart hm h ha (i + 1 + g) (by omega)
    have hne : seq A V na nb d (i + 1 + g) ≠ rev V na nb (seq A V na nb d (i + 1)) :=
      seq_no_rev hm h ha g (i + 1) hg
    have heq : seq A V na nb d (i + 1) = seq A V na nb d (i + 1 + g) := by
      obtain ⟨j, _, _, _, _, _, o1, o2, hall, _⟩ := findEdge_spec hd1.has
      have ht : Thru (V (seq A V na nb d (i + 1)).1) na nb (seq A V na nb d (i + 1 + g)).2 := by
        have := hd2.thru
        rwa [← he] at this
      by_contra hcon
      apply hne
      refine Prod.ext he.symm ?_
      have h2 : (seq A V na nb d (i + 1 + g)).2 ≠ (seq A V na nb d (i + 1)).2 :=
        fun e => hcon (Prod.ext he e.symm)
      simp only [rev]
      rcases hall _ hd1.thru with e | e <;> rcases hall _ ht with e' | e'
      · exact absurd (e'.trans e.symm) h2
      · rw [e, o1, e']
      · rw [e, o2, e']
      · exact absurd (e'.trans e.symm) h2
    have e1 : seq A V na nb d (i + 1) = nxt A V na nb (seq A V na nb d i) := rfl
    have e2 : seq A V na nb d (i + 1 + g) = nxt A V na nb (seq A V na nb d (i + g)) := by
      rw [show i + 1 + g = i + g + 1 by omega]; rfl
    rw [e1, e2] at heq
    have := nxt_inj hm (seq_dart hm h ha i (by omega)) (seq_dart hm h ha (i + g) (by omega))
      (ha i (by omega)) (ha (i + g) (by omega)) heq
    exact ih g (by omega) (congrArg Prod.fst this)

/-! ### Chains -/

/-- Two tetrahedra that share a face through the edge. -/
def Nbr (A : Nat → Nat) (V : Nat → List Nat) (na nb k k' : Nat) : Prop :=
  ∃ f, Thru (V k) na nb f ∧ link A k f ≠ 0 ∧ k' = link A k f / 4

/-- A complete turn, or a path from one boundary face to another. -/
structure Chain (A : Nat → Nat) (V : Nat → List Nat) (used : Nat → Prop) (na nb : Nat)
    (c : Nat × Nat) (n : Nat) (cl : Bool) : Prop where
  dart : Dart V used na nb c
  alive : Alive A V na nb c n
  closed : cl = true → link A (seq A V na nb c n).1 (seq A V na nb c n).2 ≠ 0 ∧
    seq A V na nb c (n + 1) = c ∧ ∀ i, 1 ≤ i → i ≤ n → (seq A V na nb c i).1 ≠ c.1
  opened : cl = false → link A (seq A V na nb c n).1 (seq A V na nb c n).2 = 0 ∧
    link A (rev V na nb c).1 (rev V na nb c).2 = 0

theorem Chain.inj (hm : Mesh A V used) {c : Nat × Nat} {n : Nat} {cl : Bool}
    (h : Chain A V used na nb c n cl) : ∀ i j, i ≤ n → j ≤ n →
      (seq A V na nb c i).1 = (seq A V na nb c j).1 → i = j := by
  have key : ∀ i g, i + (g + 1) ≤ n →
      (seq A V na nb c i).1 ≠ (seq A V na nb c (i + (g + 1))).1 := by
    intro i g hg he
    have hb := seq_back hm h.dart h.alive i (g + 1) hg he
    cases cl with
    | true => exact (h.closed rfl).2.2 (g + 1) (by omega) (by omega) (by rw [hb])
    | false =>
      have hd := seq_dart hm h.dart h.alive g (by omega)
      have := (hd.nx hm (h.alive g (by omega))).2.2.1
      have e : nxt A V na nb (seq A V na nb c g) = c := hb
      rw [e] at this
      exact this (h.opened rfl).2
  intro i j hi hj he
  rcases Nat.lt_trichotomy i j with hlt | rfl | hlt
  · have := key i (j - i - 1) (by omega)
    rw [show i + (j - i - 1 + 1) = j by omega] at this
    exact absurd he this
  · rfl
  · have := key j (i - j - 1) (by omega)
    rw [show j + (i - j - 1 + 1) = i by omega] at this
    exact absurd he.symm this

/-- The faces through the edge of a tetrahedron. -/
theorem Dart.faces {d : Nat × Nat} (h : Dart V used na nb d) {f : Nat}
    (hf : Thru (V d.1) na nb f) : f = d.2 ∨ f = oth (V d.1) na nb d.2 := by
  obtain ⟨i, _, _, _, _, _, o1, o2, hall, _⟩ := findEdge_spec h.has
  rcases hall _ h.thru with e | e <;> rcases hall _ hf with e' | e'
  · left; rw [e, e']
  · right; rw [e, o1, e']
  · right; rw [e, o2, e']
  · left; rw [e, e']

theorem seq_path (hm : Mesh A V used) {c : Nat × Nat} (h : Dart V used na nb c) {n : Nat}
    (ha : Alive A V na nb c n) : ∀ i g, i + g ≤ n →
      Relation.ReflTransGen (Nbr A V na nb) (seq A V na nb c i).1 (seq A V na nb c (i + g)).1 ∧
      Relation.ReflTransGen (Nbr A V na nb) (seq A V na nb c (i + g)).1 (seq A V na nb c i).1 := by
  intro i g
  induction g with
  | zero => intro _; exact ⟨.refl, .refl⟩
  | succ g ih =>
    intro hg
    obtain ⟨h1, h2⟩ := ih (by omega)
    have hd := seq_dart hm h ha (i + g) (by omega)
    have hl := ha (i + g) (by omega)
    have hn := hd.nx hm hl
    have e : seq A V na nb c (i + (g + 1)) = nxt A V na nb (seq A V na nb c (i + g)) := rfl
    rw [← e] at hn
    refine ⟨h1.tail ⟨_, hd.thru, hl, rfl⟩, .head ?_ h2⟩
    refine ⟨_, hn.1.rv.1.thru, hn.2.2.1, ?_⟩
    have := congrArg Prod.fst hn.2.2.2
    exact this.symm

/-- The tetrahedra of a chain are the ones reached from any of them. -/
theorem Chain.reach (hm : Mesh A V used) {c : Nat × Nat} {n : Nat} {cl : Bool}
    (h : Chain A V used na nb c n cl) {i : Nat} (hi : i ≤ n) (k : Nat) :
    Relation.ReflTransGen (Nbr A V na nb) (seq A V na nb c i).1 k ↔
      ∃ j ≤ n, (seq A V na nb c j).1 = k := by
  constructor
  · intro hr
    induction hr with
    | refl => exact ⟨i, hi, rfl⟩
    | tail _ hs ih =>
      obtain ⟨j, hj, rfl⟩ := ih
      obtain ⟨f, hf, hl, rfl⟩ := hs
      have hd := seq_dart hm h.dart h.alive j hj
      rcases hd.faces hf with rfl | rfl
      · by_cases hjn : j < n
        · exact ⟨j + 1, by omega, rfl⟩
        · have hjn : j = n := by omega
          subst hjn
          cases cl with
          | true =>
            refine ⟨0, by omega, ?_⟩
            have := (h.closed rfl).2.1
            exact (congrArg Prod.fst this).symm
          | false => exact absurd (h.opened rfl).1 hl
      · match j with
        | j + 1 =>
          have hd' := seq_dart hm h.dart h.alive j (by omega)
          have := (hd'.nx hm (h.alive j (by omega))).2.2.2
          exact ⟨j, by omega, (congrArg Prod.fst this).symm⟩
        | 0 =>
          cases cl with
          | true =>
            have hd' := seq_dart hm h.dart h.alive n (by omega)
            have hc := h.closed rfl
            have := (hd'.nx hm hc.1).2.2.2
            have e : nxt A V na nb (seq A V na nb c n) = c := hc.2.1
            rw [e] at this
            exact ⟨n, by omega, (congrArg Prod.fst this).symm⟩
          | false => exact absurd (h.opened rfl).2 hl
  · rintro ⟨j, hj, rfl⟩
    rcases Nat.le_total i j with hij | hij
    · have := (seq_path hm h.dart h.alive i (j - i) (by omega)).1
      rwa [show i + (j - i) = j by omega] at this
    · have := (seq_path hm h.dart h.alive j (i - j) (by omega)).2
      rwa [show j + (i - j) = i by omega] at this

/-- Every face of a chain is the way out of one of its darts, or the way out of the reverse of the
first dart of an open chain, or the other side of a way out. -/
theorem Chain.face (hm : Mesh A V used) {c : Nat × Nat} {n : Nat} {cl : Bool}
    (h : Chain A V used na nb c n cl) {j : Nat} (hj : j ≤ n) {f : Nat}
    (hf : Thru (V (seq A V na nb c j).1) na nb f) :
    f = (seq A V na nb c j).2 ∨
    (cl = false ∧ j = 0 ∧ f = (rev V na nb c).2) ∨
    (∃ i ≤ n, link A (seq A V na nb c i).1 (seq A V na nb c i).2 =
        4 * (seq A V na nb c j).1 + f ∧
      link A (seq A V na nb c j).1 f = 4 * (seq A V na nb c i).1 + (seq A V na nb c i).2) := by
  have hd := seq_dart hm h.dart h.alive j hj
  rcases hd.faces hf with e | e
  · exact .inl e
  · have back : ∀ i, i ≤ n → link A (seq A V na nb c i).1 (seq A V na nb c i).2 ≠ 0 →
        nxt A V na nb (seq A V na nb c i) = seq A V na nb c j →
        link A (seq A V na nb c i).1 (seq A V na nb c i).2 = 4 * (seq A V na nb c j).1 + f ∧
        link A (seq A V na nb c j).1 f =
          4 * (seq A V na nb c i).1 + (seq A V na nb c i).2 := by
      intro i hi hl hn
      have hdi := seq_dart hm h.dart h.alive i hi
      obtain ⟨_, hhas, hthru, _, _⟩ := hdi.cross hm hl
      obtain ⟨_, _, hsym, _⟩ := hm.adj.ok _ hdi.used _ hdi.thru.1 hl
      have e3 : oth (V (seq A V na nb c j).1) na nb (seq A V na nb c j).2 =
          link A (seq A V na nb c i).1 (seq A V na nb c i).2 % 4 := by
        rw [← hn]
        exact (face_thru hhas hthru).2.2.1
      have e4 : (seq A V na nb c j).1 =
          link A (seq A V na nb c i).1 (seq A V na nb c i).2 / 4 := by rw [← hn]; rfl
      rw [e, e3, e4, hsym]
      constructor
      · omega
      · rfl
    match j with
    | j + 1 =>
      right; right
      exact ⟨j, by omega, back j (by omega) (h.alive j (by omega)) rfl⟩
    | 0 =>
      cases cl with
      | true =>
        have hc := h.closed rfl
        right; right
        exact ⟨n, le_rfl, back n le_rfl hc.1 hc.2.1⟩
      | false => exact .inr (.inl ⟨rfl, rfl, e⟩)

/-- Going back. -/
theorem seq_rev (hm : Mesh A V used) {d : Nat × Nat} (h : Dart V used na nb d) {n : Nat}
    (ha : Alive A V na nb d n) : ∀ j ≤ n,
      seq A V na nb (rev V na nb (seq A V na nb d n)) j = rev V na nb (seq A V na nb d (n - j)) ∧
      (j < n → link A (rev V na nb (seq A V na nb d (n - j))).1
        (rev V na nb (seq A V na nb d (n - j))).2 ≠ 0) := by
  have back : ∀ i < n, link A (rev V na nb (seq A V na nb d (i + 1))).1
        (rev V na nb (seq A V na nb d (i + 1))).2 ≠ 0 ∧
      nxt A V na nb (rev V na nb (seq A V na nb d (i + 1))) = rev V na nb (seq A V na nb d i) := by
    intro i hi
    have hdi := seq_dart hm h ha i (by omega)
    have := hdi.nx hm (ha i hi)
    exact ⟨this.2.2.1, this.2.2.2⟩
  intro j
  induction j with
  | zero =>
    intro _
    refine ⟨rfl, fun hj => ?_⟩
    have := (back (n - 1) (by omega)).1
    rwa [show n - 1 + 1 = n - 0 by omega] at this
  | succ j ih =>
    intro hj
    constructor
    · have e : seq A V na nb (rev V na nb (seq A V na nb d n)) (j + 1) =
          nxt A V na nb (seq A V na nb (rev V na nb (seq A V na nb d n)) j) := rfl
      rw [e, (ih (by omega)).1, show n - j = n - (j + 1) + 1 by omega]
      exact (back _ (by omega)).2
    · intro hj'
      have := (back (n - (j + 1) - 1) (by omega)).1
      rwa [show n - (j + 1) - 1 + 1 = n - (j + 1) by omega] at this

theorem seq_add (d : Nat × Nat) (i j : Nat) :
    seq A V na nb d (i + j) = seq A V na nb (seq A V na nb d i) j := by
  induction j with
  | zero => rfl
  | succ j ih =>
    have e : seq A V na nb d (i + (j + 1)) = nxt A V na nb (seq A V na nb d (i + j)) := rfl
    rw [e, ih]; rfl

/-- Two paths from the two faces of a tetrahedron to the boundary make an open chain. -/
theorem chain_two (hm : Mesh A V used) {d : Nat × Nat} (h : Dart V used na nb d) {n p : Nat}
    (ha : Alive A V na nb d n)
    (h0 : link A (seq A V na nb d n).1 (seq A V na nb d n).2 = 0)
    (hb : Alive A V na nb (rev V na nb d) p)
    (h1 : link A (seq A V na nb (rev V na nb d) p).1 (seq A V na nb (rev V na nb d) p).2 = 0) :
    Chain A V used na nb (rev V na nb (seq A V na nb (rev V na nb d) p)) (p + n) false ∧
    (∀ j ≤ p, seq A V na nb (rev V na nb (seq A V na nb (rev V na nb d) p)) j =
      rev V na nb (seq A V na nb (rev V na nb d) (p - j))) ∧
    (∀ j, seq A V na nb (rev V na nb (seq A V na nb (rev V na nb d) p)) (p + j) =
      seq A V na nb d j) := by
  have hr := h.rv.1
  have hdp := seq_dart hm hr hb p le_rfl
  have hs := seq_rev hm hr hb
  have h2 : ∀ j, seq A V na nb (rev V na nb (seq A V na nb (rev V na nb d) p)) (p + j) =
      seq A V na nb d j := by
    intro j
    have e0 : seq A V na nb (rev V na nb d) 0 = rev V na nb d := rfl
    rw [seq_add, (hs p le_rfl).1, Nat.sub_self, e0, h.rv.2.1]
  refine ⟨⟨hdp.rv.1, ?_, by simp, fun _ => ⟨?_, ?_⟩⟩, fun j hj => (hs j hj).1, h2⟩
  · intro i hi
    by_cases hip : i < p
    · rw [(hs i (by omega)).1]
      exact (hs i (by omega)).2 hip
    · have := ha (i - p) (by omega)
      rw [← h2 (i - p)] at this
      rwa [show p + (i - p) = i by omega] at this
  · rw [h2]; exact h0
  · rw [hdp.rv.2.1]; exact h1

/-- A path that comes back to its first tetrahedron makes a closed chain. -/
theorem chain_one (hm : Mesh A V used) {d : Nat × Nat} (h : Dart V used na nb d) {n : Nat}
    (ha : Alive A V na nb d (n + 1)) (hne : ∀ i, 1 ≤ i → i ≤ n → (seq A V na nb d i).1 ≠ d.1)
    (hs : (seq A V na nb d (n + 1)).1 = d.1) : Chain A V used na nb d n true := by
  refine ⟨h, fun i hi => ha i (by omega), fun _ => ⟨ha n (by omega), ?_, hne⟩, by simp⟩
  have := seq_back hm h ha 0 (n + 1) (by omega)
  rw [Nat.zero_add] at this
  exact this hs.symm

/-! ### One step of the loops -/

theorem step_ok (hm : Mesh A V used) {d : Nat × Nat} (h : Dart V used na nb d)
    (hl : link A d.1 d.2 ≠ 0) :
    ∃ i, findEdge (V (nxt A V na nb d).1) na nb = some i ∧ i < 6 ∧
      (((V (nxt A V na nb d).1).getD (ifar i).1 0 = (V d.1).getD (oth (V d.1) na nb d.2) 0 ∧
        (nxt A V na nb d).2 = (ifar i).1 ∧
        oth (V (nxt A V na nb d).1) na nb (nxt A V na nb d).2 = (ifar i).2) ∨
       ((V (nxt A V na nb d).1).getD (ifar i).1 0 ≠ (V d.1).getD (oth (V d.1) na nb d.2) 0 ∧
        (V (nxt A V na nb d).1).getD (ifar i).2 0 = (V d.1).getD (oth (V d.1) na nb d.2) 0 ∧
        (nxt A V na nb d).2 = (ifar i).2 ∧
        oth (V (nxt A V na nb d).1) na nb (nxt A V na nb d).2 = (ifar i).1)) := by
  have hn := (h.nx hm hl).1
  obtain ⟨i, hi, h6, _, _, _, o1, o2, hall, _, hdif⟩ := findEdge_spec hn.has
  have hp := (h.cross hm hl).2.2.2.2
  refine ⟨i, hi, h6, ?_⟩
  rw [hp]
  rcases hall _ hn.thru with e | e
  · left
    rw [e]
    exact ⟨rfl, rfl, o1⟩
  · right
    rw [e]
    exact ⟨hdif, rfl, rfl, o2⟩

theorem link_zero (hm : Mesh A V used) {d : Nat × Nat} (h : Dart V used na nb d) :
    link A d.1 d.2 / 4 = 0 ↔ link A d.1 d.2 = 0 := by
  constructor
  · intro hz
    by_contra hl
    have hu := (hm.adj.ok _ h.used _ h.thru.1 hl).1
    have := hm.adj.pos _ hu
    omega
  · intro hz; rw [hz]

/-- The vertex shared with the next tetrahedron. -/
abbrev pivot (V : Nat → List Nat) (na nb : Nat) (d : Nat × Nat) : Nat :=
  (V d.1).getD (oth (V d.1) na nb d.2) 0

/-- Number of the edge in a tetrahedron. -/
def edgeOf (V : Nat → List Nat) (na nb k : Nat) : Nat := (findEdge (V k) na nb).getD 0

/-- Entry of the list for a dart. -/
def entry (V : Nat → List Nat) (na nb : Nat) (d : Nat × Nat) : Nat := 6 * d.1 + edgeOf V na nb d.1

theorem Dart.edge {d : Nat × Nat} (h : Dart V used na nb d) :
    edgeOf V na nb d.1 < 6 ∧
    (ends (V d.1) (edgeOf V na nb d.1) = (na, nb) ∨ ends (V d.1) (edgeOf V na nb d.1) = (nb, na)) ∧
    entry V na nb d / 6 = d.1 ∧ entry V na nb d % 6 = edgeOf V na nb d.1 := by
  obtain ⟨i, hi, h6, he, _⟩ := findEdge_spec h.has
  have e : edgeOf V na nb d.1 = i := by simp [edgeOf, hi]
  unfold entry
  rw [e]
  refine ⟨h6, he, ?_, ?_⟩ <;> omega

end

/-- The edge of the starting tetrahedron. -/
theorem start_edge {v : List Nat} {ia : Nat} (hl : v.length = 4) (hnd : v.Nodup) (hia : ia < 6) :
    Has v (ends v ia).1 (ends v ia).2 ∧ findEdge v (ends v ia).1 (ends v ia).2 = some ia := by
  match v, hl with
  | [a, b, c, d], _ =>
    obtain ⟨⟨n1, n2, n3, n4, n5, n6⟩, m1, m2, m3, m4, m5, m6⟩ := nodup4 hnd
    have R6 : List.range 6 = [0, 1, 2, 3, 4, 5] := rfl
    interval_cases ia
    all_goals
      refine ⟨⟨rfl, hnd, ?_, ?_, ?_⟩, ?_⟩ <;>
      simp [ends, iare, findEdge, R6, List.find?, n1, n2, n3, n4, n5, n6, m1, m2, m3, m4, m5, m6]

end Mmg.Shell
