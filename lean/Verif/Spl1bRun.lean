/-
  The loop of the split of an edge (`Spl1bModel`): what is known of vertices and links after some rounds, and the mesh
  after the last one.
-/
import Verif.Spl1bAdj

namespace Mmg.Spl1b

open Mmg.Split3 Mmg.Swap23 Mmg.Shell

variable {I : In} {A : Nat → Nat} {V : Nat → List Nat} {used : Nat → Prop} {na nb : Nat}

/-- Links after `j` rounds. -/
structure InvA (I : In) (sg : Nat → Bool) (A0 : Nat → Nat) (used : Nat → Prop) (j : Nat) (A : Nat → Nat) : Prop where
  done : ∀ k < j, link A (I.iel k) (I.t k 0) = 4 * I.new k + I.t k 1 ∧
    link A (I.new k) (I.t k 1) = 4 * I.iel k + I.t k 0 ∧
    link A (I.iel k) (I.t k 1) = link A0 (I.iel k) (I.t k 1) ∧
    link A (I.new k) (I.t k 0) = link A0 (I.iel k) (I.t k 0) ∧
    ∀ f, f = I.t k 2 ∨ f = I.t k 3 → Half I sg A0 k f (link A (I.iel k) f) (link A (I.new k) f)
  todo : ∀ k, j ≤ k → k < I.n → ∀ i < 4, link A (I.iel k) i = link A0 (I.iel k) i
  rest : ∀ e, used e → (∀ k < I.n, e ≠ I.iel k) → ∀ i < 4,
    (∀ k < j, link A0 e i = 4 * I.iel k + I.t k 0 → link A e i = 4 * I.new k + I.t k 0) ∧
    ((∀ k < j, link A0 e i ≠ 4 * I.iel k + I.t k 0) → link A e i = link A0 e i)

theorem link_inner {B : Nat → Nat} {k : Nat} (h1 : 1 ≤ I.iel k) (h2 : 1 ≤ I.new k) (h0 : I.t k 0 < 4)
    (h1' : I.t k 1 < 4) {a : Nat} (ha : link B (I.iel k) (I.t k 0) = a) (ha4 : a ≠ 0 → 1 ≤ a / 4) {e i : Nat} (he : 1 ≤ e)
    (hi : i < 4) :
    link (inner I k B) e i =
      if a ≠ 0 ∧ e = a / 4 ∧ i = a % 4 then 4 * I.new k + I.t k 0
      else if e = I.new k ∧ i = I.t k 1 then 4 * I.iel k + I.t k 0
      else if e = I.new k ∧ i = I.t k 0 then a
      else if e = I.iel k ∧ i = I.t k 0 then 4 * I.new k + I.t k 1 else link B e i := by
  unfold inner
  simp only [ha]
  rw [link_back ha4 he hi, link_set h2 he h1' hi, link_set h2 he h0 hi, link_set h1 he h0 hi]

theorem Pre.step_A (H : Pre I A V used na nb) {sg : Nat → Bool} {j : Nat} (hj : j < I.n) {B : Nat → Nat}
    (hB : InvA I sg A used j B) :
    ∃ B', around I sg j B = some B' ∧ InvA I sg A used (j + 1) (inner I j B') := by
  obtain ⟨B', he, hh, hrest⟩ := H.around_ok hj sg (hB.todo j le_rfl hj)
  refine ⟨B', he, ?_⟩
  have T := H.tet hj
  have a0 := T.perm.lt 0 (by decide)
  have a1 := T.perm.lt 1 (by decide)
  have b01 : I.t j 0 ≠ I.t j 1 := fun e => absurd (T.perm.inj 0 (by decide) 1 (by decide) e) (by decide)
  have b02 : I.t j 0 ≠ I.t j 2 := fun e => absurd (T.perm.inj 0 (by decide) 2 (by decide) e) (by decide)
  have b03 : I.t j 0 ≠ I.t j 3 := fun e => absurd (T.perm.inj 0 (by decide) 3 (by decide) e) (by decide)
  have b12 : I.t j 1 ≠ I.t j 2 := fun e => absurd (T.perm.inj 1 (by decide) 2 (by decide) e) (by decide)
  have b13 : I.t j 1 ≠ I.t j 3 := fun e => absurd (T.perm.inj 1 (by decide) 3 (by decide) e) (by decide)
  have p1 := H.iel_pos hj
  have p2 := H.fresh.pos j hj
  have hne := H.iel_new hj hj
  have hout := fun h0 m hm => H.outside (f := I.t j 0) hj (.inl rfl) h0 (m := m) hm
  have ha : link B' (I.iel j) (I.t j 0) = link A (I.iel j) (I.t j 0) := by
    rw [hrest _ _ p1 a0 (fun _ => ⟨b02, b03⟩), hB.todo j le_rfl hj _ a0]
  have ha1 : link B' (I.iel j) (I.t j 1) = link A (I.iel j) (I.t j 1) := by
    rw [hrest _ _ p1 a1 (fun _ => ⟨b12, b13⟩), hB.todo j le_rfl hj _ a1]
  have hok := H.mesh.adj.ok _ T.us _ a0
  generalize hA0 : link A (I.iel j) (I.t j 0) = a at *
  have hau : a ≠ 0 → used (a / 4) := fun h => (hok h).1
  have ha4 : a ≠ 0 → 1 ≤ a / 4 := fun h => H.mesh.adj.pos _ (hau h)
  have hL : ∀ e i, 1 ≤ e → i < 4 → link (inner I j B') e i = _ := fun e i he hi =>
    link_inner (B := B') p1 p2 a0 a1 ha ha4 he hi
  -- tetrahedra of the shell are not reached by the back link
  have nb1 : ∀ m < I.n, ∀ i, ¬ (a ≠ 0 ∧ I.iel m = a / 4 ∧ i = a % 4) := fun m hm i h => hout h.1 m hm h.2.1.symm
  have nb2 : ∀ m < I.n, ∀ i, ¬ (a ≠ 0 ∧ I.new m = a / 4 ∧ i = a % 4) := fun m hm i h =>
    H.fresh.free m hm (h.2.1 ▸ hau h.1)
  constructor
  · intro k hk
    by_cases hkj : k = j
    · subst hkj
      refine ⟨?_, ?_, ?_, ?_, ?_⟩
      · rw [hL _ _ p1 a0, if_neg (nb1 k hj _), if_neg (fun h => hne h.1), if_neg (fun h => hne h.1), if_pos ⟨rfl, rfl⟩]
      · rw [hL _ _ p2 a1, if_neg (nb2 k hj _), if_pos ⟨rfl, rfl⟩]
      · rw [hL _ _ p1 a1, if_neg (nb1 k hj _), if_neg (fun h => hne h.1), if_neg (fun h => hne h.1),
          if_neg (fun h => b01 h.2.symm), ha1]
      · rw [hL _ _ p2 a0, if_neg (nb2 k hj _), if_neg (fun h => b01 h.2), if_pos ⟨rfl, rfl⟩, hA0]
      · intro f hf
        have f4 : f < 4 := by rcases hf with rfl | rfl <;> exact T.perm.lt _ (by decide)
        have f0 : f ≠ I.t k 0 := by rcases hf with rfl | rfl <;> [exact b02.symm; exact b03.symm]
        have f1 : f ≠ I.t k 1 := by rcases hf with rfl | rfl <;> [exact b12.symm; exact b13.symm]
        rw [hL _ _ p1 f4, hL _ _ p2 f4, if_neg (nb1 k hj _), if_neg (fun h => hne h.1), if_neg (fun h => hne h.1),
          if_neg (fun h => f0 h.2), if_neg (nb2 k hj _), if_neg (fun h => f1 h.2), if_neg (fun h => f0 h.2),
          if_neg (fun h => hne h.1.symm)]
        exact hh f hf
    · have hk' : k < j := by omega
      have hkn : k < I.n := by omega
      have K := H.tet hkn
      have q1 := H.iel_pos hkn
      have q2 := H.fresh.pos k hkn
      have c1 : I.iel k ≠ I.iel j := fun h => hkj (H.round.inj _ hkn _ hj h)
      have c2 : I.iel k ≠ I.new j := H.iel_new hkn hj
      have c3 : I.new k ≠ I.new j := fun h => hkj (H.fresh.inj _ hkn _ hj h)
      have c4 : I.new k ≠ I.iel j := (H.iel_new hj hkn).symm
      have s1 : ∀ i < 4, link (inner I j B') (I.iel k) i = link B (I.iel k) i := by
        intro i hi
        rw [hL _ _ q1 hi, if_neg (nb1 k hkn _), if_neg (fun h => c2 h.1), if_neg (fun h => c2 h.1),
          if_neg (fun h => c1 h.1), hrest _ _ q1 hi (fun h => (h.elim c1 c2).elim)]
      have s2 : ∀ i < 4, link (inner I j B') (I.new k) i = link B (I.new k) i := by
        intro i hi
        rw [hL _ _ q2 hi, if_neg (nb2 k hkn _), if_neg (fun h => c3 h.1), if_neg (fun h => c3 h.1),
          if_neg (fun h => c4 h.1), hrest _ _ q2 hi (fun h => (h.elim c4 c3).elim)]
      have l0 := K.perm.lt 0 (by decide)
      have l1 := K.perm.lt 1 (by decide)
      obtain ⟨d1, d2, d3, d4, d5⟩ := hB.done k hk'
      refine ⟨by rw [s1 _ l0, d1], by rw [s2 _ l1, d2], by rw [s1 _ l1, d3], by rw [s2 _ l0, d4], ?_⟩
      intro f hf
      have f4 : f < 4 := by rcases hf with rfl | rfl <;> exact K.perm.lt _ (by decide)
      rw [s1 _ f4, s2 _ f4]
      exact d5 f hf
  · intro k hk hkn i hi
    have q1 := H.iel_pos hkn
    have c1 : I.iel k ≠ I.iel j := fun h => absurd (H.round.inj _ hkn _ hj h) (by omega)
    have c2 : I.iel k ≠ I.new j := H.iel_new hkn hj
    rw [hL _ _ q1 hi, if_neg (nb1 k hkn _), if_neg (fun h => c2 h.1), if_neg (fun h => c2 h.1),
      if_neg (fun h => c1 h.1), hrest _ _ q1 hi (fun h => (h.elim c1 c2).elim), hB.todo k (by omega) hkn i hi]
  · intro e hu hne' i hi
    have e1 := H.mesh.adj.pos _ hu
    have c1 : e ≠ I.iel j := hne' j hj
    have c2 : e ≠ I.new j := fun h => H.fresh.free j hj (h ▸ hu)
    obtain ⟨r1, r2⟩ := hB.rest e hu hne' i hi
    have hLe : link (inner I j B') e i =
        if a ≠ 0 ∧ e = a / 4 ∧ i = a % 4 then 4 * I.new j + I.t j 0 else link B e i := by
      rw [hL _ _ e1 hi, if_neg (fun h : e = I.new j ∧ _ => c2 h.1), if_neg (fun h : e = I.new j ∧ _ => c2 h.1),
        if_neg (fun h : e = I.iel j ∧ _ => c1 h.1), hrest _ _ e1 hi (fun h => (h.elim c1 c2).elim)]
    -- the back link is the one of this face
    have hiff : (a ≠ 0 ∧ e = a / 4 ∧ i = a % 4) ↔ link A e i = 4 * I.iel j + I.t j 0 := by
      constructor
      · rintro ⟨h0, rfl, rfl⟩
        exact (hok h0).2.2.1
      · intro h
        obtain ⟨_, _, hs, _⟩ := H.mesh.adj.ok e hu i hi (by omega)
        rw [h, show (4 * I.iel j + I.t j 0) / 4 = I.iel j by omega,
          show (4 * I.iel j + I.t j 0) % 4 = I.t j 0 by omega, hA0] at hs
        omega
    constructor
    · intro k hk hl
      by_cases hkj : k = j
      · subst hkj
        rw [hLe, if_pos (hiff.2 hl)]
      · rw [hLe, if_neg]
        · exact r1 k (by omega) hl
        · intro h
          have := hiff.1 h
          have l0 := (H.tet (k := k) (by omega)).perm.lt 0 (by decide)
          have : I.iel k = I.iel j := by omega
          exact hkj (H.round.inj _ (by omega) _ hj this)
    · intro hno
      rw [hLe, if_neg (fun h => hno j (by omega) (hiff.1 h))]
      exact r2 (fun k hk => hno k (by omega))

/-! ### Vertices -/

/-- Vertices after `j` rounds. -/
structure InvV (I : In) (V0 : Nat → List Nat) (j : Nat) (V : Nat → List Nat) : Prop where
  done : ∀ k < j, V (I.iel k) = (V0 (I.iel k)).set (I.t k 1) I.ip ∧ V (I.new k) = (V0 (I.iel k)).set (I.t k 0) I.ip
  todo : ∀ k, j ≤ k → k < I.n → V (I.iel k) = V0 (I.iel k) ∧ V (I.new k) = V0 (I.iel k)
  rest : ∀ e, (∀ k < I.n, e ≠ I.iel k) → (∀ k < I.n, e ≠ I.new k) → V e = V0 e

theorem Pre.step_V (H : Pre I A V used na nb) {j : Nat} (hj : j < I.n) {W : Nat → List Nat} (hW : InvV I V j W) :
    InvV I V (j + 1) (upd (upd W (I.iel j) ((W (I.iel j)).set (I.t j 1) I.ip)) (I.new j)
      ((W (I.new j)).set (I.t j 0) I.ip)) := by
  have hne := H.iel_new hj hj
  have c : ∀ k < I.n, k ≠ j → I.iel k ≠ I.iel j ∧ I.iel k ≠ I.new j ∧ I.new k ≠ I.iel j ∧ I.new k ≠ I.new j :=
    fun k hk hkj => ⟨fun h => hkj (H.round.inj _ hk _ hj h), H.iel_new hk hj, (H.iel_new hj hk).symm,
      fun h => hkj (H.fresh.inj _ hk _ hj h)⟩
  obtain ⟨t1, t2⟩ := hW.todo j le_rfl hj
  constructor
  · intro k hk
    by_cases hkj : k = j
    · subst hkj
      simp only [upd, if_true, if_neg hne, t1, t2, and_self]
    · obtain ⟨c1, c2, c3, c4⟩ := c k (by omega) hkj
      simp only [upd, if_neg c1, if_neg c2, if_neg c3, if_neg c4]
      exact hW.done k (by omega)
  · intro k hk hkn
    obtain ⟨c1, c2, c3, c4⟩ := c k hkn (by omega)
    simp only [upd, if_neg c1, if_neg c2, if_neg c3, if_neg c4]
    exact hW.todo k (by omega) hkn
  · intro e h1 h2
    simp only [upd, if_neg (h1 j hj), if_neg (h2 j hj)]
    exact hW.rest e h1 h2

/-- The copies. -/
theorem create_spec (I : In) (s : State) (m : Nat)
    (hinj : ∀ k < m, ∀ k' < m, I.new k = I.new k' → k = k') (hne : ∀ k < m, ∀ k' < m, I.iel k ≠ I.new k') :
    ∀ s', s' = (List.range m).foldl (copy1 I) s →
    s'.A = s.A ∧ s'.X = s.X ∧ s'.nxt = s.nxt ∧
    (∀ k < m, s'.V (I.new k) = s.V (I.iel k) ∧ s'.xt (I.new k) = s.xt (I.iel k)) ∧
    ∀ e, (∀ k < m, e ≠ I.new k) → s'.V e = s.V e ∧ s'.xt e = s.xt e := by
  induction m with
  | zero =>
    rintro s' rfl
    exact ⟨rfl, rfl, rfl, fun k hk => absurd hk (by omega), fun _ _ => ⟨rfl, rfl⟩⟩
  | succ m ih =>
    intro s' hs'
    rw [List.range_succ, List.foldl_append] at hs'
    obtain ⟨i1, i2, i3, i4, i5⟩ := ih (fun k hk k' hk' => hinj k (by omega) k' (by omega))
      (fun k hk k' hk' => hne k (by omega) k' (by omega)) _ rfl
    generalize (List.range m).foldl (copy1 I) s = r at *
    simp only [List.foldl_cons, List.foldl_nil, copy1] at hs'
    subst hs'
    obtain ⟨j1, j2⟩ := i5 (I.iel m) (fun k hk => hne m (by omega) k (by omega))
    refine ⟨i1, i2, i3, ?_, ?_⟩
    · intro k hk
      by_cases hkm : k = m
      · subst hkm
        simp only [upd, if_true, j1, j2, and_self]
      · have : I.new k ≠ I.new m := fun h => hkm (hinj k hk m (by omega) h)
        simp only [upd, if_neg this]
        exact i4 k (by omega)
    · intro e he
      simp only [upd, if_neg (he m (by omega))]
      exact i5 e (fun k hk => he k (by omega))

theorem Pre.create (H : Pre I A V used na nb) {s : State} (hA : s.A = A) (hV : s.V = V) :
    (create I s).A = A ∧ InvV I V 0 (create I s).V ∧ (create I s).X = s.X ∧ (create I s).nxt = s.nxt ∧
    (∀ k < I.n, (create I s).xt (I.new k) = s.xt (I.iel k)) ∧
    ∀ e, (∀ k < I.n, e ≠ I.new k) → (create I s).xt e = s.xt e := by
  obtain ⟨i1, i2, i3, i4, i5⟩ := create_spec I s I.n H.fresh.inj
    (fun k hk k' hk' => H.iel_new hk hk') _ rfl
  subst hA hV
  refine ⟨i1, ⟨fun k hk => absurd hk (by omega), fun k _ hk => ?_, fun e _ h => (i5 e h).1⟩, i2, i3,
    fun k hk => (i4 k hk).2, fun e he => (i5 e he).2⟩
  exact ⟨(i5 _ (fun k' hk' => H.iel_new hk hk')).1, (i4 k hk).1⟩

/-! ### The loop -/

theorem slots_AV {room : Nat → Bool} {i j : Nat} {x x1 : XT} {s s' : State} (h : slots room i j x x1 s = some s') :
    s'.A = s.A ∧ s'.V = s.V := by
  unfold slots at h
  split_ifs at h <;> simp only [Option.some.injEq, reduceCtorEq] at h <;> subst h <;> exact ⟨rfl, rfl⟩

theorem Pre.run_AV (H : Pre I A V used na nb) {sg room : Nat → Bool} {s : State} (hA : s.A = A) (hV : InvV I V 0 s.V) :
    ∀ j, j ≤ I.n → ∀ s', run I sg room j s = some s' → InvA I sg A used j s'.A ∧ InvV I V j s'.V
  | 0, _, s', h => by
    simp only [run, Option.some.injEq] at h
    subst h
    refine ⟨⟨fun k hk => absurd hk (by omega), fun k _ _ i _ => by rw [hA], fun e _ _ i _ => ⟨fun k hk => absurd hk (by omega), fun _ => by rw [hA]⟩⟩, hV⟩
  | j + 1, hj, s', h => by
    simp only [run, Option.bind_eq_some_iff] at h
    obtain ⟨s1, h1, h2⟩ := h
    obtain ⟨iA, iV⟩ := H.run_AV hA hV j (by omega) s1 h1
    simp only [step, Option.bind_eq_some_iff, Option.map_eq_some_iff] at h2
    obtain ⟨s2, h3, B, h4, rfl⟩ := h2
    unfold eltspl at h3
    obtain ⟨e1, e2⟩ := slots_AV h3
    simp only at e1 e2
    obtain ⟨B', hB, hI⟩ := H.step_A (j := j) (by omega) iA
    rw [e1, hB, Option.some.injEq] at h4
    subst h4
    refine ⟨hI, ?_⟩
    simp only
    rw [e2]
    exact H.step_V (by omega) iV

/-- The only failure is the refusal of memory for a record. -/
theorem Pre.run_some (H : Pre I A V used na nb) {sg room : Nat → Bool} (hr : ∀ k, room k = true) {s : State}
    (hA : s.A = A) (hV : InvV I V 0 s.V) : ∀ j, j ≤ I.n → (run I sg room j s).isSome
  | 0, _ => rfl
  | j + 1, hj => by
    obtain ⟨s1, h1⟩ := Option.isSome_iff_exists.1 (H.run_some hr hA hV j (by omega))
    obtain ⟨iA, _⟩ := H.run_AV hA hV j (by omega) s1 h1
    rw [run, h1, Option.bind_some]
    simp only [step]
    obtain ⟨s2, h2⟩ : ∃ s2, eltspl I room j s1 = some s2 := by
      unfold eltspl slots
      simp only [hr, if_true]
      split_ifs <;> exact ⟨_, rfl⟩
    have e1 : s2.A = s1.A := by
      unfold eltspl at h2
      exact (slots_AV h2).1
    obtain ⟨B', hB, _⟩ := H.step_A (j := j) (by omega) iA
    rw [h2, Option.bind_some, e1, hB]
    rfl

/-! ### The mesh after the split -/

/-- The tetrahedra after the split. -/
def After (I : In) (used : Nat → Prop) (e : Nat) : Prop := used e ∨ ∃ k < I.n, e = I.new k

theorem faceTri_set {v : List Nat} (h4 : v.length = 4) {i f : Nat} (hi : i < 4) (hf : f < 4) (hif : i ≠ f) (m : Nat) :
    faceTri 0 (v.set i m) f + {v.getD i 0} = faceTri 0 v f + {m} := by
  match v, h4 with
  | [a, b, c, d], _ =>
    interval_cases i <;> interval_cases f <;> first | exact absurd rfl hif | skip
    all_goals
      simp only [faceTri, others, List.getD_cons_zero, List.getD_cons_succ, List.set_cons_zero,
        List.set_cons_succ, List.map_cons, List.map_nil, ← Multiset.coe_singleton, Multiset.coe_add]
      rw [Multiset.coe_eq_coe, List.perm_iff_count]
      intro x
      simp only [List.count_cons, List.count_nil, List.cons_append, List.nil_append]
      omega

/-- Two faces with the same vertices keep so when the same vertex is replaced. -/
theorem face_eq {v w : List Nat} (hv : v.length = 4) (hw : w.length = 4) {i f i' f' : Nat} (hi : i < 4) (hf : f < 4)
    (hi' : i' < 4) (hf' : f' < 4) (hif : i ≠ f) (hif' : i' ≠ f') (he : v.getD i 0 = w.getD i' 0)
    (h : faceTri 0 v f = faceTri 0 w f') (m : Nat) :
    faceTri 0 (v.set i m) f = faceTri 0 (w.set i' m) f' := by
  have h1 := faceTri_set hv hi hf hif m
  have h2 := faceTri_set hw hi' hf' hif' m
  rw [h, ← h2, he] at h1
  exact add_right_cancel h1

/-- A linked face through the edge: the neighbour is in the shell. -/
theorem Pre.thr (H : Pre I A V used na nb) {k f : Nat} (hk : k < I.n) (hf : f = I.t k 2 ∨ f = I.t k 3)
    (h0 : link A (I.iel k) f ≠ 0) :
    ∃ m < I.n, link A (I.iel k) f / 4 = I.iel m ∧ m ≠ k ∧
      (link A (I.iel k) f % 4 = I.t m 2 ∨ link A (I.iel k) f % 4 = I.t m 3) ∧
      link A (I.iel m) (link A (I.iel k) f % 4) = 4 * I.iel k + f ∧
      faceTri 0 (V (I.iel m)) (link A (I.iel k) f % 4) = faceTri 0 (V (I.iel k)) f := by
  have T := fun k (hk : k < I.n) => H.tet hk
  have lt : ∀ k < I.n, ∀ i < 4, I.t k i < 4 := fun k hk i hi => (T k hk).perm.lt i hi
  have f4 : f < 4 := by rcases hf with rfl | rfl <;> exact lt k hk _ (by decide)
  obtain ⟨hu, hself, hs, hface⟩ := H.mesh.adj.ok _ (T k hk).us f f4 h0
  have r4 : link A (I.iel k) f % 4 < 4 := Nat.mod_lt _ (by decide)
  have hm : ∃ m < I.n, link A (I.iel k) f / 4 = I.iel m := by
    by_cases h1 : I.n = 1
    · -- the faces through the edge have no neighbour
      exfalso
      obtain ⟨B', _, hh, _⟩ := H.around_ok hk (I.sg V) (B := A) (fun _ _ => rfl)
      obtain ⟨fwd, bwd, hth, _, hop, hcl⟩ := H.round.faces
      have k0 : k = 0 := by omega
      subst k0
      obtain ⟨tf, tb, hfb⟩ := hth 0 hk
      have cf := ((T 0 hk).thru _ tf.1).1 tf
      have cb := ((T 0 hk).thru _ tb.1).1 tb
      rw [h1] at hop hcl
      have p := H.iel_pos hk
      have t4 := tb.1
      cases ho : I.op with
      | true =>
        obtain ⟨z1, z2⟩ := hop ho
        have : f = fwd 0 ∨ f = bwd 0 := by
          rcases cf with a | a <;> rcases cb with b | b <;> rcases hf with c | c <;> omega
        rcases this with rfl | rfl
        · exact h0 z1
        · exact h0 z2
      | false =>
        have e := hcl ho
        obtain ⟨_, hs', _⟩ := H.mesh.adj.ok _ (T 0 hk).us _ tf.1
          (by unfold In.iel at *; simp only [Nat.sub_self] at e; omega)
        apply hs'
        unfold In.iel at *
        simp only [Nat.sub_self] at e
        omega
    · obtain ⟨hp, hq, p, q, hpq, lp0, lp, le, lne⟩ := H.pq hk (by have := H.round.pos; omega)
      have : f = p ∨ f = q := by
        rcases hpq with ⟨rfl, rfl⟩ | ⟨rfl, rfl⟩
        · exact hf
        · exact hf.symm
      rcases this with rfl | rfl
      · exact ⟨_, hp, lp⟩
      · cases hen : (I.op && (decide (k = 0) || decide (k = I.n - 1))) with
        | true => exact absurd (le hen) h0
        | false => exact ⟨_, hq, (lne hen).2⟩
  obtain ⟨m, hm, em⟩ := hm
  rw [em] at hs hface hself
  refine ⟨m, hm, em, fun h => hself (by rw [h]), ?_, hs, hface⟩
  rcases Perm4.cases (T m hm).perm r4 with e | e | e | e
  · exfalso
    have := H.outside hm (.inl e) (by rw [hs]; have := H.iel_pos hk; omega) hk
    rw [hs] at this
    omega
  · exfalso
    have := H.outside hm (.inr e) (by rw [hs]; have := H.iel_pos hk; omega) hk
    rw [hs] at this
    omega
  · exact .inl e
  · exact .inr e

theorem Pre.mesh_after (H : Pre I A V used na nb) {A' : Nat → Nat} {V' : Nat → List Nat}
    (hA : InvA I (I.sg V) A used I.n A') (hV : InvV I V I.n V') : Mesh A' V' (After I used) := by
  classical
  have T := fun k (hk : k < I.n) => H.tet hk
  have hdone : ∀ k < I.n, _ := fun k hk => hA.done k hk
  have vdone : ∀ k < I.n, _ := fun k hk => hV.done k hk
  have hD : ∀ e, (∃ k < I.n, e = I.iel k) → used e := by
    rintro e ⟨k, hk, rfl⟩; exact (T k hk).us
  have hVo : ∀ e, used e → (¬ ∃ k < I.n, e = I.iel k) → V' e = V e := by
    intro e he hn
    exact hV.rest e (fun k hk h => hn ⟨k, hk, h⟩) (fun k hk h => H.fresh.free k hk (h ▸ he))
  have b : ∀ k < I.n, ∀ i < 4, ∀ j < 4, i ≠ j → I.t k i ≠ I.t k j := fun k hk i hi j hj hij h =>
    hij ((T k hk).perm.inj i hi j hj h)
  have lt : ∀ k < I.n, ∀ i < 4, I.t k i < 4 := fun k hk i hi => (T k hk).perm.lt i hi
  have thr := fun k (hk : k < I.n) f hf h0 => H.thr (f := f) hk hf h0
  have adj := reglue' (A := A) (A' := A') (V := V) (V' := V') (used := used) H.mesh.adj
    (fun e => ∃ k < I.n, e = I.iel k) (fun e => ∃ k < I.n, e = I.iel k ∨ e = I.new k)
    (fun e i => ∃ k < I.n, e = I.iel k ∧ i = I.t k 1 ∨ e = I.new k ∧ i = I.t k 0)
    (fun e i => (if h : ∃ k < I.n, e = I.new k then I.iel h.choose else e, i))
    hD ?_ ?_ ?_ ?_ ?_ hVo
  · constructor
    · have hiff : ∀ e, After I used e ↔ ((used e ∧ ¬ ∃ k < I.n, e = I.iel k) ∨ ∃ k < I.n, e = I.iel k ∨ e = I.new k) := by
        intro e
        constructor
        · rintro (h | ⟨k, hk, h⟩)
          · by_cases hd : ∃ k < I.n, e = I.iel k
            · obtain ⟨k, hk, h⟩ := hd; exact .inr ⟨k, hk, .inl h⟩
            · exact .inl ⟨h, hd⟩
          · exact .inr ⟨k, hk, .inr h⟩
        · rintro (⟨h, _⟩ | ⟨k, hk, h | h⟩)
          · exact .inl h
          · exact .inl (h ▸ (T k hk).us)
          · exact .inr ⟨k, hk, h⟩
      have : After I used = _ := funext fun e => propext (hiff e)
      rw [this]
      exact adj
    · rintro e (h | ⟨k, hk, rfl⟩)
      · by_cases hd : ∃ k < I.n, e = I.iel k
        · obtain ⟨k, hk, rfl⟩ := hd
          rw [(vdone k hk).1, List.length_set]; exact (T k hk).len
        · rw [hVo e h hd]; exact H.mesh.len e h
      · rw [(vdone k hk).2, List.length_set]; exact (T k hk).len
    · have nds : ∀ k < I.n, ∀ i, ((V (I.iel k)).set i I.ip).Nodup := by
        intro k hk i
        have := H.ip _ (T k hk).us
        exact List.Nodup.set (T k hk).nd this
      rintro e (h | ⟨k, hk, rfl⟩)
      · by_cases hd : ∃ k < I.n, e = I.iel k
        · obtain ⟨k, hk, rfl⟩ := hd
          rw [(vdone k hk).1]; exact nds k hk _
        · rw [hVo e h hd]; exact H.mesh.nd e h
      · rw [(vdone k hk).2]; exact nds k hk _
  · rintro e ⟨k, hk, rfl | rfl⟩
    · exact ⟨H.iel_pos hk, fun _ => ⟨k, hk, rfl⟩⟩
    · exact ⟨H.fresh.pos k hk, fun h => absurd h (H.fresh.free k hk)⟩
  · -- faces kept
    rintro e i _ hi ⟨k, hk, ⟨rfl, rfl⟩ | ⟨rfl, rfl⟩⟩
    · have hno : ¬ ∃ m < I.n, I.iel k = I.new m := fun ⟨m, hm, h⟩ => H.iel_new hk hm h
      simp only [dif_neg hno]
      obtain ⟨_, _, d3, _, _⟩ := hdone k hk
      refine ⟨⟨k, hk, rfl⟩, hi, d3, ?_, ?_⟩
      · rw [(vdone k hk).1, faceTri_set_self (T k hk).len hi]
      · rw [d3]
        intro h0
        have ho : ¬ ∃ m < I.n, link A (I.iel k) (I.t k 1) / 4 = I.iel m := fun ⟨m, hm, h⟩ =>
          H.outside hk (.inr rfl) h0 hm h
        refine ⟨ho, ?_⟩
        obtain ⟨hu, _, hs, _⟩ := H.mesh.adj.ok _ (T k hk).us _ hi h0
        obtain ⟨_, r2⟩ := hA.rest _ hu (fun m hm h => ho ⟨m, hm, h⟩) (link A (I.iel k) (I.t k 1) % 4)
          (Nat.mod_lt _ (by decide))
        rw [r2, hs]
        intro m hm h
        rw [hs] at h
        have l0 := lt m hm 0 (by decide)
        have em : I.iel k = I.iel m := by omega
        have : k = m := H.round.inj _ hk _ hm em
        subst this
        exact b k hk 1 (by decide) 0 (by decide) (by decide) (by omega)
    · have hyes : ∃ m < I.n, I.new k = I.new m := ⟨k, hk, rfl⟩
      have hch : hyes.choose = k := (H.fresh.inj _ hyes.choose_spec.1 _ hk hyes.choose_spec.2.symm)
      simp only [dif_pos hyes, hch]
      obtain ⟨_, _, _, d4, _⟩ := hdone k hk
      refine ⟨⟨k, hk, rfl⟩, hi, d4, ?_, ?_⟩
      · rw [(vdone k hk).2, faceTri_set_self (T k hk).len hi]
      · rw [d4]
        intro h0
        have ho : ¬ ∃ m < I.n, link A (I.iel k) (I.t k 0) / 4 = I.iel m := fun ⟨m, hm, h⟩ =>
          H.outside hk (.inl rfl) h0 hm h
        refine ⟨ho, ?_⟩
        obtain ⟨hu, _, hs, _⟩ := H.mesh.adj.ok _ (T k hk).us _ hi h0
        obtain ⟨r1, _⟩ := hA.rest _ hu (fun m hm h => ho ⟨m, hm, h⟩) (link A (I.iel k) (I.t k 0) % 4)
          (Nat.mod_lt _ (by decide))
        rw [r1 k hk hs]
  · -- other faces
    rintro e i ⟨k, hk, he⟩ hi hno h0
    obtain ⟨d1, d2, _, _, d5⟩ := hdone k hk
    have l0 := lt k hk 0 (by decide)
    have l1 := lt k hk 1 (by decide)
    have hne := H.iel_new hk hk
    have hcross : faceTri 0 (V' (I.new k)) (I.t k 1) = faceTri 0 (V' (I.iel k)) (I.t k 0) := by
      rw [(vdone k hk).1, (vdone k hk).2, faceTri_set_cross (T k hk).len l0 l1]
    have aux : ∀ p q, q < 4 → (4 * p + q) / 4 = p ∧ (4 * p + q) % 4 = q := fun p q hq => by omega
    rcases he with rfl | rfl
    · rcases Perm4.cases (T k hk).perm hi with hi' | hi' | hi' | hi'
      · subst hi'
        rw [d1, (aux _ _ l1).1, (aux _ _ l1).2]
        exact ⟨⟨k, hk, .inr rfl⟩, hne.symm, d2, hcross⟩
      · exact absurd ⟨k, hk, .inl ⟨rfl, hi'⟩⟩ hno
      all_goals
        have hf : i = I.t k 2 ∨ i = I.t k 3 := by first | exact .inl hi' | exact .inr hi'
        have i0 : I.t k 0 ≠ i := by rw [hi']; exact b k hk _ (by decide) _ (by decide) (by decide)
        have i1 : I.t k 1 ≠ i := by rw [hi']; exact b k hk _ (by decide) _ (by decide) (by decide)
        clear hi'
        have hH := d5 i hf
        have hn0 : link A (I.iel k) i ≠ 0 := fun h => h0 (hH.1 h).1
        obtain ⟨m, hm, em, hmk, hf', hs, hface⟩ := thr k hk i hf hn0
        have r4 : link A (I.iel k) i % 4 < 4 := Nat.mod_lt _ (by decide)
        have hmod : link A (I.iel k) i = 4 * I.iel m + link A (I.iel k) i % 4 := by omega
        obtain ⟨k1, k2⟩ := hH.2 m hm em
        generalize link A (I.iel k) i % 4 = g at *
        have g0 : I.t m 0 ≠ g := by
          rcases hf' with rfl | rfl <;> exact b m hm _ (by decide) _ (by decide) (by decide)
        have g1 : I.t m 1 ≠ g := by
          rcases hf' with rfl | rfl <;> exact b m hm _ (by decide) _ (by decide) (by decide)
        have hM := (hdone m hm).2.2.2.2 g hf'
        obtain ⟨m1, m2⟩ := hM.2 k hk (by rw [hs]; exact (aux _ _ hi).1)
        rw [hs, (aux _ _ hi).2] at m1 m2
        have cne : I.iel m ≠ I.iel k := fun h => hmk (H.round.inj _ hm _ hk h)
        by_cases hsg : I.sg V k = I.sg V m
        · obtain ⟨e1, e2⟩ := H.sg_eq hk hm hsg
          rw [(k1 hsg).1, hmod, (aux _ _ r4).1, (aux _ _ r4).2]
          refine ⟨⟨m, hm, .inl rfl⟩, cne, (m1 hsg.symm).1, ?_⟩
          rw [(vdone k hk).1, (vdone m hm).1]
          exact face_eq (T m hm).len (T k hk).len (lt m hm 1 (by decide)) r4 l1 hi g1 i1 e2.symm hface _
        · obtain ⟨e1, e2⟩ := H.sg_ne hk hm hsg
          rw [(k2 hsg).1, (aux _ _ r4).1, (aux _ _ r4).2]
          refine ⟨⟨m, hm, .inr rfl⟩, (H.iel_new hk hm).symm, (m2 (Ne.symm hsg)).2, ?_⟩
          rw [(vdone k hk).1, (vdone m hm).2]
          exact face_eq (T m hm).len (T k hk).len (lt m hm 0 (by decide)) r4 l1 hi g0 i1 e2.symm hface _
    · rcases Perm4.cases (T k hk).perm hi with hi' | hi' | hi' | hi'
      · exact absurd ⟨k, hk, .inr ⟨rfl, hi'⟩⟩ hno
      · subst hi'
        rw [d2, (aux _ _ l0).1, (aux _ _ l0).2]
        exact ⟨⟨k, hk, .inl rfl⟩, hne, d1, hcross.symm⟩
      all_goals
        have hf : i = I.t k 2 ∨ i = I.t k 3 := by first | exact .inl hi' | exact .inr hi'
        have i0 : I.t k 0 ≠ i := by rw [hi']; exact b k hk _ (by decide) _ (by decide) (by decide)
        have i1 : I.t k 1 ≠ i := by rw [hi']; exact b k hk _ (by decide) _ (by decide) (by decide)
        clear hi'
        have hH := d5 i hf
        have hn0 : link A (I.iel k) i ≠ 0 := fun h => h0 (hH.1 h).2
        obtain ⟨m, hm, em, hmk, hf', hs, hface⟩ := thr k hk i hf hn0
        have r4 : link A (I.iel k) i % 4 < 4 := Nat.mod_lt _ (by decide)
        have hmod : link A (I.iel k) i = 4 * I.iel m + link A (I.iel k) i % 4 := by omega
        obtain ⟨k1, k2⟩ := hH.2 m hm em
        generalize link A (I.iel k) i % 4 = g at *
        have g0 : I.t m 0 ≠ g := by
          rcases hf' with rfl | rfl <;> exact b m hm _ (by decide) _ (by decide) (by decide)
        have g1 : I.t m 1 ≠ g := by
          rcases hf' with rfl | rfl <;> exact b m hm _ (by decide) _ (by decide) (by decide)
        have hM := (hdone m hm).2.2.2.2 g hf'
        obtain ⟨m1, m2⟩ := hM.2 k hk (by rw [hs]; exact (aux _ _ hi).1)
        rw [hs, (aux _ _ hi).2] at m1 m2
        have cne : I.new m ≠ I.new k := fun h => hmk (H.fresh.inj _ hm _ hk h)
        by_cases hsg : I.sg V k = I.sg V m
        · obtain ⟨e1, e2⟩ := H.sg_eq hk hm hsg
          rw [(k1 hsg).2, (aux _ _ r4).1, (aux _ _ r4).2]
          refine ⟨⟨m, hm, .inr rfl⟩, cne, (m1 hsg.symm).2, ?_⟩
          rw [(vdone k hk).2, (vdone m hm).2]
          exact face_eq (T m hm).len (T k hk).len (lt m hm 0 (by decide)) r4 l0 hi g0 i0 e1.symm hface _
        · obtain ⟨e1, e2⟩ := H.sg_ne hk hm hsg
          rw [(k2 hsg).2, hmod, (aux _ _ r4).1, (aux _ _ r4).2]
          refine ⟨⟨m, hm, .inl rfl⟩, H.iel_new hm hk, (m2 (Ne.symm hsg)).1, ?_⟩
          rw [(vdone k hk).2, (vdone m hm).1]
          exact face_eq (T m hm).len (T k hk).len (lt m hm 1 (by decide)) r4 l0 hi g1 i0 e1.symm hface _
  · -- every link that left the shell is kept
    rintro e j ⟨k, hk, rfl⟩ hj h0 hnD
    rcases Perm4.cases (T k hk).perm hj with rfl | rfl | hj' | hj'
    · have hyes : ∃ m < I.n, I.new k = I.new m := ⟨k, hk, rfl⟩
      have hch : hyes.choose = k := (H.fresh.inj _ hyes.choose_spec.1 _ hk hyes.choose_spec.2.symm)
      refine ⟨I.new k, _, ⟨k, hk, .inr rfl⟩, hj, ⟨k, hk, .inr ⟨rfl, rfl⟩⟩, ?_⟩
      simp only [dif_pos hyes, hch]
    · have hno : ¬ ∃ m < I.n, I.iel k = I.new m := fun ⟨m, hm, h⟩ => H.iel_new hk hm h
      refine ⟨I.iel k, _, ⟨k, hk, .inl rfl⟩, hj, ⟨k, hk, .inl ⟨rfl, rfl⟩⟩, ?_⟩
      simp only [dif_neg hno]
    all_goals
      obtain ⟨m, hm, em, _⟩ := thr k hk j (by first | exact .inl hj' | exact .inr hj') h0
      exact absurd ⟨m, hm, em⟩ hnD
  · intro e hu hnD i hi hor
    obtain ⟨_, r2⟩ := hA.rest e hu (fun k hk h => hnD ⟨k, hk, h⟩) i hi
    refine r2 fun k hk h => ?_
    have l0 := lt k hk 0 (by decide)
    have p := H.iel_pos hk
    rcases hor with h' | h'
    · omega
    · exact h' ⟨k, hk, by omega⟩

end Mmg.Spl1b
