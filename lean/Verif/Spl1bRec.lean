/-
  The boundary records during the split of an edge (`Spl1bModel`).
-/
import Verif.Spl1bRun

namespace Mmg.Spl1b

open Mmg.Split3 Mmg.Swap23 Mmg.Shell

variable {I : In} {A : Nat → Nat} {V : Nat → List Nat} {used : Nat → Prop} {na nb : Nat}

/-- Tetrahedron `e` has record `x` if there is something on its faces, none otherwise. -/
def Child (s : State) (e : Nat) (p : Prop) (x : XT) : Prop :=
  (s.xt e ≠ 0 ↔ p ∧ x.isxt = true) ∧ (s.xt e ≠ 0 → s.X (s.xt e) = x)

theorem slots_spec {room : Nat → Bool} {i j : Nat} (hij : i ≠ j) {x x1 : XT} {s s' : State} (hle : s.xt i ≤ s.nxt)
    (hj : s.xt i = 0 → s.xt j = 0) (h : slots room i j x x1 s = some s') :
    (∀ e, e ≠ i → e ≠ j → s'.xt e = s.xt e) ∧ (∀ r, r ≠ s.xt i → r ≤ s.nxt → s'.X r = s.X r) ∧ s.nxt ≤ s'.nxt ∧
    Child s' i (s.xt i ≠ 0) x ∧ Child s' j (s.xt i ≠ 0) x1 ∧
    (s'.xt i = 0 ∨ s'.xt i = s.xt i) ∧ (s'.xt j = 0 ∨ s'.xt j = s.xt i ∨ s.nxt < s'.xt j) ∧
    (s'.xt i ≠ 0 → s'.xt i ≠ s'.xt j) ∧ s'.xt j ≤ s'.nxt := by
  have hji := hij.symm
  unfold slots at h
  split_ifs at h with h0 h1 h2 h3 h4 <;> simp only [Option.some.injEq, reduceCtorEq] at h <;> subst h
  · have := hj h0
    simp [Child, h0, this]
  · have hne : s.xt i ≠ s.nxt + 1 := by omega
    refine ⟨fun e h1 h2 => by simp [upd, h2], fun r h1 h2 => ?_, by simp, ?_, ?_, ?_, ?_, ?_, ?_⟩
    · simp only [upd]; rw [if_neg (by omega), if_neg h1]
    all_goals simp [Child, upd, hij, h0, h1, h2, hne]
  · refine ⟨fun e h1 h2 => by simp [upd, h2], fun r h1 h2 => by simp [upd, h1], by simp, ?_, ?_, ?_, ?_, ?_, ?_⟩
    all_goals simp [Child, upd, hij, h0, h1, h2]
  · refine ⟨fun e h1 h2 => by simp [upd, h1, h2], fun r h1 h2 => by simp [upd, h1], by simp, ?_, ?_, ?_, ?_, ?_, ?_⟩
    all_goals simp [Child, upd, hji, h0, h1, h4]
    exact hle
  · refine ⟨fun e h1 h2 => by simp [upd, h1, h2], fun r h1 h2 => rfl, by simp, ?_, ?_, ?_, ?_, ?_, ?_⟩
    all_goals simp [Child, upd, hij, h0, h1, h4]

/-- Records after `j` rounds; `s0` is the state before the split. -/
structure InvX (I : In) (s0 : State) (used : Nat → Prop) (j : Nat) (s : State) : Prop where
  slots : ∀ e e', (used e ∨ ∃ k < j, e = I.new k) → (used e' ∨ ∃ k < j, e' = I.new k) → s.xt e ≠ 0 →
    s.xt e = s.xt e' → e = e'
  le : ∀ e, (used e ∨ ∃ k < j, e = I.new k) → s.xt e ≤ s.nxt
  top : s0.nxt ≤ s.nxt
  old : ∀ e, used e → (∀ k < j, e ≠ I.iel k) → s.xt e = s0.xt e ∧ s.X (s.xt e) = s0.X (s0.xt e)
  copies : ∀ k, j ≤ k → k < I.n → s.xt (I.new k) = s0.xt (I.iel k)
  done : ∀ k < j,
    Child s (I.iel k) (s0.xt (I.iel k) ≠ 0) (part0 (I.t k) (I.u k) (s0.X (s0.xt (I.iel k)))) ∧
    Child s (I.new k) (s0.xt (I.iel k) ≠ 0) (part1 (I.t k) (I.u k) (s0.X (s0.xt (I.iel k))))

theorem Pre.step_X (H : Pre I A V used na nb) {s0 : State} {j : Nat} (hj : j < I.n) {room : Nat → Bool} {s s' : State}
    (hX : InvX I s0 used j s) (h : eltspl I room j s = some s') : InvX I s0 used (j + 1) s' := by
  have hne := H.iel_new hj hj
  have hu := (H.tet hj).us
  have hnot : ∀ k < j, I.iel j ≠ I.iel k := fun k hk e => absurd (H.round.inj _ hj _ (by omega) e) (by omega)
  obtain ⟨o1, o2⟩ := hX.old _ hu hnot
  have hc := hX.copies j le_rfl hj
  unfold eltspl at h
  simp only at h
  obtain ⟨g1, g2, g3, g4, g5, g6, g7, g8, g9⟩ := slots_spec hne (by exact hX.le _ (.inl hu))
    (by intro h0; exact hc.trans (o1.symm.trans h0)) h
  simp only at g1 g2 g3 g4 g5 g6 g7
  rw [o2, o1] at g4 g5
  -- tetrahedra other than the two
  have oth : ∀ e, (used e ∨ ∃ k < j, e = I.new k) → e ≠ I.iel j → e ≠ I.new j ∧ s'.xt e = s.xt e ∧
      (s.xt e ≠ 0 → s.xt e ≠ s.xt (I.iel j) ∧ s'.X (s'.xt e) = s.X (s.xt e)) := by
    intro e he hei
    have hej : e ≠ I.new j := by
      rcases he with he | ⟨k, hk, rfl⟩
      · exact fun h => H.fresh.free j hj (h ▸ he)
      · exact fun h => absurd (H.fresh.inj _ (by omega) _ hj h) (by omega)
    have e1 := g1 e hei hej
    refine ⟨hej, e1, fun h0 => ?_⟩
    have hd : s.xt e ≠ s.xt (I.iel j) := fun h => hei (hX.slots e _ he (.inl hu) h0 h)
    exact ⟨hd, by rw [e1]; exact g2 _ hd (hX.le e he)⟩
  have cls : ∀ e, (used e ∨ ∃ k < j + 1, e = I.new k) → e = I.iel j ∨ e = I.new j ∨
      (e ≠ I.iel j ∧ (used e ∨ ∃ k < j, e = I.new k)) := by
    rintro e (he | ⟨k, hk, rfl⟩)
    · by_cases h : e = I.iel j
      · exact .inl h
      · exact .inr (.inr ⟨h, .inl he⟩)
    · by_cases h : k = j
      · exact .inr (.inl (by rw [h]))
      · exact .inr (.inr ⟨(H.iel_new hj (by omega)).symm, .inr ⟨k, by omega, rfl⟩⟩)
  have hle := hX.le _ (.inl hu)
  constructor
  · intro e e' he he' h0 heq
    rcases cls e he with rfl | rfl | ⟨c1, c2⟩ <;> rcases cls e' he' with rfl | rfl | ⟨d1, d2⟩
    · rfl
    · exact absurd heq (g8 h0)
    · obtain ⟨_, x1, x2⟩ := oth e' d2 d1
      rw [x1] at heq
      have := g6.resolve_left h0
      exact absurd (heq.symm.trans this) (x2 (by omega)).1
    · exact absurd heq.symm (g8 (by omega))
    · rfl
    · obtain ⟨_, x1, x2⟩ := oth e' d2 d1
      rw [x1] at heq
      have l := hX.le e' d2
      have := (x2 (by omega)).1
      omega
    · obtain ⟨_, x1, x2⟩ := oth e c2 c1
      have := (x2 (by omega)).1
      omega
    · obtain ⟨_, x1, x2⟩ := oth e c2 c1
      have l := hX.le e c2
      have := (x2 (by omega)).1
      omega
    · obtain ⟨_, x1, x2⟩ := oth e c2 c1
      obtain ⟨_, y1, y2⟩ := oth e' d2 d1
      exact hX.slots e e' c2 d2 (by omega) (by omega)
  · intro e he
    rcases cls e he with rfl | rfl | ⟨c1, c2⟩
    · omega
    · exact g9
    · obtain ⟨_, x1, _⟩ := oth e c2 c1
      have := hX.le e c2
      omega
  · have := hX.top
    omega
  · intro e he hn
    obtain ⟨_, x1, x2⟩ := oth e (.inl he) (hn j (by omega))
    obtain ⟨y1, y2⟩ := hX.old e he (fun k hk => hn k (by omega))
    refine ⟨by rw [x1, y1], ?_⟩
    by_cases h0 : s.xt e = 0
    · -- slot 0 is never written
      have hz : s'.X 0 = s.X 0 := by
        by_cases hi : s.xt (I.iel j) = 0
        · unfold Spl1b.slots at h
          simp only [hi, if_true, Option.some.injEq] at h
          rw [← h]
        · exact g2 0 (Ne.symm hi) (by omega)
      rw [x1, h0, hz, ← y2, h0]
    · rw [(x2 h0).2, y2]
  · intro k hk hkn
    rw [g1 _ (H.iel_new hj hkn).symm (fun h => absurd (H.fresh.inj _ hkn _ hj h) (by omega))]
    exact hX.copies k (by omega) hkn
  · intro k hk
    by_cases hkj : k = j
    · subst hkj; exact ⟨g4, g5⟩
    · have hk' : k < j := by omega
      have tr : ∀ e p x, (used e ∨ ∃ k < j, e = I.new k) → e ≠ I.iel j → Child s e p x → Child s' e p x := by
        intro e p x he hei hch
        obtain ⟨_, x1, x2⟩ := oth e he hei
        refine ⟨by rw [x1]; exact hch.1, fun h0 => ?_⟩
        rw [x1] at h0
        rw [(x2 h0).2]; exact hch.2 h0
      obtain ⟨d1, d2⟩ := hX.done k hk'
      exact ⟨tr _ _ _ (.inl (H.tet (k := k) (by omega)).us) (fun h => hkj (H.round.inj _ (by omega) _ hj h)) d1,
        tr _ _ _ (.inr ⟨k, hk', rfl⟩) (H.iel_new hj (by omega)).symm d2⟩

theorem Pre.run_X (H : Pre I A V used na nb) {s0 : State} {sg room : Nat → Bool} {s : State} (hX : InvX I s0 used 0 s) :
    ∀ j, j ≤ I.n → ∀ s', run I sg room j s = some s' → InvX I s0 used j s'
  | 0, _, s', h => by
    simp only [run, Option.some.injEq] at h
    subst h
    exact hX
  | j + 1, hj, s', h => by
    simp only [run, Option.bind_eq_some_iff] at h
    obtain ⟨s1, h1, h2⟩ := h
    have i1 := H.run_X hX j (by omega) s1 h1
    simp only [step, Option.bind_eq_some_iff, Option.map_eq_some_iff] at h2
    obtain ⟨s2, h3, B, _, rfl⟩ := h2
    have := H.step_X (by omega) i1 h3
    exact ⟨this.slots, this.le, this.top, this.old, this.copies, this.done⟩

end Mmg.Spl1b
