/-
  Collapse of an edge in 3D: the loop over the shell keeps the invariant.
-/
import Verif.ColverStep

namespace Mmg.Colver

open Mmg.Split3 Mmg.Swap23 Mmg.Shell

/-- The face is one of the two faces that are linked. -/
def Touched (P Q j f : Nat) : Prop := (P ≠ 0 ∧ 4 * j + f = P) ∨ (Q ≠ 0 ∧ 4 * j + f = Q)

section
variable {tref : Nat → Int} {used : Nat → Prop} {p q : Nat} {s0 : St}
variable (hm : Mesh s0.A s0.V used) (hnt : NoTwins s0.A s0.V used) (hpq : p ≠ q)
include hm hnt hpq

theorem glued_p {e P Q : Nat} (he : D s0.V used p q e) (hP : P = link s0.A e (idx (s0.V e) q))
    (hQ : Q = link s0.A e (idx (s0.V e) p)) (h0 : P ≠ 0) :
    link s0.A (P / 4) (P % 4) = 4 * e + idx (s0.V e) q ∧ glued p q s0 (P / 4) (P % 4) = Q := by
  have hiq := idx_lt (hm.len _ he.1) he.2.2
  obtain ⟨_, _, hs, _⟩ := hm.adj.ok e he.1 _ hiq (hP ▸ h0)
  rw [← hP] at hs
  refine ⟨hs, ?_⟩
  unfold glued
  rw [hs, show (4 * e + idx (s0.V e) q) / 4 = e by omega,
    show (4 * e + idx (s0.V e) q) % 4 = idx (s0.V e) q by omega]
  unfold other
  rw [if_neg (shell_ne hm hnt hpq he).symm, hQ]

theorem glued_q {e P Q : Nat} (he : D s0.V used p q e) (hP : P = link s0.A e (idx (s0.V e) q))
    (hQ : Q = link s0.A e (idx (s0.V e) p)) (h0 : Q ≠ 0) :
    link s0.A (Q / 4) (Q % 4) = 4 * e + idx (s0.V e) p ∧ glued p q s0 (Q / 4) (Q % 4) = P := by
  have hip := idx_lt (hm.len _ he.1) he.2.1
  obtain ⟨_, _, hs, _⟩ := hm.adj.ok e he.1 _ hip (hQ ▸ h0)
  rw [← hQ] at hs
  refine ⟨hs, ?_⟩
  unfold glued
  rw [hs, show (4 * e + idx (s0.V e) p) / 4 = e by omega,
    show (4 * e + idx (s0.V e) p) % 4 = idx (s0.V e) p by omega]
  unfold other
  rw [if_pos rfl, hP]

theorem touched_iff {e P Q j f : Nat} (he : D s0.V used p q e)
    (hP : P = link s0.A e (idx (s0.V e) q)) (hQ : Q = link s0.A e (idx (s0.V e) p))
    (hj : O s0.V used p q j) (hf : f < 4) :
    Touched P Q j f ↔ link s0.A j f ≠ 0 ∧ link s0.A j f / 4 = e := by
  have hip := idx_lt (hm.len _ he.1) he.2.1
  have hiq := idx_lt (hm.len _ he.1) he.2.2
  have he1 := hm.adj.pos e he.1
  constructor
  · rintro (⟨h0, h1⟩ | ⟨h0, h1⟩)
    · have := (glued_p hm hnt hpq he hP hQ h0).1
      rw [show P / 4 = j by omega, show P % 4 = f by omega] at this
      rw [this]
      omega
    · have := (glued_q hm hnt hpq he hP hQ h0).1
      rw [show Q / 4 = j by omega, show Q % 4 = f by omega] at this
      rw [this]
      omega
  · rintro ⟨h0, h1⟩
    have hj1 := hm.adj.pos j hj.1
    obtain ⟨_, _, hs, _⟩ := hm.adj.ok j hj.1 f hf h0
    have ho := out_shell hm hnt hpq hj hf h0 (by rw [h1]; exact he)
    rw [h1] at hs ho
    rcases ho with ho | ho
    · rw [ho, ← hQ] at hs
      exact .inr ⟨by omega, hs.symm⟩
    · rw [ho, ← hP] at hs
      exact .inl ⟨by omega, hs.symm⟩

theorem inv_next {e : Nat} {rest : List Nat} {s s3 : St} (he : D s0.V used p q e) (hn : e ∉ rest)
    (hrD : ∀ k ∈ rest, D s0.V used p q k)
    (hI : Inv tref used p q s0 (e :: rest) s) {P Q : Nat}
    (hP : P = link s0.A e (idx (s0.V e) q)) (hQ : Q = link s0.A e (idx (s0.V e) p))
    (hA : s3.A = relink s.A P Q) (hV : s3.V = s.V)
    (hrest : ∀ j ∈ rest, s3.xt j = s.xt j ∧ (s.xt j ≠ 0 → s3.R (s.xt j) = s.R (s.xt j)))
    (hsl : Slots (live used p q s0 rest) s3)
    (htou : ∀ j f, O s0.V used p q j → f < 4 → Touched P Q j f → fd s3 j f = val p q s0 j f ∧
      (s3.xt j ≠ 0 → OriSpec tref (glued p q s0 j f) j (ori s3 j f)))
    (hunt : ∀ j f, O s0.V used p q j → f < 4 → ¬ Touched P Q j f → fd s3 j f = fd s j f ∧
      (s3.xt j ≠ 0 → ori s3 j f = if s.xt j = 0 then true else ori s j f))
    (hmono : ∀ j, O s0.V used p q j → s.xt j ≠ 0 → s3.xt j ≠ 0) :
    Inv tref used p q s0 rest (delElt e s3) := by
  have he1 := hm.adj.pos e he.1
  have hneO : ∀ k, O s0.V used p q k → k ≠ e := by
    rintro k hk rfl; exact hk.2 he
  have hneR : ∀ k ∈ rest, k ≠ e := by
    rintro k hk rfl; exact hn hk
  have hneL : ∀ k, live used p q s0 rest k → k ≠ e := by
    rintro k (h | h)
    · exact hneO k h
    · exact hneR k h
  have hP1 : P ≠ 0 → 1 ≤ P / 4 := fun h =>
    hm.adj.pos _ (hP ▸ (hm.adj.ok e he.1 _ (idx_lt (hm.len _ he.1) he.2.2) (hP ▸ h)).1)
  have hQ1 : Q ≠ 0 → 1 ≤ Q / 4 := fun h =>
    hm.adj.pos _ (hQ ▸ (hm.adj.ok e he.1 _ (idx_lt (hm.len _ he.1) he.2.1) (hQ ▸ h)).1)
  have hcond : ∀ k f, O s0.V used p q k → f < 4 → (Cond used p q s0 rest k f ↔
      Cond used p q s0 (e :: rest) k f ∨ Touched P Q k f) := by
    intro k f hk hf
    rw [touched_iff hm hnt hpq he hP hQ hk hf]
    unfold Cond
    constructor
    · rintro ⟨h1, h2, h3⟩
      by_cases h4 : link s0.A k f / 4 = e
      · exact .inr ⟨h1, h4⟩
      · exact .inl ⟨h1, h2, by simp [h4, h3]⟩
    · rintro (⟨h1, h2, h3⟩ | ⟨h1, h2⟩)
      · exact ⟨h1, h2, fun h => h3 (by simp [h])⟩
      · exact ⟨h1, by rw [h2]; exact he, by rw [h2]; exact hn⟩
  have hexcl : ∀ k f, O s0.V used p q k → f < 4 → Touched P Q k f →
      ¬ Cond used p q s0 (e :: rest) k f := by
    intro k f hk hf ht hc
    have := (touched_iff hm hnt hpq he hP hQ hk hf).1 ht
    apply hc.2.2
    rw [this.2]; simp
  have hxt : ∀ k, k ≠ e → (delElt e s3).xt k = s3.xt k := by
    intro k hk; simp [delElt, hk]
  have hfd : ∀ k f, k ≠ e → fd (delElt e s3) k f = fd s3 k f := by
    intro k f hk; unfold fd; rw [hxt k hk]; rfl
  have hori : ∀ k f, k ≠ e → ori (delElt e s3) k f = ori s3 k f := by
    intro k f hk; unfold ori; rw [hxt k hk]; rfl
  have hlink : ∀ k f, 1 ≤ k → k ≠ e → f < 4 → link (delElt e s3).A k f =
      if Q ≠ 0 ∧ 4 * k + f = Q then P else if P ≠ 0 ∧ 4 * k + f = P then Q else link s.A k f := by
    intro k f h1 h2 h3
    rw [link_del he1 h1 h3 h2, hA, link_relink hP1 hQ1 h1 h3]
  have hlinkN : ∀ k f, 1 ≤ k → k ≠ e → f < 4 → ¬ Touched P Q k f →
      link (delElt e s3).A k f = link s.A k f := by
    intro k f h1 h2 h3 h4
    rw [hlink k f h1 h2 h3, if_neg (fun h => h4 (.inr h)), if_neg (fun h => h4 (.inl h))]
  refine ⟨?_, ?_, ?_, ?_, ?_, ?_, ?_, ?_, ?_, ?_, ?_, ?_, ?_⟩
  · intro k hk f hf hc
    have hk1 := hm.adj.pos k hk.1
    by_cases ht : Touched P Q k f
    · rw [hlink k f hk1 (hneO k hk) hf]
      by_cases h1 : Q ≠ 0 ∧ 4 * k + f = Q
      · rw [if_pos h1]
        have := (glued_q hm hnt hpq he hP hQ h1.1).2
        rw [show Q / 4 = k by omega, show Q % 4 = f by omega] at this
        exact this.symm
      · rw [if_neg h1]
        rcases ht with ht | ht
        · rw [if_pos ht]
          have := (glued_p hm hnt hpq he hP hQ ht.1).2
          rw [show P / 4 = k by omega, show P % 4 = f by omega] at this
          exact this.symm
        · exact absurd ht h1
    · rw [hlinkN k f hk1 (hneO k hk) hf ht]
      exact hI.linkG k hk f hf (((hcond k f hk hf).1 hc).resolve_right ht)
  · intro k hk f hf hc
    rw [hcond k f hk hf, not_or] at hc
    rw [hlinkN k f (hm.adj.pos k hk.1) (hneO k hk) hf hc.2]
    exact hI.linkN k hk f hf hc.1
  · intro k hk f hf
    have hd := hrD k hk
    have ht : ¬ Touched P Q k f := by
      rintro (⟨h0, h1⟩ | ⟨h0, h1⟩)
      · have := (shell_q hm hnt hpq he (hP ▸ h0)).1
        rw [← hP, show P / 4 = k by omega] at this
        exact this.2 hd
      · have := (shell_p hm hnt hpq he (hQ ▸ h0)).1
        rw [← hQ, show Q / 4 = k by omega] at this
        exact this.2 hd
    rw [hlinkN k f (hm.adj.pos k hd.1) (hneR k hk) hf ht]
    exact hI.row k (by simp [hk]) f hf
  · intro k hk
    have hk' := hneL k hk
    have : (delElt e s3).V k = s3.V k := by simp [delElt, hk']
    rw [this, hV]
    apply hI.ver
    rcases hk with h | h
    · exact .inl h
    · exact .inr (by simp [h])
  · refine ⟨?_, ?_⟩
    · intro i j hi hj
      rw [hxt i (hneL i hi), hxt j (hneL j hj)]
      exact hsl.1 i j hi hj
    · intro i hi
      rw [hxt i (hneL i hi)]
      exact hsl.2 i hi
  · intro k hk
    obtain ⟨h1, h2⟩ := hI.keep k (by simp [hk])
    obtain ⟨h3, h4⟩ := hrest k hk
    rw [hxt k (hneR k hk), h3, h1]
    refine ⟨rfl, fun h0 => ?_⟩
    have : (delElt e s3).R = s3.R := rfl
    rw [this, ← h1, h4 (h1 ▸ h0), h1, h2 h0]
  · intro k hk f hf hc
    rw [hfd k f (hneO k hk)]
    by_cases ht : Touched P Q k f
    · exact (htou k f hk hf ht).1
    · rw [(hunt k f hk hf ht).1]
      exact hI.dataG k hk f hf (((hcond k f hk hf).1 hc).resolve_right ht)
  · intro k hk f hf hc
    rw [hfd k f (hneO k hk)]
    rw [hcond k f hk hf, not_or] at hc
    rw [(hunt k f hk hf hc.2).1]
    exact hI.dataN k hk f hf hc.1
  · intro k hk h0
    rw [hxt k (hneO k hk)]
    exact hmono k hk (hI.mono k hk h0)
  · intro k hk hx f hf hc hb
    rw [hxt k (hneO k hk)] at hx
    rw [hori k f (hneO k hk)]
    by_cases ht : Touched P Q k f
    · exact (htou k f hk hf ht).2 hx
    · have hc' := ((hcond k f hk hf).1 hc).resolve_right ht
      rw [(hunt k f hk hf ht).2 hx]
      by_cases h0 : s.xt k = 0
      · have := hI.dataG k hk f hf hc'
        rw [← this] at hb
        unfold fd at hb
        rw [if_pos h0] at hb
        exact absurd hb (by decide)
      · rw [if_neg h0]
        exact hI.oriG k hk h0 f hf hc' hb
  · intro k hk hx f hf hc
    rw [hxt k (hneO k hk)] at hx
    rw [hori k f (hneO k hk)]
    rw [hcond k f hk hf, not_or] at hc
    rw [(hunt k f hk hf hc.2).2 hx]
    by_cases h0 : s.xt k = 0
    · rw [if_pos h0]
      by_cases h1 : s0.xt k = 0
      · rw [if_pos h1]
      · exact absurd h0 (hI.mono k hk h1)
    · rw [if_neg h0]
      exact hI.oriN k hk h0 f hf hc.1
  · intro k hk hr
    by_cases hke : k = e
    · simp [delElt, hke]
    · have : (delElt e s3).V k = s3.V k := by simp [delElt, hke]
      rw [this, hV]
      exact hI.gone k hk (by simp [hke, hr])
  · intro k hk
    have hke : k ≠ e := by rintro rfl; exact hk he.1
    have : (delElt e s3).V k = s3.V k := by simp [delElt, hke]
    rw [this, hV]
    exact hI.unused k hk

variable (hfc : FaceOK tref used s0)
include hfc

/-- One round: no assertion fails; the invariant holds for the remaining tetrahedra. -/
theorem step_inv {room : Nat → Bool} {x e : Nat} {rest : List Nat} {s : St} (hxe : x / 4 = e)
    (he : D s0.V used p q e) (hx : x % 4 = idx (s0.V e) p) (hn : e ∉ rest)
    (hrD : ∀ k ∈ rest, D s0.V used p q k) (hI : Inv tref used p q s0 (e :: rest) s) :
    match step tref room q x s with
    | .asrt => False
    | .nomem => ∃ n, room n = false
    | .ok s' => Inv tref used p q s0 rest s' := by
  have hlen := hm.len _ he.1
  have hnd := hm.nd _ he.1
  have hip := idx_lt hlen he.2.1
  have hiq := idx_lt hlen he.2.2
  have hver : s.V e = s0.V e := hI.ver e (.inr (by simp))
  have hfq : findq (s.V e) (idx (s0.V e) p) q = some (idx (s0.V e) q) := by
    rw [hver, findq_spec hlen hnd hip (by rw [idx_get hlen he.2.1]; exact hpq), if_pos he.2.2]
  have hPe := hI.row e (by simp) _ hiq
  have hQe := hI.row e (by simp) _ hip
  unfold step
  simp only [hxe, hx, hfq, hPe, hQe]
  obtain ⟨P, hP⟩ : ∃ P, P = link s0.A e (idx (s0.V e) q) := ⟨_, rfl⟩
  obtain ⟨Q, hQ⟩ : ∃ Q, Q = link s0.A e (idx (s0.V e) p) := ⟨_, rfl⟩
  rw [← hP, ← hQ]
  have hP1 : P ≠ 0 → 1 ≤ P / 4 := fun h =>
    hm.adj.pos _ (hP ▸ (hm.adj.ok e he.1 _ hiq (hP ▸ h)).1)
  have hQ1 : Q ≠ 0 → 1 ≤ Q / 4 := fun h =>
    hm.adj.pos _ (hQ ▸ (hm.adj.ok e he.1 _ hip (hQ ▸ h)).1)
  -- facts on the two neighbours
  have hOP : P ≠ 0 → O s0.V used p q (P / 4) ∧ p ∈ s0.V (P / 4) := fun h => by
    have := shell_q hm hnt hpq he (hP ▸ h)
    rw [← hP] at this
    exact ⟨this.1, this.2.1⟩
  have hOQ : Q ≠ 0 → O s0.V used p q (Q / 4) ∧ p ∉ s0.V (Q / 4) := fun h => by
    have := shell_p hm hnt hpq he (hQ ▸ h)
    rw [← hQ] at this
    exact ⟨this.1, this.2.1⟩
  have hPQ : P ≠ 0 → Q ≠ 0 → Q / 4 ≠ P / 4 := fun h1 h2 h3 =>
    (hOQ h2).2 (h3 ▸ (hOP h1).2)
  have hRne : ∀ j ∈ rest, ∀ k, O s0.V used p q k → j ≠ k := by
    rintro j hj k hk rfl; exact hk.2 (hrD j hj)
  by_cases hP0 : P = 0
  · rw [if_neg (by omega)]
    obtain ⟨s3, h3, h4⟩ := qel_alone (A1 := relink s.A P Q) hm hnt hpq hfc he hn hI hP hQ hP0
    rw [h3]
    simp only
    rcases h4 with ⟨hQ0, rfl⟩ | ⟨hQ0, hw⟩
    · have hnt' : ∀ j f, ¬ Touched P Q j f := by
        rintro j f (h | h)
        · exact h.1 hP0
        · exact h.1 hQ0
      refine inv_next hm hnt hpq he hn hrD hI hP hQ rfl rfl (fun _ _ => ⟨rfl, fun _ => rfl⟩) ?_
        (fun j f _ _ ht => absurd ht (hnt' j f)) (fun j f _ _ _ => ⟨rfl, fun h => ?_⟩)
        (fun _ _ h => h)
      · refine slots_mono ?_ hI.slots
        rintro k (h | h)
        · exact .inl h
        · exact .inr (by simp [h])
      · have h : s.xt j ≠ 0 := h
        rw [if_neg h]; rfl
    · refine inv_next hm hnt hpq he hn hrD hI hP hQ hw.frame.1 hw.frame.2 ?_ hw.slots ?_ ?_ ?_
      · intro j hj
        exact hw.xtne j (.inr hj) (hRne j hj _ (hOQ hQ0).1)
      · rintro j f hj hf (ht | ht)
        · exact absurd hP0 ht.1
        · have e1 : Q / 4 = j := by omega
          have e2 : Q % 4 = f := by omega
          have hg := (glued_q hm hnt hpq he hP hQ hQ0).2
          have h1 := hw.fdf
          have h2 := hw.orf
          rw [e1, e2] at hg h1 h2
          refine ⟨h1, fun hx => ?_⟩
          rw [hg, hP0, h2 hx]
          exact ⟨fun _ => rfl, fun h => absurd rfl h⟩
      · intro j f hj hf ht
        by_cases hjq : j = Q / 4
        · subst hjq
          have hne : f ≠ Q % 4 := by
            intro h; exact ht (.inr ⟨hQ0, by omega⟩)
          exact ⟨hw.fdo f hne, fun hx => hw.oro hx f hne⟩
        · refine ⟨hw.fd_ne (.inl hj) hjq, fun hx => ?_⟩
          have := (hw.xtne j (.inl hj) hjq).1
          rw [this] at hx
          have hx' : s.xt j ≠ 0 := hx
          rw [if_neg hx']
          exact hw.ori_ne (.inl hj) hjq hx
      · intro j hj h0
        by_cases hjq : j = Q / 4
        · subst hjq; exact hw.mono h0
        · rw [(hw.xtne j (.inl hj) hjq).1]; exact h0
  · rw [if_pos (by have := hP1 hP0; omega)]
    obtain ⟨s2, o2, h2, hw2, ho2, hxx⟩ :=
      pel_wr (A1 := relink s.A P Q) hm hnt hpq hfc he hn hI hP hQ hP0
    rw [h2]
    simp only
    have hOp := (hOP hP0).1
    by_cases hQ0 : Q = 0
    · rw [if_neg (by omega)]
      simp only
      refine inv_next hm hnt hpq he hn hrD hI hP hQ hw2.frame.1 hw2.frame.2 ?_ hw2.slots ?_ ?_ ?_
      · intro j hj
        exact hw2.xtne j (.inr hj) (hRne j hj _ hOp)
      · rintro j f hj hf (ht | ht)
        · have e1 : P / 4 = j := by omega
          have e2 : P % 4 = f := by omega
          have hg := (glued_p hm hnt hpq he hP hQ hP0).2
          have h1 := hw2.fdf
          have h2 := hw2.orf
          rw [e1] at ho2
          rw [e1, e2] at hg h1 h2
          refine ⟨h1, fun hx => ?_⟩
          rw [hg, h2 hx]
          exact ho2 hx
        · exact absurd hQ0 ht.1
      · intro j f hj hf ht
        by_cases hjq : j = P / 4
        · subst hjq
          have hne : f ≠ P % 4 := by
            intro h; exact ht (.inl ⟨hP0, by omega⟩)
          exact ⟨hw2.fdo f hne, fun hx => hw2.oro hx f hne⟩
        · refine ⟨hw2.fd_ne (.inl hj) hjq, fun hx => ?_⟩
          have := (hw2.xtne j (.inl hj) hjq).1
          rw [this] at hx
          have hx' : s.xt j ≠ 0 := hx
          rw [if_neg hx']
          exact hw2.ori_ne (.inl hj) hjq hx
      · intro j hj h0
        by_cases hjq : j = P / 4
        · subst hjq; exact hw2.mono h0
        · rw [(hw2.xtne j (.inl hj) hjq).1]; exact h0
    · rw [if_pos (by have := hQ1 hQ0; omega)]
      have hOq := (hOQ hQ0).1
      have hqp := hPQ hP0 hQ0
      rcases qel_wr (room := room) hm hnt hpq hfc he hI hP hQ hP0 hQ0 hw2.slots
        (hw2.xtne _ (.inl hOq) hqp).1 (hw2.fd_ne (.inl hOq) hqp) with h3 | ⟨s3, o3, h3, hw3, ho3⟩
      · rw [h3.1]; exact h3.2
      · rw [h3]
        simp only
        refine inv_next hm hnt hpq he hn hrD hI hP hQ (hw3.frame.1.trans hw2.frame.1)
          (hw3.frame.2.trans hw2.frame.2) ?_ hw3.slots ?_ ?_ ?_
        · intro j hj
          obtain ⟨a1, a2⟩ := hw2.xtne j (.inr hj) (hRne j hj _ hOp)
          obtain ⟨b1, b2⟩ := hw3.xtne j (.inr hj) (hRne j hj _ hOq)
          rw [a1] at b1 b2
          exact ⟨b1, fun h0 => (b2 h0).trans (a2 h0)⟩
        · rintro j f hj hf (ht | ht)
          · have e1 : P / 4 = j := by omega
            have e2 : P % 4 = f := by omega
            have hjq : j ≠ Q / 4 := by rw [← e1]; exact hqp.symm
            have hg := (glued_p hm hnt hpq he hP hQ hP0).2
            have h1 := hw2.fdf
            have h2 := hw2.orf
            rw [e1] at ho2
            rw [e1, e2] at hg h1 h2
            refine ⟨(hw3.fd_ne (.inl hj) hjq).trans h1, fun hx => ?_⟩
            rw [(hw3.xtne j (.inl hj) hjq).1] at hx
            rw [hg, hw3.ori_ne (.inl hj) hjq hx, h2 hx]
            exact ho2 hx
          · have e1 : Q / 4 = j := by omega
            have e2 : Q % 4 = f := by omega
            have hg := (glued_q hm hnt hpq he hP hQ hQ0).2
            have h1 := hw3.fdf
            have h2 := hw3.orf
            rw [e1] at ho3
            rw [e1, e2] at hg h1 h2
            refine ⟨h1, fun hx => ?_⟩
            rw [hg, h2 hx]
            exact ho3 hx
        · intro j f hj hf ht
          by_cases hjq : j = Q / 4
          · subst hjq
            have hne : f ≠ Q % 4 := by
              intro h; exact ht (.inr ⟨hQ0, by omega⟩)
            refine ⟨(hw3.fdo f hne).trans (hw2.fd_ne (.inl hj) hqp), fun hx => ?_⟩
            have hx2 : s2.xt (Q / 4) = s.xt (Q / 4) := (hw2.xtne _ (.inl hj) hqp).1
            rw [hw3.oro hx f hne, hx2]
            by_cases h0 : s.xt (Q / 4) = 0
            · rw [if_pos h0, if_pos h0]
            · rw [if_neg h0, if_neg h0]
              exact hw2.ori_ne (.inl hj) hqp h0
          · by_cases hjp : j = P / 4
            · subst hjp
              have hne : f ≠ P % 4 := by
                intro h; exact ht (.inl ⟨hP0, by omega⟩)
              refine ⟨(hw3.fd_ne (.inl hj) hjq).trans (hw2.fdo f hne), fun hx => ?_⟩
              rw [(hw3.xtne _ (.inl hj) hjq).1] at hx
              rw [hw3.ori_ne (.inl hj) hjq hx]
              exact hw2.oro hx f hne
            · refine ⟨(hw3.fd_ne (.inl hj) hjq).trans (hw2.fd_ne (.inl hj) hjp), fun hx => ?_⟩
              rw [(hw3.xtne _ (.inl hj) hjq).1] at hx
              rw [hw3.ori_ne (.inl hj) hjq hx]
              have h4 : s2.xt j = s.xt j := (hw2.xtne _ (.inl hj) hjp).1
              have hx' : s.xt j ≠ 0 := h4 ▸ hx
              rw [if_neg hx']
              exact hw2.ori_ne (.inl hj) hjp hx'
        · intro j hj h0
          have h1 : s2.xt j ≠ 0 := by
            by_cases hjp : j = P / 4
            · subst hjp; exact hw2.mono h0
            · rw [(hw2.xtne j (.inl hj) hjp).1]; exact h0
          by_cases hjq : j = Q / 4
          · subst hjq; exact hw3.mono h1
          · rw [(hw3.xtne j (.inl hj) hjq).1]; exact h1

theorem steps_inv {room : Nat → Bool} : ∀ (L : List Nat) (s : St),
    (∀ x ∈ L, D s0.V used p q (x / 4) ∧ x % 4 = idx (s0.V (x / 4)) p) → (L.map (· / 4)).Nodup →
    Inv tref used p q s0 (L.map (· / 4)) s →
    match steps tref room q L s with
    | .asrt => False
    | .nomem => ∃ n, room n = false
    | .ok s' => Inv tref used p q s0 [] s' := by
  intro L
  induction L with
  | nil => intro s _ _ h; exact h
  | cons x xs ih =>
    intro s hL hnd hI
    rw [List.map_cons, List.nodup_cons] at hnd
    have h1 := step_inv hm hnt hpq hfc (room := room) rfl (hL x (by simp)).1 (hL x (by simp)).2 hnd.1
      (by
        intro k hk
        obtain ⟨y, hy, rfl⟩ := List.mem_map.1 hk
        exact (hL y (by simp [hy])).1) hI
    unfold steps
    revert h1
    generalize step tref room q x s = R
    intro h1
    match R, h1 with
    | .nomem, h1 => exact h1
    | .ok s', h1 => exact ih s' (fun y hy => hL y (by simp [hy])) hnd.2 h1

/-! ### Slots of the deleted tetrahedra -/

omit hm hnt hpq hfc in
theorem pel_xt {e ip P Q : Nat} {s s' : St} (h : pelPart tref e ip P Q s = .ok s') :
    ∀ k, k ≠ P / 4 → s'.xt k = s.xt k := by
  unfold pelPart at h
  simp only at h
  intro k hk
  split_ifs at h <;> cases h <;> simp [setR, setXt, hk]

omit hm hnt hpq hfc in
theorem qel_xt {room : Nat → Bool} {hadx : Bool} {px : Rec} {iq P Q : Nat} {s s' : St}
    (h : qelPart tref room hadx px iq P Q s = .ok s') : ∀ k, k ≠ Q / 4 → s'.xt k = s.xt k := by
  unfold qelPart at h
  simp only at h
  intro k hk
  split_ifs at h <;> cases h <;> simp [setR, setXt, hk]

omit hm hnt hpq hfc in
theorem alone_xt {e iq Q : Nat} {s s' : St} (h : qelAlone e iq Q s = .ok s') :
    ∀ k, (Q / 4 ≠ 0 → k ≠ Q / 4) → s'.xt k = s.xt k := by
  unfold qelAlone at h
  simp only at h
  intro k hk
  split_ifs at h with h1 h2 h3
  · cases h; simp [setR]
  · cases h; simp [setR, setXt, hk h2]
  · cases h; rfl

omit hm hnt hpq hfc in
theorem step_xt {room : Nat → Bool} {nq x iq : Nat} {s s' : St}
    (hq : findq (s.V (x / 4)) (x % 4) nq = some iq) (h : step tref room nq x s = .ok s') :
    s'.xt (x / 4) = 0 ∧ ∀ k, k ≠ x / 4 →
      (link s.A (x / 4) iq / 4 ≠ 0 → k ≠ link s.A (x / 4) iq / 4) →
      (link s.A (x / 4) (x % 4) / 4 ≠ 0 → k ≠ link s.A (x / 4) (x % 4) / 4) → s'.xt k = s.xt k := by
  unfold step at h
  simp only [hq] at h
  have del : ∀ t : St, (delElt (x / 4) t).xt (x / 4) = 0 := fun t => by simp [delElt]
  have delk : ∀ (t : St) k, k ≠ x / 4 → (delElt (x / 4) t).xt k = t.xt k := fun t k hk => by
    simp [delElt, hk]
  by_cases hP : link s.A (x / 4) iq / 4 ≠ 0
  · rw [if_pos hP] at h
    generalize hp : pelPart _ _ _ _ _ _ = R at h
    match R, hp with
    | .ok s1, hp =>
      simp only at h
      by_cases hQ : link s.A (x / 4) (x % 4) / 4 ≠ 0
      · rw [if_pos hQ] at h
        generalize hr : qelPart _ _ _ _ _ _ _ _ = R' at h
        match R', hr with
        | .ok s2, hr =>
          cases h
          refine ⟨del _, fun k h1 h2 h3 => ?_⟩
          rw [delk _ k h1, qel_xt hr k (h3 hQ), pel_xt hp k (h2 hP)]
      · rw [if_neg hQ] at h
        cases h
        refine ⟨del _, fun k h1 h2 h3 => ?_⟩
        rw [delk _ k h1, pel_xt hp k (h2 hP)]
  · rw [if_neg hP] at h
    generalize hp : qelAlone _ _ _ _ = R at h
    match R, hp with
    | .ok s1, hp =>
      cases h
      refine ⟨del _, fun k h1 h2 h3 => ?_⟩
      rw [delk _ k h1, alone_xt hp k h3]

/-- The deleted tetrahedra have no record any more, unused ones are not changed. -/
theorem steps_gone {room : Nat → Bool} : ∀ (L : List Nat) (s s' : St),
    (∀ x ∈ L, D s0.V used p q (x / 4) ∧ x % 4 = idx (s0.V (x / 4)) p) → (L.map (· / 4)).Nodup →
    Inv tref used p q s0 (L.map (· / 4)) s →
    (∀ k, D s0.V used p q k → k ∉ L.map (· / 4) → s.xt k = 0) →
    (∀ k, ¬ used k → s.xt k = s0.xt k) → steps tref room q L s = .ok s' →
    (∀ k, D s0.V used p q k → s'.xt k = 0) ∧ ∀ k, ¬ used k → s'.xt k = s0.xt k := by
  intro L
  induction L with
  | nil =>
    intro s s' _ _ _ h1 h2 h
    cases h
    exact ⟨fun k hk => h1 k hk (by simp), h2⟩
  | cons x xs ih =>
    intro s s' hL hnd hI h1 h2 h
    rw [List.map_cons, List.nodup_cons] at hnd
    obtain ⟨he, hx⟩ := hL x (by simp)
    have hlen := hm.len _ he.1
    have hip := idx_lt hlen he.2.1
    have hiq := idx_lt hlen he.2.2
    have hst := step_inv hm hnt hpq hfc (room := room) rfl he hx hnd.1
      (by
        intro k hk
        obtain ⟨y, hy, rfl⟩ := List.mem_map.1 hk
        exact (hL y (by simp [hy])).1) hI
    have hfq : findq (s.V (x / 4)) (x % 4) q = some (idx (s0.V (x / 4)) q) := by
      rw [hI.ver _ (.inr (by simp)), hx,
        findq_spec hlen (hm.nd _ he.1) hip (by rw [idx_get hlen he.2.1]; exact hpq), if_pos he.2.2]
    have hPe := hI.row (x / 4) (by simp) _ hiq
    have hQe := hI.row (x / 4) (by simp) _ hip
    have hOP : link s.A (x / 4) (idx (s0.V (x / 4)) q) / 4 ≠ 0 →
        O s0.V used p q (link s.A (x / 4) (idx (s0.V (x / 4)) q) / 4) := fun h => by
      rw [hPe] at h ⊢
      exact (shell_q hm hnt hpq he (by omega)).1
    have hOQ : link s.A (x / 4) (x % 4) / 4 ≠ 0 →
        O s0.V used p q (link s.A (x / 4) (x % 4) / 4) := fun h => by
      rw [hx, hQe] at h ⊢
      exact (shell_p hm hnt hpq he (by omega)).1
    unfold steps at h
    generalize hr : step tref room q x s = R at h hst
    match R, hr, hst with
    | .ok s1, hr, hst =>
      obtain ⟨g1, g2⟩ := step_xt hfq hr
      refine ih s1 s' (fun y hy => hL y (by simp [hy])) hnd.2 hst ?_ ?_ h
      · intro k hk hkr
        by_cases hke : k = x / 4
        · rw [hke]; exact g1
        · rw [g2 k hke (fun h0 hc => (hc ▸ hOP h0).2 hk) (fun h0 hc => (hc ▸ hOQ h0).2 hk)]
          exact h1 k hk (by simp only [List.map_cons, List.mem_cons, not_or]; exact ⟨hke, hkr⟩)
      · intro k hk
        rw [g2 k (fun hc => hk (hc ▸ he.1)) (fun h0 hc => hk (hc ▸ (hOP h0).1))
          (fun h0 hc => hk (hc ▸ (hOQ h0).1))]
        exact h2 k hk

end

end Mmg.Colver
