/-
  C80: the whole traversal keeps the invariant and ends.
-/
import Verif.OrientInv

namespace Mmg.Orient
open Mmg.Hash (Outcome)

variable {E : Env} {s0 s : St} {σ : Nat → Equiv.Perm (Fin 3)} {D : Nat → Fin 3 → Prop} {cur ncc : Nat}
  {pile : List Nat} {sd : Nat → Nat} {flag : Nat → Nat}

theorem set1_self {α : Type} (f : Nat → α) (k) (x : α) : set1 f k x k = x := by simp [set1]
theorem set1_ne {α : Type} (f : Nat → α) (k) (x : α) {k'} (h : k' ≠ k) : set1 f k x k' = f k' := by simp [set1, h]
theorem set1_id {α : Type} (f : Nat → α) (k) (x : α) (h : f k = x) : set1 f k x = f := by
  funext j; unfold set1; split
  · rename_i e; rw [e, h]
  · rfl

/-! ### Numbers of the components -/

theorem FlagInv.more (F : FlagInv E s0 D cur pile ncc sd flag) {k j} (hk : Ex E s0 k) (hf : flag k ≠ 0)
    (hn : Cross s0 k j → flag (nb s0 k j) = flag k) : FlagInv E s0 (more D k j) cur pile ncc sd flag := by
  refine ⟨?_, ?_, ?_, F.pFlag, F.le, F.conn, F.sdl, F.low⟩
  · rintro k' j' (h | ⟨rfl, rfl⟩)
    · exact F.dEx _ _ h
    · exact ⟨hk, hf⟩
  · rintro k' j' (h | ⟨rfl, rfl⟩) hc
    · exact F.dNb _ _ h hc
    · exact hn hc
  · intro k' h1 h2 h3 h4 j'
    exact Or.inl (F.dAll k' h1 h2 h3 h4 j')

/-- A numbered neighbour of the current triangle has the same number. -/
theorem FlagInv.same (F : FlagInv E s0 D cur pile ncc sd flag) (G : Good E s0) (hk : Ex E s0 cur)
    (hf : flag cur = ncc) {j} (hc : Cross s0 cur j) (h : flag (nb s0 cur j) ≠ 0) : flag (nb s0 cur j) = ncc := by
  obtain ⟨a, b, c, d⟩ := cross_back G hk hc
  by_cases hp : nb s0 cur j ∈ pile
  · exact (F.pFlag _ hp).2
  · have hne : nb s0 cur j ≠ cur := (G.link cur j hk hc.1).2.1
    have := F.dNb _ _ (F.dAll _ a h hne hp (np s0 cur j)) b
    rw [c, hf] at this
    exact this.symm

/-- A new triangle gets the number of the current component. -/
theorem FlagInv.push (F : FlagInv E s0 D cur pile ncc sd flag) (G : Good E s0) (hk : Ex E s0 cur) (hf : flag cur = ncc)
    (hn : ncc ≠ 0) {j} (hc : Cross s0 cur j) (h : flag (nb s0 cur j) = 0) :
    FlagInv E s0 D cur (nb s0 cur j :: pile) ncc sd (set1 flag (nb s0 cur j) ncc) := by
  obtain ⟨a, b, c, d⟩ := cross_back G hk hc
  have hne : nb s0 cur j ≠ cur := (G.link cur j hk hc.1).2.1
  set kk := nb s0 cur j with hkk
  have keep : ∀ k, flag k ≠ 0 → set1 flag kk ncc k = flag k := fun k h' => set1_ne _ _ _ (fun e => h' (e ▸ h))
  have hsd := F.sdl cur hk (by rw [hf]; exact hn)
  rw [hf] at hsd
  refine ⟨?_, ?_, ?_, ?_, ?_, ?_, ?_, ?_⟩
  · intro k j' hd
    have := F.dEx k j' hd
    exact ⟨this.1, by rw [keep k this.2]; exact this.2⟩
  · intro k j' hd hcr
    have h1 := F.dEx k j' hd
    have h2 := F.dNb k j' hd hcr
    rw [keep k h1.2, keep _ (by rw [h2]; exact h1.2)]; exact h2
  · intro k h1 h2 h3 h4 j'
    have hkne : k ≠ kk := fun e => h4 (e ▸ List.mem_cons_self)
    rw [set1_ne _ _ _ hkne] at h2
    exact F.dAll k h1 h2 h3 (fun e => h4 (List.mem_cons_of_mem _ e)) j'
  · intro k hm
    rcases List.mem_cons.1 hm with rfl | hm
    · exact ⟨a, set1_self _ _ _⟩
    · have := F.pFlag k hm
      exact ⟨this.1, by rw [keep k (by rw [this.2]; exact hn)]; exact this.2⟩
  · intro k h1
    by_cases e : k = kk
    · rw [e, set1_self]
    · rw [set1_ne _ _ _ e]; exact F.le k h1
  · have toCur : ∀ k, Ex E s0 k → set1 flag kk ncc k = ncc → Conn E s0 k cur := by
      intro k h1 h2
      by_cases e : k = kk
      · exact Relation.ReflTransGen.single (e ▸ ⟨a, _, b, c⟩)
      · rw [set1_ne _ _ _ e] at h2
        exact F.conn k cur h1 hk (h2.trans hf.symm) (by rw [h2]; exact hn)
    intro k k' h1 h2 h3 h4
    by_cases e : set1 flag kk ncc k = ncc
    · exact Relation.ReflTransGen.trans (toCur k h1 e) (Conn.symm G (toCur k' h2 (h3.symm.trans e)))
    · have e1 : k ≠ kk := fun x => e (by rw [x, set1_self])
      have e2 : k' ≠ kk := fun x => e (by rw [h3, x, set1_self])
      rw [set1_ne _ _ _ e1] at h3 h4
      rw [set1_ne _ _ _ e2] at h3
      exact F.conn k k' h1 h2 h3 h4
  · intro k h1 h2
    by_cases e : k = kk
    · subst e
      rw [set1_self, keep _ (by rw [hsd.2.2]; exact hn)]
      refine ⟨?_, hsd.2.1, hsd.2.2⟩
      by_contra hlt
      exact F.low kk a (by omega) h
    · rw [set1_ne _ _ _ e] at h2 ⊢
      have := F.sdl k h1 h2
      rw [keep _ (by rw [this.2.2]; exact h2)]; exact this
  · intro k h1 h2
    have := F.low k h1 h2
    rw [keep k this]; exact this

/-! ### Turning over -/

theorem flip_tags {kk a b x y} (T : TagInv E s0 σ D s.tag) (hab : a ≠ b) :
    TagInv E s0 (Function.update σ kk (σ kk * Equiv.swap a b)) D (flip s kk a b x y).tag := by
  have ev : ∀ k i, (flip s kk a b x y).tag k i = if k = kk then s.tag kk (Equiv.swap a b i) else s.tag k i :=
    fun k i => swp_eq s.tag kk hab k i
  constructor
  · intro k i hk
    rw [ev]
    by_cases h : k = kk
    · subst h; rw [if_pos rfl, Function.update_self]; exact T.any _ _ hk
    · rw [if_neg h, Function.update_of_ne h]; exact T.any _ _ hk
  · intro k i hk hd
    rw [ev]
    by_cases h : k = kk
    · subst h; rw [Function.update_self] at hd ⊢; rw [if_pos rfl]; exact T.done _ _ hk hd
    · rw [Function.update_of_ne h] at hd ⊢; rw [if_neg h]; exact T.done _ _ hk hd

/-- The test of the code. -/
theorem test_iff (R : Rel E s0 σ s) (G : Good E s0) {k i} (hk : Ex E s0 k) (h : s0.adj k (σ k i) ≠ 0) :
    s.v (nb s k i) (np s k i + 1) = s.v k (i + 1) ↔ Same s k i := by
  constructor
  · intro e
    rcases (R.linked G k i ((R.ex G k).2 hk) (fun x => h ((R.adj0 G hk).1 x))).2.2.2 with h1 | h1
    · exact h1
    · exfalso
      have := e.symm.trans h1.1
      rw [R.v _ _ hk, R.v _ _ hk] at this
      exact fin_ne1 i ((σ k).injective (G.dist k hk _ _ this))
  · exact fun e => e.1

/-- Same direction, in terms of an orientation of the surface. -/
theorem same_iff (R : Rel E s0 σ s) (G : Good E s0) {f : Nat → Bool} (O : Orients E s0 f) {k i} (hk : Ex E s0 k)
    (hc : Cross s0 k (σ k i)) :
    Same s k i ↔ ((odd (σ k) != odd (σ (nb s0 k (σ k i)))) != (f (nb s0 k (σ k i)) != f k)) = true := by
  have hd := R.dir G hk hc.1
  have ho := O k _ hk hc
  have hx := excl G (i := σ k i) hk
  by_cases h1 : odd (σ k) = odd (σ (nb s0 k (σ k i)))
  · rw [(hd.1 h1).1]
    by_cases h2 : f (nb s0 k (σ k i)) = f k
    · rw [h1, h2]; simp only [bne_self_eq_false]
      exact ⟨fun h => absurd ⟨h, ho.1 h2⟩ hx, fun h => absurd h (by decide)⟩
    · have : (f (nb s0 k (σ k i)) != f k) = true := by simpa using h2
      rw [h1, this]; simp only [bne_self_eq_false]
      exact ⟨fun _ => by decide, fun _ => ho.2 h2⟩
  · rw [(hd.2 h1).1]
    have e1 : (odd (σ k) != odd (σ (nb s0 k (σ k i)))) = true := by simpa using h1
    by_cases h2 : f (nb s0 k (σ k i)) = f k
    · rw [e1, h2]; simp only [bne_self_eq_false]
      exact ⟨fun _ => by decide, fun _ => ho.1 h2⟩
    · have : (f (nb s0 k (σ k i)) != f k) = true := by simpa using h2
      rw [e1, this]
      exact ⟨fun h => absurd ⟨ho.2 h2, h⟩ hx, fun h => absurd h (by decide)⟩

/-! ### Measure -/

/-- Triangles without number. -/
def cnt (E : Env) (s0 : St) (flag : Nat → Nat) : Nat :=
  (List.range' 1 E.nt).countP fun k => s0.v k 0 != 0 && flag k == 0

theorem countP_lt {α : Type} {p q : α → Bool} {l : List α} (h : ∀ x ∈ l, q x = true → p x = true) {a} (ha : a ∈ l)
    (hp : p a = true) (hq : q a = false) : l.countP q < l.countP p := by
  induction l with
  | nil => exact absurd ha List.not_mem_nil
  | cons x l ih =>
    rcases List.mem_cons.1 ha with rfl | hm
    · rw [List.countP_cons_of_pos hp, List.countP_cons_of_neg (by rw [hq]; decide)]
      exact Nat.lt_succ_of_le (List.countP_mono_left fun x hx => h x (List.mem_cons_of_mem _ hx))
    · have := ih (fun x hx => h x (List.mem_cons_of_mem _ hx)) hm
      by_cases hqx : q x = true
      · rw [List.countP_cons_of_pos hqx, List.countP_cons_of_pos (h x List.mem_cons_self hqx)]; omega
      · rw [List.countP_cons_of_neg hqx]
        by_cases hpx : p x = true
        · rw [List.countP_cons_of_pos hpx]; omega
        · rw [List.countP_cons_of_neg hpx]; omega

theorem cnt_set {k n} (hk : Ex E s0 k) (h : flag k = 0) (hn : n ≠ 0) :
    cnt E s0 (set1 flag k n) < cnt E s0 flag := by
  refine countP_lt (a := k) ?_ ?_ ?_ ?_
  · intro x _ hx
    rw [Bool.and_eq_true, beq_iff_eq] at hx ⊢
    refine ⟨hx.1, ?_⟩
    by_cases e : x = k
    · rw [e]; exact h
    · have := hx.2; rw [set1_ne _ _ _ e] at this; exact this
  · rw [List.mem_range'_1]; have := hk.1; have := hk.2.1; omega
  · simp [h, hk.2.2]
  · simp [set1_self, hn]

/-- What is left to do. -/
def meas (E : Env) (s0 : St) (flag : Nat → Nat) (pile : List Nat) : Nat := 2 * cnt E s0 flag + pile.length

/-! ### One side -/

theorem Rel.congr {s' : St} (R : Rel E s0 σ s) (h1 : s'.v = s.v) (h2 : s'.adj = s.adj) (h3 : s'.edg = s.edg) :
    Rel E s0 σ s' := by
  constructor
  · rw [h1]; exact R.v
  · rw [h1]; exact R.dead
  · rw [h3]; exact R.edg
  · rw [h2]; exact R.adj

/-- What one or several sides of the current triangle do. -/
structure Goes (E : Env) (s0 : St) (σ : Nat → Equiv.Perm (Fin 3)) (D' : Nat → Fin 3 → Prop) (k : Nat) (pile : List Nat)
    (ncc : Nat) (sd : Nat → Nat) (s : St) (s' : St) (pile' : List Nat) (σ' : Nat → Equiv.Perm (Fin 3)) : Prop where
  inv : Inv E s0 σ' D' k pile' ncc sd s'
  cur : σ' k = σ k
  flag : s'.flag k = ncc
  meas : meas E s0 s'.flag pile' ≤ meas E s0 s.flag pile
  ori : ∀ f, Orients E s0 f → OInv E s0 f sd σ s.flag → OInv E s0 f sd σ' s'.flag

theorem cont_inv (G : Good E s0) (I : Inv E s0 σ D cur pile ncc sd s) (hk : Ex E s0 cur) (hf : s.flag cur = ncc)
    (hn : ncc ≠ 0) {i} (hc : Cross s0 cur (σ cur i)) {D'} (hD : D' = more D cur (σ cur i)) {tg pt}
    (T : TagInv E s0 σ D' tg) (P : PtInv E s0 D' pt) :
    (cont ncc cur i { s with tag := tg, ptag := pt } pile = .fail ∧
      ∀ f, Orients E s0 f → ¬ OInv E s0 f sd σ s.flag) ∨
    ∃ s' pile' σ', cont ncc cur i { s with tag := tg, ptag := pt } pile = .ok (s', pile') ∧
      Goes E s0 σ D' cur pile ncc sd s s' pile' σ' := by
  have R := I.rel
  obtain ⟨hkk, hB, hbn, hbp⟩ := cross_back G hk hc
  have hne : nb s0 cur (σ cur i) ≠ cur := (G.link cur _ hk hc.1).2.1
  have hnb := R.nb hk hc.1
  have htest := test_iff R G hk hc.1
  set kk := nb s0 cur (σ cur i) with hkkdef
  -- the numbers
  obtain ⟨fl, pl, hfl, hpl, hF, hm, hkeep, hnew, hkk1⟩ : ∃ fl pl,
      (if s.flag kk = 0 then ({ s with tag := tg, ptag := pt, flag := set1 s.flag kk ncc } : St)
        else { s with tag := tg, ptag := pt }) = { s with tag := tg, ptag := pt, flag := fl } ∧
      (if s.flag kk = 0 then kk :: pile else pile) = pl ∧
      FlagInv E s0 D' cur pl ncc sd fl ∧ meas E s0 fl pl ≤ meas E s0 s.flag pile ∧
      (∀ k, s.flag k ≠ 0 → fl k = s.flag k) ∧ (∀ k, k ≠ kk → fl k = s.flag k) ∧ fl kk = ncc := by
    by_cases h0 : s.flag kk = 0
    · refine ⟨set1 s.flag kk ncc, kk :: pile, by rw [if_pos h0], by rw [if_pos h0], ?_, ?_, ?_, ?_, set1_self _ _ _⟩
      · have hp := I.flags.push G hk hf hn hc h0
        rw [hD]
        have e : set1 s.flag kk ncc cur = ncc := by rw [set1_ne _ _ _ hne.symm]; exact hf
        refine hp.more hk (by rw [← hkkdef, e]; exact hn) ?_
        intro _
        rw [← hkkdef, e, set1_self]
      · have := cnt_set (flag := s.flag) hkk h0 hn
        unfold meas; rw [List.length_cons]; omega
      · exact fun k h => set1_ne _ _ _ (fun e => h (e ▸ h0))
      · exact fun k h => set1_ne _ _ _ h
    · have e := I.flags.same G hk hf hc h0
      refine ⟨s.flag, pile, by rw [if_neg h0], by rw [if_neg h0], ?_, le_refl _, fun _ _ => rfl, fun _ _ => rfl, e⟩
      rw [hD]
      refine I.flags.more hk (by rw [hf]; exact hn) ?_
      intro _; rw [hf]; exact e
  have hnb' : nb ({ s with tag := tg, ptag := pt } : St) cur i = kk := hnb
  have hnp' : np ({ s with tag := tg, ptag := pt } : St) cur i = np s cur i := rfl
  rw [hnb] at htest
  have hcS : Same s cur i → cont ncc cur i { s with tag := tg, ptag := pt } pile =
      (if s.base kk < 0 then Outcome.fail
       else Outcome.ok (flip { s with tag := tg, ptag := pt, flag := fl } kk (np s cur i + 1) (np s cur i + 2)
          (s.v cur (i + 1)) (s.v cur (i + 2)), pl)) := by
    intro hS
    unfold cont
    simp only [hnb', hnp', hpl, hfl]
    rw [if_pos (show s.v kk (np s cur i + 1) = s.v cur (i + 1) from htest.2 hS)]
  have hcN : ¬ Same s cur i → cont ncc cur i { s with tag := tg, ptag := pt } pile =
      Outcome.ok ({ s with tag := tg, ptag := pt, flag := fl, base := set1 s.base kk (- s.base kk) }, pl) := by
    intro hS
    unfold cont
    simp only [hnb', hnp', hpl, hfl]
    rw [if_neg (show ¬ s.v kk (np s cur i + 1) = s.v cur (i + 1) from fun e => hS (htest.1 e))]
  have hfc : fl cur = ncc := by rw [hkeep cur (by rw [hf]; exact hn)]; exact hf
  have hsame := fun f (O : Orients E s0 f) => same_iff R G O (i := i) hk hc
  have hor : ∀ f, OInv E s0 f sd σ s.flag → odd (σ cur) = (f cur != f (sd ncc)) := by
    intro f O
    have := (O cur hk (by rw [hf]; exact hn)).1
    rw [hf] at this; exact this
  by_cases hS : Same s cur i
  · rw [hcS hS]
    by_cases hb : s.base kk < 0
    · left
      rw [if_pos hb]
      refine ⟨rfl, ?_⟩
      intro f O OI
      have h0 : s.flag kk ≠ 0 := by
        intro h0
        have := (I.fresh kk hkk h0).2
        omega
      have h1 := (OI kk hkk h0).1
      rw [I.flags.same G hk hf hc h0] at h1
      have h2 := (hsame f O).1 hS
      rw [← hkkdef, h1, hor f OI] at h2
      revert h2
      cases f cur <;> cases f kk <;> cases f (sd ncc) <;> decide
    · right
      rw [if_neg hb]
      have hab : np s cur i + 1 ≠ np s cur i + 2 := fin_ne1 _
      refine ⟨_, _, Function.update σ kk (σ kk * Equiv.swap (np s cur i + 1) (np s cur i + 2)), rfl, ?_⟩
      have hip1 : s.v cur (i + 1) = s.v kk (np s cur i + 1) := by rw [← hS.1, hnb]
      have hip2 : s.v cur (i + 2) = s.v kk (np s cur i + 2) := by rw [← hS.2, hnb]
      have hR' : Rel E s0 σ ({ s with tag := tg, ptag := pt, flag := fl } : St) := R.congr rfl rfl rfl
      have hR2 := flip_rel hR' G hkk hab
      refine ⟨⟨?_, ?_, P, hF, ?_⟩, ?_, hfc, hm, ?_⟩
      · rw [hip1, hip2]; exact hR2
      · exact flip_tags (s := ({ s with tag := tg, ptag := pt, flag := fl } : St)) T hab
      · intro k h1 h2
        have h2' : fl k = 0 := h2
        have hkne : k ≠ kk := fun e => hn (by rw [← hkk1, ← e]; exact h2')
        rw [Function.update_of_ne hkne]
        have h3 := I.fresh k h1 (by rw [← hnew k hkne]; exact h2')
        refine ⟨h3.1, ?_⟩
        show 0 < set1 s.base kk _ k
        rw [set1_ne _ _ _ hkne]; exact h3.2
      · exact Function.update_of_ne hne.symm _ _
      · intro f O OI
        have h2 := (hsame f O).1 hS
        rw [← hkkdef] at h2
        have h0 : s.flag kk = 0 := by
          by_contra h0
          have h1 := (OI kk hkk h0).1
          rw [I.flags.same G hk hf hc h0] at h1
          rw [h1, hor f OI] at h2
          revert h2
          cases f cur <;> cases f kk <;> cases f (sd ncc) <;> decide
        have hσ := (I.fresh kk hkk h0).1
        have hodd : odd (σ kk * Equiv.swap (np s cur i + 1) (np s cur i + 2)) = true := by
          rw [odd_swap _ _ _ hab, hσ]; decide
        intro k h1 h3
        have h3' : fl k ≠ 0 := h3
        show odd _ = (f k != f (sd (fl k))) ∧ _
        by_cases e : k = kk
        · rw [e, Function.update_self, hodd, hkk1]
          refine ⟨?_, fun h => absurd h (by decide)⟩
          rw [hσ, hor f OI] at h2
          revert h2
          rw [odd_one]
          cases f cur <;> cases f kk <;> cases f (sd ncc) <;> decide
        · rw [Function.update_of_ne e]
          rw [hnew k e] at h3' ⊢
          exact OI k h1 h3'
  · right
    rw [hcN hS]
    refine ⟨_, _, σ, rfl, ⟨⟨R.congr rfl rfl rfl, T, P, hF, ?_⟩, rfl, hfc, hm, ?_⟩⟩
    · intro k h1 h2
      have h2' : fl k = 0 := h2
      have hkne : k ≠ kk := fun e => hn (by rw [← hkk1, ← e]; exact h2')
      have h3 := I.fresh k h1 (by rw [← hnew k hkne]; exact h2')
      refine ⟨h3.1, ?_⟩
      show 0 < set1 s.base kk _ k
      rw [set1_ne _ _ _ hkne]; exact h3.2
    · intro f O OI k h1 h3
      have h3' : fl k ≠ 0 := h3
      show odd _ = (f k != f (sd (fl k))) ∧ _
      by_cases h0 : s.flag k = 0
      · have e : k = kk := by
          by_contra e
          rw [hnew k e] at h3'; exact h3' h0
        rw [e] at h0 ⊢
        have hσ := (I.fresh kk hkk h0).1
        refine ⟨?_, fun _ => hσ⟩
        have h2 : ¬ _ := fun x => hS ((hsame f O).2 x)
        rw [← hkkdef, hσ, hor f OI, odd_one] at h2
        rw [hkk1, hσ, odd_one]
        revert h2
        cases f cur <;> cases f kk <;> cases f (sd ncc) <;> decide
      · rw [hkeep k h0]
        exact OI k h1 h0

theorem side_inv (G : Good E s0) (I : Inv E s0 σ D cur pile ncc sd s) (hk : Ex E s0 cur) (hf : s.flag cur = ncc)
    (hn : ncc ≠ 0) (i) :
    (side E ncc cur i s pile = .fail ∧ ∀ f, Orients E s0 f → ¬ OInv E s0 f sd σ s.flag) ∨
    ∃ s' pile' σ', side E ncc cur i s pile = .ok (s', pile') ∧
      Goes E s0 σ (more D cur (σ cur i)) cur pile ncc sd s s' pile' σ' := by
  obtain ⟨tg, pt, T, P, h1, h2⟩ := side_spec G I.rel I.tags I.pts (i := i) hk ncc pile
  by_cases hc : Cross s0 cur (σ cur i)
  · rw [h2 hc]
    exact cont_inv G I hk hf hn hc rfl T P
  · right
    refine ⟨_, _, σ, h1 hc, ⟨⟨I.rel.congr rfl rfl rfl, T, P, ?_, I.fresh⟩, rfl, hf, le_refl _, fun _ _ h => h⟩⟩
    exact I.flags.more hk (by rw [hf]; exact hn) (fun h => absurd h hc)

/-! ### One triangle -/

/-- Several sides treated. -/
def mores (D : Nat → Fin 3 → Prop) (k : Nat) (l : List (Fin 3)) : Nat → Fin 3 → Prop := fun k' j' => D k' j' ∨ (k' = k ∧ j' ∈ l)

theorem Inv.congrD {D' : Nat → Fin 3 → Prop} (h : ∀ k j, D k j ↔ D' k j) (I : Inv E s0 σ D cur pile ncc sd s) :
    Inv E s0 σ D' cur pile ncc sd s := by
  have : D = D' := by funext k j; exact propext (h k j)
  rw [← this]; exact I

theorem sides_inv (G : Good E s0) (hk : Ex E s0 cur) (hn : ncc ≠ 0) (l : List (Fin 3)) :
    ∀ {σ D s pile}, Inv E s0 σ D cur pile ncc sd s → s.flag cur = ncc →
    (sides E ncc cur l s pile = .fail ∧ ∀ f, Orients E s0 f → ¬ OInv E s0 f sd σ s.flag) ∨
    ∃ s' pile' σ', sides E ncc cur l s pile = .ok (s', pile') ∧
      Goes E s0 σ (mores D cur (l.map (σ cur))) cur pile ncc sd s s' pile' σ' := by
  induction l with
  | nil =>
    intro σ D s pile I hf
    right
    refine ⟨s, pile, σ, rfl, ⟨I.congrD ?_, rfl, hf, le_refl _, fun _ _ h => h⟩⟩
    intro k j; simp [mores]
  | cons i r ih =>
    intro σ D s pile I hf
    unfold sides
    rcases side_inv G I hk hf hn i with ⟨h1, h2⟩ | ⟨s1, p1, σ1, h1, g1⟩
    · left; rw [h1]; exact ⟨rfl, h2⟩
    · rw [h1]
      simp only
      rcases ih g1.inv g1.flag with ⟨h3, h4⟩ | ⟨s2, p2, σ2, h3, g2⟩
      · left; exact ⟨h3, fun f O OI => h4 f O (g1.ori f O OI)⟩
      · right
        refine ⟨s2, p2, σ2, h3, ⟨g2.inv.congrD ?_, g2.cur.trans g1.cur, g2.flag, g2.meas.trans g1.meas,
          fun f O OI => g2.ori f O (g1.ori f O OI)⟩⟩
        intro k j
        rw [g1.cur]
        simp only [mores, more, List.map_cons, List.mem_cons]
        tauto

theorem perm_all (p : Equiv.Perm (Fin 3)) (j : Fin 3) : j ∈ ([0, 1, 2] : List (Fin 3)).map p := by
  rw [List.mem_map]
  refine ⟨p.symm j, ?_, Equiv.apply_symm_apply _ _⟩
  revert p j
  decide

/-! ### The whole traversal -/

/-- State at the end. -/
structure Ends (E : Env) (s0 : St) (σ : Nat → Equiv.Perm (Fin 3)) (sd : Nat → Nat) (s : St) (n : Nat) : Prop where
  inv : Inv E s0 σ (fun k _ => Ex E s0 k) 0 [] n sd s
  all : ∀ k, Ex E s0 k → s.flag k ≠ 0

theorem walk_inv (G : Good E s0) (fuel : Nat) : ∀ {σ D s pile ncc sd}, Inv E s0 σ D 0 pile ncc sd s → ncc ≠ 0 →
    meas E s0 s.flag pile < fuel →
    (walk E fuel s pile ncc = .fail ∧ ∀ f, Orients E s0 f → ¬ OInv E s0 f sd σ s.flag) ∨
    ∃ s' n σ' sd', walk E fuel s pile ncc = .ok (s', n) ∧ Ends E s0 σ' sd' s' n ∧
      ∀ f, Orients E s0 f → OInv E s0 f sd σ s.flag → OInv E s0 f sd' σ' s'.flag := by
  induction fuel with
  | zero => intro σ D s pile ncc sd _ _ h; exact absurd h (Nat.not_lt_zero _)
  | succ fuel ih =>
    intro σ D s pile ncc sd I hn hm
    cases pile with
    | cons k pile =>
      obtain ⟨hk, hfk⟩ := I.flags.pFlag k List.mem_cons_self
      have hs : ({ s with flag := set1 s.flag k ncc } : St) = s := by rw [set1_id _ _ _ hfk]
      have hm' : meas E s0 s.flag pile < fuel := by
        unfold meas at hm ⊢; rw [List.length_cons] at hm; omega
      have I1 : Inv E s0 σ D k pile ncc sd s := by
        refine ⟨I.rel, I.tags, I.pts, ⟨I.flags.dEx, I.flags.dNb, ?_, ?_, I.flags.le, I.flags.conn, I.flags.sdl,
          I.flags.low⟩, I.fresh⟩
        · intro k' h1 h2 h3 h4 j
          refine I.flags.dAll k' h1 h2 ?_ ?_ j
          · have := h1.1; omega
          · intro hmem
            rcases List.mem_cons.1 hmem with e | e
            · exact h3 e
            · exact h4 e
        · intro k' h; exact I.flags.pFlag k' (List.mem_cons_of_mem _ h)
      unfold walk
      simp only [hs]
      rw [if_neg ((I.rel.ex G k).2 hk).2.2]
      rcases sides_inv G hk hn [0, 1, 2] I1 hfk with ⟨h1, h2⟩ | ⟨s1, p1, σ1, h1, g1⟩
      · left; rw [h1]; exact ⟨rfl, h2⟩
      · rw [h1]; simp only
        have I2 : Inv E s0 σ1 (mores D k ([0, 1, 2].map (σ k))) 0 p1 ncc sd s1 := by
          refine ⟨g1.inv.rel, g1.inv.tags, g1.inv.pts, ⟨g1.inv.flags.dEx, g1.inv.flags.dNb, ?_, g1.inv.flags.pFlag,
            g1.inv.flags.le, g1.inv.flags.conn, g1.inv.flags.sdl, g1.inv.flags.low⟩, g1.inv.fresh⟩
          intro k' h1 h2 _ h4 j
          by_cases e : k' = k
          · subst e; exact Or.inr ⟨rfl, perm_all _ _⟩
          · exact g1.inv.flags.dAll k' h1 h2 e h4 j
        rcases ih I2 hn (lt_of_le_of_lt g1.meas hm') with ⟨h3, h4⟩ | ⟨s2, n, σ2, sd2, h3, h4, h5⟩
        · left; exact ⟨h3, fun f O OI => h4 f O (g1.ori f O OI)⟩
        · right; exact ⟨s2, n, σ2, sd2, h3, h4, fun f O OI => h5 f O (g1.ori f O OI)⟩
    | nil =>
      unfold walk
      cases hnx : nextTria E s with
      | none =>
        right
        have hall : ∀ k, Ex E s0 k → s.flag k ≠ 0 := by
          intro k hk h0
          unfold nextTria at hnx
          rw [List.find?_eq_none] at hnx
          have := hnx k (by rw [List.mem_range'_1]; have := hk.1; have := hk.2.1; omega)
          rw [Bool.and_eq_true, bne_iff_ne, beq_iff_eq] at this
          exact this ⟨((I.rel.ex G k).2 hk).2.2, h0⟩
        have hD : ∀ k j, D k j ↔ Ex E s0 k := by
          intro k j
          refine ⟨fun h => (I.flags.dEx k j h).1, fun h => I.flags.dAll k h (hall k h) ?_ List.not_mem_nil j⟩
          have := h.1; omega
        exact ⟨s, ncc, σ, sd, rfl, ⟨I.congrD hD, hall⟩, fun _ _ h => h⟩
      | some k =>
        simp only
        unfold nextTria at hnx
        have hsat := List.find?_some hnx
        rw [Bool.and_eq_true, bne_iff_ne, beq_iff_eq] at hsat
        have hmem := List.mem_of_find?_eq_some hnx
        rw [List.mem_range'_1] at hmem
        have hk : Ex E s0 k := (I.rel.ex G k).1 ⟨hmem.1, by omega, hsat.1⟩
        have h0 := hsat.2
        have hlow : ∀ k', Ex E s0 k' → k' < k → s.flag k' ≠ 0 := by
          intro k' hk' hlt hz
          obtain ⟨_, l1, l2, e, hno⟩ := List.find?_eq_some_iff_append.1 hnx
          have hsplit : k' ∈ l1 := by
            have hin : k' ∈ List.range' 1 E.nt := by rw [List.mem_range'_1]; have := hk'.1; have := hk'.2.1; omega
            have hsorted : (List.range' 1 E.nt).Pairwise (· < ·) := List.pairwise_lt_range'
            rw [e] at hin hsorted
            rcases List.mem_append.1 hin with h | h
            · exact h
            · exfalso
              rcases List.mem_cons.1 h with h | h
              · omega
              · have := (List.pairwise_cons.1 (List.pairwise_append.1 hsorted).2.1).1 k' h
                omega
          have := hno k' hsplit
          rw [Bool.not_eq_true', Bool.and_eq_false_iff, bne_eq_false_iff_eq, beq_eq_false_iff_ne] at this
          rcases this with h | h
          · exact ((I.rel.ex G k').2 hk').2.2 h
          · exact h hz
        have keep : ∀ k', s.flag k' ≠ 0 → set1 s.flag k (ncc + 1) k' = s.flag k' :=
          fun k' h' => set1_ne _ _ _ (fun e => h' (e ▸ h0))
        have F := I.flags
        have I2 : Inv E s0 σ D 0 [k] (ncc + 1) (set1 sd (ncc + 1) k) { s with flag := set1 s.flag k (ncc + 1) } := by
          refine ⟨I.rel.congr rfl rfl rfl, I.tags, I.pts, ⟨?_, ?_, ?_, ?_, ?_, ?_, ?_, ?_⟩, ?_⟩
          · intro k' j hd
            have := F.dEx k' j hd
            refine ⟨this.1, ?_⟩
            show set1 s.flag k (ncc + 1) k' ≠ 0
            rw [keep k' this.2]; exact this.2
          · intro k' j hd hc
            have h1 := F.dEx k' j hd
            have h2 := F.dNb k' j hd hc
            show set1 s.flag k (ncc + 1) _ = set1 s.flag k (ncc + 1) _
            rw [keep k' h1.2, keep _ (by rw [h2]; exact h1.2)]; exact h2
          · intro k' h1 h2 h3 h4 j
            have e : k' ≠ k := fun e => h4 (e ▸ List.mem_cons_self)
            have h2' : set1 s.flag k (ncc + 1) k' ≠ 0 := h2
            rw [set1_ne _ _ _ e] at h2'
            exact F.dAll k' h1 h2' h3 List.not_mem_nil j
          · intro k' h
            have : k' = k := by simpa using h
            subst this
            exact ⟨hk, set1_self _ _ _⟩
          · intro k' h1
            show set1 s.flag k (ncc + 1) k' ≤ _
            by_cases e : k' = k
            · rw [e, set1_self]
            · rw [set1_ne _ _ _ e]; have := F.le k' h1; omega
          · intro k1 k2 h1 h2 h3 h4
            have h3' : set1 s.flag k (ncc + 1) k1 = set1 s.flag k (ncc + 1) k2 := h3
            have h4' : set1 s.flag k (ncc + 1) k1 ≠ 0 := h4
            have l1 := F.le k1 h1
            have l2 := F.le k2 h2
            by_cases e1 : k1 = k
            · by_cases e2 : k2 = k
              · rw [e1, e2]; exact Relation.ReflTransGen.refl
              · rw [e1, set1_self, set1_ne _ _ _ e2] at h3'; omega
            · by_cases e2 : k2 = k
              · rw [e2, set1_self, set1_ne _ _ _ e1] at h3'; omega
              · rw [set1_ne _ _ _ e1] at h3' h4'
                rw [set1_ne _ _ _ e2] at h3'
                exact F.conn k1 k2 h1 h2 h3' h4'
          · intro k' h1 h2
            have h2' : set1 s.flag k (ncc + 1) k' ≠ 0 := h2
            show set1 sd (ncc + 1) k (set1 s.flag k (ncc + 1) k') ≤ _ ∧
              Ex E s0 (set1 sd (ncc + 1) k (set1 s.flag k (ncc + 1) k')) ∧
              set1 s.flag k (ncc + 1) (set1 sd (ncc + 1) k (set1 s.flag k (ncc + 1) k')) = set1 s.flag k (ncc + 1) k'
            by_cases e : k' = k
            · subst e
              rw [set1_self, set1_self]
              exact ⟨le_refl _, hk, set1_self _ _ _⟩
            · rw [set1_ne _ _ _ e] at h2' ⊢
              have hle := F.le k' h1
              rw [set1_ne sd _ _ (show s.flag k' ≠ ncc + 1 by omega)]
              have := F.sdl k' h1 h2'
              rw [keep _ (by rw [this.2.2]; exact h2')]
              exact this
          · intro k' h1 h2
            rw [set1_self] at h2
            have := hlow k' h1 h2
            show set1 s.flag k (ncc + 1) k' ≠ 0
            rw [keep k' this]; exact this
          · intro k' h1 h2
            have h2' : set1 s.flag k (ncc + 1) k' = 0 := h2
            have e : k' ≠ k := fun e => by rw [e, set1_self] at h2'; omega
            rw [set1_ne _ _ _ e] at h2'
            exact I.fresh k' h1 h2'
        have hm2 : meas E s0 (set1 s.flag k (ncc + 1)) [k] < fuel := by
          have := cnt_set (flag := s.flag) (n := ncc + 1) hk h0 (by omega)
          unfold meas at hm ⊢
          rw [List.length_nil] at hm
          rw [List.length_singleton]
          omega
        have hO : ∀ f, OInv E s0 f sd σ s.flag →
            OInv E s0 f (set1 sd (ncc + 1) k) σ (set1 s.flag k (ncc + 1)) := by
          intro f OI k' h1 h2
          by_cases e : k' = k
          · subst e
            rw [set1_self, set1_self, (I.fresh k' hk h0).1, odd_one]
            refine ⟨by simp, fun _ => rfl⟩
          · rw [set1_ne _ _ _ e] at h2 ⊢
            have hle := F.le k' h1
            rw [set1_ne sd _ _ (show s.flag k' ≠ ncc + 1 by omega)]
            exact OI k' h1 h2
        rcases ih I2 (by omega) hm2 with ⟨h3, h4⟩ | ⟨s2, n, σ2, sd2, h3, h4, h5⟩
        · left; exact ⟨h3, fun f O OI => h4 f O (hO f OI)⟩
        · right; exact ⟨s2, n, σ2, sd2, h3, h4, fun f O OI => h5 f O (hO f OI)⟩

end Mmg.Orient
