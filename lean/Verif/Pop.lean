import Verif.PopModel
import Verif.HashProps
import Mathlib.Data.Finset.Card
import Mathlib.Data.Finset.Range

/-!
# C103: edges are removed from the edge table one by one
-/

namespace Mmg.Hash

/-- Removal from the abstract map. -/
def del (M : Nat × Nat × Nat → Option Nat) (x : Nat × Nat × Nat) : Nat × Nat × Nat → Option Nat := fun y => if y = x then none else M y

/-- The chains of the table hold the entries of `M`; `U` are the cells in use, numbered along the chains by `rk`. -/
structure PInv (rk : Nat → Nat) (h : Hash) (U : Nat → Prop) (M : Nat × Nat × Nat → Option Nat) : Prop where
  hsiz : 0 < h.siz
  hmax : h.siz ≤ h.max
  lt : ∀ p, U p → p < h.max
  pos : ∀ p, U p → (h.item p).a ≠ 0
  headU : ∀ p, p < h.siz → (U p ↔ (h.item p).a ≠ 0)
  head : ∀ p, p < h.siz → U p → bk h (h.item p) = p
  link : ∀ p, U p → (h.item p).nxt ≠ 0 → rk p < rk (h.item p).nxt ∧ h.siz ≤ (h.item p).nxt ∧ U (h.item p).nxt ∧ bk h (h.item (h.item p).nxt) = bk h (h.item p)
  reach : ∀ q, U q → U (bk h (h.item q)) ∧ Reach h.item (bk h (h.item q)) q
  uniq : ∀ p q, U p → U q → ckey false (h.item p) = ckey false (h.item q) → p = q
  sound : ∀ p, U p → M (ckey false (h.item p)) = some (h.item p).k
  complete : ∀ x v, M x = some v → ∃ p, U p ∧ ckey false (h.item p) = x

variable {rk : Nat → Nat} {h : Hash} {U : Nat → Prop} {M : Nat × Nat × Nat → Option Nat}

theorem Inv.pinv (I : Inv false h M) : PInv id h (Used h) M := by
  have h1 := I.hnxt
  have h2 := I.hmax
  refine ⟨I.hsiz, by omega, fun p hp => I.used_lt hp, I.pos, ?_, ?_, ?_, I.reach, I.uniq, I.sound, I.complete⟩
  · intro p hp
    constructor
    · exact fun u => I.pos p u
    · exact fun a => .inl ⟨hp, a⟩
  · intro p hp u
    exact I.head p hp (I.pos p u)
  · intro p u hn
    have l := I.link p u hn
    exact ⟨l.1, l.2.1, I.next_used u hn, l.2.2.2⟩

theorem PInv.reach_used (I : PInv rk h U M) {p q} (hp : U p) (hr : Reach h.item p q) : U q ∧ bk h (h.item q) = bk h (h.item p) ∧ rk p ≤ rk q := by
  induction hr with
  | refl => exact ⟨hp, rfl, Nat.le_refl _⟩
  | step _ hn ih =>
    have hl := I.link _ ih.1 hn
    exact ⟨hl.2.2.1, by rw [hl.2.2.2, ih.2.1], by omega⟩

theorem reach_linear {it : Nat → Cell} {b p q : Nat} (hp : Reach it b p) (hq : Reach it b q) : Reach it p q ∨ Reach it q p := by
  induction hp with
  | refl => exact .inl hq
  | @step p hr hn ih =>
    rcases ih with a | a
    · rcases a.cases_head with rfl | ⟨_, a⟩
      · exact .inr (Reach.step (Reach.refl _) hn)
      · exact .inl a
    · exact .inr (Reach.step a hn)

theorem PInv.inj (I : PInv rk h U M) {p q} (hp : U p) (hq : U q) (e : (h.item p).nxt = (h.item q).nxt) (hn : (h.item p).nxt ≠ 0) : p = q := by
  have hn' : (h.item q).nxt ≠ 0 := by rw [← e]; exact hn
  have lp := I.link p hp hn
  have lq := I.link q hq hn'
  have hb : bk h (h.item p) = bk h (h.item q) := by rw [← lp.2.2.2, ← lq.2.2.2, e]
  have rp := (I.reach p hp).2
  have rq := (I.reach q hq).2
  rw [hb] at rp
  rcases reach_linear rp rq with a | a
  · rcases a.cases_head with a | ⟨_, a⟩
    · exact a
    · have := (I.reach_used lp.2.2.1 a).2.2
      rw [e] at this
      omega
  · rcases a.cases_head with a | ⟨_, a⟩
    · exact a.symm
    · have := (I.reach_used lq.2.2.1 a).2.2
      rw [← e] at this
      omega

theorem PInv.none_of_chain (I : PInv rk h U M) {x : Nat × Nat × Nat}
    (hno : ∀ q, Reach h.item (bucket h.siz x.1 x.2.1) q → ckey false (h.item q) ≠ x) : M x = none := by
  cases hM : M x with
  | none => rfl
  | some v =>
    obtain ⟨p, hp, hk⟩ := I.complete x v hM
    have hr := (I.reach p hp).2
    have hb : bk h (h.item p) = bucket h.siz x.1 x.2.1 := by rw [← hk]; rfl
    rw [hb] at hr
    exact absurd hk (hno p hr)

theorem PInv.none_of_empty (I : PInv rk h U M) {x : Nat × Nat × Nat} (he : (h.item (bucket h.siz x.1 x.2.1)).a = 0) : M x = none := by
  cases hM : M x with
  | none => rfl
  | some v =>
    obtain ⟨p, hp, hk⟩ := I.complete x v hM
    have hr := (I.reach p hp).1
    have hb : bk h (h.item p) = bucket h.siz x.1 x.2.1 := by rw [← hk]; rfl
    rw [hb] at hr
    exact absurd he ((I.headU _ (bucket_lt I.hsiz)).mp hr)

/-- The cell after `q` is taken out of the chain. -/
theorem PInv.removeNext (I : PInv rk h U M) {q : Nat} (hq : U q) (hn : (h.item q).nxt ≠ 0) (h' : Hash) (hs : h'.siz = h.siz) (hx : h'.max = h.max)
    (hi : ∀ p, p ≠ (h.item q).nxt → h'.item p = if p = q then { h.item q with nxt := (h.item (h.item q).nxt).nxt } else h.item p) :
    PInv rk h' (fun p => U p ∧ p ≠ (h.item q).nxt) (del M (ckey false (h.item (h.item q).nxt))) := by
  generalize hnn : (h.item q).nxt = n at *
  have lq := I.link q hq (by rw [hnn]; exact hn)
  rw [hnn] at lq
  have hqn : q ≠ n := by rintro rfl; omega
  have iq : h'.item q = { h.item q with nxt := (h.item n).nxt } := by rw [hi q hqn, if_pos rfl]
  have io : ∀ p, p ≠ n → p ≠ q → h'.item p = h.item p := fun p a b => by rw [hi p a, if_neg b]
  have hkey : ∀ p, p ≠ n → ckey false (h'.item p) = ckey false (h.item p) ∧ (h'.item p).k = (h.item p).k ∧
      bk h' (h'.item p) = bk h (h.item p) ∧ (h'.item p).a = (h.item p).a := by
    intro p a
    by_cases b : p = q
    · subst b; rw [iq]; exact ⟨rfl, rfl, by unfold bk; rw [hs], rfl⟩
    · rw [io p a b]; exact ⟨rfl, rfl, by unfold bk; rw [hs], rfl⟩
  refine ⟨by rw [hs]; exact I.hsiz, by rw [hs, hx]; exact I.hmax, fun p hp => by rw [hx]; exact I.lt p hp.1, fun p u => by rw [(hkey p u.2).2.2.2]; exact I.pos p u.1, ?_, ?_, ?_, ?_, ?_, ?_, ?_⟩
  · intro p hp
    rw [hs] at hp
    have pn : p ≠ n := by omega
    rw [(hkey p pn).2.2.2, ← I.headU p hp]
    exact ⟨fun a => a.1, fun a => ⟨a, pn⟩⟩
  · intro p hp u
    rw [hs] at hp
    rw [(hkey p u.2).2.2.1]
    exact I.head p hp u.1
  · intro p u hpn
    by_cases c : p = q
    · subst c
      rw [iq] at hpn ⊢
      dsimp only at hpn ⊢
      have ln := I.link n lq.2.2.1 hpn
      have e1 : (h.item n).nxt ≠ n := by intro e; rw [e] at ln; omega
      refine ⟨by omega, by rw [hs]; exact ln.2.1, ⟨ln.2.2.1, e1⟩, ?_⟩
      rw [(hkey _ e1).2.2.1, ln.2.2.2, lq.2.2.2]
      unfold bk; rw [hs]
    · rw [io p u.2 c] at hpn ⊢
      have lp := I.link p u.1 hpn
      have e1 : (h.item p).nxt ≠ n := by
        intro e
        exact c (I.inj u.1 hq (e.trans hnn.symm) hpn)
      refine ⟨lp.1, by rw [hs]; exact lp.2.1, ⟨lp.2.2.1, e1⟩, ?_⟩
      rw [(hkey _ e1).2.2.1, lp.2.2.2]
      unfold bk; rw [hs]
  · intro z u
    rw [(hkey z u.2).2.2.1]
    obtain ⟨r1, r2⟩ := I.reach z u.1
    have hb : bk h (h.item z) < h.siz := bucket_lt I.hsiz
    generalize bk h (h.item z) = b at *
    have bn : b ≠ n := by omega
    refine ⟨⟨r1, bn⟩, ?_⟩
    have key : ∀ z, Reach h.item b z → (z ≠ n → Reach h'.item b z) ∧ (z = n → Reach h'.item b q) := by
      intro z hr
      induction hr with
      | refl => exact ⟨fun _ => Reach.refl _, fun e => absurd e bn⟩
      | @step w hr hw ih =>
        have hu := (I.reach_used r1 hr).1
        constructor
        · intro e
          by_cases c : w = n
          · have := ih.2 c
            have st : (h'.item q).nxt = (h.item w).nxt := by rw [iq, c]
            rw [← st]
            exact Reach.step this (by rw [st]; exact hw)
          · have d : w ≠ q := by
              rintro rfl
              exact e hnn
            have st : (h'.item w).nxt = (h.item w).nxt := by rw [io w c d]
            rw [← st]
            exact Reach.step (ih.1 c) (by rw [st]; exact hw)
        · intro e
          have : w = q := I.inj hu hq (e.trans hnn.symm) hw
          rw [this] at ih
          exact ih.1 hqn
    exact (key z r2).1 u.2
  · intro p r up ur e
    rw [(hkey p up.2).1, (hkey r ur.2).1] at e
    exact I.uniq p r up.1 ur.1 e
  · intro p u
    rw [(hkey p u.2).1, (hkey p u.2).2.1]
    unfold del
    rw [if_neg]
    · exact I.sound p u.1
    · intro e
      exact u.2 (I.uniq p n u.1 lq.2.2.1 e)
  · intro x v e
    unfold del at e
    by_cases c : x = ckey false (h.item n)
    · rw [if_pos c] at e; cases e
    · rw [if_neg c] at e
      obtain ⟨p, hp, hk⟩ := I.complete x v e
      have pn : p ≠ n := by
        rintro rfl
        exact c hk.symm
      exact ⟨p, ⟨hp, pn⟩, by rw [(hkey p pn).1]; exact hk⟩

/-- A first cell without successor is emptied. -/
theorem PInv.removeLast (I : PInv rk h U M) {b : Nat} (hb : b < h.siz) (hU : U b) (hn : (h.item b).nxt = 0) :
    PInv rk (h.put b Cell.zero) (fun p => U p ∧ p ≠ b) (del M (ckey false (h.item b))) := by
  have io : ∀ p, p ≠ b → (h.put b Cell.zero).item p = h.item p := fun p a => by unfold Hash.put; exact if_neg a
  have ib : (h.put b Cell.zero).item b = Cell.zero := by unfold Hash.put; exact if_pos rfl
  have hbk := I.head b hb hU
  have only : ∀ z, U z → bk h (h.item z) = b → z = b := by
    intro z hz e
    have := (I.reach z hz).2
    rw [e] at this
    rcases this.cases_head with a | ⟨a, _⟩
    · exact a.symm
    · exact absurd hn a
  refine ⟨I.hsiz, I.hmax, fun p hp => I.lt p hp.1, fun p u => by rw [io p u.2]; exact I.pos p u.1, ?_, ?_, ?_, ?_, ?_, ?_, ?_⟩
  · intro p hp
    by_cases c : p = b
    · subst c
      rw [ib]
      exact ⟨fun a => absurd rfl a.2, fun a => absurd rfl a⟩
    · rw [io p c, ← I.headU p hp]
      exact ⟨fun a => a.1, fun a => ⟨a, c⟩⟩
  · intro p hp u
    rw [io p u.2]
    exact I.head p hp u.1
  · intro p u hpn
    rw [io p u.2] at hpn ⊢
    have lp := I.link p u.1 hpn
    have e : (h.item p).nxt ≠ b := by omega
    refine ⟨lp.1, lp.2.1, ⟨lp.2.2.1, e⟩, ?_⟩
    rw [io _ e]
    exact lp.2.2.2
  · intro z u
    rw [io z u.2]
    obtain ⟨r1, r2⟩ := I.reach z u.1
    have hne : bk h (h.item z) ≠ b := fun e => u.2 (only z u.1 e)
    refine ⟨⟨r1, hne⟩, ?_⟩
    show Reach (h.put b Cell.zero).item (bk h (h.item z)) z
    have hbz : bk h (h.item (bk h (h.item z))) = bk h (h.item z) := I.head _ (bucket_lt I.hsiz) r1
    generalize bk h (h.item z) = c at *
    clear u
    induction r2 with
    | refl => exact Reach.refl _
    | @step w hr hw ih =>
      have hu := I.reach_used r1 hr
      have wb : w ≠ b := by
        rintro rfl
        rw [hbk, hbz] at hu
        exact hne hu.2.1.symm
      have st : ((h.put b Cell.zero).item w).nxt = (h.item w).nxt := by rw [io w wb]
      rw [← st]
      exact Reach.step ih (by rw [st]; exact hw)
  · intro p r up ur e
    rw [io p up.2, io r ur.2] at e
    exact I.uniq p r up.1 ur.1 e
  · intro p u
    rw [io p u.2]
    unfold del
    rw [if_neg]
    · exact I.sound p u.1
    · intro e
      exact u.2 (I.uniq p b u.1 hU e)
  · intro x v e
    unfold del at e
    by_cases c : x = ckey false (h.item b)
    · rw [if_pos c] at e; cases e
    · rw [if_neg c] at e
      obtain ⟨p, hp, hk⟩ := I.complete x v e
      have pn : p ≠ b := by
        rintro rfl
        exact c hk.symm
      exact ⟨p, ⟨hp, pn⟩, by rw [io p pn]; exact hk⟩

/-- The entries of a cell and of the next one are exchanged. -/
theorem PInv.exchange (I : PInv rk h U M) {b : Nat} (hU : U b) (hn : (h.item b).nxt ≠ 0) (h' : Hash) (hs : h'.siz = h.siz) (hx : h'.max = h.max)
    (hi : ∀ p, h'.item p = if p = b then { h.item (h.item b).nxt with nxt := (h.item b).nxt } else
      if p = (h.item b).nxt then { h.item b with nxt := (h.item (h.item b).nxt).nxt } else h.item p) : PInv rk h' U M := by
  generalize hnn : (h.item b).nxt = n at *
  have lb := I.link b hU (by rw [hnn]; exact hn)
  rw [hnn] at lb
  have hbn : n ≠ b := by rintro rfl; omega
  have ib : h'.item b = { h.item n with nxt := n } := by rw [hi b, if_pos rfl]
  have i_n : h'.item n = { h.item b with nxt := (h.item n).nxt } := by rw [hi n, if_neg hbn, if_pos rfl]
  have io : ∀ p, p ≠ b → p ≠ n → h'.item p = h.item p := fun p x y => by rw [hi p, if_neg x, if_neg y]
  have nx : ∀ p, (h'.item p).nxt = (h.item p).nxt := by
    intro p
    by_cases c : p = b
    · rw [c, ib, hnn]
    · by_cases d : p = n
      · rw [d, i_n]
      · rw [io p c d]
  have hbk : ∀ p, bk h' (h'.item p) = bk h (h.item p) := by
    intro p
    by_cases c : p = b
    · rw [c, ib, ← lb.2.2.2]; unfold bk; rw [hs]
    · by_cases d : p = n
      · rw [d, i_n, lb.2.2.2]; unfold bk; rw [hs]
      · rw [io p c d]; unfold bk; rw [hs]
  have hre : ∀ p q, Reach h.item p q → Reach h'.item p q := by
    intro p q hr
    induction hr with
    | refl => exact Reach.refl _
    | @step w _ hw ih =>
      rw [← nx w]
      exact Reach.step ih (by rw [nx w]; exact hw)
  -- the cell where the entry of a cell comes from
  have sw : ∀ p, U p → ∃ r, U r ∧ ckey false (h'.item p) = ckey false (h.item r) ∧ (h'.item p).k = (h.item r).k ∧
      (r = if p = b then n else if p = n then b else p) := by
    intro p hp
    by_cases c : p = b
    · exact ⟨n, lb.2.2.1, by rw [c, ib]; rfl, by rw [c, ib], by rw [if_pos c]⟩
    · by_cases d : p = n
      · exact ⟨b, hU, by rw [d, i_n]; rfl, by rw [d, i_n], by rw [if_neg c, if_pos d]⟩
      · exact ⟨p, hp, by rw [io p c d], by rw [io p c d], by rw [if_neg c, if_neg d]⟩
  have apos : ∀ p, U p → (h'.item p).a ≠ 0 := by
    intro p hp
    by_cases c : p = b
    · rw [c, ib]; exact I.pos n lb.2.2.1
    · by_cases d : p = n
      · rw [d, i_n]; exact I.pos b hU
      · rw [io p c d]; exact I.pos p hp
  refine ⟨by rw [hs]; exact I.hsiz, by rw [hs, hx]; exact I.hmax, fun p hp => by rw [hx]; exact I.lt p hp, apos, ?_, ?_, ?_, ?_, ?_, ?_, ?_⟩
  · intro p hp
    rw [hs] at hp
    refine ⟨apos p, ?_⟩
    intro a
    by_cases c : p = b
    · rw [c]; exact hU
    · rw [io p c (by omega)] at a
      exact (I.headU p hp).mpr a
  · intro p hp u
    rw [hs] at hp
    rw [hbk p]
    exact I.head p hp u
  · intro p u hpn
    rw [nx p] at hpn ⊢
    rw [hbk, hbk, hs]
    exact I.link p u hpn
  · intro z u
    rw [hbk z]
    obtain ⟨r1, r2⟩ := I.reach z u
    exact ⟨r1, hre _ _ r2⟩
  · intro p r up ur e
    obtain ⟨p', a1, a2, _, a4⟩ := sw p up
    obtain ⟨r', b1, b2, _, b4⟩ := sw r ur
    rw [a2, b2] at e
    have := I.uniq p' r' a1 b1 e
    rw [a4, b4] at this
    split_ifs at this <;> omega
  · intro p u
    obtain ⟨p', a1, a2, a3, _⟩ := sw p u
    rw [a2, a3]
    exact I.sound p' a1
  · intro x v e
    obtain ⟨p, hp, hk⟩ := I.complete x v e
    by_cases c : p = b
    · exact ⟨n, lb.2.2.1, by rw [i_n, ← hk, c]; rfl⟩
    · by_cases d : p = n
      · exact ⟨b, hU, by rw [ib, ← hk, d]; rfl⟩
      · exact ⟨p, hp, by rw [io p c d]; exact hk⟩

/-! ### The walks -/

open Classical in
/-- Number of cells in use from the place of `p` on. -/
noncomputable def left (rk : Nat → Nat) (h : Hash) (U : Nat → Prop) (p : Nat) : Nat :=
  ((Finset.range h.max).filter fun r => U r ∧ rk p ≤ rk r).card

open Classical in
theorem left_le (rk : Nat → Nat) (h : Hash) (U : Nat → Prop) (p : Nat) : left rk h U p < h.fuel := by
  unfold left Hash.fuel
  have := Finset.card_filter_le (Finset.range h.max) (fun r => U r ∧ rk p ≤ rk r)
  rw [Finset.card_range] at this
  omega

theorem PInv.left_next (I : PInv rk h U M) {p} (hp : U p) (hn : (h.item p).nxt ≠ 0) : left rk h U (h.item p).nxt < left rk h U p := by
  have l := I.link p hp hn
  unfold left
  refine Finset.card_lt_card ⟨?_, ?_⟩
  · intro r hr
    simp only [Finset.mem_filter, Finset.mem_range] at hr ⊢
    exact ⟨hr.1, hr.2.1, by omega⟩
  · intro hc
    have := hc (x := p) (by simp only [Finset.mem_filter, Finset.mem_range]; exact ⟨I.lt p hp, hp, le_refl _⟩)
    simp only [Finset.mem_filter] at this
    omega

theorem PInv.walkPop_spec (I : PInv rk h U M) {x} (hx : KeyOk false x) : ∀ fuel p, U p → left rk h U p < fuel →
    (∃ q n, walkPop x h fuel p = .ok (some (q, n)) ∧ U q ∧ (h.item q).nxt = n ∧ n ≠ 0 ∧ ckey false (h.item n) = x) ∨
    (walkPop x h fuel p = .ok none ∧ ∀ q, Reach h.item p q → q = p ∨ ckey false (h.item q) ≠ x) := by
  intro fuel
  induction fuel with
  | zero => intro p hp hf; omega
  | succ fuel ih =>
    intro p hp hf
    unfold walkPop
    rw [if_neg (by have := I.lt p hp; omega)]
    by_cases hn : (h.item p).nxt ≠ 0
    · have l := I.link p hp hn
      simp only [hn, ne_eq, not_false_eq_true, if_true]
      rw [if_neg (by have := I.lt _ l.2.2.1; omega)]
      by_cases hm : cmatch false x (h.item (h.item p).nxt) = true
      · rw [if_pos hm]
        exact .inl ⟨p, _, rfl, hp, rfl, hn, (cmatch_iff hx).1 hm⟩
      · rw [if_neg hm]
        have hm' : ckey false (h.item (h.item p).nxt) ≠ x := fun e => hm ((cmatch_iff hx).2 e)
        rcases ih (h.item p).nxt l.2.2.1 (by have := I.left_next hp hn; omega) with a | ⟨a, b⟩
        · exact .inl a
        · refine .inr ⟨a, ?_⟩
          intro q hq
          rcases hq.cases_head with e | ⟨_, hr⟩
          · exact .inl e.symm
          · rcases b q hr with e | e
            · right; rw [e]; exact hm'
            · exact .inr e
    · right
      simp only [hn, if_false]
      refine ⟨trivial, ?_⟩
      intro q hq
      rcases hq.cases_head with e | ⟨e, _⟩
      · exact .inl e.symm
      · exact absurd e hn

theorem PInv.walkGet_spec (I : PInv rk h U M) {x} (hx : KeyOk false x) : ∀ fuel p, U p → left rk h U p < fuel →
    (∃ q, walkGet false x h fuel p = .ok (some (h.item q).k) ∧ U q ∧ ckey false (h.item q) = x) ∨
    (walkGet false x h fuel p = .ok none ∧ ∀ q, Reach h.item p q → q = p ∨ ckey false (h.item q) ≠ x) := by
  intro fuel
  induction fuel with
  | zero => intro p hp hf; omega
  | succ fuel ih =>
    intro p hp hf
    unfold walkGet
    rw [if_neg (by have := I.lt p hp; omega)]
    by_cases hn : (h.item p).nxt ≠ 0
    · have l := I.link p hp hn
      simp only [hn, ne_eq, not_false_eq_true, if_true]
      rw [if_neg (by have := I.lt _ l.2.2.1; omega)]
      by_cases hm : cmatch false x (h.item (h.item p).nxt) = true
      · rw [if_pos hm]
        exact .inl ⟨_, rfl, l.2.2.1, (cmatch_iff hx).1 hm⟩
      · rw [if_neg hm]
        have hm' : ckey false (h.item (h.item p).nxt) ≠ x := fun e => hm ((cmatch_iff hx).2 e)
        rcases ih (h.item p).nxt l.2.2.1 (by have := I.left_next hp hn; omega) with a | ⟨a, b⟩
        · exact .inl a
        · refine .inr ⟨a, ?_⟩
          intro q hq
          rcases hq.cases_head with e | ⟨_, hr⟩
          · exact .inl e.symm
          · rcases b q hr with e | e
            · right; rw [e]; exact hm'
            · exact .inr e
    · right
      simp only [hn, if_false]
      refine ⟨trivial, ?_⟩
      intro q hq
      rcases hq.cases_head with e | ⟨e, _⟩
      · exact .inl e.symm
      · exact absurd e hn

theorem PInv.hashGet_spec (I : PInv rk h U M) (a b : Nat) : hashGet h a b = .ok ((M (Nat.min a b, Nat.max a b, 0)).getD 0) := by
  generalize hA : Nat.min a b = ia at *
  generalize hB : Nat.max a b = ib at *
  have hlt : bucket h.siz ia ib < h.siz := bucket_lt I.hsiz
  have hx := keyOk_edge ia ib
  have h1 := I.hsiz
  have h2 := I.hmax
  unfold hashGet
  simp only [hA, hB]
  rw [if_neg (by omega), if_neg (by omega)]
  by_cases hne : (h.item (bucket h.siz ia ib)).a = 0
  · rw [if_pos hne, I.none_of_empty (x := (ia, ib, 0)) hne]; rfl
  · rw [if_neg hne]
    have hu : U (bucket h.siz ia ib) := (I.headU _ hlt).mpr hne
    by_cases hm : ckey false (h.item (bucket h.siz ia ib)) = (ia, ib, 0)
    · rw [if_pos ((cmatch_iff hx).2 hm), ← hm, I.sound _ hu]; rfl
    · rw [if_neg (fun hc => hm ((cmatch_iff hx).1 hc))]
      rcases I.walkGet_spec hx h.fuel _ hu (left_le _ _ _ _) with ⟨q, hw, hq, hk⟩ | ⟨hw, hno⟩
      · rw [hw, ← hk, I.sound q hq]; rfl
      · rw [hw]
        rw [I.none_of_chain (x := (ia, ib, 0)) (fun q hr => by
          rcases hno q hr with rfl | h1
          · exact hm
          · exact h1)]
        rfl

/-! ### Insertion after removals -/

/-- A new entry in an empty bucket. -/
theorem PInv.insHead (I : PInv rk h U M) {x : Nat × Nat × Nat} (hx : KeyOk false x) (hpos : x.1 ≠ 0) (hU : ¬U (bucket h.siz x.1 x.2.1)) (hM : M x = none)
    (c : Cell) (hc : ckey false c = x) (hcn : c.nxt = 0) :
    PInv rk (h.put (bucket h.siz x.1 x.2.1) c) (fun p => U p ∨ p = bucket h.siz x.1 x.2.1) (upd M x c.k) := by
  have hb : bucket h.siz x.1 x.2.1 < h.siz := bucket_lt I.hsiz
  have hbc : bk h c = bucket h.siz x.1 x.2.1 := by rw [← hc]; rfl
  generalize bucket h.siz x.1 x.2.1 = b at *
  have io : ∀ p, p ≠ b → (h.put b c).item p = h.item p := fun p a => by unfold Hash.put; exact if_neg a
  have ib : (h.put b c).item b = c := by unfold Hash.put; exact if_pos rfl
  have ub : ∀ p, U p → p ≠ b := by rintro p hp rfl; exact hU hp
  have ca : c.a ≠ 0 := by
    have : c.a = x.1 := by rw [← hc]; rfl
    rw [this]; exact hpos
  have hk : ∀ p, U p → ckey false (h.item p) ≠ x := by
    intro p hp e
    have := I.sound p hp
    rw [e, hM] at this; cases this
  have hm := I.hmax
  refine ⟨I.hsiz, I.hmax, ?_, ?_, ?_, ?_, ?_, ?_, ?_, ?_, ?_⟩
  · rintro p (u | rfl)
    · exact I.lt p u
    · show p < h.max; omega
  · rintro p (u | rfl)
    · rw [io p (ub p u)]; exact I.pos p u
    · rw [ib]; exact ca
  · intro p hp
    by_cases e : p = b
    · rw [e, ib]; exact ⟨fun _ => ca, fun _ => .inr rfl⟩
    · rw [io p e, ← I.headU p hp]
      exact ⟨fun a => by rcases a with a | a; exact a; exact absurd a e, fun a => .inl a⟩
  · rintro p hp (u | rfl)
    · rw [io p (ub p u)]; exact I.head p hp u
    · rw [ib]; exact hbc
  · rintro p (u | rfl) hn
    · rw [io p (ub p u)] at hn ⊢
      have l := I.link p u hn
      refine ⟨l.1, l.2.1, .inl l.2.2.1, ?_⟩
      rw [io _ (ub _ l.2.2.1)]
      exact l.2.2.2
    · rw [ib] at hn
      exact absurd hcn hn
  · rintro z (u | rfl)
    · rw [io z (ub z u)]
      obtain ⟨r1, r2⟩ := I.reach z u
      refine ⟨.inl r1, ?_⟩
      show Reach (h.put b c).item (bk h (h.item z)) z
      generalize bk h (h.item z) = d at *
      clear u
      induction r2 with
      | refl => exact Reach.refl _
      | @step w hr hw ih =>
        have hu := (I.reach_used r1 hr).1
        have st : ((h.put b c).item w).nxt = (h.item w).nxt := by rw [io w (ub w hu)]
        rw [← st]
        exact Reach.step ih (by rw [st]; exact hw)
    · rw [ib]
      have e : bk (h.put z c) c = z := hbc
      rw [e]
      exact ⟨.inr rfl, Reach.refl _⟩
  · rintro p q (u | rfl) (w | rfl) e
    · rw [io p (ub p u), io q (ub q w)] at e
      exact I.uniq p q u w e
    · rw [io p (ub p u), ib, hc] at e
      exact absurd e (hk p u)
    · rw [io q (ub q w), ib, hc] at e
      exact absurd e.symm (hk q w)
    · rfl
  · rintro p (u | rfl)
    · rw [io p (ub p u)]
      unfold upd
      rw [if_neg (hk p u)]
      exact I.sound p u
    · rw [ib, hc]
      unfold upd
      rw [if_pos rfl]
  · intro y v e
    unfold upd at e
    by_cases d : y = x
    · exact ⟨b, .inr rfl, by rw [ib, hc, d]⟩
    · rw [if_neg d] at e
      obtain ⟨p, hp, hkp⟩ := I.complete y v e
      exact ⟨p, .inl hp, by rw [io p (ub p hp)]; exact hkp⟩

/-- A new entry at the end of a chain, in any free cell. -/
theorem PInv.append (I : PInv rk h U M) {x : Nat × Nat × Nat} (hpos : x.1 ≠ 0) (hM : M x = none) {t n : Nat} (ht : U t) (htn : (h.item t).nxt = 0)
    (hbt : bk h (h.item t) = bucket h.siz x.1 x.2.1) (hn : ¬U n) (hns : h.siz ≤ n) (h' : Hash) (hs : h'.siz = h.siz) (hx : h.max ≤ h'.max) (hnm : n < h'.max)
    (c : Cell) (hc : ckey false c = x) (hcn : c.nxt = 0) (i_n : h'.item n = c) (it : h'.item t = { h.item t with nxt := n })
    (io : ∀ p, p ≠ n → p ≠ t → U p ∨ p < h.siz → h'.item p = h.item p) :
    PInv (fun p => if p = n then rk t + 1 else rk p) h' (fun p => U p ∨ p = n) (upd M x c.k) := by
  have hm := I.hmax
  have hz := I.hsiz
  have un : ∀ p, U p → p ≠ n := by rintro p hp rfl; exact hn hp
  have ca : c.a ≠ 0 := by
    have : c.a = x.1 := by rw [← hc]; rfl
    rw [this]; exact hpos
  have hk : ∀ p, U p → ckey false (h.item p) ≠ x := by
    intro p hp e
    have := I.sound p hp
    rw [e, hM] at this; cases this
  have hbc : bk h' c = bucket h.siz x.1 x.2.1 := by rw [← hc]; unfold bk; rw [hs]; rfl
  have hkey : ∀ p, U p → ckey false (h'.item p) = ckey false (h.item p) ∧ (h'.item p).k = (h.item p).k ∧
      bk h' (h'.item p) = bk h (h.item p) ∧ (h'.item p).a = (h.item p).a := by
    intro p u
    by_cases b : p = t
    · subst b; rw [it]; exact ⟨rfl, rfl, by unfold bk; rw [hs], rfl⟩
    · rw [io p (un p u) b (.inl u)]; exact ⟨rfl, rfl, by unfold bk; rw [hs], rfl⟩
  have hre : ∀ b z, U b → Reach h.item b z → Reach h'.item b z := by
    intro b z hb hr
    induction hr with
    | refl => exact Reach.refl _
    | @step w hr hw ih =>
      have hu := (I.reach_used hb hr).1
      have d : w ≠ t := by rintro rfl; exact hw htn
      have st : (h'.item w).nxt = (h.item w).nxt := by rw [io w (un w hu) d (.inl hu)]
      rw [← st]
      exact Reach.step ih (by rw [st]; exact hw)
  refine ⟨by rw [hs]; exact I.hsiz, by rw [hs]; omega, ?_, ?_, ?_, ?_, ?_, ?_, ?_, ?_, ?_⟩
  · rintro p (u | rfl)
    · have := I.lt p u; omega
    · exact hnm
  · rintro p (u | rfl)
    · rw [(hkey p u).2.2.2]; exact I.pos p u
    · rw [i_n]; exact ca
  · intro p hp
    rw [hs] at hp
    have pn : p ≠ n := by omega
    by_cases e : p = t
    · rw [e, (hkey t ht).2.2.2]
      exact ⟨fun _ => I.pos t ht, fun _ => .inl ht⟩
    · rw [io p pn e (.inr hp), ← I.headU p hp]
      exact ⟨fun a => by rcases a with a | a; exact a; exact absurd a pn, fun a => .inl a⟩
  · rintro p hp (u | rfl)
    · rw [hs] at hp
      rw [(hkey p u).2.2.1]; exact I.head p hp u
    · rw [hs] at hp; omega
  · rintro p (u | rfl) hpn
    · by_cases e : p = t
      · rw [e, it]
        dsimp only
        refine ⟨?_, by rw [hs]; exact hns, .inr rfl, ?_⟩
        · rw [if_neg (un t ht), if_pos rfl]; omega
        · rw [i_n, hbc, ← hbt]
          unfold bk; rw [hs]
      · rw [io p (un p u) e (.inl u)] at hpn ⊢
        have l := I.link p u hpn
        refine ⟨?_, by rw [hs]; exact l.2.1, .inl l.2.2.1, ?_⟩
        · rw [if_neg (un p u), if_neg (un _ l.2.2.1)]; exact l.1
        · rw [(hkey _ l.2.2.1).2.2.1, l.2.2.2]
          unfold bk; rw [hs]
    · rw [i_n] at hpn
      exact absurd hcn hpn
  · rintro z (u | rfl)
    · rw [(hkey z u).2.2.1]
      obtain ⟨r1, r2⟩ := I.reach z u
      exact ⟨.inl r1, hre _ _ r1 r2⟩
    · rw [i_n, hbc, ← hbt]
      obtain ⟨r1, r2⟩ := I.reach t ht
      refine ⟨.inl r1, ?_⟩
      have st : (h'.item t).nxt = z := by rw [it]
      have := Reach.step (hre _ _ r1 r2) (by rw [st]; omega)
      rw [st] at this
      exact this
  · rintro p q (u | rfl) (w | rfl) e
    · rw [(hkey p u).1, (hkey q w).1] at e
      exact I.uniq p q u w e
    · rw [(hkey p u).1, i_n, hc] at e
      exact absurd e (hk p u)
    · rw [(hkey q w).1, i_n, hc] at e
      exact absurd e.symm (hk q w)
    · rfl
  · rintro p (u | rfl)
    · rw [(hkey p u).1, (hkey p u).2.1]
      unfold upd
      rw [if_neg (hk p u)]
      exact I.sound p u
    · rw [i_n, hc]
      unfold upd
      rw [if_pos rfl]
  · intro y v e
    unfold upd at e
    by_cases d : y = x
    · exact ⟨n, .inr rfl, by rw [i_n, hc, d]⟩
    · rw [if_neg d] at e
      obtain ⟨p, hp, hkp⟩ := I.complete y v e
      exact ⟨p, .inl hp, by rw [(hkey p hp).1]; exact hkp⟩

/-- From cell `p` the free cells `fr` follow, then `F`. -/
def Free (it : Nat → Cell) (F : Nat) : Nat → List Nat → Prop
  | p, [] => p = F
  | p, q :: fr => p = q ∧ Free it F (it q).nxt fr

theorem Free.congr {it it' : Nat → Cell} {F : Nat} : ∀ {fr : List Nat} {p}, (∀ q ∈ fr, (it' q).nxt = (it q).nxt) → Free it F p fr → Free it' F p fr := by
  intro fr
  induction fr with
  | nil => intro p _ h; exact h
  | cons q fr ih =>
    intro p hq h
    refine ⟨h.1, ?_⟩
    rw [hq q (by simp)]
    exact ih (fun r hr => hq r (List.mem_cons_of_mem _ hr)) h.2

/-- The list of free cells: those given back, then all cells from `F` on, which were never used. -/
structure FInv (h : Hash) (U : Nat → Prop) (F : Nat) (fr : List Nat) : Prop where
  fsiz : h.siz ≤ F
  fmax : F < h.max
  seq : ∀ j, F ≤ j → j < h.max → (h.item j).nxt = j + 1
  used : ∀ p, U p → p < F
  back : ∀ p ∈ fr, h.siz ≤ p ∧ p < F ∧ ¬U p
  nodup : fr.Nodup
  chain : Free h.item F h.nxt fr

theorem Inv.finv (I : Inv false h M) : FInv h (Used h) h.nxt [] := by
  refine ⟨I.hnxt, I.hmax, I.free, ?_, by simp, by simp, rfl⟩
  have := I.hnxt
  rintro p (⟨a, _⟩ | ⟨_, a⟩) <;> omega


theorem FInv.single {F : Nat} {fr : List Nat} (J : FInv h U F fr) {b : Nat} (hb : b < h.siz) : FInv (h.put b Cell.zero) (fun p => U p ∧ p ≠ b) F fr := by
  have hs := J.fsiz
  have io : ∀ p, p ≠ b → (h.put b Cell.zero).item p = h.item p := fun p a => by unfold Hash.put; exact if_neg a
  refine ⟨J.fsiz, J.fmax, ?_, fun p hp => J.used p hp.1, ?_, J.nodup, ?_⟩
  · intro j h1 h2
    rw [io j (by omega)]
    exact J.seq j h1 h2
  · intro p hp
    exact ⟨(J.back p hp).1, (J.back p hp).2.1, fun x => (J.back p hp).2.2 x.1⟩
  · refine Free.congr ?_ J.chain
    intro q hq
    have := (J.back q hq).1
    rw [io q (by omega)]

theorem FInv.push {F : Nat} {fr : List Nat} (J : FInv h U F fr) {n : Nat} (hn : U n) (hs : h.siz ≤ n) {h' : Hash} (e1 : h'.siz = h.siz) (e2 : h'.max = h.max)
    (e3 : h'.nxt = n) (e4 : (h'.item n).nxt = h.nxt) (e5 : ∀ j, ¬U j → (h'.item j).nxt = (h.item j).nxt) :
    FInv h' (fun p => U p ∧ p ≠ n) F (n :: fr) := by
  have hnF := J.used n hn
  refine ⟨by rw [e1]; exact J.fsiz, by rw [e2]; exact J.fmax, ?_, fun p hp => J.used p hp.1, ?_, ?_, ?_⟩
  · intro j h1 h2
    rw [e2] at h2
    rw [e5 j (fun u => by have := J.used j u; omega)]
    exact J.seq j h1 h2
  · intro p hp
    rw [e1]
    rcases List.mem_cons.mp hp with rfl | hp
    · exact ⟨hs, hnF, fun x => x.2 rfl⟩
    · exact ⟨(J.back p hp).1, (J.back p hp).2.1, fun x => (J.back p hp).2.2 x.1⟩
  · rw [List.nodup_cons]
    exact ⟨fun x => (J.back n x).2.2 hn, J.nodup⟩
  · refine ⟨e3, ?_⟩
    rw [e4]
    refine Free.congr ?_ J.chain
    intro q hq
    exact e5 q (J.back q hq).2.2

/-! ### The calls -/

/-- `MMG5_hashPop` removes the edge if it is there, and says so. -/
theorem PInv.hashPop_spec (I : PInv rk h U M) {F : Nat} {fr : List Nat} (J : FInv h U F fr) (a b : Nat) :
    ∃ h' U' fr', hashPop h a b = .ok (h', if (M (Nat.min a b, Nat.max a b, 0)).isSome then 1 else 0) ∧
      PInv rk h' U' (del M (Nat.min a b, Nat.max a b, 0)) ∧ FInv h' U' F fr' := by
  generalize hA : Nat.min a b = ia at *
  generalize hB : Nat.max a b = ib at *
  have hlt : bucket h.siz ia ib < h.siz := bucket_lt I.hsiz
  have hx := keyOk_edge ia ib
  have h1 := I.hsiz
  have h2 := I.hmax
  have same : M (ia, ib, 0) = none → del M (ia, ib, 0) = M := by
    intro e
    funext y
    unfold del
    by_cases c : y = (ia, ib, 0)
    · rw [if_pos c, c, e]
    · rw [if_neg c]
  unfold hashPop
  simp only [hA, hB]
  rw [if_neg (by omega), if_neg (by omega)]
  generalize hp : bucket h.siz ia ib = p at *
  by_cases hne : (h.item p).a = 0
  · have e := I.none_of_empty (x := (ia, ib, 0)) (by rw [hp]; exact hne)
    rw [if_pos hne, same e, e]
    exact ⟨h, U, fr, rfl, I, J⟩
  · rw [if_neg hne]
    have hu : U p := (I.headU _ hlt).mpr hne
    by_cases hm : ckey false (h.item p) = (ia, ib, 0)
    · rw [if_pos ((cmatch_iff hx).2 hm), ← hm, I.sound _ hu]
      by_cases hn : (h.item p).nxt = 0
      · rw [if_pos hn]
        exact ⟨_, _, fr, rfl, I.removeLast hlt hu hn, J.single hlt⟩
      · rw [if_neg hn]
        have l := I.link p hu hn
        rw [if_neg (by have := I.lt _ l.2.2.1; omega)]
        let h1 : Hash := { h with item := fun r => if r = p then { h.item (h.item p).nxt with nxt := (h.item p).nxt } else
          if r = (h.item p).nxt then { h.item p with nxt := (h.item (h.item p).nxt).nxt } else h.item r }
        have I1 : PInv rk h1 U M := I.exchange hu hn h1 rfl rfl (fun _ => rfl)
        have e1 : h1.item p = { h.item (h.item p).nxt with nxt := (h.item p).nxt } := if_pos rfl
        have e2 : h1.item (h.item p).nxt = { h.item p with nxt := (h.item (h.item p).nxt).nxt } := by
          show (if _ then _ else _) = _
          rw [if_neg (by omega), if_pos rfl]
        have n1 : (h1.item p).nxt = (h.item p).nxt := by rw [e1]
        have k1 : ckey false (h1.item (h1.item p).nxt) = ckey false (h.item p) := by rw [n1, e2]; rfl
        have R := I1.removeNext hu (by rw [n1]; exact hn)
          ({ (h.put p (h.item (h.item p).nxt)).put (h.item p).nxt { Cell.zero with nxt := h.nxt } with nxt := (h.item p).nxt } : Hash) rfl rfl
          (by
            intro r hr
            rw [n1] at hr
            show (if r = (h.item p).nxt then _ else if r = p then h.item (h.item p).nxt else h.item r) = _
            rw [if_neg hr]
            by_cases c : r = p
            · rw [if_pos c, if_pos c, n1, e2, e1]
            · rw [if_neg c, if_neg c]
              show _ = (if r = p then _ else if r = (h.item p).nxt then _ else h.item r)
              rw [if_neg c, if_neg hr])
        rw [k1] at R
        refine ⟨_, _, (h.item p).nxt :: fr, rfl, R, ?_⟩
        rw [n1]
        refine J.push l.2.2.1 l.2.1 rfl rfl rfl ?_ ?_
        · show (if _ then _ else _ : Cell).nxt = _
          rw [if_pos rfl]
        · intro j hj
          have j1 : j ≠ (h.item p).nxt := by rintro rfl; exact hj l.2.2.1
          have j2 : j ≠ p := by rintro rfl; exact hj hu
          show (if j = (h.item p).nxt then _ else if j = p then _ else h.item j : Cell).nxt = _
          rw [if_neg j1, if_neg j2]
    · rw [if_neg (fun hc => hm ((cmatch_iff hx).1 hc))]
      rcases I.walkPop_spec hx h.fuel p hu (left_le _ _ _ _) with ⟨q, n, hw, hq, en, hn, hk⟩ | ⟨hw, hno⟩
      · rw [hw]
        subst en
        have l := I.link q hq hn
        have hqn : q ≠ (h.item q).nxt := by intro e; rw [← e] at l; omega
        rw [← hk, I.sound _ l.2.2.1]
        dsimp only
        by_cases c : (h.item (h.item q).nxt).nxt = 0
        · rw [if_pos c]
          refine ⟨_, _, _, rfl, I.removeNext hq hn _ rfl rfl ?_, J.push l.2.2.1 l.2.1 rfl rfl ?_ ?_ ?_⟩
          · intro r hr
            by_cases d : r = q
            · simp only [Hash.put, if_pos d]
              rw [if_neg hqn, c]
            · simp only [Hash.put, if_neg d]
              rw [if_neg hr]
          · simp only [Hash.put]
            rw [if_neg hqn]
          · simp only [Hash.put, if_neg hqn.symm, if_true]
          · intro j hj
            have j1 : j ≠ (h.item q).nxt := by rintro rfl; exact hj l.2.2.1
            have j2 : j ≠ q := by rintro rfl; exact hj hq
            simp only [Hash.put]
            rw [if_neg j2, if_neg j1]
        · rw [if_neg c]
          refine ⟨_, _, _, rfl, I.removeNext hq hn _ rfl rfl ?_, J.push l.2.2.1 l.2.1 rfl rfl rfl ?_ ?_⟩
          · intro r hr
            by_cases d : r = q
            · simp only [Hash.put, if_pos d, if_neg hr]
            · simp only [Hash.put, if_neg d, if_neg hr]
          · simp only [Hash.put, if_pos]
          · intro j hj
            have j1 : j ≠ (h.item q).nxt := by rintro rfl; exact hj l.2.2.1
            have j2 : j ≠ q := by rintro rfl; exact hj hq
            simp only [Hash.put]
            rw [if_neg j1, if_neg j2]
      · have e := I.none_of_chain (x := (ia, ib, 0)) (fun q hr => by
          rw [hp] at hr
          rcases hno q hr with rfl | h1
          · exact hm
          · exact h1)
        rw [hw, e, same e]
        exact ⟨h, U, fr, rfl, I, J⟩


theorem PInv.walkIns_spec (I : PInv rk h U M) {x} (hx : KeyOk false x) : ∀ fuel p, U p → left rk h U p < fuel →
    (∃ q, walkIns false x h fuel p = .ok (.hit q) ∧ U q ∧ ckey false (h.item q) = x) ∨
    (∃ t, walkIns false x h fuel p = .ok (.tail t) ∧ U t ∧ (h.item t).nxt = 0 ∧ Reach h.item p t ∧
      ∀ q, Reach h.item p q → q = p ∨ ckey false (h.item q) ≠ x) := by
  intro fuel
  induction fuel with
  | zero => intro p hp hf; omega
  | succ fuel ih =>
    intro p hp hf
    unfold walkIns
    rw [if_neg (by have := I.lt p hp; omega)]
    by_cases hn : (h.item p).nxt ≠ 0
    · have l := I.link p hp hn
      have hlt := I.lt _ l.2.2.1
      dsimp only
      rw [if_pos ⟨hn, hlt⟩]
      by_cases hm : cmatch false x (h.item (h.item p).nxt) = true
      · rw [if_pos hm]
        exact .inl ⟨_, rfl, l.2.2.1, (cmatch_iff hx).1 hm⟩
      · rw [if_neg hm]
        have hm' : ckey false (h.item (h.item p).nxt) ≠ x := fun e => hm ((cmatch_iff hx).2 e)
        rcases ih (h.item p).nxt l.2.2.1 (by have := I.left_next hp hn; omega) with a | ⟨t, a, b, c, d, e⟩
        · exact .inl a
        · refine .inr ⟨t, a, b, c, (Reach.step (Reach.refl _) hn).trans' d, ?_⟩
          intro q hq
          rcases hq.cases_head with e1 | ⟨_, hr⟩
          · exact .inl e1.symm
          · rcases e q hr with e1 | e1
            · right; rw [e1]; exact hm'
            · exact .inr e1
    · right
      dsimp only
      rw [if_neg (fun c => hn c.1)]
      refine ⟨p, rfl, hp, by simpa using hn, Reach.refl _, ?_⟩
      intro q hq
      rcases hq.cases_head with e | ⟨e, _⟩
      · exact .inl e.symm
      · exact absurd e hn

/-- A cell taken from the list of free cells. -/
theorem FInv.take {F : Nat} {fr : List Nat} (J : FInv h U F fr) {t : Nat} (ht : U t) {h' : Hash} (e1 : h'.siz = h.siz) (e2 : h.max ≤ h'.max)
    (e3 : h'.nxt = (h.item h.nxt).nxt) (e4 : ∀ j, ¬U j → j ≠ h.nxt → j < h.max → (h'.item j).nxt = (h.item j).nxt)
    (e5 : h.max ≤ h.nxt + 1 → h.max < h'.max ∧ ∀ j, h.max ≤ j → j < h'.max → (h'.item j).nxt = j + 1) (e6 : h.nxt + 1 < h.max → h'.max = h.max) :
    ¬U h.nxt ∧ h.siz ≤ h.nxt ∧ h.nxt < h.max ∧ ∃ F' fr', FInv h' (fun p => U p ∨ p = h.nxt) F' fr' := by
  have fs := J.fsiz
  have fm := J.fmax
  cases fr with
  | nil =>
    have hF : h.nxt = F := J.chain
    have hnU : ¬U h.nxt := fun u => by have := J.used _ u; omega
    refine ⟨hnU, by omega, by omega, F + 1, [], ?_⟩
    have hsF := J.seq F (le_refl _) fm
    refine ⟨by rw [e1]; omega, ?_, ?_, ?_, by simp, by simp, ?_⟩
    · by_cases c : h.max ≤ h.nxt + 1
      · have := (e5 c).1; omega
      · have := e6 (by omega); omega
    · intro j h1 h2
      by_cases c : j < h.max
      · rw [e4 j (fun u => by have := J.used j u; omega) (by omega) c]
        exact J.seq j (by omega) c
      · by_cases d : h.max ≤ h.nxt + 1
        · exact (e5 d).2 j (by omega) h2
        · have := e6 (by omega); omega
    · rintro p (u | rfl)
      · have := J.used p u; omega
      · omega
    · show h'.nxt = F + 1
      rw [e3, hF, hsF]
  | cons q fr =>
    obtain ⟨hq, ch⟩ := J.chain
    have bq := J.back q (by simp)
    have nd := List.nodup_cons.mp J.nodup
    rw [hq] at e3 e4 e5 e6 ⊢
    have em := e6 (by omega)
    refine ⟨bq.2.2, bq.1, by omega, F, fr, ?_⟩
    refine ⟨by rw [e1]; exact fs, by omega, ?_, ?_, ?_, nd.2, ?_⟩
    · intro j h1 h2
      rw [e4 j (fun u => by have := J.used j u; omega) (by omega) (by omega)]
      exact J.seq j h1 (by omega)
    · rintro p (u | rfl)
      · exact J.used p u
      · exact bq.2.1
    · intro p hp
      have bp := J.back p (List.mem_cons_of_mem _ hp)
      rw [e1]
      refine ⟨bp.1, bp.2.1, ?_⟩
      rintro (u | rfl)
      · exact bp.2.2 u
      · exact nd.1 hp
    · rw [e3]
      refine Free.congr ?_ ch
      intro r hr
      have br := J.back r (List.mem_cons_of_mem _ hr)
      exact e4 r br.2.2 (by rintro rfl; exact nd.1 hr) (by omega)

/-- `MMG5_hashEdge` on a table from which edges have been removed. -/
theorem PInv.hashEdge_spec (I : PInv rk h U M) {F : Nat} {fr : List Nat} (J : FInv h U F fr) {a b : Nat} (ha : a ≠ 0) (hb : b ≠ 0) (k : Nat)
    (g : Option Nat) (hg : ∀ n, g = some n → 1 ≤ n) :
    (∃ v, M (Nat.min a b, Nat.max a b, 0) = some v ∧ hashEdge h a b k g = .ok (h, 1)) ∨
    (M (Nat.min a b, Nat.max a b, 0) = none ∧
      ((∃ h' rk' U' F' fr', hashEdge h a b k g = .ok (h', 2) ∧ PInv rk' h' U' (upd M (Nat.min a b, Nat.max a b, 0) k) ∧ FInv h' U' F' fr') ∨
        (hashEdge h a b k g = .fail ∧ g = none))) := by
  have hA0 : Nat.min a b ≠ 0 := by rw [minA]; split_ifs <;> assumption
  generalize hA : Nat.min a b = ia at *
  generalize hB : Nat.max a b = ib at *
  have hlt : bucket h.siz ia ib < h.siz := bucket_lt I.hsiz
  have hx := keyOk_edge ia ib
  have h1 := I.hsiz
  have h2 := I.hmax
  unfold hashEdge
  simp only [hA, hB]
  rw [if_neg (by omega), if_neg (by omega)]
  by_cases hm : ckey false (h.item (bucket h.siz ia ib)) = (ia, ib, 0)
  · rw [if_pos ((cmatch_iff hx).2 hm)]
    left
    have hu : U (bucket h.siz ia ib) := by
      refine (I.headU _ hlt).mpr ?_
      have : (h.item (bucket h.siz ia ib)).a = ia := congrArg (fun z => z.1) hm
      rw [this]; exact hA0
    exact ⟨_, by rw [← hm]; exact I.sound _ hu, rfl⟩
  · rw [if_neg (fun hc => hm ((cmatch_iff hx).1 hc))]
    by_cases hne : (h.item (bucket h.siz ia ib)).a ≠ 0
    · rw [if_pos hne]
      have hu : U (bucket h.siz ia ib) := (I.headU _ hlt).mpr hne
      rcases I.walkIns_spec hx h.fuel _ hu (left_le _ _ _ _) with ⟨q, hw, hq, hk⟩ | ⟨t, hw, ht, htn, htr, hno⟩
      · left
        rw [hw]
        exact ⟨_, by rw [← hk]; exact I.sound _ hq, rfl⟩
      · right
        have hM : M (ia, ib, 0) = none := I.none_of_chain (x := (ia, ib, 0)) (fun q hr => by
          rcases hno q hr with rfl | h1
          · exact hm
          · exact h1)
        refine ⟨hM, ?_⟩
        rw [hw]
        dsimp only
        have hbt : bk h (h.item t) = bucket h.siz ia ib := by
          rw [(I.reach_used hu htr).2.1]
          exact I.head _ hlt hu
        have htF := J.used t ht
        have fm := J.fmax
        have hnt : h.nxt ≠ t ∧ h.nxt ≤ F := by
          cases fr with
          | nil => have : h.nxt = F := J.chain; omega
          | cons q fr =>
            have e : h.nxt = q := J.chain.1
            have bq := J.back q (by simp)
            rw [e]
            exact ⟨fun c => bq.2.2 (c ▸ ht), by omega⟩
        by_cases c : h.max ≤ h.nxt + 1
        · rw [if_pos c]
          cases g with
          | none => exact .inr ⟨rfl, rfl⟩
          | some g =>
            left
            have hg1 := hg g rfl
            have hF : h.nxt = F := by omega
            have hsF : (h.item h.nxt).nxt = h.nxt + 1 := by rw [hF]; exact J.seq F (le_refl _) fm
            dsimp only
            have c2 : ¬((h.put t { h.item t with nxt := h.nxt }).grow g).max < ((h.put t { h.item t with nxt := h.nxt }).grow g).nxt := by
              show ¬(h.max + g < h.nxt); omega
            rw [if_neg c2]
            have g0 : ((h.put t { h.item t with nxt := h.nxt }).grow g).item h.nxt = h.item h.nxt := by
              simp only [Hash.grow, Hash.put]
              rw [if_neg (by omega), if_neg hnt.1]
            have g1 : (((h.put t { h.item t with nxt := h.nxt }).grow g).item ((h.put t { h.item t with nxt := h.nxt }).grow g).nxt).nxt = h.nxt + 1 := by
              show (((h.put t { h.item t with nxt := h.nxt }).grow g).item h.nxt).nxt = h.nxt + 1
              rw [g0, hsF]
            rw [g1]
            have g2 : (((h.put t { h.item t with nxt := h.nxt }).grow g).relink (h.nxt + 1)).item h.nxt = h.item h.nxt := by
              show (if h.nxt + 1 ≤ h.nxt ∧ _ then _ else _) = _
              rw [if_neg (by omega)]
              exact g0
            rw [g2]
            have T := J.take ht (h' := ({ ((h.put t { h.item t with nxt := h.nxt }).grow g).relink (h.nxt + 1) with nxt := (h.item h.nxt).nxt } : Hash).put h.nxt
              { h.item h.nxt with a := ia, b := ib, k := k, nxt := 0 }) rfl (by show h.max ≤ h.max + g; omega) rfl
              (by
                intro j j1 j2 j3
                have j4 : j ≠ t := by rintro rfl; exact j1 ht
                simp only [Hash.put, Hash.relink, Hash.grow]
                rw [if_neg j2, if_neg (by omega), if_neg (by omega), if_neg j4])
              (by
                intro _
                refine ⟨by show h.max < h.max + g; omega, ?_⟩
                intro j j1 j2
                have j2 : j < h.max + g := j2
                simp only [Hash.put, Hash.relink, Hash.grow]
                rw [if_neg (by omega), if_pos (by omega)])
              (by intro d; omega)
            obtain ⟨u1, u2, u3, F', fr', J'⟩ := T
            refine ⟨_, fun p => if p = h.nxt then rk t + 1 else rk p, _, F', fr', rfl, ?_, J'⟩
            refine I.append (x := (ia, ib, 0)) (t := t) (n := h.nxt) (c := { h.item h.nxt with a := ia, b := ib, k := k, nxt := 0 })
              hA0 hM ht htn hbt u1 u2 _ (by exact rfl) (by show h.max ≤ h.max + g; omega) (by show h.nxt < h.max + g; omega) rfl rfl ?_ ?_ ?_
            · simp only [Hash.put, if_pos]
            · simp only [Hash.put, Hash.relink, Hash.grow, if_neg hnt.1.symm, if_neg (show ¬(h.nxt + 1 ≤ t ∧ t < h.max + g) by omega),
                if_neg (show ¬h.max < t by omega), if_true]
            · intro p p1 p2 p3
              have p4 : p < F := by
                rcases p3 with p3 | p3
                · exact J.used p p3
                · have := J.fsiz; omega
              simp only [Hash.put, Hash.relink, Hash.grow, if_neg p1, if_neg p2, if_neg (show ¬(h.nxt + 1 ≤ p ∧ p < h.max + g) by omega),
                if_neg (show ¬h.max < p by omega)]
        · rw [if_neg c]
          left
          have g2 : (h.put t { h.item t with nxt := h.nxt }).item h.nxt = h.item h.nxt := by
            simp only [Hash.put]
            rw [if_neg hnt.1]
          rw [g2]
          have T := J.take ht (h' := ({ h.put t { h.item t with nxt := h.nxt } with nxt := (h.item h.nxt).nxt } : Hash).put h.nxt
            { h.item h.nxt with a := ia, b := ib, k := k, nxt := 0 }) rfl (le_refl _) rfl
            (by
              intro j j1 j2 j3
              have j4 : j ≠ t := by rintro rfl; exact j1 ht
              simp only [Hash.put]
              rw [if_neg j2, if_neg j4])
            (by intro d; omega) (fun _ => rfl)
          obtain ⟨u1, u2, u3, F', fr', J'⟩ := T
          refine ⟨_, _, _, F', fr', rfl, I.append (x := (ia, ib, 0)) (t := t) (n := h.nxt) (c := { h.item h.nxt with a := ia, b := ib, k := k, nxt := 0 })
            hA0 hM ht htn hbt u1 u2 _ (by exact rfl) (by exact le_refl _) (by show h.nxt < h.max; omega) rfl rfl ?_ ?_ ?_, J'⟩
          · simp only [Hash.put, if_pos]
          · simp only [Hash.put, if_neg hnt.1.symm, if_true]
          · intro p p1 p2 _
            simp only [Hash.put]
            rw [if_neg p1, if_neg p2]
    · rw [if_neg hne]
      have hne : (h.item (bucket h.siz ia ib)).a = 0 := by simpa using hne
      right
      have hM := I.none_of_empty (x := (ia, ib, 0)) hne
      have hU : ¬U (bucket h.siz ia ib) := fun u => (I.headU _ hlt).mp u hne
      refine ⟨hM, .inl ⟨_, rk, _, F, fr, rfl, I.insHead (x := (ia, ib, 0)) hx hA0 hU hM _ rfl rfl, ?_⟩⟩
      have fs := J.fsiz
      refine ⟨J.fsiz, J.fmax, ?_, ?_, ?_, J.nodup, ?_⟩
      · intro j j1 j2
        simp only [Hash.put]
        rw [if_neg (by omega)]
        exact J.seq j j1 j2
      · rintro p (u | rfl)
        · exact J.used p u
        · show bucket h.siz ia ib < F; omega
      · intro p hp
        have bp := J.back p hp
        refine ⟨bp.1, bp.2.1, ?_⟩
        rintro (u | e)
        · exact bp.2.2 u
        · have e : p = bucket h.siz ia ib := e
          omega
      · refine Free.congr ?_ J.chain
        intro q hq
        have bq := J.back q hq
        simp only [Hash.put]
        rw [if_neg (by omega)]

/-! ### Histories -/

/-- A table made by calls that succeeded, with the map that the calls describe. -/
inductive Built (hsiz hmax : Nat) : Hash → (Sym2 Nat → Option Nat) → Prop
  | new : Built hsiz hmax (hashNew hsiz hmax) (fun _ => none)
  | op {h m h' r} (o : EOp) : Built hsiz hmax h m → o.Ok → o.exec h = .ok (h', r) → Built hsiz hmax h' (o.spec m).1

theorem Built.inv {hsiz hmax : Nat} (hle : hsiz ≤ hmax) {h m} (B : Built hsiz hmax h m) : ∃ M, Inv false h M ∧ absE M m := by
  induction B with
  | new => exact ⟨_, inv_hashNew false hsiz hmax hle, fun _ _ => rfl⟩
  | op o _ hok he ih =>
    obtain ⟨M, I, A⟩ := ih
    rcases exec_refines I A o hok with ⟨h1, M1, e, I1, A1⟩ | ⟨e, _⟩
    · rw [he] at e
      have e := (Outcome.ok.inj e)
      obtain ⟨rfl, _⟩ := Prod.mk.inj e
      exact ⟨M1, I1, A1⟩
    · rw [he] at e; cases e

/-- Calls, with removals; `g` is the answer of the allocator should the call need to grow the table. -/
inductive POp where
  | pop (a b : Nat)
  | get (a b : Nat)
  | edge (a b k : Nat) (g : Option Nat)

/-- What each call has to do. -/
def POp.spec (m : Sym2 Nat → Option Nat) : POp → (Sym2 Nat → Option Nat) × Nat
  | .pop a b => (Function.update m s(a, b) none, if (m s(a, b)).isSome then 1 else 0)
  | .get a b => (m, (m s(a, b)).getD 0)
  | .edge a b k _ =>
    match m s(a, b) with
    | some _ => (m, 1)
    | none => (Function.update m s(a, b) (some k), 2)

/-- Vertex numbers are positive; a table that grows, grows. -/
def POp.Ok : POp → Prop
  | .edge a b _ g => a ≠ 0 ∧ b ≠ 0 ∧ ∀ n, g = some n → 1 ≤ n
  | _ => True

/-- The allocator refuses. -/
def POp.Refused : POp → Prop
  | .edge _ _ _ g => g = none
  | _ => False

def POp.exec (h : Hash) : POp → Outcome (Hash × Nat)
  | .pop a b => hashPop h a b
  | .get a b =>
    match hashGet h a b with
    | .ub => .ub
    | .fail => .fail
    | .ok v => .ok (h, v)
  | .edge a b k g => hashEdge h a b k g

def pouts (m : Sym2 Nat → Option Nat) : List POp → List Nat
  | [] => []
  | o :: os => (o.spec m).2 :: pouts (o.spec m).1 os

/-- How a history ends. -/
inductive PStop where
  | done
  | failed (o : POp)
  | ub

/-- The answers, and how the history ends. -/
def runP (h : Hash) : List POp → List Nat × PStop
  | [] => ([], .done)
  | o :: os =>
    match o.exec h with
    | .ub => ([], .ub)
    | .fail => ([], .failed o)
    | .ok (h', r) => (r :: (runP h' os).1, (runP h' os).2)

theorem absE_del {M m} (A : absE M m) (a b : Nat) : absE (del M (Nat.min a b, Nat.max a b, 0)) (Function.update m s(a, b) none) := by
  intro c d
  by_cases e : s(c, d) = s(a, b)
  · have := minmax_sym.1 e
    rw [e, Function.update_self]
    simp [del, this.1, this.2]
  · rw [Function.update_of_ne e, A c d]
    have : ¬ (Nat.min c d, Nat.max c d, 0) = (Nat.min a b, Nat.max a b, 0) := by
      intro e'
      simp only [Prod.mk.injEq, and_true] at e'
      exact e (minmax_sym.2 e')
    simp [del, this]

theorem pexec_refines {F fr m} (I : PInv rk h U M) (J : FInv h U F fr) (A : absE M m) (o : POp) (ho : o.Ok) :
    (∃ h' rk' U' M' F' fr', o.exec h = .ok (h', (o.spec m).2) ∧ PInv rk' h' U' M' ∧ FInv h' U' F' fr' ∧ absE M' (o.spec m).1) ∨
      (o.exec h = .fail ∧ o.Refused) := by
  cases o with
  | pop a b =>
    obtain ⟨h', U', fr', e, I', J'⟩ := I.hashPop_spec J a b
    refine .inl ⟨h', rk, U', _, F, fr', ?_, I', J', absE_del A a b⟩
    simp only [POp.exec, e, POp.spec, A a b]
  | get a b =>
    refine .inl ⟨h, rk, U, M, F, fr, ?_, I, J, A⟩
    simp only [POp.exec, I.hashGet_spec a b, POp.spec, A a b]
  | edge a b k g =>
    obtain ⟨ha, hb, hg⟩ := ho
    rcases I.hashEdge_spec J ha hb k g hg with ⟨v, e1, e2⟩ | ⟨e1, ⟨h', rk', U', F', fr', e2, I', J'⟩ | ⟨e2, e3⟩⟩
    · refine .inl ⟨h, rk, U, M, F, fr, ?_, I, J, ?_⟩
      · simp [POp.exec, POp.spec, A a b, e1, e2]
      · simpa [POp.spec, A a b, e1] using A
    · refine .inl ⟨h', rk', U', _, F', fr', ?_, I', J', ?_⟩
      · simp [POp.exec, POp.spec, A a b, e1, e2]
      · simpa [POp.spec, A a b, e1] using absE_upd A a b k
    · exact .inr ⟨e2, e3⟩

theorem runP_refines (ops : List POp) : ∀ {rk h U M m F fr}, PInv rk h U M → FInv h U F fr → absE M m → (∀ o ∈ ops, o.Ok) →
    ((runP h ops).1 = pouts m ops ∧ (runP h ops).2 = .done) ∨
      (∃ pre o post, ops = pre ++ o :: post ∧ (runP h ops).1 = pouts m pre ∧ (runP h ops).2 = .failed o ∧ o.Refused) := by
  induction ops with
  | nil => intros; exact .inl ⟨rfl, rfl⟩
  | cons o os ih =>
    intro rk h U M m F fr I J A hok
    rcases pexec_refines I J A o (hok o (by simp)) with ⟨h', rk', U', M', F', fr', e, I', J', A'⟩ | ⟨e, r⟩
    · rcases ih I' J' A' (fun o ho => hok o (by simp [ho])) with ⟨e1, e2⟩ | ⟨pre, o', post, e0, e1, e2, e3⟩
      · left
        simp [runP, e, pouts, e1, e2]
      · right
        refine ⟨o :: pre, o', post, by rw [e0]; rfl, ?_, ?_, e3⟩
        · simp [runP, e, pouts, e1]
        · simp [runP, e, e2]
    · right
      exact ⟨[], o, os, rfl, by simp [runP, e, pouts], by simp [runP, e], r⟩

/-- C103: after any successful calls on a new table, any removals, insertions and lookups answer as the map on unordered pairs: a removal says 1
exactly if the pair is there, takes out this pair and no other; no call reads outside the table or runs forever.  A history stops early only at
an insertion for which the allocator refuses to grow the table. -/
theorem C103_pop {hsiz hmax : Nat} (hle : hsiz ≤ hmax) {h : Hash} {m : Sym2 Nat → Option Nat} (B : Built hsiz hmax h m) (ops : List POp)
    (hok : ∀ o ∈ ops, o.Ok) :
    ((runP h ops).1 = pouts m ops ∧ (runP h ops).2 = .done) ∨
      (∃ pre o post, ops = pre ++ o :: post ∧ (runP h ops).1 = pouts m pre ∧ (runP h ops).2 = .failed o ∧ o.Refused) := by
  obtain ⟨M, I, A⟩ := B.inv hle
  exact runP_refines ops I.pinv I.finv A hok

/-- C103: removing edges one after the other, each edge of the table is found exactly the first time. -/
theorem C103_once {hsiz hmax : Nat} (hle : hsiz ≤ hmax) {h : Hash} {m : Sym2 Nat → Option Nat} (B : Built hsiz hmax h m) (l : List (Nat × Nat)) :
    ∃ out, runP h (l.map fun e => POp.pop e.1 e.2) = (out, .done) ∧ out.length = l.length ∧
      ∀ i (hi : i < l.length), out[i]? = some (if (m s(l[i].1, l[i].2)).isSome ∧ ∀ j, (hj : j < i) → s(l[j].1, l[j].2) ≠ s(l[i].1, l[i].2) then 1 else 0) := by
  have hrun : runP h (l.map fun e => POp.pop e.1 e.2) = (pouts m (l.map fun e => POp.pop e.1 e.2), .done) := by
    rcases C103_pop hle B (l.map fun e => POp.pop e.1 e.2) (by intro o ho; obtain ⟨e, _, rfl⟩ := List.mem_map.mp ho; trivial) with
      ⟨e1, e2⟩ | ⟨pre, o, post, e0, _, _, e3⟩
    · exact Prod.ext e1 e2
    · have : o ∈ l.map fun e => POp.pop e.1 e.2 := by rw [e0]; simp
      obtain ⟨e, _, rfl⟩ := List.mem_map.mp this
      exact absurd e3 (by simp [POp.Refused])
  refine ⟨_, hrun, ?_, ?_⟩
  · clear B hrun
    induction l generalizing m with
    | nil => rfl
    | cons e l ih => simp [pouts, ih]
  · clear B hrun
    induction l generalizing m with
    | nil => intro i hi; simp at hi
    | cons e l ih =>
      intro i hi
      cases i with
      | zero => simp [pouts, POp.spec]
      | succ i =>
        have hi' : i < l.length := by simpa using hi
        have := ih (m := Function.update m s(e.1, e.2) none) i hi'
        simp only [List.map_cons, pouts, POp.spec, List.getElem?_cons_succ, List.getElem_cons_succ]
        rw [this]
        congr 1
        refine if_congr ?_ rfl rfl
        constructor
        · rintro ⟨a, b⟩
          by_cases c : s(l[i].1, l[i].2) = s(e.1, e.2)
          · rw [c, Function.update_self] at a; cases a
          · rw [Function.update_of_ne c] at a
            refine ⟨a, ?_⟩
            intro j hj
            cases j with
            | zero => exact fun x => c x.symm
            | succ j => exact b j (by omega)
        · rintro ⟨a, b⟩
          have c : s(l[i].1, l[i].2) ≠ s(e.1, e.2) := fun x => b 0 (by omega) x.symm
          rw [Function.update_of_ne c]
          exact ⟨a, fun j hj => b (j + 1) (by omega)⟩

/-! ### Cases -/

/-- Five edges in a table with three buckets; the first, the last and a middle cell of a chain are removed. -/
def five : List EOp := [.edge 1 2 10 none, .edge 2 4 20 none, .edge 4 5 30 none, .edge 3 4 40 none, .edge 4 8 50 none]

def after : Hash → List EOp → Hash
  | h, [] => h
  | h, o :: os => match o.exec h with
    | .ok (h', _) => after h' os
    | _ => h

example : (runP (after (hashNew 2 12) five) [.pop 2 1, .pop 1 2, .get 2 4, .pop 5 4, .get 4 5, .get 8 4, .pop 4 2, .pop 4 3, .pop 4 3, .pop 8 4, .get 4 8]).1 =
    [1, 0, 20, 1, 0, 50, 1, 1, 0, 1, 0] := by decide +kernel

/-- Cells given back are used again, and the table grows when there are none left. -/
example : (runP (after (hashNew 0 2) [.edge 1 2 10 none, .edge 2 3 20 none]) [.pop 1 2, .edge 3 4 30 none, .edge 4 5 40 (some 2), .get 2 3, .get 3 4, .get 5 4]).1 =
    [1, 2, 2, 20, 30, 40] := by decide +kernel

example : Built 2 12 (after (hashNew 2 12) [.edge 1 2 10 none]) (Function.update (fun _ => none) s(1, 2) (some 10)) :=
  .op (.edge 1 2 10 none) .new ⟨by decide, by decide, by simp⟩ rfl

end Mmg.Hash
