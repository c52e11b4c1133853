/- Correctness of the in-place chained matching of `Verif.AdjModel`. -/
import Verif.AdjModel
import Mathlib.Data.Nat.Init
import Mathlib.Tactic.ByContra

namespace Mmg.Adj

theorem put_self (t p v) : put t p v p = v := by simp [put]
theorem put_ne {t p v j} (h : j ≠ p) : put t p v j = t j := by simp [put, h]

theorem code_eq {d l : Nat} (_hd : 0 < d) (_hl : 1 ≤ l) : code d l = ((l - 1 + d : Nat) : Int) := by
  unfold code
  have := Nat.div_add_mod (l - 1) d
  rw [Nat.mul_add, Nat.mul_one]
  congr 1
  omega

theorem code_pos {d l : Nat} (hd : 0 < d) (hl : 1 ≤ l) : 0 < code d l := by
  rw [code_eq hd hl]; omega

theorem code_inj {d l l' : Nat} (hd : 0 < d) (hl : 1 ≤ l) (hl' : 1 ≤ l')
    (h : code d l = code d l') : l = l' := by
  rw [code_eq hd hl, code_eq hd hl'] at h; omega

/-- `v` is the link of slot `r` to the next smaller slot of `R` with the same key. -/
def Next (P : Params) (R : Nat → Prop) (r : Nat) (v : Int) : Prop :=
  (v = -(P.inival : Int) ∧ ∀ r', r' < r → R r' → P.key r' ≠ P.key r) ∨
  (∃ r', r' < r ∧ R r' ∧ P.key r' = P.key r ∧ v = -(r' : Int) ∧
    ∀ r'', r' < r'' → r'' < r → R r'' → P.key r'' ≠ P.key r)

structure Hyp (P : Params) : Prop where
  dpos : 0 < P.d
  big : P.N < P.inival
  sym : ∀ l ll, P.same l ll = true → P.same ll l = true
  trans : ∀ a b c, P.same a b = true → P.same b c = true → P.same a c = true
  keyEq : ∀ l ll, P.same l ll = true → P.key l = P.key ll

def V (P : Params) (n r : Nat) : Prop := 1 ≤ r ∧ r ≤ n ∧ P.valid r = true

theorem stage1_spec (P : Params) : ∀ n,
    (∀ r, V P n r → Next P (V P n) r ((stage1 P n).1 r)) ∧
    (∀ r, ¬ V P n r → (stage1 P n).1 r = 0) ∧
    (∀ q, ((stage1 P n).2 q = -(P.inival : Int) ∧ ∀ r, V P n r → P.key r ≠ q) ∨
      ∃ r, V P n r ∧ P.key r = q ∧ (stage1 P n).2 q = -(r : Int) ∧
        ∀ r', V P n r' → r < r' → P.key r' ≠ q) := by
  intro n
  induction n with
  | zero =>
    refine ⟨?_, ?_, ?_⟩
    · rintro r ⟨h1, h2, _⟩; omega
    · intro r _; rfl
    · intro q; left; refine ⟨rfl, ?_⟩
      rintro r ⟨h1, h2, _⟩; omega
  | succ n ih =>
    obtain ⟨i1, i2, i3⟩ := ih
    by_cases hv : P.valid (n + 1) = true
    · have hV : ∀ r, V P (n + 1) r ↔ r = n + 1 ∨ V P n r := by
        intro r
        constructor
        · rintro ⟨h1, h2, h3⟩
          by_cases e : r = n + 1
          · exact Or.inl e
          · exact Or.inr ⟨h1, by omega, h3⟩
        · rintro (rfl | ⟨h1, h2, h3⟩)
          · exact ⟨by omega, by omega, hv⟩
          · exact ⟨h1, by omega, h3⟩
      simp only [stage1, hv, if_true]
      refine ⟨?_, ?_, ?_⟩
      · intro r hr
        rcases (hV r).1 hr with rfl | hr'
        · rw [put_self]
          rcases i3 (P.key (n + 1)) with ⟨h1, h2⟩ | ⟨r', h1, h2, h3, h4⟩
          · left; refine ⟨h1, ?_⟩
            intro r' hlt hr'
            rcases (hV r').1 hr' with rfl | hr''
            · omega
            · exact h2 r' hr''
          · right; refine ⟨r', by have := h1.2.1; omega, (hV r').2 (Or.inr h1), h2, h3, ?_⟩
            intro r'' hl1 hl2 hr''
            rcases (hV r'').1 hr'' with rfl | hr''
            · omega
            · exact h4 r'' hr'' hl1
        · have hrn : r ≤ n := hr'.2.1
          rw [put_ne (by omega)]
          rcases i1 r hr' with ⟨h1, h2⟩ | ⟨r', h1, h2, h3, h4, h5⟩
          · left; refine ⟨h1, ?_⟩
            intro r' hlt hr''
            rcases (hV r').1 hr'' with rfl | hr''
            · omega
            · exact h2 r' hlt hr''
          · right; refine ⟨r', h1, (hV r').2 (Or.inr h2), h3, h4, ?_⟩
            intro r'' hl1 hl2 hr''
            rcases (hV r'').1 hr'' with rfl | hr''
            · omega
            · exact h5 r'' hl1 hl2 hr''
      · intro r hr
        have h1 : r ≠ n + 1 := fun e => hr ((hV r).2 (Or.inl e))
        rw [put_ne h1]
        exact i2 r (fun h => hr ((hV r).2 (Or.inr h)))
      · intro q
        by_cases hq : q = P.key (n + 1)
        · subst hq
          right
          refine ⟨n + 1, (hV _).2 (Or.inl rfl), rfl, put_self _ _ _, ?_⟩
          rintro r' ⟨_, h2, _⟩ hlt; omega
        · rw [put_ne hq]
          rcases i3 q with ⟨h1, h2⟩ | ⟨r, h1, h2, h3, h4⟩
          · left; refine ⟨h1, ?_⟩
            intro r hr
            rcases (hV r).1 hr with rfl | hr'
            · exact fun e => hq e.symm
            · exact h2 r hr'
          · right; refine ⟨r, (hV r).2 (Or.inr h1), h2, h3, ?_⟩
            intro r' hr' hlt
            rcases (hV r').1 hr' with rfl | hr''
            · exact fun e => hq e.symm
            · exact h4 r' hr'' hlt
    · have hV : ∀ r, V P (n + 1) r ↔ V P n r := by
        intro r
        constructor
        · rintro ⟨h1, h2, h3⟩
          by_cases e : r = n + 1
          · subst e; exact absurd h3 hv
          · exact ⟨h1, by omega, h3⟩
        · rintro ⟨h1, h2, h3⟩; exact ⟨h1, by omega, h3⟩
      have hVe : V P (n + 1) = V P n := funext fun r => propext (hV r)
      simp only [stage1, hv, hVe]
      exact ⟨i1, i2, i3⟩

/-- Slots still waiting on a chain when slots above `l` have been treated. -/
def Rem (P : Params) (link : Nat → Int) (l r : Nat) : Prop := V P l r ∧ link r < 0

/-- Stage 2 invariant before treating slot `l`. -/
structure Inv2 (P : Params) (l : Nat) (link : Nat → Int) : Prop where
  next : ∀ r, Rem P link l r → Next P (Rem P link l) r (link r)
  inval : ∀ r, ¬ V P P.N r → link r = 0
  done : ∀ s, V P P.N s → ¬ Rem P link l s →
    (link s = 0 ∧ l < s) ∨ ∃ s', V P P.N s' ∧ s' ≠ s ∧ P.same s s' = true ∧
      link s = code P.d s' ∧ link s' = code P.d s
  apart : ∀ s s', V P P.N s → V P P.N s' → s ≠ s' → P.same s s' = true → link s = 0 →
    link s' = 0 → False
  waiting : ∀ s s', V P P.N s → Rem P link l s' → link s = 0 → P.same s s' = false

variable {P : Params}

/-- What the inner loop produces, starting from the link table `L` with `L l` zeroed. -/
theorem walk_spec (H : Hyp P) {l : Nat} {link : Nat → Int} (_hl : 1 ≤ l) (hlN : l ≤ P.N)
    (hR : ∀ r, Rem P link l r → Next P (Rem P link l) r (link r)) :
    ∀ fuel pp ll,
      (ll = P.inival ∨ (Rem P link l ll ∧ ll < l ∧ P.key ll = P.key l)) →
      (ll ≠ P.inival → ll < fuel) → 0 < fuel →
      (pp = 0 → link l = -(ll : Int)) →
      (pp ≠ 0 → Rem P link l pp ∧ pp < l ∧ P.key pp = P.key l ∧ link pp = -(ll : Int)) →
      (∀ r, Rem P link l r → r < l → (ll = P.inival ∨ ll < r) → P.same l r = false) →
      Rem P link l l →
      (walk P l fuel (put link l 0) pp ll = some (put link l 0) ∧
        ∀ r, Rem P link l r → r < l → P.same l r = false) ∨
      (∃ q p, Rem P link l q ∧ q < l ∧ P.same l q = true ∧
        (p = 0 → link l = -(q : Int)) ∧
        (p ≠ 0 → Rem P link l p ∧ p < l ∧ P.key p = P.key l ∧ link p = -(q : Int)) ∧
        walk P l fuel (put link l 0) pp ll =
          some (put (put (if p ≠ 0 then put (put link l 0) p (link q) else put link l 0) l
            (code P.d q)) q (code P.d l))) := by
  intro fuel
  induction fuel with
  | zero => intro pp ll _ _ h; omega
  | succ fuel ih =>
    intro pp ll h1 h2 _ h3 h4 h5 hRl
    rw [walk]
    by_cases e : ll = P.inival
    · left
      rw [if_pos e]
      exact ⟨rfl, fun r hr hrl => h5 r hr hrl (Or.inl e)⟩
    · rw [if_neg e]
      obtain ⟨hRll, hlt, hkey⟩ := h1.resolve_left e
      have hb := hRll.1
      have hll1 : 1 ≤ ll := hb.1
      rw [if_neg (by omega)]
      by_cases hs : P.same l ll = true
      · right
        rw [if_pos hs]
        refine ⟨ll, pp, hRll, hlt, hs, h3, h4, ?_⟩
        have : put link l 0 ll = link ll := put_ne (by omega)
        rw [this]
      · rw [if_neg hs]
        have hg : put link l 0 ll = link ll := put_ne (by omega)
        rw [hg]
        have hs' : P.same l ll = false := by simpa using hs
        have hnx := hR ll hRll
        have hbig := H.big
        rcases hnx with ⟨n1, n2⟩ | ⟨r', n1, n2, n3, n4, n5⟩
        · have hz : (-(link ll)).toNat = P.inival := by rw [n1]; omega
          rw [hz]
          apply ih ll P.inival (Or.inl rfl) (fun h => absurd rfl h) (by have := h2 e; omega)
          · intro h; omega
          · intro _; exact ⟨hRll, hlt, hkey, n1⟩
          · intro r hr hrl _
            rcases Nat.lt_trichotomy r ll with h | h | h
            · have := n2 r h hr
              by_contra hc
              have hc' : P.same l r = true := by simpa using hc
              exact this (by rw [← H.keyEq l r hc', hkey])
            · subst h; exact hs'
            · exact h5 r hr hrl (Or.inr h)
          · exact hRl
        · have hz : (-(link ll)).toNat = r' := by rw [n4]; omega
          rw [hz]
          have hr'N : r' < P.inival := by have := n2.1.2.1; omega
          apply ih ll r' (Or.inr ⟨n2, by omega, by rw [n3, hkey]⟩)
          · intro _; have := h2 e; omega
          · have := h2 e; omega
          · intro h; omega
          · intro _; exact ⟨hRll, hlt, hkey, n4⟩
          · intro r hr hrl hor
            have hr'r : r' < r := by
              rcases hor with h | h
              · omega
              · exact h
            rcases Nat.lt_trichotomy r ll with h | h | h
            · have := n5 r hr'r h hr
              by_contra hc
              have hc' : P.same l r = true := by simpa using hc
              exact this (by rw [← H.keyEq l r hc', hkey])
            · subst h; exact hs'
            · exact h5 r hr hrl (Or.inr h)
          · exact hRl

theorem V_mono {P : Params} {n m r : Nat} (h : n ≤ m) (hv : V P n r) : V P m r :=
  ⟨hv.1, Nat.le_trans hv.2.1 h, hv.2.2⟩

theorem stage2_step (H : Hyp P) {l : Nat} {link : Nat → Int} (hlN : l + 1 ≤ P.N)
    (I : Inv2 P (l + 1) link) :
    (0 ≤ link (l + 1) → Inv2 P l link) ∧
    (link (l + 1) < 0 → ∃ link',
      walk P (l + 1) (P.N + 2) (put link (l + 1) 0) 0 (-(link (l + 1))).toNat = some link' ∧
      Inv2 P l link') := by
  constructor
  · intro hge
    have hRe : ∀ r, Rem P link l r ↔ Rem P link (l + 1) r := by
      intro r
      constructor
      · rintro ⟨h1, h2⟩; exact ⟨V_mono (by omega) h1, h2⟩
      · rintro ⟨⟨h1, h2, h3⟩, h4⟩
        have : r ≠ l + 1 := by rintro rfl; omega
        exact ⟨⟨h1, by omega, h3⟩, h4⟩
    have hRe' : Rem P link l = Rem P link (l + 1) := funext fun r => propext (hRe r)
    refine ⟨?_, I.inval, ?_, I.apart, ?_⟩
    · rw [hRe']; exact I.next
    · rw [hRe']
      intro s h1 h2
      rcases I.done s h1 h2 with ⟨h3, h4⟩ | h3
      · exact Or.inl ⟨h3, by omega⟩
      · exact Or.inr h3
    · rw [hRe']; exact I.waiting
  · intro hneg
    have hVl : V P P.N (l + 1) := by
      by_contra hc; have := I.inval _ hc; omega
    have hRl : Rem P link (l + 1) (l + 1) := ⟨⟨by omega, by omega, hVl.2.2⟩, hneg⟩
    have hbig := H.big
    have hnx := I.next _ hRl
    have key : (-(link (l + 1))).toNat = P.inival ∨
        (Rem P link (l + 1) (-(link (l + 1))).toNat ∧ (-(link (l + 1))).toNat < l + 1 ∧
          P.key (-(link (l + 1))).toNat = P.key (l + 1)) := by
      rcases hnx with ⟨n1, _⟩ | ⟨r', n1, n2, n3, n4, n5⟩
      · left; omega
      · right
        have : (-(link (l + 1))).toNat = r' := by omega
        rw [this]; exact ⟨n2, n1, n3⟩
    have key2 : ∀ r, Rem P link (l + 1) r → r < l + 1 →
        ((-(link (l + 1))).toNat = P.inival ∨ (-(link (l + 1))).toNat < r) →
        P.same (l + 1) r = false := by
      intro r hr hrl hor
      by_contra hc
      have hc' : P.same (l + 1) r = true := by simpa using hc
      have hk := H.keyEq _ _ hc'
      rcases hnx with ⟨n1, n2⟩ | ⟨r', n1, n2, n3, n4, n5⟩
      · exact n2 r hrl hr hk.symm
      · have e : (-(link (l + 1))).toNat = r' := by omega
        have hr'N := n2.1.2.1
        rw [e] at hor
        exact n5 r (by omega) hrl hr hk.symm
    have hw := walk_spec H (l := l + 1) (link := link) (by omega) hlN I.next (P.N + 2) 0
      (-(link (l + 1))).toNat key
      (by intro hne; have := key.resolve_left hne; omega) (by omega)
      (by intro _; omega) (by intro h; exact absurd rfl h) key2 hRl
    -- facts about remaining slots
    rcases hw with ⟨hw, hno⟩ | ⟨q, p, hq, hql, hsq, hp0, hp1, hw⟩
    · refine ⟨_, hw, ?_⟩
      have hRe : ∀ r, Rem P (put link (l + 1) 0) l r ↔ (Rem P link (l + 1) r ∧ r ≠ l + 1) := by
        intro r
        constructor
        · rintro ⟨h1, h2⟩
          have hne : r ≠ l + 1 := by have := h1.2.1; omega
          rw [put_ne hne] at h2
          exact ⟨⟨V_mono (by omega) h1, h2⟩, hne⟩
        · rintro ⟨⟨⟨h1, h2, h3⟩, h4⟩, hne⟩
          exact ⟨⟨h1, by omega, h3⟩, by rw [put_ne hne]; exact h4⟩
      refine ⟨?_, ?_, ?_, ?_, ?_⟩
      · intro r hr
        obtain ⟨hr1, hne⟩ := (hRe r).1 hr
        rw [put_ne hne]
        have hrl := hr1.1.2.1
        rcases I.next r hr1 with ⟨n1, n2⟩ | ⟨r', n1, n2, n3, n4, n5⟩
        · left; exact ⟨n1, fun r' h h' => n2 r' h ((hRe r').1 h').1⟩
        · right
          exact ⟨r', n1, (hRe r').2 ⟨n2, by omega⟩, n3, n4, fun r'' h h' h'' => n5 r'' h h' ((hRe r'').1 h'').1⟩
      · intro r hr
        have : r ≠ l + 1 := by rintro rfl; exact hr hVl
        rw [put_ne this]; exact I.inval r hr
      · intro s hs hns
        by_cases e : s = l + 1
        · subst e; left; exact ⟨put_self _ _ _, by omega⟩
        · rw [put_ne e]
          have : ¬ Rem P link (l + 1) s := fun h => hns ((hRe s).2 ⟨h, e⟩)
          rcases I.done s hs this with ⟨h1, h2⟩ | ⟨s', h1, h2, h3, h4, h5⟩
          · left; exact ⟨h1, by omega⟩
          · right
            have : s' ≠ l + 1 := by
              rintro rfl
              have := code_pos (l := s) H.dpos hs.1
              omega
            exact ⟨s', h1, h2, h3, h4, by rw [put_ne this]; exact h5⟩
      · intro s s' hs hs' hne hsame h0 h0'
        by_cases e : s = l + 1
        · subst e
          rw [put_ne (Ne.symm hne)] at h0'
          have := I.waiting s' (l + 1) hs' hRl h0'
          rw [H.sym _ _ hsame] at this; exact absurd this (by simp)
        · by_cases e' : s' = l + 1
          · subst e'
            rw [put_ne e] at h0
            have := I.waiting s (l + 1) hs hRl h0
            rw [hsame] at this; exact absurd this (by simp)
          · rw [put_ne e] at h0; rw [put_ne e'] at h0'
            exact I.apart s s' hs hs' hne hsame h0 h0'
      · intro s s' hs hs' h0
        obtain ⟨hr1, hne⟩ := (hRe s').1 hs'
        by_cases e : s = l + 1
        · subst e; exact hno s' hr1 (by have := hr1.1.2.1; omega)
        · rw [put_ne e] at h0
          exact I.waiting s s' hs hr1 h0
    · refine ⟨_, hw, ?_⟩
      have hq1 : 1 ≤ q := hq.1.1
      have hVq : V P P.N q := V_mono hlN hq.1
      have hcq := code_pos (l := q) H.dpos hq1
      have hcl := code_pos (l := l + 1) H.dpos (by omega)
      generalize hL : put (put (if p ≠ 0 then put (put link (l + 1) 0) p (link q)
        else put link (l + 1) 0) (l + 1) (code P.d q)) q (code P.d (l + 1)) = link' at *
      have hkq := H.keyEq _ _ hsq
      -- values of the new table
      have vq : link' q = code P.d (l + 1) := by rw [← hL, put_self]
      have vl : link' (l + 1) = code P.d q := by
        rw [← hL, put_ne (by omega), put_self]
      have hpq : p ≠ 0 → p ≠ q ∧ p ≠ l + 1 := by
        intro hp
        obtain ⟨h1, h2, h3, h4⟩ := hp1 hp
        refine ⟨?_, by omega⟩
        rintro rfl
        rcases I.next p h1 with ⟨n1, _⟩ | ⟨r', n1, n2, n3, n4, n5⟩ <;> omega
      have vp : p ≠ 0 → link' p = link q := by
        intro hp
        obtain ⟨h1, h2⟩ := hpq hp
        rw [← hL, put_ne h1, put_ne h2, if_pos hp, put_self]
      have vo : ∀ r, r ≠ q → r ≠ l + 1 → r ≠ p → link' r = link r := by
        intro r h1 h2 h3
        rw [← hL, put_ne h1, put_ne h2]
        split
        · rw [put_ne h3, put_ne h2]
        · rw [put_ne h2]
      have hRe : ∀ r, Rem P link' l r ↔ (Rem P link (l + 1) r ∧ r ≠ l + 1 ∧ r ≠ q) := by
        intro r
        constructor
        · rintro ⟨h1, h2⟩
          have hne : r ≠ l + 1 := by have := h1.2.1; omega
          have hnq : r ≠ q := by rintro rfl; omega
          refine ⟨⟨V_mono (by omega) h1, ?_⟩, hne, hnq⟩
          by_cases e : r = p
          · subst e
            have : r ≠ 0 := by have := h1.1; omega
            exact (hp1 this).1.2
          · rw [vo r hnq hne e] at h2; exact h2
        · rintro ⟨⟨⟨h1, h2, h3⟩, h4⟩, hne, hnq⟩
          refine ⟨⟨h1, by omega, h3⟩, ?_⟩
          by_cases e : r = p
          · subst e
            rw [vp (by omega)]; exact hq.2
          · rw [vo r hnq hne e]; exact h4
      refine ⟨?_, ?_, ?_, ?_, ?_⟩
      · intro r hr
        obtain ⟨hr1, hne, hnq⟩ := (hRe r).1 hr
        have hr0 : r ≠ 0 := by have := hr1.1.1; omega
        by_cases e : r = p
        · subst e
          rw [vp hr0]
          obtain ⟨p1, p2, p3, p4⟩ := hp1 hr0
          have hqr : q < r := by
            rcases I.next r p1 with ⟨n1, _⟩ | ⟨r', n1, n2, n3, n4, n5⟩ <;> omega
          have hbetween : ∀ r'', q < r'' → r'' < r → Rem P link (l + 1) r'' → P.key r'' ≠ P.key r := by
            rcases I.next r p1 with ⟨n1, n2⟩ | ⟨r', n1, n2, n3, n4, n5⟩
            · have := hq.1.2.1; omega
            · have : r' = q := by omega
              subst this; exact n5
          rcases I.next q hq with ⟨n1, n2⟩ | ⟨r', n1, n2, n3, n4, n5⟩
          · left
            refine ⟨n1, ?_⟩
            intro r' hlt hr'
            obtain ⟨hr'1, hr'2, hr'3⟩ := (hRe r').1 hr'
            rcases Nat.lt_or_ge r' q with h | h
            · have := n2 r' h hr'1; rw [p3, hkq]; exact this
            · exact hbetween r' (by omega) hlt hr'1
          · right
            refine ⟨r', by omega, (hRe r').2 ⟨n2, by omega, by omega⟩, by rw [n3, p3, hkq], n4, ?_⟩
            intro r'' hl1 hl2 hr''
            obtain ⟨h''1, h''2, h''3⟩ := (hRe r'').1 hr''
            rcases Nat.lt_or_ge r'' q with h | h
            · have := n5 r'' hl1 h h''1; rw [p3, hkq]; exact this
            · exact hbetween r'' (by omega) hl2 h''1
        · rw [vo r hnq hne e]
          have hrl : r < l + 1 := by have := hr1.1.2.1; omega
          rcases I.next r hr1 with ⟨n1, n2⟩ | ⟨r', n1, n2, n3, n4, n5⟩
          · left; exact ⟨n1, fun r' h h' => n2 r' h ((hRe r').1 h').1⟩
          · right
            have hr'q : r' ≠ q := by
              rintro rfl
              have hkr : P.key r = P.key (l + 1) := by rw [← n3, ← hkq]
              by_cases hp : p = 0
              · have h0 := hp0 hp
                rcases hnx with ⟨m1, m2⟩ | ⟨t, m1, m2, m3, m4, m5⟩
                · have := hq.1.2.1; omega
                · have : t = r' := by omega
                  subst this
                  exact m5 r n1 hrl hr1 hkr
              · obtain ⟨p1, p2, p3, p4⟩ := hp1 hp
                rcases Nat.lt_trichotomy r p with h | h | h
                · rcases I.next p p1 with ⟨m1, m2⟩ | ⟨t, m1, m2, m3, m4, m5⟩
                  · have := hq.1.2.1; omega
                  · have : t = r' := by omega
                    subst this
                    exact m5 r n1 h hr1 (by rw [hkr, p3])
                · exact e h
                · have hpr' : r' < p := by
                    rcases I.next p p1 with ⟨m1, m2⟩ | ⟨t, m1, m2, m3, m4, m5⟩
                    · have := hq.1.2.1; omega
                    · omega
                  exact n5 p hpr' h p1 (by rw [hkr, p3])
            exact ⟨r', n1, (hRe r').2 ⟨n2, by omega, hr'q⟩, n3, n4,
              fun r'' h h' h'' => n5 r'' h h' ((hRe r'').1 h'').1⟩
      · intro r hr
        have h1 : r ≠ l + 1 := by rintro rfl; exact hr hVl
        have h2 : r ≠ q := by rintro rfl; exact hr hVq
        by_cases e : r = p
        · subst e
          by_cases hr0 : r = 0
          · subst hr0
            rw [← hL, put_ne h2, put_ne h1]; simp only [ne_eq, not_true_eq_false, if_false]
            rw [put_ne h1]; exact I.inval 0 hr
          · exact absurd (V_mono hlN (hp1 hr0).1.1) hr
        · rw [vo r h2 h1 e]; exact I.inval r hr
      · intro s hs hns
        by_cases e : s = l + 1
        · subst e
          right
          exact ⟨q, hVq, by omega, hsq, vl, vq⟩
        · by_cases e' : s = q
          · subst e'
            right
            exact ⟨l + 1, hVl, by omega, H.sym _ _ hsq, vq, vl⟩
          · have hns' : ¬ Rem P link (l + 1) s := fun h => hns ((hRe s).2 ⟨h, e, e'⟩)
            have hsp : s ≠ p := by
              rintro rfl
              have : s ≠ 0 := by have := hs.1; omega
              exact hns' (hp1 this).1
            rw [vo s e' e hsp]
            rcases I.done s hs hns' with ⟨h1, h2⟩ | ⟨s', h1, h2, h3, h4, h5⟩
            · left; exact ⟨h1, by omega⟩
            · right
              have hcs := code_pos (l := s) H.dpos hs.1
              refine ⟨s', h1, h2, h3, h4, ?_⟩
              have e1 : s' ≠ l + 1 := by rintro rfl; omega
              have e2 : s' ≠ q := by rintro rfl; have := hq.2; omega
              have e3 : s' ≠ p := by
                rintro rfl
                have : s' ≠ 0 := by have := h1.1; omega
                have := (hp1 this).1.2; omega
              rw [vo s' e2 e1 e3]; exact h5
      · intro s s' hs hs' hne hsame h0 h0'
        have back : ∀ t, V P P.N t → link' t = 0 → link t = 0 := by
          intro t ht h
          have e1 : t ≠ l + 1 := by rintro rfl; omega
          have e2 : t ≠ q := by rintro rfl; omega
          have e3 : t ≠ p := by
            rintro rfl
            have ht0 : t ≠ 0 := by have := ht.1; omega
            rw [vp ht0] at h; have := hq.2; omega
          rw [vo t e2 e1 e3] at h; exact h
        exact I.apart s s' hs hs' hne hsame (back s hs h0) (back s' hs' h0')
      · intro s s' hs hs' h0
        obtain ⟨hr1, _, _⟩ := (hRe s').1 hs'
        have e1 : s ≠ l + 1 := by rintro rfl; omega
        have e2 : s ≠ q := by rintro rfl; omega
        have e3 : s ≠ p := by
          rintro rfl
          have ht0 : s ≠ 0 := by have := hs.1; omega
          rw [vp ht0] at h0; have := hq.2; omega
        rw [vo s e2 e1 e3] at h0
        exact I.waiting s s' hs hr1 h0

theorem stage2_spec (H : Hyp P) : ∀ l link, l ≤ P.N → Inv2 P l link →
    ∃ link', stage2 P l link = some link' ∧ Inv2 P 0 link' := by
  intro l
  induction l with
  | zero => intro link _ I; exact ⟨link, rfl, I⟩
  | succ l ih =>
    intro link hl I
    have hst := stage2_step H hl I
    rw [stage2]
    by_cases h : 0 ≤ link (l + 1)
    · rw [if_pos h]; exact ih link (by omega) (hst.1 h)
    · rw [if_neg h]
      obtain ⟨link', h1, h2⟩ := hst.2 (by omega)
      rw [h1]
      exact ih link' (by omega) h2

/-- The table built has the adjacency structure: every slot is unlinked or mutually linked with
another slot having the same face, and two slots with the same face are never both unlinked. -/
structure Matching (P : Params) (adj : Nat → Int) : Prop where
  inval : ∀ r, ¬ V P P.N r → adj r = 0
  pair : ∀ s, V P P.N s → adj s = 0 ∨ ∃ s', V P P.N s' ∧ s' ≠ s ∧ P.same s s' = true ∧
      adj s = code P.d s' ∧ adj s' = code P.d s
  maximal : ∀ s s', V P P.N s → V P P.N s' → s ≠ s' → P.same s s' = true → adj s = 0 →
    adj s' ≠ 0

theorem inv2_init (H : Hyp P) : Inv2 P P.N (stage1 P P.N).1 := by
  obtain ⟨h1, h2, _⟩ := stage1_spec P P.N
  have hbig := H.big
  have hneg : ∀ r, V P P.N r → (stage1 P P.N).1 r < 0 := by
    intro r hr
    rcases h1 r hr with ⟨n1, _⟩ | ⟨r', n1, n2, n3, n4, n5⟩
    · rw [n1]; omega
    · rw [n4]; have := n2.1; omega
  have hRe : Rem P (stage1 P P.N).1 P.N = V P P.N := by
    funext r; apply propext
    exact ⟨fun h => h.1, fun h => ⟨h, hneg r h⟩⟩
  refine ⟨?_, h2, ?_, ?_, ?_⟩
  · rw [hRe]; exact h1
  · rw [hRe]; intro s hs hns; exact absurd hs hns
  · intro s s' hs hs' _ _ h0 _
    have := hneg s hs; omega
  · intro s s' hs _ h0
    have := hneg s hs; omega

theorem build_spec (H : Hyp P) : ∃ adj, build P = some adj ∧ Matching P adj := by
  obtain ⟨adj, h1, h2⟩ := stage2_spec H P.N _ (Nat.le_refl _) (inv2_init H)
  refine ⟨adj, h1, h2.inval, ?_, ?_⟩
  · intro s hs
    have : ¬ Rem P adj 0 s := by rintro ⟨⟨h1, h2, _⟩, _⟩; omega
    rcases h2.done s hs this with ⟨h, _⟩ | h
    · exact Or.inl h
    · exact Or.inr h
  · intro s s' hs hs' hne hsame h0 h0'
    exact h2.apart s s' hs hs' hne hsame h0 h0'

end Mmg.Adj
