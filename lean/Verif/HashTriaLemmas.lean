/- Lemmas on the edge table used by `Verif.HashTriaModel`: chain walk, record counter,
insertions. -/
import Verif.HashTriaModel
import Verif.HashLemmas

namespace Mmg.HTri
open Mmg.Hash

/-- The counters of the records: `S` on the used cells, zero elsewhere. -/
structure Cnt (h : Hash) (S : Nat × Nat × Nat → Nat) : Prop where
  used : ∀ p, Used h p → (h.item p).s = S (ckey false (h.item p))
  rest : ∀ p, p ≤ h.max → ¬ Used h p → (h.item p).s = 0

def updN (S : Nat × Nat × Nat → Nat) (x : Nat × Nat × Nat) (n : Nat) : Nat × Nat × Nat → Nat :=
  fun y => if y = x then n else S y

variable {h : Hash} {M : Nat × Nat × Nat → Option Nat} {S : Nat × Nat × Nat → Nat}

theorem walkTri_spec (I : Inv false h M) {x} (hx : KeyOk false x) :
    ∀ fuel p, Used h p → h.max < p + fuel →
      (∃ q, walkTri x h fuel p = .ok (.hit q) ∧ Used h q ∧ ckey false (h.item q) = x) ∨
      (∃ t, walkTri x h fuel p = .ok (.tail t) ∧ Used h t ∧ Reach h.item p t ∧
        (h.item t).nxt = 0 ∧ ∀ q, Reach h.item p q → ckey false (h.item q) ≠ x) := by
  intro fuel
  induction fuel with
  | zero => intro p hp hf; have := I.used_lt hp; omega
  | succ fuel ih =>
    intro p hp hf
    have hlt := I.used_lt hp
    have e1 := Nat.not_lt.2 (Nat.le_of_lt hlt)
    have hpos := I.pos p hp
    by_cases hm : ckey false (h.item p) = x
    · left
      refine ⟨p, ?_, hp, hm⟩
      have := (cmatch_iff (c := h.item p) hx).2 hm
      simp [walkTri, hpos, this, e1]
    · have hm' : cmatch false x (h.item p) = false := by
        rw [Bool.eq_false_iff]; intro hc; exact hm ((cmatch_iff hx).1 hc)
      by_cases hn : (h.item p).nxt = 0
      · right
        refine ⟨p, ?_, hp, Reach.refl _, hn, ?_⟩
        · simp [walkTri, hn, hpos, hm', e1]
        · intro q hq
          rcases hq.cases_head with h1 | ⟨h1, _⟩
          · rw [← h1]; exact hm
          · exact absurd hn h1
      · have hl := I.link p hp hn
        have hu := I.next_used hp hn
        have hw : walkTri x h (fuel + 1) p = walkTri x h fuel (h.item p).nxt := by
          rw [walkTri]; simp [hn, hm', e1, hpos]
        rw [hw]
        rcases ih _ hu (by omega) with h1 | ⟨t, h1, h2, h3, h4, h5⟩
        · exact Or.inl h1
        · right
          refine ⟨t, h1, h2, Reach.trans' (Reach.step (Reach.refl p) hn) h3, h4, ?_⟩
          intro q hq
          rcases hq.cases_head with h6 | ⟨_, h6⟩
          · rw [← h6]; exact hm
          · exact h5 q h6

theorem find_spec (I : Inv false h M) {ia ib : Nat}
    (hne : (h.item (bucket h.siz ia ib)).a ≠ 0) :
    (∃ q, walkTri (ia, ib, 0) h h.fuel (bucket h.siz ia ib) = .ok (.hit q) ∧ Used h q ∧
      ckey false (h.item q) = (ia, ib, 0) ∧ M (ia, ib, 0) = some (h.item q).k) ∨
    (∃ t, walkTri (ia, ib, 0) h h.fuel (bucket h.siz ia ib) = .ok (.tail t) ∧ Used h t ∧
      (h.item t).nxt = 0 ∧ bk h (h.item t) = bucket h.siz ia ib ∧ M (ia, ib, 0) = none) := by
  have hlt := bucket_lt (a := ia) (b := ib) I.hsiz
  have hu : Used h (bucket h.siz ia ib) := Or.inl ⟨hlt, hne⟩
  rcases walkTri_spec I (keyOk_edge ia ib) h.fuel _ hu (I.fuel_ok _) with
    ⟨q, h1, h2, h3⟩ | ⟨t, h1, h2, h3, h4, h5⟩
  · exact Or.inl ⟨q, h1, h2, h3, by rw [← h3]; exact I.sound q h2⟩
  · right
    refine ⟨t, h1, h2, h4, ?_, ?_⟩
    · rw [(I.reach_used hu h3).2.1]; exact I.head _ hlt hne
    · apply I.none_of_chain
      intro q hq hr
      exact h5 q hr

theorem incS_spec (I : Inv false h M) (C : Cnt h S) {q} (hq : Used h q) {x}
    (hx : ckey false (h.item q) = x) :
    Inv false (incS h q) M ∧ Cnt (incS h q) (updN S x (S x + 1)) := by
  have hk : M (ckey false (h.item q)) = some (h.item q).k := I.sound q hq
  have hU : ∀ j, Used (incS h q) j ↔ Used h j := by
    intro j
    by_cases hj : j = q
    · subst hj; simp [Used, incS, Hash.put]
    · simp [Used, incS, Hash.put, hj]
  have hit : ∀ j, ((incS h q).item j).a = (h.item j).a ∧ ((incS h q).item j).b = (h.item j).b ∧
      ((incS h q).item j).k = (h.item j).k ∧ ((incS h q).item j).nxt = (h.item j).nxt := by
    intro j; by_cases hj : j = q
    · subst hj; simp [incS, Hash.put]
    · simp [incS, Hash.put, hj]
  have hs : (incS h q).siz = h.siz := rfl
  have hm : (incS h q).max = h.max := rfl
  have hn : (incS h q).nxt = h.nxt := rfl
  have hB : ∀ j, bk (incS h q) ((incS h q).item j) = bk h (h.item j) := by
    intro j; simp [bk, hs, (hit j).1, (hit j).2.1]
  have hC : ∀ j, ckey false ((incS h q).item j) = ckey false (h.item j) := by
    intro j; simp [ckey, (hit j).1, (hit j).2.1]
  have hR : ∀ p r, Reach h.item p r → Reach (incS h q).item p r := by
    intro p r hr
    induction hr with
    | refl => exact Reach.refl _
    | step hr hne ih =>
      rename_i q'
      have := (hit q').2.2.2
      rw [← this]
      exact Reach.step ih (by rw [this]; exact hne)
  refine ⟨⟨by rw [hs]; exact I.hsiz, by rw [hs, hn]; exact I.hnxt, by rw [hm, hn]; exact I.hmax,
    ?_, ?_, ?_, ?_, ?_, ?_, ?_, ?_⟩, ?_, ?_⟩
  · intro j h1 h2
    rw [(hit j).2.2.2]; exact I.free j h1 h2
  · intro j hj; rw [(hit j).1]; exact I.pos j ((hU j).1 hj)
  · intro j h1 h2; rw [hB]; rw [(hit j).1] at h2; exact I.head j h1 h2
  · intro j hj h2
    rw [(hit j).2.2.2] at *
    rw [hB, hB, hs, hn]
    exact I.link j ((hU j).1 hj) h2
  · intro q hq
    rw [hB, hU]
    have := I.reach q ((hU q).1 hq)
    exact ⟨this.1, hR _ _ this.2⟩
  · intro a b ha hb; rw [hC, hC]
    exact I.uniq a b ((hU a).1 ha) ((hU b).1 hb)
  · intro j hj
    rw [hC, (hit j).2.2.1]
    exact I.sound j ((hU j).1 hj)
  · intro y w hw
    obtain ⟨p, h1, h2⟩ := I.complete y w hw
    exact ⟨p, (hU p).2 h1, by rw [hC, h2]⟩
  · intro p hp
    have hp' := (hU p).1 hp
    rw [hC]
    by_cases e : p = q
    · subst e
      rw [hx]
      simp only [incS, Hash.put, if_true, updN]
      rw [C.used _ hp', hx]
    · have : ckey false (h.item p) ≠ x := fun h2 => e (I.uniq p q hp' hq (h2.trans hx.symm))
      simp only [incS, Hash.put, if_neg e, updN, if_neg this]
      exact C.used _ hp'
  · intro p hp hnu
    have hnu' : ¬ Used h p := fun h1 => hnu ((hU p).2 h1)
    have e : p ≠ q := fun h1 => hnu' (h1 ▸ hq)
    simp only [incS, Hash.put, if_neg e]
    exact C.rest p hp hnu'

theorem head_spec (I : Inv false h M) (C : Cnt h S) {ia ib kk : Nat} (hia : ia ≠ 0)
    (he : (h.item (bucket h.siz ia ib)).a = 0) :
    Inv false (h.put (bucket h.siz ia ib)
        ⟨ia, ib, (h.item (bucket h.siz ia ib)).s + 1, kk, 0⟩) (upd M (ia, ib, 0) kk) ∧
      Cnt (h.put (bucket h.siz ia ib) ⟨ia, ib, (h.item (bucket h.siz ia ib)).s + 1, kk, 0⟩)
        (updN S (ia, ib, 0) 1) ∧ M (ia, ib, 0) = none := by
  refine ⟨I.insHead (x := (ia, ib, 0)) hia _ rfl rfl rfl rfl he, ?_,
    I.none_of_empty (x := (ia, ib, 0)) he⟩
  have hlt := bucket_lt (a := ia) (b := ib) I.hsiz
  have hnone : M (ia, ib, 0) = none := I.none_of_empty (x := (ia, ib, 0)) he
  generalize bucket h.siz ia ib = p at *
  have hnu : ¬ Used h p := by
    rintro (⟨_, h2⟩ | ⟨h1, _⟩)
    · exact h2 he
    · omega
  have h0 := C.rest p (by have := I.hnxt; have := I.hmax; omega) hnu
  have hU : ∀ j, j ≠ p → (Used (h.put p ⟨ia, ib, (h.item p).s + 1, kk, 0⟩) j ↔ Used h j) := by
    intro j hj; simp [Used, Hash.put, hj]
  constructor
  · intro j hj
    by_cases e : j = p
    · subst e; simp [Hash.put, ckey, updN, h0]
    · have hj' := (hU j e).1 hj
      have hit : (h.put p ⟨ia, ib, (h.item p).s + 1, kk, 0⟩).item j = h.item j := by
        simp [Hash.put, e]
      rw [hit]
      have : ckey false (h.item j) ≠ (ia, ib, 0) := by
        intro h2
        have h3 := I.sound j hj'
        rw [h2, hnone] at h3
        exact absurd h3 (by simp)
      simp only [updN, if_neg this]
      exact C.used j hj'
  · intro j hj hnj
    by_cases e : j = p
    · subst e
      exact absurd (Or.inl ⟨hlt, by simpa [Hash.put] using hia⟩) hnj
    · have hit : (h.put p ⟨ia, ib, (h.item p).s + 1, kk, 0⟩).item j = h.item j := by
        simp [Hash.put, e]
      rw [hit]
      exact C.rest j hj (fun h1 => hnj ((hU j e).2 h1))

theorem addCell_spec (I : Inv false h M) (C : Cnt h S) {ia ib kk t : Nat} (hia : ia ≠ 0)
    (ht : Used h t) (htn : (h.item t).nxt = 0) (htb : bk h (h.item t) = bucket h.siz ia ib)
    (hM : M (ia, ib, 0) = none) (g : Option Nat) (hg : ∀ n, g = some n → 1 ≤ n) :
    (∃ h', addCell h t ia ib kk g = .ok h' ∧ Inv false h' (upd M (ia, ib, 0) kk) ∧
      Cnt h' (updN S (ia, ib, 0) 1)) ∨
    (addCell h t ia ib kk g = .fail ∧ g = none) := by
  have htl : t < h.nxt := by
    have := I.hnxt
    rcases ht with ⟨h1, _⟩ | ⟨_, h1⟩ <;> omega
  have hmx := I.hmax
  have hsn := I.hnxt
  have hne' : h.nxt ≠ t := by omega
  have hfr := I.free h.nxt (Nat.le_refl _) hmx
  have h0 : (h.item h.nxt).s = 0 := C.rest _ (by omega) (by
    rintro (⟨h1, _⟩ | ⟨_, h1⟩) <;> omega)
  have hex : ∃ h', ((addCell h t ia ib kk g = .ok h') ∨
        (addCell h t ia ib kk g = .fail ∧ g = none)) ∧ h'.siz = h.siz ∧ h'.nxt = h.nxt + 1 ∧
      h'.nxt < h'.max ∧ (∀ j, h'.nxt ≤ j → j < h'.max → (h'.item j).nxt = j + 1) ∧
      (h'.item t = { h.item t with nxt := h.nxt }) ∧
      (∀ j, j < h.nxt → j ≠ t → h'.item j = h.item j) ∧
      h'.item h.nxt = ⟨ia, ib, 1, kk, 0⟩ ∧
      (∀ j, h.nxt < j → j ≤ h'.max → (h'.item j).s = 0) := by
    have hz : ∀ j, h.nxt ≤ j → j ≤ h.max → (h.item j).s = 0 := fun j h1 h2 => C.rest j h2 (by
      rintro (⟨h3, _⟩ | ⟨_, h3⟩) <;> omega)
    by_cases hcap : h.max ≤ h.nxt + 1
    · cases g with
      | none =>
        refine ⟨⟨h.siz, h.nxt + 2, h.nxt + 1, fun j => if j = t then { h.item t with nxt := h.nxt }
          else if j = h.nxt then ⟨ia, ib, 1, kk, 0⟩ else if j < h.nxt then h.item j
          else ⟨0, 0, 0, 0, j + 1⟩⟩, Or.inr ⟨?_, rfl⟩, rfl, rfl, ?_, ?_, ?_, ?_, ?_, ?_⟩
        · simp [addCell, hcap]
        · simp
        · intro j h1 h2
          simp only at h1
          simp only []
          rw [if_neg (by omega), if_neg (by omega), if_neg (by omega)]
        · simp
        · intro j h1 h2
          simp only []
          rw [if_neg h2, if_neg (by omega), if_pos h1]
        · simp [hne']
        · intro j h1 h2
          simp only []
          rw [if_neg (by omega), if_neg (by omega), if_neg (by omega)]
      | some n =>
        have hn1 := hg n rfl
        have hnm : ¬ h.max < h.nxt := by omega
        have hself : ¬ (h.nxt + 1 ≤ h.nxt ∧ h.nxt < h.max + n) := by omega
        refine ⟨_, Or.inl (by
          simp only [addCell, if_pos hcap]
          rw [if_neg (by simp [Hash.put, Hash.grow, Hash.relink]; omega)]), ?_, ?_, ?_, ?_, ?_, ?_,
          ?_, ?_⟩
        · rfl
        · simp [Hash.put, Hash.grow, Hash.relink, hne', hfr, hnm, hself]
        · simp [Hash.put, Hash.grow, Hash.relink, hne', hfr, hnm, hself]; omega
        · intro j h1 h2
          simp [Hash.put, Hash.grow, Hash.relink, hne', hfr, hnm, hself] at h1 h2
          have e1 : j ≠ h.nxt := by omega
          simp [Hash.put, Hash.grow, Hash.relink, hne', hfr, hnm, h1, h2, e1, hself]
        · have e1 : ¬ (h.nxt + 1 ≤ t) := by omega
          have e2 : ¬ (h.max < t) := by omega
          simp [Hash.put, Hash.grow, Hash.relink, e1, e2, hne'.symm, hne', hfr, hnm, hself]
        · intro j h1 h2
          have e1 : ¬ (h.nxt + 1 ≤ j) := by omega
          have e2 : ¬ (h.max < j) := by omega
          have e3 : j ≠ h.nxt := by omega
          simp [Hash.put, Hash.grow, Hash.relink, e1, e2, e3, h2, hne', hfr, hnm, hself]
        · simp [Hash.put, Hash.grow, Hash.relink, hne', hfr, hnm, h0]
          rw [if_neg hself]; exact h0
        · intro j h1 h2
          have e1 : j ≠ h.nxt := by omega
          have e2 : j ≠ t := by omega
          simp only [Hash.put, Hash.grow, Hash.relink, if_neg hne', if_neg e1, if_neg e2,
            if_neg hnm]
          by_cases e3 : h.max < j
          · simp only [if_pos e3]
            split <;> rfl
          · simp only [if_neg e3]
            split
            · exact hz j (by omega) (by omega)
            · exact hz j (by omega) (by omega)
    · refine ⟨_, Or.inl (by
        simp only [addCell, if_neg hcap]
        rw [if_neg (by simp [Hash.put]; omega)]), ?_, ?_, ?_, ?_, ?_, ?_,
        ?_, ?_⟩
      · rfl
      · simp [Hash.put, hne', hfr]
      · simp [Hash.put, hne', hfr]; omega
      · intro j h1 h2
        simp [Hash.put, hne', hfr] at *
        rw [if_neg (by omega), if_neg (by omega)]
        exact I.free j (by omega) h2
      · simp [Hash.put]
        intro h1; omega
      · intro j h1 h2
        simp [Hash.put, h2]
        intro h1; omega
      · simp [Hash.put, hne', h0]
      · intro j h1 h2
        have e1 : j ≠ h.nxt := by omega
        have e2 : j ≠ t := by omega
        simp only [Hash.put, if_neg e1, if_neg e2]
        exact hz j (by omega) h2
  obtain ⟨h', hr, hs, hn, hlt, hfree, hit, hio, hnew, hz⟩ := hex
  rcases hr with hr | hr
  · left
    refine ⟨h', hr, ?_, ?_⟩
    · refine I.append (x := (ia, ib, 0)) hia ht htn htb hM h' hs hn hlt hfree hit hio ?_ ?_ ?_ ?_ ?_
      all_goals (rw [hnew]; try rfl)
    · have hU : ∀ j, j < h.nxt → (Used h' j ↔ Used h j) := by
        intro j hj
        have : (h'.item j).a = (h.item j).a := by
          by_cases e : j = t
          · rw [e, hit]
          · rw [hio j hj e]
        simp only [Used, hs, hn, this]
        constructor
        · rintro (h1 | ⟨h1, h2⟩)
          · exact Or.inl h1
          · exact Or.inr ⟨h1, hj⟩
        · rintro (h1 | ⟨h1, h2⟩)
          · exact Or.inl h1
          · exact Or.inr ⟨h1, by omega⟩
      have hsj : ∀ j, j < h.nxt → (h'.item j).s = (h.item j).s ∧
          ckey false (h'.item j) = ckey false (h.item j) := by
        intro j hj
        by_cases e : j = t
        · rw [e, hit]; exact ⟨rfl, rfl⟩
        · rw [hio j hj e]; exact ⟨rfl, rfl⟩
      constructor
      · intro j hj
        by_cases e : j = h.nxt
        · rw [e, hnew]; simp [ckey, updN]
        · have hjl : j < h.nxt := by
            rcases hj with ⟨h1, _⟩ | ⟨_, h1⟩
            · omega
            · omega
          have hj' := (hU j hjl).1 hj
          rw [(hsj j hjl).1, (hsj j hjl).2]
          have : ckey false (h.item j) ≠ (ia, ib, 0) := by
            intro h2
            have h3 := I.sound j hj'
            rw [h2, hM] at h3
            exact absurd h3 (by simp)
          simp only [updN, if_neg this]
          exact C.used j hj'
      · intro j hj hnj
        by_cases e : j = h.nxt
        · exact absurd (Or.inr ⟨by omega, by omega⟩) hnj
        · by_cases hjl : j < h.nxt
          · rw [(hsj j hjl).1]
            exact C.rest j (by omega) (fun h1 => hnj ((hU j hjl).2 h1))
          · exact hz j (by omega) hj
  · exact Or.inr hr

theorem hashInit_spec {np hm : Nat} (h1 : 1 ≤ np) (h2 : np ≤ hm) :
    Inv false (hashInit np hm) (fun _ => none) ∧ Cnt (hashInit np hm) (fun _ => 0) := by
  have e : hashInit np hm = hashNew (np - 1) (hm - 1) := by
    have e1 : np - 1 + 1 = np := by omega
    have e2 : hm - 1 + 2 = hm + 1 := by omega
    simp only [hashInit, hashNew, e1, e2]
  refine ⟨by rw [e]; exact inv_hashNew false _ _ (by omega), ?_, ?_⟩
  · intro p hp
    exfalso
    rcases hp with ⟨h3, h4⟩ | ⟨h3, h4⟩
    · simp only [hashInit] at *
      rw [if_neg (by omega)] at h4
      exact h4 rfl
    · simp only [hashInit] at *; omega
  · intro p _ _
    simp only [hashInit]
    split <;> rfl

end Mmg.HTri
