/-
  Boundary records after the insertion of a vertex.
-/
import Verif.DeloneMesh

namespace Mmg.Delone

open Mmg.Split3 Mmg.Swap23 Mmg.Shell Mmg.Hash

theorem face_nomem {g : Option Nat} {room : Nat → Bool} {new : Nat → Nat} {base ip old : Nat}
    {vois : Nat → Nat} {xts : Option XT} {i : Nat} {a : Acc}
    (h : face g room new base ip old vois xts i a = .nomem) : ∃ n, room n = false := by
  unfold face at h
  split_ifs at h
  simp only at h
  split at h
  · rename_i hr
    unfold record at hr
    split at hr
    · cases hr
    · split_ifs at hr with h1 h2 h3
      exact ⟨_, by simpa using h3⟩
  · split at h <;> cases h

theorem faces_nomem {g : Option Nat} {room : Nat → Bool} {new : Nat → Nat} {base ip old : Nat}
    {vois : Nat → Nat} {xts : Option XT} {is : List Nat} : ∀ {a : Acc},
    faces g room new base ip old vois xts is a = .nomem → ∃ n, room n = false := by
  induction is with
  | nil => intro a h; cases h
  | cons i is ih =>
    intro a h
    unfold faces at h
    generalize hr : face g room new base ip old vois xts i a = R at h
    match R, hr with
    | .ok a', _ => exact ih h
    | .nomem, hr => exact face_nomem hr
    | .ub, _ => cases h
    | .full, _ => cases h

theorem tets_nomem {g : Option Nat} {room : Nat → Bool} {new : Nat → Nat} {base ip : Nat}
    {l : List Nat} : ∀ {a : Acc}, tets g room new base ip l a = .nomem → ∃ n, room n = false := by
  induction l with
  | nil => intro a h; cases h
  | cons k l ih =>
    intro a h
    unfold tets at h
    generalize hr : faces g room new base ip k _ _ _ _ = R at h
    match R, hr with
    | .ok a', _ => exact ih h
    | .nomem, hr => exact faces_nomem hr
    | .ub, _ => cases h
    | .full, _ => cases h

/-- The face has boundary data. -/
def HasData (s : St) (d : Nat × Nat) : Prop :=
  s.xt d.1 ≠ 0 ∧ ((s.X (s.xt d.1)).ref d.2 ≠ 0 ∨ (s.X (s.xt d.1)).ftag d.2 ≠ 0)

/-- Record of a new tetrahedron over the external face `d`. -/
structure Rec (s0 s : St) (k : Nat) (d : Nat × Nat) : Prop where
  none : ¬ HasData s0 d → s.xt k = 0
  some : HasData s0 d → s.xt k ≠ 0 ∧
    (s.X (s.xt k)).ref = upd (fun _ => 0) d.2 ((s0.X (s0.xt d.1)).ref d.2) ∧
    (s.X (s.xt k)).ftag = upd (fun _ => 0) d.2 ((s0.X (s0.xt d.1)).ftag d.2) ∧
    (s.X (s.xt k)).edg = (fun e => if e ∈ iarf d.2 then (s0.X (s0.xt d.1)).edg e else 0) ∧
    (s.X (s.xt k)).tag = (fun e => if e ∈ iarf d.2 then (s0.X (s0.xt d.1)).tag e else 0) ∧
    (s.X (s.xt k)).ori = (s0.X (s0.xt d.1)).ori

section
variable {s0 : St} {used : Nat → Prop} {base ip : Nat} {l : List Nat} {new : Nat → Nat}

/-- Invariant of the records; `pend`: the tetrahedra that have not been treated. -/
structure RInv (s0 : St) (used : Nat → Prop) (new : Nat → Nat) (pend : Nat → Prop)
    (E : List (Nat × Nat)) (s : St) : Prop where
  top : s0.top ≤ s.top
  blank : ∀ n, s.top < n → s.X n = s0.X n
  keep : ∀ k, used k → pend k → s.xt k = s0.xt k
  keepX : ∀ k, used k → pend k → s0.xt k ≠ 0 → s.X (s0.xt k) = s0.X (s0.xt k)
  recs : ∀ n d, E[n]? = some d → Rec s0 s (new n) d
  loc : ∀ n d, E[n]? = some d → s.xt (new n) ≠ 0 →
    s.xt (new n) ≤ s.top ∧ (s0.top < s.xt (new n) ∨ s.xt (new n) = s0.xt d.1)
  inj : ∀ n < E.length, ∀ n' < E.length, s.xt (new n) = s.xt (new n') → s.xt (new n) ≠ 0 → n = n'

/-- State in the treatment of `old`. -/
structure CInv (s0 : St) (used : Nat → Prop) (new : Nat → Nat) (pend : Nat → Prop) (old : Nat)
    (E : List (Nat × Nat)) (a : Acc) : Prop where
  R : RInv s0 used new pend E a.s
  dn : ∀ (n : Nat) (d : Nat × Nat), E[n]? = some d → used d.1 ∧ ¬ pend d.1
  fresh : a.isused = false → a.s.xt old = s0.xt old ∧
    ∀ (n : Nat) (d : Nat × Nat), E[n]? = some d → d.1 = old → a.s.xt (new n) = 0
  over : a.isused = true → a.s.xt old = 0

theorem getElem?_snoc {E : List (Nat × Nat)} {x d : Nat × Nat} {n : Nat}
    (h : (E ++ [x])[n]? = some d) : (n < E.length ∧ E[n]? = some d) ∨ (n = E.length ∧ d = x) := by
  by_cases hj : n < E.length
  · rw [List.getElem?_append_left hj] at h; exact .inl ⟨hj, h⟩
  · rw [List.getElem?_append_right (by omega)] at h
    have hj' : n = E.length := by
      by_contra hc
      rw [List.getElem?_eq_none (by simp only [List.length_singleton]; omega)] at h
      cases h
    subst hj'
    simp only [Nat.sub_self, List.getElem?_cons_zero, Option.some.injEq] at h
    exact .inr ⟨rfl, h.symm⟩

/-- A new tetrahedron, with its record. -/
theorem record_spec {room : Nat → Bool} {pend : Nat → Prop} {old i : Nat} {E : List (Nat × Nat)}
    {a b : Acc} (hS : Slots s0 used) (hF : ∀ j ≤ E.length, ¬ used (new j))
    (hI : ∀ j ≤ E.length, ∀ j' ≤ E.length, new j = new j' → j = j')
    (hold : used old) (hpo : ¬ pend old) (I : CInv s0 used new pend old E a)
    (hr : record room (if s0.xt old ≠ 0 then some (s0.X (s0.xt old)) else none) (new E.length) old i
      { a with n := E.length + 1, s := copyTet ip (new E.length) old i a.s } = some b) :
    CInv s0 used new pend old (E ++ [(old, i)]) b := by
  have hun : ∀ k, used k → k ≠ new E.length := fun k hk h => hF _ le_rfl (h ▸ hk)
  have hnn : ∀ n, n < E.length → new n ≠ new E.length := fun n hn h => by
    have := hI n (by omega) _ le_rfl h; omega
  have hno : ∀ n, n ≤ E.length → new n ≠ old := fun n hn h => hF n hn (h ▸ hold)
  -- no record
  have plain : ∀ s : St, ¬ HasData s0 (old, i) → s.top = a.s.top → s.X = a.s.X →
      (∀ k, k ≠ new E.length → s.xt k = a.s.xt k) → s.xt (new E.length) = 0 → ∀ n h,
      CInv s0 used new pend old (E ++ [(old, i)]) ⟨s, n, h, a.isused⟩ := by
    intro s hd ht hX hxt hx0 n0 h0
    refine ⟨⟨by rw [ht]; exact I.R.top, by rw [ht, hX]; exact I.R.blank, ?_, ?_, ?_, ?_, ?_⟩, ?_, ?_, ?_⟩
    · intro k hk hp; simp only; rw [hxt k (hun k hk)]; exact I.R.keep k hk hp
    · intro k hk hp h; simp only; rw [hX]; exact I.R.keepX k hk hp h
    · intro n d hn
      rcases getElem?_snoc hn with ⟨hl, hn⟩ | ⟨rfl, rfl⟩
      · obtain ⟨r1, r2⟩ := I.R.recs n d hn
        refine ⟨fun h => ?_, fun h => ?_⟩
        · simp only; rw [hxt _ (hnn n hl)]; exact r1 h
        · simp only; rw [hxt _ (hnn n hl), hX]; exact r2 h
      · exact ⟨fun _ => hx0, fun h => absurd h hd⟩
    · intro n d hn h
      simp only at h ⊢
      rcases getElem?_snoc hn with ⟨hl, hn⟩ | ⟨rfl, rfl⟩
      · rw [hxt _ (hnn n hl)] at h ⊢; rw [ht]; exact I.R.loc n d hn h
      · exact absurd hx0 h
    · intro n hn n' hn' he h
      simp only [List.length_append, List.length_singleton] at hn hn' he h
      have h1 : n < E.length := by
        by_contra hc
        rw [show n = E.length by omega] at h; exact h hx0
      have h2 : n' < E.length := by
        by_contra hc
        rw [he, show n' = E.length by omega] at h; exact h hx0
      rw [hxt _ (hnn n h1)] at he h
      rw [hxt _ (hnn n' h2)] at he
      exact I.R.inj n h1 n' h2 he h
    · intro n d hn
      rcases getElem?_snoc hn with ⟨hl, hn⟩ | ⟨rfl, rfl⟩
      · exact I.dn n d hn
      · exact ⟨hold, hpo⟩
    · intro hu
      simp only at hu ⊢
      obtain ⟨f1, f2⟩ := I.fresh hu
      refine ⟨by rw [hxt _ (hun old hold)]; exact f1, fun n d hn hd => ?_⟩
      rcases getElem?_snoc hn with ⟨hl, hn⟩ | ⟨rfl, rfl⟩
      · rw [hxt _ (hnn n hl)]; exact f2 n d hn hd
      · exact hx0
    · intro hu
      simp only at hu ⊢
      rw [hxt _ (hun old hold)]; exact I.over hu
  -- a record in the slot `p`
  have put : ∀ (s : St) (p : Nat) (x0 : XT), HasData s0 (old, i) → p ≠ 0 →
      ((p = s0.xt old ∧ s.top = a.s.top ∧ a.isused = false) ∨ (p = a.s.top + 1 ∧ s.top = p)) →
      x0.ref = (fun _ => 0) → x0.ftag = (fun _ => 0) → x0.edg = (fun _ => 0) → x0.tag = (fun _ => 0) →
      s.X = upd a.s.X p (faceRec x0 (s0.X (s0.xt old)) i) → s.xt old = 0 →
      (∀ k, k ≠ new E.length → k ≠ old → s.xt k = a.s.xt k) → s.xt (new E.length) = p → ∀ n h,
      CInv s0 used new pend old (E ++ [(old, i)]) ⟨s, n, h, true⟩ := by
    intro s p x0 hd hp0 hp x1 x2 x3 x4 hX hxo hxt hxn n0 h0
    have htop : a.s.top ≤ s.top := by rcases hp with ⟨_, h, _⟩ | ⟨h, h'⟩ <;> omega
    have ht0 := I.R.top
    -- the slot is not used by the others
    have fk : ∀ k, used k → pend k → s0.xt k ≠ 0 → s0.xt k ≠ p := by
      intro k hk hpk hk0 he
      rcases hp with ⟨h, _⟩ | ⟨h, _⟩
      · exact hpo (hS.inj k old hk hold (he.trans h) hk0 ▸ hpk)
      · have := hS.le k hk; omega
    have fn : ∀ n d, E[n]? = some d → a.s.xt (new n) ≠ 0 → a.s.xt (new n) ≠ p := by
      intro n d hn h0 he
      obtain ⟨l1, l2⟩ := I.R.loc n d hn h0
      rcases hp with ⟨h, _, hu⟩ | ⟨h, _⟩
      · rcases l2 with l2 | l2
        · have := hS.le old hold; omega
        · obtain ⟨f1, f2⟩ := I.fresh hu
          have hdo : d.1 = old := hS.inj _ _ (I.dn n d hn).1 hold (by rw [← l2, he, h]) (by rw [← l2]; exact h0)
          exact h0 (f2 n d hn hdo)
      · omega
    have hXo : ∀ q, q ≠ p → s.X q = a.s.X q := by
      intro q hq; rw [hX]; simp only [Swap23.upd]; rw [if_neg hq]
    refine ⟨⟨by simp only; omega, ?_, ?_, ?_, ?_, ?_, ?_⟩, ?_, ?_, ?_⟩
    · intro n hn
      simp only at hn ⊢
      rw [hXo n (by
        rcases hp with ⟨h, _, _⟩ | ⟨h, h'⟩
        · have := hS.le old hold; omega
        · omega)]
      exact I.R.blank n (by omega)
    · intro k hk hpk
      simp only
      rw [hxt k (hun k hk) (fun h => hpo (h ▸ hpk))]; exact I.R.keep k hk hpk
    · intro k hk hpk hk0
      simp only
      rw [hXo _ (fk k hk hpk hk0)]; exact I.R.keepX k hk hpk hk0
    · intro n d hn
      rcases getElem?_snoc hn with ⟨hl, hn⟩ | ⟨rfl, rfl⟩
      · obtain ⟨r1, r2⟩ := I.R.recs n d hn
        have e : s.xt (new n) = a.s.xt (new n) := hxt _ (hnn n hl) (hno n (by omega))
        refine ⟨fun h => ?_, fun h => ?_⟩
        · simp only; rw [e]; exact r1 h
        · simp only; rw [e]
          have r := r2 h
          rw [hXo _ (fn n d hn r.1)]
          exact r
      · refine ⟨fun h => absurd hd h, fun _ => ?_⟩
        simp only
        rw [hxn, hX]
        simp only [Swap23.upd, if_true, faceRec]
        exact ⟨hp0, by rw [x1], by rw [x2], by simp only [x3], by simp only [x4], by trivial⟩
    · intro n d hn h
      simp only at h ⊢
      rcases getElem?_snoc hn with ⟨hl, hn⟩ | ⟨rfl, rfl⟩
      · rw [hxt _ (hnn n hl) (hno n (by omega))] at h ⊢
        obtain ⟨l1, l2⟩ := I.R.loc n d hn h
        exact ⟨by omega, l2⟩
      · rw [hxn]
        rcases hp with ⟨h, h', _⟩ | ⟨h, h'⟩
        · exact ⟨by have := hS.le old hold; omega, .inr h⟩
        · exact ⟨by omega, .inl (by omega)⟩
    · intro n hn n' hn' he h
      simp only [List.length_append, List.length_singleton] at hn hn' he h
      have get : ∀ n, n < E.length → E[n]? = some E[n]! := fun n hn => by
        rw [List.getElem?_eq_getElem hn, getElem!_pos E n hn]
      by_cases h1 : n < E.length <;> by_cases h2 : n' < E.length
      · rw [hxt _ (hnn n h1) (hno n (by omega))] at he h
        rw [hxt _ (hnn n' h2) (hno n' (by omega))] at he
        exact I.R.inj n h1 n' h2 he h
      · exfalso
        rw [show n' = E.length by omega, hxn, hxt _ (hnn n h1) (hno n (by omega))] at he
        rw [hxt _ (hnn n h1) (hno n (by omega))] at h
        exact fn n _ (get n h1) h he
      · exfalso
        rw [show n = E.length by omega, hxn, hxt _ (hnn n' h2) (hno n' (by omega))] at he
        exact fn n' _ (get n' h2) (by rw [← he]; exact hp0) he.symm
      · omega
    · intro n d hn
      rcases getElem?_snoc hn with ⟨hl, hn⟩ | ⟨rfl, rfl⟩
      · exact I.dn n d hn
      · exact ⟨hold, hpo⟩
    · intro hu; cases hu
    · intro _; exact hxo
  by_cases h0 : s0.xt old = 0
  · rw [if_neg (by simpa using h0)] at hr
    simp only [record, Option.some.injEq] at hr
    subst hr
    refine plain (copyTet ip (new E.length) old i a.s) (fun h => h.1 h0) rfl rfl (fun k hk => ?_) ?_ _ _
    · simp only [copyTet, Swap23.upd]; rw [if_neg hk]
    · simp only [copyTet, Swap23.upd, if_true]
      cases hu : a.isused with
      | false => rw [(I.fresh hu).1, h0]
      | true => exact I.over hu
  · rw [if_pos h0] at hr
    simp only [record] at hr
    split_ifs at hr with hd hu hroom
    · simp only [Option.some.injEq] at hr
      subst hr
      have hu : a.isused = false := by simpa using hu
      have hxo : upd a.s.xt (new E.length) (a.s.xt old) old = a.s.xt old := by
        simp only [Swap23.upd]; rw [if_neg (hun old hold)]
      have hd' : HasData s0 (old, i) := ⟨h0, hd⟩
      refine put _ (s0.xt old) XT.zero ?_ ?_ ?_ ?_ ?_ ?_ ?_ ?_ ?_ ?_ ?_ _ _
      · exact hd'
      · exact h0
      · exact .inl ⟨rfl, rfl, hu⟩
      · rfl
      · rfl
      · rfl
      · rfl
      · simp only [copyTet]; rw [hxo, (I.fresh hu).1]
      · simp only [Swap23.upd, if_true]
      · intro k hk hko
        simp only [copyTet, Swap23.upd]
        rw [if_neg hko, if_neg hk, if_neg hk]
      · simp only [copyTet]
        rw [hxo, (I.fresh hu).1]
        simp only [Swap23.upd]
        rw [if_neg (hno _ le_rfl), if_true]
    · simp only [Option.some.injEq] at hr
      subst hr
      have hu : a.isused = true := by simpa using hu
      have hd' : HasData s0 (old, i) := ⟨h0, hd⟩
      have hb := hS.blank (a.s.top + 1) (by have := I.R.top; omega)
      have hx : a.s.X (a.s.top + 1) = s0.X (a.s.top + 1) := I.R.blank _ (by omega)
      have := put { (copyTet ip (new E.length) old i a.s) with
          top := a.s.top + 1
          xt := upd (copyTet ip (new E.length) old i a.s).xt (new E.length) (a.s.top + 1)
          X := upd a.s.X (a.s.top + 1) (faceRec (a.s.X (a.s.top + 1)) (s0.X (s0.xt old)) i) }
        (a.s.top + 1) (a.s.X (a.s.top + 1)) hd' (by omega) (.inr ⟨rfl, rfl⟩)
        (by rw [hx]; exact hb.1) (by rw [hx]; exact hb.2.1) (by rw [hx]; exact hb.2.2.1)
        (by rw [hx]; exact hb.2.2.2) rfl ?_ ?_ ?_ (E.length + 1) a.h
      · rw [hu]; exact this
      · simp only [copyTet, Swap23.upd]
        rw [if_neg (hun old hold), if_neg (hun old hold)]
        exact I.over hu
      · intro k hk hko
        simp only [copyTet, Swap23.upd]
        rw [if_neg hk, if_neg hk]
      · simp only [Swap23.upd, if_true]
    · simp only [Option.some.injEq] at hr
      subst hr
      refine plain _ ?_ ?_ ?_ (fun k hk => ?_) ?_ _ _
      · exact fun h => hd h.2
      · rfl
      · rfl
      · simp only [copyTet, Swap23.upd]; rw [if_neg hk, if_neg hk]
      · simp only [Swap23.upd, if_true]

theorem faces_rec (H : Sit s0 used base ip l new) (hS : Slots s0 used) (g : Option Nat)
    (room : Nat → Bool) {pend : Nat → Prop} {old : Nat} {vois : Nat → Nat} (hold : old ∈ l)
    (hpo : ¬ pend old) (hv : ∀ i < 4, vois i = link s0.A old i) (is : List Nat)
    (hi : ∀ i ∈ is, i < 4) :
    ∀ (E F : List (Nat × Nat)) (a a' : Acc),
      E ++ ((is.filter fun i => isExt s0 base (link s0.A old i)).map fun i => (old, i)) ++ F =
        extFaces s0 base l →
      MInv s0 ip new (extFaces s0 base l).length E a → CInv s0 used new pend old E a →
      faces g room new base ip old vois
        (if s0.xt old ≠ 0 then some (s0.X (s0.xt old)) else none) is a = .ok a' →
      CInv s0 used new pend old
        (E ++ ((is.filter fun i => isExt s0 base (link s0.A old i)).map fun i => (old, i))) a' := by
  induction is with
  | nil => intro E F a a' _ _ I h; cases h; simpa using I
  | cons i is ih =>
    intro E F a a' hE M I hr
    have hi4 := hi i (by simp)
    unfold faces at hr
    cases hx : isExt s0 base (link s0.A old i) with
    | true =>
      have hf : (i :: is).filter (fun i => isExt s0 base (link s0.A old i)) =
          i :: is.filter fun i => isExt s0 base (link s0.A old i) := by simp [hx]
      rw [hf, List.map_cons] at hE ⊢
      have hE' : E ++ (old, i) :: (((is.filter fun i => isExt s0 base (link s0.A old i)).map
          fun i => (old, i)) ++ F) = extFaces s0 base l := by
        rw [← hE]; simp only [List.append_assoc, List.cons_append]
      have hlen : E.length < (extFaces s0 base l).length := by
        rw [← hE', List.length_append, List.length_cons]; omega
      rcases face_spec H g room _ hold hi4 hE' hx (hv i hi4) H.room M with h | ⟨b, h, M'⟩
      · rw [h] at hr; cases hr
      · rw [h] at hr
        have C : CInv s0 used new pend old (E ++ [(old, i)]) b := by
          unfold face at h
          by_cases hx' : isExt a.s base (vois i) = true
          · rw [if_pos hx'] at h
            simp only [M.n] at h
            generalize hrec : record room _ _ _ _ _ = R at h
            match R, hrec with
            | none, _ => cases h
            | some c, hrec =>
              have C := record_spec hS (fun j hj => H.fresh.free j (by omega))
                (fun j hj j' hj' => H.fresh.inj j (by omega) j' (by omega))
                (H.cav.sub _ hold) hpo I hrec
              simp only at h
              split at h
              · cases h
                exact ⟨⟨C.R.top, C.R.blank, C.R.keep, C.R.keepX, fun n d hn =>
                  ⟨(C.R.recs n d hn).none, (C.R.recs n d hn).some⟩, C.R.loc, C.R.inj⟩, C.dn, C.fresh,
                  C.over⟩
              · cases h
              · cases h
          · -- the face is external
            exfalso
            have hn := M'.n
            rw [if_neg hx'] at h
            have hb : a = b := by cases h; rfl
            rw [← hb, M.n] at hn
            simp at hn
        have := ih (fun i' h' => hi i' (List.mem_cons_of_mem _ h')) (E ++ [(old, i)]) F b a' (by
          rw [← hE]; simp) M' C hr
        simpa using this
    | false =>
      have hf : (i :: is).filter (fun i => isExt s0 base (link s0.A old i)) =
          is.filter fun i => isExt s0 base (link s0.A old i) := by simp [hx]
      rw [hf] at hE ⊢
      rw [face_skip H g room _ (E := E) hold hi4 (by rw [← hE, List.append_assoc]) hx (hv i hi4) M] at hr
      exact ih (fun i' h' => hi i' (List.mem_cons_of_mem _ h')) E F a a' hE M I hr

theorem tets_rec (H : Sit s0 used base ip l new) (hS : Slots s0 used) (g : Option Nat)
    (room : Nat → Bool) (ks : List Nat) (hks : ∀ k ∈ ks, k ∈ l) (hnd : ks.Nodup) :
    ∀ (E F : List (Nat × Nat)) (a a' : Acc), E ++ extFaces s0 base ks ++ F = extFaces s0 base l →
      MInv s0 ip new (extFaces s0 base l).length E a →
      (∀ (n : Nat) (d : Nat × Nat), E[n]? = some d → d.1 ∉ ks ∧ d.1 ∈ l) →
      RInv s0 used new (fun k => k ∉ l ∨ k ∈ ks) E a.s →
      tets g room new base ip ks a = .ok a' →
      RInv s0 used new (fun k => k ∉ l) (E ++ extFaces s0 base ks) a'.s := by
  induction ks with
  | nil =>
    intro E F a a' _ _ _ I h
    cases h
    have : E ++ extFaces s0 base [] = E := by simp [extFaces]
    rw [this]
    exact ⟨I.top, I.blank, fun k hk hp => I.keep k hk (.inl hp),
      fun k hk hp => I.keepX k hk (.inl hp), I.recs, I.loc, I.inj⟩
  | cons old ks ih =>
    intro E F a a' hE M hdn I hr
    have hold := hks old (by simp)
    have hou := H.cav.sub old hold
    rw [List.nodup_cons] at hnd
    have hc : extFaces s0 base (old :: ks) =
        ((List.range 4).filter fun i => isExt s0 base (link s0.A old i)).map (fun i => (old, i)) ++
          extFaces s0 base ks := by simp [extFaces]
    rw [hc] at hE ⊢
    unfold tets at hr
    have hrow : ∀ i < 4, (fun i => link a.s.A old i) i = link s0.A old i := by
      intro i hi
      have h1 := M.G.cell (4 * old + i)
        (by have := H.mesh.adj.pos old (H.cav.sub old hold); omega)
      rw [(run_weak _ _).1 _ (H.row (by rw [← hE]; simp only [List.append_assoc]; rfl) hold hi)] at h1
      simpa [cells, show (4 * old + i) / 4 = old by omega, show (4 * old + i) % 4 = i by omega]
        using h1
    have hxo : a.s.xt old = s0.xt old := I.keep old hou (.inr (by simp))
    have hxts : (if a.s.xt old ≠ 0 then some (a.s.X (a.s.xt old)) else none) =
        (if s0.xt old ≠ 0 then some (s0.X (s0.xt old)) else none) := by
      rw [hxo]
      by_cases h0 : s0.xt old = 0
      · simp [h0]
      · rw [I.keepX old hou (.inr (by simp)) h0]
    rw [hxts] at hr
    have M0 : MInv s0 ip new (extFaces s0 base l).length E { a with isused := false } :=
      ⟨M.n, M.V, M.Vn, M.F, M.T, M.Tn, M.G⟩
    have hE' : E ++ (([0, 1, 2, 3].filter fun i => isExt s0 base (link s0.A old i)).map
        fun i => (old, i)) ++ (extFaces s0 base ks ++ F) = extFaces s0 base l := by
      rw [← hE]; simp [List.range_succ, List.append_assoc]
    have C0 : CInv s0 used new (fun k => k ∉ l ∨ k ∈ ks) old E { a with isused := false } := by
      refine ⟨⟨I.top, I.blank, ?_, ?_, fun n d hn =>
        ⟨(I.recs n d hn).none, (I.recs n d hn).some⟩, I.loc, I.inj⟩, ?_, ?_, ?_⟩
      · intro k hk hp
        exact I.keep k hk (hp.imp_right (List.mem_cons_of_mem _))
      · intro k hk hp
        exact I.keepX k hk (hp.imp_right (List.mem_cons_of_mem _))
      · intro n d hn
        obtain ⟨h1, h2⟩ := hdn n d hn
        refine ⟨H.cav.sub _ h2, ?_⟩
        rintro (h | h)
        · exact h h2
        · exact h1 (List.mem_cons_of_mem _ h)
      · intro _
        refine ⟨hxo, fun n d hn hd => ?_⟩
        exact absurd (by rw [hd]; simp) (hdn n d hn).1
      · intro h; cases h
    rcases faces_spec H g room (if s0.xt old ≠ 0 then some (s0.X (s0.xt old)) else none) hold hrow
      H.room [0, 1, 2, 3] (by simp) E (extFaces s0 base ks ++ F) { a with isused := false } hE' M0 with
      h | ⟨b, h, M'⟩
    · rw [h] at hr; cases hr
    · have C := faces_rec H hS g room hold (pend := fun k => k ∉ l ∨ k ∈ ks) (by
        rintro (h | h)
        · exact h hold
        · exact hnd.1 h) hrow [0, 1, 2, 3] (by simp) E (extFaces s0 base ks ++ F) _ b hE' M0 C0 h
      rw [h] at hr
      have := ih (fun k hk => hks k (List.mem_cons_of_mem _ hk)) hnd.2 _ F b a' (by
        rw [← hE]; simp only [List.append_assoc]; rfl) M' ?_ C.R hr
      · simp only [List.append_assoc] at this
        exact this
      · intro n d hn
        by_cases hl : n < E.length
        · rw [List.getElem?_append_left hl] at hn
          obtain ⟨h1, h2⟩ := hdn n d hn
          exact ⟨fun h => h1 (List.mem_cons_of_mem _ h), h2⟩
        · rw [List.getElem?_append_right (by omega)] at hn
          obtain ⟨j, _, rfl⟩ := List.mem_map.1 (List.mem_of_getElem? hn)
          exact ⟨hnd.1, hold⟩

end

end Mmg.Delone
