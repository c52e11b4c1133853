/- Second and third pass of `MMG5_mmgHashTria`: marking of edges shared with purely parallel
sides, and of the end points of non-manifold edges. -/
import Verif.HashTriaInv

namespace Mmg.HTri
open Mmg.Hash
open Classical in
/-- `f` with the bits `m` added where `c` holds. -/
noncomputable def addIf (c : Prop) (m t : BitVec 16) : BitVec 16 := if c then t ||| m else t

theorem addIf_pos {c : Prop} {m t : BitVec 16} (h : c) : addIf c m t = t ||| m := by
  unfold addIf; rw [if_pos h]
theorem addIf_neg {c : Prop} {m t : BitVec 16} (h : ¬ c) : addIf c m t = t := by
  unfold addIf; rw [if_neg h]

theorem or_idem (t m : BitVec 16) : t ||| m ||| m = t ||| m := by
  rw [BitVec.or_assoc, BitVec.or_self]

theorem addIf_or {c d : Prop} {m t : BitVec 16} :
    addIf d m (addIf c m t) = addIf (c ∨ d) m t := by
  by_cases hc : c <;> by_cases hd : d
  · rw [addIf_pos hd, addIf_pos hc, addIf_pos (Or.inl hc), or_idem]
  · rw [addIf_neg hd, addIf_pos hc, addIf_pos (Or.inl hc)]
  · rw [addIf_pos hd, addIf_neg hc, addIf_pos (Or.inr hd)]
  · rw [addIf_neg hd, addIf_neg hc, addIf_neg (by tauto)]

theorem addIf_congr {c d : Prop} {m t : BitVec 16} (h : c ↔ d) : addIf c m t = addIf d m t := by
  rw [propext h]

/-- The sides of an edge that carry the links: the first one and its partner. -/
def Marked (E : Env) (L : List (Nat × Nat)) (y : Nat × Nat) : Prop :=
  match L with
  | [] => False
  | [a] => y = a
  | a :: b :: r => y = a ∨ y = partner E b r

/-- A purely parallel side of a valid triangle. -/
def Par (v : Nat → Nat → Nat) (tag : Nat → Nat → BitVec 16) (z : Nat × Nat) : Prop :=
  v z.1 0 ≠ 0 ∧ onlyPar (tag z.1 z.2) = true

variable {E : Env} {v : Nat → Nat → Nat} {tag : Nat → Nat → BitVec 16} {pt : Nat → BitVec 16}

theorem Marked.mem {L : List (Nat × Nat)} {y} (h : Marked E L y) : y ∈ L := by
  match L, h with
  | [_], h => simp only [Marked] at h; simp [h]
  | a :: b :: r, h =>
    rcases h with rfl | rfl
    · simp
    · exact List.mem_cons_of_mem _ (partner_mem E b r)

/-- State during the second pass, after the sides `P`. -/
structure IQ (E : Env) (v : Nat → Nat → Nat) (tag : Nat → Nat → BitVec 16) (pt : Nat → BitVec 16)
    (s1 : St) (P : List (Nat × Nat)) (s : St) : Prop where
  hv : s.v = v
  hh : s.h = s1.h
  ha : s.adj = s1.adj
  htag : ∀ x : Nat × Nat, s.tag x.1 x.2 =
    addIf ((∃ z ∈ P, Par v tag z ∧ key v z = key v x) ∧
      Marked E (on v tag (key v x) (sides E.nt)) x) bdyPar (s1.tag x.1 x.2)
  ptag : ∀ p, s.ptag p =
    addIf (∃ z ∈ P, Par v tag z ∧ on v tag (key v z) (sides E.nt) ≠ [] ∧
      (p = (key v z).1 ∨ p = (key v z).2.1)) parBdyBdy (pt p)

variable {s1 s : St} {P : List (Nat × Nat)} {z : Nat × Nat}

theorem IQ.onlyPar_eq (I1 : IP E v tag pt (sides E.nt) s1) (I : IQ E v tag pt s1 P s)
    (x : Nat × Nat) : onlyPar (s.tag x.1 x.2) = onlyPar (tag x.1 x.2) := by
  rw [I.htag]
  by_cases h : (∃ z ∈ P, Par v tag z ∧ key v z = key v x) ∧
      Marked E (on v tag (key v x) (sides E.nt)) x
  · rw [addIf_pos h, onlyPar_bdyPar]
    have := (mem_on.1 h.2.mem).2.1
    simp only [act, Bool.and_eq_true, Bool.not_eq_true'] at this
    exact this.2.symm
  · rw [addIf_neg h, I1.onlyPar_eq]

theorem ex_append {p : Nat × Nat → Prop} : (∃ y ∈ P ++ [z], p y) ↔ (∃ y ∈ P, p y) ∨ p z := by
  constructor
  · rintro ⟨y, h1, h2⟩
    rw [List.mem_append, List.mem_singleton] at h1
    rcases h1 with h1 | rfl
    · exact Or.inl ⟨y, h1, h2⟩
    · exact Or.inr h2
  · rintro (⟨y, h1, h2⟩ | h)
    · exact ⟨y, by simp [h1], h2⟩
    · exact ⟨z, by simp, h⟩

/-- Nothing to do for the side `z`. -/
theorem IQ.skip (I : IQ E v tag pt s1 P s)
    (h : ¬ Par v tag z ∨ on v tag (key v z) (sides E.nt) = []) : IQ E v tag pt s1 (P ++ [z]) s := by
  refine ⟨I.hv, I.hh, I.ha, ?_, ?_⟩
  · intro x
    rw [I.htag]
    apply addIf_congr
    rw [ex_append]
    constructor
    · rintro ⟨h1, h2⟩; exact ⟨Or.inl h1, h2⟩
    · rintro ⟨h1 | h1, h2⟩
      · exact ⟨h1, h2⟩
      · exfalso
        rcases h with h | h
        · exact h h1.1
        · rw [← h1.2, h] at h2; exact h2
  · intro p
    rw [I.ptag]
    apply addIf_congr
    rw [ex_append]
    constructor
    · exact Or.inl
    · rintro (h1 | h1)
      · exact h1
      · exfalso
        rcases h with h | h
        · exact h h1.1
        · exact h1.2.1 h

theorem set_addIf {f : Nat → Nat → BitVec 16} {a x : Nat × Nat} {m : BitVec 16} :
    set2 f a.1 a.2 (f a.1 a.2 ||| m) x.1 x.2 = addIf (x = a) m (f x.1 x.2) := by
  rw [set2_at]
  by_cases h : x = a
  · subst h; rw [if_pos rfl, addIf_pos rfl]
  · rw [if_neg h, addIf_neg h]

theorem set1_addIf {f : Nat → BitVec 16} {a x : Nat} {m : BitVec 16} :
    set1 f a (f a ||| m) x = addIf (x = a) m (f x) := by
  simp only [set1]
  by_cases h : x = a
  · subst h; rw [if_pos rfl, addIf_pos rfl]
  · rw [if_neg h, addIf_neg h]

theorem IQ.mark (I1 : IP E v tag pt (sides E.nt) s1) (I : IQ E v tag pt s1 P s)
    (hz : Par v tag z) {a : Nat × Nat} {r : List (Nat × Nat)}
    (hL : on v tag (key v z) (sides E.nt) = a :: r) {q} (hqc : (s.h.item q).k = code a) :
    ∃ s', markPar E s (key v z).1 (key v z).2.1 q = .ok s' ∧ IQ E v tag pt s1 (P ++ [z]) s' := by
  have hP : ∀ y ∈ sides E.nt, IsSide E y := fun y hy => mem_sides.1 hy
  have hmem : ∀ y, y ∈ a :: r → IsSide E y ∧ v y.1 0 ≠ 0 ∧ key v y = key v z ∧ y ∈ sides E.nt := by
    intro y hy; rw [← hL] at hy; exact on_isSide hP hy
  obtain ⟨hsa, haa, hka, haP⟩ := hmem a (by simp)
  have hdiv : (s.h.item q).k / 3 = a.1 := by rw [hqc]; exact code_div hsa.2.2
  have hmod : (s.h.item q).k % 3 = a.2 := by rw [hqc]; exact code_mod hsa.2.2
  have hub : ¬ (a.1 = 0 ∨ E.nt < a.1) := by have := hsa.1; have := hsa.2.1; omega
  have hadja := I1.adj a hsa.1 hsa.2.2
  rw [hka, hL, ← I.ha] at hadja
  -- conditions after the step
  have ctag : ∀ x, ((∃ y ∈ P ++ [z], Par v tag y ∧ key v y = key v x) ∧
      Marked E (on v tag (key v x) (sides E.nt)) x) ↔
      ((∃ y ∈ P, Par v tag y ∧ key v y = key v x) ∧
        Marked E (on v tag (key v x) (sides E.nt)) x) ∨ Marked E (a :: r) x := by
    intro x
    rw [ex_append]
    constructor
    · rintro ⟨h1 | h1, h2⟩
      · exact Or.inl ⟨h1, h2⟩
      · right; rw [← h1.2, hL] at h2; exact h2
    · rintro (⟨h1, h2⟩ | h)
      · exact ⟨Or.inl h1, h2⟩
      · have hk := (hmem x h.mem).2.2.1
        exact ⟨Or.inr ⟨hz, hk.symm⟩, by rw [hk, hL]; exact h⟩
  have cpt : ∀ p, (∃ y ∈ P ++ [z], Par v tag y ∧ on v tag (key v y) (sides E.nt) ≠ [] ∧
      (p = (key v y).1 ∨ p = (key v y).2.1)) ↔
      ((∃ y ∈ P, Par v tag y ∧ on v tag (key v y) (sides E.nt) ≠ [] ∧
        (p = (key v y).1 ∨ p = (key v y).2.1)) ∨ p = (key v z).1) ∨ p = (key v z).2.1 := by
    intro p
    rw [ex_append]
    have : (Par v tag z ∧ on v tag (key v z) (sides E.nt) ≠ [] ∧
      (p = (key v z).1 ∨ p = (key v z).2.1)) ↔ (p = (key v z).1 ∨ p = (key v z).2.1) := by
      rw [hL]; simp [hz]
    rw [this, or_assoc]
  unfold markPar
  simp only [hdiv, hmod, if_neg hub]
  cases r with
  | nil =>
    have h0 : s.adj (aidx a.1 a.2) = 0 := by rw [hadja]; rfl
    simp only [h0, Nat.zero_div, if_true]
    refine ⟨_, rfl, I.hv, I.hh, I.ha, ?_, ?_⟩
    · intro x
      simp only []
      rw [set_addIf, I.htag, addIf_or, addIf_congr (ctag x)]
      rfl
    · intro p
      simp only []
      rw [set1_addIf, set1_addIf, I.ptag, addIf_or, addIf_or, addIf_congr (cpt p), or_assoc]
  | cons b r =>
    have hadja' : s.adj (aidx a.1 a.2) = code (partner E b r) := by rw [hadja]; simp [adjSpec]
    have hpm : partner E b r ∈ a :: b :: r := List.mem_cons_of_mem _ (partner_mem E b r)
    obtain ⟨hsp, _, _, _⟩ := hmem _ hpm
    have h1 : ¬ ((partner E b r).1 = 0) := by have := hsp.1; omega
    have h2 : ¬ (E.nt < (partner E b r).1) := by have := hsp.2.1; omega
    simp only [hadja', code_div hsp.2.2, code_mod hsp.2.2, if_neg h1, if_neg h2]
    refine ⟨_, rfl, I.hv, I.hh, I.ha, ?_, ?_⟩
    · intro x
      simp only []
      rw [set_addIf, set_addIf, I.htag, addIf_or, addIf_or, addIf_congr (ctag x)]
      apply addIf_congr
      simp only [Marked]
    · intro p
      simp only []
      rw [set1_addIf, set1_addIf, set1_addIf, set1_addIf, I.ptag, addIf_or, addIf_or, addIf_or,
        addIf_or, addIf_congr (cpt p)]
      apply addIf_congr
      generalize (∃ y ∈ P, Par v tag y ∧ on v tag (key v y) (sides E.nt) ≠ [] ∧
        (p = (key v y).1 ∨ p = (key v y).2.1)) = c
      tauto

theorem IQ.step (I1 : IP E v tag pt (sides E.nt) s1) (I : IQ E v tag pt s1 P s) :
    ∃ s', parStep E s z.1 z.2 = .ok s' ∧ IQ E v tag pt s1 (P ++ [z]) s' := by
  unfold parStep
  rw [I.hv]
  by_cases hv0 : v z.1 0 = 0
  · rw [if_pos hv0]
    exact ⟨s, rfl, I.skip (Or.inl fun h => h.1 hv0)⟩
  rw [if_neg hv0, I.onlyPar_eq I1]
  by_cases hop : onlyPar (tag z.1 z.2) = true
  swap
  · have hop' : onlyPar (tag z.1 z.2) = false := by simpa using hop
    rw [if_pos (by simp [hop'])]
    exact ⟨s, rfl, I.skip (Or.inl fun h => hop h.2)⟩
  rw [if_neg (by simp [hop])]
  have hz : Par v tag z := ⟨hv0, hop⟩
  have hInv := I1.inv
  rw [← I.hh] at hInv
  have hkey : key v z = (Nat.min (v z.1 (inxt2 z.2)) (v z.1 (iprv2 z.2)),
    Nat.max (v z.1 (inxt2 z.2)) (v z.1 (iprv2 z.2)), 0) := rfl
  generalize hia : Nat.min (v z.1 (inxt2 z.2)) (v z.1 (iprv2 z.2)) = ia at *
  generalize hib : Nat.max (v z.1 (inxt2 z.2)) (v z.1 (iprv2 z.2)) = ib at *
  have hbo := hInv.bucket_ok ia ib
  simp only [hia, hib, if_neg hbo.1, if_neg hbo.2]
  have hnil : ∀ {L : List (Nat × Nat)}, L.head?.map code = none → L = [] := by
    intro L h; cases L with
    | nil => rfl
    | cons a r => simp at h
  by_cases hne : (s.h.item (bucket s.h.siz ia ib)).a = 0
  · rw [if_pos hne]
    have hM := hInv.none_of_empty (x := (ia, ib, 0)) hne
    rw [← hkey] at hM
    exact ⟨s, rfl, I.skip (Or.inr (hnil hM))⟩
  · rw [if_neg hne]
    have hu : Used s.h (bucket s.h.siz ia ib) := Or.inl ⟨bucket_lt hInv.hsiz, hne⟩
    rcases hInv.walkUpd_spec (keyOk_edge ia ib) s.h.fuel _ hu (hInv.fuel_ok _) with
      ⟨q, hw, hq, hck⟩ | ⟨hw, hno⟩
    · rw [hw]
      simp only []
      have hM := hInv.sound q hq
      rw [hck, ← hkey] at hM
      cases hL : on v tag (key v z) (sides E.nt) with
      | nil => rw [hL] at hM; simp at hM
      | cons a r =>
        rw [hL] at hM
        have := I.mark I1 hz hL (q := q) (by simpa using hM.symm)
        rw [hkey] at this
        exact this
    · rw [hw]
      simp only []
      have hM := hInv.none_of_chain (x := (ia, ib, 0)) (fun q _ hr => hno q hr)
      rw [← hkey] at hM
      exact ⟨s, rfl, I.skip (Or.inr (hnil hM))⟩

theorem IQ.run (I1 : IP E v tag pt (sides E.nt) s1) :
    ∀ (Q P : List (Nat × Nat)) (s : St), IQ E v tag pt s1 P s →
      ∃ s', HTri.run (parStep E) Q s = .ok s' ∧ IQ E v tag pt s1 (P ++ Q) s' := by
  intro Q
  induction Q with
  | nil => intro P s I; exact ⟨s, rfl, by simpa using I⟩
  | cons x Q ih =>
    intro P s I
    obtain ⟨s', h1, h2⟩ := I.step I1 (z := x)
    obtain ⟨s2, h3, h4⟩ := ih _ _ h2
    have e : P ++ x :: Q = (P ++ [x]) ++ Q := by simp
    exact ⟨s2, by simp only [HTri.run, h1]; exact h3, by rw [e]; exact h4⟩

theorem IQ.start (I1 : IP E v tag pt (sides E.nt) s1) : IQ E v tag pt s1 [] s1 := by
  refine ⟨I1.hv, rfl, rfl, ?_, ?_⟩
  · intro x; rw [addIf_neg]; simp
  · intro p; rw [addIf_neg, I1.hp]; simp

/-- State during the third pass. -/
structure IR (s1 : St) (P : List (Nat × Nat)) (s : St) : Prop where
  hv : s.v = s1.v
  hh : s.h = s1.h
  ha : s.adj = s1.adj
  tag : s.tag = s1.tag
  ptag : ∀ p, s.ptag p =
    addIf (∃ z ∈ P, (s1.tag z.1 z.2 &&& nom) ≠ 0#16 ∧
      (p = s1.v z.1 (inxt2 z.2) ∨ p = s1.v z.1 (iprv2 z.2))) nom (s1.ptag p)

theorem IR.step (I : IR s1 P s) :
    ∃ s', nomStep E s z.1 z.2 = .ok s' ∧ IR s1 (P ++ [z]) s' := by
  unfold nomStep
  rw [I.tag]
  by_cases h : (s1.tag z.1 z.2 &&& nom) ≠ 0#16
  · rw [if_pos h]
    refine ⟨_, rfl, I.hv, I.hh, I.ha, ?_, ?_⟩
    · rfl
    · intro p
      simp only []
      rw [set1_addIf, set1_addIf, I.ptag, addIf_or, addIf_or]
      apply addIf_congr
      rw [ex_append, I.hv]
      have : ∀ q : Prop, ((s1.tag z.1 z.2 &&& nom) ≠ 0#16 ∧ q) ↔ q := fun q => by simp [h]
      rw [this]
  · rw [if_neg h]
    refine ⟨_, rfl, I.hv, I.hh, I.ha, I.tag, ?_⟩
    intro p
    rw [I.ptag]
    apply addIf_congr
    rw [ex_append]
    constructor
    · exact Or.inl
    · rintro (h1 | h1)
      · exact h1
      · exact absurd h1.1 h

theorem IR.run : ∀ (Q P : List (Nat × Nat)) (s : St), IR s1 P s →
      ∃ s', HTri.run (nomStep E) Q s = .ok s' ∧ IR s1 (P ++ Q) s' := by
  intro Q
  induction Q with
  | nil => intro P s I; exact ⟨s, rfl, by simpa using I⟩
  | cons x Q ih =>
    intro P s I
    obtain ⟨s', h1, h2⟩ := I.step (E := E) (z := x)
    obtain ⟨s2, h3, h4⟩ := ih _ _ h2
    have e : P ++ x :: Q = (P ++ [x]) ++ Q := by simp
    exact ⟨s2, by simp only [HTri.run, h1]; exact h3, by rw [e]; exact h4⟩

theorem IR.start : IR s1 [] s1 := by
  refine ⟨rfl, rfl, rfl, rfl, ?_⟩
  intro p; rw [addIf_neg]; simp

/-- The three passes together. -/
theorem hashTria_run {np hm : Nat} (G : Good E v) (hg : ∀ c n, E.g c = some n → 1 ≤ n)
    (h1 : 1 ≤ np) (h2 : np ≤ hm) :
    (hashTria E np hm v tag pt = .fail ∧ ∃ x, IsSide E x ∧ E.g (code x) = none) ∨
    ∃ s1 s2 s3, hashTria E np hm v tag pt = .ok s3 ∧ IP E v tag pt (sides E.nt) s1 ∧
      IQ E v tag pt s1 (sides E.nt) s2 ∧ IR s2 (sides E.nt) s3 := by
  obtain ⟨hi, hc⟩ := hashInit_spec h1 h2
  have I0 : IP E v tag pt [] ⟨hashInit np hm, v, tag, fun _ => 0, pt⟩ := by
    refine ⟨rfl, rfl, hi, hc, ?_, ?_⟩
    · intro x _ _; rfl
    · intro x; rw [if_neg (by simp [on])]
  unfold hashTria
  rcases IP.run G hg (sides E.nt) [] _ (fun y hy => mem_sides.1 (by simpa using hy))
    (by simpa using nodup_sides E.nt) I0 with ⟨s1, h3, I1⟩ | ⟨h3, x, hx, h4⟩
  · right
    simp only [List.nil_append] at I1
    obtain ⟨s2, h5, I2⟩ := IQ.run I1 (sides E.nt) [] s1 (IQ.start I1)
    obtain ⟨s3, h6, I3⟩ := IR.run (E := E) (sides E.nt) [] s2 IR.start
    refine ⟨s1, s2, s3, ?_, I1, by simpa using I2, by simpa using I3⟩
    rw [h3]
    simp only [bindO]
    rw [h5]
    exact h6
  · left
    rw [h3]
    exact ⟨rfl, x, mem_sides.1 hx, h4⟩

end Mmg.HTri
