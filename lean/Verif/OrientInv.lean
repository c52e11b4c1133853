/-
  C80: the invariant is kept by every side, every triangle and the whole traversal.
-/
import Verif.OrientLemmas

namespace Mmg.Orient
open Mmg.Hash (Outcome)

variable {E : Env} {s0 s : St} {σ : Nat → Equiv.Perm (Fin 3)} {D : Nat → Fin 3 → Prop}

/-! ### Elementary facts -/

theorem fin_ne1 : ∀ i : Fin 3, i + 1 ≠ i + 2 := by decide

theorem excl (G : Good E s0) {k i} (hk : Ex E s0 k) : ¬ (Same s0 k i ∧ Opp s0 k i) := by
  rintro ⟨⟨a, _⟩, ⟨b, _⟩⟩
  exact fin_ne1 i (G.dist k hk _ _ (a.symm.trans b))

theorem cross_back (G : Good E s0) {k i} (hk : Ex E s0 k) (h : Cross s0 k i) :
    Ex E s0 (nb s0 k i) ∧ Cross s0 (nb s0 k i) (np s0 k i) ∧ nb s0 (nb s0 k i) (np s0 k i) = k ∧
      np s0 (nb s0 k i) (np s0 k i) = i := by
  obtain ⟨a, b, c, d⟩ := G.link k i hk h.1
  obtain ⟨e, f⟩ := G.sym k i hk h.1
  refine ⟨a, ⟨?_, e.trans h.2.1, f.trans h.2.2⟩, ?_, ?_⟩
  · rw [c]; have := hk.1; omega
  · have := div3 k i; unfold nb at *; rw [c]; exact this
  · have := mod3 k i; unfold np at *; rw [c]; exact this

theorem Nb.symm (G : Good E s0) {k k'} (h : Nb E s0 k k') : Nb E s0 k' k := by
  obtain ⟨hk, i, hc, rfl⟩ := h
  obtain ⟨a, b, c, _⟩ := cross_back G hk hc
  exact ⟨a, _, b, c⟩

theorem Conn.symm (G : Good E s0) {k k'} (h : Conn E s0 k k') : Conn E s0 k' k := by
  induction h with
  | refl => exact Relation.ReflTransGen.refl
  | tail _ h2 ih => exact Relation.ReflTransGen.head (h2.symm G) ih

/-! ### The parts of the invariant -/

/-- Tags of the sides; `D` is the set of the sides treated (places of `s0`). -/
structure TagInv (E : Env) (s0 : St) (σ : Nat → Equiv.Perm (Fin 3)) (D : Nat → Fin 3 → Prop)
    (tag : Nat → Fin 3 → BitVec 16) : Prop where
  any : ∀ k i, Ex E s0 k → tag k i = s0.tag k (σ k i) ∨ tag k i = s0.tag k (σ k i) ||| ext E s0 k (σ k i)
  done : ∀ k i, Ex E s0 k → D k (σ k i) → tag k i = s0.tag k (σ k i) ||| ext E s0 k (σ k i)

/-- Tags of the vertices. -/
def PtInv (E : Env) (s0 : St) (D : Nat → Fin 3 → Prop) (pt : Nat → BitVec 16) : Prop := ∀ b ∈ bits, ∀ p,
  has (pt p) b = true ↔ (has (s0.ptag p) b = true ∨ ∃ k j, D k j ∧ skipped (s0.tag k j) = false ∧
    has (s0.tag k j ||| ext E s0 k j) b = true ∧ (p = s0.v k (j + 1) ∨ p = s0.v k (j + 2)))

/-- Numbers of the components; `sd` gives the first triangle of each of them. -/
structure FlagInv (E : Env) (s0 : St) (D : Nat → Fin 3 → Prop) (cur : Nat) (pile : List Nat) (ncc : Nat)
    (sd : Nat → Nat) (flag : Nat → Nat) : Prop where
  dEx : ∀ k j, D k j → Ex E s0 k ∧ flag k ≠ 0
  dNb : ∀ k j, D k j → Cross s0 k j → flag (nb s0 k j) = flag k
  dAll : ∀ k, Ex E s0 k → flag k ≠ 0 → k ≠ cur → k ∉ pile → ∀ j, D k j
  pFlag : ∀ k ∈ pile, Ex E s0 k ∧ flag k = ncc
  le : ∀ k, Ex E s0 k → flag k ≤ ncc
  conn : ∀ k k', Ex E s0 k → Ex E s0 k' → flag k = flag k' → flag k ≠ 0 → Conn E s0 k k'
  sdl : ∀ k, Ex E s0 k → flag k ≠ 0 → sd (flag k) ≤ k ∧ Ex E s0 (sd (flag k)) ∧ flag (sd (flag k)) = flag k
  low : ∀ k, Ex E s0 k → k < sd ncc → flag k ≠ 0

structure Inv (E : Env) (s0 : St) (σ : Nat → Equiv.Perm (Fin 3)) (D : Nat → Fin 3 → Prop) (cur : Nat)
    (pile : List Nat) (ncc : Nat) (sd : Nat → Nat) (s : St) : Prop where
  rel : Rel E s0 σ s
  tags : TagInv E s0 σ D s.tag
  pts : PtInv E s0 D s.ptag
  flags : FlagInv E s0 D cur pile ncc sd s.flag
  fresh : ∀ k, Ex E s0 k → s.flag k = 0 → σ k = 1 ∧ 0 < s.base k

/-- Orientation of the numbered triangles when `f` orients the surface. -/
def OInv (E : Env) (s0 : St) (f : Nat → Bool) (sd : Nat → Nat) (σ : Nat → Equiv.Perm (Fin 3)) (flag : Nat → Nat) : Prop :=
  ∀ k, Ex E s0 k → flag k ≠ 0 →
    odd (σ k) = (f k != f (sd (flag k))) ∧ (odd (σ k) = false → σ k = 1)

/-- One more side treated. -/
def more (D : Nat → Fin 3 → Prop) (k : Nat) (j : Fin 3) : Nat → Fin 3 → Prop := fun k' j' => D k' j' ∨ (k' = k ∧ j' = j)

/-! ### Tags along one side -/

theorem tag_skipped (T : TagInv E s0 σ D s.tag) {k i} (hk : Ex E s0 k) :
    skipped (s.tag k i) = skipped (s0.tag k (σ k i)) := by
  rcases T.any k i hk with h | h <;> rw [h]
  exact skipped_ext _ _ _ _ _

theorem tag_nom (T : TagInv E s0 σ D s.tag) {k i} (hk : Ex E s0 k) (h0 : s0.adj k (σ k i) ≠ 0) :
    has (s.tag k i) mgNOM = has (s0.tag k (σ k i)) mgNOM := by
  rcases T.any k i hk with h | h <;> rw [h]
  rw [has_or, nom_ext h0, Bool.or_false]

theorem or_self_r (x y : BitVec 16) : (x ||| y) ||| y = x ||| y := by rw [BitVec.or_assoc, BitVec.or_self]

/-- A tag with the addition of its side. -/
theorem tag_full (T : TagInv E s0 σ D s.tag) {k i} (hk : Ex E s0 k) :
    s.tag k i ||| ext E s0 k (σ k i) = s0.tag k (σ k i) ||| ext E s0 k (σ k i) := by
  rcases T.any k i hk with h | h <;> rw [h]
  exact or_self_r _ _

theorem TagInv.more0 (T : TagInv E s0 σ D s.tag) {k i} (h : s.tag k i = s0.tag k (σ k i) ||| ext E s0 k (σ k i)) :
    TagInv E s0 σ (more D k (σ k i)) s.tag := by
  refine ⟨T.any, ?_⟩
  rintro k' i' hk' (hd | ⟨rfl, hd⟩)
  · exact T.done _ _ hk' hd
  · have := (σ k').injective hd; subst this; exact h

/-- The tag of side `(k,i)` is completed. -/
theorem TagInv.put (T : TagInv E s0 σ D s.tag) {k i} {t} (h : t = s0.tag k (σ k i) ||| ext E s0 k (σ k i)) :
    TagInv E s0 σ D (set2 s.tag k i t) := by
  constructor
  · intro k' i' hk'
    unfold set2; split
    · rename_i e; obtain ⟨rfl, rfl⟩ := e; exact Or.inr h
    · exact T.any _ _ hk'
  · intro k' i' hk' hd
    unfold set2; split
    · rename_i e; obtain ⟨rfl, rfl⟩ := e; exact h
    · exact T.done _ _ hk' hd

theorem set2_self {α : Type} (f : Nat → Fin 3 → α) (k i) (x : α) : set2 f k i x k i = x := by simp [set2]
theorem set2_ne {α : Type} (f : Nat → Fin 3 → α) (k i) (x : α) {k' i'} (h : k' ≠ k) : set2 f k i x k' i' = f k' i' := by
  simp [set2, h]

/-- End points of a side. -/
theorem ends (R : Rel E s0 σ s) {k i} (hk : Ex E s0 k) (p : Nat) :
    (p = s.v k (i + 1) ∨ p = s.v k (i + 2)) ↔ (p = s0.v k (σ k i + 1) ∨ p = s0.v k (σ k i + 2)) := by
  rw [R.v _ _ hk, R.v _ _ hk]
  cases h : odd (σ k)
  · rw [(odd_even _ h i).1, (odd_even _ h i).2]
  · rw [(odd_odd _ h i).1, (odd_odd _ h i).2]; exact or_comm

theorem PtInv.more (P : PtInv E s0 D s.ptag) (R : Rel E s0 σ s) {k i} (hk : Ex E s0 k) {pt : Nat → BitVec 16}
    (hs : skipped (s0.tag k (σ k i)) = false)
    (h : ∀ b ∈ bits, ∀ p, has (pt p) b = (has (s.ptag p) b || ((decide (p = s.v k (i + 1)) || decide (p = s.v k (i + 2))) &&
      has (s0.tag k (σ k i) ||| ext E s0 k (σ k i)) b))) :
    PtInv E s0 (more D k (σ k i)) pt := by
  intro b hb p
  rw [h b hb p, Bool.or_eq_true, P b hb p, Bool.and_eq_true, Bool.or_eq_true, decide_eq_true_eq, decide_eq_true_eq,
    ends R hk]
  constructor
  · rintro ((h | ⟨k', j', a, b, c, d⟩) | ⟨a, b⟩)
    · exact Or.inl h
    · exact Or.inr ⟨k', j', Or.inl a, b, c, d⟩
    · exact Or.inr ⟨k, _, Or.inr ⟨rfl, rfl⟩, hs, b, a⟩
  · rintro (h | ⟨k', j', a | ⟨rfl, rfl⟩, b, c, d⟩)
    · exact Or.inl (Or.inl h)
    · exact Or.inl (Or.inr ⟨k', j', a, b, c, d⟩)
    · exact Or.inr ⟨d, c⟩

theorem PtInv.skip (P : PtInv E s0 D s.ptag) {k j} (hs : skipped (s0.tag k j) = true) :
    PtInv E s0 (Orient.more D k j) s.ptag := by
  intro b hb p
  rw [P b hb p]
  constructor
  · rintro (h | ⟨k', j', a, b, c, d⟩)
    · exact Or.inl h
    · exact Or.inr ⟨k', j', Or.inl a, b, c, d⟩
  · rintro (h | ⟨k', j', a | ⟨rfl, rfl⟩, b, c, d⟩)
    · exact Or.inl h
    · exact Or.inr ⟨k', j', a, b, c, d⟩
    · rw [hs] at b; exact absurd b (by decide)

/-- Tag given by a special edge. -/
def gave (s : St) (k : Nat) (i : Fin 3) : Nat → BitVec 16 :=
  if special (s.tag k i) then giveP (giveP s.ptag (s.v k (i + 1)) (s.tag k i)) (s.v k (i + 2)) (s.tag k i) else s.ptag

theorem has_gave (s : St) (k i) {b} (hb : b ∈ bits) (p) : has (gave s k i p) b = (has (s.ptag p) b ||
    ((decide (p = s.v k (i + 1)) || decide (p = s.v k (i + 2))) && (special (s.tag k i) && has (s.tag k i) b))) := by
  unfold gave
  split
  · rename_i h
    rw [has_giveP _ _ _ _ hb, has_giveP _ _ _ _ hb, h, Bool.true_and]
    cases has (s.ptag p) b <;> cases decide (p = s.v k (i + 1)) <;> cases decide (p = s.v k (i + 2)) <;>
      cases has (s.tag k i) b <;> rfl
  · rename_i h
    rw [Bool.not_eq_true] at h
    rw [h]; simp

/-- Tags given by a special edge, then by the side itself. -/
theorem has_gave_or (s : St) (k i) (t) {b} (hb : b ∈ bits) (p) :
    has (orP (orP (gave s k i) (s.v k (i + 1)) t) (s.v k (i + 2)) t p) b = (has (s.ptag p) b ||
    ((decide (p = s.v k (i + 1)) || decide (p = s.v k (i + 2))) &&
      ((special (s.tag k i) && has (s.tag k i) b) || has t b))) := by
  rw [has_orP, has_orP, has_gave s k i hb]
  cases has (s.ptag p) b <;> cases decide (p = s.v k (i + 1)) <;> cases decide (p = s.v k (i + 2)) <;>
      cases has (s.tag k i) b <;> cases has t b <;> cases special (s.tag k i) <;> rfl

theorem special_of {t b : BitVec 16} (hb : b ∈ bits) (hn : b ≠ mgNOM) : (special t && has t b) = has t b := by
  cases h : has t b
  · simp
  · simp only [bits, List.mem_cons, List.not_mem_nil, or_false] at hb
    unfold special
    rcases hb with rfl | rfl | rfl | rfl
    · simp [h]
    · simp [h]
    · simp [h]
    · exact absurd rfl hn

theorem has_full (T : TagInv E s0 σ D s.tag) {k i} (hk : Ex E s0 k) (b) :
    (has (s.tag k i) b || has (ext E s0 k (σ k i)) b) = has (s0.tag k (σ k i) ||| ext E s0 k (σ k i)) b := by
  rw [← tag_full T hk, has_or]

/-! ### The crossing of an ordinary edge -/

/-- The end of the treatment of a side, after the tags (lines 195-254). -/
def cont (ncc k : Nat) (i : Fin 3) (s : St) (pile : List Nat) : Outcome (St × List Nat) :=
  let ip1 := s.v k (i + 1)
  let ip2 := s.v k (i + 2)
  let kk := nb s k i
  let ii := np s k i
  let pile := if s.flag kk = 0 then kk :: pile else pile
  let s := if s.flag kk = 0 then { s with flag := set1 s.flag kk ncc } else s
  if s.v kk (ii + 1) = ip1 then
    if s.base kk < 0 then .fail
    else .ok (flip s kk (ii + 1) (ii + 2) ip1 ip2, pile)
  else .ok ({ s with base := set1 s.base kk (- s.base kk) }, pile)

theorem side_spec (G : Good E s0) (R : Rel E s0 σ s) (T : TagInv E s0 σ D s.tag) (P : PtInv E s0 D s.ptag) {k i}
    (hk : Ex E s0 k) (ncc pile) : ∃ tg pt, TagInv E s0 σ (more D k (σ k i)) tg ∧ PtInv E s0 (more D k (σ k i)) pt ∧
      (¬ Cross s0 k (σ k i) → side E ncc k i s pile = .ok ({ s with tag := tg, ptag := pt }, pile)) ∧
      (Cross s0 k (σ k i) → side E ncc k i s pile = cont ncc k i { s with tag := tg, ptag := pt } pile) := by
  have hsk := tag_skipped T (i := i) hk
  by_cases h1 : skipped (s0.tag k (σ k i)) = true
  · refine ⟨s.tag, s.ptag, T.more0 ?_, P.skip h1, ?_, ?_⟩
    · have : ext E s0 k (σ k i) = 0#16 := by unfold ext; rw [if_pos h1]
      rcases T.any k i hk with h | h
      · rw [h, this]; simp
      · exact h
    · intro _
      unfold side; rw [if_pos (hsk.trans h1)]
    · intro h; rw [h.2.1] at h1; exact absurd h1 (by decide)
  have h1f : skipped (s0.tag k (σ k i)) = false := by simpa using h1
  have hskf : ¬ skipped (s.tag k i) = true := by rw [hsk]; exact h1
  have hgave : (if special (s.tag k i) = true then
      ({ s with ptag := giveP (giveP s.ptag (s.v k (i + 1)) (s.tag k i)) (s.v k (i + 2)) (s.tag k i) } : St) else s) =
      { s with ptag := gave s k i } := by
    unfold gave; split <;> rfl
  by_cases h2 : s0.adj k (σ k i) = 0
  · -- open side
    set t := if E.opnbdy then mgOPNBDY ||| mgNOM else mgNOM with ht
    have hext : ext E s0 k (σ k i) = t := by unfold ext; rw [if_neg h1, if_pos h2]
    have hT : TagInv E s0 σ D (set2 s.tag k i (s.tag k i ||| t)) := T.put (by rw [← hext]; exact tag_full T hk)
    refine ⟨set2 s.tag k i (s.tag k i ||| t), orP (orP (gave s k i) (s.v k (i + 1)) t) (s.v k (i + 2)) t, ?_, ?_, ?_, ?_⟩
    · refine TagInv.more0 (s := { s with tag := set2 s.tag k i (s.tag k i ||| t) }) hT ?_
      show set2 s.tag k i _ k i = _
      rw [set2_self, ← hext]; exact tag_full T hk
    · refine P.more R hk h1f ?_
      intro b hb p
      rw [has_gave_or s k i t hb p, ← has_full T hk, hext]
      by_cases hn : b = mgNOM
      · have : has t b = true := by rw [hn, ht]; split <;> decide
        rw [this]; simp
      · rw [special_of hb hn]
    · intro _
      unfold side
      rw [if_neg hskf]
      simp only [hgave]
      rw [if_pos ((R.adj0 G hk).2 h2)]
    · intro h; exact absurd h2 h.1
  have h2' : ¬ s.adj k i = 0 := fun h => h2 ((R.adj0 G hk).1 h)
  by_cases h3 : has (s0.tag k (σ k i)) mgNOM = true
  · -- non-manifold side
    have hext : ext E s0 k (σ k i) = 0#16 := by unfold ext; rw [if_neg h1, if_neg h2, if_pos h3]
    refine ⟨s.tag, orP (orP (gave s k i) (s.v k (i + 1)) mgNOM) (s.v k (i + 2)) mgNOM, T.more0 ?_, ?_, ?_, ?_⟩
    · rcases T.any k i hk with h | h
      · rw [h, hext]; simp
      · exact h
    · refine P.more R hk h1f ?_
      intro b hb p
      rw [has_gave_or s k i _ hb p, ← has_full T hk, hext, has_zero]
      by_cases hn : b = mgNOM
      · have e1 : has mgNOM b = true := by rw [hn]; decide
        have e2 : has (s.tag k i) b = true := by rw [hn, tag_nom T hk h2, h3]
        rw [e1, e2]; simp
      · have : has mgNOM b = false := by
          simp only [bits, List.mem_cons, List.not_mem_nil, or_false] at hb
          rcases hb with rfl | rfl | rfl | rfl
          · decide
          · decide
          · decide
          · exact absurd rfl hn
        rw [special_of hb hn, this]
    · intro _
      unfold side
      rw [if_neg hskf]
      simp only [hgave]
      rw [if_neg h2', if_pos (by rw [tag_nom T hk h2]; exact h3)]
    · intro h; rw [h.2.2] at h3; exact absurd h3 (by decide)
  have h3f : has (s0.tag k (σ k i)) mgNOM = false := by simpa using h3
  have h3' : ¬ has (s.tag k i) mgNOM = true := by rw [tag_nom T hk h2]; exact h3
  have hC : Cross s0 k (σ k i) := ⟨h2, h1f, h3f⟩
  obtain ⟨hkk, hB, hbn, hbp⟩ := cross_back G hk hC
  have hkkne : nb s0 k (σ k i) ≠ k := (G.link k _ hk h2).2.1
  have hnb := R.nb hk h2
  have hnp := R.np hk h2
  have hnom : ∀ b ∈ bits, b = mgNOM → has (s.tag k i) b = false := by
    intro b _ hn; rw [hn, tag_nom T hk h2]; exact h3f
  by_cases h4 : (E.ref (nb s0 k (σ k i))).natAbs ≠ (E.ref k).natAbs
  · have hext : ext E s0 k (σ k i) = mgREF := by unfold ext; rw [if_neg h1, if_neg h2, if_neg h3, if_pos h4]
    have hext' : ext E s0 (nb s0 k (σ k i)) (np s0 k (σ k i)) = mgREF := by
      unfold ext; rw [if_neg (by rw [hB.2.1]; decide), if_neg hB.1, if_neg (by rw [hB.2.2]; decide), hbn, if_pos (Ne.symm h4)]
    set tg := set2 s.tag k i (s.tag k i ||| mgREF) with htg
    have hT : TagInv E s0 σ D tg := T.put (by rw [← hext]; exact tag_full T hk)
    have hT1 : TagInv E s0 σ (more D k (σ k i)) tg := by
      refine TagInv.more0 (s := { s with tag := tg }) hT ?_
      show set2 s.tag k i _ k i = _
      rw [set2_self, ← hext]; exact tag_full T hk
    have hσ : σ (nb s k i) (np s k i) = np s0 k (σ k i) := by rw [hnp, hnb, Equiv.apply_symm_apply]
    have hT2 : TagInv E s0 σ (more D k (σ k i)) (set2 tg (nb s k i) (np s k i) (tg (nb s k i) (np s k i) ||| mgREF)) := by
      refine TagInv.put (s := { s with tag := tg }) hT1 ?_
      have := tag_full (s := { s with tag := tg }) hT1 (k := nb s k i) (i := np s k i) (by rw [hnb]; exact hkk)
      rw [hσ, hnb, hext'] at this
      rw [hσ, hnb, hext']; exact this
    refine ⟨_, orP (orP (gave s k i) (s.v k (i + 1)) mgREF) (s.v k (i + 2)) mgREF, hT2, ?_, fun h => absurd hC h, ?_⟩
    · refine P.more R hk h1f ?_
      intro b hb p
      rw [has_gave_or s k i _ hb p, ← has_full T hk, hext]
      by_cases hn : b = mgNOM
      · rw [hnom b hb hn]; simp
      · rw [special_of hb hn]
    · intro _
      unfold side
      rw [if_neg hskf]
      simp only [hgave]
      rw [if_neg h2', if_neg h3', if_pos (show (E.ref (s.adj k i / 3)).natAbs ≠ _ by
        have : s.adj k i / 3 = nb s0 k (σ k i) := hnb
        rw [this]; exact h4)]
      rfl
  · have hext : ext E s0 k (σ k i) = 0#16 := by unfold ext; rw [if_neg h1, if_neg h2, if_neg h3, if_neg h4]
    refine ⟨s.tag, gave s k i, T.more0 ?_, ?_, fun h => absurd hC h, ?_⟩
    · rcases T.any k i hk with h | h
      · rw [h, hext]; simp
      · exact h
    · refine P.more R hk h1f ?_
      intro b hb p
      rw [has_gave s k i hb p, ← has_full T hk, hext, has_zero]
      by_cases hn : b = mgNOM
      · rw [hnom b hb hn]; simp
      · rw [special_of hb hn, Bool.or_false]
    · intro _
      unfold side
      rw [if_neg hskf]
      simp only [hgave]
      rw [if_neg h2', if_neg h3', if_neg (show ¬ (E.ref (s.adj k i / 3)).natAbs ≠ _ by
        have : s.adj k i / 3 = nb s0 k (σ k i) := hnb
        rw [this]; exact h4)]
      rfl

end Mmg.Orient
