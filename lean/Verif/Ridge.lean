/-
  C87. Detection of the sharp edges and of the singular vertices of a surface (`MMG5_setdhd`, `MMG5_singul`): statements
  and cases.
-/
import Mathlib.Tactic.NormNum
import Verif.BallProps
import Mathlib.Tactic.Linarith
import Mathlib.Algebra.Order.Ring.Rat
import Verif.RidgeFan

namespace Mmg.Ridge

open Mmg.Tri2 Relation
open Mmg.Orient (has skipped set1 orP mgREF mgGEO mgREQ mgNOM mgBDY mgNOSURF mgPARBDY mgPARBDYBDY)

section
variable {K : Type} [Field K] [LinearOrder K] {E : Env K}

/-! ### Edges -/

theorem live_sides (hv : Valid E.M) (hb : Bounded E) {h : HE} : h ∈ sides E ↔ E.M.live h.1 := by
  rw [mem_sides]
  refine ⟨fun a => a.2.2, fun a => ⟨?_, hb _ a, a⟩⟩
  have := (hv.pos h.1 a).1
  omega

theorem runs (hv : Valid E.M) (s : St) :
    ∃ s1, Inv1 E s (sides E) s1 ∧ Inv2 E s1 (sides E) (setdhd E s) := by
  have hl : ∀ h ∈ sides E, E.M.live h.1 := fun h hh => (mem_sides.1 hh).2.2
  exact ⟨_, inv1 hv s _ nodup_sides hl, inv2 hv _ _ nodup_sides hl⟩

/-- Only one pair has to do with a side. -/
theorem only_pair (hv : Valid E.M) {f : HE → BitVec 16} {h h' g g' x : HE} (hh : E.M.live h.1) (hg : E.M.live g.1)
    (P : Pair E f h h') (Q : Pair E f g g') (hx : x = h ∨ x = h') (hx' : x = g ∨ x = g') : g = h ∧ g' = h' := by
  by_cases e : g = h
  · subst e
    have := P.adj.symm.trans Q.adj
    cases this; exact ⟨rfl, rfl⟩
  · exfalso
    have := alone hv hh hg P Q e
    rcases hx with rfl | rfl <;> rcases hx' with rfl | rfl
    · exact this.1 rfl
    · exact this.2.1 rfl
    · exact this.2.2.1 rfl
    · exact this.2.2.2 rfl

/-- **C87.** An edge between two triangles is a ridge on both sides after the detection exactly when its angle is larger than
the limit, or it was given as ridge on one side and its triangles are not in one plane; it is a reference edge when the
references differ or it was one before. Nothing else is changed. -/
theorem C87_edges (hv : Valid E.M) (hb : Bounded E) (s : St) {h h' : HE} (hl : E.M.live h.1) (P : Pair E s.tag h h') :
    (has ((setdhd E s).tag h) mgGEO = true ↔ Sharp E h h' ∨ Given s.tag h h' ∧ ¬ Flat E h h') ∧
    (has ((setdhd E s).tag h') mgGEO = true ↔ Sharp E h h' ∨ Given s.tag h h' ∧ ¬ Flat E h h') ∧
    (has ((setdhd E s).tag h) mgREF = true ↔ has (s.tag h) mgREF = true ∨ (E.M.tri h'.1).ref ≠ (E.M.tri h.1).ref) ∧
    (has ((setdhd E s).tag h') mgREF = true ↔ has (s.tag h') mgREF = true ∨ (E.M.tri h'.1).ref ≠ (E.M.tri h.1).ref) ∧
    ∀ i, 1 < i → ((setdhd E s).tag h).getLsbD i = (s.tag h).getLsbD i ∧
      ((setdhd E s).tag h').getLsbD i = (s.tag h').getLsbD i := by
  obtain ⟨s1, I1, I2⟩ := runs hv s
  have hP : ∀ a b, Pair E s1.tag a b ↔ Pair E s.tag a b := fun a b => Pair.congr fun x i hi => I1.tag x i (by omega)
  have hm := (live_sides hv hb).2 hl
  have g1 : ∀ x, (x = h ∨ x = h') → ((s1.tag x).getLsbD 1 = true ↔ (s.tag x).getLsbD 1 = true ∧ ¬ Flat E h h') := by
    intro x hx
    rw [I1.geo]
    constructor
    · rintro ⟨a, b⟩
      exact ⟨a, fun F => b ⟨h, hm, h', P, F, hx⟩⟩
    · rintro ⟨a, b⟩
      refine ⟨a, ?_⟩
      rintro ⟨g, hg, g', Q, F, hx'⟩
      obtain ⟨rfl, rfl⟩ := only_pair hv hl ((live_sides hv hb).1 hg) P Q hx hx'
      exact b F
  have gv : Given s1.tag h h' ↔ Given s.tag h h' ∧ ¬ Flat E h h' := by
    unfold Given
    rw [has_geo, has_geo, has_geo, has_geo, g1 h (.inl rfl), g1 h' (.inr rfl)]
    tauto
  have g2 : ∀ x, (x = h ∨ x = h') → (((setdhd E s).tag x).getLsbD 1 = true ↔
      Sharp E h h' ∨ Given s.tag h h' ∧ ¬ Flat E h h') := by
    intro x hx
    rw [I2.geo, ← gv]
    constructor
    · rintro (a | ⟨g, hg, g', Q, R, hx'⟩)
      · right
        unfold Given
        rw [has_geo, has_geo]
        rcases hx with rfl | rfl
        · exact .inl a
        · exact .inr a
      · obtain ⟨rfl, rfl⟩ := only_pair hv hl ((live_sides hv hb).1 hg) P ((hP _ _).1 Q) hx hx'
        exact R
    · intro R
      exact .inr ⟨h, hm, h', (hP _ _).2 P, R, hx⟩
  have r2 : ∀ x, (x = h ∨ x = h') → (((setdhd E s).tag x).getLsbD 0 = true ↔
      (s.tag x).getLsbD 0 = true ∨ (E.M.tri h'.1).ref ≠ (E.M.tri h.1).ref) := by
    intro x hx
    rw [I2.ref, I1.tag x 0 (by decide)]
    constructor
    · rintro (a | ⟨g, hg, g', Q, R, hx'⟩)
      · exact .inl a
      · obtain ⟨rfl, rfl⟩ := only_pair hv hl ((live_sides hv hb).1 hg) P ((hP _ _).1 Q) hx hx'
        exact .inr R
    · rintro (a | R)
      · exact .inl a
      · exact .inr ⟨h, hm, h', (hP _ _).2 P, R, hx⟩
  simp only [has_geo, has_ref]
  exact ⟨g2 h (.inl rfl), g2 h' (.inr rfl), r2 h (.inl rfl), r2 h' (.inr rfl), fun i hi =>
    ⟨(I2.tag h i hi).trans (I1.tag h i (by omega)), (I2.tag h' i hi).trans (I1.tag h' i (by omega))⟩⟩

/-- **C87.** A side that belongs to no pair keeps its tag: border of the surface, non-manifold edges, parallel edges. -/
theorem C87_other_edges (hv : Valid E.M) (s : St) {x : HE}
    (hx : ∀ h h', E.M.live h.1 → Pair E s.tag h h' → x ≠ h ∧ x ≠ h') : (setdhd E s).tag x = s.tag x := by
  obtain ⟨s1, I1, I2⟩ := runs hv s
  have hP : ∀ a b, Pair E s1.tag a b ↔ Pair E s.tag a b := fun a b => Pair.congr fun x i hi => I1.tag x i (by omega)
  have no : ∀ {Q : HE → HE → Prop}, ¬ ∃ h ∈ sides E, ∃ h', Pair E s.tag h h' ∧ Q h h' ∧ (x = h ∨ x = h') := by
    rintro Q ⟨h, hh, h', P, _, e⟩
    have := hx h h' (mem_sides.1 hh).2.2 P
    rcases e with e | e
    · exact this.1 e
    · exact this.2 e
  apply BitVec.eq_of_getLsbD_eq
  intro i _
  rw [Bool.eq_iff_iff]
  rcases Nat.lt_or_ge 1 i with h1 | h1
  · rw [I2.tag x i h1, I1.tag x i (by omega)]
  · interval_cases i
    · rw [I2.ref, I1.tag x 0 (by decide)]
      simp only [hP]
      refine ⟨fun a => a.resolve_right no, .inl⟩
    · rw [I2.geo, I1.geo]
      simp only [hP]
      refine ⟨fun a => (a.resolve_right no).1, fun a => .inl ⟨a, no⟩⟩

/-- **C87.** A vertex is marked as lying on a reference edge when it was or is an end of an edge where the reference changes;
as lying on a ridge when it is an end of an edge that becomes or remains one, or it was marked and is not an end of a ridge
that is removed. Nothing else is changed. -/
theorem C87_vertices (hv : Valid E.M) (hb : Bounded E) (s : St) (p : Nat) :
    (has ((setdhd E s).ptag p) mgREF = true ↔ has (s.ptag p) mgREF = true ∨
      ∃ h h', E.M.live h.1 ∧ Pair E s.tag h h' ∧ End E p h ∧ (E.M.tri h'.1).ref ≠ (E.M.tri h.1).ref) ∧
    (has ((setdhd E s).ptag p) mgGEO = true ↔
      (∃ h h', E.M.live h.1 ∧ Pair E s.tag h h' ∧ End E p h ∧ (Sharp E h h' ∨ Given s.tag h h' ∧ ¬ Flat E h h')) ∨
      has (s.ptag p) mgGEO = true ∧
        ¬ ∃ h h', E.M.live h.1 ∧ Pair E s.tag h h' ∧ End E p h ∧ Given s.tag h h' ∧ Flat E h h') ∧
    ∀ i, 1 < i → ((setdhd E s).ptag p).getLsbD i = (s.ptag p).getLsbD i := by
  obtain ⟨s1, I1, I2⟩ := runs hv s
  have hP : ∀ a b, Pair E s1.tag a b ↔ Pair E s.tag a b := fun a b => Pair.congr fun x i hi => I1.tag x i (by omega)
  have gv : ∀ h h', h ∈ sides E → Pair E s.tag h h' → (Given s1.tag h h' ↔ Given s.tag h h' ∧ ¬ Flat E h h') := by
    intro h h' hm P
    have hl := (live_sides hv hb).1 hm
    have g1 : ∀ x, (x = h ∨ x = h') → ((s1.tag x).getLsbD 1 = true ↔ (s.tag x).getLsbD 1 = true ∧ ¬ Flat E h h') := by
      intro x hx
      rw [I1.geo]
      constructor
      · rintro ⟨a, b⟩
        exact ⟨a, fun F => b ⟨h, hm, h', P, F, hx⟩⟩
      · rintro ⟨a, b⟩
        refine ⟨a, ?_⟩
        rintro ⟨g, hg, g', Q, F, hx'⟩
        obtain ⟨rfl, rfl⟩ := only_pair hv hl ((live_sides hv hb).1 hg) P Q hx hx'
        exact b F
    unfold Given
    rw [has_geo, has_geo, has_geo, has_geo, g1 h (.inl rfl), g1 h' (.inr rfl)]
    tauto
  simp only [has_geo, has_ref]
  refine ⟨?_, ?_, fun i hi => (I2.ptag p i hi).trans (I1.ptag p i (by omega))⟩
  · rw [I2.pref, I1.ptag p 0 (by decide)]
    refine or_congr Iff.rfl ⟨?_, ?_⟩
    · rintro ⟨h, hm, h', P, r, e⟩
      exact ⟨h, h', (live_sides hv hb).1 hm, (hP _ _).1 P, e, r⟩
    · rintro ⟨h, h', hl, P, e, r⟩
      exact ⟨h, (live_sides hv hb).2 hl, h', (hP _ _).2 P, r, e⟩
  · rw [I2.pgeo, I1.pgeo, or_comm]
    refine or_congr ⟨?_, ?_⟩ (and_congr Iff.rfl (not_congr ⟨?_, ?_⟩))
    · rintro ⟨h, hm, h', P, r, e⟩
      have P := (hP _ _).1 P
      refine ⟨h, h', (live_sides hv hb).1 hm, P, e, ?_⟩
      rw [gv h h' hm P] at r; exact r
    · rintro ⟨h, h', hl, P, e, r⟩
      have hm := (live_sides hv hb).2 hl
      refine ⟨h, hm, h', (hP _ _).2 P, ?_, e⟩
      rw [gv h h' hm P]; exact r
    · rintro ⟨h, hm, h', P, F, G, e⟩
      exact ⟨h, h', (live_sides hv hb).1 hm, P, e, G, F⟩
    · rintro ⟨h, h', hl, P, e, G, F⟩
      exact ⟨h, (live_sides hv hb).2 hl, h', P, F, G, e⟩

/-- **C87.** If both sides of the edges agreed before, they agree after. -/
theorem C87_agree (hv : Valid E.M) (hb : Bounded E) (s : St) (ha : Agree E s.tag)
    (hs : ∀ h h', E.M.live h.1 → E.M.adj h = some h' → skipped (s.tag h) = skipped (s.tag h') ∧
      has (s.tag h) mgNOM = has (s.tag h') mgNOM) : Agree E (setdhd E s).tag := by
  intro h h' hl hadj
  have hl' := (hv.link h h' hl hadj).1
  have hsym := (hv.link h h' hl hadj).2.1
  have hne : h.1 ≠ h'.1 := by
    intro e
    have := hv.lnk hl h.2 h'.1 h'.2 hadj
    exact this.2.1 e.symm
  have key : ∀ {h h' : HE}, E.M.live h.1 → E.M.adj h = some h' → Pair E s.tag h h' →
      has ((setdhd E s).tag h) mgGEO = has ((setdhd E s).tag h') mgGEO ∧
      has ((setdhd E s).tag h) mgREF = has ((setdhd E s).tag h') mgREF := by
    intro h h' hl hadj P
    obtain ⟨a, b, c, d, _⟩ := C87_edges hv hb s hl P
    refine ⟨Bool.eq_iff_iff.2 (a.trans b.symm), Bool.eq_iff_iff.2 (c.trans ?_)⟩
    rw [d, (ha h h' hl hadj).2]
  by_cases hp : skipped (s.tag h) = false ∧ has (s.tag h) mgNOM = false
  · rcases Nat.lt_or_ge h.1 h'.1 with h1 | h1
    · exact key hl hadj ⟨hp.1, hp.2, hadj, h1⟩
    · have P' : Pair E s.tag h' h := by
        refine ⟨?_, ?_, hsym, by omega⟩
        · rw [← (hs h h' hl hadj).1]; exact hp.1
        · rw [← (hs h h' hl hadj).2]; exact hp.2
      have := key hl' hsym P'
      exact ⟨this.1.symm, this.2.symm⟩
  · have no : ∀ x, (x = h ∨ x = h') → (setdhd E s).tag x = s.tag x := by
      intro x hx
      apply C87_other_edges hv s
      intro g g' hg Q
      have bad : ∀ y, (y = h ∨ y = h') → ¬ (skipped (s.tag y) = false ∧ has (s.tag y) mgNOM = false) := by
        intro y hy
        rcases hy with rfl | rfl
        · exact hp
        · rw [← (hs h y hl hadj).1, ← (hs h y hl hadj).2]; exact hp
      constructor
      · rintro rfl
        exact bad x hx ⟨Q.skip, Q.nom⟩
      · rintro rfl
        have l2 := (hv.link g x hg Q.adj).2.1
        rcases hx with rfl | rfl
        · rw [hadj] at l2; cases l2
          exact bad _ (.inr rfl) ⟨Q.skip, Q.nom⟩
        · rw [hsym] at l2; cases l2
          exact bad _ (.inl rfl) ⟨Q.skip, Q.nom⟩
    rw [no h (.inl rfl), no h' (.inr rfl)]
    exact ha h h' hl hadj

/-! ### Edges, surface remesher -/

structure InvS (E : Env K) (s0 : St) (L : List HE) (s : St) : Prop where
  tag : ∀ x i, i ≠ 1 → (s.tag x).getLsbD i = (s0.tag x).getLsbD i
  ptag : ∀ p i, i ≠ 1 → (s.ptag p).getLsbD i = (s0.ptag p).getLsbD i
  geo : ∀ x, (s.tag x).getLsbD 1 = true ↔ (s0.tag x).getLsbD 1 = true ∨
    ∃ h ∈ L, ∃ h', E.M.adj h = some h' ∧ h.1 < h'.1 ∧ Sharp E h h' ∧ (x = h ∨ x = h')
  pgeo : ∀ p, (s.ptag p).getLsbD 1 = true ↔ (s0.ptag p).getLsbD 1 = true ∨
    ∃ h ∈ L, ∃ h', E.M.adj h = some h' ∧ h.1 < h'.1 ∧ Sharp E h h' ∧ (s0.tag h).getLsbD 1 = false ∧ End E p h

theorem invS (hv : Valid E.M) (s0 : St) (ha : Agree E s0.tag) (L : List HE) (hn : L.Nodup) (hl : ∀ h ∈ L, E.M.live h.1) :
    InvS E s0 L (L.foldl (stepS E) s0) := by
  induction L using List.reverseRecOn with
  | nil => exact ⟨fun _ _ _ => rfl, fun _ _ _ => rfl, fun _ => by simp, fun _ => by simp⟩
  | append_singleton L h ih =>
    have hn' := List.nodup_append.1 hn
    have I := ih hn'.1 fun x hx => hl x (by simp [hx])
    have hnot : h ∉ L := fun hm => hn'.2.2 h hm h (by simp) rfl
    have hlh := hl h (by simp)
    rw [List.foldl_append]
    simp only [List.foldl_cons, List.foldl_nil]
    generalize L.foldl (stepS E) s0 = s at I ⊢
    have ext : ∀ {P : HE → Prop}, (∃ g ∈ L ++ [h], P g) ↔ (∃ g ∈ L, P g) ∨ P h := by
      intro P
      constructor
      · rintro ⟨g, hg, hp⟩
        rcases List.mem_append.1 hg with hg | hg
        · exact .inl ⟨g, hg, hp⟩
        · rw [List.mem_singleton] at hg; subst hg; exact .inr hp
      · rintro (⟨g, hg, hp⟩ | hp)
        · exact ⟨g, by simp [hg], hp⟩
        · exact ⟨h, by simp, hp⟩
    by_cases hd : ∃ h', E.M.adj h = some h' ∧ h.1 < h'.1 ∧ Sharp E h h'
    · obtain ⟨h', a, b, c⟩ := hd
      have one : ∀ {Q : HE → Prop}, (∃ h'', E.M.adj h = some h'' ∧ h.1 < h''.1 ∧ Sharp E h h'' ∧ Q h'') ↔ Q h' := by
        intro Q
        constructor
        · rintro ⟨h'', a', _, _, q⟩
          rw [a] at a'; cases a'; exact q
        · intro q; exact ⟨h', a, b, c, q⟩
      have same : (s.tag h).getLsbD 1 = (s0.tag h).getLsbD 1 := by
        rw [Bool.eq_iff_iff, I.geo]
        refine ⟨?_, .inl⟩
        rintro (x | ⟨g, hg, g', x, y, _, e⟩)
        · exact x
        · exfalso
          rcases e with rfl | rfl
          · exact hnot hg
          · have := (hv.link g h (hl g (by simp [hg])) x).2.1
            rw [a] at this; cases this
            omega
      have hag := (ha h h' hlh a).1
      rw [has_geo, has_geo] at hag
      by_cases hg : has (s.tag h) mgGEO = true
      · have e : stepS E s h = s := by unfold stepS; rw [if_pos hg]
        rw [e]
        rw [has_geo, same] at hg
        refine ⟨I.tag, I.ptag, fun x => ?_, fun p => ?_⟩
        · rw [I.geo, ext, one]
          constructor
          · rintro (q | q)
            · exact .inl q
            · exact .inr (.inl q)
          · rintro (q | q | q)
            · exact .inl q
            · exact .inr q
            · left
              rcases q with rfl | rfl
              · exact hg
              · rw [← hag]; exact hg
        · rw [I.pgeo, ext, one, hg]
          constructor
          · rintro (q | q)
            · exact .inl q
            · exact .inr (.inl q)
          · rintro (q | q | q)
            · exact .inl q
            · exact .inr q
            · exact absurd q.1 (by decide)
      · have e : stepS E s h = mark E mgGEO h h' s := by
          unfold stepS
          rw [if_neg hg, a]
          simp only
          rw [if_pos b]
          exact if_pos c
        rw [e]
        rw [has_geo, same] at hg
        refine ⟨fun x i hi => ?_, fun p i hi => ?_, fun x => ?_, fun p => ?_⟩
        · rw [mark_tag, bit_geo, I.tag x i hi]; simp [hi]
        · rw [mark_ptag, bit_geo, I.ptag p i hi]; simp [hi]
        · rw [mark_tag, bit_geo, Bool.or_eq_true, I.geo, ext, one, or_assoc]
          simp
        · rw [mark_ptag, bit_geo, Bool.or_eq_true, I.pgeo, ext, one, or_assoc]
          simp at hg
          simp [hg, End]
    · have e : stepS E s h = s := by
        unfold stepS
        split
        · rfl
        split
        · rfl
        rename_i h' a
        split
        · rename_i b
          split
          · rename_i c
            exact absurd ⟨h', a, b, c⟩ hd
          · rfl
        · rfl
      rw [e]
      have no : ∀ {Q : HE → Prop}, (∃ h'', E.M.adj h = some h'' ∧ h.1 < h''.1 ∧ Sharp E h h'' ∧ Q h'') ↔ False := by
        intro Q
        rw [iff_false]
        rintro ⟨h'', a, b, c, _⟩
        exact hd ⟨h'', a, b, c⟩
      refine ⟨I.tag, I.ptag, fun x => ?_, fun p => ?_⟩
      · rw [I.geo, ext, no, or_false]
      · rw [I.pgeo, ext, no, or_false]

/-- **C87.** The surface remesher: an edge between two triangles is a ridge after the detection exactly when it was one or its
angle is larger than the limit; the ends of the new ridges are marked; nothing else is changed. -/
theorem C87_mmgs (hv : Valid E.M) (hb : Bounded E) (s : St) (ha : Agree E s.tag) :
    (∀ h h', E.M.live h.1 → E.M.adj h = some h' → h.1 < h'.1 →
      (has ((setdhdS E s).tag h) mgGEO = true ↔ has (s.tag h) mgGEO = true ∨ Sharp E h h') ∧
      (has ((setdhdS E s).tag h') mgGEO = true ↔ has (s.tag h) mgGEO = true ∨ Sharp E h h')) ∧
    (∀ h, E.M.live h.1 → E.M.adj h = none → (setdhdS E s).tag h = s.tag h) ∧
    (∀ p, has ((setdhdS E s).ptag p) mgGEO = true ↔ has (s.ptag p) mgGEO = true ∨
      ∃ h h', E.M.live h.1 ∧ E.M.adj h = some h' ∧ h.1 < h'.1 ∧ has (s.tag h) mgGEO = false ∧ Sharp E h h' ∧ End E p h) ∧
    (∀ x i, i ≠ 1 → ((setdhdS E s).tag x).getLsbD i = (s.tag x).getLsbD i) ∧
    ∀ p i, i ≠ 1 → ((setdhdS E s).ptag p).getLsbD i = (s.ptag p).getLsbD i := by
  have hlv : ∀ h ∈ sides E, E.M.live h.1 := fun h hh => (mem_sides.1 hh).2.2
  have I := invS hv s ha _ nodup_sides hlv
  have hm : ∀ {h : HE}, E.M.live h.1 → h ∈ sides E := fun a => (live_sides hv hb).2 a
  refine ⟨fun h h' hl a b => ?_, fun h hl hn => ?_, fun p => ?_, I.tag, I.ptag⟩
  · have key : ∀ x, (x = h ∨ x = h') → (((setdhdS E s).tag x).getLsbD 1 = true ↔
        (s.tag h).getLsbD 1 = true ∨ Sharp E h h') := by
      intro x hx
      have hag := (ha h h' hl a).1
      rw [has_geo, has_geo] at hag
      have hx0 : (s.tag x).getLsbD 1 = (s.tag h).getLsbD 1 := by
        rcases hx with rfl | rfl
        · rfl
        · exact hag.symm
      unfold setdhdS
      rw [I.geo, hx0]
      refine or_congr Iff.rfl ⟨?_, fun c => ⟨h, hm hl, h', a, b, c, hx⟩⟩
      rintro ⟨g, hg, g', a', b', c, hx'⟩
      have l1 := (hv.link h h' hl a).2.1
      have l2 := (hv.link g g' (hlv g hg) a').2.1
      rcases hx with rfl | rfl <;> rcases hx' with rfl | rfl
      · rw [a] at a'; cases a'; exact c
      · rw [a] at l2; cases l2; omega
      · rw [l1] at a'; cases a'; omega
      · rw [l1] at l2; cases l2; exact c
    rw [has_geo, has_geo, has_geo]
    exact ⟨key h (.inl rfl), key h' (.inr rfl)⟩
  · apply BitVec.eq_of_getLsbD_eq
    intro i _
    by_cases hi : i = 1
    · subst hi
      rw [Bool.eq_iff_iff]
      unfold setdhdS
      rw [I.geo]
      refine ⟨?_, .inl⟩
      rintro (q | ⟨g, hg, g', a', b', c, rfl | rfl⟩)
      · exact q
      · rw [hn] at a'; cases a'
      · have := (hv.link g h (hlv g hg) a').2.1
        rw [hn] at this; cases this
    · exact I.tag h i hi
  · rw [has_geo, has_geo]
    unfold setdhdS
    rw [I.pgeo]
    refine or_congr Iff.rfl ⟨?_, ?_⟩
    · rintro ⟨h, hh, h', a, b, c, d, e⟩
      exact ⟨h, h', hlv h hh, a, b, by rw [has_geo]; exact d, c, e⟩
    · rintro ⟨h, h', hl, a, b, d, c, e⟩
      rw [has_geo] at d
      exact ⟨h, hm hl, h', a, b, c, d, e⟩

/-! ### Singular vertices -/

/-- Two lists with one side of every special edge have the same numbers of edges of each kind. -/
theorem Feat.count_le (hv : Valid E.M) {tag : HE → BitVec 16} {p : Nat} {es es' : List HE} (F : Feat E tag p es)
    (F' : Feat E tag p es') {Q : HE → Bool}
    (hQ : ∀ h h', E.M.live h.1 → E.M.adj h = some h' → Q h = true → Q h' = true) : es.countP Q ≤ es'.countP Q := by
  classical
  rw [List.countP_eq_length_filter, List.countP_eq_length_filter]
  let φ : HE → HE := fun h => if h ∈ es' then h else (E.M.adj h).getD h
  have spec : ∀ h ∈ es, φ h ∈ es' ∧ (φ h = h ∨ E.M.adj h = some (φ h)) := by
    intro h hh
    by_cases hm : h ∈ es'
    · have : φ h = h := if_pos hm
      rw [this]; exact ⟨hm, .inl rfl⟩
    · have e : φ h = (E.M.adj h).getD h := if_neg hm
      obtain ⟨a, b, c⟩ := F.sound h hh
      rcases F'.complete h a b c with q | ⟨h', q1, q2⟩
      · exact absurd q hm
      · rw [e, q1]; exact ⟨q2, .inr rfl⟩
  have inj : ∀ h ∈ es, ∀ g ∈ es, φ h = φ g → h = g := by
    intro h hh g hg e
    rcases (spec h hh).2 with e1 | e1 <;> rcases (spec g hg).2 with e2 | e2
    · rw [← e1, ← e2, e]
    · exfalso
      rw [← e, e1] at e2
      exact F.once g hg h e2 hh
    · exfalso
      rw [e, e2] at e1
      exact F.once h hh g e1 hg
    · rw [e] at e1
      have l1 := (hv.link _ _ (F.sound h hh).1 e1).2.1
      have l2 := (hv.link _ _ (F.sound g hg).1 e2).2.1
      rw [l1] at l2; cases l2; rfl
  have hnd : ((es.filter Q).map φ).Nodup := by
    apply (F.nodup.filter Q).map_on
    intro x hx y hy e
    exact inj x (List.mem_filter.1 hx).1 y (List.mem_filter.1 hy).1 e
  have hsub : (es.filter Q).map φ ⊆ es'.filter Q := by
    intro x hx
    obtain ⟨h, hh, rfl⟩ := List.mem_map.1 hx
    rw [List.mem_filter] at hh
    rw [List.mem_filter]
    refine ⟨(spec h hh.1).1, ?_⟩
    rcases (spec h hh.1).2 with e | e
    · rw [e]; exact hh.2
    · exact hQ h _ (F.sound h hh.1).1 e hh.2
  have := (hnd.subperm hsub).length_le
  rw [List.length_map] at this
  exact this

theorem Feat.count_eq (hv : Valid E.M) {tag : HE → BitVec 16} (ha : Agree E tag) {p : Nat} {es es' : List HE}
    (F : Feat E tag p es) (F' : Feat E tag p es') : es.length = es'.length ∧ nGeo tag es = nGeo tag es' := by
  have hG : ∀ h h', E.M.live h.1 → E.M.adj h = some h' → has (tag h) mgGEO = true → has (tag h') mgGEO = true :=
    fun h h' hl hh e => by rw [← (ha h h' hl hh).1]; exact e
  refine ⟨?_, Nat.le_antisymm (F.count_le hv F' hG) (F'.count_le hv F hG)⟩
  have := Nat.le_antisymm (F.count_le hv F' (Q := fun _ => true) fun _ _ _ _ _ => rfl)
    (F'.count_le hv F (Q := fun _ => true) fun _ _ _ _ _ => rfl)
  simpa using this

/-- What the words mean: a special edge is a ridge or a reference edge; a vertex is looked at when it is valid, not a corner,
not non-manifold, not parallel (in 3D) and marked as lying on a special edge; an angle is sharp when the scalar product of
the unit vectors is larger than minus the limit, and no vector is too short. -/
theorem C87_words (t : BitVec 16) (s3 : Bool) (tag : HE → BitVec 16) (l : List HE) (p a b : Nat) :
    (edg t = true ↔ t.getLsbD 1 = true ∨ t.getLsbD 0 = true) ∧
    (looked s3 t = true ↔ t.toNat < 2 ^ 15 ∧ t.getLsbD 5 = false ∧ t.getLsbD 3 = false ∧
      ¬ (s3 = true ∧ t.getLsbD 13 = true) ∧ (t.getLsbD 1 = true ∨ t.getLsbD 0 = true)) ∧
    nGeo tag l = (l.filter fun h => (tag h).getLsbD 1).length ∧
    ∀ u v : K × K × K, u = ((E.pos a).x - (E.pos p).x, (E.pos a).y - (E.pos p).y, (E.pos a).z - (E.pos p).z) →
      v = ((E.pos b).x - (E.pos p).x, (E.pos b).y - (E.pos p).y, (E.pos b).z - (E.pos p).z) →
      ∀ q, q = (u.1 ^ 2 + u.2.1 ^ 2 + u.2.2 ^ 2) * (v.1 ^ 2 + v.2.1 ^ 2 + v.2.2 ^ 2) →
      (sharp E p a b = true ↔ E.epsd < |q| ∧
        - E.dhd < (u.1 * v.1 + u.2.1 * v.2.1 + u.2.2 * v.2.2) / E.sqrt q) := by
  have h1 : edg t = true ↔ t.getLsbD 1 = true ∨ t.getLsbD 0 = true := by
    unfold edg; rw [has_geo, has_ref, Bool.or_eq_true]
  refine ⟨h1, ?_, ?_, ?_⟩
  · unfold looked
    rw [Bool.and_eq_true, h1, has_crn, has_nom, has_parbdy]
    have e : t < mgNUL ↔ t.toNat < 2 ^ 15 := BitVec.lt_def
    rw [← e]
    cases t.getLsbD 5 <;> cases t.getLsbD 3 <;> cases t.getLsbD 13 <;> cases s3 <;> simp
  · unfold nGeo
    rw [List.countP_eq_length_filter]
    simp only [has_geo]
  · rintro u v rfl rfl q rfl
    unfold sharp Vec.dot Vec.sub
    simp only [Bool.and_eq_true, decide_eq_true_eq, sq]

/-- Two different special edges at `p` make a sharp angle. -/
def Bent (E : Env K) (tag : HE → BitVec 16) (p : Nat) : Prop :=
  ∃ h h' a b, E.M.live h.1 ∧ E.M.live h'.1 ∧ edg (tag h) = true ∧ edg (tag h') = true ∧ h ≠ h' ∧ E.M.adj h ≠ some h' ∧
    OtherEnd E p h a ∧ OtherEnd E p h' b ∧ sharp E p a b = true

theorem sharp_comm (p a b : Nat) : sharp E p a b = sharp E p b a := by
  unfold sharp
  have e : ∀ u v : Vec K, u.dot v = v.dot u := by
    intro u v; unfold Vec.dot; ring
  simp only
  rw [e ((E.pos a).sub (E.pos p)) ((E.pos b).sub (E.pos p)),
    mul_comm (((E.pos a).sub (E.pos p)).dot _)]

theorem OtherEnd.end {p : Nat} {h : HE} {w : Nat} (o : OtherEnd E p h w) : End E p h := by
  rcases o with o | o
  · exact .inl o.1.symm
  · exact .inr o.1.symm

theorem OtherEnd.unique (hv : Valid E.M) {p : Nat} {h : HE} {w w' : Nat} (hl : E.M.live h.1) (o : OtherEnd E p h w)
    (o' : OtherEnd E p h w') : w = w' := by
  have hne : E.e1 h ≠ E.e2 h := hv.distinct h.1 hl _ _ (fin3 h.2).2.2.2.2.1
  rcases o with ⟨a, b⟩ | ⟨a, b⟩ <;> rcases o' with ⟨a', b'⟩ | ⟨a', b'⟩
  · rw [b, b']
  · exact absurd (a.trans a'.symm) hne
  · exact absurd (a'.trans a.symm) hne
  · rw [b, b']

theorem OtherEnd.twin (hv : Valid E.M) {p : Nat} {h h' : HE} {w : Nat} (hl : E.M.live h.1) (hadj : E.M.adj h = some h')
    (o : OtherEnd E p h w) : OtherEnd E p h' w := by
  obtain ⟨_, _, l3, l4⟩ := hv.link h h' hl hadj
  have e1 : E.e1 h' = E.e2 h := l3
  have e2 : E.e2 h' = E.e1 h := l4
  unfold OtherEnd
  rw [e1, e2]
  rcases o with o | o
  · exact .inr o
  · exact .inl o

theorem bent_iff (hv : Valid E.M) {tag : HE → BitVec 16} {p : Nat} {r : List (HE × Nat)}
    (F : Feat E tag p (r.map (·.1))) (ho : ∀ x ∈ r, OtherEnd E p x.1 x.2) (hr : r.length = 2) :
    sharp E p ((r.map (·.2)).getD 0 0) ((r.map (·.2)).getD 1 0) = true ↔ Bent E tag p := by
  obtain ⟨⟨h1, a⟩, ⟨h2, b⟩, rfl⟩ : ∃ x y, r = [x, y] := by
    match r, hr with
    | [x, y], _ => exact ⟨x, y, rfl⟩
  simp only [List.map_cons, List.map_nil, List.getD_cons_zero, List.getD_cons_succ]
  simp only [List.map_cons, List.map_nil] at F
  have o1 := ho (h1, a) (by simp)
  have o2 := ho (h2, b) (by simp)
  simp only at o1 o2
  obtain ⟨l1, _, s1⟩ := F.sound h1 (by simp)
  obtain ⟨l2, _, s2⟩ := F.sound h2 (by simp)
  have hne : h1 ≠ h2 := by
    have := F.nodup
    simpa using this
  constructor
  · intro hs
    refine ⟨h1, h2, a, b, l1, l2, s1, s2, hne, fun e => F.once h1 (by simp) h2 e (by simp), o1, o2, hs⟩
  · rintro ⟨g, g', x, y, k1, k2, t1, t2, n1, n2, q1, q2, hs⟩
    -- each of the two is one of the list
    have loc : ∀ {g : HE} {x : Nat}, E.M.live g.1 → edg (tag g) = true → OtherEnd E p g x →
        ((g = h1 ∨ E.M.adj g = some h1) ∧ x = a) ∨ ((g = h2 ∨ E.M.adj g = some h2) ∧ x = b) := by
      intro g x k t q
      rcases F.complete g k q.end t with hm | ⟨g', e, hm⟩
      · simp only [List.mem_cons, List.not_mem_nil, or_false] at hm
        rcases hm with rfl | rfl
        · exact .inl ⟨.inl rfl, q.unique hv k o1⟩
        · exact .inr ⟨.inl rfl, q.unique hv k o2⟩
      · simp only [List.mem_cons, List.not_mem_nil, or_false] at hm
        have q' := q.twin hv k e
        rcases hm with rfl | rfl
        · exact .inl ⟨.inr e, q'.unique hv l1 o1⟩
        · exact .inr ⟨.inr e, q'.unique hv l2 o2⟩
    have same : ∀ {h : HE}, E.M.live h.1 → (g = h ∨ E.M.adj g = some h) → (g' = h ∨ E.M.adj g' = some h) → False := by
      intro h hl e e'
      rcases e with rfl | e <;> rcases e' with rfl | e'
      · exact n1 rfl
      · exact n2 (hv.link g' g k2 e').2.1
      · exact n2 e
      · have i1 := (hv.link g h k1 e).2.1
        have i2 := (hv.link g' h k2 e').2.1
        rw [i1] at i2; cases i2; exact n1 rfl
    rcases loc k1 t1 q1 with ⟨e, rfl⟩ | ⟨e, rfl⟩ <;> rcases loc k2 t2 q2 with ⟨e', rfl⟩ | ⟨e', rfl⟩
    · exact absurd e' (fun e' => same l1 e e')
    · exact hs
    · rw [sharp_comm]; exact hs
    · exact absurd e' (fun e' => same l2 e e')

/-- The new tag of a vertex with `n` special edges, `g` of them ridges. -/
noncomputable def newTag (s3 : Bool) (n g : Nat) (bent : Prop) (t : BitVec 16) : BitVec 16 :=
  open Classical in
  if looked s3 t then
    if n = 0 then t
    else if n = 1 ∨ 2 < n then (if s3 then (t ||| (mgCRN ||| mgREQ)) &&& ~~~mgNOSURF else t ||| (mgCRN ||| mgREQ))
    else if g = 1 then (if s3 then (t ||| mgREQ) &&& ~~~mgNOSURF else t ||| mgREQ)
    else if bent then t ||| mgCRN
    else t
  else t

theorem count_edg {tag : HE → BitVec 16} {l : List HE} (h : ∀ x ∈ l, edg (tag x) = true) :
    nGeo tag l + nRef tag l = l.length := by
  induction l with
  | nil => rfl
  | cons a l ih =>
    have ih := ih fun x hx => h x (by simp [hx])
    have ha := h a (by simp)
    unfold nGeo nRef at *
    rw [List.countP_cons, List.countP_cons, List.length_cons]
    unfold edg at ha
    cases h1 : has (tag a) mgGEO <;> cases h2 : has (tag a) mgREF <;> simp_all <;> omega

theorem verdict_eq (hv : Valid E.M) {tag : HE → BitVec 16} {p lmax : Nat} (hlm : 4 ≤ lmax) {s3 : Bool}
    {r : List (HE × Nat)} (F : Feat E tag p (r.map (·.1))) (ho : ∀ x ∈ r, OtherEnd E p x.1 x.2) {t : BitVec 16}
    (ht : looked s3 t = true) :
    verdict E s3 tag p (r.take (lmax - 1)) t = newTag s3 r.length (nGeo tag (r.map (·.1))) (Bent E tag p) t := by
  unfold newTag
  rw [if_pos ht]
  have hsum := count_edg (l := r.map (·.1)) fun x hx => (F.sound x hx).2.2
  rw [List.length_map] at hsum
  have hsum' : nGeo tag ((r.take (lmax - 1)).map (·.1)) + nRef tag ((r.take (lmax - 1)).map (·.1)) =
      (r.take (lmax - 1)).length := by
    rw [← List.length_map (f := (·.1))]
    apply count_edg
    intro x hx
    obtain ⟨y, hy, rfl⟩ := List.mem_map.1 hx
    exact (F.sound _ (List.mem_map.2 ⟨y, List.mem_of_mem_take hy, rfl⟩)).2.2
  unfold verdict
  simp only
  by_cases hlen : r.length ≤ lmax - 1
  · rw [List.take_of_length_le hlen] at *
    by_cases h0 : r.length = 0
    · rw [if_pos h0, if_pos h0]
    rw [if_neg h0, if_neg h0]
    by_cases h2 : 2 < r.length
    · rw [if_pos (by omega), if_pos (show r.length = 1 ∨ 2 < r.length from .inr h2)]
    rw [if_neg (by omega)]
    by_cases h1 : r.length = 1
    · rw [if_neg (by omega), if_pos (show r.length = 1 ∨ 2 < r.length from .inl h1)]
      by_cases hg : nGeo tag (r.map (·.1)) = 1
      · rw [if_pos (by omega)]
      · rw [if_neg (by omega), if_pos (by omega)]
    rw [if_neg (show ¬ (r.length = 1 ∨ 2 < r.length) by omega)]
    have hr2 : r.length = 2 := by omega
    by_cases hg : nGeo tag (r.map (·.1)) = 1
    · rw [if_pos (by omega), if_pos hg]
    · rw [if_neg (by omega), if_neg (by omega), if_neg (by omega), if_neg hg]
      have hb := bent_iff hv F ho hr2
      by_cases hbt : Bent E tag p
      · rw [if_pos (hb.2 hbt), if_pos hbt]
      · rw [if_neg (fun h => hbt (hb.1 h)), if_neg hbt]
  · have hl : (r.take (lmax - 1)).length = lmax - 1 := by rw [List.length_take]; omega
    rw [if_neg (by omega), if_pos (by omega), if_neg (show ¬ r.length = 0 by omega),
      if_pos (show r.length = 1 ∨ 2 < r.length by omega)]

theorem newTag_idem (s3 : Bool) (n g : Nat) (bent : Prop) (t : BitVec 16) :
    newTag s3 n g bent (newTag s3 n g bent t) = newTag s3 n g bent t := by
  have crn : ∀ u : BitVec 16, u.getLsbD 5 = true → newTag s3 n g bent u = u := by
    intro u hu
    unfold newTag
    rw [if_neg]
    unfold looked
    rw [has_crn, hu]; simp
  by_cases hl : looked s3 t = true
  · by_cases h0 : n = 0
    · have : newTag s3 n g bent t = t := by unfold newTag; rw [if_pos hl, if_pos h0]
      rw [this, this]
    by_cases h1 : n = 1 ∨ 2 < n
    · apply crn
      unfold newTag
      rw [if_pos hl, if_neg h0, if_pos h1]
      cases s3 <;> simp [mgCRN, mgREQ, mgNOSURF]
    by_cases h2 : g = 1
    · have e : ∀ u, looked s3 u = true → newTag s3 n g bent u =
          (if s3 then (u ||| mgREQ) &&& ~~~mgNOSURF else u ||| mgREQ) := by
        intro u hu
        unfold newTag
        rw [if_pos hu, if_neg h0, if_neg h1, if_pos h2]
      rw [e t hl]
      by_cases hu : looked s3 (if s3 then (t ||| mgREQ) &&& ~~~mgNOSURF else t ||| mgREQ) = true
      · rw [e _ hu]
        apply BitVec.eq_of_getLsbD_eq
        intro i hi
        cases s3
        · simp
        · simp only [if_true, BitVec.getLsbD_or, BitVec.getLsbD_and, BitVec.getLsbD_not, hi, decide_true, Bool.true_and]
          cases t.getLsbD i <;> cases mgREQ.getLsbD i <;> cases mgNOSURF.getLsbD i <;> rfl
      · unfold newTag
        rw [if_neg hu]
    by_cases h3 : bent
    · apply crn
      unfold newTag
      rw [if_pos hl, if_neg h0, if_neg h1, if_neg h2, if_pos h3]
      simp [mgCRN]
    · have : newTag s3 n g bent t = t := by
        unfold newTag; rw [if_pos hl, if_neg h0, if_neg h1, if_neg h2, if_neg h3]
      rw [this, this]
  · have : newTag s3 n g bent t = t := by unfold newTag; rw [if_neg hl]
    rw [this, this]

theorem bouler_total (hv : Valid E.M) (hb : Bounded E) (tag : HE → BitVec 16) (lmax : Nat) {c : HE} (hc : E.M.live c.1) :
    ∃ r, bouler E tag lmax c = some r := by
  obtain ⟨l0, opn, hbo⟩ := boulet_some hv hb hc
  unfold boulet at hbo
  simp only [show E.nt + 2 - 1 = E.nt + 1 by omega] at hbo
  unfold bouler
  cases hf : fwd E.M c.1 (E.nt + 1) c with
  | none => rw [hf] at hbo; cases hbo
  | some r =>
    obtain ⟨l, closed⟩ := r
    rw [hf] at hbo
    cases closed with
    | true => exact ⟨_, rfl⟩
    | false =>
      simp only [Bool.false_eq_true, if_false, Option.map_eq_some_iff, Prod.mk.injEq] at hbo
      obtain ⟨t', hb2, _⟩ := hbo
      simp only [Bool.false_eq_true, if_false]
      rw [hb2]
      exact ⟨_, rfl⟩

/-- **C87.** The search of the singular vertices ends. -/
theorem C87_ends (hv : Valid E.M) (hb : Bounded E) (s3 : Bool) (lmax : Nat) (s : St) :
    ∃ f, singul E s3 lmax s = some f := by
  unfold singul
  have hl : ∀ h ∈ sides E, E.M.live h.1 := fun h hh => (mem_sides.1 hh).2.2
  generalize sides E = L at hl
  generalize s.ptag = f
  induction L generalizing f with
  | nil => exact ⟨f, rfl⟩
  | cons c L ih =>
    rw [List.foldlM_cons]
    obtain ⟨r, hr⟩ := bouler_total hv hb s.tag lmax (hl c (by simp))
    have : ∃ f', corner E s3 lmax s.tag f c = some f' := by
      unfold corner
      split
      · rw [hr]; exact ⟨_, rfl⟩
      · exact ⟨_, rfl⟩
    obtain ⟨f', hf'⟩ := this
    rw [hf']
    exact ih (fun h hh => hl h (by simp [hh])) f'

theorem singul_tag (hv : Valid E.M) (hb : Bounded E) {s3 : Bool} {lmax : Nat} (hlm : 4 ≤ lmax) {s : St}
    (ha : Agree E s.tag) {f : Nat → BitVec 16} (hf : singul E s3 lmax s = some f) {p : Nat} (h1 : OneFan E p)
    {es : List HE} (F : Feat E s.tag p es) (hp : ∃ c : HE, E.M.live c.1 ∧ E.M.at c = p) :
    f p = newTag s3 es.length (nGeo s.tag es) (Bent E s.tag p) (s.ptag p) := by
  classical
  have hl : ∀ h ∈ sides E, E.M.live h.1 := fun h hh => (mem_sides.1 hh).2.2
  -- one corner
  have one : ∀ (c : HE) (f f' : Nat → BitVec 16), E.M.live c.1 → corner E s3 lmax s.tag f c = some f' →
      f' p = if E.M.at c = p then newTag s3 es.length (nGeo s.tag es) (Bent E s.tag p) (f p) else f p := by
    intro c f f' hc e
    unfold corner at e
    by_cases hcp : E.M.at c = p
    · rw [if_pos hcp]
      by_cases hlk : looked s3 (f (E.M.at c)) = true
      · rw [if_pos hlk] at e
        obtain ⟨r, r1, r2, r3⟩ := bouler_spec (lmax := lmax) hv hb ha h1 hc hcp
        rw [r1] at e
        simp only [Option.map_some, Option.some.injEq] at e
        subst e
        rw [hcp] at hlk ⊢
        unfold set1
        rw [if_pos rfl, verdict_eq hv hlm r2 r3 hlk]
        obtain ⟨n1, n2⟩ := F.count_eq hv ha r2
        rw [n1, n2, List.length_map]
      · rw [if_neg hlk] at e
        cases e
        unfold newTag
        rw [hcp] at hlk
        rw [if_neg hlk]
    · rw [if_neg hcp]
      by_cases hlk : looked s3 (f (E.M.at c)) = true
      · rw [if_pos hlk] at e
        simp only [Option.map_eq_some_iff] at e
        obtain ⟨r, _, rfl⟩ := e
        unfold set1
        rw [if_neg (Ne.symm hcp)]
      · rw [if_neg hlk] at e
        cases e; rfl
  have all : ∀ (L : List HE) (f f' : Nat → BitVec 16), (∀ h ∈ L, E.M.live h.1) →
      L.foldlM (corner E s3 lmax s.tag) f = some f' →
      f' p = if ∃ c ∈ L, E.M.at c = p then newTag s3 es.length (nGeo s.tag es) (Bent E s.tag p) (f p) else f p := by
    intro L
    induction L with
    | nil =>
      intro f f' _ e
      rw [List.foldlM_nil] at e
      cases e; simp
    | cons c L ih =>
      intro f f' hL e
      rw [List.foldlM_cons] at e
      cases hc : corner E s3 lmax s.tag f c with
      | none => rw [hc] at e; cases e
      | some g =>
        rw [hc] at e
        have i1 := one c f g (hL c (by simp)) hc
        have i2 := ih g f' (fun h hh => hL h (by simp [hh])) e
        rw [i2, i1]
        by_cases q1 : E.M.at c = p <;> by_cases q2 : ∃ c ∈ L, E.M.at c = p
        · rw [if_pos q2, if_pos q1, if_pos ⟨c, by simp, q1⟩, newTag_idem]
        · rw [if_neg q2, if_pos q1, if_pos ⟨c, by simp, q1⟩]
        · obtain ⟨c', hc', e'⟩ := q2
          rw [if_pos ⟨c', hc', e'⟩, if_neg q1, if_pos ⟨c', by simp [hc'], e'⟩]
        · rw [if_neg q2, if_neg q1, if_neg]
          rintro ⟨c', hc', e'⟩
          rcases List.mem_cons.1 hc' with rfl | hc'
          · exact q1 e'
          · exact q2 ⟨c', hc', e'⟩
  unfold singul at hf
  have := all _ _ _ hl hf
  obtain ⟨c, hc, hcp⟩ := hp
  rw [if_pos ⟨c, (live_sides hv hb).2 hc, hcp⟩] at this
  exact this

/-- **C87.** A vertex that is looked at (valid, on a special edge, neither corner nor non-manifold nor parallel) becomes a
corner exactly when it is an end of one special edge only or of more than two, or of two of the same kind that make a sharp
angle; it becomes required exactly when it has one or more than two, or one ridge and one other reference edge. The other
tags do not change (in 3D a vertex that becomes required is no longer marked as frozen by the option). The result does not
depend on the numbering. -/
theorem C87_singular (hv : Valid E.M) (hb : Bounded E) {s3 : Bool} {lmax : Nat} (hlm : 4 ≤ lmax) {s : St}
    (ha : Agree E s.tag) {f : Nat → BitVec 16} (hf : singul E s3 lmax s = some f) {p : Nat} (h1 : OneFan E p)
    {es : List HE} (F : Feat E s.tag p es) (hp : ∃ c : HE, E.M.live c.1 ∧ E.M.at c = p) :
    (looked s3 (s.ptag p) = false → f p = s.ptag p) ∧
    (looked s3 (s.ptag p) = true →
      (has (f p) mgCRN = true ↔ es.length = 1 ∨ 2 < es.length ∨
        es.length = 2 ∧ nGeo s.tag es ≠ 1 ∧ Bent E s.tag p) ∧
      (has (f p) mgREQ = true ↔ has (s.ptag p) mgREQ = true ∨ es.length = 1 ∨ 2 < es.length ∨
        es.length = 2 ∧ nGeo s.tag es = 1) ∧
      (has (f p) mgNOSURF = true ↔ has (s.ptag p) mgNOSURF = true ∧ ¬ (s3 = true ∧ (es.length = 1 ∨ 2 < es.length ∨
        es.length = 2 ∧ nGeo s.tag es = 1))) ∧
      ∀ i, i ≠ 2 → i ≠ 5 → i ≠ 6 → (f p).getLsbD i = (s.ptag p).getLsbD i) := by
  rw [singul_tag hv hb hlm ha hf h1 F hp]
  generalize nGeo s.tag es = g
  generalize es.length = n
  generalize Bent E s.tag p = bent
  generalize s.ptag p = t
  refine ⟨fun h => by unfold newTag; rw [h]; rfl, fun hl => ?_⟩
  have c0 : t.getLsbD 5 = false := by
    unfold looked at hl
    rw [has_crn] at hl
    cases h : t.getLsbD 5 with
    | false => rfl
    | true => rw [h] at hl; simp at hl
  have r2 : ∀ i, (mgREQ).getLsbD i = decide (i = 2) := by
    intro i
    by_cases h : i < 16
    · interval_cases i <;> rfl
    · rw [BitVec.getLsbD_of_ge _ _ (by omega)]; symm; simp; omega
  have r5 : ∀ i, (mgCRN).getLsbD i = decide (i = 5) := by
    intro i
    by_cases h : i < 16
    · interval_cases i <;> rfl
    · rw [BitVec.getLsbD_of_ge _ _ (by omega)]; symm; simp; omega
  have r6 : ∀ i, (mgNOSURF).getLsbD i = decide (i = 6) := by
    intro i
    by_cases h : i < 16
    · interval_cases i <;> rfl
    · rw [BitVec.getLsbD_of_ge _ _ (by omega)]; symm; simp; omega
  rw [has_crn, has_req, has_req, has_nosurf, has_nosurf]
  unfold newTag
  rw [if_pos hl]
  have big : ∀ i, 16 ≤ i → t.getLsbD i = false := fun i hi => BitVec.getLsbD_of_ge _ _ hi
  have e1 : (t ||| (mgCRN ||| mgREQ)).getLsbD = fun i => (t.getLsbD i || (decide (i = 5) || decide (i = 2))) := by
    funext i; rw [BitVec.getLsbD_or, BitVec.getLsbD_or, r2, r5]
  have e2 : ((t ||| (mgCRN ||| mgREQ)) &&& ~~~mgNOSURF).getLsbD =
      fun i => (t.getLsbD i || (decide (i = 5) || decide (i = 2))) && !decide (i = 6) := by
    funext i
    by_cases hi : i < 16
    · rw [BitVec.getLsbD_and, BitVec.getLsbD_not, r6, e1]; simp [hi]
    · rw [BitVec.getLsbD_of_ge _ _ (by omega), big i (by omega)]; simp; omega
  have e3 : (t ||| mgREQ).getLsbD = fun i => (t.getLsbD i || decide (i = 2)) := by
    funext i; rw [BitVec.getLsbD_or, r2]
  have e4 : ((t ||| mgREQ) &&& ~~~mgNOSURF).getLsbD = fun i => (t.getLsbD i || decide (i = 2)) && !decide (i = 6) := by
    funext i
    by_cases hi : i < 16
    · rw [BitVec.getLsbD_and, BitVec.getLsbD_not, r6, e3]; simp [hi]
    · rw [BitVec.getLsbD_of_ge _ _ (by omega), big i (by omega)]; simp; omega
  have e5 : (t ||| mgCRN).getLsbD = fun i => (t.getLsbD i || decide (i = 5)) := by
    funext i; rw [BitVec.getLsbD_or, r5]
  by_cases h0 : n = 0
  · rw [if_pos h0]
    subst h0
    refine ⟨by rw [c0]; simp, by simp, by simp, fun _ _ _ _ => rfl⟩
  rw [if_neg h0]
  by_cases hA : n = 1 ∨ 2 < n
  · rw [if_pos hA]
    have hA' : n = 1 ∨ 2 < n ∨ n = 2 ∧ g = 1 := by omega
    have hA'' : n = 1 ∨ 2 < n ∨ n = 2 ∧ g ≠ 1 ∧ bent := by rcases hA with h | h <;> simp [h]
    cases s3
    · rw [if_neg (by decide), e1]
      refine ⟨by simp [hA''], by simp [hA'], by simp, fun i i2 i5 i6 => by simp [i2, i5]⟩
    · rw [if_pos rfl, e2]
      refine ⟨by simp [hA''], by simp [hA'], by simp [hA'], fun i i2 i5 i6 => by simp [i2, i5, i6]⟩
  rw [if_neg hA]
  have hn : n = 2 := by omega
  subst hn
  by_cases hg : g = 1
  · rw [if_pos hg]
    subst hg
    cases s3
    · rw [if_neg (by decide), e3]
      simp only [c0]
      refine ⟨by simp, by simp, by simp, fun i i2 i5 i6 => by simp [i2]⟩
    · rw [if_pos rfl, e4]
      simp only [c0]
      refine ⟨by simp, by simp, by simp, fun i i2 i5 i6 => by simp [i2, i6]⟩
  rw [if_neg hg]
  by_cases hbt : bent
  · rw [if_pos hbt, e5]
    refine ⟨by simp [hg, hbt], by simp [hg], by simp [hg], fun i i2 i5 i6 => by simp [i5]⟩
  · rw [if_neg hbt]
    refine ⟨by rw [c0]; simp [hbt], by simp [hg], by simp [hg], fun _ _ _ _ => rfl⟩

end

/-! ### Cases -/

/-- Three triangles around vertex 1: the first two in one plane, the third one in an orthogonal plane. -/
def roof : Env ℚ where
  M := fan3
  nt := 3
  nor := fun k => if k = 3 then ⟨1, 0, 0⟩ else ⟨0, 0, 1⟩
  pos := fun p => if p = 1 then ⟨0, 0, 0⟩ else if p = 2 then ⟨-1, 0, 0⟩ else if p = 3 then ⟨0, -1, 0⟩
    else if p = 4 then ⟨0, 1, 0⟩ else ⟨0, 0, 1⟩
  dhd := 7 / 10
  epsok := 1 / 1000
  epsd := 1 / 1000000
  sqrt := fun x => x

/-- Edge 1-3 is a ridge for the user, the two edges of the border at 3 too. -/
def roofSt : St where
  tag := fun h => if h = (1, 1) ∨ h = (2, 2) ∨ h = (1, 0) ∨ h = (2, 0) then mgGEO else 0
  ptag := fun p => if p = 5 then 0 else mgGEO

theorem roof_bounded : Bounded roof := by
  intro k hk
  by_contra h
  have h' : ¬ k ≤ 3 := h
  apply hk
  show (fan3.tri k).v 0 = 0
  unfold fan3
  simp only
  rw [if_neg (by omega), if_neg (by omega), if_neg (by omega)]

/-- Edge 1-3 is between two triangles of one plane, edge 1-4 is sharp. -/
example : Valid roof.M ∧ Pair roof roofSt.tag (1, 1) (2, 2) ∧ Given roofSt.tag (1, 1) (2, 2) ∧ Flat roof (1, 1) (2, 2) ∧
    ¬ Sharp roof (1, 1) (2, 2) ∧ Pair roof roofSt.tag (2, 1) (3, 2) ∧ Sharp roof (2, 1) (3, 2) := by
  refine ⟨fan3_valid, ⟨by decide, by decide, by decide, by decide⟩, by unfold Given; decide, ?_, ?_,
    ⟨by decide, by decide, by decide, by decide⟩, ?_⟩
  · unfold Flat Env.cos Vec.dot roof; norm_num
  · unfold Sharp Env.cos Vec.dot roof; norm_num
  · unfold Sharp Env.cos Vec.dot roof; norm_num

/-- After the detection 1-4 is a ridge and 1-3 no longer. -/
example : has ((setdhd roof roofSt).tag (2, 1)) mgGEO = true ∧ has ((setdhd roof roofSt).tag (3, 2)) mgGEO = true ∧
    has ((setdhd roof roofSt).tag (1, 1)) mgGEO = false ∧ has ((setdhd roof roofSt).tag (2, 2)) mgGEO = false ∧
    has ((setdhd roof roofSt).ptag 1) mgGEO = true := by
  decide +kernel

/-- **C87, counterexample.** A vertex can lose its mark though it is an end of a ridge: vertex 3 is an end of two edges of the
border that are ridges, and of a ridge between triangles of one plane, which is removed. -/
theorem C87_vertex_lost_observed : Valid roof.M ∧ Bounded roof ∧ has (roofSt.ptag 3) mgGEO = true ∧
    has ((setdhd roof roofSt).tag (1, 0)) mgGEO = true ∧ End roof 3 (1, 0) ∧
    has ((setdhd roof roofSt).ptag 3) mgGEO = false :=
  ⟨fan3_valid, roof_bounded, by decide, by decide +kernel, by unfold End; decide, by decide +kernel⟩

/-- The search after the detection: vertex 1 is an end of one ridge only, it is a corner and required. -/
example : ∃ f, singul roof true 1024 (setdhd roof roofSt) = some f ∧ f 1 = (mgGEO ||| mgCRN) ||| mgREQ ∧ f 5 = 0 := by
  refine ⟨(singul roof true 1024 (setdhd roof roofSt)).getD fun _ => 0, ?_, by decide +kernel, by decide +kernel⟩
  obtain ⟨f, hf⟩ := C87_ends fan3_valid roof_bounded true 1024 (setdhd roof roofSt) (E := roof)
  rw [hf]; rfl

/-- The hypotheses of the last theorem at vertex 1. -/
example : ∃ es, Agree roof (setdhd roof roofSt).tag ∧ OneFan roof 1 ∧ Feat roof (setdhd roof roofSt).tag 1 es ∧
    es.length = 1 ∧ looked true ((setdhd roof roofSt).ptag 1) = true := by
  have live : ∀ k, roof.M.live k → k = 1 ∨ k = 2 ∨ k = 3 := by
    intro k hk
    have h3 : k ≤ 3 := roof_bounded k hk
    have h0 : k ≠ 0 := by rintro rfl; exact hk (by decide)
    omega
  have ag : Agree roof (setdhd roof roofSt).tag := by
    apply C87_agree fan3_valid roof_bounded
    · rintro ⟨k, i⟩ h' hl e
      rcases live k hl with rfl | rfl | rfl <;> fin_cases i <;>
        first
        | (cases e; done)
        | (have e' := Option.some.inj e; subst e'; decide)
    · rintro ⟨k, i⟩ h' hl e
      rcases live k hl with rfl | rfl | rfl <;> fin_cases i <;>
        first
        | (cases e; done)
        | (have e' := Option.some.inj e; subst e'; decide)
  have fan : OneFan roof 1 := by
    have at1 : ∀ c : HE, roof.M.live c.1 → roof.M.at c = 1 → c = (1, 0) ∨ c = (2, 0) ∨ c = (3, 0) := by
      rintro ⟨k, i⟩ hl e
      rcases live k hl with rfl | rfl | rfl <;> fin_cases i <;> revert e <;> decide
    have s1 : fan3.Fan (1, 0) (2, 0) := ⟨by decide, 1, 2, by decide, by decide, by decide⟩
    have s2 : fan3.Fan (2, 0) (3, 0) := ⟨by decide, 1, 2, by decide, by decide, by decide⟩
    have t1 : fan3.Fan (2, 0) (1, 0) := ⟨by decide, 2, 1, by decide, by decide, by decide⟩
    have t2 : fan3.Fan (3, 0) (2, 0) := ⟨by decide, 2, 1, by decide, by decide, by decide⟩
    intro c c' hc hc' e e'
    rcases at1 c hc e with rfl | rfl | rfl <;> rcases at1 c' hc' e' with rfl | rfl | rfl
    · exact .refl
    · exact .single s1
    · exact .tail (.single s1) s2
    · exact .single t1
    · exact .refl
    · exact .single s2
    · exact .tail (.single t2) t1
    · exact .single t2
    · exact .refl
  refine ⟨[(2, 1)], ag, fan, ⟨by simp, ?_, ?_, ?_⟩, rfl, by decide +kernel⟩
  · intro h hh
    rw [List.mem_singleton] at hh
    subst hh
    exact ⟨by decide, by unfold End; decide, by decide +kernel⟩
  · intro h hh h' e
    rw [List.mem_singleton] at hh
    subst hh
    have e' := Option.some.inj e
    subst e'
    decide
  · rintro ⟨k, i⟩ hl he ht
    have key : ∀ k ∈ [1, 2, 3], ∀ i : Fin 3, edg ((setdhd roof roofSt).tag (k, i)) = true →
        ((k, i) : HE) = (2, 1) ∨ ((k, i) : HE) = (3, 2) ∨ ((k, i) : HE) = (1, 0) ∨ ((k, i) : HE) = (2, 0) := by
      decide +kernel
    have hk : k ∈ [1, 2, 3] := by
      rcases live k hl with rfl | rfl | rfl <;> decide
    rcases key k hk i ht with e | e | e | e
    · left; rw [e]; simp
    · right; rw [e]; exact ⟨(2, 1), by decide, by simp⟩
    · rw [e] at he; exfalso; revert he; unfold End; decide
    · rw [e] at he; exfalso; revert he; unfold End; decide

/-- Two ridges that make a right angle at a vertex: bent; two opposite ones: not. -/
example : sharp roof 1 2 4 = true ∧ sharp roof 1 3 4 = false := by
  constructor <;> (unfold sharp Vec.dot Vec.sub roof; norm_num)

end Mmg.Ridge
