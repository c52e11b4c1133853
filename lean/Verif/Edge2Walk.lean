/-
  C83: the traversal keeps the invariant and ends.
-/
import Verif.Edge2Side
import Verif.OrientWalk

namespace Mmg.Edge2
open Mmg.Orient (mgREF mgGEO mgREQ mgBDY mgNOSURF mgPARBDY has special set1 set2 m3 orP has_or has_zero set1_self set1_ne
  more mores countP_lt)

variable {E : Env} {t0 : Nat → Fin 3 → BitVec 16} {p0 : Nat → BitVec 16} {s : St} {D : Nat → Fin 3 → Prop}
  {cur ncc : Nat} {pile : List Nat}

theorem cross_back (G : Good E) {k i} (hk : Ex E k) (hc : Cross E t0 k i) :
    Ex E (nb E k i) ∧ Cross E t0 (nb E k i) (np E k i) ∧ nb E (nb E k i) (np E k i) = k := by
  obtain ⟨a, _, c⟩ := inner_back G hk hc.1
  exact ⟨(G.link k i hk hc.1).1, ⟨c, fun x => hc.2 ((interface_sym G hk hc.1).1 x)⟩, a⟩

theorem Conn.symm (G : Good E) {k k'} (h : Conn E t0 k k') : Conn E t0 k' k := by
  induction h with
  | refl => exact Relation.ReflTransGen.refl
  | tail _ h2 ih =>
    refine Relation.ReflTransGen.head ?_ ih
    obtain ⟨hk, i, hc, rfl⟩ := h2
    obtain ⟨a, b, c⟩ := cross_back G hk hc
    exact ⟨a, _, b, c⟩

/-- The edge of side `(k, i)` has been seen, from one side or from the other. -/
def Seen (E : Env) (D : Nat → Fin 3 → Prop) (k : Nat) (i : Fin 3) : Prop :=
  D k i ∨ (E.adj k i ≠ 0 ∧ D (nb E k i) (np E k i))

/-- `D`: the sides treated; `cur`: the triangle at work. -/
structure Inv (E : Env) (t0 : Nat → Fin 3 → BitVec 16) (p0 : Nat → BitVec 16) (D : Nat → Fin 3 → Prop) (cur : Nat)
    (pile : List Nat) (ncc : Nat) (s : St) : Prop where
  tagD : ∀ k i, Ex E k → Seen E D k i → s.tag k i = due E t0 k i
  tagN : ∀ k i, Ex E k → ¬ Seen E D k i → s.tag k i = t0 k i
  dead : ∀ k, ¬ Ex E k → s.tag k = t0 k
  pts : ∀ b ∈ bits, ∀ p, has (s.ptag p) b = true ↔ (has (p0 p) b = true ∨
    ∃ k i, D k i ∧ On E k i p ∧ special (due E t0 k i) = true ∧ has (due E t0 k i) b = true)
  dEx : ∀ k j, D k j → Ex E k ∧ s.cc k ≠ 0
  dNb : ∀ k j, D k j → Cross E t0 k j → s.cc (nb E k j) = s.cc k
  dAll : ∀ k, Ex E k → s.cc k ≠ 0 → k ≠ cur → k ∉ pile → ∀ j, D k j
  pCc : ∀ k ∈ pile, Ex E k ∧ s.cc k = ncc
  le : ∀ k, Ex E k → s.cc k ≤ ncc
  conn : ∀ k k', Ex E k → Ex E k' → s.cc k = s.cc k' → s.cc k ≠ 0 → Conn E t0 k k'
  onto : Ex E 1 → ∀ c, 1 ≤ c → c ≤ ncc → ∃ k, Ex E k ∧ s.cc k = c

theorem Inv.congrD {D' : Nat → Fin 3 → Prop} (h : ∀ k j, D k j ↔ D' k j) (I : Inv E t0 p0 D cur pile ncc s) :
    Inv E t0 p0 D' cur pile ncc s := by
  have : D = D' := by funext k j; exact propext (h k j)
  rw [← this]; exact I

/-- What the sides of an edge hold before it is treated leads to the tag that is due. -/
theorem Inv.new (I : Inv E t0 p0 D cur pile ncc s) (G : Good E) {k i} (hk : Ex E k) (h : E.adj k i ≠ 0) :
    newTag E k i (s.tag k i) (s.tag (nb E k i) (np E k i)) = due E t0 k i ∧
    (Sep E k i (join E k i (s.tag k i) (s.tag (nb E k i) (np E k i))) ↔ Interface E t0 k i) := by
  obtain ⟨a, b, c⟩ := inner_back G hk h
  have hkk := (G.link k i hk h).1
  have hI : Interface E t0 k i ↔ Sep E k i (join E k i (t0 k i) (t0 (nb E k i) (np E k i))) := by
    unfold Interface Sep
    rw [said_join h]
    simp only [ne_eq, h, not_false_eq_true, true_and]
  have hsym : Seen E D (nb E k i) (np E k i) ↔ Seen E D k i := by
    unfold Seen
    rw [a, b]
    simp only [ne_eq, h, c, not_false_eq_true, true_and]
    exact or_comm
  by_cases hs : Seen E D k i
  · have e1 := I.tagD k i hk hs
    have e2 := I.tagD _ _ hkk (hsym.2 hs)
    rw [due_sym G hk h] at e2
    rw [e1, e2, due_new h, new_new]
    refine ⟨rfl, ?_⟩
    rw [hI]
    generalize t0 k i = x
    generalize t0 (nb E k i) (np E k i) = y
    by_cases hc : Sep E k i (join E k i x y)
    · refine ⟨fun _ => hc, fun _ => ?_⟩
      rcases hc with hc | ⟨hc, hz⟩
      · exact Or.inl hc
      · refine Or.inr ⟨hc, ?_⟩
        have hni : ¬ Inner E k i := by
          rintro ⟨_, q, _⟩
          rw [q] at hc; exact absurd hc (by decide)
        rw [join_self _ (fun h => absurd h hni), new_eq, if_pos (show Sep E k i _ from Or.inr ⟨hc, hz⟩)]
        intro e
        have : has (freeze E.nosurf (mgREF ||| mgBDY) (join E k i x y)) mgREF = true := by
          rw [has_freeze _ _ _ _ (by decide), show has (mgREF ||| mgBDY) mgREF = true from by decide]; simp
        rw [e, has_zero] at this
        exact absurd this (by decide)
    · refine ⟨fun hh => ?_, fun hh => absurd hh hc⟩
      rwa [new_eq, if_neg hc, join_self _ (fun h => wipe_join h _ _)] at hh
  · have e1 := I.tagN k i hk hs
    have e2 := I.tagN _ _ hkk (fun x => hs (hsym.1 x))
    rw [e1, e2, hI, due_new h]
    exact ⟨rfl, Iff.rfl⟩

/-- Marks of the vertices with one more side. -/
theorem pts_more (I : Inv E t0 p0 D cur pile ncc s) {k i} {pt : Nat → BitVec 16}
    (h : ∀ r b, b ∈ bits → has (pt r) b = (has (s.ptag r) b || (special (due E t0 k i) && has (due E t0 k i) b &&
         (decide (r = E.v k (i + 1)) || decide (r = E.v k (i + 2)))))) :
    ∀ b ∈ bits, ∀ p, has (pt p) b = true ↔ (has (p0 p) b = true ∨
      ∃ k' i', more D k i k' i' ∧ On E k' i' p ∧ special (due E t0 k' i') = true ∧ has (due E t0 k' i') b = true) := by
  intro b hb p
  rw [h p b hb, Bool.or_eq_true, I.pts b hb p]
  simp only [Bool.and_eq_true, Bool.or_eq_true, decide_eq_true_eq]
  constructor
  · rintro ((h1 | ⟨k', i', h1, h2⟩) | ⟨⟨h1, h2⟩, h3⟩)
    · exact Or.inl h1
    · exact Or.inr ⟨k', i', Or.inl h1, h2⟩
    · exact Or.inr ⟨k, i, Or.inr ⟨rfl, rfl⟩, h3, h1, h2⟩
  · rintro (h1 | ⟨k', i', h1 | ⟨rfl, rfl⟩, h2, h3, h4⟩)
    · exact Or.inl (Or.inl h1)
    · exact Or.inl (Or.inr ⟨k', i', h1, h2, h3, h4⟩)
    · exact Or.inr ⟨⟨h3, h4⟩, h2⟩

/-- Tags of the sides with one more edge. -/
theorem tag_more (I : Inv E t0 p0 D cur pile ncc s) (G : Good E) {k i} (hk : Ex E k) {tag : Nat → Fin 3 → BitVec 16}
    (h : ∀ k' i', Ex E k' → tag k' i' =
      if (k' = k ∧ i' = i) ∨ (E.adj k i ≠ 0 ∧ k' = nb E k i ∧ i' = np E k i) then due E t0 k i else s.tag k' i') :
    (∀ k' i', Ex E k' → Seen E (more D k i) k' i' → tag k' i' = due E t0 k' i') ∧
    (∀ k' i', Ex E k' → ¬ Seen E (more D k i) k' i' → tag k' i' = t0 k' i') := by
  constructor
  · intro k' i' hk' hs
    rw [h k' i' hk']
    split
    · rename_i hc
      rcases hc with ⟨rfl, rfl⟩ | ⟨h0, rfl, rfl⟩
      · rfl
      · exact (due_sym G hk h0).symm
    · rename_i hc
      rcases hs with (hs | hs) | ⟨h0, hs | ⟨hs1, hs2⟩⟩
      · exact I.tagD k' i' hk' (Or.inl hs)
      · exact absurd (Or.inl hs) hc
      · exact I.tagD k' i' hk' (Or.inr ⟨h0, hs⟩)
      · exfalso
        obtain ⟨a, b, c⟩ := inner_back G hk' h0
        rw [hs1, hs2] at a b c
        exact hc (Or.inr ⟨c, a.symm, b.symm⟩)
  · intro k' i' hk' hs
    rw [h k' i' hk', if_neg]
    · refine I.tagN k' i' hk' (fun x => hs ?_)
      rcases x with x | ⟨h0, x⟩
      · exact Or.inl (Or.inl x)
      · exact Or.inr ⟨h0, Or.inl x⟩
    · rintro (⟨rfl, rfl⟩ | ⟨h0, rfl, rfl⟩)
      · exact hs (Or.inl (Or.inr ⟨rfl, rfl⟩))
      · obtain ⟨a, b, c⟩ := inner_back G hk h0
        exact hs (Or.inr ⟨c, Or.inr ⟨a, b⟩⟩)

/-- Number of triangles without number. -/
def cnt (E : Env) (cc : Nat → Nat) : Nat := (List.range' 1 E.nt).countP fun k => E.v k 0 != 0 && cc k == 0

theorem cnt_set {cc : Nat → Nat} {k n} (hk : Ex E k) (h : cc k = 0) (hn : n ≠ 0) :
    cnt E (set1 cc k n) < cnt E cc := by
  refine countP_lt (a := k) ?_ ?_ ?_ ?_
  · intro x _ hx
    rw [Bool.and_eq_true, beq_iff_eq] at hx ⊢
    refine ⟨hx.1, ?_⟩
    by_cases e : x = k
    · rw [e]; exact h
    · have := hx.2; rw [set1_ne _ _ _ e] at this; exact this
  · rw [List.mem_range'_1]; have := hk.1; have := hk.2.1; omega
  · simp [h, hk.2.2]
  · simp [set1_self, hn]

/-- What is left to do. -/
def meas (E : Env) (cc : Nat → Nat) (pile : List Nat) : Nat := 2 * cnt E cc + pile.length

theorem dAll_more (I : Inv E t0 p0 D cur pile ncc s) (j : Fin 3) :
    ∀ k, Ex E k → s.cc k ≠ 0 → k ≠ cur → k ∉ pile → ∀ j', more D cur j k j' :=
  fun k h1 h2 h3 h4 j' => Or.inl (I.dAll k h1 h2 h3 h4 j')

theorem side_inv (G : Good E) (I : Inv E t0 p0 D cur pile ncc s) (hk : Ex E cur) (hf : s.cc cur = ncc)
    (hn : ncc ≠ 0) (i) :
    let r := side E ncc cur i s pile
    Inv E t0 p0 (more D cur i) cur r.2 ncc r.1 ∧ r.1.cc cur = ncc ∧ meas E r.1.cc r.2 ≤ meas E s.cc pile := by
  intro r
  have hdead : ∀ k, ¬ Ex E k → k ≠ cur := fun k h e => h (e ▸ hk)
  by_cases h0 : E.adj cur i = 0
  · obtain ⟨pt, e, hp⟩ := side_outer (s := s) h0 ncc pile
    have hns : s.tag cur i = t0 cur i ∨ s.tag cur i = due E t0 cur i := by
      by_cases hs : Seen E D cur i
      · exact Or.inr (I.tagD _ _ hk hs)
      · exact Or.inl (I.tagN _ _ hk hs)
    have hdue : freeze (E.nosurf || has (s.tag cur i) mgPARBDY) (mgGEO ||| mgBDY) (s.tag cur i) = due E t0 cur i := by
      rcases hns with h | h
      · rw [h, due_outer h0]
      · rw [h, due_outer h0]
        have hp : has (freeze (E.nosurf || has (t0 cur i) mgPARBDY) (mgGEO ||| mgBDY) (t0 cur i)) mgPARBDY
            = has (t0 cur i) mgPARBDY := by
          rw [freeze_eq, has_or, has_or]
          split <;> simp [show has (mgGEO ||| mgBDY) mgPARBDY = false from by decide,
            show has (mgREQ ||| mgNOSURF) mgPARBDY = false from by decide, has_zero]
        rw [hp, freeze_freeze]
    rw [hdue] at e hp
    have hr : r = ({ s with tag := set2 s.tag cur i (due E t0 cur i), ptag := pt }, pile) := e
    have T := tag_more I G hk (i := i) (tag := set2 s.tag cur i (due E t0 cur i)) (by
      intro k' i' _
      unfold set2
      simp only [h0, ne_eq, not_true_eq_false, false_and, or_false])
    rw [hr]
    refine ⟨⟨T.1, T.2, ?_, pts_more I hp, ?_, ?_, dAll_more I i, I.pCc, I.le, I.conn, I.onto⟩, hf, le_refl _⟩
    · intro k h
      rw [← I.dead k h]
      funext i'
      exact set2_ne _ _ _ _ (hdead k h)
    · rintro k j (h | ⟨rfl, rfl⟩)
      · exact I.dEx _ _ h
      · exact ⟨hk, by show s.cc k ≠ 0; rw [hf]; exact hn⟩
    · rintro k j (h | ⟨rfl, rfl⟩) hc
      · exact I.dNb _ _ h hc
      · exact absurd h0 hc.1
  · obtain ⟨hkk, hne, _⟩ := G.link cur i hk h0
    obtain ⟨pt, e, hp⟩ := side_inner (s := s) h0 hne ncc pile
    obtain ⟨hN, hS⟩ := I.new G hk h0
    simp only [hN] at e hp
    have T := tag_more I G hk (i := i) (tag := put2 s.tag cur i (nb E cur i) (np E cur i) (due E t0 cur i)) (by
      intro k' i' _
      unfold put2
      simp only [h0, ne_eq, not_false_eq_true, true_and])
    have hdd : ∀ k, ¬ Ex E k → put2 s.tag cur i (nb E cur i) (np E cur i) (due E t0 cur i) k = t0 k := by
      intro k h
      rw [← I.dead k h]
      funext i'
      unfold put2
      rw [if_neg]
      rintro (h1 | h1)
      · exact hdead k h h1.1
      · exact h (h1.1 ▸ hkk)
    have stay : (Cross E t0 cur i → s.cc (nb E cur i) = ncc) →
        Inv E t0 p0 (more D cur i) cur pile ncc
          { s with tag := put2 s.tag cur i (nb E cur i) (np E cur i) (due E t0 cur i), ptag := pt } := by
      intro hcr
      refine ⟨T.1, T.2, hdd, pts_more I hp, ?_, ?_, dAll_more I i, I.pCc, I.le, I.conn, I.onto⟩
      · rintro k j (h | ⟨rfl, rfl⟩)
        · exact I.dEx _ _ h
        · exact ⟨hk, by show s.cc k ≠ 0; rw [hf]; exact hn⟩
      · rintro k j (h | ⟨rfl, rfl⟩) hc
        · exact I.dNb _ _ h hc
        · show s.cc _ = s.cc _
          rw [hcr hc, hf]
    by_cases hI : Interface E t0 cur i
    · rw [if_pos (hS.2 hI)] at e
      have hr : r = _ := e
      rw [hr]
      exact ⟨stay (fun hc => absurd hI hc.2), hf, le_refl _⟩
    · rw [if_neg (fun x => hI (hS.1 x))] at e
      have hC : Cross E t0 cur i := ⟨h0, hI⟩
      obtain ⟨_, hCb, hb⟩ := cross_back G hk hC
      by_cases hcc : s.cc (nb E cur i) > 0
      · rw [if_pos hcc] at e
        have hr : r = _ := e
        rw [hr]
        refine ⟨stay (fun _ => ?_), hf, le_refl _⟩
        by_cases hmem : nb E cur i ∈ pile
        · exact (I.pCc _ hmem).2
        · have := I.dNb _ _ (I.dAll _ hkk (by omega) hne hmem (np E cur i)) hCb
          rw [hb, hf] at this
          exact this.symm
      · rw [if_neg hcc] at e
        have hr : r = _ := e
        rw [hr]
        have hz : s.cc (nb E cur i) = 0 := by omega
        have keep : ∀ k, s.cc k ≠ 0 → set1 s.cc (nb E cur i) ncc k = s.cc k :=
          fun k h' => set1_ne _ _ _ (fun e => h' (e ▸ hz))
        have hfc : set1 s.cc (nb E cur i) ncc cur = ncc := by rw [set1_ne _ _ _ hne.symm]; exact hf
        refine ⟨⟨T.1, T.2, hdd, pts_more I hp, ?_, ?_, ?_, ?_, ?_, ?_, ?_⟩, hfc, ?_⟩
        · rintro k j (h | ⟨rfl, rfl⟩)
          · have := I.dEx _ _ h
            exact ⟨this.1, by show set1 s.cc _ ncc k ≠ 0; rw [keep k this.2]; exact this.2⟩
          · exact ⟨hk, by show set1 s.cc _ ncc _ ≠ 0; rw [hfc]; exact hn⟩
        · rintro k j (h | ⟨rfl, rfl⟩) hc
          · have h1 := I.dEx k j h
            have h2 := I.dNb k j h hc
            show set1 s.cc _ ncc _ = set1 s.cc _ ncc _
            rw [keep k h1.2, keep _ (by rw [h2]; exact h1.2)]; exact h2
          · show set1 s.cc _ ncc _ = set1 s.cc _ ncc _
            rw [hfc, set1_self]
        · intro k h1 h2 h3 h4 j'
          have hkne : k ≠ nb E cur i := fun e => h4 (e ▸ List.mem_cons_self)
          have h2' : set1 s.cc (nb E cur i) ncc k ≠ 0 := h2
          rw [set1_ne _ _ _ hkne] at h2'
          exact Or.inl (I.dAll k h1 h2' h3 (fun e => h4 (List.mem_cons_of_mem _ e)) j')
        · intro k hm
          rcases List.mem_cons.1 hm with rfl | hm
          · exact ⟨hkk, set1_self _ _ _⟩
          · have := I.pCc k hm
            refine ⟨this.1, ?_⟩
            show set1 s.cc _ ncc k = ncc
            rw [keep k (by rw [this.2]; exact hn)]; exact this.2
        · intro k h1
          show set1 s.cc _ ncc k ≤ ncc
          by_cases e : k = nb E cur i
          · rw [e, set1_self]
          · rw [set1_ne _ _ _ e]; exact I.le k h1
        · have toCur : ∀ k, Ex E k → set1 s.cc (nb E cur i) ncc k = ncc → Conn E t0 k cur := by
            intro k h1 h2
            by_cases e : k = nb E cur i
            · exact Relation.ReflTransGen.single (e ▸ ⟨hkk, _, hCb, hb⟩)
            · rw [set1_ne _ _ _ e] at h2
              exact I.conn k cur h1 hk (h2.trans hf.symm) (by rw [h2]; exact hn)
          intro k k' h1 h2 h3 h4
          have h3' : set1 s.cc (nb E cur i) ncc k = set1 s.cc (nb E cur i) ncc k' := h3
          have h4' : set1 s.cc (nb E cur i) ncc k ≠ 0 := h4
          by_cases e : set1 s.cc (nb E cur i) ncc k = ncc
          · exact Relation.ReflTransGen.trans (toCur k h1 e) (Conn.symm G (toCur k' h2 (h3'.symm.trans e)))
          · have e1 : k ≠ nb E cur i := fun x => e (by rw [x, set1_self])
            have e2 : k' ≠ nb E cur i := fun x => e (by rw [h3', x, set1_self])
            rw [set1_ne _ _ _ e1] at h3' h4'
            rw [set1_ne _ _ _ e2] at h3'
            exact I.conn k k' h1 h2 h3' h4'
        · intro h1 c hc1 hc2
          obtain ⟨k, a, b⟩ := I.onto h1 c hc1 hc2
          refine ⟨k, a, ?_⟩
          show set1 s.cc _ ncc k = c
          rw [keep k (by omega)]; exact b
        · have := cnt_set (cc := s.cc) (n := ncc) hkk hz hn
          show meas E (set1 s.cc (nb E cur i) ncc) (nb E cur i :: pile) ≤ _
          unfold meas
          rw [List.length_cons]; omega

theorem sides_inv (G : Good E) (hk : Ex E cur) (hn : ncc ≠ 0) (l : List (Fin 3)) :
    ∀ {D s pile}, Inv E t0 p0 D cur pile ncc s → s.cc cur = ncc →
    let r := sides E ncc cur l s pile
    Inv E t0 p0 (mores D cur l) cur r.2 ncc r.1 ∧ meas E r.1.cc r.2 ≤ meas E s.cc pile := by
  induction l with
  | nil =>
    intro D s pile I hf
    refine ⟨I.congrD ?_, le_refl _⟩
    intro k j; simp [mores]
  | cons i r ih =>
    intro D s pile I hf
    obtain ⟨h1, h2, h3⟩ := side_inv G I hk hf hn i
    obtain ⟨h4, h5⟩ := ih h1 h2
    refine ⟨h4.congrD ?_, h5.trans h3⟩
    intro k j
    simp only [mores, more, List.mem_cons]
    tauto

/-- State at the end. -/
structure Ends (E : Env) (t0 : Nat → Fin 3 → BitVec 16) (p0 : Nat → BitVec 16) (s : St) (n : Nat) : Prop where
  inv : Inv E t0 p0 (fun k _ => Ex E k) 0 [] n s
  all : ∀ k, Ex E k → s.cc k ≠ 0

theorem walk_inv (G : Good E) (fuel : Nat) : ∀ {D s pile ncc}, Inv E t0 p0 D 0 pile ncc s → ncc ≠ 0 →
    meas E s.cc pile < fuel → ∃ s' n, walk E fuel s pile ncc = some (s', n) ∧ Ends E t0 p0 s' n := by
  induction fuel with
  | zero => intro D s pile ncc _ _ h; exact absurd h (Nat.not_lt_zero _)
  | succ fuel ih =>
    intro D s pile ncc I hn hm
    cases pile with
    | cons k pile =>
      obtain ⟨hk, hfk⟩ := I.pCc k List.mem_cons_self
      have hm' : meas E s.cc pile < fuel := by
        unfold meas at hm ⊢; rw [List.length_cons] at hm; omega
      have I1 : Inv E t0 p0 D k pile ncc s := by
        refine ⟨I.tagD, I.tagN, I.dead, I.pts, I.dEx, I.dNb, ?_, ?_, I.le, I.conn, I.onto⟩
        · intro k' h1 h2 h3 h4 j
          refine I.dAll k' h1 h2 ?_ ?_ j
          · have := h1.1; omega
          · intro hmem
            rcases List.mem_cons.1 hmem with e | e
            · exact h3 e
            · exact h4 e
        · intro k' h; exact I.pCc k' (List.mem_cons_of_mem _ h)
      unfold walk
      rw [if_neg hk.2.2]
      obtain ⟨h1, h2⟩ := sides_inv G hk hn [0, 1, 2] I1 hfk
      have I2 : Inv E t0 p0 (mores D k [0, 1, 2]) 0 (sides E ncc k [0, 1, 2] s pile).2 ncc
          (sides E ncc k [0, 1, 2] s pile).1 := by
        refine ⟨h1.tagD, h1.tagN, h1.dead, h1.pts, h1.dEx, h1.dNb, ?_, h1.pCc, h1.le, h1.conn, h1.onto⟩
        intro k' h3 h4 _ h5 j
        by_cases e : k' = k
        · subst e; exact Or.inr ⟨rfl, by revert j; decide⟩
        · exact h1.dAll k' h3 h4 e h5 j
      exact ih I2 hn (lt_of_le_of_lt h2 hm')
    | nil =>
      unfold walk
      cases hnx : nextTria E s with
      | none =>
        have hall : ∀ k, Ex E k → s.cc k ≠ 0 := by
          intro k hk h0
          unfold nextTria at hnx
          rw [List.find?_eq_none] at hnx
          have := hnx k (by rw [List.mem_range'_1]; have := hk.1; have := hk.2.1; omega)
          rw [Bool.and_eq_true, bne_iff_ne, beq_iff_eq] at this
          exact this ⟨hk.2.2, h0⟩
        have hD : ∀ k j, D k j ↔ Ex E k := by
          intro k j
          refine ⟨fun h => (I.dEx k j h).1, fun h => I.dAll k h (hall k h) ?_ List.not_mem_nil j⟩
          have := h.1; omega
        exact ⟨s, ncc, rfl, ⟨I.congrD hD, hall⟩⟩
      | some k =>
        simp only
        unfold nextTria at hnx
        have hsat := List.find?_some hnx
        rw [Bool.and_eq_true, bne_iff_ne, beq_iff_eq] at hsat
        have hmem := List.mem_of_find?_eq_some hnx
        rw [List.mem_range'_1] at hmem
        have hk : Ex E k := ⟨hmem.1, by omega, hsat.1⟩
        have h0 := hsat.2
        have keep : ∀ k', s.cc k' ≠ 0 → set1 s.cc k (ncc + 1) k' = s.cc k' :=
          fun k' h' => set1_ne _ _ _ (fun e => h' (e ▸ h0))
        have I2 : Inv E t0 p0 D 0 [k] (ncc + 1) { s with cc := set1 s.cc k (ncc + 1) } := by
          refine ⟨I.tagD, I.tagN, I.dead, I.pts, ?_, ?_, ?_, ?_, ?_, ?_, ?_⟩
          · intro k' j hd
            have := I.dEx k' j hd
            refine ⟨this.1, ?_⟩
            show set1 s.cc k (ncc + 1) k' ≠ 0
            rw [keep k' this.2]; exact this.2
          · intro k' j hd hc
            have h1 := I.dEx k' j hd
            have h2 := I.dNb k' j hd hc
            show set1 s.cc k (ncc + 1) _ = set1 s.cc k (ncc + 1) _
            rw [keep k' h1.2, keep _ (by rw [h2]; exact h1.2)]; exact h2
          · intro k' h1 h2 h3 h4 j
            have e : k' ≠ k := fun e => h4 (e ▸ List.mem_cons_self)
            have h2' : set1 s.cc k (ncc + 1) k' ≠ 0 := h2
            rw [set1_ne _ _ _ e] at h2'
            exact I.dAll k' h1 h2' h3 List.not_mem_nil j
          · intro k' h
            have : k' = k := by simpa using h
            subst this
            exact ⟨hk, set1_self _ _ _⟩
          · intro k' h1
            show set1 s.cc k (ncc + 1) k' ≤ _
            by_cases e : k' = k
            · rw [e, set1_self]
            · rw [set1_ne _ _ _ e]; have := I.le k' h1; omega
          · intro k1 k2 h1 h2 h3 h4
            have h3' : set1 s.cc k (ncc + 1) k1 = set1 s.cc k (ncc + 1) k2 := h3
            have h4' : set1 s.cc k (ncc + 1) k1 ≠ 0 := h4
            have l1 := I.le k1 h1
            have l2 := I.le k2 h2
            by_cases e1 : k1 = k
            · by_cases e2 : k2 = k
              · rw [e1, e2]; exact Relation.ReflTransGen.refl
              · rw [e1, set1_self, set1_ne _ _ _ e2] at h3'; omega
            · by_cases e2 : k2 = k
              · rw [e2, set1_self, set1_ne _ _ _ e1] at h3'; omega
              · rw [set1_ne _ _ _ e1] at h3' h4'
                rw [set1_ne _ _ _ e2] at h3'
                exact I.conn k1 k2 h1 h2 h3' h4'
          · intro hx c hc1 hc2
            by_cases e : c = ncc + 1
            · exact ⟨k, hk, by rw [e]; exact set1_self _ _ _⟩
            · obtain ⟨k', a, b⟩ := I.onto hx c hc1 (by omega)
              refine ⟨k', a, ?_⟩
              show set1 s.cc k (ncc + 1) k' = c
              rw [keep k' (by omega)]; exact b
        have hm2 : meas E (set1 s.cc k (ncc + 1)) [k] < fuel := by
          have := cnt_set (cc := s.cc) (n := ncc + 1) hk h0 (by omega)
          unfold meas at hm ⊢
          rw [List.length_nil] at hm
          rw [List.length_singleton]
          omega
        exact ih I2 (by omega) hm2

end Mmg.Edge2
