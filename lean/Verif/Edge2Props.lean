/-
  C83: the analysis of the edges of a 2D mesh.
-/
import Verif.Edge2Walk
import Verif.Pack2Model

namespace Mmg.Edge2
open Mmg.Orient (mgREF mgGEO mgREQ mgBDY mgNOSURF mgPARBDY has special set1 set2 m3 orP has_or has_zero set1_self set1_ne)

variable {E : Env} {s s' : St} {n : Nat} {init : Bool} {Q : List QSide} {qt qt' : QTag}

/-! ### First step -/

theorem step1_ends (G : Good E) (hc : init = true ∨ ∀ k, Ex E k → s.cc k = 0) :
    ∃ s' n, step1 E init s = some (s', n) ∧ Ends E s.tag s.ptag s' n := by
  unfold step1
  set cc := (if init then fun k => if 1 ≤ k ∧ k ≤ E.nt then 0 else s.cc k else s.cc) with hcc
  have h0 : ∀ k, Ex E k → cc k = 0 := by
    intro k hk
    rw [hcc]
    rcases hc with h | h
    · rw [h]; simp only [if_true]; rw [if_pos ⟨hk.1, hk.2.1⟩]
    · cases init
      · simp only [Bool.false_eq_true, if_false]; exact h k hk
      · simp only [if_true]; rw [if_pos ⟨hk.1, hk.2.1⟩]
  clear_value cc
  have hcnt : ∀ f : Nat → Nat, cnt E f ≤ E.nt := fun f => by
    unfold cnt
    exact List.countP_le_length.trans (by rw [List.length_range'])
  have base : ∀ pile : List Nat, (∀ k ∈ pile, Ex E k ∧ k = 1) → (Ex E 1 → 1 ∈ pile) →
      Inv E s.tag s.ptag (fun _ _ => False) 0 pile 1 { s with cc := set1 cc 1 1 } := by
    intro pile hp h1
    have hz : ∀ k, Ex E k → k ≠ 1 → set1 cc 1 1 k = 0 := fun k hk e => by rw [set1_ne _ _ _ e]; exact h0 k hk
    refine ⟨?_, fun _ _ _ _ => rfl, fun _ _ => rfl, ?_, ?_, ?_, ?_, ?_, ?_, ?_, ?_⟩
    · rintro k i _ (h | ⟨_, h⟩) <;> exact absurd h id
    · intro b _ p
      constructor
      · exact Or.inl
      · rintro (h | ⟨_, _, h, _⟩)
        · exact h
        · exact absurd h id
    · intro _ _ h; exact absurd h id
    · intro _ _ h; exact absurd h id
    · intro k hk hne _ hnp
      by_cases e : k = 1
      · subst e; exact absurd (h1 hk) hnp
      · exact absurd (hz k hk e) hne
    · intro k hm
      obtain ⟨a, rfl⟩ := hp k hm
      exact ⟨a, set1_self cc 1 1⟩
    · intro k hk
      show set1 cc 1 1 k ≤ 1
      by_cases e : k = 1
      · rw [e, set1_self]
      · rw [hz k hk e]; omega
    · intro k k' hk hk' he hne
      have he' : set1 cc 1 1 k = set1 cc 1 1 k' := he
      have hne' : set1 cc 1 1 k ≠ 0 := hne
      have e1 : k = 1 := by by_contra e; exact hne' (hz k hk e)
      have e2 : k' = 1 := by by_contra e; exact hne' (he'.trans (hz k' hk' e))
      rw [e1, e2]; exact Relation.ReflTransGen.refl
    · intro hx c h1 h2
      have : c = 1 := by omega
      subst this
      exact ⟨1, hx, set1_self cc 1 1⟩
  by_cases hx : E.v 1 0 = 0
  · have I := base [] (fun _ h => absurd h List.not_mem_nil) (fun h => absurd hx h.2.2)
    rw [show 2 * E.nt + 3 = (2 * E.nt + 2) + 1 from rfl]
    unfold walk
    rw [if_pos hx]
    refine walk_inv G _ I (by decide) ?_
    unfold meas
    have := hcnt (set1 cc 1 1)
    simp only [List.length_nil]; omega
  · have I := base [1] (fun k h => by
      have : k = 1 := by simpa using h
      exact ⟨this ▸ ⟨le_refl _, G.some, hx⟩, this⟩) (fun _ => List.mem_cons_self)
    refine walk_inv G _ I (by decide) ?_
    unfold meas
    have := hcnt (set1 cc 1 1)
    simp only [List.length_singleton]; omega

theorem Ends.domains {t0 p0} (h : Ends E t0 p0 s' n) : Domains E t0 s'.cc n := by
  have I := h.inv
  refine ⟨fun k hk => ⟨Nat.one_le_iff_ne_zero.2 (h.all k hk), I.le k hk⟩, fun k k' hk hk' => ⟨?_, ?_⟩, I.onto⟩
  · intro e; exact I.conn k k' hk hk' e (h.all k hk)
  · intro hc
    induction hc with
    | refl => rfl
    | @tail a b h1 h2 ih =>
      obtain ⟨ha, i, hcr, rfl⟩ := h2
      rw [ih ha, I.dNb a i ha hcr]

/-! ### Second step -/

theorem lock_lock (x : BitVec 16) : lock (lock x) = lock x := by
  unfold lock
  by_cases h : has x mgREQ = true
  · simp [h]
  · rw [if_neg h, if_pos]
    rw [has_or, has_or, has_or]
    simp [show has mgREQ mgREQ = true from by decide]

theorem qside_tag (l : List QSide) : ∀ (a : St × QTag) k i, (l.foldl qside a).1.tag k i =
    if ∃ e ∈ l, e.k = k ∧ e.i = i then lock (a.1.tag k i) else a.1.tag k i := by
  induction l with
  | nil => intro a k i; simp
  | cons e l ih =>
    intro a k i
    rw [List.foldl_cons, ih]
    have h : (qside a e).1.tag k i = if e.k = k ∧ e.i = i then lock (a.1.tag k i) else a.1.tag k i := by
      show set2 a.1.tag e.k e.i _ k i = _
      unfold set2
      by_cases hc : k = e.k ∧ i = e.i
      · rw [if_pos hc, if_pos ⟨hc.1.symm, hc.2.symm⟩, hc.1, hc.2]
      · rw [if_neg hc, if_neg (fun x => hc ⟨x.1.symm, x.2.symm⟩)]
    rw [h]
    by_cases h1 : e.k = k ∧ e.i = i
    · rw [if_pos h1, lock_lock]
      rw [if_pos (show ∃ e' ∈ e :: l, e'.k = k ∧ e'.i = i from ⟨e, List.mem_cons_self, h1⟩)]
      split <;> rfl
    · rw [if_neg h1]
      simp only [List.mem_cons, exists_eq_or_imp, h1, false_or]

theorem qside_q (l : List QSide) : ∀ (a : St × QTag) k j, (l.foldl qside a).2 k j =
    if ∃ e ∈ l, e.quad = k ∧ e.j = j then lock (a.2 k j) else a.2 k j := by
  induction l with
  | nil => intro a k i; simp
  | cons e l ih =>
    intro a k i
    rw [List.foldl_cons, ih]
    have h : (qside a e).2 k i = if e.quad = k ∧ e.j = i then lock (a.2 k i) else a.2 k i := by
      show (if k = e.quad ∧ i = e.j then lock (a.2 k i) else a.2 k i) = _
      by_cases hc : k = e.quad ∧ i = e.j
      · rw [if_pos hc, if_pos ⟨hc.1.symm, hc.2.symm⟩]
      · rw [if_neg hc, if_neg (fun x => hc ⟨x.1.symm, x.2.symm⟩)]
    rw [h]
    by_cases h1 : e.quad = k ∧ e.j = i
    · rw [if_pos h1, lock_lock]
      rw [if_pos (show ∃ e' ∈ e :: l, e'.quad = k ∧ e'.j = i from ⟨e, List.mem_cons_self, h1⟩)]
      split <;> rfl
    · rw [if_neg h1]
      simp only [List.mem_cons, exists_eq_or_imp, h1, false_or]

theorem qside_ptag (l : List QSide) : ∀ (a : St × QTag) p, (l.foldl qside a).1.ptag p =
    if ∃ e ∈ l, e.p = p ∨ e.q = p then lock (a.1.ptag p) else a.1.ptag p := by
  induction l with
  | nil => intro a p; simp
  | cons e l ih =>
    intro a p
    rw [List.foldl_cons, ih]
    have h : (qside a e).1.ptag p = if e.p = p ∨ e.q = p then lock (a.1.ptag p) else a.1.ptag p := by
      show set1 (set1 a.1.ptag e.p _) e.q (lock (set1 a.1.ptag e.p _ e.q)) p = _
      unfold set1
      by_cases h1 : e.q = p
      · subst h1
        by_cases h2 : e.q = e.p
        · simp [h2, lock_lock]
        · simp [h2]
      · by_cases h2 : e.p = p
        · subst h2; simp [Ne.symm h1]
        · simp [Ne.symm h1, Ne.symm h2, h1, h2]
    rw [h]
    by_cases h1 : e.p = p ∨ e.q = p
    · rw [if_pos h1, lock_lock]
      rw [if_pos (show ∃ e' ∈ e :: l, e'.p = p ∨ e'.q = p from ⟨e, List.mem_cons_self, h1⟩)]
      split <;> rfl
    · rw [if_neg h1]
      simp only [List.mem_cons, exists_eq_or_imp, h1, false_or]

theorem qside_cc (l : List QSide) : ∀ a : St × QTag, (l.foldl qside a).1.cc = a.1.cc := by
  induction l with
  | nil => intro a; rfl
  | cons e l ih => intro a; rw [List.foldl_cons, ih]; rfl

theorem has_lock (x b : BitVec 16) (hb : b = mgREF ∨ b = mgGEO) : has (lock x) b = has x b := by
  unfold lock
  split
  · rfl
  · rw [has_or]
    rcases hb with rfl | rfl <;> simp [show has (mgREQ ||| mgNOSURF ||| mgBDY) mgREF = false from by decide,
      show has (mgREQ ||| mgNOSURF ||| mgBDY) mgGEO = false from by decide]

/-! ### C83 -/

/-- What the analysis does to a mesh without quadrilaterals: it ends; every side of every triangle gets exactly the tag
that is due; the vertices get the marks of the special edges they belong to; the triangles are numbered by sub-domain. -/
theorem C83_analysis (G : Good E) (hc : init = true ∨ ∀ k, Ex E k → s.cc k = 0) :
    ∃ s' n, setadj E init [] s qt = some (s', qt, n) ∧
      (∀ k i, Ex E k → s'.tag k i = due E s.tag k i) ∧ (∀ k, ¬ Ex E k → s'.tag k = s.tag k) ∧
      Marked E s.tag s.ptag s'.ptag mgREF ∧ Marked E s.tag s.ptag s'.ptag mgGEO ∧
      Marked E s.tag s.ptag s'.ptag mgBDY ∧ Marked E s.tag s.ptag s'.ptag mgREQ ∧
      Domains E s.tag s'.cc n := by
  obtain ⟨s', n, e, h⟩ := step1_ends (init := init) G hc
  refine ⟨s', n, ?_, ?_, h.inv.dead, h.inv.pts _ (by decide), h.inv.pts _ (by decide), h.inv.pts _ (by decide),
    h.inv.pts _ (by decide), h.domains⟩
  · unfold setadj
    rw [if_neg (by have := G.some; omega), e]
    rfl
  · intro k i hk
    exact h.inv.tagD k i hk (Or.inl hk)

/-- With quadrilaterals: the same, and the sides shared by a quadrilateral and a triangle are boundary edges that are not
to be touched, with their vertices. -/
theorem C83_analysis_quads (G : Good E) (hc : init = true ∨ ∀ k, Ex E k → s.cc k = 0) (Q : List QSide) :
    ∃ s1 s' qt' n, setadj E init [] s qt = some (s1, qt, n) ∧ setadj E init Q s qt = some (s', qt', n) ∧ s'.cc = s1.cc ∧
      (∀ k i, (∀ e ∈ Q, (e.k, e.i) ≠ (k, i)) → s'.tag k i = s1.tag k i) ∧
      (∀ e ∈ Q, has (s'.tag e.k e.i) mgREQ = true ∧
        (has (s1.tag e.k e.i) mgREQ = true → s'.tag e.k e.i = s1.tag e.k e.i) ∧
        (has (s1.tag e.k e.i) mgREQ = false → s'.tag e.k e.i = s1.tag e.k e.i ||| (mgREQ ||| mgNOSURF ||| mgBDY))) ∧
      (∀ p, (∀ e ∈ Q, e.p ≠ p ∧ e.q ≠ p) → s'.ptag p = s1.ptag p) ∧
      (∀ e ∈ Q, ∀ p, p = e.p ∨ p = e.q → has (s'.ptag p) mgREQ = true ∧
        (has (s1.ptag p) mgREQ = true → s'.ptag p = s1.ptag p) ∧
        (has (s1.ptag p) mgREQ = false → s'.ptag p = s1.ptag p ||| (mgREQ ||| mgNOSURF ||| mgBDY))) ∧
      (∀ k j, (∀ e ∈ Q, (e.quad, e.j) ≠ (k, j)) → qt' k j = qt k j) ∧
      (∀ e ∈ Q, has (qt' e.quad e.j) mgREQ = true ∧
        (has (qt e.quad e.j) mgREQ = true → qt' e.quad e.j = qt e.quad e.j) ∧
        (has (qt e.quad e.j) mgREQ = false → qt' e.quad e.j = qt e.quad e.j ||| (mgREQ ||| mgNOSURF ||| mgBDY))) := by
  obtain ⟨s1, n, e, h⟩ := step1_ends (init := init) G hc
  have hlk : ∀ x : BitVec 16, has (lock x) mgREQ = true ∧ (has x mgREQ = true → lock x = x) ∧
      (has x mgREQ = false → lock x = x ||| (mgREQ ||| mgNOSURF ||| mgBDY)) := by
    intro x
    unfold lock
    cases hx : has x mgREQ
    · refine ⟨?_, fun h => absurd h (by decide), fun _ => by simp⟩
      simp only [Bool.false_eq_true, if_false]
      rw [has_or, show has (mgREQ ||| mgNOSURF ||| mgBDY) mgREQ = true from by decide]
      simp
    · simp [hx]
  refine ⟨s1, (Q.foldl qside (s1, qt)).1, (Q.foldl qside (s1, qt)).2, n, ?_, ?_, qside_cc _ _, ?_, ?_, ?_, ?_, ?_, ?_⟩
  · unfold setadj
    rw [if_neg (by have := G.some; omega), e]
    rfl
  · unfold setadj
    rw [if_neg (by have := G.some; omega), e]
  · intro k i hq
    rw [qside_tag, if_neg]
    rintro ⟨e, he, h1, h2⟩
    exact hq e he (by rw [h1, h2])
  · intro e he
    rw [qside_tag, if_pos ⟨e, he, rfl, rfl⟩]
    exact hlk _
  · intro p hq
    rw [qside_ptag, if_neg]
    rintro ⟨e, he, h1 | h1⟩
    · exact (hq e he).1 h1
    · exact (hq e he).2 h1
  · intro e he p hp
    rw [qside_ptag, if_pos ⟨e, he, by rcases hp with h | h <;> [exact Or.inl h.symm; exact Or.inr h.symm]⟩]
    exact hlk _
  · intro k j hq
    rw [qside_q, if_neg]
    rintro ⟨e, he, h1, h2⟩
    exact hq e he (by rw [h1, h2])
  · intro e he
    rw [qside_q, if_pos ⟨e, he, rfl, rfl⟩]
    exact hlk _

/-- The two triangles of an edge agree about it; doing the analysis again changes no tag. -/
theorem C83_consistent (G : Good E) {k i} (hk : Ex E k) (tag : Nat → Fin 3 → BitVec 16) :
    (E.adj k i ≠ 0 → due E tag (nb E k i) (np E k i) = due E tag k i) ∧
    due E (due E tag) k i = due E tag k i := by
  refine ⟨due_sym G hk, ?_⟩
  by_cases h : E.adj k i = 0
  · rw [due_outer h, due_outer h]
    have hp : has (freeze (E.nosurf || has (tag k i) mgPARBDY) (mgGEO ||| mgBDY) (tag k i)) mgPARBDY
        = has (tag k i) mgPARBDY := by
      rw [freeze_eq, has_or, has_or]
      split <;> simp [show has (mgGEO ||| mgBDY) mgPARBDY = false from by decide,
        show has (mgREQ ||| mgNOSURF) mgPARBDY = false from by decide, has_zero]
    rw [hp, freeze_freeze]
  · rw [due_new h, due_sym G hk h, due_new h, new_new]

/-- In plain words.  Outer edges are ridges of the boundary, with their vertices; edges between two references are
reference edges of the boundary, with their vertices; without the mode that keeps open boundaries, edges between two
triangles of the same reference are no longer marked at all; edges required on one side are required on both. -/
theorem C83_edges (G : Good E) (hc : init = true ∨ ∀ k, Ex E k → s.cc k = 0)
    (h : setadj E init [] s qt = some (s', qt', n)) {k i} (hk : Ex E k) :
    (E.adj k i = 0 → ∀ b ∈ [mgGEO, mgBDY], has (s'.tag k i) b = true ∧ ∀ p, On E k i p → has (s'.ptag p) b = true) ∧
    (E.adj k i ≠ 0 → (E.ref (nb E k i)).natAbs ≠ (E.ref k).natAbs →
      ∀ b ∈ [mgREF, mgBDY], has (s'.tag k i) b = true ∧ ∀ p, On E k i p → has (s'.ptag p) b = true) ∧
    (E.adj k i ≠ 0 → E.opnbdy = false → E.ref (nb E k i) = E.ref k →
      ∀ b ∈ [mgREF, mgGEO, mgBDY], has (s'.tag k i) b = false) ∧
    (has (s.tag k i) mgREQ = true → has (s'.tag k i) mgREQ = true ∧
      (E.adj k i ≠ 0 → has (s'.tag (nb E k i) (np E k i)) mgREQ = true) ∧
      ∀ p, On E k i p → has (s'.ptag p) mgREQ = true) := by
  obtain ⟨s1, n1, e, hT, _, mR, mG, mB, mQ, _⟩ := C83_analysis (qt := qt) G hc
  rw [h] at e
  simp only [Option.some.injEq, Prod.mk.injEq] at e
  obtain ⟨rfl, _, _⟩ := e
  have hreq : has (s.tag k i) mgREQ = true → has (due E s.tag k i) mgREQ = true := by
    intro hr
    by_cases h0 : E.adj k i = 0
    · rw [due_outer h0, has_freeze _ _ _ _ (by decide), hr]; simp
    · rw [due_new h0, new_eq]
      have hj : has (join E k i (s.tag k i) (s.tag (nb E k i) (np E k i))) mgREQ = true := by
        unfold join
        split
        · rw [has_or]
          have hw : has (wipe (s.tag k i)) mgREQ = has (s.tag k i) mgREQ := by
            unfold has
            have : wipe (s.tag k i) &&& mgREQ = s.tag k i &&& mgREQ := by
              unfold wipe
              rw [BitVec.and_assoc, BitVec.and_assoc, BitVec.and_assoc]
              rw [show ~~~mgREF &&& (~~~mgBDY &&& (~~~mgGEO &&& mgREQ)) = mgREQ from by decide]
            rw [this]
          rw [hw, hr]; simp
        · rw [has_or, hr]; simp
      split
      · rw [has_freeze _ _ _ _ (by decide), hj]; simp
      · exact hj
  have mark : ∀ b, Marked E s.tag s.ptag s'.ptag b → special (due E s.tag k i) = true →
      has (due E s.tag k i) b = true → ∀ p, On E k i p → has (s'.ptag p) b = true :=
    fun b m h1 h2 p hp => (m p).2 (Or.inr ⟨k, i, hk, hp, h1, h2⟩)
  have hsp : ∀ b, b = mgREF ∨ b = mgGEO ∨ b = mgREQ → has (due E s.tag k i) b = true →
      special (due E s.tag k i) = true := by
    intro b hb h1
    unfold special
    rcases hb with rfl | rfl | rfl <;> simp [h1]
  refine ⟨?_, ?_, ?_, ?_⟩
  · intro h0
    have hb : ∀ b ∈ bits, has (mgGEO ||| mgBDY) b = true → has (due E s.tag k i) b = true := by
      intro b hb h1
      rw [due_outer h0, has_freeze _ _ _ _ hb, h1]; simp
    have hg := hb mgGEO (by decide) (by decide)
    have hd := hb mgBDY (by decide) (by decide)
    have hs := hsp mgGEO (by simp) hg
    intro b hm
    rw [hT k i hk]
    simp only [List.mem_cons, List.not_mem_nil, or_false] at hm
    rcases hm with rfl | rfl
    · exact ⟨hg, mark _ mG hs hg⟩
    · exact ⟨hd, mark _ mB hs hd⟩
  · intro h0 hr
    have hb : ∀ b ∈ bits, has (mgREF ||| mgBDY) b = true → has (due E s.tag k i) b = true := by
      intro b hb h1
      rw [due_new h0, new_eq, if_pos (show Sep E k i _ from Or.inl hr), has_freeze _ _ _ _ hb, h1]; simp
    have hg := hb mgREF (by decide) (by decide)
    have hd := hb mgBDY (by decide) (by decide)
    have hs := hsp mgREF (by simp) hg
    intro b hm
    rw [hT k i hk]
    simp only [List.mem_cons, List.not_mem_nil, or_false] at hm
    rcases hm with rfl | rfl
    · exact ⟨hg, mark _ mR hs hg⟩
    · exact ⟨hd, mark _ mB hs hd⟩
  · intro h0 ho hr b hm
    have hI : Inner E k i := ⟨h0, ho, hr.symm⟩
    have hnS : ∀ u, ¬ Sep E k i u := by
      rintro u (h1 | ⟨h1, _⟩)
      · exact h1 (by rw [hr])
      · rw [ho] at h1; exact absurd h1 (by decide)
    rw [hT k i hk, due_new h0, new_eq, if_neg (hnS _)]
    unfold join
    rw [if_pos hI, wipe_or]
    unfold has
    rw [BitVec.and_assoc]
    have : ~~~(mgREF ||| mgGEO ||| mgBDY) &&& b = 0#16 := by
      simp only [List.mem_cons, List.not_mem_nil, or_false] at hm
      rcases hm with rfl | rfl | rfl <;> decide
    rw [this]
    simp
  · intro hr
    have h1 := hreq hr
    refine ⟨by rw [hT k i hk]; exact h1, fun h0 => ?_, mark _ mQ (hsp mgREQ (by simp) h1) h1⟩
    rw [hT _ _ (G.link k i hk h0).1, due_sym G hk h0]; exact h1

/-! ### A square cut in two, between references 1 and 2 -/

/-- Triangles 1 2 3 and 1 3 4; their common edge is side 1 of the first and side 2 of the second. -/
def sq (r : Int) (op ns : Bool) : Env where
  nt := 2
  v := fun k i => if k = 1 then i.val + 1 else if k = 2 then (if i = 0 then 1 else i.val + 2) else 0
  adj := fun k i => if k = 1 ∧ i = 1 then 8 else if k = 2 ∧ i = 2 then 4 else 0
  ref := fun k => if k = 1 then 1 else r
  opnbdy := op
  nosurf := ns

def sqSt (pt : Nat → BitVec 16) : St := ⟨fun _ _ => 0, fun _ => 0, pt⟩

theorem sq_good (r op ns) : Good (sq r op ns) := by
  refine ⟨(by decide : 1 ≤ 2), ?_⟩
  intro k i hk h
  have hk1 := hk.1
  have hk2 : k ≤ 2 := hk.2.1
  have : k = 1 ∨ k = 2 := by omega
  have e1 : ∀ i : Fin 3, (sq r op ns).adj 1 i = if i = 1 then 8 else 0 := by intro i; simp [sq]
  have e2 : ∀ i : Fin 3, (sq r op ns).adj 2 i = if i = 2 then 4 else 0 := by intro i; simp [sq]
  have v1 : Ex (sq r op ns) 1 := ⟨by decide, (by decide : 1 ≤ 2), by simp [sq]⟩
  have v2 : Ex (sq r op ns) 2 := ⟨by decide, (by decide : 2 ≤ 2), by simp [sq]⟩
  rcases this with rfl | rfl
  · rw [e1] at h
    have hi : i = 1 := by by_contra e; rw [if_neg e] at h; exact h rfl
    subst hi
    unfold nb np
    rw [e1]
    exact ⟨v2, by decide, e2 2⟩
  · rw [e2] at h
    have hi : i = 2 := by by_contra e; rw [if_neg e] at h; exact h rfl
    subst hi
    unfold nb np
    rw [e2]
    exact ⟨v1, by decide, e1 1⟩

example := C83_analysis (s := sqSt fun _ => 0) (qt := fun _ _ => 0) (init := true) (sq_good 2 false false) (Or.inl rfl)
example := C83_analysis_quads (s := sqSt fun _ => 0) (qt := fun _ _ => 0) (init := true) (sq_good 2 false false)
  (Or.inl rfl) [⟨1, 0, 2, 3, 1, 0⟩]

example := C83_consistent (sq_good 2 false false) (k := 1) (i := 1) ⟨by decide, (by decide : 1 ≤ 2), by decide⟩
  (fun _ _ => 0)
example := (C83_analysis (s := sqSt fun _ => 0) (qt := fun _ _ => 0) (init := true) (sq_good 2 false false)
  (Or.inl rfl)).imp fun _ h => h.imp fun _ h => C83_edges (sq_good 2 false false) (Or.inl rfl) h.1 (k := 1) (i := 1)
    ⟨by decide, (by decide : 1 ≤ 2), by decide⟩

theorem found {α : Type} {o : Option α} (f : α → Bool) (h : o.any f = true) : ∃ x, o = some x ∧ f x = true := by
  cases o with
  | none => simp at h
  | some x => exact ⟨x, rfl, h⟩

/-- With two references there are two sub-domains, with one reference one; and the common edge is an interface or not. -/
theorem C83_square :
    (∃ s' q, setadj (sq 2 false false) true [] (sqSt fun _ => 0) (fun _ _ => 0) = some (s', q, 2) ∧
      s'.tag 1 1 = mgREF ||| mgBDY ∧ s'.tag 1 0 = mgGEO ||| mgBDY) ∧
    (∃ s' q, setadj (sq 1 false false) true [] (sqSt fun _ => 0) (fun _ _ => 0) = some (s', q, 1) ∧
      s'.tag 1 1 = 0#16 ∧ s'.tag 1 0 = mgGEO ||| mgBDY) := by
  constructor
  · obtain ⟨⟨s', q, n⟩, h, e⟩ := found (o := setadj (sq 2 false false) true [] (sqSt fun _ => 0) (fun _ _ => 0))
      (fun x => decide (x.2.2 = 2 ∧ x.1.tag 1 1 = mgREF ||| mgBDY ∧ x.1.tag 1 0 = mgGEO ||| mgBDY)) (by decide +kernel)
    rw [decide_eq_true_eq] at e
    obtain ⟨rfl, e⟩ := e
    exact ⟨s', q, h, e⟩
  · obtain ⟨⟨s', q, n⟩, h, e⟩ := found (o := setadj (sq 1 false false) true [] (sqSt fun _ => 0) (fun _ _ => 0))
      (fun x => decide (x.2.2 = 1 ∧ x.1.tag 1 1 = 0#16 ∧ x.1.tag 1 0 = mgGEO ||| mgBDY)) (by decide +kernel)
    rw [decide_eq_true_eq] at e
    obtain ⟨rfl, e⟩ := e
    exact ⟨s', q, h, e⟩

/-- Finding: with the option `-nosurf` a vertex required by the user that lies on an interface gets the mark of the
vertices frozen by the option, so that the final packing (`Pack2.untag`) takes its status of required vertex away.  (The
second of the two triangles gives it the tag that the first one has put on the edge.) -/
theorem C83_required_vertex_lost_observed :
    ∃ s' q n, setadj (sq 2 false true) true [] (sqSt fun p => if p = 1 then mgREQ else 0) (fun _ _ => 0) = some (s', q, n) ∧
      has (s'.ptag 1) mgREQ = true ∧ has (s'.ptag 1) mgNOSURF = true ∧ has (Pack2.untag (s'.ptag 1)) mgREQ = false := by
  obtain ⟨⟨s', q, n⟩, h, e⟩ := found
    (o := setadj (sq 2 false true) true [] (sqSt fun p => if p = 1 then mgREQ else 0) (fun _ _ => 0))
    (fun x => decide (has (x.1.ptag 1) mgREQ = true ∧ has (x.1.ptag 1) mgNOSURF = true ∧
      has (Pack2.untag (x.1.ptag 1)) mgREQ = false)) (by decide +kernel)
  exact ⟨s', q, n, h, by rwa [decide_eq_true_eq] at e⟩

/-- Without an interface the same vertex keeps its status. -/
theorem C83_required_vertex_kept_observed :
    ∃ s' q n, setadj (sq 1 false true) true [] (sqSt fun p => if p = 1 then mgREQ else 0) (fun _ _ => 0) = some (s', q, n) ∧
      has (Pack2.untag (s'.ptag 1)) mgREQ = true := by
  obtain ⟨⟨s', q, n⟩, h, e⟩ := found
    (o := setadj (sq 1 false true) true [] (sqSt fun p => if p = 1 then mgREQ else 0) (fun _ _ => 0))
    (fun x => has (Pack2.untag (x.1.ptag 1)) mgREQ) (by decide +kernel)
  exact ⟨s', q, n, h, e⟩

/-- One triangle, one of its sides required by the user, option `-nosurf`. -/
def oneE : Env := ⟨1, fun k j => if k = 1 then j.val + 1 else 0, fun _ _ => 0, fun _ => 1, false, true⟩
def oneS (i : Fin 3) : St := ⟨fun k j => if k = 1 ∧ j = i then mgREQ else 0, fun _ => 0, fun _ => 0⟩

/-- Finding: whether the vertices of a required edge are still required after the packing depends on the place of the edge
in its triangle: they are for the first side, they are not for the last one. -/
theorem C83_required_edge_order_observed :
    (∃ s' q n, setadj oneE true [] (oneS 0) (fun _ _ => 0) = some (s', q, n) ∧
      has (Pack2.untag (s'.ptag 2)) mgREQ = true ∧ has (Pack2.untag (s'.ptag 3)) mgREQ = true) ∧
    (∃ s' q n, setadj oneE true [] (oneS 2) (fun _ _ => 0) = some (s', q, n) ∧
      has (Pack2.untag (s'.ptag 1)) mgREQ = false ∧ has (Pack2.untag (s'.ptag 2)) mgREQ = false) := by
  constructor
  · obtain ⟨⟨s', q, n⟩, h, e⟩ := found (o := setadj oneE true [] (oneS 0) (fun _ _ => 0))
      (fun x => decide (has (Pack2.untag (x.1.ptag 2)) mgREQ = true ∧ has (Pack2.untag (x.1.ptag 3)) mgREQ = true))
      (by decide +kernel)
    exact ⟨s', q, n, h, by rwa [decide_eq_true_eq] at e⟩
  · obtain ⟨⟨s', q, n⟩, h, e⟩ := found (o := setadj oneE true [] (oneS 2) (fun _ _ => 0))
      (fun x => decide (has (Pack2.untag (x.1.ptag 1)) mgREQ = false ∧ has (Pack2.untag (x.1.ptag 2)) mgREQ = false))
      (by decide +kernel)
    exact ⟨s', q, n, h, by rwa [decide_eq_true_eq] at e⟩

end Mmg.Edge2
