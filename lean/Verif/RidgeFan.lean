/-
  C87: the list of `MMG5_bouler` has every special edge at the vertex exactly once.
-/
import Verif.RidgeLemmas
import Verif.BallProps

namespace Mmg.Ridge

open Mmg.Tri2 Relation
open Mmg.Orient (has skipped set1 orP mgREF mgGEO mgREQ mgNOM mgBDY mgNOSURF mgPARBDY mgPARBDYBDY)

section
variable {K : Type} [Field K] [LinearOrder K] {E : Env K}

/-! ### Specification -/

/-- `es` has one side of every special edge at `p`. -/
structure Feat (E : Env K) (tag : HE → BitVec 16) (p : Nat) (es : List HE) : Prop where
  nodup : es.Nodup
  sound : ∀ h ∈ es, E.M.live h.1 ∧ End E p h ∧ edg (tag h) = true
  once : ∀ h ∈ es, ∀ h', E.M.adj h = some h' → h' ∉ es
  complete : ∀ h, E.M.live h.1 → End E p h → edg (tag h) = true → h ∈ es ∨ ∃ h', E.M.adj h = some h' ∧ h' ∈ es

/-- Both sides of every edge agree on what matters. -/
def Agree (E : Env K) (tag : HE → BitVec 16) : Prop :=
  ∀ h h', E.M.live h.1 → E.M.adj h = some h' →
    has (tag h) mgGEO = has (tag h') mgGEO ∧ has (tag h) mgREF = has (tag h') mgREF

/-- The triangles around `p` are all joined through edges at `p`. -/
def OneFan (E : Env K) (p : Nat) : Prop :=
  ∀ c c' : HE, E.M.live c.1 → E.M.live c'.1 → E.M.at c = p → E.M.at c' = p → ReflTransGen E.M.Fan c c'

/-- The numbers of the valid triangles are at most `nt`. -/
def Bounded (E : Env K) : Prop := ∀ k, E.M.live k → k ≤ E.nt

/-- The other end. -/
def OtherEnd (E : Env K) (p : Nat) (h : HE) (w : Nat) : Prop := (E.e1 h = p ∧ w = E.e2 h) ∨ (E.e2 h = p ∧ w = E.e1 h)

/-! ### The loops -/

theorem fwd_next {M : Mesh} {start n : Nat} {c : HE} {l : List HE} (e : fwd M start n c = some (l, false)) :
    ∀ x ∈ l, ∀ y, M.rot x = some y → y ∈ l.tail := by
  induction n generalizing c l with
  | zero => simp [fwd] at e
  | succ n ih =>
    unfold fwd at e
    split at e
    · rename_i e1
      cases e
      intro x hx y hy
      simp at hx; subst hx
      rw [e1] at hy; cases hy
    · rename_i c' e1
      split at e
      · cases e
      · simp only [Option.map_eq_some_iff] at e
        obtain ⟨⟨l', b'⟩, e, e3⟩ := e
        cases e3
        have := ih e
        intro x hx y hy
        rcases List.mem_cons.1 hx with rfl | hx
        · rw [e1] at hy; cases hy
          have : c' ∈ l' := by
            cases n with
            | zero => simp [fwd] at e
            | succ n =>
              unfold fwd at e
              split at e
              · cases e; simp
              · split at e
                · cases e
                · simp only [Option.map_eq_some_iff] at e
                  obtain ⟨⟨l2, b2⟩, e, e4⟩ := e
                  cases e4; simp
          exact this
        · exact List.mem_of_mem_tail (this x hx y hy)

theorem fwd_prev {M : Mesh} {start n : Nat} {c : HE} {l : List HE} {b : Bool} (e : fwd M start n c = some (l, b)) :
    c ∈ l ∧ ∀ x ∈ l.tail, ∃ y ∈ l, M.rot y = some x := by
  induction n generalizing c l b with
  | zero => simp [fwd] at e
  | succ n ih =>
    unfold fwd at e
    split at e
    · cases e; simp
    · rename_i c' e1
      split at e
      · cases e; simp
      · simp only [Option.map_eq_some_iff] at e
        obtain ⟨⟨l', b'⟩, e, e3⟩ := e
        cases e3
        obtain ⟨i1, i2⟩ := ih e
        refine ⟨by simp, fun x hx => ?_⟩
        simp only [List.tail_cons] at hx
        cases l' with
        | nil => simp at i1
        | cons d t =>
          rcases List.mem_cons.1 hx with rfl | hx
          · refine ⟨c, by simp, ?_⟩
            have : x = c' := by
              cases n with
              | zero => simp [fwd] at e
              | succ n =>
                unfold fwd at e
                split at e
                · simp at e; exact e.1.1.symm
                · split at e
                  · simp at e; exact e.1.1.symm
                  · simp only [Option.map_eq_some_iff] at e
                    obtain ⟨⟨l2, b2⟩, e, e4⟩ := e
                    simp at e4; exact e4.1.1.symm
            rw [this]; exact e1
          · obtain ⟨y, hy, hr⟩ := i2 x (by simpa using hx)
            exact ⟨y, List.mem_cons_of_mem _ hy, hr⟩

theorem bwd_prev {M : Mesh} {n : Nat} {c : HE} {l : List HE} (e : bwd M n c = some l) :
    ∀ x ∈ l, ∃ y ∈ c :: l, M.rotb y = some x := by
  induction n generalizing c l with
  | zero =>
    unfold bwd at e
    split at e
    · cases e; simp
    · cases e
  | succ n ih =>
    unfold bwd at e
    split at e
    · cases e; simp
    · rename_i c' e1
      simp only [Option.map_eq_some_iff] at e
      obtain ⟨l', e, rfl⟩ := e
      have := ih e
      intro x hx
      rcases List.mem_cons.1 hx with rfl | hx
      · exact ⟨c, by simp, e1⟩
      · obtain ⟨y, hy, hr⟩ := this x hx
        exact ⟨y, List.mem_cons_of_mem _ hy, hr⟩

theorem fin3 (a : Fin 3) : a + 1 + 1 = a + 2 ∧ a + 1 + 2 = a ∧ a + 2 + 1 = a ∧ a + 2 + 2 = a + 1 ∧ a + 1 ≠ a + 2 ∧
    a + 1 ≠ a ∧ a + 2 ≠ a ∧ ∀ b, b ≠ a → b = a + 1 ∨ b = a + 2 := by
  fin_cases a <;> decide

/-- The corner of an end. -/
theorem end_corner {p : Nat} {h : HE} (he : End E p h) :
    ∃ x : HE, x.1 = h.1 ∧ E.M.at x = p ∧ (h = (x.1, x.2 + 1) ∨ h = (x.1, x.2 + 2)) := by
  obtain ⟨a1, a2, a3, a4, a5, a6, a7, a8⟩ := fin3 h.2
  rcases he with e | e
  · exact ⟨(h.1, h.2 + 1), rfl, e.symm, .inr (by rw [a2])⟩
  · exact ⟨(h.1, h.2 + 2), rfl, e.symm, .inl (by rw [a3])⟩

/-- All the sides seen by the two loops. -/
def seen (E : Env K) (l : List HE) (l' : List HE) : List (HE × Nat) :=
  (l.map fun x => (((x.1, x.2 + 1) : HE), (E.M.tri x.1).v (x.2 + 2))) ++
    l'.map fun x => (((x.1, x.2 + 2) : HE), (E.M.tri x.1).v (x.2 + 1))

/-- The loops end. -/
theorem boulet_some (hv : Valid E.M) (hb : Bounded E) {c : HE} (hc : E.M.live c.1) :
    ∃ l opn, boulet E.M (E.nt + 2) false c = some (l, opn) := by
  cases hbo : boulet E.M (E.nt + 2) false c with
  | some x => exact ⟨x.1, x.2, rfl⟩
  | none =>
    exfalso
    obtain ⟨l, n1, n2, n3⟩ := C17_ball_failure hv hc (by omega) hbo
    have hlive : ∀ x, ReflTransGen E.M.Fan c x → E.M.live x.1 := by
      intro x hx
      exact fan_live hv hc hx
    have hsub : l.map (·.1) ⊆ List.range (E.nt + 1) := by
      intro k hk
      obtain ⟨x, hx, rfl⟩ := List.mem_map.1 hk
      have := hb _ (hlive x (n3 x hx))
      rw [List.mem_range]; omega
    have := (n1.subperm hsub).length_le
    rw [List.length_map, List.length_range] at this
    omega

theorem bouler_spec (hv : Valid E.M) (hb : Bounded E) {tag : HE → BitVec 16} (ha : Agree E tag) {p lmax : Nat}
    (h1 : OneFan E p) {c : HE} (hc : E.M.live c.1) (hp : E.M.at c = p) :
    ∃ r : List (HE × Nat), bouler E tag lmax c = some (r.take (lmax - 1)) ∧ Feat E tag p (r.map (·.1)) ∧
      ∀ x ∈ r, OtherEnd E p x.1 x.2 := by
  classical
  have hbt := boulet_some hv hb hc
  obtain ⟨l0, opn, hbo⟩ := hbt
  obtain ⟨q1, q2, q3, q4, q5, q6⟩ := C17_ball hv hc hbo
  -- the two lists
  obtain ⟨l, l', hbl, hmem, hnd, hopen, hw⟩ : ∃ l l', bouler E tag lmax c =
      some (((seen E l l').filter fun x => edg (tag x.1)).take (lmax - 1)) ∧
      (∀ x, x ∈ l ∨ x ∈ l' ↔ ReflTransGen E.M.Fan c x) ∧
      (l.map (·.1)).Nodup ∧ ((l' = [] ∧ (∀ x ∈ l, ∀ i, i ≠ x.2 → E.M.adj (x.1, i) ≠ none)) ∨
        (∃ t t', l = c :: t ∧ l' = c :: t' ∧ ((c :: t ++ t').map (·.1)).Nodup ∧
          (∀ x ∈ l, ∀ y, E.M.rot x = some y → y ∈ t) ∧ (∀ x ∈ t, ∃ y ∈ l, E.M.rot y = some x) ∧
          (∀ x ∈ t', ∃ y ∈ l', E.M.rotb y = some x))) ∧
      ∀ x, x ∈ l ∨ x ∈ l' → E.M.live x.1 ∧ E.M.at x = p := by
    unfold boulet at hbo
    simp only [show E.nt + 2 - 1 = E.nt + 1 by omega] at hbo
    unfold bouler
    cases hf : fwd E.M c.1 (E.nt + 1) c with
    | none => rw [hf] at hbo; cases hbo
    | some r =>
      obtain ⟨l, closed⟩ := r
      rw [hf] at hbo
      cases closed with
      | true =>
        simp only [Option.some.injEq, Prod.mk.injEq] at hbo
        obtain ⟨rfl, rfl⟩ := hbo
        refine ⟨l, [], by simp [seen], fun x => by simp [q3 x], q2, .inl ⟨rfl, ?_⟩, ?_⟩
        · intro x hx i hi hn
          have := q5.2 ⟨x, hx, i, hi, hn⟩
          cases this
        · intro x hx
          have := q4 x (by simpa using hx)
          exact ⟨this.1, this.2.trans hp⟩
      | false =>
        simp only [Bool.false_eq_true, if_false, Option.map_eq_some_iff, Prod.mk.injEq] at hbo
        obtain ⟨t', hb2, rfl, rfl⟩ := hbo
        obtain ⟨⟨t, rfl, _⟩, _⟩ := fwd_spec hv c.1 _ c hc _ _ hf
        refine ⟨c :: t, c :: t', ?_, ?_, ?_, .inr ⟨t, t', rfl, rfl, q2, ?_, ?_, ?_⟩, ?_⟩
        · simp only [Bool.false_eq_true, if_false]
          rw [hb2]
          rfl
        · intro x
          rw [← q3 x]
          simp only [List.mem_append, List.mem_cons]
          tauto
        · rw [List.map_append, List.nodup_append] at q2
          exact q2.1
        · intro x hx y hy; exact fwd_next hf x hx y hy
        · exact (fwd_prev hf).2
        · exact bwd_prev hb2
        · intro x hx
          have := q4 x (by simp only [List.mem_append, List.mem_cons] at hx ⊢; tauto)
          exact ⟨this.1, this.2.trans hp⟩
  refine ⟨_, hbl, ?_, ?_⟩
  · -- `Feat`
    have hcorner : ∀ x y : HE, (x ∈ l ∨ x ∈ l') → (y ∈ l ∨ y ∈ l') → x.1 = y.1 → x = y := by
      intro x y hx hy e
      exact corner_eq hv (hw y hy).1 e ((hw x hx).2.trans (hw y hy).2.symm)
    have hin : ∀ h, h ∈ ((seen E l l').filter fun x => edg (tag x.1)).map (·.1) ↔
        edg (tag h) = true ∧ ((∃ x ∈ l, h = (x.1, x.2 + 1)) ∨ ∃ x ∈ l', h = (x.1, x.2 + 2)) := by
      intro h
      simp only [List.mem_map, List.mem_filter, seen, List.mem_append]
      constructor
      · rintro ⟨y, ⟨hy, he⟩, rfl⟩
        refine ⟨he, ?_⟩
        rcases hy with ⟨x, hx, rfl⟩ | ⟨x, hx, rfl⟩
        · exact .inl ⟨x, hx, rfl⟩
        · exact .inr ⟨x, hx, rfl⟩
      · rintro ⟨he, ⟨x, hx, rfl⟩ | ⟨x, hx, rfl⟩⟩
        · exact ⟨_, ⟨.inl ⟨x, hx, rfl⟩, he⟩, rfl⟩
        · exact ⟨_, ⟨.inr ⟨x, hx, rfl⟩, he⟩, rfl⟩
    have hedg : ∀ h h', E.M.live h.1 → E.M.adj h = some h' → edg (tag h) = edg (tag h') := by
      intro h h' hl hh
      unfold edg
      rw [(ha h h' hl hh).1, (ha h h' hl hh).2]
    -- in the open case, no side of the first list is the other side of one of the second list
    have sep : ∀ x ∈ l, ∀ y ∈ l', E.M.rot x = some y → False := by
      intro x hx y hy hr
      rcases hopen with ⟨e, _⟩ | ⟨t, t', rfl, rfl, nd, s1, _⟩
      · rw [e] at hy; simp at hy
      · have hyt := s1 x hx y hr
        simp only [List.map_append, List.map_cons, List.cons_append, List.nodup_cons, List.mem_append, List.mem_map,
          List.nodup_append] at nd
        rcases List.mem_cons.1 hy with rfl | hy
        · exact nd.1 (.inl ⟨y, hyt, rfl⟩)
        · exact nd.2.2.2 y.1 ⟨y, hyt, rfl⟩ y.1 ⟨y, hy, rfl⟩ rfl
    refine ⟨?_, ?_, ?_, ?_⟩
    · -- no repetition
      rw [show ((seen E l l').filter fun x => edg (tag x.1)).map (·.1) =
        ((seen E l l').map (·.1)).filter (fun h => edg (tag h)) by rw [List.filter_map]; rfl]
      apply List.Nodup.filter
      simp only [seen, List.map_append, List.map_map]
      rw [List.nodup_append]
      have inj1 : ∀ d : Fin 3, ∀ L : List HE, (∀ x ∈ L, x ∈ l ∨ x ∈ l') → L.Nodup →
          (L.map fun x => ((x.1, x.2 + d) : HE)).Nodup := by
        intro d L hL hN
        apply hN.map_on
        intro x hx y hy e
        exact hcorner x y (hL x hx) (hL y hy) (Prod.mk.inj e).1
      refine ⟨inj1 1 l (fun x hx => .inl hx) hnd.of_map, inj1 2 l' (fun x hx => .inr hx) ?_, ?_⟩
      · rcases hopen with ⟨e, _⟩ | ⟨t, t', rfl, rfl, nd, _⟩
        · rw [e]; simp
        · have : (c :: t').Sublist (c :: t ++ t') := by
            rw [List.cons_append]
            exact List.Sublist.cons_cons _ (List.sublist_append_right _ _)
          exact (nd.of_map).sublist this
      · intro a hA b hB e
        simp only [List.mem_map, Function.comp] at hA hB
        obtain ⟨x, hx, rfl⟩ := hA
        obtain ⟨y, hy, rfl⟩ := hB
        have := hcorner x y (.inl hx) (.inr hy) (Prod.mk.inj e).1
        subst this
        exact (fin3 x.2).2.2.2.2.1 (Prod.mk.inj e).2
    · intro h hh
      rw [hin] at hh
      obtain ⟨he, ⟨x, hx, rfl⟩ | ⟨x, hx, rfl⟩⟩ := hh
      · obtain ⟨w1, w2⟩ := hw x (.inl hx)
        refine ⟨w1, .inr ?_, he⟩
        unfold Env.e2
        simp only
        rw [(fin3 x.2).2.1]; exact w2.symm
      · obtain ⟨w1, w2⟩ := hw x (.inr hx)
        refine ⟨w1, .inl ?_, he⟩
        unfold Env.e1
        simp only
        rw [(fin3 x.2).2.2.1]; exact w2.symm
    · intro h hh h' hadj hh'
      rw [hin] at hh hh'
      obtain ⟨_, ⟨x, hx, rfl⟩ | ⟨x, hx, rfl⟩⟩ := hh
      · obtain ⟨w1, w2⟩ := hw x (.inl hx)
        have hr : E.M.rot x = some (h'.1, h'.2 + 1) := by unfold Mesh.rot; rw [hadj]; rfl
        obtain ⟨r1, r2, r3, r4⟩ := rot_spec hv w1 hr
        obtain ⟨_, ⟨y, hy, rfl⟩ | ⟨y, hy, rfl⟩⟩ := hh'
        · have : ((y.1, y.2 + 1 + 1) : HE) = y := by
            apply hcorner (y.1, y.2 + 1 + 1) y _ (.inl hy) rfl
            rw [hmem]
            exact ((hmem x).1 (.inl hx)).tail ((fan_iff hv w1).2 (.inl (by unfold rotL; rw [if_pos w1]; exact hr)))
          have := congrArg Prod.snd this
          simp only at this
          obtain ⟨a1, a2, a3, a4, a5, a6, a7, a8⟩ := fin3 y.2
          rw [a1] at this; exact a7 this
        · apply sep x hx y hy
          rw [hr]
          simp only [(fin3 y.2).2.2.1]
      · obtain ⟨w1, w2⟩ := hw x (.inr hx)
        have hr : E.M.rotb x = some (h'.1, h'.2 + 2) := by unfold Mesh.rotb; rw [hadj]; rfl
        obtain ⟨r1, r2, r3, r4⟩ := rotb_spec hv w1 hr
        obtain ⟨_, ⟨y, hy, rfl⟩ | ⟨y, hy, rfl⟩⟩ := hh'
        · apply sep y hy x hx
          simp only [(fin3 y.2).2.1] at r3
          exact r3
        · have : ((y.1, y.2 + 2 + 2) : HE) = y := by
            apply hcorner (y.1, y.2 + 2 + 2) y _ (.inr hy) rfl
            rw [hmem]
            refine ((hmem x).1 (.inr hx)).tail ((fan_iff hv w1).2 (.inr ?_))
            rw [rotL_iff hv]; unfold rotbL; rw [if_pos w1]; exact hr
          have := congrArg Prod.snd this
          simp only at this
          obtain ⟨a1, a2, a3, a4, a5, a6, a7, a8⟩ := fin3 y.2
          rw [a4] at this; exact a6 this
    · intro h hl he hs
      obtain ⟨x, x1, x2, x3⟩ := end_corner he
      have hxl : E.M.live x.1 := x1 ▸ hl
      have hx : x ∈ l ∨ x ∈ l' := (hmem x).2 (h1 c x hc hxl hp x2)
      have twin : ∀ g, E.M.adj h = some g →
          ((∃ y ∈ l, g = (y.1, y.2 + 1)) ∨ ∃ y ∈ l', g = (y.1, y.2 + 2)) →
          h ∈ ((seen E l l').filter fun x => edg (tag x.1)).map (·.1) ∨ ∃ h', E.M.adj h = some h' ∧
            h' ∈ ((seen E l l').filter fun x => edg (tag x.1)).map (·.1) := by
        intro g hg hy
        exact .inr ⟨g, hg, (hin g).2 ⟨(hedg h g hl hg).symm.trans hs, hy⟩⟩
      have self : ((∃ y ∈ l, h = (y.1, y.2 + 1)) ∨ ∃ y ∈ l', h = (y.1, y.2 + 2)) →
          h ∈ ((seen E l l').filter fun x => edg (tag x.1)).map (·.1) ∨ ∃ h', E.M.adj h = some h' ∧
            h' ∈ ((seen E l l').filter fun x => edg (tag x.1)).map (·.1) := by
        intro hy; exact .inl ((hin h).2 ⟨hs, hy⟩)
      rcases hopen with ⟨rfl, hcl⟩ | ⟨t, t', rfl, rfl, nd, s1, s2, s3⟩
      · have hx : x ∈ l := by simpa using hx
        rcases x3 with rfl | rfl
        · exact self (.inl ⟨x, hx, rfl⟩)
        · obtain ⟨g, hg⟩ := Option.ne_none_iff_exists'.1 (hcl x hx (x.2 + 2) (fin3 x.2).2.2.2.2.2.2.1)
          have hr : E.M.rotb x = some (g.1, g.2 + 2) := by unfold Mesh.rotb; rw [hg]; rfl
          have hmem' : (g.1, g.2 + 2) ∈ l := by
            have := (hmem (g.1, g.2 + 2)).2 (((hmem x).1 (.inl hx)).tail ((fan_iff hv hxl).2 (.inr (by
              rw [rotL_iff hv]; unfold rotbL; rw [if_pos hxl]; exact hr))))
            simpa using this
          refine twin g hg (.inl ⟨_, hmem', ?_⟩)
          simp only [(fin3 g.2).2.2.1]
      · rcases x3 with rfl | rfl
        · by_cases hxl' : x ∈ c :: t
          · exact self (.inl ⟨x, hxl', rfl⟩)
          · have hxt : x ∈ t' := by
              rcases hx with hx | hx
              · exact absurd hx hxl'
              · rcases List.mem_cons.1 hx with rfl | hx
                · exact absurd (by simp) hxl'
                · exact hx
            obtain ⟨y, hy, hr⟩ := s3 x hxt
            obtain ⟨w1, w2⟩ := hw y (.inr hy)
            obtain ⟨r1, r2, r3, r4⟩ := rotb_spec hv w1 hr
            have := (hv.link (y.1, y.2 + 2) _ w1 r4).2.1
            exact twin _ this (.inr ⟨y, hy, rfl⟩)
        · by_cases hxl' : x ∈ c :: t'
          · exact self (.inr ⟨x, hxl', rfl⟩)
          · have hxt : x ∈ t := by
              rcases hx with hx | hx
              · rcases List.mem_cons.1 hx with rfl | hx
                · exact absurd (by simp) hxl'
                · exact hx
              · exact absurd hx hxl'
            obtain ⟨y, hy, hr⟩ := s2 x hxt
            obtain ⟨w1, w2⟩ := hw y (.inl hy)
            obtain ⟨r1, r2, r3, r4⟩ := rot_spec hv w1 hr
            have := (hv.link (y.1, y.2 + 1) _ w1 r4).2.1
            exact twin _ this (.inl ⟨y, hy, rfl⟩)
  · intro z hz
    rw [List.mem_filter] at hz
    rcases List.mem_append.1 hz.1 with hm | hm <;> obtain ⟨x, hx, rfl⟩ := List.mem_map.1 hm
    · right
      unfold Env.e1 Env.e2
      simp only
      obtain ⟨a1, a2, _⟩ := fin3 x.2
      rw [a1, a2]
      exact ⟨(hw x (.inl hx)).2, rfl⟩
    · left
      unfold Env.e1 Env.e2
      simp only
      obtain ⟨a1, a2, a3, a4, _⟩ := fin3 x.2
      rw [a3, a4]
      exact ⟨(hw x (.inr hx)).2, rfl⟩

end

end Mmg.Ridge
