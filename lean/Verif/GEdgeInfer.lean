/- C90: `MMG5_hGeom` without edges of the user, and cases. -/
import Verif.GEdgeGeom

namespace Mmg.GEdge

open Mmg.Hash (Outcome Used ckey)
open Mmg.Orient (has mgREF mgGEO mgREQ mgNOM mgNOSURF mgPARBDY mgPARBDYBDY has_or has_zero has_nosurf)

variable {E : Env}

/-- Reference of a side: in the mode for level sets the non-manifold sides get a negative one. -/
def sref (E : Env) (edg0 : Nat → Fin 3 → Int) (tag0 : Nat → Fin 3 → BitVec 16) (x : Nat × Fin 3) : Int :=
  if has (tag0 x.1 x.2) mgNOM = true ∧ E.iso = true then
    (if edg0 x.1 x.2 = 0 then E.isoref else -(edg0 x.1 x.2).natAbs) else edg0 x.1 x.2

/-- A side that is stored. -/
def sto (E : Env) (edg0 : Nat → Fin 3 → Int) (tag0 : Nat → Fin 3 → BitVec 16) (x : Nat × Fin 3) : Bool :=
  !skip (tag0 x.1 x.2) && stored E ⟨hNew 0 0, edg0, tag0⟩ x

/-- The table after the sides `P`. -/
def mapB (E : Env) (edg0 : Nat → Fin 3 → Int) (tag0 : Nat → Fin 3 → BitVec 16) (P : List (Nat × Fin 3)) : Map :=
  fun e => (P.find? fun y => sto E edg0 tag0 y && decide (key E y = e)).map fun y => (sref E edg0 tag0 y, tag0 y.1 y.2)

structure InvB (E : Env) (edg0 : Nat → Fin 3 → Int) (tag0 : Nat → Fin 3 → BitVec 16) (P : List (Nat × Fin 3)) (s : St) : Prop where
  g : GInv s.h (mapB E edg0 tag0 P)
  tag : s.tag = tag0
  edg : ∀ y : Nat × Fin 3, s.edg y.1 y.2 = if y ∈ P ∧ skip (tag0 y.1 y.2) = false then sref E edg0 tag0 y else edg0 y.1 y.2

variable {edg0 : Nat → Fin 3 → Int} {tag0 : Nat → Fin 3 → BitVec 16} {P : List (Nat × Fin 3)} {s : St}

theorem mapB_skip {x} (h : sto E edg0 tag0 x = false) : mapB E edg0 tag0 (P ++ [x]) = mapB E edg0 tag0 P := by
  funext e
  unfold mapB
  rw [List.find?_append]
  simp [h]

theorem mapB_add {x} (h : sto E edg0 tag0 x = true) :
    mapB E edg0 tag0 (P ++ [x]) = addM (mapB E edg0 tag0 P) (key E x) (sref E edg0 tag0 x, tag0 x.1 x.2) := by
  funext e
  unfold mapB addM
  rw [List.find?_append]
  by_cases q : e = key E x
  · subst q
    simp only [if_true, List.find?_cons, h, decide_true, Bool.and_self]
    cases P.find? fun y => sto E edg0 tag0 y && decide (key E y = key E x) <;> rfl
  · simp only [if_neg q, List.find?_cons, h, Ne.symm q, decide_false, Bool.and_false, List.find?_nil, Option.or_none]

theorem InvB.step (I : InvB E edg0 tag0 P s) {g : Option Nat} (hg : ∀ n, g = some n → 1 ≤ n) {x : Nat × Fin 3}
    (hx : ∀ i, E.v x.1 i ≠ 0) (hP : x ∉ P) :
    (sideB E g s x = .fail ∧ g = none) ∨ ∃ s', sideB E g s x = .ok s' ∧ InvB E edg0 tag0 (P ++ [x]) s' := by
  have he : s.edg x.1 x.2 = edg0 x.1 x.2 := by rw [I.edg, if_neg fun q => hP q.1]
  have hst : stored E s x = stored E ⟨hNew 0 0, edg0, tag0⟩ x := by
    unfold stored; simp only; rw [he, I.tag]
  unfold sideB
  simp only
  rw [I.tag, he, hst]
  by_cases ns : skip (tag0 x.1 x.2) = true
  · right
    rw [if_pos ns]
    refine ⟨s, rfl, ?_, I.tag, ?_⟩
    · rw [mapB_skip (by unfold sto; rw [ns]; rfl)]; exact I.g
    · intro y
      rw [I.edg]
      by_cases q : y = x
      · subst q
        rw [if_neg (fun c => hP c.1), if_neg]
        rintro ⟨_, c⟩
        rw [ns] at c; cases c
      · simp [q]
  · have ns' : skip (tag0 x.1 x.2) = false := by simpa using ns
    rw [if_neg ns]
    by_cases st : stored E ⟨hNew 0 0, edg0, tag0⟩ x = true
    · rw [if_pos st]
      have hs : sto E edg0 tag0 x = true := by unfold sto; rw [ns', st]; rfl
      have er : (if (has (tag0 x.1 x.2) mgNOM && E.iso) = true then
          (if edg0 x.1 x.2 ≠ 0 then -((edg0 x.1 x.2).natAbs : Int) else E.isoref) else edg0 x.1 x.2) = sref E edg0 tag0 x := by
        unfold sref
        simp only [Bool.and_eq_true, ne_eq, ite_not]
      rw [er]
      rcases I.g.hEdge_spec (hx (x.2 + 1)) (hx (x.2 + 2)) (sref E edg0 tag0 x) (tag0 x.1 x.2) hg with ⟨h', e, J⟩ | ⟨e, q⟩
      · right
        rw [e]
        refine ⟨_, rfl, ?_, rfl, ?_⟩
        · rw [mapB_add hs]; exact J
        · intro y
          by_cases q : y = x
          · subst q
            rw [if_pos ⟨by simp, ns'⟩]
            simp only
            rw [set2_self]
          · simp only
            rw [set2_ne _ _ q, I.edg]
            simp [q]
      · left
        rw [e]; exact ⟨rfl, q⟩
    · right
      rw [if_neg st]
      have hs : sto E edg0 tag0 x = false := by
        unfold sto; rw [show stored E ⟨hNew 0 0, edg0, tag0⟩ x = false by simpa using st]; simp
      refine ⟨s, rfl, ?_, I.tag, ?_⟩
      · rw [mapB_skip hs]; exact I.g
      · intro y
        rw [I.edg]
        by_cases q : y = x
        · subst q
          rw [if_neg fun c => hP c.1, if_pos ⟨by simp, ns'⟩]
          unfold sref
          rw [if_neg]
          rintro ⟨c, _⟩
          apply st
          unfold stored
          simp only
          rw [c]; simp
        · simp [q]

theorem InvB.run (hpos : ∀ k i, 1 ≤ k → k ≤ E.nt → E.v k i ≠ 0) {g : Nat → Option Nat} (hg : ∀ k n, g k = some n → 1 ≤ n) :
    ∀ (L P : List (Nat × Fin 3)) (j : Nat) (s : St), (P ++ L).Nodup → (∀ x ∈ L, 1 ≤ x.1 ∧ x.1 ≤ E.nt) →
      InvB E edg0 tag0 P s →
      (overSides (sideB E) g L j s = .fail ∧ ∃ i, g i = none) ∨
      ∃ s', overSides (sideB E) g L j s = .ok s' ∧ InvB E edg0 tag0 (P ++ L) s' := by
  intro L
  induction L with
  | nil =>
    intro P j s _ _ I
    right
    exact ⟨s, rfl, by simpa using I⟩
  | cons x L ih =>
    intro P j s hn hL I
    have hx := hL x (by simp)
    have hP : x ∉ P := fun q => (List.nodup_append.1 hn).2.2 x q x (by simp) rfl
    unfold overSides
    rcases I.step (hg j) (fun i => hpos x.1 i hx.1 hx.2) hP with ⟨e, q⟩ | ⟨s', e, J⟩
    · left; rw [e]; exact ⟨rfl, j, q⟩
    · rw [e]
      have h2 : P ++ x :: L = (P ++ [x]) ++ L := by simp
      rw [h2] at hn ⊢
      exact ih (P ++ [x]) (j + 1) s' hn (fun y hy => hL y (by simp [hy])) J

theorem runC {h : HGeom} {m : Map} (I : GInv h m) {g : Nat → Option Nat} :
    ∀ (L : List (Nat × Fin 3)) (j : Nat) (s : St), L.Nodup → s.h = h →
      ∃ s', overSides (sideC E) g L j s = .ok s' ∧ s'.h = h ∧
        ∀ y : Nat × Fin 3, (y ∈ L → skip (s.tag y.1 y.2) = false →
            s'.edg y.1 y.2 = ((m (key E y)).getD (0, 0)).1 ∧
            s'.tag y.1 y.2 = s.tag y.1 y.2 ||| ((m (key E y)).getD (0, 0)).2) ∧
          ((y ∉ L ∨ skip (s.tag y.1 y.2) = true) → s'.edg y.1 y.2 = s.edg y.1 y.2 ∧ s'.tag y.1 y.2 = s.tag y.1 y.2) := by
  intro L
  induction L with
  | nil => intro j s _ hh; exact ⟨s, rfl, hh, fun y => ⟨fun q => by simp at q, fun _ => ⟨rfl, rfl⟩⟩⟩
  | cons x L ih =>
    intro j s hn hh
    rw [List.nodup_cons] at hn
    unfold overSides
    by_cases ns : skip (s.tag x.1 x.2) = true
    · have e : sideC E (g j) s x = .ok s := by unfold sideC; simp only; rw [if_pos ns]
      rw [e]
      obtain ⟨s', e', h1, h2⟩ := ih (j + 1) s hn.2 hh
      refine ⟨s', e', h1, fun y => ⟨fun hy hs => ?_, fun hy => ?_⟩⟩
      · rcases List.mem_cons.1 hy with rfl | hy
        · rw [ns] at hs; cases hs
        · exact (h2 y).1 hy hs
      · apply (h2 y).2
        rcases hy with hy | hy
        · exact Or.inl fun q => hy (by simp [q])
        · exact Or.inr hy
    · have ns' : skip (s.tag x.1 x.2) = false := by simpa using ns
      have hG := I.hGet_spec (E.v x.1 (x.2 + 1)) (E.v x.1 (x.2 + 2))
      rw [← hh] at hG
      have e : sideC E (g j) s x = .ok { s with
          edg := set2 s.edg x ((m (key E x)).getD (0, 0)).1
          tag := set2 s.tag x (s.tag x.1 x.2 ||| ((m (key E x)).getD (0, 0)).2) } := by
        unfold sideC; simp only; rw [if_neg ns, hG]; rfl
      rw [e]
      simp only
      obtain ⟨s', e', h1, h2⟩ := ih (j + 1) { s with
          edg := set2 s.edg x ((m (key E x)).getD (0, 0)).1
          tag := set2 s.tag x (s.tag x.1 x.2 ||| ((m (key E x)).getD (0, 0)).2) } hn.2 hh
      simp only at h2
      refine ⟨s', e', h1, fun y => ?_⟩
      by_cases q : y = x
      · subst q
        refine ⟨fun _ _ => ?_, fun hy => ?_⟩
        · have := (h2 y).2 (Or.inl hn.1)
          rw [this.1, this.2, set2_self, set2_self]
          exact ⟨rfl, rfl⟩
        · rcases hy with hy | hy
          · exact absurd (by simp) hy
          · rw [ns'] at hy; cases hy
      · have := h2 y
        rw [set2_ne _ _ q, set2_ne _ _ q] at this
        refine ⟨fun hy => this.1 ((List.mem_cons.1 hy).resolve_left q), fun hy => this.2 ?_⟩
        rcases hy with hy | hy
        · exact Or.inl fun c => hy (by simp [c])
        · exact Or.inr hy

/-- The sides of one edge say the same, as after the analysis, and the neighbour of a side that has one and is manifold has a side
with the same ends. -/
structure Agree (E : Env) (edg : Nat → Fin 3 → Int) (tag : Nat → Fin 3 → BitVec 16) : Prop where
  same : ∀ x y, Side E tag x → Side E tag y → key E x = key E y → edg x.1 x.2 = edg y.1 y.2 ∧ tag x.1 x.2 = tag y.1 y.2
  nb : ∀ x, Side E tag x → E.adj x.1 x.2 ≠ 0 → has (tag x.1 x.2) mgNOM = false →
    E.adj x.1 x.2 ≠ x.1 ∧ ∃ y, Side E tag y ∧ y.1 = E.adj x.1 x.2 ∧ key E y = key E x ∧ E.adj y.1 y.2 = x.1

/-- **C90.** Without edges of the user: when the two sides of an edge agree, no side changes (but for the references of non-manifold
sides in the mode for level sets), and the table gives for every edge of a triangle the reference and the tag of its sides. -/
theorem C90_infer (hpos : ∀ k i, 1 ≤ k → k ≤ E.nt → E.v k i ≠ 0) {g : Nat → Option Nat} (hg : ∀ k n, g k = some n → 1 ≤ n)
    {edg : Nat → Fin 3 → Int} {tag : Nat → Fin 3 → BitVec 16} (A : Agree E edg tag) :
    (hGeomB E g edg tag = .fail ∧ ∃ i, g i = none) ∨
    ∃ s, hGeomB E g edg tag = .ok s ∧ (∀ x, ¬ Side E tag x → s.edg x.1 x.2 = edg x.1 x.2 ∧ s.tag x.1 x.2 = tag x.1 x.2) ∧
      ∀ x, Side E tag x → s.edg x.1 x.2 = sref E edg tag x ∧ s.tag x.1 x.2 = tag x.1 x.2 ∧
        hGet s.h (E.v x.1 (x.2 + 1)) (E.v x.1 (x.2 + 2)) = .ok (sref E edg tag x, tag x.1 x.2) := by
  unfold hGeomB
  simp only
  generalize List.countP _ (sides E) = na
  have hle : na ≤ 3 * namax na := by
    unfold namax
    rw [Hash.maxA]; split <;> omega
  have I0 : InvB E edg tag [] ⟨hNew na (3 * namax na), edg, tag⟩ :=
    ⟨hNew_inv na _ hle, rfl, fun y => by simp⟩
  rcases I0.run hpos hg (sides E) [] 1 _ (by simpa using nodup_sides E) (fun x hx => mem_sides.1 hx) with ⟨e, q⟩ | ⟨s1, e, J⟩
  · left; rw [e]; exact ⟨rfl, q⟩
  · right
    rw [List.nil_append] at J
    rw [e]
    obtain ⟨s, e2, h1, h2⟩ := runC (E := E) (g := g) J.g (sides E) 1 s1 (nodup_sides E) rfl
    rw [J.tag] at h2
    have key_val : ∀ x, Side E tag x → (mapB E edg tag (sides E) (key E x)).getD (0, 0) = (sref E edg tag x, tag x.1 x.2) := by
      intro x hx
      have sref_same : ∀ y, Side E tag y → key E y = key E x → (sref E edg tag y, tag y.1 y.2) = (sref E edg tag x, tag x.1 x.2) := by
        intro y hy hk
        obtain ⟨a1, a2⟩ := A.same y x hy hx hk
        unfold sref
        rw [a1, a2]
      unfold mapB
      cases hf : (sides E).find? fun y => sto E edg tag y && decide (key E y = key E x) with
      | some y =>
        have hm := mem_sides.1 (List.mem_of_find?_eq_some hf)
        have hp := List.find?_some hf
        rw [Bool.and_eq_true, decide_eq_true_eq] at hp
        have hs := hp.1
        unfold sto at hs
        rw [Bool.and_eq_true, Bool.not_eq_true'] at hs
        simp only [Option.map_some, Option.getD_some]
        exact sref_same y (side_iff.2 ⟨hm.1, hm.2, hs.1⟩) hp.2
      | none =>
        rw [List.find?_eq_none] at hf
        have nost : ∀ y, Side E tag y → key E y = key E x → stored E ⟨hNew 0 0, edg, tag⟩ y = false := by
          intro y hy hk
          by_contra c
          apply hf y (mem_sides.2 ⟨hy.1, hy.2.1⟩)
          rw [Bool.and_eq_true, decide_eq_true_eq]
          refine ⟨?_, hk⟩
          unfold sto
          rw [(side_iff.1 hy).2.2]
          simpa using c
        have n1 := nost x hx rfl
        unfold stored at n1
        simp only [Bool.or_eq_false_iff, beq_eq_false_iff_ne, Bool.and_eq_false_iff, decide_eq_false_iff_not, bne_eq_false_iff_eq] at n1
        obtain ⟨⟨c1, c2⟩, c3⟩ := n1
        obtain ⟨hne, y, hy, y1, y2, y3⟩ := A.nb x hx c1 c2
        have n2 := nost y hy y2
        unfold stored at n2
        simp only [Bool.or_eq_false_iff, beq_eq_false_iff_ne, Bool.and_eq_false_iff, decide_eq_false_iff_not, bne_eq_false_iff_eq] at n2
        obtain ⟨_, d3⟩ := n2
        obtain ⟨a1, a2⟩ := A.same y x hy hx y2
        have z : edg x.1 x.2 = 0 ∧ tag x.1 x.2 = 0 := by
          rcases c3 with c3 | c3
          · rcases d3 with d3 | d3
            · rw [y3, y1] at d3
              omega
            · rw [a1, a2] at d3; exact d3
          · exact c3
        unfold sref
        rw [z.1, z.2]
        simp [show has (0#16) mgNOM = false from by decide]
    refine ⟨s, e2, ?_, ?_⟩
    · intro x hx
      have hc : x ∉ sides E ∨ skip (tag x.1 x.2) = true := by
        by_cases q : x ∈ sides E
        · right
          by_contra c
          have := mem_sides.1 q
          exact hx (side_iff.2 ⟨this.1, this.2, by simpa using c⟩)
        · exact Or.inl q
      have h3 := (h2 x).2 hc
      rw [h3.1, h3.2, J.edg, if_neg]
      · exact ⟨rfl, rfl⟩
      · rintro ⟨q1, q2⟩
        rcases hc with c | c
        · exact c q1
        · rw [q2] at c; cases c
    · intro x hx
      have h3 := (h2 x).1 (mem_sides.2 ⟨hx.1, hx.2.1⟩) (side_iff.1 hx).2.2
      rw [h3.1, h3.2, key_val x hx]
      refine ⟨rfl, ?_, ?_⟩
      · simp
      · have := J.g.hGet_spec (E.v x.1 (x.2 + 1)) (E.v x.1 (x.2 + 2))
        rw [h1, this]
        exact congrArg Outcome.ok (key_val x hx)

/-! ### Cases -/

/-- Two triangles 1 2 3 and 3 2 4. -/
def two : Env where
  nt := 2
  v := fun k => if k = 1 then ![1, 2, 3] else ![3, 2, 4]
  adj := fun k i => if k = 1 ∧ i = 0 then 2 else if k = 2 ∧ i = 2 then 1 else 0
  nosurf := false
  iso := false
  isoref := 10

theorem two_pos : ∀ k i, 1 ≤ k → k ≤ two.nt → two.v k i ≠ 0 := by
  intro k i _ _
  unfold two
  simp only
  split <;> fin_cases i <;> decide

/-- The user says that 3-2 is required with reference 5: both triangles know. -/
example : ∃ s, hGeomA two [⟨3, 2, 5, 4⟩] (fun _ => none) (fun _ => none) (fun _ _ => 1) (fun _ _ => 2) = .ok s ∧
    s.edg 1 0 = 5 ∧ s.edg 2 2 = 5 ∧ s.edg 1 1 = 0 ∧ s.tag 1 0 = 6 ∧ s.tag 2 2 = 6 ∧ s.tag 1 1 = 2 := by
  have h : ∀ s, value? (hGeomA two [⟨3, 2, 5, 4⟩] (fun _ => none) (fun _ => none) (fun _ _ => 1) (fun _ _ => 2)) = some s →
      hGeomA two [⟨3, 2, 5, 4⟩] (fun _ => none) (fun _ => none) (fun _ _ => 1) (fun _ _ => 2) = .ok s := by
    intro s
    cases hGeomA two [⟨3, 2, 5, 4⟩] (fun _ => none) (fun _ => none) (fun _ _ => 1) (fun _ _ => 2) with
    | ok x => intro e; cases e; rfl
    | ub => intro e; cases e
    | fail => intro e; cases e
  have hs : (value? (hGeomA two [⟨3, 2, 5, 4⟩] (fun _ => none) (fun _ => none) (fun _ _ => 1) (fun _ _ => 2))).map
      (fun s => (s.edg 1 0, s.edg 2 2, s.edg 1 1, s.tag 1 0, s.tag 2 2, s.tag 1 1)) = some (5, 5, 0, 6, 6, 2) := by
    decide +kernel
  rw [Option.map_eq_some_iff] at hs
  obtain ⟨s, e, q⟩ := hs
  simp only [Prod.mk.injEq] at q
  exact ⟨s, h s e, q⟩

/-- The hypotheses of `C90_infer`: 3-2 is a ridge on both sides, the others are open. -/
example : Agree two (fun _ _ => 0) (fun k i => if (k = 1 ∧ i = 0) ∨ (k = 2 ∧ i = 2) then 2 else 0) := by
  have hs : ∀ x, Side two (fun k i => if (k = 1 ∧ i = 0) ∨ (k = 2 ∧ i = 2) then 2 else 0) x → x.1 = 1 ∨ x.1 = 2 := by
    intro x hx
    have h1 := hx.1
    have h2 : x.1 ≤ 2 := hx.2.1
    omega
  constructor
  · rintro ⟨k, i⟩ ⟨l, j⟩ hx hy e
    refine ⟨rfl, ?_⟩
    rcases hs _ hx with q | q <;> rcases hs _ hy with q' | q' <;> simp only at q q' <;> subst q <;> subst q' <;>
      fin_cases i <;> fin_cases j <;> first | rfl | exact absurd e (by decide)
  · rintro ⟨k, i⟩ hx ha hn
    rcases hs _ hx with q | q <;> simp only at q <;> subst q <;> fin_cases i <;> first | exact absurd rfl ha | skip
    · exact ⟨by decide, (2, 2), ⟨by decide, by decide, by decide⟩, rfl, by decide, rfl⟩
    · exact ⟨by decide, (1, 0), ⟨by decide, by decide, by decide⟩, rfl, by decide, rfl⟩

/-- **C90, observation.** Of two edges of the user with the same ends the second is ignored, with its tags: here it is required, and
no side is. -/
theorem C90_duplicate_observed : (value? (hGeomA two [⟨3, 2, 5, 0⟩, ⟨2, 3, 6, mgREQ⟩] (fun _ => none) (fun _ => none)
    (fun _ _ => 0) (fun _ _ => 0))).map (fun s => (s.edg 1 0, s.edg 2 2, s.tag 1 0, s.tag 2 2)) = some (5, 5, 0, 0) := by
  decide +kernel

/-- **C90, observation.** A tag that only the second triangle of an edge has reaches the table but not the first triangle. -/
theorem C90_one_sided_observed : (value? (hGeomA two [⟨3, 2, 5, 0⟩] (fun _ => none) (fun _ => none)
    (fun _ _ => 0) (fun k i => if k = 2 ∧ i = 2 then mgREQ else 0))).map
      (fun s => (s.tag 1 0, s.tag 2 2, value? (hGet s.h 2 3))) = some (0, mgREQ, some (5, mgREQ)) := by
  decide +kernel

end Mmg.GEdge
