/-
  C58: the 2-3 swap keeps a valid mesh and its boundary data.
-/
import Verif.Swap23Adj

namespace Mmg.Swap23

open Mmg.Split3

/-! ### Specification -/

/-- The two ends of edge `e` of a tetrahedron. -/
def edgePair (v : List Nat) (e : Nat) : Multiset Nat :=
  {v.getD (iare.getD e (0, 0)).1 0, v.getD (iare.getD e (0, 0)).2 0}

/-- Vertices `w` and record `x` of a new tetrahedron: every face is a face of the first tetrahedron
with its reference and tag, or a face of the second one with its reference and tag, or a new face
through the new edge `p q`, without data. -/
def FacesFrom (v0 v1 : List Nat) (j0 j1 : Nat) (x0 x1 : XT) (w : List Nat) (x : XT) : Prop :=
  ∀ i < 4,
    (∃ j < 4, j ≠ j0 ∧ faceTri 0 w i = faceTri 0 v0 j ∧ x.ref i = x0.ref j ∧ x.ftag i = x0.ftag j ∧
      x.ori i = x0.ori j) ∨
    (∃ j < 4, j ≠ j1 ∧ faceTri 0 w i = faceTri 0 v1 j ∧ x.ref i = x1.ref j ∧ x.ftag i = x1.ftag j ∧
      x.ori i = (x1.ori j || x0.ori j0)) ∨
    (v0.getD j0 0 ∈ faceTri 0 w i ∧ v1.getD j1 0 ∈ faceTri 0 w i ∧ x.ref i = 0 ∧ x.ftag i = 0 ∧
      x.ori i = true)

/-- Every edge of a new tetrahedron is an edge of the first tetrahedron at its vertex `p` with the
tag and reference of its record, or an edge of the second one with the tag and reference collected
for it, or the new edge `p q`, without tag and reference. -/
def EdgesFrom (v0 v1 : List Nat) (j0 j1 : Nat) (x0 : XT) (T : Nat → Nat) (R : Nat → Int)
    (w : List Nat) (x : XT) : Prop :=
  ∀ e < 6,
    (∃ e' < 6, v0.getD j0 0 ∈ edgePair v0 e' ∧ edgePair w e = edgePair v0 e' ∧
      x.tag e = x0.tag e' ∧ x.edg e = x0.edg e') ∨
    (∃ e' < 6, edgePair w e = edgePair v1 e' ∧ x.tag e = T e' ∧ x.edg e = R e') ∨
    (edgePair w e = {v0.getD j0 0, v1.getD j1 0} ∧ x.tag e = 0 ∧ x.edg e = 0)

/-- Slots of the records: within the table, and not shared. -/
structure SlotsOK (s : State) (used : Nat → Prop) : Prop where
  le : ∀ k, used k → s.xt k ≤ s.nxt
  inj : ∀ k k', used k → used k' → s.xt k = s.xt k' → s.xt k ≠ 0 → k = k'

/-- A face carries boundary data. -/
def XT.bdy (x : XT) (i : Nat) : Prop := x.ref i ≠ 0 ∨ x.ftag i ≠ 0

/-- Situation of a swap: a valid mesh, a tetrahedron `k` and its neighbour `k1` through the face
`j0`, that see their common face with opposite orientations and have no other common vertex, and a
free number `iel`. -/
structure Ready (s : State) (used : Nat → Prop) (k j0 k1 j1 iel : Nat) : Prop where
  adj : AdjOK s.A s.V used
  lt0 : j0 < 4
  lt1 : j1 < 4
  uk : used k
  lk : link s.A k j0 = 4 * k1 + j1
  pos1 : 1 ≤ k1
  pos : 1 ≤ iel
  new : ¬ used iel
  len0 : (s.V k).length = 4
  len1 : (s.V k1).length = 4
  nd : (s.V k).Nodup
  facing : Facing (s.V k) (s.V k1) j0 j1
  p : (s.V k).getD j0 0 ∉ s.V k1
  q : (s.V k1).getD j1 0 ∉ s.V k

/-! ### Lemmas -/

theorem Ready.pair {s : State} {used : Nat → Prop} {k j0 k1 j1 iel c : Nat}
    (h : Ready s used k j0 k1 j1 iel) (hc : conf1 (s.V k) (s.V k1) j0 j1 = some c) :
    c < 12 ∧ tau1 c 0 = j1 ∧ Pair s.A s.V used (tau0 j0) (tau1 c) k k1 iel := by
  obtain ⟨c', hc', hlt, h0, hr⟩ := conf1_spec h.lt0 h.lt1 h.len0 h.nd h.facing
  rw [hc] at hc'
  obtain rfl := Option.some.inj hc'
  refine ⟨hlt, h0, ⟨h.adj, perm_tau0 h.lt0, perm_tau1 hlt, h.uk, ?_, h.pos, h.new, ?_, h.len0, h.len1,
    ?_, ?_, hr⟩⟩
  · have h1 := h.lt1
    have h2 := h.pos1
    have := (h.adj.ok k h.uk j0 h.lt0 (by rw [h.lk]; omega)).1
    rwa [h.lk, show (4 * k1 + j1) / 4 = k1 by omega] at this
  · rw [tau0_zero h.lt0, h0, h.lk]
  · rw [tau0_zero h.lt0]; exact h.p
  · rw [h0]; exact h.q

structure EdPerm (t e : Nat → Nat) : Prop where
  lt : ∀ a < 6, e a < 6
  inj : ∀ a < 6, ∀ b < 6, e a = e b → a = b
  surj : ∀ a < 6, ∃ b < 6, a = e b
  ends : ∀ a < 6, ((iare.getD (e a) (0, 0)).1 = t (iare.getD a (0, 0)).1 ∧
      (iare.getD (e a) (0, 0)).2 = t (iare.getD a (0, 0)).2) ∨
    ((iare.getD (e a) (0, 0)).1 = t (iare.getD a (0, 0)).2 ∧
      (iare.getD (e a) (0, 0)).2 = t (iare.getD a (0, 0)).1)

theorem ed_tau0 {j0 : Nat} (h : j0 < 4) : EdPerm (tau0 j0) (ed0 j0) := by
  interval_cases j0 <;> exact ⟨by decide, by decide, by decide, by decide⟩

theorem ed_tau1 {c : Nat} (h : c < 12) : EdPerm (tau1 c) (ed1 c) := by
  interval_cases c <;> exact ⟨by decide, by decide, by decide, by decide⟩

theorem EdPerm.pair {t e : Nat → Nat} (h : EdPerm t e) {a : Nat} (ha : a < 6) (v : List Nat) :
    edgePair v (e a) = {v.getD (t (iare.getD a (0, 0)).1) 0, v.getD (t (iare.getD a (0, 0)).2) 0} := by
  unfold edgePair
  rcases h.ends a ha with ⟨h1, h2⟩ | ⟨h1, h2⟩
  · rw [h1, h2]
  · rw [h1, h2, Multiset.pair_comm]

theorem upd_e {α : Type} {t e : Nat → Nat} (h : EdPerm t e) (f : Nat → α) (x : α) {a b : Nat}
    (ha : a < 6) (hb : b < 6) : upd f (e b) x (e a) = if a = b then x else f (e a) := by
  unfold upd
  by_cases hab : a = b
  · subst hab; simp
  · rw [if_neg hab, if_neg (fun he => hab (h.inj a ha b hb he))]

theorem upd_t {α : Type} {t : Nat → Nat} (h : Perm4 t) (f : Nat → α) (x : α) {a b : Nat}
    (ha : a < 4) (hb : b < 4) : upd f (t b) x (t a) = if a = b then x else f (t a) := by
  unfold upd
  by_cases hab : a = b
  · subst hab; simp
  · rw [if_neg hab, if_neg (fun he => hab (h.inj a ha b hb he))]

theorem orSet_t {t : Nat → Nat} (h : Perm4 t) (f : Nat → Bool) (x : Bool) {a b : Nat}
    (ha : a < 4) (hb : b < 4) :
    orSet f (t b) x (t a) = if a = b then (x || f (t a)) else f (t a) := by
  unfold orSet
  cases x
  · simp
  · rw [if_pos rfl, upd_t h _ _ ha hb]; simp

/-- Vertices of the three new tetrahedra. -/
def newVerts (t : Nat → Nat) (v0 : List Nat) (q m : Nat) : List Nat := v0.set (t (m + 1)) q

theorem faces_from {v0 v1 : List Nat} {t u e0 : Nat → Nat} (ht : Perm4 t) (hu : Perm4 u)
    (h0 : v0.length = 4) (h1 : v1.length = 4) (hr : Reads v0 v1 t u) (x0 x1 : XT)
    (tag : Nat → Nat) (ref : Nat → Int) {m : Nat} (hm : m < 3) :
    FacesFrom v0 v1 (t 0) (u 0) x0 x1 (newVerts t v0 (v1.getD (u 0) 0) m)
      (newRec t u e0 x0 x1 tag ref m) := by
  intro i hi
  obtain ⟨j, hj, rfl⟩ := ht.surj i hi
  obtain ⟨f1, f2, f3⟩ := face_replaced h0 h1 ht hu hr
  have l := ht.lt
  have d : ∀ i < 4, ∀ j < 4, i ≠ j → t i ≠ t j := fun i hi j hj hij e => hij (ht.inj i hi j hj e)
  have d' : ∀ i < 4, ∀ j < 4, i ≠ j → u i ≠ u j := fun i hi j hj hij e => hij (hu.inj i hi j hj e)
  by_cases hj0 : j = 0
  · -- the face of the neighbour
    subst hj0
    right; left
    interval_cases m
    · refine ⟨u 1, hu.lt 1 (by decide), d' 1 (by decide) 0 (by decide) (by decide), f1, ?_, ?_, ?_⟩ <;>
        simp only [newRec, upd_t ht _ _ hj (by decide : 2 < 4), upd_t ht _ _ hj (by decide : 3 < 4),
          upd_t ht _ _ hj (by decide : 0 < 4), orSet_t ht _ _ hj (by decide : 0 < 4),
          Nat.reduceEqDiff, if_false, if_true, OfNat.zero_ne_ofNat]
    · refine ⟨u 3, hu.lt 3 (by decide), d' 3 (by decide) 0 (by decide) (by decide), f2, ?_, ?_, ?_⟩ <;>
        simp only [newRec, upd_t ht _ _ hj (by decide : 1 < 4), upd_t ht _ _ hj (by decide : 3 < 4),
          upd_t ht _ _ hj (by decide : 0 < 4), orSet_t ht _ _ hj (by decide : 0 < 4),
          Nat.reduceEqDiff, if_false, if_true, OfNat.zero_ne_ofNat, zero_ne_one]
    · refine ⟨u 2, hu.lt 2 (by decide), d' 2 (by decide) 0 (by decide) (by decide), f3, ?_, ?_, ?_⟩ <;>
        simp only [newRec, upd_t ht _ _ hj (by decide : 1 < 4), upd_t ht _ _ hj (by decide : 2 < 4),
          upd_t ht _ _ hj (by decide : 0 < 4), orSet_t ht _ _ hj (by decide : 0 < 4),
          Nat.reduceEqDiff, if_false, if_true, OfNat.zero_ne_ofNat, zero_ne_one]
  · by_cases hjm : j = m + 1
    · -- the face of the first tetrahedron
      left
      refine ⟨t j, l j hj, d j hj 0 (by decide) hj0, ?_, ?_⟩
      · rw [newVerts, ← hjm, faceTri_set_self h0 (l j hj)]
      · subst hjm
        interval_cases m <;>
          simp [newRec, upd_t ht, orSet_t ht]
    · right; right
      have hp : (newVerts t v0 (v1.getD (u 0) 0) m).getD (t 0) 0 = v0.getD (t 0) 0 :=
        getD_set_ne (d (m + 1) (by omega) 0 (by decide) (by omega)) _
      have hq : (newVerts t v0 (v1.getD (u 0) 0) m).getD (t (m + 1)) 0 = v1.getD (u 0) 0 :=
        getD_set_eq h0 (l (m + 1) (by omega)) _
      have hlen : (newVerts t v0 (v1.getD (u 0) 0) m).length = 4 := by
        simpa [newVerts] using h0
      refine ⟨?_, ?_, ?_⟩
      · have := mem_face hlen (l 0 (by decide)) (l j hj) (d 0 (by decide) j hj (Ne.symm hj0))
        rwa [hp] at this
      · have := mem_face hlen (l (m + 1) (by omega)) (l j hj)
          (d (m + 1) (by omega) j hj (Ne.symm hjm))
        rwa [hq] at this
      · interval_cases m <;> interval_cases j <;> first | omega | skip
        all_goals simp [newRec, upd_t ht]

theorem edges_from {v0 v1 : List Nat} {t u e0 e1 : Nat → Nat} (ht : Perm4 t) (hu : Perm4 u)
    (h0 : v0.length = 4) (hr : Reads v0 v1 t u) (he0 : EdPerm t e0)
    (he1 : EdPerm u e1) (x0 x1 : XT) (T : Nat → Nat) (R : Nat → Int) {m : Nat} (hm : m < 3) :
    EdgesFrom v0 v1 (t 0) (u 0) x0 T R (newVerts t v0 (v1.getD (u 0) 0) m)
      (newRec t u e0 x0 x1 (fun i => T (e1 i)) (fun i => R (e1 i)) m) := by
  intro e he
  obtain ⟨a, ha, rfl⟩ := he0.surj e he
  have l := ht.lt
  have d : ∀ i < 4, ∀ j < 4, i ≠ j → t i ≠ t j := fun i hi j hj hij e => hij (ht.inj i hi j hj e)
  have g : ∀ j < 4, (newVerts t v0 (v1.getD (u 0) 0) m).getD (t j) 0 =
      if j = m + 1 then v1.getD (u 0) 0 else v0.getD (t j) 0 := by
    intro j hj
    by_cases hjm : j = m + 1
    · subst hjm; rw [if_pos rfl]; exact getD_set_eq h0 (l _ hj) _
    · rw [if_neg hjm]; exact getD_set_ne (d (m + 1) (by omega) j hj (Ne.symm hjm)) _
  have p0 : ∀ b < 6, edgePair v0 (e0 b) = _ := fun b hb => he0.pair hb v0
  have p1 : ∀ b < 6, edgePair v1 (e1 b) = _ := fun b hb => he1.pair hb v1
  have pw := he0.pair ha (newVerts t v0 (v1.getD (u 0) 0) m)
  have r1 := hr.e1
  have r2 := hr.e2
  have r3 := hr.e3
  -- the three ways
  have old : ∀ (x : XT), (iare.getD a (0, 0)).1 = 0 → (iare.getD a (0, 0)).2 ≠ m + 1 →
      x.tag (e0 a) = x0.tag (e0 a) → x.edg (e0 a) = x0.edg (e0 a) →
      (∃ e' < 6, v0.getD (t 0) 0 ∈ edgePair v0 e' ∧
        edgePair (newVerts t v0 (v1.getD (u 0) 0) m) (e0 a) = edgePair v0 e' ∧
        x.tag (e0 a) = x0.tag e' ∧ x.edg (e0 a) = x0.edg e') := by
    intro x ha1 ha2 hx hy
    have hlt : (iare.getD a (0, 0)).2 < 4 := by interval_cases a <;> decide
    refine ⟨e0 a, he0.lt a ha, ?_, ?_, hx, hy⟩
    · rw [p0 a ha, ha1]; simp
    · rw [pw, p0 a ha, ha1, g 0 (by decide), if_neg (by omega), g _ hlt, if_neg ha2]
  have nbr : ∀ (x : XT) (b : Nat), b < 6 →
      ({(newVerts t v0 (v1.getD (u 0) 0) m).getD (t (iare.getD a (0, 0)).1) 0,
        (newVerts t v0 (v1.getD (u 0) 0) m).getD (t (iare.getD a (0, 0)).2) 0} : Multiset Nat) =
      {v1.getD (u (iare.getD b (0, 0)).1) 0, v1.getD (u (iare.getD b (0, 0)).2) 0} →
      x.tag (e0 a) = T (e1 b) → x.edg (e0 a) = R (e1 b) →
      (∃ e' < 6, edgePair (newVerts t v0 (v1.getD (u 0) 0) m) (e0 a) = edgePair v1 e' ∧
        x.tag (e0 a) = T e' ∧ x.edg (e0 a) = R e') := by
    intro x b hb heq hx hy
    exact ⟨e1 b, he1.lt b hb, by rw [pw, p1 b hb, heq], hx, hy⟩
  interval_cases m <;> interval_cases a
  -- first tetrahedron
  · right; right; rw [pw]; simp [-List.getD_eq_getElem?_getD, List.getD_cons_zero, List.getD_cons_succ, iare, g, newRec, upd_e he0]
  · left; apply old <;> simp [-List.getD_eq_getElem?_getD, List.getD_cons_zero, List.getD_cons_succ, iare, newRec, upd_e he0]
  · left; apply old <;> simp [-List.getD_eq_getElem?_getD, List.getD_cons_zero, List.getD_cons_succ, iare, newRec, upd_e he0]
  · right; left; apply nbr _ 2 <;> simp [-List.getD_eq_getElem?_getD, List.getD_cons_zero, List.getD_cons_succ, iare, newRec, upd_e he0, g, r1, r2, r3]
  · right; left; apply nbr _ 1 <;> simp [-List.getD_eq_getElem?_getD, List.getD_cons_zero, List.getD_cons_succ, iare, newRec, upd_e he0, g, r1, r2, r3]
  · right; left; apply nbr _ 5 <;> simp [-List.getD_eq_getElem?_getD, List.getD_cons_zero, List.getD_cons_succ, iare, newRec, upd_e he0, g, r1, r2, r3]
    exact Multiset.pair_comm _ _
  -- second
  · left; apply old <;> simp [-List.getD_eq_getElem?_getD, List.getD_cons_zero, List.getD_cons_succ, iare, newRec, upd_e he0]
  · right; right; rw [pw]; simp [-List.getD_eq_getElem?_getD, List.getD_cons_zero, List.getD_cons_succ, iare, g, newRec, upd_e he0]
  · left; apply old <;> simp [-List.getD_eq_getElem?_getD, List.getD_cons_zero, List.getD_cons_succ, iare, newRec, upd_e he0]
  · right; left; apply nbr _ 0 <;> simp [-List.getD_eq_getElem?_getD, List.getD_cons_zero, List.getD_cons_succ, iare, newRec, upd_e he0, g, r1, r2, r3]
    exact Multiset.pair_comm _ _
  · right; left; apply nbr _ 3 <;> simp [-List.getD_eq_getElem?_getD, List.getD_cons_zero, List.getD_cons_succ, iare, newRec, upd_e he0, g, r1, r2, r3]
  · right; left; apply nbr _ 1 <;> simp [-List.getD_eq_getElem?_getD, List.getD_cons_zero, List.getD_cons_succ, iare, newRec, upd_e he0, g, r1, r2, r3]
  -- third
  · left; apply old <;> simp [-List.getD_eq_getElem?_getD, List.getD_cons_zero, List.getD_cons_succ, iare, newRec, upd_e he0]
  · left; apply old <;> simp [-List.getD_eq_getElem?_getD, List.getD_cons_zero, List.getD_cons_succ, iare, newRec, upd_e he0]
  · right; right; rw [pw]; simp [-List.getD_eq_getElem?_getD, List.getD_cons_zero, List.getD_cons_succ, iare, g, newRec, upd_e he0]
  · right; left; apply nbr _ 4 <;> simp [-List.getD_eq_getElem?_getD, List.getD_cons_zero, List.getD_cons_succ, iare, newRec, upd_e he0, g, r1, r2, r3]
  · right; left; apply nbr _ 0 <;> simp [-List.getD_eq_getElem?_getD, List.getD_cons_zero, List.getD_cons_succ, iare, newRec, upd_e he0, g, r1, r2, r3]
    exact Multiset.pair_comm _ _
  · right; left; apply nbr _ 2 <;> simp [-List.getD_eq_getElem?_getD, List.getD_cons_zero, List.getD_cons_succ, iare, newRec, upd_e he0, g, r1, r2, r3]
    exact Multiset.pair_comm _ _


theorem vol_tau0 {K : Type} [Field K] (c : Nat → Pt K) {v : List Nat} {j0 : Nat} (h : j0 < 4) :
    volOf c v = vol (c (v.getD (tau0 j0 0) 0)) (c (v.getD (tau0 j0 1) 0)) (c (v.getD (tau0 j0 2) 0))
      (c (v.getD (tau0 j0 3) 0)) := by
  interval_cases j0 <;>
    simp only [tau0, List.getD_cons_zero, List.getD_cons_succ, volOf, vol] <;> ring

theorem vol_tau1 {K : Type} [Field K] (c : Nat → Pt K) {v : List Nat} {b : Nat} (h : b < 12) :
    volOf c v = vol (c (v.getD (tau1 b 0) 0)) (c (v.getD (tau1 b 1) 0)) (c (v.getD (tau1 b 2) 0))
      (c (v.getD (tau1 b 3) 0)) := by
  interval_cases b <;>
    simp only [tau1, List.getD_cons_zero, List.getD_cons_succ, volOf, vol] <;> ring

theorem isxt_iff {x : XT} : x.isxt = true ↔ ∃ i < 4, x.bdy i := by
  simp [XT.isxt, XT.bdy]

theorem bdy_kept {t u e0 : Nat → Nat} (ht : Perm4 t) (x0 x1 : XT) (tag : Nat → Nat)
    (ref : Nat → Int) {m : Nat} (hm : m < 3) (h : x0.bdy (t (m + 1))) :
    (newRec t u e0 x0 x1 tag ref m).isxt = true := by
  rw [isxt_iff]
  refine ⟨t (m + 1), ht.lt _ (by omega), ?_⟩
  unfold XT.bdy at h ⊢
  interval_cases m <;> simpa [newRec, upd_t ht] using h

theorem slots_close {used : Nat → Prop} {k k1 iel xt1 : Nat}
    {s s' : State} (hs : SlotsOK s used) (uk : used k) (uk1 : used k1) (hnew : ¬ used iel)
    (hx1 : s.xt k1 = xt1)
    (hoth : ∀ q, q ≠ k → q ≠ k1 → q ≠ iel → s'.xt q = s.xt q)
    (hX : ∀ z, z ≤ s.nxt → z ≠ s.xt k → (xt1 ≠ 0 → z ≠ xt1) → s'.X z = s.X z)
    (hn : s.nxt ≤ s'.nxt)
    (y0 : s'.xt k = 0 ∨ s'.xt k = s.xt k ∨ (xt1 ≠ 0 ∧ s'.xt k = xt1) ∨
      (s.nxt < s'.xt k ∧ s'.xt k ≤ s'.nxt))
    (y1 : s'.xt k1 = 0 ∨ s'.xt k1 = s.xt k ∨ (xt1 ≠ 0 ∧ s'.xt k1 = xt1) ∨
      (s.nxt < s'.xt k1 ∧ s'.xt k1 ≤ s'.nxt))
    (y2 : s'.xt iel = 0 ∨ s'.xt iel = s.xt k ∨ (xt1 ≠ 0 ∧ s'.xt iel = xt1) ∨
      (s.nxt < s'.xt iel ∧ s'.xt iel ≤ s'.nxt))
    (d01 : s'.xt k ≠ 0 → s'.xt k ≠ s'.xt k1) (d02 : s'.xt k ≠ 0 → s'.xt k ≠ s'.xt iel)
    (d12 : s'.xt k1 ≠ 0 → s'.xt k1 ≠ s'.xt iel) :
    SlotsOK s' (fun q => used q ∨ q = iel) ∧
    (∀ q, used q → q ≠ k → q ≠ k1 → s'.xt q = s.xt q ∧
      (s.xt q ≠ 0 → s'.X (s.xt q) = s.X (s.xt q))) := by
  have l0 := hs.le k uk
  have l1 := hs.le k1 uk1
  have ho : ∀ q, used q → q ≠ k → q ≠ k1 → s'.xt q = s.xt q ∧ s.xt q ≤ s.nxt ∧
      (s.xt q ≠ 0 → s.xt q ≠ s.xt k ∧ s.xt q ≠ s.xt k1) := by
    intro q hq h1 h2
    refine ⟨hoth q h1 h2 (fun e => hnew (e ▸ hq)), hs.le q hq, fun hz => ⟨fun e => ?_, fun e => ?_⟩⟩
    · exact h1 (hs.inj q k hq uk e hz)
    · exact h2 (hs.inj q k1 hq uk1 e hz)
  have cls : ∀ q, (used q ∨ q = iel) →
      (q = k ∨ q = k1 ∨ q = iel) ∨ (used q ∧ q ≠ k ∧ q ≠ k1) := by
    intro q hq
    by_cases h1 : q = k
    · exact .inl (.inl h1)
    · by_cases h2 : q = k1
      · exact .inl (.inr (.inl h2))
      · rcases hq with hq | hq
        · exact .inr ⟨hq, h1, h2⟩
        · exact .inl (.inr (.inr hq))
  have yy : ∀ q, (q = k ∨ q = k1 ∨ q = iel) → s'.xt q = 0 ∨ s'.xt q = s.xt k ∨
      (xt1 ≠ 0 ∧ s'.xt q = xt1) ∨ (s.nxt < s'.xt q ∧ s'.xt q ≤ s'.nxt) := by
    rintro q (rfl | rfl | rfl)
    exacts [y0, y1, y2]
  refine ⟨⟨fun q hq => ?_, fun q q' hq hq' he hz => ?_⟩, fun q hq h1 h2 => ?_⟩
  · rcases cls q hq with h | ⟨h, h1, h2⟩
    · rcases yy q h with h | h | h | h <;> omega
    · have := ho q h h1 h2
      omega
  · rcases cls q hq with h | ⟨h, h1, h2⟩ <;> rcases cls q' hq' with h' | ⟨h', h1', h2'⟩
    · rcases h with rfl | rfl | rfl <;> rcases h' with rfl | rfl | rfl <;>
        first | rfl | omega
    · obtain ⟨a, b, c⟩ := ho q' h' h1' h2'
      have c' := c (by omega)
      rcases yy q h with h | h | h | h <;> omega
    · obtain ⟨a, b, c⟩ := ho q h h1 h2
      have c' := c (by omega)
      rcases yy q' h' with h | h | h | h <;> omega
    · obtain ⟨a, b, c⟩ := ho q h h1 h2
      obtain ⟨a', b', c'⟩ := ho q' h' h1' h2'
      exact hs.inj q q' h h' (by omega) (by omega)
  · obtain ⟨a, b, c⟩ := ho q hq h1 h2
    refine ⟨a, fun hz => hX _ b (c hz).1 (fun _ => ?_)⟩
    rw [← hx1]
    exact (c hz).2

/-- Slots after the swap. -/
theorem place_spec {room : Nat → Bool} {used : Nat → Prop} {k k1 iel xt1 : Nat} {x : Nat → XT}
    {s s' : State} (hs : SlotsOK s used) (uk : used k) (uk1 : used k1) (hne : k ≠ k1)
    (hnew : ¬ used iel) (hx0 : s.xt k ≠ 0) (hx1 : s.xt k1 = xt1)
    (htwo : ((x 0).isxt = true ∧ (x 1).isxt = true) ∨ ((x 1).isxt = true ∧ (x 2).isxt = true) ∨
      ((x 0).isxt = true ∧ (x 2).isxt = true))
    (h : place room k k1 iel xt1 x s = some s') :
    (s'.V = s.V ∧ s'.A = s.A) ∧ SlotsOK s' (fun q => used q ∨ q = iel) ∧
    (∀ m < 3, ∀ q, q = [k, k1, iel].getD m 0 →
      (((x m).isxt = true → s'.xt q ≠ 0 ∧ s'.X (s'.xt q) = x m) ∧
       ((x m).isxt = false → s'.xt q = 0))) ∧
    (∀ q, used q → q ≠ k → q ≠ k1 → s'.xt q = s.xt q ∧
      (s.xt q ≠ 0 → s'.X (s.xt q) = s.X (s.xt q))) := by
  have e0 : k ≠ iel := fun e => hnew (e ▸ uk)
  have e1 : k1 ≠ iel := fun e => hnew (e ▸ uk1)
  have l0 := hs.le k uk
  have l1 := hs.le k1 uk1
  have a01 : s.xt k ≠ s.xt k1 := fun e => hne (hs.inj k k1 uk uk1 e hx0)
  rw [hx1] at l1 a01
  have fin : ∀ P : Nat → Prop, (∀ m < 3, P m) ↔ P 0 ∧ P 1 ∧ P 2 := by
    intro P
    refine ⟨fun h => ⟨h 0 (by decide), h 1 (by decide), h 2 (by decide)⟩, fun h m hm => ?_⟩
    interval_cases m
    exacts [h.1, h.2.1, h.2.2]
  have n1 : s.nxt + 1 ≠ s.xt k := by omega
  have n2 : s.nxt + 1 ≠ xt1 := by omega
  have n3 : s.nxt + 1 + 1 ≠ s.xt k := by omega
  have mk : ∀ R : Prop, (s'.V = s.V ∧ s'.A = s.A) → R →
      (SlotsOK s' (fun q => used q ∨ q = iel) ∧
    (∀ q, used q → q ≠ k → q ≠ k1 → s'.xt q = s.xt q ∧
      (s.xt q ≠ 0 → s'.X (s.xt q) = s.X (s.xt q)))) →
      (s'.V = s.V ∧ s'.A = s.A) ∧ SlotsOK s' (fun q => used q ∨ q = iel) ∧ R ∧
      (∀ q, used q → q ≠ k → q ≠ k1 → s'.xt q = s.xt q ∧
      (s.xt q ≠ 0 → s'.X (s.xt q) = s.X (s.xt q))) := fun R h1 h2 h3 => ⟨h1, h3.1, h2, h3.2⟩
  have hz : ∀ z, z ≤ s.nxt → z ≠ s.nxt + 1 ∧ z ≠ s.nxt + 1 + 1 := by intro z hz; omega
  by_cases r1 : room (s.nxt + 1) = true <;> by_cases r2 : room (s.nxt + 1 + 1) = true <;>
    rcases hb0 : (x 0).isxt with _ | _ <;> rcases hb1 : (x 1).isxt with _ | _ <;>
    rcases hb2 : (x 2).isxt with _ | _ <;> by_cases hxt : xt1 = 0 <;>
    simp [hb0, hb1, hb2] at htwo <;>
    simp only [place, newSlot, hb0, hb1, hb2, hxt, ne_eq, not_true_eq_false, not_false_eq_true,
      if_true, if_false, Bool.false_eq_true, Option.bind_some, Option.bind_none, r1, r2] at h <;>
    simp only [Option.some.injEq, reduceCtorEq] at h <;> subst h <;>
    (refine mk _ ⟨rfl, rfl⟩ ?_ (slots_close hs uk uk1 hnew hx1 ?_ ?_ ?_ ?_ ?_ ?_ ?_ ?_ ?_)
     · rw [fin]
       simp [upd, hb0, hb1, hb2, hne, hne.symm, e0, e0.symm, e1, e1.symm, hx0, hxt, a01, a01.symm,
         n1, n2, n3, n1.symm, n2.symm, n3.symm]
     · intro q h1 h2 h3
       simp [upd, h1, h2, h3]
     · intro z h1 h2 h3
       simp [upd, h2, hz z h1]
       try (intro h4; exact absurd h4 (h3 hxt))
     all_goals
       simp [upd, hb0, hb1, hb2, hne, hne.symm, e0, e0.symm, e1, e1.symm, hx0, hxt, a01, a01.symm,
         n1, n2, n3, n1.symm, n2.symm, n3.symm]
       try omega)

theorem place_VA {room : Nat → Bool} {k k1 iel xt1 : Nat} {x : Nat → XT} {s s' : State}
    (h : place room k k1 iel xt1 x s = some s') : s'.V = s.V ∧ s'.A = s.A := by
  by_cases r1 : room (s.nxt + 1) = true <;> by_cases r2 : room (s.nxt + 1 + 1) = true <;>
    rcases hb0 : (x 0).isxt with _ | _ <;> rcases hb1 : (x 1).isxt with _ | _ <;>
    rcases hb2 : (x 2).isxt with _ | _ <;> by_cases hxt : xt1 = 0 <;>
    simp only [place, newSlot, hb0, hb1, hb2, hxt, ne_eq, not_true_eq_false, not_false_eq_true,
      if_true, if_false, Bool.false_eq_true, Option.bind_some, Option.bind_none, r1, r2] at h <;>
    simp only [Option.some.injEq, reduceCtorEq] at h <;> subst h <;> exact ⟨rfl, rfl⟩

theorem verts_new {t : Nat → Nat} {k k1 iel q : Nat} {V : Nat → List Nat} (h01 : k ≠ k1)
    (h0 : k ≠ iel) (h1 : k1 ≠ iel) {m : Nat} (hm : m < 3) :
    swapVerts t k k1 iel q V ([k, k1, iel].getD m 0) = newVerts t (V k) q m := by
  interval_cases m
  · simp [swapVerts, upd, h01, h0, newVerts]
  · simp [swapVerts, upd, h1, newVerts]
  · simp [swapVerts, upd, newVerts]

/-! ### C58 -/

/-- A 2-3 swap through a face keeps a valid mesh: the configuration is found, the links stay
symmetric and join equal faces, the two tetrahedra `p a b d` and `q a b d` become `p q b d`,
`p q a d` and `p q a b`, the other tetrahedra keep their vertices and the total volume is
unchanged. -/
theorem C58_swap_mesh {s : State} {used : Nat → Prop} {k j0 k1 j1 iel : Nat}
    (h : Ready s used k j0 k1 j1 iel) :
    ∃ c, conf1 (s.V k) (s.V k1) j0 j1 = some c ∧ ∀ room T R s',
      swap23 room k j0 k1 c iel T R s = some s' →
      AdjOK s'.A s'.V (fun q => used q ∨ q = iel) ∧
      (∀ q, used q → q ≠ k → q ≠ k1 → s'.V q = s.V q) ∧
      (∃ a b d, faceTri 0 (s.V k) j0 = {a, b, d} ∧
        (s'.V k : Multiset Nat) = {(s.V k).getD j0 0, (s.V k1).getD j1 0, b, d} ∧
        (s'.V k1 : Multiset Nat) = {(s.V k).getD j0 0, (s.V k1).getD j1 0, a, d} ∧
        (s'.V iel : Multiset Nat) = {(s.V k).getD j0 0, (s.V k1).getD j1 0, a, b}) ∧
      ∀ (K : Type) [Field K] (co : Nat → Pt K),
        volOf co (s'.V k) + volOf co (s'.V k1) + volOf co (s'.V iel) =
          volOf co (s.V k) + volOf co (s.V k1) := by
  obtain ⟨c, hc, _⟩ := conf1_spec h.lt0 h.lt1 h.len0 h.nd h.facing
  refine ⟨c, hc, fun room T R s' hs' => ?_⟩
  obtain ⟨hc12, hj1, hP⟩ := h.pair hc
  obtain ⟨hV, hA⟩ := place_VA hs'
  have e01 := hP.ne01
  have e0 := hP.ne0
  have e1 := hP.ne1
  have l := hP.ht.lt
  have d : ∀ i < 4, ∀ j < 4, i ≠ j → tau0 j0 i ≠ tau0 j0 j :=
    fun i hi j hj hij e => hij (hP.ht.inj i hi j hj e)
  have t0 := tau0_zero h.lt0
  have w0 : s'.V k = newVerts (tau0 j0) (s.V k) ((s.V k1).getD (tau1 c 0) 0) 0 := by
    rw [hV]; exact verts_new e01 e0 e1 (m := 0) (by decide)
  have w1 : s'.V k1 = newVerts (tau0 j0) (s.V k) ((s.V k1).getD (tau1 c 0) 0) 1 := by
    rw [hV]; exact verts_new e01 e0 e1 (m := 1) (by decide)
  have w2 : s'.V iel = newVerts (tau0 j0) (s.V k) ((s.V k1).getD (tau1 c 0) 0) 2 := by
    rw [hV]; exact verts_new e01 e0 e1 (m := 2) (by decide)
  have g : ∀ m < 3, ∀ j < 4,
      (newVerts (tau0 j0) (s.V k) ((s.V k1).getD (tau1 c 0) 0) m).getD (tau0 j0 j) 0 =
      if j = m + 1 then (s.V k1).getD (tau1 c 0) 0 else (s.V k).getD (tau0 j0 j) 0 := by
    intro m hm j hj
    by_cases hjm : j = m + 1
    · subst hjm; rw [if_pos rfl]; exact getD_set_eq h.len0 (l _ hj) _
    · rw [if_neg hjm]; exact getD_set_ne (d (m + 1) (by omega) j hj (Ne.symm hjm)) _
  have hlen : ∀ m, (newVerts (tau0 j0) (s.V k) ((s.V k1).getD (tau1 c 0) 0) m).length = 4 := by
    intro m; simpa [newVerts] using h.len0
  have M : ∀ a b : Nat, ({a} + {b} : Multiset Nat) = {a, b} := fun a b => rfl
  refine ⟨?_, ?_, ?_, ?_⟩
  · rw [hV, hA]; exact swap_adj hP
  · intro q hq h1 h2
    have h3 : q ≠ iel := fun e => h.new (e ▸ hq)
    rw [hV]
    simp [swapVerts, upd, h1, h2, h3]
  · refine ⟨(s.V k).getD (tau0 j0 1) 0, (s.V k).getD (tau0 j0 2) 0, (s.V k).getD (tau0 j0 3) 0,
      ?_, ?_, ?_, ?_⟩
    · have a1 := faceTri_add h.len0 h.lt0
      rw [coe_perm (o := 0) h.len0 hP.ht, t0] at a1
      apply add_right_cancel (b := ({(s.V k).getD j0 0} : Multiset Nat))
      rw [a1]
      simp only [Multiset.insert_eq_cons, ← Multiset.singleton_add]
      abel
    · rw [w0, coe_perm (o := 0) (hlen 0) hP.ht, g 0 (by decide) 0 (by decide),
        g 0 (by decide) 1 (by decide), g 0 (by decide) 2 (by decide), g 0 (by decide) 3 (by decide),
        t0, hj1]
      rfl
    · rw [w1, coe_perm (o := 0) (hlen 1) hP.ht, g 1 (by decide) 0 (by decide),
        g 1 (by decide) 1 (by decide), g 1 (by decide) 2 (by decide), g 1 (by decide) 3 (by decide),
        t0, hj1]
      simp only [Nat.reduceAdd, Nat.reduceEqDiff, OfNat.zero_ne_ofNat, OfNat.one_ne_ofNat,
        if_true, if_false, Multiset.insert_eq_cons, ← Multiset.singleton_add]
      abel
    · rw [w2, coe_perm (o := 0) (hlen 2) hP.ht, g 2 (by decide) 0 (by decide),
        g 2 (by decide) 1 (by decide), g 2 (by decide) 2 (by decide), g 2 (by decide) 3 (by decide),
        t0, hj1]
      simp only [Nat.reduceAdd, Nat.reduceEqDiff, OfNat.zero_ne_ofNat, OfNat.one_ne_ofNat,
        if_true, if_false, Multiset.insert_eq_cons, ← Multiset.singleton_add]
      abel
  · intro K _ co
    rw [w0, w1, w2, vol_tau0 co h.lt0, vol_tau0 co h.lt0, vol_tau0 co h.lt0,
      vol_tau0 co (v := s.V k) h.lt0, vol_tau1 co (v := s.V k1) hc12, hP.reads.e1, hP.reads.e2,
      hP.reads.e3, g 0 (by decide) 0 (by decide),
        g 0 (by decide) 1 (by decide), g 0 (by decide) 2 (by decide), g 0 (by decide) 3 (by decide),
        g 1 (by decide) 0 (by decide),
        g 1 (by decide) 1 (by decide), g 1 (by decide) 2 (by decide), g 1 (by decide) 3 (by decide),
        g 2 (by decide) 0 (by decide),
        g 2 (by decide) 1 (by decide), g 2 (by decide) 2 (by decide), g 2 (by decide) 3 (by decide)]
    simp only [Nat.reduceAdd, Nat.reduceEqDiff, OfNat.zero_ne_ofNat, OfNat.one_ne_ofNat,
        if_true, if_false, Nat.zero_add, zero_ne_one, OfNat.ofNat_ne_one]
    simp only [vol]
    ring

/-- Boundary data after a swap of a tetrahedron that has boundary data on at least two of its other
faces: every new tetrahedron with a boundary face has its own record, every face and edge has the
data of the old face or edge, the records of the other tetrahedra are kept.

Partial: the orientation bit of a face that comes from the neighbour is only right when the bit of
the common face was 0; see `C58_orientation_lost`. -/
theorem C58_swap_data_partial {s : State} {used : Nat → Prop} {k j0 k1 j1 iel : Nat}
    (h : Ready s used k j0 k1 j1 iel) (hs : SlotsOK s used) (hx : s.xt k ≠ 0)
    {f f' : Nat} (hf : f < 4) (hf' : f' < 4) (hff : f ≠ f') (hf0 : f ≠ j0) (hf0' : f' ≠ j0)
    (hb : (s.X (s.xt k)).bdy f) (hb' : (s.X (s.xt k)).bdy f')
    {room : Nat → Bool} {c : Nat} {T : Nat → Nat} {R : Nat → Int} {s' : State}
    (hc : conf1 (s.V k) (s.V k1) j0 j1 = some c)
    (hs' : swap23 room k j0 k1 c iel T R s = some s') :
    SlotsOK s' (fun q => used q ∨ q = iel) ∧
    (∀ q, q = k ∨ q = k1 ∨ q = iel → ∃ x : XT,
      FacesFrom (s.V k) (s.V k1) j0 j1 (s.X (s.xt k)) (s.X (s.xt k1)) (s'.V q) x ∧
      EdgesFrom (s.V k) (s.V k1) j0 j1 (s.X (s.xt k)) T R (s'.V q) x ∧
      ((∃ i < 4, x.bdy i) → s'.xt q ≠ 0 ∧ s'.X (s'.xt q) = x) ∧
      ((¬ ∃ i < 4, x.bdy i) → s'.xt q = 0)) ∧
    (∀ q, used q → q ≠ k → q ≠ k1 → s'.xt q = s.xt q ∧
      (s.xt q ≠ 0 → s'.X (s.xt q) = s.X (s.xt q))) := by
  obtain ⟨hc12, hj1, hP⟩ := h.pair hc
  have e01 := hP.ne01
  have e0 := hP.ne0
  have e1 := hP.ne1
  have t0 := tau0_zero h.lt0
  have htwo : ∀ x : Nat → XT, (∀ m < 3, (s.X (s.xt k)).bdy (tau0 j0 (m + 1)) → (x m).isxt = true) →
      (((x 0).isxt = true ∧ (x 1).isxt = true) ∨ ((x 1).isxt = true ∧ (x 2).isxt = true) ∨
      ((x 0).isxt = true ∧ (x 2).isxt = true)) := by
    intro x hx
    have cl : ∀ g, g < 4 → g ≠ j0 → (s.X (s.xt k)).bdy g → ∃ m < 3, g = tau0 j0 (m + 1) ∧
        (x m).isxt = true := by
      intro g hg hg0 hbg
      obtain ⟨m, hm, rfl⟩ := hP.ht.surj g hg
      have : m ≠ 0 := by rintro rfl; exact hg0 t0
      obtain ⟨n, rfl⟩ := Nat.exists_eq_succ_of_ne_zero this
      exact ⟨n, by omega, rfl, hx n (by omega) hbg⟩
    obtain ⟨m, hm, em, hm'⟩ := cl f hf hf0 hb
    obtain ⟨n, hn, en, hn'⟩ := cl f' hf' hf0' hb'
    have : m ≠ n := by rintro rfl; exact hff (em.trans en.symm)
    interval_cases m <;> interval_cases n <;> simp_all
  obtain ⟨⟨hV, _⟩, hsl, hrec, hoth⟩ := @place_spec room used k k1 iel (s.xt k1)
    (newRec (tau0 j0) (tau1 c) (ed0 j0) (s.X (s.xt k)) (s.X (s.xt k1)) (fun i => T (ed1 c i))
      (fun i => R (ed1 c i)))
    { s with V := swapVerts (tau0 j0) k k1 iel ((s.V k1).getD (tau1 c 0) 0) s.V
             A := swapAdj (tau0 j0) (tau1 c) k k1 iel s.A } s'
    ⟨hs.le, hs.inj⟩ hP.uk hP.uk1 e01 hP.new hx rfl
    (htwo _ fun m hm hb => bdy_kept hP.ht _ _ _ _ hm hb) hs'
  refine ⟨hsl, ?_, hoth⟩
  have main : ∀ m < 3, ∀ q, q = [k, k1, iel].getD m 0 → ∃ x : XT,
      FacesFrom (s.V k) (s.V k1) j0 j1 (s.X (s.xt k)) (s.X (s.xt k1)) (s'.V q) x ∧
      EdgesFrom (s.V k) (s.V k1) j0 j1 (s.X (s.xt k)) T R (s'.V q) x ∧
      ((∃ i < 4, x.bdy i) → s'.xt q ≠ 0 ∧ s'.X (s'.xt q) = x) ∧
      ((¬ ∃ i < 4, x.bdy i) → s'.xt q = 0) := by
    intro m hm q hq
    obtain ⟨r1, r2⟩ := hrec m hm q hq
    have hw : s'.V q = newVerts (tau0 j0) (s.V k) ((s.V k1).getD (tau1 c 0) 0) m := by
      rw [hV, hq]; exact verts_new e01 e0 e1 hm
    have hF := faces_from (e0 := ed0 j0) hP.ht hP.hu hP.len0 hP.len1 hP.reads (s.X (s.xt k))
      (s.X (s.xt k1)) (fun i => T (ed1 c i)) (fun i => R (ed1 c i)) hm
    have hE := edges_from hP.ht hP.hu hP.len0 hP.reads (ed_tau0 h.lt0) (ed_tau1 hc12) (s.X (s.xt k))
      (s.X (s.xt k1)) T R hm
    rw [t0, hj1] at hF hE
    rw [hj1] at hw
    refine ⟨_, hw ▸ hF, hw ▸ hE, fun hi => r1 (isxt_iff.2 hi), fun hi => r2 ?_⟩
    rw [← isxt_iff] at hi
    simpa using hi
  rintro q (hq | hq | hq)
  · exact main 0 (by decide) q hq
  · exact main 1 (by decide) q hq
  · exact main 2 (by decide) q hq

/-! Example: two tetrahedra that share the face 2 3 4; the first one has two boundary faces, the
second one a boundary face seen from its other side (orientation bit 0). -/

def exX : Nat → XT := fun z =>
  if z = 1 then ⟨fun i => if i = 1 then 7 else if i = 2 then 8 else 0,
    fun i => if i = 1 ∨ i = 2 then 16 else 0, fun _ => true, fun _ => 0, fun _ => 0⟩
  else if z = 2 then ⟨fun i => if i = 2 then 9 else 0, fun i => if i = 2 then 16 else 0,
    fun i => decide (i ≠ 2), fun _ => 0, fun _ => 0⟩
  else ⟨fun _ => 0, fun _ => 0, fun _ => false, fun _ => 0, fun _ => 0⟩

def exS : State :=
  { V := fun k => if k = 1 then [1, 2, 3, 4] else [5, 2, 4, 3]
    A := setAt (setAt (fun _ => 0) (adjIdx 1 0) 8) (adjIdx 2 0) 4
    xt := fun k => if k = 1 then 1 else if k = 2 then 2 else 0
    X := exX
    nxt := 2 }

theorem exS_ready : Ready exS (fun q => q = 1 ∨ q = 2) 1 0 2 0 3 := by
  refine ⟨⟨?_, ?_⟩, by decide, by decide, .inl rfl, by decide, by decide, by decide, by decide,
    by decide, by decide, by decide, ⟨0, by decide, by decide⟩, by decide, by decide⟩
  · rintro k (rfl | rfl) <;> decide
  · rintro k (rfl | rfl) i hi <;> interval_cases i <;> decide

example : SlotsOK exS (fun q => q = 1 ∨ q = 2) ∧ exS.xt 1 ≠ 0 ∧ (exS.X (exS.xt 1)).bdy 1 ∧
    (exS.X (exS.xt 1)).bdy 2 ∧ conf1 (exS.V 1) (exS.V 2) 0 0 = some 0 ∧
    (swap23 (fun _ => true) 1 0 2 0 3 (fun _ => 0) (fun _ => 0) exS).isSome = true := by
  refine ⟨⟨?_, ?_⟩, by decide, .inl (by decide), .inl (by decide), by decide, by decide⟩
  · rintro k (rfl | rfl) <;> decide
  · rintro k k' (rfl | rfl) (rfl | rfl) <;> decide

/-- A boundary face of the neighbour that is seen from its other side (orientation bit 0) loses
this information: after the swap the tetrahedron that carries the face claims the opposite
orientation. -/
theorem C58_orientation_lost : ∃ (s s' : State) (used : Nat → Prop),
    Ready s used 1 0 2 0 3 ∧ SlotsOK s used ∧
    swap23 (fun _ => true) 1 0 2 0 3 (fun _ => 0) (fun _ => 0) s = some s' ∧
    faceTri 0 (s.V 2) 2 = faceTri 0 (s'.V 3) 0 ∧ (s.X (s.xt 2)).ftag 2 = 16 ∧
    (s'.X (s'.xt 3)).ftag 0 = 16 ∧
    (s.X (s.xt 2)).ori 2 = false ∧ (s'.X (s'.xt 3)).ori 0 = true := by
  refine ⟨exS, (swap23 (fun _ => true) 1 0 2 0 3 (fun _ => 0) (fun _ => 0) exS).get (by decide),
    fun q => q = 1 ∨ q = 2, exS_ready, ⟨?_, ?_⟩, ?_, ?_, ?_, ?_, ?_, ?_⟩
  · rintro k (rfl | rfl) <;> decide
  · rintro k k' (rfl | rfl) (rfl | rfl) <;> decide
  · simp
  · decide +kernel
  · decide +kernel
  · decide +kernel
  · decide +kernel
  · decide +kernel

end Mmg.Swap23
