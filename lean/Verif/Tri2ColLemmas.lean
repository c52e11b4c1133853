/-
Closed forms and validity of the 2D collapse (helper lemmas of Tri2ColProps).
-/
import Verif.Tri2ColModel
import Verif.BallProps

set_option linter.unusedSimpArgs false

namespace Mmg.Tri2

/-! ### Order of the ball -/

/-- Ball of an interior vertex: closed chain of rotations. -/
theorem boulet_closed {M : Mesh} (h : Valid M) {c : HE} (hk : M.live c.1) {lmax : Nat} {l : List HE}
    (e : boulet M lmax false c = some (l, false)) :
    ∃ t, l = c :: t ∧ l.IsChain (fun x y => M.rot x = some y) ∧ ∀ x, l.getLast? = some x → M.rot x = some c := by
  classical
  unfold boulet at e
  split at e
  · cases e
  · rename_i l' e1
    cases e
    obtain ⟨⟨t, rfl, i1⟩, i2, i3, i4, i5⟩ := fwd_spec h c.1 _ c hk _ _ e1
    refine ⟨t, rfl, ?_, ?_⟩
    · refine List.IsChain.imp ?_ i2
      intro a b hab
      unfold rotL at hab
      split at hab
      · exact hab
      · cases hab
    · intro x hx
      have hm : x ∈ c :: t := List.mem_of_getLast? hx
      have := i4 x hx
      simp only [if_true] at this
      obtain ⟨y, hy, hy1⟩ := this
      simp only [rotL, (i3 x hm).1, if_true] at hy
      have hs := rot_spec h (i3 x hm).1 hy
      rw [hy, corner_eq h hk hy1 (hs.2.1.trans (i3 x hm).2)]
  · simp at e

/-- Ball of a boundary vertex started at its first triangle. -/
theorem boulet_open {M : Mesh} (h : Valid M) {c : HE} (hk : M.live c.1) {lmax : Nat} {l : List HE}
    (e : boulet M lmax false c = some (l, true)) (hb : M.adj (c.1, c.2 + 2) = none) :
    ∃ t, l = c :: t ∧ l.IsChain (fun x y => M.rot x = some y) ∧ ∀ x, l.getLast? = some x → M.rot x = none := by
  classical
  unfold boulet at e
  split at e
  · cases e
  · rename_i e1; simp at e
  · rename_i l' e1
    obtain ⟨⟨t, rfl, i1⟩, i2, i3, i4, i5⟩ := fwd_spec h c.1 _ c hk _ _ e1
    have hbw : ∀ n, bwd M n c = some [] := by
      intro n
      unfold bwd
      simp [Mesh.rotb, hb]
    rw [hbw] at e
    simp at e
    subst e
    refine ⟨t, rfl, ?_, ?_⟩
    · refine List.IsChain.imp ?_ i2
      intro a b hab
      unfold rotL at hab
      split at hab
      · exact hab
      · cases hab
    · intro x hx
      have hm : x ∈ c :: t := List.mem_of_getLast? hx
      have := i4 x hx
      simpa [rotL, (i3 x hm).1] using this

/-! ### Elementary steps -/

theorem moveV_spec (M : Mesh) (l : List HE) (p : Nat) :
    (M.moveV l p).adj = M.adj ∧ ∀ x, ((M.moveV l p).tri x).tag = (M.tri x).tag ∧
      ((M.moveV l p).tri x).edg = (M.tri x).edg ∧ ((M.moveV l p).tri x).ref = (M.tri x).ref ∧
      ∀ y, ((M.moveV l p).tri x).v y = if (x, y) ∈ l then p else (M.tri x).v y := by
  unfold Mesh.moveV
  induction l generalizing M with
  | nil => simp
  | cons c l ih =>
    obtain ⟨i1, i2⟩ := ih (M.setTri c.1 ((M.tri c.1).setV c.2 p))
    refine ⟨i1, fun x => ?_⟩
    obtain ⟨j1, j2, j3, j4⟩ := i2 x
    simp only [List.foldl_cons]
    refine ⟨?_, ?_, ?_, fun y => ?_⟩
    · rw [j1]; simp only [Mesh.setTri, Tri.setV]; split <;> simp_all
    · rw [j2]; simp only [Mesh.setTri, Tri.setV]; split <;> simp_all
    · rw [j3]; simp only [Mesh.setTri, Tri.setV]; split <;> simp_all
    · rw [j4]
      simp only [Mesh.setTri, Tri.setV, List.mem_cons]
      grind

theorem mergeEdge_v (M : Mesh) (e e' : HE) (x : Nat) : ((mergeEdge M e e').tri x).v = (M.tri x).v ∧
    ((mergeEdge M e e').tri x).ref = (M.tri x).ref := by
  unfold mergeEdge
  cases M.adj e <;> simp only [Mesh.setTri, Mesh.setAdj, Tri.setE] <;> grind

theorem mergeEdge_adj (M : Mesh) (e e' h : HE) : (mergeEdge M e e').adj h =
    if h = e' then M.adj e else if M.adj e = some h then some e' else M.adj h := by
  unfold mergeEdge
  cases ho : M.adj e <;> simp only [Mesh.setTri, Mesh.setAdj, Tri.setE] <;> grind

/-- Attributes when the other side is a third half edge. -/
theorem mergeEdge_tag (M : Mesh) (e e' h : HE) (hne : M.adj e ≠ some e') :
    ((mergeEdge M e e').tri h.1).tag h.2 =
      if h = e' then (M.tri h.1).tag h.2 ||| (M.tri e.1).tag e.2
      else if M.adj e = some h then (M.tri h.1).tag h.2 ||| ((M.tri e'.1).tag e'.2 ||| (M.tri e.1).tag e.2)
      else (M.tri h.1).tag h.2 := by
  obtain ⟨x, y⟩ := h
  obtain ⟨a, b⟩ := e'
  unfold mergeEdge
  rcases ho : M.adj e with _ | ⟨p, q⟩
  · simp only [Mesh.setTri, Mesh.setAdj, Tri.setE, Prod.mk.injEq]
    grind
  · rw [ho] at hne
    simp only [ne_eq, Option.some.injEq, Prod.mk.injEq] at hne
    simp only [Mesh.setTri, Mesh.setAdj, Tri.setE, Option.some.injEq, Prod.mk.injEq]
    by_cases h1 : x = p <;> by_cases h2 : x = a <;> by_cases h3 : p = a <;> by_cases h4 : y = q <;>
      by_cases h5 : y = b <;> by_cases h6 : q = b <;> simp_all <;> grind

theorem mergeEdge_edg (M : Mesh) (e e' h : HE) (hne : M.adj e ≠ some e') :
    ((mergeEdge M e e').tri h.1).edg h.2 =
      if h = e' then max ((M.tri h.1).edg h.2) ((M.tri e.1).edg e.2)
      else if M.adj e = some h then max (max ((M.tri e'.1).edg e'.2) ((M.tri e.1).edg e.2)) ((M.tri h.1).edg h.2)
      else (M.tri h.1).edg h.2 := by
  obtain ⟨x, y⟩ := h
  obtain ⟨a, b⟩ := e'
  unfold mergeEdge
  rcases ho : M.adj e with _ | ⟨p, q⟩
  · simp only [Mesh.setTri, Mesh.setAdj, Tri.setE, Prod.mk.injEq]
    grind
  · rw [ho] at hne
    simp only [ne_eq, Option.some.injEq, Prod.mk.injEq] at hne
    simp only [Mesh.setTri, Mesh.setAdj, Tri.setE, Option.some.injEq, Prod.mk.injEq]
    by_cases h1 : x = p <;> by_cases h2 : x = a <;> by_cases h3 : p = a <;> by_cases h4 : y = q <;>
      by_cases h5 : y = b <;> by_cases h6 : q = b <;> simp_all <;> grind

theorem delTri_adj (M : Mesh) (k : Nat) (h : HE) : (M.delTri k).adj h = if h.1 = k then none else M.adj h := rfl

theorem delTri_v (M : Mesh) (k x : Nat) : ((M.delTri k).tri x).v = if x = k then fun _ => 0 else (M.tri x).v := by
  unfold Mesh.delTri
  split <;> simp_all

theorem delTri_tag (M : Mesh) (k x : Nat) (hx : x ≠ k) : ((M.delTri k).tri x) = M.tri x := by
  simp [Mesh.delTri, hx]

/-! ### Validity -/

section
variable {M : Mesh} {B : HE → Prop} {c0 c1 : HE}

/-- Closed form of the open collapse. -/
structure OpenForm (M M' : Mesh) (B : HE → Prop) (c0 c1 : HE) : Prop where
  v : ∀ x y, (x ≠ c0.1 → B (x, y) → (M'.tri x).v y = (M.tri c0.1).v (c0.2 + 1)) ∧
    (x ≠ c0.1 → ¬ B (x, y) → (M'.tri x).v y = (M.tri x).v y)
  dead : (M'.tri c0.1).v 0 = 0
  adj : ∀ x y, x ≠ c0.1 → M'.adj (x, y) = if (x, y) = (c1.1, c1.2 + 2) then M.adj (c0.1, c0.2)
    else if M.adj (c0.1, c0.2) = some (x, y) then some (c1.1, c1.2 + 2) else M.adj (x, y)

theorem OpenForm.valid {M' : Mesh} (F : OpenForm M M' B c0 c1) (h : Valid M) (hk : M.live c0.1)
    (hB : ∀ c, B c → M.live c.1 ∧ M.at c = M.at c0) (hB0 : B c0)
    (hrot : ∀ c c', M.live c.1 → M.rot c = some c' → (B c ↔ B c'))
    (h1 : M.rot c0 = some c1) (hop : M.adj (c0.1, c0.2 + 2) = none)
    (hno : ∀ c, B c → c ≠ c0 → ∀ i, (M.tri c.1).v i ≠ (M.tri c0.1).v (c0.2 + 1)) :
    Valid M' ∧ ∀ k, M'.live k ↔ M.live k ∧ k ≠ c0.1 := by
  obtain ⟨k0, i0⟩ := c0
  obtain ⟨k1, i1⟩ := c1
  obtain ⟨fv, fd, fa⟩ := F
  simp only at *
  obtain ⟨r1, r2, r3, r4⟩ := rot_spec h hk h1
  simp only [Mesh.at] at r1 r2 r3 r4 hB
  have hB1 : B (k1, i1) := (hrot _ _ hk h1).1 hB0
  have hp0 := h.pos k0 hk
  have hd0 := h.distinct k0 hk
  have e01 := h.lnk hk (i0 + 1) k1 (i1 + 2) r4
  have e0 := fun x y => h.lnk hk i0 x y
  have hcor : ∀ y, B (k0, y) → y = i0 := by
    intro y hy
    by_contra hne
    exact hd0 y i0 hne (hB _ hy).2
  have hcor2 : ∀ x y y', B (x, y) → B (x, y') → y = y' := by
    intro x y y' hy hy'
    by_contra hne
    exact h.distinct x (hB _ hy).1 y y' hne ((hB _ hy).2.trans (hB _ hy').2.symm)
  have hne01 : k1 ≠ k0 := e01.2.1
  obtain ⟨a1, a2, a3, a4, a5, a6, a7, a8⟩ := f3 i0
  obtain ⟨b1, b2, b3, b4, b5, b6, b7, b8⟩ := f3 i1
  have hlive : ∀ k, M'.live k ↔ M.live k ∧ k ≠ k0 := by
    intro k
    by_cases hk0 : k = k0
    · subst hk0; simp [Mesh.live, fd]
    · simp only [Mesh.live, hk0, ne_eq, not_false_eq_true, and_true]
      by_cases hb : B (k, 0)
      · rw [(fv k 0).1 hk0 hb]
        have := (hB _ hb).1
        exact ⟨fun _ => this, fun _ => hp0.2 _⟩
      · rw [(fv k 0).2 hk0 hb]
  refine ⟨⟨?_, ?_, ?_⟩, hlive⟩
  · intro k hk'
    obtain ⟨l1, l2⟩ := (hlive k).1 hk'
    refine ⟨(h.pos k l1).1, fun i => ?_⟩
    by_cases hb : B (k, i)
    · rw [(fv k i).1 l2 hb]; exact hp0.2 _
    · rw [(fv k i).2 l2 hb]; exact (h.pos k l1).2 i
  · intro k hk' i j hij
    obtain ⟨l1, l2⟩ := (hlive k).1 hk'
    have hd := h.distinct k l1 i j hij
    have hne : ∀ i, (k, i) ≠ (k0, i0) := fun i e => l2 (Prod.ext_iff.1 e).1
    by_cases hbi : B (k, i)
    · have hbj : ¬ B (k, j) := fun hb => hij (hcor2 k i j hbi hb)
      rw [(fv k i).1 l2 hbi, (fv k j).2 l2 hbj]
      exact (hno (k, i) hbi (hne i) j).symm
    · by_cases hbj : B (k, j)
      · rw [(fv k i).2 l2 hbi, (fv k j).1 l2 hbj]
        exact hno (k, j) hbj (hne j) i
      · rw [(fv k i).2 l2 hbi, (fv k j).2 l2 hbj]; exact hd
  · rintro ⟨x, y⟩ ⟨x', y'⟩ hl hadj
    obtain ⟨l1, l2⟩ := (hlive x).1 hl
    simp only at l1 l2 hadj ⊢
    rw [fa x y l2] at hadj
    simp only [Mesh.org, Mesh.dst]
    rw [hlive]
    obtain ⟨p1, p2, p3, p4, p5, p6, p7, p8⟩ := f3 y
    obtain ⟨q1, q2, q3, q4, q5, q6, q7, q8⟩ := f3 y'
    -- vertices outside of the collapsed one keep their number
    have nB : ∀ a b, (M.tri a).v b ≠ (M.tri k0).v i0 → ¬ B (a, b) := fun a b hne hb => hne (hB _ hb).2
    split at hadj
    · rename_i e
      cases e
      obtain ⟨w1, w2, w3, w4, w5⟩ := e0 x' y' hadj
      have s1 : ¬ B (x', y' + 1) := nB _ _ (by rw [w4]; exact hd0 _ _ a2)
      have s2 : ¬ B (x', y' + 2) := nB _ _ (by rw [w5]; exact hd0 _ _ a1)
      have s3 : ¬ B (k1, i1 + 1) := fun hb => b1 (hcor2 _ _ _ hb hB1)
      refine ⟨⟨w1, w2⟩, ?_, ?_, ?_⟩
      · rw [fa x' y' w2, hadj]
        rw [if_neg, if_pos rfl]
        intro e; cases e
        have := e01.2.2.1
        rw [w3] at this
        exact a1 (Prod.mk.inj (Option.some.inj this)).2.symm
      · rw [(fv x' (y' + 1)).2 w2 s1, b7, (fv k1 (i1 + 1)).2 l2 s3, w4]
        have := e01.2.2.2.2
        rw [b7, a4] at this
        rw [this]
      · rw [(fv x' (y' + 2)).2 w2 s2, b6, (fv k1 i1).1 l2 hB1, w5]
    · rename_i hne1
      split at hadj
      · rename_i hk2
        cases hadj
        obtain ⟨w1, w2, w3, w4, w5⟩ := e0 x y hk2
        have s1 : ¬ B (x, y + 1) := nB _ _ (by rw [w4]; exact hd0 _ _ a2)
        have s2 : ¬ B (x, y + 2) := nB _ _ (by rw [w5]; exact hd0 _ _ a1)
        have s3 : ¬ B (k1, i1 + 1) := fun hb => b1 (hcor2 _ _ _ hb hB1)
        refine ⟨⟨r1, hne01⟩, ?_, ?_, ?_⟩
        · rw [fa k1 (i1 + 2) hne01, if_pos rfl, hk2]
        · rw [b6, (fv k1 i1).1 hne01 hB1, (fv x (y + 2)).2 l2 s2, w5]
        · rw [b7, (fv k1 (i1 + 1)).2 hne01 s3, (fv x (y + 1)).2 l2 s1, w4]
          have := e01.2.2.2.2
          rw [b7, a4] at this
          rw [this]
      · rename_i hne2
        obtain ⟨w1, w2, w3, w4, w5⟩ := h.lnk l1 y x' y' hadj
        have hx' : x' ≠ k0 := by
          intro e; subst e
          rcases a8 y' with r | r | r
          · subst r; exact hne2 w3
          · subst r; rw [r4] at w3; exact hne1 (Option.some.inj w3).symm
          · subst r; rw [hop] at w3; cases w3
        have m1 : B (x, y + 2) ↔ B (x', y' + 1) := hrot _ _ l1 (by simp [Mesh.rot, p6, hadj])
        have m2 : B (x', y' + 2) ↔ B (x, y + 1) := hrot _ _ w1 (by simp [Mesh.rot, q6, w3])
        refine ⟨⟨w1, hx'⟩, ?_, ?_, ?_⟩
        · rw [fa x' y' hx', if_neg, if_neg, w3]
          · intro e
            have := (e0 x' y' e).2.2.1
            rw [w3] at this
            cases this
            exact l2 rfl
          · intro e; cases e
            have := e01.2.2.1
            rw [w3] at this
            cases this
            exact l2 rfl
        · by_cases hb : B (x', y' + 1)
          · rw [(fv _ _).1 hx' hb, (fv _ _).1 l2 (m1.2 hb)]
          · rw [(fv _ _).2 hx' hb, (fv _ _).2 l2 (fun hh => hb (m1.1 hh)), w4]
        · by_cases hb : B (x', y' + 2)
          · rw [(fv _ _).1 hx' hb, (fv _ _).1 l2 (m2.1 hb)]
          · rw [(fv _ _).2 hx' hb, (fv _ _).2 l2 (fun hh => hb (m2.2 hh)), w5]

/-- Closed form of the closed collapse. -/
structure ClosedForm (M M' : Mesh) (B : HE → Prop) (c0 c1 cm cl : HE) : Prop where
  v : ∀ x y, x ≠ c0.1 → x ≠ cl.1 → (B (x, y) → (M'.tri x).v y = (M.tri c0.1).v (c0.2 + 1)) ∧
    (¬ B (x, y) → (M'.tri x).v y = (M.tri x).v y)
  dead : (M'.tri c0.1).v 0 = 0 ∧ (M'.tri cl.1).v 0 = 0
  adj : ∀ x y, x ≠ c0.1 → x ≠ cl.1 → M'.adj (x, y) =
    if (x, y) = (cm.1, cm.2 + 1) then M.adj (cl.1, cl.2)
    else if M.adj (cl.1, cl.2) = some (x, y) then some (cm.1, cm.2 + 1)
    else if (x, y) = (c1.1, c1.2 + 2) then M.adj (c0.1, c0.2)
    else if M.adj (c0.1, c0.2) = some (x, y) then some (c1.1, c1.2 + 2) else M.adj (x, y)

theorem ClosedForm.valid {M' : Mesh} {cm cl : HE} (F : ClosedForm M M' B c0 c1 cm cl) (h : Valid M) (hk : M.live c0.1)
    (hB : ∀ c, B c → M.live c.1 ∧ M.at c = M.at c0) (hB0 : B c0)
    (hrot : ∀ c c', M.live c.1 → M.rot c = some c' → (B c ↔ B c'))
    (h1 : M.rot c0 = some c1) (hm : M.rot cm = some cl) (hl : M.rot cl = some c0) (hkm : M.live cm.1)
    (hkl : M.live cl.1)
    (n1 : c1 ≠ cl) (n0 : cm ≠ c0)
    (hno : ∀ c, B c → c ≠ c0 → c ≠ cl → ∀ i, (M.tri c.1).v i ≠ (M.tri c0.1).v (c0.2 + 1))
    (hap : (M.tri c0.1).v (c0.2 + 2) ≠ (M.tri cl.1).v (cl.2 + 1)) :
    Valid M' ∧ ∀ k, M'.live k ↔ M.live k ∧ k ≠ c0.1 ∧ k ≠ cl.1 := by
  obtain ⟨k0, i0⟩ := c0
  obtain ⟨k1, i1⟩ := c1
  obtain ⟨km, im⟩ := cm
  obtain ⟨kl, il⟩ := cl
  obtain ⟨fv, fd, fa⟩ := F
  simp only at *
  obtain ⟨r1, r2, r3, r4⟩ := rot_spec h hk h1
  obtain ⟨rl1, rl2, rl3, rl4⟩ := rot_spec h hkl hl
  obtain ⟨rm1, rm2, rm3, rm4⟩ := rot_spec h hkm hm
  simp only [Mesh.at] at r1 r2 r3 r4 rl1 rl2 rl3 rl4 rm1 rm2 rm3 rm4 hB
  have hB1 : B (k1, i1) := (hrot _ _ hk h1).1 hB0
  have hBl : B (kl, il) := (hrot _ _ hkl hl).2 hB0
  have hBm : B (km, im) := (hrot _ _ hkm hm).2 hBl
  have hp0 := h.pos k0 hk
  have hd0 := h.distinct k0 hk
  have hdl := h.distinct kl hkl
  have e01 := h.lnk hk (i0 + 1) k1 (i1 + 2) r4
  have el0 := h.lnk hkl (il + 1) k0 (i0 + 2) rl4
  have eml := h.lnk hkm (im + 1) kl (il + 2) rm4
  have e0 := fun x y => h.lnk hk i0 x y
  have el := fun x y => h.lnk hkl il x y
  have hcor2 : ∀ x y y', B (x, y) → B (x, y') → y = y' := by
    intro x y y' hy hy'
    by_contra hne
    exact h.distinct x (hB _ hy).1 y y' hne ((hB _ hy).2.trans (hB _ hy').2.symm)
  have n10 : k1 ≠ k0 := e01.2.1
  have nl0 : kl ≠ k0 := el0.2.1.symm
  have nml : km ≠ kl := eml.2.1.symm
  have n1l : k1 ≠ kl := by
    intro e; subst e
    exact n1 (Prod.ext rfl (hcor2 _ _ _ hB1 hBl))
  have nm0 : km ≠ k0 := by
    intro e; subst e
    exact n0 (Prod.ext rfl (hcor2 _ _ _ hBm hB0))
  obtain ⟨a1, a2, a3, a4, a5, a6, a7, a8⟩ := f3 i0
  obtain ⟨b1, b2, b3, b4, b5, b6, b7, b8⟩ := f3 i1
  obtain ⟨d1, d2, d3, d4, d5, d6, d7, d8⟩ := f3 il
  obtain ⟨g1, g2, g3, g4, g5, g6, g7, g8⟩ := f3 im
  -- vertex of kl
  have vl2 : (M.tri kl).v (il + 2) = (M.tri k0).v (i0 + 1) := by
    have := el0.2.2.2.2
    rw [a7, d4] at this
    exact this.symm
  have vm : (M.tri km).v (im + 2) = (M.tri kl).v (il + 1) := by
    have := eml.2.2.2.2
    rw [d7, g4] at this
    exact this.symm
  have v1 : (M.tri k1).v (i1 + 1) = (M.tri k0).v (i0 + 2) := by
    have := e01.2.2.2.2
    rw [b7, a4] at this
    exact this
  -- the outer neighbours are not removed
  have o0 : ∀ x y, M.adj (k0, i0) = some (x, y) → x ≠ kl := by
    rintro x y e rfl
    obtain ⟨w1, w2, w3, w4, w5⟩ := e0 x y e
    rcases d8 y with r | r | r
    · subst r; exact hap w4.symm
    · subst r; rw [rl4] at w3; exact a2 (Prod.mk.inj (Option.some.inj w3)).2
    · subst r
      rw [eml.2.2.1] at w3
      exact nm0 (Prod.mk.inj (Option.some.inj w3)).1
  have ol : ∀ x y, M.adj (kl, il) = some (x, y) → x ≠ k0 := by
    rintro x y e rfl
    obtain ⟨w1, w2, w3, w4, w5⟩ := el x y e
    rcases a8 y with r | r | r
    · subst r; exact hap w5
    · subst r; rw [r4] at w3; exact n1l (Prod.mk.inj (Option.some.inj w3)).1
    · subst r
      rw [el0.2.2.1] at w3
      exact d1 (Prod.mk.inj (Option.some.inj w3)).2
  have hlive : ∀ k, M'.live k ↔ M.live k ∧ k ≠ k0 ∧ k ≠ kl := by
    intro k
    by_cases hk0 : k = k0
    · subst hk0; simp [Mesh.live, fd.1]
    by_cases hkl' : k = kl
    · subst hkl'; simp [Mesh.live, fd.2]
    · simp only [Mesh.live, hk0, hkl', ne_eq, not_false_eq_true, and_true]
      by_cases hb : B (k, 0)
      · rw [(fv k 0 hk0 hkl').1 hb]
        have := (hB _ hb).1
        exact ⟨fun _ => this, fun _ => hp0.2 _⟩
      · rw [(fv k 0 hk0 hkl').2 hb]
  refine ⟨⟨?_, ?_, ?_⟩, hlive⟩
  · intro k hk'
    obtain ⟨l1, l2, l3⟩ := (hlive k).1 hk'
    refine ⟨(h.pos k l1).1, fun i => ?_⟩
    by_cases hb : B (k, i)
    · rw [(fv k i l2 l3).1 hb]; exact hp0.2 _
    · rw [(fv k i l2 l3).2 hb]; exact (h.pos k l1).2 i
  · intro k hk' i j hij
    obtain ⟨l1, l2, l3⟩ := (hlive k).1 hk'
    have hd := h.distinct k l1 i j hij
    have hne : ∀ i, (k, i) ≠ (k0, i0) := fun i e => l2 (Prod.ext_iff.1 e).1
    have hne' : ∀ i, (k, i) ≠ (kl, il) := fun i e => l3 (Prod.ext_iff.1 e).1
    by_cases hbi : B (k, i)
    · have hbj : ¬ B (k, j) := fun hb => hij (hcor2 k i j hbi hb)
      rw [(fv k i l2 l3).1 hbi, (fv k j l2 l3).2 hbj]
      exact (hno (k, i) hbi (hne i) (hne' i) j).symm
    · by_cases hbj : B (k, j)
      · rw [(fv k i l2 l3).2 hbi, (fv k j l2 l3).1 hbj]
        exact hno (k, j) hbj (hne j) (hne' j) i
      · rw [(fv k i l2 l3).2 hbi, (fv k j l2 l3).2 hbj]; exact hd
  · rintro ⟨x, y⟩ ⟨x', y'⟩ hl' hadj
    obtain ⟨l1, l2, l3⟩ := (hlive x).1 hl'
    simp only at l1 l2 l3 hadj ⊢
    rw [fa x y l2 l3] at hadj
    simp only [Mesh.org, Mesh.dst]
    rw [hlive]
    obtain ⟨p1, p2, p3, p4, p5, p6, p7, p8⟩ := f3 y
    obtain ⟨q1, q2, q3, q4, q5, q6, q7, q8⟩ := f3 y'
    have nB : ∀ a b, (M.tri a).v b ≠ (M.tri k0).v i0 → ¬ B (a, b) := fun a b hne hb => hne (hB _ hb).2
    have il0 : (M.tri kl).v il = (M.tri k0).v i0 := (hB _ hBl).2
    -- third corners of the two merged triangles
    have s1' : ¬ B (k1, i1 + 1) := fun hb => b1 (hcor2 _ _ _ hb hB1)
    have sm' : ¬ B (km, im + 2) := fun hb => g2 (hcor2 _ _ _ hb hBm)
    have vmB := (fv km im nm0 nml).1 hBm
    have vmN := (fv km (im + 2) nm0 nml).2 sm'
    have v1B := (fv k1 i1 n10 n1l).1 hB1
    have v1N := (fv k1 (i1 + 1) n10 n1l).2 s1'
    split at hadj
    · rename_i e
      cases e
      obtain ⟨w1, w2, w3, w4, w5⟩ := el x' y' hadj
      have w0 := ol x' y' hadj
      have s1 : ¬ B (x', y' + 1) := nB _ _ (by rw [w4, vl2]; exact hd0 _ _ a1)
      have s2 : ¬ B (x', y' + 2) := nB _ _ (by rw [w5, ← il0]; exact hdl _ _ d1)
      refine ⟨⟨w1, w0, w2⟩, ?_, ?_, ?_⟩
      · rw [fa x' y' w0 w2, hadj, if_neg, if_pos rfl]
        intro e; cases e
        rw [rm4] at w3
        exact d2 (Prod.mk.inj (Option.some.inj w3)).2
      · rw [(fv x' (y' + 1) w0 w2).2 s1, g5, vmB, w4, vl2]
      · rw [(fv x' (y' + 2) w0 w2).2 s2, g4, vmN, w5, vm]
    rename_i hne1
    split at hadj
    · rename_i hk2
      cases hadj
      obtain ⟨w1, w2, w3, w4, w5⟩ := el x y hk2
      have s1 : ¬ B (x, y + 1) := nB _ _ (by rw [w4, vl2]; exact hd0 _ _ a1)
      have s2 : ¬ B (x, y + 2) := nB _ _ (by rw [w5, ← il0]; exact hdl _ _ d1)
      refine ⟨⟨hkm, nm0, nml⟩, ?_, ?_, ?_⟩
      · rw [fa km (im + 1) nm0 nml, if_pos rfl, hk2]
      · rw [g4, vmN, (fv x (y + 2) l2 l3).2 s2, w5, vm]
      · rw [g5, vmB, (fv x (y + 1) l2 l3).2 s1, w4, vl2]
    rename_i hne2
    split at hadj
    · rename_i e
      cases e
      obtain ⟨w1, w2, w3, w4, w5⟩ := e0 x' y' hadj
      have w0 := o0 x' y' hadj
      have s1 : ¬ B (x', y' + 1) := nB _ _ (by rw [w4]; exact hd0 _ _ a2)
      have s2 : ¬ B (x', y' + 2) := nB _ _ (by rw [w5]; exact hd0 _ _ a1)
      refine ⟨⟨w1, w2, w0⟩, ?_, ?_, ?_⟩
      · rw [fa x' y' w2 w0, if_neg, if_neg, if_neg, if_pos hadj]
        · intro e; cases e
          rw [e01.2.2.1] at w3
          exact a1 (Prod.mk.inj (Option.some.inj w3)).2
        · intro e
          have := (el x' y' e).2.2.1
          rw [w3] at this
          exact nl0 (Prod.mk.inj (Option.some.inj this)).1.symm
        · intro e; cases e
          rw [rm4] at w3
          exact nl0 (Prod.mk.inj (Option.some.inj w3)).1
      · rw [(fv x' (y' + 1) w2 w0).2 s1, b7, v1N, w4, v1]
      · rw [(fv x' (y' + 2) w2 w0).2 s2, b6, v1B, w5]
    rename_i hne3
    split at hadj
    · rename_i hk2
      cases hadj
      obtain ⟨w1, w2, w3, w4, w5⟩ := e0 x y hk2
      have s1 : ¬ B (x, y + 1) := nB _ _ (by rw [w4]; exact hd0 _ _ a2)
      have s2 : ¬ B (x, y + 2) := nB _ _ (by rw [w5]; exact hd0 _ _ a1)
      refine ⟨⟨r1, n10, n1l⟩, ?_, ?_, ?_⟩
      · rw [fa k1 (i1 + 2) n10 n1l, if_neg, if_neg, if_pos rfl, hk2]
        · intro e
          have := (el _ _ e).2.2.1
          rw [e01.2.2.1] at this
          exact nl0 (Prod.mk.inj (Option.some.inj this)).1.symm
        · intro e
          obtain ⟨ea, eb⟩ := Prod.mk.inj e
          subst ea
          have := hcor2 _ _ _ hB1 hBm
          subst this
          exact b3 eb.symm
      · rw [b6, v1B, (fv x (y + 2) l2 l3).2 s2, w5]
      · rw [b7, v1N, (fv x (y + 1) l2 l3).2 s1, w4, v1]
    rename_i hne4
    obtain ⟨w1, w2, w3, w4, w5⟩ := h.lnk l1 y x' y' hadj
    have hx0 : x' ≠ k0 := by
      intro e; subst e
      rcases a8 y' with r | r | r
      · subst r; exact hne4 w3
      · subst r; rw [r4] at w3; exact hne3 (Option.some.inj w3).symm
      · subst r; rw [el0.2.2.1] at w3; exact l3 (Prod.mk.inj (Option.some.inj w3)).1.symm
    have hxl : x' ≠ kl := by
      intro e; subst e
      rcases d8 y' with r | r | r
      · subst r; exact hne2 w3
      · subst r; rw [rl4] at w3; exact l2 (Prod.mk.inj (Option.some.inj w3)).1.symm
      · subst r; rw [eml.2.2.1] at w3; exact hne1 (Option.some.inj w3).symm
    have m1 : B (x, y + 2) ↔ B (x', y' + 1) := hrot _ _ l1 (by simp [Mesh.rot, p6, hadj])
    have m2 : B (x', y' + 2) ↔ B (x, y + 1) := hrot _ _ w1 (by simp [Mesh.rot, q6, w3])
    refine ⟨⟨w1, hx0, hxl⟩, ?_, ?_, ?_⟩
    · rw [fa x' y' hx0 hxl, if_neg, if_neg, if_neg, if_neg, w3]
      · intro e
        have := (e0 x' y' e).2.2.1
        rw [w3] at this
        exact l2 (Prod.mk.inj (Option.some.inj this)).1
      · intro e; cases e
        have := e01.2.2.1
        rw [w3] at this
        exact l2 (Prod.mk.inj (Option.some.inj this)).1
      · intro e
        have := (el x' y' e).2.2.1
        rw [w3] at this
        exact l3 (Prod.mk.inj (Option.some.inj this)).1
      · intro e; cases e
        rw [rm4] at w3
        exact l3 (Prod.mk.inj (Option.some.inj w3)).1.symm
    · by_cases hb : B (x', y' + 1)
      · rw [(fv _ _ hx0 hxl).1 hb, (fv _ _ l2 l3).1 (m1.2 hb)]
      · rw [(fv _ _ hx0 hxl).2 hb, (fv _ _ l2 l3).2 (fun hh => hb (m1.1 hh)), w4]
    · by_cases hb : B (x', y' + 2)
      · rw [(fv _ _ hx0 hxl).1 hb, (fv _ _ l2 l3).1 (m2.1 hb)]
      · rw [(fv _ _ hx0 hxl).2 hb, (fv _ _ l2 l3).2 (fun hh => hb (m2.2 hh)), w5]

/-- The boundary half edges of the two meshes correspond. -/
theorem ClosedForm.circ {M' : Mesh} {cm cl : HE} (F : ClosedForm M M' B c0 c1 cm cl) (h : Valid M) (h' : Valid M')
    (hlive : ∀ k, M'.live k ↔ M.live k ∧ k ≠ c0.1 ∧ k ≠ cl.1)
    (hk : M.live c0.1)
    (hB : ∀ c, B c → M.live c.1 ∧ M.at c = M.at c0)
    (hrot : ∀ c c', M.live c.1 → M.rot c = some c' → (B c ↔ B c'))
    (h1 : M.rot c0 = some c1) (hm : M.rot cm = some cl) (hl : M.rot cl = some c0) (hkm : M.live cm.1)
    (hkl : M.live cl.1) (n1 : c1 ≠ cl) (n0 : cm ≠ c0) (hB0 : B c0)
    (hcl : ∀ c, B c → ∀ i, i ≠ c.2 → M.adj (c.1, i) ≠ none)
    {G : Type} [AddCommGroup G] {f : Nat → Nat → G} (hf : Anti f) {N : Nat} (hN : ∀ k, M.live k → k < N) :
    circ f N M' = circ f N M := by
  rw [C16_circulation_is_boundary hf h hN, C16_circulation_is_boundary hf h' (fun k hk => hN k ((hlive k).1 hk).1)]
  obtain ⟨k0, i0⟩ := c0
  obtain ⟨k1, i1⟩ := c1
  obtain ⟨km, im⟩ := cm
  obtain ⟨kl, il⟩ := cl
  obtain ⟨fv, fd, fa⟩ := F
  simp only at *
  obtain ⟨r1, r2, r3, r4⟩ := rot_spec h hk h1
  obtain ⟨rl1, rl2, rl3, rl4⟩ := rot_spec h hkl hl
  obtain ⟨rm1, rm2, rm3, rm4⟩ := rot_spec h hkm hm
  simp only [Mesh.at] at r1 r2 r3 r4 rl1 rl2 rl3 rl4 rm1 rm2 rm3 rm4 hB
  have hB1 : B (k1, i1) := (hrot _ _ hk h1).1 hB0
  have hBl : B (kl, il) := (hrot _ _ hkl hl).2 hB0
  have hBm : B (km, im) := (hrot _ _ hkm hm).2 hBl
  have e01 := h.lnk hk (i0 + 1) k1 (i1 + 2) r4
  have el0 := h.lnk hkl (il + 1) k0 (i0 + 2) rl4
  have eml := h.lnk hkm (im + 1) kl (il + 2) rm4
  have hcor2 : ∀ x y y', B (x, y) → B (x, y') → y = y' := by
    intro x y y' hy hy'
    by_contra hne
    exact h.distinct x (hB _ hy).1 y y' hne ((hB _ hy).2.trans (hB _ hy').2.symm)
  have n10 : k1 ≠ k0 := e01.2.1
  have nl0 : kl ≠ k0 := el0.2.1.symm
  have nml : km ≠ kl := eml.2.1.symm
  have n1l : k1 ≠ kl := by
    intro e; subst e
    exact n1 (Prod.ext rfl (hcor2 _ _ _ hB1 hBl))
  have nm0 : km ≠ k0 := by
    intro e; subst e
    exact n0 (Prod.ext rfl (hcor2 _ _ _ hBm hB0))
  obtain ⟨a1, a2, a3, a4, a5, a6, a7, a8⟩ := f3 i0
  obtain ⟨b1, b2, b3, b4, b5, b6, b7, b8⟩ := f3 i1
  obtain ⟨d1, d2, d3, d4, d5, d6, d7, d8⟩ := f3 il
  obtain ⟨g1, g2, g3, g4, g5, g6, g7, g8⟩ := f3 im
  have vl2 : (M.tri kl).v (il + 2) = (M.tri k0).v (i0 + 1) := by
    have := el0.2.2.2.2
    rw [a7, d4] at this
    exact this.symm
  have vm : (M.tri km).v (im + 2) = (M.tri kl).v (il + 1) := by
    have := eml.2.2.2.2
    rw [d7, g4] at this
    exact this.symm
  have v1 : (M.tri k1).v (i1 + 1) = (M.tri k0).v (i0 + 2) := by
    have := e01.2.2.2.2
    rw [b7, a4] at this
    exact this
  have s1' : ¬ B (k1, i1 + 1) := fun hb => b1 (hcor2 _ _ _ hb hB1)
  have sm' : ¬ B (km, im + 2) := fun hb => g2 (hcor2 _ _ _ hb hBm)
  have vmB := (fv km im nm0 nml).1 hBm
  have vmN := (fv km (im + 2) nm0 nml).2 sm'
  have v1B := (fv k1 i1 n10 n1l).1 hB1
  have v1N := (fv k1 (i1 + 1) n10 n1l).2 s1'
  have nem : (k1, i1 + 2) ≠ (km, im + 1) := by
    intro e
    obtain ⟨ea, eb⟩ := Prod.mk.inj e
    subst ea
    have := hcor2 _ _ _ hB1 hBm
    subst this
    exact b3 eb.symm
  have c0a := hcl _ hB0 (i0 + 1) a1
  have c0b := hcl _ hB0 (i0 + 2) a2
  have cla := hcl _ hBl (il + 1) d1
  have clb := hcl _ hBl (il + 2) d2
  have c1a := hcl _ hB1 (i1 + 2) b2
  have cma := hcl _ hBm (im + 1) g1
  simp only at c0a c0b cla clb c1a cma
  apply Finset.sum_nbij' (fun e => if e = (k1, i1 + 2) then (k0, i0) else if e = (km, im + 1) then (kl, il) else e)
    (fun e => if e = (k0, i0) then (k1, i1 + 2) else if e = (kl, il) then (km, im + 1) else e)
  · rintro ⟨x, y⟩ he
    simp only [Finset.mem_filter, Finset.mem_product, Finset.mem_range, Finset.mem_univ, and_true] at he ⊢
    obtain ⟨hx, hlv, hadj⟩ := he
    obtain ⟨l1, l2, l3⟩ := (hlive x).1 hlv
    rw [fa x y l2 l3] at hadj
    split
    · rename_i e
      rw [e, if_neg nem] at hadj
      split at hadj
      · cases hadj
      · simp only [if_true] at hadj; exact ⟨hN _ hk, hk, hadj⟩
    · rename_i e1
      split
      · rename_i e
        rw [e] at hadj
        simp only [if_true] at hadj; exact ⟨hN _ hkl, hkl, hadj⟩
      · rename_i e2
        rw [if_neg e2] at hadj
        split at hadj
        · cases hadj
        try rw [if_neg e1] at hadj
        split at hadj
        · cases hadj
        exact ⟨hx, l1, hadj⟩
  · rintro ⟨x, y⟩ he
    simp only [Finset.mem_filter, Finset.mem_product, Finset.mem_range, Finset.mem_univ, and_true] at he ⊢
    obtain ⟨hx, hlv, hadj⟩ := he
    split
    · rename_i e
      cases e
      refine ⟨hN _ r1, (hlive _).2 ⟨r1, n10, n1l⟩, ?_⟩
      rw [fa k1 (i1 + 2) n10 n1l, if_neg nem, if_neg, if_pos rfl, hadj]
      intro e
      have := (h.lnk hkl _ _ _ e).2.2.1
      rw [e01.2.2.1] at this
      exact nl0 (Prod.mk.inj (Option.some.inj this)).1.symm
    · rename_i e1
      split
      · rename_i e
        cases e
        refine ⟨hN _ hkm, (hlive _).2 ⟨hkm, nm0, nml⟩, ?_⟩
        rw [fa km (im + 1) nm0 nml, if_pos rfl, hadj]
      · rename_i e2
        have x0 : x ≠ k0 := by
          rintro rfl
          rcases a8 y with r | r | r
          · subst r; exact e1 rfl
          · subst r; exact c0a hadj
          · subst r; exact c0b hadj
        have xl : x ≠ kl := by
          rintro rfl
          rcases d8 y with r | r | r
          · subst r; exact e2 rfl
          · subst r; exact cla hadj
          · subst r; exact clb hadj
        refine ⟨hx, (hlive _).2 ⟨hlv, x0, xl⟩, ?_⟩
        rw [fa x y x0 xl, if_neg, if_neg, if_neg, if_neg, hadj]
        · intro e
          have := (h.lnk hk _ _ _ e).2.2.1
          rw [hadj] at this; cases this
        · intro e; rw [e] at hadj; exact c1a hadj
        · intro e
          have := (h.lnk hkl _ _ _ e).2.2.1
          rw [hadj] at this; cases this
        · intro e; rw [e] at hadj; exact cma hadj
  · rintro ⟨x, y⟩ he
    simp only [Finset.mem_filter, Finset.mem_product, Finset.mem_range, Finset.mem_univ, and_true] at he
    obtain ⟨hx, hlv, hadj⟩ := he
    obtain ⟨l1, l2, l3⟩ := (hlive x).1 hlv
    by_cases e1 : (x, y) = (k1, i1 + 2)
    · simp [e1]
    · by_cases e2 : (x, y) = (km, im + 1)
      · rw [if_neg e1, if_pos e2, if_neg, if_pos rfl, e2]
        intro e; exact nl0 (Prod.mk.inj e).1
      · rw [if_neg e1, if_neg e2, if_neg, if_neg]
        · intro e; exact l3 (Prod.mk.inj e).1
        · intro e; exact l2 (Prod.mk.inj e).1
  · rintro ⟨x, y⟩ he
    simp only [Finset.mem_filter, Finset.mem_product, Finset.mem_range, Finset.mem_univ, and_true] at he
    obtain ⟨hx, hlv, hadj⟩ := he
    by_cases e1 : (x, y) = (k0, i0)
    · simp [e1]
    · by_cases e2 : (x, y) = (kl, il)
      · rw [if_neg e1, if_pos e2, if_neg nem.symm, if_pos rfl, e2]
      · rw [if_neg e1, if_neg e2, if_neg, if_neg]
        · intro e; rw [e] at hadj; exact cma hadj
        · intro e; rw [e] at hadj; exact c1a hadj
  · rintro ⟨x, y⟩ he
    simp only [Finset.mem_filter, Finset.mem_product, Finset.mem_range, Finset.mem_univ, and_true] at he
    obtain ⟨hx, hlv, hadj⟩ := he
    obtain ⟨l1, l2, l3⟩ := (hlive x).1 hlv
    obtain ⟨p1, p2, p3, p4, p5, p6, p7, p8⟩ := f3 y
    rw [fa x y l2 l3] at hadj
    simp only [Mesh.org, Mesh.dst]
    split
    · rename_i e
      obtain ⟨rfl, rfl⟩ := Prod.mk.inj e
      simp only [b6, b7, v1B, v1N, v1]
    · rename_i e1
      split
      · rename_i e
        obtain ⟨rfl, rfl⟩ := Prod.mk.inj e
        simp only [g5, g4, vmB, vmN, vm, vl2]
      · rename_i e2
        rw [if_neg e2] at hadj
        split at hadj
        · cases hadj
        try rw [if_neg e1] at hadj
        split at hadj
        · cases hadj
        have t1 : ¬ B (x, y + 1) := fun hb => hcl _ hb y (by simpa using p1.symm) hadj
        have t2 : ¬ B (x, y + 2) := fun hb => hcl _ hb y (by simpa using p2.symm) hadj
        simp only [(fv x _ l2 l3).2 t1, (fv x _ l2 l3).2 t2]

/-- Boundary of the open collapse: the two boundary edges `u p1`, `p1 p2` become `u p2`. -/
theorem OpenForm.circ {M' : Mesh} {ce : HE} (F : OpenForm M M' B c0 c1) (h : Valid M) (h' : Valid M')
    (hlive : ∀ k, M'.live k ↔ M.live k ∧ k ≠ c0.1)
    (hk : M.live c0.1)
    (hB : ∀ c, B c → M.live c.1 ∧ M.at c = M.at c0) (hB0 : B c0)
    (hrot : ∀ c c', M.live c.1 → M.rot c = some c' → (B c ↔ B c'))
    (h1 : M.rot c0 = some c1) (hop : M.adj (c0.1, c0.2 + 2) = none)
    (hBe : B ce) (hke : M.live ce.1) (hre : M.rot ce = none)
    (hcl1 : ∀ c, B c → M.adj (c.1, c.2 + 1) = none → c = ce)
    (hcl2 : ∀ c, B c → M.adj (c.1, c.2 + 2) = none → c = c0)
    {G : Type} [AddCommGroup G] {f : Nat → Nat → G} (hf : Anti f) {N : Nat} (hN : ∀ k, M.live k → k < N) :
    circ f N M' = circ f N M - f (M.at c0) ((M.tri c0.1).v (c0.2 + 1)) - f ((M.tri ce.1).v (ce.2 + 2)) (M.at c0)
      + f ((M.tri ce.1).v (ce.2 + 2)) ((M.tri c0.1).v (c0.2 + 1)) := by
  rw [C16_circulation_is_boundary hf h hN, C16_circulation_is_boundary hf h' (fun k hk => hN k ((hlive k).1 hk).1)]
  obtain ⟨k0, i0⟩ := c0
  obtain ⟨k1, i1⟩ := c1
  obtain ⟨ke, ie⟩ := ce
  obtain ⟨fv, fd, fa⟩ := F
  simp only at *
  obtain ⟨r1, r2, r3, r4⟩ := rot_spec h hk h1
  simp only [Mesh.at] at r1 r2 r3 r4 hB ⊢
  have hB1 : B (k1, i1) := (hrot _ _ hk h1).1 hB0
  have e01 := h.lnk hk (i0 + 1) k1 (i1 + 2) r4
  have hcor2 : ∀ x y y', B (x, y) → B (x, y') → y = y' := by
    intro x y y' hy hy'
    by_contra hne
    exact h.distinct x (hB _ hy).1 y y' hne ((hB _ hy).2.trans (hB _ hy').2.symm)
  have n10 : k1 ≠ k0 := e01.2.1
  obtain ⟨a1, a2, a3, a4, a5, a6, a7, a8⟩ := f3 i0
  obtain ⟨b1, b2, b3, b4, b5, b6, b7, b8⟩ := f3 i1
  obtain ⟨d1, d2, d3, d4, d5, d6, d7, d8⟩ := f3 ie
  have aee : M.adj (ke, ie + 1) = none := by simpa [Mesh.rot] using hre
  have ne0 : ke ≠ k0 := by
    rintro rfl
    have := hcor2 _ _ _ hBe hB0
    subst this
    rw [r4] at aee; cases aee
  have v1 : (M.tri k1).v (i1 + 1) = (M.tri k0).v (i0 + 2) := by
    have := e01.2.2.2.2
    rw [b7, a4] at this
    exact this
  have s1' : ¬ B (k1, i1 + 1) := fun hb => b1 (hcor2 _ _ _ hb hB1)
  have se' : ¬ B (ke, ie + 2) := fun hb => d2 (hcor2 _ _ _ hb hBe)
  have v1B := (fv k1 i1).1 n10 hB1
  have v1N := (fv k1 (i1 + 1)).2 n10 s1'
  have veB := (fv ke ie).1 ne0 hBe
  have veN := (fv ke (ie + 2)).2 ne0 se'
  have vee : (M.tri ke).v ie = (M.tri k0).v i0 := (hB _ hBe).2
  have ne1 : (ke, ie + 1) ≠ (k1, i1 + 2) := by
    intro e
    obtain ⟨ea, eb⟩ := Prod.mk.inj e
    subst ea
    have := hcor2 _ _ _ hB1 hBe
    subst this
    exact b3 eb
  have adjE : M'.adj (ke, ie + 1) = none := by
    rw [fa ke (ie + 1) ne0, if_neg ne1, if_neg, aee]
    intro e
    have := (h.lnk hk _ _ _ e).2.2.1
    rw [aee] at this; cases this
  have memS0 : (k0, i0 + 2) ∈ ((Finset.range N) ×ˢ (Finset.univ : Finset (Fin 3))).filter
      (fun e => M.live e.1 ∧ M.adj e = none) := by
    simp only [Finset.mem_filter, Finset.mem_product, Finset.mem_range, Finset.mem_univ, and_true]
    exact ⟨hN _ hk, hk, hop⟩
  have memSe : (ke, ie + 1) ∈ (((Finset.range N) ×ˢ (Finset.univ : Finset (Fin 3))).filter
      (fun e => M.live e.1 ∧ M.adj e = none)).erase (k0, i0 + 2) := by
    rw [Finset.mem_erase]
    simp only [Finset.mem_filter, Finset.mem_product, Finset.mem_range, Finset.mem_univ, and_true]
    exact ⟨fun e => ne0 (Prod.mk.inj e).1, hN _ hke, hke, aee⟩
  have memE : (ke, ie + 1) ∈ ((Finset.range N) ×ˢ (Finset.univ : Finset (Fin 3))).filter
      (fun e => M'.live e.1 ∧ M'.adj e = none) := by
    simp only [Finset.mem_filter, Finset.mem_product, Finset.mem_range, Finset.mem_univ, and_true]
    exact ⟨hN _ hke, (hlive _).2 ⟨hke, ne0⟩, adjE⟩
  rw [← Finset.add_sum_erase _ _ memS0, ← Finset.add_sum_erase _ _ memSe, ← Finset.add_sum_erase _ _ memE]
  have hsum : ∑ x ∈ (((Finset.range N) ×ˢ (Finset.univ : Finset (Fin 3))).filter
      (fun e => M'.live e.1 ∧ M'.adj e = none)).erase (ke, ie + 1), f (M'.org x) (M'.dst x) =
      ∑ x ∈ ((((Finset.range N) ×ˢ (Finset.univ : Finset (Fin 3))).filter
      (fun e => M.live e.1 ∧ M.adj e = none)).erase (k0, i0 + 2)).erase (ke, ie + 1), f (M.org x) (M.dst x) := by
    apply Finset.sum_nbij' (fun e => if e = (k1, i1 + 2) then (k0, i0) else e)
      (fun e => if e = (k0, i0) then (k1, i1 + 2) else e)
    · rintro ⟨x, y⟩ he
      simp only [Finset.mem_erase, Finset.mem_filter, Finset.mem_product, Finset.mem_range, Finset.mem_univ, and_true] at he ⊢
      obtain ⟨hxe, hx, hlv, hadj⟩ := he
      obtain ⟨l1, l2⟩ := (hlive x).1 hlv
      rw [fa x y l2] at hadj
      split
      · rename_i e
        rw [if_pos e] at hadj
        exact ⟨fun e => ne0 (Prod.mk.inj e).1.symm, fun e => a2 (Prod.mk.inj e).2.symm, hN _ hk, hk, hadj⟩
      · rename_i e1
        rw [if_neg e1] at hadj
        split at hadj
        · cases hadj
        exact ⟨hxe, fun e => l2 (Prod.mk.inj e).1, hx, l1, hadj⟩
    · rintro ⟨x, y⟩ he
      simp only [Finset.mem_erase, Finset.mem_filter, Finset.mem_product, Finset.mem_range, Finset.mem_univ, and_true] at he ⊢
      obtain ⟨hxe, hx0, hx, hlv, hadj⟩ := he
      split
      · rename_i e
        obtain ⟨rfl, rfl⟩ := Prod.mk.inj e
        refine ⟨ne1.symm, hN _ r1, (hlive _).2 ⟨r1, n10⟩, ?_⟩
        rw [fa k1 (i1 + 2) n10, if_pos rfl, hadj]
      · rename_i e1
        have x0 : x ≠ k0 := by
          rintro rfl
          rcases a8 y with r | r | r
          · subst r; exact e1 rfl
          · subst r; rw [r4] at hadj; cases hadj
          · subst r; exact hx0 rfl
        refine ⟨hxe, hx, (hlive _).2 ⟨hlv, x0⟩, ?_⟩
        rw [fa x y x0, if_neg, if_neg, hadj]
        · intro e
          have := (h.lnk hk _ _ _ e).2.2.1
          rw [hadj] at this; cases this
        · intro e
          rw [e, e01.2.2.1] at hadj; cases hadj
    · rintro ⟨x, y⟩ he
      simp only [Finset.mem_erase, Finset.mem_filter, Finset.mem_product, Finset.mem_range, Finset.mem_univ, and_true] at he
      obtain ⟨hxe, hx, hlv, hadj⟩ := he
      obtain ⟨l1, l2⟩ := (hlive x).1 hlv
      by_cases e1 : (x, y) = (k1, i1 + 2)
      · simp [e1]
      · rw [if_neg e1, if_neg]
        intro e; exact l2 (Prod.mk.inj e).1
    · rintro ⟨x, y⟩ he
      simp only [Finset.mem_erase, Finset.mem_filter, Finset.mem_product, Finset.mem_range, Finset.mem_univ, and_true] at he
      obtain ⟨hxe, hx0, hx, hlv, hadj⟩ := he
      by_cases e1 : (x, y) = (k0, i0)
      · simp [e1]
      · rw [if_neg e1, if_neg]
        intro e; rw [e, e01.2.2.1] at hadj; cases hadj
    · rintro ⟨x, y⟩ he
      simp only [Finset.mem_erase, Finset.mem_filter, Finset.mem_product, Finset.mem_range, Finset.mem_univ, and_true] at he
      obtain ⟨hxe, hx, hlv, hadj⟩ := he
      obtain ⟨l1, l2⟩ := (hlive x).1 hlv
      obtain ⟨p1, p2, p3, p4, p5, p6, p7, p8⟩ := f3 y
      rw [fa x y l2] at hadj
      simp only [Mesh.org, Mesh.dst]
      split
      · rename_i e
        obtain ⟨rfl, rfl⟩ := Prod.mk.inj e
        simp only [b6, b7, v1B, v1N, v1]
      · rename_i e1
        rw [if_neg e1] at hadj
        split at hadj
        · cases hadj
        have t1 : ¬ B (x, y + 1) := fun hb => by
          have := hcl2 _ hb (by simpa [p5] using hadj)
          exact l2 (Prod.mk.inj this).1
        have t2 : ¬ B (x, y + 2) := fun hb => by
          have := hcl1 _ hb (by simpa [p6] using hadj)
          obtain ⟨ea, eb⟩ := Prod.mk.inj this
          subst ea; subst eb
          exact hxe (by simp [p6])
        simp only [(fv x _).2 l2 t1, (fv x _).2 l2 t2]
  rw [hsum]
  simp only [Mesh.org, Mesh.dst, a6, a7, d4, d5, veB, veN, vee]
  abel

end

end Mmg.Tri2
