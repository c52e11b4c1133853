/-
  C95, helper lemmas: the collapse keeps the required entities.
-/
import Verif.Req2Lemmas

set_option linter.unusedSimpArgs false

namespace Mmg.Req2

open Mmg.Tri2

variable {K : Type}

/-- A collapse of `p` on `q` seen from the required edges: `D` the removed triangles, `B` the corners that move, `m e e'` if edge `e`
of a removed triangle is replaced by `e'`. -/
structure Merge (M M' : Mesh) (p q : Nat) (D : Nat → Prop) (B : HE → Prop) (m : HE → HE → Prop) : Prop where
  valid : Valid M'
  live : ∀ k, M'.live k ↔ M.live k ∧ ¬ D k
  v : ∀ x y, M'.live x → (B (x, y) → (M'.tri x).v y = q) ∧ (¬ B (x, y) → (M'.tri x).v y = (M.tri x).v y)
  ref : ∀ x, M'.live x → (M'.tri x).ref = (M.tri x).ref
  ball : ∀ c, B c → (M.tri c.1).v c.2 = p
  adj : ∀ h h', M'.live h.1 → M'.adj h = some h' → (M.adj h = some h' ∧ ∀ e, ¬ m e h) ∨ (∃ e, m e h ∧ M.adj e = some h') ∨
    ∃ e, m e h' ∧ M.adj e = some h
  tag : ∀ h : HE, M'.live h.1 → (req ((M'.tri h.1).tag h.2) = true ↔
    (req ((M.tri h.1).tag h.2) = true ∨ ∃ e, m e h ∧ req ((M.tri e.1).tag e.2) = true))
  old : ∀ e e', m e e' → M.live e.1 ∧ (M.tri e.1).v e.2 = p
  new : ∀ e e', m e e' → M'.live e'.1 ∧ M'.org e' = M.org e ∧ M'.dst e' = M.dst e ∧ (M.org e' = p ∨ M.dst e' = p)
  one : ∀ e e2 e', m e e' → m e2 e' → e = e2
  gone : ∀ x, M.live x → D x → ∃ c e', c.1 = x ∧ m c e'

theorem Merge.ready {S : St K} (R : Ready S) {M' : Mesh} {p q : Nat} {D : Nat → Prop} {B : HE → Prop} {m : HE → HE → Prop}
    (F : Merge S.M M' p q D B m) (hp : req (S.tag p) = false) :
    Ready { S with M := M', tag := colPts S p q } ∧ Keeps S { S with M := M', tag := colPts S p q } := by
  obtain ⟨M, pos, tag⟩ := S
  have h := R.valid
  simp only at *
  have nop : ∀ x : HE, M.live x.1 → req ((M.tri x.1).tag x.2) = true → M.org x ≠ p ∧ M.dst x ≠ p := by
    intro x hx r
    have := R.ends x hx r
    constructor
    · intro e
      have t := this.1
      simp only [e] at t
      rw [hp] at t; cases t
    · intro e
      have t := this.2
      simp only [e] at t
      rw [hp] at t; cases t
  have noe : ∀ e e', m e e' → M.org e ≠ p ∧ M.dst e ≠ p := by
    intro e e' he
    obtain ⟨l, a⟩ := F.old e e' he
    obtain ⟨a1, a2, -⟩ := f3 e.2
    rw [← a]
    exact ⟨h.distinct _ l _ _ a1, h.distinct _ l _ _ a2⟩
  have notm : ∀ e e', m e e' → req ((M.tri e'.1).tag e'.2) ≠ true := by
    intro e e' he r
    obtain ⟨l, -, -, o⟩ := F.new e e' he
    have := nop e' ((F.live _).1 l).1 r
    rcases o with o | o
    · exact this.1 o
    · exact this.2 o
  have stay : ∀ x : HE, M'.live x.1 → M.org x ≠ p → M.dst x ≠ p → M'.org x = M.org x ∧ M'.dst x = M.dst x := by
    intro x hx h1 h2
    exact ⟨(F.v x.1 (x.2 + 1) hx).2 (fun b => h1 (F.ball _ b)), (F.v x.1 (x.2 + 2) hx).2 (fun b => h2 (F.ball _ b))⟩
  -- a required edge of a removed triangle
  have cover : ∀ x : HE, M.live x.1 → D x.1 → req ((M.tri x.1).tag x.2) = true → ∃ e', m x e' := by
    intro x hx hd r
    obtain ⟨c, e', rfl', he⟩ := F.gone x.1 hx hd
    have := nop x hx r
    have hc := (F.old _ _ he).2
    obtain ⟨a1, a2, a3, a4, a5, a6, a7, a8⟩ := f3 x.2
    rcases a8 c.2 with e | e | e
    · have : c = x := Prod.ext rfl' e
      exact ⟨e', this ▸ he⟩
    · rw [rfl', e] at hc; exact absurd hc this.1
    · rw [rfl', e] at hc; exact absurd hc this.2
  have ptag : ∀ x, req (tag x) = true → req (colPts (⟨M, pos, tag⟩ : St K) p q x) = true := by
    intro x hx
    unfold colPts
    by_cases h1 : x = p
    · subst h1; rw [hp] at hx; cases hx
    · simp only [if_neg h1]
      split
      · rename_i h2
        rw [req_or, ← h2, hx]; rfl
      · exact hx
  refine ⟨⟨F.valid, ?_, ?_⟩, ⟨?_, ?_, ?_⟩⟩
  · intro x x' hx e r
    have hx' : M'.live x'.1 := (F.valid.link x x' hx e).1
    simp only at e r ⊢
    have hxl := ((F.live _).1 hx).1
    rw [F.tag x hx] at r
    rw [F.tag x' hx']
    rcases F.adj x x' hx e with ⟨e1, nm⟩ | ⟨w, hm, e1⟩ | ⟨w, hm, e1⟩
    · rcases r with r | ⟨w, hm, -⟩
      · exact .inl (R.sym x x' hxl e1 r)
      · exact absurd hm (nm w)
    · rcases r with r | ⟨w2, hm2, r⟩
      · exact absurd r (notm _ _ hm)
      · have := F.one _ _ _ hm hm2
        subst this
        exact .inl (R.sym w x' (F.old _ _ hm).1 e1 r)
    · rcases r with r | ⟨w2, hm2, r⟩
      · exact .inr ⟨w, hm, (R.iff (h := w) (h' := x) (F.old _ _ hm).1 e1).2 r⟩
      · obtain ⟨-, -, o1, o2⟩ := h.link w x (F.old _ _ hm).1 e1
        have := noe _ _ hm
        rcases (F.new _ _ hm2).2.2.2 with o | o
        · exact absurd (o1.symm.trans o) this.2
        · exact absurd (o2.symm.trans o) this.1
  · intro x hx r
    have hxl := ((F.live _).1 hx).1
    simp only at r ⊢
    rw [F.tag x hx] at r
    rcases r with r | ⟨w, hm, r⟩
    · obtain ⟨n1, n2⟩ := nop x hxl r
      obtain ⟨o1, o2⟩ := stay x hx n1 n2
      rw [o1, o2]
      have := R.ends x hxl r
      exact ⟨ptag _ this.1, ptag _ this.2⟩
    · obtain ⟨-, o1, o2, -⟩ := F.new _ _ hm
      rw [o1, o2]
      have := R.ends w (F.old _ _ hm).1 r
      exact ⟨ptag _ this.1, ptag _ this.2⟩
  · intro a ha
    refine ⟨rfl, ptag a ha, fun x y hx e => ?_⟩
    have hne : a ≠ p := by rintro rfl; rw [hp] at ha; cases ha
    simp only at hx e ⊢
    by_cases hd : D x
    · obtain ⟨c, e', rfl, hm⟩ := F.gone x hx hd
      obtain ⟨l, o1, o2, -⟩ := F.new _ _ hm
      have hc := (F.old _ _ hm).2
      rcases (f3 c.2).2.2.2.2.2.2.2 y with rfl | rfl | rfl
      · exact absurd (e.symm.trans hc) hne
      · exact ⟨e'.1, e'.2 + 1, l, o1.trans e⟩
      · exact ⟨e'.1, e'.2 + 2, l, o2.trans e⟩
    · have l := (F.live x).2 ⟨hx, hd⟩
      refine ⟨x, y, l, ?_⟩
      rw [(F.v x y l).2 (fun b => hne (e.symm.trans (F.ball _ b)))]
      exact e
  · intro x hx r
    simp only at hx r ⊢
    by_cases hd : D x.1
    · obtain ⟨e', hm⟩ := cover x hx hd r
      obtain ⟨l, o1, o2, -⟩ := F.new _ _ hm
      exact ⟨e', l, (F.tag e' l).2 (.inr ⟨x, hm, r⟩), o1, o2⟩
    · have l := (F.live x.1).2 ⟨hx, hd⟩
      obtain ⟨n1, n2⟩ := nop x hx r
      exact ⟨x, l, (F.tag x l).2 (.inl r), stay x l n1 n2⟩
  · intro k hk r
    simp only at hk r ⊢
    have nv : ∀ y, (M.tri k).v y ≠ p := by
      intro y
      have := (nop (k, y + 2) hk (r _)).1
      simp only [Mesh.org, (f3 y).2.2.2.2.2.1] at this
      exact this
    have hd : ¬ D k := by
      intro hd
      obtain ⟨c, e', rfl, hm⟩ := F.gone k hk hd
      exact nv _ (F.old _ _ hm).2
    have l := (F.live k).2 ⟨hk, hd⟩
    refine ⟨l, ?_, F.ref k l, fun y => (F.tag (k, y) l).2 (.inl (r y))⟩
    funext y
    exact (F.v k y l).2 (fun b => nv y (F.ball _ b))

section
variable {S : St K} (R : Ready S)
include R

/-- The required tag after the merge of two edges of which one has a vertex that is not required. -/
theorem mTag_req {p : Nat} (hp : req (S.tag p) = false) {e e' h : HE} (he : S.M.live e.1) (hl : S.M.live e'.1)
    (ho : S.M.org e' = p ∨ S.M.dst e' = p) :
    req (mTag S.M e e' h) = true ↔ (req ((S.M.tri h.1).tag h.2) = true ∨ (h = e' ∧ req ((S.M.tri e.1).tag e.2) = true)) := by
  have hn : req ((S.M.tri e'.1).tag e'.2) = false := by
    by_contra hc
    have := R.ends e' hl (by simpa using hc)
    rcases ho with o | o
    · rw [o, hp] at this; cases this.1
    · rw [o, hp] at this; cases this.2
  unfold mTag
  split
  · rename_i h1
    rw [req_or, Bool.or_eq_true]
    simp only [h1, true_and]
  · rename_i h1
    split
    · rename_i h2
      have := R.iff he h2
      rw [req_or, req_or, hn, Bool.or_eq_true, Bool.or_eq_true, this]
      simp [h1]
    · simp [h1]

theorem open_merge {M' : Mesh} {B : HE → Prop} {c0 c1 : HE} (F : OpenForm S.M M' B c0 c1) (hk : S.M.live c0.1)
    (hB : ∀ c, B c → S.M.live c.1 ∧ S.M.at c = S.M.at c0) (hB1 : B c1) (h1 : S.M.rot c0 = some c1) (hV : Valid M')
    (hL : ∀ k, M'.live k ↔ S.M.live k ∧ k ≠ c0.1) (hr : ∀ x, x ≠ c0.1 → (M'.tri x).ref = (S.M.tri x).ref)
    (ht : ∀ h : HE, h.1 ≠ c0.1 → (req ((M'.tri h.1).tag h.2) = true ↔
      (req ((S.M.tri h.1).tag h.2) = true ∨ (h = (c1.1, c1.2 + 2) ∧ req ((S.M.tri c0.1).tag c0.2) = true)))) :
    Merge S.M M' (S.M.at c0) ((S.M.tri c0.1).v (c0.2 + 1)) (· = c0.1) B (fun e e' => e = c0 ∧ e' = (c1.1, c1.2 + 2)) := by
  have h := R.valid
  obtain ⟨r1, r2, r3, r4⟩ := rot_spec h hk h1
  have e01 := h.lnk hk _ _ _ r4
  obtain ⟨a1, a2, a3, a4, a5, a6, a7, a8⟩ := f3 c0.2
  obtain ⟨b1, b2, b3, b4, b5, b6, b7, b8⟩ := f3 c1.2
  have l1 : M'.live c1.1 := (hL _).2 ⟨r1, e01.2.1⟩
  refine ⟨hV, hL, ?_, ?_, ?_, ?_, ?_, ?_, ?_, ?_, ?_⟩
  · intro x y hx
    have n := ((hL x).1 hx).2
    exact ⟨(F.v x y).1 n, (F.v x y).2 n⟩
  · exact fun x hx => hr x ((hL x).1 hx).2
  · exact fun c hc => (hB c hc).2
  · intro x x' hx e
    have n := ((hL _).1 hx).2
    rw [F.adj x.1 x.2 n] at e
    by_cases e1 : (x.1, x.2) = (c1.1, c1.2 + 2)
    · rw [if_pos e1] at e
      exact .inr (.inl ⟨c0, ⟨rfl, e1⟩, e⟩)
    · rw [if_neg e1] at e
      by_cases e2 : S.M.adj (c0.1, c0.2) = some (x.1, x.2)
      · rw [if_pos e2] at e
        cases e
        exact .inr (.inr ⟨c0, ⟨rfl, rfl⟩, e2⟩)
      · rw [if_neg e2] at e
        exact .inl ⟨e, fun w hw => e1 hw.2⟩
  · intro x hx
    rw [ht x ((hL _).1 hx).2]
    constructor
    · rintro (r | ⟨e, r⟩)
      · exact .inl r
      · exact .inr ⟨c0, ⟨rfl, e⟩, r⟩
    · rintro (r | ⟨w, ⟨rfl, e⟩, r⟩)
      · exact .inl r
      · exact .inr ⟨e, r⟩
  · rintro e e' ⟨rfl, rfl⟩
    exact ⟨hk, rfl⟩
  · rintro e e' ⟨rfl, rfl⟩
    refine ⟨l1, ?_, ?_, .inl ?_⟩
    · show (M'.tri c1.1).v (c1.2 + 2 + 1) = _
      rw [b6]
      exact (F.v c1.1 c1.2).1 e01.2.1 hB1
    · show (M'.tri c1.1).v (c1.2 + 2 + 2) = (S.M.tri e.1).v (e.2 + 2)
      rw [b7, (F.v c1.1 (c1.2 + 1)).2 e01.2.1]
      · have := e01.2.2.2.2
        rw [b7, a4] at this
        exact this
      · intro b
        exact h.distinct _ r1 _ _ b1 ((hB _ b).2.trans r2.symm)
    · show (S.M.tri c1.1).v (c1.2 + 2 + 1) = _
      rw [b6]; exact r2
  · rintro e e2 e' ⟨rfl, -⟩ ⟨rfl, -⟩
    rfl
  · rintro x hx rfl
    exact ⟨c0, _, rfl, rfl, rfl⟩

theorem closed_merge {M' : Mesh} {B : HE → Prop} {c0 c1 cm cl : HE} (F : ClosedForm S.M M' B c0 c1 cm cl) (hk : S.M.live c0.1)
    (hB : ∀ c, B c → S.M.live c.1 ∧ S.M.at c = S.M.at c0) (hB1 : B c1) (hBm : B cm) (hBl : B cl) (h1 : S.M.rot c0 = some c1)
    (hm : S.M.rot cm = some cl) (hl : S.M.rot cl = some c0) (n1 : c1.1 ≠ cl.1) (n0 : cm.1 ≠ c0.1)
    (hcc : (cm.1, cm.2 + 1) ≠ (c1.1, c1.2 + 2)) (hV : Valid M')
    (hL : ∀ k, M'.live k ↔ S.M.live k ∧ k ≠ c0.1 ∧ k ≠ cl.1)
    (hr : ∀ x, x ≠ c0.1 → x ≠ cl.1 → (M'.tri x).ref = (S.M.tri x).ref)
    (ht : ∀ h : HE, h.1 ≠ c0.1 → h.1 ≠ cl.1 → (req ((M'.tri h.1).tag h.2) = true ↔
      (req ((S.M.tri h.1).tag h.2) = true ∨ (h = (c1.1, c1.2 + 2) ∧ req ((S.M.tri c0.1).tag c0.2) = true) ∨
        (h = (cm.1, cm.2 + 1) ∧ req ((S.M.tri cl.1).tag cl.2) = true)))) :
    Merge S.M M' (S.M.at c0) ((S.M.tri c0.1).v (c0.2 + 1)) (fun x => x = c0.1 ∨ x = cl.1) B
      (fun e e' => (e = c0 ∧ e' = (c1.1, c1.2 + 2)) ∨ (e = cl ∧ e' = (cm.1, cm.2 + 1))) := by
  have h := R.valid
  have hkm := (hB _ hBm).1
  have hkl := (hB _ hBl).1
  obtain ⟨r1, r2, r3, r4⟩ := rot_spec h hk h1
  obtain ⟨rl1, rl2, rl3, rl4⟩ := rot_spec h hkl hl
  obtain ⟨rm1, rm2, rm3, rm4⟩ := rot_spec h hkm hm
  have e01 := h.lnk hk _ _ _ r4
  have el0 := h.lnk hkl _ _ _ rl4
  have eml := h.lnk hkm _ _ _ rm4
  obtain ⟨a1, a2, a3, a4, a5, a6, a7, a8⟩ := f3 c0.2
  obtain ⟨b1, b2, b3, b4, b5, b6, b7, b8⟩ := f3 c1.2
  obtain ⟨d1, d2, d3, d4, d5, d6, d7, d8⟩ := f3 cl.2
  obtain ⟨q1, q2, q3, q4, q5, q6, q7, q8⟩ := f3 cm.2
  have nml : cm.1 ≠ cl.1 := eml.2.1.symm
  have l1 : M'.live c1.1 := (hL _).2 ⟨r1, e01.2.1, n1⟩
  have lm : M'.live cm.1 := (hL _).2 ⟨hkm, n0, nml⟩
  have vl2 : (S.M.tri cl.1).v (cl.2 + 2) = (S.M.tri c0.1).v (c0.2 + 1) := by
    have := el0.2.2.2.2
    rw [a7, d4] at this
    exact this.symm
  refine ⟨hV, ?_, ?_, ?_, ?_, ?_, ?_, ?_, ?_, ?_, ?_⟩
  · intro k; rw [hL, not_or]
  · intro x y hx
    have n := ((hL x).1 hx).2
    exact F.v x y n.1 n.2
  · exact fun x hx => hr x ((hL x).1 hx).2.1 ((hL x).1 hx).2.2
  · exact fun c hc => (hB c hc).2
  · intro x x' hx e
    have n := ((hL _).1 hx).2
    rw [F.adj x.1 x.2 n.1 n.2] at e
    by_cases e3 : (x.1, x.2) = (cm.1, cm.2 + 1)
    · rw [if_pos e3] at e
      exact .inr (.inl ⟨cl, .inr ⟨rfl, e3⟩, e⟩)
    rw [if_neg e3] at e
    by_cases e4 : S.M.adj (cl.1, cl.2) = some (x.1, x.2)
    · rw [if_pos e4] at e
      cases e
      exact .inr (.inr ⟨cl, .inr ⟨rfl, rfl⟩, e4⟩)
    rw [if_neg e4] at e
    by_cases e1 : (x.1, x.2) = (c1.1, c1.2 + 2)
    · rw [if_pos e1] at e
      exact .inr (.inl ⟨c0, .inl ⟨rfl, e1⟩, e⟩)
    rw [if_neg e1] at e
    by_cases e2 : S.M.adj (c0.1, c0.2) = some (x.1, x.2)
    · rw [if_pos e2] at e
      cases e
      exact .inr (.inr ⟨c0, .inl ⟨rfl, rfl⟩, e2⟩)
    · rw [if_neg e2] at e
      refine .inl ⟨e, fun w hw => ?_⟩
      rcases hw with hw | hw
      · exact e1 hw.2
      · exact e3 hw.2
  · intro x hx
    have n := ((hL _).1 hx).2
    rw [ht x n.1 n.2]
    constructor
    · rintro (r | ⟨e, r⟩ | ⟨e, r⟩)
      · exact .inl r
      · exact .inr ⟨c0, .inl ⟨rfl, e⟩, r⟩
      · exact .inr ⟨cl, .inr ⟨rfl, e⟩, r⟩
    · rintro (r | ⟨w, ⟨rfl, e⟩ | ⟨rfl, e⟩, r⟩)
      · exact .inl r
      · exact .inr (.inl ⟨e, r⟩)
      · exact .inr (.inr ⟨e, r⟩)
  · rintro e e' (⟨rfl, rfl⟩ | ⟨rfl, rfl⟩)
    · exact ⟨hk, rfl⟩
    · exact ⟨hkl, (hB _ hBl).2⟩
  · rintro e e' (⟨rfl, rfl⟩ | ⟨rfl, rfl⟩)
    · refine ⟨l1, ?_, ?_, .inl ?_⟩
      · show (M'.tri c1.1).v (c1.2 + 2 + 1) = _
        rw [b6]
        exact (F.v c1.1 c1.2 e01.2.1 n1).1 hB1
      · show (M'.tri c1.1).v (c1.2 + 2 + 2) = (S.M.tri e.1).v (e.2 + 2)
        rw [b7, (F.v c1.1 (c1.2 + 1) e01.2.1 n1).2]
        · have := e01.2.2.2.2
          rw [b7, a4] at this
          exact this
        · intro b
          exact h.distinct _ r1 _ _ b1 ((hB _ b).2.trans r2.symm)
      · show (S.M.tri c1.1).v (c1.2 + 2 + 1) = _
        rw [b6]; exact r2
    · refine ⟨lm, ?_, ?_, .inr ?_⟩
      · show (M'.tri cm.1).v (cm.2 + 1 + 1) = (S.M.tri e.1).v (e.2 + 1)
        rw [q4, (F.v cm.1 (cm.2 + 2) n0 nml).2]
        · have := eml.2.2.2.2
          rw [d7, q4] at this
          exact this.symm
        · intro b
          exact h.distinct _ hkm _ _ q2 ((hB _ b).2.trans (hB _ hBm).2.symm)
      · show (M'.tri cm.1).v (cm.2 + 1 + 2) = (S.M.tri e.1).v (e.2 + 2)
        rw [q5, (F.v cm.1 cm.2 n0 nml).1 hBm]
        exact vl2.symm
      · show (S.M.tri cm.1).v (cm.2 + 1 + 2) = _
        rw [q5]; exact (hB _ hBm).2
  · rintro e e2 e' (⟨rfl, g⟩ | ⟨rfl, g⟩) (⟨rfl, g'⟩ | ⟨rfl, g'⟩)
    · rfl
    · exact absurd (g'.symm.trans g) hcc
    · exact absurd (g.symm.trans g') hcc
    · rfl
  · rintro x hx (rfl | rfl)
    · exact ⟨c0, _, rfl, .inl ⟨rfl, rfl⟩⟩
    · exact ⟨cl, _, rfl, .inr ⟨rfl, rfl⟩⟩

end

/-- `MMG2D_colver`, closed ball. -/
theorem merge_interior {S : St K} (R : Ready S) {M : Mesh} (eM : S.M = M) {c0 : HE} (hk : M.live c0.1) {lmax : Nat} {l : List HE}
    (hb : boulet M lmax false c0 = some (l, false)) (hlen : 3 ≤ l.length) {kl : Nat} {e : Fin 3}
    (hkl : M.adj (c0.1, c0.2 + 2) = some (kl, e))
    (hno : ∀ c ∈ l, c.1 ≠ c0.1 → c.1 ≠ kl → ∀ i, (M.tri c.1).v i ≠ (M.tri c0.1).v (c0.2 + 1))
    (hap : (M.tri c0.1).v (c0.2 + 2) ≠ (M.tri kl).v e) (hp : req (S.tag (M.at c0)) = false) :
    ∃ M' D B m, colver M l = some M' ∧ Merge M M' (M.at c0) ((M.tri c0.1).v (c0.2 + 1)) D B m := by
  have h : Valid M := eM ▸ R.valid
  obtain ⟨hh, hnd, hmem, hlv, hopn, -⟩ := C17_ball h hk hb
  obtain ⟨t0, rfl, hch, hlast⟩ := boulet_closed h hk hb
  have hrot := ball_rot h hmem
  match t0, hlen with
  | c1 :: c2 :: t, _ =>
    have h1 : M.rot c0 = some c1 := hch.rel
    obtain ⟨cl, g1⟩ : ∃ cl, (c1 :: c2 :: t).getLast? = some cl := by simp [List.getLast?_cons]
    obtain ⟨cm, g2⟩ : ∃ cm, (c1 :: c2 :: t).dropLast.getLast? = some cm := by simp [List.getLast?_cons]
    have hsp1 : c1 :: c2 :: t = (c1 :: c2 :: t).dropLast ++ [cl] := (List.dropLast_append_getLast? cl g1).symm
    have hsp2 := (List.dropLast_append_getLast? cm g2).symm
    have hsp : c0 :: c1 :: c2 :: t = (c0 :: (c1 :: c2 :: t).dropLast.dropLast) ++ [cm, cl] := by
      conv_lhs => rw [hsp1, hsp2]
      simp
    have hm : M.rot cm = some cl := by
      have := hch
      rw [hsp] at this
      exact this.right_of_append.rel
    have hl : M.rot cl = some c0 := hlast cl (by rw [List.getLast?_cons_cons]; exact g1)
    have iml : cl ∈ c0 :: c1 :: c2 :: t := by rw [hsp]; simp
    have imm : cm ∈ c0 :: c1 :: c2 :: t := by rw [hsp]; simp
    have hkm := (hlv cm imm).1
    have hkl' := (hlv cl iml).1
    have hnd' : (c0 :: c1 :: c2 :: t).Nodup := List.Nodup.of_map _ hnd
    have n1 : c1 ≠ cl := by
      rintro rfl
      have : (c1 :: c2 :: t).Nodup := (List.nodup_cons.1 hnd').2
      have hn := (List.nodup_cons.1 this).1
      apply hn
      simp only [List.getLast?_cons_cons] at g1
      exact List.mem_of_getLast? g1
    have n0 : cm ≠ c0 := by
      rintro rfl
      apply (List.nodup_cons.1 hnd').1
      rw [hsp1, hsp2]; simp
    obtain ⟨r1, r2, r3, r4⟩ := rot_spec h hk h1
    obtain ⟨rl1, rl2, rl3, rl4⟩ := rot_spec h hkl' hl
    obtain ⟨rm1, rm2, rm3, rm4⟩ := rot_spec h hkm hm
    have e01 := h.lnk hk _ _ _ r4
    have el0 := h.lnk hkl' _ _ _ rl4
    have eml := h.lnk hkm _ _ _ rm4
    have hE : kl = cl.1 ∧ e = cl.2 + 1 := by
      have := el0.2.2.1
      rw [hkl] at this
      exact Prod.mk.inj (Option.some.inj this)
    obtain ⟨rfl, rfl⟩ := hE
    obtain ⟨a1, a2, a3, a4, a5, a6, a7, a8⟩ := f3 c0.2
    obtain ⟨b1, b2, b3, b4, b5, b6, b7, b8⟩ := f3 c1.2
    obtain ⟨d1, d2, d3, d4, d5, d6, d7, d8⟩ := f3 cl.2
    obtain ⟨q1, q2, q3, q4, q5, q6, q7, q8⟩ := f3 cm.2
    have nl0 : cl.1 ≠ c0.1 := el0.2.1.symm
    have n10 : c1.1 ≠ c0.1 := e01.2.1
    have nml : cm.1 ≠ cl.1 := eml.2.1.symm
    have n1l : c1.1 ≠ cl.1 := fun e => n1 (corner_eq h hkl' e (r2.trans (hlv cl iml).2.symm))
    have nm0 : cm.1 ≠ c0.1 := fun e => n0 (corner_eq h hk e (hlv cm imm).2)
    have vl2 : (M.tri cl.1).v (cl.2 + 2) = (M.tri c0.1).v (c0.2 + 1) := by
      have := el0.2.2.2.2
      rw [a7, d4] at this
      exact this.symm
    have h00 : M.adj (c0.1, c0.2) ≠ some (cl.1, cl.2) := fun e => hap (h.lnk hk _ _ _ e).2.2.2.1.symm
    have hc : (cl.1, cl.2) ≠ (c1.1, c1.2 + 2) := fun e => n1l (Prod.mk.inj e).1.symm
    have hne : M.adj (c0.1, c0.2) ≠ some (c1.1, c1.2 + 2) := fun e => by
      have := (h.lnk hk _ _ _ e).2.2.1
      rw [e01.2.2.1] at this
      exact a1 (Prod.mk.inj (Option.some.inj this)).2
    have hnl : M.adj (cl.1, cl.2) ≠ some (cm.1, cm.2 + 1) := fun e => by
      have := (h.lnk hkl' _ _ _ e).2.2.1
      rw [rm4] at this
      exact d2 (Prod.mk.inj (Option.some.inj this)).2
    have hl0 : M.adj (cl.1, cl.2) ≠ some (c1.1, c1.2 + 2) := fun e => by
      have := (h.lnk hkl' _ _ _ e).2.2.1
      rw [e01.2.2.1] at this
      exact nl0 (Prod.mk.inj (Option.some.inj this)).1.symm
    have hcc : (cm.1, cm.2 + 1) ≠ (c1.1, c1.2 + 2) := fun e => by
      obtain ⟨ea, eb⟩ := Prod.mk.inj e
      have := corner_eq h r1 ea ((hlv cm imm).2.trans r2.symm)
      subst this
      exact q3 eb
    have hcm : M.adj (c0.1, c0.2) ≠ some (cm.1, cm.2 + 1) := fun e => by
      have := (h.lnk hk _ _ _ e).2.2.1
      rw [rm4] at this
      exact nl0 (Prod.mk.inj (Option.some.inj this)).1
    have h0l : ∀ h, M.adj (cl.1, cl.2) = some h → M.adj (c0.1, c0.2) ≠ some h := by
      rintro ⟨x, y⟩ e e'
      have u := (h.lnk hkl' _ _ _ e).2.2.1
      rw [(h.lnk hk _ _ _ e').2.2.1] at u
      exact nl0 (Prod.mk.inj (Option.some.inj u)).1.symm
    have F := closed_form (M := M) (c0 := c0) (cm := cm) g1 h00 hc
    have hno' : ∀ c, c ∈ c0 :: c1 :: c2 :: t → c ≠ c0 → c ≠ cl → ∀ i,
        (M.tri c.1).v i ≠ (M.tri c0.1).v (c0.2 + 1) := fun c hc n n' => hno c hc
      (fun e => n (corner_eq h hk e (hlv c hc).2)) (fun e => n' (corner_eq h hkl' e ((hlv c hc).2.trans (hlv cl iml).2.symm)))
    obtain ⟨hV, hL⟩ := F.valid h hk hlv (by simp) hrot h1 hm hl hkm hkl' n1 n0 hno' hap
    have hB1 : c1 ∈ c0 :: c1 :: c2 :: t := by simp
    subst eM
    refine ⟨_, _, _, _, ?_, closed_merge R F hk hlv hB1 imm iml h1 hm
      hl n1l nm0 hcc hV hL ?_ ?_⟩
    · simp only [colver, hkl, g1, g2]
    · intro x u1 u2
      exact ref_closed _ _ u1 u2
    · intro x x0 xl
      rw [(closed_attr (t := c2 :: t) ((S.M.tri c0.1).v (c0.2 + 1)) hne hnl hl0 h00 hc hcc hcm h0l x x0 xl).1]
      have m1 := mTag_req R (p := S.M.at c0) hp (e := (c0.1, c0.2)) (e' := (c1.1, c1.2 + 2)) (h := x) hk r1
        (.inl (by show (S.M.tri c1.1).v (c1.2 + 2 + 1) = _; rw [b6]; exact r2))
      have m2 := mTag_req R (p := S.M.at c0) hp (e := (cl.1, cl.2)) (e' := (cm.1, cm.2 + 1)) (h := x) hkl' hkm
        (.inr (by show (S.M.tri cm.1).v (cm.2 + 1 + 2) = _; rw [q5]; exact (hlv _ imm).2))
      by_cases e1 : x = (cm.1, cm.2 + 1)
      · rw [if_pos (.inl e1), m2]
        have : x ≠ (c1.1, c1.2 + 2) := fun e => hcc (e1.symm.trans e)
        simp [this]
      · by_cases e2 : S.M.adj (cl.1, cl.2) = some x
        · rw [if_pos (.inr e2), m2]
          have : x ≠ (c1.1, c1.2 + 2) := fun e => hl0 (e ▸ e2)
          simp [this]
        · rw [if_neg (by rintro (e | e) <;> [exact e1 e; exact e2 e]), m1]
          simp [e1]

/-- `MMG2D_colver`, open ball. -/
theorem merge_boundary {S : St K} (R : Ready S) {M : Mesh} (eM : S.M = M) {c0 : HE} (hk : M.live c0.1) {lmax : Nat} {l : List HE}
    (hb : boulet M lmax false c0 = some (l, true)) (hlen : 2 ≤ l.length) (hop : M.adj (c0.1, c0.2 + 2) = none)
    (hno : ∀ c ∈ l, c.1 ≠ c0.1 → ∀ i, (M.tri c.1).v i ≠ (M.tri c0.1).v (c0.2 + 1)) (hp : req (S.tag (M.at c0)) = false) :
    ∃ M' D B m, colver M l = some M' ∧ Merge M M' (M.at c0) ((M.tri c0.1).v (c0.2 + 1)) D B m := by
  have h : Valid M := eM ▸ R.valid
  obtain ⟨hh, hnd, hmem, hlv, hopn, -⟩ := C17_ball h hk hb
  obtain ⟨t0, rfl, hch, hlast⟩ := boulet_open h hk hb hop
  have hrot := ball_rot h hmem
  match t0, hlen with
  | c1 :: t, _ =>
    have h1 : M.rot c0 = some c1 := hch.rel
    obtain ⟨ce, g1⟩ : ∃ ce, (c0 :: c1 :: t).getLast? = some ce := by simp [List.getLast?_cons]
    have hre := hlast ce g1
    have ime := List.mem_of_getLast? g1
    have hnd' : (c0 :: c1 :: t).Nodup := List.Nodup.of_map _ hnd
    obtain ⟨r1, r2, r3, r4⟩ := rot_spec h hk h1
    have e01 := h.lnk hk _ _ _ r4
    obtain ⟨a1, a2, a3, a4, a5, a6, a7, a8⟩ := f3 c0.2
    have n10 : c1.1 ≠ c0.1 := e01.2.1
    have hne : M.adj (c0.1, c0.2) ≠ some (c1.1, c1.2 + 2) := fun e => by
      have := (h.lnk hk _ _ _ e).2.2.1
      rw [e01.2.2.1] at this
      exact a1 (Prod.mk.inj (Option.some.inj this)).2
    have F := open_form (M := M) (c0 := c0) (c1 := c1) (t := t)
    have hno' : ∀ c, c ∈ c0 :: c1 :: t → c ≠ c0 → ∀ i,
        (M.tri c.1).v i ≠ (M.tri c0.1).v (c0.2 + 1) := fun c hc n => hno c hc
      (fun e => n (corner_eq h hk e (hlv c hc).2))
    obtain ⟨hV, hL⟩ := F.valid h hk hlv (by simp) hrot h1 hop hno'
    have hB1 : c1 ∈ c0 :: c1 :: t := by simp
    obtain ⟨b1, b2, b3, b4, b5, b6, b7, b8⟩ := f3 c1.2
    subst eM
    refine ⟨_, _, _, _, ?_, open_merge R F hk hlv hB1 h1 hV hL ?_ ?_⟩
    · simp only [colver, hop]
    · intro x u1
      exact ref_open _ _ u1
    · intro x x0
      rw [(open_attr (t := t) ((S.M.tri c0.1).v (c0.2 + 1)) hne x x0).1]
      exact mTag_req R (p := S.M.at c0) hp (e := (c0.1, c0.2)) (e' := (c1.1, c1.2 + 2)) (h := x) hk r1
        (.inl (by show (S.M.tri c1.1).v (c1.2 + 2 + 1) = _; rw [b6]; exact r2))

/-- `MMG2D_colver3`. -/
theorem merge_three {S : St K} (R : Ready S) {M : Mesh} (eM : S.M = M) {a b c : HE} (hk : M.live a.1) {lmax : Nat}
    (hb : boulet M lmax false a = some ([a, b, c], false)) (hno : ∀ i, (M.tri b.1).v i ≠ (M.tri a.1).v (a.2 + 1))
    (hp : req (S.tag (M.at a)) = false) :
    ∃ D B m, Merge M (colver3 M a b c) (M.at a) ((M.tri a.1).v (a.2 + 1)) D B m := by
  have h : Valid M := eM ▸ R.valid
  obtain ⟨hh, hnd, hmem, hlv, hopn, -⟩ := C17_ball h hk hb
  obtain ⟨t0, ht, hch, hlast⟩ := boulet_closed h hk hb
  have hrot := ball_rot h hmem
  have h1 : M.rot a = some b := hch.rel
  have hm : M.rot b = some c := (List.isChain_cons_cons.1 hch).2.rel
  have hl : M.rot c = some a := hlast c rfl
  have hkb := (hlv b (by simp)).1
  have hkc := (hlv c (by simp)).1
  obtain ⟨r1, r2, r3, r4⟩ := rot_spec h hk h1
  obtain ⟨rl1, rl2, rl3, rl4⟩ := rot_spec h hkc hl
  obtain ⟨rm1, rm2, rm3, rm4⟩ := rot_spec h hkb hm
  have e01 := h.lnk hk _ _ _ r4
  have el0 := h.lnk hkc _ _ _ rl4
  have eml := h.lnk hkb _ _ _ rm4
  have nba : b.1 ≠ a.1 := e01.2.1
  have nca : c.1 ≠ a.1 := el0.2.1.symm
  have ncb : c.1 ≠ b.1 := eml.2.1
  obtain ⟨a1, a2, a3, a4, a5, a6, a7, a8⟩ := f3 a.2
  obtain ⟨b1, b2, b3, b4, b5, b6, b7, b8⟩ := f3 b.2
  obtain ⟨d1, d2, d3, d4, d5, d6, d7, d8⟩ := f3 c.2
  have v1 : (M.tri b.1).v (b.2 + 1) = (M.tri a.1).v (a.2 + 2) := by
    have := e01.2.2.2.2
    rw [b7, a4] at this
    exact this
  have v2 : (M.tri b.1).v (b.2 + 2) = (M.tri c.1).v (c.2 + 1) := by
    have := eml.2.2.2.2
    rw [d7, b4] at this
    exact this.symm
  have vl2 : (M.tri c.1).v (c.2 + 2) = (M.tri a.1).v (a.2 + 1) := by
    have := el0.2.2.2.2
    rw [a7, d4] at this
    exact this.symm
  have hap : (M.tri a.1).v (a.2 + 2) ≠ (M.tri c.1).v (c.2 + 1) := by
    rw [← v1, ← v2]; exact h.distinct _ hkb _ _ b3
  have na : ∀ y, M.adj a ≠ some (b.1, y) := by
    intro y e
    have := (h.lnk hk a.2 _ _ e).2.2.2.2
    exact hno _ this
  have nc : ∀ y, M.adj c ≠ some (b.1, y) := by
    intro y e
    have := (h.lnk hkc c.2 _ _ e).2.2.2.1
    exact hno _ (this.trans vl2)
  have hac : ∀ h, M.adj c = some h → M.adj a ≠ some h := by
    rintro ⟨x, y⟩ e e'
    have u := (h.lnk hkc c.2 _ _ e).2.2.1
    rw [(h.lnk hk a.2 _ _ e').2.2.1] at u
    exact nca (Prod.mk.inj (Option.some.inj u)).1.symm
  have F := colver3_form nba ncb nca hac (fun y e => absurd e (na y)) (fun y e => absurd e (nc y))
  have hno' : ∀ x, x ∈ [a, b, c] → x ≠ a → x ≠ c → ∀ i, (M.tri x.1).v i ≠ (M.tri a.1).v (a.2 + 1) := by
    intro x hx xa xc
    simp only [List.mem_cons, List.not_mem_nil, or_false] at hx
    rcases hx with rfl | rfl | rfl
    · exact absurd rfl xa
    · exact hno
    · exact absurd rfl xc
  have n1 : b ≠ c := fun e => ncb (by rw [e])
  have n0 : b ≠ a := fun e => nba (by rw [e])
  obtain ⟨hV, hL⟩ := F.valid h hk hlv (by simp) hrot h1 hm hl hkb hkc n1 n0 hno' hap
  have key : ∀ z : HE, z.1 ≠ a.1 → z.1 ≠ c.1 →
      (((colver3 M a b c).tri z.1).tag z.2 = if z = (b.1, b.2 + 1) ∨ M.adj c = some z then
          (M.tri b.1).tag (b.2 + 1) ||| (M.tri c.1).tag c.2
        else if z = (b.1, b.2 + 2) ∨ M.adj a = some z then (M.tri b.1).tag (b.2 + 2) ||| (M.tri a.1).tag a.2
        else (M.tri z.1).tag z.2) ∧
      (((colver3 M a b c).tri z.1).edg z.2 = if z = (b.1, b.2 + 1) ∨ M.adj c = some z then
          max ((M.tri b.1).edg (b.2 + 1)) ((M.tri c.1).edg c.2)
        else if z = (b.1, b.2 + 2) ∨ M.adj a = some z then max ((M.tri b.1).edg (b.2 + 2)) ((M.tri a.1).edg a.2)
        else (M.tri z.1).edg z.2) := by
    rintro ⟨p, q⟩ z0 zl
    obtain ⟨ka, ia⟩ := a
    obtain ⟨kb, ib⟩ := b
    obtain ⟨kc, ic⟩ := c
    simp only at *
    have w1 : ∀ y, M.adj (ka, ia) ≠ some (kb, y) := na
    have w2 : ∀ y, M.adj (kc, ic) ≠ some (kb, y) := nc
    simp only [colver3, delTri_tag _ _ _ z0, delTri_tag _ _ _ zl]
    simp only [(copyAttr_tag _ _ _ (p, q)).1, (copyAttr_tag _ _ _ (p, q)).2,
      (copyAttr_tag _ _ _ (kb, ib + 1)).1, (copyAttr_tag _ _ _ (kb, ib + 1)).2, Mesh.setAdj, Mesh.setTri, Tri.setE,
      Tri.setV, Prod.mk.injEq, copyAttr_adj, b1, b2, b3]
    have c1 : ¬ (kc = kb ∧ ic = ib + 1) := fun e => ncb e.1
    have c2 : ¬ (ka = kb ∧ ia = ib + 1) := fun e => nba e.1.symm
    simp only [c1, c2, if_false, if_true, w1, w2]
    have hh := hac (p, q)
    constructor
    · split
      · rename_i e
        simp [e]
      · rename_i e
        split
        · rename_i e'
          simp [e, e', b3.symm]
          grind
        · rename_i e'
          by_cases f1 : p = kb
          · subst f1
            grind
          · simp [e, e', f1]
    · split
      · rename_i e
        simp [e]
      · rename_i e
        split
        · rename_i e'
          simp [e, e', b3.symm]
          grind
        · rename_i e'
          by_cases f1 : p = kb
          · subst f1
            grind
          · simp [e, e', f1]
  have hcc : (b.1, b.2 + 1) ≠ (b.1, b.2 + 2) := fun e => b3 (Prod.mk.inj e).2
  subst eM
  refine ⟨_, _, _, closed_merge R F hk hlv (by simp) (by simp) (by simp) h1
    hm hl ncb.symm nba hcc hV hL ?_ ?_⟩
  · intro k u1 u2
    simp only [colver3, delTri_tag _ _ _ u1, delTri_tag _ _ _ u2, (copyAttr_v _ _ _ _).2, Mesh.setAdj, Mesh.setTri]
    split
    · rename_i e; rw [e]; rfl
    · rfl
  · intro x x0 xl
    rw [(key x x0 xl).1]
    have n1 : req ((S.M.tri b.1).tag (b.2 + 1)) = false := by
      by_contra hc
      have := (R.ends (b.1, b.2 + 1) hkb (by simpa using hc)).2
      have e : S.M.dst (b.1, b.2 + 1) = S.M.at a := by
        show (S.M.tri b.1).v (b.2 + 1 + 2) = _
        rw [b5]; exact r2
      rw [e, hp] at this; cases this
    have n2 : req ((S.M.tri b.1).tag (b.2 + 2)) = false := by
      by_contra hc
      have := (R.ends (b.1, b.2 + 2) hkb (by simpa using hc)).1
      have e : S.M.org (b.1, b.2 + 2) = S.M.at a := by
        show (S.M.tri b.1).v (b.2 + 2 + 1) = _
        rw [b6]; exact r2
      rw [e, hp] at this; cases this
    by_cases e1 : x = (b.1, b.2 + 1)
    · rw [if_pos (.inl e1), req_or, n1, e1]
      simp [n1, b3]
    by_cases e2 : S.M.adj c = some x
    · rw [if_pos (.inr e2), req_or, n1]
      have : x ≠ (b.1, b.2 + 2) := by rintro rfl; exact nc _ e2
      simp only [Bool.false_or, this, false_and, e1, or_false]
      exact R.iff hkc e2
    rw [if_neg (by rintro (e | e) <;> [exact e1 e; exact e2 e])]
    by_cases e3 : x = (b.1, b.2 + 2)
    · rw [if_pos (.inl e3), req_or, n2, e3]
      simp [n2, b3.symm]
    by_cases e4 : S.M.adj a = some x
    · rw [if_pos (.inr e4), req_or, n2]
      simp only [Bool.false_or, e1, e3, false_and, or_false]
      exact R.iff hk e4
    · rw [if_neg (by rintro (e | e) <;> [exact e3 e; exact e4 e])]
      simp [e1, e3]

/-- `MMG2D_colver2`. -/
theorem merge_two {S : St K} (R : Ready S) {M : Mesh} (eM : S.M = M) {a b : HE} (hk : M.live a.1) {lmax : Nat}
    (hb : boulet M lmax false a = some ([a, b], true)) (hop : M.adj (a.1, a.2 + 2) = none)
    (hno : ∀ i, (M.tri b.1).v i ≠ (M.tri a.1).v (a.2 + 1)) (hp : req (S.tag (M.at a)) = false) :
    ∃ D B m, Merge M (Tri2.colver2 M a b) (M.at a) ((M.tri a.1).v (a.2 + 1)) D B m := by
  have h : Valid M := eM ▸ R.valid
  obtain ⟨hh, hnd, hmem, hlv, hopn, -⟩ := C17_ball h hk hb
  obtain ⟨t0, ht, hch, hlast⟩ := boulet_open h hk hb hop
  have hrot := ball_rot h hmem
  have h1 : M.rot a = some b := hch.rel
  have hre : M.rot b = none := hlast b rfl
  have hkb := (hlv b (by simp)).1
  obtain ⟨r1, r2, r3, r4⟩ := rot_spec h hk h1
  have e01 := h.lnk hk _ _ _ r4
  have nba : b.1 ≠ a.1 := e01.2.1
  have na : ∀ y, M.adj a ≠ some (b.1, y) := by
    intro y e
    have := (h.lnk hk a.2 _ _ e).2.2.2.2
    exact hno _ this
  have F := colver2_form nba (fun y e => absurd e (na y))
  have hno' : ∀ x, x ∈ [a, b] → x ≠ a → ∀ i, (M.tri x.1).v i ≠ (M.tri a.1).v (a.2 + 1) := by
    intro x hx xa
    simp only [List.mem_cons, List.not_mem_nil, or_false] at hx
    rcases hx with rfl | rfl
    · exact absurd rfl xa
    · exact hno
  obtain ⟨hV, hL⟩ := F.valid h hk hlv (by simp) hrot h1 hop hno'
  obtain ⟨b1, b2, b3, b4, b5, b6, b7, b8⟩ := f3 b.2
  subst eM
  refine ⟨_, _, _, open_merge R F hk hlv (by simp) h1 hV
    hL ?_ ?_⟩
  · intro x u1
    simp only [Tri2.colver2, delTri_tag _ _ _ u1, backLink_tri, Mesh.setAdj, Mesh.setTri]
    split
    · rename_i e; rw [e]; rfl
    · rfl
  · rintro ⟨p, q⟩ z0
    have n2 : req ((S.M.tri b.1).tag (b.2 + 2)) = false := by
      by_contra hc
      have := (R.ends (b.1, b.2 + 2) hkb (by simpa using hc)).1
      have e : S.M.org (b.1, b.2 + 2) = S.M.at a := by
        show (S.M.tri b.1).v (b.2 + 2 + 1) = _
        rw [b6]; exact r2
      rw [e, hp] at this; cases this
    simp only [Tri2.colver2, delTri_tag _ _ _ z0, backLink_tri, Mesh.setAdj, Mesh.setTri, Tri.setE, Tri.setV, Prod.mk.injEq]
    by_cases e : p = b.1
    · subst e
      by_cases e' : q = b.2 + 2
      · subst e'; simp [req_or, n2]
      · simp [e']
    · simp [e]

end Mmg.Req2
