/-
Property C45: 2D edge collapse.
-/
import Verif.Tri2ColLemmas

set_option linter.unusedSimpArgs false

namespace Mmg.Tri2

open Relation

/-! ### Forms of the results -/

theorem open_form {M : Mesh} {c0 c1 : HE} {t : List HE} :
    OpenForm M ((mergeEdge (M.moveV (c1 :: t) ((M.tri c0.1).v (c0.2 + 1))) (c0.1, c0.2) (c1.1, c1.2 + 2)).delTri c0.1)
      (fun c => c ∈ c0 :: c1 :: t) c0 c1 := by
  obtain ⟨ma, mt⟩ := moveV_spec M (c1 :: t) ((M.tri c0.1).v (c0.2 + 1))
  constructor
  · intro x y
    have hv := (mt x).2.2.2 y
    have : x ≠ c0.1 → ((x, y) ∈ c0 :: c1 :: t ↔ (x, y) ∈ c1 :: t) := by
      intro hx
      rw [List.mem_cons, or_iff_right]
      rintro rfl; exact hx rfl
    constructor <;> intro hx hb <;> rw [this hx] at hb <;> rw [delTri_v, if_neg hx, (mergeEdge_v _ _ _ x).1, hv]
    · rw [if_pos hb]
    · rw [if_neg hb]
  · rw [delTri_v, if_pos rfl]
  · intro x y hx
    rw [delTri_adj, if_neg hx, mergeEdge_adj, ma]

theorem closed_form {M : Mesh} {c0 c1 cm cl : HE} {t : List HE} (h1 : (c1 :: t).getLast? = some cl)
    (h00 : M.adj (c0.1, c0.2) ≠ some (cl.1, cl.2))
    (hc : (cl.1, cl.2) ≠ (c1.1, c1.2 + 2)) :
    ClosedForm M (((mergeEdge (mergeEdge (M.moveV (c1 :: t).dropLast ((M.tri c0.1).v (c0.2 + 1))) (c0.1, c0.2)
      (c1.1, c1.2 + 2)) (cl.1, cl.2) (cm.1, cm.2 + 1)).delTri c0.1).delTri cl.1)
      (fun c => c ∈ c0 :: c1 :: t) c0 c1 cm cl := by
  obtain ⟨ma, mt⟩ := moveV_spec M (c1 :: t).dropLast ((M.tri c0.1).v (c0.2 + 1))
  have hsp : c1 :: t = (c1 :: t).dropLast ++ [cl] := (List.dropLast_append_getLast? cl h1).symm
  constructor
  · intro x y hx hx'
    have hv := (mt x).2.2.2 y
    have : (x, y) ∈ c0 :: c1 :: t ↔ (x, y) ∈ (c1 :: t).dropLast := by
      rw [List.mem_cons, or_iff_right (by rintro rfl; exact hx rfl)]
      conv_lhs => rw [hsp]
      rw [List.mem_append, or_iff_left]
      simp only [List.mem_singleton]
      rintro rfl; exact hx' rfl
    rw [this]
    constructor <;> intro hb <;>
      rw [delTri_v, if_neg hx', delTri_v, if_neg hx, (mergeEdge_v _ _ _ x).1, (mergeEdge_v _ _ _ x).1, hv]
    · rw [if_pos hb]
    · rw [if_neg hb]
  · constructor
    · rw [delTri_v]
      split
      · rfl
      · rw [delTri_v, if_pos rfl]
    · rw [delTri_v, if_pos rfl]
  · intro x y hx hx'
    rw [delTri_adj, if_neg hx', delTri_adj, if_neg hx, mergeEdge_adj, mergeEdge_adj, mergeEdge_adj, ma, if_neg hc, if_neg h00]

/-! ### Attributes -/

/-- Attributes of edge `h` after the merge of edge `e'` with the removed edge `e`. -/
def mTag (M : Mesh) (e e' h : HE) : Nat :=
  if h = e' then (M.tri h.1).tag h.2 ||| (M.tri e.1).tag e.2
  else if M.adj e = some h then (M.tri h.1).tag h.2 ||| ((M.tri e'.1).tag e'.2 ||| (M.tri e.1).tag e.2)
  else (M.tri h.1).tag h.2

def mEdg (M : Mesh) (e e' h : HE) : Int :=
  if h = e' then max ((M.tri h.1).edg h.2) ((M.tri e.1).edg e.2)
  else if M.adj e = some h then max (max ((M.tri e'.1).edg e'.2) ((M.tri e.1).edg e.2)) ((M.tri h.1).edg h.2)
  else (M.tri h.1).edg h.2

theorem open_attr {M : Mesh} {c0 c1 : HE} {t : List HE} (p : Nat) (hne : M.adj (c0.1, c0.2) ≠ some (c1.1, c1.2 + 2))
    (h : HE) (hx : h.1 ≠ c0.1) :
    ((((mergeEdge (M.moveV (c1 :: t) p) (c0.1, c0.2) (c1.1, c1.2 + 2)).delTri c0.1).tri h.1).tag h.2 =
      mTag M (c0.1, c0.2) (c1.1, c1.2 + 2) h) ∧
    ((((mergeEdge (M.moveV (c1 :: t) p) (c0.1, c0.2) (c1.1, c1.2 + 2)).delTri c0.1).tri h.1).edg h.2 =
      mEdg M (c0.1, c0.2) (c1.1, c1.2 + 2) h) := by
  obtain ⟨ma, mt⟩ := moveV_spec M (c1 :: t) p
  have t1 := fun x => (mt x).1
  have t2 := fun x => (mt x).2.1
  rw [delTri_tag _ _ _ hx, mergeEdge_tag _ _ _ _ (by rw [ma]; exact hne), mergeEdge_edg _ _ _ _ (by rw [ma]; exact hne)]
  simp only [ma, t1, t2, mTag, mEdg, and_self]

theorem closed_attr {M : Mesh} {c0 c1 cm cl : HE} {t : List HE} (p : Nat)
    (hne : M.adj (c0.1, c0.2) ≠ some (c1.1, c1.2 + 2))
    (hnl : M.adj (cl.1, cl.2) ≠ some (cm.1, cm.2 + 1))
    (hl0 : M.adj (cl.1, cl.2) ≠ some (c1.1, c1.2 + 2)) (h00 : M.adj (c0.1, c0.2) ≠ some (cl.1, cl.2))
    (hc : (cl.1, cl.2) ≠ (c1.1, c1.2 + 2)) (hcc : (cm.1, cm.2 + 1) ≠ (c1.1, c1.2 + 2))
    (hcm : M.adj (c0.1, c0.2) ≠ some (cm.1, cm.2 + 1))
    (h0l : ∀ h, M.adj (cl.1, cl.2) = some h → M.adj (c0.1, c0.2) ≠ some h)
    (h : HE) (hx : h.1 ≠ c0.1) (hx' : h.1 ≠ cl.1) :
    (((((mergeEdge (mergeEdge (M.moveV (c1 :: t).dropLast p) (c0.1, c0.2)
      (c1.1, c1.2 + 2)) (cl.1, cl.2) (cm.1, cm.2 + 1)).delTri c0.1).delTri cl.1).tri h.1).tag h.2 =
      if h = (cm.1, cm.2 + 1) ∨ M.adj (cl.1, cl.2) = some h then mTag M (cl.1, cl.2) (cm.1, cm.2 + 1) h
      else mTag M (c0.1, c0.2) (c1.1, c1.2 + 2) h) ∧
    (((((mergeEdge (mergeEdge (M.moveV (c1 :: t).dropLast p) (c0.1, c0.2)
      (c1.1, c1.2 + 2)) (cl.1, cl.2) (cm.1, cm.2 + 1)).delTri c0.1).delTri cl.1).tri h.1).edg h.2 =
      if h = (cm.1, cm.2 + 1) ∨ M.adj (cl.1, cl.2) = some h then mEdg M (cl.1, cl.2) (cm.1, cm.2 + 1) h
      else mEdg M (c0.1, c0.2) (c1.1, c1.2 + 2) h) := by
  obtain ⟨ma, mt⟩ := moveV_spec M (c1 :: t).dropLast p
  generalize M.moveV (c1 :: t).dropLast p = M1 at *
  have t1 := fun x => (mt x).1
  have t2 := fun x => (mt x).2.1
  have hn1 : M1.adj (c0.1, c0.2) ≠ some (c1.1, c1.2 + 2) := by rw [ma]; exact hne
  have a2 : (mergeEdge M1 (c0.1, c0.2) (c1.1, c1.2 + 2)).adj (cl.1, cl.2) = M.adj (cl.1, cl.2) := by
    rw [mergeEdge_adj, if_neg hc, ma, if_neg h00]
  rw [delTri_tag _ _ _ hx', delTri_tag _ _ _ hx, mergeEdge_tag _ _ _ _ (by rw [a2]; exact hnl),
    mergeEdge_edg _ _ _ _ (by rw [a2]; exact hnl), a2]
  have x1 := mergeEdge_tag M1 (c0.1, c0.2) (c1.1, c1.2 + 2) (cm.1, cm.2 + 1) hn1
  have x2 := mergeEdge_tag M1 (c0.1, c0.2) (c1.1, c1.2 + 2) (cl.1, cl.2) hn1
  have x3 := mergeEdge_edg M1 (c0.1, c0.2) (c1.1, c1.2 + 2) (cm.1, cm.2 + 1) hn1
  have x4 := mergeEdge_edg M1 (c0.1, c0.2) (c1.1, c1.2 + 2) (cl.1, cl.2) hn1
  simp only [ma, t1, t2, if_neg hcc, if_neg hcm, if_neg hc, if_neg h00] at x1 x2 x3 x4
  simp only [x1, x2, x3, x4, mergeEdge_tag M1 _ _ _ hn1, mergeEdge_edg M1 _ _ _ hn1, ma, t1, t2, if_neg hc, if_neg h00, if_neg hcc,
    if_neg hcm, mTag, mEdg]
  constructor
  · by_cases e1 : h = (cm.1, cm.2 + 1)
    · subst e1; simp [hcc, hcm]
    · by_cases e2 : M.adj (cl.1, cl.2) = some h
      · have := h0l h e2
        have e3 : h ≠ (c1.1, c1.2 + 2) := by rintro rfl; exact hl0 e2
        simp [e1, e2, this, e3]
      · simp [e1, e2]
  · by_cases e1 : h = (cm.1, cm.2 + 1)
    · subst e1; simp [hcc, hcm]
    · by_cases e2 : M.adj (cl.1, cl.2) = some h
      · have := h0l h e2
        have e3 : h ≠ (c1.1, c1.2 + 2) := by rintro rfl; exact hl0 e2
        simp [e1, e2, this, e3]
      · simp [e1, e2]

/-- Under symmetric attributes the two sides of a merged edge agree. -/
theorem m_sym {M : Mesh} {e e' h : HE} (hs : (M.tri h.1).tag h.2 = (M.tri e.1).tag e.2 ∧ (M.tri h.1).edg h.2 = (M.tri e.1).edg e.2)
    (ha : M.adj e = some h) (hne : h ≠ e') : mTag M e e' h = mTag M e e' e' ∧ mEdg M e e' h = mEdg M e e' e' := by
  simp only [mTag, mEdg, if_neg hne, ha, if_true, hs]
  constructor
  · rw [Nat.or_comm, Nat.or_assoc, Nat.or_self]
  · omega

theorem m_other {M : Mesh} {e e' h : HE} (h1 : h ≠ e') (h2 : M.adj e ≠ some h) :
    mTag M e e' h = (M.tri h.1).tag h.2 ∧ mEdg M e e' h = (M.tri h.1).edg h.2 := by
  simp only [mTag, mEdg, if_neg h1, if_neg h2, and_self]

theorem ref_open {M : Mesh} {c0 c1 : HE} {t : List HE} (p x : Nat) (hx : x ≠ c0.1) :
    (((mergeEdge (M.moveV (c1 :: t) p) (c0.1, c0.2) (c1.1, c1.2 + 2)).delTri c0.1).tri x).ref = (M.tri x).ref := by
  obtain ⟨ma, mt⟩ := moveV_spec M (c1 :: t) p
  rw [delTri_tag _ _ _ hx, (mergeEdge_v _ _ _ x).2, (mt x).2.2.1]

theorem ref_closed {M : Mesh} {c0 c1 cm cl : HE} {t : List HE} (p x : Nat) (hx : x ≠ c0.1) (hx' : x ≠ cl.1) :
    ((((mergeEdge (mergeEdge (M.moveV (c1 :: t).dropLast p) (c0.1, c0.2)
      (c1.1, c1.2 + 2)) (cl.1, cl.2) (cm.1, cm.2 + 1)).delTri c0.1).delTri cl.1).tri x).ref = (M.tri x).ref := by
  obtain ⟨ma, mt⟩ := moveV_spec M (c1 :: t).dropLast p
  rw [delTri_tag _ _ _ hx', delTri_tag _ _ _ hx, (mergeEdge_v _ _ _ x).2, (mergeEdge_v _ _ _ x).2, (mt x).2.2.1]

/-- Membership in the ball is preserved by rotation. -/
theorem ball_rot {M : Mesh} (h : Valid M) {c0 : HE} {l : List HE}
    (hm : ∀ x, x ∈ l ↔ ReflTransGen M.Fan c0 x) (c c' : HE)
    (hc : M.live c.1) (e : M.rot c = some c') : c ∈ l ↔ c' ∈ l := by
  classical
  have hs := rot_spec h hc e
  have er : rotL M c = some c' := by simp only [rotL, hc, if_true, e]
  rw [hm, hm]
  constructor
  · intro hh; exact hh.tail ((fan_iff h hc).2 (.inl er))
  · intro hh; exact hh.tail ((fan_iff h hs.1).2 (.inr er))

/-! ### Main theorems -/

/-- C45, interior vertex. `l` is the ball of the vertex `ip1` at corner `c0` and `ip2` the next vertex of
this triangle. When `ip2` belongs to no other triangle of the ball than the two that share the edge, and the
third vertices of these two differ, the collapse gives a conforming mesh without exactly these two
triangles, where `ip1` is replaced by `ip2`; the triangle references stay, attributes stay the same on both
sides of every edge, and the circulation of any antisymmetric function (in particular the area) is
conserved. -/
theorem C45_collapse_interior {M : Mesh} (h : Valid M) {c0 : HE} (hk : M.live c0.1) {lmax : Nat} {l : List HE}
    (hb : boulet M lmax false c0 = some (l, false)) (hlen : 3 ≤ l.length) {kl : Nat} {e : Fin 3}
    (hkl : M.adj (c0.1, c0.2 + 2) = some (kl, e))
    (hno : ∀ c ∈ l, c.1 ≠ c0.1 → c.1 ≠ kl → ∀ i, (M.tri c.1).v i ≠ (M.tri c0.1).v (c0.2 + 1))
    (hap : (M.tri c0.1).v (c0.2 + 2) ≠ (M.tri kl).v e) :
    ∃ M', colver M l = some M' ∧ Valid M' ∧ (∀ k, M'.live k ↔ M.live k ∧ k ≠ c0.1 ∧ k ≠ kl) ∧
      (∀ k, M'.live k → (M'.tri k).ref = (M.tri k).ref ∧
        ∀ i, (M'.tri k).v i = if (k, i) ∈ l then (M.tri c0.1).v (c0.2 + 1) else (M.tri k).v i) ∧
      (M.TagSym → M'.TagSym) ∧
      ∀ {G : Type} [AddCommGroup G] {f : Nat → Nat → G}, Anti f → ∀ N, (∀ k, M.live k → k < N) →
        circ f N M' = circ f N M := by
  obtain ⟨hh, hnd, hmem, hlv, hopn, -⟩ := C17_ball h hk hb
  obtain ⟨t0, rfl, hch, hlast⟩ := boulet_closed h hk hb
  have hrot := ball_rot h hmem
  match t0, hlen with
  | c1 :: c2 :: t, _ =>
    have h1 : M.rot c0 = some c1 := hch.rel
    obtain ⟨cl, g1⟩ : ∃ cl, (c1 :: c2 :: t).getLast? = some cl := by simp [List.getLast?_cons]
    obtain ⟨cm, g2⟩ : ∃ cm, (c1 :: c2 :: t).dropLast.getLast? = some cm := by simp [List.getLast?_cons]
    have hsp1 : c1 :: c2 :: t = (c1 :: c2 :: t).dropLast ++ [cl] := (List.dropLast_append_getLast? cl g1).symm
    have hsp2 := (List.dropLast_append_getLast? cm g2).symm
    have hsp : c0 :: c1 :: c2 :: t = (c0 :: (c1 :: c2 :: t).dropLast.dropLast) ++ [cm, cl] := by
      conv_lhs => rw [hsp1, hsp2]
      simp
    have hm : M.rot cm = some cl := by
      have := hch
      rw [hsp] at this
      exact this.right_of_append.rel
    have hl : M.rot cl = some c0 := hlast cl (by rw [List.getLast?_cons_cons]; exact g1)
    have iml : cl ∈ c0 :: c1 :: c2 :: t := by rw [hsp]; simp
    have imm : cm ∈ c0 :: c1 :: c2 :: t := by rw [hsp]; simp
    have hkm := (hlv cm imm).1
    have hkl' := (hlv cl iml).1
    have hnd' : (c0 :: c1 :: c2 :: t).Nodup := List.Nodup.of_map _ hnd
    have n1 : c1 ≠ cl := by
      rintro rfl
      have : (c1 :: c2 :: t).Nodup := (List.nodup_cons.1 hnd').2
      have hn := (List.nodup_cons.1 this).1
      apply hn
      simp only [List.getLast?_cons_cons] at g1
      exact List.mem_of_getLast? g1
    have n0 : cm ≠ c0 := by
      rintro rfl
      apply (List.nodup_cons.1 hnd').1
      rw [hsp1, hsp2]; simp
    obtain ⟨r1, r2, r3, r4⟩ := rot_spec h hk h1
    obtain ⟨rl1, rl2, rl3, rl4⟩ := rot_spec h hkl' hl
    obtain ⟨rm1, rm2, rm3, rm4⟩ := rot_spec h hkm hm
    have e01 := h.lnk hk _ _ _ r4
    have el0 := h.lnk hkl' _ _ _ rl4
    have eml := h.lnk hkm _ _ _ rm4
    have hE : kl = cl.1 ∧ e = cl.2 + 1 := by
      have := el0.2.2.1
      rw [hkl] at this
      exact Prod.mk.inj (Option.some.inj this)
    obtain ⟨rfl, rfl⟩ := hE
    obtain ⟨a1, a2, a3, a4, a5, a6, a7, a8⟩ := f3 c0.2
    obtain ⟨b1, b2, b3, b4, b5, b6, b7, b8⟩ := f3 c1.2
    obtain ⟨d1, d2, d3, d4, d5, d6, d7, d8⟩ := f3 cl.2
    obtain ⟨q1, q2, q3, q4, q5, q6, q7, q8⟩ := f3 cm.2
    have nl0 : cl.1 ≠ c0.1 := el0.2.1.symm
    have n10 : c1.1 ≠ c0.1 := e01.2.1
    have nml : cm.1 ≠ cl.1 := eml.2.1.symm
    have n1l : c1.1 ≠ cl.1 := fun e => n1 (corner_eq h hkl' e (r2.trans (hlv cl iml).2.symm))
    have nm0 : cm.1 ≠ c0.1 := fun e => n0 (corner_eq h hk e (hlv cm imm).2)
    have vl2 : (M.tri cl.1).v (cl.2 + 2) = (M.tri c0.1).v (c0.2 + 1) := by
      have := el0.2.2.2.2
      rw [a7, d4] at this
      exact this.symm
    have h00 : M.adj (c0.1, c0.2) ≠ some (cl.1, cl.2) := fun e => hap (h.lnk hk _ _ _ e).2.2.2.1.symm
    have hc : (cl.1, cl.2) ≠ (c1.1, c1.2 + 2) := fun e => n1l (Prod.mk.inj e).1.symm
    have hne : M.adj (c0.1, c0.2) ≠ some (c1.1, c1.2 + 2) := fun e => by
      have := (h.lnk hk _ _ _ e).2.2.1
      rw [e01.2.2.1] at this
      exact a1 (Prod.mk.inj (Option.some.inj this)).2
    have hnl : M.adj (cl.1, cl.2) ≠ some (cm.1, cm.2 + 1) := fun e => by
      have := (h.lnk hkl' _ _ _ e).2.2.1
      rw [rm4] at this
      exact d2 (Prod.mk.inj (Option.some.inj this)).2
    have hl0 : M.adj (cl.1, cl.2) ≠ some (c1.1, c1.2 + 2) := fun e => by
      have := (h.lnk hkl' _ _ _ e).2.2.1
      rw [e01.2.2.1] at this
      exact nl0 (Prod.mk.inj (Option.some.inj this)).1.symm
    have hcc : (cm.1, cm.2 + 1) ≠ (c1.1, c1.2 + 2) := fun e => by
      obtain ⟨ea, eb⟩ := Prod.mk.inj e
      have := corner_eq h r1 ea ((hlv cm imm).2.trans r2.symm)
      subst this
      exact q3 eb
    have hcm : M.adj (c0.1, c0.2) ≠ some (cm.1, cm.2 + 1) := fun e => by
      have := (h.lnk hk _ _ _ e).2.2.1
      rw [rm4] at this
      exact nl0 (Prod.mk.inj (Option.some.inj this)).1
    have h0l : ∀ h, M.adj (cl.1, cl.2) = some h → M.adj (c0.1, c0.2) ≠ some h := by
      rintro ⟨x, y⟩ e e'
      have u := (h.lnk hkl' _ _ _ e).2.2.1
      rw [(h.lnk hk _ _ _ e').2.2.1] at u
      exact nl0 (Prod.mk.inj (Option.some.inj u)).1.symm
    have F := closed_form (M := M) (c0 := c0) (cm := cm) g1 h00 hc
    have hno' : ∀ c, c ∈ c0 :: c1 :: c2 :: t → c ≠ c0 → c ≠ cl → ∀ i,
        (M.tri c.1).v i ≠ (M.tri c0.1).v (c0.2 + 1) := fun c hc n n' => hno c hc
      (fun e => n (corner_eq h hk e (hlv c hc).2)) (fun e => n' (corner_eq h hkl' e ((hlv c hc).2.trans (hlv cl iml).2.symm)))
    obtain ⟨hV, hL⟩ := F.valid h hk hlv (by simp) hrot h1 hm hl hkm hkl' n1 n0 hno' hap
    refine ⟨_, ?_, hV, hL, ?_, ?_, ?_⟩
    · simp only [colver, hkl, g1, g2]
    · intro k hk'
      obtain ⟨-, u1, u2⟩ := (hL k).1 hk'
      refine ⟨ref_closed _ _ u1 u2, fun i => ?_⟩
      split
      · rename_i hb; exact (F.v k i u1 u2).1 hb
      · rename_i hb; exact (F.v k i u1 u2).2 hb
    · intro hS x y hx hxy
      have hy := (hV.lnk hx x.2 y.1 y.2 hxy).1
      obtain ⟨lx, x0, xl⟩ := (hL _).1 hx
      obtain ⟨ly, y0, yl⟩ := (hL _).1 hy
      have ax := closed_attr (t := c2 :: t) ((M.tri c0.1).v (c0.2 + 1)) hne hnl hl0 h00 hc hcc hcm h0l x x0 xl
      have ay := closed_attr (t := c2 :: t) ((M.tri c0.1).v (c0.2 + 1)) hne hnl hl0 h00 hc hcc hcm h0l y y0 yl
      rw [ax.1, ax.2, ay.1, ay.2]
      rw [F.adj _ _ x0 xl] at hxy
      have s0 := fun z => hS (c0.1, c0.2) z hk
      have sl := fun z => hS (cl.1, cl.2) z hkl'
      have inj : ∀ w : HE, M.live w.1 → M.adj w = some x → ∀ z : HE, M.adj x = some z → z = w := by
        intro w hw e z e2
        have := (h.lnk hw w.2 x.1 x.2 e).2.2.1
        rw [e2] at this
        exact Option.some.inj this
      by_cases e1 : x = (cm.1, cm.2 + 1)
      · have e1' : (x.1, x.2) = (cm.1, cm.2 + 1) := e1
        rw [if_pos e1'] at hxy
        have yn : y ≠ (cm.1, cm.2 + 1) := fun e => hnl (e ▸ hxy)
        rw [if_pos (.inr hxy), if_pos (.inl e1), if_pos (.inr hxy), if_pos (.inl e1), e1]
        exact m_sym (sl y hxy) hxy yn
      rw [if_neg e1] at hxy
      by_cases e2 : M.adj (cl.1, cl.2) = some x
      · rw [if_pos e2] at hxy
        cases hxy
        rw [if_pos (.inl rfl), if_pos (.inr e2), if_pos (.inl rfl), if_pos (.inr e2)]
        have := m_sym (e' := (cm.1, cm.2 + 1)) (sl x e2) e2 e1
        exact ⟨this.1.symm, this.2.symm⟩
      rw [if_neg e2] at hxy
      have x1 : ¬ (x = (cm.1, cm.2 + 1) ∨ M.adj (cl.1, cl.2) = some x) := by
        rintro (e | e)
        · exact e1 e
        · exact e2 e
      simp only [if_neg x1]
      by_cases e3 : x = (c1.1, c1.2 + 2)
      · have e3' : (x.1, x.2) = (c1.1, c1.2 + 2) := e3
        rw [if_pos e3'] at hxy
        have yn : y ≠ (c1.1, c1.2 + 2) := fun e => hne (e ▸ hxy)
        have y1 : ¬ (y = (cm.1, cm.2 + 1) ∨ M.adj (cl.1, cl.2) = some y) := by
          rintro (e | e)
          · exact hcm (e ▸ hxy)
          · exact h0l _ e hxy
        rw [if_neg y1, if_neg y1, e3]
        exact m_sym (s0 y hxy) hxy yn
      rw [if_neg e3] at hxy
      by_cases e4 : M.adj (c0.1, c0.2) = some x
      · rw [if_pos e4] at hxy
        cases hxy
        have y1 : ¬ ((c1.1, c1.2 + 2) = (cm.1, cm.2 + 1) ∨ M.adj (cl.1, cl.2) = some (c1.1, c1.2 + 2)) := by
          rintro (e | e)
          · exact hcc e.symm
          · exact hl0 e
        rw [if_neg y1, if_neg y1]
        have := m_sym (e' := (c1.1, c1.2 + 2)) (s0 x e4) e4 e3
        exact ⟨this.1.symm, this.2.symm⟩
      rw [if_neg e4] at hxy
      have back := (h.lnk lx x.2 y.1 y.2 hxy).2.2.1
      have y1 : y ≠ (cm.1, cm.2 + 1) := by
        rintro rfl
        rw [rm4] at back
        exact xl (Prod.mk.inj (Option.some.inj back)).1.symm
      have y2 : M.adj (cl.1, cl.2) ≠ some y := by
        intro e
        have := (h.lnk hkl' _ y.1 y.2 e).2.2.1
        rw [back] at this
        exact xl (Prod.mk.inj (Option.some.inj this)).1
      have y3 : y ≠ (c1.1, c1.2 + 2) := by
        rintro rfl
        rw [e01.2.2.1] at back
        exact x0 (Prod.mk.inj (Option.some.inj back)).1.symm
      have y4 : M.adj (c0.1, c0.2) ≠ some y := by
        intro e
        have := (h.lnk hk _ y.1 y.2 e).2.2.1
        rw [back] at this
        exact x0 (Prod.mk.inj (Option.some.inj this)).1
      rw [if_neg (by simp only [y1, y2, or_self, not_false_eq_true]), if_neg (by simp only [y1, y2, or_self, not_false_eq_true])]
      rw [(m_other e3 e4).1, (m_other e3 e4).2, (m_other y3 y4).1, (m_other y3 y4).2]
      exact hS x y lx hxy
    · intro G _ f hf N hN
      refine F.circ h hV hL hk hlv hrot h1 hm hl hkm hkl' n1 n0 (by simp) ?_ hf hN
      intro c hc i hi he
      have := hopn.2 ⟨c, hc, i, hi, he⟩
      cases this

/-- C45, boundary vertex, merged along the boundary edge of the first triangle of its ball. `ce` is the last
triangle of the ball: the boundary edges `u ip1` and `ip1 ip2` become the single edge `u ip2`. -/
theorem C45_collapse_boundary {M : Mesh} (h : Valid M) {c0 : HE} (hk : M.live c0.1) {lmax : Nat} {l : List HE}
    (hb : boulet M lmax false c0 = some (l, true)) (hlen : 2 ≤ l.length)
    (hop : M.adj (c0.1, c0.2 + 2) = none)
    (hno : ∀ c ∈ l, c.1 ≠ c0.1 → ∀ i, (M.tri c.1).v i ≠ (M.tri c0.1).v (c0.2 + 1)) :
    ∃ M' ce, colver M l = some M' ∧ l.getLast? = some ce ∧ M.adj (ce.1, ce.2 + 1) = none ∧
      Valid M' ∧ (∀ k, M'.live k ↔ M.live k ∧ k ≠ c0.1) ∧
      (∀ k, M'.live k → (M'.tri k).ref = (M.tri k).ref ∧
        ∀ i, (M'.tri k).v i = if (k, i) ∈ l then (M.tri c0.1).v (c0.2 + 1) else (M.tri k).v i) ∧
      (M.TagSym → M'.TagSym) ∧
      ∀ {G : Type} [AddCommGroup G] {f : Nat → Nat → G}, Anti f → ∀ N, (∀ k, M.live k → k < N) →
        circ f N M' = circ f N M - f (M.at c0) ((M.tri c0.1).v (c0.2 + 1)) - f ((M.tri ce.1).v (ce.2 + 2)) (M.at c0)
          + f ((M.tri ce.1).v (ce.2 + 2)) ((M.tri c0.1).v (c0.2 + 1)) := by
  obtain ⟨hh, hnd, hmem, hlv, hopn, -⟩ := C17_ball h hk hb
  obtain ⟨t0, rfl, hch, hlast⟩ := boulet_open h hk hb hop
  have hrot := ball_rot h hmem
  match t0, hlen with
  | c1 :: t, _ =>
    have h1 : M.rot c0 = some c1 := hch.rel
    obtain ⟨ce, g1⟩ : ∃ ce, (c0 :: c1 :: t).getLast? = some ce := by simp [List.getLast?_cons]
    have hre := hlast ce g1
    have ime := List.mem_of_getLast? g1
    have hnd' : (c0 :: c1 :: t).Nodup := List.Nodup.of_map _ hnd
    obtain ⟨r1, r2, r3, r4⟩ := rot_spec h hk h1
    have e01 := h.lnk hk _ _ _ r4
    obtain ⟨a1, a2, a3, a4, a5, a6, a7, a8⟩ := f3 c0.2
    have n10 : c1.1 ≠ c0.1 := e01.2.1
    have hne : M.adj (c0.1, c0.2) ≠ some (c1.1, c1.2 + 2) := fun e => by
      have := (h.lnk hk _ _ _ e).2.2.1
      rw [e01.2.2.1] at this
      exact a1 (Prod.mk.inj (Option.some.inj this)).2
    have F := open_form (M := M) (c0 := c0) (c1 := c1) (t := t)
    have hno' : ∀ c, c ∈ c0 :: c1 :: t → c ≠ c0 → ∀ i,
        (M.tri c.1).v i ≠ (M.tri c0.1).v (c0.2 + 1) := fun c hc n => hno c hc
      (fun e => n (corner_eq h hk e (hlv c hc).2))
    obtain ⟨hV, hL⟩ := F.valid h hk hlv (by simp) hrot h1 hop hno'
    refine ⟨_, ce, ?_, g1, ?_, hV, hL, ?_, ?_, ?_⟩
    · simp only [colver, hop]
    · simpa [Mesh.rot] using hre
    · intro k hk'
      obtain ⟨-, u1⟩ := (hL k).1 hk'
      refine ⟨ref_open _ _ u1, fun i => ?_⟩
      split
      · rename_i hb; exact (F.v k i).1 u1 hb
      · rename_i hb; exact (F.v k i).2 u1 hb
    · intro hS x y hx hxy
      have hy := (hV.lnk hx x.2 y.1 y.2 hxy).1
      obtain ⟨lx, x0⟩ := (hL _).1 hx
      obtain ⟨ly, y0⟩ := (hL _).1 hy
      have ax := open_attr (t := t) ((M.tri c0.1).v (c0.2 + 1)) hne x x0
      have ay := open_attr (t := t) ((M.tri c0.1).v (c0.2 + 1)) hne y y0
      rw [ax.1, ax.2, ay.1, ay.2]
      rw [F.adj _ _ x0] at hxy
      have s0 := fun z => hS (c0.1, c0.2) z hk
      by_cases e3 : x = (c1.1, c1.2 + 2)
      · have e3' : (x.1, x.2) = (c1.1, c1.2 + 2) := e3
        rw [if_pos e3'] at hxy
        have yn : y ≠ (c1.1, c1.2 + 2) := fun e => hne (e ▸ hxy)
        rw [e3]
        exact m_sym (s0 y hxy) hxy yn
      rw [if_neg e3] at hxy
      by_cases e4 : M.adj (c0.1, c0.2) = some x
      · rw [if_pos e4] at hxy
        cases hxy
        have := m_sym (e' := (c1.1, c1.2 + 2)) (s0 x e4) e4 e3
        exact ⟨this.1.symm, this.2.symm⟩
      rw [if_neg e4] at hxy
      have back := (h.lnk lx x.2 y.1 y.2 hxy).2.2.1
      have y3 : y ≠ (c1.1, c1.2 + 2) := by
        rintro rfl
        rw [e01.2.2.1] at back
        exact x0 (Prod.mk.inj (Option.some.inj back)).1.symm
      have y4 : M.adj (c0.1, c0.2) ≠ some y := by
        intro e
        have := (h.lnk hk _ y.1 y.2 e).2.2.1
        rw [back] at this
        exact x0 (Prod.mk.inj (Option.some.inj this)).1
      rw [(m_other e3 e4).1, (m_other e3 e4).2, (m_other y3 y4).1, (m_other y3 y4).2]
      exact hS x y lx hxy
    · intro G _ f hf N hN
      refine F.circ h hV hL hk hlv (by simp) hrot h1 hop ime (hlv _ ime).1 hre ?_ ?_ hf hN
      · intro c hc he
        obtain ⟨j, hj, rfl⟩ := List.getElem_of_mem hc
        by_cases hj1 : j + 1 < (c0 :: c1 :: t).length
        · have := List.isChain_iff_getElem.1 hch j hj1
          simp only [Mesh.rot, he] at this
          cases this
        · have e : j = (c0 :: c1 :: t).length - 1 := by omega
          have e' := g1
          rw [List.getLast?_eq_getElem?] at e'
          rw [← e, List.getElem?_eq_getElem hj] at e'
          exact Option.some.inj e'
      · intro c hc he
        obtain ⟨j, hj, rfl⟩ := List.getElem_of_mem hc
        cases j with
        | zero => rfl
        | succ j =>
          have hjl := hlv _ (List.getElem_mem (Nat.lt_of_succ_lt hj))
          have r := (rot_spec h hjl.1 (List.isChain_iff_getElem.1 hch j hj)).2.2.2
          have := (h.lnk hjl.1 _ _ _ r).2.2.1
          rw [he] at this
          cases this

/-! ### Short balls -/

theorem copyAttr_v (M : Mesh) (o : Option HE) (e : HE) (x : Nat) : ((copyAttr M o e).tri x).v = (M.tri x).v ∧
    ((copyAttr M o e).tri x).ref = (M.tri x).ref := by
  cases o with
  | none => exact ⟨rfl, rfl⟩
  | some o => simp only [copyAttr, Mesh.setTri, Mesh.setAdj, Tri.setE]; split <;> simp_all

theorem copyAttr_adj (M : Mesh) (o : Option HE) (e h : HE) : (copyAttr M o e).adj h = if o = some h then some e else M.adj h := by
  cases o with
  | none => simp [copyAttr]
  | some o => simp only [copyAttr, Mesh.setTri, Mesh.setAdj, Option.some.injEq]; grind

theorem copyAttr_tag (M : Mesh) (o : Option HE) (e h : HE) :
    ((copyAttr M o e).tri h.1).tag h.2 = (if o = some h then (M.tri e.1).tag e.2 else (M.tri h.1).tag h.2) ∧
    ((copyAttr M o e).tri h.1).edg h.2 = (if o = some h then (M.tri e.1).edg e.2 else (M.tri h.1).edg h.2) := by
  rcases o with _ | ⟨p, q⟩
  · simp [copyAttr]
  · obtain ⟨x, y⟩ := h
    simp only [copyAttr, Mesh.setTri, Mesh.setAdj, Option.some.injEq, Prod.mk.injEq, Tri.setE]
    by_cases h1 : p = x <;> by_cases h2 : q = y <;> simp_all <;> grind

theorem colver3_form {M : Mesh} {a b c : HE} (hab : b.1 ≠ a.1) (hcb : c.1 ≠ b.1) (hca : c.1 ≠ a.1)
    (hac : ∀ h, M.adj c = some h → M.adj a ≠ some h)
    (hb : ∀ y, M.adj a = some (b.1, y) → y = b.2) (hb' : ∀ y, M.adj c = some (b.1, y) → y = b.2) :
    ClosedForm M (colver3 M a b c) (fun x => x ∈ [a, b, c]) a b b c := by
  obtain ⟨ka, ia⟩ := a
  obtain ⟨kb, ib⟩ := b
  obtain ⟨kc, ic⟩ := c
  obtain ⟨b1, b2, b3, b4, b5, b6, b7, b8⟩ := f3 ib
  simp only at *
  constructor
  · intro x y hx hx'
    simp only [colver3, delTri_v, if_neg hx, if_neg hx', (copyAttr_v _ _ _ _).1, Mesh.setAdj, Mesh.setTri, Tri.setV, Tri.setE,
      List.mem_cons, List.not_mem_nil, or_false, Prod.mk.injEq]
    by_cases e : x = kb
    · subst e
      simp [hx, hx']
      grind
    · simp [hx, hx', e]
  · simp only [colver3, delTri_v]
    split <;> simp
  · intro x y hx hx'
    simp only [colver3, delTri_adj, if_neg hx, if_neg hx', copyAttr_adj, Mesh.setAdj, Mesh.setTri, Prod.mk.injEq]
    by_cases e1 : M.adj (kc, ic) = some (x, y)
    · have := hac _ e1
      grind
    · by_cases e2 : M.adj (ka, ia) = some (x, y) <;> grind

/-- C45, interior vertex with three triangles (`MMG2D_colver3`). -/
theorem C45_collapse3 {M : Mesh} (h : Valid M) {a b c : HE} (hk : M.live a.1) {lmax : Nat}
    (hb : boulet M lmax false a = some ([a, b, c], false))
    (hno : ∀ i, (M.tri b.1).v i ≠ (M.tri a.1).v (a.2 + 1)) :
    Valid (colver3 M a b c) ∧ (∀ k, (colver3 M a b c).live k ↔ M.live k ∧ k ≠ a.1 ∧ k ≠ c.1) ∧
      (∀ k, (colver3 M a b c).live k → ((colver3 M a b c).tri k).ref = (M.tri k).ref ∧
        ∀ i, ((colver3 M a b c).tri k).v i = if (k, i) = b then (M.tri a.1).v (a.2 + 1) else (M.tri k).v i) ∧
      (M.TagSym → (colver3 M a b c).TagSym) ∧
      ∀ {G : Type} [AddCommGroup G] {f : Nat → Nat → G}, Anti f → ∀ N, (∀ k, M.live k → k < N) →
        circ f N (colver3 M a b c) = circ f N M := by
  obtain ⟨hh, hnd, hmem, hlv, hopn, -⟩ := C17_ball h hk hb
  obtain ⟨t0, ht, hch, hlast⟩ := boulet_closed h hk hb
  have hrot := ball_rot h hmem
  have h1 : M.rot a = some b := hch.rel
  have hm : M.rot b = some c := (List.isChain_cons_cons.1 hch).2.rel
  have hl : M.rot c = some a := hlast c rfl
  have hkb := (hlv b (by simp)).1
  have hkc := (hlv c (by simp)).1
  obtain ⟨r1, r2, r3, r4⟩ := rot_spec h hk h1
  obtain ⟨rl1, rl2, rl3, rl4⟩ := rot_spec h hkc hl
  obtain ⟨rm1, rm2, rm3, rm4⟩ := rot_spec h hkb hm
  have e01 := h.lnk hk _ _ _ r4
  have el0 := h.lnk hkc _ _ _ rl4
  have eml := h.lnk hkb _ _ _ rm4
  have nba : b.1 ≠ a.1 := e01.2.1
  have nca : c.1 ≠ a.1 := el0.2.1.symm
  have ncb : c.1 ≠ b.1 := eml.2.1
  obtain ⟨a1, a2, a3, a4, a5, a6, a7, a8⟩ := f3 a.2
  obtain ⟨b1, b2, b3, b4, b5, b6, b7, b8⟩ := f3 b.2
  obtain ⟨d1, d2, d3, d4, d5, d6, d7, d8⟩ := f3 c.2
  have v1 : (M.tri b.1).v (b.2 + 1) = (M.tri a.1).v (a.2 + 2) := by
    have := e01.2.2.2.2
    rw [b7, a4] at this
    exact this
  have v2 : (M.tri b.1).v (b.2 + 2) = (M.tri c.1).v (c.2 + 1) := by
    have := eml.2.2.2.2
    rw [d7, b4] at this
    exact this.symm
  have vl2 : (M.tri c.1).v (c.2 + 2) = (M.tri a.1).v (a.2 + 1) := by
    have := el0.2.2.2.2
    rw [a7, d4] at this
    exact this.symm
  have hap : (M.tri a.1).v (a.2 + 2) ≠ (M.tri c.1).v (c.2 + 1) := by
    rw [← v1, ← v2]; exact h.distinct _ hkb _ _ b3
  have na : ∀ y, M.adj a ≠ some (b.1, y) := by
    intro y e
    have := (h.lnk hk a.2 _ _ e).2.2.2.2
    exact hno _ this
  have nc : ∀ y, M.adj c ≠ some (b.1, y) := by
    intro y e
    have := (h.lnk hkc c.2 _ _ e).2.2.2.1
    exact hno _ (this.trans vl2)
  have hac : ∀ h, M.adj c = some h → M.adj a ≠ some h := by
    rintro ⟨x, y⟩ e e'
    have u := (h.lnk hkc c.2 _ _ e).2.2.1
    rw [(h.lnk hk a.2 _ _ e').2.2.1] at u
    exact nca (Prod.mk.inj (Option.some.inj u)).1.symm
  have F := colver3_form nba ncb nca hac (fun y e => absurd e (na y)) (fun y e => absurd e (nc y))
  have hno' : ∀ x, x ∈ [a, b, c] → x ≠ a → x ≠ c → ∀ i, (M.tri x.1).v i ≠ (M.tri a.1).v (a.2 + 1) := by
    intro x hx xa xc
    simp only [List.mem_cons, List.not_mem_nil, or_false] at hx
    rcases hx with rfl | rfl | rfl
    · exact absurd rfl xa
    · exact hno
    · exact absurd rfl xc
  have n1 : b ≠ c := fun e => ncb (by rw [e])
  have n0 : b ≠ a := fun e => nba (by rw [e])
  obtain ⟨hV, hL⟩ := F.valid h hk hlv (by simp) hrot h1 hm hl hkb hkc n1 n0 hno' hap
  refine ⟨hV, hL, ?_, ?_, ?_⟩
  · intro k hk'
    obtain ⟨-, u1, u2⟩ := (hL k).1 hk'
    constructor
    · simp only [colver3, delTri_tag _ _ _ u1, delTri_tag _ _ _ u2, (copyAttr_v _ _ _ _).2, Mesh.setAdj, Mesh.setTri]
      split
      · rename_i e; rw [e]; rfl
      · rfl
    · intro i
      have hi : (k, i) ∈ [a, b, c] ↔ (k, i) = b := by
        simp only [List.mem_cons, List.not_mem_nil, or_false]
        constructor
        · rintro (e | e | e)
          · exact absurd (by rw [← e]) u1
          · exact e
          · exact absurd (by rw [← e]) u2
        · exact fun e => .inr (.inl e)
      split
      · rename_i e; exact (F.v k i u1 u2).1 (hi.2 e)
      · rename_i e; exact (F.v k i u1 u2).2 (fun q => e (hi.1 q))
  · intro hS x y hx hxy
    have hy := (hV.lnk hx x.2 y.1 y.2 hxy).1
    obtain ⟨lx, x0, xl⟩ := (hL _).1 hx
    obtain ⟨ly, y0, yl⟩ := (hL _).1 hy
    rw [F.adj _ _ x0 xl] at hxy
    -- attributes after the collapse
    have key : ∀ z : HE, z.1 ≠ a.1 → z.1 ≠ c.1 →
        (((colver3 M a b c).tri z.1).tag z.2 = if z = (b.1, b.2 + 1) ∨ M.adj c = some z then
            (M.tri b.1).tag (b.2 + 1) ||| (M.tri c.1).tag c.2
          else if z = (b.1, b.2 + 2) ∨ M.adj a = some z then (M.tri b.1).tag (b.2 + 2) ||| (M.tri a.1).tag a.2
          else (M.tri z.1).tag z.2) ∧
        (((colver3 M a b c).tri z.1).edg z.2 = if z = (b.1, b.2 + 1) ∨ M.adj c = some z then
            max ((M.tri b.1).edg (b.2 + 1)) ((M.tri c.1).edg c.2)
          else if z = (b.1, b.2 + 2) ∨ M.adj a = some z then max ((M.tri b.1).edg (b.2 + 2)) ((M.tri a.1).edg a.2)
          else (M.tri z.1).edg z.2) := by
      rintro ⟨p, q⟩ z0 zl
      obtain ⟨ka, ia⟩ := a
      obtain ⟨kb, ib⟩ := b
      obtain ⟨kc, ic⟩ := c
      simp only at *
      have w1 : ∀ y, M.adj (ka, ia) ≠ some (kb, y) := na
      have w2 : ∀ y, M.adj (kc, ic) ≠ some (kb, y) := nc
      simp only [colver3, delTri_tag _ _ _ z0, delTri_tag _ _ _ zl]
      simp only [(copyAttr_tag _ _ _ (p, q)).1, (copyAttr_tag _ _ _ (p, q)).2,
        (copyAttr_tag _ _ _ (kb, ib + 1)).1, (copyAttr_tag _ _ _ (kb, ib + 1)).2, Mesh.setAdj, Mesh.setTri, Tri.setE,
        Tri.setV, Prod.mk.injEq, copyAttr_adj, b1, b2, b3]
      have c1 : ¬ (kc = kb ∧ ic = ib + 1) := fun e => ncb e.1
      have c2 : ¬ (ka = kb ∧ ia = ib + 1) := fun e => nba e.1.symm
      simp only [c1, c2, if_false, if_true, w1, w2]
      have hh := hac (p, q)
      constructor
      · split
        · rename_i e
          simp [e]
        · rename_i e
          split
          · rename_i e'
            simp [e, e', b3.symm]
            grind
          · rename_i e'
            by_cases f1 : p = kb
            · subst f1
              grind
            · simp [e, e', f1]
      · split
        · rename_i e
          simp [e]
        · rename_i e
          split
          · rename_i e'
            simp [e, e', b3.symm]
            grind
          · rename_i e'
            by_cases f1 : p = kb
            · subst f1
              grind
            · simp [e, e', f1]
    rw [(key x x0 xl).1, (key x x0 xl).2, (key y y0 yl).1, (key y y0 yl).2]
    have nb12 : (b.1, b.2 + 2) ≠ (b.1, b.2 + 1) := fun e => b3 (Prod.mk.inj e).2.symm
    by_cases e1 : x = (b.1, b.2 + 1)
    · have e1' : (x.1, x.2) = (b.1, b.2 + 1) := e1
      rw [if_pos e1'] at hxy
      simp only [e1, true_or, if_true, (show M.adj c = some y from hxy), or_true, and_self]
    rw [if_neg e1] at hxy
    by_cases e2 : M.adj c = some x
    · rw [if_pos e2] at hxy
      cases hxy
      simp only [e2, true_or, if_true, or_true, and_self]
    rw [if_neg e2] at hxy
    by_cases e3 : x = (b.1, b.2 + 2)
    · have e3' : (x.1, x.2) = (b.1, b.2 + 2) := e3
      rw [if_pos e3'] at hxy
      have hxy : M.adj a = some y := hxy
      have f1 : ¬ (y = (b.1, b.2 + 1) ∨ M.adj c = some y) := by
        rintro (e | e)
        · rw [e] at hxy; exact na _ hxy
        · exact hac _ e hxy
      have f2 : ¬ (x = (b.1, b.2 + 1) ∨ M.adj c = some x) := by
        rintro (e | e)
        · exact e1 e
        · exact e2 e
      simp only [f1, f2, e3, true_or, if_true, or_true, and_self, if_false, hxy]
      simp only [nc, nb12, or_self, if_false, and_self]
    rw [if_neg e3] at hxy
    have f2 : ¬ (x = (b.1, b.2 + 1) ∨ M.adj c = some x) := by
      rintro (e | e)
      · exact e1 e
      · exact e2 e
    by_cases e4 : M.adj a = some x
    · rw [if_pos e4] at hxy
      cases hxy
      have f1 : ¬ ((b.1, b.2 + 2) = (b.1, b.2 + 1) ∨ M.adj c = some (b.1, b.2 + 2)) := by
        rintro (e | e)
        · exact nb12 e
        · exact nc _ e
      simp only [f1, f2, e4, true_or, if_true, or_true, and_self, if_false]
    rw [if_neg e4] at hxy
    have back := (h.lnk lx x.2 y.1 y.2 hxy).2.2.1
    have y1 : y ≠ (b.1, b.2 + 1) := by
      rintro rfl
      rw [rm4] at back
      exact xl (Prod.mk.inj (Option.some.inj back)).1.symm
    have y2 : M.adj c ≠ some y := by
      intro e
      have := (h.lnk hkc _ y.1 y.2 e).2.2.1
      rw [back] at this
      exact xl (Prod.mk.inj (Option.some.inj this)).1
    have y3 : y ≠ (b.1, b.2 + 2) := by
      rintro rfl
      rw [e01.2.2.1] at back
      exact x0 (Prod.mk.inj (Option.some.inj back)).1.symm
    have y4 : M.adj a ≠ some y := by
      intro e
      have := (h.lnk hk _ y.1 y.2 e).2.2.1
      rw [back] at this
      exact x0 (Prod.mk.inj (Option.some.inj this)).1
    simp only [e1, e2, e3, e4, y1, y2, y3, y4, or_self, if_false]
    exact hS x y lx hxy
  · intro G _ f hf N hN
    refine F.circ h hV hL hk hlv hrot h1 hm hl hkb hkc n1 n0 (by simp) ?_ hf hN
    intro c hc i hi he
    have := hopn.2 ⟨c, hc, i, hi, he⟩
    cases this

theorem colver2_form {M : Mesh} {a b : HE} (hab : b.1 ≠ a.1) (hb : ∀ y, M.adj a = some (b.1, y) → y = b.2) :
    OpenForm M (colver2 M a b) (fun x => x ∈ [a, b]) a b := by
  obtain ⟨ka, ia⟩ := a
  obtain ⟨kb, ib⟩ := b
  obtain ⟨b1, b2, b3, b4, b5, b6, b7, b8⟩ := f3 ib
  simp only at *
  constructor
  · intro x y
    constructor <;> intro hx hB <;> simp only [List.mem_cons, List.not_mem_nil, or_false, Prod.mk.injEq] at hB
    all_goals simp only [colver2, delTri_v, if_neg hx, backLink_tri, Mesh.setAdj, Mesh.setTri, Tri.setV, Tri.setE]
    all_goals grind
  · simp [colver2, delTri_v]
  · intro x y hx
    simp only [colver2, delTri_adj, if_neg hx, backLink_adj, Mesh.setAdj, Mesh.setTri, Prod.mk.injEq]
    grind

/-- C45, boundary vertex with two triangles (`MMG2D_colver2`). The attributes stay symmetric when the removed
inner edge has no tag that the kept edge has not; otherwise see `C45_two_triangles_tag_false`. -/
theorem C45_collapse2_partial {M : Mesh} (h : Valid M) {a b : HE} (hk : M.live a.1) {lmax : Nat}
    (hb : boulet M lmax false a = some ([a, b], true)) (hop : M.adj (a.1, a.2 + 2) = none)
    (hno : ∀ i, (M.tri b.1).v i ≠ (M.tri a.1).v (a.2 + 1)) :
    Valid (colver2 M a b) ∧ (∀ k, (colver2 M a b).live k ↔ M.live k ∧ k ≠ a.1) ∧
      (∀ k, (colver2 M a b).live k → ((colver2 M a b).tri k).ref = (M.tri k).ref ∧
        ∀ i, ((colver2 M a b).tri k).v i = if (k, i) = b then (M.tri a.1).v (a.2 + 1) else (M.tri k).v i) ∧
      ((M.tri b.1).tag (b.2 + 2) ||| (M.tri a.1).tag a.2 = (M.tri a.1).tag a.2 → M.TagSym → (colver2 M a b).TagSym) ∧
      ∀ {G : Type} [AddCommGroup G] {f : Nat → Nat → G}, Anti f → ∀ N, (∀ k, M.live k → k < N) →
        circ f N (colver2 M a b) = circ f N M - f (M.at a) ((M.tri a.1).v (a.2 + 1)) -
          f ((M.tri b.1).v (b.2 + 2)) (M.at a) + f ((M.tri b.1).v (b.2 + 2)) ((M.tri a.1).v (a.2 + 1)) := by
  obtain ⟨hh, hnd, hmem, hlv, hopn, -⟩ := C17_ball h hk hb
  obtain ⟨t0, ht, hch, hlast⟩ := boulet_open h hk hb hop
  have hrot := ball_rot h hmem
  have h1 : M.rot a = some b := hch.rel
  have hre : M.rot b = none := hlast b rfl
  have hkb := (hlv b (by simp)).1
  obtain ⟨r1, r2, r3, r4⟩ := rot_spec h hk h1
  have e01 := h.lnk hk _ _ _ r4
  have nba : b.1 ≠ a.1 := e01.2.1
  have na : ∀ y, M.adj a ≠ some (b.1, y) := by
    intro y e
    have := (h.lnk hk a.2 _ _ e).2.2.2.2
    exact hno _ this
  have F := colver2_form nba (fun y e => absurd e (na y))
  have hno' : ∀ x, x ∈ [a, b] → x ≠ a → ∀ i, (M.tri x.1).v i ≠ (M.tri a.1).v (a.2 + 1) := by
    intro x hx xa
    simp only [List.mem_cons, List.not_mem_nil, or_false] at hx
    rcases hx with rfl | rfl
    · exact absurd rfl xa
    · exact hno
  obtain ⟨hV, hL⟩ := F.valid h hk hlv (by simp) hrot h1 hop hno'
  refine ⟨hV, hL, ?_, ?_, ?_⟩
  · intro k hk'
    obtain ⟨-, u1⟩ := (hL k).1 hk'
    constructor
    · simp only [colver2, delTri_tag _ _ _ u1, backLink_tri, Mesh.setAdj, Mesh.setTri]
      split
      · rename_i e; rw [e]; rfl
      · rfl
    · intro i
      have hi : (k, i) ∈ [a, b] ↔ (k, i) = b := by
        simp only [List.mem_cons, List.not_mem_nil, or_false]
        constructor
        · rintro (e | e)
          · exact absurd (by rw [← e]) u1
          · exact e
        · exact fun e => .inr e
      split
      · rename_i e; exact (F.v k i).1 u1 (hi.2 e)
      · rename_i e; exact (F.v k i).2 u1 (fun q => e (hi.1 q))
  · intro ht hS x y hx hxy
    have hy := (hV.lnk hx x.2 y.1 y.2 hxy).1
    obtain ⟨lx, x0⟩ := (hL _).1 hx
    obtain ⟨ly, y0⟩ := (hL _).1 hy
    rw [F.adj _ _ x0] at hxy
    have key : ∀ z : HE, z.1 ≠ a.1 →
        (((colver2 M a b).tri z.1).tag z.2 = if z = (b.1, b.2 + 2) then (M.tri a.1).tag a.2
          else (M.tri z.1).tag z.2) ∧
        (((colver2 M a b).tri z.1).edg z.2 = if z = (b.1, b.2 + 2) then (M.tri a.1).edg a.2
          else (M.tri z.1).edg z.2) := by
      rintro ⟨p, q⟩ z0
      simp only [colver2, delTri_tag _ _ _ z0, backLink_tri, Mesh.setAdj, Mesh.setTri, Tri.setE, Tri.setV, Prod.mk.injEq]
      by_cases e : p = b.1
      · subst e
        by_cases e' : q = b.2 + 2
        · subst e'; simp [ht]
        · simp [e']
      · simp [e]
    rw [(key x x0).1, (key x x0).2, (key y y0).1, (key y y0).2]
    by_cases e3 : x = (b.1, b.2 + 2)
    · have e3' : (x.1, x.2) = (b.1, b.2 + 2) := e3
      rw [if_pos e3'] at hxy
      have yn : y ≠ (b.1, b.2 + 2) := fun e => na _ (e ▸ hxy)
      simp only [e3, if_true, if_neg yn]
      exact hS a y hk hxy
    rw [if_neg e3] at hxy
    by_cases e4 : M.adj a = some x
    · rw [if_pos e4] at hxy
      cases hxy
      simp only [e3, if_true, if_false]
      have := hS a x hk e4
      exact ⟨this.1.symm, this.2.symm⟩
    rw [if_neg e4] at hxy
    have back := (h.lnk lx x.2 y.1 y.2 hxy).2.2.1
    have y3 : y ≠ (b.1, b.2 + 2) := by
      rintro rfl
      rw [e01.2.2.1] at back
      exact x0 (Prod.mk.inj (Option.some.inj back)).1.symm
    simp only [e3, y3, if_false]
    exact hS x y lx hxy
  · intro G _ f hf N hN
    refine F.circ h hV hL hk hlv (by simp) hrot h1 hop (by simp) hkb hre ?_ ?_ hf hN
    · intro c hc he
      simp only [List.mem_cons, List.not_mem_nil, or_false] at hc
      rcases hc with rfl | rfl
      · rw [r4] at he; cases he
      · rfl
    · intro c hc he
      simp only [List.mem_cons, List.not_mem_nil, or_false] at hc
      rcases hc with rfl | rfl
      · rfl
      · rw [e01.2.2.1] at he; cases he

/-! ### Concrete cases -/

/-- Four triangles around vertex 1. -/
def fan4 : Mesh where
  tri := fun k => if k = 1 then ⟨![1, 2, 3], fun _ => 0, fun _ => 0, 7⟩
    else if k = 2 then ⟨![1, 3, 4], fun _ => 0, fun _ => 0, 7⟩
    else if k = 3 then ⟨![1, 4, 5], fun _ => 0, fun _ => 0, 7⟩
    else if k = 4 then ⟨![1, 5, 2], fun _ => 0, fun _ => 0, 7⟩
    else ⟨fun _ => 0, fun _ => 0, fun _ => 0, 0⟩
  adj := fun h => if h = (1, 1) then some (2, 2) else if h = (2, 2) then some (1, 1)
    else if h = (2, 1) then some (3, 2) else if h = (3, 2) then some (2, 1)
    else if h = (3, 1) then some (4, 2) else if h = (4, 2) then some (3, 1)
    else if h = (4, 1) then some (1, 2) else if h = (1, 2) then some (4, 1)
    else none

theorem fan4_live (k : Nat) (hk : fan4.live k) : k = 1 ∨ k = 2 ∨ k = 3 ∨ k = 4 := by
  by_contra hne
  apply hk
  simp only [not_or] at hne
  simp [fan4, hne]

theorem fan4_valid : Valid fan4 := by
  have hl := fan4_live
  constructor
  · intro k hk; rcases hl k hk with rfl | rfl | rfl | rfl <;> decide
  · intro k hk; rcases hl k hk with rfl | rfl | rfl | rfl <;> decide
  · rintro a b _ e
    simp only [fan4] at e
    repeat' split at e
    all_goals first | (subst_vars; simp at e; subst e; decide) | simp at e

theorem fan4_sym : fan4.TagSym := by
  rintro ⟨k, i⟩ ⟨k', i'⟩ hk e
  rcases fan4_live k hk with rfl | rfl | rfl | rfl <;> revert e <;> revert i' <;> fin_cases i <;> intro i' <;> fin_cases i' <;>
    simp (config := { decide := true }) [fan4] <;> (try (rintro rfl)) <;> decide

example : Valid fan4 ∧ fan4.TagSym ∧ fan4.live 1 ∧
    boulet fan4 1024 false (1, 0) = some ([(1, 0), (2, 0), (3, 0), (4, 0)], false) ∧
    fan4.adj (1, 2) = some (4, 1) ∧
    (∀ c ∈ [((1, 0) : HE), (2, 0), (3, 0), (4, 0)], c.1 ≠ 1 → c.1 ≠ 4 → ∀ i, (fan4.tri c.1).v i ≠ 2) ∧
    (fan4.tri 1).v 2 ≠ (fan4.tri 4).v 1 :=
  ⟨fan4_valid, fan4_sym, by decide, by decide, by decide, by decide, by decide⟩

/-- Three triangles around vertex 1. -/
def star3 : Mesh where
  tri := fun k => if k = 1 then ⟨![1, 2, 3], fun _ => 0, fun _ => 0, 7⟩
    else if k = 2 then ⟨![1, 3, 4], fun _ => 0, fun _ => 0, 7⟩
    else if k = 3 then ⟨![1, 4, 2], fun _ => 0, fun _ => 0, 7⟩
    else ⟨fun _ => 0, fun _ => 0, fun _ => 0, 0⟩
  adj := fun h => if h = (1, 1) then some (2, 2) else if h = (2, 2) then some (1, 1)
    else if h = (2, 1) then some (3, 2) else if h = (3, 2) then some (2, 1)
    else if h = (3, 1) then some (1, 2) else if h = (1, 2) then some (3, 1)
    else none

theorem star3_live (k : Nat) (hk : star3.live k) : k = 1 ∨ k = 2 ∨ k = 3 := by
  by_contra hne
  apply hk
  simp only [not_or] at hne
  simp [star3, hne]

theorem star3_valid : Valid star3 := by
  have hl := star3_live
  constructor
  · intro k hk; rcases hl k hk with rfl | rfl | rfl <;> decide
  · intro k hk; rcases hl k hk with rfl | rfl | rfl <;> decide
  · rintro a b _ e
    simp only [star3] at e
    repeat' split at e
    all_goals first | (subst_vars; simp at e; subst e; decide) | simp at e

theorem star3_sym : star3.TagSym := by
  rintro ⟨k, i⟩ ⟨k', i'⟩ hk e
  rcases star3_live k hk with rfl | rfl | rfl <;> revert e <;> revert i' <;> fin_cases i <;> intro i' <;> fin_cases i' <;>
    simp (config := { decide := true }) [star3] <;> (try (rintro rfl)) <;> decide

example : Valid star3 ∧ star3.TagSym ∧ star3.live 1 ∧
    boulet star3 1024 false (1, 0) = some ([(1, 0), (2, 0), (3, 0)], false) ∧
    ∀ i, (star3.tri 2).v i ≠ (star3.tri 1).v 1 :=
  ⟨star3_valid, star3_sym, by decide, by decide, by decide⟩

example : Valid fan3 ∧ fan3.live 1 ∧ boulet fan3 1024 false (1, 0) = some ([(1, 0), (2, 0), (3, 0)], true) ∧
    fan3.adj (1, 2) = none ∧ ∀ c ∈ [((1, 0) : HE), (2, 0), (3, 0)], c.1 ≠ 1 → ∀ i, (fan3.tri c.1).v i ≠ (fan3.tri 1).v 1 :=
  ⟨fan3_valid, by decide, by decide, by decide, by decide⟩

/-- Boundary vertex 1 with two triangles, the inner edge has tag 4 (MG_REQ), and a third triangle beyond. -/
def pair1 : Mesh where
  tri := fun k => if k = 1 then ⟨![1, 2, 3], ![0, 4, 0], fun _ => 0, 7⟩
    else if k = 2 then ⟨![1, 3, 4], ![0, 0, 4], fun _ => 0, 7⟩
    else if k = 3 then ⟨![3, 2, 5], fun _ => 0, fun _ => 0, 7⟩
    else ⟨fun _ => 0, fun _ => 0, fun _ => 0, 0⟩
  adj := fun h => if h = (1, 1) then some (2, 2) else if h = (2, 2) then some (1, 1)
    else if h = (1, 0) then some (3, 2) else if h = (3, 2) then some (1, 0)
    else none

theorem pair1_live (k : Nat) (hk : pair1.live k) : k = 1 ∨ k = 2 ∨ k = 3 := by
  by_contra hne
  apply hk
  simp only [not_or] at hne
  simp [pair1, hne]

theorem pair1_valid : Valid pair1 := by
  have hl := pair1_live
  constructor
  · intro k hk; rcases hl k hk with rfl | rfl | rfl <;> decide
  · intro k hk; rcases hl k hk with rfl | rfl | rfl <;> decide
  · rintro a b _ e
    simp only [pair1] at e
    repeat' split at e
    all_goals first | (subst_vars; simp at e; subst e; decide) | simp at e

theorem pair1_sym : pair1.TagSym := by
  rintro ⟨k, i⟩ ⟨k', i'⟩ hk e
  rcases pair1_live k hk with rfl | rfl | rfl <;> revert e <;> revert i' <;> fin_cases i <;> intro i' <;> fin_cases i' <;>
    simp (config := { decide := true }) [pair1] <;> (try (rintro rfl)) <;> decide

/-- C45, counterexample: `MMG2D_colver2` gives the tag of the removed inner edge to one side only of the edge
that takes its place. -/
theorem C45_two_triangles_tag_false : Valid pair1 ∧ pair1.TagSym ∧ pair1.live 1 ∧
    boulet pair1 1024 false (1, 0) = some ([(1, 0), (2, 0)], true) ∧ pair1.adj (1, 2) = none ∧
    (∀ i, (pair1.tri 2).v i ≠ (pair1.tri 1).v 1) ∧ ¬ (colver2 pair1 (1, 0) (2, 0)).TagSym := by
  refine ⟨pair1_valid, pair1_sym, by decide, by decide, by decide, by decide, ?_⟩
  intro hS
  have := (hS (2, 2) (3, 2) (by decide) (by decide)).1
  revert this
  decide

example : Valid twoTri ∧ twoTri.live 2 ∧ boulet twoTri 1024 false (2, 1) = some ([(2, 1), (1, 1)], true) ∧
    twoTri.adj (2, 0) = none ∧ (∀ i, (twoTri.tri 1).v i ≠ (twoTri.tri 2).v 2) ∧
    (twoTri.tri 1).tag 0 ||| (twoTri.tri 2).tag 1 = (twoTri.tri 2).tag 1 :=
  ⟨twoTri_valid, by decide, by decide, by decide, by decide, by decide⟩

/-! ### Histories with collapses -/

/-- A step of remeshing: one of the steps of C16 or a collapse, chosen as in mmg2d1.c:490-503. A boundary
vertex is only removed when `okb u ip1 ip2` holds for its boundary neighbours. -/
inductive StepC (okb : Nat → Nat → Nat → Prop) (N : Nat) : Mesh → Mesh → Prop
  | base {M M' : Mesh} (s : Step okb N M M') : StepC okb N M M'
  | interior {M M' : Mesh} {c0 : HE} {lmax : Nat} {l : List HE} {kl : Nat} {e : Fin 3} (hk : M.live c0.1)
      (hb : boulet M lmax false c0 = some (l, false)) (hlen : 3 < l.length)
      (hkl : M.adj (c0.1, c0.2 + 2) = some (kl, e))
      (hno : ∀ c ∈ l, c.1 ≠ c0.1 → c.1 ≠ kl → ∀ i, (M.tri c.1).v i ≠ (M.tri c0.1).v (c0.2 + 1))
      (hap : (M.tri c0.1).v (c0.2 + 2) ≠ (M.tri kl).v e) (hs : colver M l = some M') : StepC okb N M M'
  | three {M : Mesh} {a b c : HE} {lmax : Nat} (hk : M.live a.1)
      (hb : boulet M lmax false a = some ([a, b, c], false))
      (hno : ∀ i, (M.tri b.1).v i ≠ (M.tri a.1).v (a.2 + 1)) : StepC okb N M (colver3 M a b c)
  | boundary {M M' : Mesh} {c0 ce : HE} {lmax : Nat} {l : List HE} (hk : M.live c0.1)
      (hb : boulet M lmax false c0 = some (l, true)) (hlen : 3 ≤ l.length)
      (hop : M.adj (c0.1, c0.2 + 2) = none) (hce : l.getLast? = some ce)
      (hno : ∀ c ∈ l, c.1 ≠ c0.1 → ∀ i, (M.tri c.1).v i ≠ (M.tri c0.1).v (c0.2 + 1))
      (hok : okb ((M.tri ce.1).v (ce.2 + 2)) (M.at c0) ((M.tri c0.1).v (c0.2 + 1)))
      (hs : colver M l = some M') : StepC okb N M M'
  | two {M : Mesh} {a b : HE} {lmax : Nat} (hk : M.live a.1)
      (hb : boulet M lmax false a = some ([a, b], true)) (hop : M.adj (a.1, a.2 + 2) = none)
      (hno : ∀ i, (M.tri b.1).v i ≠ (M.tri a.1).v (a.2 + 1))
      (hok : okb ((M.tri b.1).v (b.2 + 2)) (M.at a) ((M.tri a.1).v (a.2 + 1))) : StepC okb N M (colver2 M a b)

/-- C16 with collapses: along any history of splits, swaps and collapses the mesh stays conforming, and the
circulation of every antisymmetric function that is additive on the boundary edges cut or merged stays the
same. -/
theorem C16_histories_with_collapse {okb : Nat → Nat → Nat → Prop} {N : Nat} {M M' : Mesh}
    (s : ReflTransGen (StepC okb N) M M') (h : Valid M) (hN : ∀ k, M.live k → k < N) :
    Valid M' ∧ (∀ k, M'.live k → k < N) ∧
    ∀ (G : Type) [AddCommGroup G] (f : Nat → Nat → G), Anti f →
      (∀ a p b, okb a p b → f a p + f p b = f a b) → circ f N M' = circ f N M := by
  induction s with
  | refl => exact ⟨h, hN, fun _ _ _ _ _ => rfl⟩
  | tail _ st ih =>
    rename_i M1 M2 _
    obtain ⟨a, b, c⟩ := ih
    suffices hh : Valid M2 ∧ (∀ k, M2.live k → k < N) ∧ ∀ (G : Type) [AddCommGroup G] (f : Nat → Nat → G), Anti f →
        (∀ a p b, okb a p b → f a p + f p b = f a b) → circ f N M2 = circ f N M1 from
      ⟨hh.1, hh.2.1, fun G _ f hf hb => (hh.2.2 G f hf hb).trans (c G f hf hb)⟩
    cases st with
    | base s => exact s.spec a b
    | interior hk hb hlen hkl hno hap hs =>
      obtain ⟨M', e, v, l, -, -, q⟩ := C45_collapse_interior a hk hb hlen.le hkl hno hap
      rw [hs] at e
      cases e
      exact ⟨v, fun k hk => b k ((l k).1 hk).1, fun G _ f hf _ => q hf N b⟩
    | three hk hb hno =>
      obtain ⟨v, l, -, -, q⟩ := C45_collapse3 a hk hb hno
      exact ⟨v, fun k hk => b k ((l k).1 hk).1, fun G _ f hf _ => q hf N b⟩
    | boundary hk hb hlen hop hce hno hok hs =>
      obtain ⟨M', ce, e, g1, -, v, l, -, -, q⟩ := C45_collapse_boundary a hk hb (by omega) hop hno
      rw [hs] at e
      cases e
      rw [hce] at g1
      cases g1
      refine ⟨v, fun k hk => b k ((l k).1 hk).1, fun G _ f hf ha => ?_⟩
      rw [q hf N b, ← ha _ _ _ hok]
      abel
    | two hk hb hop hno hok =>
      obtain ⟨v, l, -, -, q⟩ := C45_collapse2_partial a hk hb hop hno
      refine ⟨v, fun k hk => b k ((l k).1 hk).1, fun G _ f hf ha => ?_⟩
      rw [q hf N b, ← ha _ _ _ hok]
      abel

/-- C16 (area) with collapses. -/
theorem C16_area_with_collapse {K : Type} [CommRing K] (cx cy : Nat → K) {N : Nat} {M M' : Mesh}
    (s : ReflTransGen (StepC (fun a p b => ∃ t, OnEdge cx cy t a b p) N) M M') (h : Valid M)
    (hN : ∀ k, M.live k → k < N) :
    (∑ k ∈ Finset.range N, if M'.live k then area2 cx cy (M'.tri k) else 0) =
      ∑ k ∈ Finset.range N, if M.live k then area2 cx cy (M.tri k) else 0 := by
  have := (C16_histories_with_collapse s h hN).2.2 K (fun a b => cx a * cy b - cx b * cy a)
    (fun a b => by ring) (by
      rintro a p b ⟨t, hx, hy⟩
      rw [hx, hy]; ring)
  have e : ∀ t, triCirc (fun a b => cx a * cy b - cx b * cy a) t = area2 cx cy t := by
    intro t; unfold triCirc area2; ring
  unfold circ at this
  simp only [e] at this
  exact this

/-- A step: the centre of `fan4` is removed. -/
example : ∃ M', StepC (fun _ _ _ => False) 10 fan4 M' ∧ ¬ M'.live 1 ∧ (M'.tri 2).v 0 = 2 := by
  refine ⟨(colver fan4 [(1, 0), (2, 0), (3, 0), (4, 0)]).get (by decide), ?_, by decide, by decide⟩
  exact .interior (c0 := (1, 0)) (lmax := 1024) (l := [(1, 0), (2, 0), (3, 0), (4, 0)]) (kl := 4) (e := 1)
    (by decide) (by decide) (by decide) (by decide) (by decide) (by decide) (Option.some_get _).symm

end Mmg.Tri2
