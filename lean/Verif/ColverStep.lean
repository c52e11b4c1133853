/-
  Collapse of an edge in 3D: invariant of the loop over the shell.
-/
import Verif.ColverLemmas

namespace Mmg.Colver

open Mmg.Split3 Mmg.Swap23 Mmg.Shell

section
variable (tref : Nat → Int) (used : Nat → Prop) (p q : Nat) (s0 : St)

/-- The face is in front of a removed tetrahedron of the shell (`rem`: those that are still there). -/
def Cond (rem : List Nat) (k f : Nat) : Prop :=
  link s0.A k f ≠ 0 ∧ D s0.V used p q (link s0.A k f / 4) ∧ link s0.A k f / 4 ∉ rem

/-- Link of the other merged face of the tetrahedron in front. -/
def glued (k f : Nat) : Nat :=
  link s0.A (link s0.A k f / 4) (other (s0.V (link s0.A k f / 4)) p q (link s0.A k f % 4))

/-- New data of a face in front of the shell: those of the two merged faces of the tetrahedron of the
shell; for the neighbour on the side of `q`, only those of the other face when the latter is on the
outside. -/
def val (k f : Nat) : Int × Nat :=
  let e := link s0.A k f / 4
  let g := link s0.A k f % 4
  let h := other (s0.V e) p q g
  if g = idx (s0.V e) p ∧ link s0.A e h = 0 then fd s0 e h else merge (fd s0 e g) (fd s0 e h)

/-- Right orientation of a face of `k` with link `y`. -/
def OriSpec (y k : Nat) (b : Bool) : Prop :=
  (y = 0 → b = true) ∧
  (y ≠ 0 → (tref (y / 4) < tref k → b = true) ∧ (tref k < tref (y / 4) → b = false))

/-- Tetrahedra that are still there. -/
def live (rem : List Nat) (k : Nat) : Prop := O s0.V used p q k ∨ k ∈ rem

structure Inv (rem : List Nat) (s : St) : Prop where
  linkG : ∀ k, O s0.V used p q k → ∀ f < 4, Cond used p q s0 rem k f →
    link s.A k f = glued p q s0 k f
  linkN : ∀ k, O s0.V used p q k → ∀ f < 4, ¬ Cond used p q s0 rem k f →
    link s.A k f = link s0.A k f
  row : ∀ k ∈ rem, ∀ f < 4, link s.A k f = link s0.A k f
  ver : ∀ k, live used p q s0 rem k → s.V k = s0.V k
  slots : Slots (live used p q s0 rem) s
  keep : ∀ k ∈ rem, s.xt k = s0.xt k ∧ (s0.xt k ≠ 0 → s.R (s0.xt k) = s0.R (s0.xt k))
  dataG : ∀ k, O s0.V used p q k → ∀ f < 4, Cond used p q s0 rem k f → fd s k f = val p q s0 k f
  dataN : ∀ k, O s0.V used p q k → ∀ f < 4, ¬ Cond used p q s0 rem k f → fd s k f = fd s0 k f
  mono : ∀ k, O s0.V used p q k → s0.xt k ≠ 0 → s.xt k ≠ 0
  oriG : ∀ k, O s0.V used p q k → s.xt k ≠ 0 → ∀ f < 4, Cond used p q s0 rem k f →
    bdy (val p q s0 k f).2 = true → OriSpec tref (glued p q s0 k f) k (ori s k f)
  oriN : ∀ k, O s0.V used p q k → s.xt k ≠ 0 → ∀ f < 4, ¬ Cond used p q s0 rem k f →
    ori s k f = if s0.xt k = 0 then true else ori s0 k f
  gone : ∀ k, D s0.V used p q k → k ∉ rem → s.V k = [0, 0, 0, 0]
  unused : ∀ k, ¬ used k → s.V k = s0.V k

end

/-! ### One round -/

theorem link_relink {A : Nat → Nat} {P Q k f : Nat} (hP : P ≠ 0 → 1 ≤ P / 4)
    (hQ : Q ≠ 0 → 1 ≤ Q / 4) (hk : 1 ≤ k) (hf : f < 4) :
    link (relink A P Q) k f =
      if Q ≠ 0 ∧ 4 * k + f = Q then P else if P ≠ 0 ∧ 4 * k + f = P then Q else link A k f := by
  have e : ∀ x, 4 * (x / 4) + x % 4 = x := by omega
  unfold relink
  rw [e, e]
  have key : ∀ (B : Nat → Nat) (x y : Nat), (x ≠ 0 → 1 ≤ x / 4) →
      link (if x / 4 ≠ 0 then setAt B (adjIdx (x / 4) (x % 4)) y else B) k f =
        if x ≠ 0 ∧ 4 * k + f = x then y else link B k f := by
    intro B x y hx
    by_cases h0 : x = 0
    · subst h0
      simp
    · have h1 := hx h0
      rw [if_pos (by omega), link_set h1 hk (Nat.mod_lt _ (by decide)) hf]
      by_cases h2 : 4 * k + f = x
      · rw [if_pos (by omega), if_pos ⟨h0, h2⟩]
      · rw [if_neg (by omega), if_neg (fun h => h2 h.2)]
  simp only
  rw [key _ Q P hQ, key _ P Q hP]

theorem link_del {e k f : Nat} {s : St} (he : 1 ≤ e) (hk : 1 ≤ k) (hf : f < 4) (hne : k ≠ e) :
    link (delElt e s).A k f = link s.A k f := by
  unfold link delElt adjIdx
  simp only
  rw [if_neg (by omega)]

section
variable {tref : Nat → Int} {used : Nat → Prop} {p q : Nat} {s0 : St}
variable (hm : Mesh s0.A s0.V used) (hnt : NoTwins s0.A s0.V used) (hpq : p ≠ q)
variable (hfc : FaceOK tref used s0)
include hm hnt hpq hfc

/-- Data of the deleted tetrahedron and of its two neighbours. -/
theorem pel_wr {e : Nat} {rest : List Nat} {s : St} (he : D s0.V used p q e) (hn : e ∉ rest)
    (hI : Inv tref used p q s0 (e :: rest) s) {A1 : Nat → Nat} {P Q : Nat}
    (hP : P = link s0.A e (idx (s0.V e) q)) (hQ : Q = link s0.A e (idx (s0.V e) p)) (hP0 : P ≠ 0) :
    ∃ s2 o, pelPart tref e (idx (s0.V e) p) P Q { s with A := A1 } = .ok s2 ∧
      Wr (live used p q s0 rest) { s with A := A1 } s2 (P / 4) (P % 4) (val p q s0 (P / 4) (P % 4)) o ∧
      (s2.xt (P / 4) ≠ 0 → OriSpec tref Q (P / 4) o) ∧
      (∀ j, s2.xt j = if j = P / 4 then s2.xt j else s.xt j) := by
  have hip := idx_lt (hm.len _ he.1) he.2.1
  have hiq := idx_lt (hm.len _ he.1) he.2.2
  have hne := shell_ne hm hnt hpq he
  obtain ⟨hOp, _, _⟩ := shell_q hm hnt hpq he (hP ▸ hP0)
  rw [← hP] at hOp
  obtain ⟨hup, hpe, hsym, _⟩ := hm.adj.ok e he.1 _ hiq (hP ▸ hP0)
  rw [← hP] at hup hpe hsym
  have hP4 : P % 4 < 4 := Nat.mod_lt _ (by decide)
  have e1 : (4 * e + idx (s0.V e) q) / 4 = e := by omega
  have e2 : (4 * e + idx (s0.V e) q) % 4 = idx (s0.V e) q := by omega
  have hoth : other (s0.V e) p q (idx (s0.V e) q) = idx (s0.V e) p := by
    unfold other; rw [if_neg hne.symm]
  have hval : val p q s0 (P / 4) (P % 4) =
      merge (fd s0 e (idx (s0.V e) q)) (fd s0 e (idx (s0.V e) p)) := by
    unfold val
    simp only [hsym, e1, e2, hoth]
    rw [if_neg (fun h => hne h.1.symm)]
  obtain ⟨hxe, hRe⟩ := hI.keep e (by simp)
  have hlive : ∀ k, live used p q s0 rest k → live used p q s0 (e :: rest) k := by
    rintro k (h | h)
    · exact .inl h
    · exact .inr (by simp [h])
  have hsl : Slots (live used p q s0 rest) { s with A := A1 } := slots_mono hlive hI.slots
  have hncond : ¬ Cond used p q s0 (e :: rest) (P / 4) (P % 4) := by
    intro h
    apply h.2.2
    rw [hsym, e1]; simp
  have hfd : fd s (P / 4) (P % 4) = fd s0 (P / 4) (P % 4) := hI.dataN _ hOp _ hP4 hncond
  have hside : fd s0 (P / 4) (P % 4) = fd s0 e (idx (s0.V e) q) := by
    have := hfc.sides e he.1 _ hiq (hP ▸ hP0)
    rw [← hP] at this
    exact this
  have hpn : 0 ≤ (fd s0 e (idx (s0.V e) p)).1 := hfc.nonneg e he.1 _ hip
  have heq : fd s0 (P / 4) (P % 4) = (0, 0) → tref (P / 4) = tref e := by
    intro h0
    by_contra hc
    have hd := hfc.diff (P / 4) hup (P % 4) hP4 (by rw [hsym]; have := hm.adj.pos e he.1; omega)
      (by rw [hsym, e1]; exact hc)
    rw [h0] at hd
    exact absurd hd (by decide)
  -- no record in the shell tetrahedron
  have hno : s0.xt e = 0 → Q ≠ 0 ∧ tref e = tref (Q / 4) := by
    intro h0
    have hz : ∀ g, fd s0 e g = (0, 0) := by intro g; simp [fd, h0]
    constructor
    · intro hq0
      have := (hfc.outer e he.1 _ hip (hQ ▸ hq0)).1
      rw [hz] at this
      exact absurd this (by decide)
    · by_contra hc
      by_cases hq0 : Q = 0
      · have := (hfc.outer e he.1 _ hip (hQ ▸ hq0)).1
        rw [hz] at this
        exact absurd this (by decide)
      · have := hfc.diff e he.1 _ hip (hQ ▸ hq0) (by rw [← hQ]; exact hc)
        rw [hz] at this
        exact absurd this (by decide)
  unfold pelPart
  simp only
  by_cases h1 : s.xt e = 0
  · -- the shell tetrahedron has no record
    have h1' : s0.xt e = 0 := hxe ▸ h1
    have hz : ∀ g, fd s0 e g = (0, 0) := by intro g; simp [fd, h1']
    rw [hval, hz, hz]
    have hv0 : merge ((0 : Int), 0) (0, 0) = (0, 0) := rfl
    rw [hv0]
    rw [if_neg (by simp [h1])]
    have hor : OriSpec tref Q (P / 4) true := by
      obtain ⟨hq0, hqe⟩ := hno h1'
      have hpe' := heq (hside.trans (hz _))
      refine ⟨fun _ => rfl, fun _ => ⟨fun _ => rfl, fun h => ?_⟩⟩
      rw [hpe', hqe] at h
      exact absurd h (lt_irrefl _)
    by_cases h2 : s.xt (P / 4) = 0
    · rw [if_neg (by simp [h2])]
      exact ⟨_, true, rfl, wr_none hsl h2, fun _ => hor, fun j => by simp⟩
    · rw [if_pos h2]
      refine ⟨_, true, rfl, ?_, fun _ => hor, fun j => by simp [setR]⟩
      have := wr_own (s := { s with A := A1 }) (k := P / 4) (f := P % 4)
        (putRec (s.R (s.xt (P / 4))) (P % 4) 0 0) hsl (.inl hOp) h2
        (by intro g hg; simp [putRec, hg])
      simpa [putRec] using this
  · -- it has one
    have h1' : s0.xt e ≠ 0 := hxe ▸ h1
    have hR : s.R (s.xt e) = s0.R (s0.xt e) := by rw [hxe]; exact hRe h1'
    have hfe : ∀ g, fd s0 e g = ((s0.R (s0.xt e)).ref g, (s0.R (s0.xt e)).ftag g) := by
      intro g; simp [fd, h1']
    rw [if_pos h1]
    have hout : Q = 0 → bdy ((s0.R (s0.xt e)).ftag (idx (s0.V e) p)) = true ∧
        (s0.R (s0.xt e)).ori (idx (s0.V e) p) = true := by
      intro h
      have := hfc.outer e he.1 _ hip (hQ ▸ h)
      rw [hfe] at this
      exact this
    by_cases h2 : s.xt (P / 4) = 0
    · rw [if_neg (by simp [h2])]
      have hz : fd s0 (P / 4) (P % 4) = (0, 0) := by
        rw [← hfd]; simp [fd, h2]
      have hpe' := heq hz
      refine ⟨_, (s0.R (s0.xt e)).ori (idx (s0.V e) p), rfl, ?_, fun _ => ?_, ?_⟩
      · rw [hval, ← hside, hz]
        have hm0 : merge ((0 : Int), 0) (fd s0 e (idx (s0.V e) p)) = fd s0 e (idx (s0.V e) p) := by
          unfold merge
          rw [max_eq_right hpn, Nat.zero_or]
        rw [hm0, hfe, hR]
        have hfree : ∀ j, live used p q s0 rest j → s.xt j ≠ s.xt e := by
          intro j hj hc
          have := hI.slots.1 e j (.inr (by simp)) (hlive j hj) h1 hc.symm
          subst this
          rcases hj with hj | hj
          · exact hj.2 he
          · exact hn hj
        have := wr_new (s := { s with A := A1 }) (k := P / 4) (f := P % 4) (n := s.xt e) (t := s.top)
          (s0.R (s0.xt e)) (idx (s0.V e) p) ((s0.R (s0.xt e)).ori (idx (s0.V e) p)) hsl h2 h1
          (hI.slots.2 e (.inr (by simp))) le_rfl hfree
        exact this
      · refine ⟨fun h => (hout h).2, fun h => ?_⟩
        rw [hpe']
        have := hfc.ori e he.1 _ hip (hQ ▸ h)
        rw [← hQ] at this
        exact this
      · intro j
        by_cases hj : j = P / 4
        · rw [if_pos hj]
        · rw [if_neg hj]; simp [setR, setXt, hj]
    · rw [if_pos h2]
      have hfdp : fd s0 e (idx (s0.V e) q) =
          ((s.R (s.xt (P / 4))).ref (P % 4), (s.R (s.xt (P / 4))).ftag (P % 4)) := by
        rw [← hside, ← hfd]; simp [fd, h2]
      have hQ4 : Q / 4 = 0 ↔ Q = 0 := by
        constructor
        · intro h
          by_contra hc
          have h3 := (hm.adj.ok e he.1 _ hip (hQ ▸ hc)).1
          rw [← hQ] at h3
          have := hm.adj.pos _ h3
          omega
        · intro h; rw [h]
      have hasrt : (decide (Q / 4 = 0) && bdy ((mergeRec (s.R (s.xt (P / 4))) (P % 4) (s.R (s.xt e))
          (idx (s0.V e) p) (tref (P / 4)) (if Q / 4 ≠ 0 then some (tref (Q / 4)) else none)).ftag
          (P % 4)) && !parb ((mergeRec (s.R (s.xt (P / 4))) (P % 4) (s.R (s.xt e))
          (idx (s0.V e) p) (tref (P / 4)) (if Q / 4 ≠ 0 then some (tref (Q / 4)) else none)).ftag
          (P % 4)) && !(mergeRec (s.R (s.xt (P / 4))) (P % 4) (s.R (s.xt e))
          (idx (s0.V e) p) (tref (P / 4)) (if Q / 4 ≠ 0 then some (tref (Q / 4)) else none)).ori
          (P % 4)) = false := by
        by_cases h3 : Q = 0
        · obtain ⟨hb, ho⟩ := hout h3
          have : (mergeRec (s.R (s.xt (P / 4))) (P % 4) (s.R (s.xt e))
            (idx (s0.V e) p) (tref (P / 4)) (if Q / 4 ≠ 0 then some (tref (Q / 4)) else none)).ori
            (P % 4) = true := by
            rw [if_neg (by rw [not_not]; exact hQ4.2 h3)]
            simp only [mergeRec, if_true, hR, hb, ho]
          rw [this]
          simp
        · have : ¬ Q / 4 = 0 := fun h => h3 (hQ4.1 h)
          simp [this]
      rw [hasrt]
      simp only [Bool.false_eq_true, if_false]
      refine ⟨_, (mergeRec (s.R (s.xt (P / 4))) (P % 4) (s.R (s.xt e))
          (idx (s0.V e) p) (tref (P / 4)) (if Q / 4 ≠ 0 then some (tref (Q / 4)) else none)).ori (P % 4),
          rfl, ?_, fun _ => ?_, fun j => by simp [setR]⟩
      · have := wr_own (s := { s with A := A1 }) (k := P / 4) (f := P % 4)
          (mergeRec (s.R (s.xt (P / 4))) (P % 4) (s.R (s.xt e))
          (idx (s0.V e) p) (tref (P / 4)) (if Q / 4 ≠ 0 then some (tref (Q / 4)) else none))
          hsl (.inl hOp) h2 (by intro g hg; simp [mergeRec, hg])
        have hv : val p q s0 (P / 4) (P % 4) = ((mergeRec (s.R (s.xt (P / 4))) (P % 4) (s.R (s.xt e))
            (idx (s0.V e) p) (tref (P / 4)) (if Q / 4 ≠ 0 then some (tref (Q / 4)) else none)).ref (P % 4),
            (mergeRec (s.R (s.xt (P / 4))) (P % 4) (s.R (s.xt e))
            (idx (s0.V e) p) (tref (P / 4)) (if Q / 4 ≠ 0 then some (tref (Q / 4)) else none)).ftag
              (P % 4)) := by
          rw [hval, hfdp, hfe]
          simp [mergeRec, merge, hR]
        rw [hv]
        exact this
      · constructor
        · intro h
          obtain ⟨hb, ho⟩ := hout h
          rw [if_neg (by rw [not_not]; exact hQ4.2 h)]
          simp only [mergeRec, if_true, hR, hb, ho]
        · intro h
          rw [if_pos (fun hc => h (hQ4.1 hc))]
          simp only [mergeRec, if_true]
          constructor
          · intro hlt; rw [if_pos hlt]
          · intro hlt
            rw [if_neg (by omega), if_pos hlt]

/-- Face of `qel` when `pel` exists. -/
theorem qel_wr {e : Nat} {rest : List Nat} {s s2 : St} {room : Nat → Bool} (he : D s0.V used p q e)
    (hI : Inv tref used p q s0 (e :: rest) s) {P Q : Nat}
    (hP : P = link s0.A e (idx (s0.V e) q)) (hQ : Q = link s0.A e (idx (s0.V e) p)) (hP0 : P ≠ 0)
    (hQ0 : Q ≠ 0) (hsl : Slots (live used p q s0 rest) s2) (hx2 : s2.xt (Q / 4) = s.xt (Q / 4))
    (hfd2 : fd s2 (Q / 4) (Q % 4) = fd s (Q / 4) (Q % 4)) :
    (qelPart tref room (decide (s.xt e ≠ 0)) (s.R (s.xt e)) (idx (s0.V e) q) P Q s2 = .nomem ∧
      ∃ n, room n = false) ∨
    ∃ s3 o, qelPart tref room (decide (s.xt e ≠ 0)) (s.R (s.xt e)) (idx (s0.V e) q) P Q s2 = .ok s3 ∧
      Wr (live used p q s0 rest) s2 s3 (Q / 4) (Q % 4) (val p q s0 (Q / 4) (Q % 4)) o ∧
      (s3.xt (Q / 4) ≠ 0 → OriSpec tref P (Q / 4) o) := by
  have hip := idx_lt (hm.len _ he.1) he.2.1
  have hiq := idx_lt (hm.len _ he.1) he.2.2
  obtain ⟨hOq, _, _⟩ := shell_p hm hnt hpq he (hQ ▸ hQ0)
  rw [← hQ] at hOq
  obtain ⟨huq, hqe, hsym, _⟩ := hm.adj.ok e he.1 _ hip (hQ ▸ hQ0)
  rw [← hQ] at huq hqe hsym
  have hQ4 : Q % 4 < 4 := Nat.mod_lt _ (by decide)
  have e1 : (4 * e + idx (s0.V e) p) / 4 = e := by omega
  have e2 : (4 * e + idx (s0.V e) p) % 4 = idx (s0.V e) p := by omega
  have hoth : other (s0.V e) p q (idx (s0.V e) p) = idx (s0.V e) q := by
    unfold other; rw [if_pos rfl]
  have hval : val p q s0 (Q / 4) (Q % 4) =
      merge (fd s0 e (idx (s0.V e) p)) (fd s0 e (idx (s0.V e) q)) := by
    unfold val
    simp only [hsym, e1, e2, hoth]
    rw [if_neg (fun h => hP0 (hP.trans h.2))]
  obtain ⟨hxe, hRe⟩ := hI.keep e (by simp)
  have hncond : ¬ Cond used p q s0 (e :: rest) (Q / 4) (Q % 4) := by
    intro h
    apply h.2.2
    rw [hsym, e1]; simp
  have hfd : fd s2 (Q / 4) (Q % 4) = fd s0 (Q / 4) (Q % 4) :=
    hfd2.trans (hI.dataN _ hOq _ hQ4 hncond)
  have hside : fd s0 (Q / 4) (Q % 4) = fd s0 e (idx (s0.V e) p) := by
    have := hfc.sides e he.1 _ hip (hQ ▸ hQ0)
    rw [← hQ] at this
    exact this
  have hpn : 0 ≤ (fd s0 e (idx (s0.V e) q)).1 := hfc.nonneg e he.1 _ hiq
  have heq : fd s0 (Q / 4) (Q % 4) = (0, 0) → tref (Q / 4) = tref e := by
    intro h0
    by_contra hc
    have hd := hfc.diff (Q / 4) huq (Q % 4) hQ4 (by rw [hsym]; have := hm.adj.pos e he.1; omega)
      (by rw [hsym, e1]; exact hc)
    rw [h0] at hd
    exact absurd hd (by decide)
  unfold qelPart
  simp only
  by_cases h1 : s.xt e = 0
  · have h1' : s0.xt e = 0 := hxe ▸ h1
    have hz : ∀ g, fd s0 e g = (0, 0) := by intro g; simp [fd, h1']
    rw [hval, hz, hz]
    have hv0 : merge ((0 : Int), 0) (0, 0) = (0, 0) := rfl
    rw [hv0]
    rw [if_neg (by simp [h1])]
    have hor : OriSpec tref P (Q / 4) true := by
      have hqe' := heq (hside.trans (hz _))
      refine ⟨fun _ => rfl, fun _ => ⟨fun _ => rfl, fun h => ?_⟩⟩
      by_contra _
      have := hfc.diff e he.1 _ hiq (hP ▸ hP0) (by rw [← hP]; rw [← hqe']; omega)
      rw [hz] at this
      exact absurd this (by decide)
    right
    by_cases h2 : s2.xt (Q / 4) = 0
    · rw [if_neg (by simp [h2])]
      exact ⟨_, true, rfl, wr_none hsl h2, fun _ => hor⟩
    · rw [if_pos h2]
      refine ⟨_, true, rfl, ?_, fun _ => hor⟩
      have := wr_own (s := s2) (k := Q / 4) (f := Q % 4)
        (putRec (s2.R (s2.xt (Q / 4))) (Q % 4) 0 0) hsl (.inl hOq) h2
        (by intro g hg; simp [putRec, hg])
      simpa [putRec] using this
  · have h1' : s0.xt e ≠ 0 := hxe ▸ h1
    have hR : s.R (s.xt e) = s0.R (s0.xt e) := by rw [hxe]; exact hRe h1'
    have hfe : ∀ g, fd s0 e g = ((s0.R (s0.xt e)).ref g, (s0.R (s0.xt e)).ftag g) := by
      intro g; simp [fd, h1']
    rw [if_pos (by simp [h1])]
    by_cases h2 : s2.xt (Q / 4) = 0
    · rw [if_neg (by simp [h2])]
      by_cases hro : room (s2.top + 1) = true
      · rw [if_neg (by simp [hro])]
        right
        have hz : fd s0 (Q / 4) (Q % 4) = (0, 0) := by
          rw [← hfd]; simp [fd, h2]
        have hqe' := heq hz
        refine ⟨_, (s0.R (s0.xt e)).ori (idx (s0.V e) q), rfl, ?_, fun _ => ?_⟩
        · rw [hval, ← hside, hz]
          have hm0 : merge ((0 : Int), 0) (fd s0 e (idx (s0.V e) q)) = fd s0 e (idx (s0.V e) q) := by
            unfold merge
            rw [max_eq_right hpn, Nat.zero_or]
          rw [hm0, hfe, hR]
          exact wr_new (s := s2) (k := Q / 4) (f := Q % 4) (n := s2.top + 1) (t := s2.top + 1)
            (s0.R (s0.xt e)) (idx (s0.V e) q) ((s0.R (s0.xt e)).ori (idx (s0.V e) q)) hsl h2
            (by omega) le_rfl (by omega) (fun j hj hc => by have := hsl.2 j hj; omega)
        · refine ⟨fun h => absurd h hP0, fun h => ?_⟩
          rw [hqe']
          have := hfc.ori e he.1 _ hiq (hP ▸ h)
          rw [← hP] at this
          exact this
      · left
        rw [if_pos (by simpa using hro)]
        exact ⟨rfl, _, by simpa using hro⟩
    · rw [if_pos h2]
      right
      have hfdq : fd s0 e (idx (s0.V e) p) =
          ((s2.R (s2.xt (Q / 4))).ref (Q % 4), (s2.R (s2.xt (Q / 4))).ftag (Q % 4)) := by
        rw [← hside, ← hfd]; simp [fd, h2]
      refine ⟨_, (mergeRec (s2.R (s2.xt (Q / 4))) (Q % 4) (s.R (s.xt e))
          (idx (s0.V e) q) (tref (Q / 4)) (some (tref (P / 4)))).ori (Q % 4), rfl, ?_, fun _ => ?_⟩
      · have := wr_own (s := s2) (k := Q / 4) (f := Q % 4)
          (mergeRec (s2.R (s2.xt (Q / 4))) (Q % 4) (s.R (s.xt e))
          (idx (s0.V e) q) (tref (Q / 4)) (some (tref (P / 4))))
          hsl (.inl hOq) h2 (by intro g hg; simp [mergeRec, hg])
        have hv : val p q s0 (Q / 4) (Q % 4) = ((mergeRec (s2.R (s2.xt (Q / 4))) (Q % 4) (s.R (s.xt e))
            (idx (s0.V e) q) (tref (Q / 4)) (some (tref (P / 4)))).ref (Q % 4),
            (mergeRec (s2.R (s2.xt (Q / 4))) (Q % 4) (s.R (s.xt e))
            (idx (s0.V e) q) (tref (Q / 4)) (some (tref (P / 4)))).ftag (Q % 4)) := by
          rw [hval, hfdq, hfe]
          simp [mergeRec, merge, hR]
        rw [hv]
        exact this
      · refine ⟨fun h => absurd h hP0, fun h => ?_⟩
        simp only [mergeRec, if_true]
        constructor
        · intro hlt; rw [if_pos hlt]
        · intro hlt
          rw [if_neg (by omega), if_pos hlt]

/-- Face of `qel` when there is no `pel`. -/
theorem qel_alone {e : Nat} {rest : List Nat} {s : St} (he : D s0.V used p q e) (hn : e ∉ rest)
    (hI : Inv tref used p q s0 (e :: rest) s) {A1 : Nat → Nat} {P Q : Nat}
    (hP : P = link s0.A e (idx (s0.V e) q)) (hQ : Q = link s0.A e (idx (s0.V e) p)) (hP0 : P = 0) :
    ∃ s3, qelAlone e (idx (s0.V e) q) Q { s with A := A1 } = .ok s3 ∧
      ((Q = 0 ∧ s3 = { s with A := A1 }) ∨ (Q ≠ 0 ∧
      Wr (live used p q s0 rest) { s with A := A1 } s3 (Q / 4) (Q % 4)
        (val p q s0 (Q / 4) (Q % 4)) true)) := by
  have hip := idx_lt (hm.len _ he.1) he.2.1
  have hiq := idx_lt (hm.len _ he.1) he.2.2
  obtain ⟨hxe, hRe⟩ := hI.keep e (by simp)
  obtain ⟨hb, ho⟩ := hfc.outer e he.1 _ hiq (hP ▸ hP0)
  have h1' : s0.xt e ≠ 0 := by
    intro h
    unfold fd at hb
    rw [if_pos h] at hb
    exact absurd hb (by decide)
  have h1 : s.xt e ≠ 0 := hxe ▸ h1'
  have hR : s.R (s.xt e) = s0.R (s0.xt e) := by rw [hxe]; exact hRe h1'
  unfold qelAlone
  simp only
  rw [if_neg h1]
  by_cases hQ0 : Q = 0
  · rw [if_neg (by omega)]
    exact ⟨_, rfl, .inl ⟨hQ0, rfl⟩⟩
  · obtain ⟨hOq, _, _⟩ := shell_p hm hnt hpq he (hQ ▸ hQ0)
    rw [← hQ] at hOq
    obtain ⟨huq, hqe, hsym, _⟩ := hm.adj.ok e he.1 _ hip (hQ ▸ hQ0)
    rw [← hQ] at huq hqe hsym
    have hq1 := hm.adj.pos _ huq
    rw [if_pos (by omega)]
    have e1 : (4 * e + idx (s0.V e) p) / 4 = e := by omega
    have e2 : (4 * e + idx (s0.V e) p) % 4 = idx (s0.V e) p := by omega
    have hoth : other (s0.V e) p q (idx (s0.V e) p) = idx (s0.V e) q := by
      unfold other; rw [if_pos rfl]
    have hval : val p q s0 (Q / 4) (Q % 4) = fd s0 e (idx (s0.V e) q) := by
      unfold val
      simp only [hsym, e1, e2, hoth]
      rw [if_pos ⟨trivial, hP ▸ hP0⟩]
    have hfe : ∀ g, fd s0 e g = ((s0.R (s0.xt e)).ref g, (s0.R (s0.xt e)).ftag g) := by
      intro g; simp [fd, h1']
    have hlive : ∀ k, live used p q s0 rest k → live used p q s0 (e :: rest) k := by
      rintro k (h | h)
      · exact .inl h
      · exact .inr (by simp [h])
    have hsl : Slots (live used p q s0 rest) { s with A := A1 } := slots_mono hlive hI.slots
    rw [hval, hfe, hR]
    by_cases h2 : s.xt (Q / 4) = 0
    · rw [if_neg (by simp [h2])]
      refine ⟨_, rfl, .inr ⟨hQ0, ?_⟩⟩
      have hfree : ∀ j, live used p q s0 rest j → s.xt j ≠ s.xt e := by
        intro j hj hc
        have := hI.slots.1 e j (.inr (by simp)) (hlive j hj) h1 hc.symm
        subst this
        rcases hj with hj | hj
        · exact hj.2 he
        · exact hn hj
      exact wr_new (s := { s with A := A1 }) (k := Q / 4) (f := Q % 4) (n := s.xt e) (t := s.top)
        (s0.R (s0.xt e)) (idx (s0.V e) q) true hsl h2 h1
        (hI.slots.2 e (.inr (by simp))) le_rfl hfree
    · rw [if_pos h2]
      refine ⟨_, rfl, .inr ⟨hQ0, ?_⟩⟩
      have := wr_own (s := { s with A := A1 }) (k := Q / 4) (f := Q % 4)
        (putRec (s.R (s.xt (Q / 4))) (Q % 4) ((s0.R (s0.xt e)).ref (idx (s0.V e) q))
          ((s0.R (s0.xt e)).ftag (idx (s0.V e) q))) hsl (.inl hOq) h2
        (by intro g hg; simp [putRec, hg])
      simpa [putRec] using this

end

end Mmg.Colver
