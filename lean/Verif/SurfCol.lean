import Verif.SurfModel
import Verif.Tri2ColProps

/-!
# C94 (collapse): what an accepted collapse of the surface remesher does
-/

namespace Mmg.Surf

open Mmg.Tri2 Relation

/-! ### Specification -/

/-- A directed edge belongs to one triangle: no edge has more than two triangles, and two triangles at an edge agree in orientation. -/
def Inj (M : Mesh) : Prop :=
  ∀ h h' : HE, M.live h.1 → M.live h'.1 → M.org h = M.org h' → M.dst h = M.dst h' → h = h'

/-- All triangles at the vertex of corner `c` form one fan. -/
def One (M : Mesh) (c : HE) : Prop := ∀ k i, M.live k → (M.tri k).v i = M.at c → ReflTransGen M.Fan c (k, i)

/-- Two vertices of one triangle. -/
def Joined (M : Mesh) (p w : Nat) : Prop := ∃ k i j, M.live k ∧ i ≠ j ∧ (M.tri k).v i = p ∧ (M.tri k).v j = w

theorem Joined.nb {M : Mesh} {c : HE} (h1 : One M c) {w : Nat} (j : Joined M (M.at c) w) : M.Neighbour c w := by
  obtain ⟨k, i, j, hk, hij, a, b⟩ := j
  exact ⟨(k, i), h1 k i hk a, j, hij.symm, b.symm⟩

theorem fin3_other (x i : Fin 3) (h : i ≠ x) : i = x + 1 ∨ i = x + 2 := by omega

/-- What `boulechknm` guarantees. -/
theorem boulechk_spec {M : Mesh} (h : Valid M) {nom : Nat → Bool} {lmax n : Nat} {c : HE} (hk : M.live c.1) {l : List HE}
    (e : boulechk M nom lmax n c = some (some l)) :
    nom (M.at c) = false ∧ (∃ opn, boulet M lmax false c = some (l, opn)) ∧
    ∀ w, M.Neighbour c w → M.Neighbour (c.1, c.2 + 1) w →
      w = (M.tri c.1).v (c.2 + 2) ∨ ∃ o, M.adj (c.1, c.2 + 2) = some o ∧ w = (M.tri o.1).v o.2 := by
  unfold boulechk at e
  split at e
  · cases e
  rename_i hn
  split at e
  · cases e
  rename_i l0 o0 e0
  split at e
  · cases e
  rename_i l1 o1 e1
  split at e
  · cases e
  rename_i hany
  cases e
  refine ⟨by simpa [Mesh.at] using fun a => hn (Or.inr a), ⟨o0, e0⟩, ?_⟩
  intro w ⟨x, hx, i, hi, ew⟩ ⟨y, hy, j, hj, ew'⟩
  have hxl := ((C17_ball h hk e0).2.2.1 x).2 hx
  have hyl := ((C17_ball h (c := (c.1, c.2 + 1)) hk e1).2.2.1 y).2 hy
  have hm : marked M c l w = false := by
    by_contra hc
    simp only [Bool.not_eq_false] at hc
    refine hany (List.any_eq_true.2 ⟨y, hyl, ?_⟩)
    rcases fin3_other _ _ hj with rfl | rfl
    · rw [← ew', hc]; rfl
    · rw [← ew', hc, Bool.or_true]
  have hyq : M.live y.1 ∧ M.at y = (M.tri c.1).v (c.2 + 1) := (C17_ball h (c := (c.1, c.2 + 1)) hk e1).2.2.2.1 y hyl
  have h1 : ¬ ((M.tri c.1).v (c.2 + 1) = w) := by
    intro a
    rw [← hyq.2, ew'] at a
    exact h.distinct _ hyq.1 _ _ (Ne.symm hj) a
  have h2 : l.any (fun x => (M.tri x.1).v (x.2 + 1) == w || (M.tri x.1).v (x.2 + 2) == w) = true := by
    refine List.any_eq_true.2 ⟨x, hxl, ?_⟩
    rcases fin3_other _ _ hi with rfl | rfl <;> simp [ew]
  unfold marked at hm
  rw [h2, beq_eq_false_iff_ne.2 h1] at hm
  simp only [Bool.not_false, Bool.true_and] at hm
  by_cases h3 : (M.tri c.1).v (c.2 + 2) = w
  · exact Or.inl h3.symm
  · right
    rw [beq_eq_false_iff_ne.2 h3] at hm
    cases ho : M.adj (c.1, c.2 + 2) with
    | none => simp [ho] at hm
    | some o =>
      simp only [ho, Bool.not_false, Bool.true_and, Bool.not_eq_false', beq_iff_eq] at hm
      exact ⟨o, rfl, hm.symm⟩

/-- The corners of the ball are those of the vertex. -/
theorem ball_iff {M : Mesh} (h : Valid M) {c : HE} (hk : M.live c.1) (h1 : One M c) {lmax : Nat} {l : List HE} {opn : Bool}
    (e : boulet M lmax false c = some (l, opn)) (k : Nat) (i : Fin 3) (hl : M.live k) :
    (k, i) ∈ l ↔ (M.tri k).v i = M.at c := by
  obtain ⟨-, -, a, b, -⟩ := C17_ball h hk e
  exact ⟨fun m => (b _ m).2, fun m => (a _).2 (h1 k i hl m)⟩

/-- Only the triangles at the edge contain both ends. -/
theorem no_other {M : Mesh} (h : Valid M) (hI : Inj M) {c : HE} (hk : M.live c.1)
    (hb : M.adj (c.1, c.2 + 2) = none → ∀ x, M.live x.1 → M.org x = (M.tri c.1).v (c.2 + 1) → M.dst x ≠ M.at c)
    {x : HE} (hx : M.live x.1) (ha : M.at x = M.at c) (hc : x.1 ≠ c.1)
    (ho : ∀ o, M.adj (c.1, c.2 + 2) = some o → x.1 ≠ o.1) (i : Fin 3) : (M.tri x.1).v i ≠ (M.tri c.1).v (c.2 + 1) := by
  intro e
  obtain ⟨a1, a2, a3, a4, a5, a6, a7, a8⟩ := f3 c.2
  obtain ⟨b1, b2, b3, b4, b5, b6, b7, b8⟩ := f3 x.2
  have hi : i ≠ x.2 := by
    rintro rfl
    change M.at x = _ at e
    rw [ha] at e
    exact h.distinct _ hk _ _ a1.symm e
  rcases fin3_other _ _ hi with rfl | rfl
  · -- the edge from `p` to `q`
    have := hI (x.1, x.2 + 2) (c.1, c.2 + 2) hx hk (by simp only [Mesh.org]; rw [b6, a6]; exact ha)
      (by simp only [Mesh.dst]; rw [b7, a7]; exact e)
    exact hc (Prod.mk.inj this).1
  · have g1 : M.org (x.1, x.2 + 1) = (M.tri c.1).v (c.2 + 1) := by simp only [Mesh.org]; rw [b4]; exact e
    have g2 : M.dst (x.1, x.2 + 1) = M.at c := by simp only [Mesh.dst]; rw [b5]; exact ha
    cases ho' : M.adj (c.1, c.2 + 2) with
    | none => exact hb ho' (x.1, x.2 + 1) hx g1 g2
    | some o =>
      obtain ⟨l1, l2, l3, l4⟩ := h.link (c.1, c.2 + 2) o hk ho'
      have := hI (x.1, x.2 + 1) o hx l1
        (by rw [g1, l3]; simp only [Mesh.dst]; rw [a7])
        (by rw [g2, l4]; simp only [Mesh.org]; rw [a6]; rfl)
      exact ho o ho' (congrArg Prod.fst this :)

/-- Merging `p` into `q` keeps directed edges in one triangle, if common neighbours are those of the removed triangles. -/
theorem inj_merge {M M' : Mesh} (h : Valid M) (hI : Inj M) (h' : Valid M') {c : HE} (hk : M.live c.1)
    (hlink : ∀ w, Joined M (M.at c) w → Joined M ((M.tri c.1).v (c.2 + 1)) w →
      w = (M.tri c.1).v (c.2 + 2) ∨ ∃ o, M.adj (c.1, c.2 + 2) = some o ∧ w = (M.tri o.1).v o.2)
    (hl : ∀ k, M'.live k → M.live k ∧ k ≠ c.1 ∧ ∀ o, M.adj (c.1, c.2 + 2) = some o → k ≠ o.1)
    (hv : ∀ k, M'.live k → ∀ i, (M'.tri k).v i = if (M.tri k).v i = M.at c then (M.tri c.1).v (c.2 + 1) else (M.tri k).v i) :
    Inj M' := by
  obtain ⟨a1, a2, a3, a4, a5, a6, a7, a8⟩ := f3 c.2
  have key : ∀ x y : HE, M'.live x.1 → M'.live y.1 → M'.org x = M'.org y → M'.dst x = M'.dst y →
      (M.org x = M.at c → M.org y = M.at c) → (M.dst x = M.at c → M.dst y = M.at c) := by
    intro x y hx hy eo ed himp hd
    by_contra hn
    have X := hl _ hx
    have Y := hl _ hy
    have vx : ∀ i, _ := hv _ hx
    have vy : ∀ i, _ := hv _ hy
    simp only [Mesh.org, Mesh.dst] at eo ed himp hd hn
    -- `dst x = p`, `dst y = q`
    have e1 : (M.tri y.1).v (y.2 + 2) = (M.tri c.1).v (c.2 + 1) := by
      have := ed; rw [vx, vy, if_pos hd, if_neg hn] at this; exact this.symm
    have n1 : (M.tri x.1).v (x.2 + 1) ≠ M.at c := by
      intro a
      exact h.distinct _ X.1 _ _ (f3 x.2).2.2.1 (a.trans hd.symm)
    have n2 : (M.tri y.1).v (y.2 + 1) ≠ M.at c := by
      intro a
      apply h'.distinct _ hy _ _ (f3 y.2).2.2.1
      rw [vy, vy, if_pos a, if_neg hn, e1]
    have e2 : (M.tri x.1).v (x.2 + 1) = (M.tri y.1).v (y.2 + 1) := by
      have := eo; rw [vx, vy, if_neg n1, if_neg n2] at this; exact this
    rcases hlink _ ⟨x.1, x.2 + 2, x.2 + 1, X.1, (f3 x.2).2.2.1.symm, hd, rfl⟩
      ⟨y.1, y.2 + 2, y.2 + 1, Y.1, (f3 y.2).2.2.1.symm, e1, e2.symm⟩ with w | ⟨o, ho, w⟩
    · have := hI x (c.1, c.2 + 1) X.1 hk (by simp only [Mesh.org]; rw [a4]; exact w) (by simp only [Mesh.dst]; rw [a5]; exact hd)
      exact X.2.1 (congrArg Prod.fst this :)
    · obtain ⟨l1, l2, l3, l4⟩ := h.link (c.1, c.2 + 2) o hk ho
      obtain ⟨b1, b2, b3, b4, b5, b6, b7, b8⟩ := f3 o.2
      simp only [Mesh.org, Mesh.dst] at l3 l4
      rw [a7] at l3
      have := hI y (o.1, o.2 + 2) Y.1 l1 (by simp only [Mesh.org]; rw [b6, ← e2]; exact w)
        (by simp only [Mesh.dst]; rw [b7, l3]; exact e1)
      exact Y.2.2 o ho (congrArg Prod.fst this :)
  have key2 : ∀ x y : HE, M'.live x.1 → M'.live y.1 → M'.org x = M'.org y → M'.dst x = M'.dst y →
      (M.org x = M.at c → M.org y = M.at c) := by
    intro x y hx hy eo ed hd
    by_contra hn
    have X := hl _ hx
    have Y := hl _ hy
    have vx : ∀ i, _ := hv _ hx
    have vy : ∀ i, _ := hv _ hy
    simp only [Mesh.org, Mesh.dst] at eo ed hd hn
    have e1 : (M.tri y.1).v (y.2 + 1) = (M.tri c.1).v (c.2 + 1) := by
      have := eo; rw [vx, vy, if_pos hd, if_neg hn] at this; exact this.symm
    have n1 : (M.tri x.1).v (x.2 + 2) ≠ M.at c := by
      intro a
      exact h.distinct _ X.1 _ _ (f3 x.2).2.2.1 (hd.trans a.symm)
    have n2 : (M.tri y.1).v (y.2 + 2) ≠ M.at c := by
      intro a
      apply h'.distinct _ hy _ _ (f3 y.2).2.2.1
      rw [vy, vy, if_pos a, if_neg hn, e1]
    have e2 : (M.tri x.1).v (x.2 + 2) = (M.tri y.1).v (y.2 + 2) := by
      have := ed; rw [vx, vy, if_neg n1, if_neg n2] at this; exact this
    rcases hlink _ ⟨x.1, x.2 + 1, x.2 + 2, X.1, (f3 x.2).2.2.1, hd, rfl⟩
      ⟨y.1, y.2 + 1, y.2 + 2, Y.1, (f3 y.2).2.2.1, e1, e2.symm⟩ with w | ⟨o, ho, w⟩
    · have := hI y c Y.1 hk (by simp only [Mesh.org]; exact e1) (by simp only [Mesh.dst]; rw [← e2]; exact w)
      exact Y.2.1 (congrArg Prod.fst this :)
    · obtain ⟨l1, l2, l3, l4⟩ := h.link (c.1, c.2 + 2) o hk ho
      obtain ⟨b1, b2, b3, b4, b5, b6, b7, b8⟩ := f3 o.2
      simp only [Mesh.org, Mesh.dst] at l3 l4
      rw [a6] at l4
      have := hI x (o.1, o.2 + 1) X.1 l1 (by simp only [Mesh.org]; rw [b4, l4]; exact hd)
        (by simp only [Mesh.dst]; rw [b5]; exact w)
      exact X.2.2 o ho (congrArg Prod.fst this :)
  intro x y hx hy eo ed
  have o1 : M.org x = M.at c ↔ M.org y = M.at c :=
    ⟨key2 x y hx hy eo ed, key2 y x hy hx eo.symm ed.symm⟩
  have d1 : M.dst x = M.at c ↔ M.dst y = M.at c :=
    ⟨key x y hx hy eo ed o1.1, key y x hy hx eo.symm ed.symm o1.2⟩
  apply hI x y (hl _ hx).1 (hl _ hy).1
  · by_cases g : M.org x = M.at c
    · rw [g, o1.1 g]
    · have g' := fun a => g (o1.2 a)
      simp only [Mesh.org] at eo g g' ⊢
      rwa [hv _ hx, hv _ hy, if_neg g, if_neg g'] at eo
  · by_cases g : M.dst x = M.at c
    · rw [g, d1.1 g]
    · have g' := fun a => g (d1.2 a)
      simp only [Mesh.dst] at ed g g' ⊢
      rwa [hv _ hx, hv _ hy, if_neg g, if_neg g'] at ed

/-- The ball of two triangles at the border. -/
structure Two (M : Mesh) (a b : HE) : Prop where
  h : Valid M
  hI : Inj M
  ka : M.live a.1
  kb : M.live b.1
  ne : b.1 ≠ a.1
  ab : M.adj (a.1, a.2 + 1) = some (b.1, b.2 + 2)
  na : M.adj (a.1, a.2 + 2) = none
  nb : M.adj (b.1, b.2 + 1) = none
  /-- nobody else has the vertex -/
  only : ∀ k i, M.live k → (M.tri k).v i = M.at a → (k, i) = a ∨ (k, i) = b
  yq : (M.tri b.1).v (b.2 + 2) ≠ (M.tri a.1).v (a.2 + 1)

theorem colver2_tri {M : Mesh} {a b : HE} (ne : b.1 ≠ a.1) (k : Nat) :
    ((colver2 M a b).tri k).v = if k = b.1 then fun _ => 0 else if k = a.1 then
      (fun i => if i = a.2 then (M.tri b.1).v (b.2 + 2) else (M.tri a.1).v i) else (M.tri k).v := by
  simp only [colver2, delTri_v, backLink_tri, Mesh.setAdj, Mesh.setTri, Tri.setV, Tri.setE]
  split
  · rfl
  · split <;> rfl

theorem colver2_adj {M : Mesh} {a b : HE} (ne : b.1 ≠ a.1) (x : HE) :
    (colver2 M a b).adj x = if x.1 = b.1 then none else if M.adj b = some x then some (a.1, a.2 + 1)
      else if x = (a.1, a.2 + 1) then M.adj b else M.adj x := by
  simp only [colver2, delTri_adj, backLink_adj, Mesh.setAdj, Mesh.setTri]

theorem Two.vals {M : Mesh} {a b : HE} (T : Two M a b) : M.at b = M.at a ∧
    (M.tri b.1).v (b.2 + 1) = (M.tri a.1).v (a.2 + 2) := by
  obtain ⟨l1, l2, l3, l4⟩ := T.h.link (a.1, a.2 + 1) _ T.ka T.ab
  obtain ⟨a1, a2, a3, a4, a5, a6, a7, a8⟩ := f3 a.2
  obtain ⟨b1, b2, b3, b4, b5, b6, b7, b8⟩ := f3 b.2
  simp only [Mesh.org, Mesh.dst] at l3 l4
  rw [b6, a5] at l3
  rw [b7, a4] at l4
  exact ⟨l3, l4⟩

theorem Two.live {M : Mesh} {a b : HE} (T : Two M a b) (k : Nat) : (colver2 M a b).live k ↔ M.live k ∧ k ≠ b.1 := by
  have pb := T.h.pos _ T.kb
  have pa := T.h.pos _ T.ka
  have ka := T.ka
  simp only [Mesh.live, colver2_tri T.ne] at *
  by_cases h1 : k = b.1
  · simp [h1]
  · by_cases h2 : k = a.1
    · subst h2
      simp only [if_neg h1, if_true]
      simp only [ne_eq, ka, not_false_eq_true, h1, and_self, iff_true]
      split
      · exact pb.2 _
      · exact ka
    · simp [h1, h2]

theorem Two.valid {M : Mesh} {a b : HE} (T : Two M a b) : Valid (colver2 M a b) := by
  obtain ⟨v1, v2⟩ := T.vals
  obtain ⟨a1, a2, a3, a4, a5, a6, a7, a8⟩ := f3 a.2
  obtain ⟨b1, b2, b3, b4, b5, b6, b7, b8⟩ := f3 b.2
  have da := T.h.distinct _ T.ka
  have db := T.h.distinct _ T.kb
  refine ⟨fun k hk => ?_, fun k hk => ?_, fun x y hx e => ?_⟩
  · obtain ⟨g1, g2⟩ := (T.live k).1 hk
    refine ⟨(T.h.pos k g1).1, fun i => ?_⟩
    rw [colver2_tri T.ne, if_neg g2]
    split
    · subst k
      show (if i = a.2 then (M.tri b.1).v (b.2 + 2) else (M.tri a.1).v i) ≠ 0
      split
      · exact (T.h.pos _ T.kb).2 _
      · exact (T.h.pos _ T.ka).2 _
    · exact (T.h.pos k g1).2 i
  · obtain ⟨g1, g2⟩ := (T.live k).1 hk
    intro i j hij
    rw [colver2_tri T.ne, if_neg g2]
    split
    · subst k
      have n1 : (M.tri b.1).v (b.2 + 2) ≠ (M.tri a.1).v (a.2 + 1) := T.yq
      have n2 : (M.tri b.1).v (b.2 + 2) ≠ (M.tri a.1).v (a.2 + 2) := by rw [← v2]; exact db _ _ b3.symm
      have N : ∀ z, z ≠ a.2 → (M.tri b.1).v (b.2 + 2) ≠ (M.tri a.1).v z := by
        intro z hz
        rcases fin3_other _ _ hz with rfl | rfl
        · exact n1
        · exact n2
      show (if i = a.2 then (M.tri b.1).v (b.2 + 2) else (M.tri a.1).v i) ≠
        (if j = a.2 then (M.tri b.1).v (b.2 + 2) else (M.tri a.1).v j)
      by_cases hi : i = a.2
      · rw [if_pos hi, if_neg (fun hj => hij (hi.trans hj.symm))]
        exact N j (fun hj => hij (hi.trans hj.symm))
      · rw [if_neg hi]
        by_cases hj : j = a.2
        · rw [if_pos hj]; exact (N i hi).symm
        · rw [if_neg hj]; exact da _ _ hij
    · exact T.h.distinct k g1 i j hij
  · obtain ⟨g1, g2⟩ := (T.live x.1).1 hx
    rw [colver2_adj T.ne, if_neg g2] at e
    have OD : ∀ z : HE, M.live z.1 → z.1 ≠ b.1 → z ≠ (a.1, a.2 + 1) → z ≠ (a.1, a.2 + 2) →
        (colver2 M a b).org z = M.org z ∧ (colver2 M a b).dst z = M.dst z := by
      intro z hz zb z1 z2
      simp only [Mesh.org, Mesh.dst, colver2_tri T.ne, if_neg zb]
      by_cases za : z.1 = a.1
      · have zz : z.2 = a.2 := by
          by_contra q
          rcases fin3_other _ _ q with q | q
          · exact z1 (Prod.ext za q)
          · exact z2 (Prod.ext za q)
        rw [if_pos za, if_neg (by rw [zz]; exact a1), if_neg (by rw [zz]; exact a2), za]
        exact ⟨rfl, rfl⟩
      · rw [if_neg za]; exact ⟨rfl, rfl⟩
    have O1 : (colver2 M a b).org (a.1, a.2 + 1) = M.org b := by
      simp only [Mesh.org, colver2_tri T.ne, if_neg T.ne.symm, if_true]
      rw [a4, if_neg a2, v2]
    have D1 : (colver2 M a b).dst (a.1, a.2 + 1) = M.dst b := by
      simp only [Mesh.dst, colver2_tri T.ne, if_neg T.ne.symm, if_true]
      rw [a5, if_pos rfl]
    by_cases e1 : M.adj b = some x
    · rw [if_pos e1] at e
      cases e
      obtain ⟨l1, l2, l3, l4⟩ := T.h.link b x T.kb e1
      have x1 : x ≠ (a.1, a.2 + 1) := by
        rintro rfl
        rw [T.ab] at l2
        have := congrArg Prod.snd (Option.some.inj l2)
        exact b2 this
      have x2 : x ≠ (a.1, a.2 + 2) := by
        rintro rfl
        rw [T.na] at l2
        cases l2
      obtain ⟨q1, q2⟩ := OD x g1 g2 x1 x2
      refine ⟨(T.live _).2 ⟨T.ka, T.ne.symm⟩, ?_, ?_, ?_⟩
      · rw [colver2_adj T.ne, if_neg (show ¬ (a.1, a.2 + 1).1 = b.1 from T.ne.symm), if_neg, if_pos rfl, e1]
        intro e2
        rw [e1] at e2
        exact x1 (Option.some.inj e2)
      · rw [O1, q2, l4]
      · rw [D1, q1, l3]
    · rw [if_neg e1] at e
      by_cases e2 : x = (a.1, a.2 + 1)
      · rw [if_pos e2] at e
        subst e2
        obtain ⟨l1, l2, l3, l4⟩ := T.h.link b y T.kb e
        have yb : y.1 ≠ b.1 := (T.h.lnk T.kb b.2 y.1 y.2 e).2.1
        have y1 : y ≠ (a.1, a.2 + 1) := by
          rintro rfl
          exact e1 e
        have y2 : y ≠ (a.1, a.2 + 2) := by
          rintro rfl
          rw [T.na] at l2
          cases l2
        obtain ⟨q1, q2⟩ := OD y l1 yb y1 y2
        refine ⟨(T.live _).2 ⟨l1, yb⟩, ?_, ?_, ?_⟩
        · rw [colver2_adj T.ne, if_neg yb, if_pos e]
        · rw [q1, D1, l3]
        · rw [q2, O1, l4]
      · rw [if_neg e2] at e
        obtain ⟨l1, l2, l3, l4⟩ := T.h.link x y g1 e
        have yb : y.1 ≠ b.1 := by
          intro q
          by_cases z : y.2 = b.2
          · have : y = b := Prod.ext q z
            rw [this] at l2
            exact e1 l2
          · rcases fin3_other _ _ z with z | z
            · have : y = (b.1, b.2 + 1) := Prod.ext q z
              rw [this, T.nb] at l2
              cases l2
            · have : y = (b.1, b.2 + 2) := Prod.ext q z
              rw [this, (T.h.link (a.1, a.2 + 1) (b.1, b.2 + 2) T.ka T.ab).2.1] at l2
              exact e2 (Option.some.inj l2).symm
        have x2 : x ≠ (a.1, a.2 + 2) := by
          rintro rfl
          rw [T.na] at e
          cases e
        have y1 : y ≠ (a.1, a.2 + 1) := by
          rintro rfl
          rw [T.ab] at l2
          exact g2 (congrArg Prod.fst (Option.some.inj l2)).symm
        have y2 : y ≠ (a.1, a.2 + 2) := by
          rintro rfl
          rw [T.na] at l2
          cases l2
        obtain ⟨q1, q2⟩ := OD y l1 yb y1 y2
        obtain ⟨r1, r2⟩ := OD x g1 g2 e2 x2
        refine ⟨(T.live _).2 ⟨l1, yb⟩, ?_, ?_, ?_⟩
        · rw [colver2_adj T.ne, if_neg yb, if_neg, if_neg y1, l2]
          intro q
          rw [(T.h.link _ _ T.kb q).2.1] at l2
          exact g2 (congrArg Prod.fst (Option.some.inj l2)).symm
        · rw [q1, r2, l3]
        · rw [q2, r1, l4]

/-- After `colver2`: directed edges still belong to one triangle, if the new edge did not exist. -/
theorem Two.inj {M : Mesh} {a b : HE} (T : Two M a b)
    (hn : ∀ x : HE, M.live x.1 → M.org x = (M.tri b.1).v (b.2 + 2) → M.dst x ≠ (M.tri a.1).v (a.2 + 1)) : Inj (colver2 M a b) := by
  obtain ⟨v1, v2⟩ := T.vals
  obtain ⟨a1, a2, a3, a4, a5, a6, a7, a8⟩ := f3 a.2
  obtain ⟨b1, b2, b3, b4, b5, b6, b7, b8⟩ := f3 b.2
  -- where a directed edge comes from
  have key : ∀ z : HE, (colver2 M a b).live z.1 → (∃ z', M.live z'.1 ∧ (z' = z ∧ z.1 ≠ b.1 ∧ z ≠ (a.1, a.2 + 1) ∨ z' = b ∧ z = (a.1, a.2 + 1)) ∧
      (colver2 M a b).org z = M.org z' ∧ (colver2 M a b).dst z = M.dst z') ∨
      z = (a.1, a.2 + 2) ∧ (colver2 M a b).org z = (M.tri b.1).v (b.2 + 2) ∧ (colver2 M a b).dst z = (M.tri a.1).v (a.2 + 1) := by
    intro z hz
    obtain ⟨g1, g2⟩ := (T.live z.1).1 hz
    by_cases z1 : z = (a.1, a.2 + 1)
    · left
      refine ⟨b, T.kb, Or.inr ⟨rfl, z1⟩, ?_, ?_⟩
      · subst z1
        simp only [Mesh.org, colver2_tri T.ne, if_neg T.ne.symm, if_true]
        rw [a4, if_neg a2, v2]
      · subst z1
        simp only [Mesh.dst, colver2_tri T.ne, if_neg T.ne.symm, if_true]
        rw [a5, if_pos rfl]
    · by_cases z2 : z = (a.1, a.2 + 2)
      · right
        refine ⟨z2, ?_, ?_⟩
        · subst z2
          simp only [Mesh.org, colver2_tri T.ne, if_neg T.ne.symm, if_true]
          rw [a6, if_pos rfl]
        · subst z2
          simp only [Mesh.dst, colver2_tri T.ne, if_neg T.ne.symm, if_true]
          rw [a7, if_neg a1]
      · left
        refine ⟨z, g1, Or.inl ⟨rfl, g2, z1⟩, ?_⟩
        simp only [Mesh.org, Mesh.dst, colver2_tri T.ne, if_neg g2]
        by_cases za : z.1 = a.1
        · have zz : z.2 = a.2 := by
            by_contra q
            rcases fin3_other _ _ q with q | q
            · exact z1 (Prod.ext za q)
            · exact z2 (Prod.ext za q)
          rw [if_pos za, if_neg (by rw [zz]; exact a1), if_neg (by rw [zz]; exact a2), za]
          exact ⟨rfl, rfl⟩
        · rw [if_neg za]; exact ⟨rfl, rfl⟩
  intro x y hx hy eo ed
  rcases key x hx with ⟨x', lx, X, xo, xd⟩ | ⟨X, xo, xd⟩ <;> rcases key y hy with ⟨y', ly, Y, yo, yd⟩ | ⟨Y, yo, yd⟩
  · have := T.hI x' y' lx ly (by rw [← xo, ← yo, eo]) (by rw [← xd, ← yd, ed])
    subst this
    rcases X with ⟨rfl, x1, x2⟩ | ⟨rfl, X⟩ <;> rcases Y with ⟨e, y1, y2⟩ | ⟨e, Y⟩
    · exact e
    · exact absurd (congrArg Prod.fst e) x1
    · exact absurd (congrArg Prod.fst e).symm y1
    · rw [X, Y]
  · exact absurd (by rw [← xd, ed, yd]) (hn x' lx (by rw [← xo, eo, yo]))
  · exact absurd (by rw [← yd, ← ed, xd]) (hn y' ly (by rw [← yo, ← eo, xo]))
  · rw [X, Y]

theorem Two.sym {M : Mesh} {a b : HE} (T : Two M a b) (ht : (M.tri a.1).tag (a.2 + 1) = 0) (hs : M.TagSym) : (colver2 M a b).TagSym := by
  have TG : ∀ z : HE, z.1 ≠ b.1 → z ≠ (a.1, a.2 + 1) → ((colver2 M a b).tri z.1).tag z.2 = (M.tri z.1).tag z.2 ∧
      ((colver2 M a b).tri z.1).edg z.2 = (M.tri z.1).edg z.2 := by
    intro z zb z1
    simp only [colver2, delTri_tag _ _ _ zb, backLink_tri, Mesh.setAdj, Mesh.setTri, Tri.setV, Tri.setE]
    split
    · rename_i e
      have : z.2 ≠ a.2 + 1 := fun q => z1 (Prod.ext e q)
      simp only [if_neg this, e, and_self]
    · exact ⟨rfl, rfl⟩
  have T1 : ((colver2 M a b).tri a.1).tag (a.2 + 1) = (M.tri b.1).tag b.2 ∧
      ((colver2 M a b).tri a.1).edg (a.2 + 1) = (M.tri b.1).edg b.2 := by
    simp only [colver2, delTri_tag _ _ _ T.ne.symm, backLink_tri, Mesh.setAdj, Mesh.setTri, Tri.setV, Tri.setE, if_true, ht,
      Nat.zero_or, and_self]
  intro x y hx e
  obtain ⟨g1, g2⟩ := (T.live x.1).1 hx
  obtain ⟨y1, y2⟩ := (T.live y.1).1 (T.valid.link x y hx e).1
  rw [colver2_adj T.ne, if_neg g2] at e
  by_cases e1 : M.adj b = some x
  · rw [if_pos e1] at e
    cases e
    have x1 : x ≠ (a.1, a.2 + 1) := by
      rintro rfl
      have l2 := (T.h.link b _ T.kb e1).2.1
      rw [T.ab] at l2
      exact (f3 b.2).2.1 (congrArg Prod.snd (Option.some.inj l2))
    rw [(TG x g2 x1).1, (TG x g2 x1).2, (hs b x T.kb e1).1, (hs b x T.kb e1).2]
    exact T1
  · rw [if_neg e1] at e
    by_cases e2 : x = (a.1, a.2 + 1)
    · rw [if_pos e2] at e
      subst e2
      have y1 : y ≠ (a.1, a.2 + 1) := fun q => e1 (q ▸ e)
      rw [(TG y y2 y1).1, (TG y y2 y1).2, (hs b y T.kb e).1, (hs b y T.kb e).2]
      exact ⟨T1.1.symm, T1.2.symm⟩
    · rw [if_neg e2] at e
      have y1 : y ≠ (a.1, a.2 + 1) := by
        rintro rfl
        have l2 := (T.h.link x _ g1 e).2.1
        rw [T.ab] at l2
        exact g2 (congrArg Prod.fst (Option.some.inj l2)).symm
      rw [(TG y y2 y1).1, (TG y y2 y1).2, (TG x g2 e2).1, (TG x g2 e2).2]
      exact hs x y g1 e

/-- In a closed ball of three triangles or more, the two triangles at an edge have different third vertices. -/
theorem apex_ne {M : Mesh} (h : Valid M) (hI : Inj M) {c : HE} (hk : M.live c.1) {lmax : Nat} {l : List HE}
    (hb : boulet M lmax false c = some (l, false)) (hlen : 3 ≤ l.length) {o : HE} (ho : M.adj (c.1, c.2 + 2) = some o) :
    (M.tri c.1).v (c.2 + 2) ≠ (M.tri o.1).v o.2 := by
  intro e
  obtain ⟨hh, hnd, hmem, hlv, -, -⟩ := C17_ball h hk hb
  obtain ⟨t0, rfl, hch, hlast⟩ := boulet_closed h hk hb
  match t0, hlen with
  | c1 :: c2 :: t, _ =>
    have h1 : M.rot c = some c1 := hch.rel
    obtain ⟨cl, g1⟩ : ∃ cl, (c2 :: t).getLast? = some cl := by simp [List.getLast?_cons]
    have hl : M.rot cl = some c := hlast cl (by rw [List.getLast?_cons_cons, List.getLast?_cons_cons]; exact g1)
    have ml : cl ∈ c2 :: t := List.mem_of_getLast? g1
    obtain ⟨r1, r2, r3, r4⟩ := rot_spec h hk h1
    obtain ⟨s1, s2, s3, s4⟩ := rot_spec h (hlv cl (by simp [List.mem_cons.1 ml])).1 hl
    have l2 := (h.link (cl.1, cl.2 + 1) (c.1, c.2 + 2) (hlv cl (by simp [List.mem_cons.1 ml])).1 s4).2.1
    rw [ho] at l2
    have eo := Option.some.inj l2
    obtain ⟨q1, q2, q3, q4⟩ := h.link (c.1, c.2 + 1) _ hk r4
    obtain ⟨w1, w2, w3, w4⟩ := h.link (c.1, c.2 + 2) _ hk ho
    obtain ⟨a1, a2, a3, a4, a5, a6, a7, a8⟩ := f3 c.2
    obtain ⟨b1, b2, b3, b4, b5, b6, b7, b8⟩ := f3 o.2
    simp only [Mesh.org, Mesh.dst] at q3 q4 w3 w4
    rw [a5] at q3
    rw [a4] at q4
    rw [a6] at w4
    have := hI (c1.1, c1.2 + 2) (o.1, o.2 + 1) q1 w1 (by simp only [Mesh.org]; rw [q3, b4, w4])
      (by simp only [Mesh.dst]; rw [q4, b5]; exact e)
    have e1 : c1.1 = cl.1 := by
      have := congrArg Prod.fst this
      rw [eo] at this
      exact this
    have : c1.1 ∈ (c2 :: t).map (·.1) := List.mem_map.2 ⟨cl, ml, e1.symm⟩
    simp only [List.map_cons] at hnd
    exact (List.nodup_cons.1 (List.nodup_cons.1 hnd).2).1 (by simpa using this)

/-- C94: an accepted collapse.  The surface is conforming and no directed edge belongs to two triangles; the triangles at the two ends
form one fan each; an edge of the border has no triangle on its other side; the fan of the removed vertex reaches the border only if
the collapsed edge lies on it.  Then the surface is again conforming, again without an edge of two equally directed triangles;
exactly the two triangles at the edge (one on the border) disappear; the removed vertex is replaced by one joined to it; references
stay; both sides of an edge keep equal attributes, unless only two triangles meet at the vertex and the edge between them is marked. -/
theorem C94_collapse {M M' : Mesh} (h : Valid M) (hI : Inj M) {c : HE} (hk : M.live c.1) (h1 : One M c) (h2 : One M (c.1, c.2 + 1))
    (hb : M.adj (c.1, c.2 + 2) = none → ∀ x, M.live x.1 → M.org x = (M.tri c.1).v (c.2 + 1) → M.dst x ≠ M.at c)
    (ho : M.adj (c.1, c.2 + 2) ≠ none → ∀ x, ReflTransGen M.Fan c x → ∀ i, i ≠ x.2 → M.adj (x.1, i) ≠ none)
    {nom : Nat → Bool} {geo : List HE → Bool} {lmax n : Nat} (e : collapse M nom geo lmax n c = some (some M')) :
    Valid M' ∧ Inj M' ∧
    (∃ R : List Nat, R.Nodup ∧ R.length = (if M.adj (c.1, c.2 + 2) = none then 1 else 2) ∧
      (∀ k ∈ R, M.live k ∧ ∃ i, (M.tri k).v i = M.at c) ∧ ∀ k, M'.live k ↔ M.live k ∧ k ∉ R) ∧
    (∃ r, Joined M (M.at c) r ∧ ∀ k, M'.live k → (M'.tri k).ref = (M.tri k).ref ∧
      ∀ i, (M'.tri k).v i = if (M.tri k).v i = M.at c then r else (M.tri k).v i) ∧
    (M.TagSym → (∀ l opn, boulet M lmax false c = some (l, opn) → l.length ≠ 2) ∨ (M.tri c.1).tag (c.2 + 1) = 0 → M'.TagSym) ∧
    nom (M.at c) = false := by
  obtain ⟨a1, a2, a3, a4, a5, a6, a7, a8⟩ := f3 c.2
  unfold collapse at e
  split at e
  · cases e
  · cases e
  rename_i l eb
  obtain ⟨hnom, ⟨opn, hbl⟩, hlk⟩ := boulechk_spec h hk eb
  have hlink : ∀ w, Joined M (M.at c) w → Joined M ((M.tri c.1).v (c.2 + 1)) w →
      w = (M.tri c.1).v (c.2 + 2) ∨ ∃ o, M.adj (c.1, c.2 + 2) = some o ∧ w = (M.tri o.1).v o.2 :=
    fun w j1 j2 => hlk w (j1.nb h1) (Joined.nb (c := (c.1, c.2 + 1)) h2 j2)
  obtain ⟨hh, hnd, hmem, hlv, hopn, hll⟩ := C17_ball h hk hbl
  have hcl : c ∈ l := List.mem_of_mem_head? (by rw [hh]; rfl)
  have hB := ball_iff h hk h1 hbl
  have jq : Joined M (M.at c) ((M.tri c.1).v (c.2 + 1)) := ⟨c.1, c.2, c.2 + 1, hk, a1.symm, rfl, rfl⟩
  have hno : ∀ x ∈ l, x.1 ≠ c.1 → (∀ o, M.adj (c.1, c.2 + 2) = some o → x.1 ≠ o.1) → ∀ i, (M.tri x.1).v i ≠ (M.tri c.1).v (c.2 + 1) :=
    fun x hx hc ho' i => no_other h hI hk hb (hlv x hx).1 (hlv x hx).2 hc ho' i
  split at e
  · cases e
  by_cases hn : M.adj (c.1, c.2 + 2) = none
  · -- the edge is on the border
    have hop : opn = true := hopn.2 ⟨c, hcl, c.2 + 2, a2, hn⟩
    subst hop
    rw [hn] at e
    simp only [Option.isNone_none, if_true, Bool.not_true] at e
    rw [if_pos hn]
    split at e
    · rename_i hlen
      obtain ⟨M1, ce, ec, -, -, V, L, A, S, -⟩ := C45_collapse_boundary h hk hbl (by omega) hn
        (fun x hx hc => hno x hx hc (fun o q => by rw [hn] at q; cases q))
      have : M1 = M' := by
        have := Option.some.inj e
        rw [ec] at this
        exact Option.some.inj this
      subst this
      have hv : ∀ k, M1.live k → ∀ i, (M1.tri k).v i = if (M.tri k).v i = M.at c then (M.tri c.1).v (c.2 + 1) else (M.tri k).v i := by
        intro k hk' i
        rw [(A k hk').2 i]
        exact if_congr (hB k i ((L k).1 hk').1) rfl rfl
      refine ⟨V, inj_merge h hI V hk hlink (fun k hk' => ⟨((L k).1 hk').1, ((L k).1 hk').2, fun o q => by rw [hn] at q; cases q⟩) hv,
        ⟨[c.1], by simp, rfl, ?_, ?_⟩, ⟨_, jq, fun k hk' => ⟨(A k hk').1, hv k hk'⟩⟩, fun s _ => S s, hnom⟩
      · intro k hk'
        rw [List.mem_singleton.1 hk']
        exact ⟨hk, c.2, rfl⟩
      · intro k
        rw [L k]
        simp
    · rename_i hlen
      split at e
      · simp at hlen
      · rename_i a b _
        -- two triangles
        have eac : a = c := by simpa using hh
        subst eac
        obtain ⟨t0, ht, hch, hlast⟩ := boulet_open h hk hbl hn
        have r1 : M.rot a = some b := hch.rel
        have r2 : M.rot b = none := hlast b rfl
        obtain ⟨s1, s2, s3, s4⟩ := rot_spec h hk r1
        have T : Two M a b := by
          refine ⟨h, hI, hk, s1, (h.lnk hk _ _ _ s4).2.1, s4, hn, ?_, ?_, ?_⟩
          · simpa [Mesh.rot] using r2
          · intro k i hk' ev
            have := (hB k i hk').2 ev
            simpa using this
          · intro q
            exact hb hn (b.1, b.2 + 1) s1 (by simp only [Mesh.org]; rw [(f3 b.2).2.2.2.1]; exact q)
              (by simp only [Mesh.dst]; rw [(f3 b.2).2.2.2.2.1]; exact s2)
        obtain ⟨v1, v2⟩ := T.vals
        have hM : colver2 M a b = M' := by
          simp only [Bool.false_eq_true, if_false] at e
          split at e
          · exact Option.some.inj (Option.some.inj e)
          · split at e
            · cases e
            · exact Option.some.inj (Option.some.inj e)
        subst hM
        have jy : Joined M (M.at a) ((M.tri b.1).v (b.2 + 2)) := ⟨b.1, b.2, b.2 + 2, s1, (f3 b.2).2.1.symm, s2, rfl⟩
        refine ⟨T.valid, T.inj ?_, ⟨[b.1], by simp, rfl, ?_, ?_⟩, ⟨_, jy, ?_⟩, ?_, hnom⟩
        · intro x hx xo xd
          rcases hlink _ jy ⟨x.1, x.2 + 2, x.2 + 1, hx, (f3 x.2).2.2.1.symm, xd, xo⟩ with w | ⟨o, w, -⟩
          · rw [← v2] at w
            exact h.distinct _ s1 _ _ (f3 b.2).2.2.1.symm w
          · rw [hn] at w
            cases w
        · intro k hk'
          rw [List.mem_singleton.1 hk']
          exact ⟨s1, b.2, s2⟩
        · intro k
          rw [T.live k]
          simp
        · intro k hk'
          obtain ⟨g1, g2⟩ := (T.live k).1 hk'
          constructor
          · simp only [colver2, delTri_tag _ _ _ g2, backLink_tri, Mesh.setAdj, Mesh.setTri, Tri.setV, Tri.setE]
            split
            · rename_i q; rw [q]
            · rfl
          · intro i
            rw [colver2_tri T.ne, if_neg g2]
            by_cases q : k = a.1
            · rw [if_pos q]
              subst q
              show (if i = a.2 then (M.tri b.1).v (b.2 + 2) else (M.tri a.1).v i) = _
              by_cases hi : i = a.2
              · rw [if_pos hi, if_pos (by rw [hi]; rfl)]
              · rw [if_neg hi, if_neg]
                exact h.distinct _ hk _ _ hi
            · rw [if_neg q, if_neg]
              intro ev
              rcases T.only k i g1 ev with z | z
              · exact q (congrArg Prod.fst z)
              · exact g2 (congrArg Prod.fst z)
        · intro s z
          rcases z with z | z
          · exact absurd rfl (z _ _ hbl)
          · exact T.sym z s
      · cases e
  · obtain ⟨o, hoo⟩ := Option.ne_none_iff_exists'.1 hn
    have hop : opn = false := by
      by_contra q
      simp only [Bool.not_eq_false] at q
      obtain ⟨x, hx, i, hi, hx'⟩ := hopn.1 q
      exact ho hn x ((hmem x).1 hx) i hi hx'
    subst hop
    rw [if_neg hn]
    rw [hoo] at e
    simp only [Option.isNone_some, Bool.false_eq_true, if_false, Nat.add_zero, Bool.not_false, if_true] at e
    obtain ⟨l1, l2, l3, l4⟩ := h.link (c.1, c.2 + 2) o hk hoo
    have nk : o.1 ≠ c.1 := (h.lnk hk _ _ _ hoo).2.1
    have hpo : (M.tri o.1).v (o.2 + 2) = M.at c := by
      simp only [Mesh.org, Mesh.dst] at l4
      rw [a6] at l4
      exact l4
    have hR : ∀ k ∈ [c.1, o.1], M.live k ∧ ∃ i, (M.tri k).v i = M.at c := by
      intro k hk'
      simp only [List.mem_cons, List.not_mem_nil, or_false] at hk'
      rcases hk' with rfl | rfl
      · exact ⟨hk, c.2, rfl⟩
      · exact ⟨l1, _, hpo⟩
    split at e
    · rename_i hlen
      obtain ⟨M1, ec, V, L, A, S, -⟩ := C45_collapse_interior h hk hbl (by omega) hoo
        (fun x hx hc hx' => hno x hx hc (fun o' q => by rw [hoo] at q; cases q; exact hx'))
        (apex_ne h hI hk hbl (by omega) hoo)
      have : M1 = M' := by
        have := Option.some.inj e
        rw [ec] at this
        exact Option.some.inj this
      subst this
      have hv : ∀ k, M1.live k → ∀ i, (M1.tri k).v i = if (M.tri k).v i = M.at c then (M.tri c.1).v (c.2 + 1) else (M.tri k).v i := by
        intro k hk' i
        rw [(A k hk').2 i]
        exact if_congr (hB k i ((L k).1 hk').1) rfl rfl
      refine ⟨V, inj_merge h hI V hk hlink (fun k hk' => ⟨((L k).1 hk').1, ((L k).1 hk').2.1, fun o' q => by
        rw [hoo] at q; cases q; exact ((L k).1 hk').2.2⟩) hv,
        ⟨[c.1, o.1], by simp [nk.symm], rfl, hR, ?_⟩, ⟨_, jq, fun k hk' => ⟨(A k hk').1, hv k hk'⟩⟩, fun s _ => S s, hnom⟩
      intro k
      rw [L k]
      simp
    · split at e
      · rename_i a b d _ _
        have eac : a = c := by simpa using hh
        subst eac
        obtain ⟨t0, ht, hch, hlast⟩ := boulet_closed h hk hbl
        have rd : M.rot d = some a := hlast d rfl
        have kd := (hlv d (by simp)).1
        have kb := (hlv b (by simp)).1
        obtain ⟨s1, s2, s3, s4⟩ := rot_spec h kd rd
        have l2' := (h.link (d.1, d.2 + 1) (a.1, a.2 + 2) kd s4).2.1
        rw [hoo] at l2'
        have eo : o = (d.1, d.2 + 1) := Option.some.inj l2'
        have eod : o.1 = d.1 := by rw [eo]
        simp only [List.map_cons, List.map_nil, List.nodup_cons, List.mem_cons, List.not_mem_nil, or_false, not_or, not_false_eq_true,
          and_true, List.nodup_nil] at hnd
        obtain ⟨⟨nab, nad⟩, nbd⟩ := hnd
        obtain ⟨V, L, A, S, -⟩ := C45_collapse3 h hk hbl (hno b (by simp) (Ne.symm nab) (fun o' q => by
          rw [hoo] at q; cases q; rw [eod]; exact nbd))
        have : colver3 M a b d = M' := Option.some.inj (Option.some.inj e)
        subst this
        have hv : ∀ k, (colver3 M a b d).live k → ∀ i, ((colver3 M a b d).tri k).v i =
            if (M.tri k).v i = M.at a then (M.tri a.1).v (a.2 + 1) else (M.tri k).v i := by
          intro k hk' i
          obtain ⟨g1, g2, g3⟩ := (L k).1 hk'
          rw [(A k hk').2 i]
          refine if_congr ?_ rfl rfl
          rw [← hB k i g1]
          simp only [List.mem_cons, List.not_mem_nil, or_false]
          constructor
          · exact fun q => Or.inr (Or.inl q)
          · rintro (q | q | q)
            · exact absurd (congrArg Prod.fst q) g2
            · exact q
            · exact absurd (congrArg Prod.fst q) g3
        refine ⟨V, inj_merge h hI V hk hlink (fun k hk' => ⟨((L k).1 hk').1, ((L k).1 hk').2.1, fun o' q => by
          rw [hoo] at q; cases q; rw [eod]; exact ((L k).1 hk').2.2⟩) hv,
          ⟨[a.1, o.1], by simp [nk.symm], rfl, hR, ?_⟩, ⟨_, jq, fun k hk' => ⟨(A k hk').1, hv k hk'⟩⟩, fun s _ => S s, hnom⟩
        intro k
        rw [L k, eod]
        simp
      · simp at e
      · cases e

end Mmg.Surf
